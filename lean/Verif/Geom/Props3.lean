import Verif.Geom.MatQuat

/-! # Properties C17 (projection on the horizontal plane) and C33 (rotations from axes and matrices) -/

open Classical

noncomputable section

namespace Frydom.Geom

/-! ## C33 -/

/-- Specification: a right-handed orthonormal triple of directions. -/
def RightHanded (x y z : V3) : Prop :=
  V3.dot x x = 1 ∧ V3.dot y y = 1 ∧ V3.dot z z = 1 ∧ V3.dot x y = 0 ∧ V3.dot x z = 0 ∧ V3.dot y z = 0 ∧ V3.cross x y = z

theorem RightHanded.isRot {x y z : V3} (h : RightHanded x y z) : (M3.ofCols x y z).IsRot := by
  obtain ⟨h1, h2, h3, h4, h5, h6, h7⟩ := h
  have e : (M3.ofCols x y z).det = V3.dot (V3.cross x y) z := by simp [M3.det, M3.ofCols, V3.dot]; ring
  exact ⟨h1, h2, h3, h4, h5, h6, by rw [e, h7, h3]⟩

/-- **C33, rotation from axes.** From a right-handed orthonormal triple, given in either convention, the constructor
succeeds and builds the rotation whose axes, read in that convention, are the given ones. -/
theorem C33_rotation_from_axes (x y z : V3) (fc : FC) (h : RightHanded x y z) :
    ∃ q, rotOfAxes x y z fc = some q ∧ q.IsUnit ∧ getXAxis q fc = x ∧ getYAxis q fc = y ∧ getZAxis q fc = z := by
  obtain ⟨hu, hm⟩ := matToQuat_spec h.isRot
  obtain ⟨h1, h2, h3, h4, h5, h6, h7⟩ := h
  refine ⟨quatOfMat (M3.ofCols x y z) fc, ?_, convQ_unit hu, ?_, ?_, ?_⟩
  · unfold rotOfAxes; rw [if_pos ⟨h4, h5, h6, h1, h2, h3⟩]
  all_goals
    simp only [getXAxis, getYAxis, getZAxis, quatOfMat, convQ_convQ]
    have h00 := congrArg M3.a00 hm
    have h01 := congrArg M3.a01 hm
    have h02 := congrArg M3.a02 hm
    have h10 := congrArg M3.a10 hm
    have h11 := congrArg M3.a11 hm
    have h12 := congrArg M3.a12 hm
    have h20 := congrArg M3.a20 hm
    have h21 := congrArg M3.a21 hm
    have h22 := congrArg M3.a22 hm
    simp only [Q.toMat, M3.ofCols] at *
    ext <;> simp only [Q.xAxis, Q.yAxis, Q.zAxis] <;> assumption

/-- **C33, rotation from a matrix.** From any rotation matrix the constructor builds the rotation that, in the same
convention, maps every vector as the matrix does. -/
theorem C33_rotation_from_matrix (m : M3) (hm : m.IsRot) (fc : FC) (v : V3) :
    (quatOfMat m fc).IsUnit ∧ rotate (quatOfMat m fc) fc v = m.mulVec v := by
  obtain ⟨hu, he⟩ := matToQuat_spec hm
  refine ⟨convQ_unit hu, ?_⟩
  have h00 := congrArg M3.a00 he
  have h01 := congrArg M3.a01 he
  have h02 := congrArg M3.a02 he
  have h10 := congrArg M3.a10 he
  have h11 := congrArg M3.a11 he
  have h12 := congrArg M3.a12 he
  have h20 := congrArg M3.a20 he
  have h21 := congrArg M3.a21 he
  have h22 := congrArg M3.a22 he
  simp only [Q.toMat] at *
  unfold quatOfMat
  generalize matToQuat m = q at *
  ext <;> cases fc <;>
    simp only [rotate, conv, Q.rotate, quatOfMat, convQ, swapQ, swap, Q.toMat, M3.mulVec, ← h00, ← h01, ← h02, ← h10,
      ← h11, ← h12, ← h20, ← h21, ← h22] <;> ring

/-- **C33, round trip through the matrix**: the rotation rebuilt from its own matrix acts identically. -/
theorem C33_matrix_round_trip (q : Q) (hq : q.IsUnit) (v : V3) :
    rotate (quatOfMat (rotMat q) .NWU) .NWU v = rotate q .NWU v :=
  (C33_rotation_from_matrix _ (Q.isRot hq) .NWU v).2

/-- The constructor does not check the orientation: from a left-handed triple it silently builds an object that is not a
rotation (its quaternion is not a unit one). -/
theorem C33_left_handed_counterexample :
    ∃ x y z : V3, V3.dot x x = 1 ∧ V3.dot y y = 1 ∧ V3.dot z z = 1 ∧ V3.dot x y = 0 ∧ V3.dot x z = 0 ∧ V3.dot y z = 0 ∧
      ∃ q, rotOfAxes x y z .NWU = some q ∧ ¬ q.IsUnit := by
  refine ⟨V3.e1, V3.e2, -V3.e3, ?_, ?_, ?_, ?_, ?_, ?_, quatOfMat (M3.ofCols V3.e1 V3.e2 (-V3.e3)) .NWU, ?_, ?_⟩
  iterate 6 simp [V3.dot, V3.e1, V3.e2, V3.e3]
  · unfold rotOfAxes; rw [if_pos]; simp [V3.dot, V3.e1, V3.e2, V3.e3]
  · have h2 : Real.sqrt 2 ^ 2 = 2 := Real.sq_sqrt (by norm_num)
    simp [quatOfMat, convQ, matToQuat, M3.ofCols, V3.e1, V3.e2, V3.e3, Q.IsUnit, Q.normSq]
    norm_num
    constructor <;> intro h <;> nlinarith

/-- **C33, `FrFrame::Set(pos, e1, e2, e3, fc)`, partial**: right in NWU only. -/
theorem C33_frame_set_axes_partial (f : Frame) (p x y z : V3) (h : RightHanded x y z) :
    let g := f.setAxes p x y z .NWU
    g.Valid ∧ g.getPosition .NWU = p ∧ getXAxis g.rot .NWU = x ∧ getYAxis g.rot .NWU = y ∧ getZAxis g.rot .NWU = z := by
  obtain ⟨q, hq, hu, hx, hy, hz⟩ := C33_rotation_from_axes x y z .NWU h
  unfold rotOfAxes at hq
  split_ifs at hq
  injection hq with hq
  subst hq
  exact ⟨hu, rfl, hx, hy, hz⟩

/-- In NED the same setter ignores the convention of the axes: the axes read back in NED differ from those given. -/
theorem C33_frame_set_axes_counterexample :
    ∃ (f : Frame) (x y z : V3), RightHanded x y z ∧ getXAxis (f.setAxes 0 x y z .NED).rot .NED ≠ x := by
  have hR : RightHanded V3.e2 (-V3.e1) V3.e3 := by
    refine ⟨?_, ?_, ?_, ?_, ?_, ?_, ?_⟩
    iterate 6 simp [V3.dot, V3.e1, V3.e2, V3.e3]
    ext <;> simp [V3.e1, V3.e2, V3.e3]
  refine ⟨Frame.identity, V3.e2, -V3.e1, V3.e3, hR, ?_⟩
  obtain ⟨-, hm⟩ := matToQuat_spec hR.isRot
  have h10 := congrArg M3.a10 hm
  intro h
  have hy := congrArg V3.y h
  simp only [Frame.setAxes, getXAxis, convQ, swapQ, Q.xAxis] at hy
  generalize matToQuat (M3.ofCols V3.e2 (-V3.e1) V3.e3) = q at *
  simp only [Q.toMat, M3.ofCols, V3.e2] at h10
  simp only [V3.e2] at hy
  linarith

/-- Non-vacuity of C33. -/
example : RightHanded ⟨3/5, 4/5, 0⟩ ⟨-4/5, 3/5, 0⟩ V3.e3 := by
  refine ⟨?_, ?_, ?_, ?_, ?_, ?_, ?_⟩
  iterate 6 norm_num [V3.dot, V3.e3]
  ext <;> norm_num [V3.e3]

/-! ## C17 -/

/-- The axes of a frame read in a convention form a right-handed orthonormal triple. -/
theorem axes_rightHanded {q : Q} (hq : q.IsUnit) (fc : FC) :
    RightHanded (getXAxis q fc) (getYAxis q fc) (getZAxis q fc) := by
  have h := Q.isRot (convQ_unit (fc := fc) hq)
  have hc := h.cross01
  obtain ⟨u0, u1, u2, o01, o02, o12, -⟩ := h
  exact ⟨u0, u1, u2, o01, o02, o12, hc⟩

/-- The normalised horizontal projection of a vector. -/
def horizontal (v : V3) : V3 := V3.normalized ⟨v.x, v.y, 0⟩

theorem norm_horizontal_sq (v : V3) : V3.norm ⟨v.x, v.y, 0⟩ ^ 2 = v.x ^ 2 + v.y ^ 2 := by
  rw [V3.norm_sq]; simp [V3.dot]; ring

theorem horizontal_unit {v : V3} (h : 0 < v.x ^ 2 + v.y ^ 2) : V3.dot (horizontal v) (horizontal v) = 1 := by
  have hn := norm_horizontal_sq v
  have hp : V3.norm ⟨v.x, v.y, 0⟩ ≠ 0 := by
    intro h0; rw [h0] at hn; norm_num at hn; linarith
  simp only [horizontal, V3.normalized, V3.dot, V3.smul_x, V3.smul_y, V3.smul_z]
  generalize V3.norm ⟨v.x, v.y, 0⟩ = n at *
  field_simp
  linarith

/-- **C17 (partial).** For a frame whose z axis points to the same side as the parent's, with no pitch or no roll (its x
axis or its y axis is horizontal): the projection exists, is a frame at the same position, its z axis is the parent's and
its x axis the normalised horizontal projection of the original x axis. Missing: all other attitudes, see below. -/
theorem C17_projection_partial (f : Frame) (hf : f.Valid) (fc : FC) (hup : 0 < (getZAxis f.rot fc).z)
    (hflat : (getXAxis f.rot fc).z = 0 ∨ (getYAxis f.rot fc).z = 0) :
    ∃ g, f.projectToXYPlane fc = some g ∧ g.Valid ∧ g.getPosition fc = f.getPosition fc ∧
      getZAxis g.rot fc = V3.e3 ∧ getXAxis g.rot fc = horizontal (getXAxis f.rot fc) := by
  have hR := axes_rightHanded hf fc
  obtain ⟨h1, h2, h3, h4, h5, h6, h7⟩ := hR
  generalize hX : getXAxis f.rot fc = X at *
  generalize hY : getYAxis f.rot fc = Y at *
  generalize hZ : getZAxis f.rot fc = Z at *
  have hz := congrArg V3.z h7
  simp only [V3.cross_z] at hz
  simp only [V3.dot] at h4
  have hXp : 0 < X.x ^ 2 + X.y ^ 2 := by
    rcases (add_nonneg (sq_nonneg X.x) (sq_nonneg X.y)).lt_or_eq with h | h
    · exact h
    · have a : X.x = 0 := by nlinarith [sq_nonneg X.x, sq_nonneg X.y]
      have b : X.y = 0 := by nlinarith [sq_nonneg X.x, sq_nonneg X.y]
      rw [a, b] at hz; linarith
  have hYp : 0 < Y.x ^ 2 + Y.y ^ 2 := by
    rcases (add_nonneg (sq_nonneg Y.x) (sq_nonneg Y.y)).lt_or_eq with h | h
    · exact h
    · have a : Y.x = 0 := by nlinarith [sq_nonneg Y.x, sq_nonneg Y.y]
      have b : Y.y = 0 := by nlinarith [sq_nonneg Y.x, sq_nonneg Y.y]
      rw [a, b] at hz; linarith
  have hXY : X.x * Y.x + X.y * Y.y = 0 := by
    rcases hflat with h | h <;> rw [h] at h4 <;> linarith
  have hx2 := norm_horizontal_sq X
  have hy2 := norm_horizontal_sq Y
  have hux := horizontal_unit hXp
  have huy := horizontal_unit hYp
  have hRH : RightHanded (horizontal X) (horizontal Y) V3.e3 := by
    refine ⟨hux, huy, by simp [V3.dot, V3.e3], ?_, by simp [V3.dot, V3.e3, horizontal, V3.normalized],
      by simp [V3.dot, V3.e3, horizontal, V3.normalized], ?_⟩
    · simp only [horizontal, V3.normalized, V3.dot, V3.smul_x, V3.smul_y, V3.smul_z]
      linear_combination (V3.norm ⟨X.x, X.y, 0⟩)⁻¹ * (V3.norm ⟨Y.x, Y.y, 0⟩)⁻¹ * hXY
    · have hnX : 0 < V3.norm ⟨X.x, X.y, 0⟩ := V3.norm_pos (by
        intro h; have a := congrArg V3.x h; have b := congrArg V3.y h; simp at a b; rw [a, b] at hXp; norm_num at hXp)
      have hnY : 0 < V3.norm ⟨Y.x, Y.y, 0⟩ := V3.norm_pos (by
        intro h; have a := congrArg V3.x h; have b := congrArg V3.y h; simp at a b; rw [a, b] at hYp; norm_num at hYp)
      ext
      · simp [horizontal, V3.normalized, V3.e3]
      · simp [horizontal, V3.normalized, V3.e3]
      · simp only [horizontal, V3.normalized, V3.e3, V3.cross_z, V3.smul_x, V3.smul_y]
        generalize V3.norm ⟨X.x, X.y, 0⟩ = nx at *
        generalize V3.norm ⟨Y.x, Y.y, 0⟩ = ny at *
        have hdet : (X.x * Y.y - X.y * Y.x) ^ 2 = (nx * ny) ^ 2 := by
          rw [mul_pow, hx2, hy2]
          linear_combination (-(X.x * Y.x + X.y * Y.y)) * hXY
        have : X.x * Y.y - X.y * Y.x = nx * ny := by
          have hp : 0 < nx * ny := mul_pos hnX hnY
          have hq : 0 < X.x * Y.y - X.y * Y.x := by linarith
          exact (pow_left_inj₀ hq.le hp.le two_ne_zero).mp hdet
        field_simp
        linarith
  obtain ⟨q, hq, hu, gx, gy, gz⟩ := C33_rotation_from_axes _ _ _ fc hRH
  refine ⟨Frame.new (f.getPosition fc) q fc, ?_, hu, ?_, gz, gx⟩
  · unfold Frame.projectToXYPlane
    simp only [hX, hY]
    rw [show V3.normalized ⟨X.x, X.y, 0⟩ = horizontal X from rfl, show V3.normalized ⟨Y.x, Y.y, 0⟩ = horizontal Y from rfl,
      hq]
    rfl
  · unfold Frame.new Frame.getPosition; rw [conv_conv]

/-- With both pitch and roll (neither x nor y horizontal, and neither vertical) the projected axes are not orthogonal and
the assertion in `FrRotation::Set` fails, for every such frame. -/
theorem C17_tilted_fails (f : Frame) (hf : f.Valid) (fc : FC) (hx : (getXAxis f.rot fc).z ≠ 0)
    (hy : (getYAxis f.rot fc).z ≠ 0) : f.projectToXYPlane fc = none := by
  obtain ⟨h1, h2, h3, h4, h5, h6, h7⟩ := axes_rightHanded hf fc
  unfold Frame.projectToXYPlane rotOfAxes
  simp only
  generalize getXAxis f.rot fc = X at *
  generalize getYAxis f.rot fc = Y at *
  rw [if_neg]
  · rfl
  · rintro ⟨hd, -, -, hu, hv, -⟩
    simp only [V3.normalized, V3.dot, V3.smul_x, V3.smul_y, V3.smul_z] at *
    generalize (V3.norm ⟨X.x, X.y, 0⟩)⁻¹ = a at *
    generalize (V3.norm ⟨Y.x, Y.y, 0⟩)⁻¹ = b at *
    have hk : a * b * (X.x * Y.x + X.y * Y.y) = 0 := by linarith
    have ha : a ≠ 0 := by rintro rfl; simp at hu
    have hb : b ≠ 0 := by rintro rfl; simp at hv
    have h0 : X.x * Y.x + X.y * Y.y = 0 := by
      rcases mul_eq_zero.mp hk with h | h
      · rcases mul_eq_zero.mp h with h | h <;> contradiction
      · exact h
    have : X.z * Y.z = 0 := by linarith
    rcases mul_eq_zero.mp this with h | h <;> contradiction

/-- A capsized frame (rolled by π) gives an object that is not a frame. -/
theorem C17_capsized_counterexample :
    ∃ f : Frame, f.Valid ∧ (getXAxis f.rot .NWU).z = 0 ∧ ∃ g, f.projectToXYPlane .NWU = some g ∧ ¬ g.Valid := by
  refine ⟨⟨0, ⟨0, 1, 0, 0⟩⟩, by norm_num [Frame.Valid, Q.IsUnit, Q.normSq], by simp [getXAxis, convQ, Q.xAxis], ?_⟩
  have n1 : V3.normalized (⟨1, 0, 0⟩ : V3) = V3.e1 := by
    simp [V3.normalized, V3.norm, V3.dot, V3.e1]; ext <;> simp
  have n2 : V3.normalized (⟨0, -1, 0⟩ : V3) = -V3.e2 := by
    simp [V3.normalized, V3.norm, V3.dot, V3.e2]; ext <;> simp
  refine ⟨Frame.new (Frame.getPosition ⟨0, ⟨0, 1, 0, 0⟩⟩ .NWU) (quatOfMat (M3.ofCols V3.e1 (-V3.e2) V3.e3) .NWU) .NWU,
    ?_, ?_⟩
  · unfold Frame.projectToXYPlane rotOfAxes
    simp only [getXAxis, getYAxis, convQ, Q.xAxis, Q.yAxis]
    norm_num
    rw [n1, n2]
    exact ⟨by simp [V3.dot, V3.e1, V3.e2, V3.e3], rfl⟩
  · have h2 : Real.sqrt 2 ^ 2 = 2 := Real.sq_sqrt (by norm_num)
    simp [Frame.Valid, Frame.new, quatOfMat, convQ, matToQuat, M3.ofCols, V3.e1, V3.e2, V3.e3, Q.IsUnit, Q.normSq]
    norm_num
    constructor <;> intro h <;> nlinarith

/-- Non-vacuity of `C17_projection_partial`: a frame with heading and pitch. -/
example : ∃ f : Frame, f.Valid ∧ 0 < (getZAxis f.rot .NED).z ∧ (getYAxis f.rot .NED).z = 0 ∧ (getXAxis f.rot .NED).z ≠ 0 := by
  refine ⟨⟨0, ⟨4/5, 0, 3/5, 0⟩⟩, ?_, ?_, ?_, ?_⟩ <;>
    norm_num [Frame.Valid, Q.IsUnit, Q.normSq, getZAxis, getYAxis, getXAxis, convQ, swapQ, Q.zAxis, Q.yAxis, Q.xAxis]

end Frydom.Geom
