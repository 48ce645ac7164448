import Verif.Geom.Props
import Mathlib.Analysis.Real.Pi.Bounds

/-! # Properties C13 (Cardan angles), C15, C16 (in-place operations on frames), C18 (torsors) -/

open Classical

noncomputable section

namespace Frydom.Geom

/-! ## C13 -/

theorem eulerToQuat_unit (f t p : ℝ) : (eulerToQuat f t p).IsUnit := by
  have h1 := Real.sin_sq_add_cos_sq (f * 0.5)
  have h2 := Real.sin_sq_add_cos_sq (t * 0.5)
  have h3 := Real.sin_sq_add_cos_sq (p * 0.5)
  simp only [Q.IsUnit, Q.normSq, eulerToQuat]
  generalize Real.sin (f * 0.5) = sf at *
  generalize Real.cos (f * 0.5) = cf at *
  generalize Real.sin (t * 0.5) = st at *
  generalize Real.cos (t * 0.5) = ct at *
  generalize Real.sin (p * 0.5) = sp at *
  generalize Real.cos (p * 0.5) = cp at *
  have e : (cf * ct * cp + sf * st * sp) ^ 2 + (-cf * st * sp + ct * cp * sf) ^ 2 + (cf * cp * st + sf * ct * sp) ^ 2 +
      (cf * ct * sp - sf * cp * st) ^ 2 = (sf ^ 2 + cf ^ 2) * (st ^ 2 + ct ^ 2) * (sp ^ 2 + cp ^ 2) := by ring
  rw [e, h1, h2, h3]; norm_num

/-- The two conversions of the code from Cardan angles agree: matrix of the quaternion = matrix of the angles. -/
theorem eulerToQuat_toMat (f t p : ℝ) : (eulerToQuat f t p).toMat = eulerToMat f t p := by
  have h1 := Real.sin_sq_add_cos_sq (f * 0.5)
  have h2 := Real.sin_sq_add_cos_sq (t * 0.5)
  have h3 := Real.sin_sq_add_cos_sq (p * 0.5)
  have d1 : Real.cos f = 2 * Real.cos (f * 0.5) ^ 2 - 1 := by rw [← Real.cos_two_mul]; congr 1; ring
  have d2 : Real.sin f = 2 * Real.sin (f * 0.5) * Real.cos (f * 0.5) := by rw [← Real.sin_two_mul]; congr 1; ring
  have d3 : Real.cos t = 2 * Real.cos (t * 0.5) ^ 2 - 1 := by rw [← Real.cos_two_mul]; congr 1; ring
  have d4 : Real.sin t = 2 * Real.sin (t * 0.5) * Real.cos (t * 0.5) := by rw [← Real.sin_two_mul]; congr 1; ring
  have d5 : Real.cos p = 2 * Real.cos (p * 0.5) ^ 2 - 1 := by rw [← Real.cos_two_mul]; congr 1; ring
  have d6 : Real.sin p = 2 * Real.sin (p * 0.5) * Real.cos (p * 0.5) := by rw [← Real.sin_two_mul]; congr 1; ring
  simp only [eulerToMat, d1, d2, d3, d4, d5, d6, eulerToQuat]
  generalize Real.sin (f * 0.5) = sf at *
  generalize Real.cos (f * 0.5) = cf at *
  generalize Real.sin (t * 0.5) = st at *
  generalize Real.cos (t * 0.5) = ct at *
  generalize Real.sin (p * 0.5) = sp at *
  generalize Real.cos (p * 0.5) = cp at *
  have k1 : cf ^ 2 = 1 - sf ^ 2 := by linarith
  have k2 : ct ^ 2 = 1 - st ^ 2 := by linarith
  have k3 : cp ^ 2 = 1 - sp ^ 2 := by linarith
  ext <;> simp only [Q.toMat] <;> ring_nf <;> simp only [k1, k2, k3] <;> ring

theorem atan2_polar {r a : ℝ} (hr : 0 < r) (h0 : -Real.pi < a) (h1 : a ≤ Real.pi) :
    atan2 (r * Real.sin a) (r * Real.cos a) = a := by
  have := Complex.arg_mul_cos_add_sin_mul_I hr (θ := a) ⟨h0, h1⟩
  unfold atan2
  have e : (⟨r * Real.cos a, r * Real.sin a⟩ : ℂ) = ↑r * (Complex.cos ↑a + Complex.sin ↑a * Complex.I) := by
    apply Complex.ext <;> simp [← Complex.ofReal_cos, ← Complex.ofReal_sin]
  rw [e]; exact this

/-- The angles are in the range for which the code's extraction is exact. The yaw range is half open at a side that
depends on the convention, because `atan2` returns values in (-π, π] in NWU. -/
structure InRange (fc : FC) (a : Cardan) : Prop where
  roll_lo : -Real.pi < a.roll
  roll_hi : a.roll ≤ Real.pi
  pitch_lo : -(Real.pi / 2) < a.pitch
  pitch_hi : a.pitch < Real.pi / 2
  yaw : match fc with
    | .NWU => -Real.pi < a.yaw ∧ a.yaw ≤ Real.pi
    | .NED => -Real.pi ≤ a.yaw ∧ a.yaw < Real.pi

theorem matToEuler_eulerToMat (junk f t p : ℝ) (f0 : -Real.pi < f) (f1 : f ≤ Real.pi) (t0 : -(Real.pi / 2) < t)
    (t1 : t < Real.pi / 2) (p0 : -Real.pi < p) (p1 : p ≤ Real.pi) :
    matToEuler junk (eulerToMat f t p) = ⟨f, t, p⟩ := by
  have hc : 0 < Real.cos t := Real.cos_pos_of_mem_Ioo ⟨t0, t1⟩
  have hs := Real.sin_sq_add_cos_sq t
  have s1 : -Real.sin t < 1 := by nlinarith
  have s2 : -1 < -Real.sin t := by nlinarith
  unfold matToEuler
  rw [if_pos (show (eulerToMat f t p).a20 < 1 from s1), if_pos (show -1 < (eulerToMat f t p).a20 from s2)]
  simp only [eulerToMat, neg_neg]
  rw [atan2_polar hc f0 f1, atan2_polar hc p0 p1, Real.arcsin_sin t0.le t1.le]

/-- **C13, angles → rotation → angles.** -/
theorem C13_round_trip_angles (junk : ℝ) (fc : FC) (a : Cardan) (h : InRange fc a) :
    (setCardan fc a).IsUnit ∧ getCardan junk fc (setCardan fc a) = a := by
  refine ⟨eulerToQuat_unit _ _ _, ?_⟩
  obtain ⟨r0, r1, p0, p1, y⟩ := h
  unfold getCardan setCardan
  rw [eulerToQuat_toMat]
  cases fc with
  | NWU => exact matToEuler_eulerToMat junk _ _ _ r0 r1 p0 p1 y.1 y.2
  | NED =>
    have := matToEuler_eulerToMat junk a.roll (-a.pitch) (-a.yaw) r0 r1 (by linarith) (by linarith) (by linarith [y.2])
      (by linarith [y.1])
    simp only [convAngles, this, neg_neg]

/-- **C13, meaning of the angles.** In either convention the rotation set from Cardan angles is yaw about z, then pitch
about the new y, then roll about the new x, the axes being those of that convention. -/
theorem C13_meaning (fc : FC) (a : Cardan) :
    setCardan fc a = quatMul (quatMul (quatOfAxisAngle V3.e3 a.yaw fc) (quatOfAxisAngle V3.e2 a.pitch fc))
      (quatOfAxisAngle V3.e1 a.roll fc) := by
  have h : ∀ x : ℝ, x * 0.5 = x / 2 := fun x => by ring
  have h' : ∀ x : ℝ, -x / 2 = -(x / 2) := fun x => by ring
  cases fc <;> ext <;>
    simp [setCardan, convAngles, eulerToQuat, quatMul, quatOfAxisAngle, Q.ofAngAxis, conv, swap, V3.e1, V3.e2, V3.e3, h, h',
      -one_div] <;> ring

theorem atan2_spec (y x : ℝ) : Real.sqrt (x ^ 2 + y ^ 2) * Real.cos (atan2 y x) = x ∧
    Real.sqrt (x ^ 2 + y ^ 2) * Real.sin (atan2 y x) = y := by
  unfold atan2
  have e : ‖(⟨x, y⟩ : ℂ)‖ = Real.sqrt (x ^ 2 + y ^ 2) := by
    rw [Complex.norm_def, Complex.normSq_mk]; congr 1; ring
  have h1 := Complex.norm_mul_cos_arg (⟨x, y⟩ : ℂ)
  have h2 := Complex.norm_mul_sin_arg (⟨x, y⟩ : ℂ)
  rw [e] at h1 h2
  exact ⟨h1, h2⟩

/-- Extraction of the angles from any rotation matrix other than those with `r20 = 1` and reconstruction. -/
theorem eulerToMat_matToEuler (junk : ℝ) (m : M3) (hm : m.IsRot) (h : m.a20 < 1) :
    eulerToMat (matToEuler junk m).roll (matToEuler junk m).pitch (matToEuler junk m).yaw = m := by
  have hx := congrArg V3.x hm.cross01
  have hy := congrArg V3.y hm.cross01
  have hz := congrArg V3.z hm.cross01
  have kx := congrArg V3.x hm.cross12
  have ky := congrArg V3.y hm.cross12
  have kz := congrArg V3.z hm.cross12
  have lx := congrArg V3.x hm.cross20
  have ly := congrArg V3.y hm.cross20
  have lz := congrArg V3.z hm.cross20
  obtain ⟨u0, u1, u2, o01, o02, o12, hd⟩ := hm
  simp only [M3.c0, M3.c1, M3.c2, V3.dot, V3.cross_x, V3.cross_y, V3.cross_z, M3.det] at *
  -- rows are orthonormal too
  have rr2 : m.a20 ^ 2 + m.a21 ^ 2 + m.a22 ^ 2 = 1 := by
    linear_combination (-m.a20) * kz - m.a21 * lz - m.a22 * hz + hd
  have rr1 : m.a10 ^ 2 + m.a11 ^ 2 + m.a12 ^ 2 = 1 := by
    linear_combination (-m.a10) * ky - m.a11 * ly - m.a12 * hy + hd
  by_cases h2 : -1 < m.a20
  · have hpos : 0 < 1 - m.a20 ^ 2 := by nlinarith
    set ct := Real.sqrt (1 - m.a20 ^ 2) with hct
    have hct0 : 0 < ct := Real.sqrt_pos.mpr hpos
    have hct2 : ct ^ 2 = 1 - m.a20 ^ 2 := Real.sq_sqrt hpos.le
    have e1 : Real.sqrt (m.a22 ^ 2 + m.a21 ^ 2) = ct := by rw [hct]; congr 1; linarith
    have e2 : Real.sqrt (m.a00 ^ 2 + m.a10 ^ 2) = ct := by rw [hct]; congr 1; linarith
    obtain ⟨f1, f2⟩ := atan2_spec m.a21 m.a22
    obtain ⟨g1, g2⟩ := atan2_spec m.a10 m.a00
    rw [e1] at f1 f2
    rw [e2] at g1 g2
    have t1 : Real.sin (Real.arcsin (-m.a20)) = -m.a20 := Real.sin_arcsin (by linarith) (by linarith)
    have t2 : Real.cos (Real.arcsin (-m.a20)) = ct := by rw [Real.cos_arcsin, hct]; congr 1; ring
    have hE : matToEuler junk m = ⟨atan2 m.a21 m.a22, Real.arcsin (-m.a20), atan2 m.a10 m.a00⟩ := by
      unfold matToEuler; rw [if_pos h, if_pos h2]
    rw [hE]
    simp only [eulerToMat, t1, t2]
    generalize Real.cos (atan2 m.a21 m.a22) = cf at *
    generalize Real.sin (atan2 m.a21 m.a22) = sf at *
    generalize Real.cos (atan2 m.a10 m.a00) = cp at *
    generalize Real.sin (atan2 m.a10 m.a00) = sp at *
    have hne : ct ^ 2 ≠ 0 := by positivity
    ext
    · exact g1
    · apply mul_left_cancel₀ hne
      rw [show ct ^ 2 * (sf * -m.a20 * cp - cf * sp) = -((ct * sf) * m.a20 * (ct * cp)) - (ct * cf) * (ct * sp) by ring,
        f1, f2, g1, g2, hct2]
      linear_combination lx + m.a20 * hy
    · apply mul_left_cancel₀ hne
      rw [show ct ^ 2 * (cf * -m.a20 * cp + sf * sp) = -((ct * cf) * m.a20 * (ct * cp)) + (ct * sf) * (ct * sp) by ring,
        f1, f2, g1, g2, hct2]
      linear_combination hx - m.a20 * ly
    · exact g2
    · apply mul_left_cancel₀ hne
      rw [show ct ^ 2 * (sf * -m.a20 * sp + cf * cp) = -((ct * sf) * m.a20 * (ct * sp)) + (ct * cf) * (ct * cp) by ring,
        f1, f2, g1, g2, hct2]
      linear_combination ly - m.a20 * hx
    · apply mul_left_cancel₀ hne
      rw [show ct ^ 2 * (cf * -m.a20 * sp - sf * cp) = -((ct * cf) * m.a20 * (ct * sp)) - (ct * sf) * (ct * cp) by ring,
        f1, f2, g1, g2, hct2]
      linear_combination hy + m.a20 * lx
    · simp
    · exact f2
    · exact f1
  · clear kx ky kz lx ly lz hz hd o01 o02
    have s1 : 0 ≤ m.a21 ^ 2 := sq_nonneg _
    have s2 : 0 ≤ m.a22 ^ 2 := sq_nonneg _
    have s3 : 0 ≤ m.a00 ^ 2 := sq_nonneg _
    have s4 : 0 ≤ m.a10 ^ 2 := sq_nonneg _
    have h20 : m.a20 = -1 := by
      have h2' := not_lt.mp h2
      have : m.a20 ^ 2 ≤ 1 := by linarith
      have := abs_le.mp ((sq_le_one_iff_abs_le_one _).mp this)
      linarith [this.1]
    have hsq : m.a20 ^ 2 = 1 := by rw [h20]; norm_num
    have z00 : m.a00 = 0 := by
      have : m.a00 ^ 2 = 0 := by linarith [u0]
      exact pow_eq_zero_iff (two_ne_zero) |>.mp this
    have z10 : m.a10 = 0 := by
      have : m.a10 ^ 2 = 0 := by linarith [u0]
      exact pow_eq_zero_iff (two_ne_zero) |>.mp this
    have z21 : m.a21 = 0 := by
      have : m.a21 ^ 2 = 0 := by linarith
      exact pow_eq_zero_iff (two_ne_zero) |>.mp this
    have z22 : m.a22 = 0 := by
      have : m.a22 ^ 2 = 0 := by linarith
      exact pow_eq_zero_iff (two_ne_zero) |>.mp this
    have hE : matToEuler junk m = ⟨0, Real.pi / 2, -atan2 (-m.a12) m.a11⟩ := by
      unfold matToEuler; rw [if_pos h, if_neg h2]
    obtain ⟨f1, f2⟩ := atan2_spec (-m.a12) m.a11
    have e1 : Real.sqrt (m.a11 ^ 2 + (-m.a12) ^ 2) = 1 := by
      rw [show m.a11 ^ 2 + (-m.a12) ^ 2 = 1 by rw [z10] at rr1; linarith]; exact Real.sqrt_one
    rw [e1, one_mul] at f1 f2
    rw [hE]
    simp only [eulerToMat, Real.cos_neg, Real.sin_neg, f1, f2, Real.cos_zero, Real.sin_zero, Real.cos_pi_div_two,
      Real.sin_pi_div_two]
    rw [z00, h20] at hy
    rw [z10, h20] at hx
    ext <;> simp [z00, z10, z21, z22, h20] <;> linarith

/-- **C13, rotation → angles → rotation.** For every rotation except pitch = -90° in the internal convention
(`r20 = 1`), the angles read in a convention rebuild, in that convention, a rotation acting identically on every vector. -/
theorem C13_round_trip_rotation_partial (junk : ℝ) (fc : FC) (q : Q) (hq : q.IsUnit) (h : q.toMat.a20 < 1) (fc' : FC)
    (v : V3) : rotate (setCardan fc (getCardan junk fc q)) fc' v = rotate q fc' v := by
  have e : (setCardan fc (getCardan junk fc q)).toMat = q.toMat := by
    unfold setCardan getCardan
    have hc : ∀ a, convAngles fc (convAngles fc a) = a := by
      intro a; cases fc <;> simp [convAngles]
    simp only [hc, eulerToQuat_toMat]
    exact eulerToMat_matToEuler junk _ (Q.isRot hq) h
  unfold rotate Q.rotate
  rw [e]

/-- The excluded case is a real defect: for the rotation by −90° about the y axis the roll returned is whatever was in
memory, so that the angles rebuild a different rotation for (at least) one such content. -/
theorem C13_gimbal_counterexample :
    ∃ q : Q, q.IsUnit ∧ q.toMat.a20 = 1 ∧ (∀ junk, (getCardan junk .NWU q).roll = junk) ∧
      ∃ junk v, rotate (setCardan .NWU (getCardan junk .NWU q)) .NWU v ≠ rotate q .NWU v := by
  set q : Q := eulerToQuat 0 (-(Real.pi / 2)) 0 with hq
  have hm : q.toMat = eulerToMat 0 (-(Real.pi / 2)) 0 := eulerToQuat_toMat _ _ _
  have h20 : q.toMat.a20 = 1 := by rw [hm]; simp [eulerToMat]
  have hget : ∀ junk, getCardan junk .NWU q = ⟨junk, -(Real.pi / 2), 0⟩ := by
    intro junk
    unfold getCardan matToEuler
    rw [if_neg (by rw [h20]; norm_num)]
    rfl
  refine ⟨q, eulerToQuat_unit _ _ _, h20, fun junk => by rw [hget], Real.pi, V3.e2, ?_⟩
  rw [hget]
  simp only [setCardan, convAngles, rotate, conv, Q.rotate]
  rw [eulerToQuat_toMat, hm]
  intro h
  have := congrArg V3.y h
  simp [eulerToMat, V3.e2] at this
  norm_num at this

/-- Non-vacuity of C13. -/
example : InRange .NED ⟨1, -1, 2⟩ := by
  have := Real.pi_gt_three
  refine ⟨?_, ?_, ?_, ?_, ?_, ?_⟩ <;> simp only <;> linarith

/-! ## C15 -/

/-- What `A *= T` really does: it leaves `T * A`. Hence (partial C15) it agrees with the documented `A * T` exactly for
commuting frames. -/
theorem C15_mul_assign_partial (A T : Frame) :
    A.mulAssign T = T.mul A ∧ (A.mulAssign T = A.mul T ↔ T.mul A = A.mul T) := ⟨rfl, Iff.rfl⟩

/-- C15 is false: a translation and a rotation. -/
theorem C15_mul_assign_counterexample :
    ∃ A T : Frame, A.Valid ∧ T.Valid ∧ A.mulAssign T ≠ A.mul T := by
  refine ⟨⟨V3.e1, Q.one⟩, ⟨0, ⟨0, 0, 0, 1⟩⟩, Q.isUnit_one, by norm_num [Frame.Valid, Q.IsUnit, Q.normSq], ?_⟩
  intro h
  have := congrArg (fun f : Frame => f.pos.x) h
  simp [Frame.mulAssign, Frame.mul, Q.rotate, Q.toMat, V3.e1] at this
  norm_num at this

/-! ## C16 -/

/-- **C16, rotations.** `RotateInFrame` right-composes, `RotateInParent` left-composes, and neither moves the origin. -/
theorem C16_rotate_partial (f : Frame) (hf : f.Valid) (q : Q) (hq : q.IsUnit) (fc : FC) (v : V3) :
    (f.rotateInFrame q).projFrameInParent v fc = f.projFrameInParent (rotate q fc v) fc ∧
    (f.rotateInParent q).projFrameInParent v fc = rotate q fc (f.projFrameInParent v fc) ∧
    (f.rotateInFrame q).pos = f.pos ∧ (f.rotateInParent q).pos = f.pos ∧
    (f.rotateInFrame q).Valid ∧ (f.rotateInParent q).Valid :=
  ⟨(C11_composition f.rot q hf hq fc v).1, (C11_composition q f.rot hq hf fc v).1, rfl, rfl, Q.IsUnit.mul hf hq,
    Q.IsUnit.mul hq hf⟩

/-- **C16, translations.** `TranslateInParent` adds the translation in the caller's convention, `TranslateInFrame` adds it
along the frame's own axes (it moves the origin to the point with those local coordinates); the rotation is untouched. -/
theorem C16_translate (f : Frame) (t : V3) (fc : FC) :
    (f.translateInParent t fc).getPosition fc = f.getPosition fc + t ∧
    (f.translateInFrame t fc).getPosition fc = f.pointInParent t fc ∧
    (f.translateInParent t fc).rot = f.rot ∧ (f.translateInFrame t fc).rot = f.rot := by
  refine ⟨?_, ?_, rfl, rfl⟩
  · unfold Frame.translateInParent Frame.getPosition; rw [conv_add, conv_conv]
  · unfold Frame.translateInFrame Frame.translateInParent Frame.getPosition Frame.pointInParent
    simp only
    rw [conv_add, conv_conv]; rfl

/-- **C16, resets.** `SetNoRotation` keeps the position and aligns the axes with the parent's; `SetNoTranslation` keeps the
rotation and moves the origin to the parent's; setters of one keep the other. -/
theorem C16_reset (f : Frame) (q : Q) (p v : V3) (fc : FC) :
    f.setNoRotation.getPosition fc = f.getPosition fc ∧ f.setNoRotation.projFrameInParent v fc = v ∧
    f.setNoTranslation.getPosition fc = 0 ∧ f.setNoTranslation.rot = f.rot ∧
    (f.setRotation q).getPosition fc = f.getPosition fc ∧ (f.setRotation q).rot = q ∧ (f.setPosition p fc).rot = f.rot := by
  refine ⟨rfl, ?_, ?_, rfl, rfl, rfl, rfl⟩
  · unfold Frame.projFrameInParent rotate Frame.setNoRotation Frame.identity
    simp only [Q.rotate_one, conv_conv]
  · cases fc <;> ext <;> simp [Frame.getPosition, Frame.setNoTranslation, conv]

theorem ofAngAxis_conjugate {q : Q} (hq : q.IsUnit) (a : ℝ) (n : V3) :
    (Q.ofAngAxis a (q.rotate n)).mul q = q.mul (Q.ofAngAxis a n) := by
  obtain ⟨e0, e1, e2, e3⟩ := q
  have h : e0 ^ 2 + e1 ^ 2 + e2 ^ 2 + e3 ^ 2 = 1 := hq
  have h3 : e3 ^ 2 = 1 - e0 ^ 2 - e1 ^ 2 - e2 ^ 2 := by linarith
  have h33 : e3 ^ 3 = e3 * (1 - e0 ^ 2 - e1 ^ 2 - e2 ^ 2) := by rw [← h3]; ring
  ext <;> simp only [Q.mul, Q.ofAngAxis, Q.rotate, Q.toMat, M3.mulVec] <;> ring_nf <;> simp only [h3, h33] <;> ring

theorem xAxis_eq (q : Q) : q.xAxis = q.rotate V3.e1 := by
  ext <;> simp [Q.xAxis, Q.rotate, Q.toMat, V3.e1]
theorem yAxis_eq (q : Q) : q.yAxis = q.rotate V3.e2 := by
  ext <;> simp [Q.yAxis, Q.rotate, Q.toMat, V3.e2]
theorem zAxis_eq (q : Q) : q.zAxis = q.rotate V3.e3 := by
  ext <;> simp [Q.zAxis, Q.rotate, Q.toMat, V3.e3]

theorem ofAngAxis_swap2 (a : ℝ) : Q.ofAngAxis (-a) V3.e2 = Q.ofAngAxis a (swap V3.e2) := by
  have e : -a / 2 = -(a / 2) := by ring
  ext <;> simp [Q.ofAngAxis, V3.e2, e]
theorem ofAngAxis_swap3 (a : ℝ) : Q.ofAngAxis (-a) V3.e3 = Q.ofAngAxis a (swap V3.e3) := by
  have e : -a / 2 = -(a / 2) := by ring
  ext <;> simp [Q.ofAngAxis, V3.e3, e]

/-- **C16, coordinate rotations.** With `localAxis` the method is `RotateInFrame` about that axis, without it
`RotateInParent`, in both conventions. -/
theorem C16_coordinate_rotations (f : Frame) (hf : f.Valid) (a : ℝ) (fc : FC) :
    f.rotX a fc true = f.rotateInFrameAA V3.e1 a fc ∧ f.rotX a fc false = f.rotateInParentAA V3.e1 a fc ∧
    f.rotY a fc true = f.rotateInFrameAA V3.e2 a fc ∧ f.rotY a fc false = f.rotateInParentAA V3.e2 a fc ∧
    f.rotZ a fc true = f.rotateInFrameAA V3.e3 a fc ∧ f.rotZ a fc false = f.rotateInParentAA V3.e3 a fc := by
  have s1 : swap V3.e1 = V3.e1 := by ext <;> simp [V3.e1]
  refine ⟨?_, ?_, ?_, ?_, ?_, ?_⟩ <;> cases fc <;>
    simp [Frame.rotX, Frame.rotY, Frame.rotZ, Frame.rotateInFrameAA, Frame.rotateInParentAA, Frame.rotateInFrame,
      Frame.rotateInParent, quatOfAxisAngle, conv, xAxis_eq, yAxis_eq, zAxis_eq, s1, ofAngAxis_conjugate hf,
      ofAngAxis_swap2, ofAngAxis_swap3]

/-- **C16, `SetRotX/Y/Z`** give the pure rotation about a coordinate axis, whatever the frame was. -/
theorem C16_set_coordinate_rotations (f : Frame) (a : ℝ) (fc : FC) :
    f.setRotX a fc = ⟨0, quatOfAxisAngle V3.e1 a fc⟩ ∧ f.setRotY a fc = ⟨0, quatOfAxisAngle V3.e2 a fc⟩ ∧
    f.setRotZ a fc = ⟨0, quatOfAxisAngle V3.e3 a fc⟩ := by
  have s1 : swap V3.e1 = V3.e1 := by ext <;> simp [V3.e1]
  refine ⟨?_, ?_, ?_⟩ <;> cases fc <;>
    simp [Frame.setRotX, Frame.setRotY, Frame.setRotZ, Frame.rotX, Frame.rotY, Frame.rotZ, Frame.identity, Q.mul_one,
      quatOfAxisAngle, conv, s1, ofAngAxis_swap2, ofAngAxis_swap3]

/-- **C16, Euler angles given in radians are used as degrees**: the overloads of `RotateInFrame`/`RotateInParent` that take
three angles rotate by the angles multiplied by π/180. -/
theorem C16_euler_radians_are_degrees (f : Frame) (a : Cardan) (fc : FC) :
    f.rotateInFrameEuler a fc = f.rotateInFrame (setCardan fc ⟨a.roll * (Real.pi / 180), a.pitch * (Real.pi / 180), a.yaw * (Real.pi / 180)⟩) ∧
    f.rotateInParentEuler a fc = f.rotateInParent (setCardan fc ⟨a.roll * (Real.pi / 180), a.pitch * (Real.pi / 180), a.yaw * (Real.pi / 180)⟩) :=
  ⟨rfl, rfl⟩

/-- So the radians clause of C16 is false: a yaw of π radians does not turn the x axis around. -/
theorem C16_euler_radians_counterexample :
    (Frame.identity.rotateInFrameEuler ⟨0, 0, Real.pi⟩ .NWU).projFrameInParent V3.e1 .NWU ≠
      rotate (setCardan .NWU ⟨0, 0, Real.pi⟩) .NWU V3.e1 := by
  simp only [Frame.rotateInFrameEuler, Frame.rotateInFrame, Frame.identity, Q.one_mul, Frame.projFrameInParent, rotate,
    conv, Q.rotate, setCardanDeg, setCardan, convAngles, eulerToQuat_toMat]
  intro h
  have h1 := congrArg V3.x h
  simp [eulerToMat, V3.e1, deg2rad] at h1
  have h2 : 0 < Real.cos (Real.pi * (Real.pi / 180)) := by
    apply Real.cos_pos_of_mem_Ioo
    have := Real.pi_pos
    have := Real.pi_lt_d2
    constructor <;> nlinarith
  linarith

/-! ## C18 -/

/-- **C18.** Transport of the moment: moving A→B→C equals A→C, moving back restores the moment, the point getter is
consistent, and the result is independent of the convention used by the caller. -/
theorem C18_transport (r m a b c : V3) (fc : FC) :
    let T := Torsor.set r m a fc
    let TB := Torsor.set r (T.momentAt b fc) b fc
    TB.momentAt c fc = T.momentAt c fc ∧ TB.momentAt a fc = m ∧ T.momentAt a fc = m ∧ T.getPoint fc = a ∧
    T.momentAt b fc = m + V3.cross (a - b) r ∧
    (Torsor.set (swap r) (swap m) (swap a) .NED) = Torsor.set r m a .NWU ∧
    (Torsor.set r m a .NWU).momentAt (swap b) .NED = swap ((Torsor.set r m a .NWU).momentAt b .NWU) := by
  have key : ∀ r m a b : V3, (Torsor.set r m a fc).momentAt b fc = m + V3.cross (a - b) r := by
    intro r m a b
    simp only [Torsor.set, Torsor.momentAt]
    rw [conv_add, conv_conv, conv_cross, conv_sub, conv_conv, conv_conv, conv_conv]
  refine ⟨?_, ?_, ?_, conv_conv fc a, key r m a b, ?_, ?_⟩
  · rw [key, key, key]; ext <;> simp <;> ring
  · rw [key, key]; ext <;> simp <;> ring
  · rw [key]; ext <;> simp
  · simp [Torsor.set, conv, swap_swap]
  · simp [Torsor.set, Torsor.momentAt, conv, swap_swap]

end Frydom.Geom
