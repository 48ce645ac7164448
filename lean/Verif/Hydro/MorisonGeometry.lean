import Verif.Hydro.MorisonProps

/-!
# Morison elements: geometry (C99)
-/

open Classical

noncomputable section

namespace Frydom.Hydro.Morison
open Frydom.Geom Frydom.Core Frydom.Hydro

/-! ## Lemmas on directions -/

theorem norm_smul (c : ℝ) (v : V3) : V3.norm (c • v) = |c| * V3.norm v := by
  unfold V3.norm
  rw [show V3.dot (c • v) (c • v) = c ^ 2 * V3.dot v v by simp only [V3.dot, V3.smul_x, V3.smul_y, V3.smul_z]; ring,
    Real.sqrt_mul (sq_nonneg c), Real.sqrt_sq_eq_abs]

theorem normalized_smul {c : ℝ} (hc : 0 < c) (v : V3) : V3.normalized (c • v) = V3.normalized v := by
  unfold V3.normalized
  rw [norm_smul, abs_of_pos hc, mul_inv]
  ext
  · simp only [V3.smul_x]; field_simp
  · simp only [V3.smul_y]; field_simp
  · simp only [V3.smul_z]; field_simp

theorem normalized_unit {v : V3} (hv : v ≠ 0) : V3.dot (V3.normalized v) (V3.normalized v) = 1 := by
  have hn := V3.norm_pos hv
  have h := V3.norm_sq v
  unfold V3.normalized
  rw [show V3.dot ((V3.norm v)⁻¹ • v) ((V3.norm v)⁻¹ • v) = (V3.norm v)⁻¹ ^ 2 * V3.dot v v by
    simp only [V3.dot, V3.smul_x, V3.smul_y, V3.smul_z]; ring, ← h]
  field_simp

theorem norm_smul_normalized {v : V3} (hv : v ≠ 0) : V3.norm v • V3.normalized v = v := by
  have hn := (V3.norm_pos hv).ne'
  unfold V3.normalized
  ext
  · simp only [V3.smul_x]; field_simp
  · simp only [V3.smul_y]; field_simp
  · simp only [V3.smul_z]; field_simp

theorem normalized_of_unit {v : V3} (h : V3.dot v v = 1) : V3.normalized v = v := by
  unfold V3.normalized V3.norm
  rw [h, Real.sqrt_one]
  ext <;> simp

theorem norm_zero : V3.norm (0 : V3) = 0 := by simp [V3.norm, V3.dot]

theorem fltEps_pos : 0 < fltEps := by unfold fltEps; positivity

/-- From a unit third axis and a unit first axis orthogonal to it: a right-handed triple. -/
theorem rightHanded_of (e1 e3 : V3) (h1 : V3.dot e1 e1 = 1) (h3 : V3.dot e3 e3 = 1) (h13 : V3.dot e1 e3 = 0) :
    V3.dot (V3.cross e3 e1) (V3.cross e3 e1) = 1 ∧ RightHanded e1 (V3.cross e3 e1) e3 := by
  simp only [V3.dot] at h1 h3 h13
  have h2 : V3.dot (V3.cross e3 e1) (V3.cross e3 e1) = 1 := by
    simp only [V3.dot, V3.cross_x, V3.cross_y, V3.cross_z]
    linear_combination (e3.x * e3.x + e3.y * e3.y + e3.z * e3.z) * h1 + h3 - (e1.x * e3.x + e1.y * e3.y + e1.z * e3.z) * h13
  refine ⟨h2, h1, h2, h3, ?_, h13, ?_, ?_⟩
  · simp only [V3.dot, V3.cross_x, V3.cross_y, V3.cross_z]; ring
  · simp only [V3.dot, V3.cross_x, V3.cross_y, V3.cross_z]; ring
  · ext
    · simp only [V3.cross_x, V3.cross_y, V3.cross_z]; linear_combination e3.x * h1 - e1.x * h13
    · simp only [V3.cross_x, V3.cross_y, V3.cross_z]; linear_combination e3.y * h1 - e1.y * h13
    · simp only [V3.cross_x, V3.cross_y, V3.cross_z]; linear_combination e3.z * h1 - e1.z * h13

/-- The direction given for the axes is usable: far enough from the direction of the element, or the default one (vertical) with a vertical element. -/
def Usable (A B vect : V3) : Prop :=
  A ≠ B ∧ (fltEps < V3.norm (V3.cross vect (V3.normalized (B - A))) ∨ (vect = ⟨0, 0, 1⟩ ∧ (B - A).x = 0 ∧ (B - A).y = 0))

theorem sub_ne {A B : V3} (h : A ≠ B) : B - A ≠ 0 := fun e => h (by
  have := congrArg (fun v : V3 => A + v) e
  ext
  · have := congrArg V3.x e; simp at this; linarith
  · have := congrArg V3.y e; simp at this; linarith
  · have := congrArg V3.z e; simp at this; linarith)

theorem axes_spec {A B vect : V3} (h : Usable A B vect) :
    RightHanded (axes A B vect).1 (axes A B vect).2.1 (axes A B vect).2.2 ∧ (axes A B vect).2.2 = V3.normalized (B - A) ∧
    V3.dot (axes A B vect).1 vect = 0 := by
  obtain ⟨hAB, h⟩ := h
  have h3 := normalized_unit (sub_ne hAB)
  have key : ∀ e1 : V3, V3.dot e1 e1 = 1 → V3.dot e1 (V3.normalized (B - A)) = 0 →
      RightHanded e1 (V3.normalized (V3.cross (V3.normalized (B - A)) e1)) (V3.normalized (B - A)) := by
    intro e1 h1 h13
    obtain ⟨h2, hR⟩ := rightHanded_of e1 _ h1 h3 h13
    rw [normalized_of_unit h2]; exact hR
  unfold axes
  simp only []
  rcases h with h | ⟨hv, hx, hy⟩
  · have hc : |V3.norm (V3.cross vect (V3.normalized (B - A)))| > fltEps := lt_of_lt_of_le h (le_abs_self _)
    have hne : V3.cross vect (V3.normalized (B - A)) ≠ 0 := fun e => by
      rw [e, norm_zero] at h; exact absurd h (not_lt.mpr fltEps_pos.le)
    rw [if_pos hc]
    refine ⟨key _ (normalized_unit hne) ?_, trivial, ?_⟩
    · unfold V3.normalized
      simp only [V3.dot, V3.smul_x, V3.smul_y, V3.smul_z, V3.cross_x, V3.cross_y, V3.cross_z]; ring
    · generalize V3.normalized (B - A) = d
      unfold V3.normalized
      simp only [V3.dot, V3.smul_x, V3.smul_y, V3.smul_z, V3.cross_x, V3.cross_y, V3.cross_z]; ring
  · have hd : (V3.normalized (B - A)).x = 0 ∧ (V3.normalized (B - A)).y = 0 := by
      unfold V3.normalized
      simp only [V3.smul_x, V3.smul_y, hx, hy, mul_zero, and_self]
    have h0 : V3.cross vect (V3.normalized (B - A)) = 0 := by
      rw [hv]; ext
      · simp only [V3.cross_x, hd.2, V3.zero_x]; ring
      · simp only [V3.cross_y, hd.1, V3.zero_y]; ring
      · simp only [V3.cross_z, V3.zero_z]; ring
    have hc : ¬ |V3.norm (V3.cross vect (V3.normalized (B - A)))| > fltEps := by
      rw [h0, norm_zero, abs_zero]; exact not_lt.mpr fltEps_pos.le
    rw [if_neg hc]
    refine ⟨key _ (by simp [V3.dot]) (by simp [V3.dot, hd.1]), trivial, by rw [hv]; simp [V3.dot]⟩

theorem rotate_e1 (q : Q) : q.rotate ⟨1, 0, 0⟩ = getXAxis q .NWU := by ext <;> simp [Q.rotate, Q.toMat, getXAxis, convQ, Q.xAxis]
theorem rotate_e2 (q : Q) : q.rotate ⟨0, 1, 0⟩ = getYAxis q .NWU := by ext <;> simp [Q.rotate, Q.toMat, getYAxis, convQ, Q.yAxis]
theorem rotate_e3 (q : Q) : q.rotate ⟨0, 0, 1⟩ = getZAxis q .NWU := by ext <;> simp [Q.rotate, Q.toMat, getZAxis, convQ, Q.zAxis]

/-- The axes in terms of a quaternion. -/
theorem makeNode_spec {A B vect : V3} (h : Usable A B vect) (b : Body) :
    ∃ q : Q, rotOfAxes (axes A B vect).1 (axes A B vect).2.1 (axes A B vect).2.2 .NWU = some q ∧ q.IsUnit ∧
      makeNode b A B vect = some ((Node.new b).setFrameInBody b ⟨(0.5 : ℝ) • (A + B), q⟩) ∧
      q.rotate ⟨0, 0, 1⟩ = V3.normalized (B - A) ∧ V3.dot (q.rotate ⟨1, 0, 0⟩) vect = 0 := by
  obtain ⟨hR, h3, h1⟩ := axes_spec h
  obtain ⟨q, hq, hu, gx, gy, gz⟩ := C33_rotation_from_axes _ _ _ .NWU hR
  refine ⟨q, hq, hu, ?_, ?_, ?_⟩
  · unfold makeNode; simp only []; rw [hq]; rfl
  · rw [rotate_e3, gz, h3]
  · rw [rotate_e1, gx, h1]

/-- **C99, an element between two points.** From two different points of the body and a usable direction (the default one always is, unless the element is within `FLT_EPSILON` of
the vertical without being vertical): the element is attached to the body, its centre is the middle of the points, its third axis goes from the first to the second, its first axis is
orthogonal to the direction given, and its length and volume are those of the cylinder between the points. -/
theorem C99_between (mem : Bool) (b : Body) (hb : Placed b) (A B : V3) (D : ℝ) (ca cd : Coeff) (cf : ℝ) (perp : V3) (h : Usable A B perp) :
    ∃ s, newSingle mem b A B D ca cd cf perp = some s ∧ Attached b s.node ∧ s.props.cd = cd ∧ s.props.ca = ca ∧ s.props.cf = cf ∧ s.props.diameter = D ∧
      s.node.positionInBody b .NWU = (1 / 2 : ℝ) • (A + B) ∧ centre s = (1 / 2 : ℝ) • (b.pointInWorld A .NWU + b.pointInWorld B .NWU) ∧
      s.props.length • axis3 s = b.pointInWorld B .NWU - b.pointInWorld A .NWU ∧
      V3.dot (axis1 s) (b.toWorld perp .NWU) = 0 ∧
      V3.dot (axis1 s) (axis3 s) = 0 ∧ V3.cross (axis3 s) (axis1 s) = axis2 s ∧ V3.norm (axis1 s) = 1 ∧
      s.props.length = V3.norm (b.pointInWorld B .NWU - b.pointInWorld A .NWU) ∧ s.props.volume = Real.pi * (D / 2) ^ 2 * s.props.length := by
  obtain ⟨q, hq, hu, hn, h3, h1⟩ := makeNode_spec h b
  have hAB := sub_ne h.1
  refine ⟨Single.setVolume ⟨(Node.new b).setFrameInBody b ⟨(0.5 : ℝ) • (A + B), q⟩, ⟨cd, ca, cf, D, V3.norm (B - A), 0⟩, mem, false, 0, 0⟩, ?_, ?_, rfl, rfl, rfl, rfl,
    ?_, ?_, ?_, ?_, ?_, ?_, ?_, ?_, ?_⟩
  · unfold newSingle; rw [hn]; rfl
  · exact setFrameInBody_attached _ _ _ hu
  · show (((Node.new b).setFrameInBody b ⟨(0.5 : ℝ) • (A + B), q⟩).frameInBody b).pos = _
    rw [setFrameInBody_get]
    ext <;> simp <;> ring
  · show b.cog.pos + b.cog.rot.rotate ((0.5 : ℝ) • (A + B) - b.cogInRef) = (1 / 2 : ℝ) • (b.refPos + b.cog.rot.rotate A + (b.refPos + b.cog.rot.rotate B))
    rw [hb.cog, Q.rotate_sub, Q.rotate_smul, Q.rotate_add]
    ext <;> simp <;> ring
  · show V3.norm (B - A) • (b.cog.rot.mul q).rotate ⟨0, 0, 1⟩ = (b.refPos + b.cog.rot.rotate B) - (b.refPos + b.cog.rot.rotate A)
    rw [Q.rotate_mul hb.unit hu, h3, ← Q.rotate_smul, norm_smul_normalized hAB, Q.rotate_sub]
    ext <;> simp
  · show V3.dot ((b.cog.rot.mul q).rotate ⟨1, 0, 0⟩) (b.cog.rot.rotate perp) = 0
    rw [Q.rotate_mul hb.unit hu, dot_rotate hb.unit, Q.rotate_conj hb.unit, h1]
  · show V3.dot ((b.cog.rot.mul q).rotate ⟨1, 0, 0⟩) ((b.cog.rot.mul q).rotate ⟨0, 0, 1⟩) = 0
    rw [dot_rotate (hb.unit.mul hu), Q.rotate_conj (hb.unit.mul hu)]; simp [V3.dot]
  · show V3.cross ((b.cog.rot.mul q).rotate ⟨0, 0, 1⟩) ((b.cog.rot.mul q).rotate ⟨1, 0, 0⟩) = (b.cog.rot.mul q).rotate ⟨0, 1, 0⟩
    rw [← rotate_cross (hb.unit.mul hu)]; congr 1; ext <;> simp
  · show V3.norm ((b.cog.rot.mul q).rotate ⟨1, 0, 0⟩) = 1
    unfold V3.norm
    rw [dot_rotate (hb.unit.mul hu), Q.rotate_conj (hb.unit.mul hu)]; simp [V3.dot]
  · show V3.norm (B - A) = V3.norm ((b.refPos + b.cog.rot.rotate B) - (b.refPos + b.cog.rot.rotate A))
    have e : (b.refPos + b.cog.rot.rotate B) - (b.refPos + b.cog.rot.rotate A) = b.cog.rot.rotate (B - A) := by
      rw [Q.rotate_sub]; ext <;> simp
    rw [e]; unfold V3.norm; rw [dot_rotate hb.unit, Q.rotate_conj hb.unit]
  · show Real.pi / 4 * D * D * V3.norm (B - A) = Real.pi * (D / 2) ^ 2 * V3.norm (B - A)
    ring

/-- **C99, from nodes.** The constructor from two nodes of the body makes the element between their places. -/
theorem C99_nodes (mem : Bool) (b : Body) (hb : Placed b) (nA nB : Node) (hA : Attached b nA) (hB : Attached b nB) (D : ℝ) (ca cd : Coeff) (cf : ℝ) (perp : V3) :
    newSingleNodes mem b nA nB D ca cd cf perp = newSingle mem b (nA.positionInBody b .NWU) (nB.positionInBody b .NWU) D ca cd cf perp := by
  unfold newSingleNodes newSingle
  have e : V3.norm (nB.positionInWorld .NWU - nA.positionInWorld .NWU) = V3.norm (nB.positionInBody b .NWU - nA.positionInBody b .NWU) := by
    have e1 := (C54_attached b hb nA hA .NWU).2.1
    have e2 := (C54_attached b hb nB hB .NWU).2.1
    rw [e1, e2]
    show V3.norm ((b.refPos + b.cog.rot.rotate (nB.positionInBody b .NWU)) - (b.refPos + b.cog.rot.rotate (nA.positionInBody b .NWU))) = _
    have e : (b.refPos + b.cog.rot.rotate (nB.positionInBody b .NWU)) - (b.refPos + b.cog.rot.rotate (nA.positionInBody b .NWU)) =
        b.cog.rot.rotate (nB.positionInBody b .NWU - nA.positionInBody b .NWU) := by
      rw [Q.rotate_sub]; ext <;> simp
    rw [e]; unfold V3.norm; rw [dot_rotate hb.unit, Q.rotate_conj hb.unit]
  rw [e]

/-- **C99, from a frame.** The constructor from a frame puts the element there. -/
theorem C99_frame (mem : Bool) (b : Body) (f : Frame) (hf : f.rot.IsUnit) (D L : ℝ) (ca cd : Coeff) (cf : ℝ) :
    let s := newSingleFrame mem b f D L ca cd cf
    Attached b s.node ∧ s.node.frameInBody b = f ∧ s.props.length = L ∧ s.props.diameter = D ∧ s.props.volume = Real.pi * (D / 2) ^ 2 * L := by
  refine ⟨setFrameInBody_attached _ _ _ hf, setFrameInBody_get _ _ _, rfl, rfl, ?_⟩
  show Real.pi / 4 * D * D * L = _
  ring

/-- **C99, refused direction.** If the direction given is parallel to the element and the element is not orthogonal to the first axis of the body, the axes are not orthogonal and the
constructor of the rotation refuses them. -/
theorem C99_parallel (mem : Bool) (b : Body) (A B : V3) (D : ℝ) (ca cd : Coeff) (cf : ℝ) (perp : V3) (hp : V3.cross perp (B - A) = 0) (hx : (B - A).x ≠ 0) :
    newSingle mem b A B D ca cd cf perp = none := by
  have hne : B - A ≠ 0 := fun e => hx (by rw [e]; rfl)
  have h0 : V3.cross perp (V3.normalized (B - A)) = 0 := by
    have : V3.cross perp (V3.normalized (B - A)) = (V3.norm (B - A))⁻¹ • V3.cross perp (B - A) := by
      unfold V3.normalized; ext <;> simp only [V3.cross_x, V3.cross_y, V3.cross_z, V3.smul_x, V3.smul_y, V3.smul_z] <;> ring
    rw [this, hp]; ext <;> simp
  have hc : ¬ |V3.norm (V3.cross perp (V3.normalized (B - A)))| > fltEps := by
    rw [h0, norm_zero, abs_zero]; exact not_lt.mpr fltEps_pos.le
  have hn : (V3.normalized (B - A)).x ≠ 0 := by
    unfold V3.normalized
    simp only [V3.smul_x]
    exact mul_ne_zero (inv_ne_zero (V3.norm_pos hne).ne') hx
  unfold newSingle makeNode axes rotOfAxes
  simp only []
  rw [if_neg hc, if_neg]
  · rfl
  · rintro ⟨_, h, _⟩
    exact hn (by simpa [V3.dot] using h)

/-- Non-vacuity of C99: an inclined element and a vertical one with the default direction. -/
example : Usable ⟨0, 0, -10⟩ ⟨3, 0, -6⟩ ⟨0, 0, 1⟩ ∧ Usable ⟨0, 0, -10⟩ ⟨0, 0, 0⟩ ⟨0, 0, 1⟩ := by
  have e : V3.norm ((⟨3, 0, -6⟩ : V3) - ⟨0, 0, -10⟩) = 5 := by
    unfold V3.norm V3.dot
    rw [show Real.sqrt _ = Real.sqrt (5 ^ 2) from by congr 1; simp only [V3.sub_x, V3.sub_y, V3.sub_z]; norm_num]
    exact Real.sqrt_sq (by norm_num)
  refine ⟨⟨fun h => ?_, Or.inl ?_⟩, fun h => ?_, Or.inr ⟨rfl, by simp, by simp⟩⟩
  · have := congrArg V3.x h; norm_num at this
  · unfold V3.normalized
    rw [e]
    have : V3.cross (⟨0, 0, 1⟩ : V3) ((5 : ℝ)⁻¹ • ((⟨3, 0, -6⟩ : V3) - ⟨0, 0, -10⟩)) = ⟨0, 3 / 5, 0⟩ := by
      ext
      · simp
      · simp only [V3.cross_y, V3.smul_x, V3.smul_z, V3.sub_x, V3.sub_z]; norm_num
      · simp
    rw [this]
    unfold V3.norm V3.dot
    rw [show Real.sqrt _ = Real.sqrt ((3 / 5) ^ 2) from by congr 1; ring, Real.sqrt_sq (by norm_num)]
    unfold fltEps; norm_num
  · have := congrArg V3.z h; norm_num at this

end Frydom.Hydro.Morison
