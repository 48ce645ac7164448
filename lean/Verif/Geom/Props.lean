import Verif.Geom.Model

/-! # Properties C10–C12, C14–C16, C18 (conventions, rotations, frames, torsors) -/

open Classical

noncomputable section

namespace Frydom.Geom

/-! ## C10 -/

@[simp] theorem swap_x (v : V3) : (swap v).x = v.x := rfl
@[simp] theorem swap_y (v : V3) : (swap v).y = -v.y := rfl
@[simp] theorem swap_z (v : V3) : (swap v).z = -v.z := rfl

theorem swap_swap (v : V3) : swap (swap v) = v := by ext <;> simp
theorem conv_conv (fc : FC) (v : V3) : conv fc (conv fc v) = v := by cases fc <;> simp [conv, swap_swap]
theorem swap_add (v w : V3) : swap (v + w) = swap v + swap w := by ext <;> simp <;> ring
theorem swap_sub (v w : V3) : swap (v - w) = swap v - swap w := by ext <;> simp <;> ring
theorem swap_cross (v w : V3) : swap (V3.cross v w) = V3.cross (swap v) (swap w) := by ext <;> simp <;> ring
theorem swap_dot (v w : V3) : V3.dot (swap v) (swap w) = V3.dot v w := by simp [V3.dot]
theorem conv_add (fc : FC) (v w : V3) : conv fc (v + w) = conv fc v + conv fc w := by cases fc <;> simp [conv, swap_add]
theorem conv_sub (fc : FC) (v w : V3) : conv fc (v - w) = conv fc v - conv fc w := by cases fc <;> simp [conv, swap_sub]
theorem conv_smul (fc : FC) (c : ℝ) (v : V3) : conv fc (c • v) = c • conv fc v := by
  cases fc
  · rfl
  · ext <;> simp [conv]
theorem conv_cross (fc : FC) (v w : V3) : conv fc (V3.cross v w) = V3.cross (conv fc v) (conv fc w) := by
  cases fc <;> simp [conv, swap_cross]
theorem conv_dot (fc : FC) (v w : V3) : V3.dot (conv fc v) (conv fc w) = V3.dot v w := by
  cases fc <;> simp [conv, swap_dot]
theorem swapQ_swapQ (q : Q) : swapQ (swapQ q) = q := by ext <;> simp [swapQ]
theorem convQ_convQ (fc : FC) (q : Q) : convQ fc (convQ fc q) = q := by cases fc <;> simp [convQ, swapQ_swapQ]
theorem convQ_unit {fc : FC} {q : Q} (h : q.IsUnit) : (convQ fc q).IsUnit := by
  cases fc
  · exact h
  · simp only [convQ, swapQ, Q.IsUnit, Q.normSq] at *; linarith

/-- **C10, vectors.** The conversion is an involution, an isometry, and a proper rotation (it respects the cross
product); it is linear. -/
theorem C10_conversion (v w : V3) (c : ℝ) :
    swap (swap v) = v ∧ V3.dot (swap v) (swap w) = V3.dot v w ∧ V3.norm (swap v) = V3.norm v ∧
    V3.cross (swap v) (swap w) = swap (V3.cross v w) ∧ swap (v + w) = swap v + swap w ∧ swap (c • v) = c • swap v :=
  ⟨swap_swap v, swap_dot v w, by simp [V3.norm, swap_dot], (swap_cross v w).symm, swap_add v w, conv_smul .NED c v⟩

/-- **C10, set then get.** A position stored in a convention is read back unchanged in it and swapped in the other; the
coordinate-wise accessors agree with the vector ones; same for quaternion coefficients. -/
theorem C10_set_get (f : Frame) (p : V3) (fc : FC) :
    (f.setPosition p fc).getPosition fc = p ∧
    (f.setPosition p .NWU).getPosition .NED = swap p ∧ (f.setPosition p .NED).getPosition .NWU = swap p ∧
    (((f.setX p.x fc).setY p.y fc).setZ p.z fc).getPosition fc = p ∧
    (f.getX fc = (f.getPosition fc).x ∧ f.getY fc = (f.getPosition fc).y ∧ f.getZ fc = (f.getPosition fc).z) ∧
    (f.setPosition p fc).rot = f.rot := by
  refine ⟨conv_conv fc p, rfl, rfl, ?_, ?_, rfl⟩
  · cases fc <;> ext <;> simp [Frame.getPosition, conv, Frame.setX, Frame.setY, Frame.setZ]
  · cases fc <;> simp [Frame.getX, Frame.getY, Frame.getZ, Frame.getPosition, conv]

theorem C10_quaternion_set_get (q : Q) (fc : FC) (h : q.IsUnit) :
    ∃ p, quatSet q fc = some p ∧ p.IsUnit ∧ quatGet p fc = q := by
  refine ⟨convQ fc q, if_pos (convQ_unit h), convQ_unit h, convQ_convQ fc q⟩

example : (⟨0.6, 0, 0.8, 0⟩ : Q).IsUnit := by norm_num [Q.IsUnit, Q.normSq]

/-! ## C11 -/

/-- **C11, isometry.** In both conventions a rotation preserves dot products, norms and cross products. -/
theorem C11_isometry (q : Q) (hq : q.IsUnit) (fc : FC) (v w : V3) :
    V3.dot (rotate q fc v) (rotate q fc w) = V3.dot v w ∧ V3.norm (rotate q fc v) = V3.norm v ∧
    V3.cross (rotate q fc v) (rotate q fc w) = rotate q fc (V3.cross v w) := by
  have hd : ∀ a b, V3.dot (rotate q fc a) (rotate q fc b) = V3.dot a b := by
    intro a b
    unfold rotate Q.rotate
    rw [conv_dot, (Q.isRot hq).dot, conv_dot]
  refine ⟨hd v w, by simp [V3.norm, hd], ?_⟩
  unfold rotate Q.rotate
  rw [← conv_cross, (Q.isRot hq).cross, conv_cross]

/-- **C11, composition and inverse.** `(p*q)` rotates as `p` after `q`, the inverse undoes the rotation on both sides;
products and inverses are again unit quaternions. -/
theorem C11_composition (p q : Q) (hp : p.IsUnit) (hq : q.IsUnit) (fc : FC) (v : V3) :
    rotate (quatMul p q) fc v = rotate p fc (rotate q fc v) ∧
    rotate (quatInv q) fc (rotate q fc v) = v ∧ rotate q fc (rotate (quatInv q) fc v) = v ∧
    (quatMul p q).IsUnit ∧ (quatInv q).IsUnit := by
  unfold rotate quatMul quatInv
  refine ⟨?_, ?_, ?_, hp.mul hq, hq.conj⟩
  · rw [Q.rotate_mul hp hq, conv_conv]
  · rw [conv_conv, Q.rotate_conj hq, conv_conv]
  · rw [conv_conv, Q.rotate_conj' hq, conv_conv]

/-- **C11, matrix.** The rotation matrix has orthonormal columns and determinant 1, applies the same map as `Rotate` in
NWU, and the inverse rotation matrix is its transpose and its inverse; the axes getters are the images of the coordinate
axes in either convention. -/
theorem C11_matrix (q : Q) (hq : q.IsUnit) (v : V3) (fc : FC) :
    (rotMat q).IsRot ∧ (rotMat q).mulVec v = rotate q .NWU v ∧ invRotMat q = (rotMat q).transpose ∧
    (rotMat q).mul (invRotMat q) = M3.one ∧
    getXAxis q fc = rotate q fc V3.e1 ∧ getYAxis q fc = rotate q fc V3.e2 ∧ getZAxis q fc = rotate q fc V3.e3 := by
  have hinv : invRotMat q = (rotMat q).transpose := by
    have : q.normSq = 1 := hq
    unfold invRotMat
    rw [this]
    ext <;> simp [rotMat, Q.toMat, M3.transpose] <;> ring
  refine ⟨Q.isRot hq, rfl, hinv, ?_, ?_, ?_, ?_⟩
  · have h2 : invRotMat q = q.conj.toMat := by
      rw [hinv]; ext <;> simp [rotMat, Q.toMat, M3.transpose] <;> ring
    rw [h2, rotMat, ← Q.toMat_mul hq hq.conj, Q.mul_conj hq]
    ext <;> simp [Q.toMat, M3.one] <;> norm_num
  all_goals
    cases fc <;> ext <;>
      simp [getXAxis, getYAxis, getZAxis, convQ, swapQ, Q.xAxis, Q.yAxis, Q.zAxis, rotate, conv, Q.rotate, Q.toMat, V3.e1, V3.e2, V3.e3] <;> ring

/-! ## C12 -/

theorem ofAngAxis_unit {axis : V3} (h : V3.dot axis axis = 1) (angle : ℝ) : (Q.ofAngAxis angle axis).IsUnit := by
  simp only [Q.IsUnit, Q.normSq, Q.ofAngAxis, V3.dot] at *
  have := Real.sin_sq_add_cos_sq (angle / 2)
  linear_combination (Real.sin (angle / 2)) ^ 2 * h + this

/-- Rodrigues' formula for Chrono's axis–angle quaternion. -/
theorem ofAngAxis_rotate (n : V3) (a : ℝ) (v : V3) :
    (Q.ofAngAxis a n).rotate v =
      Real.cos a • v + Real.sin a • V3.cross n v + ((1 - Real.cos a) * V3.dot n v) • n := by
  have hc : Real.cos a = 2 * Real.cos (a / 2) ^ 2 - 1 := by rw [← Real.cos_two_mul]; congr 1; ring
  have hs : Real.sin a = 2 * Real.sin (a / 2) * Real.cos (a / 2) := by rw [← Real.sin_two_mul]; congr 1; ring
  have h1 := Real.sin_sq_add_cos_sq (a / 2)
  rw [hc, hs]
  ext <;> simp only [Q.rotate, Q.toMat, Q.ofAngAxis, M3.mulVec_x, M3.mulVec_y, M3.mulVec_z, V3.dot, V3.add_x, V3.add_y, V3.add_z,
    V3.smul_x, V3.smul_y, V3.smul_z, V3.cross_x, V3.cross_y, V3.cross_z]
  · linear_combination (2 * n.x * (n.x * v.x + n.y * v.y + n.z * v.z)) * h1
  · linear_combination (2 * n.y * (n.x * v.x + n.y * v.y + n.z * v.z)) * h1
  · linear_combination (2 * n.z * (n.x * v.x + n.y * v.y + n.z * v.z)) * h1

/-- **C12.** A rotation built from a unit axis and an angle is a unit quaternion, leaves the axis fixed, and rotates every
vector by Rodrigues' formula, in the convention it was given in. -/
theorem C12_axis_angle (n : V3) (hn : V3.dot n n = 1) (a : ℝ) (fc : FC) (v : V3) :
    (quatOfAxisAngle n a fc).IsUnit ∧ rotate (quatOfAxisAngle n a fc) fc n = n ∧
    rotate (quatOfAxisAngle n a fc) fc v =
      Real.cos a • v + Real.sin a • V3.cross n v + ((1 - Real.cos a) * V3.dot n v) • n := by
  have hn' : V3.dot (conv fc n) (conv fc n) = 1 := by rw [conv_dot]; exact hn
  have key : ∀ v, rotate (quatOfAxisAngle n a fc) fc v =
      Real.cos a • v + Real.sin a • V3.cross n v + ((1 - Real.cos a) * V3.dot n v) • n := by
    intro v
    unfold rotate quatOfAxisAngle
    rw [ofAngAxis_rotate, conv_add, conv_add, conv_smul, conv_smul, conv_smul, conv_conv, conv_conv, conv_cross,
      conv_conv, conv_conv, conv_dot]
  refine ⟨ofAngAxis_unit hn' a, ?_, key v⟩
  rw [key, hn]
  ext <;> simp <;> ring

/-- Between conventions: the same physical rotation, given by a swapped axis. -/
theorem C12_swapped_axis (n : V3) (a : ℝ) :
    quatOfAxisAngle n a .NED = quatOfAxisAngle (swap n) a .NWU := rfl

/-- The signed angle is additive about a common axis. -/
theorem C12_additive (n : V3) (hn : V3.dot n n = 1) (a b : ℝ) (fc : FC) :
    quatMul (quatOfAxisAngle n a fc) (quatOfAxisAngle n b fc) = quatOfAxisAngle n (a + b) fc := by
  have hn' : V3.dot (conv fc n) (conv fc n) = 1 := by rw [conv_dot]; exact hn
  unfold quatMul quatOfAxisAngle
  generalize conv fc n = m at *
  simp only [V3.dot] at hn'
  have e : (a + b) / 2 = a / 2 + b / 2 := by ring
  ext <;> simp only [Q.ofAngAxis, Q.mul, e, Real.cos_add, Real.sin_add]
  · linear_combination -(Real.sin (a / 2) * Real.sin (b / 2)) * hn'
  · ring
  · ring
  · ring

example : V3.dot ⟨0.6, 0, 0.8⟩ ⟨0.6, 0, 0.8⟩ = 1 := by norm_num [V3.dot]

/-! ## C14 -/

/-- A frame whose rotation is a unit quaternion (all FRyDoM constructors produce such frames). -/
def Frame.Valid (f : Frame) : Prop := f.rot.IsUnit

theorem V3.add_assoc' (a b c : V3) : a + b + c = a + (b + c) := by ext <;> simp <;> ring

/-- **C14, group.** Validity is preserved; the product is associative with the identity frame as unit; inverses work on
both sides. -/
theorem C14_group (A B C : Frame) (hA : A.Valid) (hB : B.Valid) :
    (A.mul B).Valid ∧ A.inv.Valid ∧ Frame.identity.Valid ∧
    (A.mul B).mul C = A.mul (B.mul C) ∧ Frame.identity.mul A = A ∧ A.mul Frame.identity = A ∧
    A.mul A.inv = Frame.identity ∧ A.inv.mul A = Frame.identity := by
  have h0 : ∀ q : Q, q.rotate 0 = 0 := by intro q; ext <;> simp [Q.rotate]
  refine ⟨Q.IsUnit.mul hA hB, Q.IsUnit.conj hA, Q.isUnit_one, ?_, ?_, ?_, ?_, ?_⟩
  · refine Frame.ext ?_ ?_
    · simp only [Frame.mul]
      rw [Q.rotate_mul hA hB, Q.rotate_add, V3.add_assoc']
    · exact Q.mul_assoc _ _ _
  · refine Frame.ext ?_ (Q.one_mul _)
    simp only [Frame.mul, Frame.identity, Q.rotate_one]
    ext <;> simp
  · refine Frame.ext ?_ (Q.mul_one _)
    simp only [Frame.mul, Frame.identity, h0]
    ext <;> simp
  · refine Frame.ext ?_ (Q.mul_conj hA)
    simp only [Frame.mul, Frame.inv, Frame.identity, Q.rotate_neg]
    rw [Q.rotate_conj' hA]
    ext <;> simp
  · refine Frame.ext ?_ (Q.conj_mul hA)
    simp only [Frame.mul, Frame.inv, Frame.identity]
    ext <;> simp

/-- **C14, action on points.** In both conventions: the two point maps are mutually inverse, the product acts by
composition, the inverse frame swaps the two maps, and point maps preserve distances. -/
theorem C14_action (A B : Frame) (hA : A.Valid) (hB : B.Valid) (fc : FC) (p : V3) :
    A.pointInFrame (A.pointInParent p fc) fc = p ∧ A.pointInParent (A.pointInFrame p fc) fc = p ∧
    (A.mul B).pointInParent p fc = A.pointInParent (B.pointInParent p fc) fc ∧
    A.inv.pointInParent p fc = A.pointInFrame p fc ∧
    ∀ p', V3.norm (A.pointInParent p fc - A.pointInParent p' fc) = V3.norm (p - p') := by
  have hc := C11_composition A.rot A.rot hA hA fc
  refine ⟨?_, ?_, ?_, ?_, ?_⟩
  · unfold Frame.pointInFrame Frame.pointInParent Frame.projParentInFrame Frame.projFrameInParent
    have : A.getPosition fc + rotate A.rot fc p - A.getPosition fc = rotate A.rot fc p := by ext <;> simp
    rw [this]; exact (hc p).2.1
  · unfold Frame.pointInFrame Frame.pointInParent Frame.projParentInFrame Frame.projFrameInParent
    rw [(hc _).2.2.1]
    ext <;> simp
  · unfold Frame.pointInParent Frame.projFrameInParent Frame.getPosition Frame.mul rotate
    simp only [Q.rotate_mul hA hB, conv_add, conv_conv, Q.rotate_add, V3.add_assoc']
  · unfold Frame.pointInFrame Frame.pointInParent Frame.projParentInFrame Frame.projFrameInParent Frame.getPosition
      Frame.inv rotate quatInv
    simp only [conv_sub, conv_conv, Q.rotate_sub]
    cases fc <;> ext <;> simp [conv] <;> ring
  · intro p'
    have : A.pointInParent p fc - A.pointInParent p' fc = rotate A.rot fc (p - p') := by
      unfold Frame.pointInParent Frame.projFrameInParent rotate
      rw [conv_sub, Q.rotate_sub, conv_sub]
      ext <;> simp
    rw [this]
    exact (C11_isometry A.rot hA fc _ 0).2.1

/-- **C14, relative transforms** recompose to the other frame, and the two getters are inverse of one another. -/
theorem C14_relative (A B : Frame) (hA : A.Valid) (hB : B.Valid) :
    A.mul (A.otherWrtThis B) = B ∧ B.mul (A.thisWrtOther B) = A ∧
    A.thisWrtOther B = (A.otherWrtThis B).inv ∧ A.thisWrtOther B = B.otherWrtThis A := by
  have e : ∀ A B : Frame, A.Valid → B.Valid → A.mul (A.inv.mul B) = B := by
    intro A B hA hB
    rw [← (C14_group A A.inv B hA (Q.IsUnit.conj hA)).2.2.2.1, (C14_group A A B hA hA).2.2.2.2.2.2.1,
      (C14_group B A B hB hA).2.2.2.2.1]
  have e2 : ∀ A B : Frame, A.Valid → B.Valid → (A.inv.mul B).inv = B.inv.mul A := by
    intro A B hA hB
    refine Frame.ext ?_ ?_
    · simp only [Frame.mul, Frame.inv, Q.conj_mul_rev, Q.conj_conj]
      rw [Q.rotate_mul hB.conj hA]
      simp only [Q.rotate_add, Q.rotate_neg, Q.rotate_conj' hA]
      ext <;> simp <;> ring
    · simp only [Frame.mul, Frame.inv, Q.conj_mul_rev, Q.conj_conj]
  refine ⟨e A B hA hB, ?_, rfl, e2 A B hA hB⟩
  show B.mul (A.inv.mul B).inv = A
  rw [e2 A B hA hB]; exact e B A hB hA

end Frydom.Geom
