import Verif.Geom.Props2
import Verif.Link.Revolute

/-!
# Comparing rotations and frames, reading back an axis and an angle, rotations modified in place (C171, C172)

`src/frydom/core/common/FrRotation.cpp`, `FrFrame.cpp`. The in-place `RotateInParent`/`RotateInFrame` of a quaternion (FrRotation.cpp:162-169) rest on Chrono's `>>=` and
`*=` (which the source itself calls buggy, l.147): they are not modelled.
-/

open Classical

noncomputable section

namespace Frydom.Geom
open Real Frydom.Link

/-- The opposite quaternion (not a function of FRyDoM: used to state the properties). -/
def Q.opp (q : Q) : Q := ⟨-q.e0, -q.e1, -q.e2, -q.e3⟩

/-- `FrUnitQuaternion::operator==`, `FrRotation::operator==` (FrRotation.cpp:153-155, 409-411): Chrono's exact comparison. -/
def quatEq (p q : Q) : Prop := p = q
/-- `FrUnitQuaternion::IsApprox(other, prec)` (FrRotation.cpp:226-228): Chrono's `Equals`, strict and component by component. -/
def quatApprox (p q : Q) (prec : ℝ) : Prop :=
  |p.e0 - q.e0| < prec ∧ |p.e1 - q.e1| < prec ∧ |p.e2 - q.e2| < prec ∧ |p.e3 - q.e3| < prec
/-- `FrUnitQuaternion::IsZero(prec)` (FrRotation.cpp:230-232): the precision is not used. -/
def quatIsZero (q : Q) (_prec : ℝ) : Prop := quatEq q ⟨1, 0, 0, 0⟩

/-- Eigen's `isApprox` (external): relative to the smaller of the two vectors. -/
def posApprox (a b : V3) (prec : ℝ) : Prop := V3.dot (a - b) (a - b) ≤ prec ^ 2 * min (V3.dot a a) (V3.dot b b)
/-- Eigen's `isZero` (external). -/
def posIsZero (a : V3) (prec : ℝ) : Prop := |a.x| ≤ prec ∧ |a.y| ≤ prec ∧ |a.z| ≤ prec

namespace Frame
/-- `FrFrame::operator==` (FrFrame.cpp:150-152). -/
def beq (A B : Frame) : Prop := A.getPosition .NWU = B.getPosition .NWU ∧ quatEq A.rot B.rot
/-- `FrFrame::IsApprox` (FrFrame.cpp:158-161). -/
def isApprox (A B : Frame) (prec : ℝ) : Prop :=
  posApprox (A.getPosition .NWU) (B.getPosition .NWU) prec ∧ quatApprox A.rot B.rot prec
/-- `FrFrame::IsZero` (FrFrame.cpp:163-165). -/
def isZero (A : Frame) (prec : ℝ) : Prop := posIsZero (A.getPosition .NWU) prec ∧ quatIsZero A.rot prec
end Frame

/-- `FrUnitQuaternion::Get(axis, angleRAD, fc)` (FrRotation.cpp:106-111), `FrRotation::GetAxisAngle` (272-274), `GetAxis` (283-286). -/
def getAxisAngle (q : Q) (fc : FC) : V3 × ℝ := (conv fc (angAxis q).1, (angAxis q).2)
/-- `FrRotation::GetRotationVector(fc)` (FrRotation.cpp:276-281). -/
def getRotationVector (q : Q) (fc : FC) : V3 := (getAxisAngle q fc).2 • (getAxisAngle q fc).1

/-- `LeftMultiply`, `RightMultiply`, `LeftMultiplyInverse`, `RightMultiplyInverse` (FrRotation.cpp:210-224, 413-427). -/
def leftMultiply (q : Q) (m : M3) : M3 := (rotMat q).mul m
def rightMultiply (q : Q) (m : M3) : M3 := m.mul (rotMat q)
def leftMultiplyInverse (q : Q) (m : M3) : M3 := (invRotMat q).mul m
def rightMultiplyInverse (q : Q) (m : M3) : M3 := m.mul (invRotMat q)

/-- What a program does in place to one `FrRotation`. -/
inductive RotOp where
  /-- `SetNullRotation()` -/
  | null
  /-- `Set(quaternion)`, with a unit quaternion -/
  | set (q : Q)
  /-- `SetAxisAngle(axis, angle, fc)`, with a unit axis -/
  | setAxisAngle (axis : V3) (angle : ℝ) (fc : FC)
  /-- `SetCardanAngles_DEGREES(phi, theta, psi, fc)` -/
  | setCardanDeg (a : Cardan) (fc : FC)
  /-- `*= other` -/
  | mulAssign (q : Q)
  /-- `RotAxisAngle_RADIANS(axis, angle, fc)` -/
  | rotAxis (axis : V3) (angle : ℝ) (fc : FC)
  /-- `RotX_DEGREES(angle, fc)`, `RotY_DEGREES`, `RotZ_DEGREES` -/
  | rotXDeg (angle : ℝ) (fc : FC)
  | rotYDeg (angle : ℝ) (fc : FC)
  | rotZDeg (angle : ℝ) (fc : FC)
  /-- `GetQuaternion().Inverse()` -/
  | inverse

/-- The arguments are a rotation and a unit axis (checked by the assertions l.56, 61, 65, 69). -/
def RotOp.Legal : RotOp → Prop
  | .set q => q.IsUnit
  | .setAxisAngle n _ _ => V3.dot n n = 1
  | .mulAssign q => q.IsUnit
  | .rotAxis n _ _ => V3.dot n n = 1
  | _ => True

/-- One operation (FrRotation.cpp:80-82, 255-257; 59-62, 259-261; 268-270; 350-352; 145-151, 404-407; 429-432; 442-460; 171-176). -/
def RotOp.apply (q : Q) : RotOp → Q
  | .null => Q.one
  | .set p => p
  | .setAxisAngle n a fc => quatOfAxisAngle n a fc
  | .setCardanDeg a fc => Geom.setCardanDeg fc a
  | .mulAssign p => quatMul q p
  | .rotAxis n a fc => rotAxisAngle q n a fc
  | .rotXDeg a fc => rotAxisAngle q ⟨1, 0, 0⟩ (a * deg2rad) fc
  | .rotYDeg a fc => rotAxisAngle q ⟨0, 1, 0⟩ (a * deg2rad) fc
  | .rotZDeg a fc => rotAxisAngle q ⟨0, 0, 1⟩ (a * deg2rad) fc
  | .inverse => quatInv q

/-- A sequence of operations on a default-constructed rotation (`FrRotation()`, FrRotation.cpp:23-25, 242). -/
def rotRun (l : List RotOp) : Q := l.foldl RotOp.apply Q.one

/-- `GetEulerAngles_DEGREES`, `GetCardanAngles_DEGREES` (FrRotation.cpp:371-377, 383-385). -/
def getCardanDeg (junk : ℝ) (fc : FC) (q : Q) : Cardan :=
  let a := getCardan junk fc q
  ⟨a.roll * (180 / π), a.pitch * (180 / π), a.yaw * (180 / π)⟩

/-! ## Specification -/

/-- Rodrigues' rotation about the unit axis `n` by `a`, the textbook formula. -/
def turnAbout (n : V3) (a : ℝ) (v : V3) : V3 := cos a • v + sin a • V3.cross n v + ((1 - cos a) * V3.dot n v) • n

/-- The map (and its inverse) that a program would expect its `FrRotation` to be after one operation: `.1` the map, `.2` the inverse map, on vectors expressed in the convention `fc` of
the reader. A rotation about an axis given in `fc'` is the Rodrigues rotation of the vectors expressed in `fc'`. -/
def seenIn (fc fc' : FC) (f : V3 → V3) (v : V3) : V3 := conv fc (conv fc' (f (conv fc' (conv fc v))))
def RotOp.expected (fc : FC) (m : (V3 → V3) × (V3 → V3)) : RotOp → (V3 → V3) × (V3 → V3)
  | .null => (id, id)
  | .set q => (rotate q fc, rotate (quatInv q) fc)
  | .setAxisAngle n a fc' => (seenIn fc fc' (turnAbout n a), seenIn fc fc' (turnAbout n (-a)))
  | .setCardanDeg a fc' =>
    let r (n : V3) (x : ℝ) := seenIn fc fc' (turnAbout n (x * π / 180))
    (r V3.e3 a.yaw ∘ r V3.e2 a.pitch ∘ r V3.e1 a.roll, r V3.e1 (-a.roll) ∘ r V3.e2 (-a.pitch) ∘ r V3.e3 (-a.yaw))
  | .mulAssign q => (m.1 ∘ rotate q fc, rotate (quatInv q) fc ∘ m.2)
  | .rotAxis n a fc' => (m.1 ∘ seenIn fc fc' (turnAbout n a), seenIn fc fc' (turnAbout n (-a)) ∘ m.2)
  | .rotXDeg a fc' => (m.1 ∘ seenIn fc fc' (turnAbout V3.e1 (a * π / 180)), seenIn fc fc' (turnAbout V3.e1 (-(a * π / 180))) ∘ m.2)
  | .rotYDeg a fc' => (m.1 ∘ seenIn fc fc' (turnAbout V3.e2 (a * π / 180)), seenIn fc fc' (turnAbout V3.e2 (-(a * π / 180))) ∘ m.2)
  | .rotZDeg a fc' => (m.1 ∘ seenIn fc fc' (turnAbout V3.e3 (a * π / 180)), seenIn fc fc' (turnAbout V3.e3 (-(a * π / 180))) ∘ m.2)
  | .inverse => (m.2, m.1)

/-! ## Lemmas -/

theorem opp_toMat (q : Q) : q.opp.toMat = q.toMat := by
  simp only [Q.toMat, Q.opp, neg_mul_neg]

theorem opp_rotate (q : Q) (fc : FC) (v : V3) : rotate q.opp fc v = rotate q fc v := by
  unfold rotate Q.rotate
  rw [opp_toMat]

theorem rotate_norm {q : Q} (h : q.IsUnit) (v : V3) : V3.dot (q.rotate v) (q.rotate v) = V3.dot v v := (Q.isRot h).dot v v

/-- How far a unit quaternion moves a vector. -/
theorem rotate_sub_self {r : Q} (h : r.IsUnit) (v : V3) :
    V3.dot (r.rotate v - v) (r.rotate v - v) ≤ 4 * (1 - r.e0 ^ 2) * V3.dot v v := by
  have hu : r.e0 ^ 2 + r.e1 ^ 2 + r.e2 ^ 2 + r.e3 ^ 2 = 1 := h
  have e : V3.dot (r.rotate v - v) (r.rotate v - v) =
      4 * ((r.e1 ^ 2 + r.e2 ^ 2 + r.e3 ^ 2) * V3.dot v v - (r.e1 * v.x + r.e2 * v.y + r.e3 * v.z) ^ 2) := by
    have h0 : r.e0 ^ 2 = 1 - (r.e1 ^ 2 + r.e2 ^ 2 + r.e3 ^ 2) := by linarith
    have k : r.rotate v - v = ⟨2 * (r.e0 * (r.e2 * v.z - r.e3 * v.y) + (r.e2 * (r.e1 * v.y - r.e2 * v.x) - r.e3 * (r.e3 * v.x - r.e1 * v.z))),
        2 * (r.e0 * (r.e3 * v.x - r.e1 * v.z) + (r.e3 * (r.e2 * v.z - r.e3 * v.y) - r.e1 * (r.e1 * v.y - r.e2 * v.x))),
        2 * (r.e0 * (r.e1 * v.y - r.e2 * v.x) + (r.e1 * (r.e3 * v.x - r.e1 * v.z) - r.e2 * (r.e2 * v.z - r.e3 * v.y)))⟩ := by
      ext <;> simp [Q.rotate, Q.toMat]
      · linear_combination 2 * v.x * h0
      · linear_combination 2 * v.y * h0
      · linear_combination 2 * v.z * h0
    rw [k]
    simp only [V3.dot]
    linear_combination 4 * ((r.e2 * v.z - r.e3 * v.y) ^ 2 + (r.e3 * v.x - r.e1 * v.z) ^ 2 + (r.e1 * v.y - r.e2 * v.x) ^ 2) * h0
  rw [e]
  have : r.e1 ^ 2 + r.e2 ^ 2 + r.e3 ^ 2 = 1 - r.e0 ^ 2 := by linarith
  rw [this]
  nlinarith [sq_nonneg (r.e1 * v.x + r.e2 * v.y + r.e3 * v.z)]

theorem norm_le_of_dot {a : V3} {c : ℝ} (hc : 0 ≤ c) (h : V3.dot a a ≤ c ^ 2) : V3.norm a ≤ c :=
  Real.sqrt_le_iff.mpr ⟨hc, h⟩

/-- Two unit quaternions at distance `d` move every vector to two points at distance at most `2 d` times its length. -/
theorem rotate_close {p q : Q} (hp : p.IsUnit) (hq : q.IsUnit) (v : V3) :
    V3.dot (p.rotate v - q.rotate v) (p.rotate v - q.rotate v) ≤
      4 * ((p.e0 - q.e0) ^ 2 + (p.e1 - q.e1) ^ 2 + (p.e2 - q.e2) ^ 2 + (p.e3 - q.e3) ^ 2) * V3.dot v v := by
  set r := q.conj.mul p with hr
  have hru : r.IsUnit := hq.conj.mul hp
  have e1 : p.rotate v - q.rotate v = q.rotate (r.rotate v - v) := by
    rw [hr, Q.rotate_sub, Q.rotate_mul hq.conj hp, Q.rotate_conj' hq]
  rw [e1, rotate_norm hq]
  refine (rotate_sub_self hru v).trans ?_
  have e0 : r.e0 = q.e0 * p.e0 + q.e1 * p.e1 + q.e2 * p.e2 + q.e3 * p.e3 := by
    rw [hr]; simp
  have hp' : p.e0 ^ 2 + p.e1 ^ 2 + p.e2 ^ 2 + p.e3 ^ 2 = 1 := hp
  have hq' : q.e0 ^ 2 + q.e1 ^ 2 + q.e2 ^ 2 + q.e3 ^ 2 = 1 := hq
  have hd : (p.e0 - q.e0) ^ 2 + (p.e1 - q.e1) ^ 2 + (p.e2 - q.e2) ^ 2 + (p.e3 - q.e3) ^ 2 = 2 * (1 - r.e0) := by
    rw [e0]; linear_combination hp' + hq'
  rw [hd]
  have hv := V3.dot_self_nonneg v
  have : 1 - r.e0 ^ 2 ≤ 2 * (1 - r.e0) := by nlinarith [sq_nonneg (1 - r.e0)]
  nlinarith

/-! ## C171: comparisons -/

/-- **C171, the comparison of rotations is sound.** Two equal rotations turn every vector alike; two rotations found approximately equal turn every vector to points closer than four times
the precision times its length. The comparison is symmetric, and holds between a rotation and itself for every positive precision (but not for a null one). -/
theorem C171_rotation_sound (p q : Q) (hp : p.IsUnit) (hq : q.IsUnit) (prec : ℝ) (fc : FC) :
    (quatEq p q → ∀ v, rotate p fc v = rotate q fc v) ∧
    (quatApprox p q prec → ∀ v, V3.norm (rotate p fc v - rotate q fc v) ≤ 4 * prec * V3.norm v) ∧
    (quatApprox p q prec ↔ quatApprox q p prec) ∧ (quatApprox p p prec ↔ 0 < prec) := by
  refine ⟨fun h v => by rw [show p = q from h], fun h v => ?_, ?_, ?_⟩
  · obtain ⟨h0, h1, h2, h3⟩ := h
    have hpr : 0 ≤ prec := (abs_nonneg _).trans h0.le
    have s : ∀ x : ℝ, |x| < prec → x ^ 2 ≤ prec ^ 2 := fun x hx => by
      rw [← sq_abs]; exact pow_le_pow_left₀ (abs_nonneg _) hx.le 2
    refine norm_le_of_dot (by have := V3.norm_nonneg v; positivity) ?_
    unfold rotate
    rw [← conv_sub, conv_dot]
    refine (rotate_close hp hq _).trans ?_
    rw [conv_dot, mul_pow, V3.norm_sq]
    refine mul_le_mul_of_nonneg_right ?_ (V3.dot_self_nonneg v)
    have := s _ h0; have := s _ h1; have := s _ h2; have := s _ h3
    nlinarith
  · unfold quatApprox
    simp only [abs_sub_comm]
  · unfold quatApprox
    simp

/-- The comparison meets both outcomes. -/
example : quatApprox Q.one ⟨0.8, 0.6, 0, 0⟩ 0.7 ∧ ¬ quatApprox Q.one ⟨0.8, 0.6, 0, 0⟩ 0.6 ∧ (⟨0.8, 0.6, 0, 0⟩ : Q).IsUnit := by
  refine ⟨?_, ?_, ?_⟩
  · unfold quatApprox; simp; norm_num
  · rintro ⟨-, h, -⟩
    norm_num [abs_lt] at h
  · simp [Q.IsUnit, Q.normSq]; norm_num

/-- **C171, counterexample: the same rotation is not recognised.** Every rotation has two quaternions, which turn every vector alike but are never equal, nor approximately equal for any
precision up to 1 (the default is 1e-8); the opposite one appears as soon as a full turn is added to an angle. -/
theorem C171_same_rotation_counterexample (q : Q) (hq : q.IsUnit) (prec : ℝ) (hprec : prec ≤ 1) :
    q.opp.IsUnit ∧ (∀ fc v, rotate q.opp fc v = rotate q fc v) ∧ ¬ quatEq q.opp q ∧ ¬ quatApprox q.opp q prec ∧
    ∀ (n : V3) (a : ℝ) (fc : FC), q = quatOfAxisAngle n a fc → quatOfAxisAngle n (a + 2 * π) fc = q.opp := by
  have hq' : q.e0 ^ 2 + q.e1 ^ 2 + q.e2 ^ 2 + q.e3 ^ 2 = 1 := hq
  have key : ¬ quatApprox q.opp q 1 := by
    rintro ⟨h0, h1, h2, h3⟩
    simp only [Q.opp] at h0 h1 h2 h3
    have s : ∀ x : ℝ, |-x - x| < 1 → x ^ 2 < 1 / 4 := fun x hx => by
      obtain ⟨h1, h2⟩ := abs_lt.mp hx
      nlinarith
    have := s _ h0; have := s _ h1; have := s _ h2; have := s _ h3
    linarith
  have up : quatApprox q.opp q prec → quatApprox q.opp q 1 := fun ⟨h0, h1, h2, h3⟩ =>
    ⟨h0.trans_le hprec, h1.trans_le hprec, h2.trans_le hprec, h3.trans_le hprec⟩
  refine ⟨?_, fun fc v => opp_rotate q fc v, fun h => key ?_, fun h => key (up h), ?_⟩
  · show (-q.e0) ^ 2 + (-q.e1) ^ 2 + (-q.e2) ^ 2 + (-q.e3) ^ 2 = 1
    linarith
  · have h' : q.opp = q := h
    rw [h']
    unfold quatApprox
    simp
  · intro n a fc h
    rw [h]
    unfold quatOfAxisAngle Q.ofAngAxis Q.opp
    rw [show (a + 2 * π) / 2 = a / 2 + π by ring, Real.cos_add_pi, Real.sin_add_pi]
    ext <;> simp

/-- **C171, the null rotation.** `IsZero` does not look at its precision: only the quaternion (1,0,0,0) is null; a rotation about a unit axis is null exactly when its angle is a multiple of
4π, so no small angle is, whatever the precision. -/
theorem C171_null_rotation (n : V3) (hn : V3.dot n n = 1) (a prec : ℝ) (fc : FC) :
    (quatIsZero (quatOfAxisAngle n a fc) prec ↔ ∃ k : ℤ, a = k * (4 * π)) ∧
    ((∀ v, rotate (quatOfAxisAngle n a fc) fc v = v) ↔ ∃ k : ℤ, a = k * (2 * π)) := by
  have hn' : V3.dot (conv fc n) (conv fc n) = 1 := by rw [conv_dot]; exact hn
  constructor
  · constructor
    · intro h
      have h0 : cos (a / 2) = 1 := congrArg Q.e0 (show quatOfAxisAngle n a fc = _ from h)
      obtain ⟨k, hk⟩ := (Real.cos_eq_one_iff _).mp h0
      exact ⟨k, by linarith⟩
    · rintro ⟨k, rfl⟩
      have e : k * (4 * π) / 2 = k * (2 * π) := by ring
      show quatOfAxisAngle n _ fc = _
      unfold quatOfAxisAngle Q.ofAngAxis
      have hs : sin (k * (2 * π)) = 0 := by
        have := Real.sin_int_mul_two_pi_sub 0 k
        simpa using this
      rw [e, Real.cos_int_mul_two_pi, hs]
      ext <;> simp
  · have hrod := fun v => (C12_axis_angle n hn a fc v).2.2
    constructor
    · intro h
      -- some unit vector is orthogonal to the axis
      obtain ⟨w, hw, hw0⟩ : ∃ w : V3, V3.dot n w = 0 ∧ V3.dot w w ≠ 0 := by
        by_cases hx : n.x = 0 ∧ n.y = 0
        · refine ⟨⟨1, 0, 0⟩, ?_, ?_⟩ <;> simp [V3.dot, hx.1]
        · refine ⟨⟨-n.y, n.x, 0⟩, by simp [V3.dot]; ring, ?_⟩
          intro h0
          simp only [V3.dot] at h0
          apply hx
          constructor <;> nlinarith [sq_nonneg n.x, sq_nonneg n.y]
      have hc := h w
      rw [hrod w, hw, mul_zero] at hc
      have hd := congrArg (V3.dot w) hc
      have e : V3.dot w (cos a • w + sin a • V3.cross n w + (0 : ℝ) • n) = cos a * V3.dot w w := by
        simp only [V3.dot, V3.add_x, V3.add_y, V3.add_z, V3.smul_x, V3.smul_y, V3.smul_z, V3.cross_x, V3.cross_y, V3.cross_z]
        ring
      rw [e] at hd
      have h1 : cos a = 1 := by
        have : (cos a - 1) * V3.dot w w = 0 := by linarith
        rcases mul_eq_zero.mp this with h | h
        · linarith
        · exact absurd h hw0
      obtain ⟨k, hk⟩ := (Real.cos_eq_one_iff _).mp h1
      exact ⟨k, hk.symm⟩
    · rintro ⟨k, rfl⟩ v
      rw [hrod v, Real.cos_int_mul_two_pi]
      have hs : sin (k * (2 * π)) = 0 := by
        have := Real.sin_int_mul_two_pi_sub 0 k
        simpa using this
      rw [hs]
      ext <;> simp

/-- **C171, the comparison of frames.** Two frames found approximately equal send every point to two points closer than the precision times the distance of the nearer origin plus four times
the precision times the distance of the point. The comparison of positions is relative: a frame at the origin of its parent is only approximately equal to frames that are there too; and
frames as far apart as wanted are approximately equal if they are far enough. -/
theorem C171_frames (A B : Frame) (hA : A.Valid) (hB : B.Valid) (prec : ℝ) (fc : FC) :
    (A.isApprox B prec → ∀ p, V3.norm (A.pointInParent p fc - B.pointInParent p fc) ≤
      prec * min (V3.norm (A.getPosition fc)) (V3.norm (B.getPosition fc)) + 4 * prec * V3.norm p) ∧
    (A.isApprox B prec ↔ B.isApprox A prec) ∧ (A.getPosition fc = 0 → A.isApprox B prec → B.getPosition fc = 0) ∧
    (A.beq B ↔ A = B) ∧
    (A.isZero prec → A.rot = Q.one ∧ V3.norm (A.getPosition fc) ≤ 2 * prec) := by
  have nconv : ∀ v : V3, V3.norm (conv fc v) = V3.norm v := fun v => by unfold V3.norm; rw [conv_dot]
  have tri : ∀ a b : V3, V3.norm (a + b) ≤ V3.norm a + V3.norm b := fun a b => by
    refine norm_le_of_dot (by have := V3.norm_nonneg a; have := V3.norm_nonneg b; positivity) ?_
    have cs : V3.dot a b ≤ V3.norm a * V3.norm b := by
      refine Real.le_sqrt_of_sq_le ?_ |>.trans_eq (Real.sqrt_mul (V3.dot_self_nonneg a) _)
      simp only [V3.dot]
      nlinarith [sq_nonneg (a.x * b.y - a.y * b.x), sq_nonneg (a.x * b.z - a.z * b.x), sq_nonneg (a.y * b.z - a.z * b.y)]
    have e : V3.dot (a + b) (a + b) = V3.dot a a + 2 * V3.dot a b + V3.dot b b := by simp [V3.dot]; ring
    rw [e, ← V3.norm_sq a, ← V3.norm_sq b]
    nlinarith
  refine ⟨fun h p => ?_, ?_, fun h0 h => ?_, ?_, ?_⟩
  · obtain ⟨hpos, hrot⟩ := h
    have hr := (C171_rotation_sound A.rot B.rot hA hB prec fc).2.1 hrot p
    have hpr : 0 ≤ prec := (abs_nonneg _).trans hrot.1.le
    have e : A.pointInParent p fc - B.pointInParent p fc = conv fc (A.pos - B.pos) + (rotate A.rot fc p - rotate B.rot fc p) := by
      unfold Frame.pointInParent Frame.getPosition Frame.projFrameInParent
      rw [conv_sub]
      ext <;> simp <;> ring
    rw [e]
    refine (tri _ _).trans (add_le_add ?_ hr)
    show V3.norm (conv fc _) ≤ prec * min (V3.norm (conv fc A.pos)) (V3.norm (conv fc B.pos))
    rw [nconv, nconv, nconv]
    have hm : 0 ≤ min (V3.norm A.pos) (V3.norm B.pos) := le_min (V3.norm_nonneg _) (V3.norm_nonneg _)
    refine norm_le_of_dot (mul_nonneg hpr hm) ?_
    refine (show V3.dot (A.pos - B.pos) (A.pos - B.pos) ≤ prec ^ 2 * min (V3.dot A.pos A.pos) (V3.dot B.pos B.pos) from hpos).trans ?_
    rw [mul_pow]
    refine mul_le_mul_of_nonneg_left ?_ (sq_nonneg _)
    rcases le_total (V3.norm A.pos) (V3.norm B.pos) with h | h
    · rw [min_eq_left h, V3.norm_sq]; exact min_le_left _ _
    · rw [min_eq_right h, V3.norm_sq]; exact min_le_right _ _
  · unfold Frame.isApprox posApprox
    rw [(C171_rotation_sound A.rot B.rot hA hB prec fc).2.2.1, min_comm]
    have e : ∀ a b : V3, V3.dot (a - b) (a - b) = V3.dot (b - a) (b - a) := fun a b => by simp [V3.dot]; ring
    rw [e]
  · have hA0 : A.pos = 0 := by
      have := congrArg (conv fc) h0
      unfold Frame.getPosition at this
      rw [conv_conv] at this
      rw [this]
      cases fc
      · rfl
      · ext <;> simp [conv]
    have hp : V3.dot (A.pos - B.pos) (A.pos - B.pos) ≤ prec ^ 2 * min (V3.dot A.pos A.pos) (V3.dot B.pos B.pos) := h.1
    have z : V3.dot A.pos A.pos = 0 := by rw [hA0]; simp [V3.dot]
    rw [z, min_eq_left (V3.dot_self_nonneg _), mul_zero] at hp
    have : A.pos - B.pos = 0 := V3.dot_self_eq_zero (le_antisymm hp (V3.dot_self_nonneg _))
    have hB0 : B.pos = 0 := by
      have hx := congrArg V3.x this; have hy := congrArg V3.y this; have hz := congrArg V3.z this
      rw [hA0] at hx hy hz
      simp at hx hy hz
      ext <;> simp [hx, hy, hz]
    unfold Frame.getPosition
    rw [hB0]
    cases fc
    · rfl
    · ext <;> simp [conv]
  · constructor
    · rintro ⟨h1, h2⟩
      exact Frame.ext h1 h2
    · rintro rfl
      exact ⟨rfl, rfl⟩
  · rintro ⟨⟨hx, hy, hz⟩, hr⟩
    have hpr : 0 ≤ prec := (abs_nonneg _).trans hx
    refine ⟨hr, ?_⟩
    show V3.norm (conv fc A.pos) ≤ _
    rw [nconv]
    refine norm_le_of_dot (by positivity) ?_
    have s : ∀ x : ℝ, |x| ≤ prec → x * x ≤ prec ^ 2 := fun x hx => by
      rw [← abs_mul_abs_self, ← sq]; exact pow_le_pow_left₀ (abs_nonneg _) hx 2
    have := s _ hx; have := s _ hy; have := s _ hz
    show A.pos.x * A.pos.x + A.pos.y * A.pos.y + A.pos.z * A.pos.z ≤ _
    simp only [Frame.getPosition, conv] at *
    nlinarith

/-- **C171, counterexample: far frames.** For every positive precision and every distance there are two frames, of the same orientation, that far apart and found approximately equal. -/
theorem C171_far_counterexample (prec d : ℝ) (hprec : 0 < prec) (hd : 0 ≤ d) :
    ∃ A B : Frame, A.Valid ∧ B.Valid ∧ V3.norm (A.getPosition .NWU - B.getPosition .NWU) = d ∧ A.isApprox B prec := by
  refine ⟨⟨⟨d / prec, 0, 0⟩, Q.one⟩, ⟨⟨d / prec + d, 0, 0⟩, Q.one⟩, Q.isUnit_one, Q.isUnit_one, ?_, ?_, ?_⟩
  · show V3.norm (_ - _) = d
    have : V3.dot ((⟨d / prec, 0, 0⟩ : V3) - ⟨d / prec + d, 0, 0⟩) ((⟨d / prec, 0, 0⟩ : V3) - ⟨d / prec + d, 0, 0⟩) = d ^ 2 := by
      simp [V3.dot]; ring
    simp only [Frame.getPosition, conv, V3.norm]
    rw [this]
    exact Real.sqrt_sq hd
  · show V3.dot _ _ ≤ _
    simp only [Frame.getPosition, conv, V3.dot, V3.sub_x, V3.sub_y, V3.sub_z]
    have h0 : 0 ≤ d / prec := by positivity
    rw [min_eq_left (by nlinarith)]
    have : prec ^ 2 * (d / prec * (d / prec) + 0 * 0 + 0 * 0) = d ^ 2 := by field_simp; ring
    rw [this]
    nlinarith
  · unfold quatApprox
    simpa using hprec

/-! ## C172: axis and angle, matrices, histories -/

theorem sin_arccos_unit {q : Q} (h : q.IsUnit) : sin (arccos q.e0) ^ 2 = q.e1 ^ 2 + q.e2 ^ 2 + q.e3 ^ 2 := by
  have hu : q.e0 ^ 2 + q.e1 ^ 2 + q.e2 ^ 2 + q.e3 ^ 2 = 1 := h
  rw [Real.sin_arccos, Real.sq_sqrt (by nlinarith [sq_nonneg q.e1, sq_nonneg q.e2, sq_nonneg q.e3])]
  linarith

/-- The axis and angle read from a quaternion outside the dead band. -/
theorem angAxis_spec {q : Q} (h : q.IsUnit) (hb : |q.e0| < 0.99999999) :
    0 < sin (arccos q.e0) ∧ (angAxis q).2 = 2 * arccos q.e0 ∧
    (angAxis q).1 = ⟨q.e1 / sin (arccos q.e0), q.e2 / sin (arccos q.e0), q.e3 / sin (arccos q.e0)⟩ := by
  have hs : 0 < sin (arccos q.e0) := sin_acos_pos (hb.trans (by norm_num))
  have e := sin_arccos_unit h
  refine ⟨hs, by unfold angAxis; rw [if_pos hb], ?_⟩
  unfold angAxis
  rw [if_pos hb]
  have hn : V3.norm ⟨1 / sin (arccos q.e0) * q.e1, 1 / sin (arccos q.e0) * q.e2, 1 / sin (arccos q.e0) * q.e3⟩ = 1 := by
    unfold V3.norm V3.dot
    rw [show 1 / sin (arccos q.e0) * q.e1 * (1 / sin (arccos q.e0) * q.e1) + 1 / sin (arccos q.e0) * q.e2 * (1 / sin (arccos q.e0) * q.e2) +
      1 / sin (arccos q.e0) * q.e3 * (1 / sin (arccos q.e0) * q.e3) = (q.e1 ^ 2 + q.e2 ^ 2 + q.e3 ^ 2) / sin (arccos q.e0) ^ 2 by field_simp,
      ← e, div_self (by positivity), Real.sqrt_one]
  simp only [V3.normalized]
  rw [hn]
  ext <;> simp <;> ring

/-- **C172, the axis and the angle describe the rotation.** Outside a band of 3e-4 rad around the null rotation, the axis returned is a unit vector, the angle is in ]0, 2π[, and the rotation
rebuilt from them is the same one, quaternion included; inside the band the answer is no rotation at all, about the axis x, and the error on every vector is at most 3e-4 of its length. The
rotation vector is the angle times the axis. -/
theorem C172_axis_angle (q : Q) (hq : q.IsUnit) (fc : FC) :
    (|q.e0| < 0.99999999 → V3.dot (getAxisAngle q fc).1 (getAxisAngle q fc).1 = 1 ∧ 0 < (getAxisAngle q fc).2 ∧
      (getAxisAngle q fc).2 < 2 * π ∧ quatOfAxisAngle (getAxisAngle q fc).1 (getAxisAngle q fc).2 fc = q) ∧
    (¬ |q.e0| < 0.99999999 → getAxisAngle q fc = (V3.e1, 0) ∧
      ∀ v, V3.norm (rotate q fc v - v) ≤ 3e-4 * V3.norm v) ∧
    getRotationVector q fc = (getAxisAngle q fc).2 • (getAxisAngle q fc).1 := by
  have hu : q.e0 ^ 2 + q.e1 ^ 2 + q.e2 ^ 2 + q.e3 ^ 2 = 1 := hq
  refine ⟨fun hb => ?_, fun hb => ⟨?_, fun v => ?_⟩, rfl⟩
  · obtain ⟨hs, h2, h1⟩ := angAxis_spec hq hb
    have e := sin_arccos_unit hq
    have hlt : |q.e0| < 1 := hb.trans (by norm_num)
    have hcos : cos (arccos q.e0) = q.e0 := Real.cos_arccos (abs_lt.mp hlt).1.le (abs_lt.mp hlt).2.le
    have hpi : arccos q.e0 ≠ π := fun h => by rw [h, Real.sin_pi] at hs; exact lt_irrefl _ hs
    have h0 : arccos q.e0 ≠ 0 := fun h => by rw [h, Real.sin_zero] at hs; exact lt_irrefl _ hs
    refine ⟨?_, ?_, ?_, ?_⟩
    · show V3.dot (conv fc _) (conv fc _) = 1
      rw [conv_dot, h1]
      show q.e1 / _ * (q.e1 / _) + q.e2 / _ * (q.e2 / _) + q.e3 / _ * (q.e3 / _) = 1
      field_simp
      linarith
    · show 0 < (angAxis q).2
      rw [h2]
      have := lt_of_le_of_ne (Real.arccos_nonneg q.e0) h0.symm
      linarith
    · show (angAxis q).2 < _
      rw [h2]
      have := lt_of_le_of_ne (Real.arccos_le_pi q.e0) hpi
      linarith
    · show Q.ofAngAxis (angAxis q).2 (conv fc (conv fc _)) = q
      rw [conv_conv, h2, h1]
      unfold Q.ofAngAxis
      rw [show 2 * arccos q.e0 / 2 = arccos q.e0 by ring, hcos]
      ext <;> simp [div_mul_cancel₀ _ hs.ne']
  · have e : angAxis q = (⟨1, 0, 0⟩, 0) := if_neg hb
    unfold getAxisAngle
    rw [e]
    cases fc
    · rfl
    · simp [conv, swap, V3.e1]
  · have hn := V3.norm_nonneg v
    refine norm_le_of_dot (by positivity) ?_
    have e : rotate q fc v - v = conv fc (q.rotate (conv fc v) - conv fc v) := by
      unfold rotate
      rw [conv_sub, conv_conv]
    rw [e, conv_dot, mul_pow, V3.norm_sq]
    refine (rotate_sub_self hq _).trans ?_
    rw [conv_dot]
    refine mul_le_mul_of_nonneg_right ?_ (V3.dot_self_nonneg v)
    have h1 : (0.99999999 : ℝ) ≤ |q.e0| := not_lt.mp hb
    have h2 : (0.99999999 : ℝ) ^ 2 ≤ q.e0 ^ 2 := by rw [← sq_abs q.e0]; exact pow_le_pow_left₀ (by norm_num) h1 2
    norm_num at h2 ⊢
    linarith

/-- **C172, reading back.** For a unit axis and an angle in ]0, 2π[ outside the band, the axis and the angle given are the ones read back in the same convention, and the rotation vector is
their product; a negative angle comes back as its opposite, about the opposite axis. -/
theorem C172_round_trip (n : V3) (hn : V3.dot n n = 1) (a : ℝ) (h0 : 0 < a) (h1 : a < 2 * π) (hb : |cos (a / 2)| < 0.99999999) (fc : FC) :
    getAxisAngle (quatOfAxisAngle n a fc) fc = (n, a) ∧ getRotationVector (quatOfAxisAngle n a fc) fc = a • n ∧
    getAxisAngle (quatOfAxisAngle n (-a) fc) fc = (-n, a) ∧ getRotationVector (quatOfAxisAngle n (-a) fc) fc = (-a) • n := by
  have key : ∀ m : V3, V3.dot m m = 1 → getAxisAngle (quatOfAxisAngle m a fc) fc = (m, a) := by
    intro m hm
    have hq := (C12_axis_angle m hm a fc 0).1
    have e0 : (quatOfAxisAngle m a fc).e0 = cos (a / 2) := rfl
    obtain ⟨hs, h2, h1'⟩ := angAxis_spec hq (by rw [e0]; exact hb)
    have hac : arccos (cos (a / 2)) = a / 2 := Real.arccos_cos (by linarith) (by linarith)
    rw [e0, hac] at hs h2 h1'
    unfold getAxisAngle
    rw [h2, h1']
    have : (⟨(quatOfAxisAngle m a fc).e1 / sin (a / 2), (quatOfAxisAngle m a fc).e2 / sin (a / 2), (quatOfAxisAngle m a fc).e3 / sin (a / 2)⟩ : V3) =
        conv fc m := by
      ext <;> simp [quatOfAxisAngle, Q.ofAngAxis, mul_div_assoc, div_self hs.ne']
    rw [this, conv_conv]
    refine Prod.ext rfl ?_
    show 2 * (a / 2) = a
    ring
  have hneg : quatOfAxisAngle n (-a) fc = quatOfAxisAngle (-n) a fc := by
    unfold quatOfAxisAngle Q.ofAngAxis
    rw [show -a / 2 = -(a / 2) by ring, Real.cos_neg, Real.sin_neg]
    cases fc <;> ext <;> simp [conv]
  have hn' : V3.dot (-n) (-n) = 1 := by simpa [V3.dot] using hn
  refine ⟨key n hn, ?_, ?_, ?_⟩
  · unfold getRotationVector
    rw [key n hn]
  · rw [hneg]
    exact key _ hn'
  · unfold getRotationVector
    rw [hneg, key _ hn']
    ext <;> simp

/-- A quarter turn is outside the band. -/
example : V3.dot V3.e2 V3.e2 = 1 ∧ (0 : ℝ) < π / 2 ∧ π / 2 < 2 * π ∧ |cos (π / 2 / 2)| < 0.99999999 := by
  refine ⟨by simp [V3.dot, V3.e2], by positivity, by linarith [Real.pi_pos], ?_⟩
  rw [show π / 2 / 2 = π / 4 by ring, Real.cos_pi_div_four, abs_of_nonneg (by positivity)]
  have : Real.sqrt 2 < 1.5 := by
    rw [Real.sqrt_lt' (by norm_num)]; norm_num
  linarith

/-- **C172, multiplying matrices.** Multiplying a matrix on the left turns its columns, that is what it does to a vector; on the right it is applied to the turned vector; the inverse versions
undo the direct ones; together they give the matrix of the same linear map in turned axes. -/
theorem C172_matrices (q : Q) (hq : q.IsUnit) (m : M3) (v : V3) :
    (leftMultiply q m).mulVec v = rotate q .NWU (m.mulVec v) ∧ (rightMultiply q m).mulVec v = m.mulVec (rotate q .NWU v) ∧
    (leftMultiplyInverse q m).mulVec v = rotate (quatInv q) .NWU (m.mulVec v) ∧
    (rightMultiplyInverse q m).mulVec v = m.mulVec (rotate (quatInv q) .NWU v) ∧
    leftMultiplyInverse q (leftMultiply q m) = m ∧ rightMultiplyInverse q (rightMultiply q m) = m ∧
    (leftMultiply q (rightMultiplyInverse q m)).mulVec (rotate q .NWU v) = rotate q .NWU (m.mulVec v) := by
  have hinv : ∀ w, (invRotMat q).mulVec w = rotate (quatInv q) .NWU w := fun w => by
    have hu : q.normSq = 1 := hq
    unfold invRotMat
    rw [hu]
    simp only [div_one]
    rfl
  have hl : ∀ m : M3, ∀ v, (leftMultiply q m).mulVec v = rotate q .NWU (m.mulVec v) := fun m v => Q.mulVec_mul _ _ _
  have hr : ∀ m : M3, ∀ v, (rightMultiply q m).mulVec v = m.mulVec (rotate q .NWU v) := fun m v => Q.mulVec_mul _ _ _
  have hli : ∀ m : M3, ∀ v, (leftMultiplyInverse q m).mulVec v = rotate (quatInv q) .NWU (m.mulVec v) := fun m v => by
    rw [← hinv]; exact Q.mulVec_mul _ _ _
  have hri : ∀ m : M3, ∀ v, (rightMultiplyInverse q m).mulVec v = m.mulVec (rotate (quatInv q) .NWU v) := fun m v => by
    rw [← hinv]; exact Q.mulVec_mul _ _ _
  have hext : ∀ a b : M3, (∀ v, a.mulVec v = b.mulVec v) → a = b := by
    intro a b h
    have h1 := h ⟨1, 0, 0⟩; have h2 := h ⟨0, 1, 0⟩; have h3 := h ⟨0, 0, 1⟩
    simp [M3.mulVec] at h1 h2 h3
    ext <;> simp [h1, h2, h3]
  have c1 : ∀ w, rotate (quatInv q) .NWU (rotate q .NWU w) = w := fun w => (C11_composition q q hq hq .NWU w).2.1
  have c2 : ∀ w, rotate q .NWU (rotate (quatInv q) .NWU w) = w := fun w => (C11_composition q q hq hq .NWU w).2.2.1
  refine ⟨hl m v, hr m v, hli m v, hri m v, hext _ _ fun w => ?_, hext _ _ fun w => ?_, ?_⟩
  · rw [hli, hl, c1]
  · rw [hri, hr, c2]
  · rw [hl, hri, c1]

/-- **C172, histories.** Whatever the sequence of legal operations made in place on a rotation, it stays a rotation, and it turns every vector, read in either convention, as the composition
of the elementary turns in the order of the program; its inverse undoes them. -/
theorem C172_history (l : List RotOp) (hl : ∀ o ∈ l, o.Legal) (fc : FC) :
    (rotRun l).IsUnit ∧
    (∀ v, rotate (rotRun l) fc v = (l.foldl (RotOp.expected fc) (id, id)).1 v) ∧
    (∀ v, rotate (quatInv (rotRun l)) fc v = (l.foldl (RotOp.expected fc) (id, id)).2 v) := by
  have seen : ∀ (q : Q) (fc' : FC) (v : V3), rotate q fc v = seenIn fc fc' (rotate q fc') v := by
    intro q fc' v
    unfold seenIn rotate
    rw [conv_conv, conv_conv]
  have aa : ∀ (n : V3) (a : ℝ) (fc' : FC), V3.dot n n = 1 → (quatOfAxisAngle n a fc').IsUnit ∧
      (∀ v, rotate (quatOfAxisAngle n a fc') fc v = seenIn fc fc' (turnAbout n a) v) ∧
      (∀ v, rotate (quatInv (quatOfAxisAngle n a fc')) fc v = seenIn fc fc' (turnAbout n (-a)) v) := by
    intro n a fc' hn
    have einv : quatInv (quatOfAxisAngle n a fc') = quatOfAxisAngle n (-a) fc' := by
      unfold quatInv quatOfAxisAngle Q.ofAngAxis Q.conj
      rw [show -a / 2 = -(a / 2) by ring, Real.cos_neg, Real.sin_neg]
      ext <;> simp
    have hf : ∀ b, rotate (quatOfAxisAngle n b fc') fc' = turnAbout n b := fun b => funext fun v => (C12_axis_angle n hn b fc' v).2.2
    refine ⟨(C12_axis_angle n hn a fc' 0).1, fun v => ?_, fun v => ?_⟩
    · rw [seen _ fc', hf]
    · rw [einv, seen _ fc', hf]
  have comp : ∀ p q : Q, p.IsUnit → q.IsUnit → ∀ v, rotate (quatMul p q) fc v = rotate p fc (rotate q fc v) ∧
      rotate (quatInv (quatMul p q)) fc v = rotate (quatInv q) fc (rotate (quatInv p) fc v) := by
    intro p q hp hq v
    refine ⟨(C11_composition p q hp hq fc v).1, ?_⟩
    have : quatInv (quatMul p q) = quatMul (quatInv q) (quatInv p) := Q.conj_mul_rev p q
    rw [this]
    exact (C11_composition _ _ hq.conj hp.conj fc v).1
  have u1 : V3.dot V3.e1 V3.e1 = 1 := by simp [V3.dot, V3.e1]
  have u2 : V3.dot V3.e2 V3.e2 = 1 := by simp [V3.dot, V3.e2]
  have u3 : V3.dot V3.e3 V3.e3 = 1 := by simp [V3.dot, V3.e3]
  have dg : ∀ x : ℝ, x * deg2rad = x * π / 180 := fun x => by unfold deg2rad; ring
  have dgn : ∀ x : ℝ, -(x * π / 180) = -x * π / 180 := fun x => by ring
  induction l using List.reverseRecOn with
  | nil =>
    refine ⟨Q.isUnit_one, fun v => ?_, fun v => ?_⟩
    · show conv fc (Q.one.rotate (conv fc v)) = v
      rw [Q.rotate_one, conv_conv]
    · have : quatInv Q.one = Q.one := by ext <;> simp [quatInv]
      show rotate (quatInv Q.one) fc v = v
      rw [this]
      show conv fc (Q.one.rotate (conv fc v)) = v
      rw [Q.rotate_one, conv_conv]
  | append_singleton l o ih =>
    obtain ⟨hu, h1, h2⟩ := ih fun o' ho' => hl o' (List.mem_append_left _ ho')
    have ho := hl o (List.mem_append_right _ (List.mem_singleton.mpr rfl))
    have e : rotRun (l ++ [o]) = RotOp.apply (rotRun l) o := by
      unfold rotRun
      rw [List.foldl_append]
      rfl
    rw [e, List.foldl_append]
    show (RotOp.apply (rotRun l) o).IsUnit ∧
      (∀ v, rotate (RotOp.apply (rotRun l) o) fc v = (RotOp.expected fc (l.foldl (RotOp.expected fc) (id, id)) o).1 v) ∧
      (∀ v, rotate (quatInv (RotOp.apply (rotRun l) o)) fc v = (RotOp.expected fc (l.foldl (RotOp.expected fc) (id, id)) o).2 v)
    generalize rotRun l = q at hu h1 h2
    generalize l.foldl (RotOp.expected fc) (id, id) = m at h1 h2
    have right : ∀ (n : V3) (a : ℝ) (fc' : FC), V3.dot n n = 1 → (rotAxisAngle q n a fc').IsUnit ∧
        (∀ v, rotate (rotAxisAngle q n a fc') fc v = m.1 (seenIn fc fc' (turnAbout n a) v)) ∧
        (∀ v, rotate (quatInv (rotAxisAngle q n a fc')) fc v = seenIn fc fc' (turnAbout n (-a)) (m.2 v)) := by
      intro n a fc' hn
      obtain ⟨a1, a2, a3⟩ := aa n a fc' hn
      refine ⟨hu.mul a1, fun v => ?_, fun v => ?_⟩
      · rw [← a2, ← h1]; exact (comp _ _ hu a1 v).1
      · rw [← h2, ← a3]; exact (comp _ _ hu a1 v).2
    cases o with
    | null =>
      refine ⟨Q.isUnit_one, fun v => ?_, fun v => ?_⟩
      · show conv fc (Q.one.rotate (conv fc v)) = v
        rw [Q.rotate_one, conv_conv]
      · have : quatInv Q.one = Q.one := by ext <;> simp [quatInv]
        show rotate (quatInv Q.one) fc v = v
        rw [this]
        show conv fc (Q.one.rotate (conv fc v)) = v
        rw [Q.rotate_one, conv_conv]
    | set p => exact ⟨ho, fun v => rfl, fun v => rfl⟩
    | setAxisAngle n a fc' => exact aa n a fc' ho
    | setCardanDeg a fc' =>
      have em : Geom.setCardanDeg fc' a = quatMul (quatMul (quatOfAxisAngle V3.e3 (a.yaw * deg2rad) fc') (quatOfAxisAngle V3.e2 (a.pitch * deg2rad) fc'))
          (quatOfAxisAngle V3.e1 (a.roll * deg2rad) fc') := C13_meaning fc' _
      obtain ⟨y1, y2, y3⟩ := aa V3.e3 (a.yaw * deg2rad) fc' u3
      obtain ⟨p1, p2, p3⟩ := aa V3.e2 (a.pitch * deg2rad) fc' u2
      obtain ⟨r1, r2, r3⟩ := aa V3.e1 (a.roll * deg2rad) fc' u1
      rw [dg] at y1 y2 y3 p1 p2 p3 r1 r2 r3
      rw [dgn] at y3 p3 r3
      show (Geom.setCardanDeg fc' a).IsUnit ∧ (∀ v, rotate (Geom.setCardanDeg fc' a) fc v = _) ∧ (∀ v, rotate (quatInv (Geom.setCardanDeg fc' a)) fc v = _)
      rw [em]
      simp only [dg]
      have hyp : (quatMul (quatOfAxisAngle V3.e3 (a.yaw * π / 180) fc') (quatOfAxisAngle V3.e2 (a.pitch * π / 180) fc')).IsUnit := y1.mul p1
      refine ⟨hyp.mul r1, fun v => ?_, fun v => ?_⟩
      · rw [(comp _ _ hyp r1 v).1, (comp _ _ y1 p1 _).1, y2, p2, r2]
        rfl
      · rw [(comp _ _ hyp r1 v).2, (comp _ _ y1 p1 _).2, y3, p3, r3]
        rfl
    | mulAssign p =>
      refine ⟨hu.mul ho, fun v => ?_, fun v => ?_⟩
      · rw [show RotOp.apply q (.mulAssign p) = quatMul q p from rfl, (comp q p hu ho v).1, h1]; rfl
      · rw [show RotOp.apply q (.mulAssign p) = quatMul q p from rfl, (comp q p hu ho v).2, h2]; rfl
    | rotAxis n a fc' => exact right n a fc' ho
    | rotXDeg a fc' =>
      have := right V3.e1 (a * π / 180) fc' u1
      have ea : RotOp.apply q (.rotXDeg a fc') = rotAxisAngle q V3.e1 (a * π / 180) fc' := by
        rw [← dg]; rfl
      rw [ea]
      exact this
    | rotYDeg a fc' =>
      have := right V3.e2 (a * π / 180) fc' u2
      have ea : RotOp.apply q (.rotYDeg a fc') = rotAxisAngle q V3.e2 (a * π / 180) fc' := by
        rw [← dg]; rfl
      rw [ea]
      exact this
    | rotZDeg a fc' =>
      have := right V3.e3 (a * π / 180) fc' u3
      have ea : RotOp.apply q (.rotZDeg a fc') = rotAxisAngle q V3.e3 (a * π / 180) fc' := by
        rw [← dg]; rfl
      rw [ea]
      exact this
    | inverse =>
      refine ⟨hu.conj, fun v => h2 v, fun v => ?_⟩
      show rotate (quatInv (quatInv q)) fc v = m.1 v
      rw [show quatInv (quatInv q) = q from Q.conj_conj q]
      exact h1 v

/-- A quarter turn about z then a quarter turn about the new x, in degrees, sends y on the vertical of the world. -/
example : (∀ o ∈ [RotOp.rotZDeg 90 .NWU, .rotXDeg 90 .NWU], o.Legal) ∧
    rotate (rotRun [.rotZDeg 90 .NWU, .rotXDeg 90 .NWU]) .NWU V3.e2 = V3.e3 := by
  have hl : ∀ o ∈ [RotOp.rotZDeg 90 .NWU, .rotXDeg 90 .NWU], o.Legal := by
    intro o ho
    simp at ho
    rcases ho with rfl | rfl <;> trivial
  refine ⟨hl, ?_⟩
  rw [(C172_history _ hl .NWU).2.1]
  show turnAbout V3.e3 (90 * π / 180) (turnAbout V3.e1 (90 * π / 180) V3.e2) = V3.e3
  have e : (90 : ℝ) * π / 180 = π / 2 := by ring
  rw [e]
  unfold turnAbout
  rw [Real.cos_pi_div_two, Real.sin_pi_div_two]
  ext <;> simp [V3.dot, V3.e1, V3.e2, V3.e3]

/-- **C13, degrees.** Roll, pitch and yaw set in degrees are read back in degrees. -/
theorem C13_round_trip_degrees (junk : ℝ) (fc : FC) (a : Cardan) (h : InRange fc ⟨a.roll * (π / 180), a.pitch * (π / 180), a.yaw * (π / 180)⟩) :
    getCardanDeg junk fc (setCardanDeg fc a) = a := by
  have e := (C13_round_trip_angles junk fc _ h).2
  unfold getCardanDeg setCardanDeg
  unfold deg2rad
  rw [e]
  have k : ∀ x : ℝ, x * (π / 180) * (180 / π) = x := fun x => by
    have := Real.pi_ne_zero
    field_simp
  simp only [k]

end Frydom.Geom
