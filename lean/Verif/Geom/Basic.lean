import Mathlib.Analysis.SpecialFunctions.Trigonometric.Basic
import Mathlib.Analysis.SpecialFunctions.Sqrt
import Mathlib.Analysis.SpecialFunctions.Complex.Arg
import Mathlib.Analysis.SpecialFunctions.Trigonometric.Inverse

/-!
# Vectors, quaternions and 3×3 matrices

The external types FRyDoM's geometry is built on: `mathutils::Vector3d`, `chrono::ChVector`, `chrono::ChQuaternion`,
`chrono::ChMatrix33`. Their operations are modelled by the formulas of the Chrono headers (not part of /repo: trusted).
`double` is `ℝ`.
-/

noncomputable section

namespace Frydom.Geom

/-- 3D vector (`Position`, `Direction`, `Force`, … and `ChVector`). -/
@[ext] structure V3 where
  x : ℝ
  y : ℝ
  z : ℝ

namespace V3
instance : Zero V3 := ⟨⟨0, 0, 0⟩⟩
instance : Add V3 := ⟨fun a b => ⟨a.x + b.x, a.y + b.y, a.z + b.z⟩⟩
instance : Sub V3 := ⟨fun a b => ⟨a.x - b.x, a.y - b.y, a.z - b.z⟩⟩
instance : Neg V3 := ⟨fun a => ⟨-a.x, -a.y, -a.z⟩⟩
instance : SMul ℝ V3 := ⟨fun c a => ⟨c * a.x, c * a.y, c * a.z⟩⟩

@[simp] theorem zero_x : (0 : V3).x = 0 := rfl
@[simp] theorem zero_y : (0 : V3).y = 0 := rfl
@[simp] theorem zero_z : (0 : V3).z = 0 := rfl
@[simp] theorem add_x (a b : V3) : (a + b).x = a.x + b.x := rfl
@[simp] theorem add_y (a b : V3) : (a + b).y = a.y + b.y := rfl
@[simp] theorem add_z (a b : V3) : (a + b).z = a.z + b.z := rfl
@[simp] theorem sub_x (a b : V3) : (a - b).x = a.x - b.x := rfl
@[simp] theorem sub_y (a b : V3) : (a - b).y = a.y - b.y := rfl
@[simp] theorem sub_z (a b : V3) : (a - b).z = a.z - b.z := rfl
@[simp] theorem neg_x (a : V3) : (-a).x = -a.x := rfl
@[simp] theorem neg_y (a : V3) : (-a).y = -a.y := rfl
@[simp] theorem neg_z (a : V3) : (-a).z = -a.z := rfl
@[simp] theorem smul_x (c : ℝ) (a : V3) : (c • a).x = c * a.x := rfl
@[simp] theorem smul_y (c : ℝ) (a : V3) : (c • a).y = c * a.y := rfl
@[simp] theorem smul_z (c : ℝ) (a : V3) : (c • a).z = c * a.z := rfl

/-- Dot product. -/
def dot (a b : V3) : ℝ := a.x * b.x + a.y * b.y + a.z * b.z
/-- Cross product. -/
def cross (a b : V3) : V3 := ⟨a.y * b.z - a.z * b.y, a.z * b.x - a.x * b.z, a.x * b.y - a.y * b.x⟩
/-- Euclidean norm. -/
def norm (a : V3) : ℝ := Real.sqrt (dot a a)
/-- `normalize()`: division by the norm (Eigen leaves the zero vector unchanged; so does this model, `0⁻¹ = 0`). -/
def normalized (a : V3) : V3 := (norm a)⁻¹ • a

@[simp] theorem cross_x (a b : V3) : (cross a b).x = a.y * b.z - a.z * b.y := rfl
@[simp] theorem cross_y (a b : V3) : (cross a b).y = a.z * b.x - a.x * b.z := rfl
@[simp] theorem cross_z (a b : V3) : (cross a b).z = a.x * b.y - a.y * b.x := rfl

def e1 : V3 := ⟨1, 0, 0⟩
def e2 : V3 := ⟨0, 1, 0⟩
def e3 : V3 := ⟨0, 0, 1⟩

theorem dot_comm (a b : V3) : dot a b = dot b a := by unfold dot; ring
theorem dot_self_nonneg (a : V3) : 0 ≤ dot a a := by
  unfold dot; nlinarith [mul_self_nonneg a.x, mul_self_nonneg a.y, mul_self_nonneg a.z]
theorem dot_self_eq_zero {a : V3} (h : dot a a = 0) : a = 0 := by
  unfold dot at h
  have hx : a.x = 0 := by nlinarith [sq_nonneg a.x, sq_nonneg a.y, sq_nonneg a.z]
  have hy : a.y = 0 := by nlinarith [sq_nonneg a.x, sq_nonneg a.y, sq_nonneg a.z]
  have hz : a.z = 0 := by nlinarith [sq_nonneg a.x, sq_nonneg a.y, sq_nonneg a.z]
  ext <;> simp [hx, hy, hz]
theorem norm_sq (a : V3) : norm a ^ 2 = dot a a := Real.sq_sqrt (dot_self_nonneg a)
theorem norm_nonneg (a : V3) : 0 ≤ norm a := Real.sqrt_nonneg _
theorem norm_pos {a : V3} (h : a ≠ 0) : 0 < norm a := by
  apply Real.sqrt_pos.mpr
  rcases (dot_self_nonneg a).lt_or_eq with h' | h'
  · exact h'
  · exact absurd (dot_self_eq_zero h'.symm) h

end V3

/-- 3×3 matrix (`mathutils::Matrix33`, `ChMatrix33`), row by row. -/
@[ext] structure M3 where
  a00 : ℝ
  a01 : ℝ
  a02 : ℝ
  a10 : ℝ
  a11 : ℝ
  a12 : ℝ
  a20 : ℝ
  a21 : ℝ
  a22 : ℝ

namespace M3
def mulVec (m : M3) (v : V3) : V3 :=
  ⟨m.a00 * v.x + m.a01 * v.y + m.a02 * v.z, m.a10 * v.x + m.a11 * v.y + m.a12 * v.z,
    m.a20 * v.x + m.a21 * v.y + m.a22 * v.z⟩
@[simp] theorem mulVec_x (m : M3) (v : V3) : (m.mulVec v).x = m.a00 * v.x + m.a01 * v.y + m.a02 * v.z := rfl
@[simp] theorem mulVec_y (m : M3) (v : V3) : (m.mulVec v).y = m.a10 * v.x + m.a11 * v.y + m.a12 * v.z := rfl
@[simp] theorem mulVec_z (m : M3) (v : V3) : (m.mulVec v).z = m.a20 * v.x + m.a21 * v.y + m.a22 * v.z := rfl
def mul (m n : M3) : M3 :=
  ⟨m.a00 * n.a00 + m.a01 * n.a10 + m.a02 * n.a20, m.a00 * n.a01 + m.a01 * n.a11 + m.a02 * n.a21,
   m.a00 * n.a02 + m.a01 * n.a12 + m.a02 * n.a22,
   m.a10 * n.a00 + m.a11 * n.a10 + m.a12 * n.a20, m.a10 * n.a01 + m.a11 * n.a11 + m.a12 * n.a21,
   m.a10 * n.a02 + m.a11 * n.a12 + m.a12 * n.a22,
   m.a20 * n.a00 + m.a21 * n.a10 + m.a22 * n.a20, m.a20 * n.a01 + m.a21 * n.a11 + m.a22 * n.a21,
   m.a20 * n.a02 + m.a21 * n.a12 + m.a22 * n.a22⟩
def transpose (m : M3) : M3 := ⟨m.a00, m.a10, m.a20, m.a01, m.a11, m.a21, m.a02, m.a12, m.a22⟩
def one : M3 := ⟨1, 0, 0, 0, 1, 0, 0, 0, 1⟩
def det (m : M3) : ℝ :=
  m.a00 * (m.a11 * m.a22 - m.a12 * m.a21) - m.a01 * (m.a10 * m.a22 - m.a12 * m.a20)
    + m.a02 * (m.a10 * m.a21 - m.a11 * m.a20)
/-- Columns. -/
def c0 (m : M3) : V3 := ⟨m.a00, m.a10, m.a20⟩
def c1 (m : M3) : V3 := ⟨m.a01, m.a11, m.a21⟩
def c2 (m : M3) : V3 := ⟨m.a02, m.a12, m.a22⟩
/-- Matrix with given columns. -/
def ofCols (a b c : V3) : M3 := ⟨a.x, b.x, c.x, a.y, b.y, c.y, a.z, b.z, c.z⟩
/-- Proper rotation matrix: orthonormal columns, positively oriented. -/
structure IsRot (m : M3) : Prop where
  u0 : V3.dot m.c0 m.c0 = 1
  u1 : V3.dot m.c1 m.c1 = 1
  u2 : V3.dot m.c2 m.c2 = 1
  o01 : V3.dot m.c0 m.c1 = 0
  o02 : V3.dot m.c0 m.c2 = 0
  o12 : V3.dot m.c1 m.c2 = 0
  det1 : m.det = 1
end M3

/-- Quaternion `e0 + e1 i + e2 j + e3 k` (`ChQuaternion`). -/
@[ext] structure Q where
  e0 : ℝ
  e1 : ℝ
  e2 : ℝ
  e3 : ℝ

namespace Q
/-- Unit quaternion (`SetUnit`). -/
def one : Q := ⟨1, 0, 0, 0⟩
/-- `ChQuaternion::operator*` (Hamilton product). -/
def mul (p q : Q) : Q :=
  ⟨p.e0 * q.e0 - p.e1 * q.e1 - p.e2 * q.e2 - p.e3 * q.e3,
   p.e0 * q.e1 + p.e1 * q.e0 - p.e3 * q.e2 + p.e2 * q.e3,
   p.e0 * q.e2 + p.e2 * q.e0 + p.e3 * q.e1 - p.e1 * q.e3,
   p.e0 * q.e3 + p.e3 * q.e0 - p.e2 * q.e1 + p.e1 * q.e2⟩
/-- `Conjugate()`. -/
def conj (q : Q) : Q := ⟨q.e0, -q.e1, -q.e2, -q.e3⟩
def normSq (q : Q) : ℝ := q.e0 ^ 2 + q.e1 ^ 2 + q.e2 ^ 2 + q.e3 ^ 2
/-- The quaternion represents a rotation (`FrUnitQuaternion::IsRotation`, with exact equality). -/
def IsUnit (q : Q) : Prop := q.normSq = 1
/-- `ChMatrix33::Set_A_quaternion`. -/
def toMat (q : Q) : M3 :=
  ⟨(q.e0 * q.e0 + q.e1 * q.e1) * 2 - 1, (q.e1 * q.e2 - q.e0 * q.e3) * 2, (q.e1 * q.e3 + q.e0 * q.e2) * 2,
   (q.e1 * q.e2 + q.e0 * q.e3) * 2, (q.e0 * q.e0 + q.e2 * q.e2) * 2 - 1, (q.e2 * q.e3 - q.e0 * q.e1) * 2,
   (q.e1 * q.e3 - q.e0 * q.e2) * 2, (q.e2 * q.e3 + q.e0 * q.e1) * 2, (q.e0 * q.e0 + q.e3 * q.e3) * 2 - 1⟩
/-- `ChQuaternion::Rotate`. -/
def rotate (q : Q) (v : V3) : V3 := q.toMat.mulVec v
/-- `GetXaxis`, `GetYaxis`, `GetZaxis`. -/
def xAxis (q : Q) : V3 :=
  ⟨(q.e0 * q.e0 + q.e1 * q.e1) * 2 - 1, (q.e1 * q.e2 + q.e0 * q.e3) * 2, (q.e1 * q.e3 - q.e0 * q.e2) * 2⟩
def yAxis (q : Q) : V3 :=
  ⟨(q.e1 * q.e2 - q.e0 * q.e3) * 2, (q.e0 * q.e0 + q.e2 * q.e2) * 2 - 1, (q.e2 * q.e3 + q.e0 * q.e1) * 2⟩
def zAxis (q : Q) : V3 :=
  ⟨(q.e1 * q.e3 + q.e0 * q.e2) * 2, (q.e2 * q.e3 - q.e0 * q.e1) * 2, (q.e0 * q.e0 + q.e3 * q.e3) * 2 - 1⟩
/-- `Q_from_AngAxis(angle, axis)`: the axis is not normalised. -/
def ofAngAxis (angle : ℝ) (axis : V3) : Q :=
  let s := Real.sin (angle / 2)
  ⟨Real.cos (angle / 2), axis.x * s, axis.y * s, axis.z * s⟩
/-- `ChQuaternion::Normalize`. -/
def normalized (q : Q) : Q :=
  let l := Real.sqrt q.normSq
  ⟨q.e0 / l, q.e1 / l, q.e2 / l, q.e3 / l⟩

@[simp] theorem mul_e0 (p q : Q) : (p.mul q).e0 = p.e0 * q.e0 - p.e1 * q.e1 - p.e2 * q.e2 - p.e3 * q.e3 := rfl
@[simp] theorem mul_e1 (p q : Q) : (p.mul q).e1 = p.e0 * q.e1 + p.e1 * q.e0 - p.e3 * q.e2 + p.e2 * q.e3 := rfl
@[simp] theorem mul_e2 (p q : Q) : (p.mul q).e2 = p.e0 * q.e2 + p.e2 * q.e0 + p.e3 * q.e1 - p.e1 * q.e3 := rfl
@[simp] theorem mul_e3 (p q : Q) : (p.mul q).e3 = p.e0 * q.e3 + p.e3 * q.e0 - p.e2 * q.e1 + p.e1 * q.e2 := rfl
@[simp] theorem conj_e0 (q : Q) : q.conj.e0 = q.e0 := rfl
@[simp] theorem conj_e1 (q : Q) : q.conj.e1 = -q.e1 := rfl
@[simp] theorem conj_e2 (q : Q) : q.conj.e2 = -q.e2 := rfl
@[simp] theorem conj_e3 (q : Q) : q.conj.e3 = -q.e3 := rfl
@[simp] theorem one_e0 : one.e0 = 1 := rfl
@[simp] theorem one_e1 : one.e1 = 0 := rfl
@[simp] theorem one_e2 : one.e2 = 0 := rfl
@[simp] theorem one_e3 : one.e3 = 0 := rfl

theorem mul_assoc (p q r : Q) : (p.mul q).mul r = p.mul (q.mul r) := by
  ext <;> simp <;> ring
theorem one_mul (p : Q) : one.mul p = p := by ext <;> simp
theorem mul_one (p : Q) : p.mul one = p := by ext <;> simp
theorem normSq_mul (p q : Q) : (p.mul q).normSq = p.normSq * q.normSq := by simp [normSq]; ring
theorem IsUnit.mul {p q : Q} (hp : p.IsUnit) (hq : q.IsUnit) : (p.mul q).IsUnit := by
  unfold IsUnit at *; rw [normSq_mul, hp, hq]; norm_num
theorem IsUnit.conj {q : Q} (h : q.IsUnit) : q.conj.IsUnit := by
  unfold IsUnit normSq at *; simp; linarith
theorem isUnit_one : one.IsUnit := by simp [IsUnit, normSq]
theorem mul_conj {q : Q} (h : q.IsUnit) : q.mul q.conj = one := by
  unfold IsUnit normSq at h
  ext <;> simp
  · linarith
  · ring
  · ring
  · ring
theorem conj_mul {q : Q} (h : q.IsUnit) : q.conj.mul q = one := by
  unfold IsUnit normSq at h
  ext <;> simp
  · linarith
  · ring
  · ring
  · ring
theorem conj_conj (q : Q) : q.conj.conj = q := by ext <;> simp
theorem conj_mul_rev (p q : Q) : (p.mul q).conj = q.conj.mul p.conj := by ext <;> simp <;> ring

theorem rotate_one (v : V3) : one.rotate v = v := by
  ext <;> simp [rotate, toMat] <;> ring

theorem isRot {q : Q} (h : q.IsUnit) : q.toMat.IsRot := by
  obtain ⟨a, b, c, d⟩ := q
  have h : a ^ 2 + b ^ 2 + c ^ 2 + d ^ 2 = 1 := h
  constructor <;> simp only [toMat, M3.c0, M3.c1, M3.c2, V3.dot, M3.det]
  · linear_combination (4 * a ^ 2 + 4 * b ^ 2) * h
  · linear_combination (4 * a ^ 2 + 4 * c ^ 2) * h
  · linear_combination (4 * a ^ 2 + 4 * d ^ 2) * h
  · linear_combination (4 * b * c) * h
  · linear_combination (4 * b * d) * h
  · linear_combination (4 * c * d) * h
  · have hd : d ^ 2 = 1 - a ^ 2 - b ^ 2 - c ^ 2 := by linarith
    ring_nf
    have hd4 : d ^ 4 = (1 - a ^ 2 - b ^ 2 - c ^ 2) ^ 2 := by rw [← hd]; ring
    simp only [hd, hd4]
    ring

theorem toMat_mul {p q : Q} (hp : p.IsUnit) (hq : q.IsUnit) : (p.mul q).toMat = p.toMat.mul q.toMat := by
  obtain ⟨a, b, c, d⟩ := p
  obtain ⟨s, t, u, v⟩ := q
  have hp : a ^ 2 + b ^ 2 + c ^ 2 + d ^ 2 = 1 := hp
  have hq : s ^ 2 + t ^ 2 + u ^ 2 + v ^ 2 = 1 := hq
  ext <;> simp only [toMat, mul, M3.mul]
  all_goals
    have hd : d ^ 2 = 1 - a ^ 2 - b ^ 2 - c ^ 2 := by linarith
    have hv : v ^ 2 = 1 - s ^ 2 - t ^ 2 - u ^ 2 := by linarith
    ring_nf
    simp only [hd, hv]
    ring

theorem mulVec_mul (m n : M3) (v : V3) : (m.mul n).mulVec v = m.mulVec (n.mulVec v) := by
  ext <;> simp [M3.mul] <;> ring

theorem rotate_mul {p q : Q} (hp : p.IsUnit) (hq : q.IsUnit) (v : V3) :
    (p.mul q).rotate v = p.rotate (q.rotate v) := by
  unfold rotate; rw [toMat_mul hp hq, mulVec_mul]

theorem rotate_conj {q : Q} (h : q.IsUnit) (v : V3) : q.conj.rotate (q.rotate v) = v := by
  rw [← rotate_mul h.conj h, conj_mul h, rotate_one]
theorem rotate_conj' {q : Q} (h : q.IsUnit) (v : V3) : q.rotate (q.conj.rotate v) = v := by
  rw [← rotate_mul h h.conj, mul_conj h, rotate_one]

theorem rotate_add (q : Q) (v w : V3) : q.rotate (v + w) = q.rotate v + q.rotate w := by
  ext <;> simp [rotate] <;> ring
theorem rotate_sub (q : Q) (v w : V3) : q.rotate (v - w) = q.rotate v - q.rotate w := by
  ext <;> simp [rotate] <;> ring
theorem rotate_neg (q : Q) (v : V3) : q.rotate (-v) = -q.rotate v := by
  ext <;> simp [rotate] <;> ring
theorem rotate_smul (q : Q) (c : ℝ) (v : V3) : q.rotate (c • v) = c • q.rotate v := by
  ext <;> simp [rotate] <;> ring

end Q

/-- Rotation matrices preserve dot products. -/
theorem M3.IsRot.dot {m : M3} (h : m.IsRot) (v w : V3) : V3.dot (m.mulVec v) (m.mulVec w) = V3.dot v w := by
  obtain ⟨u0, u1, u2, o01, o02, o12, -⟩ := h
  simp only [V3.dot, M3.c0, M3.c1, M3.c2, M3.mulVec] at *
  linear_combination (v.x * w.x) * u0 + (v.y * w.y) * u1 + (v.z * w.z) * u2 + (v.x * w.y + v.y * w.x) * o01
    + (v.x * w.z + v.z * w.x) * o02 + (v.y * w.z + v.z * w.y) * o12

/-- The third column is the cross product of the first two, and cyclically. -/
theorem M3.IsRot.cross01 {m : M3} (h : m.IsRot) : V3.cross m.c0 m.c1 = m.c2 := by
  obtain ⟨u0, u1, u2, o01, o02, o12, hd⟩ := h
  have key : V3.dot (V3.cross m.c0 m.c1 - m.c2) (V3.cross m.c0 m.c1 - m.c2) = 0 := by
    simp only [V3.dot, M3.c0, M3.c1, M3.c2, V3.cross, M3.det, V3.sub_x, V3.sub_y, V3.sub_z] at *
    linear_combination (m.a01 ^ 2 + m.a11 ^ 2 + m.a21 ^ 2) * u0 + u1 + u2 - 2 * hd
      - (m.a00 * m.a01 + m.a10 * m.a11 + m.a20 * m.a21) * o01
  have := V3.dot_self_eq_zero key
  ext
  · have := congrArg V3.x this; simp at this; simp; linarith
  · have := congrArg V3.y this; simp at this; simp; linarith
  · have := congrArg V3.z this; simp at this; simp; linarith

theorem M3.IsRot.cross12 {m : M3} (h : m.IsRot) : V3.cross m.c1 m.c2 = m.c0 := by
  obtain ⟨u0, u1, u2, o01, o02, o12, hd⟩ := h
  have key : V3.dot (V3.cross m.c1 m.c2 - m.c0) (V3.cross m.c1 m.c2 - m.c0) = 0 := by
    simp only [V3.dot, M3.c0, M3.c1, M3.c2, V3.cross, M3.det, V3.sub_x, V3.sub_y, V3.sub_z] at *
    linear_combination (m.a02 ^ 2 + m.a12 ^ 2 + m.a22 ^ 2) * u1 + u2 + u0 - 2 * hd
      - (m.a01 * m.a02 + m.a11 * m.a12 + m.a21 * m.a22) * o12
  have := V3.dot_self_eq_zero key
  ext
  · have := congrArg V3.x this; simp at this; simp; linarith
  · have := congrArg V3.y this; simp at this; simp; linarith
  · have := congrArg V3.z this; simp at this; simp; linarith

theorem M3.IsRot.cross20 {m : M3} (h : m.IsRot) : V3.cross m.c2 m.c0 = m.c1 := by
  obtain ⟨u0, u1, u2, o01, o02, o12, hd⟩ := h
  have key : V3.dot (V3.cross m.c2 m.c0 - m.c1) (V3.cross m.c2 m.c0 - m.c1) = 0 := by
    simp only [V3.dot, M3.c0, M3.c1, M3.c2, V3.cross, M3.det, V3.sub_x, V3.sub_y, V3.sub_z] at *
    linear_combination (m.a00 ^ 2 + m.a10 ^ 2 + m.a20 ^ 2) * u2 + u0 + u1 - 2 * hd
      - (m.a00 * m.a02 + m.a10 * m.a12 + m.a20 * m.a22) * o02
  have := V3.dot_self_eq_zero key
  ext
  · have := congrArg V3.x this; simp at this; simp; linarith
  · have := congrArg V3.y this; simp at this; simp; linarith
  · have := congrArg V3.z this; simp at this; simp; linarith

/-- Rotation matrices preserve cross products. -/
theorem M3.IsRot.cross {m : M3} (h : m.IsRot) (v w : V3) :
    V3.cross (m.mulVec v) (m.mulVec w) = m.mulVec (V3.cross v w) := by
  have a := h.cross01
  have b := h.cross12
  have c := h.cross20
  have ax := congrArg V3.x a
  have ay := congrArg V3.y a
  have az := congrArg V3.z a
  have bx := congrArg V3.x b
  have by' := congrArg V3.y b
  have bz := congrArg V3.z b
  have cx := congrArg V3.x c
  have cy := congrArg V3.y c
  have cz := congrArg V3.z c
  simp only [M3.c0, M3.c1, M3.c2, V3.cross_x, V3.cross_y, V3.cross_z] at *
  ext <;> simp
  · linear_combination (v.x * w.y - v.y * w.x) * ax + (v.y * w.z - v.z * w.y) * bx + (v.z * w.x - v.x * w.z) * cx
  · linear_combination (v.x * w.y - v.y * w.x) * ay + (v.y * w.z - v.z * w.y) * by' + (v.z * w.x - v.x * w.z) * cy
  · linear_combination (v.x * w.y - v.y * w.x) * az + (v.y * w.z - v.z * w.y) * bz + (v.z * w.x - v.x * w.z) * cz

end Frydom.Geom
