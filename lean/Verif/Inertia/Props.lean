import Verif.Inertia.Model

/-! # Properties C19, C20: inertia tensors -/

noncomputable section

namespace Frydom.Inertia
open Geom

@[simp] theorem m3_add_00 (m n : M3) : (m + n).a00 = m.a00 + n.a00 := rfl
@[simp] theorem m3_add_01 (m n : M3) : (m + n).a01 = m.a01 + n.a01 := rfl
@[simp] theorem m3_add_02 (m n : M3) : (m + n).a02 = m.a02 + n.a02 := rfl
@[simp] theorem m3_add_10 (m n : M3) : (m + n).a10 = m.a10 + n.a10 := rfl
@[simp] theorem m3_add_11 (m n : M3) : (m + n).a11 = m.a11 + n.a11 := rfl
@[simp] theorem m3_add_12 (m n : M3) : (m + n).a12 = m.a12 + n.a12 := rfl
@[simp] theorem m3_add_20 (m n : M3) : (m + n).a20 = m.a20 + n.a20 := rfl
@[simp] theorem m3_add_21 (m n : M3) : (m + n).a21 = m.a21 + n.a21 := rfl
@[simp] theorem m3_add_22 (m n : M3) : (m + n).a22 = m.a22 + n.a22 := rfl
@[simp] theorem m3_sub_00 (m n : M3) : (m - n).a00 = m.a00 - n.a00 := rfl
@[simp] theorem m3_sub_01 (m n : M3) : (m - n).a01 = m.a01 - n.a01 := rfl
@[simp] theorem m3_sub_02 (m n : M3) : (m - n).a02 = m.a02 - n.a02 := rfl
@[simp] theorem m3_sub_10 (m n : M3) : (m - n).a10 = m.a10 - n.a10 := rfl
@[simp] theorem m3_sub_11 (m n : M3) : (m - n).a11 = m.a11 - n.a11 := rfl
@[simp] theorem m3_sub_12 (m n : M3) : (m - n).a12 = m.a12 - n.a12 := rfl
@[simp] theorem m3_sub_20 (m n : M3) : (m - n).a20 = m.a20 - n.a20 := rfl
@[simp] theorem m3_sub_21 (m n : M3) : (m - n).a21 = m.a21 - n.a21 := rfl
@[simp] theorem m3_sub_22 (m n : M3) : (m - n).a22 = m.a22 - n.a22 := rfl
@[simp] theorem m3_zero_00 : (0 : M3).a00 = 0 := rfl
@[simp] theorem m3_zero_01 : (0 : M3).a01 = 0 := rfl
@[simp] theorem m3_zero_02 : (0 : M3).a02 = 0 := rfl
@[simp] theorem m3_zero_10 : (0 : M3).a10 = 0 := rfl
@[simp] theorem m3_zero_11 : (0 : M3).a11 = 0 := rfl
@[simp] theorem m3_zero_12 : (0 : M3).a12 = 0 := rfl
@[simp] theorem m3_zero_20 : (0 : M3).a20 = 0 := rfl
@[simp] theorem m3_zero_21 : (0 : M3).a21 = 0 := rfl
@[simp] theorem m3_zero_22 : (0 : M3).a22 = 0 := rfl

/-! ## Specification: finite sets of point masses -/

/-- A mass and its position, in the coordinates of the frame in use. -/
structure Pt where
  m : ℝ
  p : V3

/-- Total mass. -/
def massOf : List Pt → ℝ
  | [] => 0
  | a :: L => a.m + massOf L
/-- First moment `Σ m p`. -/
def momentOf : List Pt → V3
  | [] => 0
  | a :: L => a.m • a.p + momentOf L
/-- Inertia coefficients of one point mass about the origin of its coordinates: `Ixx = m (y² + z²)`, …, `Ixy = - m x y`, … -/
def ptInertia (a : Pt) : Coeffs :=
  ⟨a.m * (a.p.y ^ 2 + a.p.z ^ 2), a.m * (a.p.x ^ 2 + a.p.z ^ 2), a.m * (a.p.x ^ 2 + a.p.y ^ 2),
    -(a.m * a.p.x * a.p.y), -(a.m * a.p.x * a.p.z), -(a.m * a.p.y * a.p.z)⟩
def Coeffs.add (c d : Coeffs) : Coeffs :=
  ⟨c.Ixx + d.Ixx, c.Iyy + d.Iyy, c.Izz + d.Izz, c.Ixy + d.Ixy, c.Ixz + d.Ixz, c.Iyz + d.Iyz⟩
/-- Inertia coefficients of a set of point masses about the origin of the coordinates. -/
def inertiaOf : List Pt → Coeffs
  | [] => ⟨0, 0, 0, 0, 0, 0⟩
  | a :: L => (ptInertia a).add (inertiaOf L)

/-- The same masses with positions given in the coordinates of `frame`, in convention `fc`. -/
def seenFrom (frame : Frame) (fc : FC) (L : List Pt) : List Pt :=
  L.map fun a => ⟨a.m, frame.pointInFrame (conv fc a.p) fc⟩
/-- The same masses with positions relative to the point `c`. -/
def about (c : V3) (L : List Pt) : List Pt := L.map fun a => ⟨a.m, a.p - c⟩

/-- `t` is the tensor of the masses `L` (positions in NWU in the body's reference frame): same mass, centre of gravity at
the barycentre, inertia about it that of the masses. -/
structure Describes (t : Tensor) (L : List Pt) : Prop where
  mass : t.mass = massOf L
  cog : t.mass • t.cog = momentOf L
  inertia : t.I = matOfCoeffs (inertiaOf (about t.cog L))

/-! ## Lemmas -/

theorem coeffs_mat (c : Coeffs) : coeffsOfMat (matOfCoeffs c) = c := rfl

/-- First moment about a point. -/
theorem momentOf_about (c : V3) (L : List Pt) : momentOf (about c L) = momentOf L - massOf L • c := by
  induction L with
  | nil => ext <;> simp [about, momentOf, massOf]
  | cons a L ih =>
    simp only [about, List.map_cons, momentOf, massOf] at *
    rw [ih]; ext <;> simp <;> ring

/-- Parallel-axis (Huygens) with the first-moment terms. -/
theorem inertia_shift (c P : V3) (L : List Pt) :
    matOfCoeffs (inertiaOf (about P L)) = matOfCoeffs (inertiaOf (about c L)) + pointMass (massOf L) (c - P) +
      (let s := momentOf (about c L); let d := c - P
       ⟨2 * (s.y * d.y + s.z * d.z), -(s.x * d.y + s.y * d.x), -(s.x * d.z + s.z * d.x),
        -(s.x * d.y + s.y * d.x), 2 * (s.x * d.x + s.z * d.z), -(s.y * d.z + s.z * d.y),
        -(s.x * d.z + s.z * d.x), -(s.y * d.z + s.z * d.y), 2 * (s.x * d.x + s.y * d.y)⟩) := by
  induction L with
  | nil => ext <;> simp [about, inertiaOf, matOfCoeffs, massOf, momentOf, pointMass]
  | cons a L ih =>
    have h00 := congrArg M3.a00 ih
    have h01 := congrArg M3.a01 ih
    have h02 := congrArg M3.a02 ih
    have h10 := congrArg M3.a10 ih
    have h11 := congrArg M3.a11 ih
    have h12 := congrArg M3.a12 ih
    have h20 := congrArg M3.a20 ih
    have h21 := congrArg M3.a21 ih
    have h22 := congrArg M3.a22 ih
    clear ih
    simp only [about, List.map_cons, momentOf, massOf, inertiaOf, Coeffs.add, matOfCoeffs, ptInertia, pointMass, m3_add_00,
      m3_add_01, m3_add_02, m3_add_10, m3_add_11, m3_add_12, m3_add_20, m3_add_21, m3_add_22, V3.sub_x, V3.sub_y, V3.sub_z,
      V3.add_x, V3.add_y, V3.add_z, V3.smul_x, V3.smul_y, V3.smul_z] at *
    ext
    · simp only [m3_add_00]; linear_combination h00
    · simp only [m3_add_01]; linear_combination h01
    · simp only [m3_add_02]; linear_combination h02
    · simp only [m3_add_10]; linear_combination h10
    · simp only [m3_add_11]; linear_combination h11
    · simp only [m3_add_12]; linear_combination h12
    · simp only [m3_add_20]; linear_combination h20
    · simp only [m3_add_21]; linear_combination h21
    · simp only [m3_add_22]; linear_combination h22

theorem Describes.moment_zero {t : Tensor} {L : List Pt} (h : Describes t L) : momentOf (about t.cog L) = 0 := by
  rw [momentOf_about, ← h.cog, ← h.mass]; ext <;> simp

/-- Inertia of the described masses about any point. -/
theorem Describes.at_point {t : Tensor} {L : List Pt} (h : Describes t L) (P : V3) :
    t.I + pointMass t.mass (t.cog - P) = matOfCoeffs (inertiaOf (about P L)) := by
  rw [inertia_shift t.cog P L, h.moment_zero, h.inertia, h.mass]
  ext <;> simp

/-- Rotation of the axes. -/
theorem inertia_rotate (R : M3) (hR : R.IsRot) (L : List Pt) :
    (R.mul (matOfCoeffs (inertiaOf L))).mul R.transpose =
      matOfCoeffs (inertiaOf (L.map fun a => ⟨a.m, R.mulVec a.p⟩)) := by
  induction L with
  | nil => ext <;> simp [inertiaOf, matOfCoeffs, M3.mul]
  | cons a L ih =>
    have key : (R.mul (matOfCoeffs (ptInertia a))).mul R.transpose = matOfCoeffs (ptInertia ⟨a.m, R.mulVec a.p⟩) := by
      have hx := congrArg V3.x hR.cross01
      have hy := congrArg V3.y hR.cross01
      have hz := congrArg V3.z hR.cross01
      have kx := congrArg V3.x hR.cross12
      have ky := congrArg V3.y hR.cross12
      have kz := congrArg V3.z hR.cross12
      have lx := congrArg V3.x hR.cross20
      have ly := congrArg V3.y hR.cross20
      have lz := congrArg V3.z hR.cross20
      obtain ⟨u0, u1, u2, o01, o02, o12, hd⟩ := hR
      simp only [M3.c0, M3.c1, M3.c2, V3.dot, V3.cross_x, V3.cross_y, V3.cross_z, M3.det] at *
      have r00 : R.a00 * R.a00 + R.a01 * R.a01 + R.a02 * R.a02 = 1 := by
        linear_combination (-R.a00) * kx - R.a01 * lx - R.a02 * hx + hd
      have r11 : R.a10 * R.a10 + R.a11 * R.a11 + R.a12 * R.a12 = 1 := by
        linear_combination (-R.a10) * ky - R.a11 * ly - R.a12 * hy + hd
      have r22 : R.a20 * R.a20 + R.a21 * R.a21 + R.a22 * R.a22 = 1 := by
        linear_combination (-R.a20) * kz - R.a21 * lz - R.a22 * hz + hd
      have r01 : R.a00 * R.a10 + R.a01 * R.a11 + R.a02 * R.a12 = 0 := by
        linear_combination (-R.a00) * ky - R.a01 * ly - R.a02 * hy
      have r02 : R.a00 * R.a20 + R.a01 * R.a21 + R.a02 * R.a22 = 0 := by
        linear_combination (-R.a00) * kz - R.a01 * lz - R.a02 * hz
      have r12 : R.a10 * R.a20 + R.a11 * R.a21 + R.a12 * R.a22 = 0 := by
        linear_combination (-R.a10) * kz - R.a11 * lz - R.a12 * hz
      obtain ⟨m, x, y, z⟩ := a
      have hn : (R.a00 * x + R.a01 * y + R.a02 * z) ^ 2 + (R.a10 * x + R.a11 * y + R.a12 * z) ^ 2 +
          (R.a20 * x + R.a21 * y + R.a22 * z) ^ 2 = x ^ 2 + y ^ 2 + z ^ 2 := by
        linear_combination x ^ 2 * u0 + y ^ 2 * u1 + z ^ 2 * u2 + 2 * x * y * o01 + 2 * x * z * o02 + 2 * y * z * o12
      ext <;> simp only [M3.mul, M3.transpose, matOfCoeffs, ptInertia, M3.mulVec]
      · linear_combination m * (x ^ 2 + y ^ 2 + z ^ 2) * r00 - m * hn
      · linear_combination m * (x ^ 2 + y ^ 2 + z ^ 2) * r01
      · linear_combination m * (x ^ 2 + y ^ 2 + z ^ 2) * r02
      · linear_combination m * (x ^ 2 + y ^ 2 + z ^ 2) * r01
      · linear_combination m * (x ^ 2 + y ^ 2 + z ^ 2) * r11 - m * hn
      · linear_combination m * (x ^ 2 + y ^ 2 + z ^ 2) * r12
      · linear_combination m * (x ^ 2 + y ^ 2 + z ^ 2) * r02
      · linear_combination m * (x ^ 2 + y ^ 2 + z ^ 2) * r12
      · linear_combination m * (x ^ 2 + y ^ 2 + z ^ 2) * r22 - m * hn
    have hadd : ∀ c d : Coeffs, matOfCoeffs (c.add d) = matOfCoeffs c + matOfCoeffs d := by
      intro c d; ext <;> simp [matOfCoeffs, Coeffs.add]
    have hlin : ∀ m n : M3, (R.mul (m + n)).mul R.transpose = (R.mul m).mul R.transpose + (R.mul n).mul R.transpose := by
      intro m n; ext <;> simp [M3.mul, M3.transpose] <;> ring
    simp only [List.map_cons, inertiaOf]
    rw [hadd, hadd, hlin, key, ih]

theorem inertia_swap (L : List Pt) :
    inertiaOf (L.map fun a => ⟨a.m, swap a.p⟩) = swapCoeffs (inertiaOf L) := by
  induction L with
  | nil => ext <;> simp [inertiaOf, swapCoeffs]
  | cons a L ih =>
    simp only [List.map_cons, inertiaOf, ih]
    ext <;> simp [Coeffs.add, ptInertia, swapCoeffs] <;> ring

/-- Positions seen from a frame: relative to its origin, rotated in its axes, converted. -/
theorem inertia_seenFrom (frame : Frame) (hf : frame.Valid) (fc : FC) (L : List Pt) :
    inertiaOf (seenFrom frame fc L) = convCoeffs fc (coeffsOfMat
      (((invRotMat frame.rot).mul (matOfCoeffs (inertiaOf (about (frame.getPosition .NWU) L)))).mul
        (invRotMat frame.rot).transpose)) := by
  have hinv : invRotMat frame.rot = frame.rot.conj.toMat := by
    rw [(C11_matrix frame.rot hf 0 .NWU).2.2.1]
    ext <;> simp [rotMat, Q.toMat, M3.transpose] <;> ring
  rw [hinv, inertia_rotate _ (Q.isRot hf.conj), coeffs_mat]
  cases fc with
  | NWU =>
    simp only [convCoeffs, seenFrom, about, List.map_map]
    rfl
  | NED =>
    simp only [convCoeffs]
    rw [← inertia_swap]
    congr 1
    simp only [seenFrom, about, List.map_map]
    apply List.map_congr_left
    intro a _
    simp only [Function.comp, Frame.pointInFrame, Frame.projParentInFrame, rotate, conv, Frame.getPosition, ← swap_sub,
      swap_swap, quatInv, Q.rotate]

/-! ## C19 -/

/-- **C19, reading.** If a tensor describes a set of point masses, the coefficients it reports at any frame, in either
convention, are the inertia coefficients of those masses with coordinates taken in that frame and convention; at COG
likewise about the centre of gravity. -/
theorem C19_coefficients (t : Tensor) (L : List Pt) (h : Describes t L) (frame : Frame) (hf : frame.Valid) (fc : FC) :
    t.coeffsAtFrame frame fc = inertiaOf (seenFrom frame fc L) ∧
    t.coeffsAtCOG fc = inertiaOf (seenFrom ⟨t.cog, Q.one⟩ fc L) ∧ t.mass = massOf L := by
  refine ⟨?_, ?_, h.mass⟩
  · rw [inertia_seenFrom frame hf, ← h.at_point]
    rfl
  · rw [inertia_seenFrom ⟨t.cog, Q.one⟩ Q.isUnit_one]
    unfold Tensor.coeffsAtCOG
    rw [h.inertia]
    have : ∀ m : M3, ((invRotMat Q.one).mul m).mul (invRotMat Q.one).transpose = m := by
      intro m; ext <;> simp [invRotMat, Q.normSq, Q.toMat, M3.mul, M3.transpose] <;> ring
    simp only [this]
    rfl

/-- **C19, matrices.** The matrices read at a frame and at COG, in either convention, are the inertia matrices of the masses with coordinates taken in that frame and convention. -/
theorem C19_matrices (t : Tensor) (L : List Pt) (h : Describes t L) (frame : Frame) (hf : frame.Valid) (fc : FC) :
    t.matAtFrame frame fc = matOfCoeffs (inertiaOf (seenFrom frame fc L)) ∧
    t.matAtCOG fc = matOfCoeffs (inertiaOf (seenFrom ⟨t.cog, Q.one⟩ fc L)) := by
  obtain ⟨h1, h2, -⟩ := C19_coefficients t L h frame hf fc
  refine ⟨by rw [← h1]; rfl, ?_⟩
  rw [← h2]
  unfold Tensor.matAtCOG Tensor.coeffsAtCOG
  rw [h.inertia, coeffs_mat]
  cases fc
  · rfl
  · ext <;> simp [convMat, convCoeffs, matOfCoeffs, swapCoeffs, swapMat]

/-- **C19, construction at a frame.** From the mass, the barycentre and the coefficients of some point masses in a frame,
in either convention, the constructor (and `SetInertiaTensorAtFrame`) builds a tensor describing these masses. -/
theorem C19_construction (L : List Pt) (frame : Frame) (hf : frame.Valid) (cog : V3) (fc : FC)
    (hcog : massOf L • conv fc cog = momentOf L) :
    Describes (Tensor.ofFrame (massOf L) (inertiaOf (seenFrom frame fc L)) frame cog fc) L ∧
    Describes (Tensor.setAtFrame (massOf L) (matOfCoeffs (inertiaOf (seenFrom frame fc L))) frame cog fc) L := by
  have hI : ∀ c : Coeffs, convMat fc (matOfCoeffs c) = matOfCoeffs (convCoeffs fc c) := by
    intro c; cases fc
    · rfl
    · ext <;> simp [convMat, swapMat, matOfCoeffs, convCoeffs, swapCoeffs]
  have hcc : ∀ c, convCoeffs fc (convCoeffs fc c) = c := by
    intro c; cases fc <;> ext <;> simp [convCoeffs, swapCoeffs]
  have hsym : ∀ L, matOfCoeffs (coeffsOfMat (matOfCoeffs (inertiaOf L))) = matOfCoeffs (inertiaOf L) := fun _ => rfl
  have hR := Q.isRot hf
  have hinv : invRotMat frame.rot = frame.rot.conj.toMat := by
    rw [(C11_matrix frame.rot hf 0 .NWU).2.2.1]
    ext <;> simp [rotMat, Q.toMat, M3.transpose] <;> ring
  have core : ((rotMat frame.rot).mul (matOfCoeffs (convCoeffs fc (inertiaOf (seenFrom frame fc L))))).mul
      (rotMat frame.rot).transpose = matOfCoeffs (inertiaOf (about (frame.getPosition .NWU) L)) := by
    rw [inertia_seenFrom frame hf, hcc, hinv, inertia_rotate _ (Q.isRot hf.conj), coeffs_mat, rotMat,
      inertia_rotate _ hR, List.map_map]
    congr 2
    conv_rhs => rw [← List.map_id (about (frame.getPosition .NWU) L)]
    apply List.map_congr_left
    intro a _
    have := Q.rotate_conj' hf a.p
    simp only [Function.comp, id]
    unfold Q.rotate at this
    rw [this]
  have main : ∀ m, m = matOfCoeffs (inertiaOf (about (frame.getPosition .NWU) L)) →
      Describes ⟨massOf L, conv fc cog, m - pointMass (massOf L) (conv fc cog - frame.getPosition .NWU)⟩ L := by
    intro m hm
    refine ⟨rfl, hcog, ?_⟩
    have h0 : momentOf (about (conv fc cog) L) = 0 := by
      rw [momentOf_about, hcog]; ext <;> simp
    simp only
    rw [hm, inertia_shift (conv fc cog) (frame.getPosition .NWU) L, h0]
    ext <;> simp
  refine ⟨main _ core, main _ ?_⟩
  rw [hI]; exact core

theorem massOf_append (L M : List Pt) : massOf (L ++ M) = massOf L + massOf M := by
  induction L with
  | nil => simp [massOf]
  | cons a L ih => simp only [List.cons_append, massOf, ih]; ring
theorem momentOf_append (L M : List Pt) : momentOf (L ++ M) = momentOf L + momentOf M := by
  induction L with
  | nil => ext <;> simp [momentOf]
  | cons a L ih => simp only [List.cons_append, momentOf, ih]; ext <;> simp <;> ring
theorem inertiaOf_append (L M : List Pt) : inertiaOf (L ++ M) = (inertiaOf L).add (inertiaOf M) := by
  induction L with
  | nil => ext <;> simp [inertiaOf, Coeffs.add]
  | cons a L ih => simp only [List.cons_append, inertiaOf, ih]; ext <;> simp [Coeffs.add] <;> ring

/-- Masses whose positions are known in a second frame, moved to the first one. -/
def moved (F : Frame) (L : List Pt) : List Pt := L.map fun a => ⟨a.m, F.pointInParent a.p .NWU⟩

theorem massOf_map (f : V3 → V3) (L : List Pt) : massOf (L.map fun a => ⟨a.m, f a.p⟩) = massOf L := by
  induction L with
  | nil => rfl
  | cons a L ih => simp only [List.map_cons, massOf, ih]
theorem momentOf_moved (F : Frame) (L : List Pt) :
    momentOf (moved F L) = massOf L • F.pos + F.rot.rotate (momentOf L) := by
  induction L with
  | nil => ext <;> simp [moved, momentOf, massOf, Q.rotate]
  | cons a L ih =>
    unfold moved at *
    simp only [List.map_cons, momentOf, massOf, ih]
    simp only [Frame.pointInParent, Frame.projFrameInParent, rotate, conv,
      Frame.getPosition, Q.rotate_add, Q.rotate_smul]
    ext <;> simp <;> ring

/-- **C19, addition.** Adding to the tensor of some masses the tensor of other masses, known in a second frame, gives the
tensor of the union. -/
theorem C19_add (t1 t2 : Tensor) (L1 L2 : List Pt) (F : Frame) (hF : F.Valid) (h1 : Describes t1 L1)
    (h2 : Describes t2 L2) (hm : massOf L1 + massOf L2 ≠ 0) : Describes (t1.add t2 F) (L1 ++ moved F L2) := by
  have hmass : (t1.add t2 F).mass = massOf L1 + massOf L2 := by
    show t1.mass + t2.mass = _; rw [h1.mass, h2.mass]
  have hcog : (massOf L1 + massOf L2) • (t1.add t2 F).cog = momentOf L1 + momentOf (moved F L2) := by
    rw [momentOf_moved, ← h1.cog, ← h2.cog]
    show (massOf L1 + massOf L2) • ((1 / (t1.mass + t2.mass)) • (t1.mass • t1.cog + t2.mass • F.pointInParent t2.cog .NWU)) = _
    rw [h1.mass, h2.mass]
    simp only [Frame.pointInParent, Frame.projFrameInParent, rotate, conv, Frame.getPosition, Q.rotate_smul]
    ext <;> simp <;> field_simp <;> ring
  refine ⟨by rw [hmass, massOf_append]; unfold moved; rw [massOf_map (fun p => F.pointInParent p .NWU)], by rw [hmass, momentOf_append]; exact hcog, ?_⟩
  set G := (t1.add t2 F).cog with hG
  have hGdef : G = (1 / (t1.mass + t2.mass)) • (t1.mass • t1.cog + t2.mass • F.pointInParent t2.cog .NWU) := rfl
  set tmp := F.inv.translateInFrame G .NWU with htmp
  have hv : tmp.Valid := Q.IsUnit.conj hF
  set tmp' := tmp.setNoRotation.setPosition G .NWU with htmp'
  have hv' : tmp'.Valid := Q.isUnit_one
  have hI : (t1.add t2 F).I = t2.matAtFrame tmp .NWU + t1.matAtFrame tmp' .NWU := rfl
  rw [hI]
  unfold Tensor.matAtFrame
  rw [(C19_coefficients t2 L2 h2 tmp hv .NWU).1, (C19_coefficients t1 L1 h1 tmp' hv' .NWU).1]
  have e1 : seenFrom tmp' .NWU L1 = about G L1 := by
    unfold seenFrom about
    apply List.map_congr_left
    intro a _
    have : tmp'.pointInFrame a.p .NWU = a.p - G := by
      simp only [Frame.pointInFrame, Frame.projParentInFrame, rotate, conv, Frame.getPosition, htmp', Frame.setPosition,
        Frame.setNoRotation, Frame.identity, quatInv]
      ext <;> simp [Q.rotate, Q.toMat, Q.conj, Q.one] <;> ring
    simp only [conv]
    rw [this]
  have e2 : seenFrom tmp .NWU L2 = about G (moved F L2) := by
    unfold seenFrom about moved
    rw [List.map_map]
    apply List.map_congr_left
    intro a _
    have : tmp.pointInFrame a.p .NWU = F.pointInParent a.p .NWU - G := by
      simp only [Frame.pointInFrame, Frame.pointInParent, Frame.projParentInFrame, Frame.projFrameInParent, rotate, conv,
        Frame.getPosition, htmp, Frame.translateInFrame, Frame.translateInParent, Frame.inv, quatInv, Q.conj_conj,
        Q.rotate_sub, Q.rotate_add, Q.rotate_neg, Q.rotate_conj' hF]
      ext <;> simp <;> ring
    simp only [conv, Function.comp, this]
  rw [e1, e2]
  unfold about
  rw [List.map_append, inertiaOf_append]
  ext <;> simp [matOfCoeffs, Coeffs.add] <;> ring

/-! ## C20 -/

theorem rot_cancel {q : Q} (hq : q.IsUnit) (m : M3) :
    ((invRotMat q).mul (((rotMat q).mul m).mul (rotMat q).transpose)).mul (invRotMat q).transpose = m := by
  have hT : invRotMat q = (rotMat q).transpose := (C11_matrix q hq 0 .NWU).2.2.1
  have h1 : (invRotMat q).mul (rotMat q) = M3.one := by
    have : invRotMat q = q.conj.toMat := by
      rw [hT]; ext <;> simp [rotMat, Q.toMat, M3.transpose] <;> ring
    rw [this, rotMat, ← Q.toMat_mul hq.conj hq, Q.conj_mul hq]
    ext <;> simp [Q.toMat, M3.one] <;> norm_num
  have hTT : (invRotMat q).transpose = rotMat q := by rw [hT]; rfl
  have assoc : ∀ a b c : M3, (a.mul b).mul c = a.mul (b.mul c) := by intro a b c; ext <;> simp [M3.mul] <;> ring
  have one_mul : ∀ a : M3, M3.one.mul a = a := by intro a; ext <;> simp [M3.mul, M3.one]
  have mul_one : ∀ a : M3, a.mul M3.one = a := by intro a; ext <;> simp [M3.mul, M3.one]
  rw [hTT, ← hT, assoc (rotMat q), ← assoc (invRotMat q), h1, one_mul, assoc, h1, mul_one]

/-- **C20, at a frame.** Coefficients set at a frame in a convention are read back at that frame in that convention, with
the same mass and centre of gravity. -/
theorem C20_frame_round_trip (mass : ℝ) (c : Coeffs) (frame : Frame) (hf : frame.Valid) (cog : V3) (fc : FC) :
    (Tensor.ofFrame mass c frame cog fc).coeffsAtFrame frame fc = c ∧
    (Tensor.ofFrame mass c frame cog fc).getCOG fc = cog ∧ (Tensor.ofFrame mass c frame cog fc).mass = mass ∧
    (Tensor.setAtFrame mass (matOfCoeffs c) frame cog fc).matAtFrame frame fc = matOfCoeffs c := by
  have hcc : ∀ c, convCoeffs fc (convCoeffs fc c) = c := by
    intro c; cases fc <;> ext <;> simp [convCoeffs, swapCoeffs]
  have hI : ∀ c : Coeffs, convMat fc (matOfCoeffs c) = matOfCoeffs (convCoeffs fc c) := by
    intro c; cases fc
    · rfl
    · ext <;> simp [convMat, swapMat, matOfCoeffs, convCoeffs, swapCoeffs]
  have hsub : ∀ a b : M3, a - b + b = a := by intro a b; ext <;> simp
  have h1 : (Tensor.ofFrame mass c frame cog fc).coeffsAtFrame frame fc = c := by
    simp only [Tensor.ofFrame, Tensor.coeffsAtFrame]
    rw [hsub, rot_cancel hf, coeffs_mat, hcc]
  refine ⟨h1, conv_conv fc cog, rfl, ?_⟩
  have : Tensor.setAtFrame mass (matOfCoeffs c) frame cog fc = Tensor.ofFrame mass c frame cog fc := by
    simp only [Tensor.setAtFrame, Tensor.ofFrame, hI]
  rw [this]; unfold Tensor.matAtFrame; rw [h1]

/-- **C20, at COG, partial**: the coefficients round-trip in NWU; the centre of gravity and mass in both conventions. -/
theorem C20_cog_round_trip_partial (mass : ℝ) (c : Coeffs) (cog : V3) (fc : FC) :
    (Tensor.ofCOG mass c cog .NWU).coeffsAtCOG .NWU = c ∧ (Tensor.ofCOG mass c cog fc).getCOG fc = cog ∧
    (Tensor.ofCOG mass c cog fc).mass = mass ∧
    ((Tensor.ofCOG mass c cog fc).coeffsAtCOG fc = c ↔ fc = .NWU ∨ (c.Ixy = 0 ∧ c.Ixz = 0)) := by
  refine ⟨rfl, conv_conv fc cog, rfl, ?_⟩
  cases fc
  · simp; rfl
  · simp only [Tensor.coeffsAtCOG, Tensor.ofCOG, convCoeffs, coeffs_mat, swapCoeffs]
    constructor
    · intro h
      have a := congrArg Coeffs.Ixy h
      have b := congrArg Coeffs.Ixz h
      simp only at a b
      right; constructor <;> linarith
    · rintro (h | ⟨a, b⟩)
      · cases h
      · ext <;> simp [a, b]

/-- C20 fails at COG in NED as soon as a product of inertia with x is nonzero, and `SetInertiaTensorAtCOG` does not even
convert the centre of gravity. -/
theorem C20_cog_counterexample :
    (∃ c : Coeffs, (Tensor.ofCOG 1 c 0 .NED).coeffsAtCOG .NED ≠ c) ∧
    ∃ cog : V3, (Tensor.setAtCOG 1 M3.one cog .NED).getCOG .NED ≠ cog := by
  constructor
  · refine ⟨⟨1, 1, 1, 1, 0, 0⟩, fun h => ?_⟩
    have := congrArg Coeffs.Ixy h
    simp [Tensor.coeffsAtCOG, Tensor.ofCOG, convCoeffs, coeffs_mat, swapCoeffs] at this
    norm_num at this
  · refine ⟨V3.e3, fun h => ?_⟩
    have := congrArg V3.z h
    simp [Tensor.setAtCOG, Tensor.getCOG, conv, V3.e3] at this
    norm_num at this

/-- Non-vacuity: two masses, and a tensor describing them. -/
example : ∃ t, Describes t [⟨1, ⟨0, 1, 0⟩⟩, ⟨3, ⟨4, 1, 0⟩⟩] ∧ t.cog = ⟨3, 1, 0⟩ := by
  have hv : Frame.identity.Valid := Q.isUnit_one
  refine ⟨_, (C19_construction [⟨1, ⟨0, 1, 0⟩⟩, ⟨3, ⟨4, 1, 0⟩⟩] Frame.identity hv ⟨3, 1, 0⟩ .NWU ?_).1, rfl⟩
  ext <;> norm_num [massOf, momentOf, conv]

end Frydom.Inertia
