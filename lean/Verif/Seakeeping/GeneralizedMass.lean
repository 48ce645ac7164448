import Mathlib.LinearAlgebra.Matrix.NonsingularInverse
import Mathlib.Data.Real.Basic
import Mathlib.Logic.Equiv.Fin.Basic
import Mathlib.LinearAlgebra.Matrix.ToLinearEquiv
import Mathlib.Tactic

/-!
# Added mass in the equations of motion (C119, C120)

`src/frydom/hydrodynamics/seakeeping/linear/radiation/FrRadiationModelBase.cpp`, `FrVariablesBEMBodyBase.cpp`. The bodies of the database are numbered by `Fin n` (in the order of the map,
the same for every loop); `MatrixMN::Inverse` (MathUtils) is the inverse of the matrix; the vectors of the solver (Chrono) are functions of the index.
-/

open Classical

noncomputable section

namespace Frydom.Seakeeping

/-- A generalized vector and a matrix of one body. -/
abbrev G6 := Fin 6 → ℝ
abbrev G66 := Matrix (Fin 6) (Fin 6) ℝ

/-- `FrRadiationModelBase` with what it reads: infinite added mass (`GetInfiniteAddedMass`), mass matrix at the centre of gravity of each body (`GetMassMatrixAtCOG`), activity, place of each body
in the vectors of the solver (`GetOffset_w`), loads and velocities of the variables (`Get_fb`, `Get_qb`), and the map `m_invGeneralizedMass`. -/
structure MassModel (n : ℕ) where
  ainf : Fin n → Fin n → G66
  mass : Fin n → G66
  active : Fin n → Bool
  off : Fin n → ℕ
  fb : Fin n → G6
  qb : Fin n → G6
  inv : Fin n → Fin n → G66

namespace MassModel
variable {n : ℕ}

/-- Row (or column) `6 * iBody + i` (FrRadiationModelBase.cpp:131-135). -/
def idx (i : Fin n) (a : Fin 6) : Fin (n * 6) := finProdFinEquiv (i, a)

/-- `subMatrix` (FrRadiationModelBase.cpp:123-127). -/
def subMatrix (m : MassModel n) (i j : Fin n) : G66 := if j = i then m.ainf i j + m.mass i else m.ainf i j

/-- `massMatrix` before the inversion (FrRadiationModelBase.cpp:107-140): the loops write each entry once. -/
def massMatrix (m : MassModel n) : Matrix (Fin (n * 6)) (Fin (n * 6)) ℝ := fun r c =>
  m.subMatrix (finProdFinEquiv.symm r).1 (finProdFinEquiv.symm c).1 (finProdFinEquiv.symm r).2 (finProdFinEquiv.symm c).2

/-- `BuildGeneralizedMass` (FrRadiationModelBase.cpp:105-168). -/
def build (m : MassModel n) : MassModel n := { m with inv := fun i j a b => m.massMatrix⁻¹ (idx i a) (idx j b) }

/-- `GetGeneralizedMass` (FrRadiationModelBase.cpp:171-181). -/
def generalizedMass (m : MassModel n) (i j : Fin n) : G66 := if i = j then m.ainf i j + m.mass i else m.ainf i j

/-- `Compute_inc_invMb_v(result, vect)` of the variables of body `i` (FrVariablesBEMBodyBase.cpp:72-104). -/
def incInv (m : MassModel n) (i : Fin n) (result vect : G6) : G6 :=
  if vect = m.fb i then result + ∑ j, if m.active j then (m.inv i j).mulVec (m.fb j) else 0
  else result + (m.inv i i).mulVec vect
/-- `Compute_invMb_v` (FrVariablesBEMBodyBase.cpp:35-70). -/
def invMb (m : MassModel n) (i : Fin n) (vect : G6) : G6 :=
  if vect = m.fb i then ∑ j, if m.active j then (m.inv i j).mulVec (m.fb j) else 0
  else (m.inv i i).mulVec vect
/-- `Compute_inc_invMb_v(result, vect, variable)` (FrVariablesBEMBodyBase.cpp:106-118). -/
def incInvOf (m : MassModel n) (i k : Fin n) (result vect : G6) : G6 := result + (m.inv i k).mulVec vect
/-- `Compute_inc_Mb_v` (FrVariablesBEMBodyBase.cpp:120-150). -/
def incMb (m : MassModel n) (i : Fin n) (result vect : G6) : G6 :=
  if vect = m.qb i then result + ∑ j, if m.active j then (m.generalizedMass i j).mulVec (m.qb j) else 0
  else result + (m.generalizedMass i i).mulVec vect
/-- `MultiplyAndAdd` (FrVariablesBEMBodyBase.cpp:152-164) of the variables of body `i`, at `offset` in the system. -/
def multiplyAndAdd (m : MassModel n) (i : Fin n) (offset : ℕ) (result vect : ℕ → ℝ) (c : ℝ) : ℕ → ℝ := fun r =>
  if h : offset ≤ r ∧ r < offset + 6 then result r + ∑ j : Fin 6, c * m.generalizedMass i i ⟨r - offset, by omega⟩ j * vect j.1 else result r
/-- `DiagonalAdd` (FrVariablesBEMBodyBase.cpp:166-174). -/
def diagonalAdd (m : MassModel n) (i : Fin n) (offset : ℕ) (result : ℕ → ℝ) (c : ℝ) : ℕ → ℝ := fun r =>
  if h : offset ≤ r ∧ r < offset + 6 then result r + c * m.generalizedMass i i ⟨r - offset, by omega⟩ ⟨r - offset, by omega⟩ else result r
/-- `Build_M` (FrVariablesBEMBodyBase.cpp:176-185). -/
def buildM (m : MassModel n) (i : Fin n) (row col : ℕ) (storage : ℕ → ℕ → ℝ) (c : ℝ) : ℕ → ℕ → ℝ := fun r s =>
  if h : (row ≤ r ∧ r < row + 6) ∧ (col ≤ s ∧ s < col + 6) then c * m.generalizedMass i i ⟨r - row, by omega⟩ ⟨s - col, by omega⟩ else storage r s

/-- `PasteSumVector` of six components at `off`. -/
def pasteSum (R : ℕ → ℝ) (off : ℕ) (v : G6) : ℕ → ℝ := fun r => if h : off ≤ r ∧ r < off + 6 then R r + v ⟨r - off, by omega⟩ else R r
/-- The six components of a vector at `off`. -/
def slice (w : ℕ → ℝ) (off : ℕ) : G6 := fun a => w (off + a.1)
/-- One turn of the inner loop of `IntLoadResidual_Mv` (FrRadiationModelBase.cpp:53-73). -/
def residualStep (m : MassModel n) (w : ℕ → ℝ) (c : ℝ) (i : Fin n) (R : ℕ → ℝ) (j : Fin n) : ℕ → ℝ :=
  if m.active j then pasteSum R (m.off i) ((c • m.ainf i j).mulVec (slice w (m.off j))) else R
/-- `IntLoadResidual_Mv` (FrRadiationModelBase.cpp:40-78). -/
def residualMv (m : MassModel n) (R w : ℕ → ℝ) (c : ℝ) : ℕ → ℝ :=
  (List.finRange n).foldl (fun R i => if m.active i then (List.finRange n).foldl (m.residualStep w c i) R else R) R

/-! ## Specification -/

/-- The accelerations satisfy the coupled equations of motion: for each body, mass times acceleration plus infinite added mass times the accelerations of all the bodies is the load. -/
def Motion (m : MassModel n) (f acc : Fin n → G6) : Prop :=
  ∀ i, (m.mass i).mulVec (acc i) + ∑ j, (m.ainf i j).mulVec (acc j) = f i

/-- The mass matrix of the whole system can be inverted: no acceleration without load. -/
def Regular (m : MassModel n) : Prop := m.massMatrix.det ≠ 0

/-! ## Lemmas -/

theorem mass_entry (m : MassModel n) (i j : Fin n) (a b : Fin 6) : m.massMatrix (idx i a) (idx j b) = m.generalizedMass i j a b := by
  unfold massMatrix idx subMatrix generalizedMass
  simp only [Equiv.symm_apply_apply]
  by_cases h : i = j
  · rw [if_pos h, if_pos h.symm]
  · rw [if_neg h, if_neg (Ne.symm h)]

theorem sum_idx (F : Fin (n * 6) → ℝ) : ∑ r, F r = ∑ i : Fin n, ∑ a : Fin 6, F (idx i a) := by
  rw [← finProdFinEquiv.sum_comp F, Fintype.sum_prod_type]
  rfl

theorem idx_inj (i j : Fin n) (a b : Fin 6) : idx i a = idx j b ↔ i = j ∧ a = b := by
  unfold idx; rw [finProdFinEquiv.injective.eq_iff, Prod.mk.injEq]

theorem gen_mulVec (m : MassModel n) (acc : Fin n → G6) (i : Fin n) :
    ∑ j, (m.generalizedMass i j).mulVec (acc j) = (m.mass i).mulVec (acc i) + ∑ j, (m.ainf i j).mulVec (acc j) := by
  have h : ∀ j, (m.generalizedMass i j).mulVec (acc j) = (if i = j then (m.mass i).mulVec (acc i) else 0) + (m.ainf i j).mulVec (acc j) := by
    intro j
    unfold generalizedMass
    by_cases hij : i = j
    · subst hij; rw [if_pos rfl, if_pos rfl, Matrix.add_mulVec, add_comm]
    · rw [if_neg hij, if_neg hij, zero_add]
  simp only [h]
  rw [Finset.sum_add_distrib, Finset.sum_ite_eq Finset.univ i]
  simp

/-! ## C119 -/

/-- **C119, inverse.** After `BuildGeneralizedMass`, if the mass matrix of the whole system is regular, the blocks kept are those of its inverse: the product of the generalized mass (what the getter says) and of the
inverse, summed over the bodies, is the identity, on both sides. -/
theorem C119_inverse (m : MassModel n) (h : Regular m) (i j : Fin n) :
    ∑ k, m.build.generalizedMass i k * m.build.inv k j = (if i = j then 1 else 0) ∧
    ∑ k, m.build.inv i k * m.build.generalizedMass k j = (if i = j then 1 else 0) := by
  have hu : IsUnit m.massMatrix.det := isUnit_iff_ne_zero.mpr h
  have hone : ∀ a b : Fin 6, (1 : Matrix (Fin (n * 6)) (Fin (n * 6)) ℝ) (idx i a) (idx j b) = (if i = j then (1 : G66) else 0) a b := by
    intro a b
    rw [Matrix.one_apply]
    by_cases hij : i = j
    · subst hij
      rw [if_pos rfl, Matrix.one_apply]
      simp only [idx_inj, true_and]
    · rw [if_neg hij, if_neg (fun hh => hij ((idx_inj i j a b).mp hh).1)]; rfl
  constructor
  · ext a b
    have := congrFun (congrFun (Matrix.mul_nonsing_inv m.massMatrix hu) (idx i a)) (idx j b)
    rw [hone, Matrix.mul_apply, sum_idx] at this
    rw [← this, Matrix.sum_apply]
    apply Finset.sum_congr rfl; intro k _
    rw [Matrix.mul_apply]
    apply Finset.sum_congr rfl; intro c _
    rw [mass_entry]; rfl
  · ext a b
    have := congrFun (congrFun (Matrix.nonsing_inv_mul m.massMatrix hu) (idx i a)) (idx j b)
    rw [hone, Matrix.mul_apply, sum_idx] at this
    rw [← this, Matrix.sum_apply]
    apply Finset.sum_congr rfl; intro k _
    rw [Matrix.mul_apply]
    apply Finset.sum_congr rfl; intro c _
    rw [mass_entry]; rfl

/-- **C119, accelerations.** With every body active, the accelerations that the variables give for the loads (`Compute_invMb_v` of each body on its own load) solve the coupled equations of motion, and nothing else does. -/
theorem C119_accelerations (m : MassModel n) (h : Regular m) (ha : ∀ j, m.active j = true) (acc : Fin n → G6) :
    Motion m m.fb acc ↔ ∀ i, acc i = m.build.invMb i (m.fb i) := by
  have hres : ∀ i, m.build.invMb i (m.fb i) = ∑ j, (m.build.inv i j).mulVec (m.fb j) := by
    intro i
    unfold invMb
    rw [if_pos (show m.fb i = m.build.fb i from rfl)]
    apply Finset.sum_congr rfl; intro j _
    rw [if_pos (show m.build.active j = true from ha j)]; rfl
  constructor
  · intro hm i
    rw [hres]
    have : ∀ j, m.fb j = ∑ k, (m.generalizedMass j k).mulVec (acc k) := fun j => by rw [gen_mulVec]; exact (hm j).symm
    simp only [this, Matrix.mulVec_sum, Matrix.mulVec_mulVec]
    rw [Finset.sum_comm]
    have hk : ∀ k, ∑ j, (m.build.inv i j * m.generalizedMass j k).mulVec (acc k) = (if i = k then acc k else 0) := by
      intro k
      rw [← Matrix.sum_mulVec]
      have := (C119_inverse m h i k).2
      rw [show (∑ j, m.build.inv i j * m.generalizedMass j k) = if i = k then 1 else 0 from this]
      split_ifs <;> simp
    simp only [hk]
    simp
  · intro hacc i
    rw [← gen_mulVec]
    simp only [hacc, hres, Matrix.mulVec_sum, Matrix.mulVec_mulVec]
    rw [Finset.sum_comm]
    have hk : ∀ k, ∑ j, (m.generalizedMass i j * m.build.inv j k).mulVec (m.fb k) = (if i = k then m.fb k else 0) := by
      intro k
      rw [← Matrix.sum_mulVec]
      have := (C119_inverse m h i k).1
      rw [show (∑ j, m.generalizedMass i j * m.build.inv j k) = if i = k then 1 else 0 from this]
      split_ifs <;> simp
    simp only [hk]
    simp

/-- **C119, momentum.** With every body active, `Compute_inc_Mb_v` of a body on its own velocity adds its mass times its velocity plus the infinite added mass times the velocities of all the bodies. -/
theorem C119_momentum (m : MassModel n) (ha : ∀ j, m.active j = true) (i : Fin n) (result : G6) :
    m.incMb i result (m.qb i) = result + ((m.mass i).mulVec (m.qb i) + ∑ j, (m.ainf i j).mulVec (m.qb j)) := by
  unfold incMb
  rw [if_pos rfl, ← gen_mulVec]
  congr 1
  apply Finset.sum_congr rfl; intro j _
  rw [if_pos (ha j)]

/-- **C119, momentum of another vector.** On a vector that is not the velocity of the body, `Compute_inc_Mb_v` adds the mass and the infinite added mass of the body alone times the vector: the other
bodies, at rest for that vector, count for nothing. -/
theorem C119_momentum_other (m : MassModel n) (i : Fin n) (result vect : G6) (hv : vect ≠ m.qb i) :
    m.incMb i result vect = result + ((m.mass i).mulVec vect + (m.ainf i i).mulVec vect) := by
  unfold incMb generalizedMass
  rw [if_neg hv, if_pos rfl, Matrix.add_mulVec, add_comm ((m.ainf i i).mulVec vect)]

/-- **C119, increments.** The incremental forms add to the result what the direct form computes, and the form for another body uses the block of that body. -/
theorem C119_increments (m : MassModel n) (i k : Fin n) (result vect : G6) :
    m.incInv i result vect = result + m.invMb i vect ∧ m.incInvOf i k result vect = result + (m.inv i k).mulVec vect := by
  refine ⟨?_, rfl⟩
  unfold incInv invMb
  split_ifs <;> rfl

theorem inner_fold (m : MassModel n) (w : ℕ → ℝ) (c : ℝ) (i : Fin n) (l : List (Fin n)) : ∀ (R : ℕ → ℝ) (r : ℕ),
    l.foldl (m.residualStep w c i) R r = R r + if h : m.off i ≤ r ∧ r < m.off i + 6 then
      (l.map fun j => if m.active j then ((c • m.ainf i j).mulVec (slice w (m.off j))) ⟨r - m.off i, by omega⟩ else 0).sum else 0 := by
  induction l with
  | nil => intro R r; simp
  | cons j l ih =>
    intro R r
    rw [List.foldl_cons, ih]
    unfold residualStep
    by_cases ha : m.active j = true
    · rw [if_pos ha]
      unfold pasteSum
      by_cases h : m.off i ≤ r ∧ r < m.off i + 6
      · rw [dif_pos h, dif_pos h, dif_pos h]
        simp only [List.map_cons, List.sum_cons, if_pos ha]; ring
      · rw [dif_neg h, dif_neg h, dif_neg h]
    · rw [if_neg ha]
      by_cases h : m.off i ≤ r ∧ r < m.off i + 6
      · rw [dif_pos h, dif_pos h]
        simp only [List.map_cons, List.sum_cons, if_neg ha]; ring
      · rw [dif_neg h, dif_neg h]

/-- **C119, residual.** For bodies with disjoint places in the vectors of the solver, `IntLoadResidual_Mv` adds to the six entries of each active body `c` times the infinite added mass applied to the entries of the active bodies;
no other entry changes. -/
theorem C119_residual (m : MassModel n) (hoff : ∀ i j, i ≠ j → m.off i + 6 ≤ m.off j ∨ m.off j + 6 ≤ m.off i) (R w : ℕ → ℝ) (c : ℝ) :
    (∀ i, m.active i = true → ∀ a : Fin 6, m.residualMv R w c (m.off i + a.1) = R (m.off i + a.1) +
      c * ∑ j, if m.active j then ∑ b : Fin 6, m.ainf i j a b * w (m.off j + b.1) else 0) ∧
    (∀ r, (∀ i, m.active i = true → r < m.off i ∨ m.off i + 6 ≤ r) → m.residualMv R w c r = R r) := by
  have key : ∀ (l : List (Fin n)) (R : ℕ → ℝ) (r : ℕ), l.foldl (fun R i => if m.active i then (List.finRange n).foldl (m.residualStep w c i) R else R) R r =
      R r + (l.map fun i => if m.active i then (if h : m.off i ≤ r ∧ r < m.off i + 6 then
        ((List.finRange n).map fun j => if m.active j then ((c • m.ainf i j).mulVec (slice w (m.off j))) ⟨r - m.off i, by omega⟩ else 0).sum else 0) else 0).sum := by
    intro l
    induction l with
    | nil => intro R r; simp
    | cons i l ih =>
      intro R r
      rw [List.foldl_cons, ih]
      by_cases ha : m.active i = true
      · simp only [if_pos ha, List.map_cons, List.sum_cons]
        rw [inner_fold]; ring
      · simp only [if_neg ha, List.map_cons, List.sum_cons]; ring
  refine ⟨?_, ?_⟩
  · intro i hi a
    unfold residualMv
    rw [key]
    congr 1
    rw [← Fin.sum_univ_def, Finset.sum_eq_single i]
    · rw [if_pos hi, dif_pos (by omega), ← Fin.sum_univ_def, Finset.mul_sum]
      apply Finset.sum_congr rfl; intro j _
      by_cases hj : m.active j = true
      · rw [if_pos hj, if_pos hj]
        have : (⟨m.off i + a.1 - m.off i, by omega⟩ : Fin 6) = a := by ext; simp
        rw [this, Matrix.smul_mulVec, Pi.smul_apply, smul_eq_mul]
        rfl
      · rw [if_neg hj, if_neg hj, mul_zero]
    · intro k _ hk
      by_cases ha : m.active k = true
      · rw [if_pos ha, dif_neg]
        rcases hoff k i hk with h | h <;> omega
      · rw [if_neg ha]
    · intro h; exact absurd (Finset.mem_univ i) h
  · intro r hr
    unfold residualMv
    rw [key]
    have : (List.finRange n).map (fun i => if m.active i then (if h : m.off i ≤ r ∧ r < m.off i + 6 then
        ((List.finRange n).map fun j => if m.active j then ((c • m.ainf i j).mulVec (slice w (m.off j))) ⟨r - m.off i, by omega⟩ else 0).sum else 0) else 0) =
        (List.finRange n).map fun _ => (0 : ℝ) := by
      apply List.map_congr_left
      intro i _
      by_cases ha : m.active i = true
      · rw [if_pos ha, dif_neg]
        rcases hr i ha with h | h <;> omega
      · rw [if_neg ha]
    rw [this]; simp

/-- **C119, assembly.** `DiagonalAdd` adds to the six entries of the body `c` times the diagonal of its mass plus its own infinite added mass; `Build_M` writes `c` times that block at the place asked; every other entry
is unchanged. (The coupling blocks with other bodies are not written by these two.) -/
theorem C119_assembly (m : MassModel n) (i : Fin n) (offset row col : ℕ) (result : ℕ → ℝ) (storage : ℕ → ℕ → ℝ) (c : ℝ) :
    (∀ a : Fin 6, diagonalAdd m i offset result c (offset + a.1) = result (offset + a.1) + c * (m.mass i a a + m.ainf i i a a)) ∧
    (∀ r, (r < offset ∨ offset + 6 ≤ r) → diagonalAdd m i offset result c r = result r) ∧
    (∀ a b : Fin 6, buildM m i row col storage c (row + a.1) (col + b.1) = c * (m.mass i a b + m.ainf i i a b)) ∧
    (∀ r s, (r < row ∨ row + 6 ≤ r ∨ s < col ∨ col + 6 ≤ s) → buildM m i row col storage c r s = storage r s) := by
  have hg : ∀ a b, m.generalizedMass i i a b = m.mass i a b + m.ainf i i a b := by
    intro a b; unfold generalizedMass; rw [if_pos rfl, Matrix.add_apply, add_comm]
  refine ⟨?_, ?_, ?_, ?_⟩
  · intro a
    have ha := a.2
    unfold diagonalAdd
    rw [dif_pos ⟨by omega, by omega⟩]
    have : (⟨offset + a.1 - offset, by omega⟩ : Fin 6) = a := Fin.ext (by simp)
    rw [this, hg]
  · intro r hr; unfold diagonalAdd; rw [dif_neg (by omega)]
  · intro a b
    have ha := a.2; have hb := b.2
    unfold buildM
    rw [dif_pos ⟨⟨by omega, by omega⟩, by omega, by omega⟩]
    have h1 : (⟨row + a.1 - row, by omega⟩ : Fin 6) = a := Fin.ext (by simp)
    have h2 : (⟨col + b.1 - col, by omega⟩ : Fin 6) = b := Fin.ext (by simp)
    rw [h1, h2, hg]
  · intro r s hr; unfold buildM; rw [dif_neg (by omega)]

/-! ## C120 -/

/-- **C120 (defect), mass changed.** The inverse is computed once: if the mass of a body is changed afterwards, the generalized mass that the getter gives and the inverse kept are inverse of each other only if the mass matrices did not
change. -/
theorem C120_stale_inverse (m : MassModel n) (h : Regular m) (mass' : Fin n → G66) :
    (∀ i j, ∑ k, ({ m.build with mass := mass' } : MassModel n).generalizedMass i k * ({ m.build with mass := mass' } : MassModel n).inv k j = if i = j then 1 else 0) ↔ mass' = m.mass := by
  constructor
  · intro hh
    funext i
    have hz : ∀ j, (mass' i - m.mass i) * m.build.inv i j = 0 := by
      intro j
      have h1 := hh i j
      have h2 := (C119_inverse m h i j).1
      have hsub : ∑ k, (({ m.build with mass := mass' } : MassModel n).generalizedMass i k - m.build.generalizedMass i k) * m.build.inv k j = 0 := by
        simp only [Matrix.sub_mul, Finset.sum_sub_distrib]
        rw [h2]
        have : (∑ k, ({ m.build with mass := mass' } : MassModel n).generalizedMass i k * m.build.inv k j) = if i = j then 1 else 0 := h1
        rw [this, sub_self]
      have hd : ∀ k, ({ m.build with mass := mass' } : MassModel n).generalizedMass i k - m.build.generalizedMass i k = if i = k then mass' i - m.mass i else 0 := by
        intro k
        unfold generalizedMass
        by_cases hik : i = k
        · rw [if_pos hik, if_pos hik, if_pos hik]
          show m.ainf i k + mass' i - (m.ainf i k + m.mass i) = _
          abel
        · rw [if_neg hik, if_neg hik, if_neg hik]
          exact sub_self _
      simp only [hd, ite_mul, Matrix.zero_mul] at hsub
      rw [Finset.sum_ite_eq Finset.univ i] at hsub
      simpa using hsub
    have hI := (C119_inverse m h i i).2
    rw [if_pos rfl] at hI
    have : mass' i - m.mass i = 0 := by
      calc mass' i - m.mass i = (mass' i - m.mass i) * 1 := (Matrix.mul_one _).symm
        _ = (mass' i - m.mass i) * ∑ k, m.build.inv i k * m.build.generalizedMass k i := by rw [hI]
        _ = ∑ k, ((mass' i - m.mass i) * m.build.inv i k) * m.build.generalizedMass k i := by rw [Finset.mul_sum]; simp only [Matrix.mul_assoc]
        _ = 0 := by simp [hz]
    exact sub_eq_zero.mp this
  · intro hh i j
    subst hh
    exact (C119_inverse m h i j).1

/-- **C120 (defect), inactive body.** Two bodies, the second inactive. The acceleration given for the first is that of a system where the second, unloaded, is free to move: it satisfies the equation of motion of the first alone exactly if
the coupling with the motion that the second would have, free and unloaded, is null. -/
theorem C120_inactive (m : MassModel 2) (h : Regular m) (h0 : m.active 0 = true) (h1 : m.active 1 = false) :
    let acc := m.build.invMb 0 (m.fb 0)
    (m.mass 0 + m.ainf 0 0).mulVec acc = m.fb 0 ↔ (m.ainf 0 1).mulVec ((m.build.inv 1 0).mulVec (m.fb 0)) = 0 := by
  intro acc
  have hacc : acc = (m.build.inv 0 0).mulVec (m.fb 0) := by
    show m.build.invMb 0 (m.fb 0) = _
    unfold invMb
    rw [if_pos (show m.fb 0 = m.build.fb 0 from rfl), Fin.sum_univ_two]
    rw [if_pos (show m.build.active 0 = true from h0), if_neg (by show ¬ m.active 1 = true; rw [h1]; simp), add_zero]
    rfl
  have hI := (C119_inverse m h 0 0).1
  rw [if_pos rfl, Fin.sum_univ_two] at hI
  have g0 : m.build.generalizedMass 0 0 = m.mass 0 + m.ainf 0 0 := by unfold generalizedMass; rw [if_pos rfl]; exact add_comm _ _
  have g1 : m.build.generalizedMass 0 1 = m.ainf 0 1 := by unfold generalizedMass; rw [if_neg (by decide)]; rfl
  rw [g0, g1] at hI
  have hv := congrArg (fun M : G66 => M.mulVec (m.fb 0)) hI
  simp only [Matrix.add_mulVec, ← Matrix.mulVec_mulVec, Matrix.one_mulVec] at hv
  rw [hacc]
  rw [Matrix.add_mulVec]
  constructor
  · intro hh
    rw [hh] at hv
    exact (add_eq_left (a := m.fb 0)).mp hv
  · intro hh
    rw [hh, add_zero] at hv
    exact hv

/-- **C120 (defect), guess from the values.** Whether the loads of the other bodies are included is guessed by comparing the vector with the load of the body. The result is therefore not linear: for an unloaded body, the null vector is taken
for its load and gives the acceleration due to the loads of the others; and twice the load of a loaded body gives twice the block of the body alone. -/
theorem C120_not_linear (m : MassModel n) (i : Fin n) (ha : ∀ j, m.active j = true) :
    (m.fb i = 0 → m.invMb i 0 = ∑ j, (m.inv i j).mulVec (m.fb j)) ∧
    (m.fb i ≠ 0 → m.invMb i ((2 : ℝ) • m.fb i) = (2 : ℝ) • (m.inv i i).mulVec (m.fb i) ∧
      (m.invMb i ((2 : ℝ) • m.fb i) = (2 : ℝ) • m.invMb i (m.fb i) ↔ ∑ j ∈ Finset.univ.erase i, (m.inv i j).mulVec (m.fb j) = 0)) := by
  have hown : m.invMb i (m.fb i) = ∑ j, (m.inv i j).mulVec (m.fb j) := by
    unfold invMb
    rw [if_pos rfl]
    apply Finset.sum_congr rfl; intro j _
    rw [if_pos (ha j)]
  refine ⟨?_, ?_⟩
  · intro h
    rw [← hown, h]
  · intro h
    have hne : ¬ ((2 : ℝ) • m.fb i = m.fb i) := by
      intro hh
      apply h
      have : (2 : ℝ) • m.fb i - m.fb i = 0 := sub_eq_zero.mpr hh
      have h2 : (2 : ℝ) • m.fb i - m.fb i = m.fb i := by module
      rw [← h2]; exact this
    have h2 : m.invMb i ((2 : ℝ) • m.fb i) = (2 : ℝ) • (m.inv i i).mulVec (m.fb i) := by
      unfold invMb
      rw [if_neg hne, Matrix.mulVec_smul]
    refine ⟨h2, ?_⟩
    rw [h2, hown, ← Finset.add_sum_erase Finset.univ _ (Finset.mem_univ i)]
    rw [(smul_right_injective G6 (two_ne_zero : (2 : ℝ) ≠ 0)).eq_iff]
    exact left_eq_add

/-- **C120 (defect), product.** The product of the mass of a body with a vector of the system reads the first six entries of the vector, whatever the place of the body: for two bodies at 0 and 6, changing the entries of the second changes
nothing in its product. -/
theorem C120_product_misplaced (m : MassModel n) (i : Fin n) (offset : ℕ) (ho : 6 ≤ offset) (result vect vect' : ℕ → ℝ) (c : ℝ) (h : ∀ r < 6, vect r = vect' r) :
    m.multiplyAndAdd i offset result vect c = m.multiplyAndAdd i offset result vect' c ∧
    (∀ a : Fin 6, m.multiplyAndAdd i 0 result vect c a.1 = result a.1 + c * (m.generalizedMass i i).mulVec (fun b => vect b.1) a) := by
  refine ⟨?_, ?_⟩
  · funext r
    unfold multiplyAndAdd
    split_ifs
    · congr 1
      apply Finset.sum_congr rfl; intro j _
      rw [h j.1 j.2]
    · rfl
  · intro a
    unfold multiplyAndAdd
    rw [dif_pos (by omega)]
    congr 1
    simp only [Nat.sub_zero, Matrix.mulVec, dotProduct, Finset.mul_sum]
    apply Finset.sum_congr rfl; intro j _
    ring

/-- A case of `C119`: two bodies of unit mass, coupled in heave by an added mass of one half. -/
def coupled : MassModel 2 where
  ainf := fun i j => Matrix.of fun a b => if i ≠ j ∧ a = 2 ∧ b = 2 then 1 / 2 else 0
  mass := fun _ => 1
  active := fun _ => true
  off := fun i => 6 * i.1
  fb := fun _ _ => 0
  qb := fun _ _ => 0
  inv := fun _ _ => 0

example : Regular coupled := by
  unfold Regular
  rw [Ne, ← Matrix.exists_mulVec_eq_zero_iff]
  rintro ⟨v, hv, h0⟩
  apply hv
  have hrow : ∀ (i : Fin 2) (a : Fin 6), ∑ j : Fin 2, ∑ b : Fin 6, coupled.generalizedMass i j a b * v (idx j b) = 0 := by
    intro i a
    have := congrFun h0 (idx i a)
    simp only [Matrix.mulVec, dotProduct, Pi.zero_apply] at this
    rw [sum_idx] at this
    simp only [mass_entry] at this
    exact this
  have hz : ∀ (i : Fin 2) (a : Fin 6), v (idx i a) = 0 := by
    have e : ∀ (i : Fin 2) (a : Fin 6), v (idx i a) + (if a = 2 then 1 / 2 * v (idx (1 - i) 2) else 0) = 0 := by
      intro i a
      refine Eq.trans ?_ (hrow i a)
      fin_cases i <;> fin_cases a <;> simp [generalizedMass, coupled, Fin.sum_univ_two, Fin.sum_univ_six, Matrix.one_apply, Matrix.add_apply] <;> ring
    intro i a
    have h1 := e 0 2
    have h2 := e 1 2
    simp at h1 h2
    have a0 : v (idx 0 2) = 0 := by linarith
    have a1 : v (idx 1 2) = 0 := by linarith
    by_cases ha : a = 2
    · subst ha
      fin_cases i
      · exact a0
      · exact a1
    · have := e i a
      simpa [ha] using this
  funext r
  have : r = idx (finProdFinEquiv.symm r).1 (finProdFinEquiv.symm r).2 := by unfold idx; simp
  rw [this]; exact hz _ _

end MassModel
end Frydom.Seakeeping
