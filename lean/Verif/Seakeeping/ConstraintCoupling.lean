import Verif.Seakeeping.GeneralizedMass

/-!
# Constraints between bodies with added mass (C137)

`src/frydom/core/link/constraint/FrConstraintTwoBodiesBase.cpp`.
-/

open Classical

noncomputable section

namespace Frydom.Seakeeping
variable {n : ℕ}

/-- The variables of a body seen by a constraint: those of a body of the hydrodynamic database (`FrVariablesBEMBodyBase`), or those of another body (Chrono: its own mass matrix, independent of the
others). -/
inductive Variables (n : ℕ)
  | bem (i : Fin n)
  | plain (mass : G66) (active : Bool)

namespace Variables

/-- `IsActive`. -/
def isActive (m : MassModel n) : Variables n → Bool
  | bem i => m.active i
  | plain _ a => a

/-- `Compute_invMb_v`: `FrVariablesBEMBodyBase` (`MassModel.invMb`), or Chrono's (external: the inverse mass matrix). -/
def invMb (m : MassModel n) : Variables n → G6 → G6
  | bem i, v => m.invMb i v
  | plain M _, v => M⁻¹.mulVec v

end Variables

/-- A scalar constraint between two bodies: its variables, its Jacobian rows, and its `cfm_i`. -/
structure Constraint2 (n : ℕ) where
  varA : Variables n
  varB : Variables n
  cqA : G6
  cqB : G6
  cfm : ℝ := 0

namespace Constraint2

/-- `Eq_a`, `Eq_b` at the end of `Update_auxiliary` (FrConstraintTwoBodiesBase.cpp:14-40); `old`: their values before (kept when the variables are not active). -/
def eq (m : MassModel n) (k : Constraint2 n) (old : G6 × G6) : G6 × G6 :=
  let eqA := if k.varA.isActive m then k.varA.invMb m k.cqA else old.1
  let eqB := if k.varB.isActive m then k.varB.invMb m k.cqB else old.2
  if k.varA.isActive m && k.varB.isActive m then
    match k.varA, k.varB with
    | .bem i, .bem j => (m.incInvOf i j eqA k.cqB, m.incInvOf j i eqB k.cqA)
    | _, _ => (eqA, eqB)
  else (eqA, eqB)

/-- `g_i` at the end of `Update_auxiliary` (FrConstraintTwoBodiesBase.cpp:42-56). -/
def g (m : MassModel n) (k : Constraint2 n) (old : G6 × G6) : ℝ :=
  let e := k.eq m old
  let g := if k.varA.isActive m then dotProduct k.cqA e.1 else 0
  let g := if k.varB.isActive m then g + dotProduct k.cqB e.2 else g
  if k.cfm ≠ 0 then g + k.cfm else g

end Constraint2

/-! ## Specification -/

/-- The loads of a unit multiplier of the constraint on the bodies of the database: `Cq_a` on body `a`, `Cq_b` on body `b`, nothing on the others. -/
def reaction (a b : Fin n) (cqA cqB : G6) : Fin n → G6 := fun i => (if i = a then cqA else 0) + (if i = b then cqB else 0)

theorem motion_iff (m : MassModel n) (h : MassModel.Regular m) (f acc : Fin n → G6) :
    MassModel.Motion m f acc ↔ ∀ i, acc i = ∑ j, (m.build.inv i j).mulVec (f j) := by
  have hk := MassModel.C119_accelerations ({ m with fb := f, active := fun _ => true } : MassModel n) h (fun _ => rfl) acc
  have e : ∀ i, ({ m with fb := f, active := fun _ => true } : MassModel n).build.invMb i (f i) = ∑ j, (m.build.inv i j).mulVec (f j) := by
    intro i
    unfold MassModel.invMb
    refine (if_pos (show f i = f i from rfl)).trans ?_
    apply Finset.sum_congr rfl; intro j _
    exact if_pos (show true = true from rfl)
  refine hk.trans ?_
  constructor <;> intro hh i
  · exact (hh i).trans (e i)
  · exact (hh i).trans (e i).symm

theorem motion_unique (m : MassModel n) (h : MassModel.Regular m) (f acc : Fin n → G6) (hm : MassModel.Motion m f acc) (i : Fin n) :
    acc i = ∑ j, (m.build.inv i j).mulVec (f j) := (motion_iff m h f acc).mp hm i

theorem cfm_add (g c : ℝ) : (if c ≠ 0 then g + c else g) = g + c := by
  by_cases h : c = 0
  · simp [h]
  · rw [if_pos h]

/-- **C137, two bodies of the database.** For a constraint between two different active bodies of the hydrodynamic database, when none of the Jacobian rows happens to be the load of its body, the number computed is the acceleration of the
constraint under a unit multiplier in the coupled equations of motion of all the bodies: `Cq_a` times the acceleration of `a` plus `Cq_b` times that of `b`, plus the compliance; and the two vectors kept are those accelerations. -/
theorem C137_coupled (m : MassModel n) (h : MassModel.Regular m) (a b : Fin n) (hab : a ≠ b) (ha : m.active a = true) (hb : m.active b = true) (cqA cqB : G6) (cfm : ℝ)
    (hfa : cqA ≠ m.fb a) (hfb : cqB ≠ m.fb b) (old : G6 × G6) (acc : Fin n → G6) (hm : MassModel.Motion m (reaction a b cqA cqB) acc) :
    (⟨.bem a, .bem b, cqA, cqB, cfm⟩ : Constraint2 n).eq m.build old = (acc a, acc b) ∧
    (⟨.bem a, .bem b, cqA, cqB, cfm⟩ : Constraint2 n).g m.build old = dotProduct cqA (acc a) + dotProduct cqB (acc b) + cfm := by
  have hacc : ∀ i, acc i = (m.build.inv i a).mulVec cqA + (m.build.inv i b).mulVec cqB := by
    intro i
    rw [motion_unique m h _ acc hm i]
    simp only [reaction, Matrix.mulVec_add, Finset.sum_add_distrib]
    congr 1
    · rw [Finset.sum_eq_single a]
      · rw [if_pos rfl]
      · intro j _ hj; rw [if_neg hj, Matrix.mulVec_zero]
      · intro hh; exact absurd (Finset.mem_univ a) hh
    · rw [Finset.sum_eq_single b]
      · rw [if_pos rfl]
      · intro j _ hj; rw [if_neg hj, Matrix.mulVec_zero]
      · intro hh; exact absurd (Finset.mem_univ b) hh
  have ha' : m.build.active a = true := ha
  have hb' : m.build.active b = true := hb
  have ia : m.build.invMb a cqA = (m.build.inv a a).mulVec cqA := by unfold MassModel.invMb; rw [if_neg (show ¬ cqA = m.build.fb a from hfa)]
  have ib : m.build.invMb b cqB = (m.build.inv b b).mulVec cqB := by unfold MassModel.invMb; rw [if_neg (show ¬ cqB = m.build.fb b from hfb)]
  have he : (⟨.bem a, .bem b, cqA, cqB, cfm⟩ : Constraint2 n).eq m.build old = (acc a, acc b) := by
    unfold Constraint2.eq
    simp only [Variables.isActive, ha', hb', Variables.invMb, Bool.and_self, if_true, MassModel.incInvOf, ia, ib]
    rw [hacc a, hacc b, add_comm ((m.build.inv b a).mulVec cqA)]
  refine ⟨he, ?_⟩
  unfold Constraint2.g
  rw [he]
  simp only [Variables.isActive, ha', hb', if_true]
  exact cfm_add _ _

/-- **C137, a body outside the database.** For a constraint between an active body of the database and an active body without added mass (regular mass `M`), the number computed is the sum of what the coupled equations give for the
first and of what Newton's law gives for the second. -/
theorem C137_plain (m : MassModel n) (h : MassModel.Regular m) (a : Fin n) (ha : m.active a = true) (M : G66) (hM : M.det ≠ 0) (cqA cqB : G6) (cfm : ℝ)
    (hfa : cqA ≠ m.fb a) (old : G6 × G6) (acc : Fin n → G6) (hm : MassModel.Motion m (fun i => if i = a then cqA else 0) acc) (accB : G6) (hB : M.mulVec accB = cqB) :
    (⟨.bem a, .plain M true, cqA, cqB, cfm⟩ : Constraint2 n).g m.build old = dotProduct cqA (acc a) + dotProduct cqB accB + cfm ∧
    (⟨.plain M true, .bem a, cqB, cqA, cfm⟩ : Constraint2 n).g m.build old = dotProduct cqB accB + dotProduct cqA (acc a) + cfm := by
  have hacc : acc a = (m.build.inv a a).mulVec cqA := by
    rw [motion_unique m h _ acc hm a, Finset.sum_eq_single a]
    · rw [if_pos rfl]
    · intro j _ hj; rw [if_neg hj, Matrix.mulVec_zero]
    · intro hh; exact absurd (Finset.mem_univ a) hh
  have hb : M⁻¹.mulVec cqB = accB := by
    rw [← hB, Matrix.mulVec_mulVec, Matrix.nonsing_inv_mul M (isUnit_iff_ne_zero.mpr hM), Matrix.one_mulVec]
  have ha' : m.build.active a = true := ha
  have ia : m.build.invMb a cqA = (m.build.inv a a).mulVec cqA := by unfold MassModel.invMb; rw [if_neg (show ¬ cqA = m.build.fb a from hfa)]
  constructor
  · unfold Constraint2.g Constraint2.eq
    simp only [Variables.isActive, ha', Variables.invMb, Bool.and_self, if_true, ia, hb, hacc]
    exact cfm_add _ _
  · unfold Constraint2.g Constraint2.eq
    simp only [Variables.isActive, ha', Variables.invMb, Bool.and_self, if_true, ia, hb, hacc]
    exact cfm_add _ _

/-- **C137, positive.** With a symmetric positive definite coupled mass (kinetic energy positive for every motion), the number is positive as soon as the constraint acts on something: the solver never divides by zero or a negative number. -/
theorem C137_positive (m : MassModel n) (h : MassModel.Regular m) (a b : Fin n) (hab : a ≠ b) (ha : m.active a = true) (hb : m.active b = true) (cqA cqB : G6) (cfm : ℝ) (hc : 0 ≤ cfm)
    (hfa : cqA ≠ m.fb a) (hfb : cqB ≠ m.fb b) (old : G6 × G6) (hne : cqA ≠ 0 ∨ cqB ≠ 0)
    (henergy : ∀ v : Fin n → G6, v ≠ 0 → 0 < ∑ i, dotProduct (v i) ((m.mass i).mulVec (v i) + ∑ j, (m.ainf i j).mulVec (v j))) :
    0 < (⟨.bem a, .bem b, cqA, cqB, cfm⟩ : Constraint2 n).g m.build old := by
  obtain ⟨acc, hm⟩ : ∃ acc, MassModel.Motion m (reaction a b cqA cqB) acc :=
    ⟨fun i => ∑ j, (m.build.inv i j).mulVec (reaction a b cqA cqB j), (motion_iff m h _ _).mpr fun _ => rfl⟩
  rw [(C137_coupled m h a b hab ha hb cqA cqB cfm hfa hfb old acc hm).2]
  have hne' : acc ≠ 0 := by
    intro h0
    rcases hne with hh | hh
    · apply hh
      have := hm a
      simp only [h0, Pi.zero_apply, Matrix.mulVec_zero, Finset.sum_const_zero, add_zero, reaction, if_pos, if_neg hab] at this
      simpa using this.symm
    · apply hh
      have := hm b
      simp only [h0, Pi.zero_apply, Matrix.mulVec_zero, Finset.sum_const_zero, add_zero, reaction, if_neg (Ne.symm hab)] at this
      simpa using this.symm
  have hp := henergy acc hne'
  have : ∑ i, dotProduct (acc i) ((m.mass i).mulVec (acc i) + ∑ j, (m.ainf i j).mulVec (acc j)) = dotProduct cqA (acc a) + dotProduct cqB (acc b) := by
    have e : ∀ i, dotProduct (acc i) ((m.mass i).mulVec (acc i) + ∑ j, (m.ainf i j).mulVec (acc j)) =
        (if i = a then dotProduct cqA (acc a) else 0) + (if i = b then dotProduct cqB (acc b) else 0) := by
      intro i
      rw [hm i]
      unfold reaction
      rw [dotProduct_add]
      congr 1
      · by_cases hi : i = a
        · subst hi; rw [if_pos rfl, if_pos rfl, dotProduct_comm]
        · rw [if_neg hi, if_neg hi, dotProduct_zero]
      · by_cases hi : i = b
        · subst hi; rw [if_pos rfl, if_pos rfl, dotProduct_comm]
        · rw [if_neg hi, if_neg hi, dotProduct_zero]
    simp only [e, Finset.sum_add_distrib, Finset.sum_ite_eq', Finset.mem_univ, if_true]
  rw [this] at hp
  linarith

/-- **C137, the failure: loads.** If the Jacobian row of body `a` happens to be the load of that body, the loads of all the other bodies enter the number computed, which must only depend on the masses and on the constraint. -/
theorem C137_load_counterexample (m : MassModel n) (hact : ∀ i, m.active i = true) (a b : Fin n) (hab : a ≠ b) (cqB : G6) (hfb : cqB ≠ m.fb b) (old : G6 × G6) :
    (⟨.bem a, .bem b, m.fb a, cqB, 0⟩ : Constraint2 n).g m.build old =
      dotProduct (m.fb a) ((m.build.inv a a).mulVec (m.fb a) + (m.build.inv a b).mulVec cqB) + dotProduct cqB ((m.build.inv b b).mulVec cqB + (m.build.inv b a).mulVec (m.fb a))
      + ∑ j ∈ Finset.univ.erase a, dotProduct (m.fb a) ((m.build.inv a j).mulVec (m.fb j)) := by
  have ha' : m.build.active a = true := hact a
  have hb' : m.build.active b = true := hact b
  have ia : m.build.invMb a (m.fb a) = (m.build.inv a a).mulVec (m.fb a) + ∑ j ∈ Finset.univ.erase a, (m.build.inv a j).mulVec (m.fb j) := by
    unfold MassModel.invMb
    rw [if_pos (show m.fb a = m.build.fb a from rfl), Finset.add_sum_erase Finset.univ (fun j => (m.build.inv a j).mulVec (m.fb j)) (Finset.mem_univ a)]
    apply Finset.sum_congr rfl; intro j _
    rw [if_pos (show m.build.active j = true from hact j)]
    rfl
  have ib : m.build.invMb b cqB = (m.build.inv b b).mulVec cqB := by unfold MassModel.invMb; rw [if_neg (show ¬ cqB = m.build.fb b from hfb)]
  unfold Constraint2.g Constraint2.eq
  simp only [Variables.isActive, ha', hb', Variables.invMb, Bool.and_self, if_true, ia, ib, MassModel.incInvOf, ne_eq, not_true, if_false, dotProduct_add, dotProduct_sum]
  ring

/-- **C137, the failure: fixed body.** If body `b` of two is not active (fixed), the number computed is `Cq_a` times the acceleration that body `a` would have with `b` free to move: it is the one with `b` fixed only if the coupling
term is null. -/
theorem C137_fixed_counterexample (m : MassModel 2) (h : MassModel.Regular m) (h0 : m.active 0 = true) (h1 : m.active 1 = false) (cqA cqB : G6) (hfa : cqA ≠ m.fb 0) (old : G6 × G6)
    (acc : G6) (hacc : (m.mass 0 + m.ainf 0 0).mulVec acc = cqA) (hsym : (m.mass 0 + m.ainf 0 0).transpose = m.mass 0 + m.ainf 0 0) :
    (⟨.bem 0, .bem 1, cqA, cqB, 0⟩ : Constraint2 2).g m.build old = dotProduct cqA acc - dotProduct acc ((m.ainf 0 1).mulVec ((m.build.inv 1 0).mulVec cqA)) := by
  have ha' : m.build.active 0 = true := h0
  have hb' : m.build.active 1 = false := h1
  have ia : m.build.invMb 0 cqA = (m.build.inv 0 0).mulVec cqA := by unfold MassModel.invMb; rw [if_neg (show ¬ cqA = m.build.fb 0 from hfa)]
  have hg : (⟨.bem 0, .bem 1, cqA, cqB, 0⟩ : Constraint2 2).g m.build old = dotProduct cqA ((m.build.inv 0 0).mulVec cqA) := by
    unfold Constraint2.g Constraint2.eq
    simp [Variables.isActive, ha', hb', Variables.invMb, ia]
  have hI := (MassModel.C119_inverse m h 0 0).1
  rw [if_pos rfl, Fin.sum_univ_two] at hI
  have g0 : m.build.generalizedMass 0 0 = m.mass 0 + m.ainf 0 0 := by unfold MassModel.generalizedMass; rw [if_pos rfl]; exact add_comm _ _
  have g1 : m.build.generalizedMass 0 1 = m.ainf 0 1 := by unfold MassModel.generalizedMass; rw [if_neg (by decide)]; rfl
  rw [g0, g1] at hI
  have hv := congrArg (fun M : G66 => dotProduct acc (M.mulVec cqA)) hI
  simp only [Matrix.add_mulVec (m.mass 0 + m.ainf 0 0), ← Matrix.mulVec_mulVec, Matrix.one_mulVec, Matrix.add_mulVec _ (m.ainf 0 1 * _), dotProduct_add] at hv
  have hs : dotProduct acc ((m.mass 0 + m.ainf 0 0).mulVec ((m.build.inv 0 0).mulVec cqA)) = dotProduct cqA ((m.build.inv 0 0).mulVec cqA) := by
    rw [Matrix.dotProduct_mulVec, ← Matrix.mulVec_transpose, hsym, hacc]
  rw [hs] at hv
  rw [hg]
  rw [dotProduct_comm acc cqA] at hv
  linarith

/-! ## Concrete case -/

/-- Two bodies of mass 2 (identity matrices), with coupled added mass 1. -/
def pair : MassModel 2 where
  ainf i j := if i = j then 0 else 1
  mass _ := (2 : ℝ) • 1
  active _ := true
  off i := 6 * i.1
  fb _ := 0
  qb _ := 0
  inv _ _ := 0

theorem pair_regular : MassModel.Regular pair := by
  intro h
  obtain ⟨v, hv, h0⟩ := Matrix.exists_mulVec_eq_zero_iff.mpr h
  apply hv
  have e : ∀ (i : Fin 2) (a : Fin 6), ∑ j : Fin 2, ∑ b : Fin 6, pair.generalizedMass i j a b * v (MassModel.idx j b) = 0 := by
    intro i a
    have := congrFun h0 (MassModel.idx i a)
    rw [Matrix.mulVec, dotProduct, MassModel.sum_idx] at this
    simpa [MassModel.mass_entry] using this
  have e0 := e 0
  have e1 := e 1
  simp [Fin.sum_univ_two, MassModel.generalizedMass, pair, Matrix.one_apply] at e0 e1
  funext r
  obtain ⟨⟨i, a⟩, rfl⟩ := finProdFinEquiv.surjective r
  have k0 := e0 a
  have k1 := e1 a
  have r0 : v (MassModel.idx 0 a) = 0 := by linarith
  have r1 : v (MassModel.idx 1 a) = 0 := by linarith
  fin_cases i
  · exact r0
  · exact r1

/-- Pushing both bodies apart along x with a unit force: accelerations (1, −1). -/
example : MassModel.Motion pair (reaction 0 1 (Pi.single 0 1) (-Pi.single 0 1)) (fun i => if i = 0 then Pi.single 0 1 else -Pi.single 0 1) := by
  intro i
  fin_cases i <;> simp [pair, reaction, Fin.sum_univ_two, Matrix.smul_mulVec] <;> ext a <;> fin_cases a <;> norm_num [Pi.single_apply]

/-- Its kinetic energy is positive for every motion. -/
example (v : Fin 2 → G6) (hv : v ≠ 0) : 0 < ∑ i, dotProduct (v i) ((pair.mass i).mulVec (v i) + ∑ j, (pair.ainf i j).mulVec (v j)) := by
  have e : ∑ i, dotProduct (v i) ((pair.mass i).mulVec (v i) + ∑ j, (pair.ainf i j).mulVec (v j)) = ∑ a : Fin 6, (v 0 a ^ 2 + v 1 a ^ 2 + (v 0 a + v 1 a) ^ 2) := by
    simp only [Fin.sum_univ_two, pair, dotProduct, Matrix.smul_mulVec, Matrix.one_mulVec]
    simp only [Pi.add_apply, Pi.smul_apply, smul_eq_mul, if_true, Matrix.zero_mulVec, Pi.zero_apply, zero_add]
    rw [if_neg (by decide), if_neg (by decide)]
    simp only [Matrix.one_mulVec, add_zero]
    rw [← Finset.sum_add_distrib]
    apply Finset.sum_congr rfl; intro a _; ring
  rw [e]
  refine Finset.sum_pos' (fun a _ => by positivity) ?_
  by_contra hcon
  push Not at hcon
  apply hv
  funext i a
  have h := hcon a (Finset.mem_univ a)
  have h0 : v 0 a = 0 := by nlinarith [sq_nonneg (v 0 a), sq_nonneg (v 1 a), sq_nonneg (v 0 a + v 1 a)]
  have h1 : v 1 a = 0 := by nlinarith [sq_nonneg (v 0 a), sq_nonneg (v 1 a), sq_nonneg (v 0 a + v 1 a)]
  fin_cases i
  · exact h0
  · exact h1

end Frydom.Seakeeping
