import Mathlib.Data.Real.Basic
import Mathlib.Data.Fin.VecNotation
import Mathlib.Algebra.BigOperators.Fin
import Mathlib.Data.List.FinRange
import Mathlib.Tactic

/-!
# Masks of the degrees of freedom of a hydrodynamic database (C105)

`FrBEMDOFMask` (`src/frydom/hydrodynamics/seakeeping/linear/hdb/FrBEMBody.h:78-117`, `FrBEMBody.cpp:25-56`).

A matrix with a variable number of columns is a function of the two indices; only the columns below `m_nbDOF` exist.
-/

open Classical

noncomputable section

namespace Frydom.Seakeeping

/-- Fields of `FrBEMDOFMask` (FrBEMBody.h:81-84). -/
structure DofMask where
  nb : ℕ
  list : List (Fin 6)
  mask : Fin 6 → Bool
  matrix : Fin 6 → ℕ → ℝ

/-- First loop of `SetMask` (FrBEMBody.cpp:29-36): flags and list of the active degrees of freedom. -/
def maskFlags (mask : Fin 6 → ℤ) (m : DofMask) (i : Fin 6) : DofMask :=
  if mask i = 1 then { m with mask := Function.update m.mask i true, list := m.list ++ [i] }
  else { m with mask := Function.update m.mask i false }

/-- Second loop of `SetMask` (FrBEMBody.cpp:41-47): matrix and the column counter `j`. -/
def maskColumns (mask : Fin 6 → ℤ) (s : (Fin 6 → ℕ → ℝ) × ℕ) (i : Fin 6) : (Fin 6 → ℕ → ℝ) × ℕ :=
  if mask i ≠ 0 then (Function.update s.1 i (Function.update (s.1 i) s.2 1), s.2 + 1) else s

/-- `SetMask` (FrBEMBody.cpp:24-47), for a mask that passes the assertion of line 27. -/
def DofMask.setMask (m : DofMask) (mask : Fin 6 → ℤ) : DofMask :=
  let m1 := (List.finRange 6).foldl (maskFlags mask) m
  { m1 with nb := (∑ i, mask i).toNat, matrix := ((List.finRange 6).foldl (maskColumns mask) (fun _ _ => 0, 0)).1 }

/-- A newly constructed mask (FrBEMBody.h:88): the list is empty, the other fields are whatever was in memory. -/
def DofMask.Fresh (m : DofMask) : Prop := m.list = []

/-! ## Specification -/

/-- The mask asserted by the code: each entry 0 or 1. -/
def ValidMask (mask : Fin 6 → ℤ) : Prop := ∀ i, mask i = 0 ∨ mask i = 1

/-- Position of a degree of freedom among the active ones: how many active ones precede it. -/
def rank (mask : Fin 6 → ℤ) (i : Fin 6) : ℕ := (Finset.univ.filter fun k => k < i ∧ mask k = 1).card

/-- The active degrees of freedom in increasing order. -/
def activeDofs (mask : Fin 6 → ℤ) : List (Fin 6) := (List.finRange 6).filter fun i => mask i = 1

/-! ## Lemmas -/

theorem flags_fold (mask : Fin 6 → ℤ) (l : List (Fin 6)) (m : DofMask) :
    let m' := l.foldl (maskFlags mask) m
    m'.list = m.list ++ l.filter (fun i => mask i = 1) ∧
    (∀ i, m'.mask i = if i ∈ l then decide (mask i = 1) else m.mask i) := by
  induction l generalizing m with
  | nil => simp
  | cons a l ih =>
    simp only [List.foldl_cons]
    obtain ⟨h1, h2⟩ := ih (maskFlags mask m a)
    refine ⟨?_, ?_⟩
    · rw [h1]
      unfold maskFlags
      by_cases ha : mask a = 1
      · simp [ha]
      · simp [ha]
    · intro i
      rw [h2 i]
      by_cases hi : i ∈ l
      · simp [hi]
      · simp only [hi, if_false, List.mem_cons, or_false]
        unfold maskFlags
        by_cases ha : mask a = 1
        · by_cases hia : i = a
          · subst hia; simp [ha]
          · simp [ha, hia]
        · by_cases hia : i = a
          · subst hia; simp [ha]
          · simp [ha, hia]

/-- Number of active entries of a list of indices. -/
def countActive (mask : Fin 6 → ℤ) (l : List (Fin 6)) : ℕ := (l.filter fun i => mask i ≠ 0).length

theorem columns_fold (mask : Fin 6 → ℤ) (l : List (Fin 6)) (hl : l.Pairwise (· < ·)) (s : (Fin 6 → ℕ → ℝ) × ℕ) :
    let s' := l.foldl (maskColumns mask) s
    s'.2 = s.2 + countActive mask l ∧
    ∀ i r, s'.1 i r = if i ∈ l ∧ mask i ≠ 0 ∧ r = s.2 + countActive mask (l.filter (· < i)) then 1 else s.1 i r := by
  induction l generalizing s with
  | nil => simp [countActive]
  | cons a l ih =>
    simp only [List.foldl_cons]
    rw [List.pairwise_cons] at hl
    obtain ⟨h1, h2⟩ := ih hl.2 (maskColumns mask s a)
    have ha_not : a ∉ l := fun h => lt_irrefl a (hl.1 a h)
    refine ⟨?_, ?_⟩
    · rw [h1]
      unfold maskColumns countActive
      by_cases ha : mask a = 0
      · simp [ha]
      · simp [ha]; omega
    · intro i r
      rw [h2 i r]
      by_cases hi : i ∈ l
      · have hai : a < i := hl.1 i hi
        have hne : i ≠ a := hai.ne'
        have hfil : (a :: l).filter (· < i) = a :: l.filter (· < i) := by rw [List.filter_cons_of_pos]; simpa using hai
        rw [hfil]
        unfold maskColumns countActive
        by_cases ha : mask a = 0
        · simp [ha, hi]
        · simp [ha, hi, hne]
          rw [show ∀ c : ℕ, s.2 + 1 + c = s.2 + (c + 1) from fun c => by omega]
      · simp only [hi, false_and, if_false, List.mem_cons, or_false]
        by_cases hia : i = a
        · subst hia
          have hfil : (i :: l).filter (· < i) = [] := by
            rw [List.filter_eq_nil_iff]
            intro b hb
            rcases List.mem_cons.mp hb with rfl | hb
            · simp
            · have := hl.1 b hb; simp [this.le]
          rw [hfil]
          unfold maskColumns countActive
          by_cases ha : mask i = 0
          · simp [ha]
          · simp only [ha, ne_eq, not_false_eq_true, if_true, Function.update_self, true_and, List.filter_nil, List.length_nil, add_zero,
              Function.update_apply]
        · unfold maskColumns
          by_cases ha : mask a = 0
          · simp [ha, hia]
          · simp [ha, hia]

theorem rank_eq (mask : Fin 6 → ℤ) (hv : ValidMask mask) (i : Fin 6) :
    countActive mask ((List.finRange 6).filter (· < i)) = rank mask i := by
  unfold countActive rank
  rw [List.filter_filter]
  have h : ∀ k, (mask k ≠ 0) = (mask k = 1) := fun k => by rcases hv k with h | h <;> simp [h]
  simp only [h]
  rw [← List.toFinset_card_of_nodup ((List.nodup_finRange 6).filter _)]
  congr 1
  ext k
  simp [and_comm]

theorem finRange_sorted : (List.finRange 6).Pairwise (· < ·) := by decide

theorem setMask_matrix (m : DofMask) (mask : Fin 6 → ℤ) (hv : ValidMask mask) (i : Fin 6) (r : ℕ) :
    (m.setMask mask).matrix i r = if mask i = 1 ∧ r = rank mask i then 1 else 0 := by
  unfold DofMask.setMask
  simp only []
  rw [(columns_fold mask (List.finRange 6) finRange_sorted _).2 i r]
  simp only [List.mem_finRange, true_and, zero_add, rank_eq mask hv]
  have h : (mask i ≠ 0) = (mask i = 1) := by rcases hv i with h | h <;> simp [h]
  simp only [h]

theorem setMask_nb (m : DofMask) (mask : Fin 6 → ℤ) (hv : ValidMask mask) :
    (m.setMask mask).nb = (activeDofs mask).length := by
  show (∑ i, mask i).toNat = _
  have h : ∑ i, mask i = ((Finset.univ.filter fun i => mask i = 1).card : ℤ) := by
    rw [Finset.card_filter]
    push_cast
    apply Finset.sum_congr rfl
    intro i _
    rcases hv i with h | h <;> simp [h]
  rw [h, Int.toNat_natCast]
  unfold activeDofs
  rw [← List.toFinset_card_of_nodup ((List.nodup_finRange 6).filter _)]
  congr 1
  ext k
  simp

theorem rank_lt (mask : Fin 6 → ℤ) (i : Fin 6) (hi : mask i = 1) : rank mask i < (activeDofs mask).length := by
  unfold activeDofs rank
  rw [← List.toFinset_card_of_nodup ((List.nodup_finRange 6).filter _)]
  apply Finset.card_lt_card
  rw [Finset.ssubset_iff_of_subset]
  · exact ⟨i, by simp [hi], by simp⟩
  · intro k; simp

theorem rank_inj (mask : Fin 6 → ℤ) (i j : Fin 6) (hi : mask i = 1) (hj : mask j = 1) (h : rank mask i = rank mask j) : i = j := by
  have key : ∀ i j : Fin 6, mask i = 1 → i < j → rank mask i < rank mask j := by
    intro i j hi hij
    unfold rank
    apply Finset.card_lt_card
    rw [Finset.ssubset_iff_of_subset]
    · exact ⟨i, by simp [hi, hij], by simp⟩
    · intro k hk
      simp only [Finset.mem_filter, Finset.mem_univ, true_and] at hk ⊢
      exact ⟨hk.1.trans hij, hk.2⟩
  rcases lt_trichotomy i j with hlt | heq | hgt
  · exact absurd h (key i j hi hlt).ne
  · exact heq
  · exact absurd h (key j i hj hgt).ne'

/-! ## C105 -/

/-- **C105, mask.** After `SetMask` on a new object: the number of modes is the number of active degrees of freedom, the flags are those of
the mask, the list is the active degrees of freedom in increasing order, and the matrix carries the `r`-th component of a compressed vector
to the `r`-th active degree of freedom (and fills the others with zeros). -/
theorem C105_mask (m : DofMask) (hf : m.Fresh) (mask : Fin 6 → ℤ) (hv : ValidMask mask) :
    let m' := m.setMask mask
    m'.nb = (activeDofs mask).length ∧ (∀ i, m'.mask i = true ↔ mask i = 1) ∧ m'.list = activeDofs mask ∧
    (∀ u : ℕ → ℝ, ∀ i, (∑ r ∈ Finset.range m'.nb, m'.matrix i r * u r) = if mask i = 1 then u (rank mask i) else 0) := by
  intro m'
  refine ⟨setMask_nb m mask hv, ?_, ?_, ?_⟩
  · intro i
    have := (flags_fold mask (List.finRange 6) m).2 i
    show ((List.finRange 6).foldl (maskFlags mask) m).mask i = true ↔ _
    rw [this]; simp
  · show ((List.finRange 6).foldl (maskFlags mask) m).list = _
    rw [(flags_fold mask (List.finRange 6) m).1, show m.list = [] from hf]; rfl
  · intro u i
    have hnb : m'.nb = (activeDofs mask).length := setMask_nb m mask hv
    have hm : ∀ r, m'.matrix i r = if mask i = 1 ∧ r = rank mask i then 1 else 0 := setMask_matrix m mask hv i
    simp only [hm]
    by_cases hi : mask i = 1
    · simp only [hi, true_and, if_true]
      rw [Finset.sum_eq_single (rank mask i)]
      · simp
      · intro b _ hb; simp [hb]
      · intro hb; exact absurd (Finset.mem_range.mpr (hnb ▸ rank_lt mask i hi)) hb
    · simp [hi]

/-- **C105, isometry.** The matrix of a mask loses nothing: compressing what it expands gives the compressed vector back, and expanding what
it compresses keeps the active components and zeroes the others. -/
theorem C105_isometry (m : DofMask) (mask : Fin 6 → ℤ) (hv : ValidMask mask) :
    let m' := m.setMask mask
    (∀ i j : Fin 6, (∑ r ∈ Finset.range m'.nb, m'.matrix i r * m'.matrix j r) = if i = j ∧ mask i = 1 then 1 else 0) ∧
    (∀ i j : Fin 6, mask i = 1 → mask j = 1 → ((∑ k : Fin 6, m'.matrix k (rank mask i) * m'.matrix k (rank mask j)) = if i = j then 1 else 0)) := by
  intro m'
  have hm : ∀ i r, m'.matrix i r = if mask i = 1 ∧ r = rank mask i then 1 else 0 := fun i r => setMask_matrix m mask hv i r
  have hnb : m'.nb = (activeDofs mask).length := setMask_nb m mask hv
  refine ⟨?_, ?_⟩
  · intro i j
    simp only [hm]
    by_cases hi : mask i = 1
    · rw [Finset.sum_eq_single (rank mask i)]
      · by_cases hij : i = j
        · subst hij; simp [hi]
        · have : ¬ (mask j = 1 ∧ rank mask i = rank mask j) := fun h => hij (rank_inj mask i j hi h.1 h.2)
          simp [this, hij]
      · intro b _ hb; simp [hb]
      · intro hb; exact absurd (Finset.mem_range.mpr (hnb ▸ rank_lt mask i hi)) hb
    · simp [hi]
  · intro i j hi hj
    simp only [hm]
    rw [Finset.sum_eq_single i]
    · by_cases hij : i = j
      · subst hij; simp [hi]
      · have : ¬ (rank mask j = rank mask i) := fun h => hij (rank_inj mask j i hj hi h).symm
        simp [this, hij]
    · intro k _ hk
      by_cases hk1 : mask k = 1
      · have : ¬ (rank mask i = rank mask k) := fun h => hk (rank_inj mask i k hi hk1 h).symm
        simp [this]
      · simp [hk1]
    · simp

/-- **C105, defect.** A second `SetMask` does not replace the list of active degrees of freedom: it appends to it. In particular setting the
same mask again lists every active degree of freedom twice (although `GetNbMode` counts it once). -/
theorem C105_set_again (m : DofMask) (hf : m.Fresh) (mask mask' : Fin 6 → ℤ) (hv : ValidMask mask') :
    ((m.setMask mask).setMask mask').list = activeDofs mask ++ activeDofs mask' ∧
    ((m.setMask mask).setMask mask').nb = (activeDofs mask').length := by
  refine ⟨?_, setMask_nb _ mask' hv⟩
  show ((List.finRange 6).foldl (maskFlags mask') (m.setMask mask)).list = _
  rw [(flags_fold mask' (List.finRange 6) (m.setMask mask)).1]
  show ((List.finRange 6).foldl (maskFlags mask) m).list ++ _ = _
  rw [(flags_fold mask (List.finRange 6) m).1, show m.list = [] from hf]
  rfl

/-- A case: heave and pitch. -/
example : ValidMask ![0, 0, 1, 0, 1, 0] ∧ activeDofs ![0, 0, 1, 0, 1, 0] = [2, 4] ∧ rank ![0, 0, 1, 0, 1, 0] 4 = 1 := by
  refine ⟨fun i => by fin_cases i <;> simp, ?_, ?_⟩
  · unfold activeDofs
    rw [show List.finRange 6 = [0, 1, 2, 3, 4, 5] from rfl]
    simp [List.filter]
  · unfold rank
    have : (Finset.univ.filter fun k : Fin 6 => k < 4 ∧ (![0, 0, 1, 0, 1, 0] : Fin 6 → ℤ) k = 1) = {2} := by
      ext k; fin_cases k <;> simp
    rw [this]; rfl

end Frydom.Seakeeping
