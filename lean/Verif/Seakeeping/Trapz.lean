import Mathlib.MeasureTheory.Integral.IntervalIntegral.Basic
import Mathlib.Analysis.SpecialFunctions.Integrals.Basic
import Mathlib.Tactic

/-!
# Quadrature of the memory integrals (C104)

`TrapzLoc` (`src/frydom/hydrodynamics/seakeeping/linear/radiation/FrRadiationModel.cpp:27-57`).

The vectors `x` and `y` are functions of the index together with their common size `N` (the size is asserted, line 39; the code
reads the indices below `N` only). `E` is any real vector space (`Vector6d<double>` in the code).
-/

open Classical

noncomputable section

namespace Frydom.Seakeeping

/-- The body of the loop of `TrapzLoc` (FrRadiationModel.cpp:49-53): the state is `(dxii, sum)`, `i` the index. -/
def trapzStep {E : Type*} [AddCommGroup E] [Module ℝ E] (x : ℕ → ℝ) (y : ℕ → E) (s : ℝ × E) (i : ℕ) : ℝ × E :=
  let dxi := s.1
  let dxii := x (i + 1) - x i
  (dxii, s.2 + (dxi + dxii) • y i)

/-- `TrapzLoc(x, y)` (FrRadiationModel.cpp:27-57). -/
def trapzLoc {E : Type*} [AddCommGroup E] [Module ℝ E] (N : ℕ) (x : ℕ → ℝ) (y : ℕ → E) : E :=
  if N ≤ 1 then 0
  else
    let dx1 := x 1 - x 0
    let dxN_1 := x (N - 1) - x (N - 2)
    let s := (List.range' 1 (N - 2)).foldl (trapzStep x y) (dx1, 0)
    (0.5 : ℝ) • (s.2 + dx1 • y 0 + dxN_1 • y (N - 1))

/-! ## Specification -/

/-- `f` is a straight line on `[a, b]`. -/
def StraightOn {E : Type*} [AddCommGroup E] [Module ℝ E] (f : ℝ → E) (a b : ℝ) : Prop :=
  ∀ θ : ℝ, 0 ≤ θ → θ ≤ 1 → f ((1 - θ) * a + θ * b) = (1 - θ) • f a + θ • f b

/-- `f` passes through the samples and is a straight line between two successive ones. -/
structure Interpolates {E : Type*} [AddCommGroup E] [Module ℝ E] (f : ℝ → E) (N : ℕ) (x : ℕ → ℝ) (y : ℕ → E) : Prop where
  through : ∀ i < N, f (x i) = y i
  straight : ∀ i, i + 1 < N → StraightOn f (x i) (x (i + 1))

/-! ## Lemmas -/

section algebra
variable {E : Type*} [AddCommGroup E] [Module ℝ E]

theorem trapz_loop (x : ℕ → ℝ) (y : ℕ → E) (n : ℕ) :
    (List.range' 1 n).foldl (trapzStep x y) (x 1 - x 0, 0) =
      (x (n + 1) - x n, ∑ i ∈ Finset.range n, (x (i + 2) - x i) • y (i + 1)) := by
  induction n with
  | zero => simp
  | succ n ih =>
    rw [List.range'_concat, List.foldl_append, ih, Finset.sum_range_succ]
    simp only [List.foldl_cons, List.foldl_nil, trapzStep, one_mul]
    ext1
    · simp only []; congr 2 <;> omega
    · simp only []
      rw [show 1 + n = n + 1 by omega]
      congr 2; ring

theorem trapz_closed (n : ℕ) (x : ℕ → ℝ) (y : ℕ → E) :
    trapzLoc (n + 2) x y = ∑ i ∈ Finset.range (n + 1), ((x (i + 1) - x i) / 2) • (y i + y (i + 1)) := by
  unfold trapzLoc
  rw [if_neg (by omega)]
  simp only [Nat.add_sub_cancel, show n + 2 - 1 = n + 1 by omega]
  rw [trapz_loop]
  simp only []
  induction n with
  | zero => simp; module
  | succ n ih =>
    rw [Finset.sum_range_succ _ (n + 1), ← ih, Finset.sum_range_succ]
    module

theorem trapz_zero (N : ℕ) (x : ℕ → ℝ) (y : ℕ → E) (h : ∀ i < N, y i = 0) : trapzLoc N x y = 0 := by
  rcases Nat.lt_or_ge N 2 with hN | hN
  · unfold trapzLoc; rw [if_pos (by omega)]
  · obtain ⟨n, rfl⟩ := Nat.exists_eq_add_of_le' hN
    rw [trapz_closed]
    apply Finset.sum_eq_zero
    intro i hi
    rw [Finset.mem_range] at hi
    rw [h i (by omega), h (i + 1) (by omega)]; simp

theorem trapz_congr (N : ℕ) (x : ℕ → ℝ) (y z : ℕ → E) (h : ∀ i < N, y i = z i) : trapzLoc N x y = trapzLoc N x z := by
  rcases Nat.lt_or_ge N 2 with hN | hN
  · unfold trapzLoc; rw [if_pos (by omega), if_pos (by omega)]
  · obtain ⟨n, rfl⟩ := Nat.exists_eq_add_of_le' hN
    rw [trapz_closed, trapz_closed]
    apply Finset.sum_congr rfl
    intro i hi
    rw [Finset.mem_range] at hi
    rw [h i (by omega), h (i + 1) (by omega)]

theorem trapz_map {F : Type*} [AddCommGroup F] [Module ℝ F] (L : E →ₗ[ℝ] F) (N : ℕ) (x : ℕ → ℝ) (y : ℕ → E) :
    L (trapzLoc N x y) = trapzLoc N x (fun i => L (y i)) := by
  rcases Nat.lt_or_ge N 2 with hN | hN
  · unfold trapzLoc; rw [if_pos (by omega), if_pos (by omega), map_zero]
  · obtain ⟨n, rfl⟩ := Nat.exists_eq_add_of_le' hN
    rw [trapz_closed, trapz_closed, map_sum]
    simp

theorem trapz_add (N : ℕ) (x : ℕ → ℝ) (y z : ℕ → E) :
    trapzLoc N x (fun i => y i + z i) = trapzLoc N x y + trapzLoc N x z := by
  rcases Nat.lt_or_ge N 2 with hN | hN
  · unfold trapzLoc; simp [show N ≤ 1 by omega]
  · obtain ⟨n, rfl⟩ := Nat.exists_eq_add_of_le' hN
    rw [trapz_closed, trapz_closed, trapz_closed, ← Finset.sum_add_distrib]
    apply Finset.sum_congr rfl
    intro i _
    module

theorem trapz_smul (c : ℝ) (N : ℕ) (x : ℕ → ℝ) (y : ℕ → E) :
    trapzLoc N x (fun i => c • y i) = c • trapzLoc N x y := by
  have := trapz_map (LinearMap.lsmul ℝ E c) N x y
  simpa using this.symm

end algebra

section integral
variable {E : Type*} [NormedAddCommGroup E] [NormedSpace ℝ E] [CompleteSpace E]

open MeasureTheory intervalIntegral

theorem integral_line (a b : ℝ) (u v : E) :
    ∫ s in a..b, (u + (s - a) • v) = (b - a) • u + ((b - a) ^ 2 / 2) • v := by
  rw [intervalIntegral.integral_add (by simp) (by apply Continuous.intervalIntegrable; fun_prop)]
  rw [intervalIntegral.integral_const, intervalIntegral.integral_smul_const]
  congr 2
  rw [intervalIntegral.integral_comp_sub_right (fun s => s), integral_id]
  ring

theorem straight_eq (f : ℝ → E) (a b : ℝ) (hab : a < b) (h : StraightOn f a b) (s : ℝ) (hs : s ∈ Set.Icc a b) :
    f s = f a + (s - a) • ((b - a)⁻¹ • (f b - f a)) := by
  have hne : b - a ≠ 0 := (sub_pos.mpr hab).ne'
  have h1 : 0 ≤ (s - a) / (b - a) := div_nonneg (sub_nonneg.mpr hs.1) (sub_pos.mpr hab).le
  have h2 : (s - a) / (b - a) ≤ 1 := by rw [div_le_one (sub_pos.mpr hab)]; linarith [hs.2]
  have := h _ h1 h2
  rw [show (1 - (s - a) / (b - a)) * a + (s - a) / (b - a) * b = s by field_simp; ring] at this
  rw [this, div_eq_mul_inv]
  module

theorem straight_integral (f : ℝ → E) (a b : ℝ) (hab : a ≤ b) (h : StraightOn f a b) :
    IntervalIntegrable f volume a b ∧ ∫ s in a..b, f s = ((b - a) / 2) • (f a + f b) := by
  rcases hab.eq_or_lt with rfl | hlt
  · simp
  · have he : Set.EqOn (fun s => f a + (s - a) • ((b - a)⁻¹ • (f b - f a))) f (Set.uIcc a b) := by
      intro s hs
      rw [Set.uIcc_of_le hab] at hs
      exact (straight_eq f a b hlt h s hs).symm
    refine ⟨?_, ?_⟩
    · refine IntervalIntegrable.congr ?_ (Continuous.intervalIntegrable (u := fun s => f a + (s - a) • ((b - a)⁻¹ • (f b - f a))) (by fun_prop) a b)
      exact he.mono Set.uIoc_subset_uIcc
    · rw [← integral_congr he, integral_line]
      have hne : b - a ≠ 0 := (sub_pos.mpr hlt).ne'
      rw [smul_smul, show (b - a) ^ 2 / 2 * (b - a)⁻¹ = (b - a) / 2 by field_simp]
      module

end integral

/-! ## C104 -/

/-- **C104, exactness.** On any non-decreasing grid, the quadrature is the integral, from the first to the last abscissa, of the function that
passes through the samples along straight lines. -/
theorem C104_integral {E : Type*} [NormedAddCommGroup E] [NormedSpace ℝ E] [CompleteSpace E] (N : ℕ) (hN : 2 ≤ N) (x : ℕ → ℝ)
    (hx : ∀ i, i + 1 < N → x i ≤ x (i + 1)) (y : ℕ → E) (f : ℝ → E) (hf : Interpolates f N x y) :
    trapzLoc N x y = ∫ s in (x 0)..(x (N - 1)), f s := by
  obtain ⟨n, rfl⟩ := Nat.exists_eq_add_of_le' hN
  rw [trapz_closed, show n + 2 - 1 = n + 1 by omega]
  rw [← intervalIntegral.sum_integral_adjacent_intervals (fun k hk => (straight_integral f _ _ (hx k (by omega)) (hf.straight k (by omega))).1)]
  apply Finset.sum_congr rfl
  intro i hi
  rw [Finset.mem_range] at hi
  rw [(straight_integral f _ _ (hx i (by omega)) (hf.straight i (by omega))).2, hf.through i (by omega), hf.through (i + 1) (by omega)]

/-- **C104, error bound.** For an integrand with Lipschitz constant `L` sampled on a non-decreasing grid with steps of at most `h`, the
error of the quadrature is at most `L h T`, `T` the length of the range: it vanishes with the step. -/
theorem C104_error {E : Type*} [NormedAddCommGroup E] [NormedSpace ℝ E] [CompleteSpace E] (N : ℕ) (hN : 2 ≤ N) (x : ℕ → ℝ)
    (hx : ∀ i, i + 1 < N → x i ≤ x (i + 1)) (g : ℝ → E) (L : NNReal) (hg : LipschitzWith L g) (h : ℝ)
    (hh : ∀ i, i + 1 < N → x (i + 1) - x i ≤ h) :
    ‖trapzLoc N x (fun i => g (x i)) - ∫ s in (x 0)..(x (N - 1)), g s‖ ≤ L * h * (x (N - 1) - x 0) := by
  obtain ⟨n, rfl⟩ := Nat.exists_eq_add_of_le' hN
  rw [trapz_closed, show n + 2 - 1 = n + 1 by omega]
  have hint : ∀ k < n + 1, IntervalIntegrable g MeasureTheory.volume (x k) (x (k + 1)) := fun k _ => hg.continuous.intervalIntegrable _ _
  rw [← intervalIntegral.sum_integral_adjacent_intervals hint, ← Finset.sum_sub_distrib]
  have htel : x (n + 1) - x 0 = ∑ i ∈ Finset.range (n + 1), (x (i + 1) - x i) := (Finset.sum_range_sub x (n + 1)).symm
  rw [htel, Finset.mul_sum]
  refine (norm_sum_le _ _).trans (Finset.sum_le_sum ?_)
  intro i hi
  rw [Finset.mem_range] at hi
  have hle := hx i (by omega)
  have hstep := hh i (by omega)
  have hconst : ((x (i + 1) - x i) / 2) • (g (x i) + g (x (i + 1))) = ∫ s in (x i)..(x (i + 1)), ((1 / 2 : ℝ) • (g (x i) + g (x (i + 1)))) := by
    rw [intervalIntegral.integral_const, smul_smul]; congr 1; ring
  rw [hconst, ← intervalIntegral.integral_sub (by simp) (hint i hi)]
  refine (intervalIntegral.norm_integral_le_of_norm_le_const (C := L * h) ?_).trans ?_
  · intro s hs
    rw [Set.uIoc_of_le hle] at hs
    have e1 : ‖g (x i) - g s‖ ≤ L * h := by
      refine (hg.norm_sub_le _ _).trans ?_
      apply mul_le_mul_of_nonneg_left _ L.2
      rw [Real.norm_eq_abs, abs_le]; constructor <;> linarith [hs.1, hs.2]
    have e2 : ‖g (x (i + 1)) - g s‖ ≤ L * h := by
      refine (hg.norm_sub_le _ _).trans ?_
      apply mul_le_mul_of_nonneg_left _ L.2
      rw [Real.norm_eq_abs, abs_le]; constructor <;> linarith [hs.1, hs.2]
    have : (1 / 2 : ℝ) • (g (x i) + g (x (i + 1))) - g s = (1 / 2 : ℝ) • ((g (x i) - g s) + (g (x (i + 1)) - g s)) := by module
    rw [this, norm_smul]
    have h3 := norm_add_le (g (x i) - g s) (g (x (i + 1)) - g s)
    rw [Real.norm_of_nonneg (by norm_num)]
    linarith
  · rw [abs_of_nonneg (by linarith)]

/-- **C104, linearity.** The quadrature is linear in the samples, and a null integrand, or at most one sample, gives a null integral. -/
theorem C104_linear {E : Type*} [AddCommGroup E] [Module ℝ E] (N : ℕ) (x : ℕ → ℝ) (y z : ℕ → E) (a b : ℝ) :
    trapzLoc N x (fun i => a • y i + b • z i) = a • trapzLoc N x y + b • trapzLoc N x z ∧
    ((∀ i < N, y i = 0) → trapzLoc N x y = 0) ∧ (N ≤ 1 → trapzLoc N x y = 0) := by
  refine ⟨?_, trapz_zero N x y, fun h => by unfold trapzLoc; rw [if_pos h]⟩
  rw [trapz_add N x (fun i => a • y i) (fun i => b • z i), trapz_smul, trapz_smul]

/-- A case: three samples of `|s|` at -1, 0, 2. -/
example : Interpolates (fun s : ℝ => |s|) 3 (fun i => ![-1, 0, 2, 0] (Fin.ofNat 4 i)) (fun i => ![1, 0, 2, 0] (Fin.ofNat 4 i)) := by
  constructor
  · intro i hi
    interval_cases i <;> norm_num [Fin.ofNat]
  · intro i hi θ h0 h1
    have : i = 0 ∨ i = 1 := by omega
    rcases this with rfl | rfl
    · norm_num [Fin.ofNat]
      rw [abs_of_nonpos (by linarith)]; ring
    · norm_num [Fin.ofNat]
      exact h0

end Frydom.Seakeeping
