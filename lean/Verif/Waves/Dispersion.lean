import Mathlib.Analysis.SpecialFunctions.Trigonometric.DerivHyp
import Mathlib.Analysis.Calculus.Deriv.MeanValue
import Mathlib.Analysis.Complex.Trigonometric
import Mathlib.Analysis.SpecificLimits.Basic
import Mathlib.Tactic

/-!
# Model of `SolveWaveDispersionRelation` (src/frydom/environment/ocean/freeSurface/waves/FrWaveDispersionRelation.cpp)
-/

open Classical Filter Topology

noncomputable section

namespace Frydom.Waves
open Real

/-- A `while (cond x) x = body x;` loop: the first iterate at which the condition is false; `none` when it runs for ever. -/
def whileLoop {α : Type} (cond : α → Prop) (body : α → α) (x : α) : Option α :=
  if h : ∃ n, ¬ cond (body^[n] x) then some (body^[Nat.find h] x) else none

/-- `residue = A - X * tanh X` (FrWaveDispersionRelation.cpp:43, 52). -/
def residue (A X : ℝ) : ℝ := A - X * tanh X

/-- One Newton update (FrWaveDispersionRelation.cpp:49-54). -/
def newtonStep (A X : ℝ) : ℝ :=
  let thX := tanh X
  let cdot := -thX - X * (1 - thX * thX)
  X - residue A X / cdot

/-- `SolveWaveDispersionRelation` for one frequency (FrWaveDispersionRelation.cpp:22-58); `none`: the loop does not end. -/
def solveDispersion (water_height omega gravity : ℝ) : Option ℝ :=
  let w2_g := omega * omega / gravity
  if water_height ≤ 0 then some w2_g
  else
    let A := w2_g * water_height
    (whileLoop (fun X => 1e-6 < |residue A X|) (newtonStep A) A).map fun X => X / water_height

/-- The version for a list of frequencies (FrWaveDispersionRelation.cpp:63-75). -/
def solveDispersionList (water_height : ℝ) (omega : List ℝ) (gravity : ℝ) : Option (List ℝ) :=
  omega.mapM fun w => solveDispersion water_height w gravity

/-! ## Hyperbolic tangent -/

theorem cosh_sq_pos (x : ℝ) : 0 < cosh x ^ 2 := by positivity

theorem hasDerivAt_tanh (x : ℝ) : HasDerivAt tanh (1 - tanh x ^ 2) x := by
  have h := (hasDerivAt_sinh x).div (hasDerivAt_cosh x) (cosh_pos x).ne'
  have e : tanh = fun x => sinh x / cosh x := by funext y; exact tanh_eq_sinh_div_cosh y
  rw [e]
  refine h.congr_deriv ?_
  have := (cosh_pos x).ne'
  field_simp
  

theorem tanh_lt_one' (x : ℝ) : tanh x < 1 := tanh_lt_one x
theorem sech_pos (x : ℝ) : 0 < 1 - tanh x ^ 2 := by
  have h1 := tanh_lt_one x
  have h2 := neg_one_lt_tanh x
  nlinarith

theorem tanh_strictMono : StrictMono tanh := by
  apply strictMono_of_deriv_pos
  intro x
  rw [(hasDerivAt_tanh x).deriv]
  exact sech_pos x

theorem tanh_pos {x : ℝ} (h : 0 < x) : 0 < tanh x := by
  have := tanh_strictMono h
  rwa [tanh_zero] at this

/-- Mean value: `tanh b - tanh a = (b - a) * s` for some `s` between the slopes at the ends, when `0 ≤ a ≤ b`. -/
theorem tanh_slope {a b : ℝ} (ha : 0 ≤ a) (hab : a < b) :
    ∃ s, tanh b - tanh a = (b - a) * s ∧ 1 - tanh b ^ 2 ≤ s ∧ s ≤ 1 - tanh a ^ 2 := by
  obtain ⟨c, ⟨h1, h2⟩, hc⟩ := exists_hasDerivAt_eq_slope tanh (fun x => 1 - tanh x ^ 2) hab
    (fun x _ => (hasDerivAt_tanh x).continuousAt.continuousWithinAt) (fun x _ => hasDerivAt_tanh x)
  refine ⟨1 - tanh c ^ 2, ?_, ?_, ?_⟩
  · rw [hc]; field_simp [(sub_pos.mpr hab).ne']
  · have e1 := tanh_strictMono h2
    have e2 := tanh_pos (lt_of_le_of_lt ha h1)
    nlinarith
  · have e1 := tanh_strictMono h1
    have e2 : 0 ≤ tanh a := by
      rcases ha.eq_or_lt with rfl | h
      · rw [tanh_zero]
      · exact (tanh_pos h).le
    nlinarith

/-- `x sech² x ≤ tanh x`. -/
theorem mul_sech_le {x : ℝ} (h : 0 < x) : x * (1 - tanh x ^ 2) ≤ tanh x := by
  obtain ⟨s, h1, h2, -⟩ := tanh_slope le_rfl h
  rw [tanh_zero, sub_zero, sub_zero] at h1
  calc x * (1 - tanh x ^ 2) ≤ x * s := mul_le_mul_of_nonneg_left h2 h.le
    _ = tanh x := h1.symm

theorem tanh_le_self {x : ℝ} (h : 0 < x) : tanh x ≤ x := by
  obtain ⟨s, h1, -, h3⟩ := tanh_slope le_rfl h
  rw [tanh_zero] at h1 h3
  nlinarith

/-! ## The root -/

theorem exists_root {A : ℝ} (hA : 0 < A) : ∃ R, A < R ∧ R * tanh R = A := by
  have hc : Continuous fun X : ℝ => X * tanh X := by
    have : Continuous tanh := continuous_iff_continuousAt.mpr fun x => (hasDerivAt_tanh x).continuousAt
    fun_prop
  have h1 : A * tanh A ≤ A := by have := tanh_lt_one A; nlinarith
  -- at A + 1/tanh A the value exceeds A
  have ht := tanh_pos hA
  have hB : A ≤ A / tanh A := by rw [le_div_iff₀ ht]; have := tanh_lt_one A; nlinarith
  have h2 : A ≤ A / tanh A * tanh (A / tanh A) := by
    have : tanh A ≤ tanh (A / tanh A) := tanh_strictMono.monotone hB
    calc A = A / tanh A * tanh A := by field_simp
      _ ≤ _ := mul_le_mul_of_nonneg_left this (by positivity)
  obtain ⟨R, ⟨hR1, -⟩, hR⟩ := intermediate_value_Icc hB hc.continuousOn ⟨h1, h2⟩
  refine ⟨R, ?_, hR⟩
  rcases hR1.eq_or_lt with h | h
  · exfalso
    have hl := tanh_lt_one A
    simp only [← h] at hR
    nlinarith
  · exact h

theorem root_unique {A x y : ℝ} (hx : 0 < x) (hy : 0 < y) (h1 : x * tanh x = A) (h2 : y * tanh y = A) : x = y := by
  rcases lt_trichotomy x y with h | h | h
  · have := tanh_strictMono h
    have := tanh_pos hx
    nlinarith
  · exact h
  · have := tanh_strictMono h
    have := tanh_pos hy
    nlinarith

/-! ## Contraction of the Newton step -/

/-- Closed form of the update. -/
theorem newton_eq {A X : ℝ} (hX : 0 < X) :
    newtonStep A X = (A + X ^ 2 * (1 - tanh X ^ 2)) / (tanh X + X * (1 - tanh X ^ 2)) := by
  have h1 := tanh_pos hX
  have h2 := sech_pos X
  have hd : tanh X + X * (1 - tanh X ^ 2) ≠ 0 := by positivity
  have hc : -tanh X - X * (1 - tanh X * tanh X) = -(tanh X + X * (1 - tanh X ^ 2)) := by ring
  unfold newtonStep residue
  simp only
  rw [eq_div_iff hd, hc, div_neg, sub_neg_eq_add, add_mul, div_mul_cancel₀ _ hd]
  ring

theorem newton_ge {A X : ℝ} (hA : 0 < A) (hX : A ≤ X) : A ≤ newtonStep A X := by
  have hX0 := lt_of_lt_of_le hA hX
  have h1 := tanh_pos hX0
  have h2 := sech_pos X
  have h3 := tanh_lt_one X
  rw [newton_eq hX0, le_div_iff₀ (by positivity)]
  have : A * X * (1 - tanh X ^ 2) ≤ X ^ 2 * (1 - tanh X ^ 2) := by
    apply mul_le_mul_of_nonneg_right _ h2.le; nlinarith
  nlinarith

/-- Error of the next iterate, on the right of the root: the new error is between `-t/(t+Xs)` and `1/2` times the old one. -/
theorem newton_right {A X R : ℝ} (hR : 0 < R) (hroot : R * tanh R = A) (hX : R < X) :
    newtonStep A X - R ≤ (X - R) / 2 ∧
    -(tanh X / (tanh X + X * (1 - tanh X ^ 2)) * (X - R)) ≤ newtonStep A X - R := by
  have hX0 := hR.trans hX
  have h1 := tanh_pos hX0
  have h2 := sech_pos X
  have h5 := tanh_pos hR
  have h6 := mul_sech_le hX0
  obtain ⟨D, e1, e2, e3⟩ := tanh_slope hR.le hX
  have hd : 0 < tanh X + X * (1 - tanh X ^ 2) := by positivity
  rw [newton_eq hX0, ← hroot]
  generalize tanh X = t at *
  generalize 1 - t ^ 2 = s at *
  have hD : 0 < D := lt_of_lt_of_le h2 e2
  have hT : tanh R = t - (X - R) * D := by linarith
  -- R D ≤ t
  have hRD : R * D ≤ t := by nlinarith [mul_nonneg (sub_pos.mpr hX).le hD.le, mul_sech_le hR]
  rw [hT]
  have key : (R * (t - (X - R) * D) + X ^ 2 * s) / (t + X * s) - R = (X - R) * (X * s - R * D) / (t + X * s) := by
    rw [eq_div_iff hd.ne', sub_mul, div_mul_cancel₀ _ hd.ne']; ring
  rw [key]
  have hXR := sub_pos.mpr hX
  constructor
  · rw [div_le_iff₀ hd]
    have : X * s - R * D ≤ (t + X * s) / 2 := by nlinarith [mul_pos hR hD]
    calc (X - R) * (X * s - R * D) ≤ (X - R) * ((t + X * s) / 2) := mul_le_mul_of_nonneg_left this hXR.le
      _ = _ := by ring
  · rw [div_mul_eq_mul_div, ← neg_div, div_le_div_iff_of_pos_right hd]
    have : -t ≤ X * s - R * D := by nlinarith [mul_pos hX0 h2]
    calc -(t * (X - R)) = (X - R) * (-t) := by ring
      _ ≤ _ := mul_le_mul_of_nonneg_left this hXR.le

/-- Error on the left of the root, once `tanh R ≤ 2 tanh X`. -/
theorem newton_left {A X R : ℝ} (hX0 : 0 < X) (hroot : R * tanh R = A) (hX : X < R) (ht : tanh R ≤ 2 * tanh X) :
    newtonStep A X - R ≤ tanh X / (tanh X + X * (1 - tanh X ^ 2)) * (R - X) ∧
    -((R - X) / 2) ≤ newtonStep A X - R := by
  have h1 := tanh_pos hX0
  have h2 := sech_pos X
  have h3 := tanh_lt_one R
  have h6 := mul_sech_le hX0
  obtain ⟨D, e1, e2, e3⟩ := tanh_slope hX0.le hX
  have hD : 0 < D := lt_of_lt_of_le (sech_pos R) e2
  have hd : 0 < tanh X + X * (1 - tanh X ^ 2) := by positivity
  rw [newton_eq hX0, ← hroot]
  generalize tanh X = t at *
  generalize 1 - t ^ 2 = s at *
  have hT : tanh R = t + (R - X) * D := by linarith
  have hXR := sub_pos.mpr hX
  rw [hT] at h3 ⊢
  have key : (R * (t + (R - X) * D) + X ^ 2 * s) / (t + X * s) - R = (R - X) * (R * D - X * s) / (t + X * s) := by
    rw [eq_div_iff hd.ne', sub_mul, div_mul_cancel₀ _ hd.ne']; ring
  rw [key]
  constructor
  · rw [div_mul_eq_mul_div, div_le_div_iff_of_pos_right hd]
    have : R * D - X * s ≤ t := by nlinarith [mul_le_mul_of_nonneg_left e3 hX0.le]
    calc (R - X) * (R * D - X * s) ≤ (R - X) * t := mul_le_mul_of_nonneg_left this hXR.le
      _ = _ := by ring
  · rw [← neg_div, neg_div, ← div_neg, ← neg_div_neg_eq, neg_neg]
    rw [div_le_div_iff₀ (by norm_num) hd]
    have : -(t + X * s) / 2 ≤ R * D - X * s := by nlinarith [mul_pos (hX0.trans hX) hD]
    have := mul_le_mul_of_nonneg_left this hXR.le
    linarith

/-- `d/dX (X tanh X)`. -/
def dg (x : ℝ) : ℝ := tanh x + x * (1 - tanh x ^ 2)

theorem hasDerivAt_g (x : ℝ) : HasDerivAt (fun x => x * tanh x) (dg x) x := by
  refine ((hasDerivAt_id x).mul (hasDerivAt_tanh x)).congr_deriv ?_
  simp [dg]

theorem hasDerivAt_dg (x : ℝ) : HasDerivAt dg (2 * (1 - tanh x ^ 2) * (1 - x * tanh x)) x := by
  have h := (hasDerivAt_tanh x).add ((hasDerivAt_id x).mul (((hasDerivAt_tanh x).pow 2).const_sub 1))
  refine h.congr_deriv ?_
  simp; ring

theorem g_mono {x y : ℝ} (hx : 0 < x) (h : x ≤ y) : x * tanh x ≤ y * tanh y := by
  have h1 := tanh_strictMono.monotone h
  have h2 := tanh_pos hx
  nlinarith

theorem dg_mono {x y : ℝ} (hx : 0 < x) (h : x ≤ y) (hy : y * tanh y ≤ 1) : dg x ≤ dg y := by
  have hm : MonotoneOn dg (Set.Icc x y) := by
    apply monotoneOn_of_deriv_nonneg (convex_Icc x y)
    · exact fun z _ => (hasDerivAt_dg z).continuousAt.continuousWithinAt
    · exact fun z _ => (hasDerivAt_dg z).differentiableAt.differentiableWithinAt
    · intro z hz
      rw [interior_Icc] at hz
      rw [(hasDerivAt_dg z).deriv]
      have h1 := g_mono (hx.trans hz.1) hz.2.le
      have h2 := sech_pos z
      exact mul_nonneg (by positivity) (by linarith)
  exact hm ⟨le_rfl, h⟩ ⟨h, le_rfl⟩ h

theorem newton_dg (A X : ℝ) (hX : 0 < X) : (newtonStep A X - X) * dg X = A - X * tanh X := by
  have h1 := tanh_pos hX
  have h2 := sech_pos X
  have hd : tanh X + X * (1 - tanh X ^ 2) ≠ 0 := by positivity
  rw [newton_eq hX, sub_mul, dg, div_mul_cancel₀ _ hd]; ring

theorem dg_pos {X : ℝ} (hX : 0 < X) : 0 < dg X := by
  have h1 := tanh_pos hX
  have h2 := sech_pos X
  unfold dg; positivity

/-- In the convex zone a Newton step lands on the right of the root. -/
theorem newton_convex {A X R : ℝ} (hX0 : 0 < X) (hR : 0 < R) (hroot : R * tanh R = A)
    (h1 : R * tanh R ≤ 1) (h2 : X * tanh X ≤ 1) : R ≤ newtonStep A X := by
  have hn := newton_dg A X hX0
  have hp := dg_pos hX0
  suffices h : (R - X) * dg X ≤ (newtonStep A X - X) * dg X by
    have := le_of_mul_le_mul_right h hp
    linarith
  rw [hn, ← hroot]
  rcases lt_trichotomy X R with h | h | h
  · obtain ⟨c, ⟨c1, c2⟩, hc⟩ := exists_hasDerivAt_eq_slope (fun x => x * tanh x) dg h
      (fun x _ => (hasDerivAt_g x).continuousAt.continuousWithinAt) (fun x _ => hasDerivAt_g x)
    have hm := dg_mono hX0 c1.le ((g_mono (hX0.trans c1) c2.le).trans h1)
    rw [eq_div_iff (sub_pos.mpr h).ne'] at hc
    nlinarith [sub_pos.mpr h]
  · subst h; simp
  · obtain ⟨c, ⟨c1, c2⟩, hc⟩ := exists_hasDerivAt_eq_slope (fun x => x * tanh x) dg h
      (fun x _ => (hasDerivAt_g x).continuousAt.continuousWithinAt) (fun x _ => hasDerivAt_g x)
    have hm := dg_mono (hR.trans c1) c2.le h2
    rw [eq_div_iff (sub_pos.mpr h).ne'] at hc
    nlinarith [sub_pos.mpr h]

theorem tanh_add_mul (a b : ℝ) : tanh (a + b) * (1 + tanh a * tanh b) = tanh a + tanh b := by
  simp only [tanh_eq_sinh_div_cosh, sinh_add, cosh_add]
  have ha := (cosh_pos a).ne'
  have hb := (cosh_pos b).ne'
  have hab : cosh a * cosh b + sinh a * sinh b ≠ 0 := by rw [← cosh_add]; exact (cosh_pos _).ne'
  have e : 1 + sinh a / cosh a * (sinh b / cosh b) = (cosh a * cosh b + sinh a * sinh b) / (cosh a * cosh b) := by
    field_simp
  rw [e, div_mul_div_comm, mul_comm (sinh a * cosh b + cosh a * sinh b), mul_div_mul_left _ _ hab]
  field_simp

/-- Lower bound on the slope of `X tanh X` above `a`. -/
theorem g_slope {a X R : ℝ} (ha : 0 < a) (hX : a ≤ X) (hR : a ≤ R) :
    |X - R| * tanh a ≤ |R * tanh R - X * tanh X| := by
  have h0 := tanh_pos ha
  have h1 := tanh_strictMono.monotone hX
  have h2 := tanh_strictMono.monotone hR
  rcases le_total X R with hle | hle
  · have hm := tanh_strictMono.monotone hle
    have hp : (R - X) * tanh a ≤ R * tanh R - X * tanh X := by nlinarith
    rw [abs_of_nonpos (by linarith), abs_of_nonneg (le_trans (by nlinarith) hp)]
    linarith
  · have hm := tanh_strictMono.monotone hle
    have hp : (X - R) * tanh a ≤ X * tanh X - R * tanh R := by nlinarith
    rw [abs_of_nonneg (by linarith), abs_of_nonpos (by nlinarith)]
    linarith

/-- Convergence of the iteration from the code's initial value. -/
theorem newton_tendsto {A R : ℝ} (hA : 0 < A) (hAR : A < R) (hroot : R * tanh R = A) :
    (∀ n, A ≤ (newtonStep A)^[n] A) ∧ Tendsto (fun n => (newtonStep A)^[n] A) atTop (𝓝 R) := by
  have hge : ∀ n, A ≤ (newtonStep A)^[n] A := by
    intro n
    induction n with
    | zero => exact le_rfl
    | succ n ih => rw [Function.iterate_succ_apply']; exact newton_ge hA ih
  refine ⟨hge, ?_⟩
  have hR := hA.trans hAR
  have hstep : ∀ n, (newtonStep A)^[n + 1] A = newtonStep A ((newtonStep A)^[n] A) := fun n => Function.iterate_succ_apply' _ _ _
  generalize hX : (fun n => (newtonStep A)^[n] A) = X at *
  have hXn : ∀ n, (newtonStep A)^[n] A = X n := fun n => by rw [← hX]
  simp only [hXn] at hge hstep
  have hX0 : X 0 = A := by rw [← hXn]; rfl
  by_cases ht : 1 / 2 ≤ tanh A
  · -- contraction
    set q := max (1 / 2) (1 / (1 + A * (1 - tanh (2 * R - A) ^ 2))) with hq
    have hs := sech_pos (2 * R - A)
    have hq1 : q < 1 := by
      apply max_lt (by norm_num)
      rw [div_lt_one (by positivity)]
      have := mul_pos hA hs
      linarith
    have hq0 : 0 ≤ q := le_trans (by norm_num) (le_max_left _ _)
    have hfac : ∀ x, A ≤ x → x ≤ 2 * R - A → tanh x / (tanh x + x * (1 - tanh x ^ 2)) ≤ q := by
      intro x h1 h2
      have hx := lt_of_lt_of_le hA h1
      refine le_trans ?_ (le_max_right _ _)
      have e1 := tanh_pos hx
      have e2 := sech_pos x
      have e3 := tanh_lt_one x
      have e4 := tanh_strictMono.monotone h2
      rw [div_le_div_iff₀ (by positivity) (by positivity)]
      have e5 : 1 - tanh (2 * R - A) ^ 2 ≤ 1 - tanh x ^ 2 := by nlinarith
      have e6 : A * (1 - tanh (2 * R - A) ^ 2) ≤ x * (1 - tanh x ^ 2) := mul_le_mul h1 e5 hs.le hx.le
      have e7 : tanh x * (A * (1 - tanh (2 * R - A) ^ 2)) ≤ 1 * (x * (1 - tanh x ^ 2)) :=
        mul_le_mul e3.le e6 (by positivity) (by norm_num)
      linarith
    have hc : ∀ n, |X n - R| ≤ q ^ n * (R - A) := by
      intro n
      induction n with
      | zero => rw [hX0, pow_zero, one_mul, abs_sub_comm, abs_of_pos (sub_pos.mpr hAR)]
      | succ n ih =>
        have hle : |X n - R| ≤ R - A := ih.trans (by
          have : q ^ n ≤ 1 := pow_le_one₀ hq0 hq1.le
          nlinarith [sub_pos.mpr hAR])
        have hB : X n ≤ 2 * R - A := by have := (abs_le.mp hle).2; linarith
        have hf := hfac (X n) (hge n) hB
        have hx0 := lt_of_lt_of_le hA (hge n)
        have key : |X (n + 1) - R| ≤ q * |X n - R| := by
          rw [hstep]
          have hqh : 1 / 2 ≤ q := le_max_left _ _
          rcases lt_trichotomy (X n) R with h | h | h
          · have htn : tanh R ≤ 2 * tanh (X n) := by
              have e1 := tanh_strictMono.monotone (hge n)
              have e2 := tanh_lt_one R
              linarith
            obtain ⟨k1, k2⟩ := newton_left hx0 hroot h htn
            rw [abs_of_neg (sub_neg.mpr h), abs_le]
            constructor
            · nlinarith
            · refine k1.trans ?_
              have := mul_le_mul_of_nonneg_right hf (sub_pos.mpr h).le
              linarith
          · rw [h]
            have := newton_dg A R hR
            rw [hroot, sub_self] at this
            have := (mul_eq_zero.mp this).resolve_right (dg_pos hR).ne'
            rw [this]; simp
          · obtain ⟨k1, k2⟩ := newton_right hR hroot h
            rw [abs_of_pos (sub_pos.mpr h), abs_le]
            constructor
            · refine le_trans ?_ k2
              have := mul_le_mul_of_nonneg_right hf (sub_pos.mpr h).le
              linarith
            · nlinarith
        calc |X (n + 1) - R| ≤ q * |X n - R| := key
          _ ≤ q * (q ^ n * (R - A)) := mul_le_mul_of_nonneg_left ih hq0
          _ = q ^ (n + 1) * (R - A) := by ring
    rw [tendsto_iff_dist_tendsto_zero]
    have hlim : Tendsto (fun n => q ^ n * (R - A)) atTop (𝓝 0) := by
      have := (tendsto_pow_atTop_nhds_zero_of_lt_one hq0 hq1).mul_const (R - A)
      rwa [zero_mul] at this
    exact squeeze_zero (fun _ => dist_nonneg) (fun n => by rw [Real.dist_eq]; exact hc n) hlim
  · -- convex zone
    have ht : tanh A < 1 / 2 := not_le.mp ht
    have htp := tanh_pos hA
    have hA23 : A ≤ 2 / 3 := by
      have h1 := mul_sech_le hA
      have h2 : 3 / 4 ≤ 1 - tanh A ^ 2 := by nlinarith
      have h3 := mul_le_mul_of_nonneg_left h2 hA.le
      linarith
    have h8 : tanh (A + 1 / 2) ≤ 4 / 5 := by
      have e := tanh_add_mul A (1 / 2)
      have e2 : tanh (1 / 2) ≤ 1 / 2 := tanh_le_self (by norm_num)
      have e3 : 0 < tanh (1 / 2 : ℝ) := tanh_pos (by norm_num)
      have e4 : tanh A + tanh (1 / 2) ≤ 4 / 5 * (1 + tanh A * tanh (1 / 2)) := by
        nlinarith [mul_nonneg (sub_nonneg.mpr ht.le) (sub_nonneg.mpr e2)]
      rw [← e] at e4
      exact le_of_mul_le_mul_right e4 (by positivity)
    have hM : (A + 1 / 2) * tanh (A + 1 / 2) ≤ 1 := by
      have := tanh_pos (show 0 < A + 1 / 2 by linarith)
      nlinarith
    have hR1 : R * tanh R ≤ 1 := by rw [hroot]; linarith
    have hX1 : X 1 ≤ A + 1 / 2 := by
      rw [hstep 0, hX0]
      have hn := newton_dg A A hA
      have hp := dg_pos hA
      have : A - A * tanh A ≤ 1 / 2 * dg A := by
        have := mul_sech_le hA
        have e3 := tanh_lt_one A
        unfold dg
        have : A * (1 - tanh A) ^ 2 ≤ tanh A := by nlinarith
        nlinarith
      rw [← hn] at this
      have := le_of_mul_le_mul_right this hp
      linarith
    have hind : ∀ n, R ≤ X (n + 1) ∧ X (n + 1) ≤ A + 1 / 2 ∧ X (n + 1) - R ≤ (1 / 2) ^ n * (X 1 - R) := by
      intro n
      induction n with
      | zero =>
        refine ⟨?_, hX1, by simp⟩
        rw [hstep 0, hX0]
        exact newton_convex hA hR hroot hR1 (by have := tanh_lt_one A; nlinarith)
      | succ n ih =>
        obtain ⟨i1, i2, i3⟩ := ih
        have hx0 := lt_of_lt_of_le hR i1
        have hconv : R ≤ X (n + 1 + 1) := by
          rw [hstep]
          exact newton_convex hx0 hR hroot hR1 ((g_mono hx0 i2).trans hM)
        have hhalf : X (n + 1 + 1) - R ≤ (X (n + 1) - R) / 2 := by
          rw [hstep]
          rcases i1.eq_or_lt with h | h
          · rw [← h]
            have := newton_dg A R hR
            rw [hroot, sub_self] at this
            have := (mul_eq_zero.mp this).resolve_right (dg_pos hR).ne'
            rw [this]; simp
          · exact (newton_right hR hroot h).1
        refine ⟨hconv, by linarith, ?_⟩
        rw [pow_succ]
        linarith
    rw [← tendsto_add_atTop_iff_nat 1, tendsto_iff_dist_tendsto_zero]
    have hlim : Tendsto (fun n : ℕ => (1 / 2 : ℝ) ^ n * (X 1 - R)) atTop (𝓝 0) := by
      have := (tendsto_pow_atTop_nhds_zero_of_lt_one (by norm_num) (by norm_num : (1 / 2 : ℝ) < 1)).mul_const (X 1 - R)
      rwa [zero_mul] at this
    refine squeeze_zero (fun _ => dist_nonneg) (fun n => ?_) hlim
    rw [Real.dist_eq, abs_of_nonneg (sub_nonneg.mpr (hind n).1)]
    exact (hind n).2.2

theorem whileLoop_spec {α : Type} {cond : α → Prop} {body : α → α} {x : α} (h : ∃ n, ¬ cond (body^[n] x)) :
    ∃ n, whileLoop cond body x = some (body^[n] x) ∧ ¬ cond (body^[n] x) := by
  unfold whileLoop
  rw [dif_pos h]
  exact ⟨_, rfl, Nat.find_spec h⟩

/-! ## C25 -/

/-- **C25, finite depth.** For every nonzero pulsation, positive gravity and positive depth the Newton iteration ends; the wave
number returned is positive, satisfies `ω² = g k tanh(k h)` up to `1e-6 g/h`, and differs from the unique exact solution by at
most `1e-6 / (h tanh(ω² h / g))`. -/
theorem C25_finite_depth (h omega g : ℝ) (hh : 0 < h) (hg : 0 < g) (hw : omega ≠ 0) :
    ∃ k kexact, solveDispersion h omega g = some k ∧ 0 < k ∧ |omega ^ 2 - g * k * tanh (k * h)| ≤ 1e-6 * (g / h) ∧
      (0 < kexact ∧ omega ^ 2 = g * kexact * tanh (kexact * h)) ∧
      (∀ k', 0 < k' → omega ^ 2 = g * k' * tanh (k' * h) → k' = kexact) ∧
      |k - kexact| ≤ 1e-6 / (h * tanh (omega ^ 2 * h / g)) := by
  set A := omega * omega / g * h with hAdef
  have hA : 0 < A := by
    have : 0 < omega * omega := mul_self_pos.mpr hw
    positivity
  have hA' : omega ^ 2 * h / g = A := by rw [hAdef]; ring
  obtain ⟨R, hAR, hroot⟩ := exists_root hA
  have hR := hA.trans hAR
  obtain ⟨hge, hlim⟩ := newton_tendsto hA hAR hroot
  have hres : Tendsto (fun n => residue A ((newtonStep A)^[n] A)) atTop (𝓝 0) := by
    have hc : ContinuousAt (fun X => residue A X) R := by
      unfold residue
      exact (hasDerivAt_g R).continuousAt.const_sub A |>.congr (by simp) 
    have := hc.tendsto.comp hlim
    have e : residue A R = 0 := by unfold residue; rw [hroot, sub_self]
    rwa [e] at this
  have hex : ∃ n, ¬ (1e-6 < |residue A ((newtonStep A)^[n] A)|) := by
    have := (Metric.tendsto_atTop.mp hres) 1e-6 (by norm_num)
    obtain ⟨N, hN⟩ := this
    refine ⟨N, ?_⟩
    have := hN N le_rfl
    rw [Real.dist_eq, sub_zero] at this
    exact not_lt.mpr this.le
  obtain ⟨n, hn, hcond⟩ := whileLoop_spec (cond := fun X => 1e-6 < |residue A X|) hex
  set X := (newtonStep A)^[n] A with hX
  have hX0 : 0 < X := lt_of_lt_of_le hA (hge n)
  have hr : |residue A X| ≤ 1e-6 := not_lt.mp hcond
  have hw2 : omega ^ 2 = g / h * A := by rw [hAdef]; field_simp
  have hgh : 0 < g / h := by positivity
  refine ⟨X / h, R / h, ?_, by positivity, ?_, ⟨by positivity, ?_⟩, ?_, ?_⟩
  · unfold solveDispersion
    simp only
    rw [if_neg (not_le.mpr hh), ← hAdef, hn]; rfl
  · have e : omega ^ 2 - g * (X / h) * tanh (X / h * h) = g / h * residue A X := by
      rw [div_mul_cancel₀ _ hh.ne', hw2]; unfold residue; ring
    rw [e, abs_mul, abs_of_pos hgh, mul_comm]
    exact mul_le_mul_of_nonneg_right hr hgh.le
  · rw [div_mul_cancel₀ _ hh.ne', hw2, ← hroot]; ring
  · intro k' hk' he
    have : k' * h * tanh (k' * h) = A := by
      rw [hw2] at he
      have : g / h * A = g / h * (k' * h * tanh (k' * h)) := by rw [he]; field_simp
      exact (mul_left_cancel₀ hgh.ne' this).symm
    rw [eq_div_iff hh.ne']
    exact root_unique (by positivity) hR this hroot
  · rw [hA']
    have htA := tanh_pos hA
    have key : |X - R| * tanh A ≤ |residue A X| := by
      have := g_slope hA (hge n) hAR.le
      rwa [hroot] at this
    have e : X / h - R / h = (X - R) / h := by ring
    rw [e, abs_div, abs_of_pos hh, div_le_div_iff₀ hh (by positivity)]
    have := key.trans hr
    nlinarith

/-- **C25, infinite depth** (depth given as zero or negative): the wave number is `ω²/g`. -/
theorem C25_infinite_depth (h omega g : ℝ) (hh : h ≤ 0) : solveDispersion h omega g = some (omega ^ 2 / g) := by
  unfold solveDispersion
  simp only
  rw [if_pos hh, sq]

/-- **C25, zero frequency**: the wave number is 0. -/
theorem C25_zero_frequency (h g : ℝ) : solveDispersion h 0 g = some 0 := by
  unfold solveDispersion
  simp only [mul_zero, zero_div, zero_mul]
  split_ifs
  · rfl
  · have hex : ∃ n, ¬ (1e-6 < |residue 0 ((newtonStep 0)^[n] 0)|) := ⟨0, by simp [residue]; norm_num⟩
    have : whileLoop (fun X => 1e-6 < |residue 0 X|) (newtonStep 0) 0 = some 0 := by
      unfold whileLoop
      rw [dif_pos hex]
      have h0 : Nat.find hex = 0 := by rw [Nat.find_eq_zero]; simp [residue]; norm_num
      rw [h0]; rfl
    rw [this]; simp

theorem mapM_some {α β : Type} (f : α → Option β) (l : List α) (h : ∀ a ∈ l, ∃ b, f a = some b) :
    ∃ r, l.mapM f = some r ∧ List.Forall₂ (fun a b => f a = some b) l r := by
  induction l with
  | nil => exact ⟨[], by simp, .nil⟩
  | cons a l ih =>
    obtain ⟨b, hb⟩ := h a (by simp)
    obtain ⟨r, hr, hf⟩ := ih (fun x hx => h x (by simp [hx]))
    exact ⟨b :: r, by simp [hb, hr], .cons hb hf⟩

/-- **C25, lists of frequencies.** The list version always ends and returns, frequency by frequency, the values above. -/
theorem C25_list (h g : ℝ) (hg : 0 < g) (ws : List ℝ) :
    ∃ ks, solveDispersionList h ws g = some ks ∧ List.Forall₂ (fun w k => solveDispersion h w g = some k) ws ks := by
  apply mapM_some
  intro w _
  by_cases hw : w = 0
  · exact ⟨_, by rw [hw]; exact C25_zero_frequency h g⟩
  · rcases le_or_gt h 0 with hh | hh
    · exact ⟨_, C25_infinite_depth h w g hh⟩
    · obtain ⟨k, -, hk, -⟩ := C25_finite_depth h w g hh hg hw
      exact ⟨k, hk⟩

/-- Non-vacuity: 10 s waves in 30 m of water. -/
example : ∃ k, solveDispersion 30 0.628 9.81 = some k ∧ 0 < k := by
  obtain ⟨k, -, h1, h2, -⟩ := C25_finite_depth 30 0.628 9.81 (by norm_num) (by norm_num) (by norm_num)
  exact ⟨k, h1, h2⟩

end Frydom.Waves
