import Verif.Waves.Bandwidth

/-!
# The frequency bandwidth of the usual sea states (C44)

`FrWaveSpectrum::GetFrequencyBandwidth` (FrWaveSpectrum.cpp:290-314) on the JONSWAP and Pierson-Moskowitz densities (FrWaveSpectrum.cpp:325-382).
-/

open Classical Filter Topology MeasureTheory Set

noncomputable section

namespace Frydom.Waves
open Real

/-! ## The common shape -/

/-- Shape of both densities as a function of `s = w / wp`. -/
def shapeG (β γ m s : ℝ) : ℝ := (s ^ 5)⁻¹ * exp (-(β / s ^ 4)) * exp (log γ * exp (-(m * (s - 1) ^ 2 / 2)))

/-- Its logarithmic derivative. -/
def shapeD (β γ m s : ℝ) : ℝ := -5 / s + 4 * β / s ^ 5 - log γ * exp (-(m * (s - 1) ^ 2 / 2)) * (m * (s - 1))

theorem shapeG_deriv (β γ m s : ℝ) (hs : 0 < s) : HasDerivAt (shapeG β γ m) (shapeG β γ m s * shapeD β γ m s) s := by
  have h1 : HasDerivAt (fun s : ℝ => (s ^ 5)⁻¹) (-(5 * s ^ 4) / (s ^ 5) ^ 2) s := by
    have := (hasDerivAt_pow 5 s).inv (by positivity : s ^ 5 ≠ 0)
    refine this.congr_deriv ?_
    norm_num
  have h2 : HasDerivAt (fun s : ℝ => -(β / s ^ 4)) (4 * β / s ^ 5) s := by
    have h := ((hasDerivAt_const s β).div (hasDerivAt_pow 4 s) (by positivity : s ^ 4 ≠ 0)).neg
    refine h.congr_deriv ?_
    norm_num
    field_simp
  have h3 : HasDerivAt (fun s : ℝ => -(m * (s - 1) ^ 2 / 2)) (-(m * (s - 1))) s := by
    have h := ((((hasDerivAt_id s).sub_const 1).pow 2).const_mul m |>.div_const 2).neg
    refine h.congr_deriv ?_
    norm_num
    ring
  have h4 := (h3.exp.const_mul (log γ)).exp
  refine ((h1.mul h2.exp).mul h4).congr_deriv ?_
  simp only [Pi.mul_apply]
  unfold shapeG shapeD
  generalize exp (-(β / s ^ 4)) = A
  generalize exp (log γ * exp (-(m * (s - 1) ^ 2 / 2))) = B
  generalize exp (-(m * (s - 1) ^ 2 / 2)) = C
  field_simp
  ring

/-- `r^8 exp(-β r^4)` and `r^12 exp(-β r^4)` are bounded. -/
theorem tails (β r : ℝ) (hβ : 1.25 ≤ β) (hr : 0 ≤ r) : r ^ 8 * exp (-(β * r ^ 4)) ≤ 1.3 ∧ r ^ 12 * exp (-(β * r ^ 4)) ≤ 3.1 := by
  have hu : 0 ≤ β * r ^ 4 := by positivity
  have hle : 1.25 * r ^ 4 ≤ β * r ^ 4 := by gcongr
  have q := quadratic_le_exp_of_nonneg hu
  have c : (β * r ^ 4) ^ 3 / 6 ≤ exp (β * r ^ 4) := by
    have := pow_div_factorial_le_exp (β * r ^ 4) hu 3
    norm_num [Nat.factorial] at this
    exact this
  rw [exp_neg]
  have he := exp_pos (β * r ^ 4)
  constructor
  · rw [mul_inv_le_iff₀ he]
    nlinarith [mul_self_nonneg (r ^ 4), pow_nonneg hr 4]
  · rw [mul_inv_le_iff₀ he]
    have h3 : (1.25 * r ^ 4) ^ 3 ≤ (β * r ^ 4) ^ 3 := pow_le_pow_left₀ (by positivity) hle 3
    nlinarith [pow_nonneg hr 12]

theorem tails' (β r : ℝ) (hβ : 1.25 ≤ β) (hr : 0 ≤ r) :
    r ^ 5 * exp (-(β * r ^ 4)) ≤ 1.3 ∧ r ^ 6 * exp (-(β * r ^ 4)) ≤ 1.3 ∧ r ^ 10 * exp (-(β * r ^ 4)) ≤ 3.1 := by
  obtain ⟨t1, t2⟩ := tails β r hβ hr
  have he0 := exp_pos (-(β * r ^ 4))
  have he1 : exp (-(β * r ^ 4)) ≤ 1 := by
    rw [exp_le_one_iff]
    have : 0 ≤ β * r ^ 4 := by positivity
    linarith
  rcases le_total r 1 with h | h
  · have p : ∀ n : ℕ, r ^ n * exp (-(β * r ^ 4)) ≤ 1 := fun n =>
      mul_le_one₀ (pow_le_one₀ hr h) he0.le he1
    exact ⟨(p 5).trans (by norm_num), (p 6).trans (by norm_num), (p 10).trans (by norm_num)⟩
  · refine ⟨le_trans ?_ t1, le_trans ?_ t1, le_trans ?_ t2⟩ <;>
      exact mul_le_mul_of_nonneg_right (pow_le_pow_right₀ h (by norm_num)) he0.le

theorem log_le_ten {γ : ℝ} (h1 : 1 ≤ γ) (h10 : γ ≤ 10) : 0 ≤ log γ ∧ log γ ≤ 2.31 := by
  refine ⟨log_nonneg h1, (log_le_log (by linarith) h10).trans ?_⟩
  rw [show (10 : ℝ) = 2 * 5 by norm_num, log_mul (by norm_num) (by norm_num)]
  have h2 := log_two_lt_d9
  have h5 : log 5 ≤ 1.61 := by
    rw [log_le_iff_le_exp (by norm_num)]
    have h := exp_one_gt_d9
    have e : exp 1.61 = exp 1 * exp 0.61 := by rw [← exp_add]; norm_num
    have q : (1.8396 : ℝ) ≤ exp 0.61 := by
      have := sum_le_exp_of_nonneg (show (0:ℝ) ≤ 0.61 by norm_num) 5
      norm_num [Finset.sum_range_succ, Nat.factorial] at this
      have e' : (61 / 100 : ℝ) = 0.61 := by norm_num
      rw [e'] at this
      linarith
    rw [e]
    nlinarith
  linarith

theorem shapeG_nonneg (β γ m s : ℝ) (hs : 0 < s) : 0 ≤ shapeG β γ m s := by
  unfold shapeG
  have := pow_pos hs 5
  positivity

theorem peak_le {γ : ℝ} (h1 : 1 ≤ γ) (h10 : γ ≤ 10) (m s : ℝ) (hm : 0 ≤ m) :
    1 ≤ exp (log γ * exp (-(m * (s - 1) ^ 2 / 2))) ∧ exp (log γ * exp (-(m * (s - 1) ^ 2 / 2))) ≤ γ := by
  have hl := log_nonneg h1
  have ha : exp (-(m * (s - 1) ^ 2 / 2)) ≤ 1 := by
    rw [exp_le_one_iff]
    have : 0 ≤ m * (s - 1) ^ 2 / 2 := by positivity
    linarith
  constructor
  · rw [one_le_exp_iff]
    have := exp_pos (-(m * (s - 1) ^ 2 / 2))
    positivity
  · calc exp (log γ * exp (-(m * (s - 1) ^ 2 / 2))) ≤ exp (log γ * 1) := by gcongr
      _ = γ := by rw [mul_one, exp_log (by linarith)]

/-- The shape has a bounded derivative. -/
theorem shapeG_deriv_le (β γ m s : ℝ) (hβ : 1.25 ≤ β) (hβ' : β ≤ 1.26) (h1 : 1 ≤ γ) (h10 : γ ≤ 10) (hm : 1 / 2 ≤ m) (hm' : m ≤ 205) (hs : 0 < s) :
    |shapeG β γ m s * shapeD β γ m s| ≤ 7000 := by
  obtain ⟨hl0, hl⟩ := log_le_ten h1 h10
  obtain ⟨-, p⟩ := peak_le h1 h10 m s (by linarith)
  obtain ⟨t5, t6, t10⟩ := tails' β s⁻¹ hβ (by positivity)
  set E := exp (-(β * s⁻¹ ^ 4)) with hE
  have hE0 : 0 < E := exp_pos _
  have eE : exp (-(β / s ^ 4)) = E := by rw [hE]; congr 2; field_simp
  set P := exp (log γ * exp (-(m * (s - 1) ^ 2 / 2))) with hP
  have hP0 : 0 < P := exp_pos _
  have eG : shapeG β γ m s = s⁻¹ ^ 5 * E * P := by
    unfold shapeG; rw [eE, ← hP, inv_pow]
  -- the third term
  set a := exp (-(m * (s - 1) ^ 2 / 2)) with ha
  have ha0 : 0 < a := exp_pos _
  have hy : a * |s - 1| ≤ 1 := by
    have hx := add_one_le_exp (m * (s - 1) ^ 2 / 2)
    have e : a * exp (m * (s - 1) ^ 2 / 2) = 1 := by rw [ha, ← exp_add]; simp
    have hq : |s - 1| ≤ m * (s - 1) ^ 2 / 2 + 1 := by
      nlinarith [sq_nonneg (|s - 1| / 2 - 1), sq_abs (s - 1), sq_nonneg (s - 1)]
    calc a * |s - 1| ≤ a * exp (m * (s - 1) ^ 2 / 2) := by gcongr; linarith
      _ = 1 := e
  have hD : |shapeD β γ m s| ≤ 5 * s⁻¹ + 4 * β * s⁻¹ ^ 5 + 474 := by
    unfold shapeD
    rw [← ha]
    have b1 : |-5 / s| = 5 * s⁻¹ := by rw [abs_div, abs_neg, abs_of_pos (by norm_num : (0:ℝ) < 5), abs_of_pos hs]; rfl
    have b2 : |4 * β / s ^ 5| = 4 * β * s⁻¹ ^ 5 := by
      rw [abs_of_nonneg (by have := pow_pos hs 5; positivity), inv_pow]; rfl
    have b3 : |log γ * a * (m * (s - 1))| ≤ 474 := by
      rw [show log γ * a * (m * (s - 1)) = (log γ * m) * (a * (s - 1)) by ring, abs_mul, abs_of_nonneg (by positivity), abs_mul, abs_of_pos ha0]
      calc log γ * m * (a * |s - 1|) ≤ 2.31 * 205 * 1 := by gcongr
        _ ≤ 474 := by norm_num
    calc |-5 / s + 4 * β / s ^ 5 - log γ * a * (m * (s - 1))| ≤ |-5 / s| + |4 * β / s ^ 5| + |log γ * a * (m * (s - 1))| :=
          (abs_sub _ _).trans (by gcongr; exact abs_add_le _ _)
      _ ≤ _ := by rw [b1, b2]; gcongr
  rw [abs_mul, abs_of_nonneg (shapeG_nonneg β γ m s hs), eG]
  have hs5 : 0 ≤ s⁻¹ ^ 5 := by positivity
  calc s⁻¹ ^ 5 * E * P * |shapeD β γ m s| ≤ s⁻¹ ^ 5 * E * P * (5 * s⁻¹ + 4 * β * s⁻¹ ^ 5 + 474) := by gcongr
    _ = P * (5 * (s⁻¹ ^ 6 * E) + 4 * β * (s⁻¹ ^ 10 * E) + 474 * (s⁻¹ ^ 5 * E)) := by ring
    _ ≤ 10 * (5 * 1.3 + 4 * 1.26 * 3.1 + 474 * 1.3) := by
        have : P ≤ 10 := p.trans h10
        gcongr
    _ ≤ 7000 := by norm_num

/-! ## The two searches -/

/-- The density of frequency `w`: a level times the shape. -/
def density (κ β γ m hs wp w : ℝ) : ℝ := κ * hs ^ 2 / wp * shapeG β γ m (w / wp)

theorem density_lip (κ β γ m hs wp : ℝ) (hκ0 : 0 ≤ κ) (hκ : κ ≤ 0.313) (hβ : 1.25 ≤ β) (hβ' : β ≤ 1.26) (h1 : 1 ≤ γ) (h10 : γ ≤ 10) (hm : 1 / 2 ≤ m) (hm' : m ≤ 205)
    (hs0 : 0 < hs) (hs50 : hs ≤ 50) (hwp : 0.05 ≤ wp) (x y : ℝ) (hx : 0 < x) (hxy : x ≤ y) :
    |density κ β γ m hs wp x - density κ β γ m hs wp y| ≤ 1e10 * (y - x) := by
  have hw0 : 0 < wp := by linarith
  have hd : ∀ w ∈ Icc x y, HasDerivWithinAt (density κ β γ m hs wp)
      (κ * hs ^ 2 / wp * (shapeG β γ m (w / wp) * shapeD β γ m (w / wp) * (1 / wp))) (Icc x y) w := by
    intro w hw
    have hw' : 0 < w := lt_of_lt_of_le hx hw.1
    have h := shapeG_deriv β γ m (w / wp) (by positivity)
    exact ((h.comp w ((hasDerivAt_id w).div_const wp)).const_mul _).hasDerivWithinAt
  have hb : ∀ w ∈ Icc x y, ‖κ * hs ^ 2 / wp * (shapeG β γ m (w / wp) * shapeD β γ m (w / wp) * (1 / wp))‖ ≤ 1e10 := by
    intro w hw
    have hw' : 0 < w := lt_of_lt_of_le hx hw.1
    have h := shapeG_deriv_le β γ m (w / wp) hβ hβ' h1 h10 hm hm' (by positivity)
    rw [norm_mul, norm_mul, Real.norm_eq_abs, Real.norm_eq_abs, Real.norm_eq_abs, abs_of_nonneg (by positivity), abs_of_pos (by positivity : 0 < 1 / wp)]
    have i : 1 / wp ≤ 20 := by rw [div_le_iff₀ hw0]; linarith
    have j : hs ^ 2 ≤ 2500 := by nlinarith
    calc κ * hs ^ 2 / wp * (|shapeG β γ m (w / wp) * shapeD β γ m (w / wp)| * (1 / wp))
        = κ * hs ^ 2 * (1 / wp) * (|shapeG β γ m (w / wp) * shapeD β γ m (w / wp)| * (1 / wp)) := by ring
      _ ≤ 0.313 * 2500 * 20 * (7000 * 20) := by gcongr
      _ ≤ 1e10 := by norm_num
  have := Convex.norm_image_sub_le_of_norm_hasDerivWithin_le hd hb (convex_Icc x y) (left_mem_Icc.mpr hxy) (right_mem_Icc.mpr hxy)
  rw [Real.norm_eq_abs, Real.norm_eq_abs, abs_of_nonneg (by linarith : 0 ≤ y - x)] at this
  rwa [abs_sub_comm]

/-- Far below the peak the density is under the threshold. -/
theorem density_low (κ β γ m hs wp : ℝ) (hκ0 : 0 ≤ κ) (hκ : κ ≤ 0.313) (hβ : 1.25 ≤ β) (h1 : 1 ≤ γ) (h10 : γ ≤ 10) (hm : 0 ≤ m) (hs0 : 0 < hs) (hwp : 0.05 ≤ wp) :
    density κ β γ m hs wp 1e-4 < hs ^ 2 / 16 * 0.01 := by
  have hw0 : 0 < wp := by linarith
  obtain ⟨-, p⟩ := peak_le h1 h10 m (1e-4 / wp) hm
  obtain ⟨r, hr⟩ : ∃ r, r = 1e4 * wp := ⟨_, rfl⟩
  have hr0 : 500 ≤ r := by rw [hr]; norm_num at hwp ⊢; linarith
  obtain ⟨-, t⟩ := tails β r hβ (by linarith)
  have e4 : β / (1e-4 / wp) ^ 4 = β * r ^ 4 := by rw [hr]; field_simp; norm_num
  have e5 : ((1e-4 / wp) ^ 5)⁻¹ = r ^ 5 := by rw [hr]; field_simp; norm_num
  have hE := exp_pos (-(β * r ^ 4))
  have g : r ^ 5 * exp (-(β * r ^ 4)) ≤ 3.1 / r := by
    rw [le_div_iff₀ (by linarith)]
    refine le_trans ?_ t
    have : r ^ 5 * exp (-(β * r ^ 4)) * r = r ^ 6 * exp (-(β * r ^ 4)) := by ring
    rw [this]
    exact mul_le_mul_of_nonneg_right (pow_le_pow_right₀ (by linarith) (by norm_num)) hE.le
  have g2 : r ^ 5 * exp (-(β * r ^ 4)) ≤ 3.1 / r ^ 7 := by
    rw [le_div_iff₀ (by positivity)]
    refine le_trans (le_of_eq ?_) t
    ring
  unfold density shapeG
  rw [e4, e5]
  have hr7 : (500 : ℝ) ^ 7 ≤ r ^ 7 := pow_le_pow_left₀ (by norm_num) hr0 7
  have g3 : r ^ 5 * exp (-(β * r ^ 4)) ≤ 1e-6 := g2.trans (by
    rw [div_le_iff₀ (by positivity)]
    norm_num at hr7 ⊢
    linarith)
  have i : 1 / wp ≤ 20 := by rw [div_le_iff₀ hw0]; linarith
  have hp0 := exp_pos (log γ * exp (-(m * (1e-4 / wp - 1) ^ 2 / 2)))
  calc κ * hs ^ 2 / wp * (r ^ 5 * exp (-(β * r ^ 4)) * exp (log γ * exp (-(m * (1e-4 / wp - 1) ^ 2 / 2))))
      = κ * hs ^ 2 * (1 / wp) * (r ^ 5 * exp (-(β * r ^ 4)) * exp (log γ * exp (-(m * (1e-4 / wp - 1) ^ 2 / 2)))) := by ring
    _ ≤ 0.313 * hs ^ 2 * 20 * (1e-6 * 10) := by
        have := p.trans h10
        gcongr
    _ < hs ^ 2 / 16 * 0.01 := by
        have : 0 < hs ^ 2 := by positivity
        norm_num
        linarith

/-- At the peak the density is above the threshold. -/
theorem density_peak (κ β γ m hs wp : ℝ) (hκ : 0.1 ≤ κ) (hβ' : β ≤ 1.26) (h1 : 1 ≤ γ) (h10 : γ ≤ 10) (hm : 0 ≤ m) (hs0 : 0 < hs) (hwp : 0 < wp) (hwp' : wp < 10) :
    hs ^ 2 / 16 * 0.01 < density κ β γ m hs wp wp := by
  obtain ⟨p, -⟩ := peak_le h1 h10 m 1 hm
  unfold density shapeG
  rw [div_self hwp.ne']
  have e : (0.25 : ℝ) ≤ exp (-(β / 1 ^ 4)) := by
    rw [one_pow, div_one, exp_neg, show (0.25 : ℝ) = 4⁻¹ by norm_num]
    apply inv_anti₀ (exp_pos _)
    have h := exp_one_lt_d9
    have e1 : exp β ≤ exp (1.26 : ℝ) := exp_le_exp.mpr hβ'
    have e2 : exp (1.26 : ℝ) ^ 3 ≤ 64 := by
      rw [← exp_nat_mul]
      calc exp ((3 : ℕ) * (1.26 : ℝ)) ≤ exp 4 := by rw [exp_le_exp]; norm_num
        _ = exp 1 ^ 4 := by rw [← exp_nat_mul]; norm_num
        _ ≤ 2.7182818286 ^ 4 := pow_le_pow_left₀ (exp_pos _).le h.le 4
        _ ≤ 64 := by norm_num
    by_contra hc
    have : (4 : ℝ) ^ 3 < exp (1.26 : ℝ) ^ 3 := pow_lt_pow_left₀ (lt_of_lt_of_le (not_le.mp hc) e1) (by norm_num) (by norm_num)
    norm_num at this e2
    linarith
  have hh : 0 < hs ^ 2 := by positivity
  have i : 1 / 10 ≤ 1 / wp := one_div_le_one_div_of_le hwp hwp'.le
  calc hs ^ 2 / 16 * 0.01 < 0.1 * hs ^ 2 * (1 / 10) * (1 * 0.25 * 1) := by norm_num; linarith
    _ ≤ κ * hs ^ 2 * (1 / wp) * (((1 : ℝ) ^ 5)⁻¹ * exp (-(β / 1 ^ 4)) * exp (log γ * exp (-(m * (1 - 1) ^ 2 / 2)))) := by
        gcongr
        norm_num
    _ = _ := by ring

/-- At 10 rad/s the density is under the threshold when the peak is below 3.7 rad/s. -/
theorem density_high (κ β γ m hs wp : ℝ) (hκ0 : 0 ≤ κ) (hκ : κ ≤ 0.313) (hβ : 0 ≤ β) (h1 : 1 ≤ γ) (h10 : γ ≤ 10) (hm : 123 ≤ m) (hs0 : 0 < hs) (hwp : 0 < wp) (hwp' : wp ≤ 3.7) :
    density κ β γ m hs wp 10 < hs ^ 2 / 16 * 0.01 := by
  obtain ⟨hl0, hl⟩ := log_le_ten h1 h10
  have hE : exp (-(β / (10 / wp) ^ 4)) ≤ 1 := by
    rw [exp_le_one_iff]
    have : 0 ≤ β / (10 / wp) ^ 4 := by positivity
    linarith
  have hsub : 1.7 ≤ 10 / wp - 1 := by
    have : 2.7 ≤ 10 / wp := by rw [le_div_iff₀ hwp]; norm_num at hwp' ⊢; linarith
    linarith
  have hx : 177 ≤ m * (10 / wp - 1) ^ 2 / 2 := by
    have : 1.7 ^ 2 ≤ (10 / wp - 1) ^ 2 := pow_le_pow_left₀ (by norm_num) hsub 2
    nlinarith
  have ha : exp (-(m * (10 / wp - 1) ^ 2 / 2)) ≤ 1 / 178 := by
    rw [exp_neg, one_div]
    apply inv_anti₀ (by norm_num)
    have := add_one_le_exp (m * (10 / wp - 1) ^ 2 / 2)
    linarith
  have hP : exp (log γ * exp (-(m * (10 / wp - 1) ^ 2 / 2))) ≤ 1.014 := by
    have h0 := exp_pos (-(m * (10 / wp - 1) ^ 2 / 2))
    have hle : log γ * exp (-(m * (10 / wp - 1) ^ 2 / 2)) ≤ 0.013 := by
      calc _ ≤ 2.31 * (1 / 178 : ℝ) := by gcongr
        _ ≤ 0.013 := by norm_num
    have h := add_one_le_exp (-(log γ * exp (-(m * (10 / wp - 1) ^ 2 / 2))))
    rw [exp_neg (log γ * _)] at h
    have hpos := exp_pos (log γ * exp (-(m * (10 / wp - 1) ^ 2 / 2)))
    have h' : 0.987 ≤ (exp (log γ * exp (-(m * (10 / wp - 1) ^ 2 / 2))))⁻¹ := by linarith
    have := (le_inv_comm₀ (by norm_num) hpos).mp h'
    refine this.trans (by norm_num)
  have hw4 : wp ^ 4 ≤ 187.5 := by
    calc wp ^ 4 ≤ 3.7 ^ 4 := pow_le_pow_left₀ hwp.le hwp' 4
      _ ≤ 187.5 := by norm_num
  have hh : 0 < hs ^ 2 := by positivity
  unfold density shapeG
  have hP0 := exp_pos (log γ * exp (-(m * (10 / wp - 1) ^ 2 / 2)))
  have hE0 := exp_pos (-(β / (10 / wp) ^ 4))
  have e : κ * hs ^ 2 / wp * (((10 / wp) ^ 5)⁻¹ * exp (-(β / (10 / wp) ^ 4)) * exp (log γ * exp (-(m * (10 / wp - 1) ^ 2 / 2)))) =
      κ * hs ^ 2 * wp ^ 4 * 1e-5 * (exp (-(β / (10 / wp) ^ 4)) * exp (log γ * exp (-(m * (10 / wp - 1) ^ 2 / 2)))) := by
    generalize exp (-(β / (10 / wp) ^ 4)) = A
    generalize exp (log γ * exp (-(m * (10 / wp - 1) ^ 2 / 2))) = B
    field_simp
    norm_num
    ring
  rw [e]
  calc _ ≤ 0.313 * hs ^ 2 * 187.5 * 1e-5 * (1 * 1.014) := by gcongr
    _ < hs ^ 2 / 16 * 0.01 := by norm_num; linarith

/-- The search succeeds on a density which is of the shape above on each side of the peak. -/
theorem bandwidth_of_shape (f : ℝ → ℝ) (κ β γ m1 m2 hs wp : ℝ) (hκ : 0.1 ≤ κ) (hκ' : κ ≤ 0.313) (hβ : 1.25 ≤ β) (hβ' : β ≤ 1.26) (h1 : 1 ≤ γ) (h10 : γ ≤ 10)
    (hm1 : 123 ≤ m1) (hm1' : m1 ≤ 205) (hm2 : 123 ≤ m2) (hm2' : m2 ≤ 205) (hs0 : 0 < hs) (hs50 : hs ≤ 50) (hwp : 0.05 ≤ wp) (hwp' : wp ≤ 3.7)
    (hlow : ∀ w, 0 < w → w ≤ wp → f w = density κ β γ m1 hs wp w) (hhigh : ∀ w, wp ≤ w → f w = density κ β γ m2 hs wp w) :
    ∃ wmin wmax, getFrequencyBandwidth f hs wp = .returns (wmin, wmax) ∧ 1e-4 < wmin ∧ wmin < wp ∧ wp < wmax ∧ wmax < 10 ∧
      |f wmin - 0.01 * (hs ^ 2 / 16)| < 1e-10 ∧ |f wmax - 0.01 * (hs ^ 2 / 16)| < 1e-10 := by
  have hw0 : 0 < wp := by linarith
  have hpk := density_peak κ β γ m1 hs wp hκ hβ' h1 h10 (by linarith) hs0 hw0 (by linarith)
  have hlo := density_low κ β γ m1 hs wp (by linarith) hκ' hβ h1 h10 (by linarith) hs0 hwp
  have hhi := density_high κ β γ m2 hs wp (by linarith) hκ' (by linarith) h1 h10 hm2 hs0 hw0 hwp'
  rw [← hlow wp hw0 le_rfl] at hpk
  rw [← hlow 1e-4 (by norm_num) (by norm_num at hwp ⊢; linarith)] at hlo
  rw [← hhigh 10 (by linarith)] at hhi
  obtain ⟨a, ea, a1, a2, a3⟩ := C44_complete f 1e-4 wp (hs ^ 2 / 16 * 0.01) (by norm_num at hwp ⊢; linarith)
    (mul_neg_of_neg_of_pos (by linarith) (by linarith)) (fun x y hx hxy hy => by
      have hx0 : 0 < x := lt_of_lt_of_le (by norm_num) hx
      rw [hlow x hx0 (hxy.trans hy), hlow y (by linarith) hy]
      exact density_lip κ β γ m1 hs wp (by linarith) hκ' hβ hβ' h1 h10 (by linarith) hm1' hs0 hs50 hwp x y hx0 hxy)
  obtain ⟨b, eb, b1, b2, b3⟩ := C44_complete f wp 10 (hs ^ 2 / 16 * 0.01) (by norm_num at hwp' ⊢; linarith)
    (mul_neg_of_pos_of_neg (by linarith) (by linarith)) (fun x y hx hxy hy => by
      rw [hhigh x hx, hhigh y (hx.trans hxy)]
      exact density_lip κ β γ m2 hs wp (by linarith) hκ' hβ hβ' h1 h10 (by linarith) hm2' hs0 hs50 hwp x y (by linarith) hxy)
  refine ⟨a, b, ?_, a1, a2, b1, b2, by rwa [mul_comm], by rwa [mul_comm]⟩
  unfold getFrequencyBandwidth
  simp only [ea, eb, Outcome.bind]

/-! ## C44 on the two spectra -/

/-- The JONSWAP density on one side of the peak. -/
theorem jonswap_side (hs wp γ w x : ℝ) (hwp : 0 < wp) (hw : 0 < w) (hγ : 0 < γ)
    (hx : jonswap hs wp γ w = 0.3125 * (hs * hs) * (wp * wp * (wp * wp)) * ((w ^ 4)⁻¹ / w) * exp (-1.25 * (wp * wp * (wp * wp)) * (w ^ 4)⁻¹) * (1 - 0.287 * log γ) *
      γ ^ (exp (-(w - wp) ^ 2 / (2 * (wp * wp))) ^ x)) :
    jonswap hs wp γ w = density (0.3125 * (1 - 0.287 * log γ)) 1.25 γ x hs wp w := by
  rw [hx]
  unfold density shapeG
  have e1 : exp (-(w - wp) ^ 2 / (2 * (wp * wp))) ^ x = exp (-(x * (w / wp - 1) ^ 2 / 2)) := by
    rw [← exp_mul]
    congr 1
    field_simp
  have e2 : γ ^ (exp (-(x * (w / wp - 1) ^ 2 / 2))) = exp (log γ * exp (-(x * (w / wp - 1) ^ 2 / 2))) := rpow_def_of_pos hγ _
  have e3 : exp (-1.25 * (wp * wp * (wp * wp)) * (w ^ 4)⁻¹) = exp (-(1.25 / (w / wp) ^ 4)) := by
    congr 1
    field_simp
  rw [e1, e2, e3]
  generalize exp (-(1.25 / (w / wp) ^ 4)) = A
  generalize exp (log γ * exp (-(x * (w / wp - 1) ^ 2 / 2))) = B
  field_simp

theorem jonswap_low (hs wp γ w : ℝ) (hwp : 0 < wp) (hw : 0 < w) (hγ : 0 < γ) (h : w ≤ wp) :
    jonswap hs wp γ w = density (0.3125 * (1 - 0.287 * log γ)) 1.25 γ (1 / (0.07 * 0.07)) hs wp w := by
  refine jonswap_side hs wp γ w _ hwp hw hγ ?_
  simp only [jonswap, if_pos hw, if_pos h]

theorem jonswap_high (hs wp γ w : ℝ) (hwp : 0 < wp) (hγ : 0 < γ) (h : wp ≤ w) :
    jonswap hs wp γ w = density (0.3125 * (1 - 0.287 * log γ)) 1.25 γ (1 / (0.09 * 0.09)) hs wp w := by
  have hw : 0 < w := by linarith
  refine jonswap_side hs wp γ w _ hwp hw hγ ?_
  rcases h.lt_or_eq with h' | h'
  · simp only [jonswap, if_pos hw, if_neg (not_le.mpr h')]
  · subst h'
    simp only [jonswap, if_pos hw, if_pos le_rfl]
    simp

theorem pm_eq (hs wp w m : ℝ) (hwp : 0 < wp) (hw : 0 < w) :
    piersonMoskowitz hs wp w = density (0.25 * (1.408 ^ 4 / π)) (1.408 ^ 4 / π) 1 m hs wp w := by
  have hπ := pi_pos
  unfold piersonMoskowitz density shapeG
  have e : (2 * π / (2 * π / wp / 1.408)) ^ 4 / (π * w ^ 4) = (1.408 ^ 4 / π) / (w / wp) ^ 4 := by
    field_simp
  simp only [e, log_one, zero_mul, exp_zero, mul_one]
  generalize exp (-(1.408 ^ 4 / π / (w / wp) ^ 4)) = A
  field_simp

theorem pm_level : 1.25 ≤ 1.408 ^ 4 / π ∧ 1.408 ^ 4 / π ≤ (1.252 : ℝ) := by
  have h1 := pi_gt_d6
  have h2 := pi_lt_d6
  constructor
  · rw [le_div_iff₀ pi_pos]; norm_num at h2 ⊢; linarith
  · rw [div_le_iff₀ pi_pos]; norm_num at h1 ⊢; linarith

/-- **C44, JONSWAP.** For every significant height up to 50 m, every peak frequency from 0.05 to 3.7 rad/s (periods from 1.7 to 125 s) and every peakedness of the
documented range, the frequency bandwidth is found: two frequencies on each side of the peak where the density is one percent of the variance, to `1e-10`. -/
theorem C44_jonswap_bandwidth (hs wp γ : ℝ) (hs0 : 0 < hs) (hs50 : hs ≤ 50) (hwp : 0.05 ≤ wp) (hwp' : wp ≤ 3.7) (h1 : 1 ≤ γ) (h10 : γ ≤ 10) :
    ∃ wmin wmax, getFrequencyBandwidth (jonswap hs wp γ) hs wp = .returns (wmin, wmax) ∧ 1e-4 < wmin ∧ wmin < wp ∧ wp < wmax ∧ wmax < 10 ∧
      |jonswap hs wp γ wmin - 0.01 * (hs ^ 2 / 16)| < 1e-10 ∧ |jonswap hs wp γ wmax - 0.01 * (hs ^ 2 / 16)| < 1e-10 := by
  obtain ⟨l0, l1⟩ := log_le_ten h1 h10
  have hw0 : 0 < wp := by linarith
  exact bandwidth_of_shape (jonswap hs wp γ) (0.3125 * (1 - 0.287 * log γ)) 1.25 γ (1 / (0.07 * 0.07)) (1 / (0.09 * 0.09)) hs wp
    (by norm_num at l1 ⊢; linarith) (by norm_num; linarith) le_rfl (by norm_num) h1 h10 (by norm_num) (by norm_num) (by norm_num) (by norm_num) hs0 hs50 hwp hwp'
    (fun w hw h => jonswap_low hs wp γ w hw0 hw (by linarith) h) (fun w h => jonswap_high hs wp γ w hw0 (by linarith) h)

/-- **C44, Pierson-Moskowitz.** The same. -/
theorem C44_pierson_moskowitz_bandwidth (hs wp : ℝ) (hs0 : 0 < hs) (hs50 : hs ≤ 50) (hwp : 0.05 ≤ wp) (hwp' : wp ≤ 3.7) :
    ∃ wmin wmax, getFrequencyBandwidth (piersonMoskowitz hs wp) hs wp = .returns (wmin, wmax) ∧ 1e-4 < wmin ∧ wmin < wp ∧ wp < wmax ∧ wmax < 10 ∧
      |piersonMoskowitz hs wp wmin - 0.01 * (hs ^ 2 / 16)| < 1e-10 ∧ |piersonMoskowitz hs wp wmax - 0.01 * (hs ^ 2 / 16)| < 1e-10 := by
  obtain ⟨a1, a2⟩ := pm_level
  have hw0 : 0 < wp := by linarith
  exact bandwidth_of_shape (piersonMoskowitz hs wp) (0.25 * (1.408 ^ 4 / π)) (1.408 ^ 4 / π) 1 150 150 hs wp
    (by linarith) (by linarith) a1 (by linarith) le_rfl (by norm_num) (by norm_num) (by norm_num) (by norm_num) (by norm_num) hs0 hs50 hwp hwp'
    (fun w hw _ => pm_eq hs wp w 150 hw0 hw) (fun w h => pm_eq hs wp w 150 hw0 (by linarith))

/-! ## Short waves -/

/-- A density that stays above the threshold is refused. -/
theorem search_throws (f : ℝ → ℝ) (a b t : ℝ) (hab : a < b) (h : ∀ w, a < w → w < b → t + 1e-10 ≤ f w) : dichotomySearch f a b t = .throws := by
  rcases C44_sound f a b t hab with h' | ⟨w, -, h1, h2, h3⟩
  · exact h'
  · have := h w h1 h2
    rw [abs_lt] at h3
    linarith [h3.2]

theorem bandwidth_throws (f : ℝ → ℝ) (hs wp : ℝ) (h0 : 1e-4 < wp) (hwp : wp < 10) (h : ∀ w, wp < w → w < 10 → hs ^ 2 / 16 * 0.01 + 1e-10 ≤ f w) :
    getFrequencyBandwidth f hs wp = .throws := by
  have h2 := search_throws f wp 10 (hs ^ 2 / 16 * 0.01) hwp h
  unfold getFrequencyBandwidth
  rcases C44_sound f 1e-4 wp (hs ^ 2 / 16 * 0.01) h0 with h1 | ⟨w, h1, -⟩
  · simp only [h1, Outcome.bind]
  · simp only [h1, h2, Outcome.bind]

/-- Above the peak the shape decreases. -/
theorem shape_ge (r1 r2 : ℝ) (h1 : 0 < r1) (h12 : r1 ≤ r2) (h2 : r2 ≤ 1) : r1 ^ 5 * exp (-(1.25 * r1 ^ 4)) ≤ r2 ^ 5 * exp (-(1.25 * r2 ^ 4)) := by
  have hr2 : 0 < r2 := by linarith
  have h := pow5_le (r1 / r2) (by positivity)
  have hx4 : (r1 / r2) ^ 4 ≤ 1 := pow_le_one₀ (by positivity) ((div_le_one hr2).mpr h12)
  have hr4 : r2 ^ 4 ≤ 1 := pow_le_one₀ hr2.le h2
  have e : 1.25 * ((r1 / r2) ^ 4 - 1) ≤ 1.25 * r1 ^ 4 - 1.25 * r2 ^ 4 := by
    have : r1 ^ 4 = (r1 / r2) ^ 4 * r2 ^ 4 := by field_simp
    rw [this]
    nlinarith
  have h' := h.trans (exp_le_exp.mpr e)
  rw [sub_eq_add_neg, exp_add] at h'
  have e5 : r1 ^ 5 = (r1 / r2) ^ 5 * r2 ^ 5 := by field_simp
  have hE := exp_pos (1.25 * r1 ^ 4)
  calc r1 ^ 5 * exp (-(1.25 * r1 ^ 4)) = (r1 / r2) ^ 5 * r2 ^ 5 * exp (-(1.25 * r1 ^ 4)) := by rw [← e5]
    _ ≤ exp (1.25 * r1 ^ 4) * exp (-(1.25 * r2 ^ 4)) * r2 ^ 5 * exp (-(1.25 * r1 ^ 4)) := by gcongr
    _ = r2 ^ 5 * exp (-(1.25 * r2 ^ 4)) * (exp (1.25 * r1 ^ 4) * exp (-(1.25 * r1 ^ 4))) := by ring
    _ = _ := by rw [← exp_add]; simp

theorem high_level (wp : ℝ) (h : 4.5 ≤ wp) (h' : wp < 10) : 360 ≤ wp ^ 4 * exp (-(1.25 * (wp / 10) ^ 4)) := by
  have hw : 0 < wp := by linarith
  obtain ⟨y, hy⟩ : ∃ y, y = wp ^ 4 := ⟨_, rfl⟩
  have y0 : 410 ≤ y := by
    rw [hy]
    calc (410 : ℝ) ≤ 4.5 ^ 4 := by norm_num
      _ ≤ wp ^ 4 := pow_le_pow_left₀ (by norm_num) h 4
  have y1 : y ≤ 10000 := by
    rw [hy]
    calc wp ^ 4 ≤ 10 ^ 4 := pow_le_pow_left₀ hw.le h'.le 4
      _ = 10000 := by norm_num
  have e : 1.25 * (wp / 10) ^ 4 = 1.25 * (y / 10000) := by rw [hy, div_pow]; norm_num
  rw [e, ← hy]
  have hexp := add_one_le_exp (-(1.25 * (y / 10000)))
  rcases le_total y 900 with h1 | h1
  · nlinarith
  rcases le_total y 4000 with h2 | h2
  · nlinarith
  · have h3 : exp (-(1.25 : ℝ)) ≤ exp (-(1.25 * (y / 10000))) := by
      rw [exp_le_exp]; linarith
    have h4 : (0.25 : ℝ) ≤ exp (-1.25) := by
      have q := add_one_le_exp (-(0.625 : ℝ))
      have : exp (-1.25 : ℝ) = exp (-0.625) * exp (-0.625) := by rw [← exp_add]; norm_num
      have q1 := add_one_le_exp (-(0.3125 : ℝ))
      have e2 : exp (-0.625 : ℝ) = exp (-0.3125) * exp (-0.3125) := by rw [← exp_add]; norm_num
      have q2 := add_one_le_exp (-(0.15625 : ℝ))
      have e3 : exp (-0.3125 : ℝ) = exp (-0.15625) * exp (-0.15625) := by rw [← exp_add]; norm_num
      have r3 : (0.711 : ℝ) ≤ exp (-0.3125) := by rw [e3]; nlinarith
      have r2 : (0.505 : ℝ) ≤ exp (-0.625) := by rw [e2]; nlinarith
      rw [this]; nlinarith
    nlinarith [exp_pos (-(1.25 * (y / 10000)))]

/-- **C44, short waves (defect).** Every JONSWAP sea state of peak frequency from 4.5 to 10 rad/s (peak period from 0.63 to 1.4 s: model scale) and peakedness up to
the default 3.3 is refused: the density is still above one percent of the variance at 10 rad/s, where the search stops. -/
theorem C44_short_waves_throw (hs wp γ : ℝ) (hs0 : 0.01 ≤ hs) (hwp : 4.5 ≤ wp) (hwp' : wp < 10) (h1 : 1 ≤ γ) (h33 : γ ≤ 3.3) :
    getFrequencyBandwidth (jonswap hs wp γ) hs wp = .throws := by
  have hw0 : 0 < wp := by linarith
  refine bandwidth_throws _ hs wp (by norm_num at hwp ⊢; linarith) hwp' (fun w hw hw' => ?_)
  have hw'' : 0 < w := by linarith
  have hlog : log γ ≤ 1.2 := by
    refine (log_le_log (by linarith) h33).trans ?_
    rw [log_le_iff_le_exp (by norm_num)]
    have := sum_le_exp_of_nonneg (show (0:ℝ) ≤ 1.2 by norm_num) 6
    norm_num [Finset.sum_range_succ, Nat.factorial] at this ⊢
    linarith
  rw [jonswap_high hs wp γ w hw0 (by linarith) hw.le]
  unfold density shapeG
  obtain ⟨p, -⟩ := peak_le h1 (by linarith) (1 / (0.09 * 0.09)) (w / wp) (by norm_num)
  have g := shape_ge (wp / 10) (wp / w) (by positivity) (by gcongr) ((div_le_one hw'').mpr hw.le)
  have e4 : 1.25 / (w / wp) ^ 4 = 1.25 * (wp / w) ^ 4 := by field_simp
  have e5 : ((w / wp) ^ 5)⁻¹ = (wp / w) ^ 5 := by rw [← inv_pow, inv_div]
  rw [e4, e5]
  have L := high_level wp hwp hwp'
  have hh : 0.0001 ≤ hs ^ 2 := by nlinarith
  have hc : 0.65 ≤ 1 - 0.287 * log γ := by linarith
  have hE := exp_pos (-(1.25 * (wp / 10) ^ 4))
  have g2 : 360 * 1e-5 * wp ≤ (wp / 10) ^ 5 * exp (-(1.25 * (wp / 10) ^ 4)) := by
    calc 360 * 1e-5 * wp ≤ wp ^ 4 * exp (-(1.25 * (wp / 10) ^ 4)) * 1e-5 * wp := by gcongr
      _ = (wp / 10) ^ 5 * exp (-(1.25 * (wp / 10) ^ 4)) := by ring
  calc hs ^ 2 / 16 * 0.01 + 1e-10 ≤ 0.3125 * 0.65 * hs ^ 2 / wp * (360 * 1e-5 * wp * 1) := by
        have : 0.3125 * 0.65 * hs ^ 2 / wp * (360 * 1e-5 * wp * 1) = 0.3125 * 0.65 * hs ^ 2 * (360 * 1e-5) := by field_simp
        rw [this]
        norm_num at hh ⊢
        linarith
    _ ≤ 0.3125 * (1 - 0.287 * log γ) * hs ^ 2 / wp * ((wp / w) ^ 5 * exp (-(1.25 * (wp / w) ^ 4)) * exp (log γ * exp (-(1 / (0.09 * 0.09) * (w / wp - 1) ^ 2 / 2)))) := by
        have := g2.trans g
        have c0 : 0 ≤ 1 - 0.287 * log γ := by linarith
        gcongr

/-- A storm of the North Sea, and waves of a towing tank. -/
example : (∃ a b, getFrequencyBandwidth (jonswap 12 0.45 3.3) 12 0.45 = .returns (a, b)) ∧ getFrequencyBandwidth (jonswap 0.1 6 3.3) 0.1 6 = .throws := by
  obtain ⟨a, b, h, -⟩ := C44_jonswap_bandwidth 12 0.45 3.3 (by norm_num) (by norm_num) (by norm_num) (by norm_num) (by norm_num) (by norm_num)
  exact ⟨⟨a, b, h⟩, C44_short_waves_throw 0.1 6 3.3 (by norm_num) (by norm_num) (by norm_num) (by norm_num) (by norm_num)⟩

end Frydom.Waves
