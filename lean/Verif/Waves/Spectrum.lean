import Verif.Waves.Dispersion
import Mathlib.MeasureTheory.Integral.IntegralEqImproper
import Mathlib.Analysis.SpecialFunctions.Pow.Deriv
import Mathlib.Analysis.Real.Pi.Bounds
import Mathlib.Analysis.Complex.ExponentialBounds

/-!
# Wave spectra (C40) and wave amplitudes (C41)

`src/frydom/environment/ocean/freeSurface/waves/FrWaveSpectrum.cpp`.
-/

open Classical Filter Topology MeasureTheory Set

noncomputable section

namespace Frydom.Waves
open Real

/-- `FrJonswapWaveSpectrum::Eval(w)` (FrWaveSpectrum.cpp:340-365); `hs` = `m_significant_height`, `wp` = `m_peak_frequency`.
The intermediate `pow(w, -4)` is infinite at `w = 0` but only used when `w > 0`. -/
def jonswap (hs wp gamma w : ℝ) : ℝ :=
  if 0 < w then
    let wp2 := wp * wp
    let wp4 := wp2 * wp2
    let w4_1 := (w ^ 4)⁻¹
    let w5_1 := w4_1 / w
    let S_w := 0.3125 * (hs * hs) * wp4 * w5_1 * exp (-1.25 * wp4 * w4_1) * (1 - 0.287 * log gamma)
    let a := exp (-(w - wp) ^ 2 / (2 * wp2))
    let a := if w ≤ wp then a ^ (1 / (0.07 * 0.07 : ℝ)) else a ^ (1 / (0.09 * 0.09 : ℝ))
    S_w * gamma ^ a
  else 0

/-- `FrPiersonMoskowitzWaveSpectrum::Eval(w)` (FrWaveSpectrum.cpp:372-382), for `w > 0`. -/
def piersonMoskowitz (hs wp w : ℝ) : ℝ :=
  let Tz := (2 * π / wp) / 1.408
  let A := (2 * π / Tz) ^ 4 / (π * w ^ 4)
  0.25 * A * (hs * hs / w) * exp (-A)

/-! ## C40 -/

/-- `r⁵ ≤ exp(5/4 (r⁴ - 1))`. -/
theorem pow5_le (r : ℝ) (hr : 0 < r) : r ^ 5 ≤ exp (1.25 * (r ^ 4 - 1)) := by
  have h := add_one_le_exp (r ^ 4 - 1)
  have h4 : r ^ 4 ≤ exp (r ^ 4 - 1) := by linarith
  have h5 : (r ^ 5) ^ 4 ≤ exp (1.25 * (r ^ 4 - 1)) ^ 4 := by
    calc (r ^ 5) ^ 4 = (r ^ 4) ^ 5 := by ring
      _ ≤ exp (r ^ 4 - 1) ^ 5 := pow_le_pow_left₀ (by positivity) h4 5
      _ = exp (1.25 * (r ^ 4 - 1)) ^ 4 := by
        rw [← exp_nat_mul, ← exp_nat_mul]; congr 1; push_cast; ring
  exact le_of_pow_le_pow_left₀ (by norm_num) (exp_pos _).le h5

/-- Common shape of both spectra: `w⁻⁵ exp(-B w⁻⁴)` is largest at `w⁴ = 4B/5`. -/
theorem shape_le (B w ws : ℝ) (hw : 0 < w) (hs : 0 < ws) (hB : B = 1.25 * ws ^ 4) :
    (w ^ 5)⁻¹ * exp (-(B / w ^ 4)) ≤ (ws ^ 5)⁻¹ * exp (-(B / ws ^ 4)) := by
  have h := pow5_le (ws / w) (by positivity)
  have e1 : B / ws ^ 4 = 1.25 := by rw [hB]; field_simp
  have e2 : 1.25 * ((ws / w) ^ 4 - 1) = B / w ^ 4 - 1.25 := by rw [hB]; field_simp
  rw [e2, sub_eq_add_neg, exp_add] at h
  rw [e1]
  have e3 : (ws / w) ^ 5 = ws ^ 5 * (w ^ 5)⁻¹ := by field_simp
  rw [e3] at h
  have hE := exp_pos (B / w ^ 4)
  rw [exp_neg]
  have : (w ^ 5)⁻¹ ≤ (ws ^ 5)⁻¹ * (exp (B / w ^ 4) * exp (-1.25)) := by
    rw [inv_mul_eq_div, le_div_iff₀ (by positivity)]; linarith
  calc (w ^ 5)⁻¹ * (exp (B / w ^ 4))⁻¹ ≤ (ws ^ 5)⁻¹ * (exp (B / w ^ 4) * exp (-1.25)) * (exp (B / w ^ 4))⁻¹ := by gcongr
    _ = _ := by field_simp

theorem jonswap_pos_eq (hs wp gamma w : ℝ) (hw : 0 < w) (hwp : 0 < wp) : ∃ a : ℝ, 0 < a ∧ a ≤ 1 ∧ (w = wp → a = 1) ∧
    jonswap hs wp gamma w = 0.3125 * hs ^ 2 * wp ^ 4 * (1 - 0.287 * log gamma) *
      ((w ^ 5)⁻¹ * exp (-(1.25 * wp ^ 4 / w ^ 4))) * gamma ^ a := by
  set e := exp (-(w - wp) ^ 2 / (2 * (wp * wp))) with he
  have he0 : 0 < e := exp_pos _
  have he1 : e ≤ 1 := by
    rw [he, exp_le_one_iff]
    have : 0 ≤ (w - wp) ^ 2 / (2 * (wp * wp)) := by positivity
    rw [neg_div]; linarith
  refine ⟨if w ≤ wp then e ^ (1 / (0.07 * 0.07 : ℝ)) else e ^ (1 / (0.09 * 0.09 : ℝ)), ?_, ?_, ?_, ?_⟩
  · split_ifs <;> exact rpow_pos_of_pos he0 _
  · split_ifs <;> exact rpow_le_one he0.le he1 (by norm_num)
  · intro h
    rw [if_pos h.le, he, h]; simp
  · simp only [jonswap, if_pos hw, ← he]
    have e1 : (w ^ 4)⁻¹ / w = (w ^ 5)⁻¹ := by field_simp
    have e2 : -1.25 * (wp * wp * (wp * wp)) * (w ^ 4)⁻¹ = -(1.25 * wp ^ 4 / w ^ 4) := by field_simp
    rw [e1, e2]; ring

/-- **C40, JONSWAP.** For a peak frequency `wp > 0` and a peakedness factor `γ ≥ 1` not exceeding `exp(1/0.287)` (so for every
factor in the documented range [1, 10]), the JONSWAP density is nonnegative, zero for `w ≤ 0`, and largest exactly at the peak
frequency asked for. -/
theorem C40_jonswap (hs wp gamma : ℝ) (hwp : 0 < wp) (h1 : 1 ≤ gamma) (h2 : 0.287 * log gamma ≤ 1) :
    (∀ w, 0 ≤ jonswap hs wp gamma w) ∧ (∀ w, w ≤ 0 → jonswap hs wp gamma w = 0) ∧
    (∀ w, jonswap hs wp gamma w ≤ jonswap hs wp gamma wp) := by
  have hc : 0 ≤ 1 - 0.287 * log gamma := by linarith
  have hg : 0 < gamma := by linarith
  have nn : ∀ w, 0 ≤ jonswap hs wp gamma w := by
    intro w
    by_cases hw : 0 < w
    · obtain ⟨a, -, -, -, ha⟩ := jonswap_pos_eq hs wp gamma w hw hwp
      rw [ha]
      have := rpow_pos_of_pos hg a
      positivity
    · simp [jonswap, hw]
  refine ⟨nn, fun w hw => by simp [jonswap, not_lt.mpr hw], fun w => ?_⟩
  by_cases hw : 0 < w
  · obtain ⟨a, ha0, ha1, -, ha⟩ := jonswap_pos_eq hs wp gamma w hw hwp
    obtain ⟨b, -, -, hb, hb'⟩ := jonswap_pos_eq hs wp gamma wp hwp hwp
    rw [ha, hb', hb rfl]
    have hshape := shape_le (1.25 * wp ^ 4) w wp hw hwp rfl
    have hga : gamma ^ a ≤ gamma ^ (1:ℝ) := rpow_le_rpow_of_exponent_le h1 ha1
    have := rpow_pos_of_pos hg a
    gcongr
  · rw [show jonswap hs wp gamma w = 0 by simp [jonswap, hw]]; exact nn wp

/-- The documented range of `γ` meets the hypothesis: `0.287 log γ ≤ 1` for `γ ≤ 10`. -/
theorem gamma_range {gamma : ℝ} (h1 : 1 ≤ gamma) (h10 : gamma ≤ 10) : 0.287 * log gamma ≤ 1 := by
  have h : log gamma ≤ log 10 := log_le_log (by linarith) h10
  have h2 : log 10 ≤ 3 := by
    rw [log_le_iff_le_exp (by norm_num)]
    have := exp_one_gt_d9
    calc (10:ℝ) ≤ 2.7182818283 ^ 3 := by norm_num
      _ ≤ exp 1 ^ 3 := pow_le_pow_left₀ (by norm_num) this.le 3
      _ = exp 3 := by rw [← exp_nat_mul]; norm_num
  linarith

example : ∀ w, jonswap 3 0.7 3.3 w ≤ jonswap 3 0.7 3.3 0.7 :=
  (C40_jonswap 3 0.7 3.3 (by norm_num) (by norm_num) (gamma_range (by norm_num) (by norm_num))).2.2

/-- Integral of `4 B w⁻⁵ exp(-B w⁻⁴)` over the positive frequencies. -/
theorem integral_shape (B : ℝ) (hB : 0 < B) :
    IntegrableOn (fun w : ℝ => 4 * B * (w ^ 5)⁻¹ * exp (-(B / w ^ 4))) (Ioi 0) ∧
    ∫ w in Ioi (0:ℝ), 4 * B * (w ^ 5)⁻¹ * exp (-(B / w ^ 4)) = 1 := by
  set F : ℝ → ℝ := fun w => if 0 < w then exp (-(B / w ^ 4)) else 0 with hF
  have hder : ∀ w ∈ Ioi (0:ℝ), HasDerivAt F (4 * B * (w ^ 5)⁻¹ * exp (-(B / w ^ 4))) w := by
    intro w hw
    have hw' : (0:ℝ) < w := hw
    have h1 : HasDerivAt (fun w : ℝ => -(B / w ^ 4)) (4 * B * (w ^ 5)⁻¹) w := by
      have h := ((hasDerivAt_const w B).div (hasDerivAt_pow 4 w) (by positivity)).neg
      refine h.congr_deriv ?_
      field_simp
      norm_num
      ring
    have h2 := h1.exp
    have h3 := h2.congr_of_eventuallyEq (f₁ := F) (by
      filter_upwards [Ioi_mem_nhds hw'] with y hy
      simp [hF, show 0 < y from hy])
    refine h3.congr_deriv ?_
    ring
  have hcont : ContinuousWithinAt F (Ici 0) 0 := by
    have hF0 : F 0 = 0 := by simp [hF]
    rw [ContinuousWithinAt, hF0]
    refine squeeze_zero' (g := fun w : ℝ => w ^ 4 / B) ?_ ?_ ?_
    · refine Eventually.of_forall fun w => ?_
      simp only [hF]; split_ifs
      · exact (exp_pos _).le
      · exact le_rfl
    · filter_upwards [self_mem_nhdsWithin] with w hw
      have hw' : (0:ℝ) ≤ w := hw
      simp only [hF]
      split_ifs with h
      · rw [exp_neg, inv_le_comm₀ (exp_pos _) (by positivity), inv_div]
        have := add_one_le_exp (B / w ^ 4)
        linarith
      · positivity
    · have : Continuous fun w : ℝ => w ^ 4 / B := by fun_prop
      have h := (this.tendsto 0).mono_left (nhdsWithin_le_nhds (s := Ici 0))
      simpa using h
  have hlim : Tendsto F atTop (𝓝 1) := by
    have h1 : Tendsto (fun w : ℝ => -(B / w ^ 4)) atTop (𝓝 0) := by
      have := (tendsto_const_nhds (x := B)).div_atTop (tendsto_pow_atTop (α := ℝ) (n := 4) (by norm_num))
      simpa using this.neg
    have h2 := (continuous_exp.tendsto 0).comp h1
    rw [exp_zero] at h2
    refine h2.congr' ?_
    filter_upwards [eventually_gt_atTop 0] with w hw
    simp [hF, hw]
  have hnn : ∀ w ∈ Ioi (0:ℝ), 0 ≤ 4 * B * (w ^ 5)⁻¹ * exp (-(B / w ^ 4)) := by
    intro w hw
    have hw' : (0:ℝ) < w := hw
    positivity
  have hF0 : F 0 = 0 := by simp [hF]
  refine ⟨integrableOn_Ioi_deriv_of_nonneg hcont hder hnn hlim, ?_⟩
  have := integral_Ioi_of_hasDerivAt_of_nonneg hcont hder hnn hlim
  rw [this, hF0, sub_zero]

/-- **C40, energy of Pierson–Moskowitz.** The spectrum is integrable over the positive frequencies and its area is the variance
`Hs²/16` of a sea of significant height `Hs`. -/
theorem C40_pm_energy (hs wp : ℝ) (hwp : 0 < wp) :
    IntegrableOn (piersonMoskowitz hs wp) (Ioi 0) ∧ ∫ w in Ioi (0:ℝ), piersonMoskowitz hs wp w = hs ^ 2 / 16 := by
  set B := (1.408 * wp) ^ 4 / π with hB
  have hB0 : 0 < B := by have := pi_pos; positivity
  obtain ⟨h1, h2⟩ := integral_shape B hB0
  have e : ∀ w ∈ Ioi (0:ℝ), piersonMoskowitz hs wp w = hs ^ 2 / 16 * (4 * B * (w ^ 5)⁻¹ * exp (-(B / w ^ 4))) := by
    intro w hw
    have hw' : (0:ℝ) < w := hw
    have hπ := pi_ne_zero
    have eA : (2 * π / (2 * π / wp / 1.408)) ^ 4 / (π * w ^ 4) = B / w ^ 4 := by
      rw [hB]; field_simp
    simp only [piersonMoskowitz, eA]
    field_simp
    norm_num
    ring
  constructor
  · exact (IntegrableOn.congr_fun (h1.const_mul (hs ^ 2 / 16)) (fun w hw => (e w hw).symm) measurableSet_Ioi)
  · rw [setIntegral_congr_fun measurableSet_Ioi e, integral_const_mul, h2, mul_one]

/-- **C40, energy of JONSWAP with `γ = 1`**: `Hs²/16` as well. -/
theorem C40_jonswap_energy (hs wp : ℝ) (hwp : 0 < wp) :
    IntegrableOn (jonswap hs wp 1) (Ioi 0) ∧ ∫ w in Ioi (0:ℝ), jonswap hs wp 1 w = hs ^ 2 / 16 := by
  have hB0 : 0 < 1.25 * wp ^ 4 := by positivity
  obtain ⟨h1, h2⟩ := integral_shape _ hB0
  have e : ∀ w ∈ Ioi (0:ℝ), jonswap hs wp 1 w =
      hs ^ 2 / 16 * (4 * (1.25 * wp ^ 4) * (w ^ 5)⁻¹ * exp (-(1.25 * wp ^ 4 / w ^ 4))) := by
    intro w hw
    obtain ⟨a, -, -, -, ha⟩ := jonswap_pos_eq hs wp 1 w hw hwp
    rw [ha, one_rpow, log_one]; ring
  constructor
  · exact (IntegrableOn.congr_fun (h1.const_mul (hs ^ 2 / 16)) (fun w hw => (e w hw).symm) measurableSet_Ioi)
  · rw [setIntegral_congr_fun measurableSet_Ioi e, integral_const_mul, h2, mul_one]

/-- **C40, Pierson–Moskowitz peak.** The density is nonnegative on the positive frequencies and largest at a frequency within 0.1 % of
the peak frequency asked for. -/
theorem C40_pm_peak (hs wp : ℝ) (hwp : 0 < wp) :
    (∀ w, 0 < w → 0 ≤ piersonMoskowitz hs wp w) ∧
    ∃ ws, |ws - wp| ≤ 0.001 * wp ∧ 0 < ws ∧ ∀ w, 0 < w → piersonMoskowitz hs wp w ≤ piersonMoskowitz hs wp ws := by
  set B := (1.408 * wp) ^ 4 / π with hB
  have hπ0 := pi_pos
  have hB0 : 0 < B := by positivity
  have e : ∀ w, 0 < w → piersonMoskowitz hs wp w = hs ^ 2 / 4 * B * ((w ^ 5)⁻¹ * exp (-(B / w ^ 4))) := by
    intro w hw'
    have hπ := pi_ne_zero
    have eA : (2 * π / (2 * π / wp / 1.408)) ^ 4 / (π * w ^ 4) = B / w ^ 4 := by
      rw [hB]; field_simp
    simp only [piersonMoskowitz, eA]
    field_simp
    norm_num
    ring
  refine ⟨fun w hw => by rw [e w hw]; positivity, ?_⟩
  -- c = ws / wp with c⁴ = 0.8 * 1.408⁴ / π
  set c := sqrt (sqrt (0.8 * 1.408 ^ 4 / π)) with hc
  have hc4 : c ^ 4 = 0.8 * 1.408 ^ 4 / π := by
    rw [show c ^ 4 = (c ^ 2) ^ 2 by ring, hc, sq_sqrt (sqrt_nonneg _), sq_sqrt (by positivity)]
  have hc0 : 0 < c := by
    rw [hc]; positivity
  have hlo : 0.999 ≤ c := by
    by_contra h
    have h' : c ^ 4 < 0.999 ^ 4 := pow_lt_pow_left₀ (not_le.mp h) hc0.le (by norm_num)
    rw [hc4, div_lt_iff₀ hπ0] at h'
    have := pi_lt_d4
    norm_num at h' this
    linarith
  have hhi : c ≤ 1.001 := by
    by_contra h
    have h' : (1.001:ℝ) ^ 4 < c ^ 4 := pow_lt_pow_left₀ (not_le.mp h) (by norm_num) (by norm_num)
    rw [hc4, lt_div_iff₀ hπ0] at h'
    have := pi_gt_d4
    norm_num at h' this
    linarith
  refine ⟨c * wp, ?_, by positivity, fun w hw => ?_⟩
  · rw [abs_le]; constructor <;> nlinarith
  · rw [e w hw, e (c * wp) (by positivity)]
    have := shape_le B w (c * wp) hw (by positivity) (by rw [mul_pow, hc4, hB]; field_simp; norm_num)
    gcongr

end Frydom.Waves
