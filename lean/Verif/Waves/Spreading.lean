import Verif.Waves.Spectrum
import Mathlib.Probability.Distributions.Beta
import Mathlib.MeasureTheory.Function.JacobianOneDim
import Mathlib.Analysis.SpecialFunctions.Gamma.BohrMollerup

/-!
# Directional spreading (C43) and bandwidth search (C44)

`src/frydom/environment/ocean/freeSurface/waves/FrWaveSpectrum.cpp`.
-/

open Classical Filter Topology MeasureTheory Set

noncomputable section

namespace Frydom.Waves
open Real

/-- `FrCos2sDirectionalModel::EvalCs` (FrWaveSpectrum.cpp:94-98). -/
def cos2sCs (s : ℝ) : ℝ :=
  let two_s := 2 * s
  (2:ℝ) ^ (two_s - 1) / π * Gamma (s + 1) ^ (2:ℝ) / Gamma (two_s + 1)

/-- `FrCos2sDirectionalModel::Eval` (FrWaveSpectrum.cpp:84-86). For `|θ - θ_mean| > π` the cosine is negative and `pow` is
meaningless for most exponents; the theorems stay within `π` of the mean direction. -/
def cos2sEval (s theta theta_mean : ℝ) : ℝ := cos2sCs s * cos (0.5 * (theta - theta_mean)) ^ (2 * s)

/-! ## Normalisation -/

theorem cs_eq (s : ℝ) (hs : 0 < s) : cos2sCs s = Gamma (s + 1) / (2 * √π * Gamma (s + 1 / 2)) := by
  have h := Real.Gamma_mul_Gamma_add_half (s + 1 / 2)
  have e1 : s + 1 / 2 + 1 / 2 = s + 1 := by ring
  have e2 : 2 * (s + 1 / 2) = 2 * s + 1 := by ring
  have e3 : (1:ℝ) - (2 * s + 1) = -(2 * s) := by ring
  rw [e1, e2, e3, rpow_neg (by norm_num)] at h
  have p1 : 0 < Gamma (s + 1) := Gamma_pos_of_pos (by linarith)
  have p2 : 0 < Gamma (s + 1 / 2) := Gamma_pos_of_pos (by linarith)
  have p3 : 0 < Gamma (2 * s + 1) := Gamma_pos_of_pos (by linarith)
  have p4 : (0:ℝ) < 2 ^ (2 * s) := rpow_pos_of_pos (by norm_num) _
  have hπ := pi_pos
  have hsq : √π * √π = π := mul_self_sqrt hπ.le
  have hsp : 0 < √π := sqrt_pos.mpr hπ
  unfold cos2sCs
  simp only
  rw [rpow_sub (by norm_num), rpow_one, rpow_two]
  have h2 : Gamma (2 * s + 1) * √π = Gamma (s + 1 / 2) * Gamma (s + 1) * 2 ^ (2 * s) := by
    rw [h]; field_simp
  rw [div_div, div_mul_eq_mul_div, div_div, div_eq_div_iff (by positivity) (by positivity)]
  calc (2:ℝ) ^ (2 * s) * Gamma (s + 1) ^ 2 * (2 * √π * Gamma (s + 1 / 2))
      = 2 * √π * Gamma (s + 1) * (Gamma (s + 1 / 2) * Gamma (s + 1) * 2 ^ (2 * s)) := by ring
    _ = 2 * √π * Gamma (s + 1) * (Gamma (2 * s + 1) * √π) := by rw [h2]
    _ = 2 * (√π * √π) * Gamma (s + 1) * Gamma (2 * s + 1) := by ring
    _ = _ := by rw [hsq]; ring

theorem beta_real (a b : ℝ) (ha : 0 < a) (hb : 0 < b) :
    ∫ x in Ioo (0:ℝ) 1, x ^ (a - 1) * (1 - x) ^ (b - 1) = Gamma a * Gamma b / Gamma (a + b) := by
  have h := ProbabilityTheory.beta_eq_betaIntegralReal a b ha hb
  rw [ProbabilityTheory.beta] at h
  rw [h, Complex.betaIntegral, intervalIntegral.integral_of_le zero_le_one, integral_Ioc_eq_integral_Ioo]
  have e : ∫ x in Ioo (0:ℝ) 1, (x:ℂ) ^ ((a:ℂ) - 1) * (1 - (x:ℂ)) ^ ((b:ℂ) - 1) =
      ∫ x in Ioo (0:ℝ) 1, ((x ^ (a - 1) * (1 - x) ^ (b - 1) : ℝ) : ℂ) := by
    refine setIntegral_congr_fun measurableSet_Ioo fun x hx => ?_
    push_cast
    rw [Complex.ofReal_cpow hx.1.le, Complex.ofReal_cpow (by linarith [hx.2])]
    push_cast
    rfl
  rw [e, integral_complex_ofReal, Complex.ofReal_re]

theorem integral_cos_rpow (s : ℝ) (hs : 0 < s) :
    ∫ u in Ioo (0:ℝ) (π / 2), cos u ^ (2 * s) = √π * Gamma (s + 1 / 2) / (2 * Gamma (s + 1)) := by
  have hb := beta_real (s + 1 / 2) (1 / 2) (by linarith) (by norm_num)
  rw [Real.Gamma_one_half_eq, show s + 1 / 2 + 1 / 2 = s + 1 by ring, show s + 1 / 2 - 1 = s - 1 / 2 by ring,
    show (1:ℝ) / 2 - 1 = -(1 / 2) by norm_num] at hb
  have hπ := pi_pos
  have himg : (fun u => cos u ^ 2) '' Ioo (0:ℝ) (π / 2) = Ioo 0 1 := by
    ext x
    constructor
    · rintro ⟨u, ⟨h1, h2⟩, rfl⟩
      have c0 : 0 < cos u := cos_pos_of_mem_Ioo ⟨by linarith, h2⟩
      have s0 : 0 < sin u := sin_pos_of_pos_of_lt_pi h1 (by linarith)
      have := sin_sq_add_cos_sq u
      exact ⟨by positivity, by simp only; nlinarith⟩
    · rintro ⟨h1, h2⟩
      refine ⟨arccos (√x), ⟨?_, ?_⟩, ?_⟩
      · exact arccos_pos.mpr (by rw [sqrt_lt' one_pos]; linarith)
      · exact arccos_lt_pi_div_two.mpr (sqrt_pos.mpr h1)
      · simp only
        rw [cos_arccos (by linarith [sqrt_nonneg x]) (by rw [sqrt_le_left zero_le_one]; linarith), sq_sqrt h1.le]
  have hinj : InjOn (fun u => cos u ^ 2) (Ioo (0:ℝ) (π / 2)) := by
    intro u hu v hv h
    have c1 : 0 < cos u := cos_pos_of_mem_Ioo ⟨by linarith [hu.1], hu.2⟩
    have c2 : 0 < cos v := cos_pos_of_mem_Ioo ⟨by linarith [hv.1], hv.2⟩
    have : cos u = cos v := by
      have := (sq_eq_sq₀ c1.le c2.le).mp h
      exact this
    exact injOn_cos ⟨hu.1.le, by linarith [hu.2]⟩ ⟨hv.1.le, by linarith [hv.2]⟩ this
  have hd : ∀ u ∈ Ioo (0:ℝ) (π / 2), HasDerivWithinAt (fun u => cos u ^ 2) (2 * cos u * -sin u) (Ioo 0 (π / 2)) u := by
    intro u _
    have := ((hasDerivAt_cos u).pow 2).hasDerivWithinAt (s := Ioo 0 (π / 2))
    refine this.congr_deriv ?_
    simp
  have key := integral_image_eq_integral_abs_deriv_smul measurableSet_Ioo hd hinj
    (fun x => x ^ (s - 1 / 2) * (1 - x) ^ (-(1 / 2 : ℝ)))
  rw [himg, hb] at key
  have e : ∫ u in Ioo (0:ℝ) (π / 2), |2 * cos u * -sin u| • ((cos u ^ 2) ^ (s - 1 / 2) * (1 - cos u ^ 2) ^ (-(1 / 2 : ℝ))) =
      ∫ u in Ioo (0:ℝ) (π / 2), 2 * cos u ^ (2 * s) := by
    refine setIntegral_congr_fun measurableSet_Ioo fun u hu => ?_
    have c0 : 0 < cos u := cos_pos_of_mem_Ioo ⟨by linarith [hu.1], hu.2⟩
    have s0 : 0 < sin u := sin_pos_of_pos_of_lt_pi hu.1 (by linarith [hu.2])
    have e1 : |2 * cos u * -sin u| = 2 * cos u * sin u := by
      rw [mul_neg, abs_neg, abs_of_pos (by positivity)]
    have e2 : 1 - cos u ^ 2 = sin u ^ 2 := by have := sin_sq_add_cos_sq u; linarith
    simp only [smul_eq_mul]
    rw [e1, e2, ← rpow_two, ← rpow_two, ← rpow_mul c0.le, ← rpow_mul s0.le,
      show (2:ℝ) * -(1 / 2) = -1 by norm_num, show 2 * (s - 1 / 2) = 2 * s - 1 by ring, rpow_neg_one, rpow_sub c0, rpow_one]
    field_simp
  rw [e, integral_const_mul] at key
  have p1 : 0 < Gamma (s + 1) := Gamma_pos_of_pos (by linarith)
  have : ∫ u in Ioo (0:ℝ) (π / 2), cos u ^ (2 * s) = Gamma (s + 1 / 2) * √π / Gamma (s + 1) / 2 := by
    rw [key]; ring
  rw [this]; field_simp

theorem continuous_cos_rpow (s : ℝ) (hs : 0 < s) : Continuous fun u => cos u ^ (2 * s) :=
  continuous_cos.rpow_const fun _ => Or.inr (by linarith)

/-- **C43.** The cos2s spreading function is a density: over the circle (`2π` wide, centred at the mean direction) it integrates to
one, for every positive spreading factor. -/
theorem C43_cos2s_normalised (s theta_mean : ℝ) (hs : 0 < s) :
    ∫ theta in (theta_mean - π)..(theta_mean + π), cos2sEval s theta theta_mean = 1 := by
  have hπ := pi_pos
  have hii : ∀ a b, IntervalIntegrable (fun u => cos u ^ (2 * s)) volume a b := fun a b =>
    (continuous_cos_rpow s hs).intervalIntegrable a b
  have e0 : ∀ theta, cos2sEval s theta theta_mean = cos2sCs s * (fun u => cos u ^ (2 * s)) (0.5 * theta - 0.5 * theta_mean) := by
    intro theta; simp only [cos2sEval]; rw [mul_sub]
  simp_rw [e0]
  rw [intervalIntegral.integral_const_mul, intervalIntegral.integral_comp_mul_sub (fun u => cos u ^ (2 * s)) (by norm_num : (0.5:ℝ) ≠ 0),
    show 0.5 * (theta_mean - π) - 0.5 * theta_mean = -(π / 2) by ring,
    show 0.5 * (theta_mean + π) - 0.5 * theta_mean = π / 2 by ring]
  rw [← intervalIntegral.integral_add_adjacent_intervals (hii _ 0) (hii 0 _)]
  have h1 : ∫ u in (-(π / 2))..0, cos u ^ (2 * s) = ∫ u in (0:ℝ)..(π / 2), cos u ^ (2 * s) := by
    have := intervalIntegral.integral_comp_neg (fun u => cos u ^ (2 * s)) (a := 0) (b := π / 2)
    simp only [cos_neg, neg_zero] at this
    exact this.symm
  have h2 : ∫ u in (0:ℝ)..(π / 2), cos u ^ (2 * s) = √π * Gamma (s + 1 / 2) / (2 * Gamma (s + 1)) := by
    rw [intervalIntegral.integral_of_le (by positivity), integral_Ioc_eq_integral_Ioo, integral_cos_rpow s hs]
  rw [h1, h2, cs_eq s hs]
  have p1 : 0 < Gamma (s + 1) := Gamma_pos_of_pos (by linarith)
  have p2 : 0 < Gamma (s + 1 / 2) := Gamma_pos_of_pos (by linarith)
  have hsp : 0 < √π := sqrt_pos.mpr hπ
  rw [smul_eq_mul]
  field_simp
  norm_num

theorem cs_pos (s : ℝ) (hs : 0 < s) : 0 < cos2sCs s := by
  rw [cs_eq s hs]
  have p1 : 0 < Gamma (s + 1) := Gamma_pos_of_pos (by linarith)
  have p2 : 0 < Gamma (s + 1 / 2) := Gamma_pos_of_pos (by linarith)
  have hsp : 0 < √π := sqrt_pos.mpr pi_pos
  positivity

theorem half_cos_nonneg {theta m : ℝ} (h : |theta - m| ≤ π) : 0 ≤ cos (0.5 * (theta - m)) := by
  rw [abs_le] at h
  apply cos_nonneg_of_mem_Icc
  constructor <;> norm_num <;> linarith [h.1, h.2]

/-- **C43.** Within half a turn of the mean direction the density is nonnegative, symmetric about the mean direction, largest there
and zero opposite to it. -/
theorem C43_cos2s_shape (s m : ℝ) (hs : 0 < s) :
    (∀ d, |d| ≤ π → 0 ≤ cos2sEval s (m + d) m) ∧ (∀ d, cos2sEval s (m + d) m = cos2sEval s (m - d) m) ∧
    (∀ d d', |d'| ≤ π → |d| ≤ |d'| → cos2sEval s (m + d') m ≤ cos2sEval s (m + d) m) ∧
    cos2sEval s (m - π) m = 0 := by
  have hcs := cs_pos s hs
  refine ⟨fun d hd => ?_, fun d => ?_, fun d d' hd' hdd => ?_, ?_⟩
  · exact mul_nonneg hcs.le (rpow_nonneg (half_cos_nonneg (by rwa [add_sub_cancel_left])) _)
  · unfold cos2sEval
    rw [show 0.5 * (m - d - m) = -(0.5 * (m + d - m)) by ring, cos_neg]
  · unfold cos2sEval
    rw [add_sub_cancel_left, add_sub_cancel_left]
    have h1 := half_cos_nonneg (theta := d') (m := 0) (by simpa using hd')
    rw [sub_zero] at h1
    have h2 : cos (0.5 * d') ≤ cos (0.5 * d) := by
      rw [← cos_abs (0.5 * d'), ← cos_abs (0.5 * d), abs_mul, abs_mul]
      apply cos_le_cos_of_nonneg_of_le_pi (by positivity)
      · rw [abs_of_pos (by norm_num)]; norm_num; linarith [pi_pos]
      · gcongr
    have := rpow_le_rpow h1 h2 (by linarith : 0 ≤ 2 * s)
    gcongr
  · unfold cos2sEval
    rw [show 0.5 * (m - π - m) = -(π / 2) by ring, cos_neg, cos_pi_div_two, zero_rpow (by linarith), mul_zero]

example : ∫ theta in (0.3 - π)..(0.3 + π), cos2sEval 10.5 theta 0.3 = 1 := C43_cos2s_normalised _ _ (by norm_num)

end Frydom.Waves
