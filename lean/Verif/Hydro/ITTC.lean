import Verif.Core.Force
import Verif.Core.Node
import Mathlib.Analysis.SpecialFunctions.Log.Base
import Mathlib.Analysis.SpecialFunctions.Pow.Real
import Mathlib.Analysis.Complex.ExponentialBounds

/-!
# ITTC resistance (C102, C103)

`src/frydom/hydrodynamics/wave_resistance/FrITTCResistance.cpp`, `FrITTCResistance.h`; `src/frydom/environment/ocean/FrOcean.cpp`.
-/

open Classical

noncomputable section

namespace Frydom.Hydro.ITTC
open Frydom.Geom Frydom.Core

/-! ## Model -/

/-- `FrITTCResistance` (FrITTCResistance.h:32-38; constructor FrITTCResistance.cpp:59-75). -/
structure Hull where
  lpp : ℝ
  wet : ℝ
  k : ℝ
  cr : ℝ
  ca : ℝ
  caa : ℝ
  capp : ℝ

/-- What the ocean answers: density and kinematic viscosity (`FrOcean.cpp`, from the fluid properties). -/
structure Water where
  rho : ℝ
  nu : ℝ

/-- `FrOcean::GetReynoldsNumberInWater` (FrOcean.cpp:63-65). -/
def reynolds (W : Water) (length velocity : ℝ) : ℝ := |velocity| * length / W.nu

/-- The friction coefficient (FrITTCResistance.cpp:36), for a Reynolds number that is not negative. With a number 0 the logarithm is minus infinity and the quotient is 0 in IEEE
arithmetic; `none` is the division by zero at `log10(Re) = 2` (infinity). -/
def cf (re : ℝ) : Option ℝ :=
  if re = 0 then some 0 else if Real.logb 10 re = 2 then none else some (0.075 / (Real.logb 10 re - 2) ^ 2)

/-- The resistance for the longitudinal speed `u` (FrITTCResistance.cpp:33-42). -/
def resistance (W : Water) (h : Hull) (u : ℝ) : Option ℝ :=
  (cf (reynolds W h.lpp u)).map fun c =>
    -0.5 * W.rho * h.wet * ((1 + h.k) * c + h.cr + h.ca + h.caa + h.capp) * u * |u|

/-- `Compute` (FrITTCResistance.cpp:23-45). -/
def compute (W : Water) (h : Hull) (b : Body) (f : Force) : Option Force :=
  (resistance W h (b.cogVelBody .NWU).x).map fun r => f.setForceInBody b ⟨r, 0, 0⟩ .NWU

/-- `SetRoughnessFromLength` (FrITTCResistance.cpp:47-49). -/
def setRoughnessFromLength (h : Hull) (lwl ks : ℝ) : Hull := { h with ca := (105 * (ks / lwl) ^ (1 / 3 : ℝ) - 0.64) * 0.001 }

/-- `SetAirResistanceFromArea` (FrITTCResistance.cpp:51-53). -/
def setAirResistanceFromArea (h : Hull) (area : ℝ) : Hull := { h with caa := area / (1000 * h.wet) }

/-! ## Specification -/

/-- The friction line ITTC-57. -/
def ittc57 (re : ℝ) : ℝ := 0.075 / (Real.logb 10 re - 2) ^ 2

/-- Dimensions and coefficients with a meaning. -/
structure Physical (W : Water) (h : Hull) : Prop where
  rho : 0 < W.rho
  nu : 0 < W.nu
  lpp : 0 < h.lpp
  wet : 0 < h.wet
  k : 0 ≤ h.k
  rest : 0 ≤ h.cr + h.ca + h.caa + h.capp

/-! ## C102 -/

theorem reynolds_pos {W : Water} {h : Hull} (hp : Physical W h) {u : ℝ} (hu : u ≠ 0) : 0 < reynolds W h.lpp u :=
  div_pos (mul_pos (abs_pos.mpr hu) hp.lpp) hp.nu

theorem logb_eq_two {re : ℝ} (h : 0 < re) : Real.logb 10 re = 2 ↔ re = 100 := by
  rw [Real.logb_eq_iff_rpow_eq (by norm_num) (by norm_num) h]
  constructor
  · intro e; rw [← e]; norm_num
  · intro e; rw [e]; norm_num

/-- **C102, value.** At a speed not zero whose Reynolds number is not 100, the resistance is ½ ρ S Ct u² against the motion, with Ct = (1 + k) Cf + Cr + Ca + Caa + Capp and Cf the ITTC-57 line;
at rest it is zero; it is the same going backwards. -/
theorem C102_value (W : Water) (h : Hull) (hp : Physical W h) (u : ℝ) :
    (u ≠ 0 → |u| * h.lpp / W.nu ≠ 100 → resistance W h u =
      some (-(1 / 2 * W.rho * h.wet * ((1 + h.k) * ittc57 (|u| * h.lpp / W.nu) + (h.cr + h.ca + h.caa + h.capp)) * u * |u|))) ∧
    resistance W h 0 = some 0 ∧
    resistance W h (-u) = (resistance W h u).map (fun r => -r) := by
  refine ⟨fun hu h100 => ?_, ?_, ?_⟩
  · have hr := reynolds_pos hp hu
    have h2 : Real.logb 10 (reynolds W h.lpp u) ≠ 2 := fun e => h100 ((logb_eq_two hr).mp e)
    unfold resistance cf
    rw [if_neg hr.ne', if_neg h2]
    show some _ = some _
    congr 1
    unfold ittc57 reynolds
    ring
  · unfold resistance cf reynolds
    rw [if_pos (by simp)]
    show some _ = some _
    congr 1; ring
  · unfold resistance reynolds
    rw [abs_neg, Option.map_map]
    congr 1
    funext c
    simp only [Function.comp]
    ring

/-- **C102, load.** The load is that force along the longitudinal axis of the body at its centre of gravity, without couple (the torque of the force is never written, and is zero when the force is
built): whatever the body has done before. -/
theorem C102_load (W : Water) (h : Hull) (b : Body) (f f' : Force) (ht : f.torque = 0) (hc : compute W h b f = some f') :
    ∃ r, resistance W h (b.cogVelBody .NWU).x = some r ∧ f'.torque = 0 ∧
      IsLoad f' b .NWU (b.toWorld ⟨r, 0, 0⟩ .NWU) 0 (b.cogPositionInWorld .NWU) := by
  unfold compute at hc
  obtain ⟨r, hr, rfl⟩ := Option.map_eq_some_iff.mp hc
  refine ⟨r, hr, ht, ?_⟩
  have h2 := (C52_cog_force_keeps_torque f b (b.toWorld ⟨r, 0, 0⟩ .NWU) .NWU).2
  have e : f.getTorqueInWorldAtCOG b .NWU = 0 := by
    show b.cog.rot.rotate f.torque = 0
    rw [ht, rotate_zero]
  rw [e] at h2
  exact h2

/-- **C102, dissipation.** The resistance never pushes the ship: its power is not positive, and negative when she moves with a resistance coefficient that is not zero. -/
theorem C102_dissipates (W : Water) (h : Hull) (hp : Physical W h) (u r : ℝ) (hr : resistance W h u = some r) :
    r * u ≤ 0 ∧ (u ≠ 0 → r * u < 0) := by
  have key : ∀ c, 0 ≤ c → (-0.5 * W.rho * h.wet * ((1 + h.k) * c + h.cr + h.ca + h.caa + h.capp) * u * |u|) * u ≤ 0 := by
    intro c hc
    have h1 : 0 ≤ (1 + h.k) * c + (h.cr + h.ca + h.caa + h.capp) := add_nonneg (mul_nonneg (by linarith [hp.k]) hc) hp.rest
    have h2 : 0 ≤ W.rho * h.wet * ((1 + h.k) * c + (h.cr + h.ca + h.caa + h.capp)) * (u * u * |u|) :=
      mul_nonneg (mul_nonneg (mul_nonneg hp.rho.le hp.wet.le) h1) (mul_nonneg (mul_self_nonneg u) (abs_nonneg u))
    have e : (-0.5 * W.rho * h.wet * ((1 + h.k) * c + h.cr + h.ca + h.caa + h.capp) * u * |u|) * u =
        -(1 / 2) * (W.rho * h.wet * ((1 + h.k) * c + (h.cr + h.ca + h.caa + h.capp)) * (u * u * |u|)) := by ring
    rw [e]; linarith
  have key2 : ∀ c, 0 < c → u ≠ 0 → (-0.5 * W.rho * h.wet * ((1 + h.k) * c + h.cr + h.ca + h.caa + h.capp) * u * |u|) * u < 0 := by
    intro c hc hu
    have h1 : 0 < (1 + h.k) * c + (h.cr + h.ca + h.caa + h.capp) := add_pos_of_pos_of_nonneg (mul_pos (by linarith [hp.k]) hc) hp.rest
    have h2 : 0 < W.rho * h.wet * ((1 + h.k) * c + (h.cr + h.ca + h.caa + h.capp)) * (u * u * |u|) :=
      mul_pos (mul_pos (mul_pos hp.rho hp.wet) h1) (mul_pos (mul_self_pos.mpr hu) (abs_pos.mpr hu))
    have e : (-0.5 * W.rho * h.wet * ((1 + h.k) * c + h.cr + h.ca + h.caa + h.capp) * u * |u|) * u =
        -(1 / 2) * (W.rho * h.wet * ((1 + h.k) * c + (h.cr + h.ca + h.caa + h.capp)) * (u * u * |u|)) := by ring
    rw [e]; linarith
  unfold resistance at hr
  obtain ⟨c, hc, rfl⟩ := Option.map_eq_some_iff.mp hr
  have hc0 : 0 ≤ c ∧ (u ≠ 0 → 0 < c) := by
    unfold cf at hc
    by_cases h0 : reynolds W h.lpp u = 0
    · rw [if_pos h0] at hc
      rw [← Option.some.inj hc]
      exact ⟨le_rfl, fun hu => absurd h0 (reynolds_pos hp hu).ne'⟩
    · rw [if_neg h0] at hc
      by_cases h2 : Real.logb 10 (reynolds W h.lpp u) = 2
      · rw [if_pos h2] at hc; cases hc
      · rw [if_neg h2] at hc
        rw [← Option.some.inj hc]
        have : 0 < (Real.logb 10 (reynolds W h.lpp u) - 2) ^ 2 := by
          have := sub_ne_zero.mpr h2; positivity
        exact ⟨by positivity, fun _ => by positivity⟩
  exact ⟨key c hc0.1, fun hu => key2 c (hc0.2 hu) hu⟩

/-- The dimensionless function behind the friction: `e^x / x` increases from 1 on. -/
theorem exp_div_mono {a b : ℝ} (ha : 1 ≤ a) (hab : a < b) : Real.exp a / a < Real.exp b / b := by
  have ha0 : 0 < a := by linarith
  have hb0 : 0 < b := by linarith
  rw [div_lt_div_iff₀ ha0 hb0]
  have h1 : b - a + 1 < Real.exp (b - a) := Real.add_one_lt_exp (by linarith)
  have h2 : Real.exp b = Real.exp a * Real.exp (b - a) := by rw [← Real.exp_add]; congr 1; ring
  rw [h2, mul_assoc]
  refine mul_lt_mul_of_pos_left ?_ (Real.exp_pos a)
  nlinarith

theorem friction_form {W : Water} {h : Hull} (hp : Physical W h) {u : ℝ} (hu : 0 < u) (h100 : u * h.lpp / W.nu ≠ 100) :
    ittc57 (u * h.lpp / W.nu) * u * u =
      0.075 * (Real.log 10) ^ 2 * (100 * W.nu / h.lpp) ^ 2 * (Real.exp (Real.log (u * h.lpp / W.nu / 100)) / Real.log (u * h.lpp / W.nu / 100)) ^ 2 := by
  have hre : 0 < u * h.lpp / W.nu := div_pos (mul_pos hu hp.lpp) hp.nu
  have hL : Real.log (u * h.lpp / W.nu / 100) ≠ 0 := by
    refine Real.log_ne_zero_of_pos_of_ne_one (by positivity) ?_
    intro e
    exact h100 (by rw [div_eq_one_iff_eq (by norm_num)] at e; exact e)
  have h10 : Real.log 10 ≠ 0 := (Real.log_pos (by norm_num)).ne'
  have e1 : Real.logb 10 (u * h.lpp / W.nu) - 2 = Real.log (u * h.lpp / W.nu / 100) / Real.log 10 := by
    rw [Real.log_div hre.ne' (by norm_num), show (100 : ℝ) = 10 ^ 2 by norm_num, Real.log_pow]
    unfold Real.logb
    field_simp
    push_cast; ring
  have hl := hp.lpp.ne'
  have hn := hp.nu.ne'
  unfold ittc57
  rw [e1, Real.exp_log (by positivity)]
  generalize Real.log (u * h.lpp / W.nu / 100) = L at *
  field_simp

/-- **C102, monotone.** From the Reynolds number 100 e on (for a ship of 100 m in water: some micrometres per second), a faster ship has a larger resistance. -/
theorem C102_monotone (W : Water) (h : Hull) (hp : Physical W h) (u v : ℝ) (hu : 100 * Real.exp 1 ≤ u * h.lpp / W.nu) (huv : u < v) :
    ∃ r s, resistance W h u = some r ∧ resistance W h v = some s ∧ s < r ∧ r < 0 := by
  have hk : 0 < h.lpp / W.nu := div_pos hp.lpp hp.nu
  have he : 1 < Real.exp 1 := Real.one_lt_exp_iff.mpr one_pos
  have hu0 : 0 < u := by
    by_contra hc
    have : u * h.lpp / W.nu ≤ 0 := by rw [mul_div_assoc]; exact mul_nonpos_of_nonpos_of_nonneg (not_lt.mp hc) hk.le
    linarith
  have hv0 : 0 < v := hu0.trans huv
  have huv' : u * h.lpp / W.nu < v * h.lpp / W.nu := by
    rw [mul_div_assoc, mul_div_assoc]; exact mul_lt_mul_of_pos_right huv hk
  have hu100 : u * h.lpp / W.nu ≠ 100 := by intro e; rw [e] at hu; linarith
  have hv100 : v * h.lpp / W.nu ≠ 100 := by intro e; rw [e] at huv'; linarith
  have eu := (C102_value W h hp u).1 hu0.ne' (by rw [abs_of_pos hu0]; exact hu100)
  have ev := (C102_value W h hp v).1 hv0.ne' (by rw [abs_of_pos hv0]; exact hv100)
  have hd := (C102_dissipates W h hp u _ eu).2 hu0.ne'
  refine ⟨_, _, eu, ev, ?_, ?_⟩
  · rw [abs_of_pos hu0, abs_of_pos hv0]
    have f1 := friction_form hp hu0 hu100
    have f2 := friction_form hp hv0 hv100
    have l1 : 1 ≤ Real.log (u * h.lpp / W.nu / 100) := by
      have hre : 0 < u * h.lpp / W.nu := div_pos (mul_pos hu0 hp.lpp) hp.nu
      rw [Real.le_log_iff_exp_le (by positivity), le_div_iff₀ (by norm_num)]; linarith
    have l2 : Real.log (u * h.lpp / W.nu / 100) < Real.log (v * h.lpp / W.nu / 100) := by
      have hre : 0 < u * h.lpp / W.nu := div_pos (mul_pos hu0 hp.lpp) hp.nu
      refine Real.log_lt_log (by positivity) ?_
      exact div_lt_div_of_pos_right huv' (by norm_num)
    have m := exp_div_mono l1 l2
    have p1 : 0 < Real.exp (Real.log (u * h.lpp / W.nu / 100)) / Real.log (u * h.lpp / W.nu / 100) := div_pos (Real.exp_pos _) (by linarith)
    have m2 := pow_lt_pow_left₀ m p1.le (two_ne_zero)
    have hc : 0 < 0.075 * (Real.log 10) ^ 2 * (100 * W.nu / h.lpp) ^ 2 := by
      have := Real.log_pos (show (1 : ℝ) < 10 by norm_num)
      have h1 := hp.nu
      have h2 := hp.lpp
      positivity
    have m3 : ittc57 (u * h.lpp / W.nu) * u * u < ittc57 (v * h.lpp / W.nu) * v * v := by
      rw [f1, f2]; exact mul_lt_mul_of_pos_left m2 hc
    generalize ittc57 (u * h.lpp / W.nu) = a at *
    generalize ittc57 (v * h.lpp / W.nu) = b at *
    have hr : 0 < W.rho * h.wet := mul_pos hp.rho hp.wet
    have h1k : 0 < 1 + h.k := by linarith [hp.k]
    have s1 : (1 + h.k) * (a * u * u) < (1 + h.k) * (b * v * v) := mul_lt_mul_of_pos_left m3 h1k
    have s2 : (h.cr + h.ca + h.caa + h.capp) * (u * u) ≤ (h.cr + h.ca + h.caa + h.capp) * (v * v) :=
      mul_le_mul_of_nonneg_left (by nlinarith) hp.rest
    have s3 := mul_lt_mul_of_pos_left (add_lt_add_of_lt_of_le s1 s2) hr
    nlinarith
  · by_contra hc
    exact absurd hd (not_lt.mpr (mul_nonneg (not_lt.mp hc) hu0.le))

/-- Non-vacuity of C102: a ship of 100 m at 5 m/s. -/
example : Physical ⟨1026, 1e-6⟩ ⟨100, 2000, 0.2, 0.001, 0.0003, 0, 0⟩ ∧ 100 * Real.exp 1 ≤ 5 * (100 : ℝ) / 1e-6 := by
  refine ⟨⟨by norm_num, by norm_num, by norm_num, by norm_num, by norm_num, by norm_num⟩, ?_⟩
  have := Real.exp_one_lt_d9
  norm_num at *
  linarith

/-- **C102, setters.** The roughness and the air resistance set from lengths and areas are the ITTC-78 values, and leave the other coefficients alone. -/
theorem C102_setters (h : Hull) (lwl ks area : ℝ) (hl : 0 < lwl) (hks : 0 < ks) :
    (∃ c, c ^ 3 = ks / lwl ∧ 0 < c ∧ (setRoughnessFromLength h lwl ks).ca = (105 * c - 0.64) / 1000) ∧
    (setAirResistanceFromArea h area).caa * (1000 * h.wet) = (if h.wet = 0 then 0 else area) ∧
    { setRoughnessFromLength h lwl ks with ca := h.ca } = h ∧ { setAirResistanceFromArea h area with caa := h.caa } = h := by
  refine ⟨⟨(ks / lwl) ^ (1 / 3 : ℝ), ?_, Real.rpow_pos_of_pos (div_pos hks hl) _, ?_⟩, ?_, rfl, rfl⟩
  · rw [← Real.rpow_natCast, ← Real.rpow_mul (div_pos hks hl).le]; norm_num
  · show (105 * (ks / lwl) ^ (1 / 3 : ℝ) - 0.64) * 0.001 = _
    norm_num; ring
  · show area / (1000 * h.wet) * (1000 * h.wet) = _
    by_cases h0 : h.wet = 0
    · rw [if_pos h0, h0]; simp
    · rw [if_neg h0, div_mul_cancel₀]; exact mul_ne_zero (by norm_num) h0

/-! ## C103 -/

/-- **C103, low speeds (defect).** The friction line is used down to rest, across its pole at Re = 100: a ship starting or stopping passes through speeds, all under `101 ν / Lpp`, where the
resistance is larger than any number, and through the one where it is infinite. -/
theorem C103_pole (W : Water) (h : Hull) (hp : Physical W h) (M : ℝ) :
    resistance W h (100 * W.nu / h.lpp) = none ∧
    ∃ u r, 0 < u ∧ u < 101 * W.nu / h.lpp ∧ resistance W h u = some r ∧ r < -M := by
  have hl := hp.lpp
  have hn := hp.nu
  refine ⟨?_, ?_⟩
  · have hpos : 0 < 100 * W.nu / h.lpp := by positivity
    have e : reynolds W h.lpp (100 * W.nu / h.lpp) = 100 := by
      unfold reynolds; rw [abs_of_pos hpos]; field_simp
    unfold resistance cf
    rw [e, if_neg (by norm_num), if_pos ((logb_eq_two (by norm_num)).mpr rfl)]
    rfl
  · -- with x = log(Re/100) small, the friction is at least K / x²
    have h10 := Real.log_pos (show (1 : ℝ) < 10 by norm_num)
    set K := 1 / 2 * W.rho * h.wet * (0.075 * (Real.log 10) ^ 2 * (100 * W.nu / h.lpp) ^ 2) with hK
    have hK0 : 0 < K := by
      have h1 := hp.rho
      have h2 := hp.wet
      positivity
    obtain ⟨x, hx0, hx1, hxM⟩ : ∃ x : ℝ, 0 < x ∧ x < 0.009 ∧ M < K / x ^ 2 := by
      refine ⟨min 0.001 (min 1 (K / (|M| + 1))), ?_, ?_, ?_⟩
      · have : 0 < K / (|M| + 1) := div_pos hK0 (by positivity)
        exact lt_min (by norm_num) (lt_min one_pos this)
      · exact (min_le_left _ _).trans_lt (by norm_num)
      · set x := min 0.001 (min 1 (K / (|M| + 1)))
        have hd : 0 < K / (|M| + 1) := div_pos hK0 (by positivity)
        have hx : 0 < x := lt_min (by norm_num) (lt_min one_pos hd)
        have h1 : x ≤ 1 := (min_le_right _ _).trans (min_le_left _ _)
        have h2 : x ≤ K / (|M| + 1) := (min_le_right _ _).trans (min_le_right _ _)
        have h3 : x * (|M| + 1) ≤ K := by rwa [le_div_iff₀ (by positivity)] at h2
        rw [lt_div_iff₀ (by positivity)]
        have h4 : M ≤ |M| := le_abs_self M
        have h5 : M * x ^ 2 ≤ |M| * x ^ 2 := mul_le_mul_of_nonneg_right h4 (by positivity)
        have h6 : |M| * x ^ 2 ≤ |M| * x := by
          refine mul_le_mul_of_nonneg_left ?_ (abs_nonneg M)
          nlinarith
        nlinarith
    refine ⟨100 * W.nu / h.lpp * Real.exp x, ?_⟩
    have hu : 0 < 100 * W.nu / h.lpp * Real.exp x := by have := Real.exp_pos x; positivity
    have hre : 100 * W.nu / h.lpp * Real.exp x * h.lpp / W.nu = 100 * Real.exp x := by field_simp
    have hne : 100 * W.nu / h.lpp * Real.exp x * h.lpp / W.nu ≠ 100 := by
      rw [hre]
      have : 1 < Real.exp x := Real.one_lt_exp_iff.mpr hx0
      linarith
    have ev := (C102_value W h hp _).1 hu.ne' (by rw [abs_of_pos hu]; exact hne)
    refine ⟨_, hu, ?_, ev, ?_⟩
    · have hb : Real.exp x < 1.01 := by
        have h1 : Real.exp x ≤ 1 / (1 - x) := by
          rw [le_div_iff₀ (by linarith), ← le_div_iff₀' (Real.exp_pos x)]
          have h2 := Real.add_one_le_exp (-x)
          rw [Real.exp_neg] at h2
          rw [one_div]; linarith
        have h2 : 1 / (1 - x) < 1.01 := by rw [div_lt_iff₀ (by linarith)]; linarith
        linarith
      have : 101 * W.nu / h.lpp = 100 * W.nu / h.lpp * 1.01 := by ring
      rw [this]
      exact mul_lt_mul_of_pos_left hb (by positivity)
    · rw [abs_of_pos hu]
      have f := friction_form hp hu hne
      have eL : Real.log (100 * W.nu / h.lpp * Real.exp x * h.lpp / W.nu / 100) = x := by
        rw [hre, mul_div_assoc, mul_comm, div_mul_cancel₀ _ (by norm_num), Real.log_exp]
      rw [eL] at f
      generalize ittc57 (100 * W.nu / h.lpp * Real.exp x * h.lpp / W.nu) = c at *
      generalize hv : 100 * W.nu / h.lpp * Real.exp x = v at *
      have hf : K / x ^ 2 ≤ 1 / 2 * W.rho * h.wet * (c * v * v) := by
        rw [f, hK]
        have hg : 1 / x ^ 2 ≤ (Real.exp x / x) ^ 2 := by
          rw [div_pow]
          refine div_le_div_of_nonneg_right ?_ (by positivity)
          have : 1 ≤ Real.exp x := Real.one_le_exp hx0.le
          nlinarith
        have := mul_le_mul_of_nonneg_left hg hK0.le
        rw [hK] at this
        rw [div_eq_mul_one_div]
        linarith
      have hfr : 0 ≤ c * v * v := by
        by_contra hneg
        have h1 : 1 / 2 * W.rho * h.wet * (c * v * v) < 0 := by
          have : 0 < 1 / 2 * W.rho * h.wet := by have := hp.rho; have := hp.wet; positivity
          exact mul_neg_of_pos_of_neg this (not_le.mp hneg)
        have h2 : 0 < K / x ^ 2 := by positivity
        linarith
      have hrw : 0 < 1 / 2 * W.rho * h.wet := by have := hp.rho; have := hp.wet; positivity
      have s1 : 0 ≤ 1 / 2 * W.rho * h.wet * (h.k * (c * v * v)) := mul_nonneg hrw.le (mul_nonneg hp.k hfr)
      have s2 : 0 ≤ 1 / 2 * W.rho * h.wet * ((h.cr + h.ca + h.caa + h.capp) * (v * v)) :=
        mul_nonneg hrw.le (mul_nonneg hp.rest (mul_self_nonneg v))
      have e : 1 / 2 * W.rho * h.wet * ((1 + h.k) * c + (h.cr + h.ca + h.caa + h.capp)) * v * v =
          1 / 2 * W.rho * h.wet * (c * v * v) + 1 / 2 * W.rho * h.wet * (h.k * (c * v * v)) + 1 / 2 * W.rho * h.wet * ((h.cr + h.ca + h.caa + h.capp) * (v * v)) := by ring
      rw [e]; linarith

end Frydom.Hydro.ITTC
