import Verif.Mesh.IntegralsProps
import Mathlib.Analysis.Calculus.Deriv.Mul
import Mathlib.Analysis.Calculus.Deriv.Add

/-!
# The strip of hull along the waterline (lemmas for C183)

A triangle that is under (or above) the water and does not lie in its plane emerges (or is immersed), for a motion of size s, on a strip of width of order s, with a pressure of order s: the load is of order s².
-/

noncomputable section

namespace Frydom.Hydro
open Frydom.Geom Frydom.Mesh Frydom.Mesh.Surface Frydom.Mesh.Clip
open Filter Topology

theorem strip_cont (d m : ℝ) : Continuous fun x : ℝ => max (d - m * x) 0 := by fun_prop

/-- Integral of the depth of water along a strip. -/
theorem strip_le {d m : ℝ} (hd : 0 ≤ d) (hm : 0 < m) {L : ℝ} (hL : 0 ≤ L) : ∫ x in (0:ℝ)..L, max (d - m * x) 0 ≤ d * (d / m) := by
  have hdm : 0 ≤ d / m := by positivity
  have hi := fun a b => (strip_cont d m).intervalIntegrable (μ := MeasureTheory.volume) a b
  have key : ∀ {c : ℝ}, 0 ≤ c → ∫ x in (0:ℝ)..c, max (d - m * x) 0 ≤ d * c := by
    intro c hc
    have h := intervalIntegral.norm_integral_le_of_norm_le_const (f := fun x => max (d - m * x) 0) (C := d) (a := 0) (b := c) (by
      intro x hx
      rw [Set.uIoc_of_le hc] at hx
      have : 0 ≤ m * x := mul_nonneg hm.le hx.1.le
      rw [Real.norm_eq_abs, abs_of_nonneg (le_max_right _ _)]
      exact max_le (by linarith) hd)
    rw [sub_zero, abs_of_nonneg hc] at h
    exact (le_abs_self _).trans h
  rcases le_total L (d / m) with h | h
  · exact (key hL).trans (mul_le_mul_of_nonneg_left h hd)
  · rw [← intervalIntegral.integral_add_adjacent_intervals (hi 0 (d / m)) (hi (d / m) L)]
    have : ∫ x in (d / m)..L, max (d - m * x) 0 = 0 := by
      rw [intervalIntegral.integral_congr (g := fun _ => (0:ℝ))]
      · simp
      · intro x hx
        rw [Set.uIcc_of_le h] at hx
        have := (div_le_iff₀ hm).mp hx.1
        exact max_eq_right (by linarith)
    rw [this, add_zero]
    exact key hdm

theorem strip_le' {d m : ℝ} (hd : 0 ≤ d) (hm : 0 < m) {L : ℝ} (hL : 0 ≤ L) : ∫ x in (0:ℝ)..L, max (d - m * (L - x)) 0 ≤ d * (d / m) := by
  have := intervalIntegral.integral_comp_sub_left (fun x => max (d - m * x) 0) L (a := 0) (b := L)
  rw [this, sub_self, sub_zero]
  exact strip_le hd hm hL

/-- Affine function on the unit simplex, given at the corners. -/
def aff (a b c u v : ℝ) : ℝ := a + u * (b - a) + v * (c - a)

/-- Integral over the unit simplex of the positive part of one affine function times another. -/
def stripInt (a b c a' b' c' : ℝ) : ℝ := ∫ u in (0:ℝ)..1, ∫ v in (0:ℝ)..(1 - u), aff a' b' c' u v * max (aff a b c u v) 0

/-- If the function is at most `-m` at one corner and nowhere above `d` at the corners, the integral is of order d². -/
theorem stripInt_le {a b c a' b' c' d m W : ℝ} (hd : 0 ≤ d) (hm : 0 < m) (hW : 0 ≤ W)
    (hz : (a ≤ d - m ∧ b ≤ d ∧ c ≤ d) ∨ (a ≤ d ∧ b ≤ d - m ∧ c ≤ d) ∨ (a ≤ d ∧ b ≤ d ∧ c ≤ d - m))
    (h1 : |a'| ≤ W) (h2 : |b'| ≤ W) (h3 : |c'| ≤ W) : |stripInt a b c a' b' c'| ≤ W * (d * (d / m)) := by
  have hw : ∀ u v : ℝ, 0 ≤ u → 0 ≤ v → u + v ≤ 1 → |aff a' b' c' u v| ≤ W := by
    intro u v hu hv huv
    have e : aff a' b' c' u v = (1 - u - v) * a' + u * b' + v * c' := by unfold aff; ring
    rw [e, abs_le]
    rw [abs_le] at h1 h2 h3
    constructor <;> nlinarith
  have he : ∀ u v : ℝ, aff a b c u v = (1 - u - v) * a + u * b + v * c := fun u v => by unfold aff; ring
  have hpt : ∀ (u v t : ℝ), 0 ≤ u → 0 ≤ v → u + v ≤ 1 → aff a b c u v ≤ t → |aff a' b' c' u v * max (aff a b c u v) 0| ≤ W * max t 0 := by
    intro u v t hu hv huv ht
    rw [abs_mul, abs_of_nonneg (le_max_right (aff a b c u v) 0)]
    exact mul_le_mul (hw u v hu hv huv) (max_le_max_right _ ht) (le_max_right _ _) hW
  have hdm : 0 ≤ d * (d / m) := by positivity
  have outer : (∀ u ∈ Set.Ioc (0:ℝ) 1, |∫ v in (0:ℝ)..(1 - u), aff a' b' c' u v * max (aff a b c u v) 0| ≤ W * (d * (d / m))) →
      |stripInt a b c a' b' c'| ≤ W * (d * (d / m)) := by
    intro h
    have := intervalIntegral.norm_integral_le_of_norm_le_const (f := fun u => ∫ v in (0:ℝ)..(1 - u), aff a' b' c' u v * max (aff a b c u v) 0)
      (C := W * (d * (d / m))) (a := 0) (b := 1) (by
      intro x hx
      rw [Set.uIoc_of_le zero_le_one] at hx
      exact h x hx)
    simpa [stripInt] using this
  have inner : ∀ (u : ℝ), u ∈ Set.Ioc (0:ℝ) 1 → ∀ k : ℝ → ℝ, Continuous k → (∀ v, 0 < v → v ≤ 1 - u → aff a b c u v ≤ k v) →
      |∫ v in (0:ℝ)..(1 - u), aff a' b' c' u v * max (aff a b c u v) 0| ≤ W * ∫ v in (0:ℝ)..(1 - u), max (k v) 0 := by
    intro u hu k hk h
    have h0 : (0:ℝ) ≤ 1 - u := by linarith [hu.2]
    have := intervalIntegral.norm_integral_le_of_norm_le (f := fun v => aff a' b' c' u v * max (aff a b c u v) 0) (g := fun v => W * max (k v) 0)
      (a := 0) (b := 1 - u) (μ := MeasureTheory.volume) h0 (Eventually.of_forall fun v hv => hpt u v (k v) hu.1.le hv.1.le (by linarith [hv.2]) (h v hv.1 hv.2))
      (by apply Continuous.intervalIntegrable; fun_prop)
    rw [intervalIntegral.integral_const_mul] at this
    exact this
  rcases hz with ⟨ha, hb, hc⟩ | ⟨ha, hb, hc⟩ | ⟨ha, hb, hc⟩
  · refine outer fun u hu => (inner u hu (fun v => d - m * (1 - u - v)) (by fun_prop) fun v hv hv' => ?_).trans
      (mul_le_mul_of_nonneg_left (strip_le' hd hm (by linarith [hu.2])) hW)
    rw [he]
    have hu' := hu.1
    nlinarith
  · have h0 : ∀ u ∈ Set.Ioc (0:ℝ) 1, |∫ v in (0:ℝ)..(1 - u), aff a' b' c' u v * max (aff a b c u v) 0| ≤ W * max (d - m * u) 0 := by
      intro u hu
      have h := inner u hu (fun _ => d - m * u) (by fun_prop) (fun v hv hv' => by rw [he]; have hu' := hu.1; nlinarith)
      refine h.trans (mul_le_mul_of_nonneg_left ?_ hW)
      rw [intervalIntegral.integral_const, sub_zero, smul_eq_mul]
      have := le_max_right (d - m * u) 0
      have := hu.1
      nlinarith
    have := intervalIntegral.norm_integral_le_of_norm_le (f := fun u => ∫ v in (0:ℝ)..(1 - u), aff a' b' c' u v * max (aff a b c u v) 0)
      (g := fun u => W * max (d - m * u) 0) (a := 0) (b := 1) (μ := MeasureTheory.volume) zero_le_one (Eventually.of_forall h0)
      (by apply Continuous.intervalIntegrable; fun_prop)
    rw [intervalIntegral.integral_const_mul] at this
    exact this.trans (mul_le_mul_of_nonneg_left (strip_le hd hm zero_le_one) hW)
  · refine outer fun u hu => (inner u hu (fun v => d - m * v) (by fun_prop) fun v hv hv' => ?_).trans
      (mul_le_mul_of_nonneg_left (strip_le hd hm (by linarith [hu.2])) hW)
    rw [he]
    have hu' := hu.1
    nlinarith

/-- No strip. -/
theorem stripInt_zero {a b c a' b' c' : ℝ} (h1 : a ≤ 0) (h2 : b ≤ 0) (h3 : c ≤ 0) : stripInt a b c a' b' c' = 0 := by
  unfold stripInt
  rw [intervalIntegral.integral_congr (g := fun _ => (0:ℝ))]
  · simp
  · intro u hu
    rw [Set.uIcc_of_le zero_le_one] at hu
    show ∫ v in (0:ℝ)..(1 - u), _ = (0:ℝ)
    rw [intervalIntegral.integral_congr (g := fun _ => (0:ℝ))]
    · simp
    · intro v hv
      rw [Set.uIcc_of_le (by linarith [hu.2])] at hv
      show aff a' b' c' u v * max (aff a b c u v) 0 = 0
      have : aff a b c u v ≤ 0 := by
        have e : aff a b c u v = (1 - u - v) * a + u * b + v * c := by unfold aff; ring
        rw [e]
        have := hu.1
        have := hv.1
        have := hv.2
        nlinarith
      rw [max_eq_right this, mul_zero]

/-- A function of order s² has no derivative at 0 but zero. -/
theorem hasDerivAt_of_sq {E : ℝ → ℝ} {C : ℝ} (h : ∀ᶠ s in 𝓝 0, |E s| ≤ C * s ^ 2) : HasDerivAt E 0 0 := by
  have hE0 : E 0 = 0 := by
    have := h.self_of_nhds
    simp at this
    exact this
  rw [hasDerivAt_iff_isLittleO_nhds_zero]
  simp only [zero_add, hE0, sub_zero, smul_zero]
  have h1 : E =O[𝓝 0] fun s : ℝ => s ^ 2 := by
    refine Asymptotics.IsBigO.of_bound C ?_
    filter_upwards [h] with s hs
    rw [Real.norm_eq_abs, Real.norm_eq_abs, abs_of_nonneg (sq_nonneg s)]
    exact hs
  refine h1.trans_isLittleO ?_
  have := Asymptotics.isLittleO_pow_id (𝕜 := ℝ) (n := 2) (by norm_num)
  exact this

/-- A function with a derivative at 0 moves by at most a multiple of s. -/
theorem moves_le {f : ℝ → ℝ} {f' : ℝ} (h : HasDerivAt f f' 0) : ∃ C, 0 ≤ C ∧ ∀ᶠ s in 𝓝 0, |f s - f 0| ≤ C * |s| := by
  obtain ⟨C, hC, h1⟩ := (h.isBigO_sub).exists_pos
  refine ⟨C, hC.le, ?_⟩
  have := h1.bound
  filter_upwards [this] with s hs
  simpa using hs

/-- The integral on the strip has a zero derivative. -/
theorem stripInt_deriv {a b c a' b' c' : ℝ → ℝ} {da db dc da' db' dc' : ℝ} (ha : HasDerivAt a da 0) (hb : HasDerivAt b db 0) (hc : HasDerivAt c dc 0)
    (ha' : HasDerivAt a' da' 0) (hb' : HasDerivAt b' db' 0) (hc' : HasDerivAt c' dc' 0) (h1 : a 0 ≤ 0) (h2 : b 0 ≤ 0) (h3 : c 0 ≤ 0) (hne : a 0 ≠ 0 ∨ b 0 ≠ 0 ∨ c 0 ≠ 0) :
    HasDerivAt (fun s => stripInt (a s) (b s) (c s) (a' s) (b' s) (c' s)) 0 0 := by
  obtain ⟨Ca, pa, ea⟩ := moves_le ha
  obtain ⟨Cb, pb, eb⟩ := moves_le hb
  obtain ⟨Cc, pc, ec⟩ := moves_le hc
  have bd : ∀ {f : ℝ → ℝ} {f' : ℝ}, HasDerivAt f f' 0 → ∀ᶠ s in 𝓝 0, |f s| ≤ |f 0| + 1 := by
    intro f f' hf
    have := hf.continuousAt.abs.eventually (gt_mem_nhds (show |f 0| < |f 0| + 1 by linarith))
    filter_upwards [this] with s hs using hs.le
  set D := Ca + Cb + Cc with hD
  have hD0 : 0 ≤ D := by positivity
  set W := |a' 0| + |b' 0| + |c' 0| + 1 with hW
  have hW0 : 0 ≤ W := by positivity
  obtain ⟨m, hm, hcase⟩ : ∃ m > 0, (a 0 ≤ -m) ∨ (b 0 ≤ -m) ∨ (c 0 ≤ -m) := by
    rcases hne with h | h | h
    · exact ⟨-a 0, by have := lt_of_le_of_ne h1 h; linarith, Or.inl (by linarith)⟩
    · exact ⟨-b 0, by have := lt_of_le_of_ne h2 h; linarith, Or.inr (Or.inl (by linarith))⟩
    · exact ⟨-c 0, by have := lt_of_le_of_ne h3 h; linarith, Or.inr (Or.inr (by linarith))⟩
  refine hasDerivAt_of_sq (C := W * (D * D / m)) ?_
  filter_upwards [ea, eb, ec, bd ha', bd hb', bd hc'] with s h4 h5 h6 h7 h8 h9
  have hs := abs_nonneg s
  have e4 := (abs_le.mp h4).2
  have e5 := (abs_le.mp h5).2
  have e6 := (abs_le.mp h6).2
  have k4 : Ca * |s| ≤ D * |s| := mul_le_mul_of_nonneg_right (by rw [hD]; linarith) hs
  have k5 : Cb * |s| ≤ D * |s| := mul_le_mul_of_nonneg_right (by rw [hD]; linarith) hs
  have k6 : Cc * |s| ≤ D * |s| := mul_le_mul_of_nonneg_right (by rw [hD]; linarith) hs
  have n1 := abs_nonneg (a' 0)
  have n2 := abs_nonneg (b' 0)
  have n3 := abs_nonneg (c' 0)
  have := stripInt_le (a := a s) (b := b s) (c := c s) (a' := a' s) (b' := b' s) (c' := c' s) (d := D * |s|) (m := m) (W := W) (by positivity) hm hW0 (by
    rcases hcase with h | h | h
    · exact Or.inl ⟨by linarith, by linarith, by linarith⟩
    · exact Or.inr (Or.inl ⟨by linarith, by linarith, by linarith⟩)
    · exact Or.inr (Or.inr ⟨by linarith, by linarith, by linarith⟩)) (by rw [hW]; linarith) (by rw [hW]; linarith) (by rw [hW]; linarith)
  refine this.trans (le_of_eq ?_)
  have : |s| * |s| = s ^ 2 := by rw [← abs_mul, abs_mul_self]; ring
  rw [← this]
  ring

end Frydom.Hydro
