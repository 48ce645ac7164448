import Verif.Waves.SeaEnergy
import Mathlib.MeasureTheory.Integral.IntervalIntegral.Basic

/-!
# Mean square of the elevation of an initialised irregular sea, and the spectrum (C187)
-/

open Classical MeasureTheory

noncomputable section

namespace Frydom.Waves
open Real Frydom.Geom Frydom.Seakeeping

variable {seeded : ℤ → ℕ → ℝ} {ops : List (Sea × SetOp)} {sea : Sea} {r : Option (ℝ → ℝ)} {draw : ℕ → ℝ} {f g : Irr}

/-- Sum of the values at the middles of `n` adjacent cells of width `Δ`, against the integral. -/
theorem midpoint_sum (S : ℝ → ℝ) (a Δ L : ℝ) (n : ℕ) (hΔ : 0 < Δ)
    (hS : ∀ v ∈ Set.Icc (a - Δ / 2) (a - Δ / 2 + n * Δ), ∀ w ∈ Set.Icc (a - Δ / 2) (a - Δ / 2 + n * Δ), |S v - S w| ≤ L * |v - w|) :
    |Δ * ∑ j ∈ Finset.range n, S (a + j * Δ) - ∫ w in (a - Δ / 2)..(a - Δ / 2 + n * Δ), S w| ≤ L * (Δ / 2) * (n * Δ) := by
  obtain ⟨c, hc⟩ : ∃ c : ℕ → ℝ, c = fun j : ℕ => a - Δ / 2 + (j : ℝ) * Δ := ⟨_, rfl⟩
  have cmem : ∀ j < n, Set.Icc (c j) (c (j + 1)) ⊆ Set.Icc (a - Δ / 2) (a - Δ / 2 + n * Δ) := by
    intro j hj
    have h1 : ((j + 1 : ℕ) : ℝ) ≤ n := by exact_mod_cast hj
    have h2 : ((j + 1 : ℕ) : ℝ) * Δ ≤ n * Δ := mul_le_mul_of_nonneg_right h1 hΔ.le
    have h3 : 0 ≤ (j : ℝ) * Δ := by positivity
    exact Set.Icc_subset_Icc (by simp only [hc]; linarith) (by simp only [hc]; linarith)
  have cle : ∀ j, c j ≤ c (j + 1) := fun j => by simp only [hc]; push_cast; linarith
  have cont : ContinuousOn S (Set.Icc (a - Δ / 2) (a - Δ / 2 + n * Δ)) := by
    have : LipschitzOnWith (Real.toNNReal (max L 0)) S (Set.Icc (a - Δ / 2) (a - Δ / 2 + n * Δ)) := by
      refine LipschitzOnWith.of_dist_le_mul fun v hv w hw => ?_
      rw [Real.dist_eq, Real.dist_eq, Real.coe_toNNReal _ (le_max_right _ _)]
      exact (hS v hv w hw).trans (mul_le_mul_of_nonneg_right (le_max_left _ _) (abs_nonneg _))
    exact this.continuousOn
  have int : ∀ j < n, IntervalIntegrable S volume (c j) (c (j + 1)) := fun j hj =>
    (cont.mono (by rw [Set.uIcc_of_le (cle j)]; exact cmem j hj)).intervalIntegrable
  have e0 : a - Δ / 2 = c 0 := by simp [hc]
  have en : a - Δ / 2 + n * Δ = c n := by simp [hc]
  rw [en, e0, ← intervalIntegral.sum_integral_adjacent_intervals (f := S) (a := c) int, Finset.mul_sum, ← Finset.sum_sub_distrib]
  refine (Finset.abs_sum_le_sum_abs _ _).trans ?_
  have cell : ∀ j ∈ Finset.range n, |Δ * S (a + j * Δ) - ∫ w in (c j)..(c (j + 1)), S w| ≤ L * (Δ / 2) * Δ := by
    intro j hj
    have hj := Finset.mem_range.mp hj
    have w1 : c (j + 1) - c j = Δ := by simp only [hc]; push_cast; ring
    have : Δ * S (a + j * Δ) - ∫ w in (c j)..(c (j + 1)), S w = ∫ w in (c j)..(c (j + 1)), (S (a + j * Δ) - S w) := by
      rw [intervalIntegral.integral_sub intervalIntegrable_const (int j hj), intervalIntegral.integral_const, w1, smul_eq_mul]
    rw [this]
    have mid : a + j * Δ ∈ Set.Icc (c j) (c (j + 1)) := by
      constructor <;> simp only [hc] <;> push_cast <;> linarith
    have b := intervalIntegral.norm_integral_le_of_norm_le_const (a := c j) (b := c (j + 1)) (C := L * (Δ / 2)) (f := fun w => S (a + j * Δ) - S w) (fun w hw => ?_)
    · rw [w1, abs_of_pos hΔ] at b; exact b
    · rw [Set.uIoc_of_le (cle j)] at hw
      rw [Real.norm_eq_abs]
      have hw' : w ∈ Set.Icc (c j) (c (j + 1)) := ⟨hw.1.le, hw.2⟩
      have l := hS _ (cmem j hj mid) w (cmem j hj hw')
      have l2 := hS _ (cmem j hj mid) (c j) (cmem j hj ⟨le_rfl, cle j⟩)
      have hd : |a + j * Δ - w| ≤ Δ / 2 := by
        rw [abs_le]
        have := hw'.1; have := hw'.2
        simp only [hc] at *
        push_cast at *
        constructor <;> linarith
      have hc2 : |a + j * Δ - c j| = Δ / 2 := by
        rw [show a + j * Δ - c j = Δ / 2 by simp only [hc]; ring, abs_of_pos (by positivity)]
      rw [hc2] at l2
      have hL : 0 ≤ L := by
        have := (abs_nonneg _).trans l2
        by_contra hneg
        push Not at hneg
        have := mul_neg_of_neg_of_pos hneg (half_pos hΔ)
        linarith
      exact l.trans (mul_le_mul_of_nonneg_left hd hL)
  refine (Finset.sum_le_sum cell).trans ?_
  rw [Finset.sum_const, Finset.card_range, nsmul_eq_mul]
  exact le_of_eq (by ring)

/-- **C187, the spectrum.** Whatever the calls made before, once a sea without directional spreading and with at least two distinct frequencies is initialised, then (the time ramp, if there is one, being
continuous and eventually one) the mean in the course of time of the square of the elevation, at every point and in both conventions, is `Δ Σ S(w_j)`, `Δ` being the spacing of the frequencies; and if the density
varies by at most `L` per rad/s, this is the integral of the density from half a spacing below the first frequency to half a spacing above the last, up to `L Δ/2` times the length of this band. -/
theorem C187_spectrum (h : Ready seeded ops sea r draw f g) (hd : f.spectrum.dir = none) (hlt : g.view.freq 0 < g.view.freq (g.view.nbFreq - 1))
    (hS : ∀ w, 0 < w → 0 ≤ f.spectrum.eval w) (hr : r = none ∨ ∃ q t₁, r = some q ∧ Continuous q ∧ ∀ t, t₁ ≤ t → q t = 1) (depth x y : ℝ) (fc : FC) :
    ∃ Δ m, Δ = (g.view.freq (g.view.nbFreq - 1) - g.view.freq 0) / (g.view.nbFreq - 1) ∧
      m = Δ * ∑ j ∈ Finset.range g.view.nbFreq, f.spectrum.eval (g.view.freq j) ∧
      TimeMean (fun t => (g.view.update r depth t).elevation x y fc ^ 2) m ∧
      ∀ L, (∀ v ∈ Set.Icc (g.view.freq 0 - Δ / 2) (g.view.freq (g.view.nbFreq - 1) + Δ / 2), ∀ w ∈ Set.Icc (g.view.freq 0 - Δ / 2) (g.view.freq (g.view.nbFreq - 1) + Δ / 2),
          |f.spectrum.eval v - f.spectrum.eval w| ≤ L * |v - w|) →
        |m - ∫ w in (g.view.freq 0 - Δ / 2)..(g.view.freq (g.view.nbFreq - 1) + Δ / 2), f.spectrum.eval w| ≤ L * (Δ / 2) * (g.view.freq (g.view.nbFreq - 1) - g.view.freq 0 + Δ) := by
  obtain ⟨-, min, max, θ₀, θ₁, hmin, hmm, -, hf, -, h1, ha⟩ := C165_components h
  have hn1 := h1 hd
  have h2 : 2 ≤ g.view.nbFreq := by
    by_contra hc
    have : g.view.nbFreq - 1 = 0 := by omega
    rw [this] at hlt
    exact lt_irrefl _ hlt
  obtain ⟨n, hn⟩ : ∃ n, g.view.nbFreq = n := ⟨_, rfl⟩
  rw [hn] at h2 hlt hf ha ⊢
  have hne : n ≠ 1 := by omega
  have hn0 : (0:ℝ) < (n:ℝ) - 1 := by
    have : (2:ℝ) ≤ n := by exact_mod_cast h2
    linarith
  obtain ⟨Δ, hΔ⟩ : ∃ Δ, Δ = (max - min) / ((n : ℝ) - 1) := ⟨_, rfl⟩
  have hfj : ∀ j < n, g.view.freq j = min + j * Δ := by
    intro j hj
    rw [hf j hj, spaced, if_neg hne, hΔ]
  have f0 : g.view.freq 0 = min := by rw [hfj 0 (by omega)]; simp
  have fl : g.view.freq (n - 1) = max := by
    rw [hfj (n - 1) (by omega), hΔ, Nat.cast_sub (by omega), Nat.cast_one]
    field_simp
    ring
  rw [f0, fl] at hlt ⊢
  have hΔ0 : 0 < Δ := by rw [hΔ]; exact div_pos (by linarith) hn0
  have hwpos : ∀ j < n, 0 < g.view.freq j := fun j hj => by rw [hfj j hj]; positivity
  refine ⟨Δ, _, hΔ, rfl, ?_, ?_⟩
  · have set : Settled r g.view.ramp := by
      rcases hr with rfl | ⟨q, t₁, rfl, hq, h1⟩
      · exact Or.inl ⟨rfl, (C165_phases h).2.2.2⟩
      · exact Or.inr ⟨q, t₁, rfl, hq, h1⟩
    have key := C187_one_direction g.view hn1 (by rw [hn]; exact hwpos) (fun i hi j hj e => by
      rw [hn] at hi hj
      rw [hfj i hi, hfj j hj] at e
      have : (i : ℝ) = j := mul_right_cancel₀ hΔ0.ne' (by linarith)
      exact_mod_cast this) set depth x y fc
    rw [hn] at key
    convert key using 1
    rw [Finset.mul_sum]
    refine Finset.sum_congr rfl fun j hj => ?_
    have hj := Finset.mem_range.mp hj
    rw [ha 0 (by omega) j hj, hd, hn1]
    unfold spacing
    rw [if_pos rfl, if_neg hne, ← hΔ]
    simp only [Option.elim_none, mul_one]
    rw [Real.sq_sqrt (mul_nonneg (mul_nonneg (by norm_num) (hS _ (hwpos j hj))) hΔ0.le)]
    ring
  · intro L hL
    have e1 : max + Δ / 2 = min - Δ / 2 + n * Δ := by
      have : (n : ℝ) * Δ = max - min + Δ := by
        have : ((n : ℝ) - 1) * Δ = max - min := by rw [hΔ]; field_simp
        linarith
      rw [this]; ring
    have e2 : max - min + Δ = n * Δ := by linarith
    rw [e1] at hL ⊢
    rw [e2]
    have k := midpoint_sum f.spectrum.eval min Δ L n hΔ0 hL
    rw [Finset.sum_congr rfl fun j hj => by rw [hfj j (Finset.mem_range.mp hj)]]
    exact k

/-- The hypotheses of `C187_spectrum` are met by the deep sea of `demo_ready`, with no ramp or with a ramp over ten seconds. -/
example : ∃ f g, Ready seeded demoCalls deepSea r draw f g ∧ f.spectrum.dir = none ∧ g.view.freq 0 < g.view.freq (g.view.nbFreq - 1) ∧ (∀ w, 0 < w → 0 ≤ f.spectrum.eval w) := by
  obtain ⟨f, g, h, -, hno⟩ := demo_ready (seeded := seeded) (r := r) (draw := draw)
  refine ⟨f, g, h, (C165_single h hno).2.2, ?_, ?_⟩
  · obtain ⟨-, min, max, θ₀, θ₁, -, -, hb, hf, -⟩ := C165_components h
    rcases hb with hb | ⟨hb, -⟩
    · have e : some ((0.5 : ℝ), (2 : ℝ), 20) = some (min, max, g.view.nbFreq) := hb
      simp only [Option.some.injEq, Prod.mk.injEq] at e
      obtain ⟨rfl, rfl, e⟩ := e
      rw [← e] at hf ⊢
      rw [hf 0 (by norm_num), hf 19 (by norm_num)]
      unfold spaced
      norm_num
    · have e : some ((0.5 : ℝ), (2 : ℝ), 20) = none := hb
      cases e
  · obtain ⟨sea₀, h0⟩ := h.built
    have hs : f.spectrum.shape = .pm := by
      obtain ⟨f₁, h1, h2⟩ := Irr.run_append [(deepSea, .spectrum .pm 2 10)] [(deepSea, .meanAngle 30 .deg .NED .comefrom), (deepSea, .frequencies 0.5 2 20)] _ _ h0
      obtain rfl := Except.ok.inj h1
      refine Irr.run_inv (P := fun f => f.spectrum.shape = .pm) rfl ?_ h2
      rintro ⟨sea', op⟩ ho f g hf ha
      have key : ∀ {known : List ℝ} {f g : Irr}, f.spectrum.shape = .pm → f.refresh known = .ok g → g.spectrum.shape = .pm := by
        intro known f g hf hr
        rcases Irr.refresh_ok hr with ⟨-, rfl⟩ | ⟨-, a, -, rfl⟩ <;> exact hf
      simp only [List.mem_cons, List.not_mem_nil, or_false] at ho
      rcases ho with ho | ho
      · obtain ⟨-, rfl⟩ := Prod.mk.inj ho
        change f.setMeanAngle 30 .deg .NED .comefrom = .ok g at ha
        unfold Irr.setMeanAngle at ha
        simp only at ha
        split_ifs at ha with hc
        · obtain ⟨-, a, b, -, hr⟩ := Irr.computeDirections_ok ha
          exact key (by exact hf) hr
        · obtain rfl := Except.ok.inj ha
          exact hf
      · obtain ⟨-, rfl⟩ := Prod.mk.inj ho
        obtain ⟨-, freqs, ks, -, -, hr⟩ := Irr.setFrequencies_ok ha
        exact key (by exact hf) hr
    intro w hw
    unfold WSpectrum.eval
    rw [hs]
    have h1 := mul_self_nonneg f.spectrum.hs
    have h2 : ∀ z : ℝ, 0 ≤ z ^ 4 := fun z => (show Even 4 by decide).pow_nonneg z
    simp only [piersonMoskowitz]
    exact mul_nonneg (mul_nonneg (mul_nonneg (by norm_num) (div_nonneg (h2 _) (mul_nonneg pi_pos.le (h2 _)))) (div_nonneg h1 hw.le)) (exp_pos _).le

end Frydom.Waves
