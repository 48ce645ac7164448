import Verif.Waves.EnergyLimit
import Verif.Waves.SeaSpectrum

/-!
# Significant height of the discretised sea in the limit (C193)
-/

open Classical MeasureTheory Finset Filter Topology

noncomputable section

namespace Frydom.Waves
open Real Frydom.Geom Frydom.Seakeeping

/-- Evenly spaced values cover the range. -/
theorem covers_linspace {a b δ : ℝ} (hab : a < b) {n : ℕ} (hn : 4 ≤ n) (hδ : (b - a) / ((n : ℝ) - 1) ≤ δ) : Covers a b δ (linspaceList a b n) := by
  have hn4 : (4 : ℝ) ≤ n := by exact_mod_cast hn
  have hs : 0 < (b - a) / ((n : ℝ) - 1) := div_pos (by linarith) (by linarith)
  have get := fun i (hi : i < n) => linspace_get a b n i hi
  refine ⟨?_, ?_, ?_, ?_, ?_⟩
  · rw [List.head?_eq_getElem?, get 0 (by omega)]; simp
  · rw [List.getLast?_eq_getElem?, linspace_length, get (n - 1) (by omega), Nat.cast_sub (by omega), Nat.cast_one]
    have : (n : ℝ) - 1 ≠ 0 := by linarith
    congr 1
    field_simp
    ring
  · rw [List.pairwise_iff_getElem]
    intro i j hi hj hij
    rw [linspace_length] at hi hj
    have e1 := linspace_getD a b n i hi
    have e2 := linspace_getD a b n j hj
    rw [List.getD_eq_getElem _ _ (by rw [linspace_length]; exact hi)] at e1
    rw [List.getD_eq_getElem _ _ (by rw [linspace_length]; exact hj)] at e2
    rw [e1, e2]
    have : (i : ℝ) < j := by exact_mod_cast hij
    have := mul_lt_mul_of_pos_right this hs
    linarith
  · intro i hi
    rw [linspace_length] at hi
    rw [linspace_getD _ _ _ _ hi, linspace_getD _ _ _ _ (by omega)]
    push_cast
    linarith
  · rw [linspace_length]; omega

/-- With enough values the spacing is as small as wished. -/
theorem spacing_small (a b : ℝ) {δ : ℝ} (hδ : 0 < δ) : ∃ N : ℕ, 4 ≤ N ∧ ∀ n ≥ N, (b - a) / ((n : ℝ) - 1) ≤ δ := by
  obtain ⟨N, hN⟩ := exists_nat_gt (|b - a| / δ)
  refine ⟨N + 4, by omega, fun n hn => ?_⟩
  have h1 : ((N + 4 : ℕ) : ℝ) ≤ n := by exact_mod_cast hn
  push_cast at h1
  have h2 : (0 : ℝ) ≤ N := Nat.cast_nonneg N
  rw [div_le_iff₀ (by linarith)]
  rw [div_lt_iff₀ hδ] at hN
  have h3 : (N : ℝ) * δ ≤ ((n : ℝ) - 1) * δ := mul_le_mul_of_nonneg_right (by linarith) hδ.le
  linarith [le_abs_self (b - a)]

/-- **C193, a number of frequencies over a range.** The energy of the amplitudes computed for `n` frequencies over a range tends to the integral of the density over this range as `n` grows. -/
theorem C193_range (S : ℝ → ℝ) (a b : ℝ) (hab : a < b) (hc : ContinuousOn S (Set.Icc a b)) (hS : ∀ w ∈ Set.Icc a b, 0 ≤ S w) (ε : ℝ) (hε : 0 < ε) :
    ∃ N : ℕ, ∀ n ≥ N, ∃ amps, getWaveAmplitudesRange S n a b = some amps ∧ amps.length = n ∧ |energySum amps - ∫ w in a..b, S w| < ε := by
  obtain ⟨δ, hδ, key⟩ := C193_frequencies S a b hab hc hS ε hε
  obtain ⟨N, h4, hN⟩ := spacing_small a b hδ
  refine ⟨N, fun n hn => ?_⟩
  obtain ⟨m, rfl⟩ : ∃ m, n = m + 2 := ⟨n - 2, by omega⟩
  obtain ⟨amps, h1, h2, h3⟩ := key _ (covers_linspace hab (by omega) (hN _ hn))
  obtain ⟨amps', h, g1, g2, -, -, -, g6⟩ := C178_range S m a b hab.le fun w h1 h2 => hS w ⟨h1, h2⟩
  rw [g6 (by omega), Option.some.injEq] at h1
  subst h1
  exact ⟨_, g1, g2, h3⟩

/-- **C193, full circle.** With the cos2s spreading over a full circle, whatever its factor and its middle direction, the energy of the components tends to the integral of the density over the band as the numbers of frequencies and
directions grow. -/
theorem C193_full_circle (S : ℝ → ℝ) (a b : ℝ) (hab : a < b) (hc : ContinuousOn S (Set.Icc a b)) (hS : ∀ w ∈ Set.Icc a b, 0 ≤ S w) (s : ℝ) (hs : 0 < s) (m : ℝ)
    (ε : ℝ) (hε : 0 < ε) :
    ∃ N : ℕ, ∀ n ≥ N, ∀ nd ≥ N, ∀ tmean, ∃ amps, getWaveAmplitudesRange2 S (some (cos2sEval s)) n a b nd (m - π) (m + π) tmean = some amps ∧
      |(amps.map energySum).sum - ∫ w in a..b, S w| < ε := by
  have hπ := pi_pos
  have mid : ((m - π) + (m + π)) / 2 = m := by ring
  obtain ⟨δ, hδ, key⟩ := C193_directions S (cos2sEval s) a b (m - π) (m + π) hab (by linarith) hc hS
    (by
      rw [mid]
      refine Continuous.continuousOn ?_
      unfold cos2sEval
      exact continuous_const.mul (Continuous.rpow_const (by fun_prop) fun x => Or.inr (by linarith)))
    (fun t ht => by
      rw [mid]
      have := (C43_cos2s_shape s m hs).1 (t - m) (by rw [abs_le]; constructor <;> linarith [ht.1, ht.2])
      rwa [add_sub_cancel] at this) ε hε
  rw [mid, C43_cos2s_normalised s m hs, mul_one] at key
  obtain ⟨N₁, h41, hN₁⟩ := spacing_small a b hδ
  obtain ⟨N₂, h42, hN₂⟩ := spacing_small (m - π) (m + π) hδ
  refine ⟨max N₁ N₂, fun n hn nd hnd tmean => ?_⟩
  have n1 := le_of_max_le_left hn
  have n2 := le_of_max_le_right hnd
  exact key _ _ (covers_linspace hab (by omega) (hN₁ n n1)) (covers_linspace (by linarith) (by omega) (hN₂ nd n2))

/-! ## Significant height -/

/-- The two standard densities of a sea of significant height `hs` whose energy is exactly `hs²/16` (C40), with the scale `B` of their exponential tail `exp(-B/w⁴)`. -/
def IsStandard (hs B : ℝ) (S : ℝ → ℝ) : Prop :=
  ∃ wp > 0, (S = piersonMoskowitz hs wp ∧ B = (1.408 * wp) ^ 4 / π) ∨ (S = jonswap hs wp 1 ∧ B = 1.25 * wp ^ 4)

theorem IsStandard.facts {hs B : ℝ} {S : ℝ → ℝ} (h : IsStandard hs B S) :
    0 < B ∧ ∀ w, 0 < w → S w = hs ^ 2 / 16 * (4 * B * (w ^ 5)⁻¹ * exp (-(B / w ^ 4))) := by
  have hπ := pi_pos
  obtain ⟨wp, hwp, ⟨rfl, rfl⟩ | ⟨rfl, rfl⟩⟩ := h
  · refine ⟨by positivity, fun w hw => ?_⟩
    have eA : (2 * π / (2 * π / wp / 1.408)) ^ 4 / (π * w ^ 4) = (1.408 * wp) ^ 4 / π / w ^ 4 := by field_simp
    simp only [piersonMoskowitz, eA]
    field_simp
    norm_num
    ring
  · refine ⟨by positivity, fun w hw => ?_⟩
    obtain ⟨a, -, -, -, ha⟩ := jonswap_pos_eq hs wp 1 w hw hwp
    rw [ha, one_rpow, log_one]; ring

theorem IsStandard.nonneg {hs B : ℝ} {S : ℝ → ℝ} (h : IsStandard hs B S) {w : ℝ} (hw : 0 < w) : 0 ≤ S w := by
  obtain ⟨hB, e⟩ := h.facts
  rw [e w hw]; positivity

theorem IsStandard.cont {hs B : ℝ} {S : ℝ → ℝ} (h : IsStandard hs B S) {a b : ℝ} (ha : 0 < a) : ContinuousOn S (Set.Icc a b) := by
  obtain ⟨-, e⟩ := h.facts
  refine ContinuousOn.congr (f := fun w => hs ^ 2 / 16 * (4 * B * (w ^ 5)⁻¹ * exp (-(B / w ^ 4)))) ?_ fun w hw => e w (ha.trans_le hw.1)
  intro w hw
  have : w ≠ 0 := (ha.trans_le hw.1).ne'
  exact ContinuousAt.continuousWithinAt (by fun_prop (disch := positivity))

theorem IsStandard.integral {hs B : ℝ} {S : ℝ → ℝ} (h : IsStandard hs B S) {a b : ℝ} (ha : 0 < a) (hab : a ≤ b) :
    ∫ w in a..b, S w = hs ^ 2 / 16 * (exp (-(B / b ^ 4)) - exp (-(B / a ^ 4))) := by
  obtain ⟨-, e⟩ := h.facts
  have der : ∀ w ∈ Set.uIcc a b, HasDerivAt (fun w : ℝ => hs ^ 2 / 16 * exp (-(B / w ^ 4))) (S w) w := by
    intro w hw
    rw [Set.uIcc_of_le hab] at hw
    have hw' : 0 < w := ha.trans_le hw.1
    have h1 : HasDerivAt (fun w : ℝ => -(B / w ^ 4)) (4 * B * (w ^ 5)⁻¹) w := by
      have h := ((hasDerivAt_const w B).div (hasDerivAt_pow 4 w) (by positivity)).neg
      refine h.congr_deriv ?_
      field_simp
      norm_num
      ring
    refine (h1.exp.const_mul (hs ^ 2 / 16)).congr_deriv ?_
    rw [e w hw']; ring
  rw [intervalIntegral.integral_eq_sub_of_hasDerivAt der]
  · ring
  · have := h.cont (b := b) ha
    exact (by rw [Set.uIcc_of_le hab]; exact this : ContinuousOn S (Set.uIcc a b)).intervalIntegrable

/-- **C193, significant height.** For the Pierson–Moskowitz density and the JONSWAP density with peakedness one, four times the square root of the energy of the components computed for `n` frequencies between `a` and `b` tends, as `n`
grows, to `Hs √(exp(-B/b⁴) - exp(-B/a⁴))`: always below the height asked for, and above it less `Hs (B/b⁴ + a⁴/B)`. -/
theorem C193_height (hs B : ℝ) (S : ℝ → ℝ) (hS : IsStandard hs B S) (hhs : 0 < hs) (a b : ℝ) (ha : 0 < a) (hab : a < b) :
    ∃ H, H = hs * √(exp (-(B / b ^ 4)) - exp (-(B / a ^ 4))) ∧ 0 < H ∧ H < hs ∧ hs * (1 - B / b ^ 4 - a ^ 4 / B) ≤ H ∧
      ∀ ε > 0, ∃ N : ℕ, ∀ n ≥ N, ∃ amps, getWaveAmplitudesRange S n a b = some amps ∧ amps.length = n ∧ |4 * √(energySum amps) - H| < ε := by
  obtain ⟨hB, -⟩ := hS.facts
  have hb : 0 < b := ha.trans hab
  obtain ⟨q, hq⟩ : ∃ q, q = exp (-(B / b ^ 4)) - exp (-(B / a ^ 4)) := ⟨_, rfl⟩
  have q0 : 0 < q := by
    rw [hq, sub_pos, exp_lt_exp, neg_lt_neg_iff]
    exact div_lt_div_of_pos_left hB (by positivity) (pow_lt_pow_left₀ hab ha.le (by norm_num))
  have q1 : q < 1 := by
    have h1 : exp (-(B / b ^ 4)) < 1 := by rw [exp_lt_one_iff, neg_lt_zero]; positivity
    have h2 := exp_pos (-(B / a ^ 4))
    linarith
  refine ⟨hs * √q, by rw [hq], mul_pos hhs (sqrt_pos.mpr q0), ?_, ?_, ?_⟩
  · have : √q < 1 := by rw [sqrt_lt' one_pos]; linarith
    nlinarith
  · refine mul_le_mul_of_nonneg_left ?_ hhs.le
    have h1 : 1 - B / b ^ 4 ≤ exp (-(B / b ^ 4)) := by have := add_one_le_exp (-(B / b ^ 4)); linarith
    have h2 : exp (-(B / a ^ 4)) ≤ a ^ 4 / B := by
      rw [exp_neg, inv_le_comm₀ (exp_pos _) (by positivity), inv_div]
      have := add_one_le_exp (B / a ^ 4)
      linarith
    have h3 : q ≤ √q := by
      refine le_sqrt_of_sq_le ?_
      nlinarith
    linarith
  · intro ε hε
    have hI := hS.integral ha hab.le
    rw [← hq] at hI
    have e4 : 4 * √(∫ w in a..b, S w) = hs * √q := by
      rw [hI, sqrt_mul (by positivity), show hs ^ 2 / 16 = (hs / 4) ^ 2 by ring, sqrt_sq (by positivity)]
      ring
    have hcont : ContinuousAt (fun x : ℝ => 4 * √x) (∫ w in a..b, S w) := by fun_prop
    rw [Metric.continuousAt_iff] at hcont
    obtain ⟨η, hη, k⟩ := hcont ε hε
    obtain ⟨N, hN⟩ := C193_range S a b hab (hS.cont ha) (fun w hw => hS.nonneg (ha.trans_le hw.1)) η hη
    refine ⟨N, fun n hn => ?_⟩
    obtain ⟨amps, h1, h2, h3⟩ := hN n hn
    refine ⟨amps, h1, h2, ?_⟩
    have := k (x := energySum amps) (by rw [Real.dist_eq]; exact h3)
    rwa [Real.dist_eq, e4] at this

/-- **C193, the sea itself.** An irregular sea without directional spreading, whatever calls were made to configure it: once it is initialised on a given band with enough frequencies, the mean over a long time of the square of the
elevation it returns, at any point and in both conventions, is as close as wished to the integral of the density over the band. -/
theorem C193_sea (S : ℝ → ℝ) (a b : ℝ) (hab : a < b) (hc : ContinuousOn S (Set.Icc a b)) (hS : ∀ w, 0 < w → 0 ≤ S w) (ε : ℝ) (hε : 0 < ε) :
    ∃ N : ℕ, ∀ (seeded : ℤ → ℕ → ℝ) (ops : List (Sea × SetOp)) (sea : Sea) (r : Option (ℝ → ℝ)) (draw : ℕ → ℝ) (f g : Irr),
      Ready seeded ops sea r draw f g → f.spectrum.dir = none → f.spectrum.eval = S → g.view.freq 0 = a → g.view.freq (g.view.nbFreq - 1) = b → N ≤ g.view.nbFreq →
      (r = none ∨ ∃ q t₁, r = some q ∧ Continuous q ∧ ∀ t, t₁ ≤ t → q t = 1) → ∃ m, |m - ∫ w in a..b, S w| < ε ∧
        ∀ (depth x y : ℝ) (fc : FC), TimeMean (fun t => (g.view.update r depth t).elevation x y fc ^ 2) m := by
  obtain ⟨δ, hδ, key⟩ := cells_limit S a b hab hc hε
  obtain ⟨N, h4, hN⟩ := spacing_small a b hδ
  refine ⟨N, fun seeded ops sea r draw f g h hd hfS h0 h1 hn hr => ?_⟩
  subst hfS
  have sp := fun depth x y fc => C187_spectrum h hd (by rw [h0, h1]; exact hab) hS hr depth x y fc
  obtain ⟨-, min, max, θ₀, θ₁, hmin, hmm, -, hf, -⟩ := C165_components h
  rw [h0, h1] at sp
  obtain ⟨n, hnn⟩ : ∃ n, g.view.nbFreq = n + 2 := ⟨g.view.nbFreq - 2, by omega⟩
  have hNn := hN _ hn
  have hn4 : 4 ≤ g.view.nbFreq := by omega
  clear hN
  rw [hnn] at sp hf h1 hNn hn4
  have nc : ((n + 2 : ℕ) : ℝ) - 1 = ((n + 1 : ℕ) : ℝ) := by push_cast; ring
  have np : (0 : ℝ) < ((n + 1 : ℕ) : ℝ) := by positivity
  obtain ⟨Δ, hΔ⟩ : ∃ Δ, Δ = (b - a) / (((n + 2 : ℕ) : ℝ) - 1) := ⟨_, rfl⟩
  have fm : g.view.freq 0 = min := by rw [hf 0 (by omega), spaced, if_neg (by omega)]; simp
  have fM : g.view.freq (n + 2 - 1) = max := by
    rw [hf (n + 2 - 1) (by omega), spaced, if_neg (by omega), nc, show n + 2 - 1 = n + 1 by omega]
    field_simp
    ring
  have ea : min = a := fm.symm.trans h0
  have eb : max = b := fM.symm.trans h1
  have hfj : ∀ j < n + 2, g.view.freq j = a + j * Δ := by
    intro j hj
    rw [hf j hj, spaced, if_neg (by omega), hΔ, ea, eb]
  refine ⟨Δ * ∑ j ∈ range (n + 2), f.spectrum.eval (g.view.freq j), ?_, fun depth x y fc => ?_⟩
  · have k := key n (fun j => a + j * Δ) (by simp) (by
        rw [hΔ, nc]; field_simp; ring) (fun i _ => by
          have : 0 ≤ Δ := by rw [hΔ, nc]; exact div_nonneg (by linarith) np.le
          push_cast; linarith) (fun i _ => by rw [← hΔ] at hNn; push_cast; linarith)
    rw [mul_sum]
    convert k using 4 with j hj
    have hj := mem_range.mp hj
    rw [hfj j hj, (C41_cells n (fun j => a + j * Δ)).2 a Δ (fun _ => rfl) j (by omega)]
    ring
  · obtain ⟨Δ', m, e1, e2, tm, -⟩ := sp depth x y fc
    rw [← hΔ] at e1
    rw [← e1, ← e2]
    exact tm

/-! ## The hypotheses are met -/

/-- A sea of two metres and ten seconds between 0.5 and 2 rad/s: the limit is below two metres, and each step of the theorem applies. -/
example : ∃ H, H < 2 ∧ ∀ ε > 0, ∃ N : ℕ, ∀ n ≥ N, ∃ amps, getWaveAmplitudesRange (piersonMoskowitz 2 0.6) n 0.5 2 = some amps ∧ amps.length = n ∧ |4 * √(energySum amps) - H| < ε := by
  obtain ⟨H, -, -, h1, -, h2⟩ := C193_height 2 _ _ ⟨0.6, by norm_num, Or.inl ⟨rfl, rfl⟩⟩ (by norm_num) 0.5 2 (by norm_num) (by norm_num)
  exact ⟨H, h1, h2⟩

/-- With the band wide enough the whole height is found up to what is wished: here 1 % with JONSWAP of peak frequency 1 between 0.2 and 10 rad/s. -/
example : ∃ H, 0.99 * 3 ≤ H ∧ H < 3 ∧ ∀ ε > 0, ∃ N : ℕ, ∀ n ≥ N, ∃ amps, getWaveAmplitudesRange (jonswap 3 1 1) n 0.2 10 = some amps ∧ amps.length = n ∧ |4 * √(energySum amps) - H| < ε := by
  obtain ⟨H, -, -, h1, h3, h2⟩ := C193_height 3 _ _ ⟨1, by norm_num, Or.inr ⟨rfl, rfl⟩⟩ (by norm_num) 0.2 10 (by norm_num) (by norm_num)
  exact ⟨H, le_trans (by norm_num) h3, h1, h2⟩

/-- Unequal steps are covered: 1, 1.5, 2.5, 2.75, 3. -/
example : Covers 1 3 1 [1, 1.5, 2.5, 2.75, 3] := by
  refine ⟨rfl, rfl, by norm_num, ?_, by norm_num⟩
  intro i hi
  have : i + 1 < 5 := by simpa using hi
  have : i < 4 := by omega
  interval_cases i <;> norm_num

/-- For any number of frequencies from four up there is a sea meeting the hypotheses of `C193_sea` on the band from 0.5 to 2 rad/s. -/
theorem refined_ready {seeded : ℤ → ℕ → ℝ} {r : Option (ℝ → ℝ)} {draw : ℕ → ℝ} (n : ℕ) (hn : 4 ≤ n) :
    ∃ f g, Ready seeded [(deepSea, .spectrum .pm 2 10), (deepSea, .frequencies 0.5 2 n)] deepSea r draw f g ∧ f.spectrum.dir = none ∧
      f.spectrum.eval = piersonMoskowitz 2 (2 * π / 10) ∧ g.view.freq 0 = 0.5 ∧ g.view.freq (g.view.nbFreq - 1) = 2 ∧ g.view.nbFreq = n := by
  have hrun : ∃ f, Irr.run seeded [(deepSea, .spectrum .pm 2 10), (deepSea, .frequencies 0.5 2 n)] (Irr.new deepSea) = .ok f ∧ f.nbFreq = n ∧ f.nbDir = 1 ∧ f.spectrum.dir = none ∧
      f.spectrum.eval = piersonMoskowitz 2 (2 * π / 10) := by
    let f₂ : Irr := (Irr.new deepSea).setSpectrum .pm 2 10
    let f₃ : Irr := { f₂ with
        minFreq := 0.5, maxFreq := 2, nbFreq := n, freqs := linspaceList 0.5 2 n, ks := (linspaceList 0.5 2 n).map fun freq => freq ^ 2 / deepSea.gravity }
    have hset : f₂.setFrequencies deepSea 0.5 2 n = .ok f₃ := by
      unfold Irr.setFrequencies
      rw [if_pos ⟨by norm_num, by norm_num, by omega⟩, if_neg (show n ≠ 1 by omega)]
      rfl
    refine ⟨f₃, ?_, rfl, rfl, rfl, rfl⟩
    show ((f₂.setFrequencies deepSea 0.5 2 n).bind fun f => .ok f) = _
    rw [hset]; rfl
  obtain ⟨f, h1, h2, h3, h4, h5⟩ := hrun
  obtain ⟨g, hg⟩ := C165_succeeds (r := r) (draw := draw) deepSea h1 (show (0 : ℝ) < deepSea.gravity by norm_num [deepSea]) rfl (by rw [h2]; omega) (by rw [h3]; norm_num) (fun _ => h3)
  refine ⟨f, g, hg, h4, h5, ?_⟩
  obtain ⟨-, min, max, θ₀, θ₁, -, -, hb, hf, -⟩ := C165_components hg
  rcases hb with hb | ⟨hb, -⟩
  · have e : some ((0.5 : ℝ), (2 : ℝ), n) = some (min, max, g.view.nbFreq) := hb
    simp only [Option.some.injEq, Prod.mk.injEq] at e
    obtain ⟨rfl, rfl, e⟩ := e
    rw [← e] at hf ⊢
    have hn4 : (4 : ℝ) ≤ n := by exact_mod_cast hn
    refine ⟨?_, ?_, rfl⟩
    · rw [hf 0 (by omega), spaced, if_neg (by omega)]; simp
    · rw [hf (n - 1) (by omega), spaced, if_neg (by omega), Nat.cast_sub (by omega), Nat.cast_one]
      have : (n : ℝ) - 1 ≠ 0 := by linarith
      field_simp
      ring
  · have e : some ((0.5 : ℝ), (2 : ℝ), n) = none := hb
    cases e

/-- Such seas do come as close as wished to the limit: `C193_sea` applies to them. -/
example (ε : ℝ) (hε : 0 < ε) : ∃ (f g : Irr) (m : ℝ), Ready (fun _ _ => 0) [(deepSea, .spectrum .pm 2 10), (deepSea, .frequencies 0.5 2 g.view.nbFreq)] deepSea none (fun _ => 0) f g ∧
    |m - ∫ w in (0.5 : ℝ)..2, piersonMoskowitz 2 (2 * π / 10) w| < ε ∧ ∀ (depth x y : ℝ) (fc : FC), TimeMean (fun t => (g.view.update none depth t).elevation x y fc ^ 2) m := by
  have st : IsStandard 2 _ (piersonMoskowitz 2 (2 * π / 10)) := ⟨2 * π / 10, by positivity, Or.inl ⟨rfl, rfl⟩⟩
  obtain ⟨N, hN⟩ := C193_sea (piersonMoskowitz 2 (2 * π / 10)) 0.5 2 (by norm_num) (st.cont (by norm_num)) (fun w hw => st.nonneg hw) ε hε
  obtain ⟨f, g, h, h1, h2, h3, h4, h5⟩ := refined_ready (seeded := fun _ _ => 0) (r := none) (draw := fun _ => 0) (N + 4) (by omega)
  obtain ⟨m, hm, hT⟩ := hN _ _ _ _ _ _ _ h h1 h2 h3 h4 (by omega) (Or.inl rfl)
  rw [← h5] at h
  exact ⟨f, g, m, h, hm, hT⟩

end Frydom.Waves
