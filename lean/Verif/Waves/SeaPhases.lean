import Verif.Waves.SeaEnergy
import Mathlib.Probability.Distributions.Uniform
import Mathlib.Probability.Independence.Integration
import Mathlib.Probability.Independence.InfinitePi

/-!
# Elevation of an irregular sea over the random phases (C187)

`FrAiryIrregularWaveField::GenerateRandomWavePhases` (FrAiryIrregularWaveField.cpp:235-255) draws the phases with `std::uniform_real_distribution<double>(0., 2. * M_PI)`: here they are independent uniform random variables.
-/

open Classical MeasureTheory ProbabilityTheory

noncomputable section

namespace Frydom.Waves
open Real Frydom.Geom

variable {Ω : Type} [MeasurableSpace Ω] {P : Measure Ω} [IsProbabilityMeasure P]

/-- A number drawn uniformly over a turn. -/
structure UniformTurn (P : Measure Ω) (φ : Ω → ℝ) : Prop where
  measurable : Measurable φ
  uniform : pdf.IsUniform φ (Set.Icc 0 (2 * π)) P volume

/-- The phases of `n` directions and `m` frequencies, drawn independently, uniformly over a turn. -/
structure RandomPhases (P : Measure Ω) (n m : ℕ) (φ : ℕ → ℕ → Ω → ℝ) : Prop where
  turn : ∀ i < n, ∀ j < m, UniformTurn P (φ i j)
  independent : ∀ i < n, ∀ j < m, ∀ i' < n, ∀ j' < m, (i, j) ≠ (i', j') → IndepFun (φ i j) (φ i' j') P

theorem UniformTurn.mean {φ : Ω → ℝ} (h : UniformTurn P φ) (g : ℝ → ℝ) (hg : Continuous g) :
    ∫ ω, g (φ ω) ∂P = (2 * π)⁻¹ * ∫ t in (0:ℝ)..(2 * π), g t := by
  have e := integral_map (μ := P) h.measurable.aemeasurable (f := g) hg.aestronglyMeasurable
  have hu : Measure.map φ P = ProbabilityTheory.cond volume (Set.Icc 0 (2 * π)) := h.uniform
  rw [← e, hu, ProbabilityTheory.cond, integral_smul_measure, intervalIntegral.integral_of_le (by positivity), ← integral_Icc_eq_integral_Ioc]
  have : volume (Set.Icc (0:ℝ) (2 * π)) = ENNReal.ofReal (2 * π) := by rw [Real.volume_Icc, sub_zero]
  rw [this, ENNReal.toReal_inv, ENNReal.toReal_ofReal (by positivity), smul_eq_mul]

theorem UniformTurn.mean_sin {φ : Ω → ℝ} (h : UniformTurn P φ) (α : ℝ) : ∫ ω, sin (φ ω + α) ∂P = 0 := by
  rw [h.mean (fun t => sin (t + α)) (by fun_prop)]
  have : ∫ t in (0:ℝ)..(2 * π), sin (t + α) = 0 := by
    rw [intervalIntegral.integral_comp_add_right (fun t => sin t), integral_sin, zero_add, add_comm, cos_add_two_pi, sub_self]
  rw [this, mul_zero]

theorem UniformTurn.mean_sq {φ : Ω → ℝ} (h : UniformTurn P φ) (α : ℝ) : ∫ ω, sin (φ ω + α) ^ 2 ∂P = 1 / 2 := by
  rw [h.mean (fun t => sin (t + α) ^ 2) (by fun_prop)]
  have : ∫ t in (0:ℝ)..(2 * π), sin (t + α) ^ 2 = π := by
    rw [intervalIntegral.integral_comp_add_right (fun t => sin t ^ 2), integral_sin_sq, zero_add, add_comm (2 * π) α, sin_add_two_pi, cos_add_two_pi]
    ring
  rw [this]
  have := pi_pos
  field_simp

theorem bounded_integrable {f : Ω → ℝ} (hf : Measurable f) {C : ℝ} (h : ∀ ω, |f ω| ≤ C) : Integrable f P :=
  Integrable.of_bound hf.aestronglyMeasurable C (Filter.Eventually.of_forall h)

/-- **C187, over the phases.** When the phases of the components are drawn independently and uniformly over a turn, then at every point, at every instant and in both conventions, whatever the number of directions and
of frequencies (equal frequencies included), the expected elevation is zero and the expected square of the elevation is the square of the ramp times half the sum of the squares of the amplitudes. -/
theorem C187_random_phases (f : Airy) {φ : ℕ → ℕ → Ω → ℝ} (h : RandomPhases P f.nbDir f.nbFreq φ) (x y : ℝ) (fc : FC) :
    ∫ ω, ({ f with phase := fun i j => φ i j ω } : Airy).elevation x y fc ∂P = 0 ∧
    ∫ ω, ({ f with phase := fun i j => φ i j ω } : Airy).elevation x y fc ^ 2 ∂P =
      f.ramp ^ 2 * ∑ i ∈ Finset.range f.nbDir, ∑ j ∈ Finset.range f.nbFreq, f.amp i j ^ 2 / 2 := by
  obtain ⟨S, hS⟩ : ∃ S, S = Finset.range f.nbDir ×ˢ Finset.range f.nbFreq := ⟨_, rfl⟩
  obtain ⟨α, hα⟩ : ∃ α : ℕ × ℕ → ℝ, α = fun p => f.k p.2 * (x * cos (f.dir p.1) + nwuSign fc * y * sin (f.dir p.1)) - f.freq p.2 * f.time := ⟨_, rfl⟩
  have e : ∀ ω, ({ f with phase := fun i j => φ i j ω } : Airy).elevation x y fc = ∑ p ∈ S, f.amp p.1 p.2 * f.ramp * nwuSign fc * sin (φ p.1 p.2 ω + α p) := by
    intro ω
    unfold Airy.elevation
    rw [hS, Finset.sum_product]
    refine Finset.sum_congr rfl fun i _ => Finset.sum_congr rfl fun j _ => ?_
    rw [Airy.ce_im]
    simp only [Airy.ph, hα]
    rw [add_comm (φ i j ω)]
  have turn : ∀ p ∈ S, UniformTurn P (φ p.1 p.2) := fun p hp => by
    rw [hS] at hp
    simp only [Finset.mem_product, Finset.mem_range] at hp
    exact h.turn _ hp.1 _ hp.2
  have meas : ∀ p ∈ S, Measurable fun ω => sin (φ p.1 p.2 ω + α p) := fun p hp => measurable_sin.comp ((turn p hp).measurable.add_const _)
  have int1 : ∀ p ∈ S, Integrable (fun ω => sin (φ p.1 p.2 ω + α p)) P := fun p hp => bounded_integrable (meas p hp) (C := 1) fun ω => abs_sin_le_one _
  have int2 : ∀ p ∈ S, ∀ q ∈ S, Integrable (fun ω => sin (φ p.1 p.2 ω + α p) * sin (φ q.1 q.2 ω + α q)) P := fun p hp q hq =>
    bounded_integrable ((meas p hp).mul (meas q hq)) (C := 1) fun ω => by
      rw [abs_mul]
      exact mul_le_one₀ (abs_sin_le_one _) (abs_nonneg _) (abs_sin_le_one _)
  constructor
  · simp only [e]
    rw [integral_finsetSum _ fun p hp => (int1 p hp).const_mul _]
    refine Finset.sum_eq_zero fun p hp => ?_
    rw [integral_const_mul, (turn p hp).mean_sin, mul_zero]
  · have e2 : ∀ ω, (∑ p ∈ S, f.amp p.1 p.2 * f.ramp * nwuSign fc * sin (φ p.1 p.2 ω + α p)) ^ 2 =
        ∑ p ∈ S, ∑ q ∈ S, f.ramp ^ 2 * (f.amp p.1 p.2 * f.amp q.1 q.2) * (sin (φ p.1 p.2 ω + α p) * sin (φ q.1 q.2 ω + α q)) := by
      intro ω
      have hs : nwuSign fc * nwuSign fc = 1 := by cases fc <;> norm_num [nwuSign]
      rw [sq, Finset.sum_mul_sum]
      refine Finset.sum_congr rfl fun p _ => Finset.sum_congr rfl fun q _ => ?_
      linear_combination f.ramp ^ 2 * (f.amp p.1 p.2 * f.amp q.1 q.2) * (sin (φ p.1 p.2 ω + α p) * sin (φ q.1 q.2 ω + α q)) * hs
    simp only [e, e2]
    rw [integral_finsetSum _ fun p hp => integrable_finset_sum _ fun q hq => (int2 p hp q hq).const_mul _, Finset.mul_sum]
    simp only [Finset.mul_sum]
    rw [← Finset.sum_product (f := fun p : ℕ × ℕ => f.ramp ^ 2 * (f.amp p.1 p.2 ^ 2 / 2)), ← hS]
    refine Finset.sum_congr rfl fun p hp => ?_
    rw [integral_finsetSum _ fun q hq => (int2 p hp q hq).const_mul _, Finset.sum_eq_single p]
    · rw [integral_const_mul]
      have := (turn p hp).mean_sq (α p)
      simp only [sq] at this
      rw [this]; ring
    · intro q hqs hq
      have b1 := hS ▸ hp
      have b2 := hS ▸ hqs
      simp only [Finset.mem_product, Finset.mem_range] at b1 b2
      rw [integral_const_mul, IndepFun.integral_fun_comp_mul_comp (f := fun t => sin (t + α p)) (g := fun t => sin (t + α q)) (h.independent p.1 b1.1 p.2 b1.2 q.1 b2.1 q.2 b2.2 hq.symm)
        (turn p hp).measurable.aemeasurable (turn q hqs).measurable.aemeasurable (by fun_prop) (by fun_prop), (turn p hp).mean_sin, zero_mul, mul_zero]
    · intro hn; exact absurd hp hn

/-- Fields initialised with two draws of the random device differ by the phases only. -/
theorem Irr.init_draws {f g : Irr} {sea : Sea} {r : Option (ℝ → ℝ)} {d e : ℕ → ℝ} (hf : f.fromFile = false) (h : f.init sea r d = .ok g) :
    f.init sea r e = .ok { g with phases := (List.range g.dirs.length).map fun i => (List.range g.freqs.length).map fun j => e (i * g.freqs.length + j) } := by
  unfold Irr.init at h ⊢
  simp only at h ⊢
  have hb : ¬ (f.baseInit sea).fromFile = true := by
    show ¬ f.fromFile = true
    rw [hf]; simp
  rw [if_neg hb] at h ⊢
  cases h1 : (f.baseInit sea).fillDirs.band with
  | error _ => rw [h1] at h; cases h
  | ok b =>
    rw [h1] at h
    cases h2 : (f.baseInit sea).fillDirs.setFrequencies sea b.1 b.2 (f.baseInit sea).fillDirs.nbFreq with
    | error _ =>
      change ((f.baseInit sea).fillDirs.setFrequencies sea b.1 b.2 (f.baseInit sea).fillDirs.nbFreq).bind _ = _ at h
      rw [h2] at h; cases h
    | ok F =>
      change ((f.baseInit sea).fillDirs.setFrequencies sea b.1 b.2 (f.baseInit sea).fillDirs.nbFreq).bind _ = _ at h ⊢
      rw [h2] at h ⊢
      obtain rfl := Except.ok.inj h
      rfl

/-- Numbers drawn one after the other, independently, uniformly over a turn (`std::uniform_real_distribution<double>(0., 2. * M_PI)`). -/
structure RandomDraws (P : Measure Ω) (U : ℕ → Ω → ℝ) : Prop where
  turn : ∀ n, UniformTurn P (U n)
  independent : ∀ n m, n ≠ m → IndepFun (U n) (U m) P

/-- **C187, over the draws of the random device.** Whatever the calls made before, if the numbers drawn by `Initialize` are independent and uniform over a turn then, at every point, at every instant and in both
conventions, the expected elevation is zero and the expected square of the elevation is the square of the ramp times the sum over the components of half the square of the amplitude, i.e. of
`S(w_j) D(θ_i) Δθ Δw`: the directional spreading included. -/
theorem C187_draws {seeded : ℤ → ℕ → ℝ} {ops : List (Sea × SetOp)} {sea : Sea} {r : Option (ℝ → ℝ)} {f : Irr} {U : ℕ → Ω → ℝ} (hU : RandomDraws P U) {G : Ω → Irr}
    (h : ∀ ω, Ready seeded ops sea r (fun n => U n ω) f (G ω)) (ω₀ : Ω) (depth t x y : ℝ) (fc : FC) :
    ∫ ω, ((G ω).view.update r depth t).elevation x y fc ∂P = 0 ∧
    ∫ ω, ((G ω).view.update r depth t).elevation x y fc ^ 2 ∂P =
      (((G ω₀).view.update r depth t).ramp) ^ 2 * ∑ i ∈ Finset.range (G ω₀).view.nbDir, ∑ j ∈ Finset.range (G ω₀).view.nbFreq, (G ω₀).view.amp i j ^ 2 / 2 := by
  obtain ⟨g, hg⟩ : ∃ g, g = G ω₀ := ⟨_, rfl⟩
  have same : ∀ ω, G ω = { g with phases := (List.range g.dirs.length).map fun i => (List.range g.freqs.length).map fun j => U (i * g.freqs.length + j) ω } := by
    intro ω
    have := Irr.init_draws (e := fun n => U n ω) (h ω₀).inv.file (h ω₀).inited
    rw [(h ω).inited, ← hg] at this
    exact Except.ok.inj this
  have elev : ∀ ω, ((G ω).view.update r depth t).elevation x y fc =
      ({ g.view.update r depth t with phase := fun i j => U (i * g.view.nbFreq + j) ω } : Airy).elevation x y fc := by
    intro ω
    have hp := (C165_phases (h ω)).1
    have e1 : (G ω).view.nbDir = g.view.nbDir := by rw [same ω]; rfl
    have e2 : (G ω).view.nbFreq = g.view.nbFreq := by rw [same ω]; rfl
    rw [e1, e2] at hp
    have e3 : (G ω).view = { g.view with phase := (G ω).view.phase } := by rw [same ω]; rfl
    rw [e3]
    unfold Airy.elevation
    refine Finset.sum_congr rfl fun i hi => Finset.sum_congr rfl fun j hj => ?_
    rw [Airy.ce_im, Airy.ce_im]
    simp only [Airy.ph, Airy.update]
    rw [hp i (Finset.mem_range.mp hi) j (Finset.mem_range.mp hj)]
  have rp : RandomPhases P g.view.nbDir g.view.nbFreq fun i j => U (i * g.view.nbFreq + j) := by
    refine ⟨fun i _ j _ => hU.turn _, fun i _ j hj i' _ j' hj' hne => hU.independent _ _ fun e => hne ?_⟩
    have hn : g.view.nbFreq = (G ω₀).view.nbFreq := by rw [hg]
    obtain ⟨a, b⟩ := (C165_phases (h ω₀)).2.1 i i' j j' (hn ▸ hj) (hn ▸ hj') (hn ▸ e)
    rw [a, b]
  simp only [elev, ← hg]
  exact C187_random_phases (g.view.update r depth t) rp x y fc

/-- The hypotheses of `C187_random_phases` and `C187_draws` are met: independent uniform draws exist, and with any of them the sea of `demo_ready` is initialised. -/
theorem demo_draws : ∃ (Ω : Type) (_ : MeasurableSpace Ω) (P : Measure Ω) (_ : IsProbabilityMeasure P) (U : ℕ → Ω → ℝ), RandomDraws P U := by
  have h0 : volume (Set.Icc (0:ℝ) (2 * π)) ≠ 0 := by
    rw [Real.volume_Icc, sub_zero]
    simp [pi_pos]
  have ht : volume (Set.Icc (0:ℝ) (2 * π)) ≠ ⊤ := by rw [Real.volume_Icc]; exact ENNReal.ofReal_ne_top
  haveI : IsProbabilityMeasure (ProbabilityTheory.cond (volume : Measure ℝ) (Set.Icc 0 (2 * π))) := ProbabilityTheory.cond_isProbabilityMeasure_of_finite h0 ht
  refine ⟨ℕ → ℝ, inferInstance, Measure.infinitePi fun _ => ProbabilityTheory.cond volume (Set.Icc 0 (2 * π)), inferInstance, fun n ω => ω n, fun n => ⟨by fun_prop, ?_⟩, fun n m hne => ?_⟩
  · exact Measure.infinitePi_map_eval _ n
  · exact (iIndepFun_infinitePi (P := fun _ : ℕ => ProbabilityTheory.cond (volume : Measure ℝ) (Set.Icc 0 (2 * π))) (X := fun _ ω => ω) (by fun_prop)).indepFun hne

example : ∃ (Ω : Type) (_ : MeasurableSpace Ω) (P : Measure Ω) (_ : IsProbabilityMeasure P) (U : ℕ → Ω → ℝ) (f : Irr) (G : Ω → Irr),
    RandomDraws P U ∧ ∀ ω, Ready (fun _ _ => 0) demoCalls deepSea none (fun n => U n ω) f (G ω) := by
  obtain ⟨Ω, mΩ, P, hP, U, hU⟩ := demo_draws
  obtain ⟨f, g, hg, -⟩ := demo_ready (seeded := fun _ _ => 0) (r := none) (draw := fun _ => 0)
  exact ⟨Ω, mΩ, P, hP, U, f, _, hU, fun ω => ⟨hg.built, Irr.init_draws hg.inv.file hg.inited⟩⟩

end Frydom.Waves
