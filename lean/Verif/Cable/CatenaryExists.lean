import Mathlib.Analysis.Calculus.ParametricIntervalIntegral
import Mathlib.Analysis.Calculus.LocalExtr.Basic
import Mathlib.MeasureTheory.Integral.DivergenceTheorem
import Mathlib.MeasureTheory.Integral.DominatedConvergence
import Mathlib.Analysis.SpecialFunctions.Integrals.Basic
import Verif.Cable.CatenaryUnique

/-!
# Catenary line: existence of the equilibrium (C96)

The equation solved by `FrCatenaryLine::solve` (src/frydom/cable/FrCatenaryLine.cpp) has a solution: the minimum of the complementary energy of the line.
-/

open Classical

noncomputable section

namespace Frydom.Cable
open Frydom.Geom Frydom.Core MeasureTheory

/-- The vector from the starting node to the ending node. -/
def span (l : Line) : V3 := l.stop.positionInWorld .NWU - l.start.positionInWorld .NWU

/-- Complementary energy of the line under the tension `t` at its starting node. -/
def energy (l : Line) (t : V3) : ℝ :=
  (∫ s in (0)..l.len, N (withT0 l t) s) + compliance l / 2 * (l.len * V3.dot t t + l.q * l.len ^ 2 * t.z) - V3.dot t (span l)

theorem N_eq_norm (l : Line) (t : V3) (s : ℝ) : N (withT0 l t) s = V3.norm (t + ⟨0, 0, l.q * s⟩) := by
  unfold N V3.norm V3.dot withT0
  simp

theorem N_lip (l : Line) (t d : V3) (s x y : ℝ) : |N (withT0 l (t + x • d)) s - N (withT0 l (t + y • d)) s| ≤ V3.norm d * |x - y| := by
  have key : ∀ x y : ℝ, N (withT0 l (t + x • d)) s ≤ N (withT0 l (t + y • d)) s + V3.norm d * |x - y| := by
    intro x y
    rw [N_eq_norm, N_eq_norm]
    have e : t + x • d + ⟨0, 0, l.q * s⟩ = (t + y • d + ⟨0, 0, l.q * s⟩) + (x - y) • d := by ext <;> simp <;> ring
    rw [e]
    refine (norm_add_le _ _).trans (le_of_eq ?_)
    congr 1
    have h2 : V3.norm ((x - y) • d) ^ 2 = (V3.norm d * |x - y|) ^ 2 := by
      rw [V3.norm_sq, mul_pow, V3.norm_sq, sq_abs]
      simp [V3.dot]; ring
    exact (sq_eq_sq₀ (V3.norm_nonneg _) (mul_nonneg (V3.norm_nonneg _) (abs_nonneg _))).mp h2
  rw [abs_le]
  have h1 := key x y
  have h2 := key y x
  rw [abs_sub_comm] at h2
  constructor <;> linarith

theorem N_joint (l : Line) : Continuous (fun p : (ℝ × ℝ × ℝ) × ℝ => N (withT0 l ⟨p.1.1, p.1.2.1, p.1.2.2⟩) p.2) := by
  unfold N withT0
  fun_prop

/-- Derivative of the integral of the tension: the chord of the inextensible line. -/
theorem energy_along (l : Line) (h : Loaded l) (hq : l.q ≠ 0) (t d : V3) :
    HasDerivAt (fun x : ℝ => ∫ s in (0)..l.len, N (withT0 l (t + x • d)) s)
      (V3.dot d ((withT0 l t).chord l.len .NWU)) 0 := by
  have hB := withT0_loaded h t
  have hne : ∀ s, s ≠ -t.z / l.q → 0 < N (withT0 l t) s := fun s hs => N_pos hB (tension_ne hB hq s hs)
  have hae : ∀ᵐ s ∂(volume : Measure ℝ), s ≠ -t.z / l.q := by
    have : ({-t.z / l.q} : Set ℝ)ᶜ ∈ ae (volume : Measure ℝ) := by
      rw [mem_ae_iff, compl_compl]; exact measure_singleton _
    exact this
  have hm := intervalIntegral.hasDerivAt_integral_of_dominated_loc_of_lip (μ := volume) (a := 0) (b := l.len) (x₀ := (0 : ℝ)) (s := Set.univ)
    (F := fun x s => N (withT0 l (t + x • d)) s) (F' := fun s => (t.x * d.x + t.y * d.y + (t.z + l.q * s) * d.z) / N (withT0 l t) s) (bound := fun _ => V3.norm d)
    Filter.univ_mem
    (Filter.Eventually.of_forall fun x => (N_cont _).aestronglyMeasurable)
    ((N_cont _).intervalIntegrable _ _)
    (by
      refine Measurable.aestronglyMeasurable ?_
      have := (N_cont (withT0 l t)).measurable
      fun_prop)
    (Filter.Eventually.of_forall fun s _ => LipschitzOnWith.of_dist_le_mul fun x _ y _ => by
      rw [Real.dist_eq, Real.dist_eq, Real.coe_nnabs, abs_of_nonneg (V3.norm_nonneg d)]
      exact N_lip l t d s x y)
    (continuous_const.intervalIntegrable _ _)
    (by
      filter_upwards [hae] with s hs _
      exact N_along (withT0 l t) d s (hne s hs))
  obtain ⟨hi, hd⟩ := hm
  refine hd.congr_deriv ?_
  -- the chord by the fundamental theorem
  obtain ⟨l', hl'⟩ : ∃ l' : Line, l' = { withT0 l t with elastic := false } := ⟨_, rfl⟩
  have hL' : Loaded l' := by rw [hl']; exact ⟨h.1, h.2⟩
  have hq' : l'.q ≠ 0 := by rw [hl']; exact hq
  have hC := C91_cable l' hL' hq'
  have hk : compliance l' = 0 := by rw [hl']; rfl
  obtain ⟨cx, cy, cz⟩ := pos_cont hL' hq'
  have ft := integral_eq_of_hasDerivAt_off_countable (fun s => V3.dot d (l'.position s .NWU)) (fun s => (t.x * d.x + t.y * d.y + (t.z + l.q * s) * d.z) / N (withT0 l t) s)
    (a := 0) (b := l.len) (s := {-t.z / l.q}) (Set.countable_singleton _)
    (by
      refine Continuous.continuousOn ?_
      unfold V3.dot
      fun_prop)
    (by
      intro s hs
      have hs' : s ≠ -t.z / l.q := hs.2
      have hten : l'.tension s .NWU ≠ 0 := tension_ne hL' hq' s (by rw [hl']; exact hs')
      obtain ⟨a1, a2, a3⟩ := hC.tangent s hten
      have e := ((a1.const_mul d.x).add (a2.const_mul d.y)).add (a3.const_mul d.z)
      have eN : V3.norm (l'.tension s .NWU) = N (withT0 l t) s := by rw [norm_tension hL', hl']; rfl
      have eT : l'.tension s .NWU = ⟨t.x, t.y, t.z + l.q * s⟩ := by rw [tension_eq hL', hl']; rfl
      refine e.congr_deriv ?_
      rw [hk, eN, eT]
      simp only [V3.smul_x, V3.smul_y, V3.smul_z, zero_mul, add_zero, one_mul]
      ring)
    hi
  rw [ft]
  have e1 : l'.position l.len .NWU = l.start.positionInWorld .NWU + (withT0 l t).chord l.len .NWU := by
    have ee : l'.elasticIncrement l.len .NWU = 0 := by rw [elastic_eq hq', hk]; ext <;> simp
    have ec : l'.chord l.len .NWU = (withT0 l t).chord l.len .NWU := by rw [hl']; rfl
    have es : l'.start = l.start := by rw [hl']; rfl
    unfold Line.position
    rw [ee, ec, es]
    ext <;> simp
  have e0 : l'.position 0 .NWU = l.start.positionInWorld .NWU := by rw [position_zero, hl']; rfl
  simp only [e1, e0]
  simp [V3.dot]
  ring

/-- The derivative of the energy is the residual. -/
theorem energy_deriv (l : Line) (h : Loaded l) (hq : l.q ≠ 0) (t d : V3) :
    HasDerivAt (fun x : ℝ => energy l (t + x • d)) (V3.dot d ((withT0 l t).residual .NWU)) 0 := by
  have h1 := energy_along l h hq t d
  have hx := lin_deriv t.x d.x
  have hy := lin_deriv t.y d.y
  have hz := lin_deriv t.z d.z
  have h2 := (((hx.mul hx).add (hy.mul hy)).add (hz.mul hz)).const_mul l.len
  have h3 := (h2.add (hz.const_mul (l.q * l.len ^ 2))).const_mul (compliance l / 2)
  have h4 := ((hx.mul_const (span l).x).add (hy.mul_const (span l).y)).add (hz.mul_const (span l).z)
  refine ((h1.add h3).sub h4).congr_deriv ?_
  have hp : (withT0 l t).residual .NWU = (l.start.positionInWorld .NWU + (withT0 l t).chord l.len .NWU + (withT0 l t).elasticIncrement l.len .NWU) - l.stop.positionInWorld .NWU := rfl
  rw [hp, elastic_eq (show (withT0 l t).q ≠ 0 from hq)]
  have hc : compliance (withT0 l t) = compliance l := rfl
  rw [hc]
  simp only [V3.dot, span, V3.add_x, V3.add_y, V3.add_z, V3.sub_x, V3.sub_y, V3.sub_z, withT0]
  ring

theorem energy_cont (l : Line) : Continuous (fun p : ℝ × ℝ × ℝ => energy l ⟨p.1, p.2.1, p.2.2⟩) := by
  unfold energy
  refine Continuous.sub (Continuous.add ?_ ?_) ?_
  · exact intervalIntegral.continuous_parametric_intervalIntegral_of_continuous (f := fun (p : ℝ × ℝ × ℝ) s => N (withT0 l ⟨p.1, p.2.1, p.2.2⟩) s) (N_joint l) continuous_const
  · unfold V3.dot; fun_prop
  · unfold V3.dot; fun_prop

/-- The energy grows with the tension. -/
theorem energy_lower (l : Line) (hL : 0 < l.len) (hk : 0 ≤ compliance l) (t : V3) :
    l.len * V3.norm t - |l.q| * l.len ^ 2 / 2 + compliance l / 2 * (l.len * V3.norm t ^ 2 - |l.q| * l.len ^ 2 * V3.norm t) - V3.norm t * V3.norm (span l) ≤ energy l t := by
  unfold energy
  have h1 : l.len * V3.norm t - |l.q| * l.len ^ 2 / 2 ≤ ∫ s in (0)..l.len, N (withT0 l t) s := by
    have hm : ∫ s in (0)..l.len, (V3.norm t - |l.q| * s) ≤ ∫ s in (0)..l.len, N (withT0 l t) s := by
      refine intervalIntegral.integral_mono_on hL.le ?_ ((N_cont _).intervalIntegrable _ _) fun s hs => ?_
      · exact Continuous.intervalIntegrable (by fun_prop) _ _
      · rw [N_eq_norm]
        have e : t = (t + ⟨0, 0, l.q * s⟩) + ⟨0, 0, -(l.q * s)⟩ := by ext <;> simp
        have h2 := norm_add_le (t + ⟨0, 0, l.q * s⟩) ⟨0, 0, -(l.q * s)⟩
        rw [← e] at h2
        have h3 : V3.norm ⟨0, 0, -(l.q * s)⟩ = |l.q| * s := by
          unfold V3.norm V3.dot
          simp only [mul_zero, zero_add, neg_mul_neg]
          rw [Real.sqrt_mul_self_eq_abs, abs_mul, abs_of_nonneg hs.1]
        linarith
    have he : ∫ s in (0)..l.len, (V3.norm t - |l.q| * s) = l.len * V3.norm t - |l.q| * l.len ^ 2 / 2 := by
      rw [intervalIntegral.integral_sub (by simp) (Continuous.intervalIntegrable (by fun_prop) _ _)]
      rw [intervalIntegral.integral_const, intervalIntegral.integral_const_mul, integral_id]
      simp
      ring
    linarith
  have h2 := dot_le_norm t (span l)
  have h3 : -(|l.q| * l.len ^ 2 * V3.norm t) ≤ l.q * l.len ^ 2 * t.z := by
    have hz : |t.z| ≤ V3.norm t := by
      unfold V3.norm
      refine Real.abs_le_sqrt ?_
      unfold V3.dot
      nlinarith [mul_self_nonneg t.x, mul_self_nonneg t.y]
    have h4 : |l.q * l.len ^ 2 * t.z| ≤ |l.q| * l.len ^ 2 * V3.norm t := by
      rw [abs_mul, abs_mul, abs_of_nonneg (sq_nonneg l.len)]
      exact mul_le_mul_of_nonneg_left hz (by positivity)
    exact (abs_le.mp h4).1
  have h5 := V3.norm_sq t
  have h6 := mul_le_mul_of_nonneg_left (show l.len * V3.norm t ^ 2 - |l.q| * l.len ^ 2 * V3.norm t ≤ l.len * V3.dot t t + l.q * l.len ^ 2 * t.z by rw [h5]; linarith)
    (show 0 ≤ compliance l / 2 by linarith)
  linarith

/-- **C96, existence.** There is a tension that joins the nodes whenever the line is elastic, wherever the nodes, or when the unstrained length of a line that is not elastic is more than the distance of the nodes. -/
theorem C96_exists (l : Line) (h : Loaded l) (hq : l.q ≠ 0) (hL : 0 < l.len) (hEA : l.elastic = true → 0 < l.props.getEA)
    (hs : l.elastic = true ∨ V3.norm (l.stop.positionInWorld .NWU - l.start.positionInWorld .NWU) < l.len) :
    ∃ t, (withT0 l t).residual .NWU = 0 := by
  have hk : 0 ≤ compliance l := by
    unfold compliance
    split_ifs with he
    · exact (inv_pos.mpr (hEA he)).le
    · exact le_rfl
  obtain ⟨M, hM⟩ : ∃ M : ℝ, ∀ t, M ≤ V3.norm t → energy l ⟨0, 0, 0⟩ ≤ energy l t := by
    have hE0 := le_abs_self (energy l ⟨0, 0, 0⟩)
    have hE1 := abs_nonneg (energy l ⟨0, 0, 0⟩)
    generalize |energy l ⟨0, 0, 0⟩| = P at *
    have hqa := abs_nonneg l.q
    have hD := V3.norm_nonneg (span l)
    rcases Bool.eq_false_or_eq_true l.elastic with he | he
    · have hkp : 0 < compliance l := by unfold compliance; rw [if_pos he]; exact inv_pos.mpr (hEA he)
      obtain ⟨a, ha⟩ : ∃ a, a = compliance l / 2 * l.len := ⟨_, rfl⟩
      have hap : 0 < a := by rw [ha]; positivity
      obtain ⟨c, hc⟩ : ∃ c, c = compliance l / 2 * (|l.q| * l.len ^ 2) + V3.norm (span l) := ⟨_, rfl⟩
      have hcp : 0 ≤ c := by rw [hc]; positivity
      refine ⟨1 + (P + |l.q| * l.len ^ 2 / 2 + c) / a, fun t ht => ?_⟩
      have hb := energy_lower l hL hk t
      have hq2 : 0 ≤ |l.q| * l.len ^ 2 / 2 := by positivity
      generalize V3.norm t = r at *
      generalize |l.q| * l.len ^ 2 / 2 = w at *
      have h1 : 0 ≤ (P + w + c) / a := by positivity
      have hr : 1 ≤ r := by linarith
      have h2 : P + w + c ≤ a * r := by
        have h3 : (P + w + c) / a ≤ r := by linarith
        rwa [div_le_iff₀ hap, mul_comm] at h3
      have h4 : (P + w + c) * r ≤ a * r * r := mul_le_mul_of_nonneg_right h2 (by linarith)
      have h5 : (P + w) * 1 ≤ (P + w) * r := mul_le_mul_of_nonneg_left hr (by linarith)
      have h6 : 0 ≤ l.len * r := mul_nonneg hL.le (by linarith)
      have e : l.len * r - w + compliance l / 2 * (l.len * r ^ 2 - |l.q| * l.len ^ 2 * r) - r * V3.norm (span l) = l.len * r - w + a * r * r - c * r := by
        rw [ha, hc]; ring
      rw [e] at hb
      linarith
    · have he' : ¬ l.elastic = true := by rw [he]; simp
      have hsl : V3.norm (span l) < l.len := hs.resolve_left he'
      have hk0 : compliance l = 0 := if_neg he'
      refine ⟨(P + |l.q| * l.len ^ 2 / 2) / (l.len - V3.norm (span l)), fun t ht => ?_⟩
      have hb := energy_lower l hL hk t
      rw [hk0] at hb
      rw [div_le_iff₀ (by linarith)] at ht
      linarith
  obtain ⟨p, hp⟩ := (energy_cont l).exists_forall_le' (0, 0, 0) (by
    filter_upwards [(tendsto_norm_cocompact_atTop (E := ℝ × ℝ × ℝ)).eventually_ge_atTop M] with p hp
    refine hM _ (hp.trans ?_)
    have hc : ∀ v : V3, |v.x| ≤ V3.norm v ∧ |v.y| ≤ V3.norm v ∧ |v.z| ≤ V3.norm v := by
      intro v
      refine ⟨Real.abs_le_sqrt ?_, Real.abs_le_sqrt ?_, Real.abs_le_sqrt ?_⟩ <;> unfold V3.dot <;>
        nlinarith [mul_self_nonneg v.x, mul_self_nonneg v.y, mul_self_nonneg v.z]
    obtain ⟨h1, h2, h3⟩ := hc ⟨p.1, p.2.1, p.2.2⟩
    rw [Prod.norm_def, Prod.norm_def]
    exact max_le h1 (max_le h2 h3))
  refine ⟨⟨p.1, p.2.1, p.2.2⟩, ?_⟩
  have hz : ∀ d : V3, V3.dot d ((withT0 l ⟨p.1, p.2.1, p.2.2⟩).residual .NWU) = 0 := by
    intro d
    refine IsLocalMin.hasDerivAt_eq_zero (Filter.Eventually.of_forall fun x => ?_) (energy_deriv l h hq ⟨p.1, p.2.1, p.2.2⟩ d)
    have e0 : (⟨p.1, p.2.1, p.2.2⟩ : V3) + (0 : ℝ) • d = ⟨p.1, p.2.1, p.2.2⟩ := by ext <;> simp
    show energy l (⟨p.1, p.2.1, p.2.2⟩ + (0 : ℝ) • d) ≤ energy l (⟨p.1, p.2.1, p.2.2⟩ + x • d)
    rw [e0]
    exact hp (p.1 + x * d.x, p.2.1 + x * d.y, p.2.2 + x * d.z)
  have hx := hz ⟨1, 0, 0⟩
  have hy := hz ⟨0, 1, 0⟩
  have hzz := hz ⟨0, 0, 1⟩
  simp [V3.dot] at hx hy hzz
  ext
  · exact hx
  · exact hy
  · exact hzz

/-- **C96, the equilibrium of an elastic line.** Exactly one tension joins the nodes, wherever they are; when the solver reports success its tension is this one up to `sqrt 3 * tol * EA / L` at every abscissa. -/
theorem C96_equilibrium (inv : M3 → M3) (l : Line) (h : Loaded l) (hq : l.q ≠ 0) (hL : 0 < l.len) (he : l.elastic = true) (hEA : 0 < l.props.getEA) :
    ∃ t, (withT0 l t).residual .NWU = 0 ∧ (∀ t', (withT0 l t').residual .NWU = 0 → t' = t) ∧
      ∀ l' n, solve inv l = some (l', n) → n < max 1 l.itermax → ∀ s,
        V3.norm (l'.tension s .NWU - (withT0 l t).tension s .NWU) ≤ Real.sqrt 3 * l.tol * l.props.getEA / l.len := by
  obtain ⟨t, ht⟩ := C96_exists l h hq hL (fun _ => hEA) (Or.inl he)
  refine ⟨t, ht, fun t' ht' => ?_, fun l' n hs hn s => C96_converged inv l l' n h hq hL he hEA hs hn t ht s⟩
  exact C96_unique (withT0 l t) (withT0_loaded h t) hq hL (fun _ => hEA) (Or.inl he) t' ht ht'

/-- **C96, lines that are not elastic.** When the distance of the nodes is not the unstrained length, the nodes can be joined exactly when they are closer than this length. -/
theorem C96_reach (l : Line) (h : Loaded l) (hq : l.q ≠ 0) (hL : 0 < l.len) (he : l.elastic = false)
    (hne : V3.norm (l.stop.positionInWorld .NWU - l.start.positionInWorld .NWU) ≠ l.len) :
    (∃ t, (withT0 l t).residual .NWU = 0) ↔ V3.norm (l.stop.positionInWorld .NWU - l.start.positionInWorld .NWU) < l.len := by
  constructor
  · rintro ⟨t, ht⟩
    refine lt_of_le_of_ne ?_ hne
    have h1 := C93_too_short (withT0 l t) (withT0_loaded h t) hq hL.le he
    rw [ht, infNorm_zero, div_le_iff₀ (by positivity), zero_mul] at h1
    have h2 : V3.norm (l.stop.positionInWorld .NWU - l.start.positionInWorld .NWU) - l.len ≤ 0 := h1
    linarith
  · intro hs
    exact C96_exists l h hq hL (by rw [he]; simp) (Or.inr hs)

/-- Non-vacuity: a loaded elastic line of 100 m between any two nodes, and a line that is not elastic between nodes at the same place, have an equilibrium. -/
example (a b : Node) : ∃ l : Line, Loaded l ∧ l.q ≠ 0 ∧ 0 < l.len ∧ l.elastic = true ∧ 0 < l.props.getEA ∧ l.start = a ∧ l.stop = b ∧ ∃ t, (withT0 l t).residual .NWU = 0 := by
  have hl := initLoad_loaded (Line.new {} true 100 a b) 1025 9.81
  have hq : ((Line.new {} true 100 a b).initLoad 1025 9.81).q ≠ 0 := by
    show (616.538 - 0.05 * 1025) * (9.81 : ℝ) ≠ 0
    norm_num
  have hL : 0 < ((Line.new {} true 100 a b).initLoad 1025 9.81).len := by
    show (0 : ℝ) < 100
    norm_num
  have hE : 0 < ((Line.new {} true 100 a b).initLoad 1025 9.81).props.getEA := by
    show (0 : ℝ) < 3.1416e10 * 0.05
    norm_num
  exact ⟨_, hl, hq, hL, rfl, hE, rfl, rfl, C96_exists _ hl hq hL (fun _ => hE) (Or.inl rfl)⟩

example (a : Node) : ∃ l : Line, Loaded l ∧ l.elastic = false ∧ ∃ t, (withT0 l t).residual .NWU = 0 := by
  have hl := initLoad_loaded (Line.new {} false 100 a a) 1025 9.81
  refine ⟨_, hl, rfl, C96_exists _ hl ?_ ?_ ?_ (Or.inr ?_)⟩
  · show (616.538 - 0.05 * 1025) * (9.81 : ℝ) ≠ 0
    norm_num
  · show (0 : ℝ) < 100
    norm_num
  · intro h
    cases h
  · show V3.norm (a.positionInWorld .NWU - a.positionInWorld .NWU) < (100 : ℝ)
    have : a.positionInWorld .NWU - a.positionInWorld .NWU = (0 : V3) := by ext <;> simp
    rw [this]
    simp [V3.norm, V3.dot]

end Frydom.Cable
