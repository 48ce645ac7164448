import Mathlib.Analysis.Calculus.MeanValue
import Verif.Cable.CatenaryExists

/-!
# Catenary line: a conservative system (C194)

The forces which `FrCatenaryForce` (src/frydom/cable/FrCatenaryForce.cpp:29-51) applies to the bodies at the two ends of a `FrCatenaryLine`
(src/frydom/cable/FrCatenaryLine.cpp:102-168) give back the energy stored in the line: the strain energy of the cable and its weight times its height.
-/

open Classical

noncomputable section

namespace Frydom.Cable
open Frydom.Geom Frydom.Core MeasureTheory

/-! ## Specification -/

/-- Energy stored in the line in its present shape: per unit of unstrained length, the strain energy `T² / 2EA` (none for a line that is not elastic) and the weight in the fluid `q`
times the height above the mean surface. -/
def storedEnergy (l : Line) : ℝ :=
  ∫ s in (0)..l.len, (compliance l * V3.norm (l.tension s .NWU) ^ 2 / 2 + l.q * (l.position s .NWU).z)

/-- Two states of the same cable: the properties, the load per metre and the unstrained length are the same; the nodes and the tension may differ. -/
structure SameCable (l l' : Line) : Prop where
  props : l'.props = l.props
  elastic : l'.elastic = l.elastic
  load : l'.q = l.q
  length : l'.len = l.len

/-- Work of the two forces of the line `l` (held at their present values) when its ends move to those of `l'`. -/
def workTowards (l l' : Line) : ℝ :=
  V3.dot (l.startTension .NWU) (l'.start.positionInWorld .NWU - l.start.positionInWorld .NWU) +
    V3.dot (l.endTension .NWU) (l'.stop.positionInWorld .NWU - l.stop.positionInWorld .NWU)

/-! ## Lemmas -/

theorem SameCable.symm {l l' : Line} (h : SameCable l l') : SameCable l' l := ⟨h.1.symm, h.2.symm, h.3.symm, h.4.symm⟩

theorem SameCable.compliance {l l' : Line} (h : SameCable l l') : compliance l' = compliance l := by
  unfold Frydom.Cable.compliance
  rw [h.props, h.elastic]

theorem energy_same {l l' : Line} (h : SameCable l l') (t : V3) : energy l' t = energy l t - V3.dot t (span l' - span l) := by
  have e : ∀ s, N (withT0 l' t) s = N (withT0 l t) s := by
    intro s
    unfold N withT0
    rw [h.load]
  unfold energy
  simp only [e, h.length, h.load, h.compliance]
  simp only [V3.dot, V3.sub_x, V3.sub_y, V3.sub_z]
  ring

/-- The tension of a solved line has the least complementary energy. -/
theorem energy_min (l : Line) (h : Loaded l) (hq : l.q ≠ 0) (hL : 0 ≤ l.len) (hk : 0 ≤ compliance l) (hr : l.residual .NWU = 0) (t : V3) :
    energy l l.t0 ≤ energy l t := by
  obtain ⟨d, hd⟩ : ∃ d : V3, d = t - l.t0 := ⟨_, rfl⟩
  have hder : ∀ x : ℝ, HasDerivAt (fun x : ℝ => energy l (l.t0 + x • d)) (V3.dot d ((withT0 l (l.t0 + x • d)).residual .NWU)) x := by
    intro x
    have h1 := energy_deriv l h hq (l.t0 + x • d) d
    have h2 : HasDerivAt (fun y : ℝ => y - x) 1 x := (hasDerivAt_id x).sub_const x
    have h3 : HasDerivAt (fun z : ℝ => energy l (l.t0 + x • d + z • d)) (V3.dot d ((withT0 l (l.t0 + x • d)).residual .NWU)) ((fun y : ℝ => y - x) x) := by
      simpa using h1
    have h4 := HasDerivAt.comp (h := fun y : ℝ => y - x) (h₂ := fun z : ℝ => energy l (l.t0 + x • d + z • d)) x h3 h2
    rw [mul_one] at h4
    refine h4.congr_of_eventuallyEq (Filter.Eventually.of_forall fun y => ?_)
    show energy l (l.t0 + y • d) = energy l (l.t0 + x • d + (y - x) • d)
    congr 1
    ext <;> simp <;> ring
  have hm : MonotoneOn (fun x : ℝ => energy l (l.t0 + x • d)) (Set.Icc 0 1) := by
    refine monotoneOn_of_hasDerivWithinAt_nonneg (convex_Icc 0 1) (fun x _ => (hder x).continuousAt.continuousWithinAt)
      (fun x _ => (hder x).hasDerivWithinAt) ?_
    intro x hx
    rw [interior_Icc] at hx
    have hmono := C96_monotone (withT0 l (l.t0 + x • d)) (withT0_loaded h _) hq hL l.t0
    have e1 : withT0 (withT0 l (l.t0 + x • d)) l.t0 = l := rfl
    have e2 : (withT0 l (l.t0 + x • d)).t0 = l.t0 + x • d := rfl
    rw [e1, hr, e2] at hmono
    have e3 : V3.dot (l.t0 + x • d - l.t0) ((withT0 l (l.t0 + x • d)).residual .NWU - 0) = x * V3.dot d ((withT0 l (l.t0 + x • d)).residual .NWU) := by
      simp [V3.dot]; ring
    rw [e3] at hmono
    have h0 : 0 ≤ compliance (withT0 l (l.t0 + x • d)) * (withT0 l (l.t0 + x • d)).len * V3.dot (l.t0 + x • d - l.t0) (l.t0 + x • d - l.t0) := by
      refine mul_nonneg (mul_nonneg hk hL) ?_
      rw [← V3.norm_sq]
      positivity
    exact nonneg_of_mul_nonneg_right (h0.trans hmono) hx.1
  have h01 := hm (Set.left_mem_Icc.2 zero_le_one) (Set.right_mem_Icc.2 zero_le_one) zero_le_one
  have e0 : l.t0 + (0 : ℝ) • d = l.t0 := by ext <;> simp
  have e1 : l.t0 + (1 : ℝ) • d = t := by rw [hd]; ext <;> simp
  simp only [e0, e1] at h01
  exact h01

theorem norm_sq_tension {l : Line} (h : Loaded l) (s : ℝ) :
    V3.norm (l.tension s .NWU) ^ 2 = l.t0.x * l.t0.x + l.t0.y * l.t0.y + (l.t0.z + l.q * s) * (l.t0.z + l.q * s) := by
  rw [norm_tension h, N_sq]

theorem sq_int (l : Line) : ∫ s in (0)..l.len, (l.t0.x * l.t0.x + l.t0.y * l.t0.y + (l.t0.z + l.q * s) * (l.t0.z + l.q * s)) =
    l.len * V3.dot l.t0 l.t0 + l.q * l.len ^ 2 * l.t0.z + l.q ^ 2 * l.len ^ 3 / 3 := by
  have hd : ∀ s ∈ Set.uIcc 0 l.len, HasDerivAt (fun s : ℝ => s * (l.t0.x * l.t0.x + l.t0.y * l.t0.y + l.t0.z * l.t0.z) + l.t0.z * l.q * s ^ 2 + l.q ^ 2 * s ^ 3 / 3)
      (l.t0.x * l.t0.x + l.t0.y * l.t0.y + (l.t0.z + l.q * s) * (l.t0.z + l.q * s)) s := by
    intro s _
    have hid := hasDerivAt_id s
    have := ((hid.mul_const (l.t0.x * l.t0.x + l.t0.y * l.t0.y + l.t0.z * l.t0.z)).add ((hid.pow 2).const_mul (l.t0.z * l.q))).add (((hid.pow 3).const_mul (l.q ^ 2)).div_const 3)
    refine this.congr_deriv ?_
    simp only [id]
    push_cast
    ring
  rw [intervalIntegral.integral_eq_sub_of_hasDerivAt hd (Continuous.intervalIntegrable (by fun_prop) _ _)]
  simp [V3.dot]
  ring

/-- The stored energy of a solved line, through its complementary energy. -/
theorem stored_eq (l : Line) (h : Loaded l) (hq : l.q ≠ 0) (hr : l.residual .NWU = 0) :
    storedEnergy l = l.q * l.len * (l.stop.positionInWorld .NWU).z - energy l l.t0 - compliance l * l.q ^ 2 * l.len ^ 3 / 6 := by
  obtain ⟨cx, cy, cz⟩ := pos_cont h hq
  have hC := C91_cable l h hq
  have hNc := N_cont l
  have ft := integral_eq_of_hasDerivAt_off_countable
    (fun s => l.t0.x * (l.position s .NWU).x + l.t0.y * (l.position s .NWU).y + (l.t0.z + l.q * s) * (l.position s .NWU).z)
    (fun s => l.q * (l.position s .NWU).z + N l s + compliance l * N l s ^ 2)
    (a := 0) (b := l.len) (s := {-l.t0.z / l.q}) (Set.countable_singleton _)
    (by
      refine Continuous.continuousOn ?_
      fun_prop)
    (by
      intro s hs
      have hten : l.tension s .NWU ≠ 0 := tension_ne h hq s hs.2
      have hN := N_pos h hten
      obtain ⟨a1, a2, a3⟩ := hC.tangent s hten
      have e := ((a1.const_mul l.t0.x).add (a2.const_mul l.t0.y)).add ((z_deriv l s).mul a3)
      refine e.congr_deriv ?_
      rw [norm_tension h, tension_eq h]
      simp only [V3.smul_x, V3.smul_y, V3.smul_z]
      have hs2 := N_sq l s
      have : l.t0.x * ((1 + compliance l * N l s) * ((N l s)⁻¹ * l.t0.x)) + l.t0.y * ((1 + compliance l * N l s) * ((N l s)⁻¹ * l.t0.y)) +
          (l.t0.z + l.q * s) * ((1 + compliance l * N l s) * ((N l s)⁻¹ * (l.t0.z + l.q * s))) = N l s + compliance l * N l s ^ 2 := by
        have e : l.t0.x * ((1 + compliance l * N l s) * ((N l s)⁻¹ * l.t0.x)) + l.t0.y * ((1 + compliance l * N l s) * ((N l s)⁻¹ * l.t0.y)) +
          (l.t0.z + l.q * s) * ((1 + compliance l * N l s) * ((N l s)⁻¹ * (l.t0.z + l.q * s))) = (1 + compliance l * N l s) * (N l s)⁻¹ * N l s ^ 2 := by
          rw [hs2]; ring
        rw [e]
        field_simp
      linarith)
    (Continuous.intervalIntegrable (by fun_prop) _ _)
  have hend : l.position l.len .NWU = l.stop.positionInWorld .NWU := by
    have : l.position l.len .NWU - l.stop.positionInWorld .NWU = 0 := hr
    have hx := congrArg V3.x this
    have hy := congrArg V3.y this
    have hz := congrArg V3.z this
    simp at hx hy hz
    ext <;> linarith
  simp only [hend, position_zero] at ft
  have hs2 : ∀ s, N l s ^ 2 = l.t0.x * l.t0.x + l.t0.y * l.t0.y + (l.t0.z + l.q * s) * (l.t0.z + l.q * s) := N_sq l
  have i1 : IntervalIntegrable (fun s => l.q * (l.position s .NWU).z) volume 0 l.len := Continuous.intervalIntegrable (by fun_prop) _ _
  have i2 : IntervalIntegrable (fun s => N l s) volume 0 l.len := hNc.intervalIntegrable _ _
  have i3 : IntervalIntegrable (fun s => compliance l * N l s ^ 2) volume 0 l.len := Continuous.intervalIntegrable (by fun_prop) _ _
  have i4 : IntervalIntegrable (fun s => compliance l * N l s ^ 2 / 2) volume 0 l.len := Continuous.intervalIntegrable (by fun_prop) _ _
  rw [intervalIntegral.integral_add (i1.add i2) i3, intervalIntegral.integral_add i1 i2, intervalIntegral.integral_const_mul (compliance l)] at ft
  unfold storedEnergy
  simp only [norm_tension h]
  rw [intervalIntegral.integral_add i4 i1, intervalIntegral.integral_div, intervalIntegral.integral_const_mul (compliance l)]
  simp only [hs2] at ft ⊢
  rw [sq_int] at ft ⊢
  have ew : withT0 l l.t0 = l := rfl
  unfold energy span
  rw [ew]
  simp only [V3.dot, V3.sub_x, V3.sub_y, V3.sub_z] at ft ⊢
  linarith

theorem work_eq {l l' : Line} (h : Loaded l) : workTowards l l' =
    -V3.dot l.t0 (span l' - span l) - l.q * l.len * ((l'.stop.positionInWorld .NWU).z - (l.stop.positionInWorld .NWU).z) := by
  unfold workTowards Line.startTension Line.endTension span
  rw [tension_eq h, tension_eq h]
  simp only [V3.dot, V3.sub_x, V3.sub_y, V3.sub_z, V3.neg_x, V3.neg_y, V3.neg_z]
  ring

theorem comp_nonneg {l : Line} (hEA : l.elastic = true → 0 < l.props.getEA) : 0 ≤ compliance l := by
  unfold compliance
  split_ifs with he
  · exact (inv_pos.2 (hEA he)).le
  · exact le_rfl

theorem stored_ge {l l' : Line} (hs : SameCable l l') (h : Loaded l) (h' : Loaded l') (hq : l.q ≠ 0) (hL : 0 ≤ l.len) (hk : 0 ≤ compliance l)
    (hr : l.residual .NWU = 0) (hr' : l'.residual .NWU = 0) : -workTowards l l' ≤ storedEnergy l' - storedEnergy l := by
  have hm := energy_min l' h' (hs.load ▸ hq) (hs.length ▸ hL) (hs.compliance ▸ hk) hr' l.t0
  rw [energy_same hs l.t0] at hm
  rw [stored_eq l h hq hr, stored_eq l' h' (hs.load ▸ hq) hr', work_eq h, hs.compliance, hs.length, hs.load]
  linarith

/-! ## C194 -/

/-- **C194, between two equilibria.** When the ends of a line move, the energy stored increases by at least the work done against the forces it had before, and by at most the work done
against the forces it has afterwards, however large the motion. -/
theorem C194_steps {l l' : Line} (hs : SameCable l l') (h : Loaded l) (h' : Loaded l') (hq : l.q ≠ 0) (hL : 0 ≤ l.len) (hEA : l.elastic = true → 0 < l.props.getEA)
    (hr : l.residual .NWU = 0) (hr' : l'.residual .NWU = 0) :
    -workTowards l l' ≤ storedEnergy l' - storedEnergy l ∧ storedEnergy l' - storedEnergy l ≤ workTowards l' l := by
  have hk := comp_nonneg hEA
  refine ⟨stored_ge hs h h' hq hL hk hr hr', ?_⟩
  have := stored_ge hs.symm h' h (hs.load ▸ hq) (hs.length ▸ hL) (hs.compliance ▸ hk) hr' hr
  linarith

/-- The tension of an elastic line follows its ends. -/
theorem C194_stiffness {l l' : Line} (hs : SameCable l l') (h : Loaded l) (hq : l.q ≠ 0) (hL : 0 < l.len) (he : l.elastic = true) (hEA : 0 < l.props.getEA)
    (hr : l.residual .NWU = 0) (hr' : l'.residual .NWU = 0) (h' : Loaded l') (s : ℝ) :
    V3.norm (l'.tension s .NWU - l.tension s .NWU) ≤ l.props.getEA / l.len *
      V3.norm ((l'.stop.positionInWorld .NWU - l'.start.positionInWorld .NWU) - (l.stop.positionInWorld .NWU - l.start.positionInWorld .NWU)) := by
  have ha := C96_accuracy l h hq hL he hEA l'.t0
  have e1 : l.residual .NWU - (withT0 l l'.t0).residual .NWU =
      -((l'.stop.positionInWorld .NWU - l'.start.positionInWorld .NWU) - (l.stop.positionInWorld .NWU - l.start.positionInWorld .NWU)) := by
    rw [hr]
    have hpos : ∀ s, (withT0 l l'.t0).position s .NWU = l.start.positionInWorld .NWU - l'.start.positionInWorld .NWU + l'.position s .NWU := by
      intro s
      rw [position_eq (withT0_loaded h l'.t0) hq, position_eq h' (hs.load ▸ hq)]
      have er : ∀ s, (withT0 l l'.t0).rho s = l'.rho s := by
        intro s
        rw [rho_eq (withT0_loaded h l'.t0), rho_eq h']
        unfold N withT0
        simp only [hs.load]
      have eN : ∀ s, N (withT0 l l'.t0) s = N l' s := by
        intro s
        unfold N withT0
        simp only [hs.load]
      have ec : compliance (withT0 l l'.t0) = compliance l' := by rw [hs.compliance]; rfl
      have eq : (withT0 l l'.t0).q = l'.q := hs.load.symm
      have et : (withT0 l l'.t0).t0 = l'.t0 := rfl
      have es : (withT0 l l'.t0).start = l.start := rfl
      simp only [er, eN, ec, eq, et, es]
      ext <;> simp <;> ring
    have hL2 : (withT0 l l'.t0).len = l'.len := hs.length.symm
    have hst : (withT0 l l'.t0).stop = l.stop := rfl
    unfold Line.residual at hr' ⊢
    rw [hL2, hpos, hst]
    have hx := congrArg V3.x hr'
    have hy := congrArg V3.y hr'
    have hz := congrArg V3.z hr'
    simp at hx hy hz
    ext <;> simp <;> linarith
  have hneg : ∀ v : V3, V3.norm (-v) = V3.norm v := by
    intro v
    unfold V3.norm V3.dot
    simp
  rw [e1, hneg] at ha
  have e2 : l'.tension s .NWU - l.tension s .NWU = -(l.t0 - l'.t0) := by
    rw [tension_eq h, tension_eq h', hs.load]
    ext <;> simp
  rw [e2, hneg]
  exact ha

theorem deriv_of_squeeze {F G : ℝ → ℝ} {t : ℝ} (h0 : ∀ x, 0 ≤ F x) (h1 : ∀ x, F x ≤ G x) (hF : F t = 0) (hG : G t = 0) (hd : HasDerivAt G 0 t) : HasDerivAt F 0 t := by
  rw [hasDerivAt_iff_isLittleO] at hd ⊢
  refine Asymptotics.IsBigO.trans_isLittleO ?_ hd
  refine Asymptotics.IsBigO.of_bound 1 (Filter.Eventually.of_forall fun x => ?_)
  simp only [hF, hG, smul_zero, sub_zero, Real.norm_eq_abs, one_mul]
  rw [abs_of_nonneg (h0 x), abs_of_nonneg ((h0 x).trans (h1 x))]
  exact h1 x

theorem deriv_mul_small {c m : ℝ → ℝ} {m' t : ℝ} (hc : ContinuousAt c t) (hct : c t = 0) (hm : HasDerivAt m m' t) (hmt : m t = 0) : HasDerivAt (fun x => c x * m x) 0 t := by
  rw [hasDerivAt_iff_tendsto_slope] at hm ⊢
  have h1 : Filter.Tendsto c (nhdsWithin t {t}ᶜ) (nhds 0) := hct ▸ (hc.tendsto.mono_left nhdsWithin_le_nhds)
  have h2 := h1.mul hm
  rw [zero_mul] at h2
  refine h2.congr fun x => ?_
  simp only [slope, vsub_eq_sub, smul_eq_mul, hct, hmt, mul_zero, sub_zero]
  ring

/-- **C194, the power.** A line whose ends move, in equilibrium at every time and with a continuous tension: the energy stored changes at the opposite of the power of the two forces
of the line on the bodies. -/
theorem C194_power (l : ℝ → Line) (t : ℝ) (va vb : V3) (hs : ∀ x, SameCable (l t) (l x)) (h : ∀ x, Loaded (l x)) (hq : (l t).q ≠ 0) (hL : 0 ≤ (l t).len)
    (hEA : (l t).elastic = true → 0 < (l t).props.getEA) (hr : ∀ x, (l x).residual .NWU = 0)
    (hc : ContinuousAt (fun x => ((l x).startTension .NWU).x) t ∧ ContinuousAt (fun x => ((l x).startTension .NWU).y) t ∧ ContinuousAt (fun x => ((l x).startTension .NWU).z) t)
    (hva : HasDeriv3 (fun x => (l x).start.positionInWorld .NWU) va t) (hvb : HasDeriv3 (fun x => (l x).stop.positionInWorld .NWU) vb t) :
    HasDerivAt (fun x => storedEnergy (l x)) (-(V3.dot ((l t).startTension .NWU) va + V3.dot ((l t).endTension .NWU) vb)) t := by
  have et : ∀ x, (l x).startTension .NWU = (l x).t0 := by
    intro x
    unfold Line.startTension
    rw [tension_eq (h x)]
    ext <;> simp
  simp only [et] at hc
  obtain ⟨a1, a2, a3⟩ := hva
  obtain ⟨b1, b2, b3⟩ := hvb
  -- the first order term
  have hw : HasDerivAt (fun x => workTowards (l t) (l x)) (V3.dot ((l t).startTension .NWU) va + V3.dot ((l t).endTension .NWU) vb) t := by
    unfold workTowards V3.dot
    simp only [V3.sub_x, V3.sub_y, V3.sub_z]
    exact ((((a1.sub_const _).const_mul _).add ((a2.sub_const _).const_mul _)).add ((a3.sub_const _).const_mul _)).add
      ((((b1.sub_const _).const_mul _).add ((b2.sub_const _).const_mul _)).add ((b3.sub_const _).const_mul _))
  -- the rest
  have hgap : ∀ x, workTowards (l x) (l t) + workTowards (l t) (l x) =
      ((l x).t0.x - (l t).t0.x) * ((span (l x)).x - (span (l t)).x) + ((l x).t0.y - (l t).t0.y) * ((span (l x)).y - (span (l t)).y) +
        ((l x).t0.z - (l t).t0.z) * ((span (l x)).z - (span (l t)).z) := by
    intro x
    rw [work_eq (h x), work_eq (h t), (hs x).load, (hs x).length]
    simp only [V3.dot, V3.sub_x, V3.sub_y, V3.sub_z]
    ring
  have hG : HasDerivAt (fun x => workTowards (l x) (l t) + workTowards (l t) (l x)) 0 t := by
    simp only [hgap]
    have s1 : HasDerivAt (fun x => (span (l x)).x - (span (l t)).x) (vb.x - va.x) t := (b1.sub a1).sub_const _
    have s2 : HasDerivAt (fun x => (span (l x)).y - (span (l t)).y) (vb.y - va.y) t := (b2.sub a2).sub_const _
    have s3 : HasDerivAt (fun x => (span (l x)).z - (span (l t)).z) (vb.z - va.z) t := (b3.sub a3).sub_const _
    have := ((deriv_mul_small (hc.1.sub_const ((l t).t0.x)) (sub_self _) s1 (sub_self _)).add
      (deriv_mul_small (hc.2.1.sub_const ((l t).t0.y)) (sub_self _) s2 (sub_self _))).add
      (deriv_mul_small (hc.2.2.sub_const ((l t).t0.z)) (sub_self _) s3 (sub_self _))
    exact this.congr_deriv (by norm_num)
  have hwt : workTowards (l t) (l t) = 0 := by
    unfold workTowards V3.dot
    simp
  have hF : HasDerivAt (fun x => storedEnergy (l x) - storedEnergy (l t) + workTowards (l t) (l x)) 0 t := by
    refine deriv_of_squeeze (fun x => ?_) (fun x => ?_) ?_ ?_ hG
    · have := (C194_steps (hs x) (h t) (h x) hq hL hEA (hr t) (hr x)).1
      linarith
    · have := (C194_steps (hs x) (h t) (h x) hq hL hEA (hr t) (hr x)).2
      linarith
    · simp [hwt]
    · simp [hwt]
  have hfin := (hF.sub hw).add_const (storedEnergy (l t))
  refine (hfin.congr_of_eventuallyEq (Filter.Eventually.of_forall fun x => ?_)).congr_deriv ?_
  · simp only [Pi.sub_apply]
    ring
  · ring

theorem comp_le_norm (v : V3) : |v.x| ≤ V3.norm v ∧ |v.y| ≤ V3.norm v ∧ |v.z| ≤ V3.norm v := by
  have h : V3.norm v ^ 2 = v.x * v.x + v.y * v.y + v.z * v.z := V3.norm_sq v
  have h0 := V3.norm_nonneg v
  refine ⟨abs_le_of_sq_le_sq ?_ h0, abs_le_of_sq_le_sq ?_ h0, abs_le_of_sq_le_sq ?_ h0⟩ <;> nlinarith [mul_self_nonneg v.x, mul_self_nonneg v.y, mul_self_nonneg v.z]

/-- The tension of an elastic line is continuous where the positions of its ends are. -/
theorem tension_continuous (l : ℝ → Line) (t : ℝ) (hs : ∀ x, SameCable (l t) (l x)) (h : ∀ x, Loaded (l x)) (hq : (l t).q ≠ 0) (hL : 0 < (l t).len)
    (he : (l t).elastic = true) (hEA : 0 < (l t).props.getEA) (hr : ∀ x, (l x).residual .NWU = 0) (va vb : V3)
    (hva : HasDeriv3 (fun x => (l x).start.positionInWorld .NWU) va t) (hvb : HasDeriv3 (fun x => (l x).stop.positionInWorld .NWU) vb t) :
    ContinuousAt (fun x => ((l x).startTension .NWU).x) t ∧ ContinuousAt (fun x => ((l x).startTension .NWU).y) t ∧ ContinuousAt (fun x => ((l x).startTension .NWU).z) t := by
  obtain ⟨a1, a2, a3⟩ := hva
  obtain ⟨b1, b2, b3⟩ := hvb
  obtain ⟨g, hg⟩ : ∃ g : ℝ → ℝ, g = fun x => (l t).props.getEA / (l t).len * V3.norm (((l x).stop.positionInWorld .NWU - (l x).start.positionInWorld .NWU) -
      ((l t).stop.positionInWorld .NWU - (l t).start.positionInWorld .NWU)) := ⟨_, rfl⟩
  have hbound : ∀ x, V3.norm ((l x).startTension .NWU - (l t).startTension .NWU) ≤ g x := fun x => by
    rw [hg]
    exact C194_stiffness (hs x) (h t) hq hL he hEA (hr t) (hr x) (h x) 0
  have hgc : Filter.Tendsto g (nhds t) (nhds 0) := by
    have hcont : ContinuousAt g t := by
      rw [hg]
      unfold V3.norm V3.dot
      simp only [V3.sub_x, V3.sub_y, V3.sub_z]
      have c1 : ContinuousAt (fun x => ((l x).stop.positionInWorld .NWU).x - ((l x).start.positionInWorld .NWU).x -
        (((l t).stop.positionInWorld .NWU).x - ((l t).start.positionInWorld .NWU).x)) t := ((b1.sub a1).sub_const _).continuousAt
      have c2 : ContinuousAt (fun x => ((l x).stop.positionInWorld .NWU).y - ((l x).start.positionInWorld .NWU).y -
        (((l t).stop.positionInWorld .NWU).y - ((l t).start.positionInWorld .NWU).y)) t := ((b2.sub a2).sub_const _).continuousAt
      have c3 : ContinuousAt (fun x => ((l x).stop.positionInWorld .NWU).z - ((l x).start.positionInWorld .NWU).z -
        (((l t).stop.positionInWorld .NWU).z - ((l t).start.positionInWorld .NWU).z)) t := ((b3.sub a3).sub_const _).continuousAt
      exact continuousAt_const.mul (Real.continuous_sqrt.continuousAt.comp (((c1.mul c1).add (c2.mul c2)).add (c3.mul c3)))
    have h0 : g t = 0 := by
      rw [hg]
      simp [V3.norm, V3.dot]
    exact h0 ▸ hcont.tendsto
  have key : ∀ f : V3 → ℝ, (∀ v w, f (v - w) = f v - f w) → (∀ v, |f v| ≤ V3.norm v) → ContinuousAt (fun x => f ((l x).startTension .NWU)) t := by
    intro f hsub hle
    have : Filter.Tendsto (fun x => f ((l x).startTension .NWU) - f ((l t).startTension .NWU)) (nhds t) (nhds 0) := by
      refine squeeze_zero_norm (fun x => ?_) hgc
      rw [Real.norm_eq_abs, ← hsub]
      exact (hle _).trans (hbound x)
    have h2 := this.add_const (f ((l t).startTension .NWU))
    simpa [ContinuousAt] using h2
  exact ⟨key (fun v => v.x) (fun _ _ => rfl) fun v => (comp_le_norm v).1, key (fun v => v.y) (fun _ _ => rfl) fun v => (comp_le_norm v).2.1,
    key (fun v => v.z) (fun _ _ => rfl) fun v => (comp_le_norm v).2.2⟩

/-- **C194, the energy balance of a motion.** Over any motion of the two ends of an elastic line in equilibrium at every time, with continuous velocities, the forces of the line on the
bodies do the work that the energy stored loses: none if the ends come back to where they were. -/
theorem C194_work (l : ℝ → Line) (va vb : ℝ → V3) (t0 t1 : ℝ) (hs : ∀ x y, SameCable (l x) (l y)) (h : ∀ x, Loaded (l x)) (hq : ∀ x, (l x).q ≠ 0) (hL : ∀ x, 0 < (l x).len)
    (he : ∀ x, (l x).elastic = true) (hEA : ∀ x, 0 < (l x).props.getEA) (hr : ∀ x, (l x).residual .NWU = 0)
    (hva : ∀ x, HasDeriv3 (fun x => (l x).start.positionInWorld .NWU) (va x) x) (hvb : ∀ x, HasDeriv3 (fun x => (l x).stop.positionInWorld .NWU) (vb x) x)
    (ca : Continuous (fun x => (va x).x) ∧ Continuous (fun x => (va x).y) ∧ Continuous (fun x => (va x).z))
    (cb : Continuous (fun x => (vb x).x) ∧ Continuous (fun x => (vb x).y) ∧ Continuous (fun x => (vb x).z)) :
    (∫ x in t0..t1, (V3.dot ((l x).startTension .NWU) (va x) + V3.dot ((l x).endTension .NWU) (vb x))) = storedEnergy (l t0) - storedEnergy (l t1) ∧
      ((l t1).start.positionInWorld .NWU = (l t0).start.positionInWorld .NWU → (l t1).stop.positionInWorld .NWU = (l t0).stop.positionInWorld .NWU →
        (∫ x in t0..t1, (V3.dot ((l x).startTension .NWU) (va x) + V3.dot ((l x).endTension .NWU) (vb x))) = 0) := by
  have hct := fun x => tension_continuous l x (hs x) h (hq x) (hL x) (he x) (hEA x) hr (va x) (vb x) (hva x) (hvb x)
  have k1 : Continuous (fun x => ((l x).startTension .NWU).x) := continuous_iff_continuousAt.2 fun x => (hct x).1
  have k2 : Continuous (fun x => ((l x).startTension .NWU).y) := continuous_iff_continuousAt.2 fun x => (hct x).2.1
  have k3 : Continuous (fun x => ((l x).startTension .NWU).z) := continuous_iff_continuousAt.2 fun x => (hct x).2.2
  have eend : ∀ x, (l x).endTension .NWU = ⟨-((l x).startTension .NWU).x, -((l x).startTension .NWU).y, -((l x).startTension .NWU).z - (l t0).q * (l t0).len⟩ := by
    intro x
    unfold Line.startTension Line.endTension
    rw [tension_eq (h x), tension_eq (h x), (hs t0 x).load, (hs t0 x).length]
    ext <;> simp
    ring
  obtain ⟨ca1, ca2, ca3⟩ := ca
  obtain ⟨cb1, cb2, cb3⟩ := cb
  have hc : Continuous (fun x => V3.dot ((l x).startTension .NWU) (va x) + V3.dot ((l x).endTension .NWU) (vb x)) := by
    simp only [eend, V3.dot]
    fun_prop
  have hder := fun x => C194_power l x (va x) (vb x) (hs x) h (hq x) (hL x).le (fun _ => hEA x) hr (hct x) (hva x) (hvb x)
  have hint := intervalIntegral.integral_eq_sub_of_hasDerivAt (a := t0) (b := t1) (fun x _ => hder x) (hc.neg.intervalIntegrable _ _)
  rw [intervalIntegral.integral_neg] at hint
  have hmain : (∫ x in t0..t1, (V3.dot ((l x).startTension .NWU) (va x) + V3.dot ((l x).endTension .NWU) (vb x))) = storedEnergy (l t0) - storedEnergy (l t1) := by linarith
  refine ⟨hmain, fun hA hB => ?_⟩
  rw [hmain]
  have hst := C194_steps (hs t0 t1) (h t0) (h t1) (hq t0) (hL t0).le (fun _ => hEA t0) (hr t0) (hr t1)
  unfold workTowards at hst
  rw [hA, hB] at hst
  have z0 : ∀ v w : V3, V3.dot v (w - w) = 0 := by intro v w; simp [V3.dot]
  simp only [z0] at hst
  linarith [hst.1, hst.2]

/-- Whatever the motion of the two nodes, a loaded elastic line follows it in equilibrium: the hypotheses of `C194_steps`, `C194_power` and `C194_work` on the line are met. -/
theorem follows (a b : ℝ → Node) : ∃ l : ℝ → Line, (∀ x, (l x).start = a x ∧ (l x).stop = b x) ∧ (∀ x y, SameCable (l x) (l y)) ∧ (∀ x, Loaded (l x)) ∧ (∀ x, (l x).q ≠ 0) ∧
    (∀ x, 0 < (l x).len) ∧ (∀ x, (l x).elastic = true) ∧ (∀ x, 0 < (l x).props.getEA) ∧ ∀ x, (l x).residual .NWU = 0 := by
  have hE : (0:ℝ) < 3.1416e10 * 0.05 := by norm_num
  have hqv : (616.538 - 0.05 * 1025) * (9.81 : ℝ) ≠ 0 := by norm_num
  have hl : ∀ x, Loaded ((Line.new {} true 100 (a x) (b x)).initLoad 1025 9.81) := fun x => initLoad_loaded _ _ _
  have hex : ∀ x, ∃ t, (withT0 ((Line.new {} true 100 (a x) (b x)).initLoad 1025 9.81) t).residual .NWU = 0 := fun x =>
    C96_exists _ (hl x) hqv (show (0:ℝ) < 100 by norm_num) (fun _ => hE) (Or.inl rfl)
  choose T hT using hex
  exact ⟨fun x => withT0 ((Line.new {} true 100 (a x) (b x)).initLoad 1025 9.81) (T x), fun x => ⟨rfl, rfl⟩, fun x y => ⟨rfl, rfl, rfl, rfl⟩, fun x => withT0_loaded (hl x) _,
    fun x => hqv, fun x => show (0:ℝ) < 100 by norm_num, fun x => rfl, fun x => hE, hT⟩

/-- Non-vacuity of `C194_work`: an end goes round a circle of 10 m about a point 100 m away from the other end; the line does no work over a turn. -/
example : ∃ l : ℝ → Line, (∀ x, (l x).stop.positionInWorld .NWU = ⟨100 + 10 * Real.cos x, 10 * Real.sin x, 0⟩) ∧ (∀ x, (l x).residual .NWU = 0) ∧
    (∫ x in (0)..2 * Real.pi, (V3.dot ((l x).startTension .NWU) 0 + V3.dot ((l x).endTension .NWU) ⟨-(10 * Real.sin x), 10 * Real.cos x, 0⟩)) = 0 := by
  obtain ⟨a, ha⟩ : ∃ a : ℝ → Node, a = fun _ => ⟨Frame.identity, Frame.identity, 0, 0⟩ := ⟨_, rfl⟩
  obtain ⟨b, hb⟩ : ∃ b : ℝ → Node, b = fun x => ⟨Frame.identity, ⟨⟨100 + 10 * Real.cos x, 10 * Real.sin x, 0⟩, Q.one⟩, 0, 0⟩ := ⟨_, rfl⟩
  obtain ⟨l, h1, h2, h3, h4, h5, h6, h7, h8⟩ := follows a b
  have es : ∀ x, (l x).start.positionInWorld .NWU = 0 := by intro x; rw [(h1 x).1, ha]; rfl
  have ee : ∀ x, (l x).stop.positionInWorld .NWU = ⟨100 + 10 * Real.cos x, 10 * Real.sin x, 0⟩ := by intro x; rw [(h1 x).2, hb]; rfl
  refine ⟨l, ee, h8, ?_⟩
  refine (C194_work l (fun _ => 0) (fun x => ⟨-(10 * Real.sin x), 10 * Real.cos x, 0⟩) 0 (2 * Real.pi) h2 h3 h4 h5 h6 h7 h8 ?_ ?_ ?_ ?_).2 ?_ ?_
  · intro x
    simp only [es]
    exact ⟨hasDerivAt_const _ _, hasDerivAt_const _ _, hasDerivAt_const _ _⟩
  · intro x
    simp only [ee]
    exact ⟨(((Real.hasDerivAt_cos x).const_mul 10).const_add 100).congr_deriv (by ring), (Real.hasDerivAt_sin x).const_mul 10, hasDerivAt_const _ _⟩
  · exact ⟨continuous_const, continuous_const, continuous_const⟩
  · exact ⟨by fun_prop, by fun_prop, continuous_const⟩
  · rw [es, es]
  · rw [ee, ee]
    simp

end Frydom.Cable
