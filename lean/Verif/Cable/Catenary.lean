import Mathlib.Analysis.SpecialFunctions.Log.Deriv
import Mathlib.Analysis.SpecialFunctions.Sqrt
import Mathlib.Analysis.SpecialFunctions.Trigonometric.DerivHyp
import Mathlib.MeasureTheory.Integral.IntervalIntegral.FundThmCalculus
import Verif.Cable.Properties
import Verif.Core.Node
import Verif.Core.Force

/-!
# Catenary line: the model, its shape and the loads on the bodies (C91, C92)

`src/frydom/cable/FrCatenaryLine.{h,cpp}`, `src/frydom/cable/FrCatenaryForce.cpp`.

External: the inversion of the 3 x 3 Jacobian matrix (`mathutils::Matrix33::Inverse`) is a parameter `inv`.
Numbers are real numbers: a division by zero is not the infinity of floating point numbers.
-/

open Classical

noncomputable section

namespace Frydom.Cable
open Frydom.Geom Frydom.Core

/-- `m_u`, the direction of the distributed load (FrCatenaryLine.h:71). -/
def u : V3 := ⟨0, 0, -1⟩

/-- Attributes of `FrCatenaryLine` (FrCatenaryLine.h:65-101) with those it inherits from `FrCable` (`winch`: time, length and speed; `props`; the nodes). -/
structure Line where
  props : CableProps
  elastic : Bool := true
  winch : Winch
  start : Node
  stop : Node
  t0 : V3 := 0
  q : ℝ
  qvec : V3 := 0
  umat : M3 := ⟨0, 0, 0, 0, 0, 0, 0, 0, 0⟩
  tol : ℝ := 1e-6
  itermax : ℕ := 100
  relax : ℝ := 0.1

/-- `infNorm` (external, mathutils): the largest absolute value. -/
def infNorm (v : V3) : ℝ := max |v.x| (max |v.y| |v.z|)

namespace Line

/-- Constructor (FrCatenaryLine.cpp:26-41). -/
def new (props : CableProps) (elastic : Bool) (L : ℝ) (a b : Node) : Line :=
  { props := props, elastic := elastic, winch := Winch.new L, start := a, stop := b, q := props.getLinearDensity }

/-- `GetUnstrainedLength` (FrCatenaryLine.cpp:129-131). -/
def len (l : Line) : ℝ := l.winch.length

/-- The first part of `Initialize` (FrCatenaryLine.cpp:265-273): distributed load (linear density minus the mass of the displaced fluid, times gravity), its vector, and the
projection on the horizontal plane. -/
def initLoad (l : Line) (rhoFluid g : ℝ) : Line :=
  let q := (l.props.getLinearDensity - l.props.getSectionArea * rhoFluid) * g
  { l with
    q := q
    qvec := q • u
    umat := ⟨1 - u.x * u.x, 0 - u.x * u.y, 0 - u.x * u.z, 0 - u.y * u.x, 1 - u.y * u.y, 0 - u.y * u.z, 0 - u.z * u.x, 0 - u.z * u.y, 1 - u.z * u.z⟩ }

/-- `guess_tension` (FrCatenaryLine.cpp:77-100). -/
def guessTension (l : Line) : Line :=
  let p := l.stop.positionInWorld .NWU - l.start.positionInWorld .NWU
  let chord := V3.norm p
  let v := V3.cross (V3.cross u (chord⁻¹ • p)) u
  let lambda :=
    if l.len ≤ chord then 0.2
    else if V3.norm (V3.cross u p) < 1e-4 then 1e6
    else Real.sqrt (3 * (l.len * l.len - p.z * p.z) / (p.x * p.x + p.y * p.y))
  let fu := -0.5 * l.q * (p.z / Real.tanh lambda - l.len)
  let fv := 0.5 * l.q * Real.sqrt (p.x * p.x + p.y * p.y) / lambda
  { l with t0 := fu • u + fv • v }

/-- `GetTension` (FrCatenaryLine.cpp:102-106). -/
def tension (l : Line) (s : ℝ) (fc : FC) : V3 := conv fc (l.t0 - s • l.qvec)

/-- `GetStartingNodeTension` (FrCatenaryLine.cpp:116-118). -/
def startTension (l : Line) (fc : FC) : V3 := l.tension 0 fc
/-- `GetEndingNodeTension` (FrCatenaryLine.cpp:120-122). -/
def endTension (l : Line) (fc : FC) : V3 := -l.tension l.len fc

/-- `_rho` (FrCatenaryLine.cpp:124-127). -/
def rho (l : Line) (s : ℝ) : ℝ := V3.norm (l.tension s .NWU) - V3.dot u (l.tension s .NWU)

/-- `GetUnstrainedChord` (FrCatenaryLine.cpp:133-147). -/
def chord (l : Line) (s : ℝ) (fc : FC) : V3 :=
  conv fc (if l.rho 0 > 0 ∧ l.rho s > 0 then
      (V3.norm (l.tension s .NWU) - V3.norm l.t0) • (-(l.q⁻¹ • u)) + Real.log (l.rho s / l.rho 0) • (l.q⁻¹ • l.umat.mulVec l.t0)
    else (V3.norm (l.tension s .NWU) - V3.norm l.t0) • (-(l.q⁻¹ • u)))

/-- `GetElasticIncrement` (FrCatenaryLine.cpp:149-154). -/
def elasticIncrement (l : Line) (s : ℝ) (fc : FC) : V3 :=
  conv fc (if l.elastic then l.props.getEA⁻¹ • ((l.q * s) • (l.q⁻¹ • l.t0 - (0.5 * s) • u)) else 0)

/-- `GetNodePositionInWorld` (FrCatenaryLine.cpp:156-164). `Position pos;` is the null vector. -/
def position (l : Line) (s : ℝ) (fc : FC) : V3 := l.start.positionInWorld fc + l.chord s fc + l.elasticIncrement s fc

/-- `get_residual` (FrCatenaryLine.cpp:166-168). -/
def residual (l : Line) (fc : FC) : V3 := l.position l.len fc - l.stop.positionInWorld fc

/-- `FrCable::GetStrainedLength` (FrCable.cpp:194-209): the length of the polygon through 1000 points, the first segment being empty. -/
def strainedLength (l : Line) : ℝ :=
  let ds := l.len / (1000 - 1)
  ((List.range 1000).foldl (fun (acc : ℝ × V3) (i : ℕ) =>
    let pos := l.position (i * ds) .NWU
    (acc.1 + V3.norm (pos - acc.2), pos)) (0, l.position 0 .NWU)).1

end Line

/-- `FrCatenaryForce::Compute` (FrCatenaryForce.cpp:29-51), at the starting node. -/
def startForce (l : Line) (f : Force) (b : Body) : Force :=
  f.setForceTorqueInWorldAtPointInBody b (l.startTension .NWU) 0 (l.start.positionInBody b .NWU) .NWU
/-- `FrCatenaryForce::Compute` (FrCatenaryForce.cpp:29-51), at the ending node. -/
def endForce (l : Line) (f : Force) (b : Body) : Force :=
  f.setForceTorqueInWorldAtPointInBody b (l.endTension .NWU) 0 (l.stop.positionInBody b .NWU) .NWU

/-! ## Specification -/

/-- Derivative of a vector function, component by component. -/
def HasDeriv3 (f : ℝ → V3) (f' : V3) (s : ℝ) : Prop :=
  HasDerivAt (fun s => (f s).x) f'.x s ∧ HasDerivAt (fun s => (f s).y) f'.y s ∧ HasDerivAt (fun s => (f s).z) f'.z s

/-- Integral of a vector function, component by component. -/
def integral3 (f : ℝ → V3) (a b : ℝ) : V3 := ⟨∫ s in a..b, (f s).x, ∫ s in a..b, (f s).y, ∫ s in a..b, (f s).z⟩

/-- The statics of a cable with a load `w` per unit of unstrained length, from the point `p0`: the tension balances the load, the tangent is along the tension, and the
elongation is that of Hooke's law with the compliance `k` (0 for an inextensible cable). The tangent has no meaning where the tension vanishes. -/
structure IsCable (p t : ℝ → V3) (p0 w : V3) (k : ℝ) : Prop where
  start : p 0 = p0
  balance : ∀ s, HasDeriv3 t (-w) s
  tangent : ∀ s, t s ≠ 0 → HasDeriv3 p ((1 + k * V3.norm (t s)) • ((V3.norm (t s))⁻¹ • t s)) s

/-- What the initialization has set: the load is `(lam - A rho) g` downwards. -/
structure Loaded (l : Line) : Prop where
  qvec : l.qvec = ⟨0, 0, -l.q⟩
  umat : l.umat = ⟨1, 0, 0, 0, 1, 0, 0, 0, 0⟩

/-- The compliance of the cable: `1 / EA` if it is elastic. -/
def compliance (l : Line) : ℝ := if l.elastic then l.props.getEA⁻¹ else 0

/-! ## Lemmas -/

theorem initLoad_loaded (l : Line) (rhoFluid g : ℝ) : Loaded (l.initLoad rhoFluid g) := by
  constructor
  · ext <;> simp [Line.initLoad, u]
  · unfold Line.initLoad u
    simp

theorem tension_eq {l : Line} (h : Loaded l) (s : ℝ) : l.tension s .NWU = ⟨l.t0.x, l.t0.y, l.t0.z + l.q * s⟩ := by
  unfold Line.tension
  rw [h.qvec]
  ext <;> simp [conv]
  ring

/-- Norm of the tension. -/
def N (l : Line) (s : ℝ) : ℝ := Real.sqrt (l.t0.x * l.t0.x + l.t0.y * l.t0.y + (l.t0.z + l.q * s) * (l.t0.z + l.q * s))

theorem norm_tension {l : Line} (h : Loaded l) (s : ℝ) : V3.norm (l.tension s .NWU) = N l s := by
  rw [tension_eq h]
  rfl

theorem norm_t0 (l : Line) : V3.norm l.t0 = N l 0 := by
  unfold N V3.norm V3.dot
  rw [mul_zero, add_zero]

theorem rho_eq {l : Line} (h : Loaded l) (s : ℝ) : l.rho s = N l s + (l.t0.z + l.q * s) := by
  unfold Line.rho
  rw [norm_tension h, tension_eq h]
  simp [V3.dot, u]
  ring

theorem N_sq (l : Line) (s : ℝ) : N l s ^ 2 = l.t0.x * l.t0.x + l.t0.y * l.t0.y + (l.t0.z + l.q * s) * (l.t0.z + l.q * s) := by
  unfold N
  rw [Real.sq_sqrt]
  nlinarith [sq_nonneg l.t0.x, sq_nonneg l.t0.y, sq_nonneg (l.t0.z + l.q * s)]

theorem N_nonneg (l : Line) (s : ℝ) : 0 ≤ N l s := Real.sqrt_nonneg _

theorem rho_nonneg {l : Line} (h : Loaded l) (s : ℝ) : 0 ≤ l.rho s := by
  rw [rho_eq h]
  have h1 := N_sq l s
  have h2 := N_nonneg l s
  nlinarith [mul_self_nonneg l.t0.x, mul_self_nonneg l.t0.y]

/-- Without the strict signs the tension is vertical. -/
theorem horiz_zero {l : Line} (h : Loaded l) (s : ℝ) (hr : ¬ l.rho s > 0) : l.t0.x = 0 ∧ l.t0.y = 0 := by
  have h0 : l.rho s = 0 := le_antisymm (not_lt.1 hr) (rho_nonneg h s)
  rw [rho_eq h] at h0
  have h1 := N_sq l s
  have e : N l s = -(l.t0.z + l.q * s) := by linarith
  rw [e] at h1
  constructor <;> nlinarith [mul_self_nonneg l.t0.x, mul_self_nonneg l.t0.y]

/-- The chord in one formula: the logarithm has a null coefficient in the cases the code leaves out. -/
theorem chord_eq {l : Line} (h : Loaded l) (s : ℝ) : l.chord s .NWU =
    ⟨Real.log (l.rho s / l.rho 0) * (l.t0.x / l.q), Real.log (l.rho s / l.rho 0) * (l.t0.y / l.q), (N l s - N l 0) / l.q⟩ := by
  unfold Line.chord
  rw [norm_tension h, norm_t0, h.umat]
  by_cases hc : l.rho 0 > 0 ∧ l.rho s > 0
  · rw [if_pos hc]
    generalize Real.log (l.rho s / l.rho 0) = k
    ext <;> simp only [conv, u, V3.add_x, V3.add_y, V3.add_z, V3.smul_x, V3.smul_y, V3.smul_z, V3.neg_x, V3.neg_y, V3.neg_z, M3.mulVec_x, M3.mulVec_y, M3.mulVec_z] <;> ring
  · rw [if_neg hc]
    have hz : l.t0.x = 0 ∧ l.t0.y = 0 := by
      by_cases h0 : l.rho 0 > 0
      · exact horiz_zero h s fun h1 => hc ⟨h0, h1⟩
      · exact horiz_zero h 0 h0
    rw [hz.1, hz.2]
    ext <;> simp [conv, u]
    ring

theorem elastic_eq {l : Line} (hq : l.q ≠ 0) (s : ℝ) : l.elasticIncrement s .NWU =
    ⟨compliance l * (l.t0.x * s), compliance l * (l.t0.y * s), compliance l * (l.t0.z * s + l.q * s ^ 2 / 2)⟩ := by
  unfold Line.elasticIncrement compliance
  rcases Bool.eq_false_or_eq_true l.elastic with he | he
  · rw [if_pos he, if_pos he]
    ext
    · simp [conv, u]; left; field_simp
    · simp [conv, u]; left; field_simp
    · simp [conv, u]; left; field_simp; ring
  · have he' : ¬ l.elastic = true := by rw [he]; simp
    rw [if_neg he', if_neg he']
    ext <;> simp [conv]

theorem position_eq {l : Line} (h : Loaded l) (hq : l.q ≠ 0) (s : ℝ) : l.position s .NWU =
    ⟨(l.start.positionInWorld .NWU).x + Real.log (l.rho s / l.rho 0) * (l.t0.x / l.q) + compliance l * (l.t0.x * s),
     (l.start.positionInWorld .NWU).y + Real.log (l.rho s / l.rho 0) * (l.t0.y / l.q) + compliance l * (l.t0.y * s),
     (l.start.positionInWorld .NWU).z + (N l s - N l 0) / l.q + compliance l * (l.t0.z * s + l.q * s ^ 2 / 2)⟩ := by
  unfold Line.position
  rw [chord_eq h, elastic_eq hq]
  rfl

theorem position_zero (l : Line) : l.position 0 .NWU = l.start.positionInWorld .NWU := by
  have e0 : l.tension 0 .NWU = l.t0 := by
    unfold Line.tension
    ext <;> simp [conv]
  have e1 : l.chord 0 .NWU = 0 := by
    unfold Line.chord
    rw [e0, sub_self]
    by_cases hc : l.rho 0 > 0 ∧ l.rho 0 > 0
    · rw [if_pos hc, div_self hc.1.ne', Real.log_one]
      ext <;> simp [conv]
    · rw [if_neg hc]
      ext <;> simp [conv]
  have e2 : l.elasticIncrement 0 .NWU = 0 := by
    unfold Line.elasticIncrement
    split_ifs <;> ext <;> simp [conv]
  unfold Line.position
  rw [e1, e2]
  ext <;> simp

theorem N_pos {l : Line} (h : Loaded l) {s : ℝ} (ht : l.tension s .NWU ≠ 0) : 0 < N l s := by
  rw [← norm_tension h]
  exact V3.norm_pos ht

theorem z_deriv (l : Line) (s : ℝ) : HasDerivAt (fun s => l.t0.z + l.q * s) l.q s := by
  have := ((hasDerivAt_id s).const_mul l.q).const_add l.t0.z
  simpa using this

theorem N_deriv {l : Line} {s : ℝ} (hN : 0 < N l s) : HasDerivAt (N l) (l.q * (l.t0.z + l.q * s) / N l s) s := by
  have hz := z_deriv l s
  have h2 := (hz.mul hz).const_add (l.t0.x * l.t0.x + l.t0.y * l.t0.y)
  have hne : l.t0.x * l.t0.x + l.t0.y * l.t0.y + (l.t0.z + l.q * s) * (l.t0.z + l.q * s) ≠ 0 := by
    rw [← N_sq]; positivity
  have h3 := h2.sqrt hne
  refine h3.congr_deriv ?_
  show _ / (2 * N l s) = _
  field_simp
  ring

theorem rho_deriv {l : Line} (h : Loaded l) {s : ℝ} (hN : 0 < N l s) : HasDerivAt l.rho (l.q * l.rho s / N l s) s := by
  have h1 := (N_deriv hN).add (z_deriv l s)
  have e : l.rho = N l + fun s => l.t0.z + l.q * s := by
    funext x
    exact rho_eq h x
  rw [e]
  refine h1.congr_deriv ?_
  simp only [Pi.add_apply]
  field_simp
  ring

/-- Derivative of the logarithmic term. -/
theorem log_deriv {l : Line} (h : Loaded l) {s : ℝ} (hN : 0 < N l s) (h0 : 0 < l.rho 0) (hs : 0 < l.rho s) :
    HasDerivAt (fun s => Real.log (l.rho s / l.rho 0)) (l.q / N l s) s := by
  have h1 := ((rho_deriv h hN).div_const (l.rho 0)).log (by positivity)
  refine h1.congr_deriv ?_
  field_simp

theorem horiz_deriv {l : Line} (h : Loaded l) (hq : l.q ≠ 0) {s : ℝ} (hN : 0 < N l s) (c : ℝ) (hc : c = l.t0.x ∨ c = l.t0.y) :
    HasDerivAt (fun s => Real.log (l.rho s / l.rho 0) * (c / l.q)) (c / N l s) s := by
  by_cases h0 : 0 < l.rho 0 ∧ 0 < l.rho s
  · refine ((log_deriv h hN h0.1 h0.2).mul_const (c / l.q)).congr_deriv ?_
    field_simp
  · have hz : l.t0.x = 0 ∧ l.t0.y = 0 := by
      by_cases h1 : l.rho 0 > 0
      · exact horiz_zero h s fun h2 => h0 ⟨h1, h2⟩
      · exact horiz_zero h 0 h1
    have : c = 0 := by rcases hc with rfl | rfl; exacts [hz.1, hz.2]
    rw [this]
    simp only [zero_div, mul_zero]
    exact hasDerivAt_const s 0

/-! ## C91 -/

/-- **C91, the shape.** For a load `q` that is not zero, and whatever the tension at the starting node, the positions given by the line are those of an elastic cable in
static equilibrium under its weight in the fluid, which starts at the starting node: the tension given balances the load, the tangent is along the tension and the elongation
follows Hooke's law (none if the line is not elastic), up to and including vertical lines. -/
theorem C91_cable (l : Line) (h : Loaded l) (hq : l.q ≠ 0) :
    IsCable (fun s => l.position s .NWU) (fun s => l.tension s .NWU) (l.start.positionInWorld .NWU) ⟨0, 0, -l.q⟩ (compliance l) := by
  refine ⟨position_zero l, fun s => ?_, fun s ht => ?_⟩
  · simp only [tension_eq h]
    refine ⟨?_, ?_, ?_⟩
    · exact (hasDerivAt_const s l.t0.x).congr_deriv (by simp)
    · exact (hasDerivAt_const s l.t0.y).congr_deriv (by simp)
    · exact (z_deriv l s).congr_deriv (by simp)
  · have hN := N_pos h ht
    have eN : V3.norm (⟨l.t0.x, l.t0.y, l.t0.z + l.q * s⟩ : V3) = N l s := rfl
    simp only [position_eq h hq, tension_eq h, eN]
    have hid := hasDerivAt_id s
    refine ⟨?_, ?_, ?_⟩
    · have := ((horiz_deriv h hq hN l.t0.x (Or.inl rfl)).const_add (l.start.positionInWorld .NWU).x).add ((hid.const_mul l.t0.x).const_mul (compliance l))
      refine this.congr_deriv ?_
      simp only [V3.smul_x]
      field_simp
    · have := ((horiz_deriv h hq hN l.t0.y (Or.inr rfl)).const_add (l.start.positionInWorld .NWU).y).add ((hid.const_mul l.t0.y).const_mul (compliance l))
      refine this.congr_deriv ?_
      simp only [V3.smul_y]
      field_simp
    · have e1 := (((N_deriv hN).sub_const (N l 0)).div_const l.q).const_add (l.start.positionInWorld .NWU).z
      have e2 := (((hid.const_mul l.t0.z).add (((hid.pow 2).const_mul l.q).div_const 2))).const_mul (compliance l)
      refine (e1.add e2).congr_deriv ?_
      simp only [V3.smul_z, id]
      field_simp
      ring

/-- Non-vacuity: the default cable in sea water, not elastic, with an oblique tension: the load is not zero. -/
example (a b : Node) : ∃ l : Line, Loaded l ∧ 0 < l.q ∧ l.t0.x ≠ 0 ∧ l.len = 120 ∧ IsCable (fun s => l.position s .NWU) (fun s => l.tension s .NWU) (a.positionInWorld .NWU) ⟨0, 0, -l.q⟩ 0 := by
  have hq : 0 < ({ (Line.new {} false 120 a b).initLoad 1025 9.81 with t0 := ⟨1000, 0, -5000⟩ } : Line).q := by
    show 0 < (616.538 - 0.05 * 1025) * (9.81 : ℝ)
    norm_num
  have hl := initLoad_loaded (Line.new {} false 120 a b) 1025 9.81
  refine ⟨{ (Line.new {} false 120 a b).initLoad 1025 9.81 with t0 := ⟨1000, 0, -5000⟩ }, ⟨hl.1, hl.2⟩, hq, by norm_num, rfl, ?_⟩
  exact C91_cable _ ⟨hl.1, hl.2⟩ hq.ne'

/-- **C91, the load.** After the initialization the load per metre is the mass of the cable minus that of the displaced fluid, times gravity, downwards. -/
theorem C91_load (l : Line) (rhoFluid g : ℝ) :
    Loaded (l.initLoad rhoFluid g) ∧ (l.initLoad rhoFluid g).q = (l.props.getLinearDensity - l.props.getSectionArea * rhoFluid) * g ∧
    (l.initLoad rhoFluid g).props = l.props ∧ (l.initLoad rhoFluid g).len = l.len ∧ (l.initLoad rhoFluid g).start = l.start ∧ (l.initLoad rhoFluid g).stop = l.stop :=
  ⟨initLoad_loaded l rhoFluid g, rfl, rfl, rfl, rfl, rfl⟩

/-- **C91, conventions.** In NED the positions and the tensions are those of NWU, written in NED; the position of the abscissa 0 is that of the starting node. -/
theorem C91_conventions (l : Line) (s : ℝ) (fc : FC) :
    l.position s fc = conv fc (l.position s .NWU) ∧ l.tension s fc = conv fc (l.tension s .NWU) ∧ l.residual fc = conv fc (l.residual .NWU) ∧
    l.position 0 fc = l.start.positionInWorld fc := by
  have ec : ∀ s, l.chord s fc = conv fc (l.chord s .NWU) := fun s => rfl
  have ee : ∀ s, l.elasticIncrement s fc = conv fc (l.elasticIncrement s .NWU) := fun s => rfl
  have en : ∀ n : Node, n.positionInWorld fc = conv fc (n.positionInWorld .NWU) := fun n => rfl
  have ep : ∀ s, l.position s fc = conv fc (l.position s .NWU) := fun s => by
    unfold Line.position
    rw [ec, ee, en, ← conv_add, ← conv_add]
  refine ⟨ep s, rfl, ?_, ?_⟩
  · unfold Line.residual
    rw [ep, en, ← conv_sub]
  · rw [ep, position_zero, ← en]

/-! ## C92 -/

theorem setLoad_conv (f : Force) (b : Body) (w p : V3) (fc : FC) :
    f.setForceTorqueInWorldAtPointInBody b (conv fc w) 0 (conv fc p) fc = f.setForceTorqueInWorldAtPointInBody b w 0 p .NWU := by
  have key : ∀ fc, f.setForceTorqueInWorldAtPointInBody b (conv fc w) 0 (conv fc p) fc =
      { f with force := w, torque := V3.cross (p - b.cogInRef) (b.cog.rot.conj.rotate w) + b.cog.rot.conj.rotate 0 } := by
    intro fc
    have e1 : (f.setForceTorqueInWorldAtPointInBody b (conv fc w) 0 (conv fc p) fc).force = w := conv_conv fc w
    have e2 : (f.setForceTorqueInWorldAtPointInBody b (conv fc w) 0 (conv fc p) fc).torque =
        V3.cross (p - b.cogInRef) (b.cog.rot.conj.rotate w) + b.cog.rot.conj.rotate 0 := by
      show conv fc (conv fc (conv fc (V3.cross (conv fc p - conv fc b.cogInRef) (b.toBody (conv fc w) fc))) + b.toBody 0 fc) = _
      rw [← conv_zero fc, toBody_conv, toBody_conv, ← conv_sub, ← conv_cross, conv_conv, ← conv_add, conv_conv, conv_zero]
    calc _ = { f with
          force := (f.setForceTorqueInWorldAtPointInBody b (conv fc w) 0 (conv fc p) fc).force
          torque := (f.setForceTorqueInWorldAtPointInBody b (conv fc w) 0 (conv fc p) fc).torque } := rfl
      _ = _ := by rw [e1, e2]
  rw [key fc]
  exact (key .NWU).symm

theorem node_load (f : Force) (b : Body) (h : Placed b) (n : Node) (ha : Attached b n) (w : V3) (fc : FC) :
    IsLoad (f.setForceTorqueInWorldAtPointInBody b w 0 (n.positionInBody b .NWU) .NWU) b fc (conv fc w) 0 (n.positionInWorld fc) := by
  have h1 := load_key f b h (conv fc w) 0 (n.positionInBody b fc) fc
  rw [(C54_attached b h n ha fc).2.1]
  have e : n.positionInBody b fc = conv fc (n.positionInBody b .NWU) := rfl
  rw [← setLoad_conv f b w (n.positionInBody b .NWU) fc, ← e]
  exact h1

/-- **C92, loads on the bodies.** The line pulls the body of its starting node at that node with the tension at the abscissa 0, and the body of its ending node at that node
with minus the tension at the end of the line; there is no couple. In both conventions. -/
theorem C92_loads (l : Line) (f f' : Force) (b b' : Body) (h : Placed b) (h' : Placed b') (ha : Attached b l.start) (ha' : Attached b' l.stop) (fc : FC) :
    IsLoad (startForce l f b) b fc (l.tension 0 fc) 0 (l.start.positionInWorld fc) ∧
    IsLoad (endForce l f' b') b' fc (-l.tension l.len fc) 0 (l.stop.positionInWorld fc) := by
  refine ⟨node_load f b h _ ha _ fc, ?_⟩
  have := node_load f' b' h' _ ha' (l.endTension .NWU) fc
  have e : conv fc (l.endTension .NWU) = -l.tension l.len fc := by
    show conv fc (-(l.tension l.len .NWU)) = _
    rw [conv_neg]
    rfl
  rw [e] at this
  exact this

/-- **C92, conventions.** The tensions of the two ends are the tension of the line at the first abscissa and the opposite of the one at the last, in the convention asked for. -/
theorem C92_conventions (l : Line) (fc : FC) :
    l.startTension fc = l.tension 0 fc ∧ l.endTension fc = -l.tension l.len fc ∧
    l.startTension fc = conv fc (l.startTension .NWU) ∧ l.endTension fc = conv fc (l.endTension .NWU) :=
  ⟨rfl, rfl, rfl, by
    show -(l.tension l.len fc) = conv fc (-(l.tension l.len .NWU))
    rw [conv_neg]
    rfl⟩

/-- **C92, the two pulls carry the weight.** Their sum is the weight in the fluid of the whole line, whatever the tension found by the solver. -/
theorem C92_weight (l : Line) (h : Loaded l) : l.startTension .NWU + l.endTension .NWU = ⟨0, 0, -(l.q * l.len)⟩ := by
  unfold Line.startTension Line.endTension
  rw [tension_eq h, tension_eq h]
  ext <;> simp

theorem hasDeriv3_continuous {f : ℝ → V3} {f' : ℝ → V3} (h : ∀ s, HasDeriv3 f (f' s) s) :
    Continuous (fun s => (f s).x) ∧ Continuous (fun s => (f s).y) ∧ Continuous (fun s => (f s).z) :=
  ⟨continuous_iff_continuousAt.2 fun s => (h s).1.continuousAt, continuous_iff_continuousAt.2 fun s => (h s).2.1.continuousAt,
    continuous_iff_continuousAt.2 fun s => (h s).2.2.continuousAt⟩

/-- **C92, the moment.** About every point, the moment of the two pulls (the second one at the end of the computed line) is that of the weight of the line: the line is in
equilibrium as a whole. -/
theorem C92_moment (l : Line) (h : Loaded l) (hq : l.q ≠ 0) (a : V3) :
    V3.cross (l.position 0 .NWU - a) (l.startTension .NWU) + V3.cross (l.position l.len .NWU - a) (l.endTension .NWU) =
    integral3 (fun s => V3.cross (l.position s .NWU - a) ⟨0, 0, -l.q⟩) 0 l.len := by
  have hC := C91_cable l h hq
  -- the moment of the tension along the line
  have hd : ∀ s, HasDeriv3 (fun s => V3.cross (l.position s .NWU - a) (l.tension s .NWU)) (-(V3.cross (l.position s .NWU - a) ⟨0, 0, -l.q⟩)) s ∧
      (∀ s, ContinuousAt (fun s => (l.position s .NWU).x) s ∧ ContinuousAt (fun s => (l.position s .NWU).y) s) := by
    intro s
    by_cases hz : l.t0.x = 0 ∧ l.t0.y = 0
    · have epx : ∀ s, (l.position s .NWU).x = (l.start.positionInWorld .NWU).x := fun s => by rw [position_eq h hq, hz.1]; simp
      have epy : ∀ s, (l.position s .NWU).y = (l.start.positionInWorld .NWU).y := fun s => by rw [position_eq h hq, hz.2]; simp
      refine ⟨?_, fun s => ⟨by simp only [epx]; exact continuousAt_const, by simp only [epy]; exact continuousAt_const⟩⟩
      unfold HasDeriv3
      simp only [tension_eq h, V3.cross_x, V3.cross_y, V3.cross_z, V3.sub_x, V3.sub_y, V3.sub_z, V3.neg_x, V3.neg_y, V3.neg_z, epx, epy, hz.1, hz.2, mul_zero, sub_zero,
        zero_sub]
      refine ⟨?_, ?_, ?_⟩
      · exact ((z_deriv l s).const_mul _).congr_deriv (by ring)
      · exact ((z_deriv l s).const_mul _).neg.congr_deriv (by ring)
      · exact (hasDerivAt_const s (0 : ℝ)).congr_deriv (by ring)
    · have hne : ∀ s, l.tension s .NWU ≠ 0 := by
        intro s h0
        rw [tension_eq h] at h0
        exact hz ⟨congrArg V3.x h0, congrArg V3.y h0⟩
      refine ⟨?_, fun s => ⟨(hC.tangent s (hne s)).1.continuousAt, (hC.tangent s (hne s)).2.1.continuousAt⟩⟩
      obtain ⟨p1, p2, p3⟩ := hC.tangent s (hne s)
      obtain ⟨t1, t2, t3⟩ := hC.balance s
      have q1 := p1.sub_const a.x
      have q2 := p2.sub_const a.y
      have q3 := p3.sub_const a.z
      refine ⟨?_, ?_, ?_⟩
      · refine ((q2.mul t3).sub (q3.mul t2)).congr_deriv ?_
        simp; ring
      · refine ((q3.mul t1).sub (q1.mul t3)).congr_deriv ?_
        simp; ring
      · refine ((q1.mul t2).sub (q2.mul t1)).congr_deriv ?_
        simp; ring
  have cx : Continuous (fun s => (l.position s .NWU).x) := continuous_iff_continuousAt.2 fun s => ((hd 0).2 s).1
  have cy : Continuous (fun s => (l.position s .NWU).y) := continuous_iff_continuousAt.2 fun s => ((hd 0).2 s).2
  have i1 := intervalIntegral.integral_eq_sub_of_hasDerivAt (a := 0) (b := l.len) (fun s _ => (hd s).1.1)
    (by simp only [V3.neg_x, V3.cross_x, V3.sub_y, V3.sub_z, mul_zero]; exact Continuous.intervalIntegrable (by fun_prop) _ _)
  have i2 := intervalIntegral.integral_eq_sub_of_hasDerivAt (a := 0) (b := l.len) (fun s _ => (hd s).1.2.1)
    (by simp only [V3.neg_y, V3.cross_y, V3.sub_x, V3.sub_z, mul_zero]; exact Continuous.intervalIntegrable (by fun_prop) _ _)
  have i3 := intervalIntegral.integral_eq_sub_of_hasDerivAt (a := 0) (b := l.len) (fun s _ => (hd s).1.2.2)
    (by simp only [V3.neg_z, V3.cross_z, V3.sub_x, V3.sub_y, mul_zero]; exact Continuous.intervalIntegrable (by fun_prop) _ _)
  simp only [V3.neg_x, V3.neg_y, V3.neg_z, intervalIntegral.integral_neg] at i1 i2 i3
  unfold integral3 Line.startTension Line.endTension
  ext
  · simp only [V3.add_x, V3.cross_x, V3.neg_y, V3.neg_z] at i1 ⊢
    linarith
  · simp only [V3.add_y, V3.cross_y, V3.neg_x, V3.neg_z] at i2 ⊢
    linarith
  · simp only [V3.add_z, V3.cross_z, V3.neg_x, V3.neg_y] at i3 ⊢
    linarith

end Frydom.Cable
