import Mathlib.Analysis.SpecialFunctions.Pow.Real
import Mathlib.Analysis.SpecialFunctions.Trigonometric.Basic
import Verif.Geom.Basic

/-!
# Cable properties and unrolling (C88, C89, C90)

`src/frydom/cable/FrCable.{h,cpp}`.
-/

open Classical

noncomputable section

namespace Frydom.Cable

/-- `DBL_EPSILON`. -/
def dblEps : ℝ := 2 ^ (-52 : ℤ)

theorem dblEps_pos : 0 < dblEps := by unfold dblEps; positivity

/-- Attributes of `FrCableProperties` with their default values (FrCable.h:29-38). `m_rayleighDamping` has no accessor and is never read. -/
structure CableProps where
  sec : ℝ := 0.05
  young : ℝ := 3.1416e10
  lam : ℝ := 616.538
  breaking : ℝ := 0

namespace CableProps

/-- `SetYoungModulus` (FrCable.cpp:27-29). -/
def setYoungModulus (p : CableProps) (E : ℝ) : CableProps := { p with young := E }
/-- `GetYoungModulus` (FrCable.cpp:31-33). -/
def getYoungModulus (p : CableProps) : ℝ := p.young
/-- `SetSectionArea` (FrCable.cpp:35-37). -/
def setSectionArea (p : CableProps) (A : ℝ) : CableProps := { p with sec := A }
/-- `GetSectionArea` (FrCable.cpp:39-41). -/
def getSectionArea (p : CableProps) : ℝ := p.sec
/-- `SetDiameter` (FrCable.cpp:43-45). -/
def setDiameter (p : CableProps) (d : ℝ) : CableProps := { p with sec := Real.pi * (d * 0.5) ^ 2 }
/-- `GetDiameter` (FrCable.cpp:47-49). -/
def getDiameter (p : CableProps) : ℝ := Real.sqrt (4 * p.sec / Real.pi)
/-- `SetEA` (FrCable.cpp:51-53). -/
def setEA (p : CableProps) (EA : ℝ) : CableProps := { p with young := EA / p.sec }
/-- `GetEA` (FrCable.cpp:55-57). -/
def getEA (p : CableProps) : ℝ := p.young * p.sec
/-- `SetLinearDensity` (FrCable.cpp:59-61). -/
def setLinearDensity (p : CableProps) (l : ℝ) : CableProps := { p with lam := l }
/-- `GetLinearDensity` (FrCable.cpp:63-65). -/
def getLinearDensity (p : CableProps) : ℝ := p.lam
/-- `SetDensity` (FrCable.cpp:67-69). -/
def setDensity (p : CableProps) (rho : ℝ) : CableProps := { p with lam := rho * p.sec }
/-- `GetDensity` (FrCable.cpp:71-73). -/
def getDensity (p : CableProps) : ℝ := p.lam / p.sec
/-- `SetBreakingTension` (FrCable.cpp:75-78): the assertion fails (`none`) unless the tension is over `DBL_EPSILON`. -/
def setBreakingTension (p : CableProps) (t : ℝ) : Option CableProps := if t > dblEps then some { p with breaking := t } else none
/-- `GetBreakingTension` (FrCable.cpp:80-82). -/
def getBreakingTension (p : CableProps) : ℝ := p.breaking

/-- Constructor `FrCableProperties(diameter, linearDensity, youngModulus)` (FrCable.cpp:22-25). -/
def new (diameter linearDensity youngModulus : ℝ) : CableProps :=
  ({ young := youngModulus, lam := linearDensity } : CableProps).setDiameter diameter

/-- `make_cable_properties(diameter, linearDensity, youngModulus)` (FrCable.cpp:88-90): the arguments are handed to the constructor in another order. -/
def make (diameter linearDensity youngModulus : ℝ) : CableProps := new youngModulus diameter linearDensity

/-- The setters that change the cross section or what depends on it. -/
inductive SetOp
  | young (E : ℝ)
  | area (A : ℝ)
  | diameter (d : ℝ)
  | ea (EA : ℝ)
  | linear (l : ℝ)
  | density (rho : ℝ)

/-- One setter call. -/
def SetOp.run (p : CableProps) : SetOp → CableProps
  | .young E => p.setYoungModulus E
  | .area A => p.setSectionArea A
  | .diameter d => p.setDiameter d
  | .ea EA => p.setEA EA
  | .linear l => p.setLinearDensity l
  | .density rho => p.setDensity rho

/-- The arguments a user may give: areas and diameters are positive. -/
def SetOp.Valid : SetOp → Prop
  | .area A => 0 < A
  | .diameter d => 0 < d
  | _ => True

end CableProps

open CableProps

/-- Specification: what the six getters say of a round cable of cross section area `A`, Young modulus `E` and mass per metre `lam`. -/
structure Describes (p : CableProps) (A E lam : ℝ) : Prop where
  area : p.getSectionArea = A
  diameter : 0 ≤ p.getDiameter ∧ Real.pi * p.getDiameter ^ 2 / 4 = A
  young : p.getYoungModulus = E
  ea : p.getEA = E * A
  linear : p.getLinearDensity = lam
  density : p.getDensity * A = lam

theorem describes_self (p : CableProps) (h : 0 < p.sec) : Describes p p.sec p.young p.lam := by
  refine ⟨rfl, ⟨Real.sqrt_nonneg _, ?_⟩, rfl, rfl, rfl, ?_⟩
  · have hp := Real.pi_pos
    unfold getDiameter
    rw [Real.sq_sqrt (by positivity)]
    field_simp
  · unfold getDensity
    field_simp

/-- **C88, a setter.** On a cable of cross section `A > 0`, Young modulus `E` and linear density `lam`, each setter gives the cable it describes; `SetEA` and `SetDensity`
keep the section and change the modulus and the linear density, and the changes of section keep the modulus and the linear density (hence not `EA` nor the density). -/
theorem C88_setter (p : CableProps) (A E lam : ℝ) (hA : 0 < A) (h : Describes p A E lam) :
    (∀ x, Describes (p.setYoungModulus x) A x lam) ∧
    (∀ x, 0 < x → Describes (p.setSectionArea x) x E lam) ∧
    (∀ x, 0 < x → Describes (p.setDiameter x) (Real.pi * x ^ 2 / 4) E lam ∧ (p.setDiameter x).getDiameter = x) ∧
    (∀ x, Describes (p.setEA x) A (x / A) lam ∧ (p.setEA x).getEA = x) ∧
    (∀ x, Describes (p.setLinearDensity x) A E x) ∧
    (∀ x, Describes (p.setDensity x) A E (x * A) ∧ (p.setDensity x).getDensity = x) := by
  have e1 : p.sec = A := h.area
  have e2 : p.young = E := h.young
  have e3 : p.lam = lam := h.linear
  subst e1; subst e2; subst e3
  have hp := Real.pi_pos
  refine ⟨fun x => describes_self (p.setYoungModulus x) hA, fun x hx => describes_self (p.setSectionArea x) hx, fun x hx => ?_, fun x => ?_,
    fun x => describes_self (p.setLinearDensity x) hA, fun x => ?_⟩
  · have e : (p.setDiameter x).sec = Real.pi * x ^ 2 / 4 := by
      show Real.pi * (x * 0.5) ^ 2 = _
      ring
    have := describes_self (p.setDiameter x) (by rw [e]; positivity)
    rw [e] at this
    refine ⟨this, ?_⟩
    unfold getDiameter
    rw [e]
    have e' : 4 * (Real.pi * x ^ 2 / 4) / Real.pi = x ^ 2 := by field_simp
    rw [e', Real.sqrt_sq hx.le]
  · refine ⟨describes_self (p.setEA x) hA, ?_⟩
    show x / p.sec * p.sec = x
    field_simp
  · refine ⟨describes_self (p.setDensity x) hA, ?_⟩
    show x * p.sec / p.sec = x
    field_simp

/-- The section stays positive through valid calls. -/
theorem run_pos (ops : List SetOp) (hv : ∀ o ∈ ops, o.Valid) (p : CableProps) (h : 0 < p.sec) : 0 < (ops.foldl SetOp.run p).sec := by
  induction ops generalizing p with
  | nil => exact h
  | cons o os ih =>
    refine ih (fun o' ho' => hv o' (List.mem_cons_of_mem _ ho')) _ ?_
    have ho := hv o (by simp)
    cases o with
    | young E => exact h
    | area A => exact ho
    | diameter d =>
      have hd : 0 < d := ho
      show 0 < Real.pi * (d * 0.5) ^ 2
      have := Real.pi_pos
      positivity
    | ea EA => exact h
    | linear l => exact h
    | density rho => exact h

/-- **C88, histories.** After any sequence of valid setter calls on a default-constructed cable, or on one built with a positive diameter, the getters describe one round cable. -/
theorem C88_history (ops : List SetOp) (hv : ∀ o ∈ ops, o.Valid) (d l E : ℝ) (hd : 0 < d) :
    (∃ A E' lam, 0 < A ∧ Describes (ops.foldl SetOp.run {}) A E' lam) ∧
    (∃ A E' lam, 0 < A ∧ Describes (ops.foldl SetOp.run (CableProps.new d l E)) A E' lam) := by
  have hp := Real.pi_pos
  have h1 : 0 < ({} : CableProps).sec := by norm_num
  have h2 : 0 < (CableProps.new d l E).sec := by
    show 0 < Real.pi * (d * 0.5) ^ 2
    positivity
  exact ⟨⟨_, _, _, run_pos ops hv _ h1, describes_self _ (run_pos ops hv _ h1)⟩, ⟨_, _, _, run_pos ops hv _ h2, describes_self _ (run_pos ops hv _ h2)⟩⟩

/-- **C88, the constructor.** -/
theorem C88_constructor (d l E : ℝ) (hd : 0 < d) : Describes (CableProps.new d l E) (Real.pi * d ^ 2 / 4) E l ∧ (CableProps.new d l E).getDiameter = d := by
  have h1 : 0 < ({ young := E, lam := l } : CableProps).sec := by norm_num
  exact (C88_setter _ _ _ _ h1 (describes_self _ h1)).2.2.1 d hd

/-- **C88, breaking tension.** Only tensions over `DBL_EPSILON` are accepted, and read back. -/
theorem C88_breaking (p : CableProps) (t : ℝ) :
    (dblEps < t → ∃ p', p.setBreakingTension t = some p' ∧ p'.getBreakingTension = t ∧ p'.sec = p.sec ∧ p'.young = p.young ∧ p'.lam = p.lam) ∧
    (t ≤ dblEps → p.setBreakingTension t = none) := by
  refine ⟨fun h => ⟨_, if_pos h, rfl, rfl, rfl, rfl⟩, fun h => if_neg (not_lt.2 h)⟩

/-- Non-vacuity: a 10 cm steel cable, then its axial stiffness is set: the diameter is kept. -/
example : ∃ A E lam, 0 < A ∧ Describes (([.diameter 0.1, .density 7850, .ea 1e9] : List SetOp).foldl SetOp.run {}) A E lam :=
  (C88_history [.diameter 0.1, .density 7850, .ea 1e9] (by simp [SetOp.Valid]; norm_num) 1 1 1 one_pos).1

/-- **C88, order of calls.** `SetEA` before `SetDiameter` is not kept: the stiffness is multiplied by the ratio of the sections. -/
theorem C88_order (p : CableProps) (h : 0 < p.sec) (EA d : ℝ) :
    ((p.setEA EA).setDiameter d).getEA = EA * ((Real.pi * d ^ 2 / 4) / p.getSectionArea) := by
  show EA / p.sec * (Real.pi * (d * 0.5) ^ 2) = EA * ((Real.pi * d ^ 2 / 4) / p.sec)
  field_simp
  ring

/-- **C89 (defect).** `make_cable_properties(diameter, linearDensity, youngModulus)` does not give the cable it describes: the section is that of a cable of diameter
`youngModulus`, the Young modulus is the linear density and the linear density is the diameter. -/
theorem C89_make_swaps (d l E : ℝ) (hE : 0 < E) :
    Describes (CableProps.make d l E) (Real.pi * E ^ 2 / 4) l d ∧ (CableProps.make d l E).getDiameter = E := C88_constructor E d l hE

/-- **C89 (defect).** The factory agrees with the constructor only when the three numbers are equal. -/
theorem C89_make_wrong (d l E : ℝ) (hd : 0 < d) (hE : 0 < E) : CableProps.make d l E = CableProps.new d l E ↔ d = l ∧ l = E := by
  constructor
  · intro h
    have h1 := (C89_make_swaps d l E hE)
    have h2 := (C88_constructor d l E hd)
    rw [h] at h1
    have e1 : d = E := by rw [← h2.2, h1.2]
    have e2 : d = l := by rw [← h1.1.linear, h2.1.linear]
    exact ⟨e2, by rw [← e2, e1]⟩
  · rintro ⟨rfl, rfl⟩; rfl

/-! ## Unrolling (C90) -/

/-- The part of `FrCable` that unrolling uses (FrCable.h:130-143). -/
structure Winch where
  time : ℝ := 0
  step : ℝ := 0
  length : ℝ := 100
  speed : ℝ := 0

namespace Winch

/-- Constructor with an unstrained length (FrCable.cpp:107-114). -/
def new (L : ℝ) : Winch := { length := L }
/-- `SetUnstrainedLength` (FrCable.cpp:126-128). -/
def setLength (w : Winch) (L : ℝ) : Winch := { w with length := L }
/-- `SetUnrollingSpeed` (FrCable.cpp:175-177). -/
def setSpeed (w : Winch) (v : ℝ) : Winch := { w with speed := v }
/-- `UpdateTime` (FrCable.cpp:183-186). -/
def updateTime (w : Winch) (t : ℝ) : Winch := { w with step := t - w.time, time := t }
/-- `FrCable::UpdateState` (FrCable.cpp:188-192). -/
def updateState (w : Winch) : Winch :=
  if |w.speed| > dblEps ∧ |w.step| > dblEps then { w with length := w.length + w.speed * w.step } else w
/-- `FrCatenaryLine::Compute` (FrCatenaryLine.cpp:301-311), its effect on the length: the solver does not touch it. -/
def compute (w : Winch) (t : ℝ) : Winch := (w.updateTime t).updateState

/-- One call by the user or by the simulation. -/
inductive WOp
  | speed (v : ℝ)
  | length (L : ℝ)
  | compute (t : ℝ)

/-- One call. -/
def WOp.run (w : Winch) : WOp → Winch
  | .speed v => w.setSpeed v
  | .length L => w.setLength L
  | .compute t => w.compute t

end Winch

open Winch

/-- Specification: length paid out by a history of calls that starts at time `T` with length `L` and speed `v`: the speed set last times the time elapsed. -/
def paidOut : List WOp → ℝ → ℝ → ℝ → ℝ
  | [], _, L, _ => L
  | .speed v :: os, T, L, _ => paidOut os T L v
  | .length L :: os, T, _, v => paidOut os T L v
  | .compute t :: os, T, L, v => paidOut os t (L + v * (t - T)) v

/-- Specification: in the history no time step is shorter than `DBL_EPSILON` unless it is null, and no speed either. -/
def Resolved : List WOp → ℝ → ℝ → Prop
  | [], _, _ => True
  | .speed v :: os, T, _ => Resolved os T v
  | .length _ :: os, T, v => Resolved os T v
  | .compute t :: os, T, v => (v = 0 ∨ t = T ∨ dblEps < |v| ∧ dblEps < |t - T|) ∧ Resolved os t v

theorem compute_length (w : Winch) (t : ℝ) (h : w.speed = 0 ∨ t = w.time ∨ dblEps < |w.speed| ∧ dblEps < |t - w.time|) :
    w.compute t = { w with step := t - w.time, time := t, length := w.length + w.speed * (t - w.time) } := by
  unfold compute updateState
  rcases h with h | h | h
  · rw [if_neg]
    · show ({ w with step := t - w.time, time := t } : Winch) = _
      rw [h]; simp
    · rintro ⟨h1, _⟩
      have : |w.speed| > dblEps := h1
      rw [h, abs_zero] at this
      exact absurd this (not_lt.2 dblEps_pos.le)
  · rw [if_neg]
    · show ({ w with step := t - w.time, time := t } : Winch) = _
      rw [h]; simp
    · rintro ⟨_, h1⟩
      have : |t - w.time| > dblEps := h1
      rw [h, sub_self, abs_zero] at this
      exact absurd this (not_lt.2 dblEps_pos.le)
  · rw [if_pos ⟨h.1, h.2⟩]
    rfl

/-- **C90, unrolling.** Whatever the sequence of speed changes, length changes and computations (at increasing, equal or decreasing times), the unstrained length is the
one paid out by the speed over the elapsed time. -/
theorem C90_unrolling (ops : List WOp) (w : Winch) (h : Resolved ops w.time w.speed) :
    (ops.foldl WOp.run w).length = paidOut ops w.time w.length w.speed := by
  induction ops generalizing w with
  | nil => rfl
  | cons o os ih =>
    cases o with
    | speed v => exact ih (w.setSpeed v) h
    | length L => exact ih (w.setLength L) h
    | compute t =>
      have e := compute_length w t h.1
      show (os.foldl WOp.run (w.compute t)).length = _
      rw [e]
      exact ih { w with step := t - w.time, time := t, length := w.length + w.speed * (t - w.time) } h.2

/-- At constant speed the length paid out telescopes, whatever the instants. -/
theorem paidOut_computes (ts : List ℝ) (T L v : ℝ) : paidOut (ts.map .compute) T L v = L + v * (ts.getLastD T - T) := by
  induction ts generalizing T L with
  | nil => simp [paidOut]
  | cons t ts ih =>
    show paidOut (ts.map .compute) t (L + v * (t - T)) v = _
    rw [ih, List.getLastD_cons]
    ring

/-- **C90, constant speed.** The length after any sequence of computations depends on the last instant only. -/
theorem C90_constant_speed (ts : List ℝ) (w : Winch) (h : Resolved (ts.map .compute) w.time w.speed) :
    ((ts.map WOp.compute).foldl WOp.run w).length = w.length + w.speed * (ts.getLastD w.time - w.time) := by
  rw [C90_unrolling _ w h, paidOut_computes]

/-- **C90, repeated computations.** Computing again at the same instant (as the integrator does) pays nothing out. -/
theorem C90_repeated (w : Winch) (t : ℝ) : ((w.compute t).compute t).length = (w.compute t).length := by
  have ht : (w.compute t).time = t := by
    unfold compute updateState
    split_ifs <;> rfl
  rw [compute_length (w.compute t) t (Or.inr (Or.inl ht.symm)), ht]
  simp

/-- Non-vacuity: a step of 0.1 s at 2 m/s, computed twice, then reeled in. -/
example : (([.speed 2, .compute 0.1, .compute 0.1, .speed (-1), .compute 0.3] : List WOp).foldl WOp.run (Winch.new 50)).length = 50 := by
  have he : dblEps < 0.01 := by unfold dblEps; norm_num
  have h : Resolved [.speed 2, .compute 0.1, .compute 0.1, .speed (-1), .compute 0.3] (Winch.new 50).time (Winch.new 50).speed := by
    refine ⟨Or.inr (Or.inr ⟨?_, ?_⟩), Or.inr (Or.inl rfl), Or.inr (Or.inr ⟨?_, ?_⟩), trivial⟩
    · norm_num; linarith
    · show dblEps < |0.1 - 0|
      norm_num; linarith
    · norm_num; linarith
    · norm_num; linarith
  rw [C90_unrolling _ _ h]
  show (50 + 2 * (0.1 - 0) + 2 * (0.1 - 0.1) + -1 * (0.3 - 0.1) : ℝ) = 50
  norm_num

/-- **C90, limits.** (1) The clock of a cable starts at 0, not at the time of the simulation: a cable that is computed for the first time at `t` pays out the length of the
whole time since 0 at once. (2) Nothing stops the length at zero. (3) Steps under `DBL_EPSILON` pay nothing out, and are lost. -/
theorem C90_limits :
    (∀ L v t, dblEps < |v| → dblEps < |t| → (((Winch.new L).setSpeed v).compute t).length = L + v * t) ∧
    (∃ w : Winch, ∃ t, 0 < w.length ∧ w.time < t ∧ (w.compute t).length < 0) ∧
    (∀ w : Winch, ∀ t, |t - w.time| ≤ dblEps → (w.compute t).length = w.length ∧ (w.compute t).time = t) := by
  have he : dblEps < 0.01 := by unfold dblEps; norm_num
  refine ⟨fun L v t hv ht => ?_, ⟨(Winch.new 1).setSpeed (-1), 2, ?_, ?_, ?_⟩, fun w t h => ?_⟩
  · have := compute_length ((Winch.new L).setSpeed v) t (Or.inr (Or.inr ⟨hv, by show dblEps < |t - 0|; rwa [sub_zero]⟩))
    rw [this]
    show L + v * (t - 0) = L + v * t
    rw [sub_zero]
  · show (0 : ℝ) < 1; norm_num
  · show (0 : ℝ) < 2; norm_num
  · have := compute_length ((Winch.new 1).setSpeed (-1)) 2 (Or.inr (Or.inr ⟨by show dblEps < |(-1 : ℝ)|; norm_num; linarith,
      by show dblEps < |(2 : ℝ) - 0|; norm_num; linarith⟩))
    rw [this]
    show (1 : ℝ) + -1 * (2 - 0) < 0
    norm_num
  · have : w.compute t = w.updateTime t := by
      unfold compute updateState
      exact if_neg fun h2 => absurd h2.2 (not_lt.2 h)
    rw [this]
    exact ⟨rfl, rfl⟩

end Frydom.Cable
