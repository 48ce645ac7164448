import Mathlib.Data.Real.Basic
import Mathlib.Algebra.Order.Floor.Semiring
import Mathlib.Tactic.Linarith
import Mathlib.Tactic.Ring
import Mathlib.Tactic.NormNum
import Mathlib.Tactic.FieldSimp
import Verif.Geom.Basic

/-!
# Settings of a system, gravity and the loop of the viewer (C155, C156)

`FrOffshoreSystem`: constructor, `SetSystemType`, `SetSolver`, `SetTimeStepper`, `SetTimeStep`, `SetGravityAcceleration`, contact settings
(src/frydom/core/FrOffshoreSystem.cpp 160-205, 621-875, 905-990) and `FrIrrApp::Run` (src/frydom/utils/FrIrrApp.cpp 101-122).
-/

noncomputable section

namespace Frydom.Core.Settings
open Frydom.Geom

/-- `SYSTEM_TYPE` (FrOffshoreSystem.h 130-133). -/
inductive SystemType | smooth | nonSmooth
  deriving DecidableEq

/-- `SOLVER` (FrOffshoreSystem.h 174-194). -/
inductive Solver | sor | symmSor | jacobi | barzilaiBorwein | pcg | apgd | minres | smc

/-- `TIME_STEPPER` (FrOffshoreSystem.h 136-171). -/
inductive Stepper | eulerImplicitLinearized | eulerImplicitProjected | eulerImplicit | trapezoidal | trapezoidalLinearized | hht | rungeKutta45
  | eulerExplicit | newmark

/-- `CONTACT_MODEL` (FrOffshoreSystem.h 197-201). -/
inductive ContactModel | hooke | hertz | coulomb

/-- The settings held by a Chrono system. Those not listed are set in the same way. -/
structure ChSettings where
  gravity : V3
  step : ℝ
  stepMin : ℝ
  stepMax : ℝ
  time : ℝ
  solver : Solver
  stepper : Stepper
  maxIterSpeed : ℤ
  maxIterStab : ℤ
  contactModel : ContactModel
  slipThreshold : ℝ
  impactVelocity : ℝ

/-- The settings of `FrOffshoreSystem`: its type (m_systemType) and its Chrono system. -/
structure Settings where
  type : SystemType
  ch : ChSettings

/-- The calls. -/
inductive Setting
  | gravity (g : ℝ)
  | timeStep (h : ℝ)
  | minTimeStep (h : ℝ)
  | maxTimeStep (h : ℝ)
  | time (t : ℝ)
  | solver (s : Solver)
  | stepper (s : Stepper)
  | maxIterSpeed (n : ℤ)
  | maxIterStab (n : ℤ)
  | contactModel (m : ContactModel)
  | slipThreshold (v : ℝ)
  | impactVelocity (v : ℝ)
  | systemType (t : SystemType)

/-- A setting (FrOffshoreSystem.cpp: gravity 870-874, time step 971-990, time 994-996, solver 656-690, time stepper 911-964, iterations 709-715, contact
settings 735-752, 804-825: only for a smooth system, else ignored; type 626-645: a new Chrono system, with the default settings `d` of Chrono). -/
def Settings.set (d : ChSettings) (s : Settings) : Setting → Settings
  | .gravity g => { s with ch := { s.ch with gravity := ⟨0, 0, -g⟩ } }
  | .timeStep h => { s with ch := { s.ch with step := h } }
  | .minTimeStep h => { s with ch := { s.ch with stepMin := h } }
  | .maxTimeStep h => { s with ch := { s.ch with stepMax := h } }
  | .time t => { s with ch := { s.ch with time := t } }
  | .solver x => { s with ch := { s.ch with solver := x } }
  | .stepper x => { s with ch := { s.ch with stepper := x } }
  | .maxIterSpeed n => { s with ch := { s.ch with maxIterSpeed := n } }
  | .maxIterStab n => { s with ch := { s.ch with maxIterStab := n } }
  | .contactModel m => if s.type = .smooth then { s with ch := { s.ch with contactModel := m } } else s
  | .slipThreshold v => if s.type = .smooth then { s with ch := { s.ch with slipThreshold := v } } else s
  | .impactVelocity v => if s.type = .smooth then { s with ch := { s.ch with impactVelocity := v } } else s
  | .systemType t => { type := t, ch := d }

/-- Several settings. -/
def Settings.setAll (d : ChSettings) (s : Settings) (l : List Setting) : Settings := l.foldl (Settings.set d) s

/-- The constructor (FrOffshoreSystem.cpp 165-205): type, time stepper, solver, then the environment, which sets the gravity
(FrEnvironment.cpp 46). -/
def Settings.new (d : ChSettings) (t : SystemType) (st : Stepper) (so : Solver) : Settings :=
  (((Settings.mk t d).set d (.stepper st)).set d (.solver so)).set d (.gravity 9.81)

/-- `GetGravityAcceleration` (FrOffshoreSystem.cpp 866-868). -/
def Settings.getGravity (s : Settings) : ℝ := |s.ch.gravity.z|

/-- The weight Chrono applies to a body of mass m, in the world, NWU (external: mass times `G_acc`). -/
def Settings.weight (s : Settings) (m : ℝ) : V3 := m • s.ch.gravity

/-! ## Specification -/

/-- The last value asked for by the calls `l` of one kind, selected by `f`. -/
def lastAsked {α : Type} (f : Setting → Option α) (l : List Setting) : Option α := (l.filterMap f).getLast?

/-- No call of `l` changes the type of the system. -/
def SameType (l : List Setting) : Prop := ∀ t, .systemType t ∉ l

theorem setAll_append (d : ChSettings) (s : Settings) (l k : List Setting) : s.setAll d (l ++ k) = (s.setAll d l).setAll d k :=
  List.foldl_append

theorem setAll_snoc (d : ChSettings) (s : Settings) (l : List Setting) (c : Setting) : s.setAll d (l ++ [c]) = (s.setAll d l).set d c := by
  rw [setAll_append]; rfl

theorem lastAsked_snoc {α : Type} (f : Setting → Option α) (l : List Setting) (c : Setting) :
    lastAsked f (l ++ [c]) = (f c).or (lastAsked f l) := by
  unfold lastAsked
  rw [List.filterMap_append]
  cases h : f c with
  | none => simp [h]
  | some a => simp [h]

theorem SameType.left {l : List Setting} {c : Setting} (h : SameType (l ++ [c])) : SameType l :=
  fun t ht => h t (List.mem_append_left _ ht)

theorem type_kept (d : ChSettings) (s : Settings) (l : List Setting) (h : SameType l) : (s.setAll d l).type = s.type := by
  induction l using List.reverseRecOn with
  | nil => rfl
  | append_singleton l c ih =>
    rw [setAll_snoc]
    have ih := ih h.left
    cases c with
    | systemType t => exact absurd (by simp) (h t)
    | contactModel m => simp only [Settings.set]; split <;> exact ih
    | slipThreshold m => simp only [Settings.set]; split <;> exact ih
    | impactVelocity m => simp only [Settings.set]; split <;> exact ih
    | _ => exact ih

/-- General form: a field of Chrono written by one kind of calls only is the last one asked for. -/
theorem field_last {α : Type} (get : ChSettings → α) (f : Setting → Option α) (d : ChSettings) (s : Settings) (l : List Setting) (h : SameType l)
    (hset : ∀ (s' : Settings) (c : Setting), s'.type = s.type → (∀ t, c ≠ .systemType t) → get (s'.set d c).ch = (f c).getD (get s'.ch)) :
    get (s.setAll d l).ch = (lastAsked f l).getD (get s.ch) := by
  induction l using List.reverseRecOn with
  | nil => rfl
  | append_singleton l c ih =>
    rw [setAll_snoc, lastAsked_snoc, hset _ _ (type_kept d s l h.left) (fun t ht => h t (by simp [ht])), ih h.left]
    cases f c <;> rfl

/-- **C155 (settings)**: after any settings that do not change its type, a new system has the gravity, steps, time, solver, time stepper and numbers of
iterations last asked for, else those of its constructor (for the others the defaults of Chrono, `d`). -/
theorem C155_settings (d : ChSettings) (t : SystemType) (st : Stepper) (so : Solver) (l : List Setting) (h : SameType l) :
    let s := (Settings.new d t st so).setAll d l
    s.type = t ∧
    s.ch.gravity = ⟨0, 0, -(lastAsked (fun | .gravity g => some g | _ => none) l).getD 9.81⟩ ∧
    s.ch.step = (lastAsked (fun | .timeStep x => some x | _ => none) l).getD d.step ∧
    s.ch.stepMin = (lastAsked (fun | .minTimeStep x => some x | _ => none) l).getD d.stepMin ∧
    s.ch.stepMax = (lastAsked (fun | .maxTimeStep x => some x | _ => none) l).getD d.stepMax ∧
    s.ch.time = (lastAsked (fun | .time x => some x | _ => none) l).getD d.time ∧
    s.ch.solver = (lastAsked (fun | .solver x => some x | _ => none) l).getD so ∧
    s.ch.stepper = (lastAsked (fun | .stepper x => some x | _ => none) l).getD st ∧
    s.ch.maxIterSpeed = (lastAsked (fun | .maxIterSpeed x => some x | _ => none) l).getD d.maxIterSpeed ∧
    s.ch.maxIterStab = (lastAsked (fun | .maxIterStab x => some x | _ => none) l).getD d.maxIterStab := by
  intro s
  refine ⟨type_kept d _ l h, ?_, ?_, ?_, ?_, ?_, ?_, ?_, ?_, ?_⟩
  · have hg : s.ch.gravity = (lastAsked (fun | .gravity g => some (⟨0, 0, -g⟩ : V3) | _ => none) l).getD ⟨0, 0, -9.81⟩ := by
      refine field_last ChSettings.gravity _ d (Settings.new d t st so) l h ?_
      intro s' c ht hc
      cases c <;> first | rfl | (simp only [Settings.set]; split <;> rfl) | exact absurd rfl (hc _)
    have he : lastAsked (fun | .gravity g => some (⟨0, 0, -g⟩ : V3) | _ => none) l
        = (lastAsked (fun | .gravity g => some g | _ => none) l).map fun g => (⟨0, 0, -g⟩ : V3) := by
      unfold lastAsked
      rw [← List.getLast?_map, List.map_filterMap]
      congr 2
      funext c
      cases c <;> rfl
    rw [hg, he]
    cases lastAsked (fun | .gravity g => some g | _ => none) l <;> rfl
  all_goals
    first
    | refine field_last ChSettings.step _ d (Settings.new d t st so) l h ?_
    | refine field_last ChSettings.stepMin _ d (Settings.new d t st so) l h ?_
    | refine field_last ChSettings.stepMax _ d (Settings.new d t st so) l h ?_
    | refine field_last ChSettings.time _ d (Settings.new d t st so) l h ?_
    | refine field_last ChSettings.solver _ d (Settings.new d t st so) l h ?_
    | refine field_last ChSettings.stepper _ d (Settings.new d t st so) l h ?_
    | refine field_last ChSettings.maxIterSpeed _ d (Settings.new d t st so) l h ?_
    | refine field_last ChSettings.maxIterStab _ d (Settings.new d t st so) l h ?_
    intro s' c ht hc
    cases c <;> first | rfl | (simp only [Settings.set]; split <;> rfl) | exact absurd rfl (hc _)

/-- **C155 (contact settings)**: those of a smooth system are the last ones asked for; a non smooth system ignores them all. -/
theorem C155_contact (d : ChSettings) (st : Stepper) (so : Solver) (l : List Setting) (h : SameType l) :
    (let s := (Settings.new d .smooth st so).setAll d l
     s.ch.contactModel = (lastAsked (fun | .contactModel x => some x | _ => none) l).getD d.contactModel ∧
     s.ch.slipThreshold = (lastAsked (fun | .slipThreshold x => some x | _ => none) l).getD d.slipThreshold ∧
     s.ch.impactVelocity = (lastAsked (fun | .impactVelocity x => some x | _ => none) l).getD d.impactVelocity) ∧
    (let s := (Settings.new d .nonSmooth st so).setAll d l
     s.ch.contactModel = d.contactModel ∧ s.ch.slipThreshold = d.slipThreshold ∧ s.ch.impactVelocity = d.impactVelocity) := by
  constructor
  · refine ⟨?_, ?_, ?_⟩
    · refine field_last ChSettings.contactModel _ d (Settings.new d .smooth st so) l h ?_
      intro s' c ht hc
      cases c <;> first | rfl | (simp only [Settings.set]; rw [if_pos (show s'.type = .smooth from ht)]; rfl) | exact absurd rfl (hc _)
    · refine field_last ChSettings.slipThreshold _ d (Settings.new d .smooth st so) l h ?_
      intro s' c ht hc
      cases c <;> first | rfl | (simp only [Settings.set]; rw [if_pos (show s'.type = .smooth from ht)]; rfl) | exact absurd rfl (hc _)
    · refine field_last ChSettings.impactVelocity _ d (Settings.new d .smooth st so) l h ?_
      intro s' c ht hc
      cases c <;> first | rfl | (simp only [Settings.set]; rw [if_pos (show s'.type = .smooth from ht)]; rfl) | exact absurd rfl (hc _)
  · have hn : ∀ {α : Type} (l : List Setting), lastAsked (fun _ => (none : Option α)) l = none := by
      intro α l; simp [lastAsked]
    have hno : ∀ s' : Settings, s'.type = (Settings.new d .nonSmooth st so).type → s'.type ≠ .smooth := by
      intro s' hs; rw [hs]; simp [Settings.new, Settings.set]
    refine ⟨?_, ?_, ?_⟩
    · have := field_last ChSettings.contactModel (fun _ => none) d (Settings.new d .nonSmooth st so) l h ?_
      · rw [hn] at this; exact this
      intro s' c ht hc
      cases c <;> first | rfl | (simp only [Settings.set]; rw [if_neg (hno s' ht)]; rfl) | exact absurd rfl (hc _)
    · have := field_last ChSettings.slipThreshold (fun _ => none) d (Settings.new d .nonSmooth st so) l h ?_
      · rw [hn] at this; exact this
      intro s' c ht hc
      cases c <;> first | rfl | (simp only [Settings.set]; rw [if_neg (hno s' ht)]; rfl) | exact absurd rfl (hc _)
    · have := field_last ChSettings.impactVelocity (fun _ => none) d (Settings.new d .nonSmooth st so) l h ?_
      · rw [hn] at this; exact this
      intro s' c ht hc
      cases c <;> first | rfl | (simp only [Settings.set]; rw [if_neg (hno s' ht)]; rfl) | exact absurd rfl (hc _)

/-- **C155 (gravity)**: after any settings that do not change the type and only ask for gravities that are not negative, every body weighs its mass times
the gravity read, downwards. -/
theorem C155_weight (d : ChSettings) (t : SystemType) (st : Stepper) (so : Solver) (l : List Setting) (h : SameType l)
    (hg : ∀ g, .gravity g ∈ l → 0 ≤ g) (m : ℝ) :
    let s := (Settings.new d t st so).setAll d l
    s.weight m = ⟨0, 0, -(m * s.getGravity)⟩ := by
  intro s
  obtain ⟨-, h1, -⟩ := C155_settings d t st so l h
  have hpos : (0 : ℝ) ≤ (lastAsked (fun | .gravity g => some g | _ => none) l).getD (9.81 : ℝ) := by
    cases he : lastAsked (fun | .gravity g => some g | _ => none) l with
    | none => norm_num
    | some g =>
      have : g ∈ l.filterMap (fun | .gravity g => some g | _ => none) := List.mem_of_getLast? he
      obtain ⟨c, hc, hcg⟩ := List.mem_filterMap.mp this
      cases c with
      | gravity g' =>
        have : g' = g := Option.some.inj hcg
        exact this ▸ hg g' hc
      | _ => cases hcg
  show m • s.ch.gravity = _
  unfold Settings.getGravity
  rw [h1]
  ext <;> simp [abs_of_nonneg hpos]

/-- **C155 (defect)**: a negative gravity is read as positive, while bodies weigh upwards. -/
theorem C155_negative_gravity (d : ChSettings) (s : Settings) (g : ℝ) (hg : g < 0) (m : ℝ) (hm : 0 < m) :
    (s.set d (.gravity g)).getGravity = -g ∧ 0 < ((s.set d (.gravity g)).weight m).z := by
  constructor
  · show |(-g)| = -g
    exact abs_of_pos (by linarith)
  · show 0 < m * (-g)
    exact mul_pos hm (by linarith)

/-- **C155 (defect)**: after any settings, changing the type of the system, even to the same one, forgets all the settings: with the default gravity of
Chrono, 9.8 along -y, the gravity read is 0 and bodies weigh horizontally, until it is set again. -/
theorem C155_type_forgets (d : ChSettings) (hd : d.gravity = ⟨0, -9.8, 0⟩) (s : Settings) (l : List Setting) (t : SystemType) (k : List Setting)
    (hk : SameType k) (hg : ∀ g, .gravity g ∉ k) (m : ℝ) :
    (s.setAll d (l ++ [.systemType t])).ch = d ∧
    (let s' := s.setAll d (l ++ [.systemType t] ++ k)
     s'.getGravity = 0 ∧ s'.weight m = ⟨0, -(m * 9.8), 0⟩) := by
  have h1 : (s.setAll d (l ++ [.systemType t])) = ⟨t, d⟩ := setAll_snoc d s l _
  refine ⟨by rw [h1], ?_⟩
  intro s'
  have h2 : s'.ch.gravity = d.gravity := by
    show (s.setAll d (l ++ [.systemType t] ++ k)).ch.gravity = _
    rw [setAll_append, h1]
    have := field_last ChSettings.gravity (fun | .gravity g => some (⟨0, 0, -g⟩ : V3) | _ => none) d ⟨t, d⟩ k hk ?_
    · rw [this]
      have : k.filterMap (fun | .gravity g => some (⟨0, 0, -g⟩ : V3) | _ => none) = [] := by
        apply List.filterMap_eq_nil_iff.mpr
        intro c hc
        cases c with
        | gravity g => exact absurd hc (hg g)
        | _ => rfl
      unfold lastAsked
      rw [this]; rfl
    · intro s' c ht hc
      cases c <;> first | rfl | (simp only [Settings.set]; split <;> rfl) | exact absurd rfl (hc _)
  constructor
  · unfold Settings.getGravity; rw [h2, hd]; simp
  · show m • s'.ch.gravity = _
    rw [h2, hd]; ext <;> simp

/-- Defaults as in Chrono for the gravity, and settings that meet the hypotheses. -/
def exampleDefaults : ChSettings := ⟨⟨0, -9.8, 0⟩, 0.04, 0.002, 0.04, 0, .sor, .eulerImplicitLinearized, 30, 30, .hertz, 0.0001, 1⟩

example : SameType [.gravity 1.62, .timeStep 0.01, .solver .pcg] ∧ (∀ g, .gravity g ∈ [Setting.gravity 1.62, .timeStep 0.01, .solver .pcg] → 0 ≤ g) ∧
    exampleDefaults.gravity = ⟨0, -9.8, 0⟩ := by
  refine ⟨fun t => by simp, ?_, rfl⟩
  intro g hg
  simp only [List.mem_cons, Setting.gravity.injEq, reduceCtorEq, List.not_mem_nil, or_false] at hg
  rw [hg]; norm_num

/-! ## The loop of the viewer -/

/-- `FrIrrApp::Run` (FrIrrApp.cpp 101-122): the window answers `k` times that it is open, the step is `h` (`DoStep` advances the system by the step of
the viewer: external); `t` is the time, the result the number of steps made and the final time. -/
def viewerLoop (h endTime : ℝ) : ℕ → ℝ → ℕ × ℝ
  | 0, t => (0, t)
  | k + 1, t =>
    let t' := t + h
    if 0 < endTime ∧ endTime < t' then (1, t') else ((viewerLoop h endTime k t').1 + 1, (viewerLoop h endTime k t').2)

/-- The steps made: the time is the start plus that many steps. -/
theorem viewerLoop_time (h e : ℝ) (k : ℕ) (t : ℝ) : (viewerLoop h e k t).2 = t + (viewerLoop h e k t).1 * h := by
  induction k generalizing t with
  | zero => simp [viewerLoop]
  | succ k ih =>
    simp only [viewerLoop]
    split
    · simp
    · simp only [ih (t + h)]; push_cast; ring

theorem viewerLoop_count (h e : ℝ) (hh : 0 < h) (he : 0 < e) (k : ℕ) (t : ℝ) :
    (viewerLoop h e k t).1 = min k (⌊(e - t) / h⌋₊ + 1) := by
  induction k generalizing t with
  | zero => simp [viewerLoop]
  | succ k ih =>
    unfold viewerLoop
    by_cases hc : e < t + h
    · rw [if_pos ⟨he, hc⟩]
      have : ⌊(e - t) / h⌋₊ = 0 := by
        rw [Nat.floor_eq_zero, div_lt_one hh]; linarith
      rw [this]
      show 1 = min (k + 1) 1
      omega
    · rw [if_neg (fun x => hc x.2)]
      show (viewerLoop h e k (t + h)).1 + 1 = _
      rw [ih]
      have h1 : (e - t) / h = (e - (t + h)) / h + 1 := by field_simp; ring
      have h2 : 0 ≤ (e - (t + h)) / h := div_nonneg (by linarith) hh.le
      rw [h1, Nat.floor_add_one h2]
      omega

/-- **C156 (end time)**: with a positive end time and step, if the window is never closed the simulation stops after finitely many steps, at the first
time of a step after the end time: it starts from `t`, not after the end time, and ends strictly after it, by at most one step. -/
theorem C156_end_time (h e t : ℝ) (hh : 0 < h) (he : 0 < e) (ht : t ≤ e) :
    ∃ n, (∀ k, n ≤ k → (viewerLoop h e k t).1 = n) ∧ (∀ k, n ≤ k → e < (viewerLoop h e k t).2 ∧ (viewerLoop h e k t).2 ≤ e + h) := by
  refine ⟨⌊(e - t) / h⌋₊ + 1, fun k hk => by rw [viewerLoop_count h e hh he]; omega, fun k hk => ?_⟩
  rw [viewerLoop_time, viewerLoop_count h e hh he, min_eq_right hk]
  have h1 : ((⌊(e - t) / h⌋₊ : ℕ) : ℝ) ≤ (e - t) / h := Nat.floor_le (div_nonneg (by linarith) hh.le)
  have h2 := Nat.lt_floor_add_one ((e - t) / h)
  rw [le_div_iff₀ hh] at h1
  rw [div_lt_iff₀ hh] at h2
  push_cast
  constructor <;> nlinarith

/-- **C156 (window)**: while the end time is not passed, and whatever it is if it is not positive, one step is made each time the window is open. -/
theorem C156_window (h e t : ℝ) (hh : 0 < h) (k : ℕ) (hk : e ≤ 0 ∨ t + k * h ≤ e) :
    viewerLoop h e k t = (k, t + k * h) := by
  have hc : (viewerLoop h e k t).1 = k := by
    rcases hk with hk | hk
    · induction k generalizing t with
      | zero => rfl
      | succ k ih =>
        unfold viewerLoop
        rw [if_neg (fun x => absurd x.1 (not_lt.mpr hk))]
        show (viewerLoop h e k (t + h)).1 + 1 = _
        rw [ih]
    · rcases lt_or_ge 0 e with he | he
      · rw [viewerLoop_count h e hh he]
        have : k ≤ ⌊(e - t) / h⌋₊ := by
          apply Nat.le_floor
          rw [le_div_iff₀ hh]; linarith
        omega
      · clear hk
        induction k generalizing t with
        | zero => rfl
        | succ k ih =>
          unfold viewerLoop
          rw [if_neg (fun x => absurd x.1 (not_lt.mpr he))]
          show (viewerLoop h e k (t + h)).1 + 1 = _
          rw [ih]
  have := viewerLoop_time h e k t
  rw [hc] at this
  exact Prod.ext hc this

/-- **C156 (defects)**: run to an end time already passed, the system is still advanced by one step; run to an end time that is a whole number of steps
away, it goes one step too far. -/
theorem C156_overshoot (h e t : ℝ) (hh : 0 < h) (he : 0 < e) :
    (e < t → ∀ k, 1 ≤ k → viewerLoop h e k t = (1, t + h)) ∧
    (∀ n : ℕ, e = t + n * h → ∀ k, n + 1 ≤ k → viewerLoop h e k t = (n + 1, e + h)) := by
  constructor
  · intro het k hk
    have h1 : (viewerLoop h e k t).1 = 1 := by
      rw [viewerLoop_count h e hh he]
      have : ⌊(e - t) / h⌋₊ = 0 := Nat.floor_of_nonpos (div_nonpos_of_nonpos_of_nonneg (by linarith) hh.le)
      rw [this]; omega
    have := viewerLoop_time h e k t
    rw [h1] at this
    refine Prod.ext h1 (this.trans ?_)
    simp
  · intro n hn k hk
    have h1 : (viewerLoop h e k t).1 = n + 1 := by
      rw [viewerLoop_count h e hh he]
      have : (e - t) / h = n := by rw [hn]; field_simp; ring
      rw [this, Nat.floor_natCast]; omega
    have := viewerLoop_time h e k t
    rw [h1] at this
    refine Prod.ext h1 (this.trans ?_)
    rw [hn]; push_cast; ring

/-- From 0 to 10 by steps of 0.5, and a run to 10 of a system at time 12. -/
example : (viewerLoop 0.5 10 100 0) = (21, 10.5) ∧ viewerLoop 0.5 10 3 12 = (1, 12.5) := by
  constructor
  · rw [(C156_overshoot 0.5 10 0 (by norm_num) (by norm_num)).2 20 (by norm_num) 100 (by norm_num)]; norm_num
  · rw [(C156_overshoot 0.5 10 12 (by norm_num) (by norm_num)).1 (by norm_num) 3 (by norm_num)]; norm_num

end Frydom.Core.Settings
