import Verif.Waves.Bandwidth

/-!
# Static analysis by dynamic relaxation (C28)

`src/frydom/core/statics/FrStaticAnalysis.cpp`. The dynamics of the system (Chrono) is a parameter.
-/

open Classical

noncomputable section

namespace Frydom.Core
open Frydom.Waves

/-- The objects whose activity the analysis touches; a key of `m_map` is a pointer to one of them. -/
inductive Obj
  | body (n : ℕ) | force (n : ℕ) | link (n : ℕ) | item (n : ℕ)
  deriving DecidableEq

/-- Parameters of the time ramp. -/
structure RampPts where
  x0 : ℝ
  y0 : ℝ
  x1 : ℝ
  y1 : ℝ

/-- What `FrStaticAnalysis` sees of an offshore system. `phys` stands for positions, velocities and all the rest. -/
structure Sys (P : Type) where
  bodies : List ℕ
  forces : ℕ → List ℕ
  links : List ℕ
  items : List ℕ
  /-- motor of a link -/
  motor : ℕ → Option ℕ
  /-- Chrono's SLEEPING flag of a body -/
  sleeping : ℕ → Bool
  /-- Chrono's FIXED flag of a body -/
  fixed : ℕ → Bool
  forceActive : ℕ → Bool
  linkDisabled : ℕ → Bool
  linkBroken : ℕ → Bool
  motorDisabled : ℕ → Bool
  itemActive : ℕ → Bool
  /-- `IncludedInStaticAnalysis` of a force (FrForce.h:117 and overriders) -/
  forceIncluded : ℕ → Bool
  /-- `IncludedInStaticAnalysis` of a physics item (FrPhysicsItem.h:84 and overriders) -/
  itemIncluded : ℕ → Bool
  time : ℝ
  dt : ℝ
  ramp : RampPts
  phys : P

variable {P : Type}

namespace Sys

/-- `IsActive()`: FrBody.cpp:267-269 (Chrono: neither sleeping nor fixed), FrForce.cpp:434, FrLink.cpp:326-328 (Chrono: neither disabled nor
broken; links are valid once initialised), FrPhysicsItem.cpp:47-49. -/
def isActive (s : Sys P) : Obj → Bool
  | .body n => !s.sleeping n && !s.fixed n
  | .force n => s.forceActive n
  | .link n => !s.linkDisabled n && !s.linkBroken n
  | .item n => s.itemActive n

/-- `IncludedInStaticAnalysis()`: constant for bodies (FrBody.h:207) and links (FrLinkBase.h:84). -/
def included (s : Sys P) : Obj → Bool
  | .body _ => true
  | .force n => s.forceIncluded n
  | .link _ => true
  | .item n => s.itemIncluded n

/-- `body->SetSleeping(!v)` (FrBody.cpp:250-257), `force->SetActive(v)` (FrForce.cpp:436), `link->SetDisabled(!v)` (FrLink.cpp:298-303, also the
motor), `pi->SetActive(v)` (FrPhysicsItem.cpp:51-53). -/
def setOn (s : Sys P) (v : Bool) : Obj → Sys P
  | .body n => { s with sleeping := Function.update s.sleeping n (!v) }
  | .force n => { s with forceActive := Function.update s.forceActive n v }
  | .link n => { s with
      linkDisabled := Function.update s.linkDisabled n (!v)
      motorDisabled := match s.motor n with
        | some m => Function.update s.motorDisabled m (!v)
        | none => s.motorDisabled }
  | .item n => { s with itemActive := Function.update s.itemActive n v }

/-- The order in which `Initialize` and `StepFinalize` visit the objects (FrStaticAnalysis.cpp:72-93, 128-152). -/
def visit (s : Sys P) : List Obj :=
  s.bodies.flatMap (fun b => Obj.body b :: (s.forces b).map Obj.force) ++ s.links.map Obj.link ++ s.items.map Obj.item

end Sys

/-- Data of `FrStaticAnalysis` (FrStaticAnalysis.h). The logging flag kept in `m_map` is never read: omitted. -/
structure Analysis where
  nIterations : ℤ := 10
  nSteps : ℤ := 100
  tolerance : ℝ := 1e-3
  /-- `m_map` -/
  map : Obj → Option Bool := fun _ => none
  undoTime : ℝ := 0
  saved : RampPts := ⟨0, 0, 1, 0⟩

/-- The dynamics: `Relax` (velocities and accelerations only), `AdvanceTo`, and the residual of the bodies and meshes. -/
structure Dynamics (P : Type) where
  relax : P → P
  advanceTo : Sys P → ℝ → Sys P
  residual : Sys P → ℝ

/-- `m_map.emplace(o, o->IsActive())` (no effect if the key is present) then the switch (FrStaticAnalysis.cpp:72-93). -/
def captureOne (st : Sys P × (Obj → Option Bool)) (o : Obj) : Sys P × (Obj → Option Bool) :=
  (st.1.setOn (st.1.included o) o, fun k => if k = o ∧ st.2 o = none then some (st.1.isActive o) else st.2 k)

/-- `FrStaticAnalysis::Initialize` (FrStaticAnalysis.cpp:61-123). -/
def Analysis.initialize (a : Analysis) (s : Sys P) : Analysis × Sys P :=
  let a := { a with undoTime := s.time, saved := s.ramp }
  let s := { s with ramp := ⟨0, 0, 1, 0⟩ }
  let st := s.visit.foldl captureOne (s, a.map)
  ({ a with map := st.2 }, st.1)

/-- Restore one flag from `m_map`; `none`: the key is absent and `end()` is dereferenced. -/
def restoreOne (map : Obj → Option Bool) (s : Sys P) (o : Obj) : Option (Sys P) := (map o).map fun v => s.setOn v o

/-- `FrStaticAnalysis::StepFinalize` (FrStaticAnalysis.cpp:125-182). -/
def Analysis.stepFinalize (dyn : Dynamics P) (a : Analysis) (s : Sys P) : Option (Sys P) :=
  (s.visit.foldlM (restoreOne a.map) s).map fun s =>
    let s := { s with phys := dyn.relax s.phys }
    let s := { s with time := a.undoTime }
    { s with ramp := a.saved }

/-- Local state of the loop of `SolveStatic`. -/
structure Loop (P : Type) where
  sys : Sys P
  iter : ℤ
  reached : Bool

/-- The loop test (FrStaticAnalysis.cpp:193). -/
def loopCond (a : Analysis) (l : Loop P) : Prop := ¬ (l.reached = true ∨ l.iter = a.nIterations)

/-- The loop body (FrStaticAnalysis.cpp:194-218). -/
def loopBody (dyn : Dynamics P) (a : Analysis) (l : Loop P) : Loop P :=
  let s := { l.sys with phys := dyn.relax l.sys.phys }
  let s := dyn.advanceTo s (a.undoTime + l.iter * s.dt * a.nSteps)
  ⟨s, l.iter + 1, if dyn.residual s < a.tolerance ∧ a.undoTime + s.dt * a.nSteps < s.time then true else l.reached⟩

/-- How `SolveStatic` ends: never, by dereferencing a missing key, or returning. -/
inductive Ends (P : Type) where
  | loops
  | badKey
  | returns (ok : Bool) (iter : ℤ) (a : Analysis) (s : Sys P)

/-- `FrStaticAnalysis::SolveStatic` (FrStaticAnalysis.cpp:184-225). -/
def Analysis.solveStatic (dyn : Dynamics P) (a : Analysis) (s : Sys P) : Ends P :=
  let i := a.initialize s
  match whileLoop (loopCond i.1) (loopBody dyn i.1) ⟨i.2, 0, false⟩ with
  | none => .loops
  | some l => match i.1.stepFinalize dyn l.sys with
    | none => .badKey
    | some s' => .returns l.reached l.iter i.1 s'

/-! ## Specification -/

/-- The dynamics adds and removes no object, does not fix or free bodies, nor break or mend links, nor change the motors. It may do anything
else, including putting bodies to sleep. -/
def Dynamics.Keeps (dyn : Dynamics P) : Prop := ∀ s t,
  (dyn.advanceTo s t).bodies = s.bodies ∧ (dyn.advanceTo s t).forces = s.forces ∧ (dyn.advanceTo s t).links = s.links ∧
  (dyn.advanceTo s t).items = s.items ∧ (dyn.advanceTo s t).motor = s.motor ∧ (dyn.advanceTo s t).fixed = s.fixed ∧
  (dyn.advanceTo s t).linkBroken = s.linkBroken

/-- The dynamics reaches the time asked for (and does nothing if it is past), keeping the time step. -/
def Dynamics.Reaches (dyn : Dynamics P) : Prop := ∀ s t,
  (dyn.advanceTo s t).time = max s.time t ∧ (dyn.advanceTo s t).dt = s.dt

/-! ## Lemmas -/

/-- Structure shared by two systems. -/
def SameShape (s s' : Sys P) : Prop :=
  s'.bodies = s.bodies ∧ s'.forces = s.forces ∧ s'.links = s.links ∧ s'.items = s.items ∧ s'.motor = s.motor ∧
  s'.fixed = s.fixed ∧ s'.linkBroken = s.linkBroken

theorem SameShape.refl (s : Sys P) : SameShape s s := ⟨rfl, rfl, rfl, rfl, rfl, rfl, rfl⟩

theorem SameShape.trans {s s' s'' : Sys P} (h : SameShape s s') (h' : SameShape s' s'') : SameShape s s'' := by
  obtain ⟨a, b, c, d, e, f, g⟩ := h
  obtain ⟨a', b', c', d', e', f', g'⟩ := h'
  exact ⟨a'.trans a, b'.trans b, c'.trans c, d'.trans d, e'.trans e, f'.trans f, g'.trans g⟩

theorem SameShape.visit {s s' : Sys P} (h : SameShape s s') : s'.visit = s.visit := by
  obtain ⟨a, b, c, d, -⟩ := h
  simp only [Sys.visit, a, b, c, d]

theorem setOn_shape (s : Sys P) (v : Bool) (o : Obj) : SameShape s (s.setOn v o) := by
  cases o <;> exact ⟨rfl, rfl, rfl, rfl, rfl, rfl, rfl⟩

theorem setOn_frame (s : Sys P) (v : Bool) (o : Obj) :
    (s.setOn v o).time = s.time ∧ (s.setOn v o).ramp = s.ramp ∧ (s.setOn v o).dt = s.dt := by
  cases o <;> exact ⟨rfl, rfl, rfl⟩

/-- The part of the activity of an object that `setOn` does not control. -/
def Sys.gate (s : Sys P) : Obj → Bool
  | .body n => !s.fixed n
  | .force _ => true
  | .link n => !s.linkBroken n
  | .item _ => true

theorem SameShape.gate {s s' : Sys P} (h : SameShape s s') (o : Obj) : s'.gate o = s.gate o := by
  obtain ⟨-, -, -, -, -, f, g⟩ := h
  cases o <;> simp [Sys.gate, f, g]

theorem isActive_gate (s : Sys P) (o : Obj) : (s.isActive o && s.gate o) = s.isActive o := by
  cases o <;> simp [Sys.isActive, Sys.gate]

theorem setOn_self (s : Sys P) (v : Bool) (o : Obj) : (s.setOn v o).isActive o = (v && s.gate o) := by
  cases o <;> simp [Sys.setOn, Sys.isActive, Sys.gate]

theorem setOn_other (s : Sys P) (v : Bool) {o k : Obj} (h : k ≠ o) : (s.setOn v o).isActive k = s.isActive k := by
  cases o <;> cases k <;> simp [Sys.setOn, Sys.isActive] at h ⊢ <;> simp [Function.update_of_ne h]

theorem capture_fold (l : List Obj) : ∀ st : Sys P × (Obj → Option Bool),
    SameShape st.1 (l.foldl captureOne st).1 ∧
    (∀ k, k ∉ l → (l.foldl captureOne st).2 k = st.2 k) ∧
    (∀ k, k ∈ l → (l.foldl captureOne st).2 k = some ((st.2 k).getD (st.1.isActive k))) := by
  induction l with
  | nil => intro st; exact ⟨SameShape.refl _, fun _ _ => rfl, fun k hk => by simp at hk⟩
  | cons o l ih =>
    intro st
    obtain ⟨h1, h2, h3⟩ := ih (captureOne st o)
    have hs : SameShape st.1 (captureOne st o).1 := setOn_shape _ _ _
    refine ⟨hs.trans h1, fun k hk => ?_, fun k hk => ?_⟩
    · simp only [List.mem_cons, not_or] at hk
      rw [List.foldl_cons, h2 k hk.2]
      simp [captureOne, hk.1]
    · rw [List.foldl_cons]
      by_cases hko : k = o
      · subst hko
        have e : (captureOne st k).2 k = some ((st.2 k).getD (st.1.isActive k)) := by
          cases hm : st.2 k <;> simp [captureOne, hm]
        by_cases hl : k ∈ l
        · rw [h3 k hl, e]; rfl
        · rw [h2 k hl, e]
      · have hl : k ∈ l := by simpa [hko] using hk
        rw [h3 k hl]
        have e1 : (captureOne st o).2 k = st.2 k := by simp [captureOne, hko]
        have e2 : (captureOne st o).1.isActive k = st.1.isActive k := setOn_other _ _ hko
        rw [e1, e2]

theorem restore_fold (map : Obj → Option Bool) (l : List Obj) : ∀ s : Sys P, (∀ k ∈ l, map k ≠ none) →
    ∃ s', l.foldlM (restoreOne map) s = some s' ∧ SameShape s s' ∧
      (∀ k, k ∉ l → s'.isActive k = s.isActive k) ∧
      (∀ k, k ∈ l → ∀ v, map k = some v → s'.isActive k = (v && s.gate k)) := by
  induction l with
  | nil => intro s _; exact ⟨s, rfl, SameShape.refl _, fun _ _ => rfl, fun k hk => by simp at hk⟩
  | cons o l ih =>
    intro s hm
    obtain ⟨v, hv⟩ := Option.ne_none_iff_exists'.mp (hm o List.mem_cons_self)
    obtain ⟨s', e, h1, h2, h3⟩ := ih (s.setOn v o) (fun k hk => hm k (List.mem_cons_of_mem _ hk))
    have hs := setOn_shape s v o
    refine ⟨s', ?_, hs.trans h1, fun k hk => ?_, fun k hk w hw => ?_⟩
    · rw [List.foldlM_cons]
      simp [restoreOne, hv]
      exact e
    · simp only [List.mem_cons, not_or] at hk
      rw [h2 k hk.2, setOn_other _ _ hk.1]
    · by_cases hl : k ∈ l
      · rw [h3 k hl w hw, hs.gate]
      · have hko : k = o := by simpa [hl] using hk
        subst hko
        rw [h2 k hl, setOn_self]
        rw [hv] at hw
        injection hw with hw
        rw [hw]

theorem loop_shape {dyn : Dynamics P} (hd : dyn.Keeps) (a : Analysis) (l : Loop P) : SameShape l.sys (loopBody dyn a l).sys := by
  obtain ⟨h1, h2, h3, h4, h5, h6, h7⟩ := hd { l.sys with phys := dyn.relax l.sys.phys }
    (a.undoTime + l.iter * l.sys.dt * a.nSteps)
  exact ⟨h1, h2, h3, h4, h5, h6, h7⟩

theorem initialize_spec (a : Analysis) (s : Sys P) :
    SameShape s (a.initialize s).2 ∧ (a.initialize s).1.undoTime = s.time ∧ (a.initialize s).1.saved = s.ramp ∧
    (a.initialize s).1.nIterations = a.nIterations ∧
    (∀ k, k ∉ s.visit → (a.initialize s).1.map k = a.map k) ∧
    (∀ k, k ∈ s.visit → (a.initialize s).1.map k = some ((a.map k).getD (s.isActive k))) := by
  obtain ⟨h1, h2, h3⟩ := capture_fold s.visit (({ s with ramp := ⟨0, 0, 1, 0⟩ } : Sys P), a.map)
  refine ⟨?_, rfl, rfl, rfl, h2, fun k hk => ?_⟩
  · exact SameShape.trans (s' := { s with ramp := ⟨0, 0, 1, 0⟩ }) ⟨rfl, rfl, rfl, rfl, rfl, rfl, rfl⟩ h1
  · have := h3 k hk
    rw [show (({ s with ramp := ⟨0, 0, 1, 0⟩ } : Sys P)).isActive k = s.isActive k by cases k <;> rfl] at this
    exact this

/-! ## C28 -/

/-- **C28, general form.** Whenever the analysis returns: each object has the activity recorded in the analysis the *first* time it was seen
(its present one if it is seen for the first time), whatever happened during the dynamics; time and time ramp are those before the call. No
missing key is ever dereferenced. -/
theorem C28_restored (dyn : Dynamics P) (hd : dyn.Keeps) (a : Analysis) (s : Sys P) :
    a.solveStatic dyn s ≠ .badKey ∧
    ∀ ok n a' s', a.solveStatic dyn s = .returns ok n a' s' →
      s'.time = s.time ∧ s'.ramp = s.ramp ∧ SameShape s s' ∧
      (∀ o ∈ s.visit, a'.map o = some ((a.map o).getD (s.isActive o)) ∧
        s'.isActive o = ((a.map o).getD (s.isActive o) && s.gate o)) ∧
      (∀ o ∉ s.visit, a'.map o = a.map o) := by
  obtain ⟨i1, i2, i3, -, i5, i6⟩ := initialize_spec a s
  have key : ∀ l, whileLoop (loopCond (a.initialize s).1) (loopBody dyn (a.initialize s).1) ⟨(a.initialize s).2, 0, false⟩ = some l →
      ∃ s', (a.initialize s).1.stepFinalize dyn l.sys = some s' ∧ s'.time = s.time ∧ s'.ramp = s.ramp ∧ SameShape s s' ∧
      (∀ o ∈ s.visit, s'.isActive o = ((a.map o).getD (s.isActive o) && s.gate o)) := by
    intro l hl
    have hsh : SameShape s l.sys := (whileLoop_inv hl (fun l => SameShape s l.sys) i1
      (fun z _ hz => hz.trans (loop_shape hd _ z))).1
    obtain ⟨s1, e1, e2, -, e4⟩ := restore_fold (a.initialize s).1.map l.sys.visit l.sys (by
      intro k hk
      rw [hsh.visit] at hk
      rw [i6 k hk]; simp)
    refine ⟨{ s1 with phys := dyn.relax s1.phys, time := (a.initialize s).1.undoTime, ramp := (a.initialize s).1.saved },
      ?_, i2, i3, ?_, ?_⟩
    · unfold Analysis.stepFinalize
      rw [e1]; rfl
    · exact (hsh.trans e2).trans ⟨rfl, rfl, rfl, rfl, rfl, rfl, rfl⟩
    · intro o ho
      have := e4 o (by rw [hsh.visit]; exact ho) _ (i6 o ho)
      rw [hsh.gate] at this
      rw [← this]
      cases o <;> rfl
  constructor
  · unfold Analysis.solveStatic
    simp only
    split
    · simp
    · rename_i l hl
      obtain ⟨s', e, -⟩ := key l hl
      rw [e]; simp
  · intro ok n a' s' h
    unfold Analysis.solveStatic at h
    simp only at h
    split at h
    · simp at h
    · rename_i l hl
      obtain ⟨s1, e, h1, h2, h3, h4⟩ := key l hl
      rw [e] at h
      simp only [Ends.returns.injEq] at h
      obtain ⟨-, -, rfl, rfl⟩ := h
      exact ⟨h1, h2, h3, fun o ho => ⟨i6 o ho, h4 o ho⟩, i5⟩

theorem capture_active (l : List Obj) : ∀ st : Sys P × (Obj → Option Bool),
    (∀ k, (l.foldl captureOne st).1.included k = st.1.included k) ∧
    (∀ k, k ∉ l → (l.foldl captureOne st).1.isActive k = st.1.isActive k) ∧
    (∀ k, k ∈ l → (l.foldl captureOne st).1.isActive k = (st.1.included k && st.1.gate k)) := by
  induction l with
  | nil => intro st; exact ⟨fun _ => rfl, fun _ _ => rfl, fun k hk => by simp at hk⟩
  | cons o l ih =>
    intro st
    obtain ⟨h1, h2, h3⟩ := ih (captureOne st o)
    have hi : ∀ k, (captureOne st o).1.included k = st.1.included k := by
      intro k
      cases o <;> cases k <;> rfl
    refine ⟨fun k => by rw [List.foldl_cons, h1, hi], fun k hk => ?_, fun k hk => ?_⟩
    · simp only [List.mem_cons, not_or] at hk
      rw [List.foldl_cons, h2 k hk.2]
      exact setOn_other _ _ hk.1
    · rw [List.foldl_cons]
      by_cases hl : k ∈ l
      · have hs : SameShape st.1 (captureOne st o).1 := setOn_shape _ _ _
        rw [h3 k hl, hi, hs.gate]
      · have hko : k = o := by simpa [hl] using hk
        subst hko
        rw [h2 k hl]
        exact setOn_self _ _ _

/-- **C28, during the analysis.** The dynamics starts with exactly the objects included in static analysis active (among those neither fixed nor
broken), at the time of the call. -/
theorem C28_during (a : Analysis) (s : Sys P) :
    (a.initialize s).2.time = s.time ∧
    ∀ o ∈ s.visit, (a.initialize s).2.isActive o = (s.included o && s.gate o) := by
  obtain ⟨-, -, h3⟩ := capture_active s.visit (({ s with ramp := ⟨0, 0, 1, 0⟩ } : Sys P), a.map)
  refine ⟨?_, fun o ho => ?_⟩
  · have : ∀ (l : List Obj) (st : Sys P × (Obj → Option Bool)), (l.foldl captureOne st).1.time = st.1.time := by
      intro l
      induction l with
      | nil => intro st; rfl
      | cons o l ih => intro st; rw [List.foldl_cons, ih]; exact (setOn_frame _ _ _).1
    exact this _ _
  · have := h3 o ho
    cases o <;> exact this

/-- **C28, who takes part.** During the analysis every body that is not fixed and every link that is not broken is active, even if the user had put it to sleep or
disabled it; a force and a physics item are active if and only if they are included in static analysis. -/
theorem C28_who (a : Analysis) (s : Sys P) (n : ℕ) :
    (.body n ∈ s.visit → (a.initialize s).2.isActive (.body n) = !s.fixed n) ∧
    (.link n ∈ s.visit → (a.initialize s).2.isActive (.link n) = !s.linkBroken n) ∧
    (.force n ∈ s.visit → (a.initialize s).2.isActive (.force n) = s.forceIncluded n) ∧
    (.item n ∈ s.visit → (a.initialize s).2.isActive (.item n) = s.itemIncluded n) := by
  have h := (C28_during a s).2
  refine ⟨fun m => (h _ m).trans ?_, fun m => (h _ m).trans ?_, fun m => (h _ m).trans ?_, fun m => (h _ m).trans ?_⟩ <;> simp [Sys.included, Sys.gate]


/-- **C28, first analysis.** The first analysis of a system leaves every body, force, link and physics item with the activity it had, and the
time and the ramp as they were. -/
theorem C28_first_analysis (dyn : Dynamics P) (hd : dyn.Keeps) (a : Analysis) (ha : ∀ o, a.map o = none) (s : Sys P)
    (ok : Bool) (n : ℤ) (a' : Analysis) (s' : Sys P) (h : a.solveStatic dyn s = .returns ok n a' s') :
    s'.time = s.time ∧ s'.ramp = s.ramp ∧ ∀ o ∈ s.visit, s'.isActive o = s.isActive o := by
  obtain ⟨h1, h2, -, h4, -⟩ := (C28_restored dyn hd a s).2 ok n a' s' h
  refine ⟨h1, h2, fun o ho => ?_⟩
  rw [(h4 o ho).2, ha o]
  exact isActive_gate s o

/-- A history: what the user does between analyses is an arbitrary change of the system (and of the settings of the analysis). -/
inductive History (dyn : Dynamics P) : Analysis → Sys P → Prop
  | start (s : Sys P) (nIt nSt : ℤ) (tol : ℝ) : History dyn { nIterations := nIt, nSteps := nSt, tolerance := tol } s
  | user {a : Analysis} {s : Sys P} (s' : Sys P) (nIt nSt : ℤ) (tol : ℝ) : History dyn a s →
      (∀ o ∈ s'.visit, ∀ v, a.map o = some v → s'.isActive o = v) → History dyn { a with nIterations := nIt, nSteps := nSt, tolerance := tol } s'
  | solve {a : Analysis} {s : Sys P} {ok : Bool} {n : ℤ} {a' : Analysis} {s' : Sys P} : History dyn a s →
      a.solveStatic dyn s = .returns ok n a' s' → History dyn a' s'

theorem history_inv {dyn : Dynamics P} (hd : dyn.Keeps) {a : Analysis} {s : Sys P} (hist : History dyn a s) :
    ∀ o ∈ s.visit, ∀ v, a.map o = some v → s.isActive o = v := by
  induction hist with
  | start s nIt nSt tol => intro o _ v h; simp at h
  | user s' nIt nSt tol _ hc _ => exact hc
  | @solve a s ok n a' s' _ h ih =>
    obtain ⟨-, -, h3, h4, -⟩ := (C28_restored dyn hd a s).2 ok n a' s' h
    intro o ho v hv
    rw [h3.visit] at ho
    obtain ⟨e1, e2⟩ := h4 o ho
    rw [e1] at hv
    injection hv with hv
    rw [e2, hv]
    cases hm : a.map o with
    | none => rw [hm, Option.getD_none] at hv; rw [← hv]; exact isActive_gate s o
    | some w => rw [hm, Option.getD_some] at hv; rw [← hv, ← ih o ho w hm]; exact isActive_gate s o

/-- **C28, histories (partial).** After any number of analyses interleaved with user changes (of anything, settings included) that, for each object
already analysed, leave or put back the activity it had at its first analysis, the next analysis restores all activities, time and ramp. (Missing:
changes of activity between two analyses, for which it is false, see `C28_second_analysis_counterexample`.) -/
theorem C28_histories_partial (dyn : Dynamics P) (hd : dyn.Keeps) (a : Analysis) (s : Sys P) (hist : History dyn a s)
    (ok : Bool) (n : ℤ) (a' : Analysis) (s' : Sys P) (h : a.solveStatic dyn s = .returns ok n a' s') :
    s'.time = s.time ∧ s'.ramp = s.ramp ∧ ∀ o ∈ s.visit, s'.isActive o = s.isActive o := by
  obtain ⟨h1, h2, -, h4, -⟩ := (C28_restored dyn hd a s).2 ok n a' s' h
  refine ⟨h1, h2, fun o ho => ?_⟩
  rw [(h4 o ho).2]
  cases hm : a.map o with
  | none => exact isActive_gate s o
  | some v => rw [Option.getD_some, ← history_inv hd hist o ho v hm]; exact isActive_gate s o

/-- The loop ends within `nIterations` iterations. -/
theorem loop_ends (dyn : Dynamics P) (a : Analysis) (hn : 0 ≤ a.nIterations) (s : Sys P) :
    ∃ l, whileLoop (loopCond a) (loopBody dyn a) ⟨s, 0, false⟩ = some l ∧ 0 ≤ l.iter ∧ l.iter ≤ a.nIterations := by
  have hi : ∀ n : ℕ, ((loopBody dyn a)^[n] ⟨s, 0, false⟩).iter = n := by
    intro n
    induction n with
    | zero => rfl
    | succ n ih =>
      rw [Function.iterate_succ_apply']
      show _ + 1 = _
      rw [ih]; push_cast; ring
  have hex : ∃ n, ¬ loopCond a ((loopBody dyn a)^[n] ⟨s, 0, false⟩) := by
    refine ⟨a.nIterations.toNat, ?_⟩
    unfold loopCond
    rw [hi, not_not]
    right
    omega
  obtain ⟨n, hl, -⟩ := whileLoop_spec hex
  refine ⟨_, hl, ?_⟩
  exact (whileLoop_inv hl (fun l => 0 ≤ l.iter ∧ l.iter ≤ a.nIterations) ⟨le_refl _, hn⟩ (by
    intro z hz ⟨h1, h2⟩
    unfold loopCond at hz
    push Not at hz
    show 0 ≤ z.iter + 1 ∧ z.iter + 1 ≤ _
    have := hz.2
    omega)).1

/-- **C28, iterations.** With a nonnegative number of iterations the analysis always returns, after at most that number of iterations; when fewer
are made it reports success. -/
theorem C28_iterations (dyn : Dynamics P) (hd : dyn.Keeps) (a : Analysis) (hn : 0 ≤ a.nIterations) (s : Sys P) :
    ∃ ok n a' s', a.solveStatic dyn s = .returns ok n a' s' ∧ 0 ≤ n ∧ n ≤ a.nIterations ∧ (n < a.nIterations → ok = true) := by
  obtain ⟨l, hl, h0, h1⟩ := loop_ends dyn (a.initialize s).1 hn (a.initialize s).2
  have hb := (C28_restored dyn hd a s).1
  have hc := (whileLoop_inv hl (fun _ => True) trivial (fun _ _ _ => trivial)).2
  unfold Analysis.solveStatic at hb ⊢
  simp only [hl] at hb ⊢
  cases hf : (a.initialize s).1.stepFinalize dyn l.sys with
  | none => rw [hf] at hb; exact absurd rfl hb
  | some s' =>
    refine ⟨_, _, _, _, rfl, h0, h1, fun hlt => ?_⟩
    unfold loopCond at hc
    rw [not_not] at hc
    rcases hc with h | h
    · exact h
    · rw [h] at hlt; exact absurd hlt (lt_irrefl _)

/-- Invariant on time of the loop. -/
theorem loop_time {dyn : Dynamics P} (hd : dyn.Reaches) (a : Analysis) (s : Sys P) (hs : s.time = a.undoTime) (hpos : 0 ≤ s.dt * a.nSteps)
    {l : Loop P} (hl : whileLoop (loopCond a) (loopBody dyn a) ⟨s, 0, false⟩ = some l) :
    0 ≤ l.iter ∧ l.sys.dt = s.dt ∧ l.sys.time = a.undoTime + max 0 ((l.iter : ℝ) - 1) * (s.dt * a.nSteps) ∧
    (l.reached = true → dyn.residual l.sys < a.tolerance ∧ a.undoTime + s.dt * a.nSteps < l.sys.time) := by
  refine (whileLoop_inv hl (fun l => 0 ≤ l.iter ∧ l.sys.dt = s.dt ∧
    l.sys.time = a.undoTime + max 0 ((l.iter : ℝ) - 1) * (s.dt * a.nSteps) ∧
    (l.reached = true → dyn.residual l.sys < a.tolerance ∧ a.undoTime + s.dt * a.nSteps < l.sys.time)) ?_ ?_).1
  · refine ⟨le_refl _, rfl, ?_, by simp⟩
    rw [hs]; simp
  · rintro z hz ⟨h1, h2, h3, -⟩
    unfold loopCond at hz
    push Not at hz
    obtain ⟨e1, e2⟩ := hd { z.sys with phys := dyn.relax z.sys.phys } (a.undoTime + z.iter * z.sys.dt * a.nSteps)
    have hzr : (0:ℝ) ≤ z.iter := by exact_mod_cast h1
    have ht : (loopBody dyn a z).sys.time = a.undoTime + (z.iter : ℝ) * (s.dt * a.nSteps) := by
      show (dyn.advanceTo { z.sys with phys := dyn.relax z.sys.phys } (a.undoTime + z.iter * z.sys.dt * a.nSteps)).time = _
      rw [e1, h3, h2]
      have hle : max 0 ((z.iter : ℝ) - 1) * (s.dt * a.nSteps) ≤ (z.iter : ℝ) * (s.dt * a.nSteps) :=
        mul_le_mul_of_nonneg_right (max_le hzr (by linarith)) hpos
      rw [max_eq_right (by nlinarith)]
      ring
    refine ⟨by show 0 ≤ z.iter + 1; omega, e2.trans h2, ?_, ?_⟩
    · rw [ht]
      show _ = _ + max 0 (((z.iter + 1 : ℤ) : ℝ) - 1) * _
      push_cast
      rw [add_sub_cancel_right, max_eq_right hzr]
    · intro hr
      have hr' : (if dyn.residual (loopBody dyn a z).sys < a.tolerance ∧
          a.undoTime + (loopBody dyn a z).sys.dt * a.nSteps < (loopBody dyn a z).sys.time then true else z.reached) = true := hr
      split_ifs at hr' with hc
      · have : (loopBody dyn a z).sys.dt = s.dt := e2.trans h2
        rw [this] at hc
        exact hc
      · exact absurd hr' hz.1

theorem capture_frame (l : List Obj) : ∀ st : Sys P × (Obj → Option Bool),
    (l.foldl captureOne st).1.time = st.1.time ∧ (l.foldl captureOne st).1.dt = st.1.dt := by
  induction l with
  | nil => intro st; exact ⟨rfl, rfl⟩
  | cons o l ih =>
    intro st
    rw [List.foldl_cons, (ih _).1, (ih _).2]
    exact ⟨(setOn_frame _ _ _).1, (setOn_frame _ _ _).2.2⟩

/-- **C28, convergence report and simulated time.** If the analysis reports success, the residual of the last state reached was below the tolerance
and more than `nSteps` steps were simulated; `n` iterations simulate `(n-1) nSteps` steps (the first iteration simulates nothing), so with fewer
than three iterations allowed it never reports success. -/
theorem C28_converged (dyn : Dynamics P) (hd : dyn.Reaches) (a : Analysis) (s : Sys P) (hpos : 0 < s.dt * a.nSteps)
    (ok : Bool) (n : ℤ) (a' : Analysis) (s' : Sys P) (h : a.solveStatic dyn s = .returns ok n a' s') :
    ∃ last : Sys P, last.time = s.time + max 0 ((n : ℝ) - 1) * (s.dt * a.nSteps) ∧
      (ok = true → dyn.residual last < a.tolerance ∧ s.time + s.dt * a.nSteps < last.time ∧ 3 ≤ n) := by
  unfold Analysis.solveStatic at h
  simp only at h
  split at h
  · simp at h
  rename_i l hl
  have htime : (a.initialize s).2.time = s.time := (capture_frame _ _).1
  have hdt : (a.initialize s).2.dt = s.dt := (capture_frame _ _).2
  have e3 : (a.initialize s).1.nSteps = a.nSteps := rfl
  have e4 : (a.initialize s).1.undoTime = s.time := rfl
  have e5 : (a.initialize s).1.tolerance = a.tolerance := rfl
  obtain ⟨h0, h1, h2, h3⟩ := loop_time hd (a.initialize s).1 (a.initialize s).2 (by rw [htime, e4]) (by rw [hdt, e3]; exact hpos.le) hl
  rw [hdt, e3, e4] at h2 h3
  rw [e5] at h3
  cases hf : (a.initialize s).1.stepFinalize dyn l.sys with
  | none => rw [hf] at h; simp at h
  | some s1 =>
    rw [hf] at h
    simp only [Ends.returns.injEq] at h
    obtain ⟨rfl, rfl, -, -⟩ := h
    refine ⟨l.sys, h2, fun hok => ?_⟩
    obtain ⟨h5, h6⟩ := h3 hok
    refine ⟨h5, h6, ?_⟩
    by_contra hlt
    rw [not_le] at hlt
    rw [h2] at h6
    have hle : (l.iter : ℝ) ≤ 2 := by exact_mod_cast (by omega : l.iter ≤ 2)
    have : max 0 ((l.iter : ℝ) - 1) * (s.dt * a.nSteps) ≤ 1 * (s.dt * a.nSteps) :=
      mul_le_mul_of_nonneg_right (max_le (by norm_num) (by linarith)) hpos.le
    linarith

/-! ## What fails -/

/-- A system with one body (fixed or not) carrying one force excluded from statics, one link with a motor, no physics item. -/
def demo (fixedBody forceOn motorOff : Bool) : Sys Unit where
  bodies := [0]
  forces := fun _ => [0]
  links := [0]
  items := []
  motor := fun _ => some 0
  sleeping := fun _ => false
  fixed := fun _ => fixedBody
  forceActive := fun _ => forceOn
  linkDisabled := fun _ => false
  linkBroken := fun _ => false
  motorDisabled := fun _ => motorOff
  itemActive := fun _ => true
  forceIncluded := fun _ => false
  itemIncluded := fun _ => true
  time := 0
  dt := 1
  ramp := ⟨0, 0, 10, 1⟩
  phys := ()

/-- A dynamics that only advances time and never settles. -/
def demoDyn : Dynamics Unit := ⟨id, fun s t => { s with time := max s.time t }, fun _ => 1⟩

theorem demoDyn_keeps : demoDyn.Keeps := fun _ _ => ⟨rfl, rfl, rfl, rfl, rfl, rfl, rfl⟩

theorem demoDyn_reaches : demoDyn.Reaches := fun _ _ => ⟨rfl, rfl⟩

/-- **C28 fails: second analysis.** Analyse a system, switch a force off, analyse again: the second analysis switches the force back on. -/
theorem C28_second_analysis_counterexample :
    ∃ ok n a1 s1 ok' n' a2 s2, ({} : Analysis).solveStatic demoDyn (demo false true false) = .returns ok n a1 s1 ∧
      a1.solveStatic demoDyn (s1.setOn false (.force 0)) = .returns ok' n' a2 s2 ∧
      (s1.setOn false (.force 0)).isActive (.force 0) = false ∧ s2.isActive (.force 0) = true := by
  obtain ⟨ok, n, a1, s1, h1, -⟩ := C28_iterations demoDyn demoDyn_keeps {} (by norm_num) (demo false true false)
  obtain ⟨-, -, hsh, hact, -⟩ := (C28_restored demoDyn demoDyn_keeps {} (demo false true false)).2 _ _ _ _ h1
  have hn : a1.nIterations = 10 := by
    unfold Analysis.solveStatic at h1
    simp only at h1
    split at h1
    · simp at h1
    · split at h1
      · simp at h1
      · simp only [Ends.returns.injEq] at h1
        obtain ⟨-, -, rfl, -⟩ := h1
        rfl
  obtain ⟨ok', n', a2, s2, h2, -⟩ := C28_iterations demoDyn demoDyn_keeps a1 (by rw [hn]; norm_num) (s1.setOn false (.force 0))
  refine ⟨ok, n, a1, s1, ok', n', a2, s2, h1, h2, by simp [Sys.setOn, Sys.isActive], ?_⟩
  obtain ⟨-, -, -, hact2, -⟩ := (C28_restored demoDyn demoDyn_keeps a1 (s1.setOn false (.force 0))).2 _ _ _ _ h2
  have hv : Obj.force 0 ∈ (demo false true false).visit := by simp [demo, Sys.visit]
  have hv' : Obj.force 0 ∈ (s1.setOn false (.force 0)).visit := by
    rw [(setOn_shape s1 _ _).visit, hsh.visit]; exact hv
  rw [(hact2 _ hv').2, (hact _ hv).1]
  rfl

/-- **C28 fails: flags.** Activity is all that is restored, not the flags: a body that is fixed during the analysis is asleep afterwards (so it does not move
once it is released), and a motor that was disabled is enabled. -/
theorem C28_flags_counterexample :
    ∃ ok n a1 s1, ({ nIterations := 0 } : Analysis).solveStatic demoDyn (demo true true true) = .returns ok n a1 s1 ∧
      (demo true true true).sleeping 0 = false ∧ s1.sleeping 0 = true ∧
      (demo true true true).motorDisabled 0 = true ∧ s1.motorDisabled 0 = false := by
  obtain ⟨l, hl, h0, h1⟩ := loop_ends demoDyn (({ nIterations := 0 } : Analysis).initialize (demo true true true)).1 (le_refl _)
    (({ nIterations := 0 } : Analysis).initialize (demo true true true)).2
  have hl0 : l.sys = (({ nIterations := 0 } : Analysis).initialize (demo true true true)).2 := by
    refine (whileLoop_inv hl (fun l => l.iter = 0 ∧
      l.sys = (({ nIterations := 0 } : Analysis).initialize (demo true true true)).2) ⟨rfl, rfl⟩ ?_).1.2
    intro z hz ⟨hz1, _⟩
    unfold loopCond at hz
    push Not at hz
    exact absurd hz1 hz.2
  unfold Analysis.solveStatic
  simp only [hl, hl0]
  refine ⟨_, _, _, _, rfl, rfl, ?_, rfl, ?_⟩ <;>
    simp [Analysis.initialize, Sys.visit, demo, captureOne, Sys.setOn, Sys.isActive, Sys.included]

/-- **C28 fails: negative limit.** With a negative number of iterations and no convergence the analysis never returns. -/
theorem C28_negative_counterexample (s : Sys Unit) (a : Analysis) (hn : a.nIterations < 0) (ht : a.tolerance ≤ 1) :
    a.solveStatic demoDyn s = .loops := by
  have h : ∀ n : ℕ, loopCond (a.initialize s).1 ((loopBody demoDyn (a.initialize s).1)^[n] ⟨(a.initialize s).2, 0, false⟩) := by
    intro n
    have : ((loopBody demoDyn (a.initialize s).1)^[n] ⟨(a.initialize s).2, 0, false⟩).iter = n ∧
        ((loopBody demoDyn (a.initialize s).1)^[n] ⟨(a.initialize s).2, 0, false⟩).reached = false := by
      induction n with
      | zero => exact ⟨rfl, rfl⟩
      | succ n ih =>
        rw [Function.iterate_succ_apply']
        refine ⟨?_, ?_⟩
        · show _ + 1 = _
          rw [ih.1]; push_cast; ring
        · unfold loopBody
          simp only
          rw [if_neg (by
            rintro ⟨h1, -⟩
            have h1' : (1:ℝ) < a.tolerance := h1
            linarith)]
          exact ih.2
    unfold loopCond
    rw [this.1, this.2]
    have e : (a.initialize s).1.nIterations = a.nIterations := rfl
    rw [e]
    simp only [Bool.false_eq_true, false_or]
    omega
  unfold Analysis.solveStatic
  simp only
  have : whileLoop (loopCond (a.initialize s).1) (loopBody demoDyn (a.initialize s).1) ⟨(a.initialize s).2, 0, false⟩ = none := by
    unfold whileLoop
    rw [dif_neg]
    push Not
    exact h
  rw [this]

/-- The hypotheses of the positive theorems are met by the demonstration system. -/
example : ∃ ok n a' s', ({} : Analysis).solveStatic demoDyn (demo false true false) = .returns ok n a' s' ∧
    s'.ramp = ⟨0, 0, 10, 1⟩ ∧ s'.isActive (.force 0) = true := by
  obtain ⟨ok, n, a1, s1, h1, -⟩ := C28_iterations demoDyn demoDyn_keeps {} (by norm_num) (demo false true false)
  obtain ⟨-, h2, h3⟩ := C28_first_analysis demoDyn demoDyn_keeps {} (fun _ => rfl) _ ok n a1 s1 h1
  exact ⟨ok, n, a1, s1, h1, h2, h3 _ (by simp [demo, Sys.visit])⟩

end Frydom.Core
