import Mathlib.Data.List.Nodup
import Mathlib.Data.List.Count
import Mathlib.Data.List.Perm.Basic
import Mathlib.Tactic.Tauto

/-!
# The objects of an offshore system (C57, C58, C59)

`src/frydom/core/FrOffshoreSystem.cpp` (Add, Remove, Clear, RemoveAll…), `src/frydom/core/body/FrBody.cpp` (forces and nodes),
`src/frydom/logging/FrLogManager.cpp`, `src/frydom/logging/FrPathManager.{h,cpp}`, `src/frydom/logging/FrPathPolicies.cpp`.
Paths relative to `src/frydom`.
-/

namespace Frydom.Core.Registry

/-! ## Paths -/

/-- The registered types (logging/FrPathPolicies.cpp:19-64). -/
inductive NodeType where
  | system | body | force | node | link | constraint | actuator | dynamicCable | catenaryLine | equilibriumFrame
  deriving DecidableEq

/-- `TypeToNormalizedPathPrefix` (logging/FrPathPolicies.cpp:19-64). -/
def NodeType.pathPrefix : NodeType → String
  | .system => "FRYDOM_"
  | .body => "BODIES/BODY_"
  | .force => "FORCES/FORCE_"
  | .node => "NODES/NODE_"
  | .link => "LINKS/LINK_"
  | .constraint => "CONSTRAINTS/CONSTRAINT_"
  | .actuator => "ACTUATORS/ACTUATOR_"
  | .dynamicCable => "CABLES/CAT_CABLE_"
  | .catenaryLine => "CABLES/DYN_CABLE_"
  | .equilibriumFrame => ""

/-- `GetPath` (logging/FrPathManager.h:47-57, 84-89) along the chain from the system to the object. Strings as lists of characters. -/
def path : List (NodeType × List Char) → List Char
  | [] => []
  | (t, name) :: rest => t.pathPrefix.toList ++ name ++ ['/'] ++ path rest

/-- The chains that exist: `FrOffshoreSystem` is the root; bodies, links, constraints and cables have it for parent; forces, nodes and equilibrium frames have a body for
parent; actuators a link (core/body/FrBody.h, core/link/links_lib/FrLink.h:154, core/link/links_lib/actuators/FrActuator.h:20, cable/FrDynamicCable.h:111,
cable/FrCatenaryLine.h:50, hydrodynamics/FrEquilibriumFrame.h:41). -/
inductive Chain : List (NodeType × List Char) → Prop
  | system (s) : Chain [(.system, s)]
  | top (s t n) : t = .body ∨ t = .link ∨ t = .constraint ∨ t = .dynamicCable ∨ t = .catenaryLine → Chain [(.system, s), (t, n)]
  | inBody (s b t n) : t = .force ∨ t = .node ∨ t = .equilibriumFrame → Chain [(.system, s), (.body, b), (t, n)]
  | actuator (s l n) : Chain [(.system, s), (.link, l), (.actuator, n)]

/-! ## Objects -/

/-- What an object given to `Add` is (the order of the `dynamic_pointer_cast`s, core/FrOffshoreSystem.cpp:1336-1386). -/
inductive Kind where
  | body | link | constraint | actuator | catenaryLine | equilibriumFrame | physicsItem | dynamicCable | feaMesh | force | node | other
  deriving DecidableEq

/-- The containers of the system (core/FrOffshoreSystem.h:245-250). -/
inductive Cat where
  | bodies | links | constraints | actuators | prePhysics | feaMeshes
  deriving DecidableEq

/-- Chrono's containers. -/
inductive ChCat where
  | bodies | links | items | meshes
  deriving DecidableEq

/-- The container an object goes to (core/FrOffshoreSystem.cpp:1336-1386). -/
def Kind.cat : Kind → Option Cat
  | .body => some .bodies
  | .link => some .links
  | .constraint => some .constraints
  | .actuator => some .actuators
  | .catenaryLine => some .prePhysics
  | .equilibriumFrame => some .prePhysics
  | .physicsItem => some .prePhysics
  | .dynamicCable => some .feaMeshes
  | .feaMesh => some .feaMeshes
  | _ => none

/-- The Chrono container behind it (core/FrOffshoreSystem.cpp:247, 288, 320, 354, 388, 421). -/
def Cat.ch : Cat → ChCat
  | .bodies => .bodies
  | .links => .links
  | .constraints => .links
  | .actuators => .links
  | .prePhysics => .items
  | .feaMeshes => .meshes

/-- Whether `Add` registers the path of the object (core/FrOffshoreSystem.cpp:1339-1381: not for bare physics items and FEA meshes). -/
def Kind.registers : Kind → Bool
  | .physicsItem => false
  | .feaMesh => false
  | _ => true

/-- The objects of a program: what each is, its path, its parent (for forces and nodes) and whether it is a `FrLoggableBase`. -/
structure Objs where
  kind : ℕ → Kind
  path : ℕ → List Char
  parent : ℕ → ℕ
  loggable : ℕ → Bool

/-- The state of the system: its containers, Chrono's, the hinges of cables in Chrono, forces and nodes of bodies, the list of the log manager and the used paths. -/
structure Sys where
  lst : Cat → List ℕ
  ch : ChCat → List ℕ
  hinges : List ℕ
  forces : ℕ → List ℕ
  nodes : ℕ → List ℕ
  logged : List ℕ
  paths : List (List Char)

/-- Replace one value of a function. -/
def set {α β : Type} [DecidableEq α] (f : α → β) (a : α) (b : β) : α → β := fun x => if x = a then b else f x

/-- How a call ends: normally, by an exception (with the state it leaves), or on a failed assertion / undefined behaviour. -/
inductive Out where
  | ok (s : Sys)
  | thrown (s : Sys)
  | bad

namespace Sys

/-- `FrLogManager::Add` (logging/FrLogManager.cpp:60-66). -/
def log (s : Sys) (x : ℕ) : Sys := if x ∈ s.logged then s else { s with logged := s.logged ++ [x] }
/-- `FrLogManager::Remove` (logging/FrLogManager.cpp:68-79). -/
def unlog (s : Sys) (x : ℕ) : Sys := { s with logged := s.logged.erase x }
/-- The removal of a list of objects from the log manager (core/body/FrBody.cpp:543-545, 555-557). -/
def unlogAll (s : Sys) (l : List ℕ) : Sys := { s with logged := l.foldl (fun g x => g.erase x) s.logged }

/-- `AddBody`, `AddLink`, `AddConstraint`, `AddActuator`, `AddPhysicsItem`, `AddFEAMesh`, `AddDynamicCable` (core/FrOffshoreSystem.cpp:240-252, 287-291, 318-323, 352-357,
385-391, 418-437): Chrono's container and FRyDoM's. -/
def push (O : Objs) (s : Sys) (c : Cat) (x : ℕ) : Sys :=
  { s with lst := set s.lst c (s.lst c ++ [x]), ch := set s.ch c.ch (s.ch c.ch ++ [x]), hinges := if O.kind x = .dynamicCable then s.hinges ++ [x] else s.hinges }

/-- `Add` (core/FrOffshoreSystem.cpp:1330-1401), with `RegisterTreeNode` (logging/FrPathManager.h:60-75), which throws when the path is used. Chrono's containers assert that the
object is not there yet (external). -/
def add (O : Objs) (s : Sys) (x : ℕ) : Out :=
  match (O.kind x).cat with
  | none => .ok s
  | some c =>
    if x ∈ s.ch c.ch then .bad
    else
      let s1 := s.push O c x
      if (O.kind x).registers then
        if O.path x ∈ s1.paths then .thrown s1
        else
          let s2 := { s1 with paths := O.path x :: s1.paths }
          .ok (if O.loggable x then s2.log x else s2)
      else .ok (if O.loggable x then s1.log x else s1)

/-- `AddExternalForce` (core/body/FrBody.cpp:496-506). -/
def addForce (O : Objs) (s : Sys) (b f : ℕ) : Out :=
  if f ∈ s.forces b then .bad
  else
    let s1 := { s with forces := set s.forces b (s.forces b ++ [f]) }
    if O.path f ∈ s1.paths then .thrown s1
    else .ok (({ s1 with paths := O.path f :: s1.paths } : Sys).log f)

/-- `NewNode` (core/body/FrBody.cpp:586-601). -/
def newNode (O : Objs) (s : Sys) (b n : ℕ) : Out :=
  let s1 := { s with nodes := set s.nodes b (s.nodes b ++ [n]) }
  if O.path n ∈ s1.paths then .thrown s1
  else .ok (({ s1 with paths := O.path n :: s1.paths } : Sys).log n)

/-- `RemoveExternalForce` (core/body/FrBody.cpp:508-537); assets are not modelled. -/
def removeForce (s : Sys) (b f : ℕ) : Out :=
  if f ∈ s.forces b then .ok (({ s with forces := set s.forces b ((s.forces b).erase f) } : Sys).unlog f) else .bad

/-- `RemoveAllForces` then `RemoveAllNodes` (core/body/FrBody.cpp:539-561). -/
def strip (s : Sys) (b : ℕ) : Sys :=
  let s1 := { s.unlogAll (s.forces b) with forces := set s.forces b [] }
  { s1.unlogAll (s.nodes b) with nodes := set s.nodes b [] }

/-- `Remove` (core/FrOffshoreSystem.cpp:1403-1443) with `RemoveBody`, `RemoveLink`, … (258-276, 293-307, 325-340, 359-375, 397-406, 443-453). Chrono asserts that the object is
there (external). A dynamic cable is a FEA mesh and takes that branch: its hinges stay. The path stays registered. -/
def remove (O : Objs) (s : Sys) (x : ℕ) : Out :=
  match (O.kind x).cat with
  | none => .bad
  | some c =>
    if x ∈ s.ch c.ch ∧ x ∈ s.lst c then
      let s1 := { s with ch := set s.ch c.ch ((s.ch c.ch).erase x), lst := set s.lst c ((s.lst c).erase x) }
      let s2 := if O.kind x = .body then s1.strip x else s1
      .ok (if O.loggable x then s2.unlog x else s2)
    else .bad

/-- `Clear` (core/FrOffshoreSystem.cpp:1057-1068), called by `SetSystemType` (609-611). Chrono's `Clear` empties its containers (external). -/
def clear (s : Sys) : Sys := { s with lst := fun _ => [], ch := fun _ => [], hinges := [] }

/-- `for (auto &x : list) Remove(x);` (core/FrOffshoreSystem.cpp:278-285, 309-313, 342-346, 377-381): the end of the loop is that of the list before the loop; `fuel` = remaining
turns, `i` = position. Reading past the end of the shortened list is undefined (so is, strictly, the use of the iterators after the first erase). -/
def removeLoop (O : Objs) (c : Cat) : ℕ → ℕ → Sys → Out
  | 0, _, s => .ok s
  | fuel + 1, i, s =>
    match (s.lst c)[i]? with
    | none => .bad
    | some x => match s.remove O x with
      | .ok s' => removeLoop O c fuel (i + 1) s'
      | o => o
/-- `RemoveAllBodies`, `RemoveAllLinks`, `RemoveAllConstraints`, `RemoveAllActuators`. -/
def removeAll (O : Objs) (c : Cat) (s : Sys) : Out := s.removeLoop O c (s.lst c).length 0

/-- The objects updated at each step (core/FrOffshoreSystem.cpp:573-612, `StepFinalize`; same containers in `Initialize`, 498-541). -/
def stepped (s : Sys) : List ℕ := s.lst .prePhysics ++ s.lst .bodies ++ s.lst .links ++ s.lst .constraints ++ s.lst .actuators ++ s.lst .feaMeshes

end Sys

/-- A system just created, before its world body: only the system (object `0`) is logged and has its path. -/
def Sys.init (O : Objs) : Sys := ⟨fun _ => [], fun _ => [], [], fun _ => [], fun _ => [], [0], [O.path 0]⟩

/-- A call by the user. -/
inductive Op where
  | add (x : ℕ)
  | remove (x : ℕ)
  | addForce (b f : ℕ)
  | newNode (b n : ℕ)
  | removeForce (b f : ℕ)

/-- Its effect. -/
def Op.run (O : Objs) (s : Sys) : Op → Out
  | .add x => s.add O x
  | .remove x => s.remove O x
  | .addForce b f => s.addForce O b f
  | .newNode b n => s.newNode O b n
  | .removeForce b f => s.removeForce b f

/-! ## Specification -/

/-- What a user thinks of: which objects are in the system, and what hangs on each body. -/
structure Spec where
  here : ℕ → Prop
  hangs : ℕ → ℕ → Prop

/-- The effect of a call on that. -/
def Spec.step (O : Objs) (p : Spec) : Op → Spec
  | .add x => { p with here := fun y => p.here y ∨ (y = x ∧ (O.kind x).cat ≠ none) }
  | .remove x => ⟨fun y => p.here y ∧ y ≠ x, fun b f => p.hangs b f ∧ b ≠ x⟩
  | .addForce b f => { p with hangs := fun b' f' => p.hangs b' f' ∨ (b' = b ∧ f' = f) }
  | .newNode b n => { p with hangs := fun b' f' => p.hangs b' f' ∨ (b' = b ∧ f' = n) }
  | .removeForce b f => { p with hangs := fun b' f' => p.hangs b' f' ∧ ¬ (b' = b ∧ f' = f) }

/-- The calls are well typed: forces and nodes are given to their own body, which is in the system. -/
def Op.Sane (O : Objs) (p : Spec) : Op → Prop
  | .add x => x ≠ 0
  | .remove _ => True
  | .addForce b f => O.kind b = .body ∧ p.here b ∧ O.kind f = .force ∧ O.parent f = b ∧ f ≠ 0
  | .newNode b n => O.kind b = .body ∧ p.here b ∧ O.kind n = .node ∧ O.parent n = b ∧ n ≠ 0
  | .removeForce _ _ => True

/-- A history of sane calls that all return normally. -/
inductive Runs (O : Objs) : Sys → Spec → Prop
  | init : Runs O (Sys.init O) ⟨fun _ => False, fun _ _ => False⟩
  | call {s s' : Sys} {p : Spec} (o : Op) : Runs O s p → o.Sane O p → o.run O s = .ok s' → Runs O s' (p.step O o)

/-! ## C57 -/

/-- The containers mirror the user's view. -/
structure Inv (O : Objs) (s : Sys) (p : Spec) : Prop where
  lst : ∀ c x, x ∈ s.lst c ↔ p.here x ∧ (O.kind x).cat = some c
  nodup : ∀ c, (s.lst c).Nodup
  ch : ∀ k x, x ∈ s.ch k ↔ p.here x ∧ ∃ c, (O.kind x).cat = some c ∧ c.ch = k
  chNodup : ∀ k, (s.ch k).Nodup
  hangs : ∀ b f, p.hangs b f ↔ f ∈ s.forces b ∨ f ∈ s.nodes b
  hangsKind : ∀ b f, p.hangs b f → p.here b ∧ O.kind b = .body ∧ O.parent f = b ∧ (O.kind f = .force ∨ O.kind f = .node) ∧ f ≠ 0
  forceKind : ∀ b f, f ∈ s.forces b → O.kind f = .force
  nodeKind : ∀ b f, f ∈ s.nodes b → O.kind f = .node
  forcesNodup : ∀ b, (s.forces b).Nodup
  logNodup : s.logged.Nodup
  log : ∀ x, x ∈ s.logged ↔ x = 0 ∨ (p.here x ∧ O.loggable x = true) ∨ ∃ b, p.hangs b x
  hereKind : ∀ x, p.here x → (O.kind x).cat ≠ none ∧ x ≠ 0

theorem set_same {α β : Type} [DecidableEq α] (f : α → β) (a : α) (b : β) : set f a b a = b := by simp [set]
theorem set_ne {α β : Type} [DecidableEq α] (f : α → β) {a x : α} (b : β) (h : x ≠ a) : set f a b x = f x := by simp [set, h]

theorem mem_foldl_erase (l : List ℕ) : ∀ (g : List ℕ), g.Nodup → ((l.foldl (fun g x => g.erase x) g).Nodup ∧
    ∀ y, y ∈ l.foldl (fun g x => g.erase x) g ↔ y ∈ g ∧ y ∉ l) := by
  induction l with
  | nil => intro g hg; exact ⟨hg, by simp⟩
  | cons a l ih =>
    intro g hg
    obtain ⟨h1, h2⟩ := ih (g.erase a) (hg.erase a)
    refine ⟨h1, fun y => ?_⟩
    rw [List.foldl_cons, h2, hg.mem_erase_iff]
    simp only [List.mem_cons, not_or]
    tauto

theorem log_nodup (s : Sys) (x : ℕ) (h : s.logged.Nodup) : (s.log x).logged.Nodup := by
  unfold Sys.log
  split_ifs with hx
  · exact h
  · exact List.nodup_append.mpr ⟨h, by simp, by
      intro a ha b hb
      simp only [List.mem_singleton] at hb
      subst hb; rintro rfl; exact hx ha⟩

theorem mem_log (s : Sys) (x y : ℕ) : y ∈ (s.log x).logged ↔ y ∈ s.logged ∨ y = x := by
  unfold Sys.log
  split_ifs with hx
  · constructor
    · exact Or.inl
    · rintro (h | rfl)
      · exact h
      · exact hx
  · simp

theorem log_rest (s : Sys) (x : ℕ) : (s.log x).lst = s.lst ∧ (s.log x).ch = s.ch ∧ (s.log x).forces = s.forces ∧ (s.log x).nodes = s.nodes ∧
    (s.log x).hinges = s.hinges ∧ (s.log x).paths = s.paths := by
  unfold Sys.log
  split_ifs <;> exact ⟨rfl, rfl, rfl, rfl, rfl, rfl⟩

theorem nodup_append_one {l : List ℕ} {x : ℕ} (h : l.Nodup) (hx : x ∉ l) : (l ++ [x]).Nodup :=
  List.nodup_append.mpr ⟨h, by simp, by
    intro a ha b hb
    simp only [List.mem_singleton] at hb
    subst hb; rintro rfl; exact hx ha⟩

/-- The containers after an object was added, whatever the state of paths. -/
theorem inv_added {O : Objs} {s t : Sys} {p : Spec} (h : Inv O s p) (x : ℕ) (hx0 : x ≠ 0) (c : Cat) (hc : (O.kind x).cat = some c) (hx : x ∉ s.ch c.ch)
    (e1 : t.lst = (s.push O c x).lst) (e2 : t.ch = (s.push O c x).ch) (e3 : t.forces = s.forces) (e4 : t.nodes = s.nodes)
    (hn : t.logged.Nodup) (hl : ∀ y, y ∈ t.logged ↔ y ∈ s.logged ∨ (y = x ∧ O.loggable x = true)) :
    Inv O t (p.step O (.add x)) := by
  have hne : (O.kind x).cat ≠ none := by rw [hc]; simp
  have hnot : ¬ p.here x := fun hh => hx ((h.ch c.ch x).mpr ⟨hh, c, hc, rfl⟩)
  have hlst : ∀ c' y, y ∈ t.lst c' ↔ y ∈ s.lst c' ∨ (y = x ∧ c' = c) := by
    intro c' y
    rw [e1]
    show y ∈ set s.lst c (s.lst c ++ [x]) c' ↔ _
    by_cases hcc : c' = c
    · subst hcc; rw [set_same]; simp
    · rw [set_ne _ _ hcc]; simp [hcc]
  have hch : ∀ k y, y ∈ t.ch k ↔ y ∈ s.ch k ∨ (y = x ∧ k = c.ch) := by
    intro k y
    rw [e2]
    show y ∈ set s.ch c.ch (s.ch c.ch ++ [x]) k ↔ _
    by_cases hcc : k = c.ch
    · subst hcc; rw [set_same]; simp
    · rw [set_ne _ _ hcc]; simp [hcc]
  constructor
  · intro c' y
    rw [hlst, h.lst]
    show _ ↔ (p.here y ∨ (y = x ∧ (O.kind x).cat ≠ none)) ∧ _
    constructor
    · rintro (⟨a, b⟩ | ⟨rfl, rfl⟩)
      · exact ⟨Or.inl a, b⟩
      · exact ⟨Or.inr ⟨rfl, hne⟩, hc⟩
    · rintro ⟨a | ⟨rfl, _⟩, b⟩
      · exact Or.inl ⟨a, b⟩
      · rw [hc] at b; exact Or.inr ⟨rfl, (Option.some.inj b).symm⟩
  · intro c'
    rw [e1]
    show (set s.lst c (s.lst c ++ [x]) c').Nodup
    by_cases hcc : c' = c
    · subst hcc; rw [set_same]; exact nodup_append_one (h.nodup c') (fun hm => hnot ((h.lst c' x).mp hm).1)
    · rw [set_ne _ _ hcc]; exact h.nodup c'
  · intro k y
    rw [hch, h.ch]
    show _ ↔ (p.here y ∨ (y = x ∧ (O.kind x).cat ≠ none)) ∧ _
    constructor
    · rintro (⟨a, b⟩ | ⟨rfl, rfl⟩)
      · exact ⟨Or.inl a, b⟩
      · exact ⟨Or.inr ⟨rfl, hne⟩, c, hc, rfl⟩
    · rintro ⟨a | ⟨rfl, _⟩, c', b, d⟩
      · exact Or.inl ⟨a, c', b, d⟩
      · rw [hc] at b
        have : c = c' := Option.some.inj b
        subst this; exact Or.inr ⟨rfl, d.symm⟩
  · intro k
    rw [e2]
    show (set s.ch c.ch (s.ch c.ch ++ [x]) k).Nodup
    by_cases hcc : k = c.ch
    · subst hcc; rw [set_same]; exact nodup_append_one (h.chNodup _) hx
    · rw [set_ne _ _ hcc]; exact h.chNodup k
  · intro b f; rw [e3, e4]; exact h.hangs b f
  · intro b f hf
    obtain ⟨a1, a2⟩ := h.hangsKind b f hf
    exact ⟨Or.inl a1, a2⟩
  · intro b f; rw [e3]; exact h.forceKind b f
  · intro b f; rw [e4]; exact h.nodeKind b f
  · intro b; rw [e3]; exact h.forcesNodup b
  · exact hn
  · intro y
    rw [hl, h.log]
    show _ ↔ y = 0 ∨ ((p.here y ∨ (y = x ∧ (O.kind x).cat ≠ none)) ∧ O.loggable y = true) ∨ ∃ b, p.hangs b y
    constructor
    · rintro ((a | ⟨a, b⟩ | a) | ⟨rfl, a⟩)
      · exact Or.inl a
      · exact Or.inr (Or.inl ⟨Or.inl a, b⟩)
      · exact Or.inr (Or.inr a)
      · exact Or.inr (Or.inl ⟨Or.inr ⟨rfl, hne⟩, a⟩)
    · rintro (a | ⟨a | ⟨rfl, _⟩, b⟩ | a)
      · exact Or.inl (Or.inl a)
      · exact Or.inl (Or.inr (Or.inl ⟨a, b⟩))
      · exact Or.inr ⟨rfl, b⟩
      · exact Or.inl (Or.inr (Or.inr a))
  · rintro y (a | ⟨rfl, a⟩)
    · exact h.hereKind y a
    · exact ⟨a, hx0⟩

theorem inv_add {O : Objs} {s s' : Sys} {p : Spec} (h : Inv O s p) (x : ℕ) (hx0 : x ≠ 0) (he : s.add O x = .ok s') : Inv O s' (p.step O (.add x)) := by
  unfold Sys.add at he
  cases hc : (O.kind x).cat with
  | none =>
    rw [hc] at he
    have e : s = s' := by simpa using he
    subst e
    have ep : p.step O (.add x) = p := by
      show Spec.mk (fun y => p.here y ∨ (y = x ∧ (O.kind x).cat ≠ none)) p.hangs = p
      rw [hc]; simp
    rw [ep]; exact h
  | some c =>
    rw [hc] at he
    simp only [] at he
    by_cases hx : x ∈ s.ch c.ch
    · rw [if_pos hx] at he; cases he
    · rw [if_neg hx] at he
      have fin : ∀ t0 : Sys, t0.lst = (s.push O c x).lst → t0.ch = (s.push O c x).ch → t0.forces = s.forces → t0.nodes = s.nodes → t0.logged = s.logged →
          s' = (if O.loggable x then t0.log x else t0) → Inv O s' (p.step O (.add x)) := by
        intro t0 f1 f2 f3 f4 f5 hs'
        by_cases hl : O.loggable x = true
        · rw [if_pos hl] at hs'
          obtain ⟨r1, r2, r3, r4, -, -⟩ := log_rest t0 x
          subst hs'
          refine inv_added h x hx0 c hc hx (r1.trans f1) (r2.trans f2) (r3.trans f3) (r4.trans f4) (log_nodup _ _ (by rw [f5]; exact h.logNodup)) ?_
          intro y
          rw [mem_log, f5]
          simp [hl]
        · rw [if_neg hl] at hs'
          subst hs'
          refine inv_added h x hx0 c hc hx f1 f2 f3 f4 (by rw [f5]; exact h.logNodup) ?_
          intro y
          rw [f5]; simp [hl]
      by_cases hr : (O.kind x).registers = true
      · rw [if_pos hr] at he
        by_cases hp : O.path x ∈ (s.push O c x).paths
        · rw [if_pos hp] at he; cases he
        · rw [if_neg hp] at he
          exact fin { s.push O c x with paths := O.path x :: (s.push O c x).paths } rfl rfl rfl rfl rfl (Out.ok.inj he).symm
      · rw [if_neg hr] at he
        exact fin (s.push O c x) rfl rfl rfl rfl rfl (Out.ok.inj he).symm

theorem cat_none_of {k : Kind} (h : k = .force ∨ k = .node) : k.cat = none := by rcases h with rfl | rfl <;> rfl

theorem inv_hang {O : Objs} {s s1 : Sys} {p : Spec} (h : Inv O s p) (b f : ℕ) (hb : O.kind b = .body) (hbh : p.here b) (hf0 : f ≠ 0) (hpar : O.parent f = b)
    (isForce : Bool) (hk : O.kind f = if isForce then .force else .node) (hnew : isForce = true → f ∉ s.forces b)
    (e1 : s1.lst = s.lst) (e2 : s1.ch = s.ch) (e3 : s1.forces = if isForce then set s.forces b (s.forces b ++ [f]) else s.forces)
    (e4 : s1.nodes = if isForce then s.nodes else set s.nodes b (s.nodes b ++ [f])) (e5 : s1.logged = s.logged) :
    Inv O (s1.log f) { p with hangs := fun b' f' => p.hangs b' f' ∨ (b' = b ∧ f' = f) } := by
  obtain ⟨r1, r2, r3, r4, -, -⟩ := log_rest s1 f
  have hkf : O.kind f = .force ∨ O.kind f = .node := by cases isForce <;> simp_all
  constructor
  · intro c y; rw [r1, e1]; exact h.lst c y
  · intro c; rw [r1, e1]; exact h.nodup c
  · intro k y; rw [r2, e2]; exact h.ch k y
  · intro k; rw [r2, e2]; exact h.chNodup k
  · intro b' f'
    show p.hangs b' f' ∨ _ ↔ _
    rw [r3, r4, e3, e4, h.hangs]
    cases isForce
    · simp only [Bool.false_eq_true, if_false]
      by_cases hbb : b' = b
      · subst hbb; rw [set_same]; simp; tauto
      · rw [set_ne _ _ hbb]; simp [hbb]
    · simp only [if_true]
      by_cases hbb : b' = b
      · subst hbb; rw [set_same]; simp; tauto
      · rw [set_ne _ _ hbb]; simp [hbb]
  · rintro b' f' (a | ⟨rfl, rfl⟩)
    · exact h.hangsKind b' f' a
    · exact ⟨hbh, hb, hpar, hkf, hf0⟩
  · intro b' f' hm
    rw [r3, e3] at hm
    cases isForce
    · simp only [Bool.false_eq_true, if_false] at hm; exact h.forceKind b' f' hm
    · simp only [if_true] at hm hk
      by_cases hbb : b' = b
      · subst hbb; rw [set_same] at hm
        rcases List.mem_append.mp hm with a | a
        · exact h.forceKind _ _ a
        · simp only [List.mem_singleton] at a; subst a; exact hk
      · rw [set_ne _ _ hbb] at hm; exact h.forceKind _ _ hm
  · intro b' f' hm
    rw [r4, e4] at hm
    cases isForce
    · simp only [Bool.false_eq_true, if_false] at hm hk
      by_cases hbb : b' = b
      · subst hbb; rw [set_same] at hm
        rcases List.mem_append.mp hm with a | a
        · exact h.nodeKind _ _ a
        · simp only [List.mem_singleton] at a; subst a; exact hk
      · rw [set_ne _ _ hbb] at hm; exact h.nodeKind _ _ hm
    · simp only [if_true] at hm; exact h.nodeKind b' f' hm
  · intro b'
    rw [r3, e3]
    cases isForce
    · simp only [Bool.false_eq_true, if_false]; exact h.forcesNodup b'
    · simp only [if_true]
      by_cases hbb : b' = b
      · subst hbb; rw [set_same]; exact nodup_append_one (h.forcesNodup _) (hnew rfl)
      · rw [set_ne _ _ hbb]; exact h.forcesNodup b'
  · exact log_nodup _ _ (by rw [e5]; exact h.logNodup)
  · intro y
    rw [mem_log, e5, h.log]
    show _ ↔ y = 0 ∨ (p.here y ∧ O.loggable y = true) ∨ ∃ b', p.hangs b' y ∨ (b' = b ∧ y = f)
    constructor
    · rintro ((a | a | ⟨b', a⟩) | rfl)
      · exact Or.inl a
      · exact Or.inr (Or.inl a)
      · exact Or.inr (Or.inr ⟨b', Or.inl a⟩)
      · exact Or.inr (Or.inr ⟨b, Or.inr ⟨rfl, rfl⟩⟩)
    · rintro (a | a | ⟨b', a | ⟨-, rfl⟩⟩)
      · exact Or.inl (Or.inl a)
      · exact Or.inl (Or.inr (Or.inl a))
      · exact Or.inl (Or.inr (Or.inr ⟨b', a⟩))
      · exact Or.inr rfl
  · exact h.hereKind

theorem inv_addForce {O : Objs} {s s' : Sys} {p : Spec} (h : Inv O s p) (b f : ℕ) (hs : (Op.addForce b f).Sane O p) (he : s.addForce O b f = .ok s') :
    Inv O s' (p.step O (.addForce b f)) := by
  obtain ⟨k1, k2, k3, k4, k5⟩ := hs
  unfold Sys.addForce at he
  by_cases hf : f ∈ s.forces b
  · rw [if_pos hf] at he; cases he
  · rw [if_neg hf] at he
    simp only [] at he
    split_ifs at he with hp
    have e := Out.ok.inj he
    subst e
    exact inv_hang h b f k1 k2 k5 k4 true k3 (fun _ => hf) rfl rfl rfl rfl rfl

theorem inv_newNode {O : Objs} {s s' : Sys} {p : Spec} (h : Inv O s p) (b f : ℕ) (hs : (Op.newNode b f).Sane O p) (he : s.newNode O b f = .ok s') :
    Inv O s' (p.step O (.newNode b f)) := by
  obtain ⟨k1, k2, k3, k4, k5⟩ := hs
  unfold Sys.newNode at he
  simp only [] at he
  split_ifs at he with hp
  have e := Out.ok.inj he
  subst e
  exact inv_hang h b f k1 k2 k5 k4 false k3 (fun h => by cases h) rfl rfl rfl rfl rfl

theorem inv_removeForce {O : Objs} {s s' : Sys} {p : Spec} (h : Inv O s p) (b f : ℕ) (he : s.removeForce b f = .ok s') :
    Inv O s' (p.step O (.removeForce b f)) := by
  unfold Sys.removeForce at he
  split_ifs at he with hf
  have e := Out.ok.inj he
  subst e
  have hh : p.hangs b f := (h.hangs b f).mpr (Or.inl hf)
  obtain ⟨g1, g2, g3, g4, g5⟩ := h.hangsKind b f hh
  have hkf := h.forceKind b f hf
  have hnode : ∀ b', f ∉ s.nodes b' := fun b' hm => by have := h.nodeKind b' f hm; rw [hkf] at this; cases this
  constructor
  · exact h.lst
  · exact h.nodup
  · exact h.ch
  · exact h.chNodup
  · intro b' f'
    show p.hangs b' f' ∧ _ ↔ f' ∈ set s.forces b ((s.forces b).erase f) b' ∨ f' ∈ s.nodes b'
    by_cases hbb : b' = b
    · subst hbb
      rw [set_same, (h.forcesNodup b').mem_erase_iff, h.hangs]
      constructor
      · rintro ⟨a | a, b2⟩
        · exact Or.inl ⟨fun e => b2 ⟨rfl, e⟩, a⟩
        · exact Or.inr a
      · rintro (⟨a, b2⟩ | a)
        · exact ⟨Or.inl b2, fun e => a e.2⟩
        · exact ⟨Or.inr a, fun e => hnode b' (e.2 ▸ a)⟩
    · rw [set_ne _ _ hbb, h.hangs]; simp [hbb]
  · intro b' f' hf'; exact h.hangsKind b' f' hf'.1
  · intro b' f' hm
    have hm : f' ∈ set s.forces b ((s.forces b).erase f) b' := hm
    by_cases hbb : b' = b
    · subst hbb; rw [set_same] at hm; exact h.forceKind _ _ (List.mem_of_mem_erase hm)
    · rw [set_ne _ _ hbb] at hm; exact h.forceKind _ _ hm
  · exact h.nodeKind
  · intro b'
    show (set s.forces b ((s.forces b).erase f) b').Nodup
    by_cases hbb : b' = b
    · subst hbb; rw [set_same]; exact (h.forcesNodup _).erase _
    · rw [set_ne _ _ hbb]; exact h.forcesNodup _
  · exact h.logNodup.erase _
  · intro y
    show y ∈ s.logged.erase f ↔ y = 0 ∨ (p.here y ∧ O.loggable y = true) ∨ ∃ b', p.hangs b' y ∧ ¬ (b' = b ∧ y = f)
    rw [h.logNodup.mem_erase_iff, h.log]
    constructor
    · rintro ⟨a, a' | a' | ⟨b', a'⟩⟩
      · exact Or.inl a'
      · exact Or.inr (Or.inl a')
      · exact Or.inr (Or.inr ⟨b', a', fun e => a e.2⟩)
    · rintro (a | a | ⟨b', a, a'⟩)
      · refine ⟨fun e => g5 (e ▸ a), Or.inl a⟩
      · refine ⟨?_, Or.inr (Or.inl a)⟩
        rintro rfl
        exact (h.hereKind y a.1).1 (cat_none_of g4)
      · refine ⟨?_, Or.inr (Or.inr ⟨b', a⟩)⟩
        rintro rfl
        exact a' ⟨(h.hangsKind b' y a).2.2.1.symm.trans g3, rfl⟩
  · exact h.hereKind

theorem inv_removed {O : Objs} {s t : Sys} {p : Spec} (h : Inv O s p) (x : ℕ) (c : Cat) (hc : (O.kind x).cat = some c) (hx : x ∈ s.lst c)
    (e1 : t.lst = set s.lst c ((s.lst c).erase x)) (e2 : t.ch = set s.ch c.ch ((s.ch c.ch).erase x))
    (e3 : t.forces = set s.forces x []) (e4 : t.nodes = set s.nodes x [])
    (hn : t.logged.Nodup) (hl : ∀ y, y ∈ t.logged ↔ y ∈ s.logged ∧ y ∉ s.forces x ∧ y ∉ s.nodes x ∧ ¬ (y = x ∧ O.loggable x = true)) :
    Inv O t (p.step O (.remove x)) := by
  have hhere : p.here x := ((h.lst c x).mp hx).1
  have hlst : ∀ c' y, y ∈ t.lst c' ↔ y ∈ s.lst c' ∧ y ≠ x := by
    intro c' y
    rw [e1]
    by_cases hcc : c' = c
    · subst hcc; rw [set_same, (h.nodup c').mem_erase_iff]; tauto
    · rw [set_ne _ _ hcc]
      refine ⟨fun a => ⟨a, ?_⟩, fun a => a.1⟩
      rintro rfl
      have := ((h.lst c' y).mp a).2
      rw [hc] at this; exact hcc (Option.some.inj this).symm
  have hch : ∀ k y, y ∈ t.ch k ↔ y ∈ s.ch k ∧ y ≠ x := by
    intro k y
    rw [e2]
    by_cases hcc : k = c.ch
    · subst hcc; rw [set_same, (h.chNodup _).mem_erase_iff]; tauto
    · rw [set_ne _ _ hcc]
      refine ⟨fun a => ⟨a, ?_⟩, fun a => a.1⟩
      rintro rfl
      obtain ⟨c', b1, b2⟩ := ((h.ch k y).mp a).2
      rw [hc] at b1
      have := Option.some.inj b1
      subst this; exact hcc b2.symm
  have hf : ∀ b f, f ∈ t.forces b ↔ f ∈ s.forces b ∧ b ≠ x := by
    intro b f
    rw [e3]
    by_cases hb : b = x
    · subst hb; rw [set_same]; simp
    · rw [set_ne _ _ hb]; simp [hb]
  have hnd : ∀ b f, f ∈ t.nodes b ↔ f ∈ s.nodes b ∧ b ≠ x := by
    intro b f
    rw [e4]
    by_cases hb : b = x
    · subst hb; rw [set_same]; simp
    · rw [set_ne _ _ hb]; simp [hb]
  constructor
  · intro c' y
    rw [hlst, h.lst]
    show _ ↔ (p.here y ∧ y ≠ x) ∧ _
    tauto
  · intro c'
    rw [e1]
    by_cases hcc : c' = c
    · subst hcc; rw [set_same]; exact (h.nodup _).erase _
    · rw [set_ne _ _ hcc]; exact h.nodup c'
  · intro k y
    rw [hch, h.ch]
    show _ ↔ (p.here y ∧ y ≠ x) ∧ _
    tauto
  · intro k
    rw [e2]
    by_cases hcc : k = c.ch
    · subst hcc; rw [set_same]; exact (h.chNodup _).erase _
    · rw [set_ne _ _ hcc]; exact h.chNodup k
  · intro b f
    rw [hf, hnd]
    show p.hangs b f ∧ b ≠ x ↔ _
    rw [h.hangs]; tauto
  · rintro b f ⟨a, a'⟩
    obtain ⟨a1, a2⟩ := h.hangsKind b f a
    exact ⟨⟨a1, a'⟩, a2⟩
  · intro b f hm; exact h.forceKind b f ((hf b f).mp hm).1
  · intro b f hm; exact h.nodeKind b f ((hnd b f).mp hm).1
  · intro b
    rw [e3]
    by_cases hb : b = x
    · subst hb; rw [set_same]; simp
    · rw [set_ne _ _ hb]; exact h.forcesNodup b
  · exact hn
  · intro y
    rw [hl, h.log]
    show _ ↔ y = 0 ∨ ((p.here y ∧ y ≠ x) ∧ O.loggable y = true) ∨ ∃ b, p.hangs b y ∧ b ≠ x
    have hhang : (y ∉ s.forces x ∧ y ∉ s.nodes x) ↔ ¬ p.hangs x y := by rw [h.hangs]; tauto
    constructor
    · rintro ⟨a, a1, a2, a3⟩
      have a4 := hhang.mp ⟨a1, a2⟩
      rcases a with a | ⟨a, a'⟩ | ⟨b, a⟩
      · exact Or.inl a
      · exact Or.inr (Or.inl ⟨⟨a, fun e => a3 ⟨e, e ▸ a'⟩⟩, a'⟩)
      · exact Or.inr (Or.inr ⟨b, a, fun e => a4 (e ▸ a)⟩)
    · intro a
      have key : (y = 0 ∨ (p.here y ∧ O.loggable y = true) ∨ ∃ b, p.hangs b y) ∧ ¬ p.hangs x y ∧ ¬ (y = x ∧ O.loggable x = true) := by
        rcases a with a | ⟨⟨a, a'⟩, a2⟩ | ⟨b, a, a'⟩
        · refine ⟨Or.inl a, fun hh => (h.hangsKind x y hh).2.2.2.2 a, fun e => (h.hereKind x hhere).2 (e.1 ▸ a)⟩
        · refine ⟨Or.inr (Or.inl ⟨a, a2⟩), fun hh => ?_, fun e => a' e.1⟩
          exact (h.hereKind y a).1 (cat_none_of (h.hangsKind x y hh).2.2.2.1)
        · refine ⟨Or.inr (Or.inr ⟨b, a⟩), fun hh => ?_, fun e => ?_⟩
          · exact a' ((h.hangsKind b y a).2.2.1.symm.trans (h.hangsKind x y hh).2.2.1)
          · have := cat_none_of (h.hangsKind b y a).2.2.2.1
            rw [e.1, hc] at this; cases this
      obtain ⟨k1, k2, k3⟩ := key
      obtain ⟨k4, k5⟩ := hhang.mpr k2
      exact ⟨k1, k4, k5, k3⟩
  · rintro y ⟨a, -⟩; exact h.hereKind y a

theorem set_self {α β : Type} [DecidableEq α] (f : α → β) (a : α) (b : β) (h : f a = b) : f = set f a b := by
  funext x
  by_cases hx : x = a
  · subst hx; rw [set_same, h]
  · rw [set_ne _ _ hx]

theorem inv_remove {O : Objs} {s s' : Sys} {p : Spec} (h : Inv O s p) (x : ℕ) (he : s.remove O x = .ok s') : Inv O s' (p.step O (.remove x)) := by
  unfold Sys.remove at he
  cases hc : (O.kind x).cat with
  | none => rw [hc] at he; cases he
  | some c =>
    rw [hc] at he
    simp only [] at he
    by_cases hx : x ∈ s.ch c.ch ∧ x ∈ s.lst c
    · rw [if_pos hx] at he
      have fin : ∀ t0 : Sys, t0.lst = set s.lst c ((s.lst c).erase x) → t0.ch = set s.ch c.ch ((s.ch c.ch).erase x) → t0.forces = set s.forces x [] →
          t0.nodes = set s.nodes x [] → t0.logged.Nodup → (∀ y, y ∈ t0.logged ↔ y ∈ s.logged ∧ y ∉ s.forces x ∧ y ∉ s.nodes x) →
          s' = (if O.loggable x then t0.unlog x else t0) → Inv O s' (p.step O (.remove x)) := by
        intro t0 f1 f2 f3 f4 f5 f6 hs'
        by_cases hl : O.loggable x = true
        · rw [if_pos hl] at hs'
          subst hs'
          refine inv_removed h x c hc hx.2 f1 f2 f3 f4 (f5.erase _) ?_
          intro y
          show y ∈ t0.logged.erase x ↔ _
          rw [f5.mem_erase_iff, f6]; tauto
        · rw [if_neg hl] at hs'
          subst hs'
          refine inv_removed h x c hc hx.2 f1 f2 f3 f4 f5 ?_
          intro y
          rw [f6]; tauto
      by_cases hb : O.kind x = .body
      · rw [if_pos hb] at he
        obtain ⟨m1, m2⟩ := mem_foldl_erase (s.forces x) s.logged h.logNodup
        obtain ⟨m3, m4⟩ := mem_foldl_erase (s.nodes x) _ m1
        refine fin _ ?_ ?_ ?_ ?_ ?_ ?_ (Out.ok.inj he).symm
        · rfl
        · rfl
        · rfl
        · rfl
        · exact m3
        · intro y
          refine (m4 y).trans ?_
          rw [m2]; tauto
      · rw [if_neg hb] at he
        have hnof : ∀ y, y ∉ s.forces x := fun y hm => hb (h.hangsKind x y ((h.hangs x y).mpr (Or.inl hm))).2.1
        have hnon : ∀ y, y ∉ s.nodes x := fun y hm => hb (h.hangsKind x y ((h.hangs x y).mpr (Or.inr hm))).2.1
        refine fin _ ?_ ?_ ?_ ?_ ?_ ?_ (Out.ok.inj he).symm
        · rfl
        · rfl
        · exact set_self _ _ _ (List.eq_nil_iff_forall_not_mem.mpr hnof)
        · exact set_self _ _ _ (List.eq_nil_iff_forall_not_mem.mpr hnon)
        · exact h.logNodup
        · intro y
          show y ∈ s.logged ↔ _
          have := hnof y; have := hnon y; tauto
    · rw [if_neg hx] at he; cases he

theorem inv_init (O : Objs) : Inv O (Sys.init O) ⟨fun _ => False, fun _ _ => False⟩ := by
  constructor <;> simp [Sys.init]

theorem inv_runs {O : Objs} {s : Sys} {p : Spec} (h : Runs O s p) : Inv O s p := by
  induction h with
  | init => exact inv_init O
  | call o _ hs he ih =>
    cases o with
    | add x => exact inv_add ih x hs he
    | remove x => exact inv_remove ih x he
    | addForce b f => exact inv_addForce ih b f hs he
    | newNode b n => exact inv_newNode ih b n hs he
    | removeForce b f => exact inv_removeForce ih b f he

theorem count_of {l : List ℕ} (hn : l.Nodup) {x : ℕ} {P : Prop} (h : x ∈ l ↔ P) : (P → l.count x = 1) ∧ (¬ P → l.count x = 0) :=
  ⟨fun hp => List.count_eq_one_of_mem hn (h.mpr hp), fun hp => List.count_eq_zero_of_not_mem (fun hm => hp (h.mp hm))⟩

/-- **C57.** After any history of successful calls, an object is once in the container of its kind, and once in Chrono's, when it was added and not removed since, and is in no
other container. -/
theorem C57_containers {O : Objs} {s : Sys} {p : Spec} (h : Runs O s p) (x : ℕ) :
    (∀ c, (p.here x ∧ (O.kind x).cat = some c → (s.lst c).count x = 1) ∧ (¬ (p.here x ∧ (O.kind x).cat = some c) → (s.lst c).count x = 0)) ∧
    (∀ k, (p.here x ∧ (∃ c, (O.kind x).cat = some c ∧ c.ch = k) → (s.ch k).count x = 1) ∧
      (¬ (p.here x ∧ ∃ c, (O.kind x).cat = some c ∧ c.ch = k) → (s.ch k).count x = 0)) :=
  ⟨fun c => count_of ((inv_runs h).nodup c) ((inv_runs h).lst c x), fun k => count_of ((inv_runs h).chNodup k) ((inv_runs h).ch k x)⟩

/-- **C57.** At each step the objects updated are the objects of the system, each exactly once. -/
theorem C57_stepped {O : Objs} {s : Sys} {p : Spec} (h : Runs O s p) (x : ℕ) :
    (p.here x → s.stepped.count x = 1) ∧ (¬ p.here x → s.stepped.count x = 0) := by
  obtain ⟨hc, -⟩ := C57_containers h x
  have e : s.stepped.count x = (s.lst .prePhysics).count x + (s.lst .bodies).count x + (s.lst .links).count x + (s.lst .constraints).count x +
      (s.lst .actuators).count x + (s.lst .feaMeshes).count x := by
    simp only [Sys.stepped, List.count_append]
  rw [e]
  constructor
  · intro hx
    have hk := ((inv_runs h).hereKind x hx).1
    cases hcat : (O.kind x).cat with
    | none => exact absurd hcat hk
    | some c =>
      have h1 := (hc c).1 ⟨hx, hcat⟩
      have h0 : ∀ c', c' ≠ c → (s.lst c').count x = 0 := fun c' hne => (hc c').2 (fun hh => hne (by rw [hcat] at hh; exact (Option.some.inj hh.2).symm))
      cases c
      · rw [h0 .prePhysics (by decide), h1, h0 .links (by decide), h0 .constraints (by decide), h0 .actuators (by decide), h0 .feaMeshes (by decide)]
      · rw [h0 .prePhysics (by decide), h1, h0 .bodies (by decide), h0 .constraints (by decide), h0 .actuators (by decide), h0 .feaMeshes (by decide)]
      · rw [h0 .prePhysics (by decide), h1, h0 .bodies (by decide), h0 .links (by decide), h0 .actuators (by decide), h0 .feaMeshes (by decide)]
      · rw [h0 .prePhysics (by decide), h1, h0 .bodies (by decide), h0 .links (by decide), h0 .constraints (by decide), h0 .feaMeshes (by decide)]
      · rw [h0 .actuators (by decide), h1, h0 .bodies (by decide), h0 .links (by decide), h0 .constraints (by decide), h0 .feaMeshes (by decide)]
      · rw [h0 .actuators (by decide), h1, h0 .bodies (by decide), h0 .links (by decide), h0 .constraints (by decide), h0 .prePhysics (by decide)]
  · intro hx
    have h0 : ∀ c', (s.lst c').count x = 0 := fun c' => (hc c').2 (fun hh => hx hh.1)
    simp only [h0]

/-- **C57.** The log manager writes the system, the loggable objects of the system and what hangs on its bodies, each exactly once, and nothing else. -/
theorem C57_logged {O : Objs} {s : Sys} {p : Spec} (h : Runs O s p) (x : ℕ) :
    ((x = 0 ∨ (p.here x ∧ O.loggable x = true) ∨ ∃ b, p.hangs b x) → s.logged.count x = 1) ∧
    (¬ (x = 0 ∨ (p.here x ∧ O.loggable x = true) ∨ ∃ b, p.hangs b x) → s.logged.count x = 0) :=
  count_of (inv_runs h).logNodup ((inv_runs h).log x)

/-- **C57.** Such calls do return normally: a new object whose path is free can be added, an object of the system can be removed, a new force or node with a free path can be put on a
body, a force of a body can be removed. -/
theorem C57_total {O : Objs} {s : Sys} {p : Spec} (h : Runs O s p) :
    (∀ x, ¬ p.here x → (O.kind x = .physicsItem ∨ O.kind x = .feaMesh ∨ O.path x ∉ s.paths) → ∃ s', s.add O x = .ok s') ∧
    (∀ x, p.here x → ∃ s', s.remove O x = .ok s') ∧
    (∀ b f, ¬ p.hangs b f → O.path f ∉ s.paths → (∃ s', s.addForce O b f = .ok s') ∧ ∃ s', s.newNode O b f = .ok s') ∧
    (∀ b f, p.hangs b f → O.kind f = .force → ∃ s', s.removeForce b f = .ok s') := by
  have hi := inv_runs h
  refine ⟨?_, ?_, ?_, ?_⟩
  · intro x hx hp
    unfold Sys.add
    cases hc : (O.kind x).cat with
    | none => exact ⟨_, rfl⟩
    | some c =>
      have : x ∉ s.ch c.ch := fun hm => hx ((hi.ch _ x).mp hm).1
      simp only []
      rw [if_neg this]
      by_cases hr : (O.kind x).registers = true
      · have hp' : O.path x ∉ (s.push O c x).paths := by
          rcases hp with hp | hp | hp
          · rw [hp] at hr; cases hr
          · rw [hp] at hr; cases hr
          · exact hp
        rw [if_pos hr, if_neg hp']; exact ⟨_, rfl⟩
      · rw [if_neg hr]; exact ⟨_, rfl⟩
  · intro x hx
    unfold Sys.remove
    cases hc : (O.kind x).cat with
    | none => exact absurd hc (hi.hereKind x hx).1
    | some c =>
      have : x ∈ s.ch c.ch ∧ x ∈ s.lst c := ⟨(hi.ch _ x).mpr ⟨hx, c, hc, rfl⟩, (hi.lst _ x).mpr ⟨hx, hc⟩⟩
      simp only []
      rw [if_pos this]; exact ⟨_, rfl⟩
  · intro b f hh hp
    have hf : f ∉ s.forces b := fun hm => hh ((hi.hangs b f).mpr (Or.inl hm))
    constructor
    · unfold Sys.addForce
      simp only []
      rw [if_neg hf, if_neg hp]; exact ⟨_, rfl⟩
    · unfold Sys.newNode
      simp only []
      rw [if_neg hp]; exact ⟨_, rfl⟩
  · intro b f hh hk
    have hf : f ∈ s.forces b := by
      rcases (hi.hangs b f).mp hh with a | a
      · exact a
      · have := hi.nodeKind b f a; rw [hk] at this; cases this
    unfold Sys.removeForce
    rw [if_pos hf]; exact ⟨_, rfl⟩

/-- The kinds of the example: a body, a force on it, a node on it, a link. -/
def exObjs : Objs :=
  ⟨fun x => if x = 1 then .body else if x = 2 then .force else if x = 3 then .node else if x = 4 then .link else .other,
   fun x => List.replicate x 'a', fun _ => 1, fun _ => true⟩

/-- A history that exists: add a body, put a force and a node on it, add a link, then remove the body. -/
example : ∃ s p, Runs exObjs s p ∧ p.here 4 ∧ ¬ p.here 1 ∧ s.logged = [0, 4] ∧ s.stepped = [4] := by
  have r0 := Runs.init (O := exObjs)
  have r1 := Runs.call (.add 1) r0 (by simp [Op.Sane]) rfl
  have r2 := Runs.call (.addForce 1 2) r1 (by simp [Op.Sane, exObjs, Spec.step, Kind.cat]) rfl
  have r3 := Runs.call (.newNode 1 3) r2 (by simp [Op.Sane, exObjs, Spec.step, Kind.cat]) rfl
  have r4 := Runs.call (.add 4) r3 (by simp [Op.Sane]) rfl
  have r5 := Runs.call (.remove 1) r4 trivial rfl
  refine ⟨_, _, r5, ?_, ?_, ?_, ?_⟩
  · exact ⟨Or.inr ⟨rfl, by decide⟩, by decide⟩
  · intro hh; exact hh.2 rfl
  · decide
  · decide

/-! ## C58 -/

/-- A path cut at its slashes (specification). -/
def comps : List (NodeType × List Char) → List (List Char)
  | [] => []
  | (.system, n) :: r => ("FRYDOM_".toList ++ n) :: comps r
  | (.body, n) :: r => "BODIES".toList :: ("BODY_".toList ++ n) :: comps r
  | (.force, n) :: r => "FORCES".toList :: ("FORCE_".toList ++ n) :: comps r
  | (.node, n) :: r => "NODES".toList :: ("NODE_".toList ++ n) :: comps r
  | (.link, n) :: r => "LINKS".toList :: ("LINK_".toList ++ n) :: comps r
  | (.constraint, n) :: r => "CONSTRAINTS".toList :: ("CONSTRAINT_".toList ++ n) :: comps r
  | (.actuator, n) :: r => "ACTUATORS".toList :: ("ACTUATOR_".toList ++ n) :: comps r
  | (.dynamicCable, n) :: r => "CABLES".toList :: ("CAT_CABLE_".toList ++ n) :: comps r
  | (.catenaryLine, n) :: r => "CABLES".toList :: ("DYN_CABLE_".toList ++ n) :: comps r
  | (.equilibriumFrame, n) :: r => n :: comps r

/-- Joined again. -/
def join (l : List (List Char)) : List Char := l.flatMap (fun w => w ++ ['/'])

theorem path_eq_join : ∀ l, path l = join (comps l)
  | [] => rfl
  | (t, n) :: r => by
    have ih := path_eq_join r
    cases t <;> simp [path, comps, join, NodeType.pathPrefix, ih]

theorem split_slash : ∀ (a b r q : List Char), '/' ∉ a → '/' ∉ b → a ++ '/' :: r = b ++ '/' :: q → a = b ∧ r = q
  | [], [], r, q, _, _, h => ⟨rfl, (List.cons.inj h).2⟩
  | [], c :: b, r, q, _, hb, h => by
    have h1 : '/' = c := (List.cons.inj h).1
    exact absurd (h1 ▸ List.mem_cons_self) hb
  | c :: a, [], r, q, ha, _, h => by
    have h1 : c = '/' := (List.cons.inj h).1
    exact absurd (h1 ▸ List.mem_cons_self) ha
  | c :: a, d :: b, r, q, ha, hb, h => by
    obtain ⟨h1, h2⟩ := List.cons.inj h
    obtain ⟨h3, h4⟩ := split_slash a b r q (fun hh => ha (List.mem_cons_of_mem _ hh)) (fun hh => hb (List.mem_cons_of_mem _ hh)) h2
    exact ⟨by rw [h1, h3], h4⟩

theorem join_inj : ∀ (l m : List (List Char)), (∀ w ∈ l, '/' ∉ w) → (∀ w ∈ m, '/' ∉ w) → join l = join m → l = m
  | [], [], _, _, _ => rfl
  | [], w :: m, _, _, h => by simp [join] at h
  | w :: l, [], _, _, h => by simp [join] at h
  | w :: l, v :: m, hl, hm, h => by
    have h' : w ++ '/' :: join l = v ++ '/' :: join m := by simpa [join] using h
    obtain ⟨h1, h2⟩ := split_slash w v _ _ (hl w List.mem_cons_self) (hm v List.mem_cons_self) h'
    rw [h1, join_inj l m (fun x hx => hl x (List.mem_cons_of_mem _ hx)) (fun x hx => hm x (List.mem_cons_of_mem _ hx)) h2]

theorem comps_free : ∀ l : List (NodeType × List Char), (∀ e ∈ l, '/' ∉ e.2) → ∀ w ∈ comps l, '/' ∉ w
  | [], _ => by simp [comps]
  | (t, n) :: r, h => by
    have ih := comps_free r (fun e he => h e (List.mem_cons_of_mem _ he))
    have hn : '/' ∉ n := h (t, n) List.mem_cons_self
    intro w hw
    cases t <;> simp only [comps, List.mem_cons] at hw
    case system => rcases hw with rfl | hw <;> [simpa using hn; exact ih w hw]
    case equilibriumFrame => rcases hw with rfl | hw <;> [exact hn; exact ih w hw]
    all_goals rcases hw with rfl | rfl | hw <;> [decide; simpa using hn; exact ih w hw]

theorem comps_inj {l m : List (NodeType × List Char)} (hl : Chain l) (hm : Chain m) (h : comps l = comps m) : l = m := by
  rcases hl with s | ⟨s, t, n, rfl | rfl | rfl | rfl | rfl⟩ | ⟨s, b, t, n, rfl | rfl | rfl⟩ | ⟨s, l, n⟩ <;>
  rcases hm with s' | ⟨s', t', n', rfl | rfl | rfl | rfl | rfl⟩ | ⟨s', b', t', n', rfl | rfl | rfl⟩ | ⟨s', l', n'⟩ <;>
  simp_all [comps]

/-- **C58.** Two objects whose names have no slash have the same path only if they have the same kind, the same name and the same parents: logs of different objects never share a
path. -/
theorem C58_path_injective {l m : List (NodeType × List Char)} (hl : Chain l) (hm : Chain m) (nl : ∀ e ∈ l, '/' ∉ e.2) (nm : ∀ e ∈ m, '/' ∉ e.2)
    (h : path l = path m) : l = m :=
  comps_inj hl hm (join_inj _ _ (comps_free l nl) (comps_free m nm) (by rw [← path_eq_join, ← path_eq_join]; exact h))

/-- **C58.** With a slash in a name this fails: an equilibrium frame named `NODES/NODE_a` has the path of the node `a` of its body. -/
theorem C58_slash_collides (s b a : List Char) :
    Chain [(.system, s), (.body, b), (.node, a)] ∧ Chain [(.system, s), (.body, b), (.equilibriumFrame, "NODES/NODE_".toList ++ a)] ∧
    path [(.system, s), (.body, b), (.node, a)] = path [(.system, s), (.body, b), (.equilibriumFrame, "NODES/NODE_".toList ++ a)] := by
  refine ⟨.inBody _ _ _ _ (by simp), .inBody _ _ _ _ (by simp), ?_⟩
  simp [path, NodeType.pathPrefix]

/-- An object whose path was registered. -/
def Registered (O : Objs) (p : Spec) (x : ℕ) : Prop := x = 0 ∨ (p.here x ∧ (O.kind x).registers = true) ∨ ∃ b, p.hangs b x

theorem paths_add {O : Objs} {s s' : Sys} {x : ℕ} (h : s.add O x = .ok s') :
    (∀ q, q ∈ s.paths → q ∈ s'.paths) ∧ ((O.kind x).registers = true → (O.kind x).cat ≠ none → O.path x ∈ s'.paths ∧ O.path x ∉ s.paths) := by
  unfold Sys.add at h
  cases hc : (O.kind x).cat with
  | none => rw [hc] at h; have := Out.ok.inj h; subst this; exact ⟨fun q hq => hq, fun _ h => absurd rfl h⟩
  | some c =>
    rw [hc] at h
    simp only [] at h
    by_cases hx : x ∈ s.ch c.ch
    · rw [if_pos hx] at h; cases h
    rw [if_neg hx] at h
    have fin : ∀ t : Sys, s' = (if O.loggable x then t.log x else t) → s'.paths = t.paths := by
      intro t ht
      rw [ht]
      by_cases hl : O.loggable x = true
      · rw [if_pos hl]; exact (log_rest t x).2.2.2.2.2
      · rw [if_neg hl]
    by_cases hr : (O.kind x).registers = true
    · rw [if_pos hr] at h
      by_cases hp : O.path x ∈ (s.push O c x).paths
      · rw [if_pos hp] at h; cases h
      · rw [if_neg hp] at h
        have e := fin _ (Out.ok.inj h).symm
        have e' : s'.paths = O.path x :: s.paths := e
        rw [e']
        exact ⟨fun q hq => List.mem_cons_of_mem _ hq, fun _ _ => ⟨List.mem_cons_self, hp⟩⟩
    · rw [if_neg hr] at h
      have e' : s'.paths = s.paths := fin (s.push O c x) (Out.ok.inj h).symm
      rw [e']; exact ⟨fun q hq => hq, fun hh => absurd hh hr⟩

theorem paths_addForce {O : Objs} {s s' : Sys} {b f : ℕ} (h : s.addForce O b f = .ok s') : s'.paths = O.path f :: s.paths ∧ O.path f ∉ s.paths := by
  unfold Sys.addForce at h
  by_cases hf : f ∈ s.forces b
  · rw [if_pos hf] at h; cases h
  rw [if_neg hf] at h
  simp only [] at h
  by_cases hp : O.path f ∈ s.paths
  · rw [if_pos hp] at h; cases h
  rw [if_neg hp] at h
  have := Out.ok.inj h
  subst this
  exact ⟨(log_rest _ f).2.2.2.2.2, hp⟩

theorem paths_newNode {O : Objs} {s s' : Sys} {b f : ℕ} (h : s.newNode O b f = .ok s') : s'.paths = O.path f :: s.paths ∧ O.path f ∉ s.paths := by
  unfold Sys.newNode at h
  simp only [] at h
  by_cases hp : O.path f ∈ s.paths
  · rw [if_pos hp] at h; cases h
  rw [if_neg hp] at h
  have := Out.ok.inj h
  subst this
  exact ⟨(log_rest _ f).2.2.2.2.2, hp⟩

theorem paths_remove {O : Objs} {s s' : Sys} {x : ℕ} (h : s.remove O x = .ok s') : s'.paths = s.paths := by
  unfold Sys.remove at h
  cases hc : (O.kind x).cat with
  | none => rw [hc] at h; cases h
  | some c =>
    rw [hc] at h
    simp only [] at h
    by_cases hx : x ∈ s.ch c.ch ∧ x ∈ s.lst c
    · rw [if_pos hx] at h
      have := Out.ok.inj h
      subst this
      by_cases hl : O.loggable x = true <;> by_cases hb : O.kind x = .body <;> simp only [hl, hb, if_true, if_false, Bool.false_eq_true] <;> rfl
    · rw [if_neg hx] at h; cases h

theorem paths_removeForce {s s' : Sys} {b f : ℕ} (h : s.removeForce b f = .ok s') : s'.paths = s.paths := by
  unfold Sys.removeForce at h
  split_ifs at h
  have := Out.ok.inj h
  subst this
  rfl

theorem paths_inv {O : Objs} {s : Sys} {p : Spec} (h : Runs O s p) :
    (∀ x, Registered O p x → O.path x ∈ s.paths) ∧ (∀ x y, Registered O p x → Registered O p y → O.path x = O.path y → x = y) := by
  induction h with
  | init =>
    refine ⟨?_, ?_⟩
    · rintro x (rfl | ⟨a, -⟩ | ⟨b, a⟩)
      · simp [Sys.init]
      · exact a.elim
      · exact a.elim
    · rintro x y (rfl | ⟨a, -⟩ | ⟨b, a⟩) (rfl | ⟨a', -⟩ | ⟨b', a'⟩) _
      all_goals first | rfl | exact a.elim | exact a'.elim
  | @call s s' p o hr hs he ih =>
    obtain ⟨i1, i2⟩ := ih
    have grow : ∀ (q : Spec) (z : ℕ), (∀ x, Registered O q x → Registered O p x ∨ x = z) → (∀ r, r ∈ s.paths → r ∈ s'.paths) →
        (Registered O q z → ¬ Registered O p z → O.path z ∈ s'.paths ∧ O.path z ∉ s.paths) →
        (∀ x, Registered O q x → O.path x ∈ s'.paths) ∧ (∀ x y, Registered O q x → Registered O q y → O.path x = O.path y → x = y) := by
      intro q z h1 h2 h3
      refine ⟨?_, ?_⟩
      · intro x hx
        by_cases hx' : Registered O p x
        · exact h2 _ (i1 x hx')
        · rcases h1 x hx with a | rfl
          · exact absurd a hx'
          · exact (h3 hx hx').1
      · intro x y hx hy hxy
        by_cases hx' : Registered O p x
        · by_cases hy' : Registered O p y
          · exact i2 x y hx' hy' hxy
          · rcases h1 y hy with a | rfl
            · exact absurd a hy'
            · exact absurd (hxy ▸ i1 x hx') (h3 hy hy').2
        · rcases h1 x hx with a | rfl
          · exact absurd a hx'
          · rcases h1 y hy with a | rfl
            · exact absurd (hxy ▸ i1 y a) (h3 hx hx').2
            · rfl
    cases o with
    | add x =>
      obtain ⟨g1, g2⟩ := paths_add he
      refine grow _ x ?_ g1 ?_
      · rintro y (a | ⟨a | ⟨a, -⟩, a'⟩ | a)
        · exact Or.inl (Or.inl a)
        · exact Or.inl (Or.inr (Or.inl ⟨a, a'⟩))
        · exact Or.inr a
        · exact Or.inl (Or.inr (Or.inr a))
      · rintro (a | ⟨a | ⟨-, a⟩, a'⟩ | a) hn
        · exact absurd (Or.inl a) hn
        · exact absurd (Or.inr (Or.inl ⟨a, a'⟩)) hn
        · exact g2 a' a
        · exact absurd (Or.inr (Or.inr a)) hn
    | remove x =>
      have e := paths_remove he
      refine grow _ 0 ?_ (by rw [e]; exact fun _ h => h) (fun _ hn => absurd (Or.inl rfl) hn)
      rintro y (a | ⟨⟨a, -⟩, a'⟩ | ⟨b, a, -⟩)
      · exact Or.inr a
      · exact Or.inl (Or.inr (Or.inl ⟨a, a'⟩))
      · exact Or.inl (Or.inr (Or.inr ⟨b, a⟩))
    | addForce b f =>
      obtain ⟨g1, g2⟩ := paths_addForce he
      refine grow _ f ?_ (by rw [g1]; exact fun _ h => List.mem_cons_of_mem _ h) (fun _ _ => ⟨by rw [g1]; exact List.mem_cons_self, g2⟩)
      rintro y (a | a | ⟨b', a | ⟨-, a⟩⟩)
      · exact Or.inl (Or.inl a)
      · exact Or.inl (Or.inr (Or.inl a))
      · exact Or.inl (Or.inr (Or.inr ⟨b', a⟩))
      · exact Or.inr a
    | newNode b f =>
      obtain ⟨g1, g2⟩ := paths_newNode he
      refine grow _ f ?_ (by rw [g1]; exact fun _ h => List.mem_cons_of_mem _ h) (fun _ _ => ⟨by rw [g1]; exact List.mem_cons_self, g2⟩)
      rintro y (a | a | ⟨b', a | ⟨-, a⟩⟩)
      · exact Or.inl (Or.inl a)
      · exact Or.inl (Or.inr (Or.inl a))
      · exact Or.inl (Or.inr (Or.inr ⟨b', a⟩))
      · exact Or.inr a
    | removeForce b f =>
      have e := paths_removeForce he
      refine grow _ 0 ?_ (by rw [e]; exact fun _ h => h) (fun _ hn => absurd (Or.inl rfl) hn)
      rintro y (a | a | ⟨b', a, -⟩)
      · exact Or.inr a
      · exact Or.inl (Or.inr (Or.inl a))
      · exact Or.inl (Or.inr (Or.inr ⟨b', a⟩))

/-- **C58.** In a system reached by successful calls, two different registered objects never have the same path (so their logs do not overwrite each other), whatever their names. -/
theorem C58_no_shared_path {O : Objs} {s : Sys} {p : Spec} (h : Runs O s p) {x y : ℕ} (hx : Registered O p x) (hy : Registered O p y)
    (hxy : O.path x = O.path y) : x = y := (paths_inv h).2 x y hx hy hxy

example : ∃ s p, Runs exObjs s p ∧ Registered exObjs p 1 ∧ Registered exObjs p 2 := by
  have r0 := Runs.init (O := exObjs)
  have r1 := Runs.call (.add 1) r0 (by simp [Op.Sane]) rfl
  have r2 := Runs.call (.addForce 1 2) r1 (by simp [Op.Sane, exObjs, Spec.step, Kind.cat]) rfl
  exact ⟨_, _, r2, Or.inr (Or.inl ⟨Or.inr ⟨rfl, by decide⟩, rfl⟩), Or.inr (Or.inr ⟨1, Or.inr ⟨rfl, rfl⟩⟩)⟩

/-! ## C59: what does not come back -/

/-- **C59.** Adding an object whose path is used throws *after* the object was put in the containers: it is then simulated but not logged. -/
theorem C59_throw_leaves_half {O : Objs} {s : Sys} {p : Spec} (h : Runs O s p) (x : ℕ) (hx : ¬ p.here x) (hh : ¬ ∃ b, p.hangs b x) (hx0 : x ≠ 0) (c : Cat)
    (hc : (O.kind x).cat = some c) (hr : (O.kind x).registers = true) (hp : O.path x ∈ s.paths) :
    ∃ s', s.add O x = .thrown s' ∧ x ∈ s'.stepped ∧ x ∈ s'.ch c.ch ∧ x ∉ s'.logged := by
  have hi := inv_runs h
  have hnot : x ∉ s.ch c.ch := fun hm => hx ((hi.ch _ x).mp hm).1
  refine ⟨s.push O c x, ?_, ?_, ?_, ?_⟩
  · have hp' : O.path x ∈ (s.push O c x).paths := hp
    unfold Sys.add
    rw [hc]
    simp only []
    rw [if_neg hnot, if_pos hr, if_pos hp']
  · have hm : x ∈ (s.push O c x).lst c := by
      show x ∈ set s.lst c (s.lst c ++ [x]) c
      rw [set_same]; simp
    simp only [Sys.stepped, List.mem_append]
    cases c <;> simp [hm]
  · show x ∈ set s.ch c.ch (s.ch c.ch ++ [x]) c.ch
    rw [set_same]; simp
  · show x ∉ s.logged
    rw [hi.log]
    rintro (a | a | a)
    · exact hx0 a
    · exact hx a.1
    · exact hh a

/-- **C59.** An object that was in the system cannot be put back: removing it succeeds, adding it again throws and leaves it half added. -/
theorem C59_no_readd {O : Objs} {s : Sys} {p : Spec} (h : Runs O s p) (x : ℕ) (hx : p.here x) (hr : (O.kind x).registers = true) :
    ∃ s', s.remove O x = .ok s' ∧ ∃ s'', s'.add O x = .thrown s'' ∧ x ∈ s''.stepped ∧ x ∉ s''.logged := by
  obtain ⟨s', hs'⟩ := (C57_total h).2.1 x hx
  have hr' := Runs.call (.remove x) h trivial hs'
  have hi := inv_runs h
  obtain ⟨hk, hx0⟩ := hi.hereKind x hx
  cases hc : (O.kind x).cat with
  | none => exact absurd hc hk
  | some c =>
    have hp : O.path x ∈ s'.paths := by
      rw [paths_remove hs']; exact (paths_inv h).1 x (Or.inr (Or.inl ⟨hx, hr⟩))
    have hh : ¬ ∃ b, (p.step O (.remove x)).hangs b x := by
      rintro ⟨b, a, -⟩
      have := cat_none_of (hi.hangsKind b x a).2.2.2.1
      rw [hc] at this; cases this
    obtain ⟨s'', a1, a2, -, a4⟩ := C59_throw_leaves_half hr' x (fun hh => hh.2 rfl) hh hx0 c hc hr hp
    exact ⟨s', hs', s'', a1, a2, a4⟩

theorem hinges_remove {O : Objs} {s s' : Sys} (x : ℕ) (he : s.remove O x = .ok s') : s'.hinges = s.hinges := by
  unfold Sys.remove at he
  cases hc : (O.kind x).cat with
  | none => rw [hc] at he; cases he
  | some c =>
    rw [hc] at he
    simp only [] at he
    by_cases hx : x ∈ s.ch c.ch ∧ x ∈ s.lst c
    · rw [if_pos hx] at he
      have := Out.ok.inj he
      subst this
      by_cases hl : O.loggable x = true <;> by_cases hb : O.kind x = .body <;> simp only [hl, hb, if_true, if_false, Bool.false_eq_true] <;> rfl
    · rw [if_neg hx] at he; cases he

/-- **C59.** A dynamic cable added then removed leaves its hinges in Chrono. -/
theorem C59_cable_hinges_stay {O : Objs} {s s1 s2 : Sys} {p : Spec} (h : Runs O s p) (x : ℕ) (hx0 : x ≠ 0) (hk : O.kind x = .dynamicCable)
    (h1 : s.add O x = .ok s1) (h2 : s1.remove O x = .ok s2) : x ∈ s2.hinges ∧ x ∉ s2.stepped ∧ ∀ k, x ∉ s2.ch k := by
  have r1 := Runs.call (.add x) h hx0 h1
  have r2 := Runs.call (.remove x) r1 trivial h2
  have hi := inv_runs r2
  refine ⟨?_, ?_, ?_⟩
  · rw [hinges_remove x h2]
    unfold Sys.add at h1
    have hc : (O.kind x).cat = some .feaMeshes := by rw [hk]; rfl
    rw [hc] at h1
    simp only [] at h1
    by_cases hx : x ∈ s.ch Cat.feaMeshes.ch
    · rw [if_pos hx] at h1; cases h1
    rw [if_neg hx, if_pos (by rw [hk]; rfl)] at h1
    by_cases hp : O.path x ∈ (s.push O .feaMeshes x).paths
    · rw [if_pos hp] at h1; cases h1
    rw [if_neg hp] at h1
    have e := Out.ok.inj h1
    subst e
    have hh : x ∈ (s.push O .feaMeshes x).hinges := by simp [Sys.push, hk]
    by_cases hl : O.loggable x = true
    · rw [if_pos hl, (log_rest _ x).2.2.2.2.1]; exact hh
    · rw [if_neg hl]; exact hh
  · exact List.count_eq_zero.mp ((C57_stepped r2 x).2 (fun hh => hh.2 rfl))
  · intro k hm; exact ((hi.ch k x).mp hm).1.2 rfl

theorem lst_remove {O : Objs} {s : Sys} {x : ℕ} {c : Cat} (hc : (O.kind x).cat = some c) (h1 : x ∈ s.ch c.ch) (h2 : x ∈ s.lst c) :
    ∃ s', s.remove O x = .ok s' ∧ s'.lst c = (s.lst c).erase x := by
  unfold Sys.remove
  rw [hc]
  simp only []
  rw [if_pos ⟨h1, h2⟩]
  refine ⟨_, rfl, ?_⟩
  have e : set s.lst c ((s.lst c).erase x) c = (s.lst c).erase x := set_same _ _ _
  by_cases hl : O.loggable x = true <;> by_cases hb : O.kind x = .body <;> simp only [hl, hb, if_true, if_false, Bool.false_eq_true] <;> exact e

/-- **C59.** `RemoveAllBodies` and its like walk over a vector they shorten: with two objects or more in the container the loop reads past its end; with one it works. The world
body is a body, so a system with a body of the user has two. -/
theorem C59_remove_all_partial {O : Objs} {s : Sys} {p : Spec} (h : Runs O s p) (c : Cat) :
    (2 ≤ (s.lst c).length → s.removeAll O c = .bad) ∧ ((s.lst c).length = 1 → ∃ s', s.removeAll O c = .ok s' ∧ s'.lst c = []) := by
  -- after k removals the container has lost k elements and the position is k
  have loop : ∀ (fuel k n : ℕ) (s : Sys) (p : Spec), Runs O s p → (s.lst c).length + k = n → fuel + k = n → 2 ≤ n → 1 ≤ fuel →
      s.removeLoop O c fuel k = .bad := by
    intro fuel
    induction fuel with
    | zero => intro k n s p _ _ _ _ hf; omega
    | succ fuel ih =>
      intro k n s p hr hlen hfuel hn _
      unfold Sys.removeLoop
      by_cases hk : k < (s.lst c).length
      · have e : (s.lst c)[k]? = some (s.lst c)[k] := List.getElem?_eq_getElem hk
        rw [e]
        simp only []
        have hmem : (s.lst c)[k] ∈ s.lst c := List.getElem_mem hk
        have hi := inv_runs hr
        obtain ⟨hh, hcat⟩ := (hi.lst c _).mp hmem
        obtain ⟨s', e1, e2⟩ := lst_remove hcat ((hi.ch _ _).mpr ⟨hh, c, hcat, rfl⟩) hmem
        rw [e1]
        simp only []
        have hl' : (s'.lst c).length = (s.lst c).length - 1 := by rw [e2]; exact List.length_erase_of_mem hmem
        by_cases hf0 : fuel = 0
        · omega
        · exact ih (k + 1) n s' _ (Runs.call (.remove _) hr trivial e1) (by omega) (by omega) hn (by omega)
      · have e : (s.lst c)[k]? = none := List.getElem?_eq_none (by omega)
        rw [e]
  constructor
  · intro hn
    exact loop (s.lst c).length 0 (s.lst c).length s p h rfl rfl hn (by omega)
  · intro h1
    unfold Sys.removeAll
    rw [h1]
    obtain ⟨x, hx⟩ := List.length_eq_one_iff.mp h1
    have hmem : x ∈ s.lst c := by rw [hx]; simp
    have hi := inv_runs h
    obtain ⟨hh, hcat⟩ := (hi.lst c _).mp hmem
    obtain ⟨s', e1, e2⟩ := lst_remove hcat ((hi.ch _ _).mpr ⟨hh, c, hcat, rfl⟩) hmem
    refine ⟨s', ?_, by rw [e2, hx]; simp⟩
    unfold Sys.removeLoop
    have e : (s.lst c)[0]? = some x := by rw [hx]; rfl
    rw [e]
    simp only []
    rw [e1]
    rfl

/-- **C59.** After `Clear` the containers are empty but the log manager still has every object, and their names cannot be used again. -/
theorem C59_clear {O : Objs} {s : Sys} {p : Spec} (h : Runs O s p) (x : ℕ) (hx : p.here x) :
    s.clear.stepped = [] ∧ (O.loggable x = true → x ∈ s.clear.logged) ∧ ((O.kind x).registers = true → ∃ s', s.clear.add O x = .thrown s') := by
  have hi := inv_runs h
  refine ⟨rfl, fun hl => (hi.log x).mpr (Or.inr (Or.inl ⟨hx, hl⟩)), fun hr => ?_⟩
  have hp : O.path x ∈ s.paths := (paths_inv h).1 x (Or.inr (Or.inl ⟨hx, hr⟩))
  cases hc : (O.kind x).cat with
  | none => exact absurd hc (hi.hereKind x hx).1
  | some c =>
    unfold Sys.add
    rw [hc]
    simp only []
    have hp' : O.path x ∈ (s.clear.push O c x).paths := hp
    rw [if_neg (by simp [Sys.clear]), if_pos hr, if_pos hp']
    exact ⟨_, rfl⟩

/-- The cases of C59 exist: two bodies in a system. -/
example : ∃ s p, Runs { exObjs with kind := fun _ => .body } s p ∧ 2 ≤ (s.lst .bodies).length ∧ p.here 1 ∧ p.here 2 := by
  have r0 := Runs.init (O := { exObjs with kind := fun _ => .body })
  have r1 := Runs.call (.add 1) r0 (by simp [Op.Sane]) rfl
  have r2 := Runs.call (.add 2) r1 (by simp [Op.Sane]) rfl
  exact ⟨_, _, r2, by decide, Or.inl (Or.inr ⟨rfl, by decide⟩), Or.inr ⟨rfl, by decide⟩⟩

end Frydom.Core.Registry
