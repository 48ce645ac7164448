import Mathlib.Data.Finset.Basic
import Mathlib.Data.Fintype.Card

/-!
# DOF masks (C27)

`src/frydom/core/link/links_lib/FrDOFMaskLink.{h,cpp}` and `FrLinkLockBase::SetMask`, `BuildLinkType`
(`src/frydom/core/link/links_lib/FrLink.cpp`).
-/

namespace Frydom.Link

/-- `LINK_TYPE` (core/link/links_lib/FrLink.h). -/
inductive LinkType
  | cylindrical | fixed | free | prismatic | revolute | spherical | prismaticRevolute | custom
  deriving DecidableEq

/-- `FrDOFMask` (FrDOFMaskLink.h:32-38). -/
structure DofMask where
  linkType : LinkType := .free
  x : Bool := false
  y : Bool := false
  z : Bool := false
  rx : Bool := false
  ry : Bool := false
  rz : Bool := false

namespace DofMask

/-- `SetLock_X` … `SetLock_Rz` (FrDOFMaskLink.cpp:23-51). -/
def setLockX (m : DofMask) (b : Bool) : DofMask := { m with x := b, linkType := .custom }
/-- FrDOFMaskLink.cpp:27-30. -/
def setLockY (m : DofMask) (b : Bool) : DofMask := { m with y := b, linkType := .custom }
/-- FrDOFMaskLink.cpp:32-35. -/
def setLockZ (m : DofMask) (b : Bool) : DofMask := { m with z := b, linkType := .custom }
/-- FrDOFMaskLink.cpp:37-40. -/
def setLockRx (m : DofMask) (b : Bool) : DofMask := { m with rx := b, linkType := .custom }
/-- FrDOFMaskLink.cpp:42-45. -/
def setLockRy (m : DofMask) (b : Bool) : DofMask := { m with ry := b, linkType := .custom }
/-- FrDOFMaskLink.cpp:47-50. -/
def setLockRz (m : DofMask) (b : Bool) : DofMask := { m with rz := b, linkType := .custom }

/-- `MakeItFree` (FrDOFMaskLink.cpp:86-94). -/
def makeItFree (_ : DofMask) : DofMask := ⟨.free, false, false, false, false, false, false⟩
/-- `MakeItLocked` (FrDOFMaskLink.cpp:96-104). -/
def makeItLocked (_ : DofMask) : DofMask := ⟨.fixed, true, true, true, true, true, true⟩

/-- `LockXZPlane` (FrDOFMaskLink.cpp:52-57). -/
def lockXZPlane (m : DofMask) : DofMask := ((m.makeItFree.setLockY true).setLockRx true).setLockRz true
/-- `LockXYPlane` (FrDOFMaskLink.cpp:59-64). -/
def lockXYPlane (m : DofMask) : DofMask := ((m.makeItFree.setLockZ true).setLockRx true).setLockRy true

/-- `HasLockedDOF` (FrDOFMaskLink.cpp:78-80). -/
def hasLockedDOF (m : DofMask) : Bool := m.x || m.y || m.z || m.rx || m.ry || m.rz
/-- `IsFree` (FrDOFMaskLink.cpp:82-84). -/
def isFree (m : DofMask) : Bool := !m.hasLockedDOF
/-- `GetNbLockedDOF` (FrDOFMaskLink.cpp:106-115). -/
def nbLocked (m : DofMask) : ℕ :=
  let nb := 0
  let nb := if m.x then nb + 1 else nb
  let nb := if m.y then nb + 1 else nb
  let nb := if m.z then nb + 1 else nb
  let nb := if m.rx then nb + 1 else nb
  let nb := if m.ry then nb + 1 else nb
  if m.rz then nb + 1 else nb
/-- `GetNbFreeDOF` (FrDOFMaskLink.cpp:117-119). -/
def nbFree (m : DofMask) : ℕ := 6 - m.nbLocked

/-- The private `SetLock` (FrDOFMaskLink.cpp:153-161). -/
def setLock (_ : DofMask) (x y z rx ry rz : Bool) : DofMask := ⟨.custom, x, y, z, rx, ry, rz⟩

/-- `SetLinkType` (FrDOFMaskLink.cpp:121-147). -/
def setLinkType (m : DofMask) (t : LinkType) : DofMask :=
  let m := { m with linkType := t }
  match t with
  | .free => m.setLock false false false false false false
  | .fixed => m.setLock true true true true true true
  | .revolute => m.setLock true true true true true false
  | .prismatic => m.setLock true true false true true true
  | .cylindrical => m.setLock true true false true true false
  | .spherical => m.setLock true true true false false false
  | _ => m.setLock false false false false false false

end DofMask

/-- The public setters. -/
inductive MaskOp
  | lockX (b : Bool) | lockY (b : Bool) | lockZ (b : Bool) | lockRx (b : Bool) | lockRy (b : Bool) | lockRz (b : Bool)
  | lockXZPlane | lockXYPlane | makeItFree | makeItLocked | setLinkType (t : LinkType)

/-- Effect of a setter. -/
def DofMask.step (m : DofMask) : MaskOp → DofMask
  | .lockX b => m.setLockX b
  | .lockY b => m.setLockY b
  | .lockZ b => m.setLockZ b
  | .lockRx b => m.setLockRx b
  | .lockRy b => m.setLockRy b
  | .lockRz b => m.setLockRz b
  | .lockXZPlane => m.lockXZPlane
  | .lockXYPlane => m.lockXYPlane
  | .makeItFree => m.makeItFree
  | .makeItLocked => m.makeItLocked
  | .setLinkType t => m.setLinkType t

/-- A mask after a history of setters; a new mask is all default. -/
def DofMask.run (ops : List MaskOp) : DofMask := ops.foldl DofMask.step {}

/-- A Chrono lock mask on (x, y, z, e0, e1, e2, e3). -/
structure ChMask where
  x : Bool
  y : Bool
  z : Bool
  e0 : Bool
  e1 : Bool
  e2 : Bool
  e3 : Bool
  deriving DecidableEq

/-- `FrLinkLockBase::SetLinkType` followed by `BuildLinkType` (FrLink.cpp:35-84, 199-252), for the types the switch handles
(Chrono's `ChangeLinkType` calls the overridden `BuildLinkType`). -/
def chronoMaskOfType : LinkType → ChMask
  | .free => ⟨false, false, false, false, false, false, false⟩
  | .fixed => ⟨true, true, true, false, true, true, true⟩
  | .spherical => ⟨true, true, true, false, false, false, false⟩
  | .revolute => ⟨true, true, true, false, true, true, false⟩
  | .cylindrical => ⟨true, true, false, false, true, true, false⟩
  | .prismatic => ⟨true, true, false, false, true, true, true⟩
  | .prismaticRevolute => ⟨false, true, true, false, true, true, false⟩
  | .custom => ⟨false, false, false, false, false, false, false⟩

/-- `FrLinkLockBase::SetMask` (FrLink.cpp:142-161): the mask handed to `BuildLink`. -/
def chronoMask (m : DofMask) : ChMask :=
  if m.linkType = .custom then ⟨m.x, m.y, m.z, false, m.rx, m.ry, m.rz⟩ else chronoMaskOfType m.linkType

/-! ## Specification -/

/-- The six degrees of freedom. -/
inductive Dof
  | x | y | z | rx | ry | rz
  deriving DecidableEq

instance : Fintype Dof := ⟨{.x, .y, .z, .rx, .ry, .rz}, fun d => by cases d <;> decide⟩

/-- What the user reads: `GetLock_X` … `GetLock_Rz` (FrDOFMaskLink.cpp:67-77). -/
def DofMask.get (m : DofMask) : Dof → Bool
  | .x => m.x
  | .y => m.y
  | .z => m.z
  | .rx => m.rx
  | .ry => m.ry
  | .rz => m.rz

/-- Degrees of freedom a joint leaves free: revolute about z, prismatic along z, cylindrical both, spherical the three rotations. -/
def jointFree : LinkType → Finset Dof
  | .free => {.x, .y, .z, .rx, .ry, .rz}
  | .fixed => {}
  | .revolute => {.rz}
  | .prismatic => {.z}
  | .cylindrical => {.z, .rz}
  | .spherical => {.rx, .ry, .rz}
  | .prismaticRevolute => {.x, .rz}
  | .custom => {.x, .y, .z, .rx, .ry, .rz}

/-- What an operation says about a degree of freedom; `none`: nothing. -/
def tells (op : MaskOp) (d : Dof) : Option Bool :=
  match op with
  | .lockX b => if d = .x then some b else none
  | .lockY b => if d = .y then some b else none
  | .lockZ b => if d = .z then some b else none
  | .lockRx b => if d = .rx then some b else none
  | .lockRy b => if d = .ry then some b else none
  | .lockRz b => if d = .rz then some b else none
  | .lockXZPlane => some (decide (d ∈ ({.y, .rx, .rz} : Finset Dof)))
  | .lockXYPlane => some (decide (d ∈ ({.z, .rx, .ry} : Finset Dof)))
  | .makeItFree => some false
  | .makeItLocked => some true
  | .setLinkType .prismaticRevolute => some false
  | .setLinkType t => some (decide (d ∉ jointFree t))

/-- The last thing a history says about `d`; free when it says nothing. -/
def lastSaid (ops : List MaskOp) (d : Dof) : Bool := (ops.reverse.findSome? fun op => tells op d).getD false

/-! ## Theorems -/

theorem get_step (m : DofMask) (op : MaskOp) (d : Dof) : (m.step op).get d = (tells op d).getD (m.get d) := by
  cases op with
  | setLinkType t => cases t <;> cases d <;> rfl
  | _ => cases d <;> rfl

theorem run_append (ops : List MaskOp) (op : MaskOp) : DofMask.run (ops ++ [op]) = (DofMask.run ops).step op := by
  simp [DofMask.run]

/-- **C27, last setting.** After every history of setters, each degree of freedom is locked exactly when the last operation that concerns it
says so (a new mask locks nothing). -/
theorem C27_last_setting_partial (ops : List MaskOp) (d : Dof) : (DofMask.run ops).get d = lastSaid ops d := by
  induction ops using List.reverseRecOn with
  | nil => cases d <;> simp [DofMask.run, lastSaid, DofMask.get]
  | append_singleton ops op ih =>
    rw [run_append, get_step, ih, lastSaid, lastSaid, List.reverse_append]
    simp only [List.reverse_cons, List.reverse_nil, List.nil_append, List.singleton_append, List.findSome?_cons]
    cases tells op d <;> rfl

/-- **C27, counts.** For every mask the number of locked DOFs is the number of degrees of freedom read as locked, it makes six with the
number of free ones, and the mask is free exactly when none is locked. -/
theorem C27_counts (m : DofMask) :
    m.nbLocked = (Finset.univ.filter fun d => m.get d = true).card ∧ m.nbLocked + m.nbFree = 6 ∧
    (m.isFree = true ↔ ∀ d, m.get d = false) ∧ (m.hasLockedDOF = true ↔ ∃ d, m.get d = true) := by
  have hall : ∀ p : Dof → Prop, (∀ d, p d) ↔ (p .x ∧ p .y ∧ p .z ∧ p .rx ∧ p .ry ∧ p .rz) := fun p =>
    ⟨fun h => ⟨h _, h _, h _, h _, h _, h _⟩, fun ⟨a, b, c, d, e, f⟩ t => by cases t <;> assumption⟩
  have hex : ∀ p : Dof → Prop, (∃ d, p d) ↔ (p .x ∨ p .y ∨ p .z ∨ p .rx ∨ p .ry ∨ p .rz) := fun p =>
    ⟨fun ⟨t, h⟩ => by cases t <;> simp [h], fun h => by rcases h with h | h | h | h | h | h <;> exact ⟨_, h⟩⟩
  have hu : (Finset.univ : Finset Dof) = {.x, .y, .z, .rx, .ry, .rz} := by decide
  obtain ⟨t, x, y, z, rx, ry, rz⟩ := m
  rw [hall, hex, hu]
  cases x <;> cases y <;> cases z <;> cases rx <;> cases ry <;> cases rz <;>
    refine ⟨by rfl, by rfl, by simp [DofMask.isFree, DofMask.hasLockedDOF, DofMask.get], by simp [DofMask.hasLockedDOF, DofMask.get]⟩

/-- Invariant of reachable masks. -/
theorem run_type (ops : List MaskOp) :
    (DofMask.run ops).linkType = .custom ∨
    ((DofMask.run ops).linkType = .free ∧ ∀ d, (DofMask.run ops).get d = false) ∨
    ((DofMask.run ops).linkType = .fixed ∧ ∀ d, (DofMask.run ops).get d = true) := by
  induction ops using List.reverseRecOn with
  | nil => exact Or.inr (Or.inl ⟨rfl, fun d => by cases d <;> rfl⟩)
  | append_singleton ops op ih =>
    rw [run_append]
    cases op with
    | makeItFree => exact Or.inr (Or.inl ⟨rfl, fun d => by cases d <;> rfl⟩)
    | makeItLocked => exact Or.inr (Or.inr ⟨rfl, fun d => by cases d <;> rfl⟩)
    | setLinkType t => exact Or.inl (by cases t <;> rfl)
    | _ => exact Or.inl rfl

/-- **C27, constraint.** Whatever the history, the constraint built from the mask locks exactly the coordinates of the degrees of freedom
read as locked (Chrono coordinates x, y, z, e1, e2, e3; e0 never). -/
theorem C27_constraint (ops : List MaskOp) :
    chronoMask (DofMask.run ops) =
      ⟨(DofMask.run ops).get .x, (DofMask.run ops).get .y, (DofMask.run ops).get .z, false,
       (DofMask.run ops).get .rx, (DofMask.run ops).get .ry, (DofMask.run ops).get .rz⟩ := by
  rcases run_type ops with h | ⟨h, hd⟩ | ⟨h, hd⟩
  · simp [chronoMask, h, DofMask.get]
  · simp [chronoMask, h, hd, chronoMaskOfType]
  · simp [chronoMask, h, hd, chronoMaskOfType]

/-- **C27, joints.** `SetLinkType(t)` leaves free exactly the degrees of freedom of the joint `t` (for the joints the mask knows), after any
history. -/
theorem C27_joint (ops : List MaskOp) (t : LinkType) (ht : t ≠ .prismaticRevolute) (d : Dof) :
    (DofMask.run (ops ++ [.setLinkType t])).get d = decide (d ∉ jointFree t) := by
  rw [run_append, get_step]
  cases t <;> first | rfl | exact absurd rfl ht

/-- **C27, the part that fails.** `GetLinkType` never returns the type set with `SetLinkType` (it returns `CUSTOM`), and setting the
prismatic-revolute joint locks nothing. -/
theorem C27_link_type_counterexample (ops : List MaskOp) (t : LinkType) :
    (DofMask.run (ops ++ [.setLinkType t])).linkType = .custom ∧
    ∀ d, (DofMask.run (ops ++ [.setLinkType .prismaticRevolute])).get d = false := by
  rw [run_append, run_append]
  exact ⟨by cases t <;> rfl, fun d => by cases d <;> rfl⟩

/-- A concrete history: lock everything, free the plane xz, then free Rz. -/
example : (DofMask.run [.makeItLocked, .lockXZPlane, .lockRz false, .setLinkType .revolute, .lockX false]).nbLocked = 4 := by decide

end Frydom.Link
