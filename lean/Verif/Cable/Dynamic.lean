import Verif.Cable.CatenarySolve
import Verif.Cable.LineAsset
import Verif.Geom.Props3

/-!
# Dynamic cables (C140 - C144)

Model of `src/frydom/cable/FrDynamicCable.cpp` and `.h`.

External (Chrono): `ChVector::Normalize`, `ChMesh::AddNode/AddElement/GetElement`, `ChLinkMateGeneric`, `ChBeamSectionAdvanced::SetAsCircularSection`, and
`ChElementBeamEuler` (the interpolation along an element is a parameter of which only the values at the two ends are used; `SetupInitial` takes as rest length the distance between the two nodes).

Simplifications: real numbers for `double`; the drawing is left out; the temporary catenary line is not registered in the system (see C145 for that).
-/

open Classical

noncomputable section

namespace Frydom.Cable
open Frydom.Geom Frydom.Core

/-- `ChVector::Normalize` (external): a vector of length zero becomes the x axis. (Chrono compares the length with the smallest positive double.) -/
def chNormalize (v : V3) : V3 := if v = 0 then ⟨1, 0, 0⟩ else v.normalized

/-- `FrDynamicCable::HingeType` (FrDynamicCable.h:114-118). -/
inductive Hinge
  | constrained
  | spherical
  | none
  deriving DecidableEq

/-- The Chrono mesh: the nodes (position and rotation in the world) in the order of `AddNode`, the elements (indices of their two nodes) in the order of `AddElement`. -/
structure FeMesh where
  nodes : List Frame
  elems : List (ℕ × ℕ)

/-- Attributes of `FrDynamicCable` and `FrDynamicCableBase` (FrDynamicCable.h:40-60, 100-115) with those inherited from `FrCable`. `mesh` is `none` until the initialization. -/
structure DynCable where
  props : CableProps
  length : ℝ
  start : Node
  stop : Node
  rayleigh : ℝ
  nbElements : ℕ
  startHinge : Hinge := .spherical
  endHinge : Hinge := .spherical
  maxTension : ℝ := 0
  mesh : Option FeMesh := Option.none

namespace DynCable

/-- `SetTargetElementLength` (FrDynamicCable.cpp:327-330); `none` when the assertion fails. -/
def setTargetElementLength (c : DynCable) (e : ℝ) : Option DynCable :=
  if e > 0 ∧ e < c.length then some { c with nbElements := ⌊c.length / e⌋.toNat } else Option.none

/-- `SetNumberOfElements` (FrDynamicCable.cpp:319-321). -/
def setNumberOfElements (c : DynCable) (n : ℕ) : DynCable := { c with nbElements := n }

/-! ## Initialization -/

/-- `RotMat.Set_A_axis(e1, e2, e3)` with `e1` along the tension and `e2` across (FrDynamicCable.cpp:170-177, 199-203), and the quaternion of that matrix. -/
def axes (t e3 : V3) : Q :=
  let e1 := chNormalize t
  let e2 := chNormalize (V3.cross e3 e1)
  matToQuat (M3.ofCols e1 e2 e3)

/-- State of the loop that creates the elements: abscissa, frame of the last node, mesh. -/
structure Build where
  s : ℝ
  frame : Frame
  mesh : FeMesh

/-- One turn of the loop (FrDynamicCable.cpp:191-220): `next` is the frame of the new node, from the abscissa and the frame of the previous one. -/
def addElement (next : ℝ → Frame → Frame) (ds : ℝ) (b : Build) : Build :=
  let s := b.s + ds
  let frame := next s b.frame
  let count := b.mesh.nodes.length
  ⟨s, frame, ⟨b.mesh.nodes ++ [frame], b.mesh.elems ++ [(count - 1, count)]⟩⟩

/-- The loop: `n` turns. -/
def addElements (next : ℝ → Frame → Frame) (ds : ℝ) : ℕ → Build → Build
  | 0, b => b
  | n + 1, b => addElement next ds (addElements next ds n b)

/-- `elastic` (FrDynamicCable.cpp:132-136). -/
def taut (c : DynCable) : Prop := V3.norm (c.stop.positionInWorld .NWU - c.start.positionInWorld .NWU) ≥ c.length

/-- The frame of a node on the catenary line (FrDynamicCable.cpp:198-204); `e3` is the normal computed at the starting node. -/
def lineFrame (l : Line) (e3 : V3) (s : ℝ) (_ : Frame) : Frame := ⟨l.position s .NWU, axes (l.tension s .NWU) e3⟩

/-- `e3` at the starting node (FrDynamicCable.cpp:159-174). -/
def planeNormal (l : Line) (ab : V3) : V3 := chNormalize (V3.cross (chNormalize (l.tension 0 .NWU)) ab)

/-- `FrDynamicCableBase::Initialize` (FrDynamicCable.cpp:125-255) when it was not called before; `none` if the solver of the catenary line never returns. `inv` is the matrix inversion,
`rhoAir` the density of the air. The temporary line is not elastic (it is made with `elastic`, which is false when it is used). -/
def setUp (inv : M3 → M3) (rhoAir g : ℝ) (c : DynCable) : Option DynCable :=
  match c.mesh with
  | some _ => some c
  | Option.none =>
    let d := c.stop.positionInWorld .NWU - c.start.positionInWorld .NWU
    let ds := c.length / c.nbElements
    let ab := chNormalize d
    if c.taut then
      let first := c.start.frameInWorld
      let b := addElements (fun _ f => { f with pos := f.pos + ds • ab }) ds c.nbElements ⟨0, first, ⟨[first], []⟩⟩
      some { c with
        mesh := some b.mesh
        maxTension := if c.maxTension = 0 then 1.2 * ((V3.norm d - c.length) * c.props.getEA / c.length) else c.maxTension }
    else
      (initialize' inv (Line.new c.props false c.length c.start c.stop) rhoAir g).map fun l =>
        let e3 := planeNormal l ab
        let first : Frame := ⟨c.start.positionInWorld .NWU, axes (l.tension 0 .NWU) e3⟩
        let b := addElements (lineFrame l e3) ds c.nbElements ⟨0, first, ⟨[first], []⟩⟩
        { c with
          mesh := some b.mesh
          maxTension := if c.maxTension = 0 then 1.2 * l.initMaxTension 40 0 else c.maxTension }

/-! ## Point and tension at an abscissa -/

/-- The element and the local coordinate of an abscissa (FrDynamicCable.cpp:386-398, 410-420). `GetTension` brings `s` back to the length before, which changes nothing
since the assertion was passed. `none` when the assertion fails. -/
def locate (c : DynCable) (s : ℝ) : Option (ℤ × ℝ) :=
  if s ≤ c.length then
    let ds := c.length / c.nbElements
    let a := s / ds
    if s = c.length then some ((c.nbElements : ℤ) - 1, 1) else some (⌊a⌋, 2 * (a - ⌊a⌋) - 1)
  else Option.none

/-- `GetElement(index)` (external): a vector indexed by an unsigned integer; out of the vector is undefined behaviour: `none`. -/
def element (m : FeMesh) (index : ℤ) : Option (Frame × Frame) :=
  if index < 0 then Option.none
  else (m.elems[index.toNat]?).bind fun e => (m.nodes[e.1]?).bind fun a => (m.nodes[e.2]?).map fun b => (a, b)

/-- `GetNodePositionInWorld` (FrDynamicCable.cpp:264-272, 408-428); `section` is `EvaluateSectionFrame` of an element between two nodes. -/
def positionAt (interp : Frame → Frame → ℝ → V3) (c : DynCable) (s : ℝ) (fc : FC) : Option V3 :=
  (locate c s).bind fun ie => c.mesh.bind fun m => (element m ie.1).map fun ab => conv fc (interp ab.1 ab.2 ie.2)

/-- `GetTension` (FrDynamicCable.cpp:274-288, 384-406); `axial` is the first component of the force of `EvaluateSectionForceTorque`. -/
def tensionAt (axial : Frame → Frame → ℝ → ℝ) (c : DynCable) (s : ℝ) (fc : FC) : Option V3 :=
  (locate c s).bind fun ie => c.mesh.bind fun m => (element m ie.1).map fun ab => conv fc (axial ab.1 ab.2 ie.2 • chNormalize (ab.2.pos - ab.1.pos))

/-! ## Hinges -/

/-- The coordinates constrained by a hinge (FrDynamicCable.cpp:68-94): position, orientation. -/
def mask : Hinge → Bool × Bool
  | .none => (false, false)
  | .spherical => (true, false)
  | .constrained => (true, true)

/-- `ChLinkMateGeneric` (external) between two Chrono bodies (or nodes) with the frames `f1` and `f2`, each relative to the frame of its own: the constraints hold. The frame of a Chrono body
is the one at its centre of gravity. -/
def mateHolds (h : Hinge) (body1 f1 body2 f2 : Frame) : Prop :=
  let r := (body2.mul f2).otherWrtThis (body1.mul f1)
  ((mask h).1 = true → r.pos = 0) ∧ ((mask h).2 = true → r.rot.e1 = 0 ∧ r.rot.e2 = 0 ∧ r.rot.e3 = 0)

/-- The starting hinge (FrDynamicCable.cpp:47-51): node of the mesh and frame of the node in the body. -/
def startHingeHolds (c : DynCable) (fea : Frame) (b : Body) : Prop := mateHolds c.startHinge fea Frame.identity b.cog (c.start.frameInBody b)

/-- The ending hinge (FrDynamicCable.cpp:53-61), turned by half a turn about the z axis. -/
def endHingeHolds (c : DynCable) (fea : Frame) (b : Body) : Prop :=
  mateHolds c.endHinge fea (Frame.identity.rotZ Real.pi .NWU false) b.cog (c.stop.frameInBody b)

/-! ## Section, statics -/

/-- What the section is made of (FrDynamicCable.cpp:36-42) with `SetAsCircularSection` (external): area and second moments of area. -/
structure Section where
  area : ℝ
  iyy : ℝ
  izz : ℝ
  damping : ℝ
  density : ℝ
  young : ℝ

/-- `InitializeSection` (FrDynamicCable.cpp:36-42). -/
def feSection (c : DynCable) : Section :=
  let d := c.props.getDiameter
  { area := Real.pi * (d / 2) ^ 2, iyy := Real.pi / 4 * (d / 2) ^ 4, izz := Real.pi / 4 * (d / 2) ^ 4, damping := c.rayleigh, density := c.props.getDensity, young := c.props.getYoungModulus }

/-- `GetStaticResidual` (FrDynamicCable.cpp:470-479): from the velocities of the nodes. -/
def staticResidual (vel : List V3) : ℝ := vel.foldl (fun r v => r + V3.norm v) 0

/-- `Relax` (FrDynamicCable.cpp:481-485): all the velocities are set to zero. -/
def relax (vel : List V3) : List V3 := vel.map fun _ => 0

end DynCable

end Frydom.Cable
