import Verif.Core.Node
import Verif.Core.Force
import Verif.Geom.Props3
import Verif.Hydro.Damping
import Verif.Hydro.EqFrameVariants

/-!
# Morison elements (C98-C101)

`src/frydom/hydrodynamics/morison/FrMorisonModel.cpp`, `FrMorisonModel.h`, `FrMorisonForce.cpp`; documented law:
`docs/theory/src/hydrodynamics/morison.rst`.
-/

open Classical

noncomputable section

namespace Frydom.Hydro.Morison
open Frydom.Geom Frydom.Core Frydom.Hydro

/-! ## Model -/

/-- `MorisonCoeff` (FrMorisonModel.h:109-131). -/
structure Coeff where
  x : ℝ
  y : ℝ

/-- `MorisonElementProperty` (FrMorisonModel.h:134-141). -/
structure Props where
  cd : Coeff
  ca : Coeff
  cf : ℝ
  diameter : ℝ
  length : ℝ
  volume : ℝ

/-- What the environment answers at the instant of the update (NWU): density of the ocean, velocity and acceleration of the waves, velocity of the current.
Modelled elsewhere (C35, C60); here any functions. -/
structure Sea where
  rho : ℝ
  waveVel : V3 → V3
  waveAcc : V3 → V3
  current : V3 → V3

/-- `FrMorisonSingleElement` (FrMorisonModel.h:146-271; FrMorisonModel.h:44-50). The nodes at the ends are only kept, never read: not modelled. -/
structure Single where
  node : Node
  props : Props
  includeCurrent : Bool
  extended : Bool
  force : V3
  torque : V3

namespace Single

/-- `SetVolume` (FrMorisonModel.cpp:166-168). -/
def setVolume (s : Single) : Single :=
  { s with props := { s.props with volume := Real.pi / 4 * s.props.diameter * s.props.diameter * s.props.length } }

/-- `GetFlowVelocity` (FrMorisonModel.cpp:171-188). -/
def flowVelocity (S : Sea) (b : Body) (s : Single) : V3 :=
  let p := s.node.positionInWorld .NWU
  let v := S.waveVel p - s.node.velocityInWorld .NWU
  let v := if s.includeCurrent then v + S.current p else v
  s.node.frameInWorld.projParentInFrame (b.getFrame.projParentInFrame v .NWU) .NWU

/-- `GetFlowAcceleration` (FrMorisonModel.cpp:190-203); `acc n` is the acceleration of a node read from Chrono (external). -/
def flowAcceleration (S : Sea) (acc : Node → V3) (b : Body) (s : Single) : V3 :=
  let p := s.node.positionInWorld .NWU
  let a := S.waveAcc p - acc s.node
  s.node.frameInWorld.projParentInFrame (b.getFrame.projParentInFrame a .NWU) .NWU

/-- The local force of `Update` (FrMorisonModel.cpp:216-229). -/
def localForce (S : Sea) (acc : Node → V3) (b : Body) (s : Single) : V3 :=
  let v := s.flowVelocity S b
  let P := s.props
  let fx := 0.5 * P.cd.x * S.rho * P.diameter * P.length * v.x * |v.x|
  let fy := 0.5 * P.cd.y * S.rho * P.diameter * P.length * v.y * |v.y|
  let a := s.flowAcceleration S acc b
  let fx := if s.extended then fx + S.rho * (P.ca.x + 1) * P.volume * a.x else fx
  let fy := if s.extended then fy + S.rho * (P.ca.y + 1) * P.volume * a.y else fy
  ⟨fx, fy, 0.5 * P.cf * S.rho * Real.pi * P.diameter * P.length * v.z * |v.z|⟩

/-- `Update` (FrMorisonModel.cpp:209-238). -/
def update (S : Sea) (acc : Node → V3) (b : Body) (s : Single) : Single :=
  let forceBody := s.node.frameInWorld.projFrameInParent (s.localForce S acc b) .NWU
  { s with
    force := b.getFrame.projFrameInParent forceBody .NWU
    torque := V3.cross (s.node.positionInBody b .NWU - b.getCOG .NWU) forceBody }

end Single

/-- An element of a model: single or composite (FrMorisonModel.h:42-100, 282-403). -/
inductive Element where
  | single (s : Single)
  | composite (force torque : V3) (includeCurrent extended : Bool) (parts : List Element)

namespace Element

/-- `GetForceInWorld` (FrMorisonModel.cpp:59-63). -/
def getForce (e : Element) (fc : FC) : V3 :=
  match e with
  | .single s => conv fc s.force
  | .composite f _ _ _ _ => conv fc f

/-- `GetTorqueInBody` (FrMorisonModel.cpp:65-67). -/
def getTorque : Element → V3
  | .single s => s.torque
  | .composite _ t _ _ _ => t

/-- `SetExtendedModel` (FrMorisonModel.h:88). -/
def setExtended (x : Bool) : Element → Element
  | .single s => .single { s with extended := x }
  | .composite f t c _ ps => .composite f t c x ps

/-- `SetIncludeCurrent` (FrMorisonModel.h:84; not overridden by the composite). -/
def setIncludeCurrent (x : Bool) : Element → Element
  | .single s => .single { s with includeCurrent := x }
  | .composite f t _ e ps => .composite f t x e ps

mutual
/-- `Update` (FrMorisonModel.cpp:209-238, 330-340). -/
def update (S : Sea) (acc : Node → V3) (b : Body) : Element → Element
  | .single s => .single (s.update S acc b)
  | .composite _ _ c x ps =>
    let ps' := updateAll S acc b ps
    .composite (ps'.foldl (fun f e => f + e.getForce .NWU) 0) (ps'.foldl (fun t e => t + e.getTorque) 0) c x ps'
/-- The loop of `Update` on the elements (FrMorisonModel.cpp:335-336). -/
def updateAll (S : Sea) (acc : Node → V3) (b : Body) : List Element → List Element
  | [] => []
  | e :: es => update S acc b e :: updateAll S acc b es
end

mutual
/-- `Initialize` (FrMorisonModel.cpp:240-246, 322-328; the assertions are not modelled). -/
def initialize' : Element → Element
  | .single s => .single s.setVolume
  | .composite f t c x ps => .composite f t c x (initializeAll x ps)
/-- The loop of `Initialize` (FrMorisonModel.cpp:324-327): each element is initialised, then given the flag of the composite. -/
def initializeAll (x : Bool) : List Element → List Element
  | [] => []
  | e :: es => (initialize' e).setExtended x :: initializeAll x es
end

end Element

/-- `FrMorisonForce::Compute` (FrMorisonForce.cpp:35-41): the element after the update and the force. -/
def compute (S : Sea) (acc : Node → V3) (b : Body) (e : Element) (f : Force) : Element × Force :=
  let e' := e.update S acc b
  (e', (f.setForceInWorldAtCOG (e'.getForce .NWU) .NWU).setTorqueInBodyAtCOG e'.getTorque .NWU)

/-- `FLT_EPSILON`. -/
def fltEps : ℝ := 2 ^ (-23 : ℤ)

/-- The axes computed by `FrMorisonElement::SetFrame(body, posA, posB, vect)` (FrMorisonModel.cpp:35-46). -/
def axes (A B vect : V3) : V3 × V3 × V3 :=
  let e3 := V3.normalized (B - A)
  let e1 := V3.cross vect e3
  let e1 := if |V3.norm e1| > fltEps then V3.normalized e1 else ⟨1, 0, 0⟩
  (e1, V3.normalized (V3.cross e3 e1), e3)

/-- `SetFrame(body, posA, posB, vect)` (FrMorisonModel.cpp:31-52): `none` when the constructor of the rotation refuses the axes. -/
def makeNode (b : Body) (A B vect : V3) : Option Node :=
  let a := axes A B vect
  (rotOfAxes a.1 a.2.1 a.2.2 .NWU).map fun q => (Node.new b).setFrameInBody b (Frame.new ((0.5 : ℝ) • (A + B)) q .NWU)

/-- `FrMorisonSingleElement(body, posA, posB, diameter, ca, cd, cf, perpendicular)` (FrMorisonModel.cpp:80-93). `mem` is the content of the memory of
`m_includeCurrent`, which no constructor writes (FrMorisonModel.h:49). -/
def newSingle (mem : Bool) (b : Body) (A B : V3) (diameter : ℝ) (ca cd : Coeff) (cf : ℝ) (perp : V3) : Option Single :=
  (makeNode b A B perp).map fun n => Single.setVolume ⟨n, ⟨cd, ca, cf, diameter, V3.norm (B - A), 0⟩, mem, false, 0, 0⟩

/-- The constructor from two nodes (FrMorisonModel.cpp:95-111). -/
def newSingleNodes (mem : Bool) (b : Body) (nA nB : Node) (diameter : ℝ) (ca cd : Coeff) (cf : ℝ) (perp : V3) : Option Single :=
  (makeNode b (nA.positionInBody b .NWU) (nB.positionInBody b .NWU) perp).map fun n =>
    Single.setVolume ⟨n, ⟨cd, ca, cf, diameter, V3.norm (nB.positionInWorld .NWU - nA.positionInWorld .NWU), 0⟩, mem, false, 0, 0⟩

/-- The constructor from a frame (FrMorisonModel.cpp:113-124, 54-57). -/
def newSingleFrame (mem : Bool) (b : Body) (f : Frame) (diameter length : ℝ) (ca cd : Coeff) (cf : ℝ) : Single :=
  Single.setVolume ⟨(Node.new b).setFrameInBody b f, ⟨cd, ca, cf, diameter, length, 0⟩, mem, false, 0, 0⟩

/-- `FrMorisonCompositeElement::AddElement(posA, posB, diameter, ca, cd, cf, n, perpendicular)` (FrMorisonModel.cpp:279-290): the elements added, in order. -/
def split (mem : Bool) (b : Body) (A B : V3) (diameter : ℝ) (ca cd : Coeff) (cf : ℝ) (n : ℕ) (perp : V3) : List (Option Single) :=
  let dV := (1 / (n : ℝ)) • (B - A)
  (List.range n).map fun (i : ℕ) =>
    let pos := A + (i : ℝ) • dV
    newSingle mem b pos (pos + dV) diameter ca cd cf perp

/-- `AddElement` in its forms: the new elements go to the end of the list (FrMorisonModel.cpp:266-304; FrMorisonModel.h:300-302). -/
def Element.add (e : Element) (new : List Element) : Element :=
  match e with
  | .single s => .single s
  | .composite f t c x ps => .composite f t c x (ps ++ new)

end Frydom.Hydro.Morison
