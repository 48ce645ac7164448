import Verif.Core.Body
import Verif.Geom.Props2

/-!
# Nodes of a body (C54, C55)

`src/frydom/core/common/FrNode.cpp`, `src/frydom/core/body/FrBody.cpp`.
-/

open Classical

noncomputable section

namespace Frydom.Core
open Frydom.Geom

/-- The Chrono marker under a `FrNode` (FrNode.h:36-60): its frame relative to the COG frame of the body, and the cached absolute frame with its velocity. External (Chrono):
a marker without imposed motion does not move relative to the body. -/
structure Node where
  rel : Frame
  abs : Frame
  absVel : V3
  absWvel : V3

namespace Node

/-- `ChMarker::UpdateState` (external): the absolute frame from the body. -/
def refresh (n : Node) (b : Body) : Node := ⟨n.rel, b.cog.mul n.rel, b.pointSpeed n.rel.pos, b.wvelPar⟩
/-- `ChMarker::Impose_Rel_Coord` (external). -/
def imposeRel (n : Node) (b : Body) (f : Frame) : Node := ({ n with rel := f } : Node).refresh b
/-- `ChMarker::Impose_Abs_Coord` (external): `TransformParentToLocal` then `Impose_Rel_Coord`. -/
def imposeAbs (n : Node) (b : Body) (f : Frame) : Node := n.imposeRel b ⟨b.cog.rot.conj.rotate (f.pos - b.cog.pos), b.cog.rot.conj.mul f.rot⟩

/-- `FrNode(name, body)` (FrNode.cpp:38-49): at the COG. -/
def new (b : Body) : Node := (⟨Frame.identity, Frame.identity, 0, 0⟩ : Node).refresh b

/-- `GetFrameInWorld` (FrNode.cpp:87-89). -/
def frameInWorld (n : Node) : Frame := n.abs
/-- `GetFrameWRT_COG_InBody` (FrNode.cpp:99-104). -/
def frameWRTCOG (n : Node) : Frame := Frame.new n.rel.pos n.rel.rot .NWU
/-- `GetFrameInBody` (FrNode.cpp:91-97). -/
def frameInBody (n : Node) (b : Body) : Frame := n.frameWRTCOG.translateInParent (b.getCOG .NWU) .NWU
/-- `SetFrameInBody` (FrNode.cpp:106-113). -/
def setFrameInBody (n : Node) (b : Body) (f : Frame) : Node := n.imposeRel b ⟨f.getPosition .NWU - b.getCOG .NWU, f.rot⟩
/-- `SetFrameInWorld` (FrNode.cpp:115-118). -/
def setFrameInWorld (n : Node) (b : Body) (f : Frame) : Node := n.imposeAbs b f
/-- `SetPositionInBody` (FrNode.cpp:120-124). -/
def setPositionInBody (n : Node) (b : Body) (p : V3) (fc : FC) : Node := n.setFrameInBody b ((n.frameInBody b).setPosition p fc)
/-- `SetPositionInWorld` (FrNode.cpp:126-130). -/
def setPositionInWorld (n : Node) (b : Body) (p : V3) (fc : FC) : Node := n.setFrameInWorld b (n.frameInWorld.setPosition p fc)
/-- `TranslateInBody` (FrNode.cpp:132-136): the translation is along the axes of the node. -/
def translateInBody (n : Node) (b : Body) (t : V3) (fc : FC) : Node := n.setFrameInBody b ((n.frameInBody b).translateInFrame t fc)
/-- `TranslateInWorld` (FrNode.cpp:148-152). -/
def translateInWorld (n : Node) (b : Body) (t : V3) (fc : FC) : Node := n.setFrameInWorld b (n.frameInWorld.translateInParent t fc)
/-- `SetOrientationInBody` (FrNode.cpp:168-172). -/
def setOrientationInBody (n : Node) (b : Body) (q : Q) : Node := n.setFrameInBody b ((n.frameInBody b).setRotation q)
/-- `RotateInBody` (FrNode.cpp:178-182). -/
def rotateInBody (n : Node) (b : Body) (q : Q) : Node := n.setFrameInBody b ((n.frameInBody b).rotateInFrame q)
/-- `RotateInWorld` (FrNode.cpp:188-192). -/
def rotateInWorld (n : Node) (b : Body) (q : Q) : Node := n.setFrameInWorld b (n.frameInWorld.rotateInFrame q)
/-- `GetNodePositionInBody` (FrNode.cpp:224-226). -/
def positionInBody (n : Node) (b : Body) (fc : FC) : V3 := (n.frameInBody b).getPosition fc
/-- `GetPositionInWorld` (FrNode.cpp:233-235). -/
def positionInWorld (n : Node) (fc : FC) : V3 := n.frameInWorld.getPosition fc
/-- `GetVelocityInWorld` (FrNode.cpp:237-241). -/
def velocityInWorld (n : Node) (fc : FC) : V3 := conv fc n.absVel
/-- `ProjectVectorInNode` (FrNode.h:249-252). -/
def projInNode (n : Node) (v : V3) (fc : FC) : V3 := rotate (quatInv n.frameInWorld.rot) fc v
/-- `ProjectVectorInWorld` (FrNode.h:228-231). -/
def projInWorld (n : Node) (v : V3) (fc : FC) : V3 := rotate n.frameInWorld.rot fc v
/-- `GetVelocityInNode` (FrNode.cpp:243-245). -/
def velocityInNode (n : Node) (fc : FC) : V3 := n.projInNode (n.velocityInWorld fc) fc
/-- `GetAngularVelocityInWorld` (FrNode.cpp:247-252). -/
def angVelInWorld (n : Node) (fc : FC) : V3 := conv fc n.absWvel

end Node

/-- What happens to a node when a call is made on its body. The calls end with `UpdateAfterMove`, which updates the markers (FrBody.cpp:58-71); `SetCOG`
(FrBody.cpp:603-611) calls Chrono's `SetFrame_COG_to_REF`, which moves the markers by the opposite of the COG move and updates them
(cmake/patches/chrono_V4.0.0.patch:71-81). -/
def Op.onNode (o : Op) (b b' : Body) (n : Node) : Node :=
  match o with
  | .setCOG _ _ => ({ n with rel := ⟨n.rel.pos - (b'.cogInRef - b.cogInRef), n.rel.rot⟩ } : Node).refresh b'
  | _ => n.refresh b'

/-- A call on the node. -/
inductive NodeOp where
  | setFrameInBody (f : Frame)
  | setFrameInWorld (f : Frame)
  | setPositionInBody (p : V3) (fc : FC)
  | setPositionInWorld (p : V3) (fc : FC)
  | translateInBody (t : V3) (fc : FC)
  | translateInWorld (t : V3) (fc : FC)
  | setOrientationInBody (q : Q)
  | rotateInBody (q : Q)
  | rotateInWorld (q : Q)

/-- The effect of a call on the node. -/
def NodeOp.run (o : NodeOp) (b : Body) (n : Node) : Node :=
  match o with
  | .setFrameInBody f => n.setFrameInBody b f
  | .setFrameInWorld f => n.setFrameInWorld b f
  | .setPositionInBody p fc => n.setPositionInBody b p fc
  | .setPositionInWorld p fc => n.setPositionInWorld b p fc
  | .translateInBody t fc => n.translateInBody b t fc
  | .translateInWorld t fc => n.translateInWorld b t fc
  | .setOrientationInBody q => n.setOrientationInBody b q
  | .rotateInBody q => n.rotateInBody b q
  | .rotateInWorld q => n.rotateInWorld b q

/-- The rotations given are rotations. -/
def NodeOp.Valid : NodeOp → Prop
  | .setFrameInBody f => f.rot.IsUnit
  | .setFrameInWorld f => f.rot.IsUnit
  | .setOrientationInBody q => q.IsUnit
  | .rotateInBody q => q.IsUnit
  | .rotateInWorld q => q.IsUnit
  | _ => True

/-- A call on the body or on the node. -/
inductive Call where
  | body (o : Op)
  | node (o : NodeOp)

/-- The effect of a call on the pair. -/
def Call.run (c : Call) (s : Body × Node) : Body × Node :=
  match c with
  | .body o => (o.run s.1, o.onNode s.1 (o.run s.1) s.2)
  | .node o => (s.1, o.run s.1 s.2)

/-- The rotations given are rotations. -/
def Call.Valid : Call → Prop
  | .body o => o.Valid
  | .node o => o.Valid

/-! ## Specification -/

/-- The node is attached: its world frame is its frame in the body carried by the body frame. -/
structure Attached (b : Body) (n : Node) : Prop where
  unit : n.rel.rot.IsUnit
  abs : n.abs = b.cog.mul n.rel
  vel : n.absVel = b.pointSpeed n.rel.pos
  wvel : n.absWvel = b.wvelPar

/-! ## C54 -/

theorem refresh_attached (n : Node) (b : Body) (h : n.rel.rot.IsUnit) : Attached b (n.refresh b) := ⟨h, rfl, rfl, rfl⟩

theorem frameInBody_eq (n : Node) (b : Body) : n.frameInBody b = ⟨n.rel.pos + b.cogInRef, n.rel.rot⟩ := rfl

theorem setFrameInBody_eq (n : Node) (b : Body) (f : Frame) : n.setFrameInBody b f = ({ n with rel := ⟨f.pos - b.cogInRef, f.rot⟩ } : Node).refresh b := rfl

theorem setFrameInWorld_abs (n : Node) (b : Body) (h : Placed b) (f : Frame) : (n.setFrameInWorld b f).abs = f := by
  show b.cog.mul ⟨b.cog.rot.conj.rotate (f.pos - b.cog.pos), b.cog.rot.conj.mul f.rot⟩ = f
  refine Frame.ext ?_ ?_
  · show b.cog.pos + b.cog.rot.rotate (b.cog.rot.conj.rotate (f.pos - b.cog.pos)) = f.pos
    rw [Q.rotate_conj' h.unit]
    ext <;> simp
  · show b.cog.rot.mul (b.cog.rot.conj.mul f.rot) = f.rot
    rw [← Q.mul_assoc, Q.mul_conj h.unit, Q.one_mul]

theorem setFrameInBody_get (n : Node) (b : Body) (f : Frame) : (n.setFrameInBody b f).frameInBody b = f := by
  rw [setFrameInBody_eq, frameInBody_eq]
  exact Frame.ext (v3_sub_add _ _) rfl

/-- **C54, attachment.** For an attached node: its world frame is the frame of the body times its frame in the body, its world position is the position
of that point of the body, and its velocity is the velocity of that point of the body (in both conventions). -/
theorem C54_attached (b : Body) (h : Placed b) (n : Node) (ha : Attached b n) (fc : FC) :
    n.frameInWorld = b.getFrame.mul (n.frameInBody b) ∧
    n.positionInWorld fc = b.pointInWorld (n.positionInBody b fc) fc ∧
    n.positionInBody b fc = b.pointInBody (n.positionInWorld fc) fc ∧
    n.angVelInWorld fc = b.angVelWorld fc ∧
    (∀ w, Spinning b w → n.velocityInWorld fc = b.velWorldAtPointInBody (n.positionInBody b fc) fc) ∧
    (∀ v, n.projInWorld (n.projInNode v fc) fc = v ∧ n.projInNode (n.projInWorld v fc) fc = v) := by
  have e1 : n.frameInWorld = b.getFrame.mul (n.frameInBody b) := by
    show n.abs = _
    rw [ha.abs, frameInBody_eq]
    refine Frame.ext ?_ rfl
    show b.cog.pos + b.cog.rot.rotate n.rel.pos = b.refPos + b.cog.rot.rotate (n.rel.pos + b.cogInRef)
    rw [h.cog, Q.rotate_add]
    ext <;> simp <;> ring
  have e2 : n.positionInWorld fc = b.pointInWorld (n.positionInBody b fc) fc := by
    show conv fc n.frameInWorld.pos = b.pointInWorld (conv fc (n.frameInBody b).pos) fc
    rw [pointInWorld_conv, e1]
    rfl
  have hu : n.frameInWorld.rot.IsUnit := by
    show n.abs.rot.IsUnit
    rw [ha.abs]; exact Q.IsUnit.mul h.unit ha.unit
  refine ⟨e1, e2, ?_, ?_, ?_, fun v => ?_⟩
  · rw [e2, pointInBody_pointInWorld h]
  · show conv fc n.absWvel = conv fc b.wvelPar
    rw [ha.wvel]
  · intro w hs
    have e3 : n.absVel = b.posDt + V3.cross w (b.cog.rot.rotate n.rel.pos) := by
      rw [ha.vel]; exact pointSpeed_of h.unit hs.rot _
    have hw := hs.wvel h
    show conv fc n.absVel = b.velWorldAtPointInBody (conv fc (n.rel.pos + b.cogInRef)) fc
    unfold Body.velWorldAtPointInBody Body.velBodyAtPointInBody Body.velBody Body.angVelBody Body.linVelWorld Body.angVelWorld
    rw [toBody_conv, toBody_conv, ← conv_cross, ← conv_add, toWorld_conv]
    rw [Q.rotate_add, rotate_cross h.unit, Q.rotate_conj' h.unit, Q.rotate_conj' h.unit, hw, hs.ref, e3, Q.rotate_add]
    congr 1
    ext <;> simp <;> ring
  · have hc := C11_composition n.frameInWorld.rot n.frameInWorld.rot hu hu fc v
    exact ⟨hc.2.2.1, hc.2.1⟩

/-- **C54, axes of the node.** The velocity read in the axes of the node is that of the point of the body: projected in the world it is the velocity of that point in
the world, in both conventions. -/
theorem C54_velocity_in_node (b : Body) (h : Placed b) (n : Node) (ha : Attached b n) (w : V3) (hs : Spinning b w) (fc : FC) :
    n.projInWorld (n.velocityInNode fc) fc = b.velWorldAtPointInBody (n.positionInBody b fc) fc ∧
    n.velocityInNode .NED = swap (n.velocityInNode .NWU) := by
  obtain ⟨-, -, -, -, h5, h6⟩ := C54_attached b h n ha fc
  refine ⟨?_, ?_⟩
  · rw [← h5 w hs]; exact (h6 _).1
  · show rotate _ .NED (conv .NED n.absVel) = swap (rotate _ .NWU (conv .NWU n.absVel))
    simp [rotate, conv, swap_swap]

/-- **C54, setters.** What is set is what is read, in both conventions; setting a position keeps the orientation and setting an orientation keeps the
position; a translation in the world moves the node by that vector. -/
theorem C54_set_get (b : Body) (h : Placed b) (n : Node) (ha : Attached b n) (f : Frame) (p t : V3) (q : Q) (fc : FC) :
    (n.setFrameInBody b f).frameInBody b = f ∧ (n.setFrameInWorld b f).frameInWorld = f ∧
    (n.setPositionInBody b p fc).positionInBody b fc = p ∧ ((n.setPositionInBody b p fc).frameInBody b).rot = (n.frameInBody b).rot ∧
    (n.setPositionInWorld b p fc).positionInWorld fc = p ∧ (n.setPositionInWorld b p fc).frameInWorld.rot = n.frameInWorld.rot ∧
    ((n.setPositionInWorld b p fc).frameInBody b).rot = (n.frameInBody b).rot ∧
    (n.setOrientationInBody b q).positionInBody b fc = n.positionInBody b fc ∧ ((n.setOrientationInBody b q).frameInBody b).rot = q ∧
    (n.translateInWorld b t fc).positionInWorld fc = n.positionInWorld fc + t ∧ (n.translateInWorld b t fc).frameInWorld.rot = n.frameInWorld.rot := by
  refine ⟨setFrameInBody_get n b f, setFrameInWorld_abs n b h f, ?_, ?_, ?_, ?_, ?_, ?_, ?_, ?_, ?_⟩
  · show conv fc ((n.setFrameInBody b _).frameInBody b).pos = p
    rw [setFrameInBody_get]; exact conv_conv fc p
  · unfold Node.setPositionInBody
    rw [setFrameInBody_get]; rfl
  · show conv fc (n.setFrameInWorld b _).abs.pos = p
    rw [setFrameInWorld_abs n b h]; exact conv_conv fc p
  · show (n.setFrameInWorld b _).abs.rot = _
    rw [setFrameInWorld_abs n b h]; rfl
  · show b.cog.rot.conj.mul n.abs.rot = n.rel.rot
    rw [ha.abs]
    show b.cog.rot.conj.mul (b.cog.rot.mul n.rel.rot) = n.rel.rot
    rw [← Q.mul_assoc, Q.conj_mul h.unit, Q.one_mul]
  · unfold Node.setOrientationInBody Node.positionInBody
    rw [setFrameInBody_get]; rfl
  · unfold Node.setOrientationInBody
    rw [setFrameInBody_get]; rfl
  · show conv fc (n.setFrameInWorld b _).abs.pos = _
    rw [setFrameInWorld_abs n b h]
    show conv fc (n.abs.pos + conv fc t) = conv fc n.abs.pos + t
    rw [conv_add, conv_conv]
  · show (n.setFrameInWorld b _).abs.rot = _
    rw [setFrameInWorld_abs n b h]; rfl

theorem setFrameInBody_attached (n : Node) (b : Body) (f : Frame) (hf : f.rot.IsUnit) : Attached b (n.setFrameInBody b f) := refresh_attached _ _ hf

theorem setFrameInWorld_attached (n : Node) (b : Body) (h : Placed b) (f : Frame) (hf : f.rot.IsUnit) : Attached b (n.setFrameInWorld b f) :=
  refresh_attached _ _ (Q.IsUnit.mul h.unit.conj hf)

theorem nodeOp_attached (o : NodeOp) (ho : o.Valid) (b : Body) (h : Placed b) (n : Node) (ha : Attached b n) : Attached b (o.run b n) := by
  have hw : n.abs.rot.IsUnit := by rw [ha.abs]; exact Q.IsUnit.mul h.unit ha.unit
  cases o with
  | setFrameInBody f => exact setFrameInBody_attached _ _ _ ho
  | setFrameInWorld f => exact setFrameInWorld_attached _ _ h _ ho
  | setPositionInBody p fc => exact setFrameInBody_attached _ _ _ ha.unit
  | setPositionInWorld p fc => exact setFrameInWorld_attached _ _ h _ hw
  | translateInBody t fc => exact setFrameInBody_attached _ _ _ ha.unit
  | translateInWorld t fc => exact setFrameInWorld_attached _ _ h _ hw
  | setOrientationInBody q => exact setFrameInBody_attached _ _ _ ho
  | rotateInBody q => exact setFrameInBody_attached _ _ _ (Q.IsUnit.mul ha.unit ho)
  | rotateInWorld q => exact setFrameInWorld_attached _ _ h _ (Q.IsUnit.mul hw ho)

theorem onNode_attached (o : Op) (b b' : Body) (n : Node) (hn : n.rel.rot.IsUnit) : Attached b' (o.onNode b b' n) := by
  cases o <;> exact refresh_attached _ _ hn

theorem setGenVel_cogInRef (b : Body) (p v w : V3) (fc : FC) : (b.setGenVelBodyAtPointInBody p v w fc).cogInRef = b.cogInRef := rfl

theorem op_cogInRef (o : Op) (b : Body) : (∃ c fc, o = .setCOG c fc) ∨ (o.run b).cogInRef = b.cogInRef := by
  cases o with
  | setCOG c fc => exact Or.inl ⟨c, fc, rfl⟩
  | _ => exact Or.inr rfl

/-- **C54, body calls.** No call on the body changes the place of the node in the body. -/
theorem C54_body_calls (o : Op) (b : Body) (n : Node) : (o.onNode b (o.run b) n).frameInBody (o.run b) = n.frameInBody b := by
  rcases op_cogInRef o b with ⟨c, fc, rfl⟩ | h
  · rw [frameInBody_eq, frameInBody_eq]
    refine Frame.ext ?_ rfl
    show n.rel.pos - (conv fc c - b.cogInRef) + conv fc c = n.rel.pos + b.cogInRef
    ext <;> simp <;> ring
  · have e : (o.onNode b (o.run b) n).rel = n.rel := by
      cases o with
      | setCOG c fc =>
        refine Frame.ext ?_ rfl
        show n.rel.pos - ((Op.run (.setCOG c fc) b).cogInRef - b.cogInRef) = n.rel.pos
        rw [h]; ext <;> simp
      | _ => rfl
    rw [frameInBody_eq, frameInBody_eq, e, h]

/-- **C54, histories.** After any sequence of calls on a body and its node the node is attached to the body. -/
theorem C54_history (calls : List Call) (hv : ∀ c ∈ calls, c.Valid) (fc : FC) :
    let s := calls.foldl (fun s c => c.run s) (Body.new, Node.new Body.new)
    Placed s.1 ∧ Attached s.1 s.2 ∧ s.2.positionInWorld fc = s.1.pointInWorld (s.2.positionInBody s.1 fc) fc := by
  intro s
  have key : ∀ (cs : List Call) (s : Body × Node), Placed s.1 → Attached s.1 s.2 → (∀ c ∈ cs, c.Valid) →
      Placed (cs.foldl (fun s c => c.run s) s).1 ∧ Attached (cs.foldl (fun s c => c.run s) s).1 (cs.foldl (fun s c => c.run s) s).2 := by
    intro cs
    induction cs with
    | nil => exact fun s h1 h2 _ => ⟨h1, h2⟩
    | cons c t ih =>
      intro s h1 h2 hc
      have hc0 : c.Valid := hc c (by simp)
      have ht : ∀ c' ∈ t, c'.Valid := fun c' h' => hc c' (by simp [h'])
      cases c with
      | body o => exact ih _ (op_placed o hc0 s.1 h1) (onNode_attached o s.1 _ s.2 h2.unit) ht
      | node o => exact ih _ h1 (nodeOp_attached o hc0 s.1 h1 s.2 h2) ht
  have h0 : Placed Body.new := by
    refine ⟨Q.isUnit_one, ?_⟩
    ext <;> simp [Body.new, Frame.identity, Q.rotate]
  have hk := key calls (Body.new, Node.new Body.new) h0 (refresh_attached _ _ Q.isUnit_one) hv
  exact ⟨hk.1, hk.2, (C54_attached s.1 hk.1 s.2 hk.2 fc).2.1⟩

/-! ## C55: axes of the moves of a node -/

/-- **C55, translation in the body: what happens.** `TranslateInBody(t)` moves the node along its own axes, so the position in the body changes by `t` exactly when
the orientation of the node in the body leaves `t` unchanged. -/
theorem C55_translate_in_body_partial (b : Body) (n : Node) (t : V3) (fc : FC) :
    (n.translateInBody b t fc).positionInBody b fc = n.positionInBody b fc + rotate n.rel.rot fc t ∧
    ((n.translateInBody b t fc).positionInBody b fc = n.positionInBody b fc + t ↔ rotate n.rel.rot fc t = t) ∧
    ((n.frameInBody b).rot = Q.one → (n.translateInBody b t fc).positionInBody b fc = n.positionInBody b fc + t) := by
  have e : (n.translateInBody b t fc).positionInBody b fc = n.positionInBody b fc + rotate n.rel.rot fc t := by
    unfold Node.translateInBody Node.positionInBody
    rw [setFrameInBody_get]
    show conv fc ((n.frameInBody b).pos + conv fc (rotate n.rel.rot fc t)) = conv fc (n.frameInBody b).pos + _
    rw [conv_add, conv_conv]
  have e2 : (n.positionInBody b fc + rotate n.rel.rot fc t = n.positionInBody b fc + t ↔ rotate n.rel.rot fc t = t) := by
    constructor
    · intro he
      have hx : (n.positionInBody b fc + rotate n.rel.rot fc t).x = (n.positionInBody b fc + t).x := by rw [he]
      have hy : (n.positionInBody b fc + rotate n.rel.rot fc t).y = (n.positionInBody b fc + t).y := by rw [he]
      have hz : (n.positionInBody b fc + rotate n.rel.rot fc t).z = (n.positionInBody b fc + t).z := by rw [he]
      simp only [V3.add_x, V3.add_y, V3.add_z] at hx hy hz
      exact V3.ext (add_left_cancel hx) (add_left_cancel hy) (add_left_cancel hz)
    · intro he; rw [he]
  refine ⟨e, by rw [e]; exact e2, fun h1 => ?_⟩
  rw [e]
  have h1' : n.rel.rot = Q.one := h1
  rw [h1']
  unfold rotate
  rw [Q.rotate_one, conv_conv]

/-- **C55, translation in the body: the documented move fails.** A node turned by 180° about z: `TranslateInBody((1,0,0))` moves it by (−1,0,0) in the body. -/
theorem C55_translate_in_body_counterexample : ∃ n : Node, Attached Body.new n ∧
    (n.translateInBody Body.new ⟨1, 0, 0⟩ .NWU).positionInBody Body.new .NWU = n.positionInBody Body.new .NWU + ⟨-1, 0, 0⟩ := by
  have hq : (⟨0, 0, 0, 1⟩ : Q).IsUnit := by simp [Q.IsUnit, Q.normSq]
  refine ⟨(Node.new Body.new).setOrientationInBody Body.new ⟨0, 0, 0, 1⟩, setFrameInBody_attached _ _ _ hq, ?_⟩
  rw [(C55_translate_in_body_partial _ _ _ _).1]
  congr 1
  show Q.rotate ⟨0, 0, 0, 1⟩ ⟨1, 0, 0⟩ = _
  ext <;> simp [Q.rotate, Q.toMat] <;> norm_num

/-- **C55, rotation in the world: what happens.** `RotateInWorld(q)` and `RotateInBody(q)` turn the node in the same way, about its own axes; the rotation is the one asked for in
world axes when it commutes with the orientation of the node in the world, in body axes when it commutes with its orientation in the body. Positions stay. -/
theorem C55_rotate_partial (b : Body) (h : Placed b) (n : Node) (ha : Attached b n) (q : Q) (fc : FC) :
    (n.rotateInWorld b q).frameInWorld.rot = n.frameInWorld.rot.mul q ∧
    ((n.rotateInBody b q).frameInBody b).rot = (n.frameInBody b).rot.mul q ∧
    (n.rotateInWorld b q).frameInWorld = (n.rotateInBody b q).frameInWorld ∧
    (n.rotateInWorld b q).positionInWorld fc = n.positionInWorld fc ∧ (n.rotateInBody b q).positionInBody b fc = n.positionInBody b fc ∧
    ((n.rotateInWorld b q).frameInWorld.rot = q.mul n.frameInWorld.rot ↔ n.frameInWorld.rot.mul q = q.mul n.frameInWorld.rot) := by
  have e1 : (n.rotateInWorld b q).frameInWorld = ⟨n.abs.pos, n.abs.rot.mul q⟩ := setFrameInWorld_abs n b h _
  have e2 : (n.rotateInBody b q).frameInBody b = ⟨(n.frameInBody b).pos, (n.frameInBody b).rot.mul q⟩ := setFrameInBody_get n b _
  refine ⟨by rw [e1]; rfl, by rw [e2], ?_, ?_, ?_, ?_⟩
  · rw [e1]
    have hb : Attached b (n.rotateInBody b q) → (n.rotateInBody b q).frameInWorld = b.getFrame.mul ((n.rotateInBody b q).frameInBody b) := by
      intro ha'
      show (n.rotateInBody b q).abs = _
      rw [ha'.abs, frameInBody_eq]
      refine Frame.ext ?_ rfl
      show b.cog.pos + b.cog.rot.rotate (n.rotateInBody b q).rel.pos = b.refPos + b.cog.rot.rotate ((n.rotateInBody b q).rel.pos + b.cogInRef)
      rw [h.cog, Q.rotate_add]
      ext <;> simp <;> ring
    have e3 : (n.rotateInBody b q).frameInWorld = b.getFrame.mul ((n.rotateInBody b q).frameInBody b) := by
      show b.cog.mul (n.rotateInBody b q).rel = _
      rw [frameInBody_eq]
      refine Frame.ext ?_ rfl
      show b.cog.pos + b.cog.rot.rotate (n.rotateInBody b q).rel.pos = b.refPos + b.cog.rot.rotate ((n.rotateInBody b q).rel.pos + b.cogInRef)
      rw [h.cog, Q.rotate_add]
      ext <;> simp <;> ring
    rw [e3, e2]
    have e4 := (C54_attached b h n ha fc).1
    have e4' : n.abs = b.getFrame.mul (n.frameInBody b) := e4
    rw [e4']
    refine Frame.ext rfl ?_
    exact Q.mul_assoc _ _ _
  · show conv fc (n.rotateInWorld b q).frameInWorld.pos = _
    rw [e1]; rfl
  · show conv fc ((n.rotateInBody b q).frameInBody b).pos = _
    rw [e2]; rfl
  · rw [e1]; rfl

/-- **C55, rotation in the world: the documented move fails.** On a body turned by 180° about x, turning a node by 90° about the z axis of the world turns it by −90°: its x axis is then
along −y of the world. -/
theorem C55_rotate_in_world_counterexample (s : ℝ) (hs : s * s = 1 / 2) :
    let b := Body.new.setRotation ⟨0, 1, 0, 0⟩
    let n := (Node.new b).rotateInWorld b ⟨s, 0, 0, s⟩
    (⟨s, 0, 0, s⟩ : Q).IsUnit ∧ (⟨s, 0, 0, s⟩ : Q).rotate ⟨1, 0, 0⟩ = ⟨0, 1, 0⟩ ∧
    (Node.new b).frameInWorld.rot.rotate ⟨1, 0, 0⟩ = ⟨1, 0, 0⟩ ∧ n.frameInWorld.rot.rotate ⟨1, 0, 0⟩ = ⟨0, -1, 0⟩ := by
  intro b n
  have hq : (⟨0, 1, 0, 0⟩ : Q).IsUnit := by simp [Q.IsUnit, Q.normSq]
  have hb : Placed b := at_placed _ _ hq
  have e : n.frameInWorld.rot = (Node.new b).frameInWorld.rot.mul ⟨s, 0, 0, s⟩ :=
    (C55_rotate_partial b hb (Node.new b) (refresh_attached _ _ Q.isUnit_one) ⟨s, 0, 0, s⟩ .NWU).1
  have e2 : (Node.new b).frameInWorld.rot = ⟨0, 1, 0, 0⟩ := by
    show Q.mul ⟨0, 1, 0, 0⟩ Q.one = _
    exact Q.mul_one _
  refine ⟨?_, ?_, ?_, ?_⟩
  · simp only [Q.IsUnit, Q.normSq]
    linarith
  · ext <;> simp [Q.rotate, Q.toMat] <;> nlinarith
  · rw [e2]; ext <;> simp [Q.rotate, Q.toMat]; norm_num
  · rw [e, e2]; ext <;> simp [Q.rotate, Q.toMat] <;> nlinarith

/-- A node of a displaced body, placed at a point of the body: where it is in the world. -/
example (b : Body) (hb : b = Body.new.setPosition ⟨1, 2, 3⟩ .NED) : ((Node.new b).setPositionInBody b ⟨10, 0, 0⟩ .NED).positionInWorld .NED = ⟨11, 2, 3⟩ := by
  have h : Placed b := by rw [hb]; exact at_placed _ _ Q.isUnit_one
  have ha : Attached b (Node.new b) := refresh_attached _ _ Q.isUnit_one
  have ha' : Attached b ((Node.new b).setPositionInBody b ⟨10, 0, 0⟩ .NED) := nodeOp_attached (.setPositionInBody ⟨10, 0, 0⟩ .NED) trivial b h _ ha
  rw [(C54_attached b h _ ha' .NED).2.1, (C54_set_get b h _ ha Frame.identity ⟨10, 0, 0⟩ 0 Q.one .NED).2.2.1]
  have e3 : b.refPos = conv .NED ⟨1, 2, 3⟩ := by rw [hb]; exact at_refPos _ _
  have e4 : b.cog.rot = Q.one := by rw [hb]; rfl
  show conv .NED b.refPos + conv .NED (b.cog.rot.rotate (conv .NED ⟨10, 0, 0⟩)) = _
  rw [e3, conv_conv, e4, Q.rotate_one, conv_conv]
  ext <;> simp <;> norm_num

end Frydom.Core
