import Verif.Geom.Props2

/-!
# Position and velocity of a body (C50, C51)

`src/frydom/core/body/FrBody.cpp:640-1025` and `FrBodyBase::UpdateAfterMove`.
-/

noncomputable section

namespace Frydom.Core
open Frydom.Geom

/-- The vector part of a quaternion. -/
def qvec (q : Q) : V3 := ⟨q.e1, q.e2, q.e3⟩
/-- The pure quaternion of a vector. -/
def qpure (v : V3) : Q := ⟨0, v.x, v.y, v.z⟩
/-- Half a quaternion. -/
def qhalf (q : Q) : Q := ⟨q.e0 / 2, q.e1 / 2, q.e2 / 2, q.e3 / 2⟩

/-- The part of Chrono's `ChBodyAuxRef` a `FrBody` uses. The COG frame moves relative to the world (`coord`, `coord_dt`); the reference frame REF has a fixed position
relative to the COG and its position and velocity in the world are cached (`auxref_to_abs`). External semantics (Chrono): the speed of rotation is stored
as the derivative of the quaternion. -/
structure Body where
  /-- `GetPos`, `GetRot`: COG position and orientation in the world (NWU) -/
  cog : Frame
  /-- `GetPos_dt` -/
  posDt : V3
  /-- `GetRot_dt` -/
  rotDt : Q
  /-- position of the COG in the REF frame: `GetFrame_COG_to_REF` (FRyDoM only sets frames without rotation, FrBody.cpp:604-613) -/
  cogInRef : V3
  /-- `GetFrame_REF_to_abs().GetPos()`: cached -/
  refPos : V3
  /-- `GetFrame_REF_to_abs().GetPos_dt()`: cached -/
  refVel : V3

namespace Body

/-! ## Chrono primitives (external) -/

/-- `ChFrameMoving::GetWvel_par`: vector part of `2 q' q*`. -/
def wvelPar (b : Body) : V3 := (2:ℝ) • qvec (b.rotDt.mul b.cog.rot.conj)
/-- `ChFrameMoving::SetWvel_par`: `q' = w q / 2`. -/
def setWvelPar (b : Body) (w : V3) : Body := { b with rotDt := qhalf ((qpure w).mul b.cog.rot) }
/-- `ChFrameMoving::PointSpeedLocalToParent`: `pos' + 2 vec(q' p q*)`. -/
def pointSpeed (b : Body) (p : V3) : V3 := b.posDt + (2:ℝ) • qvec ((b.rotDt.mul (qpure p)).mul b.cog.rot.conj)
/-- `ChBodyAuxRef::SetFrame_REF_to_abs`: moves the COG frame so that REF is at the given place. -/
def setFrameRefToAbs (b : Body) (f : Frame) : Body := { b with cog := ⟨f.pos + f.rot.rotate b.cogInRef, f.rot⟩, refPos := f.pos }
/-- `ChBodyAuxRef::SetFrame_COG_to_REF` for a frame without rotation: REF stays, the COG moves. (The velocity given to the COG is not used by any theorem except
for a body at rest.) -/
def setFrameCogToRef (b : Body) (c : V3) : Body :=
  { b with cog := ⟨b.refPos + b.cog.rot.rotate c, b.cog.rot⟩, cogInRef := c,
           posDt := b.refVel + (2:ℝ) • qvec ((b.rotDt.mul (qpure c)).mul b.cog.rot.conj) }

/-- `FrBodyBase::UpdateAfterMove` (FrBody.cpp:58-72): REF position and velocity from the COG frame. -/
def updateAfterMove (b : Body) : Body :=
  { b with refPos := b.cog.pos - b.cog.rot.rotate b.cogInRef, refVel := b.pointSpeed (-b.cogInRef) }

/-! ## FrBody: positions -/

/-- `ProjectVectorInWorld` (FrBody.h:800-803). -/
def toWorld (b : Body) (v : V3) (fc : FC) : V3 := rotate b.cog.rot fc v
/-- `ProjectVectorInBody` (FrBody.h:821-824). -/
def toBody (b : Body) (v : V3) (fc : FC) : V3 := rotate (quatInv b.cog.rot) fc v
/-- `GetCOG` (FrBody.cpp:613-617). -/
def getCOG (b : Body) (fc : FC) : V3 := conv fc b.cogInRef
/-- `GetPosition` (FrBody.cpp:619-623). -/
def getPosition (b : Body) (fc : FC) : V3 := conv fc b.refPos
/-- `GetQuaternion` (FrBody.cpp:659-661). -/
def getQuaternion (b : Body) : Q := b.cog.rot
/-- `GetFrame` (FrBody.cpp:678-683). -/
def getFrame (b : Body) : Frame := ⟨b.getPosition .NWU, b.getQuaternion⟩
/-- `GetPointPositionInWorld` (FrBody.cpp:701-703). -/
def pointInWorld (b : Body) (p : V3) (fc : FC) : V3 := b.getPosition fc + b.toWorld p fc
/-- `GetPointPositionInBody` (FrBody.cpp:705-707). -/
def pointInBody (b : Body) (p : V3) (fc : FC) : V3 := b.toBody (p - b.getPosition fc) fc
/-- `GetCOGPositionInWorld` (FrBody.cpp:709-713). -/
def cogPositionInWorld (b : Body) (fc : FC) : V3 := conv fc b.cog.pos

/-- `SetCOG` (FrBody.cpp:603-611). -/
def setCOG (b : Body) (c : V3) (fc : FC) : Body := b.setFrameCogToRef (conv fc c)
/-- `SetPosition` (FrBody.cpp:629-642). -/
def setPosition (b : Body) (p : V3) (fc : FC) : Body :=
  (b.setFrameRefToAbs (b.getFrame.setPosition p fc)).updateAfterMove
/-- `SetRotation` (FrBody.cpp:663-676). -/
def setRotation (b : Body) (q : Q) : Body :=
  let p := b.getPosition .NWU
  let b := { b with cog := ⟨b.cog.pos, q⟩ }
  b.setPosition p .NWU
/-- `SetFrame` (FrBody.cpp:685-688). -/
def setFrame (b : Body) (f : Frame) : Body := (b.setPosition (f.getPosition .NWU) .NWU).setRotation f.rot
/-- `TranslateInWorld` (FrBody.cpp:740-745). -/
def translateInWorld (b : Body) (t : V3) (fc : FC) : Body :=
  let f := b.getFrame
  (b.setFrameRefToAbs (f.setPosition (f.getPosition fc + t) fc)).updateAfterMove
/-- `TranslateInBody` (FrBody.cpp:751-756). -/
def translateInBody (b : Body) (t : V3) (fc : FC) : Body :=
  let f := b.getFrame
  (b.setFrameRefToAbs (f.setPosition (f.getPosition fc + b.toWorld t fc) fc)).updateAfterMove
/-- `SetPositionOfBodyPoint` (FrBody.cpp:728-734). -/
def setPositionOfBodyPoint (b : Body) (p world : V3) (fc : FC) : Body := b.translateInWorld (world - b.pointInWorld p fc) fc
/-- `Rotate` (FrBody.cpp:762-768). -/
def rotateBy (b : Body) (r : Q) : Body := b.setRotation (b.getQuaternion.mul r)
/-- `RotateAroundPointInWorld` (FrBody.cpp:774-778). -/
def rotateAroundPointInWorld (b : Body) (r : Q) (world : V3) (fc : FC) : Body :=
  let p := b.pointInBody world fc
  (b.rotateBy r).setPositionOfBodyPoint p world fc
/-- `RotateAroundPointInBody` (FrBody.cpp:780-784). -/
def rotateAroundPointInBody (b : Body) (r : Q) (p : V3) (fc : FC) : Body :=
  let world := b.pointInWorld p fc
  (b.rotateBy r).setPositionOfBodyPoint p world fc
/-- `RotateAroundCOG` (FrBody.cpp:790-796). -/
def rotateAroundCOG (b : Body) (r : Q) (fc : FC) : Body := b.rotateAroundPointInBody r (b.getCOG fc) fc

/-! ## FrBody: velocities -/

/-- `GetLinearVelocityInWorld` (FrBody.cpp:804-808). -/
def linVelWorld (b : Body) (fc : FC) : V3 := conv fc b.refVel
/-- `GetVelocityInBody` (FrBody.cpp:810-812). -/
def velBody (b : Body) (fc : FC) : V3 := b.toBody (b.linVelWorld fc) fc
/-- `GetCOGLinearVelocityInWorld` (FrBody.cpp:828-832). -/
def cogVelWorld (b : Body) (fc : FC) : V3 := conv fc b.posDt
/-- `GetCOGVelocityInBody` (FrBody.cpp:834-836). -/
def cogVelBody (b : Body) (fc : FC) : V3 := b.toBody (b.cogVelWorld fc) fc
/-- `GetAngularVelocityInWorld` (FrBody.cpp:888-892). -/
def angVelWorld (b : Body) (fc : FC) : V3 := conv fc b.wvelPar
/-- `GetAngularVelocityInBody` (FrBody.cpp:894-896). -/
def angVelBody (b : Body) (fc : FC) : V3 := b.toBody (b.angVelWorld fc) fc
/-- `GetVelocityInBodyAtPointInBody` (FrBody.cpp:935-939). -/
def velBodyAtPointInBody (b : Body) (p : V3) (fc : FC) : V3 := b.velBody fc + V3.cross (b.angVelBody fc) p
/-- `GetVelocityInBodyAtPointInWorld` (FrBody.cpp:930-933). -/
def velBodyAtPointInWorld (b : Body) (p : V3) (fc : FC) : V3 := b.velBodyAtPointInBody (b.pointInBody p fc) fc
/-- `GetVelocityInWorldAtPointInBody` (FrBody.cpp:926-928). -/
def velWorldAtPointInBody (b : Body) (p : V3) (fc : FC) : V3 := b.toWorld (b.velBodyAtPointInBody p fc) fc
/-- `GetVelocityInWorldAtPointInWorld` (FrBody.cpp:921-924). -/
def velWorldAtPointInWorld (b : Body) (p : V3) (fc : FC) : V3 := b.velWorldAtPointInBody (b.pointInBody p fc) fc

/-- `SetVelocityInWorldNoRotation` (FrBody.cpp:814-822). -/
def setVelWorldNoRotation (b : Body) (v : V3) (fc : FC) : Body :=
  { b with posDt := conv fc v, rotDt := ⟨0, 0, 0, 0⟩ }.updateAfterMove
/-- `SetVelocityInBodyNoRotation` (FrBody.cpp:824-826). -/
def setVelBodyNoRotation (b : Body) (v : V3) (fc : FC) : Body := b.setVelWorldNoRotation (b.toWorld v fc) fc
/-- `SetAngularVelocityInWorld` (FrBody.cpp:871-876). -/
def setAngVelWorld (b : Body) (w : V3) (fc : FC) : Body := (b.setWvelPar (conv fc w)).updateAfterMove
/-- `SetCOGAngularVelocityInWorld` (FrBody.cpp:878-882): no update of the REF frame. -/
def setCOGAngVelWorld (b : Body) (w : V3) (fc : FC) : Body := b.setWvelPar (conv fc w)
/-- `SetAngularVelocityInBody` (FrBody.cpp:884-886). -/
def setAngVelBody (b : Body) (w : V3) (fc : FC) : Body := b.setAngVelWorld (b.toWorld w fc) fc
/-- `SetGeneralizedVelocityInBodyAtPointInBody` (FrBody.cpp:986-993). -/
def setGenVelBodyAtPointInBody (b : Body) (p v w : V3) (fc : FC) : Body :=
  let pg := b.getCOG fc - p
  let cogVel := v + V3.cross w pg
  (b.setVelBodyNoRotation cogVel fc).setAngVelBody w fc
/-- `SetGeneralizedVelocityInBodyAtPointInWorld` (FrBody.cpp:980-984). -/
def setGenVelBodyAtPointInWorld (b : Body) (p v w : V3) (fc : FC) : Body := b.setGenVelBodyAtPointInBody (b.pointInBody p fc) v w fc
/-- `SetGeneralizedVelocityInWorldAtPointInBody` (FrBody.cpp:973-978). -/
def setGenVelWorldAtPointInBody (b : Body) (p v w : V3) (fc : FC) : Body :=
  b.setGenVelBodyAtPointInBody p (b.toBody v fc) (b.toBody w fc) fc
/-- `SetGeneralizedVelocityInWorldAtPointInWorld` (FrBody.cpp:967-971). -/
def setGenVelWorldAtPointInWorld (b : Body) (p v w : V3) (fc : FC) : Body := b.setGenVelWorldAtPointInBody (b.pointInBody p fc) v w fc
/-- `SetGeneralizedVelocityInWorld` (FrBody.cpp:794-797). -/
def setGenVelWorld (b : Body) (v w : V3) (fc : FC) : Body := b.setGenVelWorldAtPointInBody 0 v w fc
/-- `SetGeneralizedVelocityInBody` (FrBody.cpp:799-802). -/
def setGenVelBody (b : Body) (v w : V3) (fc : FC) : Body := b.setGenVelBodyAtPointInBody 0 v w fc

end Body

/-! ## Specification -/

/-- The position of a body is coherent: unit orientation, and the COG is in the world where the REF frame says it is. -/
structure Placed (b : Body) : Prop where
  unit : b.cog.rot.IsUnit
  cog : b.cog.pos = b.refPos + b.cog.rot.rotate b.cogInRef

/-- The body spins at `w` (world axes, NWU) and the cached REF velocity is up to date: the velocity field is the one of a rigid body. -/
structure Spinning (b : Body) (w : V3) : Prop where
  rot : b.rotDt = qhalf ((qpure w).mul b.cog.rot)
  ref : b.refVel = b.posDt - V3.cross w (b.cog.rot.rotate b.cogInRef)

/-! ## Lemmas -/

theorem conv_neg (fc : FC) (v : V3) : conv fc (-v) = -conv fc v := by cases fc <;> ext <;> simp [conv, swap]
theorem conv_zero (fc : FC) : conv fc 0 = 0 := by cases fc <;> ext <;> simp [conv, swap]
theorem rotFC (q : Q) (fc : FC) (v : V3) : rotate q fc (conv fc v) = conv fc (q.rotate v) := by unfold rotate; rw [conv_conv]
theorem exists_conv (fc : FC) (v : V3) : ∃ v', v = conv fc v' := ⟨conv fc v, (conv_conv fc v).symm⟩
theorem rotate_zero (q : Q) : q.rotate 0 = 0 := by ext <;> simp [Q.rotate]
theorem rotate_cross {q : Q} (h : q.IsUnit) (a b : V3) : q.rotate (V3.cross a b) = V3.cross (q.rotate a) (q.rotate b) :=
  ((Q.isRot h).cross a b).symm

theorem v3_sub_add (a b : V3) : a - b + b = a := by ext <;> simp
theorem v3_add_sub (a b : V3) : a + b - b = a := by ext <;> simp

theorem qvec_spin {q : Q} (h : q.IsUnit) (w : V3) : (2:ℝ) • qvec ((qhalf ((qpure w).mul q)).mul q.conj) = w := by
  unfold Q.IsUnit Q.normSq at h
  ext <;> simp [qvec, qhalf, qpure]
  · linear_combination w.x * h
  · linear_combination w.y * h
  · linear_combination w.z * h

theorem qvec_point {q : Q} (h : q.IsUnit) (w p : V3) :
    (2:ℝ) • qvec (((qhalf ((qpure w).mul q)).mul (qpure p)).mul q.conj) = V3.cross w (q.rotate p) := by
  unfold Q.IsUnit Q.normSq at h
  ext <;> simp [qvec, qhalf, qpure, Q.rotate, Q.toMat]
  · linear_combination (w.z * p.y - w.y * p.z) * h
  · linear_combination (w.x * p.z - w.z * p.x) * h
  · linear_combination (w.y * p.x - w.x * p.y) * h

theorem Spinning.wvel {b : Body} {w : V3} (hb : Placed b) (h : Spinning b w) : b.wvelPar = w := by
  unfold Body.wvelPar; rw [h.rot]; exact qvec_spin hb.unit w

theorem pointSpeed_of {b : Body} {w : V3} (hu : b.cog.rot.IsUnit) (h : b.rotDt = qhalf ((qpure w).mul b.cog.rot)) (p : V3) :
    b.pointSpeed p = b.posDt + V3.cross w (b.cog.rot.rotate p) := by
  unfold Body.pointSpeed; rw [h, qvec_point hu]

theorem toWorld_conv (b : Body) (fc : FC) (v : V3) : b.toWorld (conv fc v) fc = conv fc (b.cog.rot.rotate v) := rotFC _ _ _
theorem toBody_conv (b : Body) (fc : FC) (v : V3) : b.toBody (conv fc v) fc = conv fc (b.cog.rot.conj.rotate v) := rotFC _ _ _

theorem toBody_toWorld {b : Body} (h : Placed b) (v : V3) (fc : FC) : b.toBody (b.toWorld v fc) fc = v := by
  obtain ⟨v', rfl⟩ := exists_conv fc v
  rw [toWorld_conv, toBody_conv, Q.rotate_conj h.unit]

theorem toWorld_toBody {b : Body} (h : Placed b) (v : V3) (fc : FC) : b.toWorld (b.toBody v fc) fc = v := by
  obtain ⟨v', rfl⟩ := exists_conv fc v
  rw [toBody_conv, toWorld_conv, Q.rotate_conj' h.unit]

theorem pointInWorld_conv (b : Body) (fc : FC) (p : V3) : b.pointInWorld (conv fc p) fc = conv fc (b.refPos + b.cog.rot.rotate p) := by
  unfold Body.pointInWorld Body.getPosition
  rw [toWorld_conv, conv_add]

theorem pointInWorld_pointInBody {b : Body} (h : Placed b) (p : V3) (fc : FC) : b.pointInWorld (b.pointInBody p fc) fc = p := by
  unfold Body.pointInWorld Body.pointInBody
  rw [toWorld_toBody h]; ext <;> simp

theorem pointInBody_pointInWorld {b : Body} (h : Placed b) (p : V3) (fc : FC) : b.pointInBody (b.pointInWorld p fc) fc = p := by
  unfold Body.pointInWorld Body.pointInBody
  rw [show b.getPosition fc + b.toWorld p fc - b.getPosition fc = b.toWorld p fc by ext <;> simp, toBody_toWorld h]

/-- What a placement amounts to: REF at `f`, everything else kept. -/
def Body.at (b : Body) (f : Frame) : Body := (b.setFrameRefToAbs f).updateAfterMove

theorem at_refPos (b : Body) (f : Frame) : (b.at f).refPos = f.pos := by
  unfold Body.at Body.updateAfterMove Body.setFrameRefToAbs
  simp only []
  exact v3_add_sub _ _

theorem at_placed (b : Body) (f : Frame) (hf : f.rot.IsUnit) : Placed (b.at f) := by
  constructor
  · exact hf
  · rw [at_refPos]; rfl

theorem setPosition_eq (b : Body) (p : V3) (fc : FC) : b.setPosition p fc = b.at ⟨conv fc p, b.cog.rot⟩ := rfl
theorem setRotation_eq (b : Body) (q : Q) : b.setRotation q = b.at ⟨b.refPos, q⟩ := rfl
theorem translateInWorld_eq (b : Body) (t : V3) (fc : FC) : b.translateInWorld t fc = b.at ⟨b.refPos + conv fc t, b.cog.rot⟩ := by
  have : conv fc (conv fc b.refPos + t) = b.refPos + conv fc t := by rw [conv_add, conv_conv]
  rw [← this]; rfl
theorem translateInBody_eq (b : Body) (t : V3) (fc : FC) :
    b.translateInBody t fc = b.at ⟨b.refPos + b.cog.rot.rotate (conv fc t), b.cog.rot⟩ := by
  have : conv fc (conv fc b.refPos + b.toWorld t fc) = b.refPos + b.cog.rot.rotate (conv fc t) := by
    obtain ⟨t', rfl⟩ := exists_conv fc t
    rw [conv_add, conv_conv, toWorld_conv, conv_conv, conv_conv]
  rw [← this]; rfl

theorem at_rot (b : Body) (f : Frame) : (b.at f).cog.rot = f.rot := rfl
theorem at_cogInRef (b : Body) (f : Frame) : (b.at f).cogInRef = b.cogInRef := rfl

/-! ## C50 -/

/-- **C50, set and get.** What is set is what is read, in both conventions; setting the position keeps the orientation and setting the orientation keeps the
position; the COG stays where it is in the body. -/
theorem C50_set_get (b : Body) (p : V3) (q : Q) (f : Frame) (fc fc' : FC) :
    (b.setPosition p fc).getPosition fc = p ∧ (b.setPosition p fc).getQuaternion = b.getQuaternion ∧
    (b.setPosition p fc).getCOG fc' = b.getCOG fc' ∧
    (b.setRotation q).getQuaternion = q ∧ (b.setRotation q).getPosition fc' = b.getPosition fc' ∧ (b.setRotation q).getCOG fc' = b.getCOG fc' ∧
    (b.setFrame f).getFrame = f ∧ (b.setCOG p fc).getCOG fc = p ∧ (b.setCOG p fc).getFrame = b.getFrame := by
  refine ⟨?_, rfl, rfl, rfl, ?_, rfl, ?_, ?_, rfl⟩
  · rw [setPosition_eq]
    unfold Body.getPosition
    rw [at_refPos, conv_conv]
  · rw [setRotation_eq]
    unfold Body.getPosition
    rw [at_refPos]
  · show Frame.mk ((((b.at ⟨f.pos, b.cog.rot⟩).at ⟨(b.at ⟨f.pos, b.cog.rot⟩).refPos, f.rot⟩)).refPos) f.rot = f
    rw [at_refPos, at_refPos]
  · exact conv_conv fc p

/-- **C50, points.** World and body coordinates of a point are inverse of each other, distances are kept, and the COG in the world is the point of
the body given as its COG. -/
theorem C50_points (b : Body) (h : Placed b) (p p' : V3) (fc : FC) :
    b.pointInWorld (b.pointInBody p fc) fc = p ∧ b.pointInBody (b.pointInWorld p fc) fc = p ∧
    V3.norm (b.pointInWorld p fc - b.pointInWorld p' fc) = V3.norm (p - p') ∧
    b.cogPositionInWorld fc = b.pointInWorld (b.getCOG fc) fc := by
  refine ⟨pointInWorld_pointInBody h p fc, pointInBody_pointInWorld h p fc, ?_, ?_⟩
  · obtain ⟨v, rfl⟩ := exists_conv fc p
    obtain ⟨v', rfl⟩ := exists_conv fc p'
    rw [pointInWorld_conv, pointInWorld_conv, ← conv_sub, ← conv_sub]
    unfold V3.norm
    rw [conv_dot, conv_dot]
    rw [show b.refPos + b.cog.rot.rotate v - (b.refPos + b.cog.rot.rotate v') = b.cog.rot.rotate (v - v') by
      rw [Q.rotate_sub]; ext <;> simp]
    unfold Q.rotate
    rw [(Q.isRot h.unit).dot]
  · unfold Body.cogPositionInWorld Body.getCOG
    rw [pointInWorld_conv, h.cog]

theorem pointInWorld_at (b : Body) (x : V3) (q : Q) (p : V3) (fc : FC) :
    (b.at ⟨x, q⟩).pointInWorld p fc = conv fc (x + q.rotate (conv fc p)) := by
  obtain ⟨p', rfl⟩ := exists_conv fc p
  rw [pointInWorld_conv, at_refPos, at_rot, conv_conv]

/-- **C50, translations.** Translating a body moves each of its points by the translation, given in world axes or in body axes, and keeps the orientation; placing a
point of the body puts that point there. -/
theorem C50_translations (b : Body) (h : Placed b) (t p x : V3) (fc : FC) :
    (b.translateInWorld t fc).pointInWorld p fc = b.pointInWorld p fc + t ∧
    (b.translateInBody t fc).pointInWorld p fc = b.pointInWorld p fc + b.toWorld t fc ∧
    (b.translateInBody t fc).pointInWorld p fc = b.pointInWorld (p + t) fc ∧
    (b.translateInWorld t fc).getQuaternion = b.getQuaternion ∧ (b.translateInBody t fc).getQuaternion = b.getQuaternion ∧
    (b.setPositionOfBodyPoint p x fc).pointInWorld p fc = x ∧ (b.setPositionOfBodyPoint p x fc).getQuaternion = b.getQuaternion ∧
    Placed (b.translateInWorld t fc) ∧ Placed (b.translateInBody t fc) := by
  have h1 : ∀ t, (b.translateInWorld t fc).pointInWorld p fc = b.pointInWorld p fc + t := by
    intro t
    obtain ⟨t', rfl⟩ := exists_conv fc t
    obtain ⟨p', rfl⟩ := exists_conv fc p
    rw [translateInWorld_eq, pointInWorld_at, pointInWorld_conv, conv_conv, conv_conv, ← conv_add]
    congr 1; ext <;> simp <;> ring
  have h2 : (b.translateInBody t fc).pointInWorld p fc = b.pointInWorld p fc + b.toWorld t fc := by
    obtain ⟨t', rfl⟩ := exists_conv fc t
    obtain ⟨p', rfl⟩ := exists_conv fc p
    rw [translateInBody_eq, pointInWorld_at, pointInWorld_conv, toWorld_conv, conv_conv, conv_conv, ← conv_add]
    congr 1; ext <;> simp <;> ring
  refine ⟨h1 t, h2, ?_, rfl, rfl, ?_, rfl, ?_, ?_⟩
  · rw [h2]
    obtain ⟨t', rfl⟩ := exists_conv fc t
    obtain ⟨p', rfl⟩ := exists_conv fc p
    rw [← conv_add, pointInWorld_conv, pointInWorld_conv, toWorld_conv, ← conv_add, Q.rotate_add]
    congr 1; ext <;> simp <;> ring
  · unfold Body.setPositionOfBodyPoint
    rw [h1]; ext <;> simp
  · rw [translateInWorld_eq]; exact at_placed _ _ h.unit
  · rw [translateInBody_eq]; exact at_placed _ _ h.unit

theorem rotateAroundPointInBody_spec (b : Body) (h : Placed b) (r : Q) (hr : r.IsUnit) (c p : V3) (fc : FC) :
    (b.rotateAroundPointInBody r c fc).pointInWorld c fc = b.pointInWorld c fc ∧
    (b.rotateAroundPointInBody r c fc).getQuaternion = b.getQuaternion.mul r ∧
    (b.rotateAroundPointInBody r c fc).pointInWorld p fc - b.pointInWorld c fc = b.toWorld (rotate r fc (p - c)) fc ∧
    Placed (b.rotateAroundPointInBody r c fc) := by
  have hp : Placed (b.rotateBy r) := by
    unfold Body.rotateBy
    rw [setRotation_eq]; exact at_placed _ _ (h.unit.mul hr)
  have h1 := (C50_translations (b.rotateBy r) hp 0 c (b.pointInWorld c fc) fc).2.2.2.2.2.1
  have hP : Placed (b.rotateAroundPointInBody r c fc) := (C50_translations (b.rotateBy r) hp (b.pointInWorld c fc - (b.rotateBy r).pointInWorld c fc) 0 0 fc).2.2.2.2.2.2.2.1
  refine ⟨h1, rfl, ?_, hP⟩
  have h1' : b.pointInWorld c fc = (b.rotateAroundPointInBody r c fc).pointInWorld c fc := h1.symm
  rw [h1']
  obtain ⟨p', rfl⟩ := exists_conv fc p
  obtain ⟨c', rfl⟩ := exists_conv fc c
  rw [pointInWorld_conv, pointInWorld_conv, ← conv_sub, ← conv_sub, rotFC, toWorld_conv]
  congr 1
  have e : (b.rotateAroundPointInBody r (conv fc c') fc).cog.rot = b.cog.rot.mul r := rfl
  rw [e, Q.rotate_mul h.unit hr, Q.rotate_mul h.unit hr]
  rw [show ∀ x y z : V3, x + y - (x + z) = y - z from fun x y z => by ext <;> simp]
  rw [← Q.rotate_sub, ← Q.rotate_sub]

/-- **C50, rotations.** Rotating a body by `r` (given in body axes) about one of its points, about a point of the world or about its COG leaves that point where it
is, makes the orientation the old one times `r`, and turns the position of every other point of the body about the fixed point by that rotation. -/
theorem C50_rotations (b : Body) (h : Placed b) (r : Q) (hr : r.IsUnit) (c p x : V3) (fc : FC) :
    ((b.rotateAroundPointInBody r c fc).pointInWorld c fc = b.pointInWorld c fc ∧
      (b.rotateAroundPointInBody r c fc).getQuaternion = b.getQuaternion.mul r ∧
      (b.rotateAroundPointInBody r c fc).pointInWorld p fc - b.pointInWorld c fc = b.toWorld (rotate r fc (p - c)) fc) ∧
    ((b.rotateAroundPointInWorld r x fc).pointInWorld (b.pointInBody x fc) fc = x ∧
      (b.rotateAroundPointInWorld r x fc).getQuaternion = b.getQuaternion.mul r) ∧
    ((b.rotateAroundCOG r fc).cogPositionInWorld fc = b.cogPositionInWorld fc ∧
      (b.rotateAroundCOG r fc).getQuaternion = b.getQuaternion.mul r) ∧
    ((b.rotateBy r).getPosition fc = b.getPosition fc ∧ (b.rotateBy r).getQuaternion = b.getQuaternion.mul r) := by
  have key := rotateAroundPointInBody_spec b h r hr c p fc
  refine ⟨⟨key.1, key.2.1, key.2.2.1⟩, ⟨?_, rfl⟩, ⟨?_, rfl⟩, ?_, rfl⟩
  · have := (rotateAroundPointInBody_spec b h r hr (b.pointInBody x fc) p fc).1
    rw [pointInWorld_pointInBody h] at this
    have e : b.rotateAroundPointInWorld r x fc = b.rotateAroundPointInBody r (b.pointInBody x fc) fc := by
      unfold Body.rotateAroundPointInWorld Body.rotateAroundPointInBody
      rw [pointInWorld_pointInBody h]
    rw [e]; exact this
  · have k2 := rotateAroundPointInBody_spec b h r hr (b.getCOG fc) p fc
    have e1 := (C50_points _ k2.2.2.2 0 0 fc).2.2.2
    have e2 := (C50_points b h 0 0 fc).2.2.2
    unfold Body.rotateAroundCOG
    rw [e1, e2]
    exact k2.1
  · exact (C50_set_get b 0 _ Frame.identity .NWU fc).2.2.2.2.1

/-- One call of the position or velocity interface. -/
inductive Op where
  | setPosition (p : V3) (fc : FC)
  | setRotation (q : Q)
  | setFrame (f : Frame)
  | setCOG (c : V3) (fc : FC)
  | translateInWorld (t : V3) (fc : FC)
  | translateInBody (t : V3) (fc : FC)
  | setPositionOfBodyPoint (p x : V3) (fc : FC)
  | rotate (r : Q)
  | rotateAroundPointInWorld (r : Q) (x : V3) (fc : FC)
  | rotateAroundPointInBody (r : Q) (p : V3) (fc : FC)
  | rotateAroundCOG (r : Q) (fc : FC)
  | setVelWorldNoRotation (v : V3) (fc : FC)
  | setVelBodyNoRotation (v : V3) (fc : FC)
  | setAngVelWorld (w : V3) (fc : FC)
  | setAngVelBody (w : V3) (fc : FC)
  | setGenVelBodyAtPointInBody (p v w : V3) (fc : FC)
  | setGenVelBodyAtPointInWorld (p v w : V3) (fc : FC)
  | setGenVelWorldAtPointInBody (p v w : V3) (fc : FC)
  | setGenVelWorldAtPointInWorld (p v w : V3) (fc : FC)

/-- The effect of a call. -/
def Op.run : Op → Body → Body
  | .setPosition p fc, b => b.setPosition p fc
  | .setRotation q, b => b.setRotation q
  | .setFrame f, b => b.setFrame f
  | .setCOG c fc, b => b.setCOG c fc
  | .translateInWorld t fc, b => b.translateInWorld t fc
  | .translateInBody t fc, b => b.translateInBody t fc
  | .setPositionOfBodyPoint p x fc, b => b.setPositionOfBodyPoint p x fc
  | .rotate r, b => b.rotateBy r
  | .rotateAroundPointInWorld r x fc, b => b.rotateAroundPointInWorld r x fc
  | .rotateAroundPointInBody r p fc, b => b.rotateAroundPointInBody r p fc
  | .rotateAroundCOG r fc, b => b.rotateAroundCOG r fc
  | .setVelWorldNoRotation v fc, b => b.setVelWorldNoRotation v fc
  | .setVelBodyNoRotation v fc, b => b.setVelBodyNoRotation v fc
  | .setAngVelWorld w fc, b => b.setAngVelWorld w fc
  | .setAngVelBody w fc, b => b.setAngVelBody w fc
  | .setGenVelBodyAtPointInBody p v w fc, b => b.setGenVelBodyAtPointInBody p v w fc
  | .setGenVelBodyAtPointInWorld p v w fc, b => b.setGenVelBodyAtPointInWorld p v w fc
  | .setGenVelWorldAtPointInBody p v w fc, b => b.setGenVelWorldAtPointInBody p v w fc
  | .setGenVelWorldAtPointInWorld p v w fc, b => b.setGenVelWorldAtPointInWorld p v w fc

/-- The rotations given are rotations. -/
def Op.Valid : Op → Prop
  | .setRotation q => q.IsUnit
  | .setFrame f => f.rot.IsUnit
  | .rotate r => r.IsUnit
  | .rotateAroundPointInWorld r _ _ => r.IsUnit
  | .rotateAroundPointInBody r _ _ => r.IsUnit
  | .rotateAroundCOG r _ => r.IsUnit
  | _ => True

/-- A body just created: at the origin, at rest (FrBody.cpp constructor). -/
def Body.new : Body := ⟨Frame.identity, 0, ⟨0, 0, 0, 0⟩, 0, 0, 0⟩

theorem update_placed {b : Body} (hu : b.cog.rot.IsUnit) : Placed b.updateAfterMove := ⟨hu, (v3_sub_add _ _).symm⟩

theorem op_placed (o : Op) (ho : o.Valid) (b : Body) (h : Placed b) : Placed (o.run b) := by
  cases o with
  | setPosition p fc => exact at_placed _ _ h.unit
  | setRotation q => exact at_placed _ _ ho
  | setFrame f => exact at_placed _ _ ho
  | setCOG c fc => exact ⟨h.unit, rfl⟩
  | translateInWorld t fc => exact (C50_translations b h t 0 0 fc).2.2.2.2.2.2.2.1
  | translateInBody t fc => exact (C50_translations b h t 0 0 fc).2.2.2.2.2.2.2.2
  | setPositionOfBodyPoint p x fc => exact (C50_translations b h _ 0 0 fc).2.2.2.2.2.2.2.1
  | rotate r => exact at_placed _ _ (h.unit.mul ho)
  | rotateAroundPointInWorld r x fc =>
    have e : b.rotateAroundPointInWorld r x fc = b.rotateAroundPointInBody r (b.pointInBody x fc) fc := by
      unfold Body.rotateAroundPointInWorld Body.rotateAroundPointInBody
      rw [pointInWorld_pointInBody h]
    show Placed (b.rotateAroundPointInWorld r x fc)
    rw [e]; exact (rotateAroundPointInBody_spec b h r ho _ 0 fc).2.2.2
  | rotateAroundPointInBody r p fc => exact (rotateAroundPointInBody_spec b h r ho p 0 fc).2.2.2
  | rotateAroundCOG r fc => exact (rotateAroundPointInBody_spec b h r ho _ 0 fc).2.2.2
  | setVelWorldNoRotation v fc => exact update_placed h.unit
  | setVelBodyNoRotation v fc => exact update_placed h.unit
  | setAngVelWorld w fc => exact update_placed h.unit
  | setAngVelBody w fc => exact update_placed h.unit
  | setGenVelBodyAtPointInBody p v w fc => exact update_placed h.unit
  | setGenVelBodyAtPointInWorld p v w fc => exact update_placed h.unit
  | setGenVelWorldAtPointInBody p v w fc => exact update_placed h.unit
  | setGenVelWorldAtPointInWorld p v w fc => exact update_placed h.unit

/-- **C50, histories.** After any sequence of calls on a new body, the position is coherent: the orientation is a rotation and the COG in the world is the COG point of the
body. -/
theorem C50_history (ops : List Op) (h : ∀ o ∈ ops, o.Valid) (fc : FC) :
    let b := ops.foldl (fun b o => o.run b) Body.new
    b.getQuaternion.IsUnit ∧ b.cogPositionInWorld fc = b.pointInWorld (b.getCOG fc) fc ∧ Placed b := by
  intro b
  have hp : Placed b := by
    have key : ∀ (ops : List Op) (b : Body), Placed b → (∀ o ∈ ops, o.Valid) → Placed (ops.foldl (fun b o => o.run b) b) := by
      intro ops
      induction ops with
      | nil => exact fun b hb _ => hb
      | cons o t ih =>
        intro b hb ho
        exact ih _ (op_placed o (ho o (by simp)) b hb) (fun o' h' => ho o' (by simp [h']))
    refine key ops Body.new ⟨Q.isUnit_one, ?_⟩ h
    ext <;> simp [Body.new, Frame.identity, Q.rotate]
  exact ⟨hp.unit, (C50_points b hp 0 0 fc).2.2.2, hp⟩

/-! ## C51 -/

theorem setGenVel_key (b : Body) (h : Placed b) (p v w : V3) (fc : FC) :
    Spinning (b.setGenVelBodyAtPointInBody p v w fc) (b.cog.rot.rotate (conv fc w)) ∧
    (b.setGenVelBodyAtPointInBody p v w fc).refVel = b.cog.rot.rotate (conv fc v - V3.cross (conv fc w) (conv fc p)) ∧
    (b.setGenVelBodyAtPointInBody p v w fc).posDt = b.cog.rot.rotate (conv fc v + V3.cross (conv fc w) (b.cogInRef - conv fc p)) := by
  obtain ⟨p, rfl⟩ := exists_conv fc p
  obtain ⟨v, rfl⟩ := exists_conv fc v
  obtain ⟨w, rfl⟩ := exists_conv fc w
  simp only [conv_conv]
  have e1 : (b.setGenVelBodyAtPointInBody (conv fc p) (conv fc v) (conv fc w) fc).rotDt = qhalf ((qpure (b.cog.rot.rotate w)).mul b.cog.rot) := by
    show qhalf ((qpure (conv fc (b.toWorld (conv fc w) fc))).mul b.cog.rot) = _
    rw [toWorld_conv, conv_conv]
  have e2 : (b.setGenVelBodyAtPointInBody (conv fc p) (conv fc v) (conv fc w) fc).posDt = b.cog.rot.rotate (v + V3.cross w (b.cogInRef - p)) := by
    show conv fc (b.toWorld (conv fc v + V3.cross (conv fc w) (conv fc b.cogInRef - conv fc p)) fc) = _
    rw [← conv_sub, ← conv_cross, ← conv_add, toWorld_conv, conv_conv]
  have e3 : (b.setGenVelBodyAtPointInBody (conv fc p) (conv fc v) (conv fc w) fc).refVel =
      (b.setGenVelBodyAtPointInBody (conv fc p) (conv fc v) (conv fc w) fc).posDt - V3.cross (b.cog.rot.rotate w) (b.cog.rot.rotate b.cogInRef) := by
    have := pointSpeed_of (b := b.setGenVelBodyAtPointInBody (conv fc p) (conv fc v) (conv fc w) fc) h.unit e1 (-b.cogInRef)
    refine Eq.trans (b := Body.pointSpeed (b.setGenVelBodyAtPointInBody (conv fc p) (conv fc v) (conv fc w) fc) (-b.cogInRef)) rfl (this.trans ?_)
    have er : (b.setGenVelBodyAtPointInBody (conv fc p) (conv fc v) (conv fc w) fc).cog.rot = b.cog.rot := rfl
    rw [er, Q.rotate_neg]
    ext <;> simp <;> ring
  refine ⟨⟨e1, e3⟩, ?_, e2⟩
  rw [e3, e2, ← rotate_cross h.unit, ← Q.rotate_sub]
  congr 1
  ext <;> simp <;> ring

/-- **C51, velocity at a point.** After setting the velocity of a body at one of its points, in body axes, the velocity field read back is the one of a rigid body with that
velocity there: at every point of the body, in body and world axes and in both conventions. -/
theorem C51_body_axes (b : Body) (h : Placed b) (p v w q : V3) (fc : FC) :
    let b' := b.setGenVelBodyAtPointInBody p v w fc
    b'.velBodyAtPointInBody p fc = v ∧ b'.angVelBody fc = w ∧
    b'.velBodyAtPointInBody q fc = v + V3.cross w (q - p) ∧
    b'.velWorldAtPointInBody q fc = b.toWorld (v + V3.cross w (q - p)) fc ∧
    b'.angVelWorld fc = b.toWorld w fc ∧
    b'.cogVelWorld fc = b'.velWorldAtPointInBody (b.getCOG fc) fc ∧ b'.linVelWorld fc = b'.velWorldAtPointInBody 0 fc ∧
    Placed b' ∧ b'.getFrame = b.getFrame := by
  intro b'
  obtain ⟨k1, k2, k3⟩ := setGenVel_key b h p v w fc
  have hP : Placed b' := update_placed h.unit
  have hrot : b'.cog.rot = b.cog.rot := rfl
  have hw : b'.wvelPar = b.cog.rot.rotate (conv fc w) := k1.wvel hP
  have a1 : b'.angVelBody fc = w := by
    unfold Body.angVelBody Body.angVelWorld
    rw [toBody_conv, hw, hrot, Q.rotate_conj h.unit, conv_conv]
  have a2 : b'.velBody fc = v - V3.cross w p := by
    unfold Body.velBody Body.linVelWorld
    rw [toBody_conv, show b'.refVel = _ from k2, hrot, Q.rotate_conj h.unit, conv_sub, conv_cross, conv_conv, conv_conv, conv_conv]
  have a3 : ∀ q, b'.velBodyAtPointInBody q fc = v + V3.cross w (q - p) := by
    intro q
    unfold Body.velBodyAtPointInBody
    rw [a1, a2]
    ext <;> simp <;> ring
  have a4 : ∀ q, b'.velWorldAtPointInBody q fc = b.toWorld (v + V3.cross w (q - p)) fc := by
    intro q
    unfold Body.velWorldAtPointInBody
    rw [a3]; rfl
  refine ⟨?_, a1, a3 q, a4 q, ?_, ?_, ?_, hP, ?_⟩
  · rw [a3]; ext <;> simp
  · unfold Body.angVelWorld Body.toWorld
    rw [hw]
    obtain ⟨w', rfl⟩ := exists_conv fc w
    rw [rotFC, conv_conv]
  · rw [a4]
    unfold Body.cogVelWorld Body.getCOG
    rw [show b'.posDt = _ from k3]
    obtain ⟨w', rfl⟩ := exists_conv fc w
    obtain ⟨v', rfl⟩ := exists_conv fc v
    obtain ⟨p', rfl⟩ := exists_conv fc p
    rw [← conv_sub, ← conv_cross, ← conv_add, toWorld_conv, conv_conv, conv_conv, conv_conv]
  · rw [a4]
    unfold Body.linVelWorld
    rw [show b'.refVel = _ from k2]
    obtain ⟨w', rfl⟩ := exists_conv fc w
    obtain ⟨v', rfl⟩ := exists_conv fc v
    obtain ⟨p', rfl⟩ := exists_conv fc p
    simp only [conv_conv]
    rw [show (0:V3) - conv fc p' = conv fc (-p') by rw [conv_neg]; ext <;> simp, ← conv_cross, ← conv_add, toWorld_conv]
    congr 2
    ext <;> simp <;> ring
  · have hr : b'.refPos = b.refPos := by
      show b.cog.pos - b.cog.rot.rotate b.cogInRef = b.refPos
      rw [h.cog]; exact v3_add_sub _ _
    show Frame.mk b'.refPos b.cog.rot = Frame.mk b.refPos b.cog.rot
    rw [hr]

/-- **C51, all variants.** The velocity set in world or body axes, at a point given in the world or in the body, is the velocity read back at that point, with the same
angular velocity. -/
theorem C51_all_axes_partial (b : Body) (h : Placed b) (p v w : V3) (fc : FC) :
    ((b.setGenVelBodyAtPointInWorld p v w fc).velBodyAtPointInWorld p fc = v ∧ (b.setGenVelBodyAtPointInWorld p v w fc).angVelBody fc = w) ∧
    ((b.setGenVelWorldAtPointInBody p v w fc).velWorldAtPointInBody p fc = v ∧ (b.setGenVelWorldAtPointInBody p v w fc).angVelWorld fc = w) ∧
    ((b.setGenVelWorldAtPointInWorld p v w fc).velWorldAtPointInWorld p fc = v ∧ (b.setGenVelWorldAtPointInWorld p v w fc).angVelWorld fc = w) ∧
    ((b.setGenVelWorld v w fc).linVelWorld fc = v ∧ (b.setGenVelWorld v w fc).angVelWorld fc = w) ∧
    ((b.setGenVelBody v w fc).velBody fc = v ∧ (b.setGenVelBody v w fc).angVelBody fc = w) := by
  have pib : ∀ b' : Body, b'.getFrame = b.getFrame → ∀ x, b'.pointInBody x fc = b.pointInBody x fc := by
    intro b' he x
    have e1 : b'.refPos = b.refPos := congrArg (fun f : Frame => f.pos) he
    have e2' : b'.getFrame.rot = b.getFrame.rot := by rw [he]
    have e2 : b'.cog.rot = b.cog.rot := e2'
    unfold Body.pointInBody Body.toBody Body.getPosition
    rw [e1, e2]
  refine ⟨?_, ?_, ?_, ?_, ?_⟩
  · have A := C51_body_axes b h (b.pointInBody p fc) v w 0 fc
    refine ⟨?_, A.2.1⟩
    unfold Body.velBodyAtPointInWorld
    rw [pib (b.setGenVelBodyAtPointInWorld p v w fc) A.2.2.2.2.2.2.2.2]
    exact A.1
  · have A := C51_body_axes b h p (b.toBody v fc) (b.toBody w fc) p fc
    refine ⟨?_, ?_⟩
    · refine A.2.2.2.1.trans ?_
      rw [show b.toBody v fc + V3.cross (b.toBody w fc) (p - p) = b.toBody v fc by ext <;> simp]
      exact toWorld_toBody h v fc
    · exact A.2.2.2.2.1.trans (toWorld_toBody h w fc)
  · have A := C51_body_axes b h (b.pointInBody p fc) (b.toBody v fc) (b.toBody w fc) (b.pointInBody p fc) fc
    refine ⟨?_, A.2.2.2.2.1.trans (toWorld_toBody h w fc)⟩
    unfold Body.velWorldAtPointInWorld
    rw [pib (b.setGenVelWorldAtPointInWorld p v w fc) A.2.2.2.2.2.2.2.2]
    refine A.2.2.2.1.trans ?_
    rw [show ∀ x y : V3, x + V3.cross (b.toBody w fc) (y - y) = x from fun x y => by ext <;> simp]
    exact toWorld_toBody h v fc
  · have A := C51_body_axes b h 0 (b.toBody v fc) (b.toBody w fc) 0 fc
    refine ⟨?_, A.2.2.2.2.1.trans (toWorld_toBody h w fc)⟩
    refine A.2.2.2.2.2.2.1.trans (A.2.2.2.1.trans ?_)
    rw [show ∀ x y : V3, x + V3.cross (b.toBody w fc) (y - y) = x from fun x y => by ext <;> simp]
    exact toWorld_toBody h v fc
  · have A := C51_body_axes b h 0 v w 0 fc
    refine ⟨?_, A.2.1⟩
    have := A.1
    unfold Body.velBodyAtPointInBody at this
    rw [show ∀ x y : V3, x + V3.cross y 0 = x from fun x y => by ext <;> simp] at this
    exact this

/-- **C51, translations.** Translating or placing a spinning body keeps its angular velocity and the velocity of each of its points. -/
theorem C51_translation_keeps_velocity (b : Body) (h : Placed b) (w : V3) (hs : Spinning b w) (t p : V3) (fc fc' : FC) :
    (b.translateInWorld t fc).angVelWorld fc' = b.angVelWorld fc' ∧
    (b.translateInWorld t fc).velWorldAtPointInBody p fc' = b.velWorldAtPointInBody p fc' ∧
    (b.setPosition t fc).angVelWorld fc' = b.angVelWorld fc' ∧
    (b.setPosition t fc).velWorldAtPointInBody p fc' = b.velWorldAtPointInBody p fc' ∧
    Spinning (b.translateInWorld t fc) w ∧ Spinning (b.setPosition t fc) w := by
  have key : ∀ x : V3, (b.at ⟨x, b.cog.rot⟩).refVel = b.refVel := by
    intro x
    have := pointSpeed_of (b := b.at ⟨x, b.cog.rot⟩) (w := w) h.unit hs.rot (-b.cogInRef)
    refine Eq.trans (b := Body.pointSpeed (b.at ⟨x, b.cog.rot⟩) (-b.cogInRef)) rfl (this.trans ?_)
    rw [at_rot, hs.ref, Q.rotate_neg]
    show b.posDt + _ = _
    ext <;> simp <;> ring
  have key2 : ∀ x : V3, (b.at ⟨x, b.cog.rot⟩).angVelWorld fc' = b.angVelWorld fc' := fun x => rfl
  have key3 : ∀ x : V3, (b.at ⟨x, b.cog.rot⟩).velWorldAtPointInBody p fc' = b.velWorldAtPointInBody p fc' := by
    intro x
    show (Body.toWorld b ((Body.toBody b (conv fc' (b.at ⟨x, b.cog.rot⟩).refVel) fc') + V3.cross (Body.angVelBody b fc') p) fc') = _
    rw [key]; rfl
  have key4 : ∀ x : V3, Spinning (b.at ⟨x, b.cog.rot⟩) w := fun x => ⟨hs.rot, by rw [key]; exact hs.ref⟩
  rw [translateInWorld_eq, setPosition_eq]
  exact ⟨key2 _, key3 _, key2 _, key3 _, key4 _, key4 _⟩

/-- **C51, the centre of gravity.** The velocity of the centre of gravity, read in world or in body axes, is that of the point of the body given as its centre of gravity. -/
theorem C51_cog (b : Body) (h : Placed b) (w : V3) (hs : Spinning b w) (fc : FC) :
    b.cogVelBody fc = b.velBodyAtPointInBody (b.getCOG fc) fc ∧ b.cogVelWorld fc = b.velWorldAtPointInBody (b.getCOG fc) fc ∧
    b.toWorld (b.cogVelBody fc) fc = b.cogVelWorld fc := by
  have hw := hs.wvel h
  have e1 : b.cogVelBody fc = b.velBodyAtPointInBody (b.getCOG fc) fc := by
    unfold Body.cogVelBody Body.cogVelWorld Body.velBodyAtPointInBody Body.velBody Body.linVelWorld Body.angVelBody Body.angVelWorld Body.getCOG
    rw [toBody_conv, toBody_conv, toBody_conv, hw, hs.ref, ← conv_cross, ← conv_add]
    congr 1
    rw [Q.rotate_sub]
    have hu := h.unit
    rw [rotate_cross hu.conj, Q.rotate_conj hu]
    ext <;> simp
  have e3 : b.toWorld (b.cogVelBody fc) fc = b.cogVelWorld fc := toWorld_toBody h _ _
  refine ⟨e1, ?_, e3⟩
  unfold Body.velWorldAtPointInBody
  rw [← e1, e3]

/-- **C51, no rotation.** Setting a velocity without rotation gives every point of the body that velocity and stops the spin, whatever it was. -/
theorem C51_no_rotation (b : Body) (h : Placed b) (v p : V3) (fc : FC) :
    (b.setVelWorldNoRotation v fc).velWorldAtPointInBody p fc = v ∧ (b.setVelWorldNoRotation v fc).angVelWorld fc = 0 ∧
    (b.setVelBodyNoRotation v fc).velBodyAtPointInBody p fc = v ∧ (b.setVelBodyNoRotation v fc).angVelBody fc = 0 := by
  have key : ∀ v : V3, (b.setVelWorldNoRotation v fc).refVel = conv fc v ∧ (b.setVelWorldNoRotation v fc).wvelPar = 0 := by
    intro v
    constructor
    · show conv fc v + (2:ℝ) • qvec (((⟨0, 0, 0, 0⟩ : Q).mul (qpure (-b.cogInRef))).mul b.cog.rot.conj) = conv fc v
      ext <;> simp [qvec]
    · show (2:ℝ) • qvec ((⟨0, 0, 0, 0⟩ : Q).mul b.cog.rot.conj) = 0
      ext <;> simp [qvec]
  have kb : ∀ v : V3, (b.setVelWorldNoRotation v fc).angVelBody fc = 0 := by
    intro v
    unfold Body.angVelBody Body.angVelWorld
    rw [(key v).2, toBody_conv, rotate_zero, conv_zero]
  have kv : ∀ v : V3, (b.setVelWorldNoRotation v fc).velBodyAtPointInBody p fc = b.toBody v fc := by
    intro v
    unfold Body.velBodyAtPointInBody
    rw [kb]
    unfold Body.velBody Body.linVelWorld
    rw [(key v).1, conv_conv]
    show b.toBody v fc + _ = _
    ext <;> simp
  refine ⟨?_, ?_, ?_, kb _⟩
  · unfold Body.velWorldAtPointInBody
    rw [kv]
    exact toWorld_toBody h v fc
  · unfold Body.angVelWorld
    rw [(key v).2, conv_zero]
  · unfold Body.setVelBodyNoRotation
    rw [kv]
    exact toBody_toWorld h v fc

/-- **C51 fails for `SetCOGAngularVelocityInWorld`**: it does not refresh the reference frame, so the velocity then read at the COG as a point of the body is not the
velocity of the COG: a body at rest with its COG 1 m ahead of its origin, set to turn at 1 rad/s, has COG velocity 0 but the point velocity read there is
1 m/s. -/
theorem C51_cog_angular_velocity_counterexample :
    ∃ b : Body, Placed b ∧ Spinning b 0 ∧
      let b' := b.setCOGAngVelWorld V3.e3 .NWU
      b'.cogVelWorld .NWU = 0 ∧ b'.angVelWorld .NWU = V3.e3 ∧ b'.velWorldAtPointInBody (b'.getCOG .NWU) .NWU = V3.e2 := by
  refine ⟨⟨⟨V3.e1, Q.one⟩, 0, ⟨0, 0, 0, 0⟩, V3.e1, 0, 0⟩, ⟨Q.isUnit_one, ?_⟩, ⟨?_, ?_⟩, rfl, ?_, ?_⟩
  · ext <;> simp [Q.rotate, Q.toMat, V3.e1]
    norm_num
  · ext <;> simp [qhalf, qpure]
  · ext <;> simp
  · ext <;> simp [Body.angVelWorld, Body.wvelPar, Body.setCOGAngVelWorld, Body.setWvelPar, qvec, qhalf, qpure, conv, V3.e3]
  · ext <;> simp [Body.velWorldAtPointInBody, Body.velBodyAtPointInBody, Body.velBody, Body.linVelWorld, Body.angVelBody, Body.toWorld,
      Body.toBody, rotate, quatInv, Body.angVelWorld, Body.wvelPar, Body.setCOGAngVelWorld, Body.setWvelPar, qvec, qhalf, qpure, conv,
      V3.e3, V3.e2, V3.e1, Body.getCOG, Q.rotate, Q.toMat] <;> norm_num

/-- **C51, angular velocity of the centre of gravity.** Setting it, in either convention, is read back as the angular velocity in the axes of the world and of the body, and keeps the velocity of the centre of
gravity and the position; what is missing is the refresh of the reference frame (counterexample above). -/
theorem C51_cog_angular_velocity_partial (b : Body) (h : Placed b) (w : V3) (fc : FC) :
    (b.setCOGAngVelWorld w fc).angVelWorld fc = w ∧ b.toWorld ((b.setCOGAngVelWorld w fc).angVelBody fc) fc = w ∧
    (b.setCOGAngVelWorld w fc).cogVelWorld fc = b.cogVelWorld fc ∧ (b.setCOGAngVelWorld w fc).getFrame = b.getFrame := by
  have e : (b.setCOGAngVelWorld w fc).angVelWorld fc = w := by
    have : (b.setCOGAngVelWorld w fc).wvelPar = conv fc w := by
      have hu := h.unit
      unfold Q.IsUnit at hu
      simp only [Q.normSq] at hu
      show (2 : ℝ) • qvec ((qhalf ((qpure (conv fc w)).mul b.cog.rot)).mul b.cog.rot.conj) = conv fc w
      ext
      · simp [qvec, qhalf, qpure, Q.mul, Q.conj]; linear_combination (conv fc w).x * hu
      · simp [qvec, qhalf, qpure, Q.mul, Q.conj]; linear_combination (conv fc w).y * hu
      · simp [qvec, qhalf, qpure, Q.mul, Q.conj]; linear_combination (conv fc w).z * hu
    unfold Body.angVelWorld
    rw [this, conv_conv]
  refine ⟨e, ?_, rfl, rfl⟩
  unfold Body.angVelBody
  rw [e]
  exact toWorld_toBody h w fc

/-- **C51 fails for rotations of a spinning body**: Chrono keeps the derivative of the quaternion when the orientation is changed, so turning a body by an angle `a` about
its axis of spin multiplies its angular velocity by `cos (a/2)`; a half turn stops it. -/
theorem C51_rotation_changes_spin_counterexample (s a : ℝ) :
    let b : Body := Body.new.setAngVelWorld (s • V3.e3) .NWU
    b.angVelWorld .NWU = s • V3.e3 ∧
    (b.rotateBy (Q.ofAngAxis a V3.e3)).angVelWorld .NWU = (s * Real.cos (a / 2)) • V3.e3 := by
  intro b
  constructor
  · ext <;> simp [b, Body.angVelWorld, Body.wvelPar, Body.setAngVelWorld, Body.setWvelPar, Body.updateAfterMove, Body.new, Frame.identity, qvec, qhalf, qpure, conv, V3.e3]
    ring
  · ext <;> simp [b, Body.angVelWorld, Body.wvelPar, Body.setAngVelWorld, Body.setWvelPar, Body.updateAfterMove, Body.new, Frame.identity, qvec, qhalf, qpure, conv, V3.e3,
      Body.rotateBy, Body.setRotation, Body.setPosition, Body.setFrameRefToAbs, Body.getFrame, Frame.setPosition, Body.getQuaternion, Q.ofAngAxis]
    ring

/-- Hypotheses met: a body put somewhere, turned, with a COG off its origin and a velocity at a point. -/
example : ∃ b : Body, Placed b ∧ b.getCOG .NED = ⟨1, 0, 2⟩ ∧ b.velWorldAtPointInBody ⟨1, 1, 1⟩ .NED = ⟨3, 0, 1⟩ ∧ b.angVelWorld .NED = ⟨0, 0, 1⟩ := by
  have hr : (Q.ofAngAxis 1 V3.e3).IsUnit := ofAngAxis_unit (by simp [V3.dot, V3.e3]) 1
  have h := C50_history [.setCOG ⟨1, 0, 2⟩ .NED, .setPosition ⟨5, 5, 5⟩ .NWU, .setRotation (Q.ofAngAxis 1 V3.e3)] (by
    intro o ho
    simp only [List.mem_cons, List.not_mem_nil, or_false] at ho
    rcases ho with rfl | rfl | rfl
    · trivial
    · trivial
    · exact hr) .NED
  refine ⟨_, (op_placed (.setGenVelWorldAtPointInBody ⟨1, 1, 1⟩ ⟨3, 0, 1⟩ ⟨0, 0, 1⟩ .NED) trivial _ h.2.2), ?_, ?_, ?_⟩
  · exact conv_conv .NED _
  · exact (C51_all_axes_partial _ h.2.2 _ _ _ .NED).2.1.1
  · exact (C51_all_axes_partial _ h.2.2 _ _ _ .NED).2.1.2

end Frydom.Core
