import Verif.Core.Node
import Verif.Link.Link

/-!
# Accelerations of a body (C160)

`src/frydom/core/body/FrBody.cpp:838-870, 898-919, 941-964, 995-1007`, `src/frydom/core/common/FrNode.cpp:270-279`.
-/

noncomputable section

namespace Frydom.Core
open Frydom.Geom
open Frydom.Link (HasVel)

/-- A body with the second derivatives Chrono keeps (`ChFrameMoving::coord_dtdt`): position and quaternion of the COG frame. -/
structure ABody where
  body : Body
  /-- `GetCoord_dtdt().pos` -/
  posDtdt : V3
  /-- `GetCoord_dtdt().rot` -/
  rotDtdt : Q

/-- The sum of two quaternions. -/
def qadd (p q : Q) : Q := ⟨p.e0 + q.e0, p.e1 + q.e1, p.e2 + q.e2, p.e3 + q.e3⟩

namespace ABody

/-! ## Chrono primitives (external) -/

/-- `ChFrameMoving::GetWacc_par`: vector part of `2 q'' q*`. -/
def waccPar (b : ABody) : V3 := (2:ℝ) • qvec (b.rotDtdt.mul b.body.cog.rot.conj)
/-- `ChFrameMoving::SetWacc_par`: `q'' = q' q* q' + a q / 2`. -/
def setWaccPar (b : ABody) (a : V3) : ABody :=
  { b with rotDtdt := qadd ((b.body.rotDt.mul b.body.cog.rot.conj).mul b.body.rotDt) (qhalf ((qpure a).mul b.body.cog.rot)) }
/-- `ChFrameMoving::PointAccelerationLocalToParent`: `pos'' + 2 vec(q'' p q*) + 2 vec(q' p q'*)`. -/
def pointAccel (b : ABody) (p : V3) : V3 :=
  b.posDtdt + (2:ℝ) • qvec ((b.rotDtdt.mul (qpure p)).mul b.body.cog.rot.conj) + (2:ℝ) • qvec ((b.body.rotDt.mul (qpure p)).mul b.body.rotDt.conj)

/-! ## FrBody -/

/-- `SetAccelerationInWorldNoRotation` (FrBody.cpp:838-846). -/
def setAccWorldNoRotation (b : ABody) (a : V3) (fc : FC) : ABody := ⟨b.body.updateAfterMove, conv fc a, ⟨0, 0, 0, 0⟩⟩
/-- `SetAccelerationInBodyNoRotation` (FrBody.cpp:848-850). -/
def setAccBodyNoRotation (b : ABody) (a : V3) (fc : FC) : ABody := b.setAccWorldNoRotation (b.body.toWorld a fc) fc
/-- `GetAccelerationInWorldAtPointInBody` (FrBody.cpp:946-956). -/
def accWorldAtPointInBody (b : ABody) (p : V3) (fc : FC) : V3 := conv fc (b.pointAccel (conv fc p - b.body.getCOG .NWU))
/-- `GetAccelerationInWorldAtPointInWorld` (FrBody.cpp:941-944). -/
def accWorldAtPointInWorld (b : ABody) (p : V3) (fc : FC) : V3 := b.accWorldAtPointInBody (b.body.pointInBody p fc) fc
/-- `GetAccelerationInBodyAtPointInBody` (FrBody.cpp:962-964). -/
def accBodyAtPointInBody (b : ABody) (p : V3) (fc : FC) : V3 := b.body.toBody (b.accWorldAtPointInBody p fc) fc
/-- `GetAccelerationInBodyAtPointInWorld` (FrBody.cpp:958-960). -/
def accBodyAtPointInWorld (b : ABody) (p : V3) (fc : FC) : V3 := b.accBodyAtPointInBody (b.body.pointInBody p fc) fc
/-- `GetLinearAccelerationInWorld` (FrBody.cpp:852-854). -/
def linAccWorld (b : ABody) (fc : FC) : V3 := b.accWorldAtPointInBody 0 fc
/-- `GetAccelerationInBody` (FrBody.cpp:856-858). -/
def accBody (b : ABody) (fc : FC) : V3 := b.body.toBody (b.linAccWorld fc) fc
/-- `GetCOGLinearAccelerationInWorld` (FrBody.cpp:861-865). -/
def cogAccWorld (b : ABody) (fc : FC) : V3 := conv fc b.posDtdt
/-- `GetCOGAccelerationInBody` (FrBody.cpp:867-869). -/
def cogAccBody (b : ABody) (fc : FC) : V3 := b.body.toBody (b.cogAccWorld fc) fc
/-- `SetAngularAccelerationInWorld` (FrBody.cpp:898-905). -/
def setAngAccWorld (b : ABody) (a : V3) (fc : FC) : ABody := { b.setWaccPar (conv fc a) with body := b.body.updateAfterMove }
/-- `SetAngularAccelerationInBody` (FrBody.cpp:907-909). -/
def setAngAccBody (b : ABody) (a : V3) (fc : FC) : ABody := b.setAngAccWorld (b.body.toWorld a fc) fc
/-- `GetAngularAccelerationInWorld` (FrBody.cpp:911-915). -/
def angAccWorld (b : ABody) (fc : FC) : V3 := conv fc b.waccPar
/-- `GetAngularAccelerationInBody` (FrBody.cpp:917-919). -/
def angAccBody (b : ABody) (fc : FC) : V3 := b.body.toBody (b.angAccWorld fc) fc
/-- `SetGeneralizedAccelerationInBodyAtCOG` (FrBody.cpp:995-1000). -/
def setGenAccBodyAtCOG (b : ABody) (a al : V3) (fc : FC) : ABody := (b.setAccBodyNoRotation a fc).setAngAccBody al fc
/-- `SetGeneralizedAccelerationInWorldAtCOG` (FrBody.cpp:1002-1007). -/
def setGenAccWorldAtCOG (b : ABody) (a al : V3) (fc : FC) : ABody := (b.setAccWorldNoRotation a fc).setAngAccWorld al fc
/-- `SetAngularVelocityInWorld` (FrBody.cpp:871-876): the second derivatives are kept as they were. -/
def setAngVelWorld (b : ABody) (w : V3) (fc : FC) : ABody := { b with body := b.body.setAngVelWorld w fc }

end ABody

/-- `FrNode::GetAccelerationInWorld` (FrNode.cpp:270-275). External (Chrono): the second derivative of the absolute frame of a marker that does not move in the body is the
acceleration of the point of the body where it is. -/
def Node.accelerationInWorld (n : Node) (b : ABody) (fc : FC) : V3 := conv fc (b.pointAccel n.rel.pos)
/-- `FrNode::GetAccelerationInNode` (FrNode.cpp:277-279). -/
def Node.accelerationInNode (n : Node) (b : ABody) (fc : FC) : V3 := n.projInNode (n.accelerationInWorld b fc) fc

/-! ## Specification -/

/-- `q` has the derivative `d` at time `t`. -/
def HasQDeriv (q : ℝ → Q) (d : Q) (t : ℝ) : Prop :=
  HasDerivAt (fun s => (q s).e0) d.e0 t ∧ HasDerivAt (fun s => (q s).e1) d.e1 t ∧ HasDerivAt (fun s => (q s).e2) d.e2 t ∧
    HasDerivAt (fun s => (q s).e3) d.e3 t

/-- A history of a body whose COG is fixed in it and whose recorded derivatives are those of its motion. Nothing is said about the angular velocity or about rigid body
kinematics: only that the numbers Chrono keeps are derivatives of each other, that the orientation is a unit quaternion and that the REF frame follows. -/
structure Moving (b : ℝ → ABody) : Prop where
  unit : ∀ t, (b t).body.cog.rot.IsUnit
  placed : ∀ t, (b t).body.cog.pos = (b t).body.refPos + (b t).body.cog.rot.rotate (b t).body.cogInRef
  cogFixed : ∀ t t', (b t).body.cogInRef = (b t').body.cogInRef
  refVel : ∀ t, (b t).body.refVel = (b t).body.pointSpeed (-(b t).body.cogInRef)
  pos : ∀ t, HasVel (fun s => (b s).body.cog.pos) (b t).body.posDt t
  vel : ∀ t, HasVel (fun s => (b s).body.posDt) (b t).posDtdt t
  rot : ∀ t, HasQDeriv (fun s => (b s).body.cog.rot) (b t).body.rotDt t
  spin : ∀ t, HasQDeriv (fun s => (b s).body.rotDt) (b t).rotDtdt t

/-- The acceleration of a point of a rigid body at `r` from a point of acceleration `a`, with angular acceleration `al` and angular velocity `w`. -/
def rigidAcc (a al w r : V3) : V3 := a + V3.cross al r + V3.cross w (V3.cross w r)

/-! ## Lemmas -/

theorem qvec_wacc {q : Q} (h : q.IsUnit) (w a : V3) :
    (2:ℝ) • qvec ((qadd (((qhalf ((qpure w).mul q)).mul q.conj).mul (qhalf ((qpure w).mul q))) (qhalf ((qpure a).mul q))).mul q.conj) = a := by
  unfold Q.IsUnit Q.normSq at h
  ext <;> simp [qvec, qhalf, qpure, qadd]
  · linear_combination a.x * h
  · linear_combination a.y * h
  · linear_combination a.z * h

theorem rotate_eq_qvec {q : Q} (h : q.IsUnit) (p : V3) : q.rotate p = qvec ((q.mul (qpure p)).mul q.conj) := by
  unfold Q.IsUnit Q.normSq at h
  ext <;> simp [qvec, qpure, Q.rotate, Q.toMat]
  · linear_combination p.x * h
  · linear_combination p.y * h
  · linear_combination p.z * h

theorem qvec_wacc_point {q : Q} (h : q.IsUnit) (w a p : V3) :
    (2:ℝ) • qvec (((qadd (((qhalf ((qpure w).mul q)).mul q.conj).mul (qhalf ((qpure w).mul q))) (qhalf ((qpure a).mul q))).mul (qpure p)).mul q.conj) +
      (2:ℝ) • qvec (((qhalf ((qpure w).mul q)).mul (qpure p)).mul (qhalf ((qpure w).mul q)).conj) =
    V3.cross a (q.rotate p) + V3.cross w (V3.cross w (q.rotate p)) := by
  have h1 : qvec (((qadd (((qhalf ((qpure w).mul q)).mul q.conj).mul (qhalf ((qpure w).mul q))) (qhalf ((qpure a).mul q))).mul (qpure p)).mul q.conj) =
      (-(V3.dot w w) / 4) • (q.rotate p) + (1 / 2 : ℝ) • V3.cross a (q.rotate p) := by
    have e : ((qhalf ((qpure w).mul q)).mul q.conj).mul (qhalf ((qpure w).mul q)) =
        ⟨-(V3.dot w w) / 4 * q.e0, -(V3.dot w w) / 4 * q.e1, -(V3.dot w w) / 4 * q.e2, -(V3.dot w w) / 4 * q.e3⟩ := by
      unfold Q.IsUnit Q.normSq at h
      ext <;> simp [qhalf, qpure, V3.dot]
      · linear_combination (-(w.x * w.x + w.y * w.y + w.z * w.z) / 4 * q.e0) * h
      · linear_combination (-(w.x * w.x + w.y * w.y + w.z * w.z) / 4 * q.e1) * h
      · linear_combination (-(w.x * w.x + w.y * w.y + w.z * w.z) / 4 * q.e2) * h
      · linear_combination (-(w.x * w.x + w.y * w.y + w.z * w.z) / 4 * q.e3) * h
    rw [e, rotate_eq_qvec h]
    ext <;> simp [qvec, qhalf, qpure, qadd, V3.dot] <;> ring
  have h2 : qvec (((qhalf ((qpure w).mul q)).mul (qpure p)).mul (qhalf ((qpure w).mul q)).conj) =
      (-(V3.dot w w) / 4) • (q.rotate p) + (V3.dot w (q.rotate p) / 2) • w := by
    rw [rotate_eq_qvec h]
    ext <;> simp [qvec, qhalf, qpure, V3.dot] <;> ring
  rw [h1, h2]
  ext <;> simp [V3.dot] <;> ring

theorem HasQDeriv.mul {p q : ℝ → Q} {p' q' : Q} {t : ℝ} (hp : HasQDeriv p p' t) (hq : HasQDeriv q q' t) :
    HasQDeriv (fun s => (p s).mul (q s)) (qadd (p'.mul (q t)) ((p t).mul q')) t := by
  obtain ⟨a0, a1, a2, a3⟩ := hp
  obtain ⟨b0, b1, b2, b3⟩ := hq
  refine ⟨?_, ?_, ?_, ?_⟩
  · refine ((((a0.mul b0).sub (a1.mul b1)).sub (a2.mul b2)).sub (a3.mul b3)).congr_deriv ?_
    simp [qadd]; ring
  · refine ((((a0.mul b1).add (a1.mul b0)).sub (a3.mul b2)).add (a2.mul b3)).congr_deriv ?_
    simp [qadd]; ring
  · refine ((((a0.mul b2).add (a2.mul b0)).add (a3.mul b1)).sub (a1.mul b3)).congr_deriv ?_
    simp [qadd]; ring
  · refine ((((a0.mul b3).add (a3.mul b0)).sub (a2.mul b1)).add (a1.mul b2)).congr_deriv ?_
    simp [qadd]; ring

theorem HasQDeriv.conj {q : ℝ → Q} {q' : Q} {t : ℝ} (hq : HasQDeriv q q' t) : HasQDeriv (fun s => (q s).conj) q'.conj t :=
  ⟨hq.1, hq.2.1.neg, hq.2.2.1.neg, hq.2.2.2.neg⟩

theorem HasQDeriv.const (q : Q) (t : ℝ) : HasQDeriv (fun _ => q) ⟨0, 0, 0, 0⟩ t :=
  ⟨hasDerivAt_const _ _, hasDerivAt_const _ _, hasDerivAt_const _ _, hasDerivAt_const _ _⟩

theorem HasQDeriv.vec {q : ℝ → Q} {q' : Q} {t : ℝ} (hq : HasQDeriv q q' t) : HasVel (fun s => (2:ℝ) • qvec (q s)) ((2:ℝ) • qvec q') t :=
  ⟨hq.2.1.const_mul 2, hq.2.2.1.const_mul 2, hq.2.2.2.const_mul 2⟩

theorem hasVel_add {p p' : ℝ → V3} {v v' : V3} {t : ℝ} (h : HasVel p v t) (h' : HasVel p' v' t) : HasVel (fun s => p s + p' s) (v + v') t :=
  ⟨h.1.add h'.1, h.2.1.add h'.2.1, h.2.2.add h'.2.2⟩

theorem hasVel_smul {p : ℝ → V3} {v : V3} {t : ℝ} (h : HasVel p v t) (c : ℝ) : HasVel (fun s => c • p s) (c • v) t :=
  ⟨h.1.const_mul c, h.2.1.const_mul c, h.2.2.const_mul c⟩

theorem hasVel_conv {p : ℝ → V3} {v : V3} {t : ℝ} (h : HasVel p v t) (fc : FC) : HasVel (fun s => conv fc (p s)) (conv fc v) t := by
  cases fc
  · exact h
  · exact ⟨h.1, h.2.1.neg, h.2.2.neg⟩

/-- The derivative of a unit quaternion is orthogonal to it. -/
theorem unit_deriv {q : ℝ → Q} {q' : Q} {t : ℝ} (hu : ∀ s, (q s).IsUnit) (h : HasQDeriv q q' t) :
    (q t).e0 * q'.e0 + (q t).e1 * q'.e1 + (q t).e2 * q'.e2 + (q t).e3 * q'.e3 = 0 := by
  obtain ⟨a0, a1, a2, a3⟩ := h
  have h1 := (((a0.mul a0).add (a1.mul a1)).add (a2.mul a2)).add (a3.mul a3)
  have h2 : HasDerivAt (fun _ : ℝ => (1:ℝ)) 0 t := hasDerivAt_const _ _
  have e : ((((fun s => (q s).e0) * (fun s => (q s).e0) + (fun s => (q s).e1) * (fun s => (q s).e1)) + (fun s => (q s).e2) * (fun s => (q s).e2)) +
      (fun s => (q s).e3) * (fun s => (q s).e3)) = fun _ : ℝ => (1:ℝ) := by
    funext s
    have := hu s
    unfold Q.IsUnit Q.normSq at this
    simp only [Pi.add_apply, Pi.mul_apply]
    linarith
  rw [e] at h1
  have := h1.unique h2
  linarith

/-- So it is the one of a spin. -/
theorem rotDt_of_orth {q q' : Q} (h : q.IsUnit) (ho : q.e0 * q'.e0 + q.e1 * q'.e1 + q.e2 * q'.e2 + q.e3 * q'.e3 = 0) :
    q' = qhalf ((qpure ((2:ℝ) • qvec (q'.mul q.conj))).mul q) := by
  unfold Q.IsUnit Q.normSq at h
  ext <;> simp [qhalf, qpure, qvec]
  · linear_combination (-q'.e0) * h + q.e0 * ho
  · linear_combination (-q'.e1) * h + q.e1 * ho
  · linear_combination (-q'.e2) * h + q.e2 * ho
  · linear_combination (-q'.e3) * h + q.e3 * ho

theorem hasVel_rotate {q : ℝ → Q} {q' : Q} {t : ℝ} (hu : ∀ s, (q s).IsUnit) (h : HasQDeriv q q' t) (p : V3) :
    HasVel (fun s => (q s).rotate p) ((2:ℝ) • qvec ((q'.mul (qpure p)).mul (q t).conj)) t := by
  have h1 := (((h.mul (HasQDeriv.const (qpure p) t)).mul h.conj)).vec
  have h2 := hasVel_smul h1 (1/2)
  have e : (fun s => (1/2:ℝ) • ((2:ℝ) • qvec (((q s).mul (qpure p)).mul (q s).conj))) = fun s => (q s).rotate p := by
    funext s
    rw [rotate_eq_qvec (hu s)]
    ext <;> simp
  rw [e] at h2
  refine h2.congr ?_
  ext <;> simp [qvec, qpure, qadd] <;> ring

/-- The velocity getter is the speed of the point of the COG frame. -/
theorem velWorld_eq {b : Body} (hu : b.cog.rot.IsUnit) (hr : b.rotDt = qhalf ((qpure b.wvelPar).mul b.cog.rot)) (hv : b.refVel = b.pointSpeed (-b.cogInRef))
    (p : V3) (fc : FC) : b.velWorldAtPointInBody p fc = conv fc (b.pointSpeed (conv fc p - b.cogInRef)) := by
  obtain ⟨p, rfl⟩ := exists_conv fc p
  unfold Body.velWorldAtPointInBody Body.velBodyAtPointInBody Body.velBody Body.angVelBody Body.linVelWorld Body.angVelWorld
  rw [toBody_conv, toBody_conv, ← conv_cross, ← conv_add, toWorld_conv, Q.rotate_add, rotate_cross hu, Q.rotate_conj' hu, Q.rotate_conj' hu, conv_conv, hv,
    pointSpeed_of hu hr, pointSpeed_of hu hr]
  congr 1
  have e : b.cog.rot.rotate (p - b.cogInRef) = b.cog.rot.rotate p - b.cog.rot.rotate b.cogInRef := Q.rotate_sub _ _ _
  have e' : b.cog.rot.rotate (-b.cogInRef) = - b.cog.rot.rotate b.cogInRef := by
    ext <;> simp [Q.rotate] <;> ring
  rw [e, e']
  ext <;> simp <;> ring

theorem hasVel_pointSpeed {b : ℝ → ABody} (h : Moving b) (p : V3) (t : ℝ) :
    HasVel (fun s => (b s).body.pointSpeed p) ((b t).pointAccel p) t := by
  have h1 := (((h.spin t).mul (HasQDeriv.const (qpure p) t)).mul (h.rot t).conj).vec
  refine (hasVel_add (h.vel t) h1).congr ?_
  unfold ABody.pointAccel
  ext <;> simp [qvec, qpure, qadd] <;> ring

/-! ## C160 -/

/-- **C160, every motion.** Along every motion of a body, for every point fixed in the body (and for the COG, the reference point and every node), in both conventions: the
velocity returned is the derivative of the position returned and the acceleration returned is the derivative of that velocity; the angular velocity returned is
the rate of turn of the body and the angular acceleration returned is its derivative. -/
theorem C160_motion (b : ℝ → ABody) (h : Moving b) (p : V3) (n : Node) (t : ℝ) (fc : FC) :
    HasVel (fun s => (b s).body.pointInWorld p fc) ((b t).body.velWorldAtPointInBody p fc) t ∧
    HasVel (fun s => (b s).body.velWorldAtPointInBody p fc) ((b t).accWorldAtPointInBody p fc) t ∧
    HasVel (fun s => (b s).body.cogPositionInWorld fc) ((b t).body.cogVelWorld fc) t ∧
    HasVel (fun s => (b s).body.cogVelWorld fc) ((b t).cogAccWorld fc) t ∧
    HasVel (fun s => (b s).body.getPosition fc) ((b t).body.linVelWorld fc) t ∧
    HasVel (fun s => (b s).body.linVelWorld fc) ((b t).linAccWorld fc) t ∧
    Link.HasAngVel (fun s => (b s).body.getQuaternion) ((b t).body.angVelWorld .NWU) t ∧
    HasVel (fun s => (b s).body.angVelWorld fc) ((b t).angAccWorld fc) t ∧
    HasVel (fun s => (n.refresh (b s).body).positionInWorld fc) ((n.refresh (b t).body).velocityInWorld fc) t ∧
    HasVel (fun s => (n.refresh (b s).body).velocityInWorld fc) (n.accelerationInWorld (b t) fc) t := by
  have hr : ∀ s, (b s).body.rotDt = qhalf ((qpure (b s).body.wvelPar).mul (b s).body.cog.rot) := fun s =>
    rotDt_of_orth (h.unit s) (unit_deriv h.unit (h.rot s))
  have key : ∀ p : V3, HasVel (fun s => (b s).body.cog.pos + (b s).body.cog.rot.rotate p) ((b t).body.pointSpeed p) t := fun p =>
    hasVel_add (h.pos t) (hasVel_rotate h.unit (h.rot t) p)
  have epos : ∀ (p : V3) (s : ℝ), (b s).body.refPos + (b s).body.cog.rot.rotate p =
      (b s).body.cog.pos + (b s).body.cog.rot.rotate (p - (b t).body.cogInRef) := by
    intro p s
    rw [h.placed s, h.cogFixed t s, Q.rotate_sub]
    ext <;> simp
  have hvel : ∀ (p : V3) (s : ℝ), (b s).body.velWorldAtPointInBody p fc = conv fc ((b s).body.pointSpeed (conv fc p - (b t).body.cogInRef)) := by
    intro p s
    rw [velWorld_eq (h.unit s) (hr s) (h.refVel s), h.cogFixed t s]
  have hlin : ∀ s, (b s).body.linVelWorld fc = conv fc ((b s).body.pointSpeed (-(b t).body.cogInRef)) := by
    intro s
    unfold Body.linVelWorld
    rw [h.refVel s, h.cogFixed t s]
  refine ⟨?_, ?_, hasVel_conv (h.pos t) fc, hasVel_conv (h.vel t) fc, ?_, ?_, ?_, ?_, ?_, ?_⟩
  · obtain ⟨p, rfl⟩ := exists_conv fc p
    simp only [pointInWorld_conv, epos]
    rw [hvel, conv_conv]
    exact hasVel_conv (key _) fc
  · simp only [hvel]
    exact hasVel_conv (hasVel_pointSpeed h _ t) fc
  · have e : ∀ s, (b s).body.getPosition fc = conv fc ((b s).body.cog.pos + (b s).body.cog.rot.rotate (-(b t).body.cogInRef)) := by
      intro s
      have := epos 0 s
      rw [rotate_zero] at this
      unfold Body.getPosition
      rw [show -(b t).body.cogInRef = 0 - (b t).body.cogInRef by ext <;> simp, ← this]
      congr 1
      ext <;> simp
    simp only [e, hlin]
    exact hasVel_conv (key _) fc
  · simp only [hlin]
    unfold ABody.linAccWorld ABody.accWorldAtPointInBody
    refine (hasVel_conv (hasVel_pointSpeed h _ t) fc).congr ?_
    congr 2
    rw [conv_zero]
    unfold Body.getCOG
    ext <;> simp [conv]
  · intro u
    have e := qvec_point (h.unit t) ((b t).body.wvelPar) u
    rw [← hr t] at e
    refine (hasVel_rotate h.unit (h.rot t) u).congr e
  · have h1 := ((h.spin t).mul (h.rot t).conj).vec
    refine (hasVel_conv h1 fc).congr ?_
    unfold ABody.angAccWorld ABody.waccPar
    congr 1
    ext <;> simp [qvec, qadd] <;> ring
  · exact hasVel_conv (key n.rel.pos) fc
  · exact hasVel_conv (hasVel_pointSpeed h n.rel.pos t) fc

theorem updateAfterMove_eq {b : Body} (hb : Placed b) {w : V3} (hs : Spinning b w) : b.updateAfterMove = b := by
  have e1 : b.cog.pos - b.cog.rot.rotate b.cogInRef = b.refPos := by rw [hb.cog]; exact v3_add_sub _ _
  have e2 : b.pointSpeed (-b.cogInRef) = b.refVel := by
    rw [pointSpeed_of hb.unit hs.rot, hs.ref]
    have e' : b.cog.rot.rotate (-b.cogInRef) = - b.cog.rot.rotate b.cogInRef := by
      ext <;> simp [Q.rotate] <;> ring
    rw [e']
    ext <;> simp <;> ring
  unfold Body.updateAfterMove
  rw [e1, e2]

/-- The three accelerations after `SetGeneralizedAcceleration`. -/
theorem setGenAcc_eq (b : ABody) (hb : Placed b.body) {w : V3} (hs : Spinning b.body w) (a al : V3) (fc : FC) :
    b.setGenAccWorldAtCOG a al fc = ⟨b.body, conv fc a,
      qadd ((b.body.rotDt.mul b.body.cog.rot.conj).mul b.body.rotDt) (qhalf ((qpure (conv fc al)).mul b.body.cog.rot))⟩ := by
  unfold ABody.setGenAccWorldAtCOG ABody.setAccWorldNoRotation ABody.setAngAccWorld ABody.setWaccPar
  simp only [updateAfterMove_eq hb hs]

theorem rigidAcc_conv (fc : FC) (a al w r : V3) : rigidAcc (conv fc a) (conv fc al) (conv fc w) (conv fc r) = conv fc (rigidAcc a al w r) := by
  unfold rigidAcc
  simp only [conv_add, conv_cross]

theorem toBody_rigidAcc {b : Body} (hb : Placed b) (a al w r : V3) (fc : FC) :
    b.toBody (rigidAcc a al w r) fc = rigidAcc (b.toBody a fc) (b.toBody al fc) (b.toBody w fc) (b.toBody r fc) := by
  have hu : b.cog.rot.conj.IsUnit := by
    have := hb.unit
    unfold Q.IsUnit Q.normSq at *
    simp only [Q.conj]
    linarith
  obtain ⟨a, rfl⟩ := exists_conv fc a
  obtain ⟨al, rfl⟩ := exists_conv fc al
  obtain ⟨w, rfl⟩ := exists_conv fc w
  obtain ⟨r, rfl⟩ := exists_conv fc r
  rw [rigidAcc_conv, toBody_conv, toBody_conv, toBody_conv, toBody_conv, toBody_conv, rigidAcc_conv]
  unfold rigidAcc
  rw [Q.rotate_add, Q.rotate_add, rotate_cross hu, rotate_cross hu, rotate_cross hu]

/-- **C160, setting the accelerations.** After the two accelerations of a spinning body are set at its COG (in world or body axes, in either convention) they are returned,
every point accelerates as the point of a rigid body (`a + alpha x r + omega x (omega x r)`), and neither the position nor the velocities changed. -/
theorem C160_set (b : ABody) (hb : Placed b.body) (w : V3) (hs : Spinning b.body w) (a al p : V3) (fc : FC) :
    (let b' := b.setGenAccWorldAtCOG a al fc
     b'.body = b.body ∧ b'.cogAccWorld fc = a ∧ b'.angAccWorld fc = al ∧
     b'.accWorldAtPointInBody p fc = rigidAcc a al (b.body.angVelWorld fc) (b.body.toWorld (p - b.body.getCOG fc) fc) ∧
     b'.accWorldAtPointInWorld p fc = rigidAcc a al (b.body.angVelWorld fc) (p - b.body.cogPositionInWorld fc)) ∧
    (let b' := b.setGenAccBodyAtCOG a al fc
     b'.body = b.body ∧ b'.cogAccBody fc = a ∧ b'.angAccBody fc = al ∧
     b'.accBodyAtPointInBody p fc = rigidAcc a al (b.body.angVelBody fc) (p - b.body.getCOG fc) ∧
     b'.accBodyAtPointInWorld p fc = rigidAcc a al (b.body.angVelBody fc) (b.body.pointInBody p fc - b.body.getCOG fc)) := by
  have hpt : ∀ a al p, (b.setGenAccWorldAtCOG a al fc).accWorldAtPointInBody p fc =
      rigidAcc a al (b.body.angVelWorld fc) (b.body.toWorld (p - b.body.getCOG fc) fc) := by
    intro a al p
    obtain ⟨a, rfl⟩ := exists_conv fc a
    obtain ⟨al, rfl⟩ := exists_conv fc al
    obtain ⟨p, rfl⟩ := exists_conv fc p
    rw [setGenAcc_eq b hb hs]
    unfold ABody.accWorldAtPointInBody ABody.pointAccel Body.getCOG Body.angVelWorld
    rw [← conv_sub, toWorld_conv, rigidAcc_conv, hs.wvel hb]
    simp only [conv_conv]
    rw [hs.rot, V3.add_assoc', qvec_wacc_point hb.unit]
    unfold rigidAcc
    rw [V3.add_assoc']
    rfl
  have hcog : ∀ a al, (b.setGenAccWorldAtCOG a al fc).cogAccWorld fc = a := by
    intro a al
    rw [setGenAcc_eq b hb hs]
    exact conv_conv _ _
  have hang : ∀ a al, (b.setGenAccWorldAtCOG a al fc).angAccWorld fc = al := by
    intro a al
    rw [setGenAcc_eq b hb hs]
    unfold ABody.angAccWorld ABody.waccPar
    rw [hs.rot, qvec_wacc hb.unit, conv_conv]
  have hbody : ∀ a al, (b.setGenAccWorldAtCOG a al fc).body = b.body := by
    intro a al
    rw [setGenAcc_eq b hb hs]
  have hB : b.setGenAccBodyAtCOG a al fc = b.setGenAccWorldAtCOG (b.body.toWorld a fc) (b.body.toWorld al fc) fc := by
    unfold ABody.setGenAccBodyAtCOG ABody.setAccBodyNoRotation ABody.setAngAccBody ABody.setGenAccWorldAtCOG
    congr 1
  have hpt' : ∀ p, (b.setGenAccBodyAtCOG a al fc).accBodyAtPointInBody p fc = rigidAcc a al (b.body.angVelBody fc) (p - b.body.getCOG fc) := by
    intro p
    unfold ABody.accBodyAtPointInBody
    rw [hB, hbody, hpt, toBody_rigidAcc hb, toBody_toWorld hb, toBody_toWorld hb, toBody_toWorld hb]
    rfl
  refine ⟨⟨hbody _ _, hcog _ _, hang _ _, hpt _ _ _, ?_⟩, hB ▸ hbody _ _, ?_, ?_, hpt' p, ?_⟩
  · unfold ABody.accWorldAtPointInWorld
    rw [hbody, hpt]
    congr 1
    unfold Body.cogPositionInWorld
    obtain ⟨p, rfl⟩ := exists_conv fc p
    unfold Body.pointInBody Body.getPosition Body.getCOG
    rw [← conv_sub, toBody_conv, ← conv_sub, toWorld_conv, ← conv_sub, Q.rotate_sub, Q.rotate_conj' hb.unit, hb.cog]
    congr 1
    ext <;> simp <;> ring
  · unfold ABody.cogAccBody
    rw [hB, hbody, hcog, toBody_toWorld hb]
  · unfold ABody.angAccBody
    rw [hB, hbody, hang, toBody_toWorld hb]
  · unfold ABody.accBodyAtPointInWorld
    rw [hpt', hB, hbody]

/-- **C160, projections.** The acceleration of the reference point in the axes of the body is that of the origin of the body as a body point, and, turned into the world, the acceleration in the world. -/
theorem C160_body_axes (b : ABody) (hb : Placed b.body) (fc : FC) :
    b.body.toWorld (b.accBody fc) fc = b.linAccWorld fc ∧ b.accBody fc = b.accBodyAtPointInBody 0 fc ∧
    b.body.toWorld (b.cogAccBody fc) fc = b.cogAccWorld fc ∧ b.body.toWorld (b.angAccBody fc) fc = b.angAccWorld fc :=
  ⟨toWorld_toBody hb _ fc, rfl, toWorld_toBody hb _ fc, toWorld_toBody hb _ fc⟩

/-- **C160, node axes.** The acceleration of a node in its own axes, in either convention, is its acceleration in the world seen along the axes of the node. -/
theorem C160_node_axes (b : ABody) (hb : Placed b.body) (n : Node) (ha : Attached b.body n) (fc : FC) :
    n.projInWorld (n.accelerationInNode b fc) fc = n.accelerationInWorld b fc :=
  ((C54_attached b.body hb n ha fc).2.2.2.2.2 _).1

/-- **C160, `SetAcceleration...NoRotation`.** The acceleration of the COG is returned and the angular acceleration is zero; every point has that acceleration when the body
does not spin. -/
theorem C160_no_rotation_partial (b : ABody) (hb : Placed b.body) (w : V3) (hs : Spinning b.body w) (a p : V3) (fc : FC) :
    let b' := b.setAccWorldNoRotation a fc
    b'.body = b.body ∧ b'.cogAccWorld fc = a ∧ b'.angAccWorld fc = 0 ∧ (w = 0 → b'.accWorldAtPointInBody p fc = a) ∧
    (b.setAccBodyNoRotation a fc).cogAccBody fc = a ∧ (w = 0 → (b.setAccBodyNoRotation a fc).accBodyAtPointInBody p fc = a) := by
  have hacc : ∀ a, w = 0 → (b.setAccWorldNoRotation a fc).accWorldAtPointInBody p fc = a := by
    intro a h0
    obtain ⟨a, rfl⟩ := exists_conv fc a
    unfold ABody.setAccWorldNoRotation ABody.accWorldAtPointInBody ABody.pointAccel
    simp only [updateAfterMove_eq hb hs, conv_conv, hs.rot, h0]
    congr 1
    ext <;> simp [qvec, qhalf, qpure]
  refine ⟨updateAfterMove_eq hb hs, conv_conv _ _, ?_, hacc a, ?_, ?_⟩
  · unfold ABody.setAccWorldNoRotation ABody.angAccWorld ABody.waccPar
    rw [show (2:ℝ) • qvec ((⟨0, 0, 0, 0⟩ : Q).mul b.body.updateAfterMove.cog.rot.conj) = 0 by ext <;> simp [qvec], conv_zero]
  · show b.body.updateAfterMove.toBody (conv fc (conv fc (b.body.toWorld a fc))) fc = a
    rw [updateAfterMove_eq hb hs, conv_conv, toBody_toWorld hb]
  · intro h0
    unfold ABody.accBodyAtPointInBody ABody.setAccBodyNoRotation
    rw [hacc _ h0]
    show b.body.updateAfterMove.toBody _ fc = a
    rw [updateAfterMove_eq hb hs, toBody_toWorld hb]

/-- **C160 fails for `SetAcceleration...NoRotation` on a spinning body**: the accelerations returned for the points lack a part of the centripetal acceleration. They are those of the
rigid body (without angular acceleration) exactly at the COG and when the body does not spin. -/
theorem C160_no_rotation_counterexample (b : ABody) (hb : Placed b.body) (w : V3) (hs : Spinning b.body w) (a p : V3) (fc : FC) :
    let r := b.body.toWorld (p - b.body.getCOG fc) fc
    let acc := (b.setAccWorldNoRotation a fc).accWorldAtPointInBody p fc
    acc = rigidAcc a 0 (b.body.angVelWorld fc) r + (V3.dot w w / 2) • r ∧
    (acc = rigidAcc a 0 (b.body.angVelWorld fc) r ↔ w = 0 ∨ r = 0) := by
  intro r acc
  have e : acc = rigidAcc a 0 (b.body.angVelWorld fc) r + (V3.dot w w / 2) • r := by
    have hset := ((C160_set b hb w hs a 0 p fc).1).2.2.2.1
    rw [setGenAcc_eq b hb hs] at hset
    show (b.setAccWorldNoRotation a fc).accWorldAtPointInBody p fc = rigidAcc a 0 (b.body.angVelWorld fc) (b.body.toWorld (p - b.body.getCOG fc) fc) +
      (V3.dot w w / 2) • b.body.toWorld (p - b.body.getCOG fc) fc
    rw [← hset]
    clear hset
    clear acc
    clear r
    obtain ⟨p, rfl⟩ := exists_conv fc p
    unfold ABody.setAccWorldNoRotation ABody.accWorldAtPointInBody ABody.pointAccel Body.getCOG
    rw [← conv_sub, toWorld_conv, ← conv_smul, ← conv_add]
    simp only [conv_conv, updateAfterMove_eq hb hs]
    congr 1
    have key : qvec ((((b.body.rotDt.mul b.body.cog.rot.conj).mul b.body.rotDt).mul (qpure (p - b.body.cogInRef))).mul b.body.cog.rot.conj) =
        (-(V3.dot w w) / 4) • b.body.cog.rot.rotate (p - b.body.cogInRef) := by
      have h := hb.unit
      rw [rotate_eq_qvec h, hs.rot]
      generalize b.body.cog.rot = q at *
      generalize p - b.body.cogInRef = u
      have e : ((qhalf ((qpure w).mul q)).mul q.conj).mul (qhalf ((qpure w).mul q)) =
          ⟨-(V3.dot w w) / 4 * q.e0, -(V3.dot w w) / 4 * q.e1, -(V3.dot w w) / 4 * q.e2, -(V3.dot w w) / 4 * q.e3⟩ := by
        unfold Q.IsUnit Q.normSq at h
        ext <;> simp [qhalf, qpure, V3.dot]
        · linear_combination (-(w.x * w.x + w.y * w.y + w.z * w.z) / 4 * q.e0) * h
        · linear_combination (-(w.x * w.x + w.y * w.y + w.z * w.z) / 4 * q.e1) * h
        · linear_combination (-(w.x * w.x + w.y * w.y + w.z * w.z) / 4 * q.e2) * h
        · linear_combination (-(w.x * w.x + w.y * w.y + w.z * w.z) / 4 * q.e3) * h
      rw [e]
      ext <;> simp [qvec, qpure] <;> ring
    have key2 : qadd ((b.body.rotDt.mul b.body.cog.rot.conj).mul b.body.rotDt) (qhalf ((qpure (conv fc 0)).mul b.body.cog.rot)) =
        (b.body.rotDt.mul b.body.cog.rot.conj).mul b.body.rotDt := by
      rw [conv_zero]
      ext <;> simp [qadd, qhalf, qpure]
    rw [key2, show conv FC.NWU b.body.cogInRef = b.body.cogInRef from rfl, key]
    ext <;> simp [qvec] <;> ring
  refine ⟨e, ?_⟩
  rw [e]
  constructor
  · intro h
    by_cases hr : r = 0
    · exact Or.inr hr
    · left
      have hx := congrArg V3.x h
      have hy := congrArg V3.y h
      have hz := congrArg V3.z h
      simp only [V3.add_x, V3.add_y, V3.add_z, V3.smul_x, V3.smul_y, V3.smul_z] at hx hy hz
      have hd : V3.dot w w = 0 := by
        by_contra hne
        apply hr
        ext
        · simp only [V3.zero_x]
          have : V3.dot w w / 2 * r.x = 0 := by linarith
          rcases mul_eq_zero.mp this with h | h
          · exact absurd (by linarith) hne
          · exact h
        · simp only [V3.zero_y]
          have : V3.dot w w / 2 * r.y = 0 := by linarith
          rcases mul_eq_zero.mp this with h | h
          · exact absurd (by linarith) hne
          · exact h
        · simp only [V3.zero_z]
          have : V3.dot w w / 2 * r.z = 0 := by linarith
          rcases mul_eq_zero.mp this with h | h
          · exact absurd (by linarith) hne
          · exact h
      unfold V3.dot at hd
      ext
      · simp only [V3.zero_x]; nlinarith [sq_nonneg w.x, sq_nonneg w.y, sq_nonneg w.z]
      · simp only [V3.zero_y]; nlinarith [sq_nonneg w.x, sq_nonneg w.y, sq_nonneg w.z]
      · simp only [V3.zero_z]; nlinarith [sq_nonneg w.x, sq_nonneg w.y, sq_nonneg w.z]
  · rintro (h | h)
    · subst h
      ext <;> simp [V3.dot]
    · rw [h]
      ext <;> simp

/-- A body spinning at `s` rad/s about a vertical axis one metre from its COG. -/
def turntable (s t : ℝ) : ABody :=
  let q : Q := Q.ofAngAxis (s * t) V3.e3
  let q' : Q := ⟨-(s / 2) * Real.sin (s * t / 2), 0, 0, s / 2 * Real.cos (s * t / 2)⟩
  ⟨⟨⟨⟨Real.cos (s * t), Real.sin (s * t), 0⟩, q⟩, ⟨-s * Real.sin (s * t), s * Real.cos (s * t), 0⟩, q', V3.e1, 0, 0⟩,
    ⟨-s ^ 2 * Real.cos (s * t), -s ^ 2 * Real.sin (s * t), 0⟩, ⟨-(s / 2) ^ 2 * Real.cos (s * t / 2), 0, 0, -(s / 2) ^ 2 * Real.sin (s * t / 2)⟩⟩

theorem turntable_moving (s : ℝ) : Moving (turntable s) := by
  have ha : ∀ t, HasDerivAt (fun t => s * t) s t := fun t => by simpa using (hasDerivAt_id t).const_mul s
  have hh : ∀ t, HasDerivAt (fun t => s * t / 2) (s / 2) t := fun t => (ha t).div_const 2
  have hz : ∀ t : ℝ, HasDerivAt (fun _ : ℝ => (0:ℝ)) 0 t := fun t => hasDerivAt_const _ _
  have c2 : ∀ t, Real.cos (s * t) = Real.cos (s * t / 2) ^ 2 - Real.sin (s * t / 2) ^ 2 := fun t => by
    rw [← Real.cos_two_mul']; congr 1; ring
  have s2 : ∀ t, Real.sin (s * t) = 2 * Real.sin (s * t / 2) * Real.cos (s * t / 2) := fun t => by
    rw [← Real.sin_two_mul]; congr 1; ring
  refine ⟨fun t => ofAngAxis_unit (by simp [V3.dot, V3.e3]) _, ?_, fun _ _ => rfl, ?_, ?_, ?_, ?_, ?_⟩
  · intro t
    have h1 := Real.sin_sq_add_cos_sq (s * t / 2)
    ext <;> simp [turntable, Q.ofAngAxis, V3.e1, V3.e3, Q.rotate, Q.toMat]
    · rw [c2]; linear_combination -h1
    · rw [s2]; ring
  · intro t
    have h1 := Real.sin_sq_add_cos_sq (s * t / 2)
    ext <;> simp [turntable, Body.pointSpeed, Q.ofAngAxis, V3.e1, V3.e3, qvec, qpure]
    · rw [s2]; ring
    · rw [c2]; ring
  · intro t
    refine ⟨?_, ?_, hz t⟩
    · exact (ha t).cos.congr_deriv (by simp [turntable]; ring)
    · exact (ha t).sin.congr_deriv (by simp [turntable]; ring)
  · intro t
    refine ⟨?_, ?_, hz t⟩
    · exact ((ha t).sin.const_mul (-s)).congr_deriv (by simp [turntable]; ring)
    · exact ((ha t).cos.const_mul s).congr_deriv (by simp [turntable]; ring)
  · intro t
    refine ⟨?_, ?_, ?_, ?_⟩
    · exact (hh t).cos.congr_deriv (by simp [turntable]; ring)
    · simpa [turntable, Q.ofAngAxis, V3.e3] using hz t
    · simpa [turntable, Q.ofAngAxis, V3.e3] using hz t
    · have : (fun r => (turntable s r).body.cog.rot.e3) = fun r => Real.sin (s * r / 2) := by
        funext r; simp [turntable, Q.ofAngAxis, V3.e3]
      rw [this]
      exact (hh t).sin.congr_deriv (by simp [turntable]; ring)
  · intro t
    refine ⟨?_, hz t, hz t, ?_⟩
    · exact ((hh t).sin.const_mul (-(s / 2))).congr_deriv (by simp [turntable]; ring)
    · exact ((hh t).cos.const_mul (s / 2)).congr_deriv (by simp [turntable]; ring)

/-- The hypotheses of `C160_motion` are met by a body that turns at `s` rad/s about a vertical axis one metre from its COG: the acceleration returned for the COG is `s²` towards the axis. -/
example (s t : ℝ) : Moving (turntable s) ∧ (turntable s t).cogAccWorld .NWU = (-s ^ 2 : ℝ) • (turntable s t).body.cogPositionInWorld .NWU := by
  refine ⟨turntable_moving s, ?_⟩
  ext <;> simp [turntable, ABody.cogAccWorld, Body.cogPositionInWorld, conv]

/-- The hypotheses of `C160_set` are met by a body away from the origin whose COG is not at its origin and that spins. -/
example : Placed (⟨⟨V3.e2 + V3.e1, Q.one⟩, 0, qhalf ((qpure V3.e3).mul Q.one), V3.e1, V3.e2, 0 - V3.cross V3.e3 (Q.one.rotate V3.e1)⟩ : Body) ∧
    Spinning (⟨⟨V3.e2 + V3.e1, Q.one⟩, 0, qhalf ((qpure V3.e3).mul Q.one), V3.e1, V3.e2, 0 - V3.cross V3.e3 (Q.one.rotate V3.e1)⟩ : Body) V3.e3 := by
  refine ⟨⟨Q.isUnit_one, ?_⟩, ⟨rfl, rfl⟩⟩
  ext <;> simp [Q.rotate, Q.toMat, V3.e1, V3.e2]
  norm_num

/-- **C160, setting the spin.** Setting the angular velocity in either convention gives the spin asked for and keeps the velocity and the acceleration recorded for the centre of
gravity and the angular acceleration recorded. -/
theorem C160_set_spin (b : ABody) (h : Placed b.body) (w : V3) (fc fc' : FC) :
    (b.setAngVelWorld w fc).body.angVelWorld fc = w ∧ (b.setAngVelWorld w fc).body.cogVelWorld fc' = b.body.cogVelWorld fc' ∧
    (b.setAngVelWorld w fc).cogAccWorld fc' = b.cogAccWorld fc' ∧ (b.setAngVelWorld w fc).angAccWorld fc' = b.angAccWorld fc' := by
  refine ⟨?_, rfl, rfl, rfl⟩
  show conv fc ((2:ℝ) • qvec ((qhalf ((qpure (conv fc w)).mul b.body.cog.rot)).mul b.body.cog.rot.conj)) = w
  rw [qvec_spin h.unit, conv_conv]

/-- **C160 fails when the speed is set after the accelerations**: a body at rest at the origin is given no acceleration, then it is set spinning at 1 rad/s about the vertical. The point one
metre ahead must accelerate at 1 m/s² towards the axis; half of that is returned. In the other order the value is right. -/
theorem C160_stale_counterexample (b : ABody) (h : b.body = Body.new) :
    ((b.setGenAccWorldAtCOG 0 0 .NWU).setAngVelWorld V3.e3 .NWU).accWorldAtPointInBody V3.e1 .NWU = (-1/2 : ℝ) • V3.e1 ∧
    ((b.setAngVelWorld V3.e3 .NWU).setGenAccWorldAtCOG 0 0 .NWU).accWorldAtPointInBody V3.e1 .NWU = (-1 : ℝ) • V3.e1 ∧
    ((b.setGenAccWorldAtCOG 0 0 .NWU).setAngVelWorld V3.e3 .NWU).body = ((b.setAngVelWorld V3.e3 .NWU).setGenAccWorldAtCOG 0 0 .NWU).body := by
  refine ⟨?_, ?_, ?_⟩
  rotate_left 2
  · have e : Body.new.updateAfterMove = Body.new := updateAfterMove_eq (w := 0)
      ⟨Q.isUnit_one, by ext <;> simp [Body.new, Frame.identity, Q.rotate]⟩
      ⟨by ext <;> simp [Body.new, qhalf, qpure], by ext <;> simp [Body.new, Frame.identity, Q.rotate]⟩
    show (b.body.updateAfterMove.updateAfterMove.setAngVelWorld V3.e3 .NWU) = (b.body.setAngVelWorld V3.e3 .NWU).updateAfterMove.updateAfterMove
    rw [h, e, e]
    rfl
  all_goals
    ext <;> simp [ABody.setGenAccWorldAtCOG, ABody.setAngVelWorld, ABody.setAccWorldNoRotation, ABody.setAngAccWorld, ABody.setWaccPar, ABody.accWorldAtPointInBody,
      ABody.pointAccel, h, Body.new, Body.setAngVelWorld, Body.setWvelPar, Body.updateAfterMove, Body.pointSpeed, Body.getCOG, Frame.identity, qvec, qhalf, qpure, qadd, conv, V3.e1, V3.e3,
      Q.one, Q.rotate, Q.toMat]
    try norm_num

end Frydom.Core
