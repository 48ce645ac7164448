import Verif.Core.BodyAccel
import Verif.Core.Force
import Verif.Link.Actuator
import Verif.Hydro.EqFrame

/-!
# What the columns of the logs hold (C176)

The `DefineLogMessages` of bodies (`src/frydom/core/body/FrBody.cpp:1077-1130`), nodes (`core/common/FrNode.cpp:62-86`), forces (`core/force/FrForce.cpp:99-122`), links
(`core/link/links_lib/FrLink.cpp:339-446`) and actuators (`core/link/links_lib/actuators/FrLinearActuator.cpp:82-96`, `FrAngularActuator.cpp:79-102`), and the convention kept by `FrLoggableBase`
(`logging/FrLoggable.cpp:19-46`, `FrLoggable.h:67`).

The values are those of the getters modelled in `Core.BodyAccel`, `Core.Node`, `Core.Force`, `Link.Link`, `Link.Actuator`. Simplification: the text of a description is reduced to the convention
written in it. Writing the numbers to the file is the serializer's (external).
-/

open Real

noncomputable section

namespace Frydom.Core.LogColumns
open Frydom.Geom Frydom.Core Frydom.Link

/-- The value of a field: a number or a triple. -/
inductive Val
  | num (x : ℝ)
  | vec (v : V3)

/-- A field of a message: name, unit, and the function called at each row, which reads the present convention of the object. -/
structure Field (S : Type) where
  name : String
  unit : String
  value : S → FC → Val

/-! ## The messages -/

/-- What a body log reads. -/
structure BodyRow where
  time : ℝ
  body : ABody

/-- The lambda of the angles (FrBody.cpp:1095-1099). `junk`: see `Geom.getCardan`. -/
def angles (junk : ℝ) (q : Q) (fc : FC) : V3 := ⟨(getCardan junk fc q).roll, (getCardan junk fc q).pitch, (getCardan junk fc q).yaw⟩

/-- `FrBody::DefineLogMessages` (FrBody.cpp:1077-1130). -/
def bodyFields (junk : ℝ) : List (Field BodyRow) :=
  [⟨"Time", "s", fun s _ => .num s.time⟩,
   ⟨"Position", "m", fun s fc => .vec (s.body.body.getPosition fc)⟩,
   ⟨"COGPositionInWorld", "m", fun s fc => .vec (s.body.body.cogPositionInWorld fc)⟩,
   ⟨"CardanAngles", "rad", fun s fc => .vec (angles junk s.body.body.getQuaternion fc)⟩,
   ⟨"LinearVelocityInWorld", "m/s", fun s fc => .vec (s.body.body.linVelWorld fc)⟩,
   ⟨"COGLinearVelocityInWorld", "m/s", fun s fc => .vec (s.body.body.cogVelWorld fc)⟩,
   ⟨"AngularVelocityInWorld", "rad/s", fun s fc => .vec (s.body.body.angVelWorld fc)⟩,
   ⟨"LinearAccelerationInWorld", "m/s2", fun s fc => .vec (s.body.linAccWorld fc)⟩,
   ⟨"COGLinearAccelerationInWorld", "m/s2", fun s fc => .vec (s.body.cogAccWorld fc)⟩,
   ⟨"AngularAccelerationInWorld", "rad/s2", fun s fc => .vec (s.body.angAccWorld fc)⟩]

/-- What a node log reads. -/
structure NodeRow where
  time : ℝ
  body : ABody
  node : Node

/-- `FrNode::DefineLogMessages` (FrNode.cpp:62-86). -/
def nodeFields : List (Field NodeRow) :=
  [⟨"time", "s", fun s _ => .num s.time⟩,
   ⟨"PositionInWorld", "m", fun s fc => .vec (s.node.positionInWorld fc)⟩,
   ⟨"VelocityInWorld", "m/s", fun s fc => .vec (s.node.velocityInWorld fc)⟩,
   ⟨"AccelerationInWorld", "m/s²", fun s fc => .vec (s.node.accelerationInWorld s.body fc)⟩,
   ⟨"NodePositionInBody", "m", fun s fc => .vec (s.node.positionInBody s.body.body fc)⟩]

/-- What a force log reads. -/
structure ForceRow where
  time : ℝ
  body : Body
  force : Force

/-- `FrForce::DefineLogMessages` (FrForce.cpp:99-122). -/
def forceFields : List (Field ForceRow) :=
  [⟨"time", "s", fun s _ => .num s.time⟩,
   ⟨"ForceInBody", "N", fun s fc => .vec (s.force.getForceInBody s.body fc)⟩,
   ⟨"TorqueInBodyAtCOG", "Nm", fun s fc => .vec (s.force.getTorqueInBodyAtCOG fc)⟩,
   ⟨"ForceInWorld", "N", fun s fc => .vec (s.force.getForceInWorld fc)⟩,
   ⟨"TorqueInWorldAtCOG", "Nm", fun s fc => .vec (s.force.getTorqueInWorldAtCOG s.body fc)⟩]

/-- What a link log reads: the cache of the link, the frames of its nodes relative to the COG of their bodies, the power of its spring and damper in watts (`GetLinkPower`), and its motor with the rate
of the motion that the motor drives (`GetMotorPos_dt`, `GetMotorRot_dt`). -/
structure LinkRow where
  time : ℝ
  cache : Cache
  n1 : Frame
  n2 : Frame
  power : ℝ
  motor : Motor
  rate : ℝ

/-- `GetMotorPower` (FrLinearActuator.cpp:70-72, FrAngularActuator.cpp:67-69). -/
def motorPower : Motor → ℝ → ℝ
  | .linear f, v => f * v
  | .angular t, w => t * w

/-- The fields of the motor (FrLink.cpp:416-443). -/
def motorFields : List (Field LinkRow) :=
  [⟨"MotorPower", "kW", fun s _ => .num (motorPower s.motor s.rate)⟩,
   ⟨"MotorForceInBody1", "N", fun s fc => .vec (s.motor.forceInBody1 s.n1 fc)⟩,
   ⟨"MotorForceInBody2", "N", fun s fc => .vec (s.motor.forceInBody2 s.n2 fc)⟩,
   ⟨"MotorTorqueInBody1(", "Nm", fun s fc => .vec (s.motor.torqueInBody1 s.n1 fc)⟩,
   ⟨"MotorTorqueInBody2(", "Nm", fun s fc => .vec (s.motor.torqueInBody2 s.n2 fc)⟩,
   ⟨"MotorTorqueAtCOGInBody1(", "Nm", fun s fc => .vec (s.motor.torqueAtCOGInBody1 s.n1 fc)⟩,
   ⟨"MotorTorqueAtCOGInBody2(", "Nm", fun s fc => .vec (s.motor.torqueAtCOGInBody2 s.n2 fc)⟩]

/-- `FrLink::DefineLogMessages` (FrLink.cpp:339-446). -/
def linkFields (junk : ℝ) (motorized : Bool) : List (Field LinkRow) :=
  [⟨"time", "s", fun s _ => .num s.time⟩,
   ⟨"PositionOfNode2WRTNode1", "m", fun s fc => .vec (node2PositionWRTNode1 s.cache fc)⟩,
   ⟨"VelocityOfNode2WRTNode1", "m/s", fun s fc => .vec (velocityOfNode2WRTNode1 s.cache fc)⟩,
   ⟨"AccelerationOfNode2WRTNode1", "m/s^2", fun s fc => .vec (accelerationOfNode2WRTNode1 s.cache fc)⟩,
   ⟨"OrientationOfNode2WRTNode1", "rad", fun s fc => .vec (angles junk s.cache.frame2WRT1.rot fc)⟩,
   ⟨"AngularVelocityOfNode2WRTNode1", "rad/s", fun s fc => .vec (angularVelocityOfNode2WRTNode1 s.cache fc)⟩,
   ⟨"AngularAccelerationOfNode2WRTNode1", "m/s^2", fun s fc => .vec (angularAccelerationOfNode2WRTNode1 s.cache fc)⟩,
   ⟨"LinkReactionForceOnBody1", "N", fun s fc => .vec (reactionForceOnBody1 s.cache s.n1 fc)⟩,
   ⟨"LinkReactionForceOnBody2", "N", fun s fc => .vec (reactionForceOnBody2 s.cache s.n2 fc)⟩,
   ⟨"LinkReactionTorqueOnBody1", "Nm", fun s fc => .vec (reactionTorqueOnNode1 s.cache fc)⟩,
   ⟨"LinkReactionTorqueOnBody2", "Nm", fun s fc => .vec (reactionTorqueOnNode2 s.cache fc)⟩,
   ⟨"LinkReactionTorqueOnBody1AtCOG", "Nm", fun s fc => .vec (reactionTorqueOnBody1AtCOG s.cache s.n1 fc)⟩,
   ⟨"LinkReactionTorqueOnBody2AtCOG", "Nm", fun s fc => .vec (reactionTorqueOnBody2AtCOG s.cache s.n2 fc)⟩,
   ⟨"LinkPower", "kW", fun s _ => .num (0.001 * s.power)⟩] ++ if motorized then motorFields else []

/-- What the log of an equilibrium frame reads. -/
structure EqRow where
  time : ℝ
  eq : Frydom.Hydro.EqFrame

/-- `FrEquilibriumFrame::DefineLogMessages` (hydrodynamics/FrEquilibriumFrame.cpp:185-229). The descriptions say "in the world reference frame" of the two perturbation fields. -/
def eqFields (junk : ℝ) : List (Field EqRow) :=
  [⟨"time", "s", fun s _ => .num s.time⟩,
   ⟨"Position", "m", fun s fc => .vec (s.eq.frame.getPosition fc)⟩,
   ⟨"CardanAngles", "rad", fun s fc => .vec (angles junk s.eq.frame.rot fc)⟩,
   ⟨"VelocityInWorld", "m/s", fun s fc => .vec (s.eq.velocityInWorld fc)⟩,
   ⟨"AngularVelocity", "rad/s", fun s fc => .vec (s.eq.angularVelocity fc)⟩,
   ⟨"PerturbationPosition", "m", fun s fc => .vec (s.eq.perturbation.getPosition fc)⟩,
   ⟨"PerturbationOrientation", "rad", fun s fc => .vec (angles junk s.eq.perturbation.rot fc)⟩]

/-! ## The convention of an object and its file -/

/-- A logged object: its convention, and for its message the convention written in the descriptions (none: not defined yet) and the rows written. -/
structure Log where
  fc : FC
  header : Option FC
  rows : List (List Val)

/-- The calls that matter: `SetLogFrameConvention`, `DefineLogMessages` (by `FrLogManager::Initialize`), `StepFinalizeLog` in a state. -/
inductive Event (S : Type)
  | setFC (fc : FC)
  | define
  | row (s : S)

/-- The constructor (FrLoggable.cpp:19-22). -/
def Log.new : Log := ⟨.NWU, none, []⟩

/-- One call (FrLoggable.cpp:28-33, 43-64). A message defined again is another message: the first keeps its descriptions. -/
def Log.step {S : Type} (F : List (Field S)) (l : Log) : Event S → Log
  | .setFC fc => { l with fc := fc }
  | .define => { l with header := some (l.header.getD l.fc) }
  | .row s => if l.header.isSome then { l with rows := l.rows ++ [F.map fun c => c.value s l.fc] } else l

/-- A history. -/
def Log.run {S : Type} (F : List (Field S)) (evs : List (Event S)) : Log := evs.foldl (Log.step F) Log.new

/-! ## Specification -/

/-- The message has exactly one column of this name; its unit and its values. -/
def Shows {S : Type} (F : List (Field S)) (name unit : String) (v : S → FC → Val) : Prop := F.filter (fun c => c.name == name) = [⟨name, unit, v⟩]

/-- The convention last set. -/
def lastFC {S : Type} : List (Event S) → FC → FC
  | [], fc => fc
  | .setFC fc :: l, _ => lastFC l fc
  | .define :: l, fc => lastFC l fc
  | .row _ :: l, fc => lastFC l fc

/-- The triple `a` are Cardan angles of the orientation `q`: the rotation they describe is the rotation `q`, in the convention. -/
def AreAngles (a : V3) (q : Q) (fc : FC) : Prop := ∀ v, rotate (setCardan fc ⟨a.x, a.y, a.z⟩) fc v = rotate q fc v

/-! ## C176 -/

/-- **C176, bodies.** In the log of a body, in the convention of the log: the positions are those of the origin and of the centre of gravity, the velocity columns are the time derivatives of the position columns,
the acceleration columns those of the velocity columns, the angular velocity is that of the orientation, whose Cardan angles are logged in radians (away from the pitch -90 degrees: C13), and the units go with it. -/
theorem C176_body (junk : ℝ) : ∃ X C A V VC W AX AC AW : ABody → FC → V3,
    (Shows (bodyFields junk) "Time" "s" (fun s _ => .num s.time) ∧ Shows (bodyFields junk) "Position" "m" (fun s fc => .vec (X s.body fc)) ∧
      Shows (bodyFields junk) "COGPositionInWorld" "m" (fun s fc => .vec (C s.body fc)) ∧ Shows (bodyFields junk) "CardanAngles" "rad" (fun s fc => .vec (A s.body fc)) ∧
      Shows (bodyFields junk) "LinearVelocityInWorld" "m/s" (fun s fc => .vec (V s.body fc)) ∧
      Shows (bodyFields junk) "COGLinearVelocityInWorld" "m/s" (fun s fc => .vec (VC s.body fc)) ∧
      Shows (bodyFields junk) "AngularVelocityInWorld" "rad/s" (fun s fc => .vec (W s.body fc)) ∧
      Shows (bodyFields junk) "LinearAccelerationInWorld" "m/s2" (fun s fc => .vec (AX s.body fc)) ∧
      Shows (bodyFields junk) "COGLinearAccelerationInWorld" "m/s2" (fun s fc => .vec (AC s.body fc)) ∧
      Shows (bodyFields junk) "AngularAccelerationInWorld" "rad/s2" (fun s fc => .vec (AW s.body fc))) ∧
    ∀ b : ℝ → ABody, Moving b → ∀ (t : ℝ) (fc : FC),
      X (b t) fc = (b t).body.pointInWorld 0 fc ∧ C (b t) fc = (b t).body.pointInWorld ((b t).body.getCOG fc) fc ∧
      HasVel (fun s => X (b s) fc) (V (b t) fc) t ∧ HasVel (fun s => V (b s) fc) (AX (b t) fc) t ∧
      HasVel (fun s => C (b s) fc) (VC (b t) fc) t ∧ HasVel (fun s => VC (b s) fc) (AC (b t) fc) t ∧
      HasAngVel (fun s => (b s).body.getQuaternion) (conv fc (W (b t) fc)) t ∧ HasVel (fun s => W (b s) fc) (AW (b t) fc) t ∧
      ((b t).body.getQuaternion.toMat.a20 < 1 → AreAngles (A (b t) fc) (b t).body.getQuaternion fc) := by
  refine ⟨fun b fc => b.body.getPosition fc, fun b fc => b.body.cogPositionInWorld fc, fun b fc => angles junk b.body.getQuaternion fc, fun b fc => b.body.linVelWorld fc,
    fun b fc => b.body.cogVelWorld fc, fun b fc => b.body.angVelWorld fc, fun b fc => b.linAccWorld fc, fun b fc => b.cogAccWorld fc, fun b fc => b.angAccWorld fc,
    ⟨rfl, rfl, rfl, rfl, rfl, rfl, rfl, rfl, rfl, rfl⟩, fun b h t fc => ?_⟩
  have hp : Placed (b t).body := ⟨h.unit t, h.placed t⟩
  obtain ⟨-, -, m3, m4, m5, m6, m7, m8, -, -⟩ := C160_motion b h 0 (Node.new (b t).body) t fc
  refine ⟨?_, (C50_points _ hp 0 0 fc).2.2.2, m5, m6, m3, m4, ?_, m8, fun hq v => ?_⟩
  · show _ = (b t).body.getPosition fc + (b t).body.toWorld 0 fc
    have e : (b t).body.toWorld 0 fc = 0 := by
      have := toWorld_conv (b t).body fc 0
      rw [conv_zero] at this
      rw [this]
      have z : (b t).body.cog.rot.rotate 0 = 0 := by ext <;> simp [Q.rotate]
      rw [z, conv_zero]
    rw [e]; ext <;> simp
  · have e : conv fc ((b t).body.angVelWorld fc) = (b t).body.angVelWorld .NWU := by
      show conv fc (conv fc _) = _
      rw [conv_conv]; rfl
    rw [e]; exact m7
  · exact C13_round_trip_rotation_partial junk fc _ (h.unit t) hq fc v

/-- **C176, nodes.** In the log of a node carried by a body that moves, the position is that of the node, its derivative is the velocity logged, the derivative of which is the acceleration logged; the position in the body
is a constant, and is that of the logged point. -/
theorem C176_node : ∃ X V A P : NodeRow → FC → V3,
    (Shows nodeFields "time" "s" (fun s _ => .num s.time) ∧ Shows nodeFields "PositionInWorld" "m" (fun s fc => .vec (X s fc)) ∧
      Shows nodeFields "VelocityInWorld" "m/s" (fun s fc => .vec (V s fc)) ∧ Shows nodeFields "AccelerationInWorld" "m/s²" (fun s fc => .vec (A s fc)) ∧
      Shows nodeFields "NodePositionInBody" "m" (fun s fc => .vec (P s fc))) ∧
    ∀ (b : ℝ → ABody) (n : Node), Moving b → n.rel.rot.IsUnit → ∀ r : ℝ → NodeRow, (∀ t, r t = ⟨t, b t, n.refresh (b t).body⟩) → ∀ (t t' : ℝ) (fc : FC),
      HasVel (fun s => X (r s) fc) (V (r t) fc) t ∧ HasVel (fun s => V (r s) fc) (A (r t) fc) t ∧ P (r t) fc = P (r t') fc ∧
      X (r t) fc = (b t).body.pointInWorld (P (r t) fc) fc := by
  refine ⟨fun s fc => s.node.positionInWorld fc, fun s fc => s.node.velocityInWorld fc, fun s fc => s.node.accelerationInWorld s.body fc, fun s fc => s.node.positionInBody s.body.body fc,
    ⟨rfl, rfl, rfl, rfl, rfl⟩, fun b n h hn r hr t t' fc => ?_⟩
  obtain ⟨-, -, -, -, -, -, -, -, m9, m10⟩ := C160_motion b h 0 n t fc
  have hp : Placed (b t).body := ⟨h.unit t, h.placed t⟩
  simp only [hr]
  refine ⟨m9, m10, ?_, ?_⟩
  · show ((n.refresh (b t).body).frameInBody (b t).body).getPosition fc = ((n.refresh (b t').body).frameInBody (b t').body).getPosition fc
    have e : (b t).body.getCOG .NWU = (b t').body.getCOG .NWU := congrArg (conv .NWU) (h.cogFixed t t')
    unfold Node.frameInBody
    rw [e]
    rfl
  · exact (C54_attached (b t).body hp _ (refresh_attached n (b t).body hn) fc).2.1

/-- **C176, forces.** The force and the torque at the centre of gravity logged in the axes of the body are those logged in the axes of the world; together they are the load. -/
theorem C176_force : ∃ FB TB FW TW : ForceRow → FC → V3,
    (Shows forceFields "time" "s" (fun s _ => .num s.time) ∧ Shows forceFields "ForceInBody" "N" (fun s fc => .vec (FB s fc)) ∧
      Shows forceFields "TorqueInBodyAtCOG" "Nm" (fun s fc => .vec (TB s fc)) ∧ Shows forceFields "ForceInWorld" "N" (fun s fc => .vec (FW s fc)) ∧
      Shows forceFields "TorqueInWorldAtCOG" "Nm" (fun s fc => .vec (TW s fc))) ∧
    ∀ s : ForceRow, Placed s.body → ∀ fc, s.body.toWorld (FB s fc) fc = FW s fc ∧ s.body.toWorld (TB s fc) fc = TW s fc ∧
      IsLoad s.force s.body fc (FW s fc) (TW s fc) (s.body.cogPositionInWorld fc) := by
  refine ⟨fun s fc => s.force.getForceInBody s.body fc, fun s fc => s.force.getTorqueInBodyAtCOG fc, fun s fc => s.force.getForceInWorld fc,
    fun s fc => s.force.getTorqueInWorldAtCOG s.body fc, ⟨rfl, rfl, rfl, rfl, rfl⟩, fun s h fc => ⟨(C52_readings s.force s.body h 0 fc).2.2.2.2, rfl, ?_⟩⟩
  have := (C52_cog_force_keeps_torque s.force s.body (s.force.getForceInWorld fc) fc).2
  have e : s.force.setForceInWorldAtCOG (s.force.getForceInWorld fc) fc = s.force := by
    unfold Force.setForceInWorldAtCOG Force.getForceInWorld
    rw [conv_conv]
  rw [e] at this
  exact this

/-- **C176, links (in NWU).** In the log of a link: position, velocity, acceleration of node 2 relative to node 1 are derivatives of each other, the angular velocity is that of the relative orientation, whose angles are
logged in radians; the reactions logged for the two bodies balance; the power is in kilowatts. -/
theorem C176_link (junk : ℝ) (motorized : Bool) : ∃ X V A O W B : Cache → FC → V3, ∃ F1 F2 T1 T2 : LinkRow → FC → V3,
    (Shows (linkFields junk motorized) "PositionOfNode2WRTNode1" "m" (fun s fc => .vec (X s.cache fc)) ∧
      Shows (linkFields junk motorized) "VelocityOfNode2WRTNode1" "m/s" (fun s fc => .vec (V s.cache fc)) ∧
      Shows (linkFields junk motorized) "AccelerationOfNode2WRTNode1" "m/s^2" (fun s fc => .vec (A s.cache fc)) ∧
      Shows (linkFields junk motorized) "OrientationOfNode2WRTNode1" "rad" (fun s fc => .vec (O s.cache fc)) ∧
      Shows (linkFields junk motorized) "AngularVelocityOfNode2WRTNode1" "rad/s" (fun s fc => .vec (W s.cache fc)) ∧
      (∃ u, Shows (linkFields junk motorized) "AngularAccelerationOfNode2WRTNode1" u (fun s fc => .vec (B s.cache fc))) ∧
      Shows (linkFields junk motorized) "LinkReactionForceOnBody1" "N" (fun s fc => .vec (F1 s fc)) ∧
      Shows (linkFields junk motorized) "LinkReactionForceOnBody2" "N" (fun s fc => .vec (F2 s fc)) ∧
      Shows (linkFields junk motorized) "LinkReactionTorqueOnBody1AtCOG" "Nm" (fun s fc => .vec (T1 s fc)) ∧
      Shows (linkFields junk motorized) "LinkReactionTorqueOnBody2AtCOG" "Nm" (fun s fc => .vec (T2 s fc)) ∧
      Shows (linkFields junk motorized) "LinkPower" "kW" (fun s _ => .num (s.power / 1000))) ∧
    (∀ (m : Motion) (t : ℝ), HasVel (fun s => X (m.cache s) .NWU) (V (m.cache t) .NWU) t ∧ HasVel (fun s => V (m.cache s) .NWU) (A (m.cache t) .NWU) t ∧
      HasAngVel (fun s => (m.cache s).frame2WRT1.rot) (W (m.cache t) .NWU) t ∧ HasVel (fun s => W (m.cache s) .NWU) (B (m.cache t) .NWU) t ∧
      ∀ fc, (m.cache t).frame2WRT1.rot.IsUnit → (m.cache t).frame2WRT1.rot.toMat.a20 < 1 → AreAngles (O (m.cache t) fc) (m.cache t).frame2WRT1.rot fc) ∧
    ∀ (s : LinkRow) (c : ChLink) (B1 B2 : Frame), s.cache = generateCache c → B1.Valid → B2.Valid → s.n1.Valid → s.n2.Valid →
      c.relM = (B1.mul s.n1).otherWrtThis (B2.mul s.n2) → ∀ (fc : FC) (a : V3),
        (Wrench.ofBody B1 (F1 s fc) (T1 s fc) fc).force + (Wrench.ofBody B2 (F2 s fc) (T2 s fc) fc).force = 0 ∧
        (Wrench.ofBody B1 (F1 s fc) (T1 s fc) fc).momentAbout a + (Wrench.ofBody B2 (F2 s fc) (T2 s fc) fc).momentAbout a = 0 := by
  refine ⟨node2PositionWRTNode1, velocityOfNode2WRTNode1, accelerationOfNode2WRTNode1, fun k fc => angles junk k.frame2WRT1.rot fc, angularVelocityOfNode2WRTNode1,
    angularAccelerationOfNode2WRTNode1, fun s fc => reactionForceOnBody1 s.cache s.n1 fc, fun s fc => reactionForceOnBody2 s.cache s.n2 fc,
    fun s fc => reactionTorqueOnBody1AtCOG s.cache s.n1 fc, fun s fc => reactionTorqueOnBody2AtCOG s.cache s.n2 fc, ?_, fun m t => ?_, ?_⟩
  · have e : (fun (s : LinkRow) (_ : FC) => Val.num (s.power / 1000)) = fun s _ => Val.num (0.001 * s.power) := by
      funext s _; congr 1; ring
    rw [e]
    cases motorized
    · exact ⟨rfl, rfl, rfl, rfl, rfl, ⟨_, rfl⟩, rfl, rfl, rfl, rfl, rfl⟩
    · exact ⟨rfl, rfl, rfl, rfl, rfl, ⟨_, rfl⟩, rfl, rfl, rfl, rfl, rfl⟩
  · obtain ⟨h1, h2, h3, h4⟩ := C48_node2 m t
    exact ⟨h1, h3, h2, h4, fun fc hu hq v => C13_round_trip_rotation_partial junk fc _ hu hq fc v⟩
  · intro s c B1 B2 hs h1 h2 k1 k2 hrel fc a
    simp only [hs]
    exact C47_action_reaction c B1 B2 s.n1 s.n2 h1 h2 k1 k2 hrel fc a

/-- **C176, links, defects.** The angular acceleration is labelled "m/s^2"; in a log in NED the velocity column is not the derivative of the position column as soon as the nodes have a relative velocity along y. -/
theorem C176_link_wrong (junk : ℝ) (motorized : Bool) :
    (∃ v, Shows (linkFields junk motorized) "AngularAccelerationOfNode2WRTNode1" "m/s^2" v) ∧
    ∀ X V : Cache → FC → V3, Shows (linkFields junk motorized) "PositionOfNode2WRTNode1" "m" (fun s fc => .vec (X s.cache fc)) →
      Shows (linkFields junk motorized) "VelocityOfNode2WRTNode1" "m/s" (fun s fc => .vec (V s.cache fc)) →
      ∀ (m : Motion) (t : ℝ), (m.vel t).y ≠ 0 → ¬ HasVel (fun s => X (m.cache s) .NED) (V (m.cache t) .NED) t := by
  refine ⟨⟨_, by cases motorized <;> rfl⟩, fun X V hX hV m t hy => ?_⟩
  have hx : X = node2PositionWRTNode1 := by
    have h0 : Shows (linkFields junk motorized) "PositionOfNode2WRTNode1" "m" (fun s fc => .vec (node2PositionWRTNode1 s.cache fc)) := by cases motorized <;> rfl
    unfold Shows at hX h0
    rw [hX] at h0
    injection h0 with h0 _
    injection h0 with _ _ h0
    funext k fc
    have := congrFun (congrFun h0 ⟨0, k, Frame.identity, Frame.identity, 0, .linear 0, 0⟩) fc
    exact Val.vec.inj this
  have hv : V = velocityOfNode2WRTNode1 := by
    have h0 : Shows (linkFields junk motorized) "VelocityOfNode2WRTNode1" "m/s" (fun s fc => .vec (velocityOfNode2WRTNode1 s.cache fc)) := by cases motorized <;> rfl
    unfold Shows at hV h0
    rw [hV] at h0
    injection h0 with h0 _
    injection h0 with _ _ h0
    funext k fc
    have := congrFun (congrFun h0 ⟨0, k, Frame.identity, Frame.identity, 0, .linear 0, 0⟩) fc
    exact Val.vec.inj this
  rw [hx, hv]
  exact (C48_ned_counterexample m t).2.2 hy

/-- **C176, power of the motor (defect).** The power logged under "kW" is in watts: a thousand times the value in kilowatts, for every motor at work; next to it the power of the link is divided. -/
theorem C176_motor_power_wrong (junk : ℝ) : ∃ v : LinkRow → FC → ℝ, Shows (linkFields junk true) "MotorPower" "kW" (fun s fc => .num (v s fc)) ∧
    ∀ (s : LinkRow) (fc : FC), (∀ f, s.motor = .linear f → v s fc = 1000 * (f * s.rate / 1000)) ∧ (∀ q, s.motor = .angular q → v s fc = 1000 * (q * s.rate / 1000)) ∧
      (v s fc ≠ 0 → v s fc ≠ v s fc / 1000) := by
  refine ⟨fun s _ => motorPower s.motor s.rate, rfl, fun s fc => ⟨fun f hf => ?_, fun q hq => ?_, fun h0 h => ?_⟩⟩
  · show motorPower s.motor s.rate = _
    rw [hf]; unfold motorPower; ring
  · show motorPower s.motor s.rate = _
    rw [hq]; unfold motorPower; ring
  · apply h0
    have : (fun (s : LinkRow) (_ : FC) => motorPower s.motor s.rate) s fc * (1 - 1 / 1000) = 0 := by
      linear_combination h
    rcases mul_eq_zero.mp this with h | h
    · exact h
    · norm_num at h

/-- **C176, equilibrium frames.** Position and angles are those of the equilibrium frame in the world; the perturbation position is the vector from it to the point of the body it follows, along the axes **of the equilibrium
frame** (with the angles of the rotation from one to the other). -/
theorem C176_equilibrium (junk : ℝ) : ∃ X A P O : Hydro.EqFrame → FC → V3,
    (Shows (eqFields junk) "Position" "m" (fun s fc => .vec (X s.eq fc)) ∧ Shows (eqFields junk) "CardanAngles" "rad" (fun s fc => .vec (A s.eq fc)) ∧
      Shows (eqFields junk) "PerturbationPosition" "m" (fun s fc => .vec (P s.eq fc)) ∧ Shows (eqFields junk) "PerturbationOrientation" "rad" (fun s fc => .vec (O s.eq fc))) ∧
    ∀ (e : Hydro.EqFrame) (fc : FC), e.getFrame.Valid → e.node.frameInWorld.Valid →
      X e fc = e.positionInWorld fc ∧ (e.getRotation.toMat.a20 < 1 → AreAngles (A e fc) e.getRotation fc) ∧
      e.getFrame.projFrameInParent (P e fc) fc = e.node.positionInWorld fc - e.positionInWorld fc ∧
      ∃ q : Q, (∀ v, rotate e.getRotation fc (rotate q fc v) = rotate e.node.frameInWorld.rot fc v) ∧ (q.toMat.a20 < 1 → AreAngles (O e fc) q fc) := by
  refine ⟨fun e fc => e.frame.getPosition fc, fun e fc => angles junk e.frame.rot fc, fun e fc => e.perturbation.getPosition fc, fun e fc => angles junk e.perturbation.rot fc,
    ⟨rfl, rfl, rfl, rfl⟩, fun e fc he hn => ⟨rfl, fun h v => C13_round_trip_rotation_partial junk fc _ he h fc v, ?_, e.perturbation.rot, fun v => ?_, fun h v =>
      C13_round_trip_rotation_partial junk fc _ (he.conj.mul hn) h fc v⟩⟩
  · show rotate e.frame.rot fc (conv fc e.perturbation.pos) = conv fc e.node.abs.pos - conv fc e.frame.pos
    have h0 : e.perturbation.pos = e.frame.rot.conj.rotate (e.node.abs.pos - e.frame.pos) := by
      show -(e.frame.rot.conj.rotate e.frame.pos) + e.frame.rot.conj.rotate e.node.abs.pos = _
      rw [Q.rotate_sub]; ext <;> simp <;> ring
    rw [h0]
    show conv fc (e.frame.rot.rotate (conv fc (conv fc (e.frame.rot.conj.rotate (e.node.abs.pos - e.frame.pos))))) = _
    rw [conv_conv, Q.rotate_conj' (show e.frame.rot.IsUnit from he), conv_sub]
  · obtain ⟨v, rfl⟩ := exists_conv fc v
    show conv fc (e.frame.rot.rotate (conv fc (conv fc (e.perturbation.rot.rotate (conv fc (conv fc v)))))) = conv fc (e.node.abs.rot.rotate (conv fc (conv fc v)))
    simp only [conv_conv]
    have : e.perturbation.rot = e.frame.rot.conj.mul e.node.abs.rot := rfl
    rw [this, Q.rotate_mul (Q.IsUnit.conj (show e.frame.rot.IsUnit from he)) (show e.node.abs.rot.IsUnit from hn), Q.rotate_conj' (show e.frame.rot.IsUnit from he)]

/-- **C176, equilibrium frames (defect).** The description of the perturbation position says that it is in the world frame: it is not, as soon as the equilibrium frame is turned (here by a quarter turn, the body being one
metre north of it). -/
theorem C176_equilibrium_wrong (junk : ℝ) : ∃ P : Hydro.EqFrame → FC → V3, Shows (eqFields junk) "PerturbationPosition" "m" (fun s fc => .vec (P s.eq fc)) ∧
    ∃ e : Hydro.EqFrame, e.getFrame.Valid ∧ e.node.frameInWorld.Valid ∧ e.node.positionInWorld .NWU - e.positionInWorld .NWU = ⟨1, 0, 0⟩ ∧ P e .NWU = ⟨0, -1, 0⟩ := by
  refine ⟨fun e fc => e.perturbation.getPosition fc, rfl, ⟨⟨0, ⟨√2 / 2, 0, 0, √2 / 2⟩⟩, { Node.new Body.new with abs := ⟨⟨1, 0, 0⟩, Q.one⟩ }, 0, 0, false, 0⟩, ?_, Q.isUnit_one, ?_, ?_⟩
  · show Q.IsUnit _
    have h2 : √2 * √2 = 2 := Real.mul_self_sqrt (by norm_num)
    show (√2 / 2) ^ 2 + 0 ^ 2 + 0 ^ 2 + (√2 / 2) ^ 2 = (1 : ℝ)
    linear_combination h2 / 2
  · ext <;> simp [Node.positionInWorld, Node.frameInWorld, Hydro.EqFrame.positionInWorld, Frame.getPosition, conv]
  · have h2 : √2 * √2 = 2 := Real.mul_self_sqrt (by norm_num)
    ext <;> simp [Hydro.EqFrame.perturbation, Frame.getPosition, Frame.mul, Frame.inv, conv, Q.rotate, Q.toMat, Q.conj, Node.frameInWorld] <;> nlinarith

theorem run_snoc {S : Type} (F : List (Field S)) (l : List (Event S)) (e : Event S) : Log.run F (l ++ [e]) = (Log.run F l).step F e := by
  unfold Log.run; rw [List.foldl_append]; rfl

theorem lastFC_append {S : Type} (l l' : List (Event S)) : ∀ fc, lastFC (l ++ l') fc = lastFC l' (lastFC l fc) := by
  induction l with
  | nil => intro fc; rfl
  | cons e l ih => intro fc; cases e <;> exact ih _

theorem run_fc {S : Type} (F : List (Field S)) (l : List (Event S)) : (Log.run F l).fc = lastFC l .NWU := by
  induction l using List.reverseRecOn with
  | nil => rfl
  | append_singleton l e ih =>
    rw [run_snoc, lastFC_append]
    cases e with
    | setFC fc => rfl
    | define => exact ih
    | row s => simp only [Log.step]; split <;> exact ih

theorem run_header {S : Type} (F : List (Field S)) (l l' : List (Event S)) (h : ∀ e ∈ l, e ≠ .define) : (Log.run F (l ++ .define :: l')).header = some (lastFC l .NWU) := by
  have h0 : (Log.run F l).header = none := by
    clear l'
    induction l using List.reverseRecOn with
    | nil => rfl
    | append_singleton l e ih =>
      have ih := ih fun x hx => h x (by simp [hx])
      rw [run_snoc]
      cases e with
      | setFC fc => exact ih
      | define => exact absurd rfl (h .define (by simp))
      | row s => simp only [Log.step]; split <;> exact ih
  induction l' using List.reverseRecOn with
  | nil => rw [run_snoc]; simp only [Log.step, h0, Option.getD_none, run_fc]
  | append_singleton l' e ih =>
    have e1 : l ++ Event.define :: (l' ++ [e]) = (l ++ Event.define :: l') ++ [e] := by simp
    rw [e1, run_snoc]
    cases e with
    | setFC fc => exact ih
    | define => simp only [Log.step, ih, Option.getD_some]
    | row s => simp only [Log.step]; split <;> exact ih

/-- **C176, convention.** The descriptions of a file give the convention of the object when the file was opened; each row is in the convention of the object when it is written. So they agree when no convention is set in
between. -/
theorem C176_convention {S : Type} (F : List (Field S)) (before after : List (Event S)) (hb : ∀ e ∈ before, e ≠ .define) (s : S) :
    (Log.run F (before ++ .define :: (after ++ [.row s]))).header = some (lastFC before .NWU) ∧
    (Log.run F (before ++ .define :: (after ++ [.row s]))).rows.getLast? = some (F.map fun c => c.value s (lastFC after (lastFC before .NWU))) ∧
    ((∀ fc, .setFC fc ∉ after) → lastFC after (lastFC before .NWU) = lastFC before .NWU) := by
  refine ⟨run_header F before _ hb, ?_, fun h => ?_⟩
  · have e1 : before ++ Event.define :: (after ++ [Event.row s]) = (before ++ Event.define :: after) ++ [.row s] := by simp
    rw [e1, run_snoc]
    have hh := run_header F before after hb
    simp only [Log.step, hh, Option.isSome_some, if_true]
    rw [List.getLast?_concat, run_fc, lastFC_append]
    rfl
  · generalize lastFC before .NWU = fc
    clear hb
    induction after with
    | nil => rfl
    | cons e l ih =>
      have ih := ih fun fc hm => h fc (by simp [hm])
      cases e with
      | setFC fc => exact absurd (by simp) (h fc)
      | define => exact ih
      | row s => exact ih

/-- **C176, convention (defect).** A convention set after the start of a simulation changes the rows, not the descriptions: a body off the axes is then logged at a point where it is not. -/
theorem C176_convention_wrong (junk : ℝ) (s : BodyRow) (hy : s.body.body.refPos.y ≠ 0) :
    (Log.run (bodyFields junk) [.define, .setFC .NED, .row s]).header = some .NWU ∧
    ∃ row v, (Log.run (bodyFields junk) [.define, .setFC .NED, .row s]).rows = [row] ∧ row[1]? = some (.vec v) ∧ v ≠ s.body.body.getPosition .NWU := by
  refine ⟨rfl, _, s.body.body.getPosition .NED, rfl, rfl, fun h => hy ?_⟩
  have := congrArg V3.y h
  simp [Body.getPosition, conv, swap] at this
  linarith

/-- Node 2 slides along y at 2 m/s. -/
def sideways : Motion where
  frame t := ⟨⟨0, 2 * t, 0⟩, Q.one⟩
  vel _ := ⟨0, 2, 0⟩
  angVel _ := 0
  acc _ := 0
  angAcc _ := 0
  valid t := Q.isUnit_one
  hvel t := ⟨hasDerivAt_const _ _, by simpa using (hasDerivAt_id t).const_mul 2, hasDerivAt_const _ _⟩
  hang t := by
    intro u
    have e : V3.cross 0 (Q.one.rotate u) = 0 := by ext <;> simp
    show HasVel (fun _ => Q.one.rotate u) (V3.cross 0 (Q.one.rotate u)) t
    rw [e]
    exact ⟨hasDerivAt_const _ _, hasDerivAt_const _ _, hasDerivAt_const _ _⟩
  hacc t := ⟨hasDerivAt_const _ _, hasDerivAt_const _ _, hasDerivAt_const _ _⟩
  hangAcc t := ⟨hasDerivAt_const _ _, hasDerivAt_const _ _, hasDerivAt_const _ _⟩

/-- The hypotheses are met: a body turning on a table, a link whose nodes slide sideways, a motor at work, a body beside the axis. -/
example : (Moving (turntable 1) ∧ (turntable 1 0).body.getQuaternion.toMat.a20 < 1) ∧ ((sideways.cache 0).frame2WRT1.rot.IsUnit ∧ (sideways.cache 0).frame2WRT1.rot.toMat.a20 < 1 ∧
    (sideways.vel 0).y ≠ 0) ∧ motorPower (.linear 500) 2 ≠ 0 ∧ ∃ b : Body, Placed b ∧ b.refPos.y ≠ 0 := by
  refine ⟨⟨turntable_moving 1, ?_⟩, ⟨?_, ?_, ?_⟩, ?_, ⟨⟨⟨0, 5, 0⟩, Q.one⟩, 0, ⟨0, 0, 0, 0⟩, 0, ⟨0, 5, 0⟩, 0⟩, ?_, ?_⟩
  · simp [turntable, Body.getQuaternion, Q.ofAngAxis, V3.e3, Q.toMat]
  · exact Q.isUnit_one
  · simp [Motion.cache, Motion.chLink, generateCache, sideways, Q.one, Q.toMat]
  · simp [sideways]
  · simp [motorPower]
  · exact ⟨Q.isUnit_one, by ext <;> simp [Q.rotate]⟩
  · simp

end Frydom.Core.LogColumns
