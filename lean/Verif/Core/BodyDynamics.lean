import Verif.Core.BodyAccel
import Verif.Core.MassBody

/-!
# Loads, speed limits and time step of a body (C161, C162, C163, C164)

`src/frydom/core/body/FrBody.cpp:140-207, 214-228, 459-493, 563-583`.
-/

open Classical

noncomputable section

namespace Frydom.Core
open Frydom.Geom
open Frydom.Link (HasVel)

/-- A body with what Chrono's `ChBody` keeps for the dynamics. `limitSpeed`, `maxSpeed`, `maxWvel`: speed limits; `forceAcc`, `torqueAcc`: force accumulators (world axes; body axes at
the COG); `gyro`: gyroscopic torque in body axes. Simplified: `fixed` stands for the whole of `!IsActive()` (fixed or sleeping); the casts of the limits to `float` are the identity. -/
structure DBody where
  a : ABody
  mass : ℝ
  I : M3
  forceAcc : V3 := 0
  torqueAcc : V3 := 0
  limitSpeed : Bool := false
  /-- `DEFAULT_MAX_SPEED` (FrBody.h:34, FrBody.cpp:218) -/
  maxSpeed : ℝ := 10
  /-- `DEFAULT_MAX_ROTATION_SPEED` (FrBody.h:35, FrBody.cpp:219) -/
  maxWvel : ℝ := 180 * (Real.pi / 180)
  active : Bool := true
  noGyro : Bool := false
  gyro : V3 := 0

namespace DBody

/-- The position and velocity part. -/
def body (b : DBody) : Body := b.a.body

/-! ## Chrono primitives (external) -/

/-- The sum of the forces (world axes). -/
def sumForce : List Force → V3
  | [] => 0
  | f :: L => f.force + sumForce L
/-- The sum of the torques (body axes, at the COG). -/
def sumTorque : List Force → V3
  | [] => 0
  | f :: L => f.torque + sumTorque L
/-- `Get_Xforce` after `ChBody::UpdateForces`: accumulator, forces added to the body and weight `m G` with `G = (0, 0, -g)`. -/
def xForce (b : DBody) (g : ℝ) (L : List Force) : V3 := b.forceAcc + sumForce L + (-(b.mass * g)) • V3.e3
/-- `Get_Xtorque` after `ChBody::UpdateForces`. -/
def xTorque (b : DBody) (L : List Force) : V3 := b.torqueAcc + sumTorque L
/-- `ChBody::Accumulate_force(force, point, local = true)` with the point at the COG: the force is turned to world axes and added; it has no torque. -/
def accumulateAtCOG (b : DBody) (f : V3) : DBody := { b with forceAcc := b.forceAcc + b.body.cog.rot.rotate f }
/-- `ChBody::Empty_forces_accumulators`. -/
def emptyAccumulators (b : DBody) : DBody := { b with forceAcc := 0, torqueAcc := 0 }
/-- `ChQuaternion::Length`. -/
def qlen (q : Q) : ℝ := Real.sqrt (q.e0 ^ 2 + q.e1 ^ 2 + q.e2 ^ 2 + q.e3 ^ 2)
/-- Product of a quaternion by a number. -/
def qscale (c : ℝ) (q : Q) : Q := ⟨c * q.e0, c * q.e1, c * q.e2, c * q.e3⟩
/-- Rotation part of `ChBody::ClampSpeed`. -/
def clampRot (m : ℝ) (q' : Q) : Q := if 2 * qlen q' > m then qscale (m / (2 * qlen q')) q' else q'
/-- Translation part of `ChBody::ClampSpeed`. -/
def clampPos (m : ℝ) (v : V3) : V3 := if V3.norm v > m then (m / V3.norm v) • v else v
/-- `ChBody::ClampSpeed`: nothing unless the limits are active. -/
def clampSpeed (b : DBody) : DBody :=
  if b.limitSpeed then
    { b with a := { b.a with body := { b.a.body with posDt := clampPos b.maxSpeed b.a.body.posDt, rotDt := clampRot b.maxWvel b.a.body.rotDt } } }
  else b
/-- `ChFrameMoving::GetWvel_loc`. -/
def wvelLoc (b : DBody) : V3 := b.body.cog.rot.conj.rotate b.body.wvelPar
/-- `ChBody::ComputeGyro`: `w x (I w)` in body axes. -/
def computeGyro (b : DBody) : DBody := { b with gyro := V3.cross b.wvelLoc (b.I.mulVec b.wvelLoc) }
/-- `ChVector::Normalize`: the null vector becomes the x axis. -/
def chNormalize (v : V3) : V3 := if V3.norm v = 0 then V3.e1 else (V3.norm v)⁻¹ • v

/-! ## FrBody -/

/-- `GetTotalExtForceInWorld` (FrBody.cpp:563-568). -/
def totalForceWorld (b : DBody) (g : ℝ) (L : List Force) (fc : FC) : V3 := conv fc (b.xForce g L)
/-- `GetTotalExtForceInBody` (FrBody.cpp:570-572). -/
def totalForceBody (b : DBody) (g : ℝ) (L : List Force) (fc : FC) : V3 := b.body.toBody (b.totalForceWorld g L fc) fc
/-- `GetTotalExtTorqueInBodyAtCOG` (FrBody.cpp:574-578). -/
def totalTorqueBody (b : DBody) (L : List Force) (fc : FC) : V3 := conv fc (b.xTorque L)
/-- `GetTotalExtTorqueInWorldAtCOG` (FrBody.cpp:580-582). -/
def totalTorqueWorld (b : DBody) (L : List Force) (fc : FC) : V3 := b.body.toWorld (b.totalTorqueBody L fc) fc

/-- `RemoveGravity` (FrBody.cpp:480-493). -/
def removeGravity (b : DBody) (val : Bool) : DBody :=
  if val then b.accumulateAtCOG (b.mass • b.body.cog.rot.conj.rotate ⟨0, 0, 9.81⟩) else b.emptyAccumulators

/-- `ActivateSpeedLimits` (FrBody.cpp:459-466). -/
def activateSpeedLimits (b : DBody) (on : Bool) : DBody := { b with limitSpeed := on }
/-- `SetMaxSpeed` (FrBody.cpp:468-472). -/
def setMaxSpeed (b : DBody) (v : ℝ) : DBody := ({ b with maxSpeed := v } : DBody).activateSpeedLimits true
/-- `SetMaxRotationSpeed` (FrBody.cpp:474-478). -/
def setMaxRotationSpeed (b : DBody) (w : ℝ) : DBody := ({ b with maxWvel := w } : DBody).activateSpeedLimits true

/-- `FrBodyBase::VariablesFbLoadForces` (FrBody.cpp:145-154), on the right-hand side `(f, t)`. -/
def fbLoadForces (b : DBody) (g : ℝ) (L : List Force) (factor : ℝ) (fb : V3 × V3) : V3 × V3 :=
  (fb.1 + factor • b.xForce g L, fb.2 + factor • (if b.noGyro then b.xTorque L else b.xTorque L - b.gyro))

/-- `FrBodyBase::VariablesQbLoadSpeed` (FrBody.cpp:160-163): velocity of the COG in world axes, angular velocity in body axes. -/
def qbLoadSpeed (b : DBody) : V3 × V3 := (b.body.posDt, b.wvelLoc)

/-- `FrBodyBase::VariablesQbSetSpeed` (FrBody.cpp:165-183). External (Chrono): `SetWvel_loc` is `q' = q w / 2`. The cached velocity of the reference frame is not changed. -/
def qbSetSpeed (b : DBody) (qb : V3 × V3) (step : ℝ) : DBody :=
  let old := b.body
  let set : DBody := { b with a := { b.a with body := { b.a.body with posDt := qb.1, rotDt := qhalf (b.body.cog.rot.mul (qpure qb.2)) } } }
  let b' := set.clampSpeed.computeGyro
  if step ≠ 0 then
    { b' with a := { b'.a with posDtdt := (1 / step) • (b'.body.posDt - old.posDt),
                               rotDtdt := qscale (1 / step) (qadd b'.body.rotDt (qscale (-1) old.rotDt)) } }
  else b'

/-- `FrBodyBase::VariablesQbIncrementPosition` (FrBody.cpp:185-207). The cached frame of the reference point is not changed. -/
def qbIncrementPosition (b : DBody) (qb : V3 × V3) (dt : ℝ) : DBody :=
  if b.active then
    let wabs := b.body.cog.rot.rotate qb.2
    let angle := V3.norm wabs * dt
    let delta := Q.ofAngAxis angle (chNormalize wabs)
    { b with a := { b.a with body := { b.a.body with cog := ⟨b.body.cog.pos + dt • qb.1, delta.mul b.body.cog.rot⟩ } } }
  else b

end DBody
open DBody

/-! ## C161 -/

/-- The forces on the body as loads: a force (world axes), a couple and a point of the world. -/
def sumLoads : List (V3 × V3 × V3) → V3
  | [] => 0
  | l :: L => l.1 + sumLoads L
/-- Their moment about a point. -/
def sumMoments (c : V3) : List (V3 × V3 × V3) → V3
  | [] => 0
  | l :: L => l.2.1 + V3.cross (l.2.2 - c) l.1 + sumMoments c L

/-- **C161, totals.** When each force on the body is a load (a force and a couple at a point, however it was set) and nothing was accumulated, the total force read is the sum of the
forces and of the weight, the total torque read is the sum of the moments about the COG, in both conventions and in world and body axes. -/
theorem C161_total (b : DBody) (h : Placed b.body) (h0 : b.forceAcc = 0) (h1 : b.torqueAcc = 0) (g : ℝ) (fc : FC) (L : List (Force × V3 × V3 × V3))
    (hL : ∀ l ∈ L, IsLoad l.1 b.body fc l.2.1 l.2.2.1 l.2.2.2) :
    b.totalForceWorld g (L.map Prod.fst) fc = sumLoads (L.map Prod.snd) + b.mass • conv fc ((-g) • V3.e3) ∧
    b.totalTorqueWorld (L.map Prod.fst) fc = sumMoments (b.body.cogPositionInWorld fc) (L.map Prod.snd) ∧
    b.body.toWorld (b.totalForceBody g (L.map Prod.fst) fc) fc = b.totalForceWorld g (L.map Prod.fst) fc ∧
    b.body.toWorld (b.totalTorqueBody (L.map Prod.fst) fc) fc = b.totalTorqueWorld (L.map Prod.fst) fc := by
  have hF : conv fc (sumForce (L.map Prod.fst)) = sumLoads (L.map Prod.snd) := by
    induction L with
    | nil => exact conv_zero fc
    | cons l L ih =>
      show conv fc (l.1.force + sumForce (L.map Prod.fst)) = l.2.1 + sumLoads (L.map Prod.snd)
      rw [conv_add, ih fun l' hl' => hL l' (List.mem_cons_of_mem _ hl')]
      congr 1
      exact (hL l (List.mem_cons_self ..)).1
  have hT : b.body.toWorld (conv fc (sumTorque (L.map Prod.fst))) fc = sumMoments (b.body.cogPositionInWorld fc) (L.map Prod.snd) := by
    clear hF
    induction L with
    | nil =>
      show b.body.toWorld (conv fc 0) fc = 0
      rw [toWorld_conv, rotate_zero, conv_zero]
    | cons l L ih =>
      show b.body.toWorld (conv fc (l.1.torque + sumTorque (L.map Prod.fst))) fc = l.2.2.1 + V3.cross (l.2.2.2 - _) l.2.1 + sumMoments _ (L.map Prod.snd)
      rw [← ih fun l' hl' => hL l' (List.mem_cons_of_mem _ hl'), toWorld_conv, toWorld_conv, Q.rotate_add, conv_add]
      congr 1
      have := (hL l (List.mem_cons_self ..)).2 (b.body.cogPositionInWorld fc)
      rw [← this]
      unfold Force.getTorqueInWorldAtPointInWorld Force.getTorqueInWorldAtCOG Force.getTorqueInBodyAtCOG
      rw [toWorld_conv]
      ext <;> simp
  refine ⟨?_, ?_, toWorld_toBody h _ fc, rfl⟩
  · unfold totalForceWorld xForce
    rw [h0, conv_add, conv_add, hF, conv_zero, conv_smul, conv_smul]
    ext <;> simp <;> ring
  · unfold totalTorqueWorld totalTorqueBody xTorque
    rw [h1, ← hT]
    congr 2
    ext <;> simp

/-- A call in the life of a body whose weight may be removed: `RemoveGravity(val)` or a move (FrBody's position calls). -/
inductive GOp where
  | removeGravity (val : Bool)
  | move (o : Op)

/-- Its effect. -/
def GOp.run (b : DBody) : GOp → DBody
  | .removeGravity v => b.removeGravity v
  | .move o => { b with a := { b.a with body := o.run b.a.body } }

/-- The moves are valid (rotations are unit quaternions). -/
def GOp.Valid : GOp → Prop
  | .removeGravity _ => True
  | .move o => o.Valid

/-- The number of `RemoveGravity(true)` since the last `RemoveGravity(false)`. -/
def pendingRemovals (h : List GOp) : ℕ :=
  ((h.reverse.takeWhile fun o => match o with | .removeGravity false => false | _ => true).filter fun o => match o with | .removeGravity true => true | _ => false).length

theorem removeGravity_true (b : DBody) (h : b.body.cog.rot.IsUnit) : (b.removeGravity true).forceAcc = b.forceAcc + (b.mass * 9.81) • V3.e3 := by
  show b.forceAcc + b.body.cog.rot.rotate (b.mass • b.body.cog.rot.conj.rotate ⟨0, 0, 9.81⟩) = _
  have e : b.body.cog.rot.rotate (b.mass • b.body.cog.rot.conj.rotate ⟨0, 0, 9.81⟩) = b.mass • b.body.cog.rot.rotate (b.body.cog.rot.conj.rotate ⟨0, 0, 9.81⟩) := by
    ext <;> simp [Q.rotate] <;> ring
  rw [e, Q.rotate_conj' h]
  ext <;> simp [V3.e3]

theorem gops (h : List GOp) (hv : ∀ o ∈ h, o.Valid) (b : DBody) (hb : Placed b.body) (hf : b.forceAcc = 0) (ht : b.torqueAcc = 0) :
    let b' := h.foldl GOp.run b
    Placed b'.body ∧ b'.mass = b.mass ∧ b'.torqueAcc = 0 ∧ b'.forceAcc = (b.mass * 9.81 * pendingRemovals h) • V3.e3 := by
  induction h using List.reverseRecOn with
  | nil => exact ⟨hb, rfl, ht, by rw [show ([] : List GOp).foldl GOp.run b = b from rfl, hf]; ext <;> simp [pendingRemovals]⟩
  | append_singleton h o ih =>
    obtain ⟨i1, i2, i3, i4⟩ := ih fun o' ho' => hv o' (List.mem_append_left _ ho')
    simp only [List.foldl_append, List.foldl_cons, List.foldl_nil]
    set c := h.foldl GOp.run b with hc
    have hp : pendingRemovals (h ++ [o]) = match o with
        | .removeGravity false => 0
        | .removeGravity true => pendingRemovals h + 1
        | .move _ => pendingRemovals h := by
      unfold pendingRemovals
      rw [List.reverse_append]
      rcases o with ⟨⟨⟩⟩ | o <;> simp
    rw [hp]
    rcases o with v | o
    · cases v
      · refine ⟨i1, i2, rfl, ?_⟩
        show (0 : V3) = _
        ext <;> simp
      · refine ⟨i1, i2, i3, ?_⟩
        show (c.removeGravity true).forceAcc = _
        rw [removeGravity_true c i1.unit, i4, i2]
        push_cast
        ext <;> simp <;> ring
    · exact ⟨op_placed o (hv (.move o) (List.mem_append_right _ (List.mem_singleton.mpr rfl))) c.a.body i1, i2, i3, i4⟩

/-- **C161, removing the weight.** After every history of moves and of `RemoveGravity` calls on a body without other force, the total force is `m (9.81 k - g)` upwards and there is no torque, where
`k` is the number of `RemoveGravity(true)` since the last `RemoveGravity(false)`, whatever the moves made before and after the calls. So with the gravity 9.81 one call makes the
body weightless and a `RemoveGravity(false)` gives its weight back. -/
theorem C161_gravity_partial (h : List GOp) (hv : ∀ o ∈ h, o.Valid) (b : DBody) (hb : Placed b.body) (hf : b.forceAcc = 0) (ht : b.torqueAcc = 0) (g : ℝ) (fc : FC) :
    let b' := h.foldl GOp.run b
    b'.totalForceWorld g [] fc = (b.mass * (9.81 * pendingRemovals h - g)) • conv fc V3.e3 ∧ b'.totalTorqueBody [] fc = 0 ∧
    (g = 9.81 → pendingRemovals h = 1 → b'.totalForceWorld g [] fc = 0 ∧ b'.totalForceBody g [] fc = 0) ∧
    (pendingRemovals h = 0 → b'.totalForceWorld g [] fc = (b.mass * -g) • conv fc V3.e3) := by
  intro b'
  obtain ⟨h1, h2, h3, h4⟩ := gops h hv b hb hf ht
  have key : b'.totalForceWorld g [] fc = (b.mass * (9.81 * pendingRemovals h - g)) • conv fc V3.e3 := by
    unfold totalForceWorld xForce
    rw [← conv_smul, h4, h2]
    congr 1
    ext <;> simp [sumForce, V3.e3]
    ring
  have key2 : g = 9.81 → pendingRemovals h = 1 → b'.totalForceWorld g [] fc = 0 := by
    intro hg hp
    rw [key, hg, hp]
    ext <;> simp
  refine ⟨key, ?_, fun hg hp => ⟨key2 hg hp, ?_⟩, ?_⟩
  · unfold totalTorqueBody xTorque
    rw [h3]
    show conv fc (0 + 0) = 0
    rw [show (0 : V3) + 0 = 0 by ext <;> simp, conv_zero]
  · unfold totalForceBody
    rw [key2 hg hp]
    rw [show (0 : V3) = conv fc 0 from (conv_zero fc).symm, toBody_conv, rotate_zero]
  · intro hp
    rw [key, hp]
    ext <;> simp

/-- The hypotheses are met: a body of 2 kg, its weight removed between two rotations, and it is weightless. -/
example : pendingRemovals [.move (.rotate Q.one), .removeGravity true, .removeGravity false, .removeGravity true, .move (.translateInWorld V3.e1 .NED)] = 1 := rfl

/-- **C161 fails** when the weight is removed twice, when the gravity of the system is not 9.81 and when the mass is changed after the call: in each case the body is left with a vertical force. -/
theorem C161_gravity_counterexample (b : DBody) (hb : b.body.cog.rot.IsUnit) (hm : 0 < b.mass) (hf : b.forceAcc = 0) (g m : ℝ) :
    ((b.removeGravity true).removeGravity true).totalForceWorld 9.81 [] .NWU = (b.mass * 9.81) • V3.e3 ∧
    ((b.removeGravity true).totalForceWorld g [] .NWU = 0 ↔ g = 9.81) ∧
    (({ b.removeGravity true with mass := m } : DBody).totalForceWorld 9.81 [] .NWU = 0 ↔ m = b.mass) := by
  have e1 := removeGravity_true b hb
  have e2 := removeGravity_true (b.removeGravity true) hb
  have em : (b.removeGravity true).mass = b.mass := rfl
  have em2 : ((b.removeGravity true).removeGravity true).mass = b.mass := rfl
  refine ⟨?_, ?_, ?_⟩
  · show (((b.removeGravity true).removeGravity true).forceAcc + (0 : V3) + _ : V3) = _
    rw [e2, e1, hf, em, em2]
    ext <;> simp <;> ring
  · show ((b.removeGravity true).forceAcc + (0 : V3) + (-(b.mass * g)) • V3.e3 : V3) = 0 ↔ _
    rw [e1, hf]
    constructor
    · intro h
      have := congrArg V3.z h
      simp [V3.e3] at this
      have : b.mass * (9.81 - g) = 0 := by linarith
      rcases mul_eq_zero.mp this with h | h <;> linarith
    · rintro rfl
      ext <;> simp
  · show ((b.removeGravity true).forceAcc + (0 : V3) + (-(m * 9.81)) • V3.e3 : V3) = 0 ↔ _
    rw [e1, hf]
    constructor
    · intro h
      have := congrArg V3.z h
      simp [V3.e3] at this
      linarith
    · rintro rfl
      ext <;> simp

/-! ## C162 -/

theorem clampPos_spec {m : ℝ} (hm : 0 ≤ m) (v : V3) :
    V3.norm (clampPos m v) ≤ m ∧ (V3.norm v ≤ m → clampPos m v = v) ∧ ∃ s : ℝ, 0 ≤ s ∧ s ≤ 1 ∧ clampPos m v = s • v := by
  have := clampVec_spec hm v
  exact ⟨this.1, this.2.1, this.2.2.2⟩

theorem qlen_spin {q : Q} (h : q.IsUnit) (w : V3) : 2 * qlen (qhalf ((qpure w).mul q)) = V3.norm w := by
  unfold Q.IsUnit Q.normSq at h
  unfold qlen V3.norm
  have e : (qhalf ((qpure w).mul q)).e0 ^ 2 + (qhalf ((qpure w).mul q)).e1 ^ 2 + (qhalf ((qpure w).mul q)).e2 ^ 2 + (qhalf ((qpure w).mul q)).e3 ^ 2 =
      (1 / 2) ^ 2 * V3.dot w w := by
    simp [qhalf, qpure, V3.dot]
    linear_combination ((w.x * w.x + w.y * w.y + w.z * w.z) / 4) * h
  rw [e, Real.sqrt_mul (by norm_num), Real.sqrt_sq (by norm_num)]
  ring

theorem clampRot_spin {q : Q} (h : q.IsUnit) (m : ℝ) (w : V3) : clampRot m (qhalf ((qpure w).mul q)) = qhalf ((qpure (clampPos m w)).mul q) := by
  unfold clampRot clampPos
  rw [qlen_spin h]
  by_cases hw : V3.norm w > m
  · rw [if_pos hw, if_pos hw]
    ext <;> simp [qscale, qhalf, qpure] <;> ring
  · rw [if_neg hw, if_neg hw]

theorem qhalf_loc {q : Q} (h : q.IsUnit) (w : V3) : qhalf (q.mul (qpure w)) = qhalf ((qpure (q.rotate w)).mul q) := by
  unfold Q.IsUnit Q.normSq at h
  ext <;> simp [qhalf, qpure, Q.rotate, Q.toMat]
  · linear_combination (2 * (q.e1 * w.x + q.e2 * w.y + q.e3 * w.z)) * h
  · linear_combination (-2 * q.e0 * w.x) * h
  · linear_combination (-2 * q.e0 * w.y) * h
  · linear_combination (-2 * q.e0 * w.z) * h

/-- What `VariablesQbSetSpeed` leaves. -/
theorem qbSetSpeed_eq (b : DBody) (hu : b.body.cog.rot.IsUnit) (v w : V3) (step : ℝ) :
    let b' := b.qbSetSpeed (v, w) step
    b'.body.posDt = (if b.limitSpeed then clampPos b.maxSpeed v else v) ∧
    b'.body.rotDt = qhalf ((qpure (if b.limitSpeed then clampPos b.maxWvel (b.body.cog.rot.rotate w) else b.body.cog.rot.rotate w)).mul b.body.cog.rot) ∧
    b'.body.cog = b.body.cog ∧ b'.body.cogInRef = b.body.cogInRef ∧ b'.body.refPos = b.body.refPos ∧ b'.I = b.I ∧
    b'.gyro = V3.cross b'.wvelLoc (b.I.mulVec b'.wvelLoc) ∧
    (step ≠ 0 → b'.a.posDtdt = (1 / step) • (b'.body.posDt - b.body.posDt) ∧ b'.a.rotDtdt = qscale (1 / step) (qadd b'.body.rotDt (qscale (-1) b.body.rotDt))) ∧
    (step = 0 → b'.a.posDtdt = b.a.posDtdt ∧ b'.a.rotDtdt = b.a.rotDtdt) := by
  intro b'
  cases hl : b.limitSpeed
  · by_cases h0 : step = 0
    · have e : b' = ({ b with a := { b.a with body := { b.a.body with posDt := v, rotDt := qhalf (b.body.cog.rot.mul (qpure w)) } } } : DBody).computeGyro := by
        show b.qbSetSpeed (v, w) step = _
        unfold qbSetSpeed clampSpeed
        simp [h0, hl]
      rw [e]
      refine ⟨rfl, ?_, rfl, rfl, rfl, rfl, rfl, fun h => absurd h0 h, fun _ => ⟨rfl, rfl⟩⟩
      exact qhalf_loc hu w
    · have e : b' = { ({ b with a := { b.a with body := { b.a.body with posDt := v, rotDt := qhalf (b.body.cog.rot.mul (qpure w)) } } } : DBody).computeGyro with
          a := ⟨{ b.a.body with posDt := v, rotDt := qhalf (b.body.cog.rot.mul (qpure w)) }, (1 / step) • (v - b.body.posDt),
            qscale (1 / step) (qadd (qhalf (b.body.cog.rot.mul (qpure w))) (qscale (-1) b.body.rotDt))⟩ } := by
        show b.qbSetSpeed (v, w) step = _
        unfold qbSetSpeed clampSpeed
        simp [h0, hl]
        exact ⟨rfl, rfl, rfl⟩
      rw [e]
      refine ⟨rfl, ?_, rfl, rfl, rfl, rfl, rfl, fun _ => ⟨rfl, rfl⟩, fun h => absurd h h0⟩
      exact qhalf_loc hu w
  · by_cases h0 : step = 0
    · have e : b' = ({ b with a := { b.a with body := { b.a.body with posDt := clampPos b.maxSpeed v, rotDt := clampRot b.maxWvel (qhalf (b.body.cog.rot.mul (qpure w))) } } } : DBody).computeGyro := by
        show b.qbSetSpeed (v, w) step = _
        unfold qbSetSpeed clampSpeed
        simp [h0, hl]
      rw [e]
      refine ⟨rfl, ?_, rfl, rfl, rfl, rfl, rfl, fun h => absurd h0 h, fun _ => ⟨rfl, rfl⟩⟩
      show clampRot b.maxWvel (qhalf (b.body.cog.rot.mul (qpure w))) = _
      rw [qhalf_loc hu w, clampRot_spin hu]
      rfl
    · have e : b' = { ({ b with a := { b.a with body := { b.a.body with posDt := clampPos b.maxSpeed v, rotDt := clampRot b.maxWvel (qhalf (b.body.cog.rot.mul (qpure w))) } } } : DBody).computeGyro with
          a := ⟨{ b.a.body with posDt := clampPos b.maxSpeed v, rotDt := clampRot b.maxWvel (qhalf (b.body.cog.rot.mul (qpure w))) }, (1 / step) • (clampPos b.maxSpeed v - b.body.posDt),
            qscale (1 / step) (qadd (clampRot b.maxWvel (qhalf (b.body.cog.rot.mul (qpure w)))) (qscale (-1) b.body.rotDt))⟩ } := by
        show b.qbSetSpeed (v, w) step = _
        unfold qbSetSpeed clampSpeed
        simp [h0, hl]
        exact ⟨rfl, rfl, rfl⟩
      rw [e]
      refine ⟨rfl, ?_, rfl, rfl, rfl, rfl, rfl, fun _ => ⟨rfl, rfl⟩, fun h => absurd h h0⟩
      show clampRot b.maxWvel (qhalf (b.body.cog.rot.mul (qpure w))) = _
      rw [qhalf_loc hu w, clampRot_spin hu]
      rfl

theorem norm_conv (fc : FC) (v : V3) : V3.norm (conv fc v) = V3.norm v := by
  unfold V3.norm
  rw [dot_conv]

/-- **C162, speed limits.** When the speed limits of a body are active, the speed of its COG and its speed of rotation after the solver sets its velocities are at most the limits, in the directions
asked for, and unchanged when they are under the limits; when the limits are not active (as on a new body) the velocities are those asked for, however large. -/
theorem C162_limits (b : DBody) (hu : b.body.cog.rot.IsUnit) (h1 : 0 ≤ b.maxSpeed) (h2 : 0 ≤ b.maxWvel) (v w : V3) (step : ℝ) (fc : FC) :
    let b' := b.qbSetSpeed (conv fc v, conv fc w) step
    (b.limitSpeed = true → V3.norm (b'.body.cogVelWorld fc) ≤ b.maxSpeed ∧ V3.norm (b'.body.angVelBody fc) ≤ b.maxWvel ∧
      (∃ s : ℝ, 0 ≤ s ∧ s ≤ 1 ∧ b'.body.cogVelWorld fc = s • v) ∧ (∃ s : ℝ, 0 ≤ s ∧ s ≤ 1 ∧ b'.body.angVelBody fc = s • w) ∧
      (V3.norm v ≤ b.maxSpeed → b'.body.cogVelWorld fc = v) ∧ (V3.norm w ≤ b.maxWvel → b'.body.angVelBody fc = w)) ∧
    (b.limitSpeed = false → b'.body.cogVelWorld fc = v ∧ b'.body.angVelBody fc = w) := by
  intro b'
  obtain ⟨e1, e2, e3, -⟩ := qbSetSpeed_eq b hu (conv fc v) (conv fc w) step
  set q := b.body.cog.rot with hq
  have hv : b'.body.cogVelWorld fc = conv fc b'.body.posDt := rfl
  have hw : ∀ x : V3, b'.body.rotDt = qhalf ((qpure x).mul q) → b'.body.angVelBody fc = conv fc (q.conj.rotate x) := by
    intro x hx
    unfold Body.angVelBody Body.angVelWorld
    rw [toBody_conv]
    unfold Body.wvelPar
    rw [hx, e3, qvec_spin hu]
  have hrot : ∀ x, V3.norm (q.rotate x) = V3.norm x := fun x => by unfold V3.norm; rw [dot_rot hu]
  have hrotc : ∀ x, V3.norm (q.conj.rotate x) = V3.norm x := fun x => by unfold V3.norm; rw [dot_rot hu.conj]
  constructor
  · intro hl
    rw [hl] at e1 e2
    simp only [if_true] at e1 e2
    have s1 := clampPos_spec h1 (conv fc v)
    have s2 := clampPos_spec h2 (q.rotate (conv fc w))
    rw [hv, hw _ e2, e1, norm_conv, norm_conv, hrotc]
    refine ⟨s1.1, s2.1, ?_, ?_, ?_, ?_⟩
    · obtain ⟨s, a, a', hs⟩ := s1.2.2
      exact ⟨s, a, a', by rw [hs, conv_smul, conv_conv]⟩
    · obtain ⟨s, a, a', hs⟩ := s2.2.2
      refine ⟨s, a, a', ?_⟩
      rw [hs, show q.conj.rotate (s • q.rotate (conv fc w)) = s • q.conj.rotate (q.rotate (conv fc w)) by ext <;> simp [Q.rotate] <;> ring, Q.rotate_conj hu,
        conv_smul, conv_conv]
    · intro h
      rw [s1.2.1 (by rw [norm_conv]; exact h), conv_conv]
    · intro h
      rw [s2.2.1 (by rw [hrot, norm_conv]; exact h), Q.rotate_conj hu, conv_conv]
  · intro hl
    rw [hl] at e1 e2
    have e1 : b'.body.posDt = conv fc v := e1
    have e2 : b'.body.rotDt = qhalf ((qpure (q.rotate (conv fc w))).mul q) := e2
    rw [hv, hw _ e2, e1, Q.rotate_conj hu, conv_conv, conv_conv]
    exact ⟨rfl, rfl⟩

/-- **C162, the limits set.** After `SetMaxSpeed` and `SetMaxRotationSpeed` both limits are those given and active, until `ActivateSpeedLimits(false)`. -/
theorem C162_set (b : DBody) (v w : ℝ) :
    ((b.setMaxSpeed v).setMaxRotationSpeed w).maxSpeed = v ∧ ((b.setMaxSpeed v).setMaxRotationSpeed w).maxWvel = w ∧
    ((b.setMaxSpeed v).setMaxRotationSpeed w).limitSpeed = true ∧
    ((b.setMaxRotationSpeed w).setMaxSpeed v) = ((b.setMaxSpeed v).setMaxRotationSpeed w) ∧
    (((b.setMaxSpeed v).setMaxRotationSpeed w).activateSpeedLimits false).limitSpeed = false := ⟨rfl, rfl, rfl, rfl, rfl⟩

/-- **C162, one limit activates the other**: on a new body, `SetMaxSpeed` alone also limits the rotation to pi rad/s, and `SetMaxRotationSpeed` alone also limits the speed to 10 m/s. -/
theorem C162_other_limit_counterexample (b : DBody) (hnew : b.maxSpeed = 10 ∧ b.maxWvel = 180 * (Real.pi / 180)) (hu : b.body.cog.rot.IsUnit) (s : ℝ) (hs : 0 ≤ s) (v w : V3) (step : ℝ) :
    V3.norm (((b.setMaxSpeed s).qbSetSpeed (v, w) step).body.angVelBody .NWU) ≤ Real.pi ∧
    V3.norm (((b.setMaxRotationSpeed s).qbSetSpeed (v, w) step).body.cogVelWorld .NWU) ≤ 10 := by
  have hp : 180 * (Real.pi / 180) = Real.pi := by ring
  have h1 := (C162_limits (b.setMaxSpeed s) hu hs (by show (0:ℝ) ≤ b.maxWvel; rw [hnew.2, hp]; exact Real.pi_pos.le) v w step .NWU).1 rfl
  have h2 := (C162_limits (b.setMaxRotationSpeed s) hu (by show (0:ℝ) ≤ b.maxSpeed; rw [hnew.1]; norm_num) hs v w step .NWU).1 rfl
  refine ⟨?_, ?_⟩
  · have := h1.2.1
    rw [show (b.setMaxSpeed s).maxWvel = b.maxWvel from rfl, hnew.2, hp] at this
    exact this
  · have := h2.1
    rw [show (b.setMaxRotationSpeed s).maxSpeed = b.maxSpeed from rfl, hnew.1] at this
    exact this

/-- **C162, loading.** The speeds loaded for the solver are the velocity of the COG in world axes and the angular velocity in body axes; setting what was loaded leaves both as they are, without limits or under them. -/
theorem C162_load (b : DBody) (hu : b.body.cog.rot.IsUnit) (h1 : 0 ≤ b.maxSpeed) (h2 : 0 ≤ b.maxWvel) (step : ℝ)
    (hl : b.limitSpeed = false ∨ (V3.norm (b.body.cogVelWorld .NWU) ≤ b.maxSpeed ∧ V3.norm (b.body.angVelBody .NWU) ≤ b.maxWvel)) :
    b.qbLoadSpeed = (b.body.cogVelWorld .NWU, b.body.angVelBody .NWU) ∧
    (b.qbSetSpeed b.qbLoadSpeed step).body.cogVelWorld .NWU = b.body.cogVelWorld .NWU ∧
    (b.qbSetSpeed b.qbLoadSpeed step).body.angVelBody .NWU = b.body.angVelBody .NWU := by
  have e : b.qbLoadSpeed = (b.body.cogVelWorld .NWU, b.body.angVelBody .NWU) := rfl
  obtain ⟨i1, i2⟩ := C162_limits b hu h1 h2 (b.body.cogVelWorld .NWU) (b.body.angVelBody .NWU) step .NWU
  refine ⟨e, ?_⟩
  rw [e]
  by_cases hb : b.limitSpeed = false
  · exact i2 hb
  · rcases hl with h | ⟨ha, hc⟩
    · exact absurd h hb
    · obtain ⟨-, -, -, -, k1, k2⟩ := i1 (by simpa using hb)
      exact ⟨k1 ha, k2 hc⟩

/-- **C162, accelerations.** When the solver sets the velocities with a step, the accelerations of the COG and of the rotation read after it are the changes of the velocities read, divided by the
step; with a zero step they do not change. -/
theorem C162_differences (b : DBody) (hb : Placed b.body) (w0 : V3) (hs : Spinning b.body w0) (v w : V3) (step : ℝ) (fc : FC) :
    let b' := b.qbSetSpeed (v, w) step
    (step ≠ 0 → b'.a.cogAccWorld fc = (1 / step) • (b'.body.cogVelWorld fc - b.body.cogVelWorld fc) ∧
      b'.a.angAccWorld fc = (1 / step) • (b'.body.angVelWorld fc - b.body.angVelWorld fc)) ∧
    (step = 0 → b'.a.cogAccWorld fc = b.a.cogAccWorld fc ∧ b'.a.angAccWorld fc = b.a.angAccWorld fc) := by
  intro b'
  obtain ⟨e1, e2, e3, -, -, -, -, e4, e5⟩ := qbSetSpeed_eq b hb.unit v w step
  constructor
  · intro h
    obtain ⟨a1, a2⟩ := e4 h
    constructor
    · show conv fc b'.a.posDtdt = _
      rw [a1, conv_smul, conv_sub]
      rfl
    · unfold ABody.angAccWorld ABody.waccPar Body.angVelWorld Body.wvelPar
      rw [a2, ← conv_sub, ← conv_smul]
      congr 1
      show (2:ℝ) • qvec (Q.mul _ b'.body.cog.rot.conj) = (1 / step) • ((2:ℝ) • qvec (b'.body.rotDt.mul b'.body.cog.rot.conj) - (2:ℝ) • qvec (b.body.rotDt.mul b.body.cog.rot.conj))
      rw [e3]
      ext <;> simp [qvec, qscale, qadd] <;> ring
  · intro h
    obtain ⟨a1, a2⟩ := e5 h
    constructor
    · show conv fc b'.a.posDtdt = _
      rw [a1]
      rfl
    · show conv fc ((2:ℝ) • qvec (b'.a.rotDtdt.mul b'.body.cog.rot.conj)) = _
      rw [a2, e3]
      rfl

/-! ## C163 -/

theorem chNormalize_unit (v : V3) : V3.dot (chNormalize v) (chNormalize v) = 1 ∧ V3.norm v • chNormalize v = v := by
  unfold chNormalize
  by_cases h : V3.norm v = 0
  · rw [if_pos h]
    refine ⟨by simp [V3.dot, V3.e1], ?_⟩
    have hd : V3.dot v v = 0 := by
      have := Real.sqrt_eq_zero'.mp h
      unfold V3.dot at *
      nlinarith [sq_nonneg v.x, sq_nonneg v.y, sq_nonneg v.z]
    unfold V3.dot at hd
    rw [h]
    ext
    · simp; nlinarith [sq_nonneg v.x, sq_nonneg v.y, sq_nonneg v.z]
    · simp; nlinarith [sq_nonneg v.x, sq_nonneg v.y, sq_nonneg v.z]
    · simp; nlinarith [sq_nonneg v.x, sq_nonneg v.y, sq_nonneg v.z]
  · rw [if_neg h]
    have hn : V3.norm v * V3.norm v = V3.dot v v := by
      unfold V3.norm
      apply Real.mul_self_sqrt
      unfold V3.dot
      nlinarith [sq_nonneg v.x, sq_nonneg v.y, sq_nonneg v.z]
    constructor
    · have : V3.dot ((V3.norm v)⁻¹ • v) ((V3.norm v)⁻¹ • v) = (V3.norm v)⁻¹ * (V3.norm v)⁻¹ * V3.dot v v := by
        simp [V3.dot]; ring
      rw [this, ← hn]
      field_simp
    · ext <;> simp <;> field_simp

/-- The state after the position increment of an active body. -/
theorem inc_eq (b : DBody) (ha : b.active = true) (v w : V3) (dt : ℝ) :
    (b.qbIncrementPosition (v, w) dt).body.cog = ⟨b.body.cog.pos + dt • v,
      (Q.ofAngAxis (V3.norm (b.body.cog.rot.rotate w) * dt) (chNormalize (b.body.cog.rot.rotate w))).mul b.body.cog.rot⟩ := by
  unfold qbIncrementPosition
  rw [if_pos ha]
  rfl

theorem inc_active (b : DBody) (qb : V3 × V3) (dt : ℝ) : (b.qbIncrementPosition qb dt).active = b.active := by
  unfold qbIncrementPosition
  by_cases h : b.active
  · rw [if_pos h]
  · rw [if_neg h]

theorem axis_fixed (x : V3) (a : ℝ) : (Q.ofAngAxis a (chNormalize x)).rotate x = x := by
  obtain ⟨h1, h2⟩ := chNormalize_unit x
  set n := chNormalize x with hn
  have hd : V3.dot n x = V3.norm x := by
    conv_lhs => rw [← h2]
    have : V3.dot n (V3.norm x • n) = V3.norm x * V3.dot n n := by simp [V3.dot]; ring
    rw [this, h1, mul_one]
  have hc : V3.cross n x = 0 := by
    conv_lhs => rw [← h2]
    ext <;> simp <;> ring
  rw [ofAngAxis_rotate, hd, hc]
  have h2x := congrArg V3.x h2
  have h2y := congrArg V3.y h2
  have h2z := congrArg V3.z h2
  simp only [V3.smul_x, V3.smul_y, V3.smul_z] at h2x h2y h2z
  ext
  · simp; linear_combination (1 - Real.cos a) * h2x
  · simp; linear_combination (1 - Real.cos a) * h2y
  · simp; linear_combination (1 - Real.cos a) * h2z

/-- **C163, one step.** Advancing an active body with the velocities `v` (COG, world axes) and `w` (rotation, body axes) by a step `dt` is the exact motion at these constant velocities: at `dt = 0` the body has not moved, and at every
`dt` the rate of change of the position of the COG with the step is `v`, the rate of turn of the orientation is `w` (turned to world axes), the orientation remains a unit quaternion and the velocities given remain the same in body axes. A body that is not active
does not move. -/
theorem C163_exact (b : DBody) (hu : b.body.cog.rot.IsUnit) (v w : V3) (dt : ℝ) :
    (b.active = false → b.qbIncrementPosition (v, w) dt = b) ∧
    (b.active = true →
      (b.qbIncrementPosition (v, w) 0).body.cog = b.body.cog ∧
      (b.qbIncrementPosition (v, w) dt).body.cog.rot.IsUnit ∧
      HasVel (fun s => (b.qbIncrementPosition (v, w) s).body.cog.pos) v dt ∧
      Link.HasAngVel (fun s => (b.qbIncrementPosition (v, w) s).body.cog.rot) ((b.qbIncrementPosition (v, w) dt).body.cog.rot.rotate w) dt ∧
      (b.qbIncrementPosition (v, w) dt).body.cog.rot.rotate w = b.body.cog.rot.rotate w) := by
  constructor
  · intro h
    unfold qbIncrementPosition
    rw [h]
    rfl
  · intro ha
    set x := b.body.cog.rot.rotate w with hx
    obtain ⟨h1, h2⟩ := chNormalize_unit x
    set n := chNormalize x with hn
    have hfix : (b.qbIncrementPosition (v, w) dt).body.cog.rot.rotate w = x := by
      rw [inc_eq b ha]
      show ((Q.ofAngAxis _ n).mul b.body.cog.rot).rotate w = x
      rw [Q.rotate_mul (ofAngAxis_unit h1 _) hu]
      exact axis_fixed x _
    refine ⟨?_, ?_, ?_, ?_, hfix⟩
    · rw [inc_eq b ha]
      have : Q.ofAngAxis (V3.norm x * 0) n = Q.one := by
        ext <;> simp [Q.ofAngAxis, Q.one]
      rw [show chNormalize (b.body.cog.rot.rotate w) = n from rfl, show V3.norm (b.body.cog.rot.rotate w) = V3.norm x from rfl, this]
      refine Frame.ext ?_ ?_
      · ext <;> simp
      · ext <;> simp [Q.one]
    · rw [inc_eq b ha]
      exact (ofAngAxis_unit h1 _).mul hu
    · have e : (fun s => (b.qbIncrementPosition (v, w) s).body.cog.pos) = fun s => b.body.cog.pos + s • v := by
        funext s
        rw [inc_eq b ha]
      rw [e]
      refine ⟨?_, ?_, ?_⟩
      · simpa using ((hasDerivAt_id dt).mul_const v.x).const_add b.body.cog.pos.x
      · simpa using ((hasDerivAt_id dt).mul_const v.y).const_add b.body.cog.pos.y
      · simpa using ((hasDerivAt_id dt).mul_const v.z).const_add b.body.cog.pos.z
    · intro u
      rw [hfix]
      have e : ∀ s, ((b.qbIncrementPosition (v, w) s).body.cog.rot.rotate u) =
          Real.cos (V3.norm x * s) • b.body.cog.rot.rotate u + Real.sin (V3.norm x * s) • V3.cross n (b.body.cog.rot.rotate u) +
            ((1 - Real.cos (V3.norm x * s)) * V3.dot n (b.body.cog.rot.rotate u)) • n := by
        intro s
        rw [inc_eq b ha]
        show ((Q.ofAngAxis _ n).mul b.body.cog.rot).rotate u = _
        rw [Q.rotate_mul (ofAngAxis_unit h1 _) hu, ofAngAxis_rotate]
      simp only [e]
      generalize b.body.cog.rot.rotate u = y
      have ha' : HasDerivAt (fun s => V3.norm x * s) (V3.norm x) dt := by simpa using (hasDerivAt_id dt).const_mul (V3.norm x)
      have hc := ha'.cos
      have hs := ha'.sin
      have h1' : n.x * n.x + n.y * n.y + n.z * n.z = 1 := h1
      have h2x := congrArg V3.x h2
      have h2y := congrArg V3.y h2
      have h2z := congrArg V3.z h2
      simp only [V3.smul_x, V3.smul_y, V3.smul_z] at h2x h2y h2z
      generalize V3.norm x = r at *
      refine ⟨?_, ?_, ?_⟩
      · refine (((hc.mul_const y.x).add (hs.mul_const (V3.cross n y).x)).add (((hc.const_sub 1).mul_const (V3.dot n y)).mul_const n.x)).congr_deriv ?_
        simp only [V3.cross_x, V3.cross_y, V3.cross_z, V3.add_x, V3.add_y, V3.add_z, V3.smul_x, V3.smul_y, V3.smul_z, ← h2x, ← h2y, ← h2z, V3.dot]
        linear_combination (Real.sin (r * dt) * r * y.x) * h1'
      · refine (((hc.mul_const y.y).add (hs.mul_const (V3.cross n y).y)).add (((hc.const_sub 1).mul_const (V3.dot n y)).mul_const n.y)).congr_deriv ?_
        simp only [V3.cross_x, V3.cross_y, V3.cross_z, V3.add_x, V3.add_y, V3.add_z, V3.smul_x, V3.smul_y, V3.smul_z, ← h2x, ← h2y, ← h2z, V3.dot]
        linear_combination (Real.sin (r * dt) * r * y.y) * h1'
      · refine (((hc.mul_const y.z).add (hs.mul_const (V3.cross n y).z)).add (((hc.const_sub 1).mul_const (V3.dot n y)).mul_const n.z)).congr_deriv ?_
        simp only [V3.cross_x, V3.cross_y, V3.cross_z, V3.add_x, V3.add_y, V3.add_z, V3.smul_x, V3.smul_y, V3.smul_z, ← h2x, ← h2y, ← h2z, V3.dot]
        linear_combination (Real.sin (r * dt) * r * y.z) * h1'

/-- **C163, many steps.** With constant velocities the result does not depend on how the time is cut into steps: after any list of steps the body is where one step of their sum takes it. -/
theorem C163_steps (b : DBody) (hu : b.body.cog.rot.IsUnit) (v w : V3) (dts : List ℝ) :
    (dts.foldl (fun b dt => b.qbIncrementPosition (v, w) dt) b).body.cog = (b.qbIncrementPosition (v, w) dts.sum).body.cog ∧
    (dts.foldl (fun b dt => b.qbIncrementPosition (v, w) dt) b).body.cog.rot.IsUnit := by
  cases ha : b.active
  · have e : ∀ dt, b.qbIncrementPosition (v, w) dt = b := fun dt => (C163_exact b hu v w dt).1 ha
    have e' : dts.foldl (fun b dt => b.qbIncrementPosition (v, w) dt) b = b := by
      induction dts with
      | nil => rfl
      | cons d L ih => rw [List.foldl_cons, e]; exact ih
    rw [e', e]
    exact ⟨rfl, hu⟩
  · have two : ∀ d d', ((b.qbIncrementPosition (v, w) d).qbIncrementPosition (v, w) d').body.cog = (b.qbIncrementPosition (v, w) (d + d')).body.cog := by
      intro d d'
      have ha' : (b.qbIncrementPosition (v, w) d).active = true := by
        unfold qbIncrementPosition
        rw [if_pos ha]
        exact ha
      rw [inc_eq _ ha', ((C163_exact b hu v w d).2 ha).2.2.2.2, inc_eq b ha, inc_eq b ha]
      refine Frame.ext ?_ ?_
      · ext <;> simp <;> ring
      · obtain ⟨h1, -⟩ := chNormalize_unit (b.body.cog.rot.rotate w)
        show Q.mul _ (Q.mul _ _) = Q.mul _ _
        rw [← Q.mul_assoc]
        congr 1
        have := C12_additive (chNormalize (b.body.cog.rot.rotate w)) h1 (V3.norm (b.body.cog.rot.rotate w) * d') (V3.norm (b.body.cog.rot.rotate w) * d) .NWU
        refine Eq.trans this ?_
        rw [← mul_add, add_comm d' d]
        rfl
    have hact : ∀ L : List ℝ, (L.foldl (fun b dt => b.qbIncrementPosition (v, w) dt) b).active = true := by
      intro L
      induction L using List.reverseRecOn with
      | nil => exact ha
      | append_singleton L d ih =>
        rw [List.foldl_append]
        exact (inc_active _ _ _).trans ih
    have hone : ∀ (c c' : DBody), c.active = true → c'.active = true → c.body.cog = c'.body.cog → ∀ d, (c.qbIncrementPosition (v, w) d).body.cog = (c'.qbIncrementPosition (v, w) d).body.cog := by
      intro c c' h h' he d
      rw [inc_eq c h, inc_eq c' h', he]
    have hinc : ∀ d, (b.qbIncrementPosition (v, w) d).active = true := by
      intro d
      unfold qbIncrementPosition
      rw [if_pos ha]
      exact ha
    have key : (dts.foldl (fun b dt => b.qbIncrementPosition (v, w) dt) b).body.cog = (b.qbIncrementPosition (v, w) dts.sum).body.cog := by
      induction dts using List.reverseRecOn with
      | nil => rw [List.sum_nil, ((C163_exact b hu v w 0).2 ha).1]; rfl
      | append_singleton L d ih =>
        rw [List.foldl_append, List.sum_append, List.sum_singleton, ← two]
        exact hone _ _ (hact L) (hinc _) ih d
    refine ⟨key, ?_⟩
    rw [key]
    exact ((C163_exact b hu v w dts.sum).2 ha).2.1

/-- A quarter turn about the vertical at 1 rad/s in three unequal steps while the COG moves by 2 m: the hypotheses are met. -/
example : ((Q.one).IsUnit) ∧ ([1, 0, Real.pi / 2 - 1] : List ℝ).sum = Real.pi / 2 := ⟨Q.isUnit_one, by simp⟩

/-! ## C164 -/

/-- **C164, equations of motion.** Along every motion of a body: if at time `t` the accelerations balance the right-hand side loaded for the solver (mass times the acceleration of the COG equals its force part, inertia times the
angular acceleration in body axes equals its torque part, the gyroscopic torque being up to date), then the momentum of the body changes at the rate of the total external force and its angular momentum about the COG (in world axes) changes at
the rate of the total external torque: these are the Newton and Euler equations. -/
theorem C164_newton_euler (b : ℝ → DBody) (h : Moving fun t => (b t).a) (hI : ∀ t t', (b t).I = (b t').I) (hm : ∀ t t', (b t).mass = (b t').mass) (g : ℝ) (L : List Force) (t : ℝ)
    (hg : (b t).noGyro = false) (hgy : (b t).gyro = V3.cross (b t).wvelLoc ((b t).I.mulVec (b t).wvelLoc))
    (hF : (b t).mass • (b t).a.cogAccWorld .NWU = ((b t).fbLoadForces g L 1 (0, 0)).1)
    (hT : (b t).I.mulVec ((b t).a.angAccBody .NWU) = ((b t).fbLoadForces g L 1 (0, 0)).2) :
    HasVel (fun s => (b s).mass • (b s).body.cogVelWorld .NWU) ((b t).totalForceWorld g L .NWU) t ∧
    HasVel (fun s => (b s).body.toWorld ((b s).I.mulVec ((b s).body.angVelBody .NWU)) .NWU) ((b t).totalTorqueWorld L .NWU) t := by
  have hmot := C160_motion (fun t => (b t).a) h 0 (Node.new Body.new) t .NWU
  obtain ⟨-, -, -, hv, -, -, hav, haa, -⟩ := hmot
  constructor
  · have e : (fun s => (b s).mass • (b s).body.cogVelWorld .NWU) = fun s => (b t).mass • (b s).body.cogVelWorld .NWU := by
      funext s; rw [hm s t]
    rw [e]
    refine (hasVel_smul hv (b t).mass).congr ?_
    rw [hF]
    show (0 : V3) + (1:ℝ) • (b t).xForce g L = (b t).xForce g L
    ext <;> simp
  · -- the angular velocity in body axes
    have hu := h.unit
    have hw : HasVel (fun s => (b s).body.angVelBody .NWU) ((b t).a.angAccBody .NWU) t := by
      refine (HasVel.conj_rotate (q := fun s => (b s).body.cog.rot) hav haa).congr ?_
      show (b t).body.cog.rot.conj.rotate _ = (b t).body.cog.rot.conj.rotate _
      congr 1
      show (b t).a.angAccWorld .NWU - V3.cross ((b t).body.angVelWorld .NWU) ((b t).body.angVelWorld .NWU) = (b t).a.angAccWorld .NWU
      ext <;> simp <;> ring
    have hL : HasVel (fun s => (b t).I.mulVec ((b s).body.angVelBody .NWU)) ((b t).I.mulVec ((b t).a.angAccBody .NWU)) t := by
      obtain ⟨x, y, z⟩ := hw
      refine ⟨?_, ?_, ?_⟩
      · exact ((x.const_mul _).add (y.const_mul _)).add (z.const_mul _)
      · exact ((x.const_mul _).add (y.const_mul _)).add (z.const_mul _)
      · exact ((x.const_mul _).add (y.const_mul _)).add (z.const_mul _)
    -- a rotated moving vector
    have hrot : ∀ (p : ℝ → V3) (p' : V3), HasVel p p' t → HasVel (fun s => (b s).body.cog.rot.rotate (p s))
        ((b t).body.cog.rot.rotate p' + V3.cross ((b t).body.angVelWorld .NWU) ((b t).body.cog.rot.rotate (p t))) t := by
      intro p p' hp
      obtain ⟨x1, x2, x3⟩ := hav V3.e1
      obtain ⟨y1, y2, y3⟩ := hav V3.e2
      obtain ⟨z1, z2, z3⟩ := hav V3.e3
      have ex : ∀ (q : Q) (u : V3), q.rotate u = u.x • q.rotate V3.e1 + u.y • q.rotate V3.e2 + u.z • q.rotate V3.e3 := by
        intro q u
        ext <;> simp [Q.rotate, V3.e1, V3.e2, V3.e3] <;> ring
      have e : (fun s => (b s).body.cog.rot.rotate (p s)) = fun s => (p s).x • (b s).body.cog.rot.rotate V3.e1 + (p s).y • (b s).body.cog.rot.rotate V3.e2 +
          (p s).z • (b s).body.cog.rot.rotate V3.e3 := by
        funext s; exact ex _ _
      rw [e, ex _ p', ex _ (p t)]
      refine ⟨?_, ?_, ?_⟩
      · refine (((hp.1.mul x1).add (hp.2.1.mul y1)).add (hp.2.2.mul z1)).congr_deriv ?_
        simp [Body.getQuaternion]
        unfold DBody.body
        ring
      · refine (((hp.1.mul x2).add (hp.2.1.mul y2)).add (hp.2.2.mul z2)).congr_deriv ?_
        simp [Body.getQuaternion]
        unfold DBody.body
        ring
      · refine (((hp.1.mul x3).add (hp.2.1.mul y3)).add (hp.2.2.mul z3)).congr_deriv ?_
        simp [Body.getQuaternion]
        unfold DBody.body
        ring
    have e : (fun s => (b s).body.toWorld ((b s).I.mulVec ((b s).body.angVelBody .NWU)) .NWU) =
        fun s => (b s).body.cog.rot.rotate ((b t).I.mulVec ((b s).body.angVelBody .NWU)) := by
      funext s; rw [hI s t]; rfl
    rw [e]
    refine (hrot _ _ hL).congr ?_
    have eT : ((b t).fbLoadForces g L 1 (0, 0)).2 = (b t).xTorque L - (b t).gyro := by
      unfold fbLoadForces
      rw [hg]
      ext <;> simp
    have hut : (b t).body.cog.rot.IsUnit := hu t
    rw [hT, eT, hgy, Q.rotate_sub, rotate_cross hut]
    have ew : (b t).body.cog.rot.rotate (b t).wvelLoc = (b t).body.angVelWorld .NWU := Q.rotate_conj' (hu t) _
    have ew' : (b t).wvelLoc = (b t).body.angVelBody .NWU := rfl
    rw [ew, ew']
    show (b t).body.cog.rot.rotate ((b t).xTorque L) - _ + _ = (b t).body.cog.rot.rotate ((b t).xTorque L)
    exact v3_sub_add _ _

/-- A body of mass `m` and inertia `I` on the turntable of C160, held on its circle by a force applied at its COG. -/
def turntableD (s m : ℝ) (t : ℝ) : DBody := { a := turntable s t, mass := m, I := M3.one }

/-- The hypotheses of `C164_newton_euler` are met by the turntable. -/
example (s m t : ℝ) : Moving (fun t => (turntableD s m t).a) ∧ (turntableD s m t).gyro = V3.cross (turntableD s m t).wvelLoc ((turntableD s m t).I.mulVec (turntableD s m t).wvelLoc) ∧
    (turntableD s m t).mass • (turntableD s m t).a.cogAccWorld .NWU =
      ((turntableD s m t).fbLoadForces 0 [{ force := m • (turntable s t).posDtdt }] 1 (0, 0)).1 ∧
    (turntableD s m t).I.mulVec ((turntableD s m t).a.angAccBody .NWU) = ((turntableD s m t).fbLoadForces 0 [{ force := m • (turntable s t).posDtdt }] 1 (0, 0)).2 := by
  refine ⟨turntable_moving s, ?_, ?_, ?_⟩
  · show (0 : V3) = V3.cross _ (M3.mulVec M3.one _)
    ext <;> simp [M3.one] <;> ring
  · show m • (turntable s t).posDtdt = (0 : V3) + (1:ℝ) • ((0 : V3) + (m • (turntable s t).posDtdt + 0) + (-(m * 0)) • V3.e3)
    ext <;> simp
  · have e : (turntableD s m t).a.angAccBody .NWU = 0 := by
      have : (turntableD s m t).a.waccPar = 0 := by
        ext <;> simp [turntableD, turntable, ABody.waccPar, qvec, Q.ofAngAxis, V3.e3]
        ring
      unfold ABody.angAccBody ABody.angAccWorld
      rw [this, toBody_conv, rotate_zero, conv_zero]
    rw [e]
    show M3.mulVec M3.one 0 = (0 : V3) + (1:ℝ) • ((0 : V3) + ((0 : V3) + 0) - 0)
    ext <;> simp

end Frydom.Core
