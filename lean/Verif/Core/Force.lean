import Verif.Core.Body

/-!
# Forces on a body (C52, C53)

`src/frydom/core/force/FrForce.cpp`.
-/

open Classical

noncomputable section

namespace Frydom.Core
open Frydom.Geom

/-- A `FrForce` (FrForce.h:83-92): Chrono stores the force in world axes and the torque at the COG in body axes, both NWU (FrForce.cpp:48-66). -/
structure Force where
  force : V3 := 0
  torque : V3 := 0
  isActive : Bool := true
  limitForce : Bool := false
  forceLimit : ℝ := 1e20
  torqueLimit : ℝ := 1e20

namespace Force

/-- `SetForceInWorldAtCOG` (FrForce.cpp:330-342). -/
def setForceInWorldAtCOG (f : Force) (w : V3) (fc : FC) : Force := { f with force := conv fc w }
/-- `GetForceInWorld` (FrForce.cpp:178-184). -/
def getForceInWorld (f : Force) (fc : FC) : V3 := conv fc f.force
/-- `GetForceInBody` (FrForce.cpp:199-202). -/
def getForceInBody (f : Force) (b : Body) (fc : FC) : V3 := b.toBody (f.getForceInWorld fc) fc
/-- `SetTorqueInBodyAtCOG` (FrForce.cpp:381-393). -/
def setTorqueInBodyAtCOG (f : Force) (t : V3) (fc : FC) : Force := { f with torque := conv fc t }
/-- `GetTorqueInBodyAtCOG` (FrForce.cpp:235-241). -/
def getTorqueInBodyAtCOG (f : Force) (fc : FC) : V3 := conv fc f.torque
/-- `GetTorqueInWorldAtCOG` (FrForce.cpp:217-220). -/
def getTorqueInWorldAtCOG (f : Force) (b : Body) (fc : FC) : V3 := b.toWorld (f.getTorqueInBodyAtCOG fc) fc
/-- `GetTorqueInWorldAtPointInWorld` (FrForce.cpp:256-263). -/
def getTorqueInWorldAtPointInWorld (f : Force) (b : Body) (p : V3) (fc : FC) : V3 :=
  let pg := b.cogPositionInWorld fc - p
  f.getTorqueInWorldAtCOG b fc + V3.cross pg (f.getForceInWorld fc)
/-- `GetTorqueInWorldAtPointInBody` (FrForce.cpp:273-277). -/
def getTorqueInWorldAtPointInBody (f : Force) (b : Body) (p : V3) (fc : FC) : V3 :=
  f.getTorqueInWorldAtPointInWorld b (b.pointInWorld p fc) fc
/-- `GetTorqueInBodyAtPointInWorld` (FrForce.cpp:287-292). -/
def getTorqueInBodyAtPointInWorld (f : Force) (b : Body) (p : V3) (fc : FC) : V3 := b.toBody (f.getTorqueInWorldAtPointInWorld b p fc) fc
/-- `GetTorqueInBodyAtPointInBody` (FrForce.cpp:302-307). -/
def getTorqueInBodyAtPointInBody (f : Force) (b : Body) (p : V3) (fc : FC) : V3 := b.toBody (f.getTorqueInWorldAtPointInBody b p fc) fc

/-- `SetForceInWorldAtPointInBody` (FrForce.cpp:344-355). -/
def setForceInWorldAtPointInBody (f : Force) (b : Body) (w p : V3) (fc : FC) : Force :=
  let f := f.setForceInWorldAtCOG w fc
  let gp := p - b.getCOG fc
  f.setTorqueInBodyAtCOG (V3.cross gp (b.toBody w fc)) fc
/-- `SetForceInWorldAtPointInWorld` (FrForce.cpp:357-362). -/
def setForceInWorldAtPointInWorld (f : Force) (b : Body) (w p : V3) (fc : FC) : Force :=
  f.setForceInWorldAtPointInBody b w (b.pointInBody p fc) fc
/-- `SetForceInBody` (FrForce.cpp:364-366). -/
def setForceInBody (f : Force) (b : Body) (v : V3) (fc : FC) : Force := f.setForceInWorldAtCOG (b.toWorld v fc) fc
/-- `SetForceInBodyAtPointInBody` (FrForce.cpp:368-371). -/
def setForceInBodyAtPointInBody (f : Force) (b : Body) (v p : V3) (fc : FC) : Force := f.setForceInWorldAtPointInBody b (b.toWorld v fc) p fc
/-- `SetForceInBodyAtPointInWorld` (FrForce.cpp:373-375). -/
def setForceInBodyAtPointInWorld (f : Force) (b : Body) (v p : V3) (fc : FC) : Force := f.setForceInWorldAtPointInWorld b (b.toWorld v fc) p fc
/-- `SetTorqueInWorldAtCOG` (FrForce.cpp:377-379). -/
def setTorqueInWorldAtCOG (f : Force) (b : Body) (t : V3) (fc : FC) : Force := f.setTorqueInBodyAtCOG (b.toBody t fc) fc
/-- `SetForceTorqueInWorldAtCOG` (FrForce.cpp:396-399). -/
def setForceTorqueInWorldAtCOG (f : Force) (b : Body) (w t : V3) (fc : FC) : Force := (f.setForceInWorldAtCOG w fc).setTorqueInWorldAtCOG b t fc
/-- `SetForceTorqueInBodyAtCOG` (FrForce.cpp:401-404). -/
def setForceTorqueInBodyAtCOG (f : Force) (b : Body) (v t : V3) (fc : FC) : Force := (f.setForceInBody b v fc).setTorqueInBodyAtCOG t fc
/-- The torque added after a force set at a point (FrForce.cpp:409, 415, 421, 427). -/
def addTorqueInBody (f : Force) (t : V3) (fc : FC) : Force := f.setTorqueInBodyAtCOG (f.getTorqueInBodyAtCOG fc + t) fc
/-- `SetForceTorqueInWorldAtPointInBody` (FrForce.cpp:406-410). -/
def setForceTorqueInWorldAtPointInBody (f : Force) (b : Body) (w t p : V3) (fc : FC) : Force :=
  (f.setForceInWorldAtPointInBody b w p fc).addTorqueInBody (b.toBody t fc) fc
/-- `SetForceTorqueInWorldAtPointInWorld` (FrForce.cpp:412-416). -/
def setForceTorqueInWorldAtPointInWorld (f : Force) (b : Body) (w t p : V3) (fc : FC) : Force :=
  (f.setForceInWorldAtPointInWorld b w p fc).addTorqueInBody (b.toBody t fc) fc
/-- `SetForceTorqueInBodyAtPointInBody` (FrForce.cpp:418-422). -/
def setForceTorqueInBodyAtPointInBody (f : Force) (b : Body) (v t p : V3) (fc : FC) : Force :=
  (f.setForceInBodyAtPointInBody b v p fc).addTorqueInBody t fc
/-- `SetForceTorqueInBodyAtPointInWorld` (FrForce.cpp:424-428). -/
def setForceTorqueInBodyAtPointInWorld (f : Force) (b : Body) (v t p : V3) (fc : FC) : Force :=
  (f.setForceInBodyAtPointInWorld b v p fc).addTorqueInBody t fc

/-- Vector scaled down to a magnitude (FrForce.cpp:31-44). -/
def clampVec (limit : ℝ) (v : V3) : V3 := if V3.norm v > limit then (limit / V3.norm v) • v else v

/-- `Update` (FrForce.cpp:438-445); `compute` is the force model. `Force()` is the zero vector (external). -/
def update (compute : Force → Force) (b : Body) (f : Force) : Force := if f.isActive then compute f else f.setForceTorqueInBodyAtCOG b 0 0 .NWU
/-- `FrForceBase::UpdateState` (FrForce.cpp:25-46). -/
def updateState (compute : Force → Force) (b : Body) (f : Force) : Force :=
  let f := f.update compute b
  if f.limitForce then { f with force := clampVec f.forceLimit f.force, torque := clampVec f.torqueLimit f.torque } else f

end Force

/-! ## Specification -/

/-- The load on the body is the force `w` (world axes) applied at the point `p` of the world together with the couple `t`: the force read is `w` and the torque
read at every point of the world is `t` plus the moment of `w` about it. -/
def IsLoad (f : Force) (b : Body) (fc : FC) (w t p : V3) : Prop :=
  f.getForceInWorld fc = w ∧ ∀ a : V3, f.getTorqueInWorldAtPointInWorld b a fc = t + V3.cross (p - a) w

/-! ## C52 -/

theorem load_key (f : Force) (b : Body) (h : Placed b) (w t p : V3) (fc : FC) :
    IsLoad (f.setForceTorqueInWorldAtPointInBody b w t p fc) b fc w t (b.pointInWorld p fc) := by
  refine ⟨conv_conv fc w, fun a => ?_⟩
  obtain ⟨w', rfl⟩ := exists_conv fc w
  obtain ⟨t', rfl⟩ := exists_conv fc t
  obtain ⟨p', rfl⟩ := exists_conv fc p
  obtain ⟨a', rfl⟩ := exists_conv fc a
  have e1 : (f.setForceTorqueInWorldAtPointInBody b (conv fc w') (conv fc t') (conv fc p') fc).force = w' := conv_conv fc w'
  have e2 : (f.setForceTorqueInWorldAtPointInBody b (conv fc w') (conv fc t') (conv fc p') fc).torque =
      V3.cross (p' - b.cogInRef) (b.cog.rot.conj.rotate w') + b.cog.rot.conj.rotate t' := by
    show conv fc (conv fc (conv fc (V3.cross (conv fc p' - conv fc b.cogInRef) (b.toBody (conv fc w') fc))) + b.toBody (conv fc t') fc) = _
    rw [toBody_conv, toBody_conv, ← conv_sub, ← conv_cross, conv_conv, ← conv_add, conv_conv]
  unfold Force.getTorqueInWorldAtPointInWorld Force.getTorqueInWorldAtCOG Force.getTorqueInBodyAtCOG Force.getForceInWorld Body.cogPositionInWorld
  simp only []
  rw [e1, e2, toWorld_conv, pointInWorld_conv, ← conv_sub, ← conv_sub, ← conv_cross, ← conv_cross, ← conv_add, ← conv_add]
  rw [Q.rotate_add, rotate_cross h.unit, Q.rotate_conj' h.unit, Q.rotate_conj' h.unit, h.cog, Q.rotate_sub]
  congr 1
  ext <;> simp <;> ring

/-- **C52, point loads.** Each way of setting a force and a torque at a point (axes of the world or of the body, point of the world or of the body, either convention)
gives the load it describes: the same force, and about every point the given torque plus the moment of the force. -/
theorem C52_point_loads (f : Force) (b : Body) (h : Placed b) (v t p : V3) (fc : FC) :
    IsLoad (f.setForceTorqueInWorldAtPointInBody b v t p fc) b fc v t (b.pointInWorld p fc) ∧
    IsLoad (f.setForceTorqueInWorldAtPointInWorld b v t p fc) b fc v t p ∧
    IsLoad (f.setForceTorqueInBodyAtPointInBody b v t p fc) b fc (b.toWorld v fc) (b.toWorld t fc) (b.pointInWorld p fc) ∧
    IsLoad (f.setForceTorqueInBodyAtPointInWorld b v t p fc) b fc (b.toWorld v fc) (b.toWorld t fc) p := by
  refine ⟨load_key f b h v t p fc, ?_, ?_, ?_⟩
  · have := load_key f b h v t (b.pointInBody p fc) fc
    rw [pointInWorld_pointInBody h] at this
    exact this
  · have := load_key f b h (b.toWorld v fc) (b.toWorld t fc) p fc
    unfold Force.setForceTorqueInWorldAtPointInBody at this
    rw [toBody_toWorld h] at this
    exact this
  · have := load_key f b h (b.toWorld v fc) (b.toWorld t fc) (b.pointInBody p fc) fc
    rw [pointInWorld_pointInBody h] at this
    unfold Force.setForceTorqueInWorldAtPointInBody at this
    rw [toBody_toWorld h] at this
    exact this

theorem addTorque_zero (f : Force) (b : Body) (fc : FC) : f.addTorqueInBody (b.toBody 0 fc) fc = f := by
  have e : b.toBody 0 fc = 0 := by
    rw [← conv_zero fc, toBody_conv, rotate_zero]
  have e2 : conv fc (conv fc f.torque + 0) = f.torque := by
    rw [show conv fc f.torque + 0 = conv fc f.torque by ext <;> simp, conv_conv]
  unfold Force.addTorqueInBody Force.setTorqueInBodyAtCOG Force.getTorqueInBodyAtCOG
  rw [e, e2]

/-- **C52, pure forces.** The setters of a force at a point give that force without couple. -/
theorem C52_point_forces (f : Force) (b : Body) (h : Placed b) (v p : V3) (fc : FC) :
    IsLoad (f.setForceInWorldAtPointInBody b v p fc) b fc v 0 (b.pointInWorld p fc) ∧
    IsLoad (f.setForceInWorldAtPointInWorld b v p fc) b fc v 0 p ∧
    IsLoad (f.setForceInBodyAtPointInBody b v p fc) b fc (b.toWorld v fc) 0 (b.pointInWorld p fc) ∧
    IsLoad (f.setForceInBodyAtPointInWorld b v p fc) b fc (b.toWorld v fc) 0 p := by
  have k : ∀ (v p : V3), IsLoad (f.setForceInWorldAtPointInBody b v p fc) b fc v 0 (b.pointInWorld p fc) := by
    intro v p
    have := load_key f b h v 0 p fc
    unfold Force.setForceTorqueInWorldAtPointInBody at this
    rw [addTorque_zero] at this
    exact this
  refine ⟨k v p, ?_, k _ p, ?_⟩
  · have := k v (b.pointInBody p fc)
    rw [pointInWorld_pointInBody h] at this
    exact this
  · have := k (b.toWorld v fc) (b.pointInBody p fc)
    rw [pointInWorld_pointInBody h] at this
    exact this

/-- **C52, loads at the COG.** -/
theorem C52_cog_loads (f : Force) (b : Body) (h : Placed b) (v t : V3) (fc : FC) :
    IsLoad (f.setForceTorqueInWorldAtCOG b v t fc) b fc v t (b.cogPositionInWorld fc) ∧
    IsLoad (f.setForceTorqueInBodyAtCOG b v t fc) b fc (b.toWorld v fc) (b.toWorld t fc) (b.cogPositionInWorld fc) ∧
    (f.setForceTorqueInBodyAtCOG b v t fc).getForceInBody b fc = v ∧ (f.setForceTorqueInBodyAtCOG b v t fc).getTorqueInBodyAtCOG fc = t ∧
    (f.setForceInBody b v fc).getTorqueInBodyAtCOG fc = f.getTorqueInBodyAtCOG fc := by
  refine ⟨⟨conv_conv fc v, fun a => ?_⟩, ⟨conv_conv fc _, fun a => ?_⟩, ?_, conv_conv fc t, rfl⟩
  · show b.toWorld (conv fc (conv fc (b.toBody t fc))) fc + V3.cross _ (conv fc (conv fc v)) = _
    rw [conv_conv, conv_conv, toWorld_toBody h]
  · show b.toWorld (conv fc (conv fc t)) fc + V3.cross _ (conv fc (conv fc (b.toWorld v fc))) = _
    rw [conv_conv, conv_conv]
  · show b.toBody (conv fc (conv fc (b.toWorld v fc))) fc = v
    rw [conv_conv, toBody_toWorld h]

/-- **C52, readings.** The torque read at a point is consistent between all the getters: the same vector in world and body axes, whether the point is given in the world or in
the body, and the torque read at the COG point is the torque at the COG. -/
theorem C52_readings (f : Force) (b : Body) (h : Placed b) (p : V3) (fc : FC) :
    b.toWorld (f.getTorqueInBodyAtPointInWorld b p fc) fc = f.getTorqueInWorldAtPointInWorld b p fc ∧
    f.getTorqueInBodyAtPointInBody b (b.pointInBody p fc) fc = f.getTorqueInBodyAtPointInWorld b p fc ∧
    f.getTorqueInWorldAtPointInBody b (b.getCOG fc) fc = f.getTorqueInWorldAtCOG b fc ∧
    f.getTorqueInBodyAtPointInBody b (b.getCOG fc) fc = f.getTorqueInBodyAtCOG fc ∧
    b.toWorld (f.getForceInBody b fc) fc = f.getForceInWorld fc := by
  have k : f.getTorqueInWorldAtPointInBody b (b.getCOG fc) fc = f.getTorqueInWorldAtCOG b fc := by
    unfold Force.getTorqueInWorldAtPointInBody Force.getTorqueInWorldAtPointInWorld
    rw [(C50_points b h 0 0 fc).2.2.2]
    ext <;> simp
  refine ⟨toWorld_toBody h _ fc, ?_, k, ?_, toWorld_toBody h _ fc⟩
  · unfold Force.getTorqueInBodyAtPointInBody Force.getTorqueInBodyAtPointInWorld Force.getTorqueInWorldAtPointInBody
    rw [pointInWorld_pointInBody h]
  · unfold Force.getTorqueInBodyAtPointInBody
    rw [k]
    exact toBody_toWorld h _ fc

/-- **C52, power.** The power of a load is the same computed at the COG (as the solver does) or at the point of application, for every motion of the body. -/
theorem C52_power (f : Force) (b : Body) (h : Placed b) (ω : V3) (hs : Spinning b ω) (w t p : V3) (fc : FC) :
    let f' := f.setForceTorqueInWorldAtPointInBody b w t p fc
    V3.dot (f'.getForceInWorld fc) (b.cogVelWorld fc) + V3.dot (f'.getTorqueInWorldAtCOG b fc) (b.angVelWorld fc) =
    V3.dot w (b.velWorldAtPointInBody p fc) + V3.dot t (b.angVelWorld fc) := by
  intro f'
  have hl := load_key f b h w t p fc
  have hc := (C52_readings f' b h p fc).2.2.1
  have e1 : f'.getTorqueInWorldAtCOG b fc = t + V3.cross (b.pointInWorld p fc - b.cogPositionInWorld fc) w := by
    rw [← hc]
    unfold Force.getTorqueInWorldAtPointInBody
    rw [← (C50_points b h 0 0 fc).2.2.2]
    exact hl.2 _
  have e2 : f'.getForceInWorld fc = w := hl.1
  have hw := hs.wvel h
  have e3 : b.velWorldAtPointInBody p fc = b.cogVelWorld fc + V3.cross (b.angVelWorld fc) (b.pointInWorld p fc - b.cogPositionInWorld fc) := by
    obtain ⟨p', rfl⟩ := exists_conv fc p
    unfold Body.velWorldAtPointInBody Body.velBodyAtPointInBody Body.velBody Body.angVelBody Body.linVelWorld Body.angVelWorld Body.cogVelWorld Body.cogPositionInWorld
    rw [pointInWorld_conv, toBody_conv, toBody_conv, ← conv_cross, ← conv_add, toWorld_conv, ← conv_sub, ← conv_cross, ← conv_add]
    rw [Q.rotate_add, rotate_cross h.unit, Q.rotate_conj' h.unit, Q.rotate_conj' h.unit, hw, hs.ref, h.cog]
    congr 1
    ext <;> simp <;> ring
  rw [e1, e2, e3]
  simp only [V3.dot, V3.add_x, V3.add_y, V3.add_z, V3.cross_x, V3.cross_y, V3.cross_z]
  ring

/-- **C52, at-COG force keeps the old torque.** `SetForceInWorldAtCOG` and `SetForceInBody` set the force only: a torque set before remains, so the load is a force
at the COG only when the torque is zero beforehand. -/
theorem C52_cog_force_keeps_torque (f : Force) (b : Body) (v : V3) (fc : FC) :
    (f.setForceInWorldAtCOG v fc).getForceInWorld fc = v ∧
    (IsLoad (f.setForceInWorldAtCOG v fc) b fc v (f.getTorqueInWorldAtCOG b fc) (b.cogPositionInWorld fc)) := by
  refine ⟨conv_conv fc v, conv_conv fc v, fun a => ?_⟩
  show b.toWorld (conv fc f.torque) fc + V3.cross _ (conv fc (conv fc v)) = _
  rw [conv_conv]; rfl

/-! ## C53 -/

theorem clampVec_spec {limit : ℝ} (hl : 0 ≤ limit) (v : V3) :
    V3.norm (Force.clampVec limit v) ≤ limit ∧ (V3.norm v ≤ limit → Force.clampVec limit v = v) ∧
    (limit < V3.norm v → V3.norm (Force.clampVec limit v) = limit) ∧ ∃ s : ℝ, 0 ≤ s ∧ s ≤ 1 ∧ Force.clampVec limit v = s • v := by
  unfold Force.clampVec
  by_cases h : V3.norm v > limit
  · have hp : 0 < V3.norm v := lt_of_le_of_lt hl h
    have hn : V3.norm ((limit / V3.norm v) • v) = limit := by
      have e : V3.dot ((limit / V3.norm v) • v) ((limit / V3.norm v) • v) = limit ^ 2 := by
        have e1 : V3.dot ((limit / V3.norm v) • v) ((limit / V3.norm v) • v) = (limit / V3.norm v) ^ 2 * V3.dot v v := by
          simp [V3.dot]; ring
        rw [e1, ← V3.norm_sq]; field_simp
      show Real.sqrt (V3.dot ((limit / V3.norm v) • v) ((limit / V3.norm v) • v)) = limit
      rw [e, Real.sqrt_sq hl]
    rw [if_pos h]
    refine ⟨hn.le, fun h' => absurd h (not_lt.mpr h'), fun _ => hn, _, by positivity, ?_, rfl⟩
    rw [div_le_one hp]; exact h.le
  · rw [if_neg h]
    have h' := not_lt.mp h
    exact ⟨h', fun _ => rfl, fun h'' => absurd h'' h, 1, by norm_num, le_refl _, by ext <;> simp⟩

/-- **C53, limits.** Whatever the force model computes, with the limits on the force and the torque applied to the body never exceed them, keep
their direction, and are untouched when they are within the limits. -/
theorem C53_limits (compute : Force → Force) (b : Body) (f : Force) (hl : (f.update compute b).limitForce = true)
    (h1 : 0 ≤ (f.update compute b).forceLimit) (h2 : 0 ≤ (f.update compute b).torqueLimit) :
    V3.norm (f.updateState compute b).force ≤ (f.update compute b).forceLimit ∧
    V3.norm (f.updateState compute b).torque ≤ (f.update compute b).torqueLimit ∧
    (∃ s : ℝ, 0 ≤ s ∧ s ≤ 1 ∧ (f.updateState compute b).force = s • (f.update compute b).force) ∧
    (∃ s : ℝ, 0 ≤ s ∧ s ≤ 1 ∧ (f.updateState compute b).torque = s • (f.update compute b).torque) ∧
    (V3.norm (f.update compute b).force ≤ (f.update compute b).forceLimit → (f.updateState compute b).force = (f.update compute b).force) ∧
    (V3.norm (f.update compute b).torque ≤ (f.update compute b).torqueLimit → (f.updateState compute b).torque = (f.update compute b).torque) := by
  have e : f.updateState compute b = { f.update compute b with
      force := Force.clampVec (f.update compute b).forceLimit (f.update compute b).force,
      torque := Force.clampVec (f.update compute b).torqueLimit (f.update compute b).torque } := by
    unfold Force.updateState
    simp only []
    rw [if_pos hl]
  rw [e]
  have a := clampVec_spec h1 (f.update compute b).force
  have c := clampVec_spec h2 (f.update compute b).torque
  exact ⟨a.1, c.1, a.2.2.2, c.2.2.2, a.2.1, c.2.1⟩

/-- **C53, activity.** An inactive force applies nothing, whatever its model and its previous value; reactivated it applies what its model computes (without limits). -/
theorem C53_inactive (compute : Force → Force) (b : Body) (f : Force) :
    (f.isActive = false → (f.updateState compute b).force = 0 ∧ (f.updateState compute b).torque = 0) ∧
    (f.isActive = true → (compute f).limitForce = false → f.updateState compute b = compute f) := by
  constructor
  · intro h
    have e : f.update compute b = { f with force := 0, torque := 0 } := by
      unfold Force.update
      rw [h]
      show Force.mk _ _ _ _ _ _ = _
      have e1 : conv .NWU (b.toWorld 0 .NWU) = 0 := by
        show b.cog.rot.rotate 0 = 0
        exact rotate_zero _
      show Force.mk (conv .NWU (b.toWorld 0 .NWU)) (conv .NWU 0) _ _ _ _ = _
      rw [e1, conv_zero, ← h]
      rfl
    have c0 : ∀ l : ℝ, Force.clampVec l 0 = 0 := by
      intro l
      unfold Force.clampVec
      split_ifs
      · ext <;> simp
      · rfl
    unfold Force.updateState
    rw [e]
    simp only []
    split_ifs
    · exact ⟨c0 _, c0 _⟩
    · exact ⟨rfl, rfl⟩
  · intro h hl
    unfold Force.updateState Force.update
    rw [if_pos h]
    simp only [hl, Bool.false_eq_true, if_false]

/-- A force of 3 N at a point of a displaced body: the torque at the origin of the world is the moment of the force. -/
example : ({} : Force).setForceInWorldAtPointInWorld (Body.new.setPosition ⟨1, 2, 3⟩ .NED) ⟨3, 0, 0⟩ ⟨0, 1, 0⟩ .NED
    |>.getTorqueInWorldAtPointInWorld (Body.new.setPosition ⟨1, 2, 3⟩ .NED) 0 .NED |>.z |> (· = -3) := by
  have h : Placed (Body.new.setPosition ⟨1, 2, 3⟩ .NED) := at_placed _ _ Q.isUnit_one
  have := (C52_point_forces {} _ h ⟨3, 0, 0⟩ ⟨0, 1, 0⟩ .NED).2.1.2 0
  show (Force.getTorqueInWorldAtPointInWorld _ _ _ _).z = -3
  rw [this]
  simp

/-- A force of 10 N limited to 4 N. -/
example : V3.norm (({ limitForce := true, forceLimit := 4 } : Force).updateState (fun f => f.setForceInWorldAtCOG ⟨10, 0, 0⟩ .NWU) Body.new).force = 4 := by
  show V3.norm (Force.clampVec 4 ⟨10, 0, 0⟩) = 4
  refine (clampVec_spec (by norm_num) _).2.2.1 ?_
  have : V3.norm ⟨10, 0, 0⟩ = 10 := by
    unfold V3.norm V3.dot
    rw [show (10:ℝ) * 10 + 0 * 0 + 0 * 0 = 10 ^ 2 by norm_num, Real.sqrt_sq (by norm_num)]
  rw [this]; norm_num

end Frydom.Core
