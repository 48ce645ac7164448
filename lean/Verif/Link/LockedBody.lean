import Verif.Link.Actuator
import Verif.Core.Node

/-!
# Bodies with locked degrees of freedom (C146)

Model of `FrBody::InitializeLockedDOF` (`src/frydom/core/body/FrBody.cpp:1042-1071`): two nodes and a `FrDOFMaskLink` between the world body and the body. What a Chrono lock mask does to the relative frame of
the two nodes is external (`Satisfies`, C136).
-/

open Classical

noncomputable section

namespace Frydom.Link
open Frydom.Geom Frydom.Core

/-- The frame of the two nodes at the initialization (FrBody.cpp:1051-1054). -/
def lockFrame (b : Body) : Frame := Frame.new (b.cogPositionInWorld .NWU) b.getQuaternion .NWU

/-- The node of the body (FrBody.cpp:1049, 1055). -/
def lockNode (b : Body) : Node := (Node.new b).setFrameInWorld b (lockFrame b)

/-- The node of the world body `w` (FrBody.cpp:1058-1060): the frame in the world is given as a frame in the world body. -/
def worldLockNode (w b : Body) : Node := (Node.new w).setFrameInBody w (lockFrame b)

/-- The link (FrBody.cpp:1063-1066), between the world node (node 1) and the node of the body (node 2): the constraint of the mask holds. -/
def lockHolds (m : DofMask) (worldNode bodyNode : Node) : Prop := Satisfies (chronoMask m) (worldNode.frameInWorld.otherWrtThis bodyNode.frameInWorld)

/-! ## Specification -/

/-- The world body: a body that is where the world frame is. -/
structure IsWorld (w : Body) : Prop where
  placed : Placed w
  frame : w.getFrame = Frame.identity

/-- The body `b` was initialized with its lock; it is now `b'`, its node is now `n`: still attached, at the same place of the body (C54). -/
structure Later (b b' : Body) (n : Node) : Prop where
  placed : Placed b
  placed' : Placed b'
  attached : Attached b' n
  same : n.frameInBody b' = (lockNode b).frameInBody b

/-- How far the point of the body that was the centre of gravity at the initialization has gone. -/
def travel (b b' : Body) : V3 := b'.pointInWorld (b.getCOG .NWU) .NWU - b.cogPositionInWorld .NWU

/-! ## Proofs -/

theorem conv_NWU (v : V3) : conv .NWU v = v := rfl

theorem lockNode_abs (b : Body) (h : Placed b) : (lockNode b).frameInWorld = ⟨b.cog.pos, b.cog.rot⟩ := by
  show (lockNode b).abs = _
  unfold lockNode
  rw [setFrameInWorld_abs _ b h]
  rfl

theorem lockNode_inBody (b : Body) (h : Placed b) : (lockNode b).frameInBody b = ⟨b.getCOG .NWU, Q.one⟩ := by
  rw [frameInBody_eq]
  refine Frame.ext ?_ ?_
  · show b.cog.rot.conj.rotate (b.cog.pos - b.cog.pos) + b.cogInRef = b.cogInRef
    rw [show b.cog.pos - b.cog.pos = 0 by ext <;> simp, rotate_zero]
    ext <;> simp
  · exact Q.conj_mul h.unit

theorem worldLockNode_abs (w b : Body) (hw : IsWorld w) (h : Placed b) : (worldLockNode w b).frameInWorld = ⟨b.cog.pos, b.cog.rot⟩ := by
  have ha : Attached w (worldLockNode w b) := setFrameInBody_attached _ _ _ h.unit
  rw [(C54_attached w hw.placed _ ha .NWU).1, hw.frame]
  unfold worldLockNode
  rw [setFrameInBody_get]
  refine Frame.ext ?_ (Q.one_mul _)
  show (0 : V3) + Q.one.rotate b.cog.pos = b.cog.pos
  ext <;> simp [Q.rotate, Q.toMat, Q.one] <;> ring

theorem lock_rel (w b b' : Body) (n : Node) (hw : IsWorld w) (h : Later b b' n) :
    (worldLockNode w b).frameInWorld.otherWrtThis n.frameInWorld = ⟨b.getQuaternion.conj.rotate (travel b b'), b.getQuaternion.conj.mul b'.getQuaternion⟩ := by
  rw [worldLockNode_abs w b hw h.placed, (C54_attached b' h.placed' n h.attached .NWU).1, h.same, lockNode_inBody b h.placed]
  refine Frame.ext ?_ ?_
  · show -(b.cog.rot.conj.rotate b.cog.pos) + b.cog.rot.conj.rotate (b'.refPos + b'.cog.rot.rotate b.cogInRef) = b.cog.rot.conj.rotate (b'.refPos + b'.cog.rot.rotate b.cogInRef - b.cog.pos)
    rw [Q.rotate_sub]
    ext <;> simp <;> ring
  · show b.cog.rot.conj.mul (b'.cog.rot.mul Q.one) = b.cog.rot.conj.mul b'.cog.rot
    rw [Q.mul_one]

theorem dot_axis {q : Q} (hq : q.IsUnit) (v e : V3) : V3.dot (q.conj.rotate v) e = V3.dot v (q.rotate e) := by
  have := dot_rotate hq (q.conj.rotate v) e
  rw [Q.rotate_conj' hq] at this
  exact this.symm

/-- **C146, at the start.** Whatever is locked, the body meets its lock where it is when it is initialized. -/
theorem C146_initial (w b : Body) (hw : IsWorld w) (h : Placed b) (m : DofMask) :
    Later b b (lockNode b) ∧ lockHolds m (worldLockNode w b) (lockNode b) := by
  have hl : Later b b (lockNode b) := ⟨h, h, setFrameInWorld_attached _ b h _ h.unit, rfl⟩
  refine ⟨hl, ?_⟩
  unfold lockHolds
  rw [lock_rel w b b _ hw hl]
  have ht : travel b b = 0 := by
    have := (C50_points b h 0 0 .NWU).2.2.2
    unfold travel
    rw [← this]
    ext <;> simp
  have hq : b.getQuaternion.conj.mul b.getQuaternion = Q.one := Q.conj_mul h.unit
  rw [ht, rotate_zero, hq]
  have he0 : (chronoMask m).e0 = false := by
    unfold chronoMask
    by_cases hc : m.linkType = .custom
    · rw [if_pos hc]
    · rw [if_neg hc]
      cases m.linkType <;> rfl
  refine ⟨fun _ => rfl, fun _ => rfl, fun _ => rfl, fun hh => ?_, fun _ => rfl, fun _ => rfl, fun _ => rfl⟩
  rw [he0] at hh
  cases hh

/-- **C146, translations.** Afterwards, with only translations locked, the lock holds if and only if the point that was the centre of gravity has not moved along the locked axes, which are those the body had at the
initialization. -/
theorem C146_translations (w b b' : Body) (n : Node) (hw : IsWorld w) (h : Later b b' n) (x y z : Bool) :
    lockHolds (DofMask.setLock {} x y z false false false) (worldLockNode w b) n ↔
      (x = true → V3.dot (travel b b') (b.toWorld V3.e1 .NWU) = 0) ∧ (y = true → V3.dot (travel b b') (b.toWorld V3.e2 .NWU) = 0) ∧
      (z = true → V3.dot (travel b b') (b.toWorld V3.e3 .NWU) = 0) := by
  unfold lockHolds
  rw [lock_rel w b b' n hw h]
  have hx : ∀ v e, V3.dot v (b.toWorld e .NWU) = V3.dot (b.getQuaternion.conj.rotate v) e := fun v e => (dot_axis h.placed.unit v e).symm
  rw [hx, hx, hx]
  generalize b.getQuaternion.conj.rotate (travel b b') = v
  have e1 : V3.dot v V3.e1 = v.x := by simp [V3.dot, V3.e1]
  have e2 : V3.dot v V3.e2 = v.y := by simp [V3.dot, V3.e2]
  have e3 : V3.dot v V3.e3 = v.z := by simp [V3.dot, V3.e3]
  rw [e1, e2, e3]
  simp [Satisfies, chronoMask, DofMask.setLock]

theorem fixed_e3_iff {q : Q} (hq : q.IsUnit) : q.rotate V3.e3 = V3.e3 ↔ q.e1 = 0 ∧ q.e2 = 0 := by
  have hn : q.e0 ^ 2 + q.e1 ^ 2 + q.e2 ^ 2 + q.e3 ^ 2 = 1 := hq
  constructor
  · intro h
    have hz := congrArg V3.z h
    simp only [Q.rotate, Q.toMat, M3.mulVec, V3.e3] at hz
    have h1 : q.e1 ^ 2 = 0 := by nlinarith [sq_nonneg q.e1, sq_nonneg q.e2]
    have h2 : q.e2 ^ 2 = 0 := by nlinarith [sq_nonneg q.e1, sq_nonneg q.e2]
    exact ⟨pow_eq_zero_iff (two_ne_zero) |>.mp h1, pow_eq_zero_iff (two_ne_zero) |>.mp h2⟩
  · rintro ⟨h1, h2⟩
    rw [h1, h2] at hn
    ext <;> simp only [Q.rotate, Q.toMat, M3.mulVec, h1, h2, V3.e3]
    · ring
    · ring
    · linear_combination 2 * hn

theorem fixed_e2_iff {q : Q} (hq : q.IsUnit) : q.rotate V3.e2 = V3.e2 ↔ q.e1 = 0 ∧ q.e3 = 0 := by
  have hn : q.e0 ^ 2 + q.e1 ^ 2 + q.e2 ^ 2 + q.e3 ^ 2 = 1 := hq
  constructor
  · intro h
    have hz := congrArg V3.y h
    simp only [Q.rotate, Q.toMat, M3.mulVec, V3.e2] at hz
    have h1 : q.e1 ^ 2 = 0 := by nlinarith [sq_nonneg q.e1, sq_nonneg q.e3]
    have h2 : q.e3 ^ 2 = 0 := by nlinarith [sq_nonneg q.e1, sq_nonneg q.e3]
    exact ⟨pow_eq_zero_iff (two_ne_zero) |>.mp h1, pow_eq_zero_iff (two_ne_zero) |>.mp h2⟩
  · rintro ⟨h1, h2⟩
    rw [h1, h2] at hn
    ext <;> simp only [Q.rotate, Q.toMat, M3.mulVec, h1, h2, V3.e2]
    · ring
    · linear_combination 2 * hn
    · ring

theorem rel_axis (b b' : Body) (h : Placed b) (h' : Placed b') (e : V3) :
    (b.getQuaternion.conj.mul b'.getQuaternion).rotate e = e ↔ b'.toWorld e .NWU = b.toWorld e .NWU := by
  have hb : b.getQuaternion.IsUnit := h.unit
  have hb' : b'.getQuaternion.IsUnit := h'.unit
  rw [Q.rotate_mul hb.conj hb']
  show b.cog.rot.conj.rotate (b'.cog.rot.rotate e) = e ↔ b'.cog.rot.rotate e = b.cog.rot.rotate e
  constructor
  · intro hh
    rw [← Q.rotate_conj' h.unit (b'.cog.rot.rotate e), hh]
  · intro hh
    rw [hh, Q.rotate_conj h.unit]

/-- **C146, planes.** `LockXYPlane` holds if and only if the axis z of the body is what it was at the initialization, and the point that was the centre of gravity stays in the plane normal to it;
`LockXZPlane` the same with the axis y. (For a body that was upright: it stays upright, at the same height.) -/
theorem C146_planes (w b b' : Body) (n : Node) (hw : IsWorld w) (h : Later b b' n) (m : DofMask) :
    (lockHolds m.lockXYPlane (worldLockNode w b) n ↔ V3.dot (travel b b') (b.toWorld V3.e3 .NWU) = 0 ∧ b'.toWorld V3.e3 .NWU = b.toWorld V3.e3 .NWU) ∧
    (lockHolds m.lockXZPlane (worldLockNode w b) n ↔ V3.dot (travel b b') (b.toWorld V3.e2 .NWU) = 0 ∧ b'.toWorld V3.e2 .NWU = b.toWorld V3.e2 .NWU) := by
  have hx : ∀ v e, V3.dot v (b.toWorld e .NWU) = V3.dot (b.getQuaternion.conj.rotate v) e := fun v e => (dot_axis h.placed.unit v e).symm
  have hu : (b.getQuaternion.conj.mul b'.getQuaternion).IsUnit := Q.IsUnit.mul (Q.IsUnit.conj h.placed.unit) h.placed'.unit
  unfold lockHolds
  rw [lock_rel w b b' n hw h, hx, hx, ← rel_axis b b' h.placed h.placed', ← rel_axis b b' h.placed h.placed', fixed_e3_iff hu, fixed_e2_iff hu]
  generalize b.getQuaternion.conj.rotate (travel b b') = v
  have e2 : V3.dot v V3.e2 = v.y := by simp [V3.dot, V3.e2]
  have e3 : V3.dot v V3.e3 = v.z := by simp [V3.dot, V3.e3]
  rw [e2, e3]
  constructor <;>
    simp [Satisfies, chronoMask, DofMask.lockXYPlane, DofMask.lockXZPlane, DofMask.makeItFree, DofMask.setLockX, DofMask.setLockY, DofMask.setLockZ, DofMask.setLockRx, DofMask.setLockRy, DofMask.setLockRz]

/-- **C146, everything locked.** Then the lock holds if and only if no point of the body has moved. -/
theorem C146_all (w b b' : Body) (n : Node) (hw : IsWorld w) (h : Later b b' n) (m : DofMask) :
    (lockHolds m.makeItLocked (worldLockNode w b) n ↔ ∀ p fc, b'.pointInWorld p fc = b.pointInWorld p fc) ∧
    (lockHolds (m.setLock true true true true true true) (worldLockNode w b) n ↔ ∀ p fc, b'.pointInWorld p fc = b.pointInWorld p fc) := by
  have hu : (b.getQuaternion.conj.mul b'.getQuaternion).IsUnit := Q.IsUnit.mul (Q.IsUnit.conj h.placed.unit) h.placed'.unit
  have key : (b.getQuaternion.conj.rotate (travel b b') = 0 ∧ SameAxes ⟨b.getQuaternion.conj.rotate (travel b b'), b.getQuaternion.conj.mul b'.getQuaternion⟩) ↔
      ∀ p fc, b'.pointInWorld p fc = b.pointInWorld p fc := by
    have hP0 : b.cogPositionInWorld .NWU = b.pointInWorld (b.getCOG .NWU) .NWU := (C50_points b h.placed 0 0 .NWU).2.2.2
    have hax : SameAxes ⟨b.getQuaternion.conj.rotate (travel b b'), b.getQuaternion.conj.mul b'.getQuaternion⟩ ↔ ∀ e, b'.toWorld e .NWU = b.toWorld e .NWU := by
      unfold SameAxes
      exact forall_congr' fun e => rel_axis b b' h.placed h.placed' e
    have htr : b.getQuaternion.conj.rotate (travel b b') = 0 ↔ b'.pointInWorld (b.getCOG .NWU) .NWU = b.pointInWorld (b.getCOG .NWU) .NWU := by
      rw [← hP0]
      constructor
      · intro hh
        have : travel b b' = 0 := by
          rw [← Q.rotate_conj' h.placed.unit (travel b b')]
          have e : b.cog.rot.conj.rotate (travel b b') = 0 := hh
          rw [e, rotate_zero]
        unfold travel at this
        ext
        · have := congrArg V3.x this; simp at this; linarith
        · have := congrArg V3.y this; simp at this; linarith
        · have := congrArg V3.z this; simp at this; linarith
      · intro hh
        unfold travel
        rw [hh, show b.cogPositionInWorld .NWU - b.cogPositionInWorld .NWU = 0 by ext <;> simp, rotate_zero]
    rw [hax, htr]
    constructor
    · rintro ⟨h1, h2⟩ p fc
      have hp : b'.getPosition .NWU = b.getPosition .NWU := by
        unfold Body.pointInWorld at h1
        rw [h2] at h1
        ext
        · have := congrArg V3.x h1; simp at this; exact this
        · have := congrArg V3.y h1; simp at this; exact this
        · have := congrArg V3.z h1; simp at this; exact this
      obtain ⟨p', rfl⟩ := exists_conv fc p
      rw [pointInWorld_conv, pointInWorld_conv]
      have e1 : b'.refPos = b.refPos := hp
      have e2 : b'.cog.rot.rotate p' = b.cog.rot.rotate p' := h2 p'
      rw [e1, e2]
    · intro hh
      refine ⟨hh _ _, fun e => ?_⟩
      have h0 := hh 0 .NWU
      have he := hh e .NWU
      unfold Body.pointInWorld at h0 he
      have z : ∀ c : Body, c.toWorld 0 .NWU = 0 := fun c => rotate_zero _
      rw [z, z] at h0
      have hp : b'.getPosition .NWU = b.getPosition .NWU := by
        ext
        · have := congrArg V3.x h0; simp at this; exact this
        · have := congrArg V3.y h0; simp at this; exact this
        · have := congrArg V3.z h0; simp at this; exact this
      rw [hp] at he
      ext
      · have := congrArg V3.x he; simp at this; exact this
      · have := congrArg V3.y he; simp at this; exact this
      · have := congrArg V3.z he; simp at this; exact this
  unfold lockHolds
  rw [lock_rel w b b' n hw h, ← key, sameAxes_iff _ hu]
  have p0 : ∀ v : V3, v = 0 ↔ v.x = 0 ∧ v.y = 0 ∧ v.z = 0 := fun v => by rw [V3.ext_iff]; simp
  generalize b.getQuaternion.conj.rotate (travel b b') = v
  rw [p0]
  constructor
  · simp [Satisfies, chronoMask, DofMask.makeItLocked, chronoMaskOfType]; tauto
  · simp [Satisfies, chronoMask, DofMask.setLock]; tauto

/-- **C146, which axes.** The axes are not those of the world: with its heading at 90 degrees, a body with X locked may move along the axis x of the world, and not along its axis y. -/
theorem C146_axes (w : Body) (hw : IsWorld w) (s : ℝ) (hs : s * s = 1 / 2) (d : ℝ) :
    let b := Body.new.setRotation ⟨s, 0, 0, s⟩
    ∀ b' n, Later b b' n → (b'.getQuaternion = b.getQuaternion) →
      (b'.getPosition .NWU = b.getPosition .NWU + ⟨d, 0, 0⟩ → lockHolds (DofMask.setLock {} true false false false false false) (worldLockNode w b) n) ∧
      (b'.getPosition .NWU = b.getPosition .NWU + ⟨0, d, 0⟩ → d ≠ 0 → ¬ lockHolds (DofMask.setLock {} true false false false false false) (worldLockNode w b) n) := by
  intro b b' n h hr
  have ht : travel b b' = b'.getPosition .NWU - b.getPosition .NWU := by
    have hP0 : b.cogPositionInWorld .NWU = b.pointInWorld (b.getCOG .NWU) .NWU := (C50_points b h.placed 0 0 .NWU).2.2.2
    unfold travel
    rw [hP0]
    show b'.refPos + b'.cog.rot.rotate b.cogInRef - (b.refPos + b.cog.rot.rotate b.cogInRef) = b'.refPos - b.refPos
    have : b'.cog.rot = b.cog.rot := hr
    rw [this]
    ext <;> simp
  have ax : b.toWorld V3.e1 .NWU = V3.e2 := by
    show (⟨s, 0, 0, s⟩ : Q).rotate V3.e1 = V3.e2
    ext <;> simp [Q.rotate, Q.toMat, V3.e1, V3.e2] <;> linarith
  have key := C146_translations w b b' n hw h true false false
  rw [ax] at key
  constructor
  · intro hp
    rw [key, ht, hp]
    refine ⟨fun _ => ?_, fun hh => (by cases hh), fun hh => (by cases hh)⟩
    simp [V3.dot, V3.e2]
  · intro hp hd hh
    have := (key.1 hh).1 rfl
    rw [ht, hp] at this
    simp [V3.dot, V3.e2] at this
    exact hd this

/-! ## Concrete cases -/

theorem isWorld_new : IsWorld Body.new := by
  refine ⟨⟨Q.isUnit_one, ?_⟩, rfl⟩
  ext <;> simp [Body.new, Q.rotate, Q.toMat, Q.one, Frame.identity]

/-- Any history of calls on the body after its initialization gives a later state, with the node of the lock. -/
theorem later_of_calls (b : Body) (h : Placed b) (ops : List Op) (hv : ∀ o ∈ ops, o.Valid) :
    ∃ b' n, Later b b' n ∧ b' = ops.foldl (fun b o => o.run b) b := by
  induction ops using List.reverseRecOn with
  | nil => exact ⟨b, lockNode b, (C146_initial Body.new b isWorld_new h {}).1, rfl⟩
  | append_singleton ops o ih =>
    obtain ⟨b1, n1, hl, e⟩ := ih fun o' ho' => hv o' (List.mem_append_left _ ho')
    refine ⟨o.run b1, o.onNode b1 (o.run b1) n1, ⟨h, ?_, onNode_attached _ _ _ _ hl.attached.unit, ?_⟩, ?_⟩
    · exact op_placed o (hv o (by simp)) b1 hl.placed'
    · rw [C54_body_calls, hl.same]
    · rw [List.foldl_append, ← e]
      rfl

/-- A body moved 2 m along x after its initialization, with y and z locked. -/
example : ∃ b' n, Later Body.new b' n ∧ lockHolds (DofMask.setLock {} false true true false false false) (worldLockNode Body.new Body.new) n ∧ b'.getPosition .NWU = ⟨2, 0, 0⟩ := by
  obtain ⟨b', n, hl, e⟩ := later_of_calls Body.new isWorld_new.placed [.setPosition ⟨2, 0, 0⟩ .NWU] (by simp [Op.Valid])
  have hp : b'.getPosition .NWU = ⟨2, 0, 0⟩ := by
    rw [e]
    exact (C50_set_get Body.new ⟨2, 0, 0⟩ Q.one Frame.identity .NWU .NWU).1
  refine ⟨b', n, hl, ?_, hp⟩
  rw [C146_translations _ _ _ _ isWorld_new hl]
  have hr : b'.cog.rot = Q.one := by rw [e]; rfl
  have ht : travel Body.new b' = ⟨2, 0, 0⟩ := by
    show b'.refPos + b'.cog.rot.rotate 0 - 0 = _
    have : b'.refPos = ⟨2, 0, 0⟩ := hp
    rw [this, rotate_zero]
    ext <;> simp
  rw [ht]
  refine ⟨fun hh => (by cases hh), fun _ => ?_, fun _ => ?_⟩ <;>
  simp [Body.toWorld, rotate, conv, Body.new, V3.dot, Q.rotate, Q.toMat, Q.one, V3.e2, V3.e3, Frame.identity, Body.getQuaternion]

end Frydom.Link
