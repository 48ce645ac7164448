import Verif.Geom.Props
import Mathlib.Analysis.Calculus.Deriv.Mul
import Mathlib.Analysis.Calculus.Deriv.Add
import Mathlib.Analysis.SpecialFunctions.Trigonometric.Deriv

/-!
# Links between two bodies: reaction wrenches, relative motion, prismatic link (C47, C48, C49)

`src/frydom/core/link/links_lib/FrLink.cpp`, `FrPrismaticLink.cpp`.
-/

noncomputable section

namespace Frydom.Link
open Frydom.Geom

/-- What Chrono gives to the link (FrLink.cpp:101-137): `GetRelM`, `GetRelM_dt().pos`, `GetRelWvel`, `GetRelM_dtdt().pos`, `GetRelWacc`, `Get_react_force`,
`Get_react_torque`. Markers are referenced as (node 2, node 1) (FrLink.cpp:280-283), so all are about node 2 relative to node 1, in the axes of node 1; the
reaction is the one on body 1 at node 1. -/
structure ChLink where
  relM : Frame
  relVel : V3
  relWvel : V3
  relAcc : V3
  relWacc : V3
  reactForce : V3
  reactTorque : V3
  /-- `C_force`, `C_torque`: applied by the link on the body of node 2, in the axes of node 1, at node 2 (Chrono comment quoted in FrLink.cpp:594-600). -/
  cForce : V3 := 0
  cTorque : V3 := 0

/-- The caches of `FrLinkLockBase` (FrLink.h). -/
structure Cache where
  frame2WRT1 : Frame
  frame1WRT2 : Frame
  vel2WRT1 : V3
  angVel2WRT1 : V3
  vel1WRT2 : V3
  angVel1WRT2 : V3
  acc2WRT1 : V3
  angAcc2WRT1 : V3
  acc1WRT2 : V3
  angAcc1WRT2 : V3
  forceOnNode1 : V3
  torqueOnNode1 : V3
  forceOnNode2 : V3
  torqueOnNode2 : V3

/-- `FrLinkLockBase::GenerateCache` (FrLink.cpp:101-140). -/
def generateCache (c : ChLink) : Cache :=
  let f21 := c.relM
  let f12 := f21.inv
  let f2 := -(f12.projFrameInParent c.reactForce .NWU)
  { frame2WRT1 := f21
    frame1WRT2 := f12
    vel2WRT1 := c.relVel
    angVel2WRT1 := c.relWvel
    vel1WRT2 := -(f12.projFrameInParent c.relVel .NWU)
    angVel1WRT2 := -(f12.projFrameInParent c.relWvel .NWU)
    acc2WRT1 := c.relAcc
    angAcc2WRT1 := c.relWacc
    acc1WRT2 := -(f12.projFrameInParent c.relAcc .NWU)
    angAcc1WRT2 := -(f12.projFrameInParent c.relWacc .NWU)
    forceOnNode1 := c.reactForce
    torqueOnNode1 := c.reactTorque
    forceOnNode2 := f2
    torqueOnNode2 := -(f12.projFrameInParent c.reactTorque .NWU) + V3.cross (f12.getPosition .NWU) f2 }

/-- `GetLinkReactionForceOnNode1/2`, `GetLinkReactionTorqueOnNode1/2` (FrLink.cpp:521-553). -/
def reactionForceOnNode1 (k : Cache) (fc : FC) : V3 := conv fc k.forceOnNode1
/-- see `reactionForceOnNode1` -/
def reactionForceOnNode2 (k : Cache) (fc : FC) : V3 := conv fc k.forceOnNode2
/-- see `reactionForceOnNode1` -/
def reactionTorqueOnNode1 (k : Cache) (fc : FC) : V3 := conv fc k.torqueOnNode1
/-- see `reactionForceOnNode1` -/
def reactionTorqueOnNode2 (k : Cache) (fc : FC) : V3 := conv fc k.torqueOnNode2

/-- `GetLinkReactionForceOnBody1/2` (FrLink.cpp:533-541); `n`: frame of the node relative to the COG, in the body. -/
def reactionForceOnBody1 (k : Cache) (n : Frame) (fc : FC) : V3 := n.projFrameInParent (reactionForceOnNode1 k fc) fc
/-- see `reactionForceOnBody1` -/
def reactionForceOnBody2 (k : Cache) (n : Frame) (fc : FC) : V3 := n.projFrameInParent (reactionForceOnNode2 k fc) fc

/-- `GetLinkReactionTorqueOnBody1AtCOG` (FrLink.cpp:555-564). -/
def reactionTorqueOnBody1AtCOG (k : Cache) (n : Frame) (fc : FC) : V3 :=
  let torqueAtNode := n.projFrameInParent (reactionTorqueOnNode1 k fc) fc
  let r := n.getPosition fc
  let force := n.projFrameInParent (reactionForceOnNode1 k fc) fc
  torqueAtNode + V3.cross r force
/-- `GetLinkReactionTorqueOnBody2AtCOG` (FrLink.cpp:566-575). -/
def reactionTorqueOnBody2AtCOG (k : Cache) (n : Frame) (fc : FC) : V3 :=
  let torqueAtNode := n.projFrameInParent (reactionTorqueOnNode2 k fc) fc
  let r := n.getPosition fc
  let force := n.projFrameInParent (reactionForceOnNode2 k fc) fc
  torqueAtNode + V3.cross r force

/-- `GetNode2PositionWRTNode1`, `GetNode1PositionWRTNode2` (FrLink.cpp:457-463). -/
def node2PositionWRTNode1 (k : Cache) (fc : FC) : V3 := k.frame2WRT1.getPosition fc
/-- see `node2PositionWRTNode1` -/
def node1PositionWRTNode2 (k : Cache) (fc : FC) : V3 := k.frame1WRT2.getPosition fc
/-- `GetVelocityOfNode2WRTNode1` and companions (FrLink.cpp:473-519): the convention argument is not used. -/
def velocityOfNode2WRTNode1 (k : Cache) (_ : FC) : V3 := k.vel2WRT1
/-- see `velocityOfNode2WRTNode1` -/
def velocityOfNode1WRTNode2 (k : Cache) (_ : FC) : V3 := k.vel1WRT2
/-- see `velocityOfNode2WRTNode1` -/
def angularVelocityOfNode2WRTNode1 (k : Cache) (_ : FC) : V3 := k.angVel2WRT1
/-- see `velocityOfNode2WRTNode1` -/
def angularVelocityOfNode1WRTNode2 (k : Cache) (_ : FC) : V3 := k.angVel1WRT2
/-- see `velocityOfNode2WRTNode1` -/
def accelerationOfNode1WRTNode2 (k : Cache) (_ : FC) : V3 := k.acc1WRT2
/-- see `velocityOfNode2WRTNode1` -/
def angularAccelerationOfNode1WRTNode2 (k : Cache) (_ : FC) : V3 := k.angAcc1WRT2
/-- see `velocityOfNode2WRTNode1` (FrLink.cpp:509-511) -/
def accelerationOfNode2WRTNode1 (k : Cache) (_ : FC) : V3 := k.acc2WRT1
/-- see `velocityOfNode2WRTNode1` (FrLink.cpp:513-515) -/
def angularAccelerationOfNode2WRTNode1 (k : Cache) (_ : FC) : V3 := k.angAcc2WRT1

/-! ## Specification: wrenches in the world -/

/-- A wrench in the world: resultant force and moment about a point of the world. -/
structure Wrench where
  force : V3
  point : V3
  moment : V3

/-- Moment about another point. -/
def Wrench.momentAbout (w : Wrench) (a : V3) : V3 := w.moment + V3.cross (w.point - a) w.force

/-- The wrench in the world of a force and a torque at the COG given in the axes (`fc`) of a body whose COG frame in the world is `b`. -/
def Wrench.ofBody (b : Frame) (force torque : V3) (fc : FC) : Wrench :=
  ⟨b.projFrameInParent force fc, b.getPosition fc, b.projFrameInParent torque fc⟩

/-! ## C47 -/

theorem cross_add_right (a b c : V3) : V3.cross a (b + c) = V3.cross a b + V3.cross a c := by ext <;> simp <;> ring
theorem cross_add_left (a b c : V3) : V3.cross (a + b) c = V3.cross a c + V3.cross b c := by ext <;> simp <;> ring
theorem cross_neg_right (a b : V3) : V3.cross a (-b) = -V3.cross a b := by ext <;> simp <;> ring
theorem cross_neg_left (a b : V3) : V3.cross (-a) b = -V3.cross a b := by ext <;> simp <;> ring
theorem rotate_cross {q : Q} (h : q.IsUnit) (a b : V3) : q.rotate (V3.cross a b) = V3.cross (q.rotate a) (q.rotate b) :=
  ((Q.isRot h).cross a b).symm

theorem conv_neg (fc : FC) (v : V3) : conv fc (-v) = -conv fc v := by cases fc <;> ext <;> simp [conv, swap]
theorem rotateFC (q : Q) (fc : FC) (v : V3) : rotate q fc (conv fc v) = conv fc (q.rotate v) := by
  unfold rotate; rw [conv_conv]

/-- The wrench on body 1 and on body 2 in terms of the Chrono reaction (NWU quantities, then converted). -/
theorem wrench1 (c : ChLink) (B1 N1 : Frame) (h1 : B1.Valid) (k1 : N1.Valid) (fc : FC) :
    Wrench.ofBody B1 (reactionForceOnBody1 (generateCache c) N1 fc) (reactionTorqueOnBody1AtCOG (generateCache c) N1 fc) fc =
    ⟨conv fc ((B1.mul N1).rot.rotate c.reactForce), conv fc B1.pos,
     conv fc ((B1.mul N1).rot.rotate c.reactTorque + V3.cross (B1.rot.rotate N1.pos) ((B1.mul N1).rot.rotate c.reactForce))⟩ := by
  unfold Frame.Valid at h1 k1
  simp only [Wrench.ofBody, reactionForceOnBody1, reactionTorqueOnBody1AtCOG, reactionForceOnNode1, reactionTorqueOnNode1,
    generateCache, Frame.projFrameInParent, Frame.getPosition, Frame.mul, rotateFC, Wrench.mk.injEq, true_and]
  rw [← conv_cross, ← conv_add]
  simp only [rotateFC, Q.rotate_add, rotate_cross h1, Q.rotate_mul h1 k1, and_self]

theorem wrench2 (c : ChLink) (B2 N2 : Frame) (h2 : B2.Valid) (k2 : N2.Valid) (fc : FC) :
    Wrench.ofBody B2 (reactionForceOnBody2 (generateCache c) N2 fc) (reactionTorqueOnBody2AtCOG (generateCache c) N2 fc) fc =
    ⟨conv fc (-((B2.mul N2).rot.rotate (c.relM.inv.rot.rotate c.reactForce))), conv fc B2.pos,
     conv fc (-((B2.mul N2).rot.rotate (c.relM.inv.rot.rotate c.reactTorque)) -
       V3.cross (B2.rot.rotate N2.pos + (B2.mul N2).rot.rotate c.relM.inv.pos) ((B2.mul N2).rot.rotate (c.relM.inv.rot.rotate c.reactForce)))⟩ := by
  unfold Frame.Valid at h2 k2
  have hq := h2.mul k2
  have e : ∀ v : V3, rotate c.relM.inv.rot .NWU v = c.relM.inv.rot.rotate v := fun v => rfl
  have e' : conv .NWU c.relM.inv.pos = c.relM.inv.pos := rfl
  simp only [Wrench.ofBody, reactionForceOnBody2, reactionTorqueOnBody2AtCOG, reactionForceOnNode2, reactionTorqueOnNode2,
    generateCache, Frame.projFrameInParent, Frame.getPosition, rotateFC, e, e', Wrench.mk.injEq, true_and]
  rw [← conv_cross, ← conv_add]
  simp only [rotateFC]
  simp only [Frame.mul, Q.rotate_neg, Q.rotate_add, rotate_cross h2, rotate_cross k2, Q.rotate_mul h2 k2, cross_neg_right, cross_add_left, true_and]
  congr 1
  ext <;> simp <;> ring

/-- **C47.** The reaction of a link obeys action and reaction: whatever the positions and orientations of the bodies and of the nodes in them, the
wrench built from the force and the torque at the COG returned for body 1 and the one returned for body 2 are opposite, in the world and in both frame
conventions: forces add up to zero, and so do the moments about every point. -/
theorem C47_action_reaction (c : ChLink) (B1 B2 N1 N2 : Frame) (h1 : B1.Valid) (h2 : B2.Valid) (k1 : N1.Valid) (k2 : N2.Valid)
    (hrel : c.relM = (B1.mul N1).otherWrtThis (B2.mul N2)) (fc : FC) (a : V3) :
    let k := generateCache c
    let w1 := Wrench.ofBody B1 (reactionForceOnBody1 k N1 fc) (reactionTorqueOnBody1AtCOG k N1 fc) fc
    let w2 := Wrench.ofBody B2 (reactionForceOnBody2 k N2 fc) (reactionTorqueOnBody2AtCOG k N2 fc) fc
    w1.force + w2.force = 0 ∧ w1.momentAbout a + w2.momentAbout a = 0 := by
  intro k w1 w2
  have e1 : w1 = _ := wrench1 c B1 N1 h1 k1 fc
  have e2 : w2 = _ := wrench2 c B2 N2 h2 k2 fc
  set A := B1.mul N1 with hA
  set B := B2.mul N2 with hB
  have vA : A.rot.IsUnit := h1.mul k1
  have vB : B.rot.IsUnit := h2.mul k2
  have r1 : c.relM.inv.rot = B.rot.conj.mul A.rot := by
    rw [hrel]
    show ((A.rot.conj).mul B.rot).conj = _
    rw [Q.conj_mul_rev, Q.conj_conj]
  have r2 : ∀ v, B.rot.rotate (c.relM.inv.rot.rotate v) = A.rot.rotate v := by
    intro v
    rw [r1, Q.rotate_mul vB.conj vA, Q.rotate_conj' vB]
  have r3 : B.rot.rotate c.relM.inv.pos = A.pos - B.pos := by
    have : c.relM.inv.pos = -(c.relM.inv.rot.rotate c.relM.pos) := rfl
    rw [this, Q.rotate_neg, r2, hrel]
    show -(A.rot.rotate (-(A.rot.conj.rotate A.pos) + A.rot.conj.rotate B.pos)) = _
    rw [Q.rotate_add, Q.rotate_neg, Q.rotate_conj' vA, Q.rotate_conj' vA]
    ext <;> simp <;> ring
  rw [r2, r2, r3] at e2
  have pA : A.pos = B1.pos + B1.rot.rotate N1.pos := rfl
  have pB : B.pos = B2.pos + B2.rot.rotate N2.pos := rfl
  rw [pA, pB] at e2
  obtain ⟨a', ha⟩ : ∃ a', a = conv fc a' := ⟨conv fc a, (conv_conv fc a).symm⟩
  rw [e1, e2, ha]
  generalize A.rot.rotate c.reactForce = F
  generalize A.rot.rotate c.reactTorque = T
  generalize B1.rot.rotate N1.pos = x
  generalize B2.rot.rotate N2.pos = y
  generalize B1.pos = b1
  generalize B2.pos = b2
  unfold Wrench.momentAbout
  simp only [conv_neg]
  constructor
  · ext <;> simp
  · rw [← conv_sub, ← conv_sub, ← conv_neg, ← conv_cross, ← conv_cross, ← conv_add, ← conv_add, ← conv_add]
    cases fc <;> ext <;> simp [conv] <;> ring

/-! ## C48 -/

/-- `p` has velocity `v` at time `t`. -/
def HasVel (p : ℝ → V3) (v : V3) (t : ℝ) : Prop :=
  HasDerivAt (fun s => (p s).x) v.x t ∧ HasDerivAt (fun s => (p s).y) v.y t ∧ HasDerivAt (fun s => (p s).z) v.z t

/-- The orientation `q` turns at the angular velocity `w` (expressed in the reference frame): every vector fixed in the moving frame has velocity `w ×` itself. -/
def HasAngVel (q : ℝ → Q) (w : V3) (t : ℝ) : Prop := ∀ u : V3, HasVel (fun s => (q s).rotate u) (V3.cross w ((q t).rotate u)) t

theorem HasVel.neg {p : ℝ → V3} {v : V3} {t : ℝ} (h : HasVel p v t) : HasVel (fun s => -(p s)) (-v) t :=
  ⟨h.1.neg, h.2.1.neg, h.2.2.neg⟩

theorem HasVel.sub {p p' : ℝ → V3} {v v' : V3} {t : ℝ} (h : HasVel p v t) (h' : HasVel p' v' t) :
    HasVel (fun s => p s - p' s) (v - v') t :=
  ⟨h.1.sub h'.1, h.2.1.sub h'.2.1, h.2.2.sub h'.2.2⟩

theorem HasVel.cross {p p' : ℝ → V3} {v v' : V3} {t : ℝ} (h : HasVel p v t) (h' : HasVel p' v' t) :
    HasVel (fun s => V3.cross (p s) (p' s)) (V3.cross v (p' t) + V3.cross (p t) v') t := by
  refine ⟨?_, ?_, ?_⟩
  · refine ((h.2.1.mul h'.2.2).sub (h.2.2.mul h'.2.1)).congr_deriv ?_
    simp; ring
  · refine ((h.2.2.mul h'.1).sub (h.1.mul h'.2.2)).congr_deriv ?_
    simp; ring
  · refine ((h.1.mul h'.2.1).sub (h.2.1.mul h'.1)).congr_deriv ?_
    simp; ring

theorem HasVel.congr {p : ℝ → V3} {v v' : V3} {t : ℝ} (h : HasVel p v t) (e : v = v') : HasVel p v' t := e ▸ h

/-- The entries of the inverse rotation applied to a moving vector. -/
theorem HasVel.conj_rotate {q : ℝ → Q} {w : V3} {p : ℝ → V3} {v : V3} {t : ℝ} (hw : HasAngVel q w t)
    (hp : HasVel p v t) :
    HasVel (fun s => (q s).conj.rotate (p s)) ((q t).conj.rotate (v - V3.cross w (p t))) t := by
  obtain ⟨x1, x2, x3⟩ := hw V3.e1
  obtain ⟨y1, y2, y3⟩ := hw V3.e2
  obtain ⟨z1, z2, z3⟩ := hw V3.e3
  have ex : ∀ s, ((q s).conj.rotate (p s)).x = ((q s).rotate V3.e1).x * (p s).x + ((q s).rotate V3.e1).y * (p s).y + ((q s).rotate V3.e1).z * (p s).z := by
    intro s; simp only [Q.rotate, Q.toMat, V3.e1, M3.mulVec, Q.conj]; ring
  have ey : ∀ s, ((q s).conj.rotate (p s)).y = ((q s).rotate V3.e2).x * (p s).x + ((q s).rotate V3.e2).y * (p s).y + ((q s).rotate V3.e2).z * (p s).z := by
    intro s; simp only [Q.rotate, Q.toMat, V3.e2, M3.mulVec, Q.conj]; ring
  have ez : ∀ s, ((q s).conj.rotate (p s)).z = ((q s).rotate V3.e3).x * (p s).x + ((q s).rotate V3.e3).y * (p s).y + ((q s).rotate V3.e3).z * (p s).z := by
    intro s; simp only [Q.rotate, Q.toMat, V3.e3, M3.mulVec, Q.conj]; ring
  have fx : ∀ u : V3, ((q t).conj.rotate u).x = V3.dot ((q t).rotate V3.e1) u := by
    intro s; simp only [Q.rotate, Q.toMat, V3.e1, M3.mulVec, Q.conj, V3.dot]; ring
  have fy : ∀ u : V3, ((q t).conj.rotate u).y = V3.dot ((q t).rotate V3.e2) u := by
    intro s; simp only [Q.rotate, Q.toMat, V3.e2, M3.mulVec, Q.conj, V3.dot]; ring
  have fz : ∀ u : V3, ((q t).conj.rotate u).z = V3.dot ((q t).rotate V3.e3) u := by
    intro s; simp only [Q.rotate, Q.toMat, V3.e3, M3.mulVec, Q.conj, V3.dot]; ring
  refine ⟨?_, ?_, ?_⟩
  · rw [funext ex, fx]
    refine (((x1.mul hp.1).add (x2.mul hp.2.1)).add (x3.mul hp.2.2)).congr_deriv ?_
    simp [V3.dot]; ring
  · rw [funext ey, fy]
    refine (((y1.mul hp.1).add (y2.mul hp.2.1)).add (y3.mul hp.2.2)).congr_deriv ?_
    simp [V3.dot]; ring
  · rw [funext ez, fz]
    refine (((z1.mul hp.1).add (z2.mul hp.2.1)).add (z3.mul hp.2.2)).congr_deriv ?_
    simp [V3.dot]; ring

/-- The relative motion of node 2 with respect to node 1 as a history: Chrono's data at time `t` are the relative frame and its true derivatives. -/
structure Motion where
  frame : ℝ → Frame
  vel : ℝ → V3
  angVel : ℝ → V3
  acc : ℝ → V3
  angAcc : ℝ → V3
  valid : ∀ t, (frame t).Valid
  hvel : ∀ t, HasVel (fun s => (frame s).pos) (vel t) t
  hang : ∀ t, HasAngVel (fun s => (frame s).rot) (angVel t) t
  hacc : ∀ t, HasVel vel (acc t) t
  hangAcc : ∀ t, HasVel angVel (angAcc t) t

/-- The Chrono data at time `t`. -/
def Motion.chLink (m : Motion) (t : ℝ) : ChLink := ⟨m.frame t, m.vel t, m.angVel t, m.acc t, m.angAcc t, 0, 0, 0, 0⟩
/-- The caches at time `t`. -/
def Motion.cache (m : Motion) (t : ℝ) : Cache := generateCache (m.chLink t)

/-- The true velocity of node 1 relative to node 2, in the axes of node 2. -/
theorem true_velocity (m : Motion) (t : ℝ) :
    HasVel (fun s => node1PositionWRTNode2 (m.cache s) .NWU)
      (-((m.frame t).rot.conj.rotate (m.vel t - V3.cross (m.angVel t) (m.frame t).pos))) t :=
  (HasVel.conj_rotate (q := fun s => (m.frame s).rot) (m.hang t) (m.hvel t)).neg

/-- **C48, orientation.** The angular velocity returned for node 1 relative to node 2 is the rate of turn of the orientation of node 1 relative to node 2, and the
angular acceleration returned is its derivative, along every motion. -/
theorem C48_angular (m : Motion) (t : ℝ) :
    HasAngVel (fun s => (m.cache s).frame1WRT2.rot) (angularVelocityOfNode1WRTNode2 (m.cache t) .NWU) t ∧
    HasVel (fun s => angularVelocityOfNode1WRTNode2 (m.cache s) .NWU) (angularAccelerationOfNode1WRTNode2 (m.cache t) .NWU) t := by
  constructor
  · intro u
    have h := HasVel.conj_rotate (q := fun s => (m.frame s).rot) (p := fun _ => u) (v := 0) (m.hang t)
      ⟨hasDerivAt_const _ _, hasDerivAt_const _ _, hasDerivAt_const _ _⟩
    refine h.congr ?_
    show (m.frame t).rot.conj.rotate _ = V3.cross (-((m.frame t).rot.conj.rotate (m.angVel t))) ((m.frame t).rot.conj.rotate u)
    rw [Q.rotate_sub, rotate_cross (m.valid t).conj, cross_neg_left]
    ext <;> simp [Q.rotate]
  · refine (HasVel.conj_rotate (q := fun s => (m.frame s).rot) (m.hang t) (m.hangAcc t)).neg.congr ?_
    show -((m.frame t).rot.conj.rotate _) = -((m.frame t).rot.conj.rotate (m.angAcc t))
    congr 2
    ext <;> simp <;> ring

/-- **C48, node 2.** In NWU the velocity, the angular velocity and the accelerations returned for node 2 relative to node 1 are the derivatives of its position, orientation, velocity and angular velocity relative to node 1, along every motion. -/
theorem C48_node2 (m : Motion) (t : ℝ) :
    HasVel (fun s => node2PositionWRTNode1 (m.cache s) .NWU) (velocityOfNode2WRTNode1 (m.cache t) .NWU) t ∧
    HasAngVel (fun s => (m.cache s).frame2WRT1.rot) (angularVelocityOfNode2WRTNode1 (m.cache t) .NWU) t ∧
    HasVel (fun s => velocityOfNode2WRTNode1 (m.cache s) .NWU) (accelerationOfNode2WRTNode1 (m.cache t) .NWU) t ∧
    HasVel (fun s => angularVelocityOfNode2WRTNode1 (m.cache s) .NWU) (angularAccelerationOfNode2WRTNode1 (m.cache t) .NWU) t :=
  ⟨m.hvel t, m.hang t, m.hacc t, m.hangAcc t⟩

/-- **C48, position.** The relative positions and orientations returned for both nodes are inverse of each other: the position of node 1 seen from node 2 is minus
the position of node 2 seen from node 1, in the axes of node 2, in both conventions. -/
theorem C48_relative_frames (m : Motion) (t : ℝ) (fc : FC) (v : V3) :
    node1PositionWRTNode2 (m.cache t) fc = -((m.cache t).frame1WRT2.projFrameInParent (node2PositionWRTNode1 (m.cache t) fc) fc) ∧
    (m.cache t).frame1WRT2.pointInParent ((m.cache t).frame2WRT1.pointInParent v fc) fc = v := by
  have hv := m.valid t
  unfold Frame.Valid at hv
  constructor
  · show conv fc (-((m.frame t).rot.conj.rotate (m.frame t).pos)) = -(rotate (m.frame t).rot.conj fc (conv fc (m.frame t).pos))
    rw [rotateFC, conv_neg]
  · show conv fc (-((m.frame t).rot.conj.rotate (m.frame t).pos)) + rotate (m.frame t).rot.conj fc (conv fc (m.frame t).pos + rotate (m.frame t).rot fc v) = v
    unfold rotate
    rw [← conv_add, conv_add fc (conv fc _), conv_conv, conv_conv, Q.rotate_add, Q.rotate_conj hv]
    rw [show -((m.frame t).rot.conj.rotate (m.frame t).pos) + ((m.frame t).rot.conj.rotate (m.frame t).pos + conv fc v) = conv fc v by ext <;> simp]
    exact conv_conv fc v

/-- **C48, velocity (partial).** The velocity returned for node 1 relative to node 2 is the derivative of its position if and only if the
relative angular velocity is parallel to the line of the nodes (`ω × p = 0`: revolute, spherical, prismatic, cylindrical joints). (Missing: a free link, see
`C48_velocity_counterexample`.) -/
theorem C48_velocity_partial (m : Motion) (t : ℝ) :
    HasVel (fun s => node1PositionWRTNode2 (m.cache s) .NWU) (velocityOfNode1WRTNode2 (m.cache t) .NWU) t ↔
      V3.cross (m.angVel t) (m.frame t).pos = 0 := by
  have htrue := true_velocity m t
  have hc : velocityOfNode1WRTNode2 (m.cache t) .NWU = -((m.frame t).rot.conj.rotate (m.vel t)) := rfl
  have hv := m.valid t
  unfold Frame.Valid at hv
  constructor
  · intro h
    have hx := h.1.unique htrue.1
    have hy := h.2.1.unique htrue.2.1
    have hz := h.2.2.unique htrue.2.2
    have he : velocityOfNode1WRTNode2 (m.cache t) .NWU = -((m.frame t).rot.conj.rotate (m.vel t - V3.cross (m.angVel t) (m.frame t).pos)) := by
      ext <;> assumption
    rw [hc, Q.rotate_sub] at he
    have h0 : (m.frame t).rot.conj.rotate (V3.cross (m.angVel t) (m.frame t).pos) = 0 := by
      have ex := congrArg V3.x he
      have ey := congrArg V3.y he
      have ez := congrArg V3.z he
      simp only [V3.neg_x, V3.neg_y, V3.neg_z, V3.sub_x, V3.sub_y, V3.sub_z] at ex ey ez
      ext <;> simp only [V3.zero_x, V3.zero_y, V3.zero_z] <;> linarith
    rw [← Q.rotate_conj' hv (V3.cross (m.angVel t) (m.frame t).pos), h0]
    ext <;> simp [Q.rotate]
  · intro h
    rw [h] at htrue
    refine htrue.congr ?_
    rw [hc]
    congr 2
    ext <;> simp

/-- **C48, acceleration (partial).** The acceleration returned for node 1 relative to node 2 is the derivative of its true velocity whenever the Euler, Coriolis and
centripetal terms cancel, in particular when the relative angular velocity and acceleration vanish (prismatic joint) or the nodes coincide with no relative
velocity (revolute, spherical joints). (Missing: the other cases, in which the three terms are dropped.) -/
theorem C48_acceleration_partial (m : Motion) (t : ℝ)
    (h : V3.cross (m.angAcc t) (m.frame t).pos + V3.cross (m.angVel t) (m.vel t) +
      V3.cross (m.angVel t) (m.vel t - V3.cross (m.angVel t) (m.frame t).pos) = 0) :
    ∃ v : ℝ → V3, (∀ s, HasVel (fun r => node1PositionWRTNode2 (m.cache r) .NWU) (v s) s) ∧
      HasVel v (accelerationOfNode1WRTNode2 (m.cache t) .NWU) t := by
  refine ⟨_, true_velocity m, ?_⟩
  have hi : HasVel (fun s => m.vel s - V3.cross (m.angVel s) (m.frame s).pos) _ t :=
    (m.hacc t).sub ((m.hangAcc t).cross (m.hvel t))
  refine (HasVel.conj_rotate (q := fun s => (m.frame s).rot) (m.hang t) hi).neg.congr ?_
  show -((m.frame t).rot.conj.rotate _) = -((m.frame t).rot.conj.rotate (m.acc t))
  congr 2
  have ex := congrArg V3.x h
  have ey := congrArg V3.y h
  have ez := congrArg V3.z h
  simp only [V3.add_x, V3.add_y, V3.add_z, V3.zero_x, V3.zero_y, V3.zero_z] at ex ey ez
  ext
  · simp only [V3.sub_x, V3.add_x]; linarith
  · simp only [V3.sub_y, V3.add_y]; linarith
  · simp only [V3.sub_z, V3.add_z]; linarith

/-- Node 2 stays one metre ahead of node 1 (seen from node 1) and spins about the vertical at 1 rad/s. -/
def spinning : Motion where
  frame t := ⟨V3.e1, Q.ofAngAxis t V3.e3⟩
  vel _ := 0
  angVel _ := V3.e3
  acc _ := 0
  angAcc _ := 0
  valid t := ofAngAxis_unit (by simp [V3.dot, V3.e3]) t
  hvel t := ⟨hasDerivAt_const _ _, hasDerivAt_const _ _, hasDerivAt_const _ _⟩
  hang t := by
    intro u
    have e : ∀ s, (Q.ofAngAxis s V3.e3).rotate u = ⟨Real.cos s * u.x - Real.sin s * u.y, Real.sin s * u.x + Real.cos s * u.y, u.z⟩ := by
      intro s
      have hc : Real.cos s = Real.cos (s / 2) ^ 2 - Real.sin (s / 2) ^ 2 := by
        rw [← Real.cos_two_mul']; congr 1; ring
      have hs : Real.sin s = 2 * Real.sin (s / 2) * Real.cos (s / 2) := by
        rw [← Real.sin_two_mul]; congr 1; ring
      have h1 := Real.sin_sq_add_cos_sq (s / 2)
      ext <;> simp [Q.ofAngAxis, V3.e3, Q.rotate, Q.toMat] <;> (try rw [hc]) <;> (try rw [hs])
      all_goals first
        | linear_combination u.x * h1
        | linear_combination u.y * h1
        | linear_combination (2 * u.z) * h1
    simp only [e]
    refine ⟨?_, ?_, ?_⟩
    · refine (((Real.hasDerivAt_cos t).mul_const u.x).sub ((Real.hasDerivAt_sin t).mul_const u.y)).congr_deriv ?_
      simp [V3.e3]; ring
    · refine (((Real.hasDerivAt_sin t).mul_const u.x).add ((Real.hasDerivAt_cos t).mul_const u.y)).congr_deriv ?_
      simp [V3.e3]; ring
    · refine (hasDerivAt_const t u.z).congr_deriv ?_
      simp [V3.e3]
  hacc t := ⟨hasDerivAt_const _ _, hasDerivAt_const _ _, hasDerivAt_const _ _⟩
  hangAcc t := ⟨hasDerivAt_const _ _, hasDerivAt_const _ _, hasDerivAt_const _ _⟩

/-- **C48 fails for a free link**: node 2 spinning in front of node 1 sees node 1 turn around it at 1 m/s, but the velocity returned is zero. -/
theorem C48_velocity_counterexample (t : ℝ) :
    velocityOfNode1WRTNode2 (spinning.cache t) .NWU = 0 ∧
    ¬ HasVel (fun s => node1PositionWRTNode2 (spinning.cache s) .NWU) (velocityOfNode1WRTNode2 (spinning.cache t) .NWU) t := by
  constructor
  · show -((spinning.frame t).rot.conj.rotate 0) = 0
    ext <;> simp [Q.rotate]
  · rw [C48_velocity_partial]
    intro h
    have := congrArg V3.y h
    simp [spinning, V3.e1, V3.e3] at this

/-- **C48, frame convention.** The relative position is returned in the convention asked for, but the relative velocities and accelerations are not: asking for NED
gives the NWU components, whatever the motion. So along any motion whose relative velocity has a transverse component the NED velocity of node 2 is not the
derivative of its NED position. -/
theorem C48_ned_counterexample (m : Motion) (t : ℝ) :
    (velocityOfNode2WRTNode1 (m.cache t) .NED = velocityOfNode2WRTNode1 (m.cache t) .NWU) ∧
    (HasVel (fun s => node2PositionWRTNode1 (m.cache s) .NWU) (velocityOfNode2WRTNode1 (m.cache t) .NWU) t) ∧
    ((m.vel t).y ≠ 0 → ¬ HasVel (fun s => node2PositionWRTNode1 (m.cache s) .NED) (velocityOfNode2WRTNode1 (m.cache t) .NED) t) := by
  refine ⟨rfl, m.hvel t, fun hy h => hy ?_⟩
  have h1 : HasDerivAt (fun s => -(m.frame s).pos.y) (m.vel t).y t := h.2.1
  have h2 := (m.hvel t).2.1.neg
  have := h1.unique h2
  linarith

/-! ## C49: prismatic link -/

/-- A `FrPrismaticLink` (FrPrismaticLink.h:33-45). -/
structure Prismatic where
  stiffness : ℝ := 0
  damping : ℝ := 0
  restLength : ℝ := 0
  /-- `m_frame2WRT1_reference` -/
  reference : Frame := Frame.identity
  linkPosition : ℝ := 0
  linkVelocity : ℝ := 0
  linkAcceleration : ℝ := 0
  cForce : V3 := 0
  cTorque : V3 := 0

namespace Prismatic

/-- `UpdateCache` (FrPrismaticLink.cpp:93-96). -/
def updateCache (l : Prismatic) : Prismatic := { l with restLength := l.reference.getZ .NWU }
/-- `SetRestLength` (FrPrismaticLink.cpp:37-40). -/
def setRestLength (l : Prismatic) (x : ℝ) : Prismatic := updateCache { l with reference := l.reference.setZ x .NWU }
/-- `SetThisConfigurationAsReference` (FrLink.cpp:334-337). -/
def setThisConfigurationAsReference (l : Prismatic) (k : Cache) : Prismatic := updateCache { l with reference := k.frame2WRT1 }
/-- `SetSpringDamper` (FrPrismaticLink.cpp:32-35). -/
def setSpringDamper (l : Prismatic) (k c : ℝ) : Prismatic := { l with stiffness := k, damping := c }
/-- `GetRestLength` (FrPrismaticLink.cpp:42-44). -/
def getRestLength (l : Prismatic) : ℝ := l.restLength
/-- `GetLinkPosition` (FrPrismaticLink.cpp:50-52). -/
def getLinkPosition (l : Prismatic) : ℝ := l.linkPosition - l.restLength
/-- `GetLinkForce` (FrPrismaticLink.cpp:62-64, FrLink.cpp:635-639). -/
def getLinkForce (l : Prismatic) : ℝ := l.cForce.z
/-- `GetLinkPower` (FrPrismaticLink.cpp:66-68). -/
def getLinkPower (l : Prismatic) : ℝ := l.linkVelocity * l.getLinkForce

/-- `SetLinkForceTorqueOnBody2InFrame2AtOrigin2` (FrLink.cpp:593-609). -/
def setForceTorque (l : Prismatic) (k : Cache) (force torque : V3) : Prismatic :=
  let o1o2 := -(k.frame1WRT2.getPosition .NWU)
  { l with cForce := -force, cTorque := -torque + V3.cross o1o2 (-force) }

/-- `UpdateForces` without motor (FrPrismaticLink.cpp:82-91). -/
def updateForces (l : Prismatic) (k : Cache) : Prismatic :=
  l.setForceTorque k ⟨0, 0, l.stiffness * l.getLinkPosition + l.damping * l.linkVelocity⟩ 0

/-- `Update` (FrPrismaticLink.cpp:70-80). -/
def update (l : Prismatic) (k : Cache) : Prismatic :=
  updateForces { l with
    linkPosition := (node2PositionWRTNode1 k .NWU).z
    linkVelocity := (velocityOfNode2WRTNode1 k .NWU).z
    linkAcceleration := k.acc2WRT1.z } k

end Prismatic

/-- The nodes of a satisfied prismatic joint: aligned orientations, node 2 on the z axis of node 1. -/
def OnSlider (f : Frame) : Prop := f.rot = Q.one ∧ f.pos.x = 0 ∧ f.pos.y = 0

/-- **C49, spring-damper.** After every update of a prismatic link without motor, with the joint satisfied, the link force is the restoring law
`-k (length - rest length) - c d(length)/dt`, the torque given to the solver is zero, and the wrenches on the two bodies are along the slider. -/
theorem C49_spring_damper (l : Prismatic) (m : Motion) (t : ℝ) (h : ∀ s, OnSlider (m.frame s)) :
    let l' := l.update (m.cache t)
    (l'.getLinkForce = -(l.stiffness * ((m.frame t).pos.z - l.restLength)) - l.damping * l'.linkVelocity) ∧
    HasDerivAt (fun s => (l.update (m.cache s)).getLinkPosition) l'.linkVelocity t ∧
    l'.cForce.x = 0 ∧ l'.cForce.y = 0 ∧ l'.cTorque = 0 ∧
    (0 ≤ l.damping → l'.getLinkPower ≤ -(l.stiffness * l'.getLinkPosition) * l'.linkVelocity) := by
  intro l'
  have e1 : l'.getLinkForce = -(l.stiffness * ((m.frame t).pos.z - l.restLength)) - l.damping * l'.linkVelocity := by
    show -(l.stiffness * ((m.frame t).pos.z - l.restLength) + l.damping * (m.vel t).z) = _ - l.damping * (m.vel t).z
    ring
  refine ⟨e1, ?_, by show -(0:ℝ) = 0; norm_num, by show -(0:ℝ) = 0; norm_num, ?_, fun hd => ?_⟩
  · have h1 : HasDerivAt (fun s => (m.frame s).pos.z - l.restLength) ((m.vel t).z) t := (m.hvel t).2.2.sub_const _
    exact h1
  · obtain ⟨hr, hx, hy⟩ := h t
    have hp : (m.cache t).frame1WRT2.getPosition .NWU = ⟨0, 0, -(m.frame t).pos.z⟩ := by
      show -((m.frame t).rot.conj.rotate (m.frame t).pos) = _
      rw [hr]
      ext <;> simp [Q.rotate, Q.toMat, hx, hy]
      ring
    show -(0:V3) + V3.cross (-((m.cache t).frame1WRT2.getPosition .NWU)) (-⟨0, 0, _⟩) = 0
    rw [hp]
    ext <;> simp
  · show l'.linkVelocity * l'.getLinkForce ≤ -(l.stiffness * ((m.frame t).pos.z - l.restLength)) * l'.linkVelocity
    rw [e1]
    nlinarith [mul_nonneg hd (mul_self_nonneg l'.linkVelocity)]

/-- **C49, rest length.** The rest length read back is the one set, for every value and history, and it does not depend on the order of the settings; taking the
present configuration as reference makes the link position zero at the next update in that configuration. -/
theorem C49_rest_length (l : Prismatic) (x y a b : ℝ) (k : Cache) :
    (l.setRestLength x).getRestLength = x ∧ ((l.setRestLength y).setRestLength x).getRestLength = x ∧
    ((l.setRestLength x).setSpringDamper a b).getRestLength = x ∧ ((l.setRestLength x).update k).getRestLength = x ∧
    ((l.setThisConfigurationAsReference k).update k).getLinkPosition = 0 := by
  refine ⟨rfl, rfl, rfl, rfl, ?_⟩
  show (k.frame2WRT1.getPosition .NWU).z - k.frame2WRT1.getZ .NWU = 0
  simp [Frame.getPosition, Frame.getZ, conv]

/-- A slider pulled at 2 m/s: hypotheses of C49 are met. -/
def sliding : Motion where
  frame t := ⟨⟨0, 0, 2 * t⟩, Q.one⟩
  vel _ := ⟨0, 0, 2⟩
  angVel _ := 0
  acc _ := 0
  angAcc _ := 0
  valid t := Q.isUnit_one
  hvel t := ⟨hasDerivAt_const _ _, hasDerivAt_const _ _, by simpa using (hasDerivAt_id t).const_mul 2⟩
  hang t := by
    intro u
    have e : V3.cross 0 (Q.one.rotate u) = 0 := by ext <;> simp
    show HasVel (fun _ => Q.one.rotate u) (V3.cross 0 (Q.one.rotate u)) t
    rw [e]
    exact ⟨hasDerivAt_const _ _, hasDerivAt_const _ _, hasDerivAt_const _ _⟩
  hacc t := ⟨hasDerivAt_const _ _, hasDerivAt_const _ _, hasDerivAt_const _ _⟩
  hangAcc t := ⟨hasDerivAt_const _ _, hasDerivAt_const _ _, hasDerivAt_const _ _⟩

example : (({ stiffness := 10, damping := 3 } : Prismatic).setRestLength 1 |>.update (sliding.cache 2)).getLinkForce = -36 := by
  have := (C49_spring_damper (({ stiffness := 10, damping := 3 } : Prismatic).setRestLength 1) sliding 2 (fun s => ⟨rfl, rfl, rfl⟩)).1
  refine this.trans ?_
  norm_num [sliding, Prismatic.setRestLength, Prismatic.updateCache, Frame.setZ, Frame.getZ, Prismatic.update, Prismatic.updateForces,
    Prismatic.setForceTorque, velocityOfNode2WRTNode1, Motion.cache, generateCache, Motion.chLink, show (FC.NWU = FC.NED) = False from by simp]

/-- C48 velocity: the slider meets the condition (prismatic joint). -/
example (t : ℝ) : HasVel (fun s => node1PositionWRTNode2 (sliding.cache s) .NWU) (velocityOfNode1WRTNode2 (sliding.cache t) .NWU) t :=
  (C48_velocity_partial sliding t).mpr (by ext <;> simp [sliding])

/-- C48 acceleration: the slider meets the condition. -/
example (t : ℝ) : ∃ v : ℝ → V3, (∀ s, HasVel (fun r => node1PositionWRTNode2 (sliding.cache r) .NWU) (v s) s) ∧
    HasVel v (accelerationOfNode1WRTNode2 (sliding.cache t) .NWU) t :=
  C48_acceleration_partial sliding t (by ext <;> simp [sliding])

/-- C47 hypotheses are met by a reaction of 5 N between two displaced and turned bodies. -/
example : ∃ (c : ChLink) (B1 B2 N1 N2 : Frame), B1.Valid ∧ B2.Valid ∧ N1.Valid ∧ N2.Valid ∧
    c.relM = (B1.mul N1).otherWrtThis (B2.mul N2) ∧ c.reactForce = ⟨5, 0, 0⟩ ∧ B1 ≠ B2 := by
  have h3 : (Q.ofAngAxis 1 V3.e3).IsUnit := ofAngAxis_unit (by simp [V3.dot, V3.e3]) 1
  refine ⟨⟨_, 0, 0, 0, 0, ⟨5, 0, 0⟩, 0, 0, 0⟩, ⟨⟨1, 2, 3⟩, Q.ofAngAxis 1 V3.e3⟩, ⟨⟨4, 0, 0⟩, Q.one⟩, ⟨⟨0, 1, 0⟩, Q.ofAngAxis 1 V3.e3⟩, ⟨⟨0, 0, 1⟩, Q.one⟩,
    h3, Q.isUnit_one, h3, Q.isUnit_one, rfl, rfl, ?_⟩
  intro h
  have := congrArg (fun f : Frame => f.pos.x) h
  norm_num at this

end Frydom.Link
