import Verif.Link.Constraint
import Verif.Link.Revolute
import Verif.Link.DofMask

/-!
# Motors of prismatic and revolute links, joints (C133, C134, C135, C136)

`src/frydom/core/link/links_lib/actuators/`, `FrPrismaticLink.cpp`, `FrRevoluteLink.cpp`, `FrLink.cpp`.
-/

noncomputable section

namespace Frydom.Link
open Frydom.Geom Frydom.Core Real

/-- The frames given to Chrono by `FrLinearActuator::Initialize` (FrLinearActuator.cpp:55-68): the frame of the node relative to the COG, turned a quarter turn about its y axis. -/
def linearMotorFrame (n : Frame) : Frame := n.rotY (π / 2) .NWU true

/-- The frames given to Chrono by `FrAngularActuator::Initialize` (FrAngularActuator.cpp:56-65): the frame of the node itself. -/
def angularMotorFrame (n : Frame) : Frame := n

/-- Relative frame of node 2 with respect to node 1; `b1`, `b2`: COG frames of the bodies in the world, `n1`, `n2`: frames of the nodes relative to the COG. This is what the link reads
(`c_frame2WRT1`, FrLink.cpp:102-106). -/
def relFrame (b1 b2 n1 n2 : Frame) : Frame := (b1.mul n1).otherWrtThis (b2.mul n2)

/-- Chrono's `ChLinkMotorLinear::GetMotorPos` (external) for the bodies and frames given in the order (body 2, body 1): the x coordinate of the origin of the frame on body 2 in the frame on body 1.
A position motor imposes `GetMotorPos = f(t)`, a speed motor imposes its rate. -/
def motorPos (b1 b2 n1 n2 : Frame) : ℝ := (relFrame b1 b2 (linearMotorFrame n1) (linearMotorFrame n2)).pos.x

/-- Chrono's `ChLinkMotorRotationAngle` (external) with bodies and frames in the order (body 2, body 1): imposes that the frame on body 2 is turned by `f(t)` about the z axis of the frame
on body 1. -/
def angleImposed (b1 b2 n1 n2 : Frame) (c : ℝ) : Prop := IsRotZ (relFrame b1 b2 (angularMotorFrame n1) (angularMotorFrame n2)).rot c

/-- The constant function given to the motor by `FrPrismaticLink::Clamp` (FrPrismaticLink.cpp:106-117), from the relative frame at the time of the call. -/
def prismaticClampCommand (rel : Frame) : ℝ := (rel.getPosition .NWU).z

/-- The constant function given to the motor by `FrRevoluteLink::Clamp` (FrRevoluteLink.cpp:162-176). -/
def revoluteClampCommand (rel : Frame) : ℝ := rotationAngle rel.rot

/-! ## C133: what the motor imposes -/

theorem linearMotorFrame_eq (n : Frame) (hn : n.Valid) : linearMotorFrame n = ⟨n.pos, n.rot.mul (Q.ofAngAxis (π / 2) V3.e2)⟩ := by
  have h := (C16_coordinate_rotations n hn (π / 2) .NWU).2.2.1
  unfold linearMotorFrame
  rw [h]
  rfl

theorem motorPos_eq (b1 b2 n1 n2 : Frame) (h1 : b1.Valid) (k1 : n1.Valid) (k2 : n2.Valid) :
    motorPos b1 b2 n1 n2 = -(relFrame b1 b2 n1 n2).pos.z := by
  unfold motorPos relFrame
  rw [linearMotorFrame_eq n1 k1, linearMotorFrame_eq n2 k2]
  unfold Frame.Valid at *
  set r := Q.ofAngAxis (π / 2) V3.e2 with hr
  have hu : r.IsUnit := ofAngAxis_unit (by simp [V3.e2, V3.dot]) _
  have e1 : b1.mul ⟨n1.pos, n1.rot.mul r⟩ = ⟨(b1.mul n1).pos, (b1.mul n1).rot.mul r⟩ := by
    simp [Frame.mul, Q.mul_assoc]
  have e2 : (b2.mul ⟨n2.pos, n2.rot.mul r⟩).pos = (b2.mul n2).pos := rfl
  rw [e1]
  set A := b1.mul n1 with hA
  have hAu : A.rot.IsUnit := h1.mul k1
  have e3 : (Frame.otherWrtThis ⟨A.pos, A.rot.mul r⟩ (b2.mul ⟨n2.pos, n2.rot.mul r⟩)).pos =
      r.conj.rotate (A.otherWrtThis (b2.mul n2)).pos := by
    show -((A.rot.mul r).conj.rotate A.pos) + (A.rot.mul r).conj.rotate (b2.mul n2).pos = r.conj.rotate (-(A.rot.conj.rotate A.pos) + A.rot.conj.rotate (b2.mul n2).pos)
    rw [Q.conj_mul_rev, Q.rotate_mul hu.conj hAu.conj, Q.rotate_mul hu.conj hAu.conj, Q.rotate_add, Q.rotate_neg]
  rw [e3]
  generalize (A.otherWrtThis (b2.mul n2)).pos = v
  have hc : r.conj = Q.ofAngAxis (-(π / 2)) V3.e2 := by
    have e : -(π / 2) / 2 = -(π / 2 / 2) := by ring
    rw [hr]; ext <;> simp [Q.ofAngAxis, Q.conj, V3.e2, e, Real.sin_neg, Real.cos_neg]
  rw [hc, ofAngAxis_rotate, Real.cos_neg, Real.sin_neg, Real.cos_pi_div_two, Real.sin_pi_div_two]
  simp [V3.e2, V3.dot]

theorem isRotZ_axes (q : Q) (hq : q.IsUnit) (c : ℝ) :
    IsRotZ q c ↔ q.rotate V3.e1 = ⟨cos c, sin c, 0⟩ ∧ q.rotate V3.e3 = V3.e3 := by
  have hn : q.e0 ^ 2 + q.e1 ^ 2 + q.e2 ^ 2 + q.e3 ^ 2 = 1 := hq
  have hc : cos c = 2 * cos (c / 2) ^ 2 - 1 := by rw [← cos_two_mul]; congr 1; ring
  have hs : sin c = 2 * sin (c / 2) * cos (c / 2) := by rw [← sin_two_mul]; congr 1; ring
  have h1 := sin_sq_add_cos_sq (c / 2)
  constructor
  · intro h
    obtain ⟨s, hs1, rfl⟩ := isRotZ_form h
    have hs2 : s ^ 2 = 1 := by rcases hs1 with rfl | rfl <;> norm_num
    constructor
    · ext <;> simp only [Q.rotate, Q.toMat, M3.mulVec, V3.e1]
      · rw [hc]; linear_combination 2 * cos (c / 2) ^ 2 * hs2
      · rw [hs]; linear_combination 2 * sin (c / 2) * cos (c / 2) * hs2
      · ring
    · ext <;> simp only [Q.rotate, Q.toMat, M3.mulVec, V3.e3]
      · ring
      · ring
      · linear_combination 2 * hn
  · rintro ⟨hx, hz⟩
    have z3 := congrArg V3.z hz
    have x1 := congrArg V3.x hx
    have x2 := congrArg V3.y hx
    simp only [Q.rotate, Q.toMat, M3.mulVec, V3.e3, V3.e1] at z3 x1 x2
    have e1 : q.e1 = 0 := by
      have : q.e1 ^ 2 = 0 := by nlinarith [sq_nonneg q.e1, sq_nonneg q.e2]
      exact pow_eq_zero_iff two_ne_zero |>.mp this
    have e2 : q.e2 = 0 := by
      have : q.e2 ^ 2 = 0 := by nlinarith [sq_nonneg q.e1, sq_nonneg q.e2]
      exact pow_eq_zero_iff two_ne_zero |>.mp this
    rw [e1, e2] at x1 x2 hn
    rw [hc] at x1
    rw [hs] at x2
    have ha : q.e0 ^ 2 = cos (c / 2) ^ 2 := by linarith
    have hab : q.e0 * q.e3 = sin (c / 2) * cos (c / 2) := by linarith
    have hb : q.e3 ^ 2 = sin (c / 2) ^ 2 := by linarith
    have hsq : (q.e0 * cos (c / 2) + q.e3 * sin (c / 2)) ^ 2 = 1 := by
      linear_combination cos (c / 2) ^ 2 * ha + 2 * sin (c / 2) * cos (c / 2) * hab + sin (c / 2) ^ 2 * hb + (sin (c / 2) ^ 2 + cos (c / 2) ^ 2 + 1) * h1
    rcases (sq_eq_sq_iff_eq_or_eq_neg.mp (by rw [hsq, one_pow] : (q.e0 * cos (c / 2) + q.e3 * sin (c / 2)) ^ 2 = 1 ^ 2)) with h | h
    · left
      have k0 : (q.e0 - cos (c / 2)) ^ 2 = 0 := by nlinarith [sq_nonneg (q.e0 - cos (c / 2)), sq_nonneg (q.e3 - sin (c / 2))]
      have k3 : (q.e3 - sin (c / 2)) ^ 2 = 0 := by nlinarith [sq_nonneg (q.e0 - cos (c / 2)), sq_nonneg (q.e3 - sin (c / 2))]
      have k0 := pow_eq_zero_iff two_ne_zero |>.mp k0
      have k3 := pow_eq_zero_iff two_ne_zero |>.mp k3
      ext <;> simp [Q.ofAngAxis, V3.e3, e1, e2] <;> linarith
    · right
      have k0 : (q.e0 + cos (c / 2)) ^ 2 = 0 := by nlinarith [sq_nonneg (q.e0 + cos (c / 2)), sq_nonneg (q.e3 + sin (c / 2))]
      have k3 : (q.e3 + sin (c / 2)) ^ 2 = 0 := by nlinarith [sq_nonneg (q.e0 + cos (c / 2)), sq_nonneg (q.e3 + sin (c / 2))]
      have k0 := pow_eq_zero_iff two_ne_zero |>.mp k0
      have k3 := pow_eq_zero_iff two_ne_zero |>.mp k3
      ext <;> simp [e1, e2] <;> linarith

/-- **C133, angular motor.** A position motor on a revolute link imposes the angle it is given: its constraint is satisfied exactly when the axis z of node 2 is that of node 1 and its axis x
makes the angle `c` with the axis x of node 1, counted about that axis, in the world. -/
theorem C133_angular (b1 b2 n1 n2 : Frame) (h1 : b1.Valid) (h2 : b2.Valid) (k1 : n1.Valid) (k2 : n2.Valid) (c : ℝ) :
    angleImposed b1 b2 n1 n2 c ↔
      (b2.mul n2).rot.rotate V3.e3 = (b1.mul n1).rot.rotate V3.e3 ∧
      (b2.mul n2).rot.rotate V3.e1 = cos c • (b1.mul n1).rot.rotate V3.e1 + sin c • (b1.mul n1).rot.rotate V3.e2 := by
  have vA : (b1.mul n1).rot.IsUnit := h1.mul k1
  have vB : (b2.mul n2).rot.IsUnit := h2.mul k2
  have e : (relFrame b1 b2 (angularMotorFrame n1) (angularMotorFrame n2)).rot = (b1.mul n1).rot.conj.mul (b2.mul n2).rot := rfl
  unfold angleImposed
  rw [e, isRotZ_axes _ (vA.conj.mul vB), Q.rotate_mul vA.conj vB, Q.rotate_mul vA.conj vB]
  have tr : ∀ v w : V3, (b1.mul n1).rot.conj.rotate v = w ↔ v = (b1.mul n1).rot.rotate w := by
    intro v w
    constructor
    · rintro rfl; rw [Q.rotate_conj' vA]
    · rintro rfl; rw [Q.rotate_conj vA]
  have ex : (⟨cos c, sin c, 0⟩ : V3) = cos c • V3.e1 + sin c • V3.e2 := by ext <;> simp [V3.e1, V3.e2]
  rw [tr, tr, ex, Q.rotate_add, Q.rotate_smul, Q.rotate_smul]
  tauto

/-- **C133, linear motor, the failure.** A linear motor works backwards: the position it imposes is minus the position of node 2 along the axis of the link, whatever the positions
of the bodies. A position motor given `c` puts node 2 at `-c`, and a speed motor given `v` gives the link the velocity `-v`. -/
theorem C133_linear_counterexample (b1 b2 n1 n2 : Frame) (h1 : b1.Valid) (k1 : n1.Valid) (k2 : n2.Valid) (c : ℝ) :
    motorPos b1 b2 n1 n2 = c ↔ ((relFrame b1 b2 n1 n2).getPosition .NWU).z = -c := by
  rw [motorPos_eq b1 b2 n1 n2 h1 k1 k2]
  show _ ↔ (relFrame b1 b2 n1 n2).pos.z = -c
  constructor <;> intro h <;> linarith

/-- **C133, linear speed motor, the failure.** See `C133_linear_counterexample`. -/
theorem C133_linear_speed_counterexample (b1 b2 : ℝ → Frame) (n1 n2 : Frame) (h1 : ∀ t, (b1 t).Valid) (k1 : n1.Valid) (k2 : n2.Valid) (v t : ℝ) :
    HasDerivAt (fun s => motorPos (b1 s) (b2 s) n1 n2) v t ↔ HasDerivAt (fun s => ((relFrame (b1 s) (b2 s) n1 n2).getPosition .NWU).z) (-v) t := by
  have e : (fun s => motorPos (b1 s) (b2 s) n1 n2) = fun s => -((relFrame (b1 s) (b2 s) n1 n2).getPosition .NWU).z := by
    funext s
    exact motorPos_eq (b1 s) (b2 s) n1 n2 (h1 s) k1 k2
  rw [e]
  constructor
  · intro h
    have := HasDerivAt.fun_neg h
    simpa using this
  · intro h
    have := HasDerivAt.fun_neg h
    simpa using this

/-- **C133, clamping a prismatic link, the failure.** After `Clamp` the motor holds the link at the opposite of the position it had: the position at the time of the call satisfies the constraint only
if it is zero. -/
theorem C133_prismatic_clamp_counterexample (b1 b2 b1' b2' n1 n2 : Frame) (h1 : b1.Valid) (h1' : b1'.Valid) (k1 : n1.Valid) (k2 : n2.Valid) :
    (motorPos b1' b2' n1 n2 = prismaticClampCommand (relFrame b1 b2 n1 n2) ↔ (relFrame b1' b2' n1 n2).pos.z = -(relFrame b1 b2 n1 n2).pos.z) ∧
    (motorPos b1 b2 n1 n2 = prismaticClampCommand (relFrame b1 b2 n1 n2) ↔ (relFrame b1 b2 n1 n2).pos.z = 0) := by
  rw [motorPos_eq b1 b2 n1 n2 h1 k1 k2, motorPos_eq b1' b2' n1 n2 h1' k1 k2]
  show (_ = (relFrame b1 b2 n1 n2).pos.z ↔ _) ∧ (_ = (relFrame b1 b2 n1 n2).pos.z ↔ _)
  constructor <;> constructor <;> intro h <;> linarith

/-- **C133, clamping a revolute link.** Clamping in a configuration of positive angle `θ` (less than a full turn and not within `3e-4` rad of one) commands that angle, so that the link is held
where it is. -/
theorem C133_revolute_clamp (rel : Frame) (θ : ℝ) (h0 : 0 < θ) (h1 : θ < 2 * π) (hq : rel.rot = Q.ofAngAxis θ V3.e3) (hb : |cos (θ / 2)| < 0.99999999) :
    revoluteClampCommand rel = θ ∧ IsRotZ rel.rot (revoluteClampCommand rel) := by
  have hform : rel.rot = ⟨1 * cos (θ / 2), 0, 0, 1 * sin (θ / 2)⟩ := by rw [hq]; simp [Q.ofAngAxis, V3.e3]
  have h := (angAxis_rotZ (Or.inl rfl) hform hb).1
  have e : revoluteClampCommand rel = θ := by
    show rotationAngle rel.rot = θ
    rw [h, one_mul, arccos_cos (by linarith) (by linarith)]
    ring
  exact ⟨e, by rw [e]; exact Or.inl hq⟩

/-- **C133, clamping a revolute link, the failure.** In a configuration of negative angle `-θ` the command is `+θ`: the motor turns the link to the opposite angle. -/
theorem C133_revolute_clamp_counterexample (rel : Frame) (θ : ℝ) (h0 : 0 < θ) (h1 : θ < π) (hq : rel.rot = Q.ofAngAxis (-θ) V3.e3) (hb : |cos (θ / 2)| < 0.99999999) :
    revoluteClampCommand rel = θ ∧ ¬ IsRotZ rel.rot (revoluteClampCommand rel) := by
  have hc : cos (-θ / 2) = cos (θ / 2) := by rw [neg_div, cos_neg]
  have hform : rel.rot = ⟨1 * cos (-θ / 2), 0, 0, 1 * sin (-θ / 2)⟩ := by rw [hq]; simp [Q.ofAngAxis, V3.e3]
  have h := (angAxis_rotZ (Or.inl rfl) hform (by rw [hc]; exact hb)).1
  have e : revoluteClampCommand rel = θ := by
    show rotationAngle rel.rot = θ
    rw [h, hc, one_mul, arccos_cos (by linarith) (by linarith)]
    ring
  refine ⟨e, ?_⟩
  rw [e]
  have hsin : 0 < sin (θ / 2) := sin_pos_of_pos_of_lt_pi (by linarith) (by linarith)
  have hcos : 0 < cos (θ / 2) := cos_pos_of_mem_Ioo ⟨by linarith, by linarith⟩
  rintro (h2 | h2)
  · rw [hform] at h2
    have := congrArg Q.e3 h2
    simp [Q.ofAngAxis, V3.e3, neg_div] at this
    linarith
  · rw [hform] at h2
    have := congrArg Q.e0 h2
    simp [neg_div] at this
    linarith

/-! ## C134: the loads of the motors -/

/-- A motor: `GetMotorForceInNode` and `GetMotorTorqueInNode` (FrLinearActuator.cpp:74-80, FrAngularActuator.cpp:71-77): `{0, 0, F}` and nothing for a linear motor, nothing and `{0, 0, T}` for an
angular one, whatever the convention asked. -/
inductive Motor
  | linear (force : ℝ)
  | angular (torque : ℝ)

namespace Motor

/-- `GetMotorForceInNode`. -/
def forceInNode : Motor → FC → V3
  | linear f, _ => ⟨0, 0, f⟩
  | angular _, _ => 0
/-- `GetMotorTorqueInNode`. -/
def torqueInNode : Motor → FC → V3
  | linear _, _ => 0
  | angular t, _ => ⟨0, 0, t⟩

/-- `GetMotorForceInBody1` (FrActuator.cpp:34-37). -/
def forceInBody1 (m : Motor) (n1 : Frame) (fc : FC) : V3 := n1.projFrameInParent (m.forceInNode fc) fc
/-- `GetMotorForceInBody2` (FrActuator.cpp:39-42). -/
def forceInBody2 (m : Motor) (n2 : Frame) (fc : FC) : V3 := -(n2.projFrameInParent (m.forceInNode fc) fc)
/-- `GetMotorTorqueAtCOGInBody1` (FrActuator.cpp:44-52). -/
def torqueAtCOGInBody1 (m : Motor) (n1 : Frame) (fc : FC) : V3 :=
  let torqueAtNode := n1.projFrameInParent (m.torqueInNode fc) fc
  let r := n1.getPosition fc
  let force := n1.projFrameInParent (m.forceInNode fc) fc
  torqueAtNode + V3.cross r force
/-- `GetMotorTorqueInBody1` (FrActuator.cpp:54-57). -/
def torqueInBody1 (m : Motor) (n1 : Frame) (fc : FC) : V3 := n1.projFrameInParent (m.torqueInNode fc) fc
/-- `GetMotorTorqueAtCOGInBody2` (FrActuator.cpp:59-67). -/
def torqueAtCOGInBody2 (m : Motor) (n2 : Frame) (fc : FC) : V3 :=
  let torqueAtNode := n2.projFrameInParent (m.torqueInNode fc) fc
  let r := n2.getPosition fc
  let force := n2.projFrameInParent (m.forceInNode fc) fc
  let res := -(torqueAtNode + V3.cross r force)
  res
/-- `GetMotorTorqueInBody2` (FrActuator.cpp:69-72). -/
def torqueInBody2 (m : Motor) (n2 : Frame) (fc : FC) : V3 := n2.projFrameInParent (-(m.torqueInNode fc)) fc

/-- The wrenches of the motor on the two bodies, in the world. -/
def wrench1 (m : Motor) (b1 n1 : Frame) (fc : FC) : Wrench := Wrench.ofBody b1 (m.forceInBody1 n1 fc) (m.torqueAtCOGInBody1 n1 fc) fc
/-- See `wrench1`. -/
def wrench2 (m : Motor) (b2 n2 : Frame) (fc : FC) : Wrench := Wrench.ofBody b2 (m.forceInBody2 n2 fc) (m.torqueAtCOGInBody2 n2 fc) fc

end Motor

/-- The axes z of the two nodes coincide: same direction, and node 2 on the axis z of node 1 (the satisfied prismatic, revolute and cylindrical joints). -/
def Coaxial (rel : Frame) : Prop := rel.rot.rotate V3.e3 = V3.e3 ∧ rel.pos.x = 0 ∧ rel.pos.y = 0

/-- Wrench in the world of a force and a torque given at a node, in the axes of the node (in the convention). -/
def nodeWrench (b n : Frame) (F T : V3) (fc : FC) : Wrench :=
  Wrench.ofBody b (n.projFrameInParent F fc) (n.projFrameInParent T fc + V3.cross (n.getPosition fc) (n.projFrameInParent F fc)) fc

theorem nodeWrench_eq (b n : Frame) (h : b.Valid) (k : n.Valid) (F T : V3) (fc : FC) :
    nodeWrench b n F T fc = ⟨conv fc ((b.mul n).rot.rotate (conv fc F)), conv fc b.pos,
      conv fc ((b.mul n).rot.rotate (conv fc T) + V3.cross (b.rot.rotate n.pos) ((b.mul n).rot.rotate (conv fc F)))⟩ := by
  unfold Frame.Valid at h k
  obtain ⟨F, rfl⟩ : ∃ F', F = conv fc F' := ⟨conv fc F, (conv_conv fc _).symm⟩
  obtain ⟨T, rfl⟩ : ∃ T', T = conv fc T' := ⟨conv fc T, (conv_conv fc _).symm⟩
  simp only [nodeWrench, Wrench.ofBody, Frame.projFrameInParent, Frame.getPosition, Frame.mul, rotateFC, conv_conv, Wrench.mk.injEq, true_and]
  rw [← conv_cross, ← conv_add]
  simp only [rotateFC, Q.rotate_add, rotate_cross h, Q.rotate_mul h k, and_self]

theorem proj_neg (b : Frame) (v : V3) (fc : FC) : b.projFrameInParent (-v) fc = -(b.projFrameInParent v fc) := by
  unfold Frame.projFrameInParent rotate
  rw [conv_neg, Q.rotate_neg, conv_neg]

theorem nodeWrench_neg (b n : Frame) (F T : V3) (fc : FC) :
    nodeWrench b n (-F) (-T) fc = ⟨-(nodeWrench b n F T fc).force, (nodeWrench b n F T fc).point, -(nodeWrench b n F T fc).moment⟩ := by
  have e : ∀ x y z : V3, -x + V3.cross y (-z) = -(x + V3.cross y z) := by intro x y z; ext <;> simp <;> ring
  simp only [nodeWrench, Wrench.ofBody, proj_neg, e]

theorem motor_wrench1 (m : Motor) (b n : Frame) (fc : FC) : m.wrench1 b n fc = nodeWrench b n (m.forceInNode fc) (m.torqueInNode fc) fc := rfl

theorem motor_wrench2 (m : Motor) (b n : Frame) (fc : FC) : m.wrench2 b n fc = nodeWrench b n (-(m.forceInNode fc)) (-(m.torqueInNode fc)) fc := by
  rw [nodeWrench_neg]
  simp only [Motor.wrench2, nodeWrench, Wrench.ofBody, Motor.forceInBody2, Motor.torqueAtCOGInBody2, proj_neg]

/-- A force and a torque along the common axis of coaxial nodes, on one body at its node, are cancelled by the opposite ones on the other body at its node. -/
theorem coaxial_cancel (b1 b2 n1 n2 : Frame) (h1 : b1.Valid) (h2 : b2.Valid) (k1 : n1.Valid) (k2 : n2.Valid)
    (hj : Coaxial (relFrame b1 b2 n1 n2)) (fc : FC) (F' T' : V3) (hF : ∃ F : ℝ, F' = F • V3.e3) (hT : ∃ T : ℝ, T' = T • V3.e3) (a : V3) :
    (nodeWrench b1 n1 F' T' fc).force + (nodeWrench b2 n2 (-F') (-T') fc).force = 0 ∧
    (nodeWrench b1 n1 F' T' fc).momentAbout a + (nodeWrench b2 n2 (-F') (-T') fc).momentAbout a = 0 := by
  rw [nodeWrench_neg, nodeWrench_eq b1 n1 h1 k1, nodeWrench_eq b2 n2 h2 k2]
  set A := b1.mul n1 with hA
  set B := b2.mul n2 with hB
  have vA : A.rot.IsUnit := h1.mul k1
  have vB : B.rot.IsUnit := h2.mul k2
  obtain ⟨hz, hx, hy⟩ := hj
  have e3 : B.rot.rotate V3.e3 = A.rot.rotate V3.e3 := by
    have : (relFrame b1 b2 n1 n2).rot = A.rot.conj.mul B.rot := rfl
    rw [this, Q.rotate_mul vA.conj vB] at hz
    rw [← hz, Q.rotate_conj' vA, hz]
  have epos : B.pos - A.pos = (relFrame b1 b2 n1 n2).pos.z • A.rot.rotate V3.e3 := by
    have e : (relFrame b1 b2 n1 n2).pos = (relFrame b1 b2 n1 n2).pos.z • V3.e3 := by ext <;> simp [hx, hy, V3.e3]
    rw [← Q.rotate_smul, ← e]
    show _ = A.rot.rotate (-(A.rot.conj.rotate A.pos) + A.rot.conj.rotate B.pos)
    rw [Q.rotate_add, Q.rotate_neg, Q.rotate_conj' vA, Q.rotate_conj' vA]
    ext <;> simp <;> ring
  have pA : A.pos = b1.pos + b1.rot.rotate n1.pos := rfl
  have pB : B.pos = b2.pos + b2.rot.rotate n2.pos := rfl
  rw [pA, pB] at epos
  have conv_axis : ∀ v : V3, (∃ s : ℝ, v = s • V3.e3) → ∃ s : ℝ, conv fc v = s • V3.e3 := by
    rintro v ⟨s, rfl⟩
    cases fc
    · exact ⟨s, rfl⟩
    · exact ⟨-s, by ext <;> simp [conv, V3.e3]⟩
  obtain ⟨F, hF⟩ := conv_axis F' hF
  obtain ⟨T, hT⟩ := conv_axis T' hT
  rw [hF, hT]
  simp only [Q.rotate_smul, e3]
  obtain ⟨a', ha⟩ : ∃ a', a = conv fc a' := ⟨conv fc a, (conv_conv fc a).symm⟩
  rw [ha]
  generalize A.rot.rotate V3.e3 = w at epos
  generalize b1.rot.rotate n1.pos = x at epos
  generalize b2.rot.rotate n2.pos = y at epos
  generalize b1.pos = c1 at epos
  generalize b2.pos = c2 at epos
  generalize (relFrame b1 b2 n1 n2).pos.z = s at epos
  have ey : y = c1 + x - c2 + s • w := by
    have q1 := congrArg V3.x epos
    have q2 := congrArg V3.y epos
    have q3 := congrArg V3.z epos
    simp only [V3.sub_x, V3.sub_y, V3.sub_z, V3.add_x, V3.add_y, V3.add_z, V3.smul_x, V3.smul_y, V3.smul_z] at q1 q2 q3
    ext <;> simp only [V3.sub_x, V3.sub_y, V3.sub_z, V3.add_x, V3.add_y, V3.add_z, V3.smul_x, V3.smul_y, V3.smul_z] <;> linarith
  constructor
  · ext <;> simp
  · unfold Wrench.momentAbout
    simp only
    rw [← conv_sub, ← conv_sub, ← conv_neg, ← conv_neg, ← conv_cross, ← conv_cross, ← conv_add, ← conv_add, ← conv_add, ey]
    have z : ∀ v : V3, v = 0 → conv fc v = 0 := by rintro v rfl; exact conv_zero fc
    apply z
    ext <;> simp <;> ring

/-- **C134, action and reaction.** When the joint is satisfied (nodes coaxial) the loads of the motor returned for the two bodies are opposite: forces add up to zero and so do the moments about
every point, for linear and angular motors, wherever the bodies are and in both conventions. -/
theorem C134_action_reaction (m : Motor) (b1 b2 n1 n2 : Frame) (h1 : b1.Valid) (h2 : b2.Valid) (k1 : n1.Valid) (k2 : n2.Valid)
    (hj : Coaxial (relFrame b1 b2 n1 n2)) (fc : FC) (a : V3) :
    (m.wrench1 b1 n1 fc).force + (m.wrench2 b2 n2 fc).force = 0 ∧
    (m.wrench1 b1 n1 fc).momentAbout a + (m.wrench2 b2 n2 fc).momentAbout a = 0 := by
  rw [motor_wrench1, motor_wrench2]
  refine coaxial_cancel b1 b2 n1 n2 h1 h2 k1 k2 hj fc _ _ ?_ ?_ a
  · cases m with
    | linear f => exact ⟨f, by ext <;> simp [Motor.forceInNode, V3.e3]⟩
    | angular t => exact ⟨0, by ext <;> simp [Motor.forceInNode, V3.e3]⟩
  · cases m with
    | linear f => exact ⟨0, by ext <;> simp [Motor.torqueInNode, V3.e3]⟩
    | angular t => exact ⟨t, by ext <;> simp [Motor.torqueInNode, V3.e3]⟩

/-- **C134, torques at the nodes.** The torques of the motor returned for the two bodies without the moment of the force are opposite in the world on a satisfied joint, and the torque at COG is that torque plus the moment of the force applied at the node. -/
theorem C134_torque_at_node (m : Motor) (b1 b2 n1 n2 : Frame) (h1 : b1.Valid) (h2 : b2.Valid) (k1 : n1.Valid) (k2 : n2.Valid)
    (hj : Coaxial (relFrame b1 b2 n1 n2)) (fc : FC) :
    b1.projFrameInParent (m.torqueInBody1 n1 fc) fc + b2.projFrameInParent (m.torqueInBody2 n2 fc) fc = 0 ∧
    m.torqueAtCOGInBody1 n1 fc = m.torqueInBody1 n1 fc + V3.cross (n1.getPosition fc) (m.forceInBody1 n1 fc) ∧
    m.torqueAtCOGInBody2 n2 fc = m.torqueInBody2 n2 fc + V3.cross (n2.getPosition fc) (m.forceInBody2 n2 fc) := by
  have neg : ∀ (f : Frame) (v : V3), f.projFrameInParent (-v) fc = -(f.projFrameInParent v fc) := by
    intro f v
    simp only [Frame.projFrameInParent, rotate, conv_neg, Q.rotate_neg]
  refine ⟨?_, rfl, ?_⟩
  · obtain ⟨f, hf⟩ : ∃ f : ℝ, m.torqueInNode fc = (Motor.linear f).forceInNode fc := by
      cases m with
      | linear f => exact ⟨0, rfl⟩
      | angular t => exact ⟨t, rfl⟩
    have hw := (C134_action_reaction (.linear f) b1 b2 n1 n2 h1 h2 k1 k2 hj fc 0).1
    have e1 : b1.projFrameInParent (m.torqueInBody1 n1 fc) fc = ((Motor.linear f).wrench1 b1 n1 fc).force := by
      unfold Motor.torqueInBody1; rw [hf]; rfl
    have e2 : b2.projFrameInParent (m.torqueInBody2 n2 fc) fc = ((Motor.linear f).wrench2 b2 n2 fc).force := by
      unfold Motor.torqueInBody2; rw [hf, neg]; rfl
    rw [e1, e2]; exact hw
  · unfold Motor.torqueAtCOGInBody2 Motor.torqueInBody2 Motor.forceInBody2
    rw [neg]
    ext <;> simp <;> ring

/-- **C134, the failure.** In NED the loads of the motors have the wrong sign: the wrench returned in NED, turned back to NWU, is the opposite of the one returned in NWU. -/
theorem C134_ned_counterexample (m : Motor) (b n : Frame) (h : b.Valid) (k : n.Valid) :
    conv .NED (m.wrench1 b n .NED).force = -(m.wrench1 b n .NWU).force ∧ conv .NED (m.wrench1 b n .NED).moment = -(m.wrench1 b n .NWU).moment ∧
    conv .NED (m.wrench1 b n .NED).point = (m.wrench1 b n .NWU).point := by
  rw [motor_wrench1, motor_wrench1, nodeWrench_eq b n h k, nodeWrench_eq b n h k]
  have eF : conv .NED (m.forceInNode .NED) = -(m.forceInNode .NWU) := by cases m <;> ext <;> simp [Motor.forceInNode, conv]
  have eT : conv .NED (m.torqueInNode .NED) = -(m.torqueInNode .NWU) := by cases m <;> ext <;> simp [Motor.torqueInNode, conv]
  simp only [eF, eT, conv_conv, Q.rotate_neg]
  refine ⟨rfl, ?_, rfl⟩
  ext <;> simp [conv] <;> ring

/-! ## C134: the loads of the spring-dampers -/

/-- The spring-damper load of a link as stored in the Chrono link (`C_force`, `C_torque`; FrLink.cpp:162-192, 593-609). -/
structure Spring where
  cForce : V3 := 0
  cTorque : V3 := 0

namespace Spring

/-- `SetLinkForceTorqueOnBody2InFrame2AtOrigin2` (FrLink.cpp:593-609); `rel`: frame of node 2 relative to node 1. -/
def set (rel : Frame) (force torque : V3) : Spring :=
  let O1O2 := -(rel.inv.getPosition .NWU)
  { cForce := -force, cTorque := -torque + V3.cross O1O2 (-force) }

/-- `FrPrismaticLink::UpdateForces` without motor (FrPrismaticLink.cpp:82-91): `law` is `k * position + c * velocity`. -/
def prismatic (rel : Frame) (law : ℝ) : Spring := set rel ⟨0, 0, law⟩ 0
/-- `FrRevoluteLink::UpdateForces` without motor (FrRevoluteLink.cpp:118-130). -/
def revolute (rel : Frame) (law : ℝ) : Spring := set rel 0 ⟨0, 0, law⟩

/-- `GetSpringDamperForceOnNode1/2`, `GetSpringDamperTorqueOnNode1/2` (FrLink.cpp:623-645, 178-192). -/
def forceOnNode2 (s : Spring) (fc : FC) : V3 := conv fc s.cForce
/-- see `forceOnNode2` -/
def forceOnNode1 (s : Spring) (fc : FC) : V3 := conv fc (-s.cForce)
/-- see `forceOnNode2` -/
def torqueOnNode2 (s : Spring) (fc : FC) : V3 := conv fc s.cTorque
/-- see `forceOnNode2` -/
def torqueOnNode1 (s : Spring) (fc : FC) : V3 := conv fc (-s.cTorque)
/-- `GetSpringDamperForceOnBody1/2` (FrLink.cpp:647-656). -/
def forceOnBody1 (s : Spring) (n1 : Frame) (fc : FC) : V3 := n1.projFrameInParent (s.forceOnNode1 fc) fc
/-- see `forceOnBody1` -/
def forceOnBody2 (s : Spring) (n2 : Frame) (fc : FC) : V3 := n2.projFrameInParent (s.forceOnNode2 fc) fc
/-- `GetSpringDamperTorqueOnBody1AtCOG` (FrLink.cpp:658-666). -/
def torqueOnBody1AtCOG (s : Spring) (n1 : Frame) (fc : FC) : V3 :=
  let torqueAtNode := n1.projFrameInParent (s.torqueOnNode1 fc) fc
  let r := n1.getPosition fc
  let force := n1.projFrameInParent (s.forceOnNode1 fc) fc
  torqueAtNode + V3.cross r force
/-- `GetSpringDamperTorqueOnBody2AtCOG` (FrLink.cpp:668-676). -/
def torqueOnBody2AtCOG (s : Spring) (n2 : Frame) (fc : FC) : V3 :=
  let torqueAtNode := n2.projFrameInParent (s.torqueOnNode2 fc) fc
  let r := n2.getPosition fc
  let force := n2.projFrameInParent (s.forceOnNode2 fc) fc
  torqueAtNode + V3.cross r force

/-- The wrenches of the spring-damper on the two bodies, in the world. -/
def wrench1 (s : Spring) (b1 n1 : Frame) (fc : FC) : Wrench := Wrench.ofBody b1 (s.forceOnBody1 n1 fc) (s.torqueOnBody1AtCOG n1 fc) fc
/-- see `wrench1` -/
def wrench2 (s : Spring) (b2 n2 : Frame) (fc : FC) : Wrench := Wrench.ofBody b2 (s.forceOnBody2 n2 fc) (s.torqueOnBody2AtCOG n2 fc) fc

end Spring

/-- **C134, moving the load to node 1.** Whatever the relative position of the nodes (off the joint too), the pair stored for a load `(force, torque)` given at node 2 in its axes is the
opposite load, its torque being the moment about node 1: the moment at node 2 plus the lever arm from node 1 to node 2 crossed with the force. -/
theorem C134_transport (b1 b2 n1 n2 : Frame) (h1 : b1.Valid) (h2 : b2.Valid) (k1 : n1.Valid) (k2 : n2.Valid) (force torque : V3) (s : Spring)
    (hs : s = Spring.set (relFrame b1 b2 n1 n2) force torque) :
    (b2.mul n2).rot.rotate s.cForce = -((b2.mul n2).rot.rotate force) ∧
    (b2.mul n2).rot.rotate s.cTorque = -((b2.mul n2).rot.rotate torque) +
      V3.cross ((b2.mul n2).pos - (b1.mul n1).pos) (-((b2.mul n2).rot.rotate force)) := by
  subst hs
  have vA : (b1.mul n1).rot.IsUnit := h1.mul k1
  have vB : (b2.mul n2).rot.IsUnit := h2.mul k2
  refine ⟨Q.rotate_neg _ _, ?_⟩
  have hO : (b2.mul n2).rot.rotate (-((relFrame b1 b2 n1 n2).inv.getPosition .NWU)) = (b2.mul n2).pos - (b1.mul n1).pos := by
    have e : (relFrame b1 b2 n1 n2).inv.getPosition .NWU = -((relFrame b1 b2 n1 n2).rot.conj.rotate (relFrame b1 b2 n1 n2).pos) := rfl
    have er : (relFrame b1 b2 n1 n2).rot = (b1.mul n1).rot.conj.mul (b2.mul n2).rot := rfl
    have ep : (relFrame b1 b2 n1 n2).pos = -((b1.mul n1).rot.conj.rotate (b1.mul n1).pos) + (b1.mul n1).rot.conj.rotate (b2.mul n2).pos := rfl
    rw [e, show ∀ v : V3, - -v = v from fun v => by ext <;> simp, er, Q.conj_mul_rev, Q.conj_conj, Q.rotate_mul vB.conj vA, Q.rotate_conj' vB, ep,
      Q.rotate_add, Q.rotate_neg, Q.rotate_conj' vA, Q.rotate_conj' vA]
    ext <;> simp <;> ring
  show (b2.mul n2).rot.rotate (-torque + V3.cross (-((relFrame b1 b2 n1 n2).inv.getPosition .NWU)) (-force)) = _
  rw [Q.rotate_add, rotate_cross vB, hO, Q.rotate_neg, Q.rotate_neg]

/-- **C134, spring-dampers.** On a satisfied joint the spring-damper loads returned for the two bodies of a prismatic or revolute link are opposite (forces, and moments about every point), in both
conventions, and the load on body 2 opposes the law: along the axis of the link its force (its moment for a revolute link) is minus the law. -/
theorem C134_spring_damper (law : ℝ) (b1 b2 n1 n2 : Frame) (h1 : b1.Valid) (h2 : b2.Valid) (k1 : n1.Valid) (k2 : n2.Valid)
    (hj : Coaxial (relFrame b1 b2 n1 n2)) (fc : FC) (a : V3) :
    (∀ s, s = Spring.prismatic (relFrame b1 b2 n1 n2) law ∨ s = Spring.revolute (relFrame b1 b2 n1 n2) law →
      (s.wrench1 b1 n1 fc).force + (s.wrench2 b2 n2 fc).force = 0 ∧
      (s.wrench1 b1 n1 fc).momentAbout a + (s.wrench2 b2 n2 fc).momentAbout a = 0) ∧
    ((Spring.prismatic (relFrame b1 b2 n1 n2) law).wrench2 b2 n2 .NWU).force = -(law • (b1.mul n1).rot.rotate V3.e3) ∧
    ((Spring.revolute (relFrame b1 b2 n1 n2) law).wrench2 b2 n2 .NWU).force = 0 ∧
    ((Spring.revolute (relFrame b1 b2 n1 n2) law).wrench2 b2 n2 .NWU).momentAbout a = -(law • (b1.mul n1).rot.rotate V3.e3) := by
  have hinv : ∀ v, (relFrame b1 b2 n1 n2).rot.rotate v = v → (relFrame b1 b2 n1 n2).rot.conj.rotate v = v := by
    intro v hv
    have hu : (relFrame b1 b2 n1 n2).rot.IsUnit := (h1.mul k1).conj.mul (h2.mul k2)
    rw [← hv, Q.rotate_conj hu, hv]
  have hi : ∃ s : ℝ, (relFrame b1 b2 n1 n2).inv.pos = s • V3.e3 := by
    obtain ⟨hz, hx, hy⟩ := hj
    refine ⟨-(relFrame b1 b2 n1 n2).pos.z, ?_⟩
    have e : (relFrame b1 b2 n1 n2).pos = (relFrame b1 b2 n1 n2).pos.z • V3.e3 := by ext <;> simp [hx, hy, V3.e3]
    have : (relFrame b1 b2 n1 n2).inv.pos = -((relFrame b1 b2 n1 n2).rot.conj.rotate (relFrame b1 b2 n1 n2).pos) := rfl
    rw [this, e, Q.rotate_smul, hinv _ hz]
    ext <;> simp [V3.e3]
  have eP : Spring.prismatic (relFrame b1 b2 n1 n2) law = ⟨-law • V3.e3, 0⟩ := by
    obtain ⟨s, hs⟩ := hi
    unfold Spring.prismatic Spring.set
    have : (relFrame b1 b2 n1 n2).inv.getPosition .NWU = s • V3.e3 := hs
    simp only [this]
    congr 1 <;> ext <;> simp [V3.e3]
  have eR : Spring.revolute (relFrame b1 b2 n1 n2) law = ⟨0, -law • V3.e3⟩ := by
    unfold Spring.revolute Spring.set
    rw [Spring.mk.injEq]
    constructor <;> ext <;> simp [V3.e3]
  have w1 : ∀ s : Spring, s.wrench1 b1 n1 fc = nodeWrench b1 n1 (-(conv fc s.cForce)) (-(conv fc s.cTorque)) fc := by
    intro s; rw [← conv_neg, ← conv_neg]; rfl
  have w2 : ∀ (s : Spring) (fc : FC), s.wrench2 b2 n2 fc = nodeWrench b2 n2 (-(-(conv fc s.cForce))) (-(-(conv fc s.cTorque))) fc := by
    intro s fc
    have e : ∀ v : V3, - -v = v := by intro v; ext <;> simp
    rw [e, e]; rfl
  have hax : ∀ x : ℝ, ∃ y : ℝ, -(conv fc (x • V3.e3)) = y • V3.e3 := by
    intro x
    cases fc
    · exact ⟨-x, by ext <;> simp [conv, V3.e3]⟩
    · exact ⟨x, by ext <;> simp [conv, V3.e3]⟩
  have hax0 : ∃ y : ℝ, -(conv fc 0) = y • V3.e3 := ⟨0, by rw [conv_zero]; ext <;> simp⟩
  have vA : (b1.mul n1).rot.IsUnit := h1.mul k1
  have vB : (b2.mul n2).rot.IsUnit := h2.mul k2
  have e3 : (b2.mul n2).rot.rotate V3.e3 = (b1.mul n1).rot.rotate V3.e3 := by
    obtain ⟨hz, -, -⟩ := hj
    have : (relFrame b1 b2 n1 n2).rot = (b1.mul n1).rot.conj.mul (b2.mul n2).rot := rfl
    rw [this, Q.rotate_mul vA.conj vB] at hz
    rw [← hz, Q.rotate_conj' vA, hz]
  refine ⟨?_, ?_, ?_, ?_⟩
  · rintro s (rfl | rfl)
    · rw [eP, w1, w2]
      exact coaxial_cancel b1 b2 n1 n2 h1 h2 k1 k2 hj fc _ _ (hax _) hax0 a
    · rw [eR, w1, w2]
      exact coaxial_cancel b1 b2 n1 n2 h1 h2 k1 k2 hj fc _ _ hax0 (hax _) a
  · rw [eP, w2, nodeWrench_eq b2 n2 h2 k2]
    show (b2.mul n2).rot.rotate (- -(-law • V3.e3)) = _
    rw [Q.rotate_neg, Q.rotate_neg, Q.rotate_smul, e3]
    ext <;> simp
  · rw [eR, w2, nodeWrench_eq b2 n2 h2 k2]
    show (b2.mul n2).rot.rotate (- -0) = _
    ext <;> simp [Q.rotate]
  · rw [eR, w2, nodeWrench_eq b2 n2 h2 k2]
    show (b2.mul n2).rot.rotate (- -(-law • V3.e3)) + V3.cross _ ((b2.mul n2).rot.rotate (- -0)) + V3.cross _ ((b2.mul n2).rot.rotate (- -0)) = _
    have z : (b2.mul n2).rot.rotate (- -0) = 0 := by ext <;> simp [Q.rotate]
    rw [z, Q.rotate_neg, Q.rotate_neg, Q.rotate_smul, e3]
    ext <;> simp

/-! ## C135: motors in the life of a link -/

/-- A link of a system with respect to its motors. Actuators are numbered in the order of their creation. -/
structure MotorLink where
  /-- number of actuators created so far by this link -/
  made : ℕ := 0
  /-- actuators of this link present in the system (`FrOffshoreSystem::m_actuatorList`, FrOffshoreSystem.cpp:352-374) -/
  inSystem : List ℕ := []
  /-- `m_actuator` -/
  actuator : Option ℕ := none
  /-- `ChLink::IsDisabled` of the actuators -/
  motorDisabled : ℕ → Bool := fun _ => false
  breakable : Bool := false
  broken : Bool := false
  disabled : Bool := false

/-- Public operations. -/
inductive MotorOp
  | motorize | clamp | setDisabled (b : Bool) | setBroken (b : Bool) | setBreakable (b : Bool) | motorSetDisabled (b : Bool)

namespace MotorLink

/-- `IsMotorized` (FrLink.cpp:330-332): the actuator exists and `FrActuator::IsActive`, which is always true (FrActuator.cpp:30-32). -/
def isMotorized (l : MotorLink) : Bool := l.actuator.isSome

/-- A new actuator, added to the system (`Motorize`: FrPrismaticLink.cpp:98-104, FrRevoluteLink.cpp:132-136). -/
def motorize (l : MotorLink) : MotorLink :=
  { l with made := l.made + 1, actuator := some l.made, inSystem := l.inSystem ++ [l.made] }

/-- `Clamp` (FrPrismaticLink.cpp:106-117, FrRevoluteLink.cpp:162-176): the present actuator is removed from the system (first occurrence in the list, FrOffshoreSystem.cpp:359-374). -/
def clamp (l : MotorLink) : MotorLink :=
  let l := match l.actuator with
    | some k => { l with inSystem := l.inSystem.erase k }
    | none => l
  l.motorize

/-- Sets the flag of the present actuator, if any. -/
def setMotor (l : MotorLink) (b : Bool) : MotorLink :=
  match l.actuator with
  | some k => { l with motorDisabled := Function.update l.motorDisabled k b }
  | none => l

/-- `SetDisabled` (FrLink.cpp:298-303). -/
def setDisabled (l : MotorLink) (b : Bool) : MotorLink := ({ l with disabled := b } : MotorLink).setMotor b
/-- `SetBroken` (FrLink.cpp:317-324). -/
def setBroken (l : MotorLink) (b : Bool) : MotorLink :=
  if l.breakable then ({ l with broken := b } : MotorLink).setMotor b else l

/-- An operation of the user. -/
def step (l : MotorLink) : MotorOp → MotorLink
  | .motorize => l.motorize
  | .clamp => l.clamp
  | .setDisabled b => l.setDisabled b
  | .setBroken b => l.setBroken b
  | .setBreakable b => { l with breakable := b }
  | .motorSetDisabled b => l.setMotor b

/-- A history. -/
def run (l : MotorLink) (ops : List MotorOp) : MotorLink := ops.foldl step l

/-- Whether `UpdateForces` applies the spring-damper law (FrPrismaticLink.cpp:84, FrRevoluteLink.cpp:118-130). -/
def springApplied (l : MotorLink) : Bool := !l.isMotorized

/-- The actuator of the link, in the system and not disabled. -/
def driven (l : MotorLink) : Prop := ∃ k, l.actuator = some k ∧ k ∈ l.inSystem ∧ l.motorDisabled k = false

end MotorLink

/-- No `Motorize` on a link that has a motor already. -/
def MotorLink.Once (l : MotorLink) : List MotorOp → Prop
  | [] => True
  | op :: ops => (op = .motorize → l.actuator = none) ∧ MotorLink.Once (l.step op) ops

theorem setMotor_inSystem (l : MotorLink) (b : Bool) : (l.setMotor b).inSystem = l.inSystem ∧ (l.setMotor b).actuator = l.actuator ∧ (l.setMotor b).made = l.made := by
  unfold MotorLink.setMotor
  cases h : l.actuator <;> simp [h]

theorem setBroken_inSystem (l : MotorLink) (b : Bool) : (l.setBroken b).inSystem = l.inSystem ∧ (l.setBroken b).actuator = l.actuator ∧ (l.setBroken b).made = l.made := by
  unfold MotorLink.setBroken
  cases l.breakable
  · simp
  · exact setMotor_inSystem _ b

/-- **C135, one motor.** As long as a link is motorized at most once while it has no motor, it has at any time exactly its present motor in the system, whatever the clampings, disablings
and breakings: none before the first motor, one afterwards. -/
theorem C135_one_motor (ops : List MotorOp) (h : MotorLink.Once {} ops) :
    (MotorLink.run {} ops).inSystem = (MotorLink.run {} ops).actuator.toList := by
  have key : ∀ (ops : List MotorOp) (l : MotorLink), l.inSystem = l.actuator.toList → l.Once ops → (l.run ops).inSystem = (l.run ops).actuator.toList := by
    intro ops
    induction ops with
    | nil => intro l hl _; exact hl
    | cons op ops ih =>
      intro l hl ho
      refine ih (l.step op) ?_ ho.2
      cases op with
      | motorize =>
        have := ho.1 rfl
        rw [this] at hl
        show l.inSystem ++ [l.made] = [l.made]
        rw [hl]; rfl
      | clamp =>
        cases ha : l.actuator with
        | none =>
          rw [ha] at hl
          show (MotorLink.clamp l).inSystem = (MotorLink.clamp l).actuator.toList
          simp [MotorLink.clamp, ha, MotorLink.motorize, hl]
        | some k =>
          rw [ha] at hl
          show (MotorLink.clamp l).inSystem = (MotorLink.clamp l).actuator.toList
          simp [MotorLink.clamp, ha, MotorLink.motorize, hl]
      | setDisabled b =>
        have := setMotor_inSystem ({ l with disabled := b }) b
        show (MotorLink.setMotor { l with disabled := b } b).inSystem = (MotorLink.setMotor { l with disabled := b } b).actuator.toList
        rw [this.1, this.2.1]; exact hl
      | setBroken b =>
        show (l.setBroken b).inSystem = (l.setBroken b).actuator.toList
        rw [(setBroken_inSystem l b).1, (setBroken_inSystem l b).2.1]; exact hl
      | setBreakable b => exact hl
      | motorSetDisabled b =>
        show (l.setMotor b).inSystem = (l.setMotor b).actuator.toList
        rw [(setMotor_inSystem l b).1, (setMotor_inSystem l b).2.1]; exact hl
  exact key ops {} rfl h

/-- **C135, the failure: motorizing twice.** Motorizing a link that has a motor leaves the former motor in the system for ever: no later operation on the link removes it or changes its
disabled state. -/
theorem C135_twice_counterexample (l : MotorLink) (k : ℕ) (ha : l.actuator = some k) (hk : k ∈ l.inSystem) (hlt : k < l.made) (ops : List MotorOp) :
    k ∈ (l.motorize.run ops).inSystem ∧ (l.motorize.run ops).motorDisabled k = l.motorDisabled k := by
  have key : ∀ (ops : List MotorOp) (m : MotorLink), k ∈ m.inSystem → m.motorDisabled k = l.motorDisabled k → k < m.made → (∀ j, m.actuator = some j → k ≠ j) →
      k ∈ (m.run ops).inSystem ∧ (m.run ops).motorDisabled k = l.motorDisabled k := by
    intro ops
    induction ops with
    | nil => intro m h1 h2 _ _; exact ⟨h1, h2⟩
    | cons op ops ih =>
      intro m h1 h2 h3 h4
      have setM : ∀ (m : MotorLink) (b : Bool), m.motorDisabled k = l.motorDisabled k → (∀ j, m.actuator = some j → k ≠ j) →
          (m.setMotor b).motorDisabled k = l.motorDisabled k := by
        intro m b g1 g2
        unfold MotorLink.setMotor
        cases hm : m.actuator with
        | none => exact g1
        | some j => simp [Function.update_of_ne (g2 j hm), g1]
      have setA : ∀ (m : MotorLink) (b : Bool), (∀ j, m.actuator = some j → k ≠ j) → ∀ j, (m.setMotor b).actuator = some j → k ≠ j := by
        intro m b g; rw [(setMotor_inSystem m b).2.1]; exact g
      cases op with
      | motorize =>
        refine ih m.motorize ?_ h2 (Nat.lt_succ_of_lt h3) ?_
        · simp [MotorLink.motorize, h1]
        · intro j hj
          have : m.made = j := by simpa [MotorLink.motorize] using hj
          omega
      | clamp =>
        refine ih m.clamp ?_ ?_ ?_ ?_
        · cases hm : m.actuator with
          | none => simp [MotorLink.clamp, hm, MotorLink.motorize, h1]
          | some j =>
            have : k ∈ m.inSystem.erase j := (List.mem_erase_of_ne (h4 j hm)).mpr h1
            simp [MotorLink.clamp, hm, MotorLink.motorize, this]
        · cases hm : m.actuator <;> simp [MotorLink.clamp, hm, MotorLink.motorize, h2]
        · cases hm : m.actuator <;> simp [MotorLink.clamp, hm, MotorLink.motorize] <;> omega
        · intro j hj
          have : m.made = j := by
            cases hm : m.actuator <;> simpa [MotorLink.clamp, hm, MotorLink.motorize] using hj
          omega
      | setDisabled b =>
        have e := setMotor_inSystem ({ m with disabled := b }) b
        exact ih (MotorLink.setMotor { m with disabled := b } b) (by rw [e.1]; exact h1) (setM _ b h2 h4) (by rw [e.2.2]; exact h3) (setA _ b h4)
      | setBroken b =>
        have e := setBroken_inSystem m b
        refine ih (m.setBroken b) (by rw [e.1]; exact h1) ?_ (by rw [e.2.2]; exact h3) (by rw [e.2.1]; exact h4)
        unfold MotorLink.setBroken
        cases m.breakable
        · exact h2
        · exact setM _ b h2 h4
      | setBreakable b => exact ih { m with breakable := b } h1 h2 h3 h4
      | motorSetDisabled b =>
        have e := setMotor_inSystem m b
        exact ih (m.setMotor b) (by rw [e.1]; exact h1) (setM m b h2 h4) (by rw [e.2.2]; exact h3) (setA m b h4)
  refine key ops l.motorize ?_ rfl (Nat.lt_succ_of_lt hlt) ?_
  · simp [MotorLink.motorize, hk]
  · intro j hj
    have : l.made = j := by simpa [MotorLink.motorize] using hj
    omega

/-- **C135, breaking.** `SetBroken` does nothing on a link that is not breakable; on a breakable one it sets the state of the link and switches its motor off (on): a link that has just been broken is not driven by its
motor. -/
theorem C135_broken (l : MotorLink) (b : Bool) :
    (l.breakable = false → l.setBroken b = l) ∧
    (l.breakable = true → (l.setBroken b).broken = b ∧ ∀ k, l.actuator = some k → (l.setBroken b).motorDisabled k = b) ∧
    (l.breakable = true → ¬ (l.setBroken true).driven) := by
  refine ⟨fun h => by simp [MotorLink.setBroken, h], fun h => ⟨?_, fun k hk => ?_⟩, fun h => ?_⟩
  · cases ha : l.actuator <;> simp [MotorLink.setBroken, h, MotorLink.setMotor, ha]
  · simp [MotorLink.setBroken, h, MotorLink.setMotor, hk]
  · rintro ⟨k, hk, -, hd⟩
    have ha : l.actuator = some k := by rw [← hk, (setBroken_inSystem l true).2.1]
    simp [MotorLink.setBroken, h, MotorLink.setMotor, ha] at hd

/-- An actuator that is not created yet is not disabled, and the present one has been created. -/
theorem run_fresh (ops : List MotorOp) (l : MotorLink) (h : ∀ k, l.made ≤ k → l.motorDisabled k = false) (ha : ∀ k, l.actuator = some k → k < l.made) :
    (∀ k, (l.run ops).made ≤ k → (l.run ops).motorDisabled k = false) ∧ ∀ k, (l.run ops).actuator = some k → k < (l.run ops).made := by
  induction ops generalizing l with
  | nil => exact ⟨h, ha⟩
  | cons op ops ih =>
    have setM : ∀ (m : MotorLink) (b : Bool), (∀ k, m.made ≤ k → m.motorDisabled k = false) → (∀ k, m.actuator = some k → k < m.made) →
        ∀ k, m.made ≤ k → (m.setMotor b).motorDisabled k = false := by
      intro m b g1 g2 k hk
      unfold MotorLink.setMotor
      cases hm : m.actuator with
      | none => exact g1 k hk
      | some j =>
        have : k ≠ j := by have := g2 j hm; omega
        simp [Function.update_of_ne this, g1 k hk]
    show (∀ k, ((l.step op).run ops).made ≤ k → ((l.step op).run ops).motorDisabled k = false) ∧ ∀ k, ((l.step op).run ops).actuator = some k → k < ((l.step op).run ops).made
    cases op with
    | motorize =>
      refine ih l.motorize (fun k hk => h k (by have : l.made + 1 ≤ k := hk; omega)) (fun k hk => ?_)
      have : l.made = k := by simpa [MotorLink.motorize] using hk
      show k < l.made + 1
      omega
    | clamp =>
      have e1 : l.clamp.made = l.made + 1 := by cases hm : l.actuator <;> simp [MotorLink.clamp, hm, MotorLink.motorize]
      have e2 : l.clamp.motorDisabled = l.motorDisabled := by cases hm : l.actuator <;> simp [MotorLink.clamp, hm, MotorLink.motorize]
      have e3 : l.clamp.actuator = some l.made := by cases hm : l.actuator <;> simp [MotorLink.clamp, hm, MotorLink.motorize]
      refine ih l.clamp (fun k hk => ?_) (fun k hk => ?_)
      · rw [e2]; exact h k (by omega)
      · rw [e3] at hk; rw [e1]; simp at hk; omega
    | setDisabled b =>
      have e := setMotor_inSystem ({ l with disabled := b }) b
      refine ih (MotorLink.setMotor { l with disabled := b } b) (fun k hk => setM { l with disabled := b } b h ha k ?_) (fun k hk => ?_)
      · rw [e.2.2] at hk; exact hk
      · rw [e.2.1] at hk; rw [e.2.2]; exact ha k hk
    | setBroken b =>
      have e := setBroken_inSystem l b
      refine ih (l.setBroken b) (fun k hk => ?_) (fun k hk => ?_)
      · rw [e.2.2] at hk
        unfold MotorLink.setBroken
        cases l.breakable
        · exact h k hk
        · exact setM { l with broken := b, breakable := true } b h ha k hk
      · rw [e.2.1] at hk; rw [e.2.2]; exact ha k hk
    | setBreakable b => exact ih { l with breakable := b } h ha
    | motorSetDisabled b =>
      have e := setMotor_inSystem l b
      refine ih (l.setMotor b) (fun k hk => setM l b h ha k ?_) (fun k hk => ?_)
      · rw [e.2.2] at hk; exact hk
      · rw [e.2.1] at hk; rw [e.2.2]; exact ha k hk

/-- **C135, the failure: broken links.** Clamping starts a motor whatever the state of the link: after any history, a broken link that is clamped is still broken and driven by the new motor; and enabling a broken
link switches its motor on again. -/
theorem C135_broken_counterexample (ops : List MotorOp) (hb : (MotorLink.run {} ops).broken = true) :
    ((MotorLink.run {} ops).clamp.broken = true ∧ (MotorLink.run {} ops).clamp.driven) ∧
    ∃ h : List MotorOp, (MotorLink.run {} (h ++ [.setDisabled false])).broken = true ∧ (MotorLink.run {} (h ++ [.setDisabled false])).driven := by
  have hf := (run_fresh ops {} (fun _ _ => rfl) (fun k hk => by simp at hk)).1
  generalize MotorLink.run {} ops = l at *
  refine ⟨⟨?_, l.made, ?_, ?_, ?_⟩, [.setBreakable true, .motorize, .setBroken true], ?_, 0, ?_⟩
  · cases ha : l.actuator <;> simp [MotorLink.clamp, ha, MotorLink.motorize, hb]
  · cases ha : l.actuator <;> simp [MotorLink.clamp, ha, MotorLink.motorize]
  · cases ha : l.actuator <;> simp [MotorLink.clamp, ha, MotorLink.motorize]
  · cases ha : l.actuator <;> simp [MotorLink.clamp, ha, MotorLink.motorize, hf l.made le_rfl]
  · simp [MotorLink.run, MotorLink.step, MotorLink.motorize, MotorLink.setBroken, MotorLink.setMotor, MotorLink.setDisabled]
  · simp [MotorLink.run, MotorLink.step, MotorLink.motorize, MotorLink.setBroken, MotorLink.setMotor, MotorLink.setDisabled]

/-- **C135, the failure: spring-damper of a link whose motor is off.** The spring-damper law is applied exactly as long as the link has never had a motor: after a `Motorize` or a `Clamp` it never comes back, even if the
motor is disabled. -/
theorem C135_spring_counterexample (ops : List MotorOp) :
    (MotorLink.run {} ops).springApplied = true ↔ ∀ op ∈ ops, op ≠ MotorOp.motorize ∧ op ≠ MotorOp.clamp := by
  have key : ∀ (ops : List MotorOp) (l : MotorLink), (l.run ops).actuator = none ↔ l.actuator = none ∧ ∀ op ∈ ops, op ≠ MotorOp.motorize ∧ op ≠ MotorOp.clamp := by
    intro ops
    induction ops with
    | nil => intro l; simp [MotorLink.run]
    | cons op ops ih =>
      intro l
      show ((l.step op).run ops).actuator = none ↔ _
      rw [ih, List.forall_mem_cons]
      cases op with
      | motorize => simp [MotorLink.step, MotorLink.motorize]
      | clamp => cases ha : l.actuator <;> simp [MotorLink.step, MotorLink.clamp, MotorLink.motorize, ha]
      | setDisabled b =>
        have : (l.step (.setDisabled b)).actuator = l.actuator := (setMotor_inSystem _ b).2.1
        rw [this]; simp
      | setBroken b =>
        have : (l.step (.setBroken b)).actuator = l.actuator := (setBroken_inSystem _ b).2.1
        rw [this]; simp
      | setBreakable b => simp [MotorLink.step]
      | motorSetDisabled b =>
        have : (l.step (.motorSetDisabled b)).actuator = l.actuator := (setMotor_inSystem _ b).2.1
        rw [this]; simp
  have h := key ops {}
  unfold MotorLink.springApplied MotorLink.isMotorized
  rw [Bool.not_eq_true', Option.isSome_eq_false_iff, Option.isNone_iff_eq_none, h]
  simp

/-! ## C136: the joints -/

/-- The Chrono constraint of a lock mask (external): the locked coordinates of the relative frame (x, y, z, e0 … e3) are zero. -/
def Satisfies (m : ChMask) (rel : Frame) : Prop :=
  (m.x = true → rel.pos.x = 0) ∧ (m.y = true → rel.pos.y = 0) ∧ (m.z = true → rel.pos.z = 0) ∧ (m.e0 = true → rel.rot.e0 = 0) ∧
  (m.e1 = true → rel.rot.e1 = 0) ∧ (m.e2 = true → rel.rot.e2 = 0) ∧ (m.e3 = true → rel.rot.e3 = 0)

/-- The two frames have the same axes. -/
def SameAxes (rel : Frame) : Prop := ∀ v, rel.rot.rotate v = v

theorem isRotZ_iff (q : Q) (hq : q.IsUnit) : (q.e1 = 0 ∧ q.e2 = 0) ↔ ∃ θ, IsRotZ q θ := by
  constructor
  · rintro ⟨h1, h2⟩
    have hn : q.e0 ^ 2 + q.e3 ^ 2 = 1 := by
      have : q.e0 ^ 2 + q.e1 ^ 2 + q.e2 ^ 2 + q.e3 ^ 2 = 1 := hq
      rw [h1, h2] at this; linarith
    obtain ⟨φ, hc, hs⟩ : ∃ φ : ℝ, cos φ = q.e0 ∧ sin φ = q.e3 := by
      have hn' : ‖(⟨q.e0, q.e3⟩ : ℂ)‖ = 1 := by
        rw [Complex.norm_def, Complex.normSq_mk]
        rw [show q.e0 * q.e0 + q.e3 * q.e3 = 1 by linarith]; exact Real.sqrt_one
      refine ⟨Complex.arg ⟨q.e0, q.e3⟩, ?_, ?_⟩
      · rw [Complex.cos_arg (by intro h; rw [h] at hn'; simp at hn'), hn', div_one]
      · rw [Complex.sin_arg, hn', div_one]
    refine ⟨2 * φ, Or.inl ?_⟩
    have e : 2 * φ / 2 = φ := by ring
    ext <;> simp [Q.ofAngAxis, V3.e3, e, hc, hs, h1, h2]
  · rintro ⟨θ, h⟩
    obtain ⟨s, -, rfl⟩ := isRotZ_form h
    exact ⟨rfl, rfl⟩

theorem sameAxes_iff (rel : Frame) (hq : rel.rot.IsUnit) : SameAxes rel ↔ rel.rot.e1 = 0 ∧ rel.rot.e2 = 0 ∧ rel.rot.e3 = 0 := by
  have hn : rel.rot.e0 ^ 2 + rel.rot.e1 ^ 2 + rel.rot.e2 ^ 2 + rel.rot.e3 ^ 2 = 1 := hq
  constructor
  · intro h
    have hx := congrArg V3.x (h V3.e1)
    have hy := congrArg V3.y (h V3.e2)
    have hz := congrArg V3.z (h V3.e3)
    simp only [Q.rotate, Q.toMat, M3.mulVec, V3.e1, V3.e2, V3.e3] at hx hy hz
    have e1 : rel.rot.e1 ^ 2 = 0 := by nlinarith [sq_nonneg rel.rot.e1, sq_nonneg rel.rot.e2, sq_nonneg rel.rot.e3]
    have e2 : rel.rot.e2 ^ 2 = 0 := by nlinarith [sq_nonneg rel.rot.e1, sq_nonneg rel.rot.e2, sq_nonneg rel.rot.e3]
    have e3 : rel.rot.e3 ^ 2 = 0 := by nlinarith [sq_nonneg rel.rot.e1, sq_nonneg rel.rot.e2, sq_nonneg rel.rot.e3]
    exact ⟨pow_eq_zero_iff (two_ne_zero) |>.mp e1, pow_eq_zero_iff (two_ne_zero) |>.mp e2, pow_eq_zero_iff (two_ne_zero) |>.mp e3⟩
  · rintro ⟨h1, h2, h3⟩ v
    rw [h1, h2, h3] at hn
    have h0 : rel.rot.e0 ^ 2 = 1 := by linarith
    ext <;> simp only [Q.rotate, Q.toMat, M3.mulVec, h1, h2, h3]
    · linear_combination 2 * v.x * h0
    · linear_combination 2 * v.y * h0
    · linear_combination 2 * v.z * h0

/-- **C136.** The joints built by the links let exactly the relative motions of their names: a fixed link keeps the two nodes together, a spherical link their origins, a revolute link lets node 2 turn
about the axis z of node 1, a prismatic link lets it slide along it without turning, a cylindrical link both, the prismatic-revolute link lets it slide along x and turn about z, and a free link lets everything. -/
theorem C136_joints (rel : Frame) (h : rel.Valid) :
    (Satisfies (chronoMaskOfType .fixed) rel ↔ rel.pos = 0 ∧ SameAxes rel) ∧
    (Satisfies (chronoMaskOfType .spherical) rel ↔ rel.pos = 0) ∧
    (Satisfies (chronoMaskOfType .revolute) rel ↔ rel.pos = 0 ∧ ∃ θ, IsRotZ rel.rot θ) ∧
    (Satisfies (chronoMaskOfType .prismatic) rel ↔ (∃ z : ℝ, rel.pos = z • V3.e3) ∧ SameAxes rel) ∧
    (Satisfies (chronoMaskOfType .cylindrical) rel ↔ (∃ z : ℝ, rel.pos = z • V3.e3) ∧ ∃ θ, IsRotZ rel.rot θ) ∧
    (Satisfies (chronoMaskOfType .prismaticRevolute) rel ↔ (∃ x : ℝ, rel.pos = x • V3.e1) ∧ ∃ θ, IsRotZ rel.rot θ) ∧
    Satisfies (chronoMaskOfType .free) rel := by
  have p0 : rel.pos = 0 ↔ rel.pos.x = 0 ∧ rel.pos.y = 0 ∧ rel.pos.z = 0 := by rw [V3.ext_iff]; simp
  have pz : (∃ z : ℝ, rel.pos = z • V3.e3) ↔ rel.pos.x = 0 ∧ rel.pos.y = 0 := by
    constructor
    · rintro ⟨z, hz⟩; rw [hz]; simp [V3.e3]
    · rintro ⟨hx, hy⟩; exact ⟨rel.pos.z, by ext <;> simp [hx, hy, V3.e3]⟩
  have px : (∃ z : ℝ, rel.pos = z • V3.e1) ↔ rel.pos.y = 0 ∧ rel.pos.z = 0 := by
    constructor
    · rintro ⟨z, hz⟩; rw [hz]; simp [V3.e1]
    · rintro ⟨hx, hy⟩; exact ⟨rel.pos.x, by ext <;> simp [hx, hy, V3.e1]⟩
  rw [sameAxes_iff rel h, ← isRotZ_iff rel.rot h, p0, pz, px]
  refine ⟨?_, ?_, ?_, ?_, ?_, ?_, ?_⟩ <;> simp [Satisfies, chronoMaskOfType] <;> tauto

/-- **C136, coaxial.** The nodes of a satisfied revolute, prismatic or cylindrical link are coaxial. -/
theorem C136_coaxial (rel : Frame) (h : rel.Valid)
    (hs : Satisfies (chronoMaskOfType .revolute) rel ∨ Satisfies (chronoMaskOfType .prismatic) rel ∨ Satisfies (chronoMaskOfType .cylindrical) rel) : Coaxial rel := by
  have hq : rel.rot.e1 = 0 ∧ rel.rot.e2 = 0 := by
    rcases hs with hs | hs | hs <;> exact ⟨hs.2.2.2.2.1 rfl, hs.2.2.2.2.2.1 rfl⟩
  have hp : rel.pos.x = 0 ∧ rel.pos.y = 0 := by
    rcases hs with hs | hs | hs <;> exact ⟨hs.1 rfl, hs.2.1 rfl⟩
  refine ⟨?_, hp.1, hp.2⟩
  have hn : rel.rot.e0 ^ 2 + rel.rot.e1 ^ 2 + rel.rot.e2 ^ 2 + rel.rot.e3 ^ 2 = 1 := h
  rw [hq.1, hq.2] at hn
  ext <;> simp only [Q.rotate, Q.toMat, M3.mulVec, hq.1, hq.2, V3.e3]
  · ring
  · ring
  · linear_combination 2 * hn

/-! ## Concrete cases -/

/-- Two bodies 3 m apart along the common axis of their nodes. -/
example : Coaxial (relFrame Frame.identity ⟨⟨0, 0, 3⟩, Q.one⟩ Frame.identity Frame.identity) := by
  refine C136_coaxial _ (by exact (Q.isUnit_one.mul Q.isUnit_one).conj.mul (Q.isUnit_one.mul Q.isUnit_one)) (Or.inr (Or.inl ?_))
  norm_num [Satisfies, chronoMaskOfType, relFrame, Frame.otherWrtThis, Frame.mul, Frame.inv, Frame.identity, Q.mul, Q.one, Q.conj, Q.rotate, Q.toMat, M3.mulVec]

/-- There a position motor told 3 is not satisfied: it asks for −3. -/
example : motorPos Frame.identity ⟨⟨0, 0, 3⟩, Q.one⟩ Frame.identity Frame.identity ≠ 3 := by
  intro h
  have := (C133_linear_counterexample Frame.identity ⟨⟨0, 0, 3⟩, Q.one⟩ Frame.identity Frame.identity Q.isUnit_one Q.isUnit_one Q.isUnit_one 3).mp h
  norm_num [relFrame, Frame.otherWrtThis, Frame.mul, Frame.inv, Frame.identity, Q.mul, Q.one, Q.conj, Q.rotate, Q.toMat, M3.mulVec, Frame.getPosition, conv] at this

/-- A quarter turn meets the bound of the clamping theorems. -/
example : |cos (π / 2 / 2)| < 0.99999999 := by
  rw [show π / 2 / 2 = π / 4 by ring, cos_pi_div_four, abs_of_pos (by positivity)]
  nlinarith [Real.sq_sqrt (show (0 : ℝ) ≤ 2 by norm_num), Real.sqrt_nonneg 2]

example : MotorLink.Once {} [.motorize, .setDisabled true, .clamp, .clamp] := by
  simp [MotorLink.Once]

example : (MotorLink.run {} [.motorize, .setDisabled true, .clamp, .clamp]).inSystem = [2] := by decide

end Frydom.Link
