import Verif.Env.FlowForce
import Verif.Core.Node

/-!
# Equilibrium frame (C81, C82)

`src/frydom/hydrodynamics/FrEquilibriumFrame.{h,cpp}`, class `FrEquilibriumFrame`.
-/

open Classical

noncomputable section

namespace Frydom.Hydro
open Frydom.Geom Frydom.Core Frydom.Env

/-- `FLT_EPSILON` (IEEE single precision). -/
def fltEps : ℝ := 1 / 2 ^ 23

/-- The attributes (FrEquilibriumFrame.h:45-52). -/
structure EqFrame where
  frame : Frame
  node : Node
  vel : V3
  w : ℝ
  fromBody : Bool
  prev : ℝ

namespace EqFrame

/-- `ApplyFrameProjection` (FrEquilibriumFrame.cpp:232-238). `m_frame.GetRotation()` is a copy: `SetNullRotation` on it has no effect. -/
def applyProjection (junk : ℝ) (b : Body) (f : Frame) : Frame := f.rotZ (getCardan junk .NWU b.getQuaternion).yaw .NWU true

/-- `SetEqFramePositionOrientation()` (FrEquilibriumFrame.cpp:48-56). -/
def setHere (junk : ℝ) (b : Body) (e : EqFrame) : EqFrame :=
  let f := applyProjection junk b (Frame.identity.setPosition (e.node.positionInWorld .NWU) .NWU)
  { e with frame := f, node := e.node.setFrameInWorld b f }

/-- `SetEqFramePositionOrientation(localPos, rot, fc)` (FrEquilibriumFrame.cpp:58-69). -/
def setAt (junk : ℝ) (b : Body) (e : EqFrame) (p : V3) (rot : ℝ) (fc : FC) : EqFrame :=
  let n := e.node.setPositionInBody b p fc
  let f := (applyProjection junk b (Frame.identity.setPosition (n.positionInWorld .NWU) .NWU)).rotZ rot fc true
  { e with frame := f, node := n.setFrameInWorld b f }

/-- Constructor (FrEquilibriumFrame.cpp:27-38). `Velocity()` is the zero vector (MathUtils, external). -/
def new (junk : ℝ) (b : Body) (p : V3) (rot : ℝ) (fc : FC) : EqFrame :=
  setAt junk b ⟨Frame.identity, Node.new b, 0, 0, false, 0⟩ p rot fc

/-- `InitializeVelocityFromBody` (FrEquilibriumFrame.cpp:44-46). -/
def initVelocityFromBody (e : EqFrame) (i : Bool) : EqFrame := { e with fromBody := i }
/-- `GetPositionInWorld` (FrEquilibriumFrame.cpp:71-73), `GetRotation`, `GetFrame` (77-83). -/
def positionInWorld (e : EqFrame) (fc : FC) : V3 := e.frame.getPosition fc
def getRotation (e : EqFrame) : Q := e.frame.rot
def getFrame (e : EqFrame) : Frame := e.frame
/-- `SetVelocityInWorld` (FrEquilibriumFrame.cpp:83-87). The argument is a constant reference: the overload of `SwapFrameConvention` chosen
(core/math/FrVector.h:708-713) returns a copy, which is dropped. -/
def setVelocityInWorld (e : EqFrame) (v : V3) (_ : FC) : EqFrame := { e with vel := v, fromBody := false }
/-- `SetVelocityInFrame` (FrEquilibriumFrame.cpp:89-93). -/
def setVelocityInFrame (e : EqFrame) (v : V3) (fc : FC) : EqFrame :=
  { e.setVelocityInWorld (e.frame.projFrameInParent v fc) .NWU with fromBody := false }
/-- `SetAngularVelocity` (FrEquilibriumFrame.cpp:95-98). -/
def setAngularVelocity (e : EqFrame) (w : ℝ) (fc : FC) : EqFrame := { e with w := if fc = .NED then -w else w }
/-- `GetFrameVelocityInWorld` (FrEquilibriumFrame.cpp:100-104). -/
def velocityInWorld (e : EqFrame) (fc : FC) : V3 := conv fc e.vel
/-- `GetFrameVelocityInFrame` (FrEquilibriumFrame.cpp:106-108). -/
def velocityInFrame (e : EqFrame) (fc : FC) : V3 := e.frame.projParentInFrame e.vel fc
/-- `GetPerturbationFrame` (FrEquilibriumFrame.cpp:110-112). -/
def perturbation (e : EqFrame) : Frame := e.frame.inv.mul e.node.frameInWorld
/-- `GetPerturbationVelocityInWorld` (FrEquilibriumFrame.cpp:114-118). -/
def perturbationVelocity (e : EqFrame) (fc : FC) : V3 := e.node.velocityInWorld fc - e.velocityInWorld fc
/-- `GetPerturbationVelocityInFrame` (FrEquilibriumFrame.cpp:120-123). -/
def perturbationVelocityInFrame (e : EqFrame) (fc : FC) : V3 := e.frame.projParentInFrame (e.perturbationVelocity fc) fc
/-- `GetFrameAngularVelocity` (FrEquilibriumFrame.cpp:137-141). -/
def angularVelocity (e : EqFrame) (fc : FC) : V3 := ⟨0, 0, if fc = .NED then e.w * -1 else e.w⟩
/-- `GetPerturbationAngularVelocity` (FrEquilibriumFrame.cpp:143-147). -/
def perturbationAngularVelocity (e : EqFrame) (fc : FC) : V3 := e.node.angVelInWorld fc - e.angularVelocity fc
/-- `GetPerturbationAngularVelocityInFrame` (FrEquilibriumFrame.cpp:149-152). -/
def perturbationAngularVelocityInFrame (e : EqFrame) (fc : FC) : V3 := e.frame.projParentInFrame (e.perturbationAngularVelocity fc) fc
/-- `GetPerturbationGeneralizedVelocityInWorld`, `...InFrame` (FrEquilibriumFrame.cpp:125-135). -/
def perturbationGenVelocity (e : EqFrame) (fc : FC) : V3 × V3 := (e.perturbationVelocity fc, e.perturbationAngularVelocity fc)
def perturbationGenVelocityInFrame (e : EqFrame) (fc : FC) : V3 × V3 := (e.perturbationVelocityInFrame fc, e.perturbationAngularVelocityInFrame fc)
/-- `Initialize` (FrEquilibriumFrame.cpp:154-159). -/
def init (e : EqFrame) : EqFrame :=
  let e := { e with prev := 0 }
  if e.fromBody then { e with vel := e.node.velocityInWorld .NWU } else e
/-- `Compute` (FrEquilibriumFrame.cpp:161-179). -/
def compute (e : EqFrame) (time : ℝ) : EqFrame :=
  if |time - e.prev| < fltEps then e
  else
    let dt := time - e.prev
    let f := if V3.dot e.vel e.vel > fltEps then e.frame.setPosition (e.frame.getPosition .NWU + dt • e.vel) .NWU else e.frame
    let f := if |e.w| > fltEps then f.rotZ (e.w * dt) .NWU true else f
    { e with frame := f, prev := time }
/-- `SetAngleRotation` (FrEquilibriumFrame.cpp:240-242). -/
def setAngleRotation (e : EqFrame) (a : ℝ) (fc : FC) : EqFrame := { e with frame := e.frame.rotZ a fc true }

/-- The body has moved: its node is updated (Chrono `ChMarker`, as in `Core.Node`). -/
def bodyMoved (e : EqFrame) (b' : Body) : EqFrame := { e with node := e.node.refresh b' }

end EqFrame

/-! ## Specification -/

/-- Turned about the vertical by `a` (counter-clockwise seen from above). -/
def turned (a : ℝ) (v : V3) : V3 := ⟨Real.cos a * v.x - Real.sin a * v.y, Real.sin a * v.x + Real.cos a * v.y, v.z⟩
/-- An angle given in a convention, counter-clockwise seen from above. -/
def ccw (fc : FC) (a : ℝ) : ℝ := if fc = .NED then -a else a
/-- The axes of a frame in the world (NWU). -/
def axesOf (f : Frame) (v : V3) : V3 := f.projFrameInParent v .NWU
/-- The frame is level. -/
def LevelFrame (f : Frame) : Prop := f.rot.IsUnit ∧ axesOf f ⟨0, 0, 1⟩ = ⟨0, 0, 1⟩
/-- `f'` is `f` after a uniform motion of duration `T`: velocity `v`, rate of turn `w`. -/
def MovedFor (f f' : Frame) (v : V3) (w T : ℝ) : Prop :=
  f'.getPosition .NWU = f.getPosition .NWU + T • v ∧ ∀ x, axesOf f' x = turned (w * T) (axesOf f x)

/-! ## Rotations about the vertical -/

theorem turned_zero (v : V3) : turned 0 v = v := by ext <;> simp [turned]
theorem turned_add (a b : ℝ) (v : V3) : turned a (turned b v) = turned (a + b) v := by
  unfold turned
  rw [Real.cos_add, Real.sin_add]
  ext <;> simp <;> ring

theorem yawQ_rotate (a : ℝ) (v : V3) : (Q.ofAngAxis a V3.e3).rotate v = turned a v := by
  have := ofAngAxis_e3 a v
  unfold turned
  simpa [rotate, quatOfAxisAngle, conv] using this

theorem yawQ_unit (a : ℝ) : (Q.ofAngAxis a V3.e3).IsUnit := by
  have := Real.sin_sq_add_cos_sq (a / 2)
  simp [Q.IsUnit, Q.normSq, Q.ofAngAxis, V3.e3]

theorem zAxis_level {f : Frame} (h : LevelFrame f) : f.rot.zAxis = V3.e3 := by
  have h1 : f.rot.toMat.mulVec ⟨0, 0, 1⟩ = ⟨0, 0, 1⟩ := h.2
  have hu := h.1
  have hx := congrArg V3.x h1
  have hy := congrArg V3.y h1
  have hz := congrArg V3.z h1
  unfold Q.IsUnit Q.normSq at hu
  simp [M3.mulVec, Q.toMat] at hx hy hz
  unfold Q.zAxis V3.e3
  ext <;> simp
  · linarith
  · linarith
  · nlinarith

theorem rotZ_level {f : Frame} (h : LevelFrame f) (a : ℝ) (fc : FC) :
    LevelFrame (f.rotZ a fc true) ∧ (∀ x, axesOf (f.rotZ a fc true) x = turned (ccw fc a) (axesOf f x)) ∧ (f.rotZ a fc true).pos = f.pos := by
  have hz := zAxis_level h
  have hr : (f.rotZ a fc true).rot = (Q.ofAngAxis (ccw fc a) V3.e3).mul f.rot := by
    show (Q.ofAngAxis _ f.rot.zAxis).mul f.rot = _
    rw [hz]; rfl
  have hax : ∀ x, axesOf (f.rotZ a fc true) x = turned (ccw fc a) (axesOf f x) := by
    intro x
    show (f.rotZ a fc true).rot.rotate x = _
    rw [hr, Q.rotate_mul (yawQ_unit _) h.1, yawQ_rotate]
    rfl
  refine ⟨⟨?_, ?_⟩, hax, rfl⟩
  · rw [hr]; exact (yawQ_unit _).mul h.1
  · rw [hax, h.2]; ext <;> simp [turned]

theorem level_of_pos {f : Frame} (h : LevelFrame f) (p : V3) (fc : FC) : LevelFrame (f.setPosition p fc) := h

theorem identity_level : LevelFrame Frame.identity :=
  ⟨Q.isUnit_one, by show Q.one.rotate _ = _; rw [Q.rotate_one]; rfl⟩

theorem applyProjection_spec (junk : ℝ) (b : Body) (p : V3) (fc : FC) :
    let f := EqFrame.applyProjection junk b (Frame.identity.setPosition p fc)
    LevelFrame f ∧ f.pos = conv fc p ∧ ∀ x, axesOf f x = rotate (yawRot junk b.cog.rot) .NWU x := by
  intro f
  obtain ⟨h1, h2, h3⟩ := rotZ_level (level_of_pos identity_level p fc) (getCardan junk .NWU b.getQuaternion).yaw .NWU
  refine ⟨h1, h3, fun x => ?_⟩
  refine (h2 x).trans ?_
  show turned _ (Q.one.rotate x) = _
  rw [Q.rotate_one]
  unfold yawRot
  rw [ofAngAxis_e3]
  rfl

/-- What a frame set on a body must be: at the point `p` of the body, level, turned by `rot` from the heading of the body. -/
structure SetOn (e : EqFrame) (b : Body) (p : V3) (rot : ℝ) (fc : FC) : Prop where
  position : e.positionInWorld fc = b.pointInWorld p fc
  level : LevelFrame e.getFrame
  heading : axesOf e.getFrame ⟨1, 0, 0⟩ = turned (ccw fc rot) (ahead b)
  noPerturbation : e.perturbation = Frame.identity
  attached : Attached b e.node
  pointOfBody : e.node.positionInBody b fc = p

/-- **C81, construction.** For every placed body whose bow is not vertical (heeled or trimmed or not), point of the body, angle and
convention: the equilibrium frame is at the point, level, at the given angle from the heading of the body, its node is fixed at
that point of the body, and the perturbation is the identity. -/
theorem C81_construction (junk : ℝ) (b : Body) (h : Placed b) (hh : HasHeading b) (p : V3) (rot : ℝ) (fc : FC) :
    SetOn (EqFrame.new junk b p rot fc) b p rot fc := by
  set n := (Node.new b).setPositionInBody b p fc with hn
  have hna : Attached b n := setFrameInBody_attached _ _ _ Q.isUnit_one
  have hnp : n.positionInBody b fc = p := (C54_set_get b h (Node.new b) (refresh_attached _ b Q.isUnit_one) Frame.identity p 0 Q.one fc).2.2.1
  have hw : n.positionInWorld fc = b.pointInWorld p fc := by
    rw [(C54_attached b h n hna fc).2.1, hnp]
  obtain ⟨h1, h2, h3⟩ := applyProjection_spec junk b (n.positionInWorld .NWU) .NWU
  set f0 := EqFrame.applyProjection junk b (Frame.identity.setPosition (n.positionInWorld .NWU) .NWU) with hf0
  obtain ⟨g1, g2, g3⟩ := rotZ_level h1 rot fc
  set f := f0.rotZ rot fc true with hf
  have he : EqFrame.new junk b p rot fc = ⟨f, n.setFrameInWorld b f, 0, 0, false, 0⟩ := rfl
  have hpos : f.pos = n.positionInWorld .NWU := by rw [g3, h2]; rfl
  have habs : (n.setFrameInWorld b f).abs = f := setFrameInWorld_abs n b h f
  have hatt := setFrameInWorld_attached n b h f g1.1
  have hpw : f.getPosition fc = b.pointInWorld p fc := by
    show conv fc f.pos = _
    rw [hpos, ← hw]; rfl
  rw [he]
  refine ⟨hpw, g1, ?_, ?_, hatt, ?_⟩
  · show axesOf f _ = _
    rw [g2, h3, yawRot_rotate junk b h hh]
    congr 1
    ext <;> simp
  · show f.inv.mul (n.setFrameInWorld b f).abs = _
    rw [habs]
    refine Frame.ext ?_ (Q.conj_mul g1.1)
    show -(f.rot.conj.rotate f.pos) + f.rot.conj.rotate f.pos = 0
    ext <;> simp
  · rw [(C54_attached b h _ hatt fc).2.2.1]
    have : (n.setFrameInWorld b f).positionInWorld fc = b.pointInWorld p fc := by
      show conv fc (n.setFrameInWorld b f).abs.pos = _
      rw [habs]; exact hpw
    rw [this, pointInBody_pointInWorld h]

/-- **C81, reset.** Setting the frame again where its node is (after the body has moved) puts it at that point of the body, level, along the
heading of the body, without perturbation. -/
theorem C81_reset (junk : ℝ) (b : Body) (h : Placed b) (hh : HasHeading b) (e : EqFrame) (ha : Attached b e.node) (fc : FC) :
    SetOn (e.setHere junk b) b (e.node.positionInBody b fc) 0 fc := by
  obtain ⟨h1, h2, h3⟩ := applyProjection_spec junk b (e.node.positionInWorld .NWU) .NWU
  set f := EqFrame.applyProjection junk b (Frame.identity.setPosition (e.node.positionInWorld .NWU) .NWU) with hf
  have he : e.setHere junk b = { e with frame := f, node := e.node.setFrameInWorld b f } := rfl
  have habs : (e.node.setFrameInWorld b f).abs = f := setFrameInWorld_abs e.node b h f
  have hatt := setFrameInWorld_attached e.node b h f h1.1
  have hpw : f.getPosition fc = b.pointInWorld (e.node.positionInBody b fc) fc := by
    rw [← (C54_attached b h e.node ha fc).2.1]
    show conv fc f.pos = _
    rw [h2]; rfl
  rw [he]
  refine ⟨hpw, h1, ?_, ?_, hatt, ?_⟩
  · show axesOf f _ = _
    rw [h3, yawRot_rotate junk b h hh, show ccw fc 0 = 0 by cases fc <;> simp [ccw], turned_zero]
    ext <;> simp
  · show f.inv.mul (e.node.setFrameInWorld b f).abs = _
    rw [habs]
    refine Frame.ext ?_ (Q.conj_mul h1.1)
    show -(f.rot.conj.rotate f.pos) + f.rot.conj.rotate f.pos = 0
    ext <;> simp
  · rw [(C54_attached b h _ hatt fc).2.2.1]
    have : (e.node.setFrameInWorld b f).positionInWorld fc = b.pointInWorld (e.node.positionInBody b fc) fc := by
      show conv fc (e.node.setFrameInWorld b f).abs.pos = _
      rw [habs]; exact hpw
    rw [this, pointInBody_pointInWorld h]

/-- A body heeled by 90 degrees meets the hypotheses. -/
example (s : ℝ) (hs : s * s = 1 / 2) : ∃ b : Body, Placed b ∧ HasHeading b ∧ b.toWorld ⟨0, 1, 0⟩ .NWU = ⟨0, 0, 1⟩ := by
  refine ⟨⟨⟨0, ⟨s, s, 0, 0⟩⟩, 0, ⟨0, 0, 0, 0⟩, 0, 0, 0⟩, ⟨?_, ?_⟩, ?_, ?_⟩
  · simp [Q.IsUnit, Q.normSq]; linarith
  · ext <;> simp [Q.rotate, Q.toMat, M3.mulVec]
  · unfold HasHeading
    rw [bow_eq]
    simp [Q.toMat]
    norm_num [pow_two, hs]
  · show rotate _ .NWU _ = _
    ext <;> simp [rotate, conv, Q.rotate, Q.toMat, M3.mulVec] <;> linarith

/-! ## C81: motion -/

/-- Run `Compute` at the given times. -/
def EqFrame.computeAll (e : EqFrame) (ts : List ℝ) : EqFrame := ts.foldl EqFrame.compute e

/-- A quantity is zero or above the threshold of the code. -/
def Significant (v : V3) (w : ℝ) : Prop := (v = 0 ∨ fltEps < V3.dot v v) ∧ (w = 0 ∨ fltEps < |w|)

theorem fltEps_pos : 0 < fltEps := by unfold fltEps; positivity

theorem compute_keep (e : EqFrame) (t : ℝ) : (e.compute t).vel = e.vel ∧ (e.compute t).w = e.w ∧ (e.compute t).node = e.node ∧
    (e.compute t).fromBody = e.fromBody := by
  unfold EqFrame.compute
  split_ifs <;> exact ⟨rfl, rfl, rfl, rfl⟩

theorem compute_prev (e : EqFrame) (t : ℝ) : |t - (e.compute t).prev| < fltEps := by
  unfold EqFrame.compute
  by_cases h : |t - e.prev| < fltEps
  · rw [if_pos h]; exact h
  · rw [if_neg h]
    show |t - t| < _
    rw [sub_self, abs_zero]; exact fltEps_pos

theorem compute_moved (e : EqFrame) (hl : LevelFrame e.frame) (hs : Significant e.vel e.w) (t : ℝ) :
    LevelFrame (e.compute t).frame ∧ MovedFor e.frame (e.compute t).frame e.vel e.w ((e.compute t).prev - e.prev) := by
  unfold EqFrame.compute
  by_cases h : |t - e.prev| < fltEps
  · rw [if_pos h]
    refine ⟨hl, ?_, fun x => ?_⟩
    · rw [sub_self]; ext <;> simp
    · rw [sub_self, mul_zero, turned_zero]
  · rw [if_neg h]
    simp only []
    set f1 := (if V3.dot e.vel e.vel > fltEps then e.frame.setPosition (e.frame.getPosition .NWU + (t - e.prev) • e.vel) .NWU else e.frame) with hf1
    have k1 : LevelFrame f1 ∧ f1.pos = e.frame.pos + (t - e.prev) • e.vel ∧ ∀ x, axesOf f1 x = axesOf e.frame x := by
      rcases hs.1 with h0 | h0
      · have : ¬ V3.dot e.vel e.vel > fltEps := by
          rw [h0]
          have : V3.dot (0 : V3) 0 = 0 := by simp [V3.dot]
          rw [this]
          exact not_lt.mpr fltEps_pos.le
        rw [hf1, if_neg this, h0]
        exact ⟨hl, by ext <;> simp, fun _ => rfl⟩
      · rw [hf1, if_pos h0]
        exact ⟨hl, rfl, fun _ => rfl⟩
    obtain ⟨k1, k2, k3⟩ := k1
    rcases hs.2 with h0 | h0
    · have : ¬ |e.w| > fltEps := by rw [h0, abs_zero]; exact not_lt.mpr fltEps_pos.le
      rw [if_neg this]
      refine ⟨k1, k2, fun x => ?_⟩
      rw [k3, h0, zero_mul, turned_zero]
    · rw [if_pos h0]
      obtain ⟨g1, g2, g3⟩ := rotZ_level k1 (e.w * (t - e.prev)) .NWU
      refine ⟨g1, ?_, fun x => ?_⟩
      · show (f1.rotZ _ .NWU true).pos = _
        rw [g3, k2]; rfl
      · rw [g2, k3]; rfl

/-- **C81, uniform motion.** From any level equilibrium frame, for every sequence of times (any steps, repetitions, going back): the
frame has moved for exactly the time elapsed since the last computation, up to a last step shorter than the threshold, at its velocity and rate
of turn, and it is level. -/
theorem C81_uniform_motion_partial (e : EqFrame) (hl : LevelFrame e.getFrame) (hs : Significant e.vel e.w) (ts : List ℝ) (t : ℝ) :
    ∃ T, |t - T| < fltEps ∧ MovedFor e.getFrame (e.computeAll (ts ++ [t])).getFrame (e.velocityInWorld .NWU) (e.angularVelocity .NWU).z (T - e.prev) ∧
      LevelFrame (e.computeAll (ts ++ [t])).getFrame ∧
      (e.computeAll (ts ++ [t])).velocityInWorld .NWU = e.velocityInWorld .NWU ∧ (e.computeAll (ts ++ [t])).prev = T := by
  have key : ∀ ts : List ℝ, LevelFrame (e.computeAll ts).frame ∧ (e.computeAll ts).vel = e.vel ∧ (e.computeAll ts).w = e.w ∧
      MovedFor e.frame (e.computeAll ts).frame e.vel e.w ((e.computeAll ts).prev - e.prev) := by
    intro ts
    induction ts using List.reverseRecOn with
    | nil =>
      refine ⟨hl, rfl, rfl, ?_, fun x => ?_⟩
      · show _ = _ + (e.prev - e.prev) • _
        rw [sub_self]; ext <;> simp [EqFrame.computeAll]
      · show _ = turned (e.w * (e.prev - e.prev)) _
        rw [sub_self, mul_zero, turned_zero]; rfl
    | append_singleton ts t ih =>
      obtain ⟨i1, i2, i3, i4, i5⟩ := ih
      have : e.computeAll (ts ++ [t]) = (e.computeAll ts).compute t := by simp [EqFrame.computeAll]
      rw [this]
      generalize e.computeAll ts = e1 at *
      obtain ⟨k1, k2, k3⟩ := compute_moved e1 i1 (by rw [i2, i3]; exact hs) t
      obtain ⟨c1, c2, -⟩ := compute_keep e1 t
      refine ⟨k1, c1.trans i2, c2.trans i3, ?_, fun x => ?_⟩
      · rw [k2, i4, i2]; ext <;> simp <;> ring
      · rw [k3, i5, turned_add, i3]; congr 1; ring
  have : e.computeAll (ts ++ [t]) = (e.computeAll ts).compute t := by simp [EqFrame.computeAll]
  obtain ⟨k1, k2, k3, k4⟩ := key (ts ++ [t])
  refine ⟨(e.computeAll (ts ++ [t])).prev, ?_, k4, k1, k2, rfl⟩
  rw [this]; exact compute_prev _ t

/-- The hypotheses are met by a frame just made: 1 m/s ahead, 0.1 rad/s. -/
example (junk : ℝ) (b : Body) (h : Placed b) (hh : HasHeading b) :
    LevelFrame ((EqFrame.new junk b 0 0 .NWU).setVelocityInWorld ⟨1, 0, 0⟩ .NWU).getFrame ∧
    Significant ((EqFrame.new junk b 0 0 .NWU).setVelocityInWorld ⟨1, 0, 0⟩ .NWU |>.setAngularVelocity 0.1 .NWU).vel
      ((EqFrame.new junk b 0 0 .NWU).setVelocityInWorld ⟨1, 0, 0⟩ .NWU |>.setAngularVelocity 0.1 .NWU).w := by
  refine ⟨(C81_construction junk b h hh 0 0 .NWU).level, Or.inr ?_, Or.inr ?_⟩
  · show fltEps < V3.dot (⟨1, 0, 0⟩ : V3) ⟨1, 0, 0⟩
    simp [V3.dot, fltEps]; norm_num
  · show fltEps < |if FC.NWU = FC.NED then -0.1 else (0.1 : ℝ)|
    simp [fltEps]
    rw [abs_of_pos] <;> norm_num

/-- **C81, slow frames never move (defect).** A velocity whose square is at most `FLT_EPSILON` (below 0.345 mm/s) is ignored: whatever the
times, the frame stays where it was, while the velocity read is the one set. -/
theorem C81_slow_frame_stuck (e : EqFrame) (hv : V3.dot e.vel e.vel ≤ fltEps) (ts : List ℝ) :
    (e.computeAll ts).positionInWorld .NWU = e.positionInWorld .NWU ∧ (e.computeAll ts).velocityInWorld .NWU = e.velocityInWorld .NWU := by
  induction ts using List.reverseRecOn with
  | nil => exact ⟨rfl, rfl⟩
  | append_singleton ts t ih =>
    have : e.computeAll (ts ++ [t]) = (e.computeAll ts).compute t := by simp [EqFrame.computeAll]
    rw [this]
    obtain ⟨h1, h2⟩ := ih
    have h2' : (e.computeAll ts).vel = e.vel := h2
    generalize e.computeAll ts = e1 at *
    refine ⟨?_, (compute_keep e1 t).1.trans h2'⟩
    rw [← h1]
    unfold EqFrame.compute
    have hv' : ¬ V3.dot e1.vel e1.vel > fltEps := by rw [h2']; exact not_lt.mpr hv
    by_cases h : |t - e1.prev| < fltEps
    · rw [if_pos h]
    · rw [if_neg h]
      simp only [if_neg hv']
      split_ifs <;> rfl

/-- 0.3 mm/s: after a day the frame should be 25.92 m away. -/
example (junk : ℝ) (b : Body) :
    let e := (EqFrame.new junk b 0 0 .NWU).setVelocityInWorld ⟨3e-4, 0, 0⟩ .NWU
    (e.computeAll [86400]).positionInWorld .NWU = e.positionInWorld .NWU ∧ 86400 * (e.velocityInWorld .NWU).x = 25.92 := by
  intro e
  refine ⟨(C81_slow_frame_stuck e ?_ [86400]).1, ?_⟩
  · show V3.dot (⟨3e-4, 0, 0⟩ : V3) ⟨3e-4, 0, 0⟩ ≤ fltEps
    simp [V3.dot, fltEps]; norm_num
  · show 86400 * (3e-4 : ℝ) = 25.92
    norm_num

/-- **C81, turning.** `SetAngleRotation` turns a level frame about the vertical by the angle given (in the sense of the convention), relative to its present heading; the frame stays level and at its place, and so do its velocities. -/
theorem C81_turn (e : EqFrame) (hl : LevelFrame e.getFrame) (a : ℝ) (fc fc' : FC) (x : V3) :
    let e' := e.setAngleRotation a fc
    LevelFrame e'.getFrame ∧ axesOf e'.getFrame x = turned (ccw fc a) (axesOf e.getFrame x) ∧ e'.positionInWorld fc' = e.positionInWorld fc' ∧
    e'.velocityInWorld fc' = e.velocityInWorld fc' ∧ e'.angularVelocity fc' = e.angularVelocity fc' ∧ e'.getRotation.rotate x = axesOf e'.getFrame x := by
  obtain ⟨h1, h2, h3⟩ := rotZ_level hl a fc
  exact ⟨h1, h2 x, congrArg (conv fc') h3, rfl, rfl, rfl⟩

/-- **C81, perturbation of a moving body.** When the body has moved, the perturbation is what brings the equilibrium frame onto the frame of the node carried by the body: every point given in the perturbed frame is found, through the perturbation and the
equilibrium frame, where the node carries it in the world; the node is that of the body in its new place. -/
theorem C81_perturbation (e : EqFrame) (hu : e.frame.rot.IsUnit) (hn : e.node.rel.rot.IsUnit) (b' : Body) (h : Placed b') (x : V3) (fc : FC) :
    let e' := e.bodyMoved b'
    Attached b' e'.node ∧ e'.getFrame = e.getFrame ∧
    e'.getFrame.pointInParent (e'.perturbation.pointInParent x fc) fc = (b'.getFrame.mul (e'.node.frameInBody b')).pointInParent x fc ∧
    (∀ wb, Spinning b' wb → e'.perturbationGenVelocity fc =
      (b'.velWorldAtPointInBody (e'.node.positionInBody b' fc) fc - e.velocityInWorld fc, b'.angVelWorld fc - e.angularVelocity fc)) ∧
    axesOf e.getFrame (conv fc (e'.perturbationGenVelocityInFrame fc).1) = conv fc (e'.perturbationGenVelocity fc).1 ∧
    axesOf e.getFrame (conv fc (e'.perturbationGenVelocityInFrame fc).2) = conv fc (e'.perturbationGenVelocity fc).2 := by
  intro e'
  have ha : Attached b' e'.node := refresh_attached e.node b' hn
  obtain ⟨h1, -, -, h4, h5, -⟩ := C54_attached b' h e'.node ha fc
  have hr : e'.node.frameInWorld.rot.IsUnit := by
    show e'.node.abs.rot.IsUnit
    rw [ha.abs]; exact h.unit.mul hn
  refine ⟨ha, rfl, ?_, ?_, ?_, ?_⟩
  · rw [← h1]
    have hm : ∀ (F G : Frame) (hF : F.rot.IsUnit) (hG : G.rot.IsUnit) (y : V3), (F.mul G).pointInParent y fc = F.pointInParent (G.pointInParent y fc) fc := by
      intro F G hF hG y
      simp only [Frame.pointInParent, Frame.getPosition, Frame.projFrameInParent, Frame.mul, rotate, conv_add, conv_conv, Q.rotate_mul hF hG, Q.rotate_add]
      exact V3.add_assoc' _ _ _
    have hi : e.frame.mul (e.frame.inv.mul e'.node.frameInWorld) = e'.node.frameInWorld := by
      refine Frame.ext ?_ ?_
      · show e.frame.pos + e.frame.rot.rotate (-(e.frame.rot.conj.rotate e.frame.pos) + e.frame.rot.conj.rotate e'.node.frameInWorld.pos) = _
        rw [Q.rotate_add, Q.rotate_neg, Q.rotate_conj' hu, Q.rotate_conj' hu]; ext <;> simp
      · show e.frame.rot.mul (e.frame.rot.conj.mul e'.node.frameInWorld.rot) = _
        rw [← Q.mul_assoc, Q.mul_conj hu, Q.one_mul]
    have hp : e'.perturbation.rot.IsUnit := hu.conj.mul hr
    rw [show e'.getFrame = e.frame from rfl, ← hm e.frame _ hu hp]
    exact congrArg (fun F : Frame => F.pointInParent x fc) hi
  · intro wb hs
    show (e'.node.velocityInWorld fc - e.velocityInWorld fc, e'.node.angVelInWorld fc - e.angularVelocity fc) = _
    rw [h5 wb hs, h4]
  · show e.frame.rot.rotate (conv fc (conv fc (e.frame.rot.conj.rotate (conv fc (e'.perturbationVelocity fc))))) = _
    rw [conv_conv, Q.rotate_conj' hu]; rfl
  · show e.frame.rot.rotate (conv fc (conv fc (e.frame.rot.conj.rotate (conv fc (e'.perturbationAngularVelocity fc))))) = _
    rw [conv_conv, Q.rotate_conj' hu]; rfl

/-- A case: the body has moved by one metre ahead. -/
example : ((⟨Frame.identity, Node.new Body.new, 0, 0, false, 0⟩ : EqFrame).bodyMoved (Body.new.setPosition ⟨1, 0, 0⟩ .NWU)).perturbation.pos = ⟨1, 0, 0⟩ := by
  show (Frame.identity.inv.mul ((Body.new.setPosition ⟨1, 0, 0⟩ .NWU).cog.mul Frame.identity)).pos = _
  ext <;> simp [Frame.identity, Frame.inv, Frame.mul, Frame.setPosition, Body.setPosition, Body.getFrame, Body.setFrameRefToAbs, Body.updateAfterMove, Body.new, Q.rotate, Q.toMat, M3.mulVec, Q.one, Q.conj, Geom.conv] <;> norm_num

/-! ## C82: velocities -/

/-- **C82, velocities in NWU, rate of turn, perturbation velocities.** What is set is what is read (in the world or in the frame, NWU; rate of turn in
both conventions); a velocity set in the frame is along the axes of the frame. For a node attached to the body the perturbation velocities
are those of the point of the body relative to the frame, in both conventions, in the axes of the world or of the frame. -/
theorem C82_velocities_partial (e : EqFrame) (hu : e.frame.rot.IsUnit) (v : V3) (w : ℝ) (fc : FC) :
    (e.setVelocityInWorld v .NWU).velocityInWorld fc = conv fc v ∧
    (e.setVelocityInFrame v .NWU).velocityInFrame .NWU = v ∧
    (e.setVelocityInFrame v .NWU).velocityInWorld .NWU = axesOf e.getFrame v ∧
    axesOf e.getFrame (e.velocityInFrame .NWU) = e.velocityInWorld .NWU ∧
    (e.setAngularVelocity w fc).angularVelocity fc = ⟨0, 0, w⟩ ∧
    (∀ fc', conv fc' (e.angularVelocity fc') = conv fc (e.angularVelocity fc)) ∧
    (∀ b : Body, Placed b → Attached b e.node → (∀ wb, Spinning b wb →
      e.perturbationVelocity fc = b.velWorldAtPointInBody (e.node.positionInBody b fc) fc - e.velocityInWorld fc) ∧
      e.perturbationAngularVelocity fc = b.angVelWorld fc - e.angularVelocity fc) ∧
    axesOf e.getFrame (conv fc (e.perturbationVelocityInFrame fc)) = conv fc (e.perturbationVelocity fc) ∧
    axesOf e.getFrame (conv fc (e.perturbationAngularVelocityInFrame fc)) = conv fc (e.perturbationAngularVelocity fc) := by
  refine ⟨rfl, ?_, rfl, ?_, ?_, ?_, ?_, ?_, ?_⟩
  · exact Q.rotate_conj hu v
  · exact Q.rotate_conj' hu _
  · cases fc <;> simp [EqFrame.setAngularVelocity, EqFrame.angularVelocity]
  · intro fc'
    have : ∀ fc, conv fc (e.angularVelocity fc) = ⟨0, 0, e.w⟩ := by
      intro fc
      cases fc <;> ext <;> simp [EqFrame.angularVelocity, conv, swap]
    rw [this, this]
  · intro b h ha
    obtain ⟨-, -, -, h4, h5, -⟩ := C54_attached b h e.node ha fc
    refine ⟨fun wb hs => ?_, ?_⟩
    · unfold EqFrame.perturbationVelocity
      rw [h5 wb hs]
    · unfold EqFrame.perturbationAngularVelocity
      rw [h4]
  · show e.frame.rot.rotate (conv fc (conv fc (e.frame.rot.conj.rotate (conv fc (e.perturbationVelocity fc))))) = _
    rw [conv_conv, Q.rotate_conj' hu]
  · show e.frame.rot.rotate (conv fc (conv fc (e.frame.rot.conj.rotate (conv fc (e.perturbationAngularVelocity fc))))) = _
    rw [conv_conv, Q.rotate_conj' hu]

example : (Frame.identity).rot.IsUnit := Q.isUnit_one

/-- **C82, velocity from the body.** With `InitializeVelocityFromBody(true)` the frame starts with the velocity of its point of the body: no
perturbation velocity; setting a velocity afterwards cancels the option. -/
theorem C82_from_body (e : EqFrame) (v : V3) (fc fc' : FC) :
    (e.initVelocityFromBody true).init.perturbationVelocity fc = 0 ∧
    ((e.initVelocityFromBody true).setVelocityInWorld v .NWU).init.velocityInWorld fc' = conv fc' v ∧
    e.init.prev = 0 := by
  refine ⟨?_, rfl, ?_⟩
  · show conv fc e.node.absVel - conv fc (conv .NWU e.node.absVel) = 0
    ext <;> simp [conv]
  · unfold EqFrame.init
    simp only []
    split_ifs <;> rfl

/-- **C82, velocities in NED (defect).** A velocity set in NED in the world is stored as if it were NWU: what is read in NED is not what was
set, unless the velocity is along the x axis. A velocity set in NED in the frame moves the frame along the mirror image. -/
theorem C82_ned_set_wrong (e : EqFrame) (v : V3) :
    (e.setVelocityInWorld v .NED).velocityInWorld .NED = ⟨v.x, -v.y, -v.z⟩ ∧
    ((e.setVelocityInWorld v .NED).velocityInWorld .NED = v ↔ v.y = 0 ∧ v.z = 0) ∧
    (e.setVelocityInFrame v .NED).velocityInWorld .NWU = swap (axesOf e.getFrame (swap v)) ∧
    (e.setVelocityInFrame v .NED).velocityInWorld .NED = axesOf e.getFrame (swap v) := by
  refine ⟨rfl, ?_, rfl, ?_⟩
  · show swap v = v ↔ _
    constructor
    · intro h
      have h1 := congrArg V3.y h
      have h2 := congrArg V3.z h
      simp [swap] at h1 h2
      constructor <;> linarith
    · rintro ⟨h1, h2⟩
      ext <;> simp [swap, h1, h2]
  · show swap (swap _) = _
    ext <;> simp [swap]
    all_goals rfl

/-- **C82, velocity read in the frame in NED (defect).** The stored NWU vector is projected as a NED vector. A frame heading west (port of
north) and moving ahead at 1 m/s reads as moving astern. -/
theorem C82_ned_get_wrong : ∃ e : EqFrame, LevelFrame e.getFrame ∧ axesOf e.getFrame ⟨1, 0, 0⟩ = ⟨0, 1, 0⟩ ∧
    e.velocityInWorld .NWU = ⟨0, 1, 0⟩ ∧ e.velocityInFrame .NWU = ⟨1, 0, 0⟩ ∧ e.velocityInFrame .NED = ⟨-1, 0, 0⟩ := by
  have hr : ∀ v : V3, (Q.ofAngAxis (Real.pi / 2) V3.e3).rotate v = ⟨-v.y, v.x, v.z⟩ := by
    intro v
    rw [yawQ_rotate]
    ext <;> simp [turned]
  have hc : ∀ v : V3, (Q.ofAngAxis (Real.pi / 2) V3.e3).conj.rotate v = ⟨v.y, -v.x, v.z⟩ := by
    intro v
    have := Q.rotate_conj (yawQ_unit (Real.pi / 2)) ⟨v.y, -v.x, v.z⟩
    rw [hr] at this
    simpa using this
  refine ⟨⟨⟨0, Q.ofAngAxis (Real.pi / 2) V3.e3⟩, ⟨Frame.identity, Frame.identity, 0, 0⟩, ⟨0, 1, 0⟩, 0, false, 0⟩, ⟨yawQ_unit _, ?_⟩, ?_, rfl, ?_, ?_⟩
  · show (Q.ofAngAxis (Real.pi / 2) V3.e3).rotate _ = _
    rw [hr]; simp [conv]
  · show (Q.ofAngAxis (Real.pi / 2) V3.e3).rotate _ = _
    rw [hr]; simp [conv]
  · show (Q.ofAngAxis (Real.pi / 2) V3.e3).conj.rotate _ = _
    rw [hc]; simp [conv]
  · show swap ((Q.ofAngAxis (Real.pi / 2) V3.e3).conj.rotate (swap _)) = _
    rw [hc]; simp [swap]

end Frydom.Hydro
