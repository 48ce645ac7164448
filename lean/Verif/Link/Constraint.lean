import Verif.Core.Node
import Verif.Link.Link

/-!
# Kinematic constraints between points, axes and planes (C130, C131, C132)

`src/frydom/core/link/constraint/FrCGeometrical.cpp`, `FrConstraint.cpp`.
-/

noncomputable section

namespace Frydom.Link
open Frydom.Geom Frydom.Core

/-- `AXISLABEL` (FrCGeometrical.h:20-24). -/
inductive AxisLabel
  | x | y | z
  deriving DecidableEq

/-- `FrCAxis` and `FrCPlane` (FrCGeometrical.h): a node and the label of one of its axes: the axis, or the normal of the plane. The defaults are `ZAXIS`
(FrCGeometrical.cpp:31-33, 64-66). -/
structure Geometrical where
  node : Node
  label : AxisLabel := .z

namespace Geometrical

/-- `FrCAxis::GetOriginInWorld`, `FrCPlane::GetOriginInWorld`, `FrCPoint::GetPositionInWorld` (FrCGeometrical.cpp:24-26, 39-41, 72-74). -/
def origin (g : Geometrical) (fc : FC) : V3 := g.node.positionInWorld fc

/-- `FrCAxis::GetDirectionInWorld`, `FrCPlane::GetNormaleInWorld` (FrCGeometrical.cpp:43-56, 76-89). -/
def direction (g : Geometrical) (fc : FC) : V3 :=
  match g.label with
  | .x => getXAxis g.node.frameInWorld.rot fc
  | .y => getYAxis g.node.frameInWorld.rot fc
  | .z => getZAxis g.node.frameInWorld.rot fc

/-- `FrCPlane::GetDistanceToPointInWorld` (FrCGeometrical.cpp:91-95). -/
def distanceToPoint (g : Geometrical) (p : V3) (fc : FC) : ℝ :=
  let vector := p - g.origin fc
  V3.dot vector (g.direction fc)

/-- `FrCPlane::GetIntersectionWithLineInWorld` (FrCGeometrical.cpp:97-115). The asserts are the hypotheses of the theorems; `Direction` does not normalise
(core/math/FrVector.h:209-220). -/
def intersectionWithLine (g : Geometrical) (p0 p1 : V3) (fc : FC) : V3 :=
  let normale := g.direction fc
  let line := p1 - p0
  let vector := g.origin fc - p0
  let s := V3.dot vector normale / V3.dot line normale
  p0 + s • (p1 - p0)

/-- `FrCPlane::GetClosestPointOnPlaneInWorld` (FrCGeometrical.cpp:117-119). -/
def closestPoint (g : Geometrical) (p : V3) (fc : FC) : V3 := g.intersectionWithLine p (p + g.direction fc) fc

/-- The frame of the axis handed to Chrono by `FrConstraintPointOnLine::Initialize` (FrConstraint.cpp:312-317); `RotZ_DEGREES(90)` and `RotY_DEGREES(90)` are the rotations
of `90 * DEG2RAD` radians. -/
def lineFrame (g : Geometrical) : Frame :=
  let f := g.node.frameInWorld
  let f := if g.label = .y then f.rotZ (90 * (Real.pi / 180)) .NWU true else f
  let f := if g.label = .z then f.rotY (90 * (Real.pi / 180)) .NWU true else f
  f

end Geometrical

/-! ## Specification -/

/-- The coordinate axis of a label. -/
def unitOf : AxisLabel → V3
  | .x => V3.e1
  | .y => V3.e2
  | .z => V3.e3

/-- The point `p` of the world (given in the convention `fc`), seen from the node, in the axes (NWU) of the node. -/
def seenFrom (n : Node) (p : V3) (fc : FC) : V3 := n.abs.rot.conj.rotate (conv fc p - n.abs.pos)

/-- Coordinate along an axis. -/
def along : AxisLabel → V3 → ℝ
  | .x, v => v.x
  | .y, v => v.y
  | .z, v => v.z

/-- The point lies in the plane through the node that is normal to the labelled axis of the node: its coordinate along that axis is zero. -/
def InPlane (g : Geometrical) (p : V3) (fc : FC) : Prop := along g.label (seenFrom g.node p fc) = 0

/-- The point lies on the labelled axis of the node: its two other coordinates are zero. -/
def OnAxis (g : Geometrical) (p : V3) (fc : FC) : Prop := seenFrom g.node p fc = along g.label (seenFrom g.node p fc) • unitOf g.label

/-- Squared distance of two points. -/
def dist2 (p q : V3) : ℝ := V3.dot (p - q) (p - q)

/-! ## C130 -/

theorem conv_dot (fc : FC) (a b : V3) : V3.dot (conv fc a) (conv fc b) = V3.dot a b := by cases fc <;> simp [conv, V3.dot]

theorem direction_eq (g : Geometrical) (h : g.node.abs.rot.IsUnit) (fc : FC) :
    g.direction fc = conv fc (g.node.abs.rot.rotate (conv fc (unitOf g.label))) := by
  obtain ⟨n, l⟩ := g
  obtain ⟨-, -, -, -, hx, hy, hz⟩ := C11_matrix n.abs.rot h 0 fc
  cases l
  · exact hx
  · exact hy
  · exact hz

theorem dot_rotate {q : Q} (h : q.IsUnit) (a b : V3) : V3.dot (q.rotate a) (q.rotate b) = V3.dot a b := (Q.isRot h).dot a b

theorem direction_dot (g : Geometrical) (h : g.node.abs.rot.IsUnit) (fc : FC) : V3.dot (g.direction fc) (g.direction fc) = 1 := by
  rw [direction_eq g h, conv_dot, dot_rotate h, conv_dot]
  cases g.label <;> simp [unitOf, V3.e1, V3.e2, V3.e3, V3.dot]

/-- The scalar product with the direction is the coordinate along the axis, in the convention. -/
theorem dot_direction (g : Geometrical) (h : g.node.abs.rot.IsUnit) (fc : FC) (p : V3) :
    V3.dot (p - g.origin fc) (g.direction fc) = along g.label (conv fc (seenFrom g.node p fc)) := by
  have e : p - g.origin fc = conv fc (g.node.abs.rot.rotate (seenFrom g.node p fc)) := by
    unfold seenFrom
    rw [Q.rotate_conj' h, conv_sub, conv_conv]; rfl
  rw [e, direction_eq g h, conv_dot, dot_rotate h]
  generalize seenFrom g.node p fc = v
  cases g.label <;> cases fc <;> simp [unitOf, V3.e1, V3.e2, V3.e3, V3.dot, conv, along]

theorem inPlane_iff (g : Geometrical) (h : g.node.abs.rot.IsUnit) (fc : FC) (p : V3) :
    InPlane g p fc ↔ V3.dot (p - g.origin fc) (g.direction fc) = 0 := by
  rw [dot_direction g h]
  unfold InPlane
  generalize seenFrom g.node p fc = v
  cases g.label <;> cases fc <;> simp [conv, along]

/-- **C130, distance.** The distance returned between a plane and a point is the coordinate of the point along the normal, seen from the node of the plane (in
either convention), and no point of the plane is closer: its square is the least squared distance from the point to the points of the plane. -/
theorem C130_distance (g : Geometrical) (h : g.node.abs.rot.IsUnit) (fc : FC) (p : V3) :
    g.distanceToPoint p fc = along g.label (conv fc (seenFrom g.node p fc)) ∧
    (∀ q, InPlane g q fc → g.distanceToPoint p fc ^ 2 ≤ dist2 p q) ∧ ∃ q, InPlane g q fc ∧ dist2 p q = g.distanceToPoint p fc ^ 2 := by
  have hn := direction_dot g h fc
  refine ⟨dot_direction g h fc p, fun q hq => ?_, p - g.distanceToPoint p fc • g.direction fc, ?_, ?_⟩
  · rw [inPlane_iff g h] at hq
    have e : g.distanceToPoint p fc = V3.dot (p - q) (g.direction fc) := by
      have : g.distanceToPoint p fc = V3.dot (p - g.origin fc) (g.direction fc) := rfl
      rw [this]
      simp only [V3.dot, V3.sub_x, V3.sub_y, V3.sub_z] at hq ⊢
      linear_combination hq
    rw [e]
    unfold dist2
    generalize g.direction fc = n at hn
    generalize p - q = v
    have := V3.dot v v
    simp only [V3.dot] at hn ⊢
    nlinarith [sq_nonneg (v.x * n.y - v.y * n.x), sq_nonneg (v.y * n.z - v.z * n.y), sq_nonneg (v.z * n.x - v.x * n.z)]
  · rw [inPlane_iff g h]
    have : g.distanceToPoint p fc = V3.dot (p - g.origin fc) (g.direction fc) := rfl
    generalize g.distanceToPoint p fc = d at this
    simp only [V3.dot, V3.sub_x, V3.sub_y, V3.sub_z, V3.smul_x, V3.smul_y, V3.smul_z] at this hn ⊢
    linear_combination -this - d * hn
  · generalize g.distanceToPoint p fc = d
    unfold dist2
    simp only [V3.dot, V3.sub_x, V3.sub_y, V3.sub_z, V3.smul_x, V3.smul_y, V3.smul_z] at hn ⊢
    linear_combination d ^ 2 * hn

/-- **C130, intersection.** The intersection of a plane with a line that is not parallel to it (two of its points are at different heights over the plane) is the one point that is both in the plane and on the line; it does not
depend on the two points by which the line is given. -/
theorem C130_intersection (g : Geometrical) (h : g.node.abs.rot.IsUnit) (fc : FC) (p0 p1 : V3)
    (hpar : along g.label (seenFrom g.node p0 fc) ≠ along g.label (seenFrom g.node p1 fc)) :
    InPlane g (g.intersectionWithLine p0 p1 fc) fc ∧ (∃ s : ℝ, g.intersectionWithLine p0 p1 fc = p0 + s • (p1 - p0)) ∧
    (∀ s : ℝ, InPlane g (p0 + s • (p1 - p0)) fc → p0 + s • (p1 - p0) = g.intersectionWithLine p0 p1 fc) ∧
    ∀ a b : ℝ, a ≠ b → g.intersectionWithLine (p0 + a • (p1 - p0)) (p0 + b • (p1 - p0)) fc = g.intersectionWithLine p0 p1 fc := by
  have key : ∀ s : ℝ, InPlane g (p0 + s • (p1 - p0)) fc ↔
      s * V3.dot (p1 - p0) (g.direction fc) = V3.dot (g.origin fc - p0) (g.direction fc) := by
    intro s
    rw [inPlane_iff g h]
    simp only [V3.dot, V3.sub_x, V3.sub_y, V3.sub_z, V3.smul_x, V3.smul_y, V3.smul_z, V3.add_x, V3.add_y, V3.add_z]
    constructor <;> intro e <;> linear_combination e
  have hne : V3.dot (p1 - p0) (g.direction fc) ≠ 0 := by
    intro h0
    apply hpar
    have e0 := dot_direction g h fc p0
    have e1 := dot_direction g h fc p1
    have e : V3.dot (p0 - g.origin fc) (g.direction fc) = V3.dot (p1 - g.origin fc) (g.direction fc) := by
      simp only [V3.dot, V3.sub_x, V3.sub_y, V3.sub_z] at h0 ⊢
      linear_combination -h0
    rw [e0, e1] at e
    revert e
    generalize seenFrom g.node p0 fc = v
    generalize seenFrom g.node p1 fc = w
    cases g.label <;> cases fc <;> simp [conv, along]
  have uniq : ∀ s : ℝ, InPlane g (p0 + s • (p1 - p0)) fc → p0 + s • (p1 - p0) = g.intersectionWithLine p0 p1 fc := by
    intro s hs
    rw [key] at hs
    have : s = V3.dot (g.origin fc - p0) (g.direction fc) / V3.dot (p1 - p0) (g.direction fc) := by rw [← hs]; field_simp
    rw [this]; rfl
  have hin : InPlane g (g.intersectionWithLine p0 p1 fc) fc := by
    refine (key _).mpr ?_
    field_simp
  refine ⟨hin, ⟨_, rfl⟩, uniq, fun a b hab => ?_⟩
  have hba : b - a ≠ 0 := sub_ne_zero.mpr (Ne.symm hab)
  have e1 : p0 + b • (p1 - p0) - (p0 + a • (p1 - p0)) = (b - a) • (p1 - p0) := by ext <;> simp <;> ring
  have e2 : V3.dot ((b - a) • (p1 - p0)) (g.direction fc) = (b - a) * V3.dot (p1 - p0) (g.direction fc) := by
    simp only [V3.dot, V3.smul_x, V3.smul_y, V3.smul_z]; ring
  have e3 : V3.dot (g.origin fc - (p0 + a • (p1 - p0))) (g.direction fc) =
      V3.dot (g.origin fc - p0) (g.direction fc) - a * V3.dot (p1 - p0) (g.direction fc) := by
    simp only [V3.dot, V3.smul_x, V3.smul_y, V3.smul_z, V3.sub_x, V3.sub_y, V3.sub_z, V3.add_x, V3.add_y, V3.add_z]; ring
  have : g.intersectionWithLine (p0 + a • (p1 - p0)) (p0 + b • (p1 - p0)) fc =
      p0 + a • (p1 - p0) + ((V3.dot (g.origin fc - p0) (g.direction fc) - a * V3.dot (p1 - p0) (g.direction fc)) /
        ((b - a) * V3.dot (p1 - p0) (g.direction fc))) • ((b - a) • (p1 - p0)) := by
    rw [← e3, ← e2, ← e1]; rfl
  rw [this]
  refine Eq.trans ?_ (uniq (V3.dot (g.origin fc - p0) (g.direction fc) / V3.dot (p1 - p0) (g.direction fc)) ((key _).mpr (by field_simp)))
  generalize V3.dot (p1 - p0) (g.direction fc) = L at hne
  generalize V3.dot (g.origin fc - p0) (g.direction fc) = N
  have hs : a + (N - a * L) / ((b - a) * L) * (b - a) = N / L := by field_simp; ring
  rw [← hs]
  ext <;> simp only [V3.smul_x, V3.smul_y, V3.smul_z, V3.add_x, V3.add_y, V3.add_z] <;> ring

/-- **C130, closest point.** The closest point returned is in the plane, every other point of the plane is strictly farther, and the point is reached from the closest point by going along
the normal over the distance returned. -/
theorem C130_closest (g : Geometrical) (h : g.node.abs.rot.IsUnit) (fc : FC) (p : V3) :
    InPlane g (g.closestPoint p fc) fc ∧ (∀ q, InPlane g q fc → q ≠ g.closestPoint p fc → dist2 p (g.closestPoint p fc) < dist2 p q) ∧
    p = g.closestPoint p fc + g.distanceToPoint p fc • g.direction fc := by
  have hn := direction_dot g h fc
  have e1 : p + g.direction fc - p = g.direction fc := by ext <;> simp
  have e : g.closestPoint p fc = p - g.distanceToPoint p fc • g.direction fc := by
    have : g.closestPoint p fc = p + (V3.dot (g.origin fc - p) (g.direction fc) / V3.dot (p + g.direction fc - p) (g.direction fc)) • (p + g.direction fc - p) := rfl
    rw [this, e1, hn, div_one]
    have e2 : V3.dot (g.origin fc - p) (g.direction fc) = -(g.distanceToPoint p fc) := by
      show _ = -(V3.dot (p - g.origin fc) (g.direction fc))
      simp only [V3.dot, V3.sub_x, V3.sub_y, V3.sub_z]; ring
    rw [e2]
    ext <;> simp <;> ring
  have hin : InPlane g (g.closestPoint p fc) fc := by
    rw [inPlane_iff g h, e]
    have : g.distanceToPoint p fc = V3.dot (p - g.origin fc) (g.direction fc) := rfl
    generalize g.distanceToPoint p fc = d at this
    simp only [V3.dot, V3.sub_x, V3.sub_y, V3.sub_z, V3.smul_x, V3.smul_y, V3.smul_z] at this hn ⊢
    linear_combination -this - d * hn
  refine ⟨hin, fun q hq hne => ?_, by rw [e]; ext <;> simp⟩
  set c := g.closestPoint p fc with hc
  have hpc : p - c = g.distanceToPoint p fc • g.direction fc := by rw [e]; ext <;> simp
  rw [inPlane_iff g h] at hin hq
  have horth : V3.dot (p - c) (c - q) = 0 := by
    rw [hpc]
    simp only [V3.dot, V3.sub_x, V3.sub_y, V3.sub_z, V3.smul_x, V3.smul_y, V3.smul_z] at hin hq ⊢
    linear_combination (g.distanceToPoint p fc) * (hin - hq)
  have hpyth : dist2 p q = dist2 p c + dist2 c q := by
    unfold dist2
    simp only [V3.dot, V3.sub_x, V3.sub_y, V3.sub_z] at horth ⊢
    linear_combination 2 * horth
  have hpos : 0 < dist2 c q := by
    unfold dist2
    simp only [V3.dot, V3.sub_x, V3.sub_y, V3.sub_z]
    by_contra hcon
    have hx : c.x - q.x = 0 := by nlinarith [mul_self_nonneg (c.x - q.x), mul_self_nonneg (c.y - q.y), mul_self_nonneg (c.z - q.z)]
    have hy : c.y - q.y = 0 := by nlinarith [mul_self_nonneg (c.x - q.x), mul_self_nonneg (c.y - q.y), mul_self_nonneg (c.z - q.z)]
    have hz : c.z - q.z = 0 := by nlinarith [mul_self_nonneg (c.x - q.x), mul_self_nonneg (c.y - q.y), mul_self_nonneg (c.z - q.z)]
    exact hne (V3.ext (by linarith) (by linarith) (by linarith))
  linarith

/-! ## C132: the frame given to Chrono for a point on a line -/

theorem pi_half : 90 * (Real.pi / 180) = Real.pi / 2 := by ring

theorem lineFrame_rotate (g : Geometrical) (h : g.node.abs.rot.IsUnit) :
    g.lineFrame.pos = g.node.abs.pos ∧ g.lineFrame.rot.IsUnit ∧
    (g.lineFrame.rot.rotate V3.e1 = g.node.abs.rot.rotate (unitOf g.label) ∨ g.lineFrame.rot.rotate V3.e1 = -(g.node.abs.rot.rotate (unitOf g.label))) := by
  obtain ⟨n, l⟩ := g
  have u1 : ∀ a : V3, V3.dot a a = 1 → (Q.ofAngAxis (Real.pi / 2) a).IsUnit := fun a ha => ofAngAxis_unit ha _
  have hd : ∀ v : V3, V3.dot v v = 1 → V3.dot (n.abs.rot.rotate v) (n.abs.rot.rotate v) = 1 := fun v hv => by rw [dot_rotate h, hv]
  cases l
  · exact ⟨rfl, h, Or.inl rfl⟩
  · have e : (Geometrical.mk n .y).lineFrame = n.abs.rotZ (Real.pi / 2) .NWU true := by
      simp [Geometrical.lineFrame, pi_half, Node.frameInWorld]
    have e' : (n.abs.rotZ (Real.pi / 2) .NWU true) = ⟨n.abs.pos, (Q.ofAngAxis (Real.pi / 2) (n.abs.rot.rotate V3.e3)).mul n.abs.rot⟩ := by
      simp [Frame.rotZ, zAxis_eq]
    rw [e, e']
    have hz := u1 _ (hd V3.e3 (by simp [V3.e3, V3.dot]))
    refine ⟨rfl, hz.mul h, Or.inl ?_⟩
    show Q.rotate _ V3.e1 = n.abs.rot.rotate V3.e2
    rw [Q.rotate_mul hz h, ofAngAxis_rotate, Real.cos_pi_div_two, Real.sin_pi_div_two, dot_rotate h, ← rotate_cross h]
    have c1 : V3.cross V3.e3 V3.e1 = V3.e2 := by ext <;> simp [V3.e1, V3.e2, V3.e3]
    rw [c1]
    ext <;> simp [V3.dot, V3.e1, V3.e3]
  · have e : (Geometrical.mk n .z).lineFrame = n.abs.rotY (Real.pi / 2) .NWU true := by
      simp [Geometrical.lineFrame, pi_half, Node.frameInWorld]
    have e' : (n.abs.rotY (Real.pi / 2) .NWU true) = ⟨n.abs.pos, (Q.ofAngAxis (Real.pi / 2) (n.abs.rot.rotate V3.e2)).mul n.abs.rot⟩ := by
      simp [Frame.rotY, yAxis_eq]
    rw [e, e']
    have hz := u1 _ (hd V3.e2 (by simp [V3.e2, V3.dot]))
    refine ⟨rfl, hz.mul h, Or.inr ?_⟩
    show Q.rotate _ V3.e1 = -(n.abs.rot.rotate V3.e3)
    rw [Q.rotate_mul hz h, ofAngAxis_rotate, Real.cos_pi_div_two, Real.sin_pi_div_two, dot_rotate h, ← rotate_cross h]
    have c1 : V3.cross V3.e2 V3.e1 = -V3.e3 := by ext <;> simp [V3.e1, V3.e2, V3.e3]
    rw [c1, Q.rotate_neg]
    ext <;> simp [V3.dot, V3.e1, V3.e2]

/-- The Chrono constraint `ChLinkLockPointLine` (external): the point lies on the x axis of the frame given for the line. -/
def chronoPointLine (line : Frame) (point : V3) : Prop :=
  (line.rot.conj.rotate (point - line.pos)).y = 0 ∧ (line.rot.conj.rotate (point - line.pos)).z = 0

/-- **C132.** For each of the three axes, the frame handed to the solver by a point-on-line constraint makes the solver keep the point on the axis that was asked for:
the constraint of the solver is satisfied exactly by the points of that axis. -/
theorem C132_point_on_line (g : Geometrical) (h : g.node.abs.rot.IsUnit) (p : Node) :
    chronoPointLine g.lineFrame p.frameInWorld.pos ↔ OnAxis g (p.positionInWorld .NWU) .NWU := by
  obtain ⟨hpos, hu, hdir⟩ := lineFrame_rotate g h
  have hp : p.positionInWorld .NWU = p.frameInWorld.pos := rfl
  rw [hp]
  generalize p.frameInWorld.pos = P
  have hline : chronoPointLine g.lineFrame P ↔ ∃ s : ℝ, P - g.node.abs.pos = s • g.lineFrame.rot.rotate V3.e1 := by
    unfold chronoPointLine
    rw [hpos]
    constructor
    · rintro ⟨hy, hz⟩
      refine ⟨(g.lineFrame.rot.conj.rotate (P - g.node.abs.pos)).x, ?_⟩
      rw [← Q.rotate_smul, ← Q.rotate_conj' hu (P - g.node.abs.pos)]
      congr 1
      rw [Q.rotate_conj' hu]
      ext <;> simp [V3.e1, hy, hz]
    · rintro ⟨s, hs⟩
      rw [hs, Q.rotate_smul, Q.rotate_conj hu]
      simp [V3.e1]
  have haxis : OnAxis g P .NWU ↔ ∃ s : ℝ, P - g.node.abs.pos = s • g.node.abs.rot.rotate (unitOf g.label) := by
    unfold OnAxis seenFrom
    have : conv .NWU P = P := rfl
    rw [this]
    constructor
    · intro hs
      refine ⟨along g.label (g.node.abs.rot.conj.rotate (P - g.node.abs.pos)), ?_⟩
      rw [← Q.rotate_smul, ← hs, Q.rotate_conj' h]
    · rintro ⟨s, hs⟩
      rw [hs, Q.rotate_smul, Q.rotate_conj h]
      congr 1
      cases g.label <;> simp [along, unitOf, V3.e1, V3.e2, V3.e3]
  rw [hline, haxis]
  rcases hdir with e | e
  · rw [e]
  · rw [e]
    constructor
    · rintro ⟨s, hs⟩; exact ⟨-s, by rw [hs]; ext <;> simp⟩
    · rintro ⟨s, hs⟩; exact ⟨-s, by rw [hs]; ext <;> simp⟩

/-! ## C131: reactions of the constraints -/

/-- The constraints of `FrConstraint.cpp`. -/
inductive ConstraintKind
  | parallel | perpendicular | planeOnPlane | pointOnPlane | pointOnLine | distanceToAxis | distanceBetweenPoints
  deriving DecidableEq

/-- The constraint as Chrono gives it: `GetLinkRelativeCoords` is the reference frame of the link relative to the second body given to its `Initialize`, `Get_react_force` and
`Get_react_torque` are in the axes of that frame, at its origin (external). -/
structure Constraint where
  kind : ConstraintKind
  rel : Frame
  reactForce : V3
  reactTorque : V3

namespace Constraint

/-- The COG frame in the world of the second body given to the Chrono `Initialize`: `(GetChronoBody2(), GetChronoBody1(), …)` for the first five constraints
(FrConstraint.cpp:149, 187, 226, 272, 320), `(GetChronoBody1(), GetChronoBody2(), …)` for the two distances (FrConstraint.cpp:360, 419). -/
def master (c : Constraint) (b1 b2 : Frame) : Frame :=
  match c.kind with
  | .distanceToAxis => b2
  | .distanceBetweenPoints => b2
  | _ => b1

/-- `GetConstraintReferenceFrameInWorld` (FrConstraint.cpp:25-28): Chrono's `GetLinkAbsoluteCoords` is `GetLinkRelativeCoords` carried by its second body. -/
def frameInWorld (c : Constraint) (b1 b2 : Frame) : Frame := (c.master b1 b2).mul c.rel
/-- `GetConstraintReferenceFrameInBody1` (FrConstraint.cpp:30-33). -/
def frameInBody1 (c : Constraint) : Frame := c.rel
/-- `GetForceInConstraint` (FrConstraint.cpp:35-39). -/
def forceInConstraint (c : Constraint) (fc : FC) : V3 := conv fc c.reactForce
/-- `GetTorqueInConstraint` (FrConstraint.cpp:41-45). -/
def torqueInConstraint (c : Constraint) (fc : FC) : V3 := conv fc c.reactTorque
/-- `GetForceInBody1` (FrConstraint.cpp:47-49). -/
def forceInBody1 (c : Constraint) (fc : FC) : V3 := c.frameInBody1.projFrameInParent (c.forceInConstraint fc) fc
/-- `GetTorqueInBody1AtCOG` (FrConstraint.cpp:51-56). -/
def torqueInBody1AtCOG (c : Constraint) (fc : FC) : V3 :=
  let force := c.forceInBody1 fc
  let torque := c.frameInBody1.projFrameInParent (c.torqueInConstraint fc) fc
  let pos := c.frameInBody1.getPosition fc
  torque + V3.cross pos force
/-- `GetForceInWorld` (FrConstraint.cpp:58-61). -/
def forceInWorld (c : Constraint) (b1 b2 : Frame) (fc : FC) : V3 := (c.frameInWorld b1 b2).projFrameInParent (c.forceInConstraint fc) fc
/-- `GetTorqueInWorldAtConstraint` (FrConstraint.cpp:63-66). -/
def torqueInWorldAtConstraint (c : Constraint) (b1 b2 : Frame) (fc : FC) : V3 := (c.frameInWorld b1 b2).projFrameInParent (c.torqueInConstraint fc) fc

/-- The reaction as returned in the world. -/
def worldWrench (c : Constraint) (b1 b2 : Frame) (fc : FC) : Wrench :=
  ⟨c.forceInWorld b1 b2 fc, (c.frameInWorld b1 b2).getPosition fc, c.torqueInWorldAtConstraint b1 b2 fc⟩

end Constraint

/-- The two wrenches are the same: same force, same moment about every point. -/
def Wrench.Same (v w : Wrench) : Prop := v.force = w.force ∧ ∀ a, v.momentAbout a = w.momentAbout a

theorem master_wrench (c : Constraint) (b1 b2 : Frame) (h : (c.master b1 b2).Valid) (k : c.rel.Valid) (fc : FC) :
    (Wrench.ofBody (c.master b1 b2) (c.forceInBody1 fc) (c.torqueInBody1AtCOG fc) fc).Same (c.worldWrench b1 b2 fc) := by
  set B := c.master b1 b2 with hB
  have e1 : Wrench.ofBody B (c.forceInBody1 fc) (c.torqueInBody1AtCOG fc) fc =
      ⟨conv fc ((B.mul c.rel).rot.rotate c.reactForce), conv fc B.pos,
       conv fc ((B.mul c.rel).rot.rotate c.reactTorque + V3.cross (B.rot.rotate c.rel.pos) ((B.mul c.rel).rot.rotate c.reactForce))⟩ := by
    unfold Frame.Valid at h k
    simp only [Wrench.ofBody, Constraint.forceInBody1, Constraint.torqueInBody1AtCOG, Constraint.forceInConstraint, Constraint.torqueInConstraint,
      Constraint.frameInBody1, Frame.projFrameInParent, Frame.getPosition, Frame.mul, rotateFC, Wrench.mk.injEq, true_and]
    rw [← conv_cross, ← conv_add]
    simp only [rotateFC, Q.rotate_add, rotate_cross h, Q.rotate_mul h k, and_self]
  have e2 : c.worldWrench b1 b2 fc = ⟨conv fc ((B.mul c.rel).rot.rotate c.reactForce), conv fc (B.pos + B.rot.rotate c.rel.pos), conv fc ((B.mul c.rel).rot.rotate c.reactTorque)⟩ := by
    simp only [Constraint.worldWrench, Constraint.forceInWorld, Constraint.torqueInWorldAtConstraint, Constraint.frameInWorld, Constraint.forceInConstraint,
      Constraint.torqueInConstraint, Frame.projFrameInParent, Frame.getPosition, rotateFC, ← hB]
    rfl
  rw [e1, e2]
  refine ⟨rfl, fun a => ?_⟩
  obtain ⟨a', ha⟩ : ∃ a', a = conv fc a' := ⟨conv fc a, (conv_conv fc a).symm⟩
  rw [ha]
  unfold Wrench.momentAbout
  simp only
  rw [← conv_sub, ← conv_sub, ← conv_cross, ← conv_cross, ← conv_add, ← conv_add]
  congr 1
  ext <;> simp <;> ring

/-- **C131, body 1.** For the parallel, perpendicular, plane-on-plane, point-on-plane and point-on-line constraints, the reaction returned for body 1 (force in the body and torque at its centre
of gravity) is the reaction returned in the world at the constraint: same force, same moment about every point, whatever the positions of the bodies and in both conventions. -/
theorem C131_body1 (c : Constraint) (hk : c.kind ≠ .distanceToAxis ∧ c.kind ≠ .distanceBetweenPoints) (b1 b2 : Frame) (h1 : b1.Valid) (k : c.rel.Valid) (fc : FC) :
    (Wrench.ofBody b1 (c.forceInBody1 fc) (c.torqueInBody1AtCOG fc) fc).Same (c.worldWrench b1 b2 fc) := by
  have e : c.master b1 b2 = b1 := by
    unfold Constraint.master
    obtain ⟨h, h'⟩ := hk
    revert h h'
    cases c.kind <;> simp
  have := master_wrench c b1 b2 (by rw [e]; exact h1) k fc
  rwa [e] at this

/-- **C131, the two distances.** For the distance to an axis and the distance between points the bodies are given to the solver in the other order: the quantities named "in body 1" are those of
body 2, in its axes and about its centre of gravity. -/
theorem C131_distance (c : Constraint) (hk : c.kind = .distanceToAxis ∨ c.kind = .distanceBetweenPoints) (b1 b2 : Frame) (h2 : b2.Valid) (k : c.rel.Valid) (fc : FC) :
    (Wrench.ofBody b2 (c.forceInBody1 fc) (c.torqueInBody1AtCOG fc) fc).Same (c.worldWrench b1 b2 fc) := by
  have e : c.master b1 b2 = b2 := by
    unfold Constraint.master
    rcases hk with h | h <;> rw [h]
  have := master_wrench c b1 b2 (by rw [e]; exact h2) k fc
  rwa [e] at this

/-- **C131, the failure.** Two bodies held at a distance, the second one turned a quarter turn about the vertical: the force returned "in body 1" is not the reaction in the axes of body 1, and
even with parallel bodies the torque is about the wrong centre of gravity. -/
theorem C131_distance_counterexample :
    (∃ (c : Constraint) (b1 b2 : Frame), c.kind = .distanceBetweenPoints ∧ b1.Valid ∧ b2.Valid ∧ c.rel.Valid ∧
      b1.projFrameInParent (c.forceInBody1 .NWU) .NWU ≠ c.forceInWorld b1 b2 .NWU) ∧
    ∃ (c : Constraint) (b1 b2 : Frame), c.kind = .distanceToAxis ∧ b1.rot = b2.rot ∧ b1.Valid ∧ b2.Valid ∧ c.rel.Valid ∧
      (Wrench.ofBody b1 (c.forceInBody1 .NWU) (c.torqueInBody1AtCOG .NWU) .NWU).momentAbout 0 ≠ (c.worldWrench b1 b2 .NWU).momentAbout 0 := by
  constructor
  · refine ⟨⟨.distanceBetweenPoints, Frame.identity, V3.e1, 0⟩, Frame.identity, ⟨0, ⟨0, 0, 0, 1⟩⟩, rfl, ?_, ?_, ?_, ?_⟩
    · exact Q.isUnit_one
    · norm_num [Frame.Valid, Q.IsUnit, Q.normSq]
    · exact Q.isUnit_one
    · intro h
      have := congrArg V3.x h
      revert this
      norm_num [Constraint.forceInBody1, Constraint.forceInWorld, Constraint.frameInBody1, Constraint.frameInWorld, Constraint.master, Constraint.forceInConstraint,
        Frame.projFrameInParent, Frame.identity, rotate, conv, Q.rotate, Q.toMat, M3.mulVec, Q.one, Q.mul, Frame.mul, V3.e1]
  · refine ⟨⟨.distanceToAxis, Frame.identity, V3.e1, 0⟩, ⟨V3.e2, Q.one⟩, Frame.identity, rfl, rfl, ?_, ?_, ?_, ?_⟩
    · exact Q.isUnit_one
    · exact Q.isUnit_one
    · exact Q.isUnit_one
    · intro h
      have := congrArg V3.z h
      revert this
      norm_num [Constraint.forceInBody1, Constraint.torqueInBody1AtCOG, Constraint.worldWrench, Constraint.forceInWorld, Constraint.torqueInWorldAtConstraint, Constraint.torqueInConstraint,
        Wrench.ofBody, Wrench.momentAbout, Constraint.frameInBody1, Constraint.frameInWorld, Constraint.master, Constraint.forceInConstraint,
        Frame.projFrameInParent, Frame.identity, Frame.getPosition, rotate, conv, Q.rotate, Q.toMat, M3.mulVec, Q.one, Q.mul, Frame.mul, V3.e1, V3.e2]

/-! ## Concrete cases -/

/-- A plane normal to the axis y of a node turned half a turn about x, two metres from the origin. -/
def wall : Geometrical := ⟨⟨Frame.identity, ⟨⟨0, 2, 0⟩, ⟨0, 1, 0, 0⟩⟩, 0, 0⟩, .y⟩

example : wall.node.abs.rot.IsUnit := by norm_num [wall, Q.IsUnit, Q.normSq]

/-- The point 5 m along y is at distance −3 (the axis y of the node points to −y), and 3 in NED (where the axis y of the node is reversed). -/
example : wall.distanceToPoint ⟨7, 5, 1⟩ .NWU = -3 ∧ wall.distanceToPoint ⟨7, -5, 1⟩ .NED = 3 := by
  have h : wall.node.abs.rot.IsUnit := by norm_num [wall, Q.IsUnit, Q.normSq]
  constructor
  · rw [(C130_distance wall h .NWU _).1]
    norm_num [wall, along, seenFrom, conv, Q.rotate, Q.toMat, M3.mulVec, Q.conj]
  · rw [(C130_distance wall h .NED _).1]
    norm_num [wall, along, seenFrom, conv, Q.rotate, Q.toMat, M3.mulVec, Q.conj]

example : along wall.label (seenFrom wall.node ⟨0, 0, 0⟩ .NWU) ≠ along wall.label (seenFrom wall.node ⟨1, 1, 1⟩ .NWU) := by
  norm_num [wall, along, seenFrom, conv, Q.rotate, Q.toMat, M3.mulVec, Q.conj]

/-- A point on the axis y of the node, and a point beside it. -/
example : OnAxis wall ⟨0, 9, 0⟩ .NWU ∧ ¬ OnAxis wall ⟨1, 9, 0⟩ .NWU := by
  constructor
  · ext <;> norm_num [wall, OnAxis, along, unitOf, seenFrom, conv, Q.rotate, Q.toMat, M3.mulVec, Q.conj, V3.e2]
  · intro h
    have := congrArg V3.x h
    norm_num [wall, OnAxis, along, unitOf, seenFrom, conv, Q.rotate, Q.toMat, M3.mulVec, Q.conj, V3.e2] at this

end Frydom.Link
