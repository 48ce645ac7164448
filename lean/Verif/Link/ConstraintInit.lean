import Verif.Link.Constraint

/-!
# What the constraints between points, axes and planes impose (C182)

`src/frydom/core/link/constraint/FrConstraint.cpp`: constructors, `SetDistance`, `Initialize`. The Chrono links are external: what they
keep of what they are given and the relation they impose (`Satisfied`) are written below from their documentation.
-/

noncomputable section

namespace Frydom.Link
open Frydom.Geom Frydom.Core

/-- The two bodies of a constraint: those of its first and second node (FrLinkBase.cpp:53-59). -/
inductive Which
  | one | two
  deriving DecidableEq

def Which.of : Which → Body → Body → Body
  | .one, b1, _ => b1
  | .two, _, b2 => b2

/-- A point and a direction that Chrono attaches to a body (external). -/
structure Side where
  body : Which
  pt : V3
  dir : V3

namespace Side

/-- `Initialize` with `pos_are_relative = false` (external): position and direction in the world are kept relative to the body. -/
def attach (w : Which) (b1 b2 : Body) (p d : V3) : Side :=
  ⟨w, (w.of b1 b2).cog.rot.conj.rotate (p - (w.of b1 b2).cog.pos), (w.of b1 b2).cog.rot.conj.rotate d⟩

/-- Where the point is when the bodies are somewhere (external). -/
def point (s : Side) (b1 b2 : Body) : V3 := (s.body.of b1 b2).cog.pos + (s.body.of b1 b2).cog.rot.rotate s.pt
/-- Where the direction points (external). -/
def direction (s : Side) (b1 b2 : Body) : V3 := (s.body.of b1 b2).cog.rot.rotate s.dir

end Side

/-- A constraint: its kind, `m_distance` and `m_autoDistance` (of the two distances, FrConstraint.h:409-413, 479-482), and the Chrono link: `flipped`, imposed
separation or distance, and the two sides once initialised. -/
structure GConstraint where
  kind : ConstraintKind
  distance : ℝ
  auto : Bool
  flipped : Bool
  imposed : ℝ
  sides : Option (Side × Side)

namespace GConstraint

/-- `SetDistance` (FrConstraint.cpp:234-236, 275-277: in the Chrono link; 365-367, 406-408: in the constraint). The others have none. -/
def setDistance (c : GConstraint) (d : ℝ) : GConstraint :=
  match c.kind with
  | .planeOnPlane => { c with imposed := d }
  | .pointOnPlane => { c with imposed := d }
  | .distanceToAxis => { c with distance := d }
  | .distanceBetweenPoints => { c with distance := d }
  | _ => c

/-- `SetFlipped` (FrConstraint.cpp:230-232). -/
def setFlipped (c : GConstraint) (f : Bool) : GConstraint := { c with flipped := f }

/-- The constructors (FrConstraint.cpp:132-140, 170-178, 205-217, 254-264, 340-352, 390-403). -/
def new (k : ConstraintKind) (auto flipped : Bool) (d : ℝ) : GConstraint :=
  ((⟨k, 0, auto, false, 0, none⟩ : GConstraint).setFlipped flipped).setDistance d

/-- `GetDistance` of the two distances (FrConstraint.cpp:369-371, 410-412). -/
def getDistance (c : GConstraint) : ℝ := c.distance

/-- `Initialize` (FrConstraint.cpp:142-153, 180-189, 219-228, 266-273, 354-363, 414-421). The bodies are given to Chrono in the order second, first by the first four, first, second by
the two distances; the points and directions in the same order. A `ChLinkMateXdistance` takes the direction of its second body only, a
`ChLinkRevoluteSpherical` that of its first only, a `ChLinkDistance` none (zero here). With `auto` the two
distances impose the distance between the two points given (external). The point on line is in C132: nothing here. -/
def init (c : GConstraint) (g1 g2 : Geometrical) (b1 b2 : Body) : GConstraint :=
  match c.kind with
  | .parallel => { c with sides := some (.attach .two b1 b2 (g2.origin .NWU) (g2.direction .NWU), .attach .one b1 b2 (g1.origin .NWU) (g1.direction .NWU)) }
  | .perpendicular => { c with sides := some (.attach .two b1 b2 (g2.origin .NWU) (g2.direction .NWU), .attach .one b1 b2 (g1.origin .NWU) (g1.direction .NWU)) }
  | .planeOnPlane => { c with sides := some (.attach .two b1 b2 (g2.origin .NWU) (g2.direction .NWU), .attach .one b1 b2 (g1.origin .NWU) (g1.direction .NWU)) }
  | .pointOnPlane => { c with sides := some (.attach .two b1 b2 (g2.origin .NWU) 0, .attach .one b1 b2 (g1.origin .NWU) (g1.direction .NWU)) }
  | .pointOnLine => c
  | .distanceToAxis =>
    { c with
      sides := some (.attach .one b1 b2 (g1.origin .NWU) (g1.direction .NWU), .attach .two b1 b2 (g2.origin .NWU) 0)
      imposed := if c.auto then V3.norm (g2.origin .NWU - g1.origin .NWU) else c.getDistance }
  | .distanceBetweenPoints =>
    { c with
      sides := some (.attach .one b1 b2 (g1.origin .NWU) 0, .attach .two b1 b2 (g2.origin .NWU) 0)
      imposed := if c.auto then V3.norm (g2.origin .NWU - g1.origin .NWU) else c.getDistance }

/-- What the Chrono links impose when the bodies are somewhere (external): parallel directions; orthogonal directions; directions equal or
opposite (`sense` of `flipped`, left to Chrono), and the point of the first body at the separation from the plane of the second; the point of the first at the distance from the plane of the second; a rod of the
given length from the first point to the second, normal to the direction of the first; the length between the two points. -/
def Satisfied (sense : Bool → ℝ) (c : GConstraint) (b1 b2 : Body) : Prop :=
  ∃ a b, c.sides = some (a, b) ∧
    match c.kind with
    | .parallel => V3.cross (a.direction b1 b2) (b.direction b1 b2) = 0
    | .perpendicular => V3.dot (a.direction b1 b2) (b.direction b1 b2) = 0
    | .planeOnPlane => a.direction b1 b2 = sense c.flipped • b.direction b1 b2 ∧
        V3.dot (a.point b1 b2 - b.point b1 b2) (b.direction b1 b2) = c.imposed
    | .pointOnPlane => V3.dot (a.point b1 b2 - b.point b1 b2) (b.direction b1 b2) = c.imposed
    | .pointOnLine => True
    | .distanceToAxis => V3.norm (b.point b1 b2 - a.point b1 b2) = c.imposed ∧ V3.dot (b.point b1 b2 - a.point b1 b2) (a.direction b1 b2) = 0
    | .distanceBetweenPoints => V3.norm (b.point b1 b2 - a.point b1 b2) = c.imposed

end GConstraint

/-! ## Specification: axes and points carried by the bodies -/

/-- The labelled axis, in the world. -/
def axisNow (g : Geometrical) : V3 := g.node.abs.rot.rotate (unitOf g.label)
/-- The node, in the world. -/
def pointNow (g : Geometrical) : V3 := g.node.abs.pos

/-- The same axis, plane or point with the body elsewhere: the node keeps its place in its body (C54). -/
def Geometrical.onBody (g : Geometrical) (b : Body) : Geometrical := { g with node := g.node.refresh b }

/-- Squared distance of a point to an axis: what is left of the vector from the node when its part along the axis is removed. -/
def distToAxis2 (g : Geometrical) (p : V3) : ℝ :=
  V3.dot (p - pointNow g - V3.dot (p - pointNow g) (axisNow g) • axisNow g) (p - pointNow g - V3.dot (p - pointNow g) (axisNow g) • axisNow g)

/-! ## Lemmas -/

theorem onBody_unit {g : Geometrical} {b : Body} (hb : b.cog.rot.IsUnit) (hg : g.node.rel.rot.IsUnit) : (g.onBody b).node.abs.rot.IsUnit := hb.mul hg

theorem direction_now (g : Geometrical) (h : g.node.abs.rot.IsUnit) : g.direction .NWU = axisNow g := direction_eq g h .NWU

/-- What Chrono attached to a body is later the node itself. -/
theorem attached_point {b1 b2 : Body} (w : Which) (hb : (w.of b1 b2).cog.rot.IsUnit) (g : Geometrical) (d : V3) (c1 c2 : Body) :
    (Side.attach w b1 b2 ((g.onBody (w.of b1 b2)).origin .NWU) d).point c1 c2 = pointNow (g.onBody (w.of c1 c2)) := by
  show (w.of c1 c2).cog.pos + (w.of c1 c2).cog.rot.rotate ((w.of b1 b2).cog.rot.conj.rotate
    ((w.of b1 b2).cog.pos + (w.of b1 b2).cog.rot.rotate g.node.rel.pos - (w.of b1 b2).cog.pos)) =
      (w.of c1 c2).cog.pos + (w.of c1 c2).cog.rot.rotate g.node.rel.pos
  have e : (w.of b1 b2).cog.pos + (w.of b1 b2).cog.rot.rotate g.node.rel.pos - (w.of b1 b2).cog.pos = (w.of b1 b2).cog.rot.rotate g.node.rel.pos := by
    ext <;> simp
  rw [e, Q.rotate_conj hb]

theorem attached_direction {b1 b2 : Body} (w : Which) (hb : (w.of b1 b2).cog.rot.IsUnit) (g : Geometrical) (hg : g.node.rel.rot.IsUnit) (p : V3) (c1 c2 : Body)
    (hc : (w.of c1 c2).cog.rot.IsUnit) :
    (Side.attach w b1 b2 p ((g.onBody (w.of b1 b2)).direction .NWU)).direction c1 c2 = axisNow (g.onBody (w.of c1 c2)) := by
  rw [direction_now _ (onBody_unit hb hg)]
  show (w.of c1 c2).cog.rot.rotate ((w.of b1 b2).cog.rot.conj.rotate (((w.of b1 b2).cog.rot.mul g.node.rel.rot).rotate (unitOf g.label))) =
    ((w.of c1 c2).cog.rot.mul g.node.rel.rot).rotate (unitOf g.label)
  rw [Q.rotate_mul hb hg, Q.rotate_mul hc hg, Q.rotate_conj hb]

theorem point_one {b1 b2 : Body} (hb : b1.cog.rot.IsUnit) (g : Geometrical) (d : V3) (c1 c2 : Body) :
    (Side.attach .one b1 b2 ((g.onBody b1).origin .NWU) d).point c1 c2 = pointNow (g.onBody c1) := attached_point (b2 := b2) .one hb g d c1 c2

theorem point_two {b1 b2 : Body} (hb : b2.cog.rot.IsUnit) (g : Geometrical) (d : V3) (c1 c2 : Body) :
    (Side.attach .two b1 b2 ((g.onBody b2).origin .NWU) d).point c1 c2 = pointNow (g.onBody c2) := attached_point (b1 := b1) .two hb g d c1 c2

theorem direction_one {b1 b2 : Body} (hb : b1.cog.rot.IsUnit) (g : Geometrical) (hg : g.node.rel.rot.IsUnit) (p : V3) (c1 c2 : Body) (hc : c1.cog.rot.IsUnit) :
    (Side.attach .one b1 b2 p ((g.onBody b1).direction .NWU)).direction c1 c2 = axisNow (g.onBody c1) := attached_direction (b2 := b2) .one hb g hg p c1 c2 hc

theorem direction_two {b1 b2 : Body} (hb : b2.cog.rot.IsUnit) (g : Geometrical) (hg : g.node.rel.rot.IsUnit) (p : V3) (c1 c2 : Body) (hc : c2.cog.rot.IsUnit) :
    (Side.attach .two b1 b2 p ((g.onBody b2).direction .NWU)).direction c1 c2 = axisNow (g.onBody c2) := attached_direction (b1 := b1) .two hb g hg p c1 c2 hc

/-! ## C182 -/

/-- **C182, directions.** Whatever was done with it before, a parallel (perpendicular) constraint initialised with the bodies anywhere imposes, wherever the bodies go, that the two axes, carried by
their own bodies, are parallel (perpendicular). -/
theorem C182_directions (sense : Bool → ℝ) (c : GConstraint) (g1 g2 : Geometrical) (h1 : g1.node.rel.rot.IsUnit) (h2 : g2.node.rel.rot.IsUnit) (b1 b2 c1 c2 : Body)
    (hb1 : b1.cog.rot.IsUnit) (hb2 : b2.cog.rot.IsUnit) (hc1 : c1.cog.rot.IsUnit) (hc2 : c2.cog.rot.IsUnit) :
    (c.kind = .parallel → ((c.init (g1.onBody b1) (g2.onBody b2) b1 b2).Satisfied sense c1 c2 ↔
      V3.cross (axisNow (g2.onBody c2)) (axisNow (g1.onBody c1)) = 0)) ∧
    (c.kind = .perpendicular → ((c.init (g1.onBody b1) (g2.onBody b2) b1 b2).Satisfied sense c1 c2 ↔
      V3.dot (axisNow (g2.onBody c2)) (axisNow (g1.onBody c1)) = 0)) := by
  have e1 := fun p => direction_one (b1 := b1) (b2 := b2) hb1 g1 h1 p c1 c2 hc1
  have e2 := fun p => direction_two (b1 := b1) (b2 := b2) hb2 g2 h2 p c1 c2 hc2
  obtain ⟨k, d, au, f, i, s⟩ := c
  constructor
  · intro hk
    have hk : k = .parallel := hk
    subst hk
    unfold GConstraint.Satisfied GConstraint.init
    constructor
    · rintro ⟨a, b, hs, h⟩
      obtain ⟨rfl, rfl⟩ := Prod.mk.inj (Option.some.inj hs)
      rw [← e1, ← e2]
      exact h
    · intro h
      refine ⟨_, _, rfl, ?_⟩
      rw [← e1, ← e2] at h
      exact h
  · intro hk
    have hk : k = .perpendicular := hk
    subst hk
    unfold GConstraint.Satisfied GConstraint.init
    constructor
    · rintro ⟨a, b, hs, h⟩
      obtain ⟨rfl, rfl⟩ := Prod.mk.inj (Option.some.inj hs)
      rw [← e1, ← e2]
      exact h
    · intro h
      refine ⟨_, _, rfl, ?_⟩
      rw [← e1, ← e2] at h
      exact h

/-- **C182, planes.** A point-on-plane constraint imposes that the point is at the last distance set, before or after the initialisation, from the plane as its body carries it, counted along its normal (C130); a plane-on-plane constraint imposes it
of the origin of the second plane, and that the normals are equal or opposite. -/
theorem C182_planes (sense : Bool → ℝ) (c : GConstraint) (d : ℝ) (g1 g2 : Geometrical) (h1 : g1.node.rel.rot.IsUnit) (h2 : g2.node.rel.rot.IsUnit) (b1 b2 c1 c2 : Body)
    (hb1 : b1.cog.rot.IsUnit) (hb2 : b2.cog.rot.IsUnit) (hc1 : c1.cog.rot.IsUnit) (hc2 : c2.cog.rot.IsUnit)
    (c' : GConstraint) (hc' : c' = (c.setDistance d).init (g1.onBody b1) (g2.onBody b2) b1 b2 ∨ c' = (c.init (g1.onBody b1) (g2.onBody b2) b1 b2).setDistance d) :
    (c.kind = .pointOnPlane → (c'.Satisfied sense c1 c2 ↔ (g1.onBody c1).distanceToPoint (pointNow (g2.onBody c2)) .NWU = d)) ∧
    (c.kind = .planeOnPlane → (c'.Satisfied sense c1 c2 ↔ axisNow (g2.onBody c2) = sense c.flipped • axisNow (g1.onBody c1) ∧
      (g1.onBody c1).distanceToPoint (pointNow (g2.onBody c2)) .NWU = d)) := by
  have e1 := fun p => direction_one (b1 := b1) (b2 := b2) hb1 g1 h1 p c1 c2 hc1
  have e2 := fun p => direction_two (b1 := b1) (b2 := b2) hb2 g2 h2 p c1 c2 hc2
  have p1 := fun v => point_one (b1 := b1) (b2 := b2) hb1 g1 v c1 c2
  have p2 := fun v => point_two (b1 := b1) (b2 := b2) hb2 g2 v c1 c2
  have hd : (g1.onBody c1).distanceToPoint (pointNow (g2.onBody c2)) .NWU = V3.dot (pointNow (g2.onBody c2) - pointNow (g1.onBody c1)) (axisNow (g1.onBody c1)) := by
    rw [← direction_now _ (onBody_unit hc1 h1)]
    rfl
  rw [hd]
  obtain ⟨k, di, au, f, i, s⟩ := c
  constructor
  · intro hk
    have hk : k = .pointOnPlane := hk
    subst hk
    have hc'' : c' = ⟨.pointOnPlane, di, au, f, d, some (.attach .two b1 b2 ((g2.onBody b2).origin .NWU) 0,
        .attach .one b1 b2 ((g1.onBody b1).origin .NWU) ((g1.onBody b1).direction .NWU))⟩ := by
      rcases hc' with rfl | rfl <;> rfl
    subst hc''
    unfold GConstraint.Satisfied
    constructor
    · rintro ⟨a, b, hs, h⟩
      obtain ⟨rfl, rfl⟩ := Prod.mk.inj (Option.some.inj hs)
      have h : V3.dot (_ - _) _ = d := h
      have q1 := p1 ((g1.onBody b1).direction .NWU)
      have q2 := p2 0
      have q3 := e1 ((g1.onBody b1).origin .NWU)
      rw [q1, q2, q3] at h
      exact h
    · intro h
      refine ⟨_, _, rfl, ?_⟩
      have q1 := p1 ((g1.onBody b1).direction .NWU)
      have q2 := p2 0
      have q3 := e1 ((g1.onBody b1).origin .NWU)
      show V3.dot (_ - _) _ = d
      rw [q1, q2, q3]
      exact h
  · intro hk
    have hk : k = .planeOnPlane := hk
    subst hk
    have hc'' : c' = ⟨.planeOnPlane, di, au, f, d, some (.attach .two b1 b2 ((g2.onBody b2).origin .NWU) ((g2.onBody b2).direction .NWU),
        .attach .one b1 b2 ((g1.onBody b1).origin .NWU) ((g1.onBody b1).direction .NWU))⟩ := by
      rcases hc' with rfl | rfl <;> rfl
    subst hc''
    have q1 := p1 ((g1.onBody b1).direction .NWU)
    have q2 := p2 ((g2.onBody b2).direction .NWU)
    have q3 := e1 ((g1.onBody b1).origin .NWU)
    have q4 := e2 ((g2.onBody b2).origin .NWU)
    unfold GConstraint.Satisfied
    constructor
    · rintro ⟨a, b, hs, h⟩
      obtain ⟨rfl, rfl⟩ := Prod.mk.inj (Option.some.inj hs)
      obtain ⟨h, h'⟩ : _ = sense f • _ ∧ V3.dot (_ - _) _ = d := h
      rw [q3, q4] at h
      rw [q1, q2, q3] at h'
      exact ⟨h, h'⟩
    · rintro ⟨h, h'⟩
      refine ⟨_, _, rfl, ?_⟩
      show _ = sense f • _ ∧ V3.dot (_ - _) _ = d
      rw [q1, q2, q3, q4]
      exact ⟨h, h'⟩

/-- **C182, points.** A distance constraint between two points imposes the distance set before its initialisation, or with the automatic distance the distance they had at the initialisation. -/
theorem C182_points_partial (sense : Bool → ℝ) (c : GConstraint) (hk : c.kind = .distanceBetweenPoints) (g1 g2 : Geometrical) (b1 b2 c1 c2 : Body)
    (hb1 : b1.cog.rot.IsUnit) (hb2 : b2.cog.rot.IsUnit) :
    (c.init (g1.onBody b1) (g2.onBody b2) b1 b2).Satisfied sense c1 c2 ↔
      V3.norm (pointNow (g2.onBody c2) - pointNow (g1.onBody c1)) =
        if c.auto then V3.norm (pointNow (g2.onBody b2) - pointNow (g1.onBody b1)) else c.getDistance := by
  have q1 := point_one (b1 := b1) (b2 := b2) hb1 g1 0 c1 c2
  have q2 := point_two (b1 := b1) (b2 := b2) hb2 g2 0 c1 c2
  obtain ⟨k, di, au, f, i, s⟩ := c
  have hk : k = .distanceBetweenPoints := hk
  subst hk
  unfold GConstraint.Satisfied GConstraint.init
  constructor
  · rintro ⟨a, b, hs, h⟩
    obtain ⟨rfl, rfl⟩ := Prod.mk.inj (Option.some.inj hs)
    have h : V3.norm (_ - _) = _ := h
    rw [q1, q2] at h
    exact h
  · intro h
    refine ⟨_, _, rfl, ?_⟩
    show V3.norm (_ - _) = _
    rw [q1, q2]
    exact h

/-- **C182, axes.** A distance constraint to an axis imposes that the point turns about the axis in the plane of the node of the axis: it is at the distance set before the initialisation, or with the automatic distance at the
distance from the node at the initialisation, and does not slide along the axis. Its distance to the axis is then the one imposed. -/
theorem C182_axis_partial (sense : Bool → ℝ) (c : GConstraint) (hk : c.kind = .distanceToAxis) (g1 g2 : Geometrical) (h1 : g1.node.rel.rot.IsUnit) (b1 b2 c1 c2 : Body)
    (hb1 : b1.cog.rot.IsUnit) (hb2 : b2.cog.rot.IsUnit) (hc1 : c1.cog.rot.IsUnit) (d : ℝ)
    (hd : d = if c.auto then V3.norm (pointNow (g2.onBody b2) - pointNow (g1.onBody b1)) else c.getDistance) :
    ((c.init (g1.onBody b1) (g2.onBody b2) b1 b2).Satisfied sense c1 c2 ↔
      V3.norm (pointNow (g2.onBody c2) - pointNow (g1.onBody c1)) = d ∧
      V3.dot (pointNow (g2.onBody c2) - pointNow (g1.onBody c1)) (axisNow (g1.onBody c1)) = 0) ∧
    ((c.init (g1.onBody b1) (g2.onBody b2) b1 b2).Satisfied sense c1 c2 → distToAxis2 (g1.onBody c1) (pointNow (g2.onBody c2)) = d ^ 2) := by
  have q1 := point_one (b1 := b1) (b2 := b2) hb1 g1 ((g1.onBody b1).direction .NWU) c1 c2
  have q2 := point_two (b1 := b1) (b2 := b2) hb2 g2 0 c1 c2
  have q3 := direction_one (b1 := b1) (b2 := b2) hb1 g1 h1 ((g1.onBody b1).origin .NWU) c1 c2 hc1
  have key : (c.init (g1.onBody b1) (g2.onBody b2) b1 b2).Satisfied sense c1 c2 ↔
      V3.norm (pointNow (g2.onBody c2) - pointNow (g1.onBody c1)) = d ∧
      V3.dot (pointNow (g2.onBody c2) - pointNow (g1.onBody c1)) (axisNow (g1.onBody c1)) = 0 := by
    obtain ⟨k, di, au, f, i, s⟩ := c
    have hk : k = .distanceToAxis := hk
    subst hk
    subst hd
    unfold GConstraint.Satisfied GConstraint.init
    constructor
    · rintro ⟨a, b, hs, h⟩
      obtain ⟨rfl, rfl⟩ := Prod.mk.inj (Option.some.inj hs)
      obtain ⟨h, h'⟩ : V3.norm (_ - _) = _ ∧ V3.dot (_ - _) _ = 0 := h
      rw [q1, q2] at h h'
      rw [q3] at h'
      exact ⟨h, h'⟩
    · rintro ⟨h, h'⟩
      refine ⟨_, _, rfl, ?_⟩
      show V3.norm (_ - _) = _ ∧ V3.dot (_ - _) _ = 0
      rw [q1, q2, q3]
      exact ⟨h, h'⟩
  refine ⟨key, fun hs => ?_⟩
  obtain ⟨h, h'⟩ := key.mp hs
  unfold distToAxis2
  rw [h', ← h, V3.norm, Real.sq_sqrt (by unfold V3.dot; nlinarith [sq_nonneg (pointNow (g2.onBody c2) - pointNow (g1.onBody c1)).x])]
  have e : pointNow (g2.onBody c2) - pointNow (g1.onBody c1) - (0 : ℝ) • axisNow (g1.onBody c1) = pointNow (g2.onBody c2) - pointNow (g1.onBody c1) := by
    ext <;> simp
  rw [e]

/-- **C182 (defect), distances set later.** For the two distance constraints, once initialised, a distance that is set is the one returned and is not imposed: the constraint is satisfied by the same places of the bodies as before. -/
theorem C182_later_wrong (sense : Bool → ℝ) (c : GConstraint) (hk : c.kind = .distanceToAxis ∨ c.kind = .distanceBetweenPoints) (d : ℝ) :
    (c.setDistance d).getDistance = d ∧ ∀ c1 c2, (c.setDistance d).Satisfied sense c1 c2 ↔ c.Satisfied sense c1 c2 := by
  obtain ⟨k, di, au, f, i, s⟩ := c
  rcases hk with hk | hk
  · have hk : k = .distanceToAxis := hk
    subst hk
    exact ⟨rfl, fun _ _ => Iff.rfl⟩
  · have hk : k = .distanceBetweenPoints := hk
    subst hk
    exact ⟨rfl, fun _ _ => Iff.rfl⟩

/-- **C182 (defect), automatic distances.** The distance returned by a constraint with the automatic distance is the one given to the constructor, not the one imposed: with the default (zero) and two
points apart, no place of the bodies that satisfies the constraint has the distance returned. -/
theorem C182_auto_wrong (sense : Bool → ℝ) (g1 g2 : Geometrical) (b1 b2 c1 c2 : Body) (hb1 : b1.cog.rot.IsUnit) (hb2 : b2.cog.rot.IsUnit)
    (hne : pointNow (g2.onBody b2) ≠ pointNow (g1.onBody b1)) (c : GConstraint)
    (hc : c = (GConstraint.new .distanceBetweenPoints true false 0).init (g1.onBody b1) (g2.onBody b2) b1 b2) (hs : c.Satisfied sense c1 c2) :
    c.getDistance = 0 ∧ V3.norm (pointNow (g2.onBody c2) - pointNow (g1.onBody c1)) ≠ 0 := by
  subst hc
  refine ⟨rfl, ?_⟩
  have := (C182_points_partial sense (GConstraint.new .distanceBetweenPoints true false 0) rfl g1 g2 b1 b2 c1 c2 hb1 hb2).mp hs
  rw [this, if_pos (show (GConstraint.new .distanceBetweenPoints true false 0).auto = true from rfl)]
  intro h0
  refine hne ?_
  generalize pointNow (g2.onBody b2) = p at *
  generalize pointNow (g1.onBody b1) = q at *
  unfold V3.norm at h0
  have hnn : 0 ≤ V3.dot (p - q) (p - q) := by
    unfold V3.dot
    nlinarith [sq_nonneg (p - q).x, sq_nonneg (p - q).y, sq_nonneg (p - q).z]
  rw [Real.sqrt_eq_zero hnn] at h0
  simp only [V3.dot, V3.sub_x, V3.sub_y, V3.sub_z] at h0
  ext
  · nlinarith [sq_nonneg (p.x - q.x), sq_nonneg (p.y - q.y), sq_nonneg (p.z - q.z)]
  · nlinarith [sq_nonneg (p.x - q.x), sq_nonneg (p.y - q.y), sq_nonneg (p.z - q.z)]
  · nlinarith [sq_nonneg (p.x - q.x), sq_nonneg (p.y - q.y), sq_nonneg (p.z - q.z)]

/-! ## Concrete cases -/

/-- A body at a place, not turned. -/
def bodyAt (p : V3) : Body := ⟨⟨p, Q.one⟩, 0, ⟨0, 0, 0, 0⟩, 0, p, 0⟩
/-- The axis z (default) of a node at the centre of gravity. -/
def centre : Geometrical := ⟨⟨Frame.identity, Frame.identity, 0, 0⟩, .z⟩

/-- **C182 (defect), sliding.** A point at 1 m of an axis that slides along it stays at 1 m of the axis and violates the distance constraint. -/
theorem C182_sliding_wrong (sense : Bool → ℝ) :
    ∃ c : GConstraint, c = (GConstraint.new .distanceToAxis false false 1).init (centre.onBody (bodyAt 0)) (centre.onBody (bodyAt ⟨1, 0, 0⟩)) (bodyAt 0) (bodyAt ⟨1, 0, 0⟩) ∧
      c.Satisfied sense (bodyAt 0) (bodyAt ⟨1, 0, 0⟩) ∧
      distToAxis2 (centre.onBody (bodyAt 0)) (pointNow (centre.onBody (bodyAt ⟨1, 0, 5⟩))) = 1 ∧ ¬ c.Satisfied sense (bodyAt 0) (bodyAt ⟨1, 0, 5⟩) := by
  have hu : ∀ p, (bodyAt p).cog.rot.IsUnit := fun p => by norm_num [bodyAt, Q.IsUnit, Q.normSq, Q.one]
  have hc : centre.node.rel.rot.IsUnit := by norm_num [centre, Frame.identity, Q.IsUnit, Q.normSq, Q.one]
  have hp : ∀ p, pointNow (centre.onBody (bodyAt p)) = p := by
    intro p
    ext <;> simp [pointNow, centre, Geometrical.onBody, Node.refresh, bodyAt, Frame.mul, Frame.identity, Q.rotate, Q.toMat, Q.one, M3.mulVec]
  have ha : ∀ p, axisNow (centre.onBody (bodyAt p)) = ⟨0, 0, 1⟩ := by
    intro p
    ext <;> norm_num [axisNow, unitOf, V3.e3, centre, Geometrical.onBody, Node.refresh, bodyAt, Frame.mul, Frame.identity, Q.rotate, Q.toMat, Q.one, Q.mul, M3.mulVec]
  have key := fun p => (C182_axis_partial sense (GConstraint.new .distanceToAxis false false 1) rfl centre centre hc (bodyAt 0) (bodyAt ⟨1, 0, 0⟩) (bodyAt 0) (bodyAt p)
    (hu _) (hu _) (hu _) 1 (by rw [if_neg (show ¬ (GConstraint.new .distanceToAxis false false 1).auto = true by decide)]; rfl)).1
  refine ⟨_, rfl, (key _).mpr ?_, ?_, fun h => ?_⟩
  · rw [hp, hp, ha]
    constructor
    · norm_num [V3.norm, V3.dot]
    · norm_num [V3.dot]
  · unfold distToAxis2
    rw [hp, hp, ha]
    norm_num [V3.dot]
  · have := ((key _).mp h).2
    rw [hp, hp, ha] at this
    norm_num [V3.dot] at this

/-- Non-vacuity: bodies and nodes with unit rotations, points apart. -/
example : (bodyAt ⟨1, 2, 3⟩).cog.rot.IsUnit ∧ centre.node.rel.rot.IsUnit ∧ pointNow (centre.onBody (bodyAt ⟨1, 2, 3⟩)) ≠ pointNow (centre.onBody (bodyAt 0)) := by
  refine ⟨by norm_num [bodyAt, Q.IsUnit, Q.normSq, Q.one], by norm_num [centre, Frame.identity, Q.IsUnit, Q.normSq, Q.one], fun h => ?_⟩
  have := congrArg V3.x h
  norm_num [pointNow, centre, Geometrical.onBody, Node.refresh, bodyAt, Frame.mul, Frame.identity, Q.rotate, Q.toMat, Q.one, M3.mulVec] at this

end Frydom.Link
