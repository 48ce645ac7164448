import Mathlib.Analysis.SpecialFunctions.Complex.Arg
import Mathlib.Analysis.SpecialFunctions.Trigonometric.Basic
import Mathlib.Tactic.Linarith
import Mathlib.Tactic.Ring
import Mathlib.Tactic.LinearCombination
import Mathlib.Tactic.FieldSimp
import Mathlib.Tactic.NormNum
import Verif.Geom.Basic

/-!
# The camera of the viewer (C157)

`FrIrrCamera`, src/frydom/utils/FrIrrCamera.cpp, and its creation in `FrIrrApp` (src/frydom/utils/FrIrrApp.cpp 39-40, 73-86).
Real arithmetic instead of `f32`. Irrlicht is external: `vector3d::rotateXYBy`, `rotateXZBy` (anticlockwise, degrees), `vector2d::getAngle`
(degrees in [0, 360), clockwise from the first axis), `normalize` (zero unchanged).
-/

noncomputable section

namespace Frydom.Utils
open Frydom.Geom Real

/-! ## Irrlicht -/

/-- `vector3d::rotateXYBy(degrees, center)`. -/
def rotateXY (v : V3) (a : ℝ) (c : V3) : V3 :=
  ⟨(v.x - c.x) * cos (a * (π / 180)) - (v.y - c.y) * sin (a * (π / 180)) + c.x,
   (v.x - c.x) * sin (a * (π / 180)) + (v.y - c.y) * cos (a * (π / 180)) + c.y, v.z⟩

/-- `vector3d::rotateXZBy(degrees, center)`. -/
def rotateXZ (v : V3) (a : ℝ) (c : V3) : V3 :=
  ⟨(v.x - c.x) * cos (a * (π / 180)) - (v.z - c.z) * sin (a * (π / 180)) + c.x, v.y,
   (v.x - c.x) * sin (a * (π / 180)) + (v.z - c.z) * cos (a * (π / 180)) + c.z⟩

/-- `vector2d::getAngle()`: degrees, clockwise from the first axis, in [0, 360). -/
def getAngle (x y : ℝ) : ℝ :=
  let a := -(Complex.arg ⟨x, y⟩) * (180 / π)
  if a < 0 then a + 360 else a

/-! ## The camera -/

/-- The keys that move the target. -/
inductive Key | up | down | left | right | prior | next
  deriving DecidableEq

/-- The state of the camera (FrIrrCamera.h 135-185) read by `animate`. -/
structure Camera where
  pos : V3
  target : V3
  oldTarget : V3
  up : V3
  rotX : ℝ
  rotY : ℝ
  zoom : ℝ
  minDist : ℝ
  maxDist : ℝ
  zoomSpeed : ℝ
  rotateSpeed : ℝ
  translateSpeed : ℝ
  zooming : Bool
  rotating : Bool
  translating : Bool
  zoomStartX : ℝ
  rotateStartX : ℝ
  rotateStartY : ℝ
  translateStartX : ℝ
  translateStartY : ℝ
  mouseX : ℝ
  mouseY : ℝ
  left : Bool
  middle : Bool
  right : Bool
  keys : Key → Bool
  enabled : Bool

/-- What happens to a camera: the events of Irrlicht, the calls of the user and the frames. -/
inductive Input
  | pressLeft | pressMiddle | pressRight | releaseLeft | releaseMiddle | releaseRight
  | move (x y : ℝ)
  | wheel (w : ℝ)
  | key (k : Key) (down : Bool)
  | frame
  | setPosition (p : V3)
  | setTarget (t : V3)
  | setMinZoom (z : ℝ)
  | setMaxZoom (z : ℝ)

/-- Zoom, FrIrrCamera.cpp 319-348: the new state and `nZoom`. -/
def Camera.zoomPhase (c : Camera) : Camera × ℝ :=
  if c.right && c.left then
    if !c.zooming then ({ c with zoomStartX := c.mouseX, zooming := true }, c.zoom)
    else
      let n := c.zoom + (c.zoomStartX - c.mouseX) * c.zoomSpeed * 100
      let n := if n < c.minDist then c.minDist else if c.maxDist < n then c.maxDist else n
      (c, if n < 0 then c.zoom else n)
  else if c.zooming then
    let z := c.zoom + (c.zoomStartX - c.mouseX) * c.zoomSpeed
    if z < 0 then ({ c with zooming := false }, c.zoom) else ({ c with zoom := z, zooming := false }, z)
  else (c, c.zoom)

/-- Rotation, FrIrrCamera.cpp 350-371: the new state, `nRotX` and `nRotY`. -/
def Camera.rotatePhase (c : Camera) : Camera × ℝ × ℝ :=
  if c.left && !c.zooming then
    if !c.rotating then ({ c with rotateStartX := c.mouseX, rotateStartY := c.mouseY, rotating := true }, c.rotX, c.rotY)
    else (c, c.rotX + (c.rotateStartX - c.mouseX) * c.rotateSpeed, c.rotY + (c.rotateStartY - c.mouseY) * c.rotateSpeed)
  else if c.rotating then
    let x := c.rotX + (c.rotateStartX - c.mouseX) * c.rotateSpeed
    let y := c.rotY + (c.rotateStartY - c.mouseY) * c.rotateSpeed
    ({ c with rotX := x, rotY := y, rotating := false }, x, y)
  else (c, c.rotX, c.rotY)

/-- The two axes of translation, FrIrrCamera.cpp 311-317. -/
def Camera.tvectX (c : Camera) : V3 := V3.normalized (V3.cross (c.pos - c.target) c.up)
def Camera.tvectY (c : Camera) : V3 := V3.normalized (V3.cross (c.pos - c.target) c.tvectX)

/-- The branch of one key, FrIrrCamera.cpp 384-433, with the displacement `d`. -/
def Camera.keyStep (c : Camera) (d : V3) : Camera :=
  if !c.translating then { c with translating := true, oldTarget := c.target }
  else { c with target := c.oldTarget + d }

/-- The displacement of a key. -/
def Camera.keyMove (c : Camera) : Key → V3
  | .up => c.translateSpeed • c.tvectY
  | .down => c.translateSpeed • (-c.tvectY)
  | .left => c.translateSpeed • c.tvectX
  | .right => c.translateSpeed • (-c.tvectX)
  | .prior => c.translateSpeed • (-c.up)
  | .next => c.translateSpeed • c.up

/-- Translation, FrIrrCamera.cpp 372-436. -/
def Camera.translatePhase (c : Camera) : Camera :=
  if c.middle && !c.zooming then
    if !c.translating then
      { c with translateStartX := c.mouseX, translateStartY := c.mouseY, translating := true, oldTarget := c.target }
    else
      { c with target := c.oldTarget +
          (c.translateSpeed * (-10)) • ((c.mouseX - c.translateStartX) • c.tvectX + (c.mouseY - c.translateStartY) • c.tvectY) }
  else if c.keys .up && !c.zooming then c.keyStep (c.keyMove .up)
  else if c.keys .down && !c.zooming then c.keyStep (c.keyMove .down)
  else if c.keys .left && !c.zooming then c.keyStep (c.keyMove .left)
  else if c.keys .right && !c.zooming then c.keyStep (c.keyMove .right)
  else if c.keys .prior && !c.zooming then c.keyStep (c.keyMove .prior)
  else if c.keys .next && !c.zooming then c.keyStep (c.keyMove .next)
  else { c with translating := false }

/-- The position for a zoom and two rotations, FrIrrCamera.cpp 438-450. -/
def Camera.place (c : Camera) (z rx ry : ℝ) : Camera :=
  { c with
    pos := rotateXY (rotateXZ ⟨z + c.target.x, c.target.y, c.target.z⟩ ry c.target) rx c.target
    up := rotateXY (rotateXZ ⟨0, 0, 1⟩ (-ry) 0) (rx + 180) 0 }

/-- `animate()`, FrIrrCamera.cpp 305-451, called at each frame by `OnAnimate` (189-196). -/
def Camera.animate (c : Camera) : Camera :=
  let z := c.zoomPhase
  let r := z.1.rotatePhase
  r.1.translatePhase.place z.2 r.2.1 r.2.2

/-- `updateAnimationState()`, FrIrrCamera.cpp 453-467. -/
def Camera.updateState (c : Camera) : Camera :=
  let p := c.pos - c.target
  let rx := getAngle p.x p.y
  let q := rotateXY p rx 0
  { c with rotX := rx, rotY := -getAngle q.x q.z, zoom := V3.norm (c.pos - c.target) }

/-- Events (`OnEvent`, FrIrrCamera.cpp 81-141, ignored when the input receiver is disabled), calls (226-262) and frames. -/
def Camera.input (c : Camera) : Input → Camera
  | .pressLeft => if c.enabled then { c with left := true } else c
  | .pressMiddle => if c.enabled then { c with middle := true } else c
  | .pressRight => if c.enabled then { c with right := true } else c
  | .releaseLeft => if c.enabled then { c with left := false } else c
  | .releaseMiddle => if c.enabled then { c with middle := false } else c
  | .releaseRight => if c.enabled then { c with right := false } else c
  | .move x y => if c.enabled then { c with mouseX := x, mouseY := y } else c
  | .wheel w => if c.enabled then { c with zoom := c.zoom - w * c.zoomSpeed } else c
  | .key k d => if c.enabled then { c with keys := fun k' => if k' = k then d else c.keys k' } else c
  | .frame => c.animate
  | .setPosition p => ({ c with pos := p } : Camera).updateState
  | .setTarget t => ({ c with target := t, oldTarget := t } : Camera).updateState
  | .setMinZoom z => { c with minDist := z }
  | .setMaxZoom z => { c with maxDist := z }

/-- A history. -/
def Camera.run (c : Camera) (l : List Input) : Camera := l.foldl Camera.input c

/-- The constructor, FrIrrCamera.cpp 20-79. Some starts are not initialised: any values `j`. -/
def Camera.new (rs zs ts j : ℝ) : Camera where
  pos := 0
  target := 0
  oldTarget := 0
  up := ⟨0, 0, 1⟩
  rotX := 0
  rotY := 0
  zoom := 100
  minDist := 1
  maxDist := 2000
  zoomSpeed := zs
  rotateSpeed := rs
  translateSpeed := ts
  zooming := false
  rotating := false
  translating := false
  zoomStartX := j
  rotateStartX := j
  rotateStartY := j
  translateStartX := j
  translateStartY := j
  mouseX := 0
  mouseY := 0
  left := false
  middle := false
  right := false
  keys := fun _ => false
  enabled := true

/-- The camera of `FrIrrApp` (FrIrrApp.cpp 39-40, 73-86) at distance `dist`. -/
def Camera.app (dist j : ℝ) : Camera :=
  (Camera.new (-160) 1 10 j).run [.setPosition ⟨-dist, dist * 0, dist⟩, .setTarget ⟨0, √2 / 2, √2 / 2⟩, .setMinZoom 0.6]

/-! ## Specification -/

/-- Nothing is pressed and no gesture is going on. -/
structure Idle (c : Camera) : Prop where
  left : c.left = false
  middle : c.middle = false
  right : c.right = false
  keys : ∀ k, c.keys k = false
  zooming : c.zooming = false
  rotating : c.rotating = false
  translating : c.translating = false
  enabled : c.enabled = true

/-- The distance between the camera and its target. -/
def Camera.distance (c : Camera) : ℝ := V3.norm (c.pos - c.target)

/-! ## Lemmas -/

/-- The unit vector from the target to the camera for the two rotations. -/
def sight (rx ry : ℝ) : V3 :=
  ⟨cos (ry * (π / 180)) * cos (rx * (π / 180)), cos (ry * (π / 180)) * sin (rx * (π / 180)), sin (ry * (π / 180))⟩

/-- The vertical axis of the picture. -/
def sightUp (rx ry : ℝ) : V3 :=
  ⟨-(sin (ry * (π / 180)) * cos (rx * (π / 180))), -(sin (ry * (π / 180)) * sin (rx * (π / 180))), cos (ry * (π / 180))⟩

theorem place_eq (c : Camera) (z rx ry : ℝ) :
    (c.place z rx ry).pos = c.target + z • sight rx ry ∧ (c.place z rx ry).up = sightUp rx ry ∧ (c.place z rx ry).target = c.target := by
  refine ⟨?_, ?_, rfl⟩
  · ext <;> simp [Camera.place, rotateXY, rotateXZ, sight] <;> ring
  · have h1 : (rx + 180) * (π / 180) = rx * (π / 180) + π := by ring
    have h2 : -ry * (π / 180) = -(ry * (π / 180)) := by ring
    simp only [Camera.place, rotateXY, rotateXZ, sightUp, h1, h2, cos_add_pi, sin_add_pi, cos_neg, sin_neg]
    ext <;> simp

theorem sight_unit (rx ry : ℝ) : V3.dot (sight rx ry) (sight rx ry) = 1 := by
  have h1 := sin_sq_add_cos_sq (ry * (π / 180))
  have h2 := sin_sq_add_cos_sq (rx * (π / 180))
  simp only [V3.dot, sight]
  linear_combination h1 + cos (ry * (π / 180)) ^ 2 * h2

theorem sightUp_unit (rx ry : ℝ) : V3.dot (sightUp rx ry) (sightUp rx ry) = 1 := by
  have h1 := sin_sq_add_cos_sq (ry * (π / 180))
  have h2 := sin_sq_add_cos_sq (rx * (π / 180))
  simp only [V3.dot, sightUp]
  linear_combination h1 + sin (ry * (π / 180)) ^ 2 * h2

theorem sight_up (rx ry : ℝ) : V3.dot (sight rx ry) (sightUp rx ry) = 0 := by
  have h2 := sin_sq_add_cos_sq (rx * (π / 180))
  simp only [V3.dot, sight, sightUp]
  linear_combination (-(cos (ry * (π / 180)) * sin (ry * (π / 180)))) * h2

theorem sight_level (rx ry : ℝ) : (V3.cross (sight rx ry) (sightUp rx ry)).z = 0 := by
  simp only [V3.cross_z, sight, sightUp]
  ring

theorem norm_smul_sight (z rx ry : ℝ) (t : V3) : V3.norm (t + z • sight rx ry - t) = |z| := by
  have h : V3.dot (t + z • sight rx ry - t) (t + z • sight rx ry - t) = z ^ 2 := by
    have := sight_unit rx ry
    simp only [V3.dot, V3.sub_x, V3.sub_y, V3.sub_z, V3.add_x, V3.add_y, V3.add_z, V3.smul_x, V3.smul_y, V3.smul_z] at this ⊢
    linear_combination z ^ 2 * this
  unfold V3.norm
  rw [h, sqrt_sq_eq_abs]

theorem place_distance (c : Camera) (z rx ry : ℝ) : (c.place z rx ry).distance = |z| := by
  obtain ⟨h1, -, h3⟩ := place_eq c z rx ry
  unfold Camera.distance
  rw [h1, h3]
  exact norm_smul_sight _ _ _ _

/-- What a frame does to the position. -/
theorem animate_pos (c : Camera) :
    c.animate.pos = c.animate.target + c.zoomPhase.2 • sight c.zoomPhase.1.rotatePhase.2.1 c.zoomPhase.1.rotatePhase.2.2 ∧
    c.animate.up = sightUp c.zoomPhase.1.rotatePhase.2.1 c.zoomPhase.1.rotatePhase.2.2 := by
  obtain ⟨h1, h2, h3⟩ := place_eq c.zoomPhase.1.rotatePhase.1.translatePhase c.zoomPhase.2 c.zoomPhase.1.rotatePhase.2.1 c.zoomPhase.1.rotatePhase.2.2
  exact ⟨h1.trans (by rw [← h3]; rfl), h2⟩

theorem angle_cos_sin (x y : ℝ) : cos (getAngle x y * (π / 180)) * √(x ^ 2 + y ^ 2) = x ∧ sin (getAngle x y * (π / 180)) * √(x ^ 2 + y ^ 2) = -y := by
  have hn : ‖(⟨x, y⟩ : ℂ)‖ = √(x ^ 2 + y ^ 2) := by
    rw [Complex.norm_eq_sqrt_sq_add_sq]
  have h1 : cos (getAngle x y * (π / 180)) = cos (Complex.arg ⟨x, y⟩) ∧ sin (getAngle x y * (π / 180)) = -sin (Complex.arg ⟨x, y⟩) := by
    have hpi : π ≠ 0 := pi_ne_zero
    unfold getAngle
    simp only
    split
    · have : (-Complex.arg ⟨x, y⟩ * (180 / π) + 360) * (π / 180) = -Complex.arg ⟨x, y⟩ + 2 * π := by field_simp; ring
      rw [this, cos_add_two_pi, sin_add_two_pi, cos_neg, sin_neg]
      exact ⟨rfl, rfl⟩
    · have : (-Complex.arg ⟨x, y⟩ * (180 / π)) * (π / 180) = -Complex.arg ⟨x, y⟩ := by field_simp
      rw [this, cos_neg, sin_neg]
      exact ⟨rfl, rfl⟩
  have h2 := Complex.norm_mul_cos_arg ⟨x, y⟩
  have h3 := Complex.norm_mul_sin_arg ⟨x, y⟩
  rw [hn] at h2 h3
  rw [h1.1, h1.2]
  constructor <;> linarith

/-- The two angles found by `updateAnimationState` and the distance: the same point, but on the other side of the plane y = 0. -/
theorem updateState_sight (c : Camera) :
    c.updateState.zoom • sight c.updateState.rotX c.updateState.rotY
      = ⟨c.pos.x - c.target.x, -(c.pos.y - c.target.y), c.pos.z - c.target.z⟩ := by
  set p := c.pos - c.target with hp
  obtain ⟨h1, h2⟩ := angle_cos_sin p.x p.y
  set r := √(p.x ^ 2 + p.y ^ 2) with hr
  have hr2 : r ^ 2 = p.x ^ 2 + p.y ^ 2 := sq_sqrt (by positivity)
  have hr0 : 0 ≤ r := sqrt_nonneg _
  set a := getAngle p.x p.y with ha
  have hq : (rotateXY p a 0).x = r ∧ (rotateXY p a 0).z = p.z := by
    refine ⟨?_, rfl⟩
    have h3 := sin_sq_add_cos_sq (a * (π / 180))
    show (p.x - 0) * cos (a * (π / 180)) - (p.y - 0) * sin (a * (π / 180)) + 0 = r
    rcases eq_or_lt_of_le hr0 with h0 | h0
    · have hx : p.x = 0 := by nlinarith [sq_nonneg p.x, sq_nonneg p.y]
      have hy : p.y = 0 := by nlinarith [sq_nonneg p.x, sq_nonneg p.y]
      rw [hx, hy, ← h0]; ring
    · linear_combination r * h3 - cos (a * (π / 180)) * h1 - (sin (a * (π / 180))) * h2
  obtain ⟨h4, h5⟩ := angle_cos_sin r p.z
  set b := getAngle r p.z with hb
  have hn : √(r ^ 2 + p.z ^ 2) = V3.norm p := by
    unfold V3.norm V3.dot; rw [hr2]; congr 1; ring
  rw [hn] at h4 h5
  have hX : c.updateState.rotX = a := rfl
  have hY : c.updateState.rotY = -b := by
    show -getAngle (rotateXY p a 0).x (rotateXY p a 0).z = -b
    rw [hq.1, hq.2]
  have hZ : c.updateState.zoom = V3.norm p := rfl
  rw [hX, hY, hZ]
  have hneg : -b * (π / 180) = -(b * (π / 180)) := by ring
  unfold sight
  rw [hneg, cos_neg, sin_neg]
  ext
  · show V3.norm p * (cos (b * (π / 180)) * cos (a * (π / 180))) = p.x
    linear_combination cos (a * (π / 180)) * h4 + h1
  · show V3.norm p * (cos (b * (π / 180)) * sin (a * (π / 180))) = -p.y
    linear_combination sin (a * (π / 180)) * h4 + h2
  · show V3.norm p * -sin (b * (π / 180)) = p.z
    linear_combination -h5

/-- A frame of an idle camera. -/
theorem idle_frame (c : Camera) (h : Idle c) : c.animate = ({ c with translating := false } : Camera).place c.zoom c.rotX c.rotY := by
  have hz : c.zoomPhase = (c, c.zoom) := by simp [Camera.zoomPhase, h.left, h.right, h.zooming]
  have hr : c.rotatePhase = (c, c.rotX, c.rotY) := by simp [Camera.rotatePhase, h.left, h.rotating]
  have ht : c.translatePhase = { c with translating := false } := by simp [Camera.translatePhase, h.middle, h.keys]
  simp only [Camera.animate, hz, hr, ht]

/-! ## C157 -/

/-- **C157 (picture)**: after any history, at each frame, the camera is at the distance given by the zoom from its target, its vertical axis is a unit
vector orthogonal to the line of sight, and the horizon is level (the horizontal axis of the picture is horizontal). -/
theorem C157_picture_partial (c0 : Camera) (l : List Input) :
    let c := c0.run l
    let c' := c0.run (l ++ [.frame])
    c'.distance = |c.zoomPhase.2| ∧ V3.norm c'.up = 1 ∧ V3.dot (c'.pos - c'.target) c'.up = 0 ∧ (V3.cross (c'.pos - c'.target) c'.up).z = 0 := by
  intro c c'
  have hc : c' = c.animate := by show (c0.run (l ++ [.frame])) = _; unfold Camera.run; rw [List.foldl_append]; rfl
  rw [hc]
  obtain ⟨h1, h2⟩ := animate_pos c
  set rx := c.zoomPhase.1.rotatePhase.2.1
  set ry := c.zoomPhase.1.rotatePhase.2.2
  set z := c.zoomPhase.2
  refine ⟨?_, ?_, ?_, ?_⟩
  · unfold Camera.distance; rw [h1]; exact norm_smul_sight _ _ _ _
  · rw [h2]; unfold V3.norm; rw [sightUp_unit, sqrt_one]
  · rw [h1, h2]
    have := sight_up rx ry
    simp only [V3.dot, V3.sub_x, V3.sub_y, V3.sub_z, V3.add_x, V3.add_y, V3.add_z, V3.smul_x, V3.smul_y, V3.smul_z] at this ⊢
    linear_combination z * this
  · rw [h1, h2]
    have := sight_level rx ry
    simp only [V3.cross_z, V3.sub_x, V3.sub_y, V3.add_x, V3.add_y, V3.smul_x, V3.smul_y] at this ⊢
    linear_combination z * this

theorem updateState_idle {c : Camera} (h : Idle c) : Idle c.updateState := ⟨h.left, h.middle, h.right, h.keys, h.zooming, h.rotating, h.translating, h.enabled⟩

/-- **C157 (placement, defect)**: an idle camera, whatever its history, put at `p` and pointed at `t`, is seen at the next frame at the mirror image of `p`
in the plane y = t.y; so where it was put only if p.y = t.y. -/
theorem C157_placed (c : Camera) (h : Idle c) (p t : V3) :
    let c' := c.run [.setPosition p, .setTarget t, .frame]
    c'.target = t ∧ c'.pos = ⟨p.x, 2 * t.y - p.y, p.z⟩ ∧ (c'.pos = p ↔ p.y = t.y) := by
  intro c'
  set c1 : Camera := { (c.input (.setPosition p)) with target := t, oldTarget := t } with hc1
  have hi1 : Idle (c.input (.setPosition p)) := updateState_idle ⟨h.left, h.middle, h.right, h.keys, h.zooming, h.rotating, h.translating, h.enabled⟩
  have hi : Idle c1.updateState :=
    updateState_idle ⟨hi1.left, hi1.middle, hi1.right, hi1.keys, hi1.zooming, hi1.rotating, hi1.translating, hi1.enabled⟩
  have hc : c' = c1.updateState.animate := rfl
  have hpos : c'.pos = ⟨p.x, 2 * t.y - p.y, p.z⟩ := by
    rw [hc, idle_frame _ hi, (place_eq _ _ _ _).1]
    show t + c1.updateState.zoom • sight c1.updateState.rotX c1.updateState.rotY = _
    rw [updateState_sight]
    show t + (⟨p.x - t.x, -(p.y - t.y), p.z - t.z⟩ : V3) = _
    ext <;> simp <;> ring
  refine ⟨?_, hpos, ?_⟩
  · rw [hc, idle_frame _ hi, (place_eq _ _ _ _).2.2]; rfl
  · rw [hpos]
    constructor
    · intro he
      have := congrArg V3.y he
      simp only at this
      linarith
    · intro he
      ext <;> simp; linarith

theorem new_idle (rs zs ts j : ℝ) : Idle (Camera.new rs zs ts j) := ⟨rfl, rfl, rfl, fun _ => rfl, rfl, rfl, rfl, rfl⟩

/-- **C157 (viewer)**: the camera of the viewer, put by the code at (-dist, 0, dist), is seen at (-dist, √2, dist). -/
theorem C157_viewer (dist j : ℝ) : ((Camera.app dist j).run [.frame]).pos = ⟨-dist, √2, dist⟩ := by
  have hi0 := new_idle (-160) 1 10 j
  obtain ⟨-, h, -⟩ := C157_placed (Camera.new (-160) 1 10 j) hi0 ⟨-dist, dist * 0, dist⟩ ⟨0, √2 / 2, √2 / 2⟩
  set c := (Camera.new (-160) 1 10 j).run [.setPosition ⟨-dist, dist * 0, dist⟩, .setTarget ⟨0, √2 / 2, √2 / 2⟩] with hc
  have hi : Idle c := ⟨rfl, rfl, rfl, fun _ => rfl, rfl, rfl, rfl, rfl⟩
  have h1 : ((Camera.app dist j).run [.frame]).pos = ({ c with minDist := 0.6 } : Camera).animate.pos := rfl
  have h2 : ((Camera.new (-160) 1 10 j).run [.setPosition ⟨-dist, dist * 0, dist⟩, .setTarget ⟨0, √2 / 2, √2 / 2⟩, .frame]).pos = c.animate.pos := rfl
  have h3 : ({ c with minDist := 0.6 } : Camera).animate.pos = c.animate.pos := by
    rw [idle_frame _ (⟨hi.left, hi.middle, hi.right, hi.keys, hi.zooming, hi.rotating, hi.translating, hi.enabled⟩ : Idle { c with minDist := 0.6 }),
      idle_frame _ hi]
    rfl
  rw [h1, h3, ← h2, h]
  ext <;> simp
  ring

/-- **C157 (rotation)**: an idle camera turned by dragging the mouse with the left button from (x0, y0) to (x1, y1) keeps its target and its distance, ends
at the angles changed in proportion to the drag, and does not move when the button is released. -/
theorem C157_rotation (c : Camera) (h : Idle c) (x0 y0 x1 y1 : ℝ) :
    let d := c.run [.move x0 y0, .pressLeft, .frame, .move x1 y1, .frame]
    let e := c.run [.move x0 y0, .pressLeft, .frame, .move x1 y1, .frame, .releaseLeft, .frame]
    d.pos = c.target + c.zoom • sight (c.rotX + (x0 - x1) * c.rotateSpeed) (c.rotY + (y0 - y1) * c.rotateSpeed) ∧ d.target = c.target ∧
    e.pos = d.pos ∧ e.target = d.target ∧ e.up = d.up ∧ Idle e := by
  intro d e
  have he := h.enabled
  set c1 : Camera := { c with mouseX := x0, mouseY := y0, left := true } with hc1
  have r1 : c.run [.move x0 y0, .pressLeft] = c1 := by
    simp [Camera.run, Camera.input, he, hc1]
  set c2 := ({ c1 with rotateStartX := x0, rotateStartY := y0, rotating := true, translating := false } : Camera).place c.zoom c.rotX c.rotY with hc2
  have r2 : c1.animate = c2 := by
    have hz : c1.zoomPhase = (c1, c.zoom) := by simp [Camera.zoomPhase, hc1, h.right, h.zooming]
    have hr : c1.rotatePhase = ({ c1 with rotateStartX := x0, rotateStartY := y0, rotating := true }, c.rotX, c.rotY) := by
      simp [Camera.rotatePhase, hc1, h.zooming, h.rotating]
    simp only [Camera.animate, hz, hr, hc2]
    congr 1
    simp [Camera.translatePhase, hc1, h.middle, h.keys]
  set c3 : Camera := { c2 with mouseX := x1, mouseY := y1 } with hc3
  set rx := c.rotX + (x0 - x1) * c.rotateSpeed with hrx
  set ry := c.rotY + (y0 - y1) * c.rotateSpeed with hry
  have r3 : c2.input (.move x1 y1) = c3 := by
    simp [Camera.input, hc3, hc2, Camera.place, hc1, he]
  set c4 := c3.place c.zoom rx ry with hc4
  have r4 : c3.animate = c4 := by
    have hz : c3.zoomPhase = (c3, c.zoom) := by simp [Camera.zoomPhase, hc3, hc2, Camera.place, hc1, h.right, h.zooming]
    have hr : c3.rotatePhase = (c3, rx, ry) := by
      simp [Camera.rotatePhase, hc3, hc2, Camera.place, hc1, h.zooming, hrx, hry]
    have ht : c3.translatePhase = c3 := by
      simp [Camera.translatePhase, hc3, hc2, Camera.place, hc1, h.middle, h.keys]
    simp only [Camera.animate, hz, hr, ht, hc4]
  have hd : d = c4 := by
    have : d = (((c.run [.move x0 y0, .pressLeft]).animate).input (.move x1 y1)).animate := rfl
    rw [this, r1, r2, r3, r4]
  set c5 : Camera := { c4 with left := false } with hc5
  have r5 : c4.input .releaseLeft = c5 := by
    simp [Camera.input, hc5, hc4, hc3, hc2, Camera.place, hc1, he]
  set c6 := ({ c5 with rotX := rx, rotY := ry, rotating := false } : Camera).place c.zoom rx ry with hc6
  have r6 : c5.animate = c6 := by
    have hz : c5.zoomPhase = (c5, c.zoom) := by
      simp [Camera.zoomPhase, hc5, hc4, hc3, hc2, Camera.place, hc1, h.right, h.zooming]
    have hr : c5.rotatePhase = ({ c5 with rotX := rx, rotY := ry, rotating := false }, rx, ry) := by
      simp [Camera.rotatePhase, hc5, hc4, hc3, hc2, Camera.place, hc1, hrx, hry]
    simp only [Camera.animate, hz, hr, hc6]
    congr 1
    simp [Camera.translatePhase, hc5, hc4, hc3, hc2, Camera.place, hc1, h.middle, h.keys]
  have hee : e = c6 := by
    have : e = (d.input .releaseLeft).animate := rfl
    rw [this, hd, r5, r6]
  refine ⟨?_, ?_, ?_, ?_, ?_, ?_⟩
  · rw [hd, hc4, (place_eq _ _ _ _).1]; rfl
  · rw [hd]; rfl
  · rw [hee, hd, hc6, hc4, (place_eq _ _ _ _).1, (place_eq _ _ _ _).1]; rfl
  · rw [hee, hd]; rfl
  · rw [hee, hd, hc6, hc4, (place_eq _ _ _ _).2.1, (place_eq _ _ _ _).2.1]
  · rw [hee]
    exact ⟨rfl, h.middle, h.right, h.keys, h.zooming, rfl, rfl, he⟩

/-- **C157 (zoom by dragging, defect)**: an idle camera zoomed by dragging with both buttons over `u = (x0 - x1) * zoomSpeed` is seen, while they are held,
at `zoom + 100 u` brought back between the limits; once they are released it jumps to `zoom + u`, whatever the limits. -/
theorem C157_zoom_drag (c : Camera) (h : Idle c) (hmin : 0 ≤ c.minDist) (hmax : c.minDist ≤ c.maxDist) (x0 y0 x1 y1 : ℝ)
    (hu : 0 ≤ c.zoom + (x0 - x1) * c.zoomSpeed) :
    let d := c.run [.move x0 y0, .pressLeft, .pressRight, .frame, .move x1 y1, .frame]
    let e := c.run [.move x0 y0, .pressLeft, .pressRight, .frame, .move x1 y1, .frame, .releaseLeft, .releaseRight, .frame]
    d.distance = max c.minDist (min c.maxDist (c.zoom + 100 * ((x0 - x1) * c.zoomSpeed))) ∧
    e.distance = c.zoom + (x0 - x1) * c.zoomSpeed ∧ d.target = c.target ∧ e.target = c.target ∧ Idle e := by
  intro d e
  have he := h.enabled
  set c1 : Camera := { c with mouseX := x0, mouseY := y0, left := true, right := true } with hc1
  have r1 : c.run [.move x0 y0, .pressLeft, .pressRight] = c1 := by
    simp [Camera.run, Camera.input, he, hc1]
  set c2 := ({ c1 with zoomStartX := x0, zooming := true, translating := false } : Camera).place c.zoom c.rotX c.rotY with hc2
  have r2 : c1.animate = c2 := by
    have hz : c1.zoomPhase = ({ c1 with zoomStartX := x0, zooming := true }, c.zoom) := by simp [Camera.zoomPhase, hc1, h.zooming]
    have hr : ({ c1 with zoomStartX := x0, zooming := true } : Camera).rotatePhase = ({ c1 with zoomStartX := x0, zooming := true }, c.rotX, c.rotY) := by
      simp [Camera.rotatePhase, hc1, h.rotating]
    simp only [Camera.animate, hz, hr, hc2]
    congr 1
    simp [Camera.translatePhase, hc1, h.middle, h.keys]
  set c3 : Camera := { c2 with mouseX := x1, mouseY := y1 } with hc3
  have r3 : c2.input (.move x1 y1) = c3 := by
    simp [Camera.input, hc3, hc2, Camera.place, hc1, he]
  set n := max c.minDist (min c.maxDist (c.zoom + 100 * ((x0 - x1) * c.zoomSpeed))) with hn
  set c4 := c3.place n c.rotX c.rotY with hc4
  have r4 : c3.animate = c4 := by
    have hz : c3.zoomPhase = (c3, n) := by
      have hcl : (let n := c.zoom + (x0 - x1) * c.zoomSpeed * 100
          let n := if n < c.minDist then c.minDist else if c.maxDist < n then c.maxDist else n
          if n < 0 then c.zoom else n) = n := by
        simp only
        have e1 : c.zoom + (x0 - x1) * c.zoomSpeed * 100 = c.zoom + 100 * ((x0 - x1) * c.zoomSpeed) := by ring
        rw [e1]
        set w := c.zoom + 100 * ((x0 - x1) * c.zoomSpeed) with hw
        by_cases a1 : w < c.minDist
        · rw [if_pos a1, if_neg (not_lt.mpr hmin), hn, min_eq_right (by linarith), max_eq_left a1.le]
        · rw [if_neg a1]
          by_cases a2 : c.maxDist < w
          · rw [if_pos a2, if_neg (not_lt.mpr (by linarith)), hn, min_eq_left a2.le, max_eq_right hmax]
          · rw [if_neg a2, if_neg (by linarith), hn, min_eq_right (by linarith), max_eq_right (by linarith)]
      rw [← hcl]
      simp [Camera.zoomPhase, hc3, hc2, Camera.place, hc1]
    have hr : c3.rotatePhase = (c3, c.rotX, c.rotY) := by
      simp [Camera.rotatePhase, hc3, hc2, Camera.place, hc1, h.rotating]
    have ht : c3.translatePhase = c3 := by
      simp [Camera.translatePhase, hc3, hc2, Camera.place, hc1, h.middle, h.keys]
    simp only [Camera.animate, hz, hr, ht, hc4]
  have hd : d = c4 := by
    have : d = (((c.run [.move x0 y0, .pressLeft, .pressRight]).animate).input (.move x1 y1)).animate := rfl
    rw [this, r1, r2, r3, r4]
  set c5 : Camera := { c4 with left := false, right := false } with hc5
  have r5 : (c4.input .releaseLeft).input .releaseRight = c5 := by
    simp [Camera.input, hc5, hc4, hc3, hc2, Camera.place, hc1, he]
  set z := c.zoom + (x0 - x1) * c.zoomSpeed with hz0
  set c6 := ({ c5 with zoom := z, zooming := false } : Camera).place z c.rotX c.rotY with hc6
  have r6 : c5.animate = c6 := by
    have hz : c5.zoomPhase = ({ c5 with zoom := z, zooming := false }, z) := by
      have : c5.zoomPhase = if z < 0 then ({ c5 with zooming := false }, c.zoom) else ({ c5 with zoom := z, zooming := false }, z) := rfl
      rw [this, if_neg (not_lt.mpr hu)]
    have hr : ({ c5 with zoom := z, zooming := false } : Camera).rotatePhase = ({ c5 with zoom := z, zooming := false }, c.rotX, c.rotY) := by
      simp [Camera.rotatePhase, hc5, hc4, hc3, hc2, Camera.place, hc1, h.rotating]
    simp only [Camera.animate, hz, hr, hc6]
    congr 1
    simp [Camera.translatePhase, hc5, hc4, hc3, hc2, Camera.place, hc1, h.middle, h.keys]
  have hee : e = c6 := by
    have : e = ((d.input .releaseLeft).input .releaseRight).animate := rfl
    rw [this, hd, r5, r6]
  refine ⟨?_, ?_, ?_, ?_, ?_⟩
  · rw [hd, hc4, place_distance, abs_of_nonneg (le_trans hmin (le_max_left _ _))]
  · rw [hee, hc6, place_distance, abs_of_nonneg hu]
  · rw [hd]; rfl
  · rw [hee]; rfl
  · rw [hee]
    exact ⟨rfl, h.middle, rfl, h.keys, rfl, h.rotating, rfl, he⟩

theorem wheel_idle (c : Camera) (h : Idle c) (w : ℝ) (n : ℕ) :
    Idle (c.run (List.replicate n (.wheel w))) ∧ (c.run (List.replicate n (.wheel w))).zoom = c.zoom - n * (w * c.zoomSpeed) ∧
    (c.run (List.replicate n (.wheel w))).target = c.target ∧ (c.run (List.replicate n (.wheel w))).zoomSpeed = c.zoomSpeed ∧
    (c.run (List.replicate n (.wheel w))).rotX = c.rotX ∧ (c.run (List.replicate n (.wheel w))).rotY = c.rotY := by
  induction n generalizing c with
  | zero => simp [Camera.run, h]
  | succ n ih =>
    have h1 : c.run (List.replicate (n + 1) (.wheel w)) = (c.input (.wheel w)).run (List.replicate n (.wheel w)) := rfl
    have h2 : c.input (.wheel w) = { c with zoom := c.zoom - w * c.zoomSpeed } := by simp [Camera.input, h.enabled]
    have hi : Idle ({ c with zoom := c.zoom - w * c.zoomSpeed } : Camera) :=
      ⟨h.left, h.middle, h.right, h.keys, h.zooming, h.rotating, h.translating, h.enabled⟩
    obtain ⟨i1, i2, i3, i4, i5, i6⟩ := ih _ hi
    rw [h1, h2]
    refine ⟨i1, i2.trans ?_, i3, i4, i5, i6⟩
    push_cast
    ring

/-- **C157 (wheel, defect)**: after n turns of the wheel an idle camera is seen at `zoom - n w zoomSpeed` along the line of sight, whatever the limits of the
zoom: it goes through its target to the other side and as far as one likes. -/
theorem C157_wheel (c : Camera) (h : Idle c) (w : ℝ) (n : ℕ) :
    let e := c.run (List.replicate n (.wheel w) ++ [.frame])
    e.pos = c.target + (c.zoom - n * (w * c.zoomSpeed)) • sight c.rotX c.rotY ∧ e.distance = |c.zoom - n * (w * c.zoomSpeed)| ∧
    (0 < w * c.zoomSpeed → ∀ limit : ℝ, ∃ m : ℕ, limit < (c.run (List.replicate m (.wheel w) ++ [.frame])).distance) := by
  have key : ∀ n : ℕ, (c.run (List.replicate n (.wheel w) ++ [.frame])).pos = c.target + (c.zoom - n * (w * c.zoomSpeed)) • sight c.rotX c.rotY ∧
      (c.run (List.replicate n (.wheel w) ++ [.frame])).distance = |c.zoom - n * (w * c.zoomSpeed)| := by
    intro n
    obtain ⟨i1, i2, i3, -, i5, i6⟩ := wheel_idle c h w n
    have h1 : c.run (List.replicate n (.wheel w) ++ [.frame]) = (c.run (List.replicate n (.wheel w))).animate := by
      unfold Camera.run; rw [List.foldl_append]; rfl
    rw [h1, idle_frame _ i1, place_distance, (place_eq _ _ _ _).1]
    simp only [i2, i3, i5, i6]
    trivial
  refine ⟨(key n).1, (key n).2, ?_⟩
  intro hpos limit
  obtain ⟨m, hm⟩ := exists_nat_gt ((|limit| + c.zoom) / (w * c.zoomSpeed))
  refine ⟨m, ?_⟩
  rw [(key m).2]
  rw [div_lt_iff₀ hpos] at hm
  have := neg_le_abs (c.zoom - m * (w * c.zoomSpeed))
  have := le_abs_self limit
  linarith

/-- The displacement of the target for one key, for the two rotations and the zoom. -/
def keyShift (ts z rx ry : ℝ) : Key → V3
  | .up => ts • V3.normalized (V3.cross (z • sight rx ry) (V3.normalized (V3.cross (z • sight rx ry) (sightUp rx ry))))
  | .down => ts • (-V3.normalized (V3.cross (z • sight rx ry) (V3.normalized (V3.cross (z • sight rx ry) (sightUp rx ry)))))
  | .left => ts • V3.normalized (V3.cross (z • sight rx ry) (sightUp rx ry))
  | .right => ts • (-V3.normalized (V3.cross (z • sight rx ry) (sightUp rx ry)))
  | .prior => ts • (-sightUp rx ry)
  | .next => ts • sightUp rx ry

theorem add_sub_self (t v : V3) : t + v - t = v := by ext <;> simp

/-- The state of a camera while one key is held, once the gesture began. -/
structure Held (c0 c : Camera) (k : Key) (t : V3) : Prop where
  left : c.left = false
  middle : c.middle = false
  right : c.right = false
  keys : ∀ k', c.keys k' = decide (k' = k)
  zooming : c.zooming = false
  rotating : c.rotating = false
  translating : c.translating = true
  zoom : c.zoom = c0.zoom
  rotX : c.rotX = c0.rotX
  rotY : c.rotY = c0.rotY
  speed : c.translateSpeed = c0.translateSpeed
  old : c.oldTarget = c0.target
  target : c.target = t
  pos : c.pos = t + c0.zoom • sight c0.rotX c0.rotY
  up : c.up = sightUp c0.rotX c0.rotY

theorem held_translate {c0 c : Camera} {k : Key} {t : V3} (h : Held c0 c k t) :
    c.translatePhase = { c with target := c0.target + keyShift c0.translateSpeed c0.zoom c0.rotX c0.rotY k } := by
  have hx : c.tvectX = V3.normalized (V3.cross (c0.zoom • sight c0.rotX c0.rotY) (sightUp c0.rotX c0.rotY)) := by
    unfold Camera.tvectX; rw [h.pos, h.target, h.up, add_sub_self]
  have hy : c.tvectY = V3.normalized (V3.cross (c0.zoom • sight c0.rotX c0.rotY) c.tvectX) := by
    unfold Camera.tvectY; rw [h.pos, h.target, add_sub_self]
  have hm : c.keyMove k = keyShift c0.translateSpeed c0.zoom c0.rotX c0.rotY k := by
    cases k <;> simp only [Camera.keyMove, keyShift, hy, hx, h.speed, h.up]
  have hk : c.translatePhase = c.keyStep (c.keyMove k) := by
    cases k <;> simp [Camera.translatePhase, h.middle, h.keys, h.zooming]
  rw [hk, hm]
  simp [Camera.keyStep, h.translating, h.old]

theorem held_frame {c0 c : Camera} {k : Key} {t : V3} (h : Held c0 c k t) :
    Held c0 c.animate k (c0.target + keyShift c0.translateSpeed c0.zoom c0.rotX c0.rotY k) := by
  have hz : c.zoomPhase = (c, c0.zoom) := by simp [Camera.zoomPhase, h.left, h.zooming, h.zoom]
  have hr : c.rotatePhase = (c, c0.rotX, c0.rotY) := by simp [Camera.rotatePhase, h.left, h.rotating, h.rotX, h.rotY]
  have ha : c.animate = ({ c with target := c0.target + keyShift c0.translateSpeed c0.zoom c0.rotX c0.rotY k } : Camera).place c0.zoom c0.rotX c0.rotY := by
    simp only [Camera.animate, hz, hr, held_translate h]
  rw [ha]
  exact ⟨h.left, h.middle, h.right, h.keys, h.zooming, h.rotating, h.translating, h.zoom, h.rotX, h.rotY, h.speed, h.old, rfl,
    (place_eq _ _ _ _).1, (place_eq _ _ _ _).2.1⟩

/-- **C157 (keys)**: a key held during n + 2 frames moves the target of an idle camera once, by the same displacement whatever n; the camera follows. -/
theorem C157_key_held (c : Camera) (h : Idle c) (k : Key) (n : ℕ) :
    let e := c.run (.key k true :: List.replicate (n + 2) .frame)
    e.target = c.target + keyShift c.translateSpeed c.zoom c.rotX c.rotY k ∧ e.pos - e.target = c.zoom • sight c.rotX c.rotY := by
  intro e
  set c1 : Camera := { c with keys := fun k' => if k' = k then true else c.keys k' } with hc1
  have r1 : c.input (.key k true) = c1 := by simp [Camera.input, h.enabled, hc1]
  have hk1 : ∀ k', c1.keys k' = decide (k' = k) := by
    intro k'
    show (if k' = k then true else c.keys k') = _
    by_cases hkk : k' = k <;> simp [hkk, h.keys]
  have h2 : Held c c1.animate k c.target := by
    have hz : c1.zoomPhase = (c1, c.zoom) := by simp [Camera.zoomPhase, hc1, h.left, h.zooming]
    have hr : c1.rotatePhase = (c1, c.rotX, c.rotY) := by simp [Camera.rotatePhase, hc1, h.left, h.rotating]
    have ht : c1.translatePhase = { c1 with translating := true, oldTarget := c.target } := by
      have hzz : c1.zooming = false := h.zooming
      have hmm : c1.middle = false := h.middle
      have htt : c1.translating = false := h.translating
      have : c1.translatePhase = c1.keyStep (c1.keyMove k) := by
        cases k <;> simp [Camera.translatePhase, hmm, hk1, hzz]
      rw [this]
      simp only [Camera.keyStep, htt]
      rfl
    have ha : c1.animate = ({ c1 with translating := true, oldTarget := c.target } : Camera).place c.zoom c.rotX c.rotY := by
      simp only [Camera.animate, hz, hr, ht]
    rw [ha]
    exact ⟨h.left, h.middle, h.right, hk1, h.zooming, h.rotating, rfl, rfl, rfl, rfl, rfl, rfl, rfl, (place_eq _ _ _ _).1, (place_eq _ _ _ _).2.1⟩
  have h3 : ∀ n (c2 : Camera) (t : V3), Held c c2 k t → Held c (c2.run (List.replicate (n + 1) .frame)) k
      (c.target + keyShift c.translateSpeed c.zoom c.rotX c.rotY k) := by
    intro n
    induction n with
    | zero => intro c2 t hh; exact held_frame hh
    | succ n ih => intro c2 t hh; exact ih _ _ (held_frame hh)
  have h4 : e = c1.animate.run (List.replicate (n + 1) .frame) := by
    show ((c.input (.key k true)).input .frame).run _ = _
    rw [r1]; rfl
  have h5 := h3 n _ _ h2
  rw [← h4] at h5
  refine ⟨h5.target, ?_⟩
  rw [h5.pos, h5.target, add_sub_self]

/-- A camera just created is idle, its limits are in order. -/
example (j : ℝ) : Idle (Camera.new (-160) 1 10 j) ∧ 0 ≤ (Camera.new (-160) 1 10 j).minDist ∧
    (Camera.new (-160) 1 10 j).minDist ≤ (Camera.new (-160) 1 10 j).maxDist :=
  ⟨new_idle _ _ _ _, by norm_num [Camera.new], by norm_num [Camera.new]⟩

end Frydom.Utils
