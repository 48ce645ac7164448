import Verif.Geom.Props3

/-!
# Model of `geom::FrPlane` (src/frydom/mesh/FrPlane.{h,cpp})
-/

open Classical

noncomputable section

namespace Frydom.Mesh
open Geom

/-- Fields m_origin, m_normal, m_frame (FrPlane.h), NWU. -/
structure Plane where
  origin : V3
  normal : V3
  frame : Frame

/-- `GetOrigin` / `GetNormal` (FrPlane.cpp:62-66, 78-82). -/
def Plane.getOrigin (p : Plane) (fc : FC) : V3 := conv fc p.origin
def Plane.getNormal (p : Plane) (fc : FC) : V3 := conv fc p.normal

/-- `GetIntersectionWithLine` (FrPlane.cpp:104-120) for given origin and normal (in the caller's convention); `none`: one of
the two assertions fails. -/
def intersect (origin normal P0 P1 : V3) : Option V3 :=
  let line := P1 - P0
  if 1e-16 < V3.norm line ∧ V3.dot line normal ≠ 0 then
    some (P0 + (V3.dot (origin - P0) normal / V3.dot line normal) • (P1 - P0))
  else none
def Plane.intersectLine (p : Plane) (P0 P1 : V3) (fc : FC) : Option V3 :=
  intersect (p.getOrigin fc) (p.getNormal fc) P0 P1
/-- `GetClosestPointOnPlane` (FrPlane.cpp:122-124). -/
def Plane.closest (p : Plane) (P : V3) (fc : FC) : Option V3 := p.intersectLine P (P + p.getNormal fc) fc
/-- `GetSignedDistanceToPoint` (FrPlane.cpp:97-102). -/
def Plane.signedDistance (p : Plane) (P : V3) (fc : FC) : ℝ := V3.dot (P - p.getOrigin fc) (p.getNormal fc)
/-- `GetDistanceToPoint` (FrPlane.cpp:92-94). -/
def Plane.distance (p : Plane) (P : V3) (fc : FC) : ℝ := |p.signedDistance P fc|

/-- The x axis chosen by `BuildFrame` (FrPlane.cpp:134-137). -/
def frameX (n : V3) : V3 :=
  let x := V3.normalized (V3.cross n ⟨0, -1, 0⟩)
  if V3.norm x < 1e-8 then V3.cross n ⟨1, 0, 0⟩ else x

/-- `BuildFrame` (FrPlane.cpp:126-153): origin of the frame at the point of the plane closest to the world's origin. -/
def buildFrame (origin n : V3) : Option Plane :=
  let x := frameX n
  let y := V3.normalized (V3.cross n x)
  (intersect origin n 0 (0 + n)).map fun c => ⟨origin, n, ⟨c, quatOfMat (M3.ofCols x y n) .NWU⟩⟩

/-- Constructor from origin and normal (FrPlane.cpp:18-26); the assertion on the norm of the normal is taken exactly. -/
def Plane.new (origin normal : V3) (fc : FC) : Option Plane :=
  if V3.dot normal normal = 1 then buildFrame (conv fc origin) (conv fc normal) else none

/-- `SetOrigin` (FrPlane.cpp:56-60), `SetNormal` (FrPlane.cpp:72-76, no check of the norm). -/
def Plane.setOrigin (p : Plane) (o : V3) (fc : FC) : Option Plane := buildFrame (conv fc o) p.normal
def Plane.setNormal (p : Plane) (n : V3) (fc : FC) : Option Plane := buildFrame p.origin (conv fc n)

/-- Sum of the points of a cloud (FrPlane.cpp:33-36). -/
def sumPts : List V3 → V3
  | [] => 0
  | a :: l => a + sumPts l
/-- `Σ (G - pᵢ) × (G - pᵢ₊₁)` over successive points (FrPlane.cpp:42-45). -/
def areaSum (G : V3) : List V3 → V3
  | a :: b :: l => V3.cross (G - a) (G - b) + areaSum G (b :: l)
  | _ => 0
/-- Barycentre of the vertices (FrPlane.cpp:33-37). -/
def centroid (l : List V3) : V3 := (1 / (l.length : ℝ)) • sumPts l
/-- Constructor from a cloud of points (FrPlane.cpp:28-54), for a nonempty cloud. -/
def Plane.ofCloud (l : List V3) (fc : FC) : Option Plane :=
  let G := centroid l
  buildFrame (conv fc G) (conv fc (V3.normalized (areaSum G l)))

/-! ## Lemmas -/

theorem norm_of_unit {n : V3} (h : V3.dot n n = 1) : V3.norm n = 1 := by unfold V3.norm; rw [h]; exact Real.sqrt_one

theorem normalized_unit {v : V3} (h : v ≠ 0) : V3.dot (V3.normalized v) (V3.normalized v) = 1 := by
  have hp := V3.norm_pos h
  have h2 := V3.norm_sq v
  simp only [V3.normalized, V3.dot, V3.smul_x, V3.smul_y, V3.smul_z] at *
  have hne : V3.norm v ≠ 0 := hp.ne'
  field_simp
  linarith

theorem frameX_spec {n : V3} (h : V3.dot n n = 1) : V3.dot (frameX n) (frameX n) = 1 ∧ V3.dot (frameX n) n = 0 := by
  unfold frameX
  by_cases hc : V3.cross n ⟨0, -1, 0⟩ = 0
  · have hn : V3.norm (V3.normalized (V3.cross n ⟨0, -1, 0⟩)) < 1e-8 := by
      rw [hc]; simp [V3.normalized, V3.norm, V3.dot]; norm_num
    simp only [if_pos hn]
    have hx := congrArg V3.x hc
    have hz := congrArg V3.z hc
    simp at hx hz
    simp only [V3.dot, V3.cross_x, V3.cross_y, V3.cross_z] at *
    constructor
    · have : n.y * n.y = 1 := by rw [hx, hz] at h; linarith
      rw [hx, hz]; linarith
    · rw [hx, hz]; ring
  · have hu := normalized_unit hc
    have hn : ¬ V3.norm (V3.normalized (V3.cross n ⟨0, -1, 0⟩)) < 1e-8 := by
      rw [norm_of_unit hu]; norm_num
    simp only [if_neg hn]
    refine ⟨hu, ?_⟩
    simp only [V3.normalized, V3.dot, V3.smul_x, V3.smul_y, V3.smul_z, V3.cross_x, V3.cross_y, V3.cross_z]
    ring

/-- The frame axes are right-handed and orthonormal. -/
theorem frame_axes {n : V3} (h : V3.dot n n = 1) :
    V3.normalized (V3.cross n (frameX n)) = V3.cross n (frameX n) ∧
    RightHanded (frameX n) (V3.normalized (V3.cross n (frameX n))) n := by
  obtain ⟨hu, hxn⟩ := frameX_spec h
  generalize frameX n = x at *
  have hl : V3.dot (V3.cross n x) (V3.cross n x) = 1 := by
    have : V3.dot (V3.cross n x) (V3.cross n x) = V3.dot n n * V3.dot x x - V3.dot x n ^ 2 := by
      simp [V3.dot]; ring
    rw [this, h, hu, hxn]; norm_num
  have hy : V3.normalized (V3.cross n x) = V3.cross n x := by
    unfold V3.normalized; rw [norm_of_unit hl]; ext <;> simp
  rw [hy]
  refine ⟨rfl, hu, hl, h, ?_, hxn, ?_, ?_⟩
  · simp [V3.dot]; ring
  · simp [V3.dot]; ring
  · simp only [V3.dot] at *
    ext <;> simp
    · linear_combination n.x * hu - x.x * hxn
    · linear_combination n.y * hu - x.y * hxn
    · linear_combination n.z * hu - x.z * hxn

theorem buildFrame_spec {o n : V3} (h : V3.dot n n = 1) :
    ∃ p, buildFrame o n = some p ∧ p.origin = o ∧ p.normal = n ∧ p.frame.Valid ∧
      p.frame.pos = V3.dot o n • n ∧
      getXAxis p.frame.rot .NWU = frameX n ∧ getYAxis p.frame.rot .NWU = V3.cross n (frameX n) ∧
      getZAxis p.frame.rot .NWU = n := by
  obtain ⟨hy, hR⟩ := frame_axes h
  have hn : V3.norm n = 1 := norm_of_unit h
  have e : (0 : V3) + n - 0 = n := by ext <;> simp
  obtain ⟨q, hq, hu, hx', hy', hz'⟩ := C33_rotation_from_axes _ _ _ .NWU hR
  unfold rotOfAxes at hq
  split_ifs at hq
  injection hq with hq
  subst hq
  refine ⟨⟨o, n, ⟨V3.dot o n • n, quatOfMat (M3.ofCols (frameX n) (V3.normalized (V3.cross n (frameX n))) n) .NWU⟩⟩,
    ?_, rfl, rfl, hu, rfl, hx', hy'.trans hy, hz'⟩
  unfold buildFrame intersect
  simp only [e, hn, h]
  rw [if_pos ⟨by norm_num, by norm_num⟩]
  simp only [Option.map_some, div_one]
  congr 4
  · have : o - 0 = o := by ext <;> simp
    rw [this]
    ext <;> simp

/-! ## C24 -/

/-- Specification: `P` belongs to the plane through `o` with normal `n`. -/
def OnPlane (o n P : V3) : Prop := V3.dot (P - o) n = 0

/-- **C24, construction.** From any origin and unit normal, in either convention, the plane is built; its getters give back
origin and normal in that convention; its frame is a valid right-handed frame centred on the plane, with z along the normal
and x, y in the plane. -/
theorem C24_construction (o n : V3) (h : V3.dot n n = 1) (fc : FC) :
    ∃ p, Plane.new o n fc = some p ∧ p.getOrigin fc = o ∧ p.getNormal fc = n ∧ p.frame.Valid ∧
      OnPlane o n (p.frame.getPosition fc) ∧ conv fc (getZAxis p.frame.rot .NWU) = n ∧
      V3.dot (getXAxis p.frame.rot .NWU) p.normal = 0 ∧ V3.dot (getYAxis p.frame.rot .NWU) p.normal = 0 ∧
      RightHanded (getXAxis p.frame.rot .NWU) (getYAxis p.frame.rot .NWU) (getZAxis p.frame.rot .NWU) := by
  have h' : V3.dot (conv fc n) (conv fc n) = 1 := by rw [conv_dot]; exact h
  obtain ⟨p, hp, ho, hn, hv, hpos, hx, hy, hz⟩ := buildFrame_spec (o := conv fc o) h'
  obtain ⟨hyy, hR⟩ := frame_axes h'
  refine ⟨p, ?_, ?_, ?_, hv, ?_, ?_, ?_, ?_, ?_⟩
  · unfold Plane.new; rw [if_pos h, hp]
  · unfold Plane.getOrigin; rw [ho, conv_conv]
  · unfold Plane.getNormal; rw [hn, conv_conv]
  · unfold OnPlane Frame.getPosition
    rw [hpos, conv_smul, conv_conv, conv_dot]
    simp only [V3.dot, V3.sub_x, V3.sub_y, V3.sub_z, V3.smul_x, V3.smul_y, V3.smul_z] at *
    linear_combination (o.x * n.x + o.y * n.y + o.z * n.z) * h
  · rw [hz, conv_conv]
  · rw [hx, hn]; exact (frameX_spec h').2
  · rw [hy, hn]; simp [V3.dot]; ring
  · rw [hx, hy, hz, ← hyy]; exact hR

theorem cross_normal {n u v : V3} (h : V3.dot n n = 1) (hu : V3.dot u n = 0) (hv : V3.dot v n = 0) : V3.cross u v = (V3.dot n (V3.cross u v)) • n := by
  simp only [V3.dot] at h hu hv
  ext
  · simp [V3.dot]
    linear_combination -(u.y * v.z - u.z * v.y) * h - (v.y * n.z - v.z * n.y) * hu + (u.y * n.z - u.z * n.y) * hv
  · simp [V3.dot]
    linear_combination -(u.z * v.x - u.x * v.z) * h - (v.z * n.x - v.x * n.z) * hu + (u.z * n.x - u.x * n.z) * hv
  · simp [V3.dot]
    linear_combination -(u.x * v.y - u.y * v.x) * h - (v.x * n.y - v.y * n.x) * hu + (u.x * n.y - u.y * n.x) * hv

theorem areaSum_normal {n G : V3} (h : V3.dot n n = 1) : ∀ l : List V3, (∀ p ∈ l, V3.dot (G - p) n = 0) → ∃ k : ℝ, areaSum G l = k • n
  | [], _ => ⟨0, by ext <;> simp [areaSum]⟩
  | [a], _ => ⟨0, by ext <;> simp [areaSum]⟩
  | a :: b :: l, hp => by
    obtain ⟨k, hk⟩ := areaSum_normal h (b :: l) fun p hp' => hp p (by simp [List.mem_cons.mp hp'])
    refine ⟨V3.dot n (V3.cross (G - a) (G - b)) + k, ?_⟩
    show V3.cross (G - a) (G - b) + areaSum G (b :: l) = _
    rw [hk]
    conv_lhs => rw [cross_normal h (hp a (by simp)) (hp b (by simp))]
    ext <;> simp <;> ring

theorem sumPts_plane {o n : V3} : ∀ l : List V3, (∀ p ∈ l, OnPlane o n p) → V3.dot (sumPts l - (l.length : ℝ) • o) n = 0
  | [], _ => by simp [sumPts, V3.dot]
  | a :: l, hp => by
    have h1 := sumPts_plane l fun p hp' => hp p (by simp [hp'])
    have h2 : V3.dot (a - o) n = 0 := hp a (by simp)
    simp only [sumPts, List.length_cons, V3.dot, V3.sub_x, V3.sub_y, V3.sub_z, V3.smul_x, V3.smul_y, V3.smul_z, V3.add_x, V3.add_y, V3.add_z] at *
    push_cast
    linear_combination h1 + h2

/-- **C24, a plane through points.** The plane built from a cloud of points lying in a plane, given in either convention, successive points not all aligned with the centre, is that plane: its origin, read in that convention, is the mean of
the points, is on the plane, and its normal is one of the two unit normals. -/
theorem C24_cloud (l : List V3) (hl : l ≠ []) (o n : V3) (h : V3.dot n n = 1) (hp : ∀ p ∈ l, OnPlane o n p) (ha : areaSum (centroid l) l ≠ 0) (fc : FC) :
    ∃ pl, Plane.ofCloud l fc = some pl ∧ (l.length : ℝ) • pl.getOrigin fc = sumPts l ∧ OnPlane o n (pl.getOrigin fc) ∧ (pl.getNormal fc = n ∨ pl.getNormal fc = -n) := by
  have hc : V3.dot (conv fc (V3.normalized (areaSum (centroid l) l))) (conv fc (V3.normalized (areaSum (centroid l) l))) = 1 := by
    rw [conv_dot]; exact normalized_unit ha
  have h0 : (l.length : ℝ) ≠ 0 := by
    have := List.length_pos_iff.mpr hl
    positivity
  have hG : OnPlane o n (centroid l) := by
    have h1 := sumPts_plane l hp
    unfold OnPlane centroid
    simp only [V3.dot, V3.sub_x, V3.sub_y, V3.sub_z, V3.smul_x, V3.smul_y, V3.smul_z] at *
    field_simp
    linear_combination h1
  obtain ⟨pl, e, ho, hn, -⟩ := buildFrame_spec (o := conv fc (centroid l)) hc
  refine ⟨pl, e, ?_, ?_, ?_⟩
  · unfold Plane.getOrigin; rw [ho, conv_conv]; unfold centroid
    ext <;> simp <;> field_simp
  · unfold Plane.getOrigin; rw [ho, conv_conv]; exact hG
  · unfold Plane.getNormal; rw [hn, conv_conv]
    obtain ⟨k, hk⟩ := areaSum_normal (G := centroid l) h l fun p hp' => by
      have h1 := hp p hp'
      unfold OnPlane at h1 hG
      simp only [V3.dot, V3.sub_x, V3.sub_y, V3.sub_z] at *
      linear_combination hG - h1
    have hk0 : k ≠ 0 := by
      rintro rfl
      exact ha (by rw [hk]; ext <;> simp)
    have hnorm : V3.norm (k • n) = |k| := by
      unfold V3.norm
      rw [← Real.sqrt_sq_eq_abs]
      congr 1
      simp only [V3.dot, V3.smul_x, V3.smul_y, V3.smul_z] at *
      linear_combination k ^ 2 * h
    rw [hk]
    unfold V3.normalized
    rw [hnorm]
    rcases lt_or_gt_of_ne hk0 with hk1 | hk1
    · right; rw [abs_of_neg hk1]; ext <;> simp <;> field_simp
    · left; rw [abs_of_pos hk1]; ext <;> simp <;> field_simp

/-- The hypotheses are met by a triangle of the plane `z = 2`, given closed. -/
example : let l : List V3 := [⟨0, 0, 2⟩, ⟨3, 0, 2⟩, ⟨0, 3, 2⟩, ⟨0, 0, 2⟩]
    (∀ p ∈ l, OnPlane ⟨0, 0, 2⟩ ⟨0, 0, 1⟩ p) ∧ areaSum (centroid l) l ≠ 0 := by
  intro l
  refine ⟨fun p hp => ?_, fun h => ?_⟩
  · simp only [l, List.mem_cons, List.not_mem_nil, or_false] at hp
    rcases hp with rfl | rfl | rfl | rfl <;> simp [OnPlane, V3.dot]
  · have := congrArg V3.z h
    simp [l, areaSum, centroid, sumPts] at this
    norm_num at this

/-- **C24, setters.** `SetOrigin` and `SetNormal` (unit) behave as a fresh construction with the new origin or normal and
the other one unchanged. -/
theorem C24_setters (p : Plane) (h : V3.dot p.normal p.normal = 1) (v : V3) (fc : FC) :
    (p.setOrigin v fc = Plane.new v (p.getNormal fc) fc ∧ ∃ p', p.setOrigin v fc = some p' ∧ p'.getOrigin fc = v ∧
      p'.getNormal fc = p.getNormal fc) ∧
    (V3.dot v v = 1 → p.setNormal v fc = Plane.new (p.getOrigin fc) v fc ∧ ∃ p', p.setNormal v fc = some p' ∧
      p'.getNormal fc = v ∧ p'.getOrigin fc = p.getOrigin fc) := by
  have hn : V3.dot (p.getNormal fc) (p.getNormal fc) = 1 := by unfold Plane.getNormal; rw [conv_dot]; exact h
  have e1 : p.setOrigin v fc = Plane.new v (p.getNormal fc) fc := by
    unfold Plane.setOrigin Plane.new; rw [if_pos hn]; unfold Plane.getNormal; rw [conv_conv]
  refine ⟨⟨e1, ?_⟩, fun hv => ?_⟩
  · obtain ⟨p', h1, h2, h3, -⟩ := C24_construction v (p.getNormal fc) hn fc
    exact ⟨p', by rw [e1, h1], h2, h3⟩
  · have e2 : p.setNormal v fc = Plane.new (p.getOrigin fc) v fc := by
      unfold Plane.setNormal Plane.new; rw [if_pos hv]; unfold Plane.getOrigin; rw [conv_conv]
    obtain ⟨p', h1, h2, h3, -⟩ := C24_construction (p.getOrigin fc) v hv fc
    exact ⟨e2, p', by rw [e2, h1], h3, h2⟩

/-- **C24, line intersection.** Whenever the line is not degenerate and not parallel to the plane, the intersection is
returned, lies on the plane and on the line, and is the only such point. -/
theorem C24_intersection (p : Plane) (P0 P1 : V3) (fc : FC) (h1 : 1e-16 < V3.norm (P1 - P0))
    (h2 : V3.dot (P1 - P0) (p.getNormal fc) ≠ 0) :
    ∃ I, p.intersectLine P0 P1 fc = some I ∧ OnPlane (p.getOrigin fc) (p.getNormal fc) I ∧ (∃ s : ℝ, I = P0 + s • (P1 - P0)) ∧
      ∀ s : ℝ, OnPlane (p.getOrigin fc) (p.getNormal fc) (P0 + s • (P1 - P0)) → P0 + s • (P1 - P0) = I := by
  unfold Plane.intersectLine intersect
  simp only
  rw [if_pos ⟨h1, h2⟩]
  generalize p.getOrigin fc = o at *
  generalize p.getNormal fc = n at *
  refine ⟨_, rfl, ?_, ⟨_, rfl⟩, ?_⟩
  · unfold OnPlane
    have hs : V3.dot (o - P0) n / V3.dot (P1 - P0) n * V3.dot (P1 - P0) n = V3.dot (o - P0) n := div_mul_cancel₀ _ h2
    generalize V3.dot (o - P0) n / V3.dot (P1 - P0) n = s at hs
    simp only [V3.dot, V3.sub_x, V3.sub_y, V3.sub_z, V3.add_x, V3.add_y, V3.add_z, V3.smul_x, V3.smul_y, V3.smul_z] at *
    linear_combination hs
  · intro s hs
    have : s = V3.dot (o - P0) n / V3.dot (P1 - P0) n := by
      rw [eq_div_iff h2]
      unfold OnPlane at hs
      simp only [V3.dot, V3.sub_x, V3.sub_y, V3.sub_z, V3.add_x, V3.add_y, V3.add_z, V3.smul_x, V3.smul_y, V3.smul_z] at *
      linarith
    rw [this]

/-- **C24, closest point and distance.** For a plane with unit normal, the closest point is on the plane, no point of the
plane is closer, and the reported distance is the distance to it; the signed distance is positive exactly on the side of
the normal. -/
theorem C24_closest (p : Plane) (h : V3.dot p.normal p.normal = 1) (P : V3) (fc : FC) :
    ∃ C, p.closest P fc = some C ∧ OnPlane (p.getOrigin fc) (p.getNormal fc) C ∧ p.distance P fc = V3.norm (P - C) ∧
      P - C = p.signedDistance P fc • p.getNormal fc ∧
      ∀ X, OnPlane (p.getOrigin fc) (p.getNormal fc) X → V3.norm (P - C) ≤ V3.norm (P - X) := by
  have hn : V3.dot (p.getNormal fc) (p.getNormal fc) = 1 := by unfold Plane.getNormal; rw [conv_dot]; exact h
  have e : P + p.getNormal fc - P = p.getNormal fc := by ext <;> simp
  unfold Plane.closest Plane.intersectLine intersect
  simp only [e]
  rw [if_pos ⟨by rw [norm_of_unit hn]; norm_num, by rw [hn]; norm_num⟩, hn]
  unfold Plane.distance Plane.signedDistance
  generalize p.getOrigin fc = o at *
  generalize p.getNormal fc = n at *
  simp only [div_one]
  have hPC : P - (P + V3.dot (o - P) n • n) = V3.dot (P - o) n • n := by
    ext <;> simp [V3.dot] <;> ring
  refine ⟨_, rfl, ?_, ?_, hPC, ?_⟩
  · unfold OnPlane
    simp only [V3.dot, V3.sub_x, V3.sub_y, V3.sub_z, V3.add_x, V3.add_y, V3.add_z, V3.smul_x, V3.smul_y, V3.smul_z] at *
    linear_combination ((o.x - P.x) * n.x + (o.y - P.y) * n.y + (o.z - P.z) * n.z) * hn
  · rw [hPC]
    unfold V3.norm
    rw [← Real.sqrt_sq_eq_abs]
    congr 1
    have : V3.dot (V3.dot (P - o) n • n) (V3.dot (P - o) n • n) = V3.dot (P - o) n ^ 2 * V3.dot n n := by
      generalize V3.dot (P - o) n = c
      simp [V3.dot]; ring
    rw [this, hn, mul_one]
  · intro X hX
    rw [hPC]
    unfold V3.norm
    apply Real.sqrt_le_sqrt
    have e1 : V3.dot (V3.dot (P - o) n • n) (V3.dot (P - o) n • n) = V3.dot (P - o) n ^ 2 * V3.dot n n := by
      generalize V3.dot (P - o) n = c
      simp [V3.dot]; ring
    have e2 : V3.dot (P - o) n = V3.dot (P - X) n := by
      unfold OnPlane at hX
      simp only [V3.dot, V3.sub_x, V3.sub_y, V3.sub_z] at *
      linarith
    rw [e1, hn, mul_one, e2]
    -- Cauchy–Schwarz
    have cs : V3.dot (P - X) n ^ 2 ≤ V3.dot (P - X) (P - X) * V3.dot n n := by
      generalize P - X = v
      have : V3.dot v v * V3.dot n n - V3.dot v n ^ 2 = V3.dot (V3.cross v n) (V3.cross v n) := by
        simp [V3.dot]; ring
      have := V3.dot_self_nonneg (V3.cross v n)
      linarith
    rw [hn, mul_one] at cs
    exact cs

/-- Non-vacuity: a tilted plane through a point, read in NED. -/
example : ∃ p, Plane.new ⟨1, 2, 3⟩ ⟨0, 3/5, 4/5⟩ .NED = some p ∧ p.distance 0 .NED = 18/5 := by
  obtain ⟨p, hp, ho, hn, -⟩ := C24_construction ⟨1, 2, 3⟩ ⟨0, 3/5, 4/5⟩ (by norm_num [V3.dot]) .NED
  refine ⟨p, hp, ?_⟩
  unfold Plane.distance Plane.signedDistance
  rw [ho, hn]
  norm_num [V3.dot]

end Frydom.Mesh
