import Verif.Mesh.Polygon

/-!
# Properties of polygons (C23, C34)
-/

open Classical

noncomputable section

namespace Frydom.Mesh
open Geom

theorem conv_nwu (v : V3) : conv .NWU v = v := by simp [conv]

theorem map_nwu (l : List V3) : l.map (conv .NWU) = l := by
  have : conv .NWU = id := by funext v; exact conv_nwu v
  rw [this, List.map_id]

theorem conj_rotate_coords (q : Q) (v : V3) :
    q.conj.rotate v = ⟨V3.dot v q.xAxis, V3.dot v q.yAxis, V3.dot v q.zAxis⟩ := by
  ext <;> simp [Q.rotate, Q.toMat, M3.mulVec, V3.dot, Q.xAxis, Q.yAxis, Q.zAxis] <;> ring

/-- Coordinates of a point in the plane's frame. -/
theorem pointInFrame_coords (f : Frame) (v : V3) :
    f.pointInFrame v .NWU = ⟨V3.dot (v - f.pos) (getXAxis f.rot .NWU), V3.dot (v - f.pos) (getYAxis f.rot .NWU),
      V3.dot (v - f.pos) (getZAxis f.rot .NWU)⟩ := by
  unfold Frame.pointInFrame Frame.projParentInFrame rotate Frame.getPosition quatInv
  simp only [conv_nwu]
  rw [conj_rotate_coords]
  simp [getXAxis, getYAxis, getZAxis, convQ]

/-- Vector area: half the sum of `Pᵢ × Pᵢ₊₁` over the successive vertices. -/
def vectorArea : List V3 → V3
  | a :: b :: l => (1 / 2 : ℝ) • V3.cross a b + vectorArea (b :: l)
  | _ => 0

theorem areaSum_eq (G p : V3) (l : List V3) :
    areaSum G (p :: l) = (2 : ℝ) • vectorArea (p :: l) - V3.cross G ((p :: l).getLast (by simp) - p) := by
  induction l generalizing p with
  | nil => simp only [areaSum, vectorArea, List.getLast_singleton]; ext <;> simp
  | cons q l ih =>
    rw [areaSum, ih, vectorArea, List.getLast_cons (List.cons_ne_nil q l)]
    generalize (q :: l).getLast _ = z
    generalize vectorArea (q :: l) = w
    ext <;> simp <;> ring

theorem closed_last {p : V3} {l : List V3} (h : Closed (p :: l)) : (p :: l).getLast (by simp) = p := by
  unfold Closed at h
  rw [List.head?_cons, List.getLast?_eq_getLast_of_ne_nil (by simp)] at h
  injection h with h
  exact h.symm

theorem areaSum_closed (G : V3) {l : List V3} (h : Closed l) : areaSum G l = (2 : ℝ) • vectorArea l := by
  cases l with
  | nil => simp only [areaSum, vectorArea]; ext <;> simp
  | cons p l => rw [areaSum_eq, closed_last h]; ext <;> simp

theorem ne_nil_of_area {l : List V3} (h : vectorArea l ≠ 0) : l ≠ [] := by
  rintro rfl; exact h rfl

theorem normalized_two (v : V3) : V3.normalized ((2:ℝ) • v) = V3.normalized v := by
  by_cases h : v = 0
  · subst h; ext <;> simp [V3.normalized]
  have hn : V3.norm ((2:ℝ) • v) = 2 * V3.norm v := by
    unfold V3.norm
    have : V3.dot ((2:ℝ) • v) ((2:ℝ) • v) = 2 ^ 2 * V3.dot v v := by simp [V3.dot]; ring
    rw [this, Real.sqrt_mul (by norm_num), Real.sqrt_sq (by norm_num)]
  unfold V3.normalized
  rw [hn]
  have hp := (V3.norm_pos h).ne'
  ext <;> simp <;> field_simp

/-- The plane of a closed vertex list of nonzero vector area. -/
theorem planeOf_spec {l : List V3} (hc : Closed l) (ha : vectorArea l ≠ 0) :
    ∃ pl, planeOf l = some pl ∧ pl.origin = centroid l ∧ pl.normal = V3.normalized (vectorArea l) ∧ pl.frame.Valid ∧
      pl.frame.pos = V3.dot (centroid l) pl.normal • pl.normal ∧
      getXAxis pl.frame.rot .NWU = frameX pl.normal ∧ getYAxis pl.frame.rot .NWU = V3.cross pl.normal (frameX pl.normal) ∧
      getZAxis pl.frame.rot .NWU = pl.normal ∧ V3.dot pl.normal pl.normal = 1 := by
  have hu := normalized_unit ha
  obtain ⟨pl, h1, h2, h3, h4, h5, h6, h7, h8⟩ := buildFrame_spec (o := centroid l) hu
  refine ⟨pl, ?_, h2, h3, h4, ?_, ?_, ?_, ?_, ?_⟩
  · unfold planeOf Plane.ofCloud
    simp only [conv_nwu]
    rw [areaSum_closed _ hc, normalized_two, h1]
  · rw [h3]; exact h5
  · rw [h3]; exact h6
  · rw [h3]; exact h7
  · rw [h3]; exact h8
  · rw [h3]; exact hu

/-- What the user hands over: a closed vertex list (given in convention `fc`) of nonzero vector area, whose vertices are within
1e-4 of the plane through their centroid with the direction of the vector area. -/
structure GoodInput (l : List V3) (fc : FC) : Prop where
  closed : Closed l
  area : vectorArea (l.map (conv fc)) ≠ 0
  planar : ∀ v ∈ l.map (conv fc), |V3.dot (v - centroid (l.map (conv fc))) (V3.normalized (vectorArea (l.map (conv fc))))| < 1e-4

theorem Closed.map {α β : Type} (f : α → β) {l : List α} (h : Closed l) : Closed (l.map f) := by
  unfold Closed at *
  rw [List.head?_map, List.getLast?_map, h]

theorem Polygon.new_spec (j : Junk) {l : List V3} {fc : FC} (h : GoodInput l fc) :
    ∃ pl p, planeOf (l.map (conv fc)) = some pl ∧ Polygon.new j l fc = some p ∧ p.vertices = l.map (conv fc) ∧
      ∀ t, p.getSurfaceIntegral t = junkTerm j t + pairSum (codeEdge t) (vertexInPlane pl (l.map (conv fc))) := by
  obtain ⟨pl, h1, h2, h3, -⟩ := planeOf_spec (h.closed.map (conv fc)) h.area
  have hne := ne_nil_of_area h.area
  obtain ⟨a, ha, hg⟩ := integrals_get j (vertexInPlane pl (l.map (conv fc))) (by simp [vertexInPlane] at hne ⊢; exact hne)
  refine ⟨pl, ⟨l.map (conv fc), a⟩, h1, ?_, rfl, hg⟩
  unfold Polygon.new
  simp only [h1, Option.bind_some]
  rw [if_pos, ha]; · rfl
  intro v hv
  unfold Plane.distance Plane.signedDistance Plane.getOrigin Plane.getNormal
  rw [conv_nwu, conv_nwu, h2, h3]
  exact h.planar v hv

/-- In-plane coordinates of the vertices: abscissae and ordinates in the frame of the polygon's plane. -/
def planeCoords (pl : Plane) (l : List V3) : List (ℝ × ℝ) :=
  l.map fun v => (V3.dot (v - pl.frame.pos) (getXAxis pl.frame.rot .NWU), V3.dot (v - pl.frame.pos) (getYAxis pl.frame.rot .NWU))

theorem vertexInPlane_xy (pl : Plane) (l : List V3) : (vertexInPlane pl l).map xy = planeCoords pl l := by
  unfold vertexInPlane planeCoords
  rw [List.map_map]
  apply List.map_congr_left
  intro v _
  simp [pointInFrame_coords, xy]

/-- The integrands whose accumulators are initialised. -/
def Integrand.Low : Integrand → Prop
  | .one | .x | .y | .xy | .x2 | .y2 => True
  | _ => False

/-- **C23 (part).** For every closed planar polygon of nonzero area, in either convention and for any number of vertices,
construction succeeds and the reported integrals of 1, x, y, xy, x², y² are the signed surface integrals of these monomials,
expressed in the orthonormal axes of the polygon's plane: whatever the apex `O` of the decomposition in triangles.
Missing: x²y, xy² (the code adds them to an uninitialised number) and x³, y³ (idem, and the formula lacks a term). -/
theorem C23_integrals_partial (j : Junk) (l : List V3) (fc : FC) (h : GoodInput l fc) :
    ∃ pl p, planeOf (l.map (conv fc)) = some pl ∧ Polygon.new j l fc = some p ∧
      RightHanded (getXAxis pl.frame.rot .NWU) (getYAxis pl.frame.rot .NWU) (V3.normalized (vectorArea (l.map (conv fc)))) ∧
      ∀ t : Integrand, t.Low → ∀ O : ℝ × ℝ,
        p.getSurfaceIntegral t = polyInt t.eval O (planeCoords pl (l.map (conv fc))) := by
  obtain ⟨pl, h1, -, h3, -, -, h6, h7, -, hu⟩ := planeOf_spec (h.closed.map (conv fc)) h.area
  obtain ⟨pl', p, h1', h2, -, hg⟩ := Polygon.new_spec j h
  obtain rfl : pl = pl' := by rw [h1] at h1'; injection h1'
  refine ⟨pl, p, h1, h2, ?_, ?_⟩
  · obtain ⟨hy, hR⟩ := frame_axes hu
    rw [h6, h7, ← h3, ← hy]; exact hR
  · intro t ht O
    rw [hg, ← vertexInPlane_xy]
    have hO : O = xy ⟨O.1, O.2, 0⟩ := rfl
    rw [hO, polyInt_eq t _ _ (by unfold vertexInPlane; exact (h.closed.map (conv fc)).map _)]
    cases t <;> simp only [Integrand.Low] at ht <;> simp only [junkTerm, zero_add] <;> rfl

/-- The two mixed cubic integrals are exact up to an uninitialised number. -/
theorem C23_mixed_cubic_partial (j : Junk) (l : List V3) (fc : FC) (h : GoodInput l fc) (O : ℝ × ℝ) :
    ∃ pl p, planeOf (l.map (conv fc)) = some pl ∧ Polygon.new j l fc = some p ∧
      p.getSurfaceIntegral .x2y = j.x2y / 60 + polyInt (fun x y => x ^ 2 * y) O (planeCoords pl (l.map (conv fc))) ∧
      p.getSurfaceIntegral .y2x = - j.y2x / 60 + polyInt (fun x y => y ^ 2 * x) O (planeCoords pl (l.map (conv fc))) := by
  obtain ⟨pl, p, h1, h2, -, hg⟩ := Polygon.new_spec j h
  have hO : O = xy ⟨O.1, O.2, 0⟩ := rfl
  have hcl : Closed (vertexInPlane pl (l.map (conv fc))) := by
    unfold vertexInPlane; exact (h.closed.map (conv fc)).map _
  refine ⟨pl, p, h1, h2, ?_, ?_⟩
  · have := polyInt_eq .x2y ⟨O.1, O.2, 0⟩ _ hcl
    rw [hg, ← vertexInPlane_xy, hO]
    have e : (fun x y : ℝ => x ^ 2 * y) = Integrand.x2y.eval := rfl
    rw [e, this]; rfl
  · have := polyInt_eq .y2x ⟨O.1, O.2, 0⟩ _ hcl
    rw [hg, ← vertexInPlane_xy, hO]
    have e : (fun x y : ℝ => y ^ 2 * x) = Integrand.y2x.eval := rfl
    rw [e, this]; unfold junkTerm; simp only; rw [div_neg, neg_div]; rfl

theorem pairSum_congr {α : Type} {E F : α → α → ℝ} (h : ∀ a b, E a b = F a b) (l : List α) : pairSum E l = pairSum F l := by
  have : E = F := by funext a b; exact h a b
  rw [this]

theorem pairSum_add {α : Type} (E F : α → α → ℝ) (l : List α) :
    pairSum (fun a b => E a b + F a b) l = pairSum E l + pairSum F l := by
  induction l with
  | nil => simp [pairSum]
  | cons p l ih => cases l with
    | nil => simp [pairSum]
    | cons q l => rw [pairSum, pairSum, pairSum, ih]; ring

theorem pairSum_map {α β : Type} (f : α → β) (E : β → β → ℝ) (l : List α) :
    pairSum E (l.map f) = pairSum (fun a b => E (f a) (f b)) l := by
  induction l with
  | nil => rfl
  | cons p l ih => cases l with
    | nil => rfl
    | cons q l => simp only [List.map_cons] at ih ⊢; rw [pairSum, pairSum, ih]

theorem pairSum_cross (n : V3) (l : List V3) :
    pairSum (fun a b => V3.dot n (V3.cross a b) / 2) l = V3.dot n (vectorArea l) := by
  induction l with
  | nil => simp [pairSum, vectorArea, V3.dot]
  | cons p l ih => cases l with
    | nil => simp [pairSum, vectorArea, V3.dot]
    | cons q l => rw [pairSum, vectorArea, ih]; simp [V3.dot]; ring

/-- **C23, area.** The reported area is the norm of the vector area `½ Σ Pᵢ × Pᵢ₊₁`; in particular it is positive, and the same
in both conventions. -/
theorem C23_area (j : Junk) (l : List V3) (fc : FC) (h : GoodInput l fc) :
    ∃ p, Polygon.new j l fc = some p ∧ p.getArea = V3.norm (vectorArea l) ∧ 0 < p.getArea := by
  obtain ⟨pl, h1, -, h3, -, -, h6, h7, -, hu⟩ := planeOf_spec (h.closed.map (conv fc)) h.area
  obtain ⟨pl', p, h1', h2, -, hg⟩ := Polygon.new_spec j h
  obtain rfl : pl = pl' := by rw [h1] at h1'; injection h1'
  have hva : ∀ l : List V3, vectorArea (l.map (conv fc)) = conv fc (vectorArea l) := by
    intro l
    induction l with
    | nil => cases fc <;> ext <;> simp [vectorArea, conv, swap]
    | cons p l ih => cases l with
      | nil => cases fc <;> ext <;> simp [vectorArea, conv, swap]
      | cons q l =>
        simp only [List.map_cons] at ih ⊢
        rw [vectorArea, vectorArea, ih]
        cases fc <;> ext <;> simp [conv, swap] <;> ring
  have hnorm : V3.norm (vectorArea (l.map (conv fc))) = V3.norm (vectorArea l) := by
    rw [hva]; unfold V3.norm; rw [conv_dot]
  have key : p.getArea = V3.norm (vectorArea (l.map (conv fc))) := by
    unfold Polygon.getArea
    rw [hg]
    have hc' := h.closed.map (conv fc)
    have ha' := h.area
    generalize l.map (conv fc) = m at *
    simp only [junkTerm, zero_add]
    unfold vertexInPlane
    rw [pairSum_map]
    obtain ⟨hy, hR⟩ := frame_axes hu
    obtain ⟨-, -, -, -, -, -, hxy⟩ := hR
    rw [hy] at hxy
    have hz : V3.cross (getXAxis pl.frame.rot .NWU) (getYAxis pl.frame.rot .NWU) = pl.normal := by rw [h6, h7]; exact hxy
    have e : ∀ a b : V3, codeEdge .one (pl.frame.pointInFrame a .NWU) (pl.frame.pointInFrame b .NWU) =
        V3.dot pl.normal (V3.cross a b) / 2 +
        ((fun v : V3 => - V3.dot pl.normal (V3.cross pl.frame.pos v) / 2 +
          (pl.frame.pointInFrame v .NWU).x * (pl.frame.pointInFrame v .NWU).y / 2) b -
         (fun v : V3 => - V3.dot pl.normal (V3.cross pl.frame.pos v) / 2 +
          (pl.frame.pointInFrame v .NWU).x * (pl.frame.pointInFrame v .NWU).y / 2) a) := by
      intro a b
      simp only [pointInFrame_coords, codeEdge, edge]
      rw [← hz]
      generalize getXAxis pl.frame.rot .NWU = X at *
      generalize getYAxis pl.frame.rot .NWU = Y at *
      generalize pl.frame.pos = c
      simp [V3.dot]; ring
    rw [pairSum_congr e, pairSum_add, pairSum_closed _ hc', add_zero, pairSum_cross, h3]
    generalize hv : vectorArea m = v
    have hv0 : v ≠ 0 := by rw [← hv]; exact ha'
    have hp := (V3.norm_pos hv0).ne'
    have hs := V3.norm_sq v
    unfold V3.normalized
    simp only [V3.dot, V3.smul_x, V3.smul_y, V3.smul_z] at *
    field_simp
    linarith
  refine ⟨p, h2, by rw [key, hnorm], ?_⟩
  rw [key]; exact V3.norm_pos h.area

/-! ### A concrete polygon: the unit square of the horizontal plane -/

def square : List V3 := [⟨0, 0, 0⟩, ⟨1, 0, 0⟩, ⟨1, 1, 0⟩, ⟨0, 1, 0⟩, ⟨0, 0, 0⟩]

theorem square_area : vectorArea (square.map (conv .NWU)) = ⟨0, 0, 1⟩ := by
  simp only [square, List.map, conv_nwu, vectorArea]
  ext <;> simp
  norm_num

theorem norm_e3 : V3.normalized ⟨0, 0, 1⟩ = ⟨0, 0, 1⟩ := by
  have : V3.norm ⟨0, 0, 1⟩ = 1 := norm_of_unit (by norm_num [V3.dot])
  unfold V3.normalized; rw [this]; ext <;> simp

/-- Non-vacuity: the unit square is a good input. -/
theorem square_good : GoodInput square .NWU where
  closed := by simp [Closed, square]
  area := by rw [square_area]; intro h; have := congrArg V3.z h; simp at this
  planar := by
    rw [square_area, norm_e3]
    intro v hv
    simp only [square, List.map, conv_nwu, List.mem_cons, List.not_mem_nil, or_false] at hv
    simp only [square, List.map, conv_nwu, centroid, sumPts]
    rcases hv with rfl | rfl | rfl | rfl | rfl <;> simp [V3.dot] <;> norm_num

example : ∃ p, Polygon.new ⟨0, 0, 0, 0⟩ square .NWU = some p ∧ p.getArea = 1 := by
  obtain ⟨p, h1, h2, -⟩ := C23_area ⟨0, 0, 0, 0⟩ square .NWU square_good
  refine ⟨p, h1, ?_⟩
  have := square_area
  rw [map_nwu] at this
  rw [h2, this]
  exact norm_of_unit (by norm_num [V3.dot])

theorem frameX_e3 : frameX ⟨0, 0, 1⟩ = ⟨1, 0, 0⟩ := by
  unfold frameX
  have h1 : V3.cross ⟨0, 0, 1⟩ ⟨0, -1, 0⟩ = ⟨1, 0, 0⟩ := by ext <;> simp
  have h2 : V3.norm ⟨1, 0, 0⟩ = 1 := norm_of_unit (by norm_num [V3.dot])
  have h3 : V3.normalized ⟨1, 0, 0⟩ = ⟨1, 0, 0⟩ := by unfold V3.normalized; rw [h2]; ext <;> simp
  simp only [h1, h3, h2]
  rw [if_neg (by norm_num)]

/-- The unit square seen in its plane's frame is itself. -/
theorem square_inPlane : ∃ pl, planeOf (square.map (conv .NWU)) = some pl ∧
    vertexInPlane pl (square.map (conv .NWU)) = square := by
  obtain ⟨pl, h1, -, h3, -, h5, h6, h7, h8, -⟩ := planeOf_spec (square_good.closed.map (conv .NWU)) square_good.area
  refine ⟨pl, h1, ?_⟩
  rw [square_area, norm_e3] at h3
  rw [h3, frameX_e3] at h6 h7
  rw [h3] at h5 h8
  have hpos : pl.frame.pos = 0 := by
    rw [h5]
    simp only [square, List.map, conv_nwu, centroid, sumPts]
    ext <;> simp [V3.dot]
  unfold vertexInPlane
  have e : ∀ v, pl.frame.pointInFrame v .NWU = v := by
    intro v
    rw [pointInFrame_coords, hpos, h6, h7, h8]
    ext <;> simp [V3.dot]
  have e2 : (fun v => pl.frame.pointInFrame v .NWU) = id := by funext v; exact e v
  rw [e2, List.map_id]
  exact map_nwu square

/-- **C23 fails for x³ (and y³)**, even if memory happened to hold zeros: on the unit square the code reports 1/5 where the
integral is 1/4. -/
theorem C23_cubic_counterexample : ∃ pl p, planeOf (square.map (conv .NWU)) = some pl ∧
    Polygon.new ⟨0, 0, 0, 0⟩ square .NWU = some p ∧ p.getSurfaceIntegral .x3 = 1 / 5 ∧
    p.getSurfaceIntegral .y3 = 1 / 5 ∧
    (∀ O, polyInt (fun x _ => x ^ 3) O (planeCoords pl (square.map (conv .NWU))) = 1 / 4) ∧
    ∀ O, polyInt (fun _ y => y ^ 3) O (planeCoords pl (square.map (conv .NWU))) = 1 / 4 := by
  obtain ⟨pl, h1, hin⟩ := square_inPlane
  obtain ⟨pl', p, h1', h2, -, hg⟩ := Polygon.new_spec ⟨0, 0, 0, 0⟩ square_good
  obtain rfl : pl = pl' := by rw [h1] at h1'; injection h1'
  have hcl : Closed square := square_good.closed
  refine ⟨pl, p, h1, h2, ?_, ?_, ?_, ?_⟩
  · rw [hg, hin]; norm_num [junkTerm, square, pairSum, codeEdge, edge]
  · rw [hg, hin]; norm_num [junkTerm, square, pairSum, codeEdge, edge]
  · intro O
    rw [← vertexInPlane_xy, hin]
    refine (polyInt_eq .x3 ⟨O.1, O.2, 0⟩ _ hcl).trans ?_
    norm_num [square, pairSum, edge]
  · intro O
    rw [← vertexInPlane_xy, hin]
    refine (polyInt_eq .y3 ⟨O.1, O.2, 0⟩ _ hcl).trans ?_
    norm_num [square, pairSum, edge]

/-- **C23 fails for x²y and xy²**: the reported value follows what the memory held. -/
theorem C23_uninitialised_counterexample : ∃ p p', Polygon.new ⟨0, 0, 0, 0⟩ square .NWU = some p ∧
    Polygon.new ⟨60, 60, 0, 0⟩ square .NWU = some p' ∧ p.getSurfaceIntegral .x2y ≠ p'.getSurfaceIntegral .x2y ∧
    p.getSurfaceIntegral .y2x ≠ p'.getSurfaceIntegral .y2x := by
  obtain ⟨pl, p, h1, h2, h3, h4⟩ := C23_mixed_cubic_partial ⟨0, 0, 0, 0⟩ square .NWU square_good 0
  obtain ⟨pl', p', h1', h2', h3', h4'⟩ := C23_mixed_cubic_partial ⟨60, 60, 0, 0⟩ square .NWU square_good 0
  obtain rfl : pl = pl' := by rw [h1] at h1'; injection h1'
  refine ⟨p, p', h2, h2', ?_, ?_⟩
  · rw [h3, h3']; intro h; norm_num at h
  · rw [h4, h4']; intro h; norm_num at h

/-! ### Bounding box -/

theorem foldl_box (l : List V3) (b : AABB) :
    let r := l.foldl AABB.step b
    (r.xmin ≤ b.xmin ∧ b.xmax ≤ r.xmax ∧ r.ymin ≤ b.ymin ∧ b.ymax ≤ r.ymax) ∧
    (∀ v ∈ l, r.xmin ≤ v.x ∧ v.x ≤ r.xmax ∧ r.ymin ≤ v.y ∧ v.y ≤ r.ymax) ∧
    (r.xmin = b.xmin ∨ ∃ v ∈ l, r.xmin = v.x) ∧ (r.xmax = b.xmax ∨ ∃ v ∈ l, r.xmax = v.x) ∧
    (r.ymin = b.ymin ∨ ∃ v ∈ l, r.ymin = v.y) ∧ (r.ymax = b.ymax ∨ ∃ v ∈ l, r.ymax = v.y) := by
  induction l generalizing b with
  | nil => simp
  | cons v l ih =>
    obtain ⟨⟨h1, h2, h3, h4⟩, h5, h6, h7, h8, h9⟩ := ih (AABB.step b v)
    simp only [List.foldl_cons]
    generalize List.foldl AABB.step (b.step v) l = r at *
    simp only [AABB.step] at *
    refine ⟨⟨h1.trans (min_le_left _ _), (le_max_left _ _).trans h2, h3.trans (min_le_left _ _), (le_max_left _ _).trans h4⟩,
      ?_, ?_, ?_, ?_, ?_⟩
    · intro w hw
      rcases List.mem_cons.mp hw with rfl | hw
      · exact ⟨h1.trans (min_le_right _ _), (le_max_right _ _).trans h2, h3.trans (min_le_right _ _), (le_max_right _ _).trans h4⟩
      · exact h5 w hw
    · rcases h6 with h | ⟨w, hw, h⟩
      · rcases min_choice b.xmin v.x with e | e
        · left; rw [h, e]
        · right; exact ⟨v, by simp, by rw [h, e]⟩
      · right; exact ⟨w, by simp [hw], h⟩
    · rcases h7 with h | ⟨w, hw, h⟩
      · rcases max_choice b.xmax v.x with e | e
        · left; rw [h, e]
        · right; exact ⟨v, by simp, by rw [h, e]⟩
      · right; exact ⟨w, by simp [hw], h⟩
    · rcases h8 with h | ⟨w, hw, h⟩
      · rcases min_choice b.ymin v.y with e | e
        · left; rw [h, e]
        · right; exact ⟨v, by simp, by rw [h, e]⟩
      · right; exact ⟨w, by simp [hw], h⟩
    · rcases h9 with h | ⟨w, hw, h⟩
      · rcases max_choice b.ymax v.y with e | e
        · left; rw [h, e]
        · right; exact ⟨v, by simp, by rw [h, e]⟩
      · right; exact ⟨w, by simp [hw], h⟩

/-- **C34.** The bounding box of a polygon contains every vertex (horizontal NWU coordinates), and each of its four sides is
touched by a vertex: it is the smallest such box. The vertex list read back in the convention of construction is the one given. -/
theorem C34_bounding_box (j : Junk) (l : List V3) (fc : FC) (p : Polygon) (h : Polygon.new j l fc = some p) :
    p.getVertexList fc = l ∧ ∃ b, p.boundingBox = some b ∧
      (∀ v ∈ p.getVertexList .NWU, b.xmin ≤ v.x ∧ v.x ≤ b.xmax ∧ b.ymin ≤ v.y ∧ v.y ≤ b.ymax) ∧
      (∃ v ∈ p.getVertexList .NWU, b.xmin = v.x) ∧ (∃ v ∈ p.getVertexList .NWU, b.xmax = v.x) ∧
      (∃ v ∈ p.getVertexList .NWU, b.ymin = v.y) ∧ (∃ v ∈ p.getVertexList .NWU, b.ymax = v.y) := by
  have hv : p.vertices = l.map (conv fc) ∧ l ≠ [] := by
    unfold Polygon.new at h
    simp only [Option.bind_eq_some_iff] at h
    obtain ⟨pl, -, h⟩ := h
    split_ifs at h
    simp only [Option.map_eq_some_iff] at h
    obtain ⟨a, ha, rfl⟩ := h
    refine ⟨rfl, ?_⟩
    rintro rfl
    simp [vertexInPlane, integrals] at ha
  obtain ⟨hv, hne⟩ := hv
  have hid : p.getVertexList .NWU = p.vertices := by unfold Polygon.getVertexList; exact map_nwu _
  refine ⟨?_, ?_⟩
  · unfold Polygon.getVertexList
    rw [hv, List.map_map]
    conv_rhs => rw [← List.map_id l]
    apply List.map_congr_left
    intro v _
    simp [conv_conv]
  · rw [hid]
    unfold Polygon.boundingBox
    cases hvs : p.vertices with
    | nil => rw [hvs] at hv; simp at hv; exact absurd hv hne
    | cons v0 t =>
      obtain ⟨-, h5, h6, h7, h8, h9⟩ := foldl_box (v0 :: t) ⟨v0.x, v0.x, v0.y, v0.y⟩
      refine ⟨_, rfl, h5, ?_, ?_, ?_, ?_⟩
      · rcases h6 with h | h
        · exact ⟨v0, by simp, h⟩
        · exact h
      · rcases h7 with h | h
        · exact ⟨v0, by simp, h⟩
        · exact h
      · rcases h8 with h | h
        · exact ⟨v0, by simp, h⟩
        · exact h
      · rcases h9 with h | h
        · exact ⟨v0, by simp, h⟩
        · exact h

example : ∃ p, Polygon.new ⟨0, 0, 0, 0⟩ square .NWU = some p := by
  obtain ⟨p, h1, -⟩ := C23_area ⟨0, 0, 0, 0⟩ square .NWU square_good
  exact ⟨p, h1⟩

end Frydom.Mesh
