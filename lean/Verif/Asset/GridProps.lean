import Verif.Asset.Grid
import Mathlib.Tactic.Push
import Mathlib.Tactic.NormNum

/-!
# What the Cartesian grid covers (C150)
-/

namespace Frydom.Asset
open Frydom.Geom

section
variable {h xmin xmax dx ymin ymax dy : ℝ} {nx ny : ℕ}

/-- In the coordinates of its cell, a face is seen from a point under the areas below. -/
theorem face_areas (hdx : 0 < dx) (hdy : 0 < dy) (fx : Fits xmin xmax dx nx) (fy : Fits ymin ymax dy ny) {i j : ℕ}
    (hi : i < nx) (hj : j < ny) (b : Bool) {p : V3} {u v : ℝ} (hx : p.x = xmin + (i + u) * dx) (hy : p.y = ymin + (j + v) * dy) :
    ∃ s t, quad (nx + 1) j i b = [s, t] ∧ ∃ S T : V3 × V3 × V3,
      (rectangular h xmin xmax dx ymin ymax dy).Corners s S.1 S.2.1 S.2.2 ∧
      (rectangular h xmin xmax dx ymin ymax dy).Corners t T.1 T.2.1 T.2.2 ∧
      (bif b then
        area2 S.1 S.2.1 p = dx * dy * v ∧ area2 S.2.1 S.2.2 p = dx * dy * (1 - u) ∧ area2 S.2.2 S.1 p = dx * dy * (u - v) ∧
        area2 T.1 T.2.1 p = dx * dy * (v - u) ∧ area2 T.2.1 T.2.2 p = dx * dy * (1 - v) ∧ area2 T.2.2 T.1 p = dx * dy * u
      else
        area2 S.1 S.2.1 p = dx * dy * v ∧ area2 S.2.1 S.2.2 p = dx * dy * (1 - u - v) ∧ area2 S.2.2 S.1 p = dx * dy * u ∧
        area2 T.1 T.2.1 p = dx * dy * (1 - u) ∧ area2 T.2.1 T.2.2 p = dx * dy * (1 - v) ∧ area2 T.2.2 T.1 p = dx * dy * (u + v - 1)) := by
  obtain ⟨s, t, hq, S, T, hc, h1, h2⟩ := quad_corners (h := h) hdx hdy fx fy hi hj b
  refine ⟨s, t, hq, S, T, h1, h2, ?_⟩
  cases b
  · have := cell_false (h := h) i j hx hy
    rw [hc] at this
    simpa only [List.map_cons, List.map_nil, List.cons.injEq, Prod.mk.injEq, and_true, and_assoc, cond_false] using this
  · have := cell_true (h := h) i j hx hy
    rw [hc] at this
    simpa only [List.map_cons, List.map_nil, List.cons.injEq, Prod.mk.injEq, and_true, and_assoc, cond_true] using this

/-- A point over a face is in the cell of the face. -/
theorem over_cell (hdx : 0 < dx) (hdy : 0 < dy) (fx : Fits xmin xmax dx nx) (fy : Fits ymin ymax dy ny) {i j : ℕ}
    (hi : i < nx) (hj : j < ny) {b : Bool} {t : ℕ × ℕ × ℕ} (ht : t ∈ quad (nx + 1) j i b) {p : V3} {u v : ℝ}
    (hx : p.x = xmin + (i + u) * dx) (hy : p.y = ymin + (j + v) * dy)
    (ho : (rectangular h xmin xmax dx ymin ymax dy).Over t p) : 0 ≤ u ∧ u ≤ 1 ∧ 0 ≤ v ∧ v ≤ 1 := by
  obtain ⟨s, t', hq, S, T, h1, h2, h3⟩ := face_areas (h := h) hdx hdy fx fy hi hj b hx hy
  obtain ⟨a, c, d, hco, o1, o2, o3⟩ := ho
  have key : ∀ {B : ℝ}, 0 ≤ dx * dy * B → 0 ≤ B := fun hAB => nonneg_of_mul_nonneg_right hAB (mul_pos hdx hdy)
  rw [hq] at ht
  simp only [List.mem_cons, List.not_mem_nil, or_false] at ht
  rcases ht with rfl | rfl
  · obtain ⟨rfl, rfl, rfl⟩ := Corners.unique hco h1
    cases b <;> simp only [cond_false, cond_true] at h3 <;> obtain ⟨a1, a2, a3, -⟩ := h3 <;>
      rw [a1] at o1 <;> rw [a2] at o2 <;> rw [a3] at o3 <;>
      have k1 := key o1 <;> have k2 := key o2 <;> have k3 := key o3 <;>
      refine ⟨?_, ?_, ?_, ?_⟩ <;> linarith
  · obtain ⟨rfl, rfl, rfl⟩ := Corners.unique hco h2
    cases b <;> simp only [cond_false, cond_true] at h3 <;> obtain ⟨-, -, -, a1, a2, a3⟩ := h3 <;>
      rw [a1] at o1 <;> rw [a2] at o2 <;> rw [a3] at o3 <;>
      have k1 := key o1 <;> have k2 := key o2 <;> have k3 := key o3 <;>
      refine ⟨?_, ?_, ?_, ?_⟩ <;> linarith

/-- Strictly inside a face: strictly inside its cell. -/
theorem inside_cell (hdx : 0 < dx) (hdy : 0 < dy) (fx : Fits xmin xmax dx nx) (fy : Fits ymin ymax dy ny) {i j : ℕ}
    (hi : i < nx) (hj : j < ny) {b : Bool} {t : ℕ × ℕ × ℕ} (ht : t ∈ quad (nx + 1) j i b) {p : V3} {u v : ℝ}
    (hx : p.x = xmin + (i + u) * dx) (hy : p.y = ymin + (j + v) * dy)
    (ho : (rectangular h xmin xmax dx ymin ymax dy).Inside t p) : 0 < u ∧ u < 1 ∧ 0 < v ∧ v < 1 := by
  obtain ⟨s, t', hq, S, T, h1, h2, h3⟩ := face_areas (h := h) hdx hdy fx fy hi hj b hx hy
  obtain ⟨a, c, d, hco, o1, o2, o3⟩ := ho
  have key : ∀ {B : ℝ}, 0 < dx * dy * B → 0 < B := fun hAB => (pos_iff_pos_of_mul_pos hAB).mp (mul_pos hdx hdy)
  rw [hq] at ht
  simp only [List.mem_cons, List.not_mem_nil, or_false] at ht
  rcases ht with rfl | rfl
  · obtain ⟨rfl, rfl, rfl⟩ := Corners.unique hco h1
    cases b <;> simp only [cond_false, cond_true] at h3 <;> obtain ⟨a1, a2, a3, -⟩ := h3 <;>
      rw [a1] at o1 <;> rw [a2] at o2 <;> rw [a3] at o3 <;>
      have k1 := key o1 <;> have k2 := key o2 <;> have k3 := key o3 <;>
      refine ⟨?_, ?_, ?_, ?_⟩ <;> linarith
  · obtain ⟨rfl, rfl, rfl⟩ := Corners.unique hco h2
    cases b <;> simp only [cond_false, cond_true] at h3 <;> obtain ⟨-, -, -, a1, a2, a3⟩ := h3 <;>
      rw [a1] at o1 <;> rw [a2] at o2 <;> rw [a3] at o3 <;>
      have k1 := key o1 <;> have k2 := key o2 <;> have k3 := key o3 <;>
      refine ⟨?_, ?_, ?_, ?_⟩ <;> linarith

theorem two_in_cell (hdx : 0 < dx) (hdy : 0 < dy) (fx : Fits xmin xmax dx nx) (fy : Fits ymin ymax dy ny) {i j : ℕ}
    (hi : i < nx) (hj : j < ny) (b : Bool) :
    (quad (nx + 1) j i b).Pairwise fun s t => ∀ p, ¬ ((rectangular h xmin xmax dx ymin ymax dy).Inside s p ∧
      (rectangular h xmin xmax dx ymin ymax dy).Inside t p) := by
  obtain ⟨s, t, hq, -⟩ := quad_corners (h := h) hdx hdy fx fy hi hj b
  rw [hq]
  simp only [List.pairwise_cons, List.mem_cons, List.not_mem_nil, or_false, forall_eq, List.Pairwise.nil, and_true,
    false_imp_iff, implies_true]
  rintro p ⟨⟨a, c, d, hco, o1, o2, o3⟩, ⟨a', c', d', hco', o1', o2', o3'⟩⟩
  obtain ⟨u, v, hx, hy⟩ := cell_coords (xmin := xmin) (ymin := ymin) hdx hdy i j p
  obtain ⟨s', t', hq', S, T, h1, h2, h3⟩ := face_areas (h := h) hdx hdy fx fy hi hj b hx hy
  rw [hq] at hq'
  obtain ⟨rfl, hq''⟩ := List.cons.inj hq'
  obtain ⟨rfl, -⟩ := List.cons.inj hq''
  obtain ⟨rfl, rfl, rfl⟩ := Corners.unique hco h1
  obtain ⟨rfl, rfl, rfl⟩ := Corners.unique hco' h2
  have key : ∀ {B : ℝ}, 0 < dx * dy * B → 0 < B := fun hAB => (pos_iff_pos_of_mul_pos hAB).mp (mul_pos hdx hdy)
  cases b <;> simp only [cond_false, cond_true] at h3
  · have k1 := key (h3.2.1 ▸ o2)
    have k2 := key (h3.2.2.2.2.2 ▸ o3')
    linarith
  · have k1 := key (h3.2.2.1 ▸ o3)
    have k2 := key (h3.2.2.2.1 ▸ o1')
    linarith

theorem coord_cell {i i' : ℕ} {u u' : ℝ} (h : (i : ℝ) + u = i' + u') (h0 : 0 < u) (h1 : u < 1) (h0' : 0 < u') (h1' : u' < 1) : i = i' := by
  have a : (i : ℝ) < i' + 1 := by linarith
  have b : (i' : ℝ) < i + 1 := by linarith
  have a' : i < i' + 1 := by exact_mod_cast a
  have b' : i' < i + 1 := by exact_mod_cast b
  omega

/-- Two faces of different cells have no common inner point. -/
theorem inside_same_cell (hdx : 0 < dx) (hdy : 0 < dy) (fx : Fits xmin xmax dx nx) (fy : Fits ymin ymax dy ny) {i j i' j' : ℕ}
    (hi : i < nx) (hj : j < ny) (hi' : i' < nx) (hj' : j' < ny) {b b' : Bool} {s t : ℕ × ℕ × ℕ} (hs : s ∈ quad (nx + 1) j i b)
    (ht : t ∈ quad (nx + 1) j' i' b') {p : V3} (hp : (rectangular h xmin xmax dx ymin ymax dy).Inside s p)
    (hp' : (rectangular h xmin xmax dx ymin ymax dy).Inside t p) : i = i' ∧ j = j' := by
  obtain ⟨u, v, hx, hy⟩ := cell_coords (xmin := xmin) (ymin := ymin) hdx hdy i j p
  obtain ⟨u', v', hx', hy'⟩ := cell_coords (xmin := xmin) (ymin := ymin) hdx hdy i' j' p
  obtain ⟨a1, a2, a3, a4⟩ := inside_cell hdx hdy fx fy hi hj hs hx hy hp
  obtain ⟨b1, b2, b3, b4⟩ := inside_cell hdx hdy fx fy hi' hj' ht hx' hy' hp'
  constructor
  · refine coord_cell (mul_right_cancel₀ hdx.ne' ?_) a1 a2 b1 b2
    linarith
  · refine coord_cell (mul_right_cancel₀ hdy.ne' ?_) a3 a4 b3 b4
    linarith

/-! ## C150 -/

/-- **C150 (vertices)**: asked for a grid from xmin to xmax with step dx and from ymin to ymax with step dy, the mesh has one vertex, at the height
of the grid, at each crossing of the lines x = xmin + i dx and y = ymin + j dy that fit in the ranges, row by row. -/
theorem C150_vertices (h : ℝ) (hdx : 0 < dx) (hdy : 0 < dy) (hx : xmin ≤ xmax) (hy : ymin ≤ ymax) :
    ∃ nx ny : ℕ, (xmin + nx * dx ≤ xmax ∧ xmax < xmin + (nx + 1) * dx) ∧ (ymin + ny * dy ≤ ymax ∧ ymax < ymin + (ny + 1) * dy) ∧
      (rectangular h xmin xmax dx ymin ymax dy).verts.length = (nx + 1) * (ny + 1) ∧
      ∀ i ≤ nx, ∀ j ≤ ny, (rectangular h xmin xmax dx ymin ymax dy).verts[j * (nx + 1) + i]? = some ⟨xmin + i * dx, ymin + j * dy, h⟩ := by
  obtain ⟨nx, -, fx⟩ := steps_fit hdx hx
  obtain ⟨ny, -, fy⟩ := steps_fit hdy hy
  refine ⟨nx, ny, fx, fy, ?_, fun i hi j hj => vert hdx hdy fx fy hi hj⟩
  rw [rectangular_eq h hdx hdy fx fy, rowsFrom_length]
  ring

/-- **C150 (faces)**: the mesh has two faces per cell; the corners of every face exist, are at the height of the grid and turn anticlockwise seen from
above; all faces have the same area, half a cell. -/
theorem C150_faces (h : ℝ) (hdx : 0 < dx) (hdy : 0 < dy) (fx : Fits xmin xmax dx nx) (fy : Fits ymin ymax dy ny) :
    (rectangular h xmin xmax dx ymin ymax dy).faces.length = 2 * (nx * ny) ∧
    ∀ t ∈ (rectangular h xmin xmax dx ymin ymax dy).faces, ∃ a b c, (rectangular h xmin xmax dx ymin ymax dy).Corners t a b c ∧
      area2 a b c = dx * dy ∧ a.z = h ∧ b.z = h ∧ c.z = h := by
  refine ⟨?_, fun t ht => ?_⟩
  · rw [rectangular_eq h hdx hdy fx fy]
    have : ∀ j k, (quad (nx + 1) j k (odd k)).length = 2 := by
      intro j k
      unfold quad
      cases odd k <;> rfl
    simp only [List.length_flatMap, this]
    simp
    ring
  · obtain ⟨j, hj, i, hi, hq⟩ := (mem_faces hdx hdy fx fy t).mp ht
    obtain ⟨S, hS, hc⟩ := cell_face (h := h) hdx hdy fx fy hi hj hq
    obtain ⟨h1, h2⟩ := cell_area hS
    exact ⟨_, _, _, hc, h1, h2⟩

theorem exists_cell {x d L : ℝ} {n : ℕ} (hd : 0 < d) (hn : 0 < n) (h0 : L ≤ x) (h1 : x ≤ L + n * d) :
    ∃ i < n, ∃ u : ℝ, 0 ≤ u ∧ u ≤ 1 ∧ x = L + (i + u) * d := by
  have hq : 0 ≤ (x - L) / d := div_nonneg (by linarith) hd.le
  have hqn : (x - L) / d ≤ n := by rw [div_le_iff₀ hd]; linarith
  have hxe : x = L + ((x - L) / d) * d := by field_simp; ring
  by_cases hlt : (x - L) / d < n
  · refine ⟨⌊(x - L) / d⌋₊, (Nat.floor_lt hq).mpr hlt, (x - L) / d - ⌊(x - L) / d⌋₊, ?_, ?_, ?_⟩
    · linarith [Nat.floor_le hq]
    · linarith [Nat.lt_floor_add_one ((x - L) / d)]
    · rw [add_sub_cancel]; exact hxe
  · have he : (x - L) / d = n := le_antisymm hqn (not_lt.mp hlt)
    obtain ⟨m, rfl⟩ : ∃ m, n = m + 1 := ⟨n - 1, by omega⟩
    refine ⟨m, by omega, 1, by norm_num, le_refl _, ?_⟩
    rw [hxe, he]
    push_cast
    rfl

/-- **C150 (cover)**: when at least one step fits in each range, seen from above the faces cover exactly the rectangle between the first and the last lines that fit. -/
theorem C150_cover (h : ℝ) (hdx : 0 < dx) (hdy : 0 < dy) (fx : Fits xmin xmax dx nx) (fy : Fits ymin ymax dy ny) (hnx : 0 < nx) (hny : 0 < ny) (p : V3) :
    (∃ t ∈ (rectangular h xmin xmax dx ymin ymax dy).faces, (rectangular h xmin xmax dx ymin ymax dy).Over t p)
      ↔ xmin ≤ p.x ∧ p.x ≤ xmin + nx * dx ∧ ymin ≤ p.y ∧ p.y ≤ ymin + ny * dy := by
  constructor
  · rintro ⟨t, ht, ho⟩
    obtain ⟨j, hj, i, hi, hq⟩ := (mem_faces hdx hdy fx fy t).mp ht
    obtain ⟨u, v, hx, hy⟩ := cell_coords (xmin := xmin) (ymin := ymin) hdx hdy i j p
    obtain ⟨h1, h2, h3, h4⟩ := over_cell hdx hdy fx fy hi hj hq hx hy ho
    have hi' : (i : ℝ) + 1 ≤ nx := by exact_mod_cast hi
    have hj' : (j : ℝ) + 1 ≤ ny := by exact_mod_cast hj
    have hi0 : (0 : ℝ) ≤ i := Nat.cast_nonneg i
    have hj0 : (0 : ℝ) ≤ j := Nat.cast_nonneg j
    have e1 : 0 ≤ ((i : ℝ) + u) * dx := mul_nonneg (by linarith) hdx.le
    have e2 : ((i : ℝ) + u) * dx ≤ nx * dx := mul_le_mul_of_nonneg_right (by linarith) hdx.le
    have e3 : 0 ≤ ((j : ℝ) + v) * dy := mul_nonneg (by linarith) hdy.le
    have e4 : ((j : ℝ) + v) * dy ≤ ny * dy := mul_le_mul_of_nonneg_right (by linarith) hdy.le
    rw [hx, hy]
    refine ⟨?_, ?_, ?_, ?_⟩ <;> linarith
  · rintro ⟨x0, x1, y0, y1⟩
    obtain ⟨i, hi, u, u0, u1, hx⟩ := exists_cell hdx hnx x0 x1
    obtain ⟨j, hj, v, v0, v1, hy⟩ := exists_cell hdy hny y0 y1
    obtain ⟨s, t, hq, S, T, h1, h2, h3⟩ := face_areas (h := h) hdx hdy fx fy hi hj (odd i) hx hy
    have hs : s ∈ (rectangular h xmin xmax dx ymin ymax dy).faces := (mem_faces hdx hdy fx fy s).mpr ⟨j, hj, i, hi, by rw [hq]; simp⟩
    have ht : t ∈ (rectangular h xmin xmax dx ymin ymax dy).faces := (mem_faces hdx hdy fx fy t).mpr ⟨j, hj, i, hi, by rw [hq]; simp⟩
    have pos : ∀ {B : ℝ}, 0 ≤ B → 0 ≤ dx * dy * B := fun hB => mul_nonneg (mul_pos hdx hdy).le hB
    cases hb : odd i <;> rw [hb] at h3 <;> simp only [cond_false, cond_true] at h3 <;> obtain ⟨a1, a2, a3, a4, a5, a6⟩ := h3
    · rcases le_total (u + v) 1 with huv | huv
      · exact ⟨s, hs, _, _, _, h1, a1 ▸ pos v0, a2 ▸ pos (by linarith), a3 ▸ pos u0⟩
      · exact ⟨t, ht, _, _, _, h2, a4 ▸ pos (by linarith), a5 ▸ pos (by linarith), a6 ▸ pos (by linarith)⟩
    · rcases le_total v u with huv | huv
      · exact ⟨s, hs, _, _, _, h1, a1 ▸ pos v0, a2 ▸ pos (by linarith), a3 ▸ pos (by linarith)⟩
      · exact ⟨t, ht, _, _, _, h2, a4 ▸ pos (by linarith), a5 ▸ pos (by linarith), a6 ▸ pos u0⟩

/-- **C150 (no overlap)**: seen from above no point is strictly inside two of the faces. -/
theorem C150_no_overlap (h : ℝ) (hdx : 0 < dx) (hdy : 0 < dy) (fx : Fits xmin xmax dx nx) (fy : Fits ymin ymax dy ny) :
    (rectangular h xmin xmax dx ymin ymax dy).faces.Pairwise fun s t =>
      ∀ p, ¬ ((rectangular h xmin xmax dx ymin ymax dy).Inside s p ∧ (rectangular h xmin xmax dx ymin ymax dy).Inside t p) := by
  have hf : (rectangular h xmin xmax dx ymin ymax dy).faces
      = (List.range ny).flatMap fun j => (List.range nx).flatMap fun k => quad (nx + 1) j k (odd k) := by
    rw [rectangular_eq h hdx hdy fx fy]
  rw [hf, List.pairwise_flatMap]
  constructor
  · intro j hj
    rw [List.pairwise_flatMap]
    refine ⟨fun i hi => two_in_cell hdx hdy fx fy (List.mem_range.mp hi) (List.mem_range.mp hj) _, ?_⟩
    refine (List.pairwise_lt_range (n := nx)).imp_of_mem ?_
    intro i i' hi hi' hlt s hs t ht p hp
    have := (inside_same_cell hdx hdy fx fy (List.mem_range.mp hi) (List.mem_range.mp hj) (List.mem_range.mp hi') (List.mem_range.mp hj)
      hs ht hp.1 hp.2).1
    omega
  · refine (List.pairwise_lt_range (n := ny)).imp_of_mem ?_
    intro j j' hj hj' hlt s hs t ht p hp
    obtain ⟨i, hi, hs'⟩ := List.mem_flatMap.mp hs
    obtain ⟨i', hi', ht'⟩ := List.mem_flatMap.mp ht
    have := (inside_same_cell hdx hdy fx fy (List.mem_range.mp hi) (List.mem_range.mp hj) (List.mem_range.mp hi') (List.mem_range.mp hj')
      hs' ht' hp.1 hp.2).2
    omega

/-- **C150 (short grid)**: if the step does not divide the range, a strip at the end of the range asked for is not drawn: no face is over its points. -/
theorem C150_short (h : ℝ) (hdx : 0 < dx) (hdy : 0 < dy) (fx : Fits xmin xmax dx nx) (fy : Fits ymin ymax dy ny)
    (hnd : xmin + nx * dx ≠ xmax) :
    ∃ x, xmin ≤ x ∧ x < xmax ∧ ∀ p : V3, x < p.x → ∀ t ∈ (rectangular h xmin xmax dx ymin ymax dy).faces,
      ¬ (rectangular h xmin xmax dx ymin ymax dy).Over t p := by
  have hlt : xmin + nx * dx < xmax := lt_of_le_of_ne fx.1 hnd
  have h0 : (0 : ℝ) ≤ nx * dx := by positivity
  refine ⟨xmin + nx * dx, by linarith, hlt, fun p hp t ht ho => ?_⟩
  obtain ⟨j, hj, i, hi, hq⟩ := (mem_faces hdx hdy fx fy t).mp ht
  have := (C150_cover h hdx hdy fx fy (by omega) (by omega) p).mp ⟨t, ht, ho⟩
  linarith [this.2.1]

end

/-- A grid of 100 m by 2 m with a step of 1 m: all the hypotheses hold, with 100 and 2 cells. -/
example : Fits (-50) 50 1 100 ∧ Fits (-1) 1 1 2 := by
  unfold Fits; norm_num

/-- A range of 1 m with a step of 0.4 m: two steps fit, and the last 0.2 m are not drawn. -/
example : Fits 0 1 0.4 2 ∧ (0 : ℝ) + (2 : ℕ) * 0.4 ≠ 1 := by
  unfold Fits; norm_num

end Frydom.Asset
