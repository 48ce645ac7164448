import Mathlib.Tactic.Ring
import Mathlib.Tactic.Linarith
import Mathlib.Tactic.NormNum
import Mathlib.Tactic.FieldSimp
import Mathlib.Data.Real.Basic
import Mathlib.Algebra.Order.Floor.Ring
import Mathlib.Data.Real.Archimedean
import Mathlib.Data.List.Range
import Mathlib.Data.List.Flatten
import Verif.Geom.Basic

/-!
# The Cartesian grid drawn for the free surface and the sea bed (C150)

`FrGridAsset::BuildRectangularMeshGrid`, src/frydom/asset/FrGridAsset.cpp 68-122.
-/

namespace Frydom.Asset
open Frydom.Geom

/-- `FrTriangleMeshConnected`, src/frydom/mesh/FrTriangleMeshConnected.cpp 20-42, reduced to the two lists filled by
    `addVertex` and `addTriangle` (m_vertices, m_face_v_indices): the indices are those of the vertex list. -/
structure TriMesh where
  verts : List V3
  faces : List (ℕ × ℕ × ℕ)

/-! ## Specification: triangles of a mesh seen from above -/

/-- Twice the signed area, seen from above, of the triangle a, b, c. -/
def area2 (a b c : V3) : ℝ := (b.x - a.x) * (c.y - a.y) - (b.y - a.y) * (c.x - a.x)

/-- The face `t` of a mesh has the three corners a, b, c, which all exist. -/
def TriMesh.Corners (M : TriMesh) (t : ℕ × ℕ × ℕ) (a b c : V3) : Prop :=
  M.verts[t.1]? = some a ∧ M.verts[t.2.1]? = some b ∧ M.verts[t.2.2]? = some c

/-- Seen from above the point is in the (closed) face, whose corners turn anticlockwise. -/
def TriMesh.Over (M : TriMesh) (t : ℕ × ℕ × ℕ) (p : V3) : Prop :=
  ∃ a b c, M.Corners t a b c ∧ 0 ≤ area2 a b p ∧ 0 ≤ area2 b c p ∧ 0 ≤ area2 c a p

/-- Seen from above the point is strictly inside the face. -/
def TriMesh.Inside (M : TriMesh) (t : ℕ × ℕ × ℕ) (p : V3) : Prop :=
  ∃ a b c, M.Corners t a b c ∧ 0 < area2 a b p ∧ 0 < area2 b c p ∧ 0 < area2 c a p

/-! ## The model -/

/-- Conversion of a double to `int`: truncation toward zero (line 75-76). Overflow of `int` is not modelled. -/
noncomputable def truncInt (q : ℝ) : ℤ := if 0 ≤ q then ⌊q⌋ else ⌈q⌉

/-- Inner loop of lines 83-88: `n` vertices still to push, `xi` the running abscissa. -/
def rowFrom (xi yi h dx : ℝ) : ℕ → List V3
  | 0 => []
  | n + 1 => ⟨xi, yi, h⟩ :: rowFrom (xi + dx) yi h dx n

/-- Outer loop of lines 82-91: `n` rows still to push, `yi` the running ordinate, the abscissa restarted at each row. -/
def rowsFrom (xmin yi h dx dy : ℝ) (nvx : ℕ) : ℕ → List V3
  | 0 => []
  | n + 1 => rowFrom xmin yi h dx nvx ++ rowsFrom xmin (yi + dy) h dx dy nvx n

/-- The two triangles of a cell, lines 100-116, for the flag `reverse`. -/
def quad (nvx iy ix : ℕ) (reverse : Bool) : List (ℕ × ℕ × ℕ) :=
  let i0 := iy * nvx + ix
  let i1 := i0 + 1
  let i2 := i1 + nvx
  let i3 := i2 - 1
  if reverse then [(i0, i1, i2), (i0, i2, i3)] else [(i0, i1, i3), (i1, i2, i3)]

/-- Inner loop of lines 99-117: `n` cells still to do, from column `ix`, the flag flipped at each cell. -/
def facesRow (nvx iy : ℕ) : ℕ → ℕ → Bool → List (ℕ × ℕ × ℕ)
  | 0, _, _ => []
  | n + 1, ix, reverse => quad nvx iy ix reverse ++ facesRow nvx iy n (ix + 1) (!reverse)

/-- Outer loop of lines 97-118: `n` rows of cells still to do; the flag is false at the start of each row. -/
def facesRows (nvx : ℕ) : ℕ → ℕ → List (ℕ × ℕ × ℕ)
  | 0, _ => []
  | n + 1, iy => facesRow nvx iy (nvx - 1) 0 false ++ facesRows nvx n (iy + 1)

/-- `FrGridAsset::BuildRectangularMeshGrid`, FrGridAsset.cpp 71-127: `h` is `GetGridHeight()`. -/
noncomputable def rectangular (h xmin xmax dx ymin ymax dy : ℝ) : TriMesh :=
  let nvx := (truncInt ((xmax - xmin) / dx) + 1).toNat
  let nvy := (truncInt ((ymax - ymin) / dy) + 1).toNat
  { verts := rowsFrom xmin ymin h dx dy nvx nvy
    faces := facesRows nvx (nvy - 1) 0 }

/-! ## Lemmas -/

theorem rowFrom_length (x y h dx : ℝ) (n : ℕ) : (rowFrom x y h dx n).length = n := by
  induction n generalizing x with
  | zero => rfl
  | succ n ih => simp [rowFrom, ih]

theorem rowFrom_get (x y h dx : ℝ) (n i : ℕ) (hi : i < n) :
    (rowFrom x y h dx n)[i]? = some ⟨x + i * dx, y, h⟩ := by
  induction n generalizing x i with
  | zero => omega
  | succ n ih =>
    cases i with
    | zero => simp [rowFrom]
    | succ i =>
      rw [rowFrom, List.getElem?_cons_succ, ih _ _ (by omega)]
      push_cast
      congr 2
      ring

theorem rowsFrom_length (x y h dx dy : ℝ) (nvx n : ℕ) : (rowsFrom x y h dx dy nvx n).length = n * nvx := by
  induction n generalizing y with
  | zero => simp [rowsFrom]
  | succ n ih => simp [rowsFrom, ih, rowFrom_length]; ring

theorem rowsFrom_get (x y h dx dy : ℝ) (nvx n i j : ℕ) (hi : i < nvx) (hj : j < n) :
    (rowsFrom x y h dx dy nvx n)[j * nvx + i]? = some ⟨x + i * dx, y + j * dy, h⟩ := by
  induction n generalizing y j with
  | zero => omega
  | succ n ih =>
    rw [rowsFrom]
    cases j with
    | zero =>
      rw [List.getElem?_append_left (by rw [rowFrom_length]; omega), Nat.zero_mul, Nat.zero_add, rowFrom_get _ _ _ _ _ _ hi]
      simp
    | succ j =>
      rw [List.getElem?_append_right (by rw [rowFrom_length]; nlinarith), rowFrom_length]
      have : (j + 1) * nvx + i - nvx = j * nvx + i := by
        have : (j + 1) * nvx = j * nvx + nvx := by ring
        omega
      rw [this, ih _ _ (by omega)]
      push_cast
      congr 2
      ring

/-- Parity of the column: the flag at column `ix`. -/
def odd (ix : ℕ) : Bool := ix % 2 == 1

theorem odd_succ (ix : ℕ) : odd (ix + 1) = !odd ix := by
  unfold odd
  rcases Nat.mod_two_eq_zero_or_one ix with h | h <;> simp [Nat.add_mod, h]

theorem facesRow_eq (nvx iy n ix : ℕ) : facesRow nvx iy n ix (odd ix)
    = (List.range n).flatMap fun k => quad nvx iy (ix + k) (odd (ix + k)) := by
  induction n generalizing ix with
  | zero => simp [facesRow]
  | succ n ih =>
    rw [facesRow, ← odd_succ, ih, List.range_succ_eq_map, List.flatMap_cons, List.flatMap_map]
    congr 1
    apply List.flatMap_congr
    intro k _
    rw [Nat.add_assoc, Nat.add_comm 1 k]

theorem facesRows_eq (nvx n iy : ℕ) : facesRows nvx n iy
    = (List.range n).flatMap fun j => (List.range (nvx - 1)).flatMap fun k => quad nvx (iy + j) k (odd k) := by
  induction n generalizing iy with
  | zero => simp [facesRows]
  | succ n ih =>
    have h := facesRow_eq nvx iy (nvx - 1) 0
    simp only [Nat.zero_add] at h
    rw [facesRows, ih, List.range_succ_eq_map, List.flatMap_cons, List.flatMap_map]
    congr 1
    apply List.flatMap_congr
    intro k _
    rw [Nat.succ_eq_add_one, Nat.add_assoc, Nat.add_comm 1 k]

theorem truncInt_nonneg {q : ℝ} (hq : 0 ≤ q) : ∃ n : ℕ, truncInt q = n ∧ (n : ℝ) ≤ q ∧ q < n + 1 := by
  refine ⟨⌊q⌋₊, ?_, Nat.floor_le hq, Nat.lt_floor_add_one q⟩
  unfold truncInt
  rw [if_pos hq]
  exact (Int.natCast_floor_eq_floor hq).symm

/-- Number of cells along a side of length `L` cut by steps `d`: the largest number of steps that fits. -/
def Fits (a b d : ℝ) (n : ℕ) : Prop := a + n * d ≤ b ∧ b < a + (n + 1) * d

theorem fits_unique {a b d : ℝ} {n m : ℕ} (hd : 0 < d) (hn : Fits a b d n) (hm : Fits a b d m) : n = m := by
  unfold Fits at hn hm
  have h1 : (n : ℝ) < m + 1 := by
    by_contra hc
    push Not at hc
    nlinarith
  have h2 : (m : ℝ) < n + 1 := by
    by_contra hc
    push Not at hc
    nlinarith
  have h1' : n < m + 1 := by exact_mod_cast h1
  have h2' : m < n + 1 := by exact_mod_cast h2
  omega

theorem steps_fit {a b d : ℝ} (hd : 0 < d) (hab : a ≤ b) :
    ∃ n : ℕ, (truncInt ((b - a) / d) + 1).toNat = n + 1 ∧ Fits a b d n := by
  obtain ⟨n, h, h1, h2⟩ := truncInt_nonneg (q := (b - a) / d) (div_nonneg (by linarith) hd.le)
  refine ⟨n, by rw [h]; omega, ?_, ?_⟩
  · rw [le_div_iff₀ hd] at h1; linarith
  · rw [div_lt_iff₀ hd] at h2; linarith

theorem fits_count {a b d : ℝ} {n : ℕ} (hd : 0 < d) (h : Fits a b d n) : (truncInt ((b - a) / d) + 1).toNat = n + 1 := by
  have hab : a ≤ b := by
    have : (0 : ℝ) ≤ n * d := by positivity
    linarith [h.1]
  obtain ⟨m, hm, hf⟩ := steps_fit hd hab
  rw [hm, fits_unique hd hf h]

theorem rectangular_eq (h : ℝ) {xmin xmax dx ymin ymax dy : ℝ} {nx ny : ℕ} (hdx : 0 < dx) (hdy : 0 < dy)
    (fx : Fits xmin xmax dx nx) (fy : Fits ymin ymax dy ny) :
    rectangular h xmin xmax dx ymin ymax dy
      = { verts := rowsFrom xmin ymin h dx dy (nx + 1) (ny + 1)
          faces := (List.range ny).flatMap fun j => (List.range nx).flatMap fun k => quad (nx + 1) j k (odd k) } := by
  unfold rectangular
  simp only [fits_count hdx fx, fits_count hdy fy, facesRows_eq, Nat.zero_add, Nat.add_sub_cancel]

/-- The corner of column i, row j of the grid. -/
def node (h xmin dx ymin dy : ℝ) (i j : ℕ) : V3 := ⟨xmin + i * dx, ymin + j * dy, h⟩

/-- Two faces of the cell (i, j), as corners. -/
def cellTris (h xmin dx ymin dy : ℝ) (i j : ℕ) : Bool → List (V3 × V3 × V3)
  | true => [(node h xmin dx ymin dy i j, node h xmin dx ymin dy (i+1) j, node h xmin dx ymin dy (i+1) (j+1)),
             (node h xmin dx ymin dy i j, node h xmin dx ymin dy (i+1) (j+1), node h xmin dx ymin dy i (j+1))]
  | false => [(node h xmin dx ymin dy i j, node h xmin dx ymin dy (i+1) j, node h xmin dx ymin dy i (j+1)),
             (node h xmin dx ymin dy (i+1) j, node h xmin dx ymin dy (i+1) (j+1), node h xmin dx ymin dy i (j+1))]

section
variable {h xmin xmax dx ymin ymax dy : ℝ} {nx ny : ℕ}

theorem vert (hdx : 0 < dx) (hdy : 0 < dy) (fx : Fits xmin xmax dx nx) (fy : Fits ymin ymax dy ny) {i j : ℕ}
    (hi : i ≤ nx) (hj : j ≤ ny) :
    (rectangular h xmin xmax dx ymin ymax dy).verts[j * (nx + 1) + i]? = some (node h xmin dx ymin dy i j) := by
  rw [rectangular_eq h hdx hdy fx fy]
  exact rowsFrom_get _ _ _ _ _ _ _ _ _ (by omega) (by omega)

/-- The corners of the faces of a cell are the four nodes around it. -/
theorem quad_corners (hdx : 0 < dx) (hdy : 0 < dy) (fx : Fits xmin xmax dx nx) (fy : Fits ymin ymax dy ny) {i j : ℕ}
    (hi : i < nx) (hj : j < ny) (b : Bool) :
    ∃ s t, quad (nx + 1) j i b = [s, t] ∧ ∃ S T, cellTris h xmin dx ymin dy i j b = [S, T] ∧
      (rectangular h xmin xmax dx ymin ymax dy).Corners s S.1 S.2.1 S.2.2 ∧
      (rectangular h xmin xmax dx ymin ymax dy).Corners t T.1 T.2.1 T.2.2 := by
  have v0 := vert (h := h) hdx hdy fx fy (i := i) (j := j) (by omega) (by omega)
  have v1 := vert (h := h) hdx hdy fx fy (i := i+1) (j := j) (by omega) (by omega)
  have v2 := vert (h := h) hdx hdy fx fy (i := i+1) (j := j+1) (by omega) (by omega)
  have v3 := vert (h := h) hdx hdy fx fy (i := i) (j := j+1) (by omega) (by omega)
  have e1 : j * (nx + 1) + (i + 1) = j * (nx + 1) + i + 1 := by ring
  have e2 : (j + 1) * (nx + 1) + (i + 1) = j * (nx + 1) + i + 1 + (nx + 1) := by ring
  have e3 : (j + 1) * (nx + 1) + i = j * (nx + 1) + i + 1 + (nx + 1) - 1 := by
    have : (j + 1) * (nx + 1) + i + 1 = j * (nx + 1) + i + 1 + (nx + 1) := by ring
    omega
  rw [e1] at v1
  rw [e2] at v2
  rw [e3] at v3
  cases b
  · exact ⟨_, _, rfl, _, _, rfl, ⟨v0, v1, v3⟩, ⟨v1, v2, v3⟩⟩
  · exact ⟨_, _, rfl, _, _, rfl, ⟨v0, v1, v2⟩, ⟨v0, v2, v3⟩⟩

theorem mem_faces (hdx : 0 < dx) (hdy : 0 < dy) (fx : Fits xmin xmax dx nx) (fy : Fits ymin ymax dy ny) (t : ℕ × ℕ × ℕ) :
    t ∈ (rectangular h xmin xmax dx ymin ymax dy).faces
      ↔ ∃ j < ny, ∃ i < nx, t ∈ quad (nx + 1) j i (odd i) := by
  rw [rectangular_eq h hdx hdy fx fy]
  simp only [List.mem_flatMap, List.mem_range]

theorem Corners.unique {M : TriMesh} {t : ℕ × ℕ × ℕ} {a b c a' b' c' : V3} (h : M.Corners t a b c) (h' : M.Corners t a' b' c') :
    a = a' ∧ b = b' ∧ c = c' := by
  obtain ⟨h1, h2, h3⟩ := h
  obtain ⟨h1', h2', h3'⟩ := h'
  rw [h1] at h1'; rw [h2] at h2'; rw [h3] at h3'
  exact ⟨Option.some.inj h1', Option.some.inj h2', Option.some.inj h3'⟩

/-- Corners of a face of a cell. -/
theorem cell_face (hdx : 0 < dx) (hdy : 0 < dy) (fx : Fits xmin xmax dx nx) (fy : Fits ymin ymax dy ny) {i j : ℕ}
    (hi : i < nx) (hj : j < ny) {b : Bool} {t : ℕ × ℕ × ℕ} (ht : t ∈ quad (nx + 1) j i b) :
    ∃ S ∈ cellTris h xmin dx ymin dy i j b, (rectangular h xmin xmax dx ymin ymax dy).Corners t S.1 S.2.1 S.2.2 := by
  obtain ⟨s, t', hq, S, T, hc, h1, h2⟩ := quad_corners (h := h) hdx hdy fx fy hi hj b
  rw [hq] at ht
  rw [hc]
  simp only [List.mem_cons, List.not_mem_nil, or_false] at ht
  rcases ht with rfl | rfl
  · exact ⟨S, by simp, h1⟩
  · exact ⟨T, by simp, h2⟩

theorem cell_area {i j : ℕ} {b : Bool} {S : V3 × V3 × V3} (hS : S ∈ cellTris h xmin dx ymin dy i j b) :
    area2 S.1 S.2.1 S.2.2 = dx * dy ∧ S.1.z = h ∧ S.2.1.z = h ∧ S.2.2.z = h := by
  cases b <;>
  · simp only [cellTris, List.mem_cons, List.not_mem_nil, or_false] at hS
    rcases hS with rfl | rfl <;>
    · refine ⟨?_, rfl, rfl, rfl⟩
      simp only [area2, node]
      push_cast
      ring

/-- Coordinates of a point in the cell (i, j). -/
theorem cell_coords (hdx : 0 < dx) (hdy : 0 < dy) (i j : ℕ) (p : V3) :
    ∃ u v : ℝ, p.x = xmin + (i + u) * dx ∧ p.y = ymin + (j + v) * dy := by
  refine ⟨(p.x - xmin) / dx - i, (p.y - ymin) / dy - j, ?_, ?_⟩ <;> field_simp <;> ring

/-- The areas seen from a point, in the coordinates of the cell, for the cells cut by the second diagonal. -/
theorem cell_false (i j : ℕ) {p : V3} {u v : ℝ} (hx : p.x = xmin + (i + u) * dx) (hy : p.y = ymin + (j + v) * dy) :
    (cellTris h xmin dx ymin dy i j false).map (fun S => (area2 S.1 S.2.1 p, area2 S.2.1 S.2.2 p, area2 S.2.2 S.1 p))
      = [(dx * dy * v, dx * dy * (1 - u - v), dx * dy * u), (dx * dy * (1 - u), dx * dy * (1 - v), dx * dy * (u + v - 1))] := by
  simp only [cellTris, List.map_cons, List.map_nil, area2, node, hx, hy]
  push_cast
  congr 1
  · refine Prod.ext ?_ (Prod.ext ?_ ?_) <;> ring
  · congr 1
    refine Prod.ext ?_ (Prod.ext ?_ ?_) <;> ring

/-- The same, for the cells cut by the first diagonal. -/
theorem cell_true (i j : ℕ) {p : V3} {u v : ℝ} (hx : p.x = xmin + (i + u) * dx) (hy : p.y = ymin + (j + v) * dy) :
    (cellTris h xmin dx ymin dy i j true).map (fun S => (area2 S.1 S.2.1 p, area2 S.2.1 S.2.2 p, area2 S.2.2 S.1 p))
      = [(dx * dy * v, dx * dy * (1 - u), dx * dy * (u - v)), (dx * dy * (v - u), dx * dy * (1 - v), dx * dy * u)] := by
  simp only [cellTris, List.map_cons, List.map_nil, area2, node, hx, hy]
  push_cast
  congr 1
  · refine Prod.ext ?_ (Prod.ext ?_ ?_) <;> ring
  · congr 1
    refine Prod.ext ?_ (Prod.ext ?_ ?_) <;> ring

end

end Frydom.Asset
