import Verif.Asset.GridProps
import Verif.Seakeeping.Database
import Mathlib.Analysis.SpecialFunctions.Trigonometric.Basic
import Mathlib.Analysis.SpecialFunctions.Complex.Arg
import Mathlib.Tactic.LinearCombination

/-!
# The polar grid drawn for the free surface and the sea bed (C151)

`FrGridAsset::BuildPolarMeshGrid`, src/frydom/asset/FrGridAsset.cpp 126-188.
-/

noncomputable section

namespace Frydom.Asset
open Frydom.Geom Frydom.Seakeeping Real

/-- The vertices of the loop of lines 153-163: the distances but the first, on the ray at `angle`, at height 0. -/
def rayVerts (xc yc angle : ℝ) (distances : List ℝ) : List V3 :=
  distances.tail.map fun d => ⟨xc + d * cos angle, yc + d * sin angle, 0⟩

/-- The faces of lines 165-181 for the ray `iangle`. The unsigned subtractions are on positive numbers. -/
def rayFaces (nbR iangle : ℕ) : List (ℕ × ℕ × ℕ) :=
  (0, (iangle - 1) * (nbR - 1) + 1, iangle * (nbR - 1) + 1) ::
  (List.range (nbR - 2)).flatMap fun k =>
    let idist := k + 2
    let i0 := iangle * (nbR - 1) + idist - 1
    let i1 := (iangle - 1) * (nbR - 1) + idist - 1
    let i2 := (iangle - 1) * (nbR - 1) + idist
    let i3 := iangle * (nbR - 1) + idist
    [(i0, i1, i3), (i3, i1, i2)]

/-- `FrGridAsset::BuildPolarMeshGrid`, FrGridAsset.cpp 129-191, for nbR and nbTheta at least 2 (`linspace` of fewer points is undefined):
the first ray, with the centre, is at the height of the grid `h` (line 143), the others at 0 (line 160). -/
def polar (h xc yc diameter : ℝ) (nbR nbTheta : ℕ) : TriMesh :=
  let angles := linspaceList 0 (2 * π) nbTheta
  let distances := linspaceList 0 (diameter * 0.5) nbR
  { verts := (distances.map fun d => ⟨xc + d, yc, h⟩) ++ angles.tail.flatMap fun a => rayVerts xc yc a distances
    faces := (List.range (nbTheta - 1)).flatMap fun k => rayFaces nbR (k + 1) }

/-- The ray `a` is drawn at the height of the grid, h, if it is the first one, else at 0. -/
def rayHeight (h : ℝ) (a : ℕ) : ℝ := if a = 0 then h else 0

/-- Angle between two rays of the grid. -/
def dTheta (nbTheta : ℕ) : ℝ := 2 * π / ((nbTheta : ℝ) - 1)

/-- The node at step d of the ray a. -/
def polarNode (h xc yc diameter : ℝ) (nbR nbTheta a d : ℕ) : V3 :=
  ⟨xc + d * (diameter / 2 / ((nbR : ℝ) - 1)) * cos (a * dTheta nbTheta), yc + d * (diameter / 2 / ((nbR : ℝ) - 1)) * sin (a * dTheta nbTheta), rayHeight h a⟩

/-! ## Lemmas -/

theorem linspace_tail (a b : ℝ) (n : ℕ) : (linspaceList a b (n + 1)).tail
    = (List.range n).map fun i : ℕ => a + ((i + 1 : ℕ) : ℝ) * ((b - a) / (n : ℝ)) := by
  unfold linspaceList
  rw [List.range_succ_eq_map, List.map_cons, List.tail_cons, List.map_map]
  apply List.map_congr_left
  intro i _
  simp only [Function.comp]
  push_cast
  congr 2
  ring

/-- Blocks of the same length. -/
theorem flatMap_get {α : Type} (f : ℕ → List α) (m : ℕ) (hf : ∀ k, (f k).length = m) (n a i : ℕ) (ha : a < n) (hi : i < m) :
    ((List.range n).flatMap f)[a * m + i]? = (f a)[i]? := by
  induction n generalizing a f with
  | zero => omega
  | succ n ih =>
    rw [List.range_succ_eq_map, List.flatMap_cons, List.flatMap_map]
    cases a with
    | zero => rw [List.getElem?_append_left (by rw [hf]; omega), Nat.zero_mul, Nat.zero_add]
    | succ a =>
      have e : (a + 1) * m + i = (a * m + i) + m := by ring
      rw [List.getElem?_append_right (by rw [hf, e]; omega), hf, e, Nat.add_sub_cancel]
      exact ih (fun k => f k.succ) (fun k => hf _) a (by omega)

theorem polar_verts (h xc yc D : ℝ) (nr nt : ℕ) : (polar h xc yc D (nr + 1) (nt + 1)).verts
    = ((List.range (nr + 1)).map fun d : ℕ => (⟨xc + d * (D / 2 / nr), yc, h⟩ : V3)) ++
      (List.range nt).flatMap fun a : ℕ => (List.range nr).map fun d : ℕ =>
        (⟨xc + ((d + 1 : ℕ) : ℝ) * (D / 2 / nr) * cos (((a + 1 : ℕ) : ℝ) * (2 * π / nt)),
          yc + ((d + 1 : ℕ) : ℝ) * (D / 2 / nr) * sin (((a + 1 : ℕ) : ℝ) * (2 * π / nt)), 0⟩ : V3) := by
  unfold polar rayVerts
  simp only [linspace_tail]
  rw [List.flatMap_map]
  congr 1
  · unfold linspaceList
    rw [List.map_map]
    apply List.map_congr_left
    intro d _
    simp only [Function.comp]
    push_cast
    congr 2
    ring
  · apply List.flatMap_congr
    intro a _
    rw [List.map_map]
    apply List.map_congr_left
    intro d _
    simp only [Function.comp]
    have e1 : (0 : ℝ) + ((d + 1 : ℕ) : ℝ) * ((D * 0.5 - 0) / nr) = ((d + 1 : ℕ) : ℝ) * (D / 2 / nr) := by ring
    have e2 : (0 : ℝ) + ((a + 1 : ℕ) : ℝ) * ((2 * π - 0) / nt) = ((a + 1 : ℕ) : ℝ) * (2 * π / nt) := by ring
    rw [e1, e2]

/-- The node of ray a (step d ≥ 1) is at the index the faces use for it. -/
theorem polar_vert (h xc yc D : ℝ) (nr nt a d : ℕ) (ha : a ≤ nt) (h1 : 1 ≤ d) (hd : d ≤ nr) :
    (polar h xc yc D (nr + 1) (nt + 1)).verts[a * nr + d]? = some (polarNode h xc yc D (nr + 1) (nt + 1) a d) := by
  rw [polar_verts]
  have hlen : ((List.range (nr + 1)).map fun d : ℕ => (⟨xc + d * (D / 2 / nr), yc, h⟩ : V3)).length = nr + 1 := by simp
  cases a with
  | zero =>
    rw [List.getElem?_append_left (by rw [hlen]; omega), Nat.zero_mul, Nat.zero_add, List.getElem?_map,
      List.getElem?_range (by omega)]
    simp [polarNode, rayHeight]
  | succ a =>
    have e : (a + 1) * nr + d = (a * nr + (d - 1)) + (nr + 1) := by
      have : (a + 1) * nr = a * nr + nr := by ring
      omega
    rw [List.getElem?_append_right (by rw [hlen, e]; omega), hlen, e, Nat.add_sub_cancel,
      flatMap_get _ nr (fun k => by simp) nt a (d - 1) (by omega) (by omega), List.getElem?_map, List.getElem?_range (by omega)]
    have hd1 : d - 1 + 1 = d := by omega
    simp only [Option.map_some, hd1, polarNode, rayHeight, dTheta]
    push_cast
    simp

theorem polar_center (h xc yc D : ℝ) (nr nt : ℕ) : (polar h xc yc D (nr + 1) (nt + 1)).verts[0]? = some ⟨xc, yc, h⟩ := by
  rw [polar_verts]
  simp

theorem polar_verts_length (h xc yc D : ℝ) (nr nt : ℕ) : (polar h xc yc D (nr + 1) (nt + 1)).verts.length = 1 + (nt + 1) * nr := by
  rw [polar_verts]
  simp
  ring

theorem polar_faces (h xc yc D : ℝ) (nr nt : ℕ) (t : ℕ × ℕ × ℕ) : t ∈ (polar h xc yc D (nr + 1) (nt + 1)).faces ↔
    ∃ a < nt, t = (0, a * nr + 1, (a + 1) * nr + 1) ∨ ∃ d, 1 ≤ d ∧ d < nr ∧
      (t = ((a + 1) * nr + d, a * nr + d, (a + 1) * nr + (d + 1)) ∨ t = ((a + 1) * nr + (d + 1), a * nr + d, a * nr + (d + 1))) := by
  unfold polar rayFaces
  simp only [List.mem_flatMap, List.mem_range, List.mem_cons, Nat.add_sub_cancel, List.not_mem_nil, or_false]
  constructor
  · rintro ⟨a, ha, hc⟩
    refine ⟨a, ha, ?_⟩
    rcases hc with hc | ⟨k, hk, hc⟩
    · exact Or.inl hc
    · refine Or.inr ⟨k + 1, by omega, by omega, ?_⟩
      simpa [Nat.add_assoc, Nat.add_sub_assoc] using hc
  · rintro ⟨a, ha, hc⟩
    refine ⟨a, ha, ?_⟩
    rcases hc with hc | ⟨d, h1, hd, hc⟩
    · exact Or.inl hc
    · obtain ⟨k, rfl⟩ : ∃ k, d = k + 1 := ⟨d - 1, by omega⟩
      refine Or.inr ⟨k, by omega, ?_⟩
      simpa [Nat.add_assoc, Nat.add_sub_assoc] using hc

end Frydom.Asset
