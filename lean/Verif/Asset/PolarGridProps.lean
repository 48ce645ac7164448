import Verif.Asset.PolarGrid
import Mathlib.Tactic.Positivity
import Mathlib.Analysis.SpecialFunctions.Trigonometric.Bounds

/-!
# What the polar grid covers (C151)
-/

noncomputable section

namespace Frydom.Asset
open Frydom.Geom Real

/-- The point of the sector between the rays at angles θ and θ', at α steps along the first one and β steps along the second one. -/
def sectorPt (xc yc ρ θ θ' α β z : ℝ) : V3 :=
  ⟨xc + ρ * (α * cos θ + β * cos θ'), yc + ρ * (α * sin θ + β * sin θ'), z⟩

theorem sector_area (xc yc ρ θ θ' a1 b1 z1 a2 b2 z2 a3 b3 z3 : ℝ) :
    area2 (sectorPt xc yc ρ θ θ' a1 b1 z1) (sectorPt xc yc ρ θ θ' a2 b2 z2) (sectorPt xc yc ρ θ θ' a3 b3 z3)
      = ρ ^ 2 * sin (θ' - θ) * ((a2 - a1) * (b3 - b1) - (b2 - b1) * (a3 - a1)) := by
  rw [sin_sub]
  simp only [area2, sectorPt]
  ring

/-- Coordinates of a point with respect to two rays that are not parallel. -/
theorem sector_coords (xc yc ρ θ θ' : ℝ) (hρ : ρ ≠ 0) (hs : sin (θ' - θ) ≠ 0) (p : V3) :
    ∃ α β, p = sectorPt xc yc ρ θ θ' α β p.z := by
  refine ⟨((p.x - xc) * sin θ' - (p.y - yc) * cos θ') / (ρ * sin (θ' - θ)), ((p.y - yc) * cos θ - (p.x - xc) * sin θ) / (ρ * sin (θ' - θ)), ?_⟩
  have e := sin_sub θ' θ
  ext
  · show p.x = xc + ρ * (_ / _ * cos θ + _ / _ * cos θ')
    field_simp
    rw [e]; ring
  · show p.y = yc + ρ * (_ / _ * sin θ + _ / _ * sin θ')
    field_simp
    rw [e]; ring
  · rfl

section
variable {h xc yc D : ℝ} {nr nt : ℕ}

theorem dTheta_eq (nt : ℕ) : dTheta (nt + 1) = 2 * π / nt := by
  unfold dTheta; push_cast; ring_nf

theorem dTheta_pos (hnt : 3 ≤ nt) : 0 < dTheta (nt + 1) := by
  rw [dTheta_eq]
  have : (0 : ℝ) < nt := by exact_mod_cast (by omega : 0 < nt)
  have := pi_pos
  positivity

theorem dTheta_lt (hnt : 3 ≤ nt) : dTheta (nt + 1) < π := by
  rw [dTheta_eq]
  have h3 : (3 : ℝ) ≤ nt := by exact_mod_cast hnt
  rw [div_lt_iff₀ (by linarith)]
  nlinarith [pi_pos]

theorem sin_pos_step (hnt : 3 ≤ nt) (a : ℕ) : 0 < sin (((a + 1 : ℕ) : ℝ) * dTheta (nt + 1) - a * dTheta (nt + 1)) := by
  have : ((a + 1 : ℕ) : ℝ) * dTheta (nt + 1) - a * dTheta (nt + 1) = dTheta (nt + 1) := by push_cast; ring
  rw [this]
  exact sin_pos_of_pos_of_lt_pi (dTheta_pos hnt) (dTheta_lt hnt)

/-- The sector number a of the grid, in steps of the radius. -/
def gridPt (xc yc D : ℝ) (nr nt a : ℕ) (α β z : ℝ) : V3 :=
  sectorPt xc yc (D / 2 / nr) (a * dTheta (nt + 1)) (((a + 1 : ℕ) : ℝ) * dTheta (nt + 1)) α β z

theorem node_first (a d : ℕ) : polarNode h xc yc D (nr + 1) (nt + 1) a d = gridPt xc yc D nr nt a d 0 (rayHeight h a) := by
  unfold polarNode gridPt sectorPt
  push_cast
  congr 1 <;> ring

theorem node_second (a d : ℕ) : polarNode h xc yc D (nr + 1) (nt + 1) (a + 1) d = gridPt xc yc D nr nt a 0 d 0 := by
  have hz : rayHeight h (a + 1) = 0 := if_neg (by omega)
  unfold polarNode gridPt sectorPt
  rw [hz]
  push_cast
  congr 1 <;> ring

theorem node_center (a : ℕ) : (⟨xc, yc, h⟩ : V3) = gridPt xc yc D nr nt a 0 0 h := by
  unfold gridPt sectorPt
  congr 1 <;> ring

theorem grid_area (hnt : 3 ≤ nt) (hD : 0 < D) (hnr : 1 ≤ nr) (a : ℕ) : ∃ K : ℝ, 0 < K ∧ ∀ a1 b1 z1 a2 b2 z2 a3 b3 z3,
    area2 (gridPt xc yc D nr nt a a1 b1 z1) (gridPt xc yc D nr nt a a2 b2 z2) (gridPt xc yc D nr nt a a3 b3 z3)
      = K * ((a2 - a1) * (b3 - b1) - (b2 - b1) * (a3 - a1)) := by
  have hr : (0 : ℝ) < nr := by exact_mod_cast hnr
  exact ⟨_, mul_pos (by positivity) (sin_pos_step hnt a), fun _ _ _ _ _ _ _ _ _ => sector_area _ _ _ _ _ _ _ _ _ _ _ _ _ _⟩

theorem grid_coords (hnt : 3 ≤ nt) (hD : 0 < D) (hnr : 1 ≤ nr) (a : ℕ) (p : V3) : ∃ α β, p = gridPt xc yc D nr nt a α β p.z := by
  have hr : (0 : ℝ) < nr := by exact_mod_cast hnr
  exact sector_coords _ _ _ _ _ (by positivity) (sin_pos_step hnt a).ne' p

/-- The corners of a face, in the coordinates of its sector. -/
inductive FaceOf (nr : ℕ) : ℕ → (ℝ × ℝ) × (ℝ × ℝ) × (ℝ × ℝ) → Prop
  | center (a : ℕ) : FaceOf nr a ((0, 0), (1, 0), (0, 1))
  | lower (a d : ℕ) : 1 ≤ d → d < nr → FaceOf nr a ((0, d), (d, 0), (0, d + 1))
  | upper (a d : ℕ) : 1 ≤ d → d < nr → FaceOf nr a ((0, d + 1), (d, 0), (d + 1, 0))

theorem face_corners (h : ℝ) (hnr : 1 ≤ nr) {t : ℕ × ℕ × ℕ} (ht : t ∈ (polar h xc yc D (nr + 1) (nt + 1)).faces) :
    ∃ a < nt, ∃ c, FaceOf nr a c ∧ ∃ z1 z2 z3, (polar h xc yc D (nr + 1) (nt + 1)).Corners t
      (gridPt xc yc D nr nt a c.1.1 c.1.2 z1) (gridPt xc yc D nr nt a c.2.1.1 c.2.1.2 z2) (gridPt xc yc D nr nt a c.2.2.1 c.2.2.2 z3) := by
  obtain ⟨a, ha, hc⟩ := (polar_faces h xc yc D nr nt t).mp ht
  refine ⟨a, ha, ?_⟩
  rcases hc with rfl | ⟨d, h1, hd, rfl | rfl⟩
  · refine ⟨_, .center a, h, rayHeight h a, 0, ?_, ?_, ?_⟩
    · rw [polar_center]; exact congrArg some (node_center a)
    · have := polar_vert h xc yc D nr nt a 1 (by omega) (le_refl 1) hnr
      rw [node_first] at this; push_cast at this; exact this
    · have := polar_vert h xc yc D nr nt (a + 1) 1 (by omega) (le_refl 1) hnr
      rw [node_second] at this; push_cast at this; exact this
  · refine ⟨_, .lower a d h1 hd, 0, rayHeight h a, 0, ?_, ?_, ?_⟩
    · have := polar_vert h xc yc D nr nt (a + 1) d (by omega) h1 (by omega)
      rw [node_second] at this; exact this
    · have := polar_vert h xc yc D nr nt a d (by omega) h1 (by omega)
      rw [node_first] at this; exact this
    · have := polar_vert h xc yc D nr nt (a + 1) (d + 1) (by omega) (by omega) (by omega)
      rw [node_second] at this; push_cast at this; exact this
  · refine ⟨_, .upper a d h1 hd, 0, rayHeight h a, rayHeight h a, ?_, ?_, ?_⟩
    · have := polar_vert h xc yc D nr nt (a + 1) (d + 1) (by omega) (by omega) (by omega)
      rw [node_second] at this; push_cast at this; exact this
    · have := polar_vert h xc yc D nr nt a d (by omega) h1 (by omega)
      rw [node_first] at this; exact this
    · have := polar_vert h xc yc D nr nt a (d + 1) (by omega) (by omega) (by omega)
      rw [node_first] at this; push_cast at this; exact this

/-- Every triple of sector coordinates of the shapes above is a face. -/
theorem face_exists (h : ℝ) (hnr : 1 ≤ nr) {a : ℕ} (ha : a < nt) {c : (ℝ × ℝ) × (ℝ × ℝ) × (ℝ × ℝ)} (hc : FaceOf nr a c) :
    ∃ t ∈ (polar h xc yc D (nr + 1) (nt + 1)).faces, ∃ z1 z2 z3, (polar h xc yc D (nr + 1) (nt + 1)).Corners t
      (gridPt xc yc D nr nt a c.1.1 c.1.2 z1) (gridPt xc yc D nr nt a c.2.1.1 c.2.1.2 z2) (gridPt xc yc D nr nt a c.2.2.1 c.2.2.2 z3) := by
  cases hc with
  | center =>
    refine ⟨_, (polar_faces h xc yc D nr nt _).mpr ⟨a, ha, Or.inl rfl⟩, h, rayHeight h a, 0, ?_, ?_, ?_⟩
    · rw [polar_center]; exact congrArg some (node_center a)
    · have := polar_vert h xc yc D nr nt a 1 (by omega) (le_refl 1) hnr
      rw [node_first] at this; push_cast at this; exact this
    · have := polar_vert h xc yc D nr nt (a + 1) 1 (by omega) (le_refl 1) hnr
      rw [node_second] at this; push_cast at this; exact this
  | lower d h1 hd =>
    refine ⟨_, (polar_faces h xc yc D nr nt _).mpr ⟨a, ha, Or.inr ⟨d, h1, hd, Or.inl rfl⟩⟩, 0, rayHeight h a, 0, ?_, ?_, ?_⟩
    · have := polar_vert h xc yc D nr nt (a + 1) d (by omega) h1 (by omega)
      rw [node_second] at this; exact this
    · have := polar_vert h xc yc D nr nt a d (by omega) h1 (by omega)
      rw [node_first] at this; exact this
    · have := polar_vert h xc yc D nr nt (a + 1) (d + 1) (by omega) (by omega) (by omega)
      rw [node_second] at this; push_cast at this; exact this
  | upper d h1 hd =>
    refine ⟨_, (polar_faces h xc yc D nr nt _).mpr ⟨a, ha, Or.inr ⟨d, h1, hd, Or.inr rfl⟩⟩, 0, rayHeight h a, rayHeight h a, ?_, ?_, ?_⟩
    · have := polar_vert h xc yc D nr nt (a + 1) (d + 1) (by omega) (by omega) (by omega)
      rw [node_second] at this; push_cast at this; exact this
    · have := polar_vert h xc yc D nr nt a d (by omega) h1 (by omega)
      rw [node_first] at this; exact this
    · have := polar_vert h xc yc D nr nt a (d + 1) (by omega) (by omega) (by omega)
      rw [node_first] at this; push_cast at this; exact this

/-! ## C151 -/

/-- **C151 (nodes)**: the nodes of a polar grid of nr rings and nt sectors are, seen from above, the centre and the points at the distances d·R/nr, d = 1 … nr,
of the rays at the angles a·2π/nt, a = 0 … nt; the last ray is over the first one. -/
theorem C151_nodes_partial (h xc yc D : ℝ) (nr nt : ℕ) :
    (polar h xc yc D (nr + 1) (nt + 1)).verts.length = 1 + (nt + 1) * nr ∧
    (∃ z, (polar h xc yc D (nr + 1) (nt + 1)).verts[0]? = some ⟨xc, yc, z⟩) ∧
    (∀ a ≤ nt, ∀ d, 1 ≤ d → d ≤ nr → ∃ z, (polar h xc yc D (nr + 1) (nt + 1)).verts[a * nr + d]?
      = some ⟨xc + d * (D / 2) / nr * cos (a * (2 * π / nt)), yc + d * (D / 2) / nr * sin (a * (2 * π / nt)), z⟩) ∧
    (1 ≤ nt → ∀ d, 1 ≤ d → d ≤ nr → ∃ x y z z', (polar h xc yc D (nr + 1) (nt + 1)).verts[d]? = some ⟨x, y, z⟩ ∧
      (polar h xc yc D (nr + 1) (nt + 1)).verts[nt * nr + d]? = some ⟨x, y, z'⟩) := by
  refine ⟨polar_verts_length _ _ _ _ _ _, ⟨h, polar_center _ _ _ _ _ _⟩, fun a ha d h1 hd => ⟨rayHeight h a, ?_⟩, fun hnt d h1 hd => ?_⟩
  · rw [polar_vert h xc yc D nr nt a d ha h1 hd]
    unfold polarNode
    rw [dTheta_eq]
    push_cast
    congr 2 <;> ring
  · have p0 := polar_vert h xc yc D nr nt 0 d (by omega) h1 hd
    have p1 := polar_vert h xc yc D nr nt nt d (le_refl _) h1 hd
    rw [Nat.zero_mul, Nat.zero_add] at p0
    have hnt' : (nt : ℝ) ≠ 0 := by exact_mod_cast (by omega : nt ≠ 0)
    have e : (nt : ℝ) * (2 * π / nt) = 2 * π := by field_simp
    refine ⟨_, _, _, rayHeight h nt, p0, ?_⟩
    rw [p1]
    unfold polarNode
    rw [dTheta_eq, e]
    simp

/-- **C151 (faces)**: the corners of every face exist and turn anticlockwise seen from above. -/
theorem C151_faces (h : ℝ) (hnt : 3 ≤ nt) (hD : 0 < D) (hnr : 1 ≤ nr) :
    (polar h xc yc D (nr + 1) (nt + 1)).faces.length = nt * (2 * nr - 1) ∧
    ∀ t ∈ (polar h xc yc D (nr + 1) (nt + 1)).faces, ∃ a b c, (polar h xc yc D (nr + 1) (nt + 1)).Corners t a b c ∧ 0 < area2 a b c := by
  refine ⟨?_, fun t ht => ?_⟩
  · unfold polar rayFaces
    simp only [List.length_flatMap, List.length_cons, List.length_nil]
    simp
    left
    omega
  · obtain ⟨a, -, c, hc, z1, z2, z3, hco⟩ := face_corners h hnr ht
    refine ⟨_, _, _, hco, ?_⟩
    obtain ⟨K, hK, e⟩ := grid_area (xc := xc) (yc := yc) hnt hD hnr a
    rw [e]
    refine mul_pos hK ?_
    cases hc with
    | center => norm_num
    | lower d h1 hd =>
      have : (1 : ℝ) ≤ d := by exact_mod_cast h1
      simp only []
      nlinarith
    | upper d h1 hd =>
      have : (1 : ℝ) ≤ d := by exact_mod_cast h1
      simp only []
      nlinarith

/-- A point is over a face of the sector: its coordinates. -/
theorem over_sector (hnt : 3 ≤ nt) (hD : 0 < D) (hnr : 1 ≤ nr) {a : ℕ} {c : (ℝ × ℝ) × (ℝ × ℝ) × (ℝ × ℝ)} (hc : FaceOf nr a c) {z1 z2 z3 α β z : ℝ}
    (o1 : 0 ≤ area2 (gridPt xc yc D nr nt a c.1.1 c.1.2 z1) (gridPt xc yc D nr nt a c.2.1.1 c.2.1.2 z2) (gridPt xc yc D nr nt a α β z))
    (o2 : 0 ≤ area2 (gridPt xc yc D nr nt a c.2.1.1 c.2.1.2 z2) (gridPt xc yc D nr nt a c.2.2.1 c.2.2.2 z3) (gridPt xc yc D nr nt a α β z))
    (o3 : 0 ≤ area2 (gridPt xc yc D nr nt a c.2.2.1 c.2.2.2 z3) (gridPt xc yc D nr nt a c.1.1 c.1.2 z1) (gridPt xc yc D nr nt a α β z)) :
    0 ≤ α ∧ 0 ≤ β ∧ α + β ≤ nr := by
  obtain ⟨K, hK, e⟩ := grid_area (xc := xc) (yc := yc) hnt hD hnr a
  rw [e] at o1 o2 o3
  have key : ∀ {B : ℝ}, 0 ≤ K * B → 0 ≤ B := fun hAB => nonneg_of_mul_nonneg_right hAB hK
  replace o1 := key o1
  replace o2 := key o2
  replace o3 := key o3
  cases hc with
  | center =>
    have : (1 : ℝ) ≤ nr := by exact_mod_cast hnr
    simp only [] at o1 o2 o3
    exact ⟨by linarith, by linarith, by linarith⟩
  | lower d h1 hd =>
    have h1' : (1 : ℝ) ≤ d := by exact_mod_cast h1
    have hd' : (d : ℝ) + 1 ≤ nr := by exact_mod_cast hd
    simp only [] at o1 o2 o3
    have hα : 0 ≤ α := by linarith
    have q2 : (d : ℝ) * β + (d + 1) * α ≤ d * (d + 1) := by linarith
    have q1 : (0 : ℝ) ≤ d * (α + β - d) := by linarith
    have q1' : 0 ≤ α + β - d := nonneg_of_mul_nonneg_right q1 (by linarith)
    refine ⟨hα, ?_, ?_⟩
    · have : α ≤ d := by nlinarith
      linarith
    · have : (d : ℝ) * (α + β) ≤ d * (d + 1) := by linarith
      have := le_of_mul_le_mul_left this (by linarith)
      linarith
  | upper d h1 hd =>
    have h1' : (1 : ℝ) ≤ d := by exact_mod_cast h1
    have hd' : (d : ℝ) + 1 ≤ nr := by exact_mod_cast hd
    simp only [] at o1 o2 o3
    have hβ : 0 ≤ β := by linarith
    have q3 : (0 : ℝ) ≤ (d + 1) * (d + 1 - α - β) := by linarith
    have q3' : 0 ≤ (d : ℝ) + 1 - α - β := nonneg_of_mul_nonneg_right q3 (by linarith)
    have q1 : (0 : ℝ) ≤ d * (β - d - 1) + (d + 1) * α := by linarith
    refine ⟨?_, hβ, by linarith⟩
    have : (0 : ℝ) ≤ (d + 1) * α := by nlinarith
    exact nonneg_of_mul_nonneg_right this (by linarith)

/-- Every point of the sector is over a face. -/
theorem sector_over (h : ℝ) (hnt : 3 ≤ nt) (hD : 0 < D) (hnr : 1 ≤ nr) {a : ℕ} (ha : a < nt) {α β z : ℝ} (hα : 0 ≤ α) (hβ : 0 ≤ β) (hs : α + β ≤ nr) :
    ∃ t ∈ (polar h xc yc D (nr + 1) (nt + 1)).faces, (polar h xc yc D (nr + 1) (nt + 1)).Over t (gridPt xc yc D nr nt a α β z) := by
  obtain ⟨K, hK, e⟩ := grid_area (xc := xc) (yc := yc) hnt hD hnr a
  have fin : ∀ c, FaceOf nr a c →
      0 ≤ (c.2.1.1 - c.1.1) * (β - c.1.2) - (c.2.1.2 - c.1.2) * (α - c.1.1) →
      0 ≤ (c.2.2.1 - c.2.1.1) * (β - c.2.1.2) - (c.2.2.2 - c.2.1.2) * (α - c.2.1.1) →
      0 ≤ (c.1.1 - c.2.2.1) * (β - c.2.2.2) - (c.1.2 - c.2.2.2) * (α - c.2.2.1) →
      ∃ t ∈ (polar h xc yc D (nr + 1) (nt + 1)).faces, (polar h xc yc D (nr + 1) (nt + 1)).Over t (gridPt xc yc D nr nt a α β z) := by
    intro c hc k1 k2 k3
    obtain ⟨t, ht, z1, z2, z3, hco⟩ := face_exists (xc := xc) (yc := yc) (D := D) h hnr ha hc
    exact ⟨t, ht, _, _, _, hco, by rw [e]; exact mul_nonneg hK.le k1, by rw [e]; exact mul_nonneg hK.le k2, by rw [e]; exact mul_nonneg hK.le k3⟩
  rcases le_total (α + β) 1 with h1 | h1
  · exact fin _ (.center a) (by simp only []; linarith) (by simp only []; linarith) (by simp only []; linarith)
  · -- the ring of the point
    have hring : 2 ≤ nr → ∃ d : ℕ, 1 ≤ d ∧ d < nr ∧ (d : ℝ) ≤ α + β ∧ α + β ≤ d + 1 := by
      intro hnr2
      by_cases hlt : α + β < nr
      · refine ⟨⌊α + β⌋₊, Nat.le_floor (by exact_mod_cast h1), (Nat.floor_lt (by linarith)).mpr hlt, Nat.floor_le (by linarith), (Nat.lt_floor_add_one _).le⟩
      · refine ⟨nr - 1, by omega, by omega, ?_, ?_⟩ <;> rw [Nat.cast_sub hnr] <;> push_cast <;> linarith
    by_cases hnr2 : 2 ≤ nr
    · obtain ⟨d, hd1, hdn, hl, hu⟩ := hring hnr2
      have hd1' : (1 : ℝ) ≤ d := by exact_mod_cast hd1
      rcases le_total ((d : ℝ) * β + (d + 1) * α) (d * (d + 1)) with hc | hc
      · refine fin _ (.lower a d hd1 hdn) ?_ ?_ ?_ <;> simp only []
        · have : 0 ≤ (d : ℝ) * (α + β - d) := mul_nonneg (by linarith) (by linarith)
          linarith
        · linarith
        · linarith
      · refine fin _ (.upper a d hd1 hdn) ?_ ?_ ?_ <;> simp only []
        · linarith
        · linarith
        · have : 0 ≤ ((d : ℝ) + 1) * (d + 1 - α - β) := mul_nonneg (by linarith) (by linarith)
          linarith
    · obtain rfl : nr = 1 := by omega
      push_cast at hs
      exact fin _ (.center a) (by simp only []; linarith) (by simp only []; linarith) (by simp only []; linarith)

/-- **C151 (cover)**: seen from above the faces cover exactly the regular polygon whose corners are the ends of the rays: the points c + R (α e + β e')
with e, e' the directions of two successive rays, α, β ≥ 0, α + β ≤ 1. -/
theorem C151_cover (h : ℝ) (hnt : 3 ≤ nt) (hD : 0 < D) (hnr : 1 ≤ nr) (p : V3) :
    (∃ t ∈ (polar h xc yc D (nr + 1) (nt + 1)).faces, (polar h xc yc D (nr + 1) (nt + 1)).Over t p) ↔
    ∃ a < nt, ∃ α β : ℝ, 0 ≤ α ∧ 0 ≤ β ∧ α + β ≤ 1 ∧
      p.x = xc + D / 2 * (α * cos (a * (2 * π / nt)) + β * cos ((a + 1) * (2 * π / nt))) ∧
      p.y = yc + D / 2 * (α * sin (a * (2 * π / nt)) + β * sin ((a + 1) * (2 * π / nt))) := by
  have hr : (0 : ℝ) < nr := by exact_mod_cast hnr
  constructor
  · rintro ⟨t, ht, A, B, C, hco', o1, o2, o3⟩
    obtain ⟨a, ha, c, hc, z1, z2, z3, hco⟩ := face_corners h hnr ht
    obtain ⟨rfl, rfl, rfl⟩ := Corners.unique hco' hco
    obtain ⟨α, β, hp⟩ := grid_coords (xc := xc) (yc := yc) hnt hD hnr a p
    rw [hp] at o1 o2 o3
    obtain ⟨h1, h2, h3⟩ := over_sector hnt hD hnr hc o1 o2 o3
    refine ⟨a, ha, α / nr, β / nr, by positivity, by positivity, ?_, ?_, ?_⟩
    · rw [← add_div, div_le_one hr]; exact h3
    · have := congrArg V3.x hp
      simp only [gridPt, sectorPt, dTheta_eq] at this
      rw [this]; push_cast; field_simp
    · have := congrArg V3.y hp
      simp only [gridPt, sectorPt, dTheta_eq] at this
      rw [this]; push_cast; field_simp
  · rintro ⟨a, ha, α, β, h1, h2, h3, hx, hy⟩
    obtain ⟨t, ht, ho⟩ := sector_over (xc := xc) (yc := yc) h hnt hD hnr ha (α := α * nr) (β := β * nr) (z := p.z) (by positivity) (by positivity)
      (by rw [← add_mul]; nlinarith)
    refine ⟨t, ht, ?_⟩
    have : p = gridPt xc yc D nr nt a (α * nr) (β * nr) p.z := by
      ext
      · simp only [gridPt, sectorPt, dTheta_eq]
        rw [hx]; push_cast; field_simp
      · simp only [gridPt, sectorPt, dTheta_eq]
        rw [hy]; push_cast; field_simp
      · rfl
    rw [this]
    exact ho

/-- Polar coordinates of a point around the centre, with an angle in one turn. -/
theorem polar_coords (xc yc : ℝ) (p : V3) : ∃ r φ : ℝ, 0 ≤ r ∧ 0 ≤ φ ∧ φ < 2 * π ∧ p.x = xc + r * cos φ ∧ p.y = yc + r * sin φ ∧
    r ^ 2 = (p.x - xc) ^ 2 + (p.y - yc) ^ 2 := by
  let w : ℂ := ⟨p.x - xc, p.y - yc⟩
  have hn : ‖w‖ ^ 2 = (p.x - xc) ^ 2 + (p.y - yc) ^ 2 := by
    rw [Complex.sq_norm, Complex.normSq_apply]; ring
  have hc : ‖w‖ * cos w.arg = p.x - xc := Complex.norm_mul_cos_arg w
  have hs : ‖w‖ * sin w.arg = p.y - yc := Complex.norm_mul_sin_arg w
  have h1 := Complex.neg_pi_lt_arg w
  have h2 := Complex.arg_le_pi w
  have hpi := pi_pos
  rcases le_or_gt 0 w.arg with h | h
  · exact ⟨‖w‖, w.arg, norm_nonneg _, h, by linarith, by linarith, by linarith, hn⟩
  · exact ⟨‖w‖, w.arg + 2 * π, norm_nonneg _, by linarith, by linarith, by rw [cos_add_two_pi]; linarith, by rw [sin_add_two_pi]; linarith, hn⟩

/-- A direction between two rays, as a combination of the directions of the rays. -/
theorem split_dir (θ r x Δ R : ℝ) (hR : R ≠ 0) (hs : sin Δ ≠ 0) :
    r * cos (θ + x) = R * (r * sin (Δ - x) / (R * sin Δ) * cos θ + r * sin x / (R * sin Δ) * cos (θ + Δ)) ∧
    r * sin (θ + x) = R * (r * sin (Δ - x) / (R * sin Δ) * sin θ + r * sin x / (R * sin Δ) * sin (θ + Δ)) := by
  rw [cos_add, cos_add, sin_sub, sin_add, sin_add]
  constructor
  · field_simp
    ring
  · field_simp
    ring

/-- **C151 (disc)**: the grid stays in the disc of the given diameter and covers the disc of radius R cos(π/nt), inscribed in the polygon. -/
theorem C151_disc (h : ℝ) (hnt : 3 ≤ nt) (hD : 0 < D) (hnr : 1 ≤ nr) (p : V3) :
    ((∃ t ∈ (polar h xc yc D (nr + 1) (nt + 1)).faces, (polar h xc yc D (nr + 1) (nt + 1)).Over t p) →
      (p.x - xc) ^ 2 + (p.y - yc) ^ 2 ≤ (D / 2) ^ 2) ∧
    ((p.x - xc) ^ 2 + (p.y - yc) ^ 2 ≤ (D / 2 * cos (π / nt)) ^ 2 →
      ∃ t ∈ (polar h xc yc D (nr + 1) (nt + 1)).faces, (polar h xc yc D (nr + 1) (nt + 1)).Over t p) := by
  have hr : (0 : ℝ) < nr := by exact_mod_cast hnr
  have h3 : (3 : ℝ) ≤ nt := by exact_mod_cast hnt
  have hpi := pi_pos
  constructor
  · intro ho
    obtain ⟨a, -, α, β, h1, h2, h3, hx, hy⟩ := (C151_cover h hnt hD hnr p).mp ho
    rw [hx, hy]
    generalize (a : ℝ) * (2 * π / nt) = θ
    generalize ((a : ℝ) + 1) * (2 * π / nt) = θ'
    have e : (xc + D / 2 * (α * cos θ + β * cos θ') - xc) ^ 2 + (yc + D / 2 * (α * sin θ + β * sin θ') - yc) ^ 2
        = (D / 2) ^ 2 * (α ^ 2 + β ^ 2 + 2 * (α * β) * cos (θ - θ')) := by
      rw [cos_sub]
      linear_combination (D / 2) ^ 2 * (α ^ 2 * sin_sq_add_cos_sq θ + β ^ 2 * sin_sq_add_cos_sq θ')
    rw [e]
    have hab : 0 ≤ α * β := mul_nonneg h1 h2
    have hc := cos_le_one (θ - θ')
    have hsq : (α + β) ^ 2 ≤ 1 := by nlinarith
    have : α ^ 2 + β ^ 2 + 2 * (α * β) * cos (θ - θ') ≤ 1 := by nlinarith
    have hD2 : 0 ≤ (D / 2) ^ 2 := sq_nonneg _
    nlinarith
  · intro hd
    obtain ⟨r, φ, hr0, hφ0, hφ, hx, hy, hrr⟩ := polar_coords xc yc p
    rw [← hrr] at hd
    have hΔ : (0 : ℝ) < 2 * π / nt := by positivity
    have hΔ2 : 2 * π / nt = 2 * (π / nt) := by ring
    have hlt : π / nt < π / 2 := div_lt_div_of_pos_left hpi (by norm_num) (by linarith)
    have hcos : 0 < cos (π / nt) := cos_pos_of_mem_Ioo ⟨by have : 0 < π / nt := by positivity
                                                           linarith, hlt⟩
    have hsin : 0 < sin (π / nt) := sin_pos_of_pos_of_lt_pi (by positivity) (by linarith)
    have hrle : r ≤ D / 2 * cos (π / nt) := by
      exact (pow_le_pow_iff_left₀ hr0 (by positivity) (by norm_num)).mp hd
    have hq0 : 0 ≤ φ / (2 * π / nt) := by positivity
    have hfl := Nat.floor_le hq0
    have hfl' := Nat.lt_floor_add_one (φ / (2 * π / nt))
    rw [le_div_iff₀ hΔ] at hfl
    rw [div_lt_iff₀ hΔ] at hfl'
    have han : ⌊φ / (2 * π / nt)⌋₊ < nt := by
      rw [Nat.floor_lt hq0, div_lt_iff₀ hΔ]
      have : (nt : ℝ) * (2 * π / nt) = 2 * π := by field_simp
      rw [this]; exact hφ
    generalize ⌊φ / (2 * π / nt)⌋₊ = a at hfl hfl' han
    rw [C151_cover h hnt hD hnr p]
    set x := φ - a * (2 * π / nt) with hxdef
    have hx0 : 0 ≤ x := by linarith
    have hx1 : x ≤ 2 * (π / nt) := by
      have : ((a : ℝ) + 1) * (2 * π / nt) = a * (2 * π / nt) + 2 * (π / nt) := by ring
      linarith
    have hs2 : sin (2 * (π / nt)) = 2 * sin (π / nt) * cos (π / nt) := sin_two_mul _
    have hs2p : 0 < sin (2 * (π / nt)) := by rw [hs2]; positivity
    have k1 : 0 ≤ sin x := sin_nonneg_of_nonneg_of_le_pi hx0 (by linarith)
    have k2 : 0 ≤ sin (2 * (π / nt) - x) := sin_nonneg_of_nonneg_of_le_pi (by linarith) (by linarith)
    refine ⟨a, han, r * sin (2 * (π / nt) - x) / (D / 2 * sin (2 * (π / nt))), r * sin x / (D / 2 * sin (2 * (π / nt))), by positivity, by positivity, ?_, ?_, ?_⟩
    · rw [← add_div, div_le_one (by positivity), ← mul_add]
      have es : sin (2 * (π / nt) - x) + sin x = 2 * sin (π / nt) * cos (π / nt - x) := by
        have := sin_add_sin (2 * (π / nt) - x) x
        rw [this]
        congr 2
        · ring_nf
        · ring_nf
      rw [es, hs2]
      have hc1 := cos_le_one (π / nt - x)
      have : r * (2 * sin (π / nt) * cos (π / nt - x)) ≤ r * (2 * sin (π / nt) * 1) := by
        apply mul_le_mul_of_nonneg_left _ hr0
        apply mul_le_mul_of_nonneg_left hc1 (by positivity)
      have h5 : r * (2 * sin (π / nt)) ≤ D / 2 * cos (π / nt) * (2 * sin (π / nt)) := mul_le_mul_of_nonneg_right hrle (by positivity)
      linarith
    · rw [hx]
      have e1 : φ = a * (2 * π / nt) + x := by rw [hxdef]; ring
      have e2 : ((a : ℝ) + 1) * (2 * π / nt) = a * (2 * π / nt) + 2 * (π / nt) := by ring
      rw [e2, e1]
      congr 1
      exact (split_dir _ r x _ _ (by positivity) hs2p.ne').1
    · rw [hy]
      have e1 : φ = a * (2 * π / nt) + x := by rw [hxdef]; ring
      have e2 : ((a : ℝ) + 1) * (2 * π / nt) = a * (2 * π / nt) + 2 * (π / nt) := by ring
      rw [e2, e1]
      congr 1
      exact (split_dir _ r x _ _ (by positivity) hs2p.ne').2

/-- Indices of the face at the centre of a sector. -/
def idxCenter (nr a : ℕ) : ℕ × ℕ × ℕ := (0, a * nr + 1, (a + 1) * nr + 1)
/-- Indices of the first face of ring d of a sector. -/
def idxLower (nr a d : ℕ) : ℕ × ℕ × ℕ := ((a + 1) * nr + d, a * nr + d, (a + 1) * nr + (d + 1))
/-- Indices of the second face of ring d of a sector. -/
def idxUpper (nr a d : ℕ) : ℕ × ℕ × ℕ := ((a + 1) * nr + (d + 1), a * nr + d, a * nr + (d + 1))

theorem faces_eq (h : ℝ) : (polar h xc yc D (nr + 1) (nt + 1)).faces = (List.range nt).flatMap fun a =>
    idxCenter nr a :: (List.range (nr - 1)).flatMap fun k => [idxLower nr a (k + 1), idxUpper nr a (k + 1)] := by
  unfold polar rayFaces
  simp only [Nat.add_sub_cancel]
  apply List.flatMap_congr
  intro a _
  have e : nr + 1 - 2 = nr - 1 := by omega
  rw [e]
  congr 1

/-- What it is to be strictly inside a face, in the coordinates of its sector. -/
def Zone (c : (ℝ × ℝ) × (ℝ × ℝ) × (ℝ × ℝ)) (α β : ℝ) : Prop :=
  0 < (c.2.1.1 - c.1.1) * (β - c.1.2) - (c.2.1.2 - c.1.2) * (α - c.1.1) ∧
  0 < (c.2.2.1 - c.2.1.1) * (β - c.2.1.2) - (c.2.2.2 - c.2.1.2) * (α - c.2.1.1) ∧
  0 < (c.1.1 - c.2.2.1) * (β - c.2.2.2) - (c.1.2 - c.2.2.2) * (α - c.2.2.1)

theorem inside_zone (hnt : 3 ≤ nt) (hD : 0 < D) (hnr : 1 ≤ nr) {a : ℕ} {c : (ℝ × ℝ) × (ℝ × ℝ) × (ℝ × ℝ)} {t : ℕ × ℕ × ℕ} {z1 z2 z3 α β z : ℝ}
    (hco : (polar h xc yc D (nr + 1) (nt + 1)).Corners t
      (gridPt xc yc D nr nt a c.1.1 c.1.2 z1) (gridPt xc yc D nr nt a c.2.1.1 c.2.1.2 z2) (gridPt xc yc D nr nt a c.2.2.1 c.2.2.2 z3))
    (hp : (polar h xc yc D (nr + 1) (nt + 1)).Inside t (gridPt xc yc D nr nt a α β z)) : Zone c α β := by
  obtain ⟨A, B, C, hco', o1, o2, o3⟩ := hp
  obtain ⟨rfl, rfl, rfl⟩ := Corners.unique hco' hco
  obtain ⟨K, hK, e⟩ := grid_area (xc := xc) (yc := yc) hnt hD hnr a
  rw [e] at o1 o2 o3
  have key : ∀ {B : ℝ}, 0 < K * B → 0 < B := fun hAB => (pos_iff_pos_of_mul_pos hAB).mp hK
  exact ⟨key o1, key o2, key o3⟩

theorem inside_center (h : ℝ) (hnt : 3 ≤ nt) (hD : 0 < D) (hnr : 1 ≤ nr) {a : ℕ} (ha : a < nt) {α β z : ℝ}
    (hp : (polar h xc yc D (nr + 1) (nt + 1)).Inside (idxCenter nr a) (gridPt xc yc D nr nt a α β z)) : 0 < α ∧ 0 < β ∧ α + β < 1 := by
  have hco : (polar h xc yc D (nr + 1) (nt + 1)).Corners (idxCenter nr a)
      (gridPt xc yc D nr nt a 0 0 h) (gridPt xc yc D nr nt a 1 0 (rayHeight h a)) (gridPt xc yc D nr nt a 0 1 0) := by
    refine ⟨?_, ?_, ?_⟩
    · exact (polar_center h xc yc D nr nt).trans (congrArg some (node_center a))
    · have := polar_vert h xc yc D nr nt a 1 (by omega) (le_refl 1) hnr
      rw [node_first] at this; push_cast at this; exact this
    · have := polar_vert h xc yc D nr nt (a + 1) 1 (by omega) (le_refl 1) hnr
      rw [node_second] at this; push_cast at this; exact this
  obtain ⟨o1, o2, o3⟩ := inside_zone (c := ((0, 0), (1, 0), (0, 1))) hnt hD hnr hco hp
  simp only [] at o1 o2 o3
  exact ⟨by linarith, by linarith, by linarith⟩

theorem inside_lower (h : ℝ) (hnt : 3 ≤ nt) (hD : 0 < D) (hnr : 1 ≤ nr) {a d : ℕ} (ha : a < nt) (h1 : 1 ≤ d) (hd : d < nr) {α β z : ℝ}
    (hp : (polar h xc yc D (nr + 1) (nt + 1)).Inside (idxLower nr a d) (gridPt xc yc D nr nt a α β z)) :
    0 < α ∧ 0 < β ∧ d < α + β ∧ α + β < d + 1 ∧ (d : ℝ) * β + (d + 1) * α < d * (d + 1) := by
  have hco : (polar h xc yc D (nr + 1) (nt + 1)).Corners (idxLower nr a d)
      (gridPt xc yc D nr nt a 0 d 0) (gridPt xc yc D nr nt a d 0 (rayHeight h a)) (gridPt xc yc D nr nt a 0 (d + 1) 0) := by
    refine ⟨?_, ?_, ?_⟩
    · have := polar_vert h xc yc D nr nt (a + 1) d (by omega) h1 (by omega)
      rw [node_second] at this; exact this
    · have := polar_vert h xc yc D nr nt a d (by omega) h1 (by omega)
      rw [node_first] at this; exact this
    · have := polar_vert h xc yc D nr nt (a + 1) (d + 1) (by omega) (by omega) (by omega)
      rw [node_second] at this; push_cast at this; exact this
  obtain ⟨o1, o2, o3⟩ := inside_zone (c := ((0, d), (d, 0), (0, d + 1))) hnt hD hnr hco hp
  have h1' : (1 : ℝ) ≤ d := by exact_mod_cast h1
  simp only [] at o1 o2 o3
  have hα : 0 < α := by linarith
  have q2 : (d : ℝ) * β + (d + 1) * α < d * (d + 1) := by linarith
  have q1 : (0 : ℝ) < d * (α + β - d) := by linarith
  have q1' : 0 < α + β - d := (pos_iff_pos_of_mul_pos q1).mp (by linarith)
  refine ⟨hα, ?_, by linarith, ?_, q2⟩
  · have : α < d := by nlinarith
    linarith
  · have : (d : ℝ) * (α + β) < d * (d + 1) := by linarith
    exact lt_of_mul_lt_mul_left this (by linarith)

theorem inside_upper (h : ℝ) (hnt : 3 ≤ nt) (hD : 0 < D) (hnr : 1 ≤ nr) {a d : ℕ} (ha : a < nt) (h1 : 1 ≤ d) (hd : d < nr) {α β z : ℝ}
    (hp : (polar h xc yc D (nr + 1) (nt + 1)).Inside (idxUpper nr a d) (gridPt xc yc D nr nt a α β z)) :
    0 < α ∧ 0 < β ∧ d < α + β ∧ α + β < d + 1 ∧ (d : ℝ) * (d + 1) < d * β + (d + 1) * α := by
  have hco : (polar h xc yc D (nr + 1) (nt + 1)).Corners (idxUpper nr a d)
      (gridPt xc yc D nr nt a 0 (d + 1) 0) (gridPt xc yc D nr nt a d 0 (rayHeight h a)) (gridPt xc yc D nr nt a (d + 1) 0 (rayHeight h a)) := by
    refine ⟨?_, ?_, ?_⟩
    · have := polar_vert h xc yc D nr nt (a + 1) (d + 1) (by omega) (by omega) (by omega)
      rw [node_second] at this; push_cast at this; exact this
    · have := polar_vert h xc yc D nr nt a d (by omega) h1 (by omega)
      rw [node_first] at this; exact this
    · have := polar_vert h xc yc D nr nt a (d + 1) (by omega) (by omega) (by omega)
      rw [node_first] at this; push_cast at this; exact this
  obtain ⟨o1, o2, o3⟩ := inside_zone (c := ((0, d + 1), (d, 0), (d + 1, 0))) hnt hD hnr hco hp
  have h1' : (1 : ℝ) ≤ d := by exact_mod_cast h1
  simp only [] at o1 o2 o3
  have hβ : 0 < β := by linarith
  have q3 : (0 : ℝ) < (d + 1) * (d + 1 - α - β) := by linarith
  have q3' : 0 < (d : ℝ) + 1 - α - β := (pos_iff_pos_of_mul_pos q3).mp (by linarith)
  have q1 : (0 : ℝ) < d * (β - d - 1) + (d + 1) * α := by linarith
  have hα : 0 < α := by
    have : (0 : ℝ) < (d + 1) * α := by nlinarith
    exact (pos_iff_pos_of_mul_pos this).mp (by linarith)
  refine ⟨hα, hβ, ?_, by linarith, by linarith⟩
  have : (d : ℝ) * d < d * (α + β) := by nlinarith
  exact lt_of_mul_lt_mul_left this (by linarith)

/-- The faces of a sector. -/
theorem mem_ray {a : ℕ} {t : ℕ × ℕ × ℕ}
    (ht : t ∈ idxCenter nr a :: (List.range (nr - 1)).flatMap fun k => [idxLower nr a (k + 1), idxUpper nr a (k + 1)]) :
    t = idxCenter nr a ∨ ∃ d, 1 ≤ d ∧ d < nr ∧ (t = idxLower nr a d ∨ t = idxUpper nr a d) := by
  simp only [List.mem_cons, List.mem_flatMap, List.mem_range, List.not_mem_nil, or_false] at ht
  rcases ht with ht | ⟨k, hk, ht⟩
  · exact Or.inl ht
  · exact Or.inr ⟨k + 1, by omega, by omega, ht⟩

theorem inside_ray (h : ℝ) (hnt : 3 ≤ nt) (hD : 0 < D) (hnr : 1 ≤ nr) {a : ℕ} (ha : a < nt) {t : ℕ × ℕ × ℕ}
    (ht : t ∈ idxCenter nr a :: (List.range (nr - 1)).flatMap fun k => [idxLower nr a (k + 1), idxUpper nr a (k + 1)]) {α β z : ℝ}
    (hp : (polar h xc yc D (nr + 1) (nt + 1)).Inside t (gridPt xc yc D nr nt a α β z)) : 0 < α ∧ 0 < β := by
  rcases mem_ray ht with rfl | ⟨d, h1, hd, rfl | rfl⟩
  · have := inside_center h hnt hD hnr ha hp
    exact ⟨this.1, this.2.1⟩
  · have := inside_lower h hnt hD hnr ha h1 hd hp
    exact ⟨this.1, this.2.1⟩
  · have := inside_upper h hnt hD hnr ha h1 hd hp
    exact ⟨this.1, this.2.1⟩

/-- The angle of a point strictly inside a sector is strictly between those of the rays. -/
theorem angle_of_sector (hnt : 3 ≤ nt) (hD : 0 < D) (hnr : 1 ≤ nr) {a : ℕ} (ha : a < nt) {α β z r φ : ℝ} (hα : 0 < α) (hβ : 0 < β) (hr : 0 ≤ r) (h0 : 0 ≤ φ) (h2 : φ < 2 * π)
    (hx : (gridPt xc yc D nr nt a α β z).x = xc + r * cos φ) (hy : (gridPt xc yc D nr nt a α β z).y = yc + r * sin φ) :
    a * dTheta (nt + 1) < φ ∧ φ < (a + 1) * dTheta (nt + 1) := by
  have hnr' : (0 : ℝ) < nr := by exact_mod_cast hnr
  have hρ : 0 < D / 2 / nr := by positivity
  have hs := sin_pos_step (nt := nt) hnt a
  have hΔ := dTheta_pos hnt
  have hΔ' := dTheta_lt hnt
  have ha' : ((a : ℝ) + 1) * dTheta (nt + 1) ≤ 2 * π := by
    rw [dTheta_eq]
    have h1 : (a : ℝ) + 1 ≤ nt := by exact_mod_cast ha
    have h3 : (3 : ℝ) ≤ nt := by exact_mod_cast hnt
    rw [mul_div_assoc', div_le_iff₀ (by linarith)]
    nlinarith [pi_pos]
  have ha0 : 0 ≤ (a : ℝ) * dTheta (nt + 1) := by positivity
  simp only [gridPt, sectorPt] at hx hy
  push_cast at hx hy hs
  generalize hθ' : ((a : ℝ) + 1) * dTheta (nt + 1) = θ' at *
  generalize hθ : (a : ℝ) * dTheta (nt + 1) = θ at *
  have hdiff : θ' - θ = dTheta (nt + 1) := by rw [← hθ', ← hθ]; ring
  have k1 : r * sin (φ - θ) = D / 2 / nr * β * sin (θ' - θ) := by
    rw [sin_sub, sin_sub]
    linear_combination (-cos θ) * hy + sin θ * hx
  have k2 : r * sin (θ' - φ) = D / 2 / nr * α * sin (θ' - θ) := by
    rw [sin_sub, sin_sub]
    linear_combination cos θ' * hy - sin θ' * hx
  have p1 : 0 < sin (φ - θ) := by
    have : 0 < r * sin (φ - θ) := by rw [k1]; positivity
    by_contra hc
    have := mul_nonpos_of_nonneg_of_nonpos hr (not_lt.mp hc)
    linarith
  have p2 : 0 < sin (θ' - φ) := by
    have : 0 < r * sin (θ' - φ) := by rw [k2]; positivity
    by_contra hc
    have := mul_nonpos_of_nonneg_of_nonpos hr (not_lt.mp hc)
    linarith
  have hpi := pi_pos
  constructor
  · by_contra hc
    push Not at hc
    -- φ - θ is in (-2π, 0], so it is below -π, and then θ' - φ is in (π, 2π)
    have : φ - θ < -π := by
      by_contra hc'
      push Not at hc'
      exact absurd p1 (not_lt.mpr (sin_nonpos_of_nonpos_of_neg_pi_le (by linarith) hc'))
    have hge : π < θ' - φ := by linarith
    have : sin (θ' - φ) ≤ 0 := by
      rw [← sin_sub_two_pi]
      exact sin_nonpos_of_nonpos_of_neg_pi_le (by linarith) (by linarith)
    linarith
  · by_contra hc
    push Not at hc
    have : θ' - φ < -π := by
      by_contra hc'
      push Not at hc'
      exact absurd p2 (not_lt.mpr (sin_nonpos_of_nonpos_of_neg_pi_le (by linarith) hc'))
    have hge : π < φ - θ := by linarith
    have : sin (φ - θ) ≤ 0 := by
      rw [← sin_sub_two_pi]
      exact sin_nonpos_of_nonpos_of_neg_pi_le (by linarith) (by linarith)
    linarith

/-- **C151 (no overlap)**: seen from above no point is strictly inside two of the faces. -/
theorem C151_no_overlap (h : ℝ) (hnt : 3 ≤ nt) (hD : 0 < D) (hnr : 1 ≤ nr) :
    (polar h xc yc D (nr + 1) (nt + 1)).faces.Pairwise fun s t => ∀ p, ¬ ((polar h xc yc D (nr + 1) (nt + 1)).Inside s p ∧
      (polar h xc yc D (nr + 1) (nt + 1)).Inside t p) := by
  have hf := faces_eq (xc := xc) (yc := yc) (D := D) (nr := nr) (nt := nt) h
  rw [hf, List.pairwise_flatMap]
  constructor
  · intro a ha
    have ha := List.mem_range.mp ha
    rw [List.pairwise_cons]
    constructor
    · intro t ht p hp
      obtain ⟨α, β, he⟩ := grid_coords (xc := xc) (yc := yc) hnt hD hnr a p
      rw [he] at hp
      have h1 := inside_center h hnt hD hnr ha hp.1
      obtain ⟨k, hk, ht⟩ := List.mem_flatMap.mp ht
      have hk := List.mem_range.mp hk
      simp only [List.mem_cons, List.not_mem_nil, or_false] at ht
      have hk0 : (0 : ℝ) ≤ k := Nat.cast_nonneg k
      rcases ht with rfl | rfl
      · have h2 := inside_lower h hnt hD hnr ha (by omega) (by omega) hp.2
        have := h2.2.2.1
        push_cast at this
        linarith [h1.2.2]
      · have h2 := inside_upper h hnt hD hnr ha (by omega) (by omega) hp.2
        have := h2.2.2.1
        push_cast at this
        linarith [h1.2.2]
    · rw [List.pairwise_flatMap]
      constructor
      · intro k hk
        have hk := List.mem_range.mp hk
        simp only [List.pairwise_cons, List.mem_cons, List.not_mem_nil, or_false, forall_eq, List.Pairwise.nil, and_true, false_imp_iff, implies_true]
        intro p hp
        obtain ⟨α, β, he⟩ := grid_coords (xc := xc) (yc := yc) hnt hD hnr a p
        rw [he] at hp
        have h1 := inside_lower h hnt hD hnr ha (by omega) (by omega) hp.1
        have h2 := inside_upper h hnt hD hnr ha (by omega) (by omega) hp.2
        linarith [h1.2.2.2.2, h2.2.2.2.2]
      · refine (List.pairwise_lt_range (n := nr - 1)).imp_of_mem ?_
        intro k k' hk hk' hlt s hs t ht p hp
        have hk := List.mem_range.mp hk
        have hk' := List.mem_range.mp hk'
        obtain ⟨α, β, he⟩ := grid_coords (xc := xc) (yc := yc) hnt hD hnr a p
        rw [he] at hp
        have hlt' : (k : ℝ) + 1 ≤ k' := by exact_mod_cast hlt
        have u : α + β < ((k + 1 : ℕ) : ℝ) + 1 := by
          simp only [List.mem_cons, List.not_mem_nil, or_false] at hs
          rcases hs with rfl | rfl
          · exact (inside_lower h hnt hD hnr ha (by omega) (by omega) hp.1).2.2.2.1
          · exact (inside_upper h hnt hD hnr ha (by omega) (by omega) hp.1).2.2.2.1
        have l : ((k' + 1 : ℕ) : ℝ) < α + β := by
          simp only [List.mem_cons, List.not_mem_nil, or_false] at ht
          rcases ht with rfl | rfl
          · exact (inside_lower h hnt hD hnr ha (by omega) (by omega) hp.2).2.2.1
          · exact (inside_upper h hnt hD hnr ha (by omega) (by omega) hp.2).2.2.1
        push_cast at u l
        linarith
  · refine (List.pairwise_lt_range (n := nt)).imp_of_mem ?_
    intro a a' ha ha' hlt s hs t ht p hp
    have ha := List.mem_range.mp ha
    have ha' := List.mem_range.mp ha'
    obtain ⟨r, φ, hr0, hφ0, hφ, hx, hy, -⟩ := polar_coords xc yc p
    obtain ⟨α, β, he⟩ := grid_coords (xc := xc) (yc := yc) hnt hD hnr a p
    obtain ⟨α', β', he'⟩ := grid_coords (xc := xc) (yc := yc) hnt hD hnr a' p
    have i1 := hp.1
    have i2 := hp.2
    rw [he] at i1
    rw [he'] at i2
    have k1 := inside_ray h hnt hD hnr ha hs i1
    have k2 := inside_ray h hnt hD hnr ha' ht i2
    have g1 := angle_of_sector (xc := xc) (yc := yc) hnt hD hnr ha k1.1 k1.2 hr0 hφ0 hφ (he ▸ hx) (he ▸ hy)
    have g2 := angle_of_sector (xc := xc) (yc := yc) hnt hD hnr ha' k2.1 k2.2 hr0 hφ0 hφ (he' ▸ hx) (he' ▸ hy)
    have hlt' : (a : ℝ) + 1 ≤ a' := by exact_mod_cast hlt
    have := mul_le_mul_of_nonneg_right hlt' (dTheta_pos hnt).le
    linarith [g1.2, g2.1]

/-- **C151 (heights)**: the nodes are all at the same height only if the height of the grid is zero: whatever this height, every node that is not on the first ray is at 0,
and the nodes of the first ray, with the centre, are at the height of the grid. -/
theorem C151_heights (h xc yc D : ℝ) (nr nt : ℕ) :
    (∀ d, d ≤ nr → ∃ x y, (polar h xc yc D (nr + 1) (nt + 1)).verts[d]? = some ⟨x, y, h⟩) ∧
    (∀ k, nr < k → k < (polar h xc yc D (nr + 1) (nt + 1)).verts.length → ∃ x y, (polar h xc yc D (nr + 1) (nt + 1)).verts[k]? = some ⟨x, y, 0⟩) := by
  constructor
  · intro d hd
    rcases Nat.eq_zero_or_pos d with rfl | h1
    · exact ⟨_, _, polar_center _ _ _ _ _ _⟩
    · have := polar_vert h xc yc D nr nt 0 d (by omega) h1 hd
      rw [Nat.zero_mul, Nat.zero_add] at this
      exact ⟨_, _, this.trans rfl⟩
  · intro k hk hlen
    rw [polar_verts_length] at hlen
    have hnr : 0 < nr := by
      rcases Nat.eq_zero_or_pos nr with h0 | h0
      · subst h0; simp at hlen; omega
      · exact h0
    have hdm := Nat.div_add_mod (k - 1) nr
    have hml := Nat.mod_lt (k - 1) hnr
    have ha : 1 ≤ (k - 1) / nr := (Nat.one_le_div_iff hnr).mpr (by omega)
    have ha' : (k - 1) / nr ≤ nt := by
      have : (k - 1) / nr < nt + 1 := (Nat.div_lt_iff_lt_mul hnr).mpr (by omega)
      omega
    have := polar_vert h xc yc D nr nt ((k - 1) / nr) ((k - 1) % nr + 1) ha' (by omega) (by omega)
    have e : (k - 1) / nr * nr + ((k - 1) % nr + 1) = k := by rw [Nat.mul_comm]; omega
    rw [e] at this
    have hz : rayHeight h ((k - 1) / nr) = 0 := if_neg (by omega)
    unfold polarNode at this
    rw [hz] at this
    exact ⟨_, _, this⟩

/-- The default polar grid: 49 rings, 35 sectors, 50 m of diameter; and a sea bed 30 m deep drawn with such a grid is drawn at the level of the water but for its first ray. -/
example : (3 ≤ 35 ∧ (0 : ℝ) < 50 ∧ 1 ≤ 49) ∧
    ∃ x y, (polar (-30) 0 0 50 (49 + 1) (35 + 1)).verts[50]? = some ⟨x, y, 0⟩ := by
  refine ⟨by norm_num, (C151_heights (-30) 0 0 50 49 35).2 50 (by omega) ?_⟩
  rw [polar_verts_length]; norm_num

end

end Frydom.Asset
