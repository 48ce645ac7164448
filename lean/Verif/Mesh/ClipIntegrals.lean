import Verif.Mesh.TriangleCut
import Verif.Mesh.MassProps

/-!
# What the clipper does to surface integrals (C192)
-/

open Classical

noncomputable section

namespace Frydom.Mesh
open Geom Clip Surface

/-- Every quantity of a face that is its average of `g` times a function of its area vector that scales with it is shared between the halves. -/
structure Shares (M : Input) (m : TMesh) (g : V3 → ℝ) (c : V3 → ℝ) : Prop where
  sum : (m.faces.map fun f => simplex g (triOf m.pos f) * c (areaVec (triOf m.pos f))).sum = (M.tris.map fun t => simplex g t * c (areaVec t)).sum

theorem shares_step {S : Surf} {P : Params} {D : V3 → Prop} {C : Choices} (G : Clip.Good S P D) (hseg : OnSeg S P D) (hr : P.ratio ≤ 0) {M : Input}
    {m m' : TMesh} {i : ℕ} (h : Inv S P D m i) (st : Step S P C m m') {g : V3 → ℝ} (hg : Cont g) {c : V3 → ℝ} (hc : ∀ s : ℝ, 0 ≤ s → ∀ v, c (s • v) = s * c v)
    (k : Shares M m g c) : Shares M m' g c := by
  cases st with
  | project v w I hx hI hf hr' =>
    exfalso
    have h1 := V3.norm_nonneg (I - m.pos v)
    have h2 := V3.norm_nonneg (m.pos w - m.pos v)
    have := mul_nonpos_of_nonneg_of_nonpos h2 hr
    linarith
  | del js hj => exact ⟨k.sum⟩
  | split u w I hx hI hf =>
    obtain ⟨s, h0, h1, hs⟩ := strict_seg G hseg h hx hI hf
    have hs' : I = m.pos w + (1 - s) • (m.pos u - m.pos w) := by rw [hs]; ext <;> simp <;> ring
    have hpos : (insertSplit C m u w I).pos = Function.update m.pos m.nv I := rfl
    refine ⟨?_⟩
    rw [← k.sum, hpos]
    refine sum_split_eq m.faces (fun f => f.hasEdge u w) (fun f => f.subst (if C.half0 u w then u else w) m.nv)
      (fun f => f.subst (if C.half0 u w then w else u) m.nv) _ _ ?_ ?_
    · intro f hfm _
      rw [triOf_update (h.ok f hfm) le_rfl]
    · intro f hfm he
      have e1 := areaVec_subst (h.ok f hfm) he.2 he.1 hx.symm.ne le_rfl hs'
      have e2 := areaVec_subst (h.ok f hfm) he.1 he.2 hx.ne le_rfl hs
      have e3 := simplex_split hg (h.ok f hfm) he.1 he.2 hx.ne le_rfl hs
      have n1 := hc (1 - s) (by linarith) (areaVec (triOf m.pos f))
      have n2 := hc s h0.le (areaVec (triOf m.pos f))
      split_ifs
      · rw [e1, e2, n1, n2, e3]; ring
      · rw [e1, e2, n1, n2, e3]; ring

theorem shares_steps {S : Surf} {P : Params} {D : V3 → Prop} {C : Choices} (G : Clip.Good S P D) (hseg : OnSeg S P D) (hr : P.ratio ≤ 0) {M : Input}
    {m m' : TMesh} {i : ℕ} (h : Inv S P D m i) (st : Steps S P C m m') {g : V3 → ℝ} (hg : Cont g) {c : V3 → ℝ} (hc : ∀ s : ℝ, 0 ≤ s → ∀ v, c (s • v) = s * c v)
    (k : Shares M m g c) : Shares M m' g c := by
  induction st with
  | refl => exact k
  | tail st s ih => exact shares_step G hseg hr (inv_steps G h st) s hg hc ih

theorem shares_start (S : Surf) (P : Params) (M : Input) (g c : V3 → ℝ) : Shares M (start S P M) g c := by
  refine ⟨?_⟩
  unfold Input.tris start
  rw [List.map_map]
  rfl

theorem sum_partition (m : TMesh) (φ : Tri → ℝ) :
    (((remaining m).map (triOf m.pos)).map φ).sum + (((deleted m).map (triOf m.pos)).map φ).sum = ((m.faces.map (triOf m.pos)).map φ).sum := by
  simp only [List.map_map]
  conv_rhs => rw [← range_filterMap m.faces]
  have := filter_sum (List.range m.faces.length) (fun j => j ∈ m.del) m.faces (φ ∘ triOf m.pos)
  unfold remaining deleted
  convert this

/-- **C192, integrals.** Without projection, whatever the mesh and the surface, the mesh that remains after the clipping (`out`) and the triangles that are dropped (`dry`) share every surface integral of
the original mesh: for every continuous function, the integral over the surface and the integral with the normal. The triangles that remain have no corner, hence no point in the case of a plane, more than
the threshold above the surface, and the dropped ones none more than the threshold under it. -/
theorem C192_integrals (S : Surf) (P : Params) (D : V3 → Prop) (G : Clip.Good S P D) (hseg : OnSeg S P D) (hr : P.ratio ≤ 0)
    (C : Choices) (hC : C.Fair) (M : Input) (hM : M.Ok) (hD : ∀ v < M.nv, D (M.pos v)) :
    ∃ out N dry, (∀ n, N ≤ n → apply S P C n M = some out) ∧
      (∀ t ∈ out, ∀ x, t.corner x → S.dist x < P.thr) ∧ (∀ t ∈ dry, ∀ x, t.corner x → -P.thr < S.dist x) ∧
      (∀ t ∈ out, ∀ x, InTri t x → OnSurface M.tris x) ∧ (∀ t ∈ dry, ∀ x, InTri t x → OnSurface M.tris x) ∧
      area out + area dry = area M.tris ∧
      ∀ g : V3 → ℝ, Cont g →
        (out.map (surfInt g)).sum + (dry.map (surfInt g)).sum = (M.tris.map (surfInt g)).sum ∧
        sumV (out.map (flux g)) + sumV (dry.map (flux g)) = sumV (M.tris.map (flux g)) := by
  obtain ⟨m, N, hrun, st, hinv⟩ := apply_spec G hC M hM hD
  have h0 : Inv S P D (start S P M) 0 := by
    refine ⟨hM, fun v _ => rfl, ?_, ?_, Nat.zero_le _, hD⟩
    · intro j hj; omega
    · intro j hj; simp [start] at hj
  have geo := geo_steps G hseg hr h0 st (geo_start S P M)
  refine ⟨_, N, (deleted m).map (triOf m.pos), hrun, ?_, ?_, ?_, ?_, ?_, ?_⟩
  · intro t ht x hx
    obtain ⟨f, hf, rfl⟩ := List.mem_map.mp ht
    have := remaining_dry G.pos hinv hf
    rcases hx with rfl | rfl | rfl
    · exact this f.a (by simp [Face.has])
    · exact this f.b (by simp [Face.has])
    · exact this f.c (by simp [Face.has])
  · intro t ht x hx
    obtain ⟨f, hf, rfl⟩ := List.mem_map.mp ht
    have := deleted_dry G.pos hinv hf
    rcases hx with rfl | rfl | rfl
    · exact this f.a (by simp [Face.has])
    · exact this f.b (by simp [Face.has])
    · exact this f.c (by simp [Face.has])
  · intro t ht x hx
    obtain ⟨f, hf, rfl⟩ := List.mem_map.mp ht
    obtain ⟨j, hj, -⟩ := mem_remaining.mp hf
    exact (geo.surf x).mp ⟨f, List.mem_of_getElem? hj, hx⟩
  · intro t ht x hx
    obtain ⟨f, hf, rfl⟩ := List.mem_map.mp ht
    obtain ⟨j, hj, -⟩ := mem_deleted.mp hf
    exact (geo.surf x).mp ⟨f, List.mem_of_getElem? hj, hx⟩
  · rw [area_partition, geo.area]
  · intro g hg
    have key : ∀ c : V3 → ℝ, (∀ s : ℝ, 0 ≤ s → ∀ v, c (s • v) = s * c v) →
        (((remaining m).map (triOf m.pos)).map fun t => simplex g t * c (areaVec t)).sum + (((deleted m).map (triOf m.pos)).map fun t => simplex g t * c (areaVec t)).sum =
          (M.tris.map fun t => simplex g t * c (areaVec t)).sum := by
      intro c hc
      rw [sum_partition, List.map_map, ← (shares_steps G hseg hr h0 st hg hc (shares_start S P M g c)).sum]
      rfl
    constructor
    · have := key V3.norm fun s hs v => norm_smul_pos hs v
      have e : (fun t => simplex g t * V3.norm (areaVec t)) = surfInt g := by
        funext t
        exact mul_comm _ _
      rwa [e] at this
    · have ext3 : ∀ a b : V3, (∀ i, coord i a = coord i b) → a = b := fun a b h => V3.ext (h 0) (h 1) (h 2)
      refine ext3 _ _ fun i => ?_
      have := key (coord i) fun s _ v => coord_smul i s v
      have e : (fun t => simplex g t * coord i (areaVec t)) = fun t => coord i (flux g t) := by
        funext t
        unfold flux
        rw [coord_smul]
        rfl
      rw [e] at this
      have ca : ∀ a b : V3, coord i (a + b) = coord i a + coord i b := by intro a b; fin_cases i <;> rfl
      rw [ca, sumV_coord, sumV_coord, sumV_coord]
      simp only [List.map_map] at this ⊢
      exact this

end Frydom.Mesh
