import Verif.Mesh.ClipperInv

/-!
# Properties of the clipper (C66-C69)
-/

open Classical

noncomputable section

namespace Frydom.Mesh
open Geom

namespace Clip

/-! ## Specification -/

/-- The point belongs to the (filled) triangle. -/
def InTri (t : Tri) (x : V3) : Prop :=
  ∃ u v w : ℝ, 0 ≤ u ∧ 0 ≤ v ∧ 0 ≤ w ∧ u + v + w = 1 ∧ x = u • t.p + v • t.q + w • t.r
/-- The point belongs to the surface made of the triangles. -/
def OnSurface (l : List Tri) (x : V3) : Prop := ∃ t ∈ l, InTri t x
/-- Twice the vector area: along the normal given by the order of the corners. -/
def areaVec (t : Tri) : V3 := V3.cross (t.q - t.p) (t.r - t.p)
/-- Total area. -/
def area (l : List Tri) : ℝ := (l.map fun t => V3.norm (areaVec t) / 2).sum
/-- The triangles of the mesh given to the clipper. -/
def Input.tris (M : Input) : List Tri := M.faces.map (triOf M.pos)
/-- The corners of a triangle. -/
def Tri.corner (t : Tri) (x : V3) : Prop := x = t.p ∨ x = t.q ∨ x = t.r

/-- The cut point is on the edge. -/
def OnSeg (S : Surf) (P : Params) (D : V3 → Prop) : Prop :=
  ∀ p q I, D p → D q → crossing S P p q → S.inter p q = some I → ∃ s : ℝ, 0 ≤ s ∧ s ≤ 1 ∧ I = p + s • (q - p)

/-! ## Geometry of a split -/

theorem perm3 {f : Face} {n x y z : ℕ} (hok : f.Ok n) (hx : f.has x) (hy : f.has y) (hz : f.has z) (h1 : x ≠ y) (h2 : y ≠ z)
    (h3 : x ≠ z) :
    f = ⟨x, y, z⟩ ∨ f = ⟨x, z, y⟩ ∨ f = ⟨y, x, z⟩ ∨ f = ⟨y, z, x⟩ ∨ f = ⟨z, x, y⟩ ∨ f = ⟨z, y, x⟩ := by
  obtain ⟨a, b, c⟩ := f
  simp only [Face.has] at hx hy hz
  simp only [Face.mk.injEq]
  rcases hx with rfl | rfl | rfl <;> rcases hy with rfl | rfl | rfl <;> rcases hz with rfl | rfl | rfl <;> simp_all

theorem inTri_rot {p q r x : V3} (h : InTri ⟨p, q, r⟩ x) : InTri ⟨q, r, p⟩ x := by
  obtain ⟨u, v, w, h1, h2, h3, h4, h5⟩ := h
  refine ⟨v, w, u, h2, h3, h1, by linarith, ?_⟩
  rw [h5]; ext <;> simp <;> ring
theorem inTri_swap {p q r x : V3} (h : InTri ⟨p, q, r⟩ x) : InTri ⟨q, p, r⟩ x := by
  obtain ⟨u, v, w, h1, h2, h3, h4, h5⟩ := h
  refine ⟨v, u, w, h2, h1, h3, by linarith, ?_⟩
  rw [h5]; ext <;> simp <;> ring

theorem inTri_perm {pos : ℕ → V3} {f : Face} {n x y z : ℕ} (hok : f.Ok n) (hx : f.has x) (hy : f.has y) (hz : f.has z)
    (h1 : x ≠ y) (h2 : y ≠ z) (h3 : x ≠ z) (X : V3) : InTri (triOf pos f) X ↔ InTri ⟨pos x, pos y, pos z⟩ X := by
  rcases perm3 hok hx hy hz h1 h2 h3 with h | h | h | h | h | h <;> subst h <;> unfold triOf <;> simp only
  · exact ⟨fun h => inTri_swap (inTri_rot (inTri_rot h)), fun h => inTri_rot (inTri_swap h)⟩
  · exact ⟨inTri_swap, inTri_swap⟩
  · exact ⟨fun h => inTri_rot (inTri_rot h), inTri_rot⟩
  · exact ⟨inTri_rot, fun h => inTri_rot (inTri_rot h)⟩
  · exact ⟨fun h => inTri_swap (inTri_rot h), fun h => inTri_rot (inTri_rot (inTri_swap h))⟩

/-- Cutting the edge xy of a triangle: the two halves make up the triangle. -/
theorem inTri_cut {p q r I : V3} {s : ℝ} (h0 : 0 < s) (h1 : s < 1) (hI : I = p + s • (q - p)) (X : V3) :
    InTri ⟨p, q, r⟩ X ↔ InTri ⟨I, p, r⟩ X ∨ InTri ⟨I, q, r⟩ X := by
  constructor
  · rintro ⟨u, v, w, hu, hv, hw, hs, hX⟩
    -- I = (1-s) p + s q
    by_cases hc : v * (1 - s) ≤ u * s
    · left
      refine ⟨v / s, u - v * (1 - s) / s, w, by positivity, ?_, hw, ?_, ?_⟩
      · rw [sub_nonneg, div_le_iff₀ h0]; exact hc
      · field_simp; linear_combination s * hs
      · rw [hX, hI]
        ext <;> simp <;> field_simp <;> ring
    · right
      have h1' : 0 < 1 - s := by linarith
      refine ⟨u / (1 - s), v - u * s / (1 - s), w, by positivity, ?_, hw, ?_, ?_⟩
      · rw [sub_nonneg, div_le_iff₀ h1']; linarith
      · field_simp; linear_combination (1 - s) * hs
      · rw [hX, hI]
        have h1'' : (1 - s) ≠ 0 := h1'.ne'
        ext <;> simp <;> field_simp <;> ring
  · rintro (⟨u, v, w, hu, hv, hw, hs, hX⟩ | ⟨u, v, w, hu, hv, hw, hs, hX⟩)
    · refine ⟨u * (1 - s) + v, u * s, w, ?_, by positivity, hw, by linarith, ?_⟩
      · have : 0 ≤ 1 - s := by linarith
        positivity
      · rw [hX, hI]; ext <;> simp <;> ring
    · refine ⟨u * (1 - s), u * s + v, w, ?_, by positivity, hw, by linarith, ?_⟩
      · have : 0 ≤ 1 - s := by linarith
        positivity
      · rw [hX, hI]; ext <;> simp <;> ring

/-- The vector area of a half is a fraction of that of the triangle. -/
theorem areaVec_subst {pos : ℕ → V3} {f : Face} {n x y v : ℕ} {s : ℝ} (hok : f.Ok n) (hx : f.has x) (hy : f.has y)
    (hne : x ≠ y) (hv : n ≤ v) {I : V3} (hI : I = pos x + s • (pos y - pos x)) :
    areaVec (triOf (Function.update pos v I) (f.subst y v)) = s • areaVec (triOf pos f) := by
  obtain ⟨z, hzx, hzy, hzn, hz, -⟩ := enum hok hx hy hne
  have hxn := hok.lt hx
  have hyn := hok.lt hy
  have ex : Function.update pos v I x = pos x := Function.update_of_ne (by omega) _ _
  have ez : Function.update pos v I z = pos z := Function.update_of_ne (by omega) _ _
  have ev : Function.update pos v I v = I := Function.update_self _ _ _
  rcases perm3 hok hx hy hz hne hzy.symm hzx.symm with h | h | h | h | h | h <;> subst h <;>
    simp only [Face.subst, triOf, areaVec, if_true, if_neg hne, if_neg hzy, ex, ez, ev] <;> rw [hI] <;>
    ext <;> simp <;> ring

/-- A split keeps the surface. -/
theorem split_face {pos : ℕ → V3} {f : Face} {n x y v : ℕ} {s : ℝ} (hok : f.Ok n) (hx : f.has x) (hy : f.has y)
    (hne : x ≠ y) (hv : n ≤ v) {I : V3} (h0 : 0 < s) (h1 : s < 1) (hI : I = pos x + s • (pos y - pos x)) (X : V3) :
    InTri (triOf pos f) X ↔ InTri (triOf (Function.update pos v I) (f.subst y v)) X ∨
      InTri (triOf (Function.update pos v I) (f.subst x v)) X := by
  obtain ⟨z, hzx, hzy, hzn, hz, -, -, hs⟩ := enum hok hx hy hne
  obtain ⟨ok1, has1, -⟩ := hs v hv
  obtain ⟨z', hzx', hzy', hzn', hz', hall', -, hs'⟩ := enum hok hy hx hne.symm
  have hzz : z' = z := by
    rcases (hall' z).mp hz with r | r | r
    · exact absurd r hzy
    · exact absurd r hzx
    · exact r.symm
  subst hzz
  obtain ⟨ok2, has2, -⟩ := hs' v hv
  have hxn := hok.lt hx
  have hyn := hok.lt hy
  rw [inTri_perm hok hx hy hz hne hzy.symm hzx.symm,
    inTri_perm ok1 ((has1 v).mpr (Or.inl rfl)) ((has1 x).mpr (by simp)) ((has1 z').mpr (by simp)) (by omega) hzx.symm (by omega),
    inTri_perm ok2 ((has2 v).mpr (Or.inl rfl)) ((has2 y).mpr (by simp)) ((has2 z').mpr (by simp)) (by omega) hzy.symm (by omega)]
  rw [Function.update_self, Function.update_of_ne (show x ≠ v by omega), Function.update_of_ne (show y ≠ v by omega),
    Function.update_of_ne (show z' ≠ v by omega)]
  exact inTri_cut h0 h1 hI X

theorem triOf_update {pos : ℕ → V3} {f : Face} {n v : ℕ} {I : V3} (hok : f.Ok n) (hv : n ≤ v) :
    triOf (Function.update pos v I) f = triOf pos f := by
  obtain ⟨h1, h2, h3, -⟩ := hok
  unfold triOf
  rw [Function.update_of_ne (by omega), Function.update_of_ne (by omega), Function.update_of_ne (by omega)]

theorem norm_smul_pos {s : ℝ} (hs : 0 ≤ s) (v : V3) : V3.norm (s • v) = s * V3.norm v := by
  unfold V3.norm
  have : V3.dot (s • v) (s • v) = s ^ 2 * V3.dot v v := by simp [V3.dot]; ring
  rw [this, Real.sqrt_mul (sq_nonneg s), Real.sqrt_sq hs]

theorem sum_split_eq {α : Type} (l : List α) (e : α → Prop) (h : α → α) (h' : α → α) (g g' : α → ℝ)
    (h1 : ∀ a ∈ l, ¬ e a → g' a = g a) (h2 : ∀ a ∈ l, e a → g' (h a) + g' (h' a) = g a) :
    ((l.map (fun a => if e a then h a else a) ++ (l.filter (fun a => e a)).map h').map g').sum = (l.map g).sum := by
  induction l with
  | nil => simp
  | cons a l ih =>
    have i1 := ih (fun b hb => h1 b (List.mem_cons_of_mem _ hb)) (fun b hb => h2 b (List.mem_cons_of_mem _ hb))
    simp only [List.map_append, List.sum_append] at *
    by_cases ea : e a
    · have := h2 a (by simp) ea
      simp only [List.map_cons, List.sum_cons, if_pos ea, List.filter_cons, decide_eq_true ea, if_true]
      linarith
    · have := h1 a (by simp) ea
      simp only [List.map_cons, List.sum_cons, if_neg ea, List.filter_cons, decide_eq_false ea, Bool.false_eq_true, if_false]
      linarith

/-- Geometry of the mesh during a clipping without projection. -/
structure Geo (M : Input) (m : TMesh) : Prop where
  surf : ∀ X, (∃ f ∈ m.faces, InTri (triOf m.pos f) X) ↔ OnSurface M.tris X
  orient : ∀ f ∈ m.faces, ∃ t ∈ M.tris, (∃ k : ℝ, 0 < k ∧ areaVec (triOf m.pos f) = k • areaVec t) ∧
    ∀ X, InTri (triOf m.pos f) X → InTri t X
  area : area (m.faces.map (triOf m.pos)) = area M.tris

/-- A cut point is strictly inside the edge. -/
theorem strict_seg {S : Surf} {P : Params} (G : Good S P D) (hseg : OnSeg S P D) {m : TMesh} {i : ℕ}
    (h : Inv S P D m i) {u w : ℕ} {I : V3} (hx : XF m u w) (hI : S.inter (m.pos u) (m.pos w) = some I)
    (hf : ∃ f ∈ m.faces, f.hasEdge u w) : ∃ s : ℝ, 0 < s ∧ s < 1 ∧ I = m.pos u + s • (m.pos w - m.pos u) := by
  obtain ⟨hu, hw, I', hI', hd, -⟩ := h.good_cut G hx hf
  rw [hI] at hI'
  injection hI' with hI'
  subst hI'
  have hc := (crossing_iff G.pos (h.cons u hu) (h.cons w hw)).mpr hx
  obtain ⟨s, h0, h1, hs⟩ := hseg _ _ _ (h.dom u hu) (h.dom w hw) hc hI
  have hn := not_or.mp hc.1
  refine ⟨s, lt_of_le_of_ne h0 ?_, lt_of_le_of_ne h1 ?_, hs⟩
  · rintro rfl
    apply hn.1
    have : I = m.pos u := by rw [hs]; ext <;> simp
    rw [← this]; exact hd
  · rintro rfl
    apply hn.2
    have : I = m.pos w := by rw [hs]; ext <;> simp
    rw [← this]; exact hd

theorem geo_step {S : Surf} {P : Params} {C : Choices} (G : Good S P D) (hseg : OnSeg S P D) (hr : P.ratio ≤ 0) {M : Input}
    {m m' : TMesh} {i : ℕ} (h : Inv S P D m i) (st : Step S P C m m') (g : Geo M m) : Geo M m' := by
  cases st with
  | project v w I hx hI hf hr' =>
    exfalso
    have h1 := V3.norm_nonneg (I - m.pos v)
    have h2 := V3.norm_nonneg (m.pos w - m.pos v)
    have := mul_nonpos_of_nonneg_of_nonpos h2 hr
    linarith
  | del js hj => exact ⟨g.surf, g.orient, g.area⟩
  | split u w I hx hI hf =>
    obtain ⟨s, h0, h1, hs⟩ := strict_seg G hseg h hx hI hf
    have hs' : I = m.pos w + (1 - s) • (m.pos u - m.pos w) := by rw [hs]; ext <;> simp <;> ring
    have hpos : (insertSplit C m u w I).pos = Function.update m.pos m.nv I := rfl
    refine ⟨?_, ?_, ?_⟩
    · intro X
      rw [← g.surf X, hpos]
      constructor
      · rintro ⟨f', hf', hX⟩
        rcases mem_split.mp hf' with ⟨hg, -⟩ | ⟨f, hfm, ⟨a1, a2⟩, hg⟩
        · refine ⟨f', hg, ?_⟩
          rw [triOf_update (h.ok f' hg) le_rfl] at hX
          exact hX
        · refine ⟨f, hfm, ?_⟩
          rw [split_face (h.ok f hfm) a1 a2 hx.ne le_rfl h0 h1 hs X]
          rcases hg with rfl | rfl
          · exact Or.inr hX
          · exact Or.inl hX
      · rintro ⟨f, hfm, hX⟩
        by_cases he : f.hasEdge u w
        · rw [split_face (h.ok f hfm) he.1 he.2 hx.ne le_rfl h0 h1 hs X] at hX
          rcases hX with hX | hX
          · exact ⟨_, mem_split.mpr (Or.inr ⟨f, hfm, he, Or.inr rfl⟩), hX⟩
          · exact ⟨_, mem_split.mpr (Or.inr ⟨f, hfm, he, Or.inl rfl⟩), hX⟩
        · refine ⟨f, mem_split.mpr (Or.inl ⟨hfm, he⟩), ?_⟩
          rw [triOf_update (h.ok f hfm) le_rfl]
          exact hX
    · intro f' hf'
      rw [hpos]
      rcases mem_split.mp hf' with ⟨hg, -⟩ | ⟨f, hfm, ⟨a1, a2⟩, hg⟩
      · rw [triOf_update (h.ok f' hg) le_rfl]
        exact g.orient f' hg
      · obtain ⟨t, ht, ⟨k, hk, hak⟩, hin⟩ := g.orient f hfm
        refine ⟨t, ht, ?_, ?_⟩
        · rcases hg with rfl | rfl
          · refine ⟨(1 - s) * k, by have : 0 < 1 - s := by linarith
                                    positivity, ?_⟩
            rw [areaVec_subst (h.ok f hfm) a2 a1 hx.symm.ne le_rfl hs', hak]
            ext <;> simp <;> ring
          · refine ⟨s * k, by positivity, ?_⟩
            rw [areaVec_subst (h.ok f hfm) a1 a2 hx.ne le_rfl hs, hak]
            ext <;> simp <;> ring
        · intro X hX
          apply hin
          rw [split_face (h.ok f hfm) a1 a2 hx.ne le_rfl h0 h1 hs X]
          rcases hg with rfl | rfl
          · exact Or.inr hX
          · exact Or.inl hX
    · rw [← g.area, hpos]
      unfold area
      rw [List.map_map, List.map_map]
      refine sum_split_eq m.faces (fun f => f.hasEdge u w) (fun f => f.subst (if C.half0 u w then u else w) m.nv)
        (fun f => f.subst (if C.half0 u w then w else u) m.nv) _ _ ?_ ?_
      · intro f hfm _
        simp only [Function.comp]
        rw [triOf_update (h.ok f hfm) le_rfl]
      · intro f hfm he
        simp only [Function.comp]
        have e1 := areaVec_subst (h.ok f hfm) he.2 he.1 hx.symm.ne le_rfl hs'
        have e2 := areaVec_subst (h.ok f hfm) he.1 he.2 hx.ne le_rfl hs
        have n1 := norm_smul_pos (s := 1 - s) (by linarith) (areaVec (triOf m.pos f))
        have n2 := norm_smul_pos h0.le (areaVec (triOf m.pos f))
        split_ifs
        · rw [e1, e2, n1, n2]; ring
        · rw [e1, e2, n1, n2]; ring

theorem geo_steps {S : Surf} {P : Params} {C : Choices} (G : Good S P D) (hseg : OnSeg S P D) (hr : P.ratio ≤ 0) {M : Input}
    {m m' : TMesh} {i : ℕ} (h : Inv S P D m i) (st : Steps S P C m m') (g : Geo M m) : Geo M m' := by
  induction st with
  | refl => exact g
  | tail st s ih => exact geo_step G hseg hr (inv_steps G h st) s ih

theorem geo_start (S : Surf) (P : Params) (M : Input) : Geo M (start S P M) := by
  refine ⟨?_, ?_, rfl⟩
  · intro X
    unfold OnSurface Input.tris start
    simp
  · intro f hf
    refine ⟨triOf M.pos f, List.mem_map.mpr ⟨f, hf, rfl⟩, ⟨1, one_pos, ?_⟩, fun X hX => hX⟩
    show areaVec (triOf M.pos f) = _
    ext <;> simp

/-- The deleted faces. -/
def deleted (m : TMesh) : List Face :=
  ((List.range m.faces.length).filter (fun j => j ∈ m.del)).filterMap fun j => m.faces[j]?

theorem filter_sum (l : List ℕ) (p : ℕ → Prop) (F : List Face) (g : Face → ℝ) :
    (((l.filter (fun j => ¬ p j)).filterMap fun j => F[j]?).map g).sum +
      (((l.filter (fun j => p j)).filterMap fun j => F[j]?).map g).sum =
    ((l.filterMap fun j => F[j]?).map g).sum := by
  induction l with
  | nil => simp
  | cons j l ih =>
    by_cases hp : p j
    · simp only [List.filter_cons, hp, not_true, decide_true, decide_false, Bool.false_eq_true, if_false, if_true,
        List.filterMap_cons]
      cases F[j]? <;> simp only [List.map_cons, List.sum_cons] <;> linarith
    · simp only [List.filter_cons, hp, not_false_eq_true, decide_true, decide_false, Bool.false_eq_true, if_false, if_true,
        List.filterMap_cons]
      cases F[j]? <;> simp only [List.map_cons, List.sum_cons] <;> linarith

theorem range_filterMap (F : List Face) : ((List.range F.length).filterMap fun j => F[j]?) = F := by
  induction F with
  | nil => rfl
  | cons a F ih =>
    rw [List.length_cons, List.range_succ_eq_map, List.filterMap_cons]
    simp only [List.getElem?_cons_zero, List.filterMap_map]
    congr 1

theorem mem_deleted {m : TMesh} {f : Face} : f ∈ deleted m ↔ ∃ j, m.faces[j]? = some f ∧ j ∈ m.del := by
  unfold deleted
  simp only [List.mem_filterMap, List.mem_filter, List.mem_range, decide_eq_true_eq]
  constructor
  · rintro ⟨j, ⟨-, h2⟩, h3⟩; exact ⟨j, h3, h2⟩
  · rintro ⟨j, h1, h2⟩; exact ⟨j, ⟨getElem?_lt h1, h2⟩, h1⟩

theorem area_partition (m : TMesh) :
    area ((remaining m).map (triOf m.pos)) + area ((deleted m).map (triOf m.pos)) = area (m.faces.map (triOf m.pos)) := by
  unfold area
  simp only [List.map_map]
  conv_rhs => rw [← range_filterMap m.faces]
  have := filter_sum (List.range m.faces.length) (fun j => j ∈ m.del) m.faces ((fun t => V3.norm (areaVec t) / 2) ∘ triOf m.pos)
  unfold remaining deleted
  convert this

theorem remaining_dry {S : Surf} {P : Params} (hp : 0 < P.thr) {m : TMesh} (h : Inv S P D m m.faces.length) {f : Face} (hf : f ∈ remaining m) :
    ∀ v, f.has v → S.dist (m.pos v) < P.thr := by
  obtain ⟨j, hj, hd⟩ := mem_remaining.mp hf
  obtain ⟨-, h2⟩ := h.done j (getElem?_lt hj) f hj
  have h0 : nAbove m f = 0 := by
    by_contra hn
    exact hd (h2 hn)
  rw [nAbove_eq_zero] at h0
  intro v hv
  have hfl := h0 v hv
  rw [h.cons v ((h.ok f (List.mem_of_getElem? hj)).lt hv)] at hfl
  unfold classify at hfl
  by_cases h1 : |S.dist (m.pos v)| < P.thr
  · exact lt_of_le_of_lt (le_abs_self _) h1
  · rw [if_neg h1] at hfl
    by_cases h2 : S.dist (m.pos v) > 0
    · rw [if_pos h2] at hfl; simp at hfl
    · exact lt_of_le_of_lt (not_lt.mp h2) hp

theorem deleted_dry {S : Surf} {P : Params} (hp : 0 < P.thr) {m : TMesh} {i : ℕ} (h : Inv S P D m i) {f : Face}
    (hf : f ∈ deleted m) : ∀ v, f.has v → -P.thr < S.dist (m.pos v) := by
  obtain ⟨j, hj, hd⟩ := mem_deleted.mp hf
  obtain ⟨f', hj', h0⟩ := h.delok j hd
  rw [hj] at hj'
  injection hj' with hj'
  subst hj'
  rw [nUnder_eq_zero] at h0
  intro v hv
  have hfl := h0 v hv
  rw [h.cons v ((h.ok f (List.mem_of_getElem? hj)).lt hv)] at hfl
  unfold classify at hfl
  by_cases h1 : |S.dist (m.pos v)| < P.thr
  · exact (abs_lt.mp h1).1
  · rw [if_neg h1] at hfl
    by_cases h2 : S.dist (m.pos v) > 0
    · linarith
    · rw [if_neg h2] at hfl; simp at hfl

/-! ## The two clipping surfaces -/

theorem dot_le_norm (v n : V3) (hn : V3.dot n n = 1) : |V3.dot v n| ≤ V3.norm v := by
  unfold V3.norm
  apply Real.abs_le_sqrt
  have : V3.dot v v * V3.dot n n - V3.dot v n ^ 2 = V3.dot (V3.cross v n) (V3.cross v n) := by
    simp [V3.dot]; ring
  have h2 := V3.dot_self_nonneg (V3.cross v n)
  rw [hn, mul_one] at this
  linarith

theorem plane_cut {pl : Plane} {body : V3} {P : Params} (hn : V3.dot pl.normal pl.normal = 1) (ht : 1e-16 ≤ P.thr) {p q : V3}
    (hc : crossing (planeSurf pl body) P p q) :
    ∃ I, (planeSurf pl body).inter p q = some I ∧ (planeSurf pl body).dist I = 0 ∧
      ∃ s : ℝ, 0 ≤ s ∧ s ≤ 1 ∧ I = p + s • (q - p) := by
  have hn' : V3.dot (pl.getNormal .NWU) (pl.getNormal .NWU) = 1 := hn
  unfold crossing planeSurf at hc
  unfold planeSurf
  simp only at *
  generalize pl.getNormal .NWU = n at *
  generalize pl.getOrigin .NWU - horiz body = o at *
  obtain ⟨h1, h2⟩ := hc
  rw [not_or] at h1
  have hd : V3.dot (q - p) n = V3.dot (q - o) n - V3.dot (p - o) n := by simp [V3.dot]; ring
  have hd0 : V3.dot (o - p) n = - V3.dot (p - o) n := by simp [V3.dot]; ring
  have hl := dot_le_norm (q - p) n hn'
  have hdI : ∀ s : ℝ, V3.dot (p + s • (q - p) - o) n = V3.dot (p - o) n + s * V3.dot (q - p) n := by
    intro s; simp [V3.dot]; ring
  generalize V3.dot (p - o) n = dp at *
  generalize V3.dot (q - o) n = dq at *
  generalize hD : V3.dot (q - p) n = e at *
  have hgt : 1e-16 < |e| := by
    rw [hd]
    rcases mul_neg_iff.mp h2 with ⟨a, b⟩ | ⟨a, b⟩
    · rw [abs_of_pos a, abs_of_neg b, not_lt, not_lt] at h1
      rw [abs_of_neg (by linarith)]
      linarith [h1.1]
    · rw [abs_of_neg a, abs_of_pos b, not_lt, not_lt] at h1
      rw [abs_of_pos (by linarith)]
      linarith [h1.1]
  have hne : e ≠ 0 := by
    rintro rfl
    rw [abs_zero] at hgt
    norm_num at hgt
  unfold intersect
  simp only
  rw [if_pos ⟨lt_of_lt_of_le hgt hl, by rw [hD]; exact hne⟩, hD, hd0]
  refine ⟨_, rfl, ?_, -dp / e, ?_, ?_, rfl⟩
  · rw [hdI]; field_simp; ring
  · rcases mul_neg_iff.mp h2 with ⟨a, b⟩ | ⟨a, b⟩
    · exact div_nonneg_of_nonpos (by linarith) (by rw [hd]; linarith)
    · exact div_nonneg (by linarith) (by rw [hd]; linarith)
  · rcases mul_neg_iff.mp h2 with ⟨a, b⟩ | ⟨a, b⟩
    · rw [div_le_one_of_neg (by rw [hd]; linarith)]; rw [hd]; linarith
    · rw [div_le_one (by rw [hd]; linarith)]; rw [hd]; linarith

theorem plane_good {pl : Plane} {body : V3} {P : Params} (hn : V3.dot pl.normal pl.normal = 1) (ht : 1e-16 ≤ P.thr) :
    Good (planeSurf pl body) P (fun _ => True) ∧ OnSeg (planeSurf pl body) P (fun _ => True) := by
  have hp : 0 < P.thr := lt_of_lt_of_le (by norm_num) ht
  refine ⟨⟨hp, ?_⟩, ?_⟩
  · intro p q _ _ hc
    obtain ⟨I, h1, h2, -⟩ := plane_cut hn ht hc
    exact ⟨I, h1, by rw [h2, abs_zero]; exact hp, trivial⟩
  · intro p q I _ _ hc hI
    obtain ⟨I', h1, -, h2⟩ := plane_cut hn ht hc
    rw [hI] at h1
    injection h1 with h1
    subst h1
    exact h2

/-- Distance to a plane is affine. -/
theorem plane_affine (pl : Plane) (body p q r : V3) {u v w : ℝ} (h : u + v + w = 1) :
    (planeSurf pl body).dist (u • p + v • q + w • r) =
      u * (planeSurf pl body).dist p + v * (planeSurf pl body).dist q + w * (planeSurf pl body).dist r := by
  unfold planeSurf
  simp only [V3.dot, V3.sub_x, V3.sub_y, V3.sub_z, V3.add_x, V3.add_y, V3.add_z, V3.smul_x, V3.smul_y, V3.smul_z]
  generalize (pl.getOrigin FC.NWU).x - (horiz body).x = a
  generalize (pl.getOrigin FC.NWU).y - (horiz body).y = b
  generalize (pl.getOrigin FC.NWU).z - (horiz body).z = c
  generalize (pl.getNormal FC.NWU).x = nx
  generalize (pl.getNormal FC.NWU).y = ny
  generalize (pl.getNormal FC.NWU).z = nz
  linear_combination (a * nx + b * ny + c * nz) * h

/-- Specification: signed distance to the plane, in the world, of a point of the mesh (whose horizontal position is relative
to the body). -/
def height (pl : Plane) (body p : V3) : ℝ := pl.signedDistance (p + ⟨body.x, body.y, 0⟩) .NWU

theorem height_eq (pl : Plane) (body p : V3) : (planeSurf pl body).dist p = height pl body p := by
  unfold planeSurf height Plane.signedDistance horiz
  simp [V3.dot]; ring

/-! ## C66: the clipping ends and leaves nothing above -/

/-- Any clipper settings, any order in which OpenMesh lists things. -/
def Choices.Fair (C : Choices) : Prop := ∀ l w, w ∈ C.ring l → w ∈ l

/-- **C66, any surface.** Whatever the mesh and the projection ratio: the clipping ends, and every corner of every remaining
triangle is at most a threshold above the surface. -/
theorem C66_nothing_above (S : Surf) (P : Params) (D : V3 → Prop) (G : Good S P D) (C : Choices) (hC : C.Fair) (M : Input)
    (hM : M.Ok) (hD : ∀ v < M.nv, D (M.pos v)) :
    ∃ out N, (∀ n, N ≤ n → apply S P C n M = some out) ∧ ∀ t ∈ out, ∀ x, t.corner x → S.dist x < P.thr := by
  obtain ⟨m, N, hrun, -, hinv⟩ := apply_spec G hC M hM hD
  refine ⟨_, N, hrun, ?_⟩
  intro t ht x hx
  obtain ⟨f, hf, rfl⟩ := List.mem_map.mp ht
  have := remaining_dry G.pos hinv hf
  rcases hx with rfl | rfl | rfl
  · exact this f.a (by simp [Face.has])
  · exact this f.b (by simp [Face.has])
  · exact this f.c (by simp [Face.has])

/-- **C66, plane.** For any plane, mesh, body position and projection ratio: the clipping ends, no assertion fails, and no
point of the remaining surface is more than a threshold above the plane. -/
theorem C66_plane (pl : Plane) (hn : V3.dot pl.normal pl.normal = 1) (body : V3) (P : Params) (ht : 1e-16 ≤ P.thr)
    (C : Choices) (hC : C.Fair) (M : Input) (hM : M.Ok) :
    ∃ out N, (∀ n, N ≤ n → apply (planeSurf pl body) P C n M = some out) ∧
      ∀ x, OnSurface out x → height pl body x < P.thr := by
  obtain ⟨out, N, hrun, h⟩ := C66_nothing_above (planeSurf pl body) P _ (plane_good hn ht).1 C hC M hM (fun _ _ => trivial)
  refine ⟨out, N, hrun, ?_⟩
  rintro x ⟨t, ht', u, v, w, hu, hv, hw, hs, rfl⟩
  rw [← height_eq, plane_affine pl body _ _ _ hs]
  have h1 := h t ht' t.p (Or.inl rfl)
  have h2 := h t ht' t.q (Or.inr (Or.inl rfl))
  have h3 := h t ht' t.r (Or.inr (Or.inr rfl))
  generalize (planeSurf pl body).dist t.p = a at *
  generalize (planeSurf pl body).dist t.q = b at *
  generalize (planeSurf pl body).dist t.r = c at *
  rcases hu.lt_or_eq with h | h
  · nlinarith [mul_lt_mul_of_pos_left h1 h, mul_le_mul_of_nonneg_left h2.le hv, mul_le_mul_of_nonneg_left h3.le hw]
  · rcases hv.lt_or_eq with h' | h'
    · rw [← h] at hs ⊢
      nlinarith [mul_lt_mul_of_pos_left h2 h', mul_le_mul_of_nonneg_left h3.le hw]
    · rw [← h, ← h'] at hs ⊢
      have : w = 1 := by linarith
      rw [this]; linarith

/-! ## C67: without projection the wetted surface is cut exactly -/

/-- **C67, any surface.** Without projection, the original surface is the union of the remaining triangles and of dropped
triangles that have no corner a threshold below the surface; areas add up (no overlap is created); every remaining triangle
is a part of an original one and has the same orientation. -/
theorem C67_partition (S : Surf) (P : Params) (D : V3 → Prop) (G : Good S P D) (hseg : OnSeg S P D) (hr : P.ratio ≤ 0)
    (C : Choices) (hC : C.Fair) (M : Input) (hM : M.Ok) (hD : ∀ v < M.nv, D (M.pos v)) :
    ∃ out N dry, (∀ n, N ≤ n → apply S P C n M = some out) ∧
      (∀ x, OnSurface M.tris x ↔ OnSurface out x ∨ OnSurface dry x) ∧
      area out + area dry = area M.tris ∧
      (∀ t ∈ out, ∀ x, t.corner x → S.dist x < P.thr) ∧
      (∀ t ∈ dry, ∀ x, t.corner x → -P.thr < S.dist x) ∧
      ∀ t ∈ out, ∃ t0 ∈ M.tris, (∃ k : ℝ, 0 < k ∧ areaVec t = k • areaVec t0) ∧ ∀ x, InTri t x → InTri t0 x := by
  obtain ⟨m, N, hrun, st, hinv⟩ := apply_spec G hC M hM hD
  have h0 : Inv S P D (start S P M) 0 := by
    refine ⟨hM, fun v _ => rfl, ?_, ?_, Nat.zero_le _, hD⟩
    · intro j hj; omega
    · intro j hj; simp [start] at hj
  have g := geo_steps G hseg hr h0 st (geo_start S P M)
  refine ⟨_, N, (deleted m).map (triOf m.pos), hrun, ?_, ?_, ?_, ?_, ?_⟩
  · intro x
    rw [← g.surf x]
    constructor
    · rintro ⟨f, hf, hx⟩
      obtain ⟨j, hj⟩ := List.mem_iff_getElem?.mp hf
      by_cases hd : j ∈ m.del
      · exact Or.inr ⟨_, List.mem_map.mpr ⟨f, mem_deleted.mpr ⟨j, hj, hd⟩, rfl⟩, hx⟩
      · exact Or.inl ⟨_, List.mem_map.mpr ⟨f, mem_remaining.mpr ⟨j, hj, hd⟩, rfl⟩, hx⟩
    · rintro (⟨t, ht, hx⟩ | ⟨t, ht, hx⟩)
      · obtain ⟨f, hf, rfl⟩ := List.mem_map.mp ht
        obtain ⟨j, hj, -⟩ := mem_remaining.mp hf
        exact ⟨f, List.mem_of_getElem? hj, hx⟩
      · obtain ⟨f, hf, rfl⟩ := List.mem_map.mp ht
        obtain ⟨j, hj, -⟩ := mem_deleted.mp hf
        exact ⟨f, List.mem_of_getElem? hj, hx⟩
  · rw [area_partition, g.area]
  · intro t ht x hx
    obtain ⟨f, hf, rfl⟩ := List.mem_map.mp ht
    have := remaining_dry G.pos hinv hf
    rcases hx with rfl | rfl | rfl
    · exact this f.a (by simp [Face.has])
    · exact this f.b (by simp [Face.has])
    · exact this f.c (by simp [Face.has])
  · intro t ht x hx
    obtain ⟨f, hf, rfl⟩ := List.mem_map.mp ht
    have := deleted_dry G.pos hinv hf
    rcases hx with rfl | rfl | rfl
    · exact this f.a (by simp [Face.has])
    · exact this f.b (by simp [Face.has])
    · exact this f.c (by simp [Face.has])
  · intro t ht
    obtain ⟨f, hf, rfl⟩ := List.mem_map.mp ht
    obtain ⟨j, hj, -⟩ := mem_remaining.mp hf
    exact g.orient f (List.mem_of_getElem? hj)

/-- **C67, plane.** Without projection, clipping by a plane keeps exactly the part of the surface under the plane, up to the
threshold: every remaining point was on the surface and is less than a threshold above; every point of the surface at least
a threshold under the plane remains. -/
theorem C67_plane (pl : Plane) (hn : V3.dot pl.normal pl.normal = 1) (body : V3) (P : Params) (ht : 1e-16 ≤ P.thr)
    (hr : P.ratio ≤ 0) (C : Choices) (hC : C.Fair) (M : Input) (hM : M.Ok) :
    ∃ out N, (∀ n, N ≤ n → apply (planeSurf pl body) P C n M = some out) ∧
      (∀ x, OnSurface out x → OnSurface M.tris x ∧ height pl body x < P.thr) ∧
      (∀ x, OnSurface M.tris x → height pl body x ≤ -P.thr → OnSurface out x) := by
  obtain ⟨out, N, dry, hrun, hsurf, -, -, hdry, -⟩ := C67_partition (planeSurf pl body) P _ (plane_good hn ht).1
    (plane_good hn ht).2 hr C hC M hM (fun _ _ => trivial)
  obtain ⟨out', N', hrun', habove⟩ := C66_plane pl hn body P ht C hC M hM
  have he : out' = out := by
    have h1 := hrun (max N N') (le_max_left _ _)
    have h2 := hrun' (max N N') (le_max_right _ _)
    rw [h1] at h2
    injection h2 with h2
    exact h2.symm
  subst he
  refine ⟨out', N, hrun, fun x hx => ⟨(hsurf x).mpr (Or.inl hx), habove x hx⟩, ?_⟩
  intro x hx hlow
  rcases (hsurf x).mp hx with h | ⟨t, ht', u, v, w, hu, hv, hw, hs, rfl⟩
  · exact h
  exfalso
  rw [← height_eq, plane_affine pl body _ _ _ hs] at hlow
  have h1 := hdry t ht' t.p (Or.inl rfl)
  have h2 := hdry t ht' t.q (Or.inr (Or.inl rfl))
  have h3 := hdry t ht' t.r (Or.inr (Or.inr rfl))
  generalize (planeSurf pl body).dist t.p = a at *
  generalize (planeSurf pl body).dist t.q = b at *
  generalize (planeSurf pl body).dist t.r = c at *
  rcases hu.lt_or_eq with h | h
  · nlinarith [mul_lt_mul_of_pos_left h1 h, mul_le_mul_of_nonneg_left h2.le hv, mul_le_mul_of_nonneg_left h3.le hw]
  · rcases hv.lt_or_eq with h' | h'
    · rw [← h] at hs hlow
      nlinarith [mul_lt_mul_of_pos_left h2 h', mul_le_mul_of_nonneg_left h3.le hw]
    · rw [← h, ← h'] at hs hlow
      have : w = 1 := by linarith
      rw [this] at hlow; linarith

/-! ## C68: what a clipping with projection may change -/

/-- A face of the mesh with its three vertices under the surface, none of which shares a face with a vertex above. -/
def Deep (S : Surf) (P : Params) (M : Input) (f : Face) : Prop :=
  f ∈ M.faces ∧ ∀ v, f.has v → S.dist (M.pos v) ≤ -P.thr ∧
    ∀ g ∈ M.faces, g.has v → ∀ w, g.has w → S.dist (M.pos w) < P.thr

/-- Vertices during a clipping: unmoved, or on the surface. -/
theorem corners_steps {S : Surf} {P : Params} {C : Choices} (G : Good S P D) {m0 m : TMesh} {i : ℕ} (h : Inv S P D m0 i)
    (st : Steps S P C m0 m) : ∀ v < m.nv, (v < m0.nv ∧ m.pos v = m0.pos v) ∨ |S.dist (m.pos v)| < P.thr := by
  induction st with
  | refl => intro v hv; exact Or.inl ⟨hv, rfl⟩
  | @tail m1 m2 st s ih =>
    have hi := inv_steps G h st
    cases s with
    | split u w I hx hI hf =>
      obtain ⟨hu, hw, I', hI', hd, -⟩ := hi.good_cut G hx hf
      rw [hI] at hI'
      injection hI' with hI'
      subst hI'
      intro v hv
      have hv' : v < m1.nv + 1 := hv
      rcases Nat.lt_succ_iff_lt_or_eq.mp hv' with hv' | rfl
      · rw [(split_flag hv').2]; exact ih v hv'
      · rw [split_flag_new.2]; exact Or.inr hd
    | project z w I hx hI hf hr =>
      obtain ⟨hu, hw, I', hI', hd, -⟩ := hi.good_cut G hx hf
      rw [hI] at hI'
      injection hI' with hI'
      subst hI'
      intro v hv
      by_cases e : v = z
      · subst e; rw [project_pos_self]; exact Or.inr hd
      · rw [project_pos_ne e]; exact ih v hv
    | del js hj => exact ih

/-- Faces far from the surface are not touched. -/
theorem deep_steps {S : Surf} {P : Params} {C : Choices} (G : Good S P D) {m0 m : TMesh} {i j : ℕ} (h : Inv S P D m0 i)
    {f : Face} (hj : m0.faces[j]? = some f)
    (hdeep : ∀ v, f.has v → m0.flag v = .under ∧ ∀ g ∈ m0.faces, g.has v → ∀ w, g.has w → m0.flag w ≠ .above)
    (st : Steps S P C m0 m) :
    m.faces[j]? = some f ∧ (∀ v, f.has v → m.flag v = .under ∧ m.pos v = m0.pos v ∧
      ∀ g ∈ m.faces, g.has v → ∀ w, g.has w → m.flag w ≠ .above) := by
  induction st with
  | refl => exact ⟨hj, fun v hv => ⟨(hdeep v hv).1, rfl, (hdeep v hv).2⟩⟩
  | @tail m1 m2 st s ih =>
    obtain ⟨ihj, ihv⟩ := ih
    have hi := inv_steps G h st
    have hfok := hi.ok f (List.mem_of_getElem? ihj)
    -- no vertex of f is on a crossing edge
    have noedge : ∀ v, f.has v → ∀ u w, XF m1 u w → ∀ g ∈ m1.faces, g.hasEdge u w → ¬ g.has v := by
      intro v hv u w hx g hg ⟨he1, he2⟩ hgv
      obtain ⟨-, -, hall⟩ := ihv v hv
      rcases hx with ⟨q, -⟩ | ⟨-, q⟩
      · exact hall g hg hgv u he1 q
      · exact hall g hg hgv w he2 q
    cases s with
    | split u w I hx hI hf =>
      have hnf : ¬ f.hasEdge u w := fun he =>
        noedge f.a (by simp [Face.has]) u w hx f (List.mem_of_getElem? ihj) he (by simp [Face.has])
      refine ⟨by rw [getElem?_split ihj, if_neg hnf], ?_⟩
      intro v hv
      obtain ⟨b1, b2, b3⟩ := ihv v hv
      have hvn := hfok.lt hv
      refine ⟨by rw [(split_flag hvn).1]; exact b1, by rw [(split_flag hvn).2]; exact b2, ?_⟩
      intro g hg hgv w' hw'
      rcases mem_split.mp hg with ⟨hg', -⟩ | ⟨g', hg', he, hgg⟩
      · rw [(split_flag ((hi.ok g hg').lt hw')).1]
        exact b3 g hg' hgv w' hw'
      · exfalso
        have key : ∀ x y, g'.has x → g'.has y → x ≠ y → g = g'.subst y m1.nv → g'.has v := by
          intro x y hx' hy' hne hgs
          obtain ⟨z, -, -, -, hz, -, -, hs⟩ := enum (hi.ok g' hg') hx' hy' hne
          obtain ⟨-, hs, -⟩ := hs m1.nv le_rfl
          rw [← hgs] at hs
          rcases (hs v).mp hgv with r | r | r
          · omega
          · rw [r]; exact hx'
          · rw [r]; exact hz
        refine noedge v hv u w hx g' hg' he ?_
        rcases hgg with r | r
        · exact key w u he.2 he.1 hx.symm.ne r
        · exact key u w he.1 he.2 hx.ne r
    | project z w I hx hI hf hr =>
      refine ⟨ihj, ?_⟩
      intro v hv
      obtain ⟨b1, b2, b3⟩ := ihv v hv
      have hvz : v ≠ z := by
        rintro rfl
        obtain ⟨g, hg, he⟩ := hf
        exact noedge v hv v w hx g hg he he.1
      refine ⟨by rw [project_flag_ne hvz]; exact b1, by rw [project_pos_ne hvz]; exact b2, ?_⟩
      intro g hg hgv w' hw'
      rcases project_flag (m := m1) (v := z) (I := I) w' with e | e <;> rw [e]
      · simp
      · exact b3 g hg hgv w' hw'
    | del js hj' => exact ⟨ihj, ihv⟩

/-- **C68.** Whatever the projection ratio: every corner of the remaining triangles is an original vertex that has not
moved, or lies on the surface (within the threshold); and every face far enough from the surface (its vertices under, none
with a neighbour above) remains unchanged. -/
theorem C68_projection (S : Surf) (P : Params) (D : V3 → Prop) (G : Good S P D) (C : Choices) (hC : C.Fair) (M : Input)
    (hM : M.Ok) (hD : ∀ v < M.nv, D (M.pos v)) :
    ∃ out N, (∀ n, N ≤ n → apply S P C n M = some out) ∧
      (∀ t ∈ out, ∀ x, t.corner x → (∃ v < M.nv, x = M.pos v) ∨ |S.dist x| < P.thr) ∧
      ∀ f, Deep S P M f → triOf M.pos f ∈ out := by
  obtain ⟨m, N, hrun, st, hinv⟩ := apply_spec G hC M hM hD
  have h0 : Inv S P D (start S P M) 0 := by
    refine ⟨hM, fun v _ => rfl, ?_, ?_, Nat.zero_le _, hD⟩
    · intro j hj; omega
    · intro j hj; simp [start] at hj
  refine ⟨_, N, hrun, ?_, ?_⟩
  · intro t ht x hx
    obtain ⟨f, hf, rfl⟩ := List.mem_map.mp ht
    obtain ⟨j, hj, -⟩ := mem_remaining.mp hf
    have hok := hinv.ok f (List.mem_of_getElem? hj)
    have key : ∀ v, f.has v → (∃ v' < M.nv, m.pos v = M.pos v') ∨ |S.dist (m.pos v)| < P.thr := by
      intro v hv
      rcases corners_steps G h0 st v (hok.lt hv) with ⟨a, b⟩ | a
      · exact Or.inl ⟨v, a, b⟩
      · exact Or.inr a
    rcases hx with rfl | rfl | rfl
    · exact key f.a (by simp [Face.has])
    · exact key f.b (by simp [Face.has])
    · exact key f.c (by simp [Face.has])
  · rintro f ⟨hf, hdeep⟩
    obtain ⟨j, hj⟩ := List.mem_iff_getElem?.mp hf
    have hj' : (start S P M).faces[j]? = some f := hj
    have hp := G.pos
    obtain ⟨e1, e2⟩ := deep_steps G h0 hj' (by
      intro v hv
      obtain ⟨d1, d2⟩ := hdeep v hv
      refine ⟨?_, ?_⟩
      · show classify S P (M.pos v) = .under
        unfold classify
        rw [if_neg (by rw [abs_of_neg (by linarith)]; linarith), if_neg (by linarith)]
      · intro g hg hgv w hw
        show classify S P (M.pos w) ≠ .above
        have := d2 g hg hgv w hw
        unfold classify
        split_ifs with c1 c2
        · simp
        · rw [abs_of_pos c2] at c1; exact absurd this c1
        · simp) st
    refine List.mem_map.mpr ⟨f, mem_remaining.mpr ⟨j, e1, ?_⟩, ?_⟩
    · intro hd
      obtain ⟨f', hf', hu⟩ := hinv.delok j hd
      rw [e1] at hf'
      injection hf' with hf'
      subst hf'
      rw [nUnder_eq_zero] at hu
      exact hu f.a (by simp [Face.has]) (e2 f.a (by simp [Face.has])).1
    · unfold triOf
      rw [(e2 f.a (by simp [Face.has])).2.1, (e2 f.b (by simp [Face.has])).2.1, (e2 f.c (by simp [Face.has])).2.1]
      rfl

/-! ## C69: waves -/

/-- A point of the edge. -/
def pt (p q : V3) (s : ℝ) : V3 := s • q + (1 - s) • p

theorem bisect_spec (d : V3 → ℝ) (p q : V3) (W : ℝ) (hW : ∀ s t : ℝ, 0 ≤ s → s ≤ t → t ≤ 1 → |d (pt p q s) - d (pt p q t)| ≤ W * (t - s))
    (z1 : ℝ) : ∀ (k : ℕ) (s0 s1 : ℝ), 0 ≤ s0 → s0 ≤ s1 → s1 ≤ 1 → W * (s1 - s0) ≤ 1e-4 * 2 ^ k →
    1e-4 < |d (pt p q s0)| → 1e-4 < |d (pt p q s1)| →
    ((d (pt p q s1) > 0 ∧ z1 > 0) ∨ (d (pt p q s1) ≤ 0 ∧ z1 ≤ 0)) →
    ¬ ((d (pt p q s0) > 0 ∧ z1 > 0) ∨ (d (pt p q s0) ≤ 0 ∧ z1 ≤ 0)) →
    ∃ s : ℝ, 0 ≤ s ∧ s ≤ 1 ∧ bisect d p q z1 k s0 s1 = pt p q s ∧ |d (pt p q s)| ≤ 1e-4 := by
  intro k
  induction k with
  | zero =>
    intro s0 s1 h0 h1 h2 hw a0 a1 c1 c0
    exfalso
    have := hW s0 s1 h0 h1 h2
    rw [pow_zero, mul_one] at hw
    generalize d (pt p q s0) = x at *
    generalize d (pt p q s1) = y at *
    have hxy := abs_le.mp (this.trans hw)
    rw [not_or, not_and_or, not_and_or] at c0
    rcases c1 with ⟨y1, y2⟩ | ⟨y1, y2⟩
    · have hx : x ≤ 0 := by
        rcases c0.1 with h | h
        · exact not_lt.mp h
        · exact absurd y2 h
      rw [abs_of_nonpos hx] at a0
      rw [abs_of_pos y1] at a1
      linarith [hxy.1]
    · have hx : x > 0 := by
        rcases c0.2 with h | h
        · exact not_le.mp h
        · exact absurd y2 h
      rw [abs_of_pos hx] at a0
      rw [abs_of_nonpos y1] at a1
      linarith [hxy.2]
  | succ k ih =>
    intro s0 s1 h0 h1 h2 hw a0 a1 c1 c0
    rw [pow_succ] at hw
    unfold bisect
    simp only
    have hm0 : s0 ≤ 1 / 2 * (s0 + s1) := by linarith
    have hm1 : 1 / 2 * (s0 + s1) ≤ s1 := by linarith
    have hpt : (1 / 2 * (s0 + s1)) • q + (1 - 1 / 2 * (s0 + s1)) • p = pt p q (1 / 2 * (s0 + s1)) := rfl
    rw [hpt]
    generalize hs : 1 / 2 * (s0 + s1) = s at *
    split_ifs with e1 e2
    · exact ⟨s, by linarith, by linarith, rfl, e1⟩
    · refine ih s0 s h0 hm0 (by linarith) ?_ a0 (not_le.mp e1) e2 c0
      have : s - s0 = (s1 - s0) / 2 := by rw [← hs]; ring
      rw [this]; linarith
    · refine ih s s1 (by linarith) hm1 h2 ?_ (not_le.mp e1) a1 c1 e2
      have : s1 - s = (s1 - s0) / 2 := by rw [← hs]; ring
      rw [this]; linarith

/-- Box of half-size `R`. -/
def Box (R : ℝ) (p : V3) : Prop := |p.x| ≤ R ∧ |p.y| ≤ R ∧ |p.z| ≤ R

theorem box_pt {R : ℝ} {p q : V3} (hp : Box R p) (hq : Box R q) {s : ℝ} (h0 : 0 ≤ s) (h1 : s ≤ 1) : Box R (pt p q s) := by
  obtain ⟨a1, a2, a3⟩ := hp
  obtain ⟨b1, b2, b3⟩ := hq
  rw [abs_le] at a1 a2 a3 b1 b2 b3
  have h1' : 0 ≤ 1 - s := by linarith
  unfold Box pt
  refine ⟨?_, ?_, ?_⟩ <;> rw [abs_le] <;> simp only [V3.add_x, V3.add_y, V3.add_z, V3.smul_x, V3.smul_y, V3.smul_z]
  · constructor <;> nlinarith [mul_le_mul_of_nonneg_left a1.1 h1', mul_le_mul_of_nonneg_left a1.2 h1', mul_le_mul_of_nonneg_left b1.1 h0, mul_le_mul_of_nonneg_left b1.2 h0]
  · constructor <;> nlinarith [mul_le_mul_of_nonneg_left a2.1 h1', mul_le_mul_of_nonneg_left a2.2 h1', mul_le_mul_of_nonneg_left b2.1 h0, mul_le_mul_of_nonneg_left b2.2 h0]
  · constructor <;> nlinarith [mul_le_mul_of_nonneg_left a3.1 h1', mul_le_mul_of_nonneg_left a3.2 h1', mul_le_mul_of_nonneg_left b3.1 h0, mul_le_mul_of_nonneg_left b3.2 h0]

/-- A free surface whose slopes are bounded by `K`. -/
def Slope (eta : ℝ → ℝ → ℝ) (K : ℝ) : Prop := 0 ≤ K ∧ ∀ x y x' y', |eta x y - eta x' y'| ≤ K * (|x - x'| + |y - y'|)

theorem wave_lip {eta : ℝ → ℝ → ℝ} {K R : ℝ} (hK : Slope eta K) (body : V3) {p q : V3} (hp : Box R p) (hq : Box R q) {s t : ℝ}
    (hst : s ≤ t) :
    |waveDist eta body (pt p q s) - waveDist eta body (pt p q t)| ≤ ((2 + 4 * K) * R) * (t - s) := by
  obtain ⟨a1, a2, a3⟩ := hp
  obtain ⟨b1, b2, b3⟩ := hq
  have hts : 0 ≤ t - s := by linarith
  have dx : |(pt p q s + horiz body).x - (pt p q t + horiz body).x| ≤ 2 * R * (t - s) := by
    have : (pt p q s + horiz body).x - (pt p q t + horiz body).x = (t - s) * (p.x - q.x) := by simp [pt]; ring
    rw [this, abs_mul, abs_of_nonneg hts]
    have := (abs_sub p.x q.x).trans (add_le_add a1 b1)
    nlinarith [mul_le_mul_of_nonneg_left this hts]
  have dy : |(pt p q s + horiz body).y - (pt p q t + horiz body).y| ≤ 2 * R * (t - s) := by
    have : (pt p q s + horiz body).y - (pt p q t + horiz body).y = (t - s) * (p.y - q.y) := by simp [pt]; ring
    rw [this, abs_mul, abs_of_nonneg hts]
    have := (abs_sub p.y q.y).trans (add_le_add a2 b2)
    nlinarith [mul_le_mul_of_nonneg_left this hts]
  have dz : |(pt p q s + horiz body).z - (pt p q t + horiz body).z| ≤ 2 * R * (t - s) := by
    have : (pt p q s + horiz body).z - (pt p q t + horiz body).z = (t - s) * (p.z - q.z) := by simp [pt]; ring
    rw [this, abs_mul, abs_of_nonneg hts]
    have := (abs_sub p.z q.z).trans (add_le_add a3 b3)
    nlinarith [mul_le_mul_of_nonneg_left this hts]
  have hl := hK.2 (pt p q s + horiz body).x (pt p q s + horiz body).y (pt p q t + horiz body).x (pt p q t + horiz body).y
  unfold waveDist
  simp only
  have e : ∀ a b c d : ℝ, |a - b - (c - d)| ≤ |a - c| + |b - d| := by
    intro a b c d
    have : a - b - (c - d) = (a - c) - (b - d) := by ring
    rw [this]; exact abs_sub _ _
  refine (e _ _ _ _).trans ?_
  have := mul_le_mul_of_nonneg_left (add_le_add dx dy) hK.1
  nlinarith

theorem pt_zero (p q : V3) : pt p q 0 = p := by ext <;> simp [pt]
theorem pt_one (p q : V3) : pt p q 1 = q := by ext <;> simp [pt]

/-- **C69, dichotomy.** For a free surface of bounded slope and an edge with one end above and the other under (by more than
1e-4), the intersection returned is a point of the edge within 1e-4 of the surface: the dichotomy never gives up. -/
theorem C69_dichotomy (eta : ℝ → ℝ → ℝ) (K R : ℝ) (hK : Slope eta K) (hR : (2 + 4 * K) * R ≤ 1e-4 * 2 ^ 1001) (body p q : V3)
    (hp : Box R p) (hq : Box R q) (h1 : 1e-4 < |waveDist eta body p|) (h2 : 1e-4 < |waveDist eta body q|)
    (h3 : waveDist eta body p * waveDist eta body q < 0) :
    ∃ s : ℝ, 0 ≤ s ∧ s ≤ 1 ∧ (waveSurf eta body).inter p q = some (p + s • (q - p)) ∧
      |waveDist eta body (p + s • (q - p))| ≤ 1e-4 := by
  have hpt : ∀ s : ℝ, pt p q s = p + s • (q - p) := by intro s; ext <;> simp [pt] <;> ring
  obtain ⟨s, hs0, hs1, hb, hd⟩ := bisect_spec (waveDist eta body) p q ((2 + 4 * K) * R)
    (fun s t _ hst _ => wave_lip hK body hp hq hst) (waveDist eta body q) 1001 0 1 le_rfl zero_le_one le_rfl
    (by rw [sub_zero, mul_one]; exact hR) (by rw [pt_zero]; exact h1) (by rw [pt_one]; exact h2)
    (by
      rw [pt_one]
      rcases lt_or_ge 0 (waveDist eta body q) with h | h
      · exact Or.inl ⟨h, h⟩
      · exact Or.inr ⟨h, h⟩)
    (by
      rw [pt_zero]
      rintro (⟨a, b⟩ | ⟨a, b⟩)
      · exact absurd (mul_pos a b) (by linarith)
      · exact absurd (mul_nonneg_of_nonpos_of_nonpos a b) (by linarith))
  refine ⟨s, hs0, hs1, ?_, ?_⟩
  · unfold waveSurf
    simp only
    rw [if_neg (not_le.mpr h1), if_neg (not_le.mpr h2), hb, hpt]
  · rw [← hpt]; exact hd

/-- **C69, intersection.** The same when an end of the edge is already on the surface: whenever the ends are on both sides or
one of them is on the surface, the intersection is a point of the edge on the surface. -/
theorem C69_intersection (eta : ℝ → ℝ → ℝ) (K R : ℝ) (hK : Slope eta K) (hR : (2 + 4 * K) * R ≤ 1e-4 * 2 ^ 1001) (body p q : V3)
    (hp : Box R p) (hq : Box R q)
    (h : waveDist eta body p * waveDist eta body q < 0 ∨ |waveDist eta body p| ≤ 1e-4 ∨ |waveDist eta body q| ≤ 1e-4) :
    ∃ s : ℝ, 0 ≤ s ∧ s ≤ 1 ∧ (waveSurf eta body).inter p q = some (p + s • (q - p)) ∧
      |waveDist eta body (p + s • (q - p))| ≤ 1e-4 := by
  by_cases h1 : |waveDist eta body p| ≤ 1e-4
  · have e : p + (0 : ℝ) • (q - p) = p := by ext <;> simp
    refine ⟨0, le_rfl, zero_le_one, ?_, by rw [e]; exact h1⟩
    unfold waveSurf
    simp only
    rw [if_pos h1, e]
  by_cases h2 : |waveDist eta body q| ≤ 1e-4
  · have e : p + (1 : ℝ) • (q - p) = q := by ext <;> simp
    refine ⟨1, zero_le_one, le_rfl, ?_, by rw [e]; exact h2⟩
    unfold waveSurf
    simp only
    rw [if_neg h1, if_pos h2, e]
  rcases h with h | h | h
  · exact C69_dichotomy eta K R hK hR body p q hp hq (not_le.mp h1) (not_le.mp h2) h
  · exact absurd h h1
  · exact absurd h h2

theorem wave_good {eta : ℝ → ℝ → ℝ} {K R : ℝ} (hK : Slope eta K) (hR : (2 + 4 * K) * R ≤ 1e-4 * 2 ^ 1001) (body : V3)
    {P : Params} (ht : 1e-4 < P.thr) :
    Good (waveSurf eta body) P (Box R) ∧ OnSeg (waveSurf eta body) P (Box R) := by
  have key : ∀ p q, Box R p → Box R q → crossing (waveSurf eta body) P p q →
      ∃ s : ℝ, 0 ≤ s ∧ s ≤ 1 ∧ (waveSurf eta body).inter p q = some (p + s • (q - p)) ∧
      |waveDist eta body (p + s • (q - p))| ≤ 1e-4 := by
    rintro p q hp hq ⟨hc, hprod⟩
    rw [not_or, not_lt, not_lt] at hc
    exact C69_dichotomy eta K R hK hR body p q hp hq (lt_of_lt_of_le ht hc.1) (lt_of_lt_of_le ht hc.2) hprod
  refine ⟨⟨lt_trans (by norm_num) ht, ?_⟩, ?_⟩
  · intro p q hp hq hc
    obtain ⟨s, h0, h1, hi, hd⟩ := key p q hp hq hc
    refine ⟨_, hi, lt_of_le_of_lt hd ht, ?_⟩
    have hpt : pt p q s = p + s • (q - p) := by ext <;> simp [pt] <;> ring
    rw [← hpt]
    exact box_pt hp hq h0 h1
  · intro p q I hp hq hc hI
    obtain ⟨s, h0, h1, hi, -⟩ := key p q hp hq hc
    rw [hI] at hi
    injection hi with hi
    exact ⟨s, h0, h1, hi⟩

/-- **C69, clipping by waves.** With a classification threshold above 1e-4 and a free surface of bounded slope, clipping any
mesh by the waves ends and leaves no corner more than a threshold above the free surface. (Threshold left at its default, 1e-4: C69_default_threshold.) -/
theorem C69_clipping (eta : ℝ → ℝ → ℝ) (K R : ℝ) (hK : Slope eta K) (hR : (2 + 4 * K) * R ≤ 1e-4 * 2 ^ 1001) (body : V3)
    (P : Params) (ht : 1e-4 < P.thr) (C : Choices) (hC : C.Fair) (M : Input) (hM : M.Ok) (hD : ∀ v < M.nv, Box R (M.pos v)) :
    ∃ out N, (∀ n, N ≤ n → apply (waveSurf eta body) P C n M = some out) ∧
      ∀ t ∈ out, ∀ x, t.corner x → x.z < eta (x.x + body.x) (x.y + body.y) + P.thr := by
  obtain ⟨out, N, hrun, h⟩ := C66_nothing_above (waveSurf eta body) P (Box R) (wave_good hK hR body ht).1 C hC M hM hD
  refine ⟨out, N, hrun, ?_⟩
  intro t ht' x hx
  have := h t ht' x hx
  unfold waveSurf waveDist horiz at this
  simp at this
  linarith

/-- The points a clipping may create: the vertices of the mesh, and the cuts of crossing segments between such points. -/
inductive Cut (S : Surf) (P : Params) (M : Input) : V3 → Prop
  | vertex (v : ℕ) (h : v < M.nv) : Cut S P M (M.pos v)
  | cut (p q I : V3) (hp : Cut S P M p) (hq : Cut S P M q) (hc : crossing S P p q) (hI : S.inter p q = some I) : Cut S P M I

/-- **C69, default threshold.** The same with the default threshold 1e-4, equal to that of the dichotomy, provided no point
that the clipping may create is at exactly 1e-4 from the surface: such a point would be marked as on the surface, and then be
found off it by the tests on edges. -/
theorem C69_default_threshold (eta : ℝ → ℝ → ℝ) (K R : ℝ) (hK : Slope eta K) (hR : (2 + 4 * K) * R ≤ 1e-4 * 2 ^ 1001)
    (body : V3) (P : Params) (ht : P.thr = 1e-4) (C : Choices) (hC : C.Fair) (M : Input) (hM : M.Ok)
    (hD : ∀ v < M.nv, Box R (M.pos v)) (hx : ∀ p, Cut (waveSurf eta body) P M p → |waveDist eta body p| ≠ 1e-4) :
    ∃ out N, (∀ n, N ≤ n → apply (waveSurf eta body) P C n M = some out) ∧
      ∀ t ∈ out, ∀ x, t.corner x → x.z < eta (x.x + body.x) (x.y + body.y) + 1e-4 := by
  have G : Good (waveSurf eta body) P (fun p => Box R p ∧ Cut (waveSurf eta body) P M p) := by
    refine ⟨by rw [ht]; norm_num, ?_⟩
    rintro p q ⟨hp, hp'⟩ ⟨hq, hq'⟩ hcr
    have hcr0 := hcr
    obtain ⟨hc, hprod⟩ := hcr0
    rw [not_or, not_lt, not_lt, ht] at hc
    obtain ⟨s, h0, h1, hi, hd⟩ := C69_dichotomy eta K R hK hR body p q hp hq
      (lt_of_le_of_ne hc.1 (hx p hp').symm) (lt_of_le_of_ne hc.2 (hx q hq').symm) hprod
    have hcut := Cut.cut p q _ hp' hq' hcr hi
    refine ⟨_, hi, ?_, ?_, hcut⟩
    · rw [ht]; exact lt_of_le_of_ne hd (hx _ hcut)
    · have hpt : pt p q s = p + s • (q - p) := by ext <;> simp [pt] <;> ring
      rw [← hpt]
      exact box_pt hp hq h0 h1
  obtain ⟨out, N, hrun, h⟩ := C66_nothing_above (waveSurf eta body) P _ G C hC M hM (fun v hv => ⟨hD v hv, Cut.vertex v hv⟩)
  refine ⟨out, N, hrun, ?_⟩
  intro t ht' x hx'
  have := h t ht' x hx'
  unfold waveSurf waveDist horiz at this
  rw [ht] at this
  simp at this
  norm_num at this ⊢
  linarith

/-! ## Non-vacuity -/

/-- A triangle with one corner above the plane z = 0 and two under. -/
def demo : Input := ⟨3, fun v => if v = 0 then ⟨0, 0, 1⟩ else if v = 1 then ⟨1, 0, -1⟩ else ⟨0, 1, -1⟩, [⟨0, 1, 2⟩]⟩

theorem demo_ok : demo.Ok := by
  intro f hf
  simp [demo] at hf
  subst hf
  simp [Face.Ok, demo]

/-- The hypotheses of C66 to C68 are met by a crossing triangle and the plane z = 0, and the clipping then keeps part of the
triangle and drops part of it. -/
example : ∃ pl, Plane.new 0 ⟨0, 0, 1⟩ .NWU = some pl ∧ V3.dot pl.normal pl.normal = 1 ∧
    ∃ out N, (∀ n, N ≤ n → apply (planeSurf pl 0) ⟨1e-4, 0⟩ ⟨fun _ _ => true, fun _ => 0, id⟩ n demo = some out) ∧
      OnSurface out ⟨1/2, 1/2, -1⟩ ∧ ¬ OnSurface out ⟨0, 0, 1⟩ ∧ OnSurface demo.tris ⟨0, 0, 1⟩ := by
  obtain ⟨pl, hp, ho, hn, -⟩ := C24_construction 0 ⟨0, 0, 1⟩ (by norm_num [V3.dot]) .NWU
  have hn0 : V3.dot pl.normal pl.normal = 1 := by
    have : pl.normal = ⟨0, 0, 1⟩ := hn
    rw [this]; norm_num [V3.dot]
  have hh : ∀ x : V3, height pl 0 x = x.z := by
    intro x
    unfold height Plane.signedDistance
    rw [ho, hn]; simp [V3.dot]
  obtain ⟨out, N, hrun, h1, h2⟩ := C67_plane pl hn0 0 ⟨1e-4, 0⟩ (by norm_num) le_rfl ⟨fun _ _ => true, fun _ => 0, id⟩
    (fun l w h => h) demo demo_ok
  refine ⟨pl, hp, hn0, out, N, hrun, h2 _ ?_ (by rw [hh]; norm_num), ?_, ?_⟩
  · refine ⟨triOf demo.pos ⟨0, 1, 2⟩, by simp [Input.tris, demo], 0, 1/2, 1/2, by norm_num, by norm_num, by norm_num, by norm_num, ?_⟩
    ext <;> norm_num [triOf, demo]
  · intro h
    have := (h1 _ h).2
    rw [hh] at this
    norm_num at this
  · refine ⟨triOf demo.pos ⟨0, 1, 2⟩, by simp [Input.tris, demo], 1, 0, 0, by norm_num, by norm_num, by norm_num, by norm_num, ?_⟩
    ext <;> norm_num [triOf, demo]

/-- A wavy free surface with bounded slope: the hypotheses of C69 are met. -/
example : Slope (fun x _ => Real.sin x) 1 ∧ (2 + 4 * (1 : ℝ)) * 1000 ≤ 1e-4 * 2 ^ 1001 := by
  refine ⟨⟨zero_le_one, ?_⟩, ?_⟩
  swap
  · have : (2 : ℝ) ^ 30 ≤ 2 ^ 1001 := pow_le_pow_right₀ (by norm_num) (by norm_num)
    have h2 : (2 : ℝ) ^ 30 = 1073741824 := by norm_num
    generalize (2 : ℝ) ^ 1001 = z at *
    rw [h2] at this
    norm_num
    linarith
  intro x y x' y'
  have h1 : |Real.sin x - Real.sin x'| ≤ |x - x'| := by
    rw [Real.sin_sub_sin, abs_mul, abs_mul]
    have a := Real.abs_sin_le_abs (x := (x - x') / 2)
    have b := Real.abs_cos_le_one ((x + x') / 2)
    rw [abs_div] at a
    simp only [abs_two] at a ⊢
    have c := abs_nonneg (Real.sin ((x - x') / 2))
    nlinarith [mul_le_mul_of_nonneg_left b c]
  have := abs_nonneg (y - y')
  linarith

/-- On the calm sea, the points that clipping the crossing triangle may create are at 1, -1 or 0 from the surface: the
hypothesis of C69_default_threshold is met. -/
example : ∀ p, Cut (waveSurf (fun _ _ => 0) 0) ⟨1e-4, 1/4⟩ demo p → |waveDist (fun _ _ => 0) 0 p| ≠ 1e-4 := by
  have hw : ∀ p : V3, waveDist (fun _ _ => 0) 0 p = p.z := by
    intro p; simp [waveDist, horiz]
  have key : ∀ p, Cut (waveSurf (fun _ _ => 0) 0) ⟨1e-4, 1/4⟩ demo p → p.z = 1 ∨ p.z = -1 ∨ p.z = 0 := by
    intro p hp
    induction hp with
    | vertex v h =>
      simp only [demo]
      split_ifs <;> simp
    | cut p q I hp hq hc hI ihp ihq =>
      right; right
      unfold crossing waveSurf at hc
      simp only [hw] at hc
      obtain ⟨h1, h2⟩ := hc
      unfold waveSurf at hI
      simp only [hw, Option.some.injEq] at hI
      have hpq : (p.z = 1 ∧ q.z = -1) ∨ (p.z = -1 ∧ q.z = 1) := by
        rcases ihp with a | a | a <;> rcases ihq with b | b | b <;> rw [a, b] at h2 <;> norm_num at h2
        · exact Or.inl ⟨a, b⟩
        · exact Or.inr ⟨a, b⟩
      have hz : (((1 : ℝ) / 2 * (0 + 1)) • q + (1 - (1 : ℝ) / 2 * (0 + 1)) • p).z = 0 := by
        rcases hpq with ⟨a, b⟩ | ⟨a, b⟩ <;> simp [a, b] <;> norm_num
      have hp1 : ¬ |p.z| ≤ 1e-4 := by rcases hpq with ⟨a, b⟩ | ⟨a, b⟩ <;> rw [a] <;> norm_num
      have hq1 : ¬ |q.z| ≤ 1e-4 := by rcases hpq with ⟨a, b⟩ | ⟨a, b⟩ <;> rw [b] <;> norm_num
      rw [if_neg hp1, if_neg hq1, bisect] at hI
      simp only [hw] at hI
      rw [hz, abs_zero, if_pos (by norm_num)] at hI
      rw [← hI]; exact hz
  intro p hp
  rw [hw]
  rcases key p hp with h | h | h <;> rw [h] <;> norm_num

end Clip

end Frydom.Mesh
