import Verif.Mesh.Clipper

/-!
# Invariants of the clipper: proof machinery
-/

open Classical

noncomputable section

namespace Frydom.Mesh
open Geom

namespace Clip

/-- Requirements on the clipping surface, for points in a domain `D`: an edge that crosses is cut at a point of the domain
on the surface (within the threshold). -/
structure Good (S : Surf) (P : Params) (D : V3 → Prop) : Prop where
  pos : 0 < P.thr
  cut : ∀ p q, D p → D q → crossing S P p q → ∃ I, S.inter p q = some I ∧ |S.dist I| < P.thr ∧ D I

variable {D : V3 → Prop}

/-- One end above, the other under, according to the flags. -/
def XF (m : TMesh) (u w : ℕ) : Prop :=
  (m.flag u = .above ∧ m.flag w = .under) ∨ (m.flag u = .under ∧ m.flag w = .above)

theorem XF.symm {m : TMesh} {u w : ℕ} (h : XF m u w) : XF m w u := by
  rcases h with h | h
  · exact Or.inr ⟨h.2, h.1⟩
  · exact Or.inl ⟨h.2, h.1⟩

theorem XF.ne {m : TMesh} {u w : ℕ} (h : XF m u w) : u ≠ w := by
  rintro rfl
  rcases h with h | h <;> rw [h.1] at h <;> simp at h

/-- Three different vertices of the mesh. -/
def Face.Ok (f : Face) (nv : ℕ) : Prop := f.a < nv ∧ f.b < nv ∧ f.c < nv ∧ f.a ≠ f.b ∧ f.b ≠ f.c ∧ f.a ≠ f.c

theorem Face.Ok.lt {f : Face} {nv v : ℕ} (h : f.Ok nv) (hv : f.has v) : v < nv := by
  obtain ⟨h1, h2, h3, -⟩ := h
  rcases hv with rfl | rfl | rfl <;> assumption

theorem enum {f : Face} {nv x y : ℕ} (h : f.Ok nv) (hx : f.has x) (hy : f.has y) (hne : x ≠ y) :
    ∃ z, z ≠ x ∧ z ≠ y ∧ z < nv ∧ f.has z ∧ (∀ u, f.has u ↔ u = x ∨ u = y ∨ u = z) ∧
      (∀ g : ℕ → ℕ, g f.a + g f.b + g f.c = g x + g y + g z) ∧
      (∀ v, nv ≤ v → (f.subst y v).Ok (v + 1) ∧ (∀ u, (f.subst y v).has u ↔ u = v ∨ u = x ∨ u = z) ∧
        (∀ g : ℕ → ℕ, g (f.subst y v).a + g (f.subst y v).b + g (f.subst y v).c = g v + g x + g z)) := by
  obtain ⟨a, b, c⟩ := f
  obtain ⟨h1, h2, h3, h4, h5, h6⟩ := h
  simp only [Face.has] at hx hy
  simp only at h1 h2 h3 h4 h5 h6
  rcases hx with rfl | rfl | rfl <;> rcases hy with rfl | rfl | rfl <;> try exact absurd rfl hne
  · refine ⟨c, h6.symm, h5.symm, h3, by simp [Face.has], by intro u; simp [Face.has], by intro g; simp, ?_⟩
    intro v hv
    simp only [Face.subst, Face.Ok, Face.has, if_true, if_neg h4, if_neg h5.symm]
    refine ⟨by omega, by intro u; tauto, by intro g; first | trivial | ac_rfl⟩
  · refine ⟨b, h4.symm, h5, h2, by simp [Face.has], by intro u; simp [Face.has]; tauto, by intro g; simp; omega, ?_⟩
    intro v hv
    simp only [Face.subst, Face.Ok, Face.has, if_true, if_neg h6, if_neg h5]
    refine ⟨by omega, by intro u; tauto, by intro g; first | trivial | ac_rfl⟩
  · refine ⟨c, h5.symm, h6.symm, h3, by simp [Face.has], by intro u; simp [Face.has]; tauto, by intro g; simp; omega, ?_⟩
    intro v hv
    simp only [Face.subst, Face.Ok, Face.has, if_true, if_neg h4.symm, if_neg h6.symm]
    refine ⟨by omega, by intro u; tauto, by intro g; first | trivial | ac_rfl⟩
  · refine ⟨a, h4, h6, h1, by simp [Face.has], by intro u; simp [Face.has]; tauto, by intro g; simp; omega, ?_⟩
    intro v hv
    simp only [Face.subst, Face.Ok, Face.has, if_true, if_neg h6, if_neg h5]
    refine ⟨by omega, by intro u; tauto, by intro g; first | trivial | ac_rfl⟩
  · refine ⟨b, h5, h4.symm, h2, by simp [Face.has], by intro u; simp [Face.has]; tauto, by intro g; simp; omega, ?_⟩
    intro v hv
    simp only [Face.subst, Face.Ok, Face.has, if_true, if_neg h4.symm, if_neg h6.symm]
    refine ⟨by omega, by intro u; tauto, by intro g; first | trivial | ac_rfl⟩
  · refine ⟨a, h6, h4, h1, by simp [Face.has], by intro u; simp [Face.has]; tauto, by intro g; simp; omega, ?_⟩
    intro v hv
    simp only [Face.subst, Face.Ok, Face.has, if_true, if_neg h4, if_neg h5.symm]
    refine ⟨by omega, by intro u; tauto, by intro g; first | trivial | ac_rfl⟩

/-! ## Elementary steps -/

/-- What `ProcessFace` does to the mesh, as elementary steps. -/
inductive Step (S : Surf) (P : Params) (C : Choices) : TMesh → TMesh → Prop
  | split (m : TMesh) (u w : ℕ) (I : V3) (hx : XF m u w) (hI : S.inter (m.pos u) (m.pos w) = some I)
      (hf : ∃ f ∈ m.faces, f.hasEdge u w) : Step S P C m (insertSplit C m u w I)
  | project (m : TMesh) (v w : ℕ) (I : V3) (hx : XF m v w) (hI : S.inter (m.pos v) (m.pos w) = some I)
      (hf : ∃ f ∈ m.faces, f.hasEdge v w) (hr : V3.norm (I - m.pos v) < V3.norm (m.pos w - m.pos v) * P.ratio) :
      Step S P C m (project m v I)
  | del (m : TMesh) (js : List ℕ) (hj : ∀ j ∈ js, ∃ f, m.faces[j]? = some f ∧ nUnder m f = 0) :
      Step S P C m { m with del := m.del ++ js }

/-- Reflexive transitive closure. -/
inductive Steps (S : Surf) (P : Params) (C : Choices) : TMesh → TMesh → Prop
  | refl (m : TMesh) : Steps S P C m m
  | tail {m m1 m2 : TMesh} (h : Steps S P C m m1) (h' : Step S P C m1 m2) : Steps S P C m m2

theorem Steps.trans {S : Surf} {P : Params} {C : Choices} {m m1 m2 : TMesh} (h : Steps S P C m m1) (h' : Steps S P C m1 m2) :
    Steps S P C m m2 := by
  induction h' with
  | refl => exact h
  | tail _ s ih => exact Steps.tail ih s

theorem Steps.one {S : Surf} {P : Params} {C : Choices} {m m1 : TMesh} (h : Step S P C m m1) : Steps S P C m m1 :=
  Steps.tail (Steps.refl m) h

/-- Invariant of the loop, before face number `i` is processed. -/
structure Inv (S : Surf) (P : Params) (D : V3 → Prop) (m : TMesh) (i : ℕ) : Prop where
  ok : ∀ f ∈ m.faces, f.Ok m.nv
  cons : ∀ v < m.nv, m.flag v = classify S P (m.pos v)
  done : ∀ j < i, ∀ f, m.faces[j]? = some f → (nAbove m f = 0 ∨ nUnder m f = 0) ∧ (nAbove m f ≠ 0 → j ∈ m.del)
  delok : ∀ j ∈ m.del, ∃ f, m.faces[j]? = some f ∧ nUnder m f = 0
  bound : i ≤ m.faces.length
  dom : ∀ v < m.nv, D (m.pos v)

theorem one_eq_zero {p : Prop} : one p = 0 ↔ ¬ p := by unfold one; split_ifs <;> simp_all

theorem nAbove_eq_zero {m : TMesh} {f : Face} : nAbove m f = 0 ↔ ∀ v, f.has v → m.flag v ≠ .above := by
  unfold nAbove Face.has
  simp only [Nat.add_eq_zero_iff, one_eq_zero]
  constructor
  · rintro ⟨⟨h1, h2⟩, h3⟩ v (rfl | rfl | rfl) <;> assumption
  · intro h; exact ⟨⟨h _ (by simp), h _ (by simp)⟩, h _ (by simp)⟩

theorem nUnder_eq_zero {m : TMesh} {f : Face} : nUnder m f = 0 ↔ ∀ v, f.has v → m.flag v ≠ .under := by
  unfold nUnder Face.has
  simp only [Nat.add_eq_zero_iff, one_eq_zero]
  constructor
  · rintro ⟨⟨h1, h2⟩, h3⟩ v (rfl | rfl | rfl) <;> assumption
  · intro h; exact ⟨⟨h _ (by simp), h _ (by simp)⟩, h _ (by simp)⟩

/-- A face without crossing edge has no edge with one end above and the other under. -/
theorem not_hasEdge {m : TMesh} {f : Face} {u w : ℕ} (h : nAbove m f = 0 ∨ nUnder m f = 0) (hx : XF m u w) :
    ¬ f.hasEdge u w := by
  rintro ⟨hu, hw⟩
  rcases h with h | h
  · rw [nAbove_eq_zero] at h
    rcases hx with ⟨h1, -⟩ | ⟨-, h1⟩
    · exact h u hu h1
    · exact h w hw h1
  · rw [nUnder_eq_zero] at h
    rcases hx with ⟨-, h1⟩ | ⟨h1, -⟩
    · exact h w hw h1
    · exact h u hu h1

theorem getElem?_split {m : TMesh} {C : Choices} {u w : ℕ} {I : V3} {j : ℕ} {f : Face} (h : m.faces[j]? = some f) :
    (insertSplit C m u w I).faces[j]? =
      some (if f.hasEdge u w then f.subst (if C.half0 u w then u else w) m.nv else f) := by
  have hl : j < m.faces.length := by
    by_contra hc
    rw [List.getElem?_eq_none (by omega)] at h
    simp at h
  unfold insertSplit
  simp only
  rw [List.getElem?_append_left (by simpa using hl), List.getElem?_map, h]
  simp

theorem getElem?_lt {m : TMesh} {j : ℕ} {f : Face} (h : m.faces[j]? = some f) : j < m.faces.length := by
  by_contra hc
  rw [List.getElem?_eq_none (by omega)] at h
  simp at h

/-- The faces of the mesh after a split. -/
theorem mem_split {m : TMesh} {C : Choices} {u w : ℕ} {I : V3} {g : Face} :
    g ∈ (insertSplit C m u w I).faces ↔
      (g ∈ m.faces ∧ ¬ g.hasEdge u w) ∨
      ∃ f ∈ m.faces, f.hasEdge u w ∧ (g = f.subst u m.nv ∨ g = f.subst w m.nv) := by
  unfold insertSplit
  simp only [List.mem_append, List.mem_map, List.mem_filter, decide_eq_true_eq]
  constructor
  · rintro (⟨f, hf, rfl⟩ | ⟨f, ⟨hf, he⟩, rfl⟩)
    · by_cases he : f.hasEdge u w
      · rw [if_pos he]
        refine Or.inr ⟨f, hf, he, ?_⟩
        split_ifs <;> simp
      · rw [if_neg he]; exact Or.inl ⟨hf, he⟩
    · refine Or.inr ⟨f, hf, he, ?_⟩
      split_ifs <;> simp
  · rintro (⟨hg, he⟩ | ⟨f, hf, he, h⟩)
    · exact Or.inl ⟨g, hg, by rw [if_neg he]⟩
    · rcases Bool.eq_false_or_eq_true (C.half0 u w) with hb | hb <;> simp only [hb, if_true, Bool.false_eq_true, if_false]
      · rcases h with rfl | rfl
        · exact Or.inl ⟨f, hf, by rw [if_pos he]⟩
        · exact Or.inr ⟨f, ⟨hf, he⟩, rfl⟩
      · rcases h with rfl | rfl
        · exact Or.inr ⟨f, ⟨hf, he⟩, rfl⟩
        · exact Or.inl ⟨f, hf, by rw [if_pos he]⟩

/-- Consistent flags: crossing by distances is crossing by flags. -/
theorem crossing_iff {S : Surf} {P : Params} {m : TMesh} {u w : ℕ} (hp : 0 < P.thr)
    (hu : m.flag u = classify S P (m.pos u)) (hw : m.flag w = classify S P (m.pos w)) :
    crossing S P (m.pos u) (m.pos w) ↔ XF m u w := by
  unfold crossing XF
  rw [hu, hw]
  unfold classify
  generalize S.dist (m.pos u) = d
  generalize S.dist (m.pos w) = e
  constructor
  · rintro ⟨h1, h2⟩
    rw [not_or] at h1
    rw [if_neg h1.1, if_neg h1.2]
    rcases mul_neg_iff.mp h2 with ⟨h, h'⟩ | ⟨h, h'⟩
    · left; rw [if_pos h, if_neg (by linarith)]; simp
    · right; rw [if_neg (by linarith), if_pos h']; simp
  · intro h
    have key : ∀ x : ℝ, ¬ |x| < P.thr → ¬ x > 0 → x < 0 := by
      intro x h1 h2
      rcases lt_trichotomy x 0 with h3 | h3 | h3
      · exact h3
      · rw [h3, abs_zero] at h1; exact absurd hp h1
      · exact absurd h3 h2
    by_cases h1 : |d| < P.thr
    · simp [if_pos h1] at h
    by_cases h2 : |e| < P.thr
    · simp [if_pos h2] at h
    refine ⟨by tauto, ?_⟩
    rw [if_neg h1, if_neg h2] at h
    by_cases h3 : d > 0 <;> by_cases h4 : e > 0
    · simp [if_pos h3, if_pos h4] at h
    · exact mul_neg_of_pos_of_neg h3 (key e h2 h4)
    · exact mul_neg_of_neg_of_pos (key d h1 h3) h4
    · simp [if_neg h3, if_neg h4] at h

theorem down_iff {S : Surf} {P : Params} {m : TMesh} {u w : ℕ} (hp : 0 < P.thr)
    (hu : m.flag u = classify S P (m.pos u)) (hw : m.flag w = classify S P (m.pos w)) :
    downCrossing S P (m.pos u) (m.pos w) ↔ (m.flag u = .above ∧ m.flag w = .under) := by
  have key := crossing_iff hp hu hw
  unfold crossing XF at key
  unfold downCrossing
  constructor
  · rintro ⟨h1, h2, h3⟩
    rcases key.mp ⟨h1, mul_neg_of_pos_of_neg h2 h3⟩ with h | h
    · exact h
    · rw [hu] at h; unfold classify at h; simp only [not_or] at h1; rw [if_neg h1.1, if_pos h2] at h; simp at h
  · intro h
    obtain ⟨h1, h2⟩ := key.mpr (Or.inl h)
    refine ⟨h1, ?_⟩
    rcases mul_neg_iff.mp h2 with h' | h'
    · exact h'
    · rw [hu] at h; unfold classify at h; simp only [not_or] at h1; rw [if_neg h1.1, if_neg (by linarith [h'.1])] at h
      simp at h

theorem up_iff {S : Surf} {P : Params} {m : TMesh} {u w : ℕ} (hp : 0 < P.thr)
    (hu : m.flag u = classify S P (m.pos u)) (hw : m.flag w = classify S P (m.pos w)) :
    upCrossing S P (m.pos u) (m.pos w) ↔ (m.flag u = .under ∧ m.flag w = .above) := by
  have key := down_iff hp hw hu
  unfold downCrossing at key
  unfold upCrossing
  constructor
  · rintro ⟨h1, h2, h3⟩
    have := key.mp ⟨by tauto, h3, h2⟩
    exact ⟨this.2, this.1⟩
  · rintro ⟨h1, h2⟩
    obtain ⟨h3, h4, h5⟩ := key.mpr ⟨h2, h1⟩
    exact ⟨by tauto, h5, h4⟩

theorem Inv.good_cut {S : Surf} {P : Params} {m : TMesh} {i : ℕ} (G : Good S P D) (h : Inv S P D m i) {u w : ℕ} (hx : XF m u w)
    (hf : ∃ f ∈ m.faces, f.hasEdge u w) :
    u < m.nv ∧ w < m.nv ∧ ∃ I, S.inter (m.pos u) (m.pos w) = some I ∧ |S.dist I| < P.thr ∧ D I := by
  obtain ⟨f, hf, hu, hw⟩ := hf
  have hu' := (h.ok f hf).lt hu
  have hw' := (h.ok f hf).lt hw
  refine ⟨hu', hw', ?_⟩
  exact G.cut _ _ (h.dom u hu') (h.dom w hw') ((crossing_iff G.pos (h.cons u hu') (h.cons w hw')).mpr hx)

/-- Flags of old vertices after a split. -/
theorem split_flag {m : TMesh} {C : Choices} {u w : ℕ} {I : V3} {v : ℕ} (h : v < m.nv) :
    (insertSplit C m u w I).flag v = m.flag v ∧ (insertSplit C m u w I).pos v = m.pos v := by
  unfold insertSplit
  simp only
  rw [Function.update_of_ne (by omega), Function.update_of_ne (by omega)]
  exact ⟨rfl, rfl⟩

theorem split_flag_new {m : TMesh} {C : Choices} {u w : ℕ} {I : V3} :
    (insertSplit C m u w I).flag m.nv = .on ∧ (insertSplit C m u w I).pos m.nv = I := by
  unfold insertSplit
  simp only [Function.update_self, and_self]

theorem split_counts {m : TMesh} {C : Choices} {u w : ℕ} {I : V3} {f : Face} (h : f.Ok m.nv) :
    nAbove (insertSplit C m u w I) f = nAbove m f ∧ nUnder (insertSplit C m u w I) f = nUnder m f := by
  unfold nAbove nUnder
  rw [(split_flag h.1).1, (split_flag h.2.1).1, (split_flag h.2.2.1).1]
  exact ⟨rfl, rfl⟩

theorem project_flag_self {m : TMesh} {v : ℕ} {I : V3} : (project m v I).flag v = .on := by unfold project; simp
theorem project_pos_self {m : TMesh} {v : ℕ} {I : V3} : (project m v I).pos v = I := by unfold project; simp
theorem project_flag_ne {m : TMesh} {v z : ℕ} {I : V3} (h : z ≠ v) : (project m v I).flag z = m.flag z := by
  unfold project; simp [Function.update_of_ne h]
theorem project_pos_ne {m : TMesh} {v z : ℕ} {I : V3} (h : z ≠ v) : (project m v I).pos z = m.pos z := by
  unfold project; simp [Function.update_of_ne h]
theorem project_flag {m : TMesh} {v : ℕ} {I : V3} (z : ℕ) :
    (project m v I).flag z = .on ∨ (project m v I).flag z = m.flag z := by
  by_cases e : z = v
  · subst e; exact Or.inl project_flag_self
  · exact Or.inr (project_flag_ne e)
theorem project_above_zero {m : TMesh} {v : ℕ} {I : V3} {f : Face} (h : nAbove m f = 0) : nAbove (project m v I) f = 0 := by
  rw [nAbove_eq_zero] at *
  intro z hz
  rcases project_flag (m := m) (v := v) (I := I) z with e | e <;> rw [e]
  · simp
  · exact h z hz
theorem project_under_zero {m : TMesh} {v : ℕ} {I : V3} {f : Face} (h : nUnder m f = 0) : nUnder (project m v I) f = 0 := by
  rw [nUnder_eq_zero] at *
  intro z hz
  rcases project_flag (m := m) (v := v) (I := I) z with e | e <;> rw [e]
  · simp
  · exact h z hz

theorem inv_step {S : Surf} {P : Params} {C : Choices} (G : Good S P D) {m m' : TMesh} {i : ℕ} (h : Inv S P D m i)
    (st : Step S P C m m') : Inv S P D m' i := by
  cases st with
  | split u w I hx hI hf =>
    obtain ⟨hu, hw, I', hI', hd, hD⟩ := h.good_cut G hx hf
    rw [hI] at hI'
    injection hI' with hI'
    subst hI'
    have hnv : (insertSplit C m u w I).nv = m.nv + 1 := rfl
    refine ⟨?_, ?_, ?_, ?_, ?_, ?_⟩
    · intro g hg
      rw [hnv]
      rcases mem_split.mp hg with ⟨hg, -⟩ | ⟨f, hf, ⟨h1, h2⟩, hg⟩
      · obtain ⟨a1, a2, a3, a4⟩ := h.ok g hg
        exact ⟨by omega, by omega, by omega, a4⟩
      · rcases hg with rfl | rfl
        · obtain ⟨z, -, -, -, -, -, -, hz⟩ := enum (h.ok f hf) h2 h1 hx.symm.ne
          exact (hz m.nv le_rfl).1
        · obtain ⟨z, -, -, -, -, -, -, hz⟩ := enum (h.ok f hf) h1 h2 hx.ne
          exact (hz m.nv le_rfl).1
    · intro v hv
      rw [hnv] at hv
      rcases Nat.lt_succ_iff_lt_or_eq.mp hv with hv | rfl
      · rw [(split_flag hv).1, (split_flag hv).2]; exact h.cons v hv
      · rw [split_flag_new.1, split_flag_new.2]
        unfold classify
        rw [if_pos hd]
    · intro j hj f hf'
      have hl : j < m.faces.length := lt_of_lt_of_le hj h.bound
      have e : m.faces[j]? = some m.faces[j] := List.getElem?_eq_getElem hl
      obtain ⟨h1, h2⟩ := h.done j hj _ e
      rw [getElem?_split e, if_neg (not_hasEdge h1 hx)] at hf'
      injection hf' with hf'
      subst hf'
      obtain ⟨c1, c2⟩ := split_counts (C := C) (u := u) (w := w) (I := I) (h.ok _ (List.mem_of_getElem? e))
      rw [c1, c2]
      exact ⟨h1, h2⟩
    · intro j hj
      obtain ⟨f, hf', hu0⟩ := h.delok j hj
      refine ⟨f, ?_, ?_⟩
      · rw [getElem?_split hf', if_neg (not_hasEdge (Or.inr hu0) hx)]
      · rw [(split_counts (h.ok f (List.mem_of_getElem? hf'))).2]; exact hu0
    · refine h.bound.trans ?_
      unfold insertSplit
      simp
    · intro v hv
      rw [hnv] at hv
      rcases Nat.lt_succ_iff_lt_or_eq.mp hv with hv | rfl
      · rw [(split_flag hv).2]; exact h.dom v hv
      · rw [split_flag_new.2]; exact hD
  | project v w I hx hI hf hr =>
    obtain ⟨hu, hw, I', hI', hd, hD⟩ := h.good_cut G hx hf
    rw [hI] at hI'
    injection hI' with hI'
    subst hI'
    refine ⟨h.ok, ?_, ?_, ?_, h.bound, ?_⟩
    · intro z hz
      by_cases e : z = v
      · subst e
        rw [project_flag_self, project_pos_self]
        unfold classify; rw [if_pos hd]
      · rw [project_flag_ne e, project_pos_ne e]; exact h.cons z hz
    · intro j hj f hf'
      obtain ⟨h1, h2⟩ := h.done j hj f hf'
      exact ⟨h1.imp project_above_zero project_under_zero, fun h3 => h2 fun h4 => h3 (project_above_zero h4)⟩
    · intro j hj
      obtain ⟨f, hf', hu0⟩ := h.delok j hj
      exact ⟨f, hf', project_under_zero hu0⟩
    · intro z hz
      by_cases e : z = v
      · subst e; rw [project_pos_self]; exact hD
      · rw [project_pos_ne e]; exact h.dom z hz
  | del js hj =>
    refine ⟨h.ok, h.cons, ?_, ?_, ?_, h.dom⟩
    · intro j hji f hf
      obtain ⟨h1, h2⟩ := h.done j hji f hf
      exact ⟨h1, fun h3 => List.mem_append_left _ (h2 h3)⟩
    · intro j hj'
      rcases List.mem_append.mp hj' with h1 | h1
      · exact h.delok j h1
      · exact hj j h1
    · exact h.bound

/-! ## The measure: number of crossing edges, counted per face -/

def cpF (m : TMesh) (f : Face) : ℕ := nAbove m f * nUnder m f
def cp (m : TMesh) : ℕ := (m.faces.map (cpF m)).sum

theorem nAbove_enum {m : TMesh} {f : Face} {x y z : ℕ} (h : ∀ g : ℕ → ℕ, g f.a + g f.b + g f.c = g x + g y + g z) :
    nAbove m f = one (m.flag x = .above) + one (m.flag y = .above) + one (m.flag z = .above) ∧
    nUnder m f = one (m.flag x = .under) + one (m.flag y = .under) + one (m.flag z = .under) :=
  ⟨h (fun v => one (m.flag v = .above)), h (fun v => one (m.flag v = .under))⟩

theorem sum_split {α : Type} (l : List α) (e : α → Prop) (h : α → α) (h' : α → α) (g g' : α → ℕ)
    (h1 : ∀ a ∈ l, ¬ e a → g' a = g a) (h2 : ∀ a ∈ l, e a → g' (h a) + g' (h' a) < g a) :
    ((l.map (fun a => if e a then h a else a) ++ (l.filter (fun a => e a)).map h').map g').sum ≤ (l.map g).sum ∧
    ((∃ a ∈ l, e a) →
      ((l.map (fun a => if e a then h a else a) ++ (l.filter (fun a => e a)).map h').map g').sum < (l.map g).sum) := by
  induction l with
  | nil => simp
  | cons a l ih =>
    obtain ⟨i1, i2⟩ := ih (fun b hb => h1 b (List.mem_cons_of_mem _ hb)) (fun b hb => h2 b (List.mem_cons_of_mem _ hb))
    simp only [List.map_append, List.sum_append] at *
    by_cases ea : e a
    · have := h2 a (by simp) ea
      have key : (((a :: l).map (fun a => if e a then h a else a)).map g').sum +
          ((((a :: l).filter (fun a => e a)).map h').map g').sum < ((a :: l).map g).sum := by
        simp only [List.map_cons, List.sum_cons, if_pos ea, List.filter_cons, decide_eq_true ea, if_true]
        omega
      exact ⟨key.le, fun _ => key⟩
    · have := h1 a (by simp) ea
      simp only [List.map_cons, List.sum_cons, if_neg ea, List.filter_cons, decide_eq_false ea, Bool.false_eq_true, if_false]
      refine ⟨by omega, ?_⟩
      rintro ⟨b, hb, eb⟩
      have : ∃ a ∈ l, e a := by
        rcases List.mem_cons.mp hb with rfl | hb
        · exact absurd eb ea
        · exact ⟨b, hb, eb⟩
      have := i2 this
      omega

theorem one_true {p : Prop} (h : p) : one p = 1 := if_pos h
theorem one_false {p : Prop} (h : ¬ p) : one p = 0 := if_neg h

theorem split_face_lt {m : TMesh} {C : Choices} {u w x y : ℕ} {I : V3} {f : Face} (hok : f.Ok m.nv) (hx : f.has x)
    (hy : f.has y) (hX : XF m x y) :
    cpF (insertSplit C m u w I) (f.subst y m.nv) + cpF (insertSplit C m u w I) (f.subst x m.nv) < cpF m f := by
  obtain ⟨z, hzx, hzy, hzn, hz, -, he, hs⟩ := enum hok hx hy hX.ne
  obtain ⟨-, -, hs⟩ := hs m.nv le_rfl
  obtain ⟨z', hzx', hzy', hzn', hz', hm', he', hs'⟩ := enum hok hy hx hX.symm.ne
  obtain ⟨-, -, hs'⟩ := hs' m.nv le_rfl
  have hzz : z' = z := by
    rcases (hm' z).mp hz with h | h | h
    · exact absurd h hzy
    · exact absurd h hzx
    · exact h.symm
  subst hzz
  unfold cpF
  obtain ⟨a1, a2⟩ := nAbove_enum (m := m) he
  obtain ⟨a3, a4⟩ := nAbove_enum (m := insertSplit C m u w I) hs
  obtain ⟨a5, a6⟩ := nAbove_enum (m := insertSplit C m u w I) hs'
  rw [a1, a2, a3, a4, a5, a6, split_flag_new.1, (split_flag (hok.lt hx)).1, (split_flag (hok.lt hy)).1,
    (split_flag hzn).1]
  rcases hX with ⟨h1, h2⟩ | ⟨h1, h2⟩ <;> rw [h1, h2] <;> cases m.flag z' <;> simp [one]

theorem cp_split {m : TMesh} {C : Choices} {u w : ℕ} {I : V3} (hok : ∀ f ∈ m.faces, f.Ok m.nv) (hX : XF m u w)
    (hf : ∃ f ∈ m.faces, f.hasEdge u w) : cp (insertSplit C m u w I) < cp m := by
  unfold cp
  refine (sum_split m.faces (fun f => f.hasEdge u w) (fun f => f.subst (if C.half0 u w then u else w) m.nv)
    (fun f => f.subst (if C.half0 u w then w else u) m.nv) (cpF m) (cpF (insertSplit C m u w I)) ?_ ?_).2 hf
  · intro f hf he
    obtain ⟨c1, c2⟩ := split_counts (C := C) (u := u) (w := w) (I := I) (hok f hf)
    unfold cpF; rw [c1, c2]
  · intro f hf he
    split_ifs
    · exact split_face_lt (hok f hf) he.2 he.1 hX.symm
    · exact split_face_lt (hok f hf) he.1 he.2 hX

theorem project_cpF {m : TMesh} {v : ℕ} {I : V3} (f : Face) : cpF (project m v I) f ≤ cpF m f := by
  have key : ∀ (k : VP) z, k ≠ .on → one ((project m v I).flag z = k) ≤ one (m.flag z = k) := by
    intro k z hk
    rcases project_flag (m := m) (v := v) (I := I) z with e | e <;> rw [e]
    rw [one_false hk.symm]; exact Nat.zero_le _
  unfold cpF nAbove nUnder
  have a1 := key .above f.a (by simp)
  have a2 := key .above f.b (by simp)
  have a3 := key .above f.c (by simp)
  have b1 := key .under f.a (by simp)
  have b2 := key .under f.b (by simp)
  have b3 := key .under f.c (by simp)
  exact Nat.mul_le_mul (by omega) (by omega)

theorem cp_project {m : TMesh} {v w : ℕ} {I : V3} (hok : ∀ f ∈ m.faces, f.Ok m.nv) (hX : XF m v w)
    (hf : ∃ f ∈ m.faces, f.hasEdge v w) : cp (project m v I) < cp m := by
  unfold cp
  obtain ⟨f, hf, h1, h2⟩ := hf
  refine List.sum_lt_sum _ _ (fun g _ => project_cpF g) ⟨f, hf, ?_⟩
  obtain ⟨z, hzx, hzy, hzn, hz, -, he, -⟩ := enum (hok f hf) h1 h2 hX.ne
  obtain ⟨a1, a2⟩ := nAbove_enum (m := m) he
  obtain ⟨a3, a4⟩ := nAbove_enum (m := project m v I) he
  unfold cpF
  rw [a1, a2, a3, a4, project_flag_self, project_flag_ne hzx, project_flag_ne hX.ne.symm]
  rcases hX with ⟨h1, h2⟩ | ⟨h1, h2⟩ <;> rw [h1, h2] <;> cases m.flag z <;> simp [one]

/-! ## What each function does -/

theorem mem_neighbours {m : TMesh} {v w : ℕ} (h : w ∈ neighbours m v) : ∃ f ∈ m.faces, f.hasEdge v w := by
  unfold neighbours at h
  simp only [List.mem_flatMap, List.mem_filter, decide_eq_true_eq] at h
  obtain ⟨f, ⟨hf, hv⟩, hw, -⟩ := h
  refine ⟨f, hf, hv, ?_⟩
  simp at hw
  exact hw

theorem scan_spec {S : Surf} {P : Params} (G : Good S P D) {m : TMesh} {v : ℕ} (l : List ℕ) (best : Option (V3 × ℝ))
    (hDv : D (m.pos v)) (hDl : ∀ w ∈ l, D (m.pos w)) (Q : V3 → Prop) (hb : ∀ b, best = some b → Q b.1)
    (hQ : ∀ w ∈ l, ∀ I, crossing S P (m.pos v) (m.pos w) → S.inter (m.pos v) (m.pos w) = some I →
      V3.norm (I - m.pos v) < V3.norm (m.pos w - m.pos v) * P.ratio → Q I) :
    ∃ r, scan S P m v l best = some r ∧ ∀ b, r = some b → Q b.1 := by
  induction l generalizing best with
  | nil => exact ⟨best, rfl, hb⟩
  | cons w ws ih =>
    have hQ' : ∀ w ∈ ws, ∀ I, crossing S P (m.pos v) (m.pos w) → S.inter (m.pos v) (m.pos w) = some I →
      V3.norm (I - m.pos v) < V3.norm (m.pos w - m.pos v) * P.ratio → Q I :=
      fun w' h' => hQ w' (List.mem_cons_of_mem _ h')
    have hDl' : ∀ w ∈ ws, D (m.pos w) := fun w' h' => hDl w' (List.mem_cons_of_mem _ h')
    unfold scan
    by_cases hc : crossing S P (m.pos v) (m.pos w)
    · rw [if_pos hc]
      obtain ⟨I, hI, -⟩ := G.cut _ _ hDv (hDl w (by simp)) hc
      rw [hI]
      simp only [Option.bind_some]
      split_ifs with hr
      · refine ih _ hDl' ?_ hQ'
        intro b hb'
        have hQI := hQ w (by simp) I hc hI hr
        rcases best with _ | b0
        · simp at hb'; rw [← hb']; exact hQI
        · simp only at hb'
          split_ifs at hb' with hlt
          · injection hb' with hb'; rw [← hb']; exact hQI
          · exact hb b hb'
      · exact ih _ hDl' hb hQ'
    · rw [if_neg hc]; exact ih _ hDl' hb hQ'

theorem hasProjection_spec {S : Surf} {P : Params} {C : Choices} (G : Good S P D) (hC : ∀ l w, w ∈ C.ring l → w ∈ l) {m : TMesh}
    {i : ℕ} (h : Inv S P D m i) (l : List ℕ) (hl : ∀ v ∈ l, v < m.nv) :
    ∃ r, hasProjection S P C m l = some r ∧ ∀ vI : ℕ × V3, r = some vI → ∃ w, XF m vI.1 w ∧
      S.inter (m.pos vI.1) (m.pos w) = some vI.2 ∧ (∃ f ∈ m.faces, f.hasEdge vI.1 w) ∧
      V3.norm (vI.2 - m.pos vI.1) < V3.norm (m.pos w - m.pos vI.1) * P.ratio := by
  induction l with
  | nil => exact ⟨none, rfl, by simp⟩
  | cons v vs ih =>
    have ih := ih fun v' h' => hl v' (List.mem_cons_of_mem _ h')
    obtain ⟨r, hr, hr'⟩ := scan_spec G (m := m) (v := v) (C.ring (neighbours m v)) none (h.dom v (hl v (by simp)))
      (fun w hw => by
        obtain ⟨f, hf, -, hw'⟩ := mem_neighbours (hC _ _ hw)
        exact h.dom w ((h.ok f hf).lt hw'))
      (fun I => ∃ w, XF m v w ∧ S.inter (m.pos v) (m.pos w) = some I ∧ (∃ f ∈ m.faces, f.hasEdge v w) ∧
        V3.norm (I - m.pos v) < V3.norm (m.pos w - m.pos v) * P.ratio) (by simp) (by
          intro w hw I hc hI hn
          obtain ⟨f, hf, hv, hw'⟩ := mem_neighbours (hC _ _ hw)
          have h1 := (h.ok f hf).lt hv
          have h2 := (h.ok f hf).lt hw'
          exact ⟨w, (crossing_iff G.pos (h.cons v h1) (h.cons w h2)).mp hc, hI, ⟨f, hf, hv, hw'⟩, hn⟩)
    unfold hasProjection
    rw [hr]
    simp only [Option.bind_some]
    rcases r with _ | b
    · exact ih
    · refine ⟨_, rfl, ?_⟩
      intro vI hv
      injection hv with hv
      subst hv
      exact hr' b rfl

theorem turned_has (f : Face) (k : Fin 3) (v : ℕ) : (f.turned k).has v ↔ f.has v := by
  fin_cases k <;> simp [Face.turned, Face.has] <;> tauto
theorem turned_ok {f : Face} {n : ℕ} (h : f.Ok n) (k : Fin 3) : (f.turned k).Ok n := by
  obtain ⟨h1, h2, h3, h4, h5, h6⟩ := h
  fin_cases k
  · exact ⟨h1, h2, h3, h4, h5, h6⟩
  · exact ⟨h2, h3, h1, h5, h6.symm, h4.symm⟩
  · exact ⟨h3, h1, h2, h6.symm, h4, h5.symm⟩
theorem turned_counts (m : TMesh) (f : Face) (k : Fin 3) :
    nAbove m (f.turned k) = nAbove m f ∧ nUnder m (f.turned k) = nUnder m f := by
  fin_cases k <;> simp [Face.turned, nAbove, nUnder] <;> omega

/-- A half-edge pair is split: the result of `ProcessHalfEdge`. -/
theorem processHalfEdge_spec {S : Surf} {P : Params} {C : Choices} (G : Good S P D) {m : TMesh} {i : ℕ} (h : Inv S P D m i)
    {u w : ℕ} (hX : XF m u w) (hf : ∃ f ∈ m.faces, f.hasEdge u w) :
    ∃ m', processHalfEdge S C m u w = some m' ∧ Steps S P C m m' ∧ cp m' < cp m ∧
      m'.nv = m.nv + 1 ∧ (∀ v < m.nv, m'.flag v = m.flag v) ∧ m'.flag m.nv = .on ∧
      (∀ (j : ℕ) (f : Face), m.faces[j]? = some f → m'.faces[j]? =
        some (if f.hasEdge u w then f.subst (if C.half0 u w then u else w) m.nv else f)) ∧
      (∀ (j : ℕ) (f : Face), m'.faces[j]? = some f → f.has m.nv → nAbove m' f ≠ 0 → nUnder m' f = 0 → nAbove m' f ≤ 2 → j ∈ m'.del) ∧
      (∀ j ∈ m.del, j ∈ m'.del) ∧
      (∀ f ∈ m.faces, f.hasEdge u w → f.subst u m.nv ∈ m'.faces ∧ f.subst w m.nv ∈ m'.faces) := by
  obtain ⟨hu, hw, I, hI, hd, hD⟩ := h.good_cut G hX hf
  unfold processHalfEdge
  rw [hI]
  refine ⟨_, rfl, ?_, ?_, rfl, fun v hv => (split_flag (C := C) (u := u) (w := w) (I := I) hv).1,
    (split_flag_new (C := C) (u := u) (w := w) (I := I)).1,
    fun j f hj => getElem?_split (C := C) (u := u) (w := w) (I := I) hj, ?_, ?_, ?_⟩
  · refine Steps.tail (Steps.one (Step.split m u w I hX hI hf)) (Step.del _ _ ?_)
    intro j hj
    unfold dryAround at hj
    simp only [List.mem_filter, decide_eq_true_eq] at hj
    obtain ⟨-, f, hf, -, hc⟩ := hj
    refine ⟨f, hf, ?_⟩
    unfold classifyFace at hc
    split_ifs at hc <;> simp_all
  · exact cp_split (I := I) h.ok hX hf
  · intro j f hj hv ha hn h2
    refine List.mem_append_right _ ?_
    unfold dryAround
    simp only [List.mem_filter, decide_eq_true_eq, List.mem_range]
    refine ⟨getElem?_lt hj, f, hj, hv, ?_⟩
    have ha' : nAbove (insertSplit C m u w I) f ≠ 0 := ha
    have hn' : nUnder (insertSplit C m u w I) f = 0 := hn
    have h2' : nAbove (insertSplit C m u w I) f ≤ 2 := h2
    unfold classifyFace
    rw [if_neg ha']
    by_cases h1 : nAbove (insertSplit C m u w I) f = 1
    · rw [if_pos h1, if_pos hn']; simp
    · rw [if_neg h1, if_pos (by omega), if_pos hn']; simp
  · intro j hj
    exact List.mem_append_left _ hj
  · intro f hf he
    exact ⟨(mem_split (C := C) (I := I)).mpr (Or.inr ⟨f, hf, he, Or.inl rfl⟩),
      (mem_split (C := C) (I := I)).mpr (Or.inr ⟨f, hf, he, Or.inr rfl⟩)⟩

/-- Face number `i` is settled: it crosses nothing, and is to be deleted if it has a vertex above. -/
def Settled (m : TMesh) (i : ℕ) : Prop :=
  ∀ f, m.faces[i]? = some f → (nAbove m f = 0 ∨ nUnder m f = 0) ∧ (nAbove m f ≠ 0 → i ∈ m.del)

/-- Counts of a face from its set of vertices. -/
theorem zero_of_has {m : TMesh} {f : Face} {x y z : ℕ} (h : ∀ u, f.has u ↔ u = x ∨ u = y ∨ u = z) :
    (nAbove m f = 0 ↔ m.flag x ≠ .above ∧ m.flag y ≠ .above ∧ m.flag z ≠ .above) ∧
    (nUnder m f = 0 ↔ m.flag x ≠ .under ∧ m.flag y ≠ .under ∧ m.flag z ≠ .under) := by
  rw [nAbove_eq_zero, nUnder_eq_zero]
  simp only [h]
  constructor
  · constructor
    · intro h; exact ⟨h _ (by simp), h _ (by simp), h _ (by simp)⟩
    · rintro ⟨h1, h2, h3⟩ v (rfl | rfl | rfl) <;> assumption
  · constructor
    · intro h; exact ⟨h _ (by simp), h _ (by simp), h _ (by simp)⟩
    · rintro ⟨h1, h2, h3⟩ v (rfl | rfl | rfl) <;> assumption

theorem nAbove_le_two {m : TMesh} {f : Face} {v : ℕ} (hv : f.has v) (hf : m.flag v = .on) : nAbove m f ≤ 2 := by
  have h0 : one (m.flag v = .above) = 0 := one_false (by rw [hf]; simp)
  have hle : ∀ p : Prop, one p ≤ 1 := by intro p; unfold one; split_ifs <;> simp
  unfold nAbove
  have h1 := hle (m.flag f.a = .above)
  have h2 := hle (m.flag f.b = .above)
  have h3 := hle (m.flag f.c = .above)
  rcases hv with rfl | rfl | rfl <;> omega

theorem flag_cases {m : TMesh} {f : Face} {x y z : ℕ} (he : ∀ g : ℕ → ℕ, g f.a + g f.b + g f.c = g x + g y + g z)
    (hX : XF m x y) (h1 : nAbove m f = 1) (h2 : nUnder m f = 1) : m.flag z = .on := by
  obtain ⟨a1, a2⟩ := nAbove_enum (m := m) he
  rw [h1] at a1
  rw [h2] at a2
  rcases hX with ⟨h3, h4⟩ | ⟨h3, h4⟩ <;> rw [h3, h4] at a1 a2 <;> cases h : m.flag z <;>
    first | rfl | (rw [h] at a1 a2; simp [one] at a1 a2)

theorem clipOne_spec {S : Surf} {P : Params} {C : Choices} (G : Good S P D) {m : TMesh} {i : ℕ} (h : Inv S P D m i) {f0 : Face}
    (hf0 : m.faces[i]? = some f0) (h1 : nAbove m f0 = 1) (h2 : nUnder m f0 = 1) (k : Fin 3) :
    ∃ m', clipOne S P C m (f0.turned k) = some m' ∧ Steps S P C m m' ∧ cp m' < cp m ∧ Settled m' i := by
  have hmem : f0 ∈ m.faces := List.mem_of_getElem? hf0
  have hok0 := h.ok f0 hmem
  obtain ⟨t1, t2⟩ := turned_counts m f0 k
  have hok := turned_ok hok0 k
  -- the edge found
  have hfind : ∃ u w, findEdge S P m (f0.turned k) = some (u, w) ∧ XF m u w ∧ f0.has u ∧ f0.has w := by
    rw [← t1] at h1
    rw [← t2] at h2
    have ht := turned_has f0 k
    generalize f0.turned k = f at *
    obtain ⟨a, b, c⟩ := f
    have ca := h.cons a hok.1
    have cb := h.cons b hok.2.1
    have cc := h.cons c hok.2.2.1
    have ha := (ht a).mp (by simp [Face.has])
    have hb := (ht b).mp (by simp [Face.has])
    have hc := (ht c).mp (by simp [Face.has])
    unfold findEdge
    simp only [crossing_iff G.pos ca cb, crossing_iff G.pos cb cc, crossing_iff G.pos cc ca]
    by_cases e1 : XF m a b
    · exact ⟨a, b, by rw [if_pos e1], e1, ha, hb⟩
    by_cases e2 : XF m b c
    · exact ⟨b, c, by rw [if_neg e1, if_pos e2], e2, hb, hc⟩
    by_cases e3 : XF m c a
    · exact ⟨c, a, by rw [if_neg e1, if_neg e2, if_pos e3], e3, hc, ha⟩
    exfalso
    unfold XF at e1 e2 e3
    unfold nAbove at h1
    unfold nUnder at h2
    simp only at h1 h2
    cases hfa : m.flag a <;> cases hfb : m.flag b <;> cases hfc : m.flag c <;>
      simp [hfa, hfb, hfc, one] at h1 h2 e1 e2 e3
  obtain ⟨u, w, hfe, hX, hu, hw⟩ := hfind
  unfold clipOne
  rw [hfe]
  simp only [Option.bind_some]
  have main : ∀ u w, XF m u w → f0.has u → f0.has w →
      ∃ m', processHalfEdge S C m u w = some m' ∧ Steps S P C m m' ∧ cp m' < cp m ∧ Settled m' i := by
    intro u w hX hu hw
    obtain ⟨m', e, hs, hcp, hnv, hold, hnew, hfc, hdel, hmono, -⟩ :=
      processHalfEdge_spec (C := C) G h hX ⟨f0, hmem, hu, hw⟩
    refine ⟨m', e, hs, hcp, ?_⟩
    intro f hf
    have hf' := hfc i f0 hf0
    rw [if_pos ⟨hu, hw⟩] at hf'
    rw [hf'] at hf
    injection hf with hf
    -- generic: y replaced, x kept
    have gen : ∀ x y, XF m x y → f0.has x → f0.has y → f = f0.subst y m.nv →
        (nAbove m' f = 0 ∨ nUnder m' f = 0) ∧ (nAbove m' f ≠ 0 → i ∈ m'.del) := by
      intro x y hX hx hy hfy
      obtain ⟨z, hzx, hzy, hzn, hz, -, he, hsub⟩ := enum hok0 hx hy hX.ne
      obtain ⟨-, hhas, -⟩ := hsub m.nv le_rfl
      rw [← hfy] at hhas
      have hzon := flag_cases he hX h1 h2
      obtain ⟨z1, z2⟩ := zero_of_has (m := m') hhas
      rw [hnew, hold x (hok0.lt hx), hold z hzn, hzon] at z1 z2
      have hor : nAbove m' f = 0 ∨ nUnder m' f = 0 := by
        rw [z1, z2]
        rcases hX with ⟨q, -⟩ | ⟨q, -⟩ <;> rw [q] <;> simp
      refine ⟨hor, fun hna => ?_⟩
      have hv : f.has m.nv := (hhas m.nv).mpr (Or.inl rfl)
      refine hdel i f (by rw [hf', hf]) hv hna (hor.resolve_left hna) (nAbove_le_two hv hnew)
    rcases Bool.eq_false_or_eq_true (C.half0 u w) with hb | hb
    · exact gen w u hX.symm hw hu (by rw [← hf, hb]; simp)
    · exact gen u w hX hu hw (by rw [← hf, hb]; simp)
  split_ifs
  · exact main u w hX hu hw
  · exact main w u hX.symm hw hu

/-- The two half-edges found in a face of class 102 or 201. -/
theorem two_edges {S : Surf} {P : Params} (hp : 0 < P.thr) {m : TMesh} {f : Face} (hok : f.Ok m.nv)
    (cons : ∀ v < m.nv, m.flag v = classify S P (m.pos v)) (h3 : nAbove m f + nUnder m f = 3) (h1 : nAbove m f ≠ 0)
    (h2 : nUnder m f ≠ 0) :
    ∃ d1 d2 u1 u2, findDown S P m f = (d1, d2) ∧ findUp S P m f = some (u1, u2) ∧
      m.flag d1 = .above ∧ m.flag d2 = .under ∧ m.flag u1 = .under ∧ m.flag u2 = .above ∧
      f.has d1 ∧ f.has d2 ∧ f.has u1 ∧ f.has u2 ∧ ((u2 = d1 ∧ u1 ≠ d2) ∨ (u1 = d2 ∧ u2 ≠ d1)) := by
  obtain ⟨a, b, c⟩ := f
  obtain ⟨l1, l2, l3, n1, n2, n3⟩ := hok
  simp only at l1 l2 l3 n1 n2 n3
  have ca := cons a l1
  have cb := cons b l2
  have cc := cons c l3
  unfold findDown findUp
  simp only [down_iff hp ca cb, down_iff hp cb cc, up_iff hp ca cb, up_iff hp cb cc, up_iff hp cc ca]
  unfold nAbove nUnder at h3
  unfold nAbove at h1
  unfold nUnder at h2
  simp only at h1 h2 h3
  have n1' := n1.symm
  have n2' := n2.symm
  have n3' := n3.symm
  cases hfa : m.flag a <;> cases hfb : m.flag b <;> cases hfc : m.flag c <;>
    simp [hfa, hfb, hfc, one] at h1 h2 h3
  · exact ⟨b, c, c, a, by simp, by simp, hfb, hfc, hfc, hfa, by simp [Face.has], by simp [Face.has], by simp [Face.has],
      by simp [Face.has], Or.inr ⟨rfl, n1⟩⟩
  · exact ⟨a, b, b, c, by simp, by simp, hfa, hfb, hfb, hfc, by simp [Face.has], by simp [Face.has], by simp [Face.has],
      by simp [Face.has], Or.inr ⟨rfl, n3'⟩⟩
  · exact ⟨a, b, c, a, by simp, by simp, hfa, hfb, hfc, hfa, by simp [Face.has], by simp [Face.has], by simp [Face.has],
      by simp [Face.has], Or.inl ⟨rfl, n2'⟩⟩
  · exact ⟨c, a, a, b, by simp, by simp, hfc, hfa, hfa, hfb, by simp [Face.has], by simp [Face.has], by simp [Face.has],
      by simp [Face.has], Or.inr ⟨rfl, n2⟩⟩
  · exact ⟨b, c, a, b, by simp, by simp, hfb, hfc, hfa, hfb, by simp [Face.has], by simp [Face.has], by simp [Face.has],
      by simp [Face.has], Or.inl ⟨rfl, n3⟩⟩
  · exact ⟨c, a, b, c, by simp, by simp, hfc, hfa, hfb, hfc, by simp [Face.has], by simp [Face.has], by simp [Face.has],
      by simp [Face.has], Or.inl ⟨rfl, n1'⟩⟩

theorem inv_steps {S : Surf} {P : Params} {C : Choices} (G : Good S P D) {m m' : TMesh} {i : ℕ} (h : Inv S P D m i)
    (st : Steps S P C m m') : Inv S P D m' i := by
  induction st with
  | refl => exact h
  | tail _ s ih => exact inv_step G ih s

theorem clipTwo_spec {S : Surf} {P : Params} {C : Choices} (G : Good S P D) {m : TMesh} {i : ℕ} (h : Inv S P D m i) {f0 : Face}
    (hf0 : m.faces[i]? = some f0) (h3 : nAbove m f0 + nUnder m f0 = 3) (h1 : nAbove m f0 ≠ 0) (h2 : nUnder m f0 ≠ 0)
    (k : Fin 3) :
    ∃ m', clipTwo S P C m (f0.turned k) = some m' ∧ Steps S P C m m' ∧ cp m' < cp m ∧ Settled m' i := by
  have hmem : f0 ∈ m.faces := List.mem_of_getElem? hf0
  have hok0 := h.ok f0 hmem
  obtain ⟨t1, t2⟩ := turned_counts m f0 k
  obtain ⟨d1, d2, u1, u2, e1, e2, f1, f2, f3, f4, g1, g2, g3, g4, hor⟩ :=
    two_edges G.pos (turned_ok hok0 k) h.cons (by rw [t1, t2]; exact h3) (by rw [t1]; exact h1) (by rw [t2]; exact h2)
  rw [turned_has] at g1 g2 g3 g4
  have hXd : XF m d1 d2 := Or.inl ⟨f1, f2⟩
  have hXu : XF m u1 u2 := Or.inr ⟨f3, f4⟩
  obtain ⟨m1, q1, s1, c1, hnv1, hold1, hnew1, hfc1, hdel1, hmono1, hsub1⟩ :=
    processHalfEdge_spec (C := C) G h hXd ⟨f0, hmem, g1, g2⟩
  have I1 := inv_steps G h s1
  have hXu1 : XF m1 u1 u2 := by
    unfold XF
    rw [hold1 u1 (hok0.lt g3), hold1 u2 (hok0.lt g4)]
    exact hXu
  -- the half that holds both ends of the second edge
  have hedge : ∃ f ∈ m1.faces, f.hasEdge u1 u2 := by
    obtain ⟨a1, a2⟩ := hsub1 f0 hmem ⟨g1, g2⟩
    rcases hor with ⟨rfl, hne⟩ | ⟨rfl, hne⟩
    · refine ⟨_, a2, ?_⟩
      obtain ⟨z, -, -, -, -, hh, -, hs⟩ := enum hok0 g1 g2 hXd.ne
      obtain ⟨-, hs, -⟩ := hs m.nv le_rfl
      refine ⟨(hs u1).mpr ?_, (hs u2).mpr (by simp)⟩
      rcases (hh u1).mp g3 with r | r | r
      · exact absurd r hXu.ne
      · exact absurd r hne
      · exact Or.inr (Or.inr r)
    · refine ⟨_, a1, ?_⟩
      obtain ⟨z, -, -, -, -, hh, -, hs⟩ := enum hok0 g2 g1 hXd.symm.ne
      obtain ⟨-, hs, -⟩ := hs m.nv le_rfl
      refine ⟨(hs u1).mpr (by simp), (hs u2).mpr ?_⟩
      rcases (hh u2).mp g4 with r | r | r
      · exact absurd r hXu.symm.ne
      · exact absurd r hne
      · exact Or.inr (Or.inr r)
  obtain ⟨m2, q2, s2, c2, hnv2, hold2, hnew2, hfc2, hdel2, hmono2, -⟩ :=
    processHalfEdge_spec (C := C) G I1 hXu1 hedge
  refine ⟨m2, ?_, s1.trans s2, c2.trans c1, ?_⟩
  · unfold clipTwo
    rw [e1, e2]
    simp only [Option.bind_some, q1, q2]
  intro f hf
  have hfi1 := hfc1 i f0 hf0
  rw [if_pos ⟨g1, g2⟩] at hfi1
  have hfi2 := hfc2 i _ hfi1
  rw [hfi2] at hf
  injection hf with hf
  have hnl : m.nv < m1.nv := by omega
  -- vertices of face i after the first split
  have after1 : ∃ x z, f0.has x ∧ f0.has z ∧ x ≠ z ∧ (x = d1 ∨ x = d2) ∧ z ≠ d1 ∧ z ≠ d2 ∧
      ∀ v, (f0.subst (if C.half0 d1 d2 then d1 else d2) m.nv).has v ↔ v = m.nv ∨ v = x ∨ v = z := by
    rcases Bool.eq_false_or_eq_true (C.half0 d1 d2) with hb | hb
    · obtain ⟨z, y1, y2, -, y3, -, -, hs⟩ := enum hok0 g2 g1 hXd.symm.ne
      refine ⟨d2, z, g2, y3, y1.symm, Or.inr rfl, y2, y1, ?_⟩
      rw [hb]; simpa using (hs m.nv le_rfl).2.1
    · obtain ⟨z, y1, y2, -, y3, -, -, hs⟩ := enum hok0 g1 g2 hXd.ne
      refine ⟨d1, z, g1, y3, y1.symm, Or.inl rfl, y1, y2, ?_⟩
      rw [hb]; simpa using (hs m.nv le_rfl).2.1
  obtain ⟨x, z, hx0, hz0, hxz, hxd, hz1, hz2, hset⟩ := after1
  generalize hff : f0.subst (if C.half0 d1 d2 then d1 else d2) m.nv = ff at *
  have hffok := I1.ok ff (List.mem_of_getElem? hfi1)
  -- the third vertex is the other end of the second edge
  have hzu : (z = u1 ∧ u2 = d1) ∨ (z = u2 ∧ u1 = d2) := by
    obtain ⟨z', -, -, -, -, hh, -, -⟩ := enum hok0 g1 g2 hXd.ne
    have hzz : z = z' := by
      rcases (hh z).mp hz0 with r | r | r
      · exact absurd r hz1
      · exact absurd r hz2
      · exact r
    rcases hor with ⟨r1, r2⟩ | ⟨r1, r2⟩
    · left
      refine ⟨?_, r1⟩
      rcases (hh u1).mp g3 with r | r | r
      · rw [r1] at hXu; exact absurd r hXu.ne
      · exact absurd r r2
      · rw [hzz, r]
    · right
      refine ⟨?_, r1⟩
      rcases (hh u2).mp g4 with r | r | r
      · exact absurd r r2
      · rw [r1] at hXu; exact absurd r hXu.symm.ne
      · rw [hzz, r]
  by_cases he : ff.hasEdge u1 u2
  · -- split again
    rw [if_pos he] at hf
    have gen : ∀ a b, XF m1 a b → ff.has a → ff.has b → ({a, b} : Set ℕ) = {u1, u2} → f = ff.subst b m1.nv →
        (nAbove m2 f = 0 ∨ nUnder m2 f = 0) ∧ (nAbove m2 f ≠ 0 → i ∈ m2.del) := by
      intro a b hX ha hb hab hfb
      obtain ⟨t, ht1, ht2, htn, ht, hall, -, hs⟩ := enum hffok ha hb hX.ne
      obtain ⟨-, hhas, -⟩ := hs m1.nv le_rfl
      rw [← hfb] at hhas
      have htv : t = m.nv := by
        have hnv : ff.has m.nv := (hset m.nv).mpr (Or.inl rfl)
        rcases (hall m.nv).mp hnv with r | r | r
        · rcases hX with ⟨q, -⟩ | ⟨q, -⟩ <;> rw [← r, hnew1] at q <;> simp at q
        · rcases hX with ⟨-, q⟩ | ⟨-, q⟩ <;> rw [← r, hnew1] at q <;> simp at q
        · exact r.symm
      obtain ⟨z1, z2⟩ := zero_of_has (m := m2) hhas
      rw [hnew2, hold2 a (hffok.lt ha), hold2 t htn, htv, hnew1] at z1 z2
      have hor : nAbove m2 f = 0 ∨ nUnder m2 f = 0 := by
        rw [z1, z2]
        rcases hX with ⟨q, -⟩ | ⟨q, -⟩ <;> rw [q] <;> simp
      refine ⟨hor, fun hna => ?_⟩
      have hv : f.has m1.nv := (hhas m1.nv).mpr (Or.inl rfl)
      refine hdel2 i f (by rw [hfi2, if_pos he, hf]) hv hna (hor.resolve_left hna) (nAbove_le_two hv hnew2)
    rcases Bool.eq_false_or_eq_true (C.half0 u1 u2) with hb | hb
    · exact gen u2 u1 hXu1.symm he.2 he.1 (Set.pair_comm _ _) (by rw [← hf, hb]; simp)
    · exact gen u1 u2 hXu1 he.1 he.2 rfl (by rw [← hf, hb]; simp)
  · -- not concerned by the second split
    rw [if_neg he] at hf
    subst hf
    have hxlt := hok0.lt hx0
    have hzlt := hok0.lt hz0
    obtain ⟨z1, z2⟩ := zero_of_has (m := m2) hset
    rw [hold2 m.nv hnl, hold2 x (by omega), hold2 z (by omega), hnew1, hold1 x hxlt, hold1 z hzlt] at z1 z2
    obtain ⟨y1, y2⟩ := zero_of_has (m := m1) hset
    rw [hnew1, hold1 x hxlt, hold1 z hzlt] at y1 y2
    have hv : ff.has m.nv := (hset m.nv).mpr (Or.inl rfl)
    rcases hzu with ⟨r1, r2⟩ | ⟨r1, r2⟩
    · have hxx : x = d2 := by
        rcases hxd with r | r
        · exact absurd ⟨(hset u1).mpr (by rw [← r1]; simp), (hset u2).mpr (by rw [r2, r]; simp)⟩ he
        · exact r
      have ha : nAbove m2 ff = 0 := z1.mpr ⟨by simp, by rw [hxx, f2]; simp, by rw [r1, f3]; simp⟩
      exact ⟨Or.inl ha, fun hn => absurd ha hn⟩
    · have hxx : x = d1 := by
        rcases hxd with r | r
        · exact r
        · exact absurd ⟨(hset u1).mpr (by rw [r2, r]; simp), (hset u2).mpr (by rw [← r1]; simp)⟩ he
      have hu2 : nUnder m2 ff = 0 := z2.mpr ⟨by simp, by rw [hxx, f1]; simp, by rw [r1, f4]; simp⟩
      have hu1 : nUnder m1 ff = 0 := y2.mpr ⟨by simp, by rw [hxx, f1]; simp, by rw [r1, f4]; simp⟩
      have ha1 : nAbove m1 ff ≠ 0 := by
        intro ha
        have := (y1.mp ha).2.1
        rw [hxx, f1] at this
        exact this rfl
      exact ⟨Or.inr hu2, fun _ => hmono2 i (hdel1 i ff hfi1 hv ha1 hu1 (nAbove_le_two hv hnew1))⟩

theorem classify_spec (m : TMesh) (f : Face) :
    ((classifyFace m f = .p003 ∨ classifyFace m f = .p012 ∨ classifyFace m f = .p021) → nAbove m f = 0) ∧
    ((classifyFace m f = .p030 ∨ classifyFace m f = .p120 ∨ classifyFace m f = .p210 ∨ classifyFace m f = .p300) →
      nUnder m f = 0) ∧
    ((classifyFace m f = .p102 ∨ classifyFace m f = .p201) →
      nAbove m f + nUnder m f = 3 ∧ nAbove m f ≠ 0 ∧ nUnder m f ≠ 0) ∧
    (classifyFace m f = .p111 → nAbove m f = 1 ∧ nUnder m f = 1) := by
  have key : nAbove m f + nUnder m f ≤ 3 := by
    unfold nAbove nUnder
    cases m.flag f.a <;> cases m.flag f.b <;> cases m.flag f.c <;> simp [one]
  unfold classifyFace
  split_ifs <;> simp <;> omega

theorem Inv.settled {S : Surf} {P : Params} {m : TMesh} {i : ℕ} (h : Inv S P D m i) (hl : i < m.faces.length)
    (hs : Settled m i) : Inv S P D m (i + 1) := by
  refine ⟨h.ok, h.cons, ?_, h.delok, hl, h.dom⟩
  intro j hj f hf
  rcases Nat.lt_succ_iff_lt_or_eq.mp hj with hj | rfl
  · exact h.done j hj f hf
  · exact hs f hf

theorem steps_length {S : Surf} {P : Params} {C : Choices} {m m' : TMesh} (st : Steps S P C m m') :
    m.faces.length ≤ m'.faces.length := by
  induction st with
  | refl => exact le_rfl
  | tail _ s ih =>
    refine ih.trans ?_
    cases s with
    | split u w I _ _ _ => unfold insertSplit; simp
    | project v w I _ _ _ _ => exact le_rfl
    | del js _ => exact le_rfl

theorem processFace_spec {S : Surf} {P : Params} {C : Choices} (G : Good S P D) (hC : ∀ l w, w ∈ C.ring l → w ∈ l) :
    ∀ (k : ℕ) (m : TMesh) (i : ℕ), cp m = k → Inv S P D m i → i < m.faces.length →
    ∃ m', (∀ n, k < n → processFace S P C n m i = some m') ∧ Steps S P C m m' ∧ Inv S P D m' (i + 1) ∧
      (cp m' < cp m ∨ (cp m' = cp m ∧ m'.faces = m.faces)) := by
  intro k
  induction k using Nat.strong_induction_on with
  | _ k ih =>
  intro m i hk h hl
  have hf0 : m.faces[i]? = some m.faces[i] := List.getElem?_eq_getElem hl
  generalize m.faces[i] = f0 at hf0
  obtain ⟨c1, c2, c3, c4⟩ := classify_spec m (f0.turned (C.turn f0))
  obtain ⟨t1, t2⟩ := turned_counts m f0 (C.turn f0)
  -- dry faces
  have dry : nUnder m f0 = 0 → ∃ m', { m with del := m.del ++ [i] } = m' ∧ Steps S P C m m' ∧
      Inv S P D m' (i + 1) ∧ (cp m' < cp m ∨ (cp m' = cp m ∧ m'.faces = m.faces)) := by
    intro hu
    have st : Steps S P C m { m with del := m.del ++ [i] } := by
      refine Steps.one (Step.del m [i] ?_)
      intro j hj
      rw [List.mem_singleton] at hj
      subst hj
      exact ⟨f0, hf0, hu⟩
    refine ⟨_, rfl, st, (inv_steps G h st).settled hl ?_, Or.inr ⟨rfl, rfl⟩⟩
    intro f hf
    have : f = f0 := by
      have hf' : m.faces[i]? = some f := hf
      rw [hf0] at hf'; injection hf' with hf'; exact hf'.symm
    subst this
    exact ⟨Or.inr hu, fun _ => List.mem_append_right _ (by simp)⟩
  -- wet faces
  have wet : nAbove m f0 = 0 → Inv S P D m (i + 1) := by
    intro ha
    refine h.settled hl ?_
    intro f hf
    rw [hf0] at hf
    injection hf with hf
    subst hf
    exact ⟨Or.inl ha, fun hn => absurd ha hn⟩
  -- crossing faces
  have cross : ∀ clip : Option TMesh,
      (∃ m', clip = some m' ∧ Steps S P C m m' ∧ cp m' < cp m ∧ Settled m' i) →
      ∃ m', (∀ n, k ≤ n → ((hasProjection S P C m [(f0.turned (C.turn f0)).a, (f0.turned (C.turn f0)).b,
          (f0.turned (C.turn f0)).c]).bind fun r =>
          match r with
          | some vI => processFace S P C n (project m vI.1 vI.2) i
          | none => clip) = some m') ∧ Steps S P C m m' ∧ Inv S P D m' (i + 1) ∧
        (cp m' < cp m ∨ (cp m' = cp m ∧ m'.faces = m.faces)) := by
    intro clip hclip
    obtain ⟨r, hr, hr'⟩ := hasProjection_spec G hC h [(f0.turned (C.turn f0)).a, (f0.turned (C.turn f0)).b,
          (f0.turned (C.turn f0)).c] (by
        have := turned_ok (h.ok f0 (List.mem_of_getElem? hf0)) (C.turn f0)
        intro v hv
        simp only [List.mem_cons, List.not_mem_nil, or_false] at hv
        rcases hv with rfl | rfl | rfl
        · exact this.1
        · exact this.2.1
        · exact this.2.2.1)
    rw [hr]
    simp only [Option.bind_some]
    rcases r with _ | vI
    · obtain ⟨m', e, st, hcp, hs⟩ := hclip
      refine ⟨m', fun n _ => e, st, (inv_steps G h st).settled ?_ hs, Or.inl hcp⟩
      exact lt_of_lt_of_le hl (steps_length st)
    · obtain ⟨w, hX, hI, hf, hn⟩ := hr' vI rfl
      have hcp := cp_project (I := vI.2) h.ok hX hf
      have st : Steps S P C m (project m vI.1 vI.2) := Steps.one (Step.project m vI.1 w vI.2 hX hI hf hn)
      obtain ⟨m', hrun, st', hinv, hc⟩ := ih (cp (project m vI.1 vI.2)) (by omega) (project m vI.1 vI.2) i rfl
        (inv_steps G h st) hl
      refine ⟨m', fun n hn => hrun n (by omega), st.trans st', hinv, Or.inl ?_⟩
      rcases hc with hc | ⟨hc, -⟩ <;> omega
  have shape : ∀ (X : ℕ → Option TMesh), (∀ n, processFace S P C (n + 1) m i = X n) →
      (∃ m', (∀ n, k ≤ n → X n = some m') ∧ Steps S P C m m' ∧ Inv S P D m' (i + 1) ∧
        (cp m' < cp m ∨ (cp m' = cp m ∧ m'.faces = m.faces))) →
      ∃ m', (∀ n, k < n → processFace S P C n m i = some m') ∧ Steps S P C m m' ∧ Inv S P D m' (i + 1) ∧
      (cp m' < cp m ∨ (cp m' = cp m ∧ m'.faces = m.faces)) := by
    rintro X hX ⟨m', h1, h2⟩
    refine ⟨m', fun n hn => ?_, h2⟩
    obtain ⟨n', rfl⟩ : ∃ n', n = n' + 1 := ⟨n - 1, by omega⟩
    rw [hX n']
    exact h1 n' (by omega)
  have hdry : (∀ n, processFace S P C (n + 1) m i = some { m with del := m.del ++ [i] }) → nUnder m f0 = 0 →
      ∃ m', (∀ n, k < n → processFace S P C n m i = some m') ∧ Steps S P C m m' ∧ Inv S P D m' (i + 1) ∧
      (cp m' < cp m ∨ (cp m' = cp m ∧ m'.faces = m.faces)) := by
    intro hX hu
    obtain ⟨m', e, h1⟩ := dry hu
    exact shape _ hX ⟨m', fun n _ => by rw [e], h1⟩
  have hwet : (∀ n, processFace S P C (n + 1) m i = some m) → nAbove m f0 = 0 →
      ∃ m', (∀ n, k < n → processFace S P C n m i = some m') ∧ Steps S P C m m' ∧ Inv S P D m' (i + 1) ∧
      (cp m' < cp m ∨ (cp m' = cp m ∧ m'.faces = m.faces)) := by
    intro hX hu
    exact shape _ hX ⟨m, fun n _ => rfl, Steps.refl m, wet hu, Or.inr ⟨rfl, rfl⟩⟩
  have unf : ∀ n, processFace S P C (n + 1) m i = (match classifyFace m (f0.turned (C.turn f0)) with
      | .p003 | .p012 | .p021 => some m
      | .p030 | .p120 | .p210 | .p300 => some { m with del := m.del ++ [i] }
      | .p102 | .p201 =>
        (hasProjection S P C m [(f0.turned (C.turn f0)).a, (f0.turned (C.turn f0)).b,
          (f0.turned (C.turn f0)).c]).bind fun r =>
          match r with
          | some vI => processFace S P C n (project m vI.1 vI.2) i
          | none => clipTwo S P C m (f0.turned (C.turn f0))
      | .p111 =>
        (hasProjection S P C m [(f0.turned (C.turn f0)).a, (f0.turned (C.turn f0)).b,
          (f0.turned (C.turn f0)).c]).bind fun r =>
          match r with
          | some vI => processFace S P C n (project m vI.1 vI.2) i
          | none => clipOne S P C m (f0.turned (C.turn f0))) := by
    intro n
    rw [processFace, hf0]
    rfl
  rw [t1] at c1 c3 c4
  rw [t2] at c2 c3 c4
  have two : (classifyFace m (f0.turned (C.turn f0)) = .p102 ∨ classifyFace m (f0.turned (C.turn f0)) = .p201) →
      ∃ m', clipTwo S P C m (f0.turned (C.turn f0)) = some m' ∧ Steps S P C m m' ∧ cp m' < cp m ∧ Settled m' i := by
    intro hc
    obtain ⟨a1, a2, a3⟩ := c3 hc
    exact clipTwo_spec G h hf0 a1 a2 a3 _
  cases hc : classifyFace m (f0.turned (C.turn f0))
  · exact hwet (fun n => by rw [unf, hc]) (c1 (by rw [hc]; simp))
  · exact hwet (fun n => by rw [unf, hc]) (c1 (by rw [hc]; simp))
  · exact hwet (fun n => by rw [unf, hc]) (c1 (by rw [hc]; simp))
  · exact hdry (fun n => by rw [unf, hc]) (c2 (by rw [hc]; simp))
  · exact shape _ (fun n => by rw [unf, hc]) (cross _ (two (Or.inl hc)))
  · obtain ⟨a1, a2⟩ := c4 hc
    exact shape _ (fun n => by rw [unf, hc]) (cross _ (clipOne_spec G h hf0 a1 a2 _))
  · exact hdry (fun n => by rw [unf, hc]) (c2 (by rw [hc]; simp))
  · exact shape _ (fun n => by rw [unf, hc]) (cross _ (two (Or.inr hc)))
  · exact hdry (fun n => by rw [unf, hc]) (c2 (by rw [hc]; simp))
  · exact hdry (fun n => by rw [unf, hc]) (c2 (by rw [hc]; simp))

/-- The loop ends, and its result satisfies the invariant with every face settled. -/
theorem clipLoop_spec {S : Surf} {P : Params} {C : Choices} (G : Good S P D) (hC : ∀ l w, w ∈ C.ring l → w ∈ l) :
    ∀ (k l : ℕ) (m : TMesh) (i : ℕ), cp m = k → m.faces.length - i = l → Inv S P D m i →
    ∃ m' N, (∀ n, N ≤ n → clipLoop S P C n m i = some m') ∧ Steps S P C m m' ∧ Inv S P D m' m'.faces.length := by
  intro k
  induction k using Nat.strong_induction_on with
  | _ k ihk =>
  intro l
  induction l with
  | zero =>
    intro m i hk hl h
    have hi : i = m.faces.length := le_antisymm h.bound (by omega)
    refine ⟨m, 1, ?_, Steps.refl m, hi ▸ h⟩
    intro n hn
    obtain ⟨n', rfl⟩ : ∃ n', n = n' + 1 := ⟨n - 1, by omega⟩
    rw [clipLoop, if_neg (by omega)]
  | succ l ihl =>
    intro m i hk hl h
    have hi : i < m.faces.length := by omega
    obtain ⟨m1, hrun, st, hinv, hc⟩ := processFace_spec G hC (cp m) m i rfl h hi
    have next : ∃ m' N, (∀ n, N ≤ n → clipLoop S P C n m1 (i + 1) = some m') ∧ Steps S P C m1 m' ∧
        Inv S P D m' m'.faces.length := by
      rcases hc with hc | ⟨hc, hfc⟩
      · exact ihk (cp m1) (by omega) _ m1 (i + 1) rfl rfl hinv
      · exact ihl m1 (i + 1) (by omega) (by rw [hfc]; omega) hinv
    obtain ⟨m', N, hrun', st', hinv'⟩ := next
    refine ⟨m', N + cp m + 1, ?_, st.trans st', hinv'⟩
    intro n hn
    obtain ⟨n', rfl⟩ : ∃ n', n = n' + 1 := ⟨n - 1, by omega⟩
    rw [clipLoop, if_pos hi, hrun (n' + 1) (by omega)]
    simp only [Option.bind_some]
    exact hrun' n' (by omega)

theorem mem_remaining {m : TMesh} {f : Face} : f ∈ remaining m ↔ ∃ j, m.faces[j]? = some f ∧ j ∉ m.del := by
  unfold remaining
  simp only [List.mem_filterMap, List.mem_filter, List.mem_range, decide_eq_true_eq]
  constructor
  · rintro ⟨j, ⟨-, h2⟩, h3⟩; exact ⟨j, h3, h2⟩
  · rintro ⟨j, h1, h2⟩; exact ⟨j, ⟨getElem?_lt h1, h2⟩, h1⟩

/-- A well-formed mesh. -/
def Input.Ok (M : Input) : Prop := ∀ f ∈ M.faces, f.Ok M.nv

/-- Summary: the run ends in a state reached by elementary steps, in which no remaining face has a vertex above. -/
theorem apply_spec {S : Surf} {P : Params} {C : Choices} (G : Good S P D) (hC : ∀ l w, w ∈ C.ring l → w ∈ l) (M : Input)
    (hM : M.Ok) (hD : ∀ v < M.nv, D (M.pos v)) :
    ∃ m N, (∀ n, N ≤ n → apply S P C n M = some ((remaining m).map (triOf m.pos))) ∧ Steps S P C (start S P M) m ∧
      Inv S P D m m.faces.length := by
  have h0 : Inv S P D (start S P M) 0 := by
    refine ⟨hM, fun v _ => rfl, ?_, ?_, Nat.zero_le _, hD⟩
    · intro j hj; omega
    · intro j hj; simp [start] at hj
  obtain ⟨m, N, hrun, st, hinv⟩ := clipLoop_spec G hC _ _ (start S P M) 0 rfl rfl h0
  refine ⟨m, N, ?_, st, hinv⟩
  intro n hn
  unfold apply
  rw [hrun n hn]
  rfl

end Clip

end Frydom.Mesh
