import Verif.Mesh.MassProps
import Mathlib.Dynamics.PeriodicPts.Defs
import Mathlib.Data.List.FinRange
import Mathlib.Data.Fintype.EquivFin

/-!
# Boundary of a mesh: `HasBoundaries`, `IsWatertight`, `CalcBoundaryPolygonSet` (C181)

The half-edges of OpenMesh are numbered; what the library says of each (end vertices, next, opposite, face) is a table, and what the
library guarantees on the tables is `HMesh.WF`. The circulation of FRyDoM over the boundary is modelled loop by loop; a loop that is
still running after the number of turns allowed gives `none`.
-/

namespace Frydom.Mesh
open Frydom.Geom Frydom.Mesh.Clip Frydom.Mesh.Surface

/-- A mesh as OpenMesh (external) presents it to FrMesh: `from_vertex_handle`, `to_vertex_handle`, `next_halfedge_handle`,
`opposite_halfedge_handle`, `face_handle` (`none`: not valid) of the half-edges, `halfedge_handle` of the faces (FrMesh.h:59). Deleted
items are collected before the properties are updated (FrMeshClipper.cpp:656-658). -/
structure HMesh where
  n : ℕ
  src : Fin n → ℕ
  dst : Fin n → ℕ
  next : Fin n → Fin n
  opp : Fin n → Fin n
  face : Fin n → Option ℕ
  nf : ℕ
  he : Fin nf → Fin n

namespace HMesh

/-- What OpenMesh guarantees of a triangular mesh. -/
structure WF (m : HMesh) : Prop where
  next_inj : Function.Injective m.next
  next_src : ∀ h, m.src (m.next h) = m.dst h
  next_face : ∀ h, m.face (m.next h) = m.face h
  opp_opp : ∀ h, m.opp (m.opp h) = h
  opp_src : ∀ h, m.src (m.opp h) = m.dst h
  /-- An edge has a face at least. -/
  edge_face : ∀ h, m.face h = none → m.face (m.opp h) ≠ none
  he_face : ∀ f, m.face (m.he f) = some f.1
  triangle : ∀ f, m.next (m.next (m.next (m.he f))) = m.he f
  proper : ∀ f, m.next (m.he f) ≠ m.he f
  in_face : ∀ h f, m.face h = some f → ∃ lt : f < m.nf, h = m.he ⟨f, lt⟩ ∨ h = m.next (m.he ⟨f, lt⟩) ∨ h = m.next (m.next (m.he ⟨f, lt⟩))

/-- `is_boundary(HalfedgeHandle)` (external): no face on this side. -/
def isBoundary (m : HMesh) (h : Fin m.n) : Bool := (m.face h).isNone

/-- The half-edges of a face, from the first. -/
def around (m : HMesh) (f : Fin m.nf) : List (Fin m.n) := [m.he f, m.next (m.he f), m.next (m.next (m.he f))]

/-- `is_boundary(FaceHandle)` (external): the opposite of one of its half-edges is on the boundary. -/
def isBoundaryFace (m : HMesh) (f : Fin m.nf) : Bool := (m.around f).any fun h => m.isBoundary (m.opp h)

/-- `HasBoundaries` (FrMesh.cpp:830-838): the first face on the boundary found ends the loop. -/
def hasBoundaries (m : HMesh) : Bool := (List.finRange m.nf).any m.isBoundaryFace

/-- `IsWatertight` (FrMesh.cpp:840-844). -/
def isWatertight (m : HMesh) : Bool := !m.hasBoundaries

/-- `FindFirstUntaggedBoundaryHalfedge` (FrMesh.cpp:846-855); `none` stands for the handle -1. -/
def findFirst (m : HMesh) (tag : Fin m.n → Bool) : Option (Fin m.n) :=
  (List.finRange m.n).find? fun h => m.isBoundary h && !tag h

/-- Variables of the circulation: status of the half-edges, `tagged_halfedges`, `vertexList` (the vertices by their numbers; the
positions are read from them, `rings` below). The list `polygon` of half-edges is filled and never read. -/
structure Walk (m : HMesh) where
  tag : Fin m.n → Bool
  tagged : List (Fin m.n)
  verts : List ℕ

/-- The inner loop (FrMesh.cpp:916-924). -/
def circulate (m : HMesh) (init : Fin m.n) : ℕ → Fin m.n → Walk m → Option (Walk m)
  | 0, _, _ => none
  | k + 1, h, w =>
    if h = init then some w
    else circulate m init k (m.next h)
      { tag := Function.update w.tag h true, tagged := w.tagged ++ [h], verts := w.verts ++ [m.dst h] }

/-- Variables of the outer loop. -/
structure Found (m : HMesh) where
  tag : Fin m.n → Bool
  tagged : List (Fin m.n)
  set : List (List ℕ)

/-- The outer loop (FrMesh.cpp:900-929). -/
def collect (m : HMesh) (turns : ℕ) : ℕ → Found m → Option (Found m)
  | 0, _ => none
  | k + 1, s =>
    match m.findFirst s.tag with
    | none => some s
    | some h0 =>
      (m.circulate h0 turns (m.next h0)
        { tag := Function.update s.tag h0 true, tagged := s.tagged ++ [h0], verts := [m.src h0, m.dst h0] }).bind fun w =>
      collect m turns k { tag := w.tag, tagged := w.tagged, set := s.set ++ [w.verts] }

/-- Removing the tags (FrMesh.cpp:932-934). -/
def untag (m : HMesh) : List (Fin m.n) → (Fin m.n → Bool) → Fin m.n → Bool
  | [], t => t
  | h :: l, t => untag m l (Function.update t h false)

/-- `CalcBoundaryPolygonSet` (FrMesh.cpp:887-938): status of the half-edges afterwards, and the polygons by their vertices. -/
def calcBoundary (m : HMesh) (turns : ℕ) (tag : Fin m.n → Bool) : Option ((Fin m.n → Bool) × List (List ℕ)) :=
  (m.collect turns turns { tag := tag, tagged := [], set := [] }).map fun s => (m.untag s.tagged s.tag, s.set)

/-! ## Specification -/

/-- The half-edges of a list follow one another, and the first follows the last. -/
def Round (m : HMesh) (l : List (Fin m.n)) : Prop :=
  l.IsChain (fun a b => m.next a = b) ∧ ∃ h, l.head? = some h ∧ l.getLast?.map m.next = some h

/-- The vertices met along half-edges that follow one another. -/
def vertsOf (m : HMesh) : List (Fin m.n) → List ℕ
  | [] => []
  | h :: l => m.src h :: (h :: l).map m.dst

/-- The half-edges without a face. -/
def boundary (m : HMesh) : List (Fin m.n) := (List.finRange m.n).filter m.isBoundary

/-- The mesh of the integrals with given loops. -/
def toSMesh (m : HMesh) (nv : ℕ) (pos : ℕ → V3) (loops : List (List ℕ)) : SMesh where
  nv := nv
  pos := pos
  faces := (List.finRange m.nf).map fun f => ⟨m.src (m.he f), m.src (m.next (m.he f)), m.src (m.next (m.next (m.he f)))⟩
  first := fun _ => 0
  loops := loops

/-! ## Lemmas -/

/-- Half-edges met from `h`, `p` of them. -/
def orbit (m : HMesh) (h : Fin m.n) (p : ℕ) : List (Fin m.n) := (List.range p).map fun i => m.next^[i] h

theorem orbit_succ (m : HMesh) (h : Fin m.n) (p : ℕ) : m.orbit h (p + 1) = m.orbit h p ++ [m.next^[p] h] := by
  unfold orbit
  rw [List.range_succ, List.map_append]; rfl

theorem orbit_cons (m : HMesh) (h : Fin m.n) (p : ℕ) : m.orbit h (p + 1) = h :: m.orbit (m.next h) p := by
  unfold orbit
  rw [List.range_succ_eq_map, List.map_cons, List.map_map]
  rfl

theorem period_pos {m : HMesh} (w : m.WF) (h : Fin m.n) : 0 < Function.minimalPeriod m.next h :=
  Function.minimalPeriod_pos_of_mem_periodicPts (w.next_inj.mem_periodicPts h)

theorem orbit_nodup (m : HMesh) (h : Fin m.n) : (m.orbit h (Function.minimalPeriod m.next h)).Nodup := by
  unfold orbit
  refine List.Nodup.map_on ?_ List.nodup_range
  intro a ha b hb hab
  exact Function.iterate_injOn_Iio_minimalPeriod (Set.mem_Iio.mpr (List.mem_range.mp ha)) (Set.mem_Iio.mpr (List.mem_range.mp hb)) hab

theorem period_le (m : HMesh) (h : Fin m.n) : Function.minimalPeriod m.next h ≤ m.n := by
  have := (m.orbit_nodup h).length_le_card
  unfold orbit at this
  rw [List.length_map, List.length_range, Fintype.card_fin] at this
  exact this

theorem orbit_chain (m : HMesh) (p : ℕ) : ∀ h : Fin m.n, (m.orbit h p).IsChain (fun a b => m.next a = b) := by
  induction p with
  | zero => intro h; exact List.isChain_nil
  | succ p ih =>
    intro h
    rw [orbit_cons]
    cases p with
    | zero => simp [orbit]
    | succ p =>
      have := ih (m.next h)
      rw [orbit_cons] at this ⊢
      exact List.isChain_cons_cons.mpr ⟨rfl, this⟩

theorem orbit_round {m : HMesh} (w : m.WF) (h : Fin m.n) : m.Round (m.orbit h (Function.minimalPeriod m.next h)) := by
  refine ⟨m.orbit_chain _ h, h, ?_, ?_⟩
  · obtain ⟨p, hp⟩ := Nat.exists_eq_succ_of_ne_zero (period_pos w h).ne'
    rw [hp, Nat.succ_eq_add_one, orbit_cons]
    rfl
  · have hper := Function.isPeriodicPt_minimalPeriod m.next h
    obtain ⟨p, hp⟩ := Nat.exists_eq_succ_of_ne_zero (period_pos w h).ne'
    rw [hp, Nat.succ_eq_add_one] at hper ⊢
    rw [orbit_succ, List.getLast?_append]
    simp only [List.getLast?_singleton, Option.some_or, Option.map_some]
    congr 1
    have h2 : m.next^[p + 1] h = h := hper
    rwa [Function.iterate_succ_apply'] at h2

/-- The inner loop goes once round. -/
theorem circulate_spec (m : HMesh) (h0 : Fin m.n) (p : ℕ) (hp : m.next^[p] h0 = h0) (hmin : ∀ i, 0 < i → i < p → m.next^[i] h0 ≠ h0) :
    ∀ (d j k : ℕ), 0 < j → j + d = p → d < k → ∀ w : Walk m, ∃ w' : Walk m, m.circulate h0 k (m.next^[j] h0) w = some w' ∧
      w'.tagged = w.tagged ++ m.orbit (m.next^[j] h0) d ∧ w'.verts = w.verts ++ (m.orbit (m.next^[j] h0) d).map m.dst ∧
      ((∀ h, w.tag h = true ↔ h ∈ w.tagged) → ∀ h, w'.tag h = true ↔ h ∈ w'.tagged) := by
  intro d
  induction d with
  | zero =>
    intro j k hj hjp hk w
    obtain ⟨k, rfl⟩ := Nat.exists_eq_succ_of_ne_zero hk.ne'
    have : m.next^[j] h0 = h0 := by rw [show j = p from hjp]; exact hp
    refine ⟨w, ?_, ?_, ?_, fun h => h⟩
    · rw [Nat.succ_eq_add_one, circulate, if_pos this]
    · simp [orbit]
    · simp [orbit]
  | succ d ih =>
    intro j k hj hjp hk w
    obtain ⟨k, rfl⟩ := Nat.exists_eq_succ_of_ne_zero (show k ≠ 0 by omega)
    have hne := hmin j hj (by omega)
    obtain ⟨w', h1, h2, h3, h4⟩ := ih (j + 1) k (by omega) (by omega) (by omega)
      { tag := Function.update w.tag (m.next^[j] h0) true, tagged := w.tagged ++ [m.next^[j] h0], verts := w.verts ++ [m.dst (m.next^[j] h0)] }
    rw [Function.iterate_succ_apply'] at h1 h2 h3
    refine ⟨w', ?_, ?_, ?_, ?_⟩
    · rw [Nat.succ_eq_add_one, circulate, if_neg hne, h1]
    · rw [h2, orbit_cons]; simp
    · rw [h3, orbit_cons]; simp
    · intro hw
      refine h4 fun h => ?_
      by_cases hh : h = m.next^[j] h0
      · subst hh; simp
      · simp only [Function.update_of_ne hh, List.mem_append, List.mem_singleton, hh, or_false]
        exact hw h

/-- The list of half-edges is closed under `next`. -/
theorem orbit_closed {m : HMesh} (w : m.WF) (h0 h : Fin m.n) (hh : h ∈ m.orbit h0 (Function.minimalPeriod m.next h0)) :
    m.next h ∈ m.orbit h0 (Function.minimalPeriod m.next h0) := by
  unfold orbit at hh ⊢
  obtain ⟨i, hi, rfl⟩ := List.mem_map.mp hh
  rw [List.mem_range] at hi
  have hper : m.next^[Function.minimalPeriod m.next h0] h0 = h0 := Function.isPeriodicPt_minimalPeriod m.next h0
  have hpos := period_pos w h0
  by_cases hl : i + 1 < Function.minimalPeriod m.next h0
  · exact List.mem_map.mpr ⟨i + 1, List.mem_range.mpr hl, by rw [Function.iterate_succ_apply']⟩
  · have : i + 1 = Function.minimalPeriod m.next h0 := by omega
    refine List.mem_map.mpr ⟨0, List.mem_range.mpr hpos, ?_⟩
    show h0 = m.next (m.next^[i] h0)
    rw [← Function.iterate_succ_apply' m.next i h0, Nat.succ_eq_add_one, this, hper]

theorem iterate_face {m : HMesh} (w : m.WF) (i : ℕ) (h : Fin m.n) : m.face (m.next^[i] h) = m.face h := by
  induction i with
  | zero => rfl
  | succ i ih => rw [Function.iterate_succ_apply', w.next_face, ih]

/-- The outer loop finds every boundary half-edge once. -/
theorem collect_spec {m : HMesh} (w : m.WF) (turns : ℕ) (ht : m.n < turns) : ∀ (k : ℕ) (s : Found m) (loops : List (List (Fin m.n))),
    (∀ h, s.tag h = true ↔ h ∈ s.tagged) → s.tagged = loops.flatten → s.set = loops.map m.vertsOf → (∀ l ∈ loops, m.Round l) →
    s.tagged.Nodup → (∀ h ∈ s.tagged, m.isBoundary h = true ∧ m.next h ∈ s.tagged) → m.n - s.tagged.length < k →
    ∃ (s' : Found m) (loops' : List (List (Fin m.n))), m.collect turns k s = some s' ∧ (∀ h, s'.tag h = true ↔ h ∈ s'.tagged) ∧
      s'.tagged = loops'.flatten ∧ s'.set = loops'.map m.vertsOf ∧ (∀ l ∈ loops', m.Round l) ∧ s'.tagged.Nodup ∧
      (∀ h, h ∈ s'.tagged ↔ m.isBoundary h = true) := by
  intro k
  induction k with
  | zero => intro s loops _ _ _ _ _ _ hk; omega
  | succ k ih =>
    intro s loops h1 h2 h3 h4 h5 h6 hk
    cases hf : m.findFirst s.tag with
    | none =>
      refine ⟨s, loops, by rw [collect, hf], h1, h2, h3, h4, h5, fun h => ⟨fun hh => (h6 h hh).1, fun hb => ?_⟩⟩
      have := List.find?_eq_none.mp hf h (List.mem_finRange h)
      rw [hb, Bool.true_and, Bool.not_eq_true', Bool.not_eq_false] at this
      exact (h1 h).mp this
    | some h0 =>
      obtain ⟨hb, hu⟩ : m.isBoundary h0 = true ∧ s.tag h0 = false := by
        have := List.find?_some hf
        rw [Bool.and_eq_true, Bool.not_eq_true'] at this
        exact this
      have hnot : h0 ∉ s.tagged := fun hh => by rw [(h1 h0).mpr hh] at hu; cases hu
      obtain ⟨p, hp⟩ : ∃ p, p = Function.minimalPeriod m.next h0 := ⟨_, rfl⟩
      have hpos : 0 < p := hp ▸ period_pos w h0
      have hle : p ≤ m.n := hp ▸ m.period_le h0
      have hper : m.next^[p] h0 = h0 := hp ▸ Function.isPeriodicPt_minimalPeriod m.next h0
      have hmin : ∀ i, 0 < i → i < p → m.next^[i] h0 ≠ h0 := by
        intro i hi hip he
        have : Function.minimalPeriod m.next h0 ≤ i := Function.IsPeriodicPt.minimalPeriod_le hi he
        omega
      obtain ⟨w', c1, c2, c3, c4⟩ := circulate_spec m h0 p hper hmin (p - 1) 1 turns one_pos (by omega) (by omega)
        { tag := Function.update s.tag h0 true, tagged := s.tagged ++ [h0], verts := [m.src h0, m.dst h0] }
      have horb : m.orbit h0 p = h0 :: m.orbit (m.next^[1] h0) (p - 1) := by
        obtain ⟨q, rfl⟩ := Nat.exists_eq_succ_of_ne_zero hpos.ne'
        rw [Nat.succ_eq_add_one, orbit_cons]
        rfl
      have ctag : w'.tagged = s.tagged ++ m.orbit h0 p := by rw [c2, horb]; simp
      have cverts : w'.verts = m.vertsOf (m.orbit h0 p) := by rw [c3, horb]; rfl
      have ctag' : ∀ h, w'.tag h = true ↔ h ∈ w'.tagged := by
        refine c4 fun h => ?_
        by_cases hh : h = h0
        · subst hh; simp
        · simp only [Function.update_of_ne hh, List.mem_append, List.mem_singleton, hh, or_false]
          exact h1 h
      have hclosed : ∀ i h, h ∈ s.tagged → m.next^[i] h ∈ s.tagged := by
        intro i
        induction i with
        | zero => intro h hh; exact hh
        | succ i ihi => intro h hh; rw [Function.iterate_succ_apply]; exact ihi _ (h6 h hh).2
      have hdisj : ∀ h ∈ s.tagged, h ∉ m.orbit h0 p := by
        intro h hh ho
        obtain ⟨i, hi, rfl⟩ := List.mem_map.mp ho
        rw [List.mem_range] at hi
        have := hclosed (p - i) _ hh
        rw [← Function.iterate_add_apply, show p - i + i = p by omega, hper] at this
        exact hnot this
      have hnd : w'.tagged.Nodup := by
        rw [ctag]
        refine List.nodup_append'.mpr ⟨h5, hp ▸ m.orbit_nodup h0, fun h a b => hdisj h a b⟩
      obtain ⟨s', loops', e1, e2, e3, e4, e5, e6, e7⟩ := ih { tag := w'.tag, tagged := w'.tagged, set := s.set ++ [w'.verts] }
        (loops ++ [m.orbit h0 p]) ctag' (by show w'.tagged = _; rw [ctag, h2]; simp) (by show s.set ++ [w'.verts] = _; rw [h3, cverts]; simp)
        (by
          intro l hl
          rcases List.mem_append.mp hl with hl | hl
          · exact h4 l hl
          · rw [List.mem_singleton.mp hl, hp]; exact orbit_round w h0)
        hnd
        (by
          intro h hh
          have hh : h ∈ w'.tagged := hh
          show m.isBoundary h = true ∧ m.next h ∈ w'.tagged
          rw [ctag] at hh ⊢
          rcases List.mem_append.mp hh with hh | hh
          · exact ⟨(h6 h hh).1, List.mem_append_left _ (h6 h hh).2⟩
          · refine ⟨?_, List.mem_append_right _ ?_⟩
            · obtain ⟨i, -, rfl⟩ := List.mem_map.mp hh
              unfold isBoundary
              rw [iterate_face w]
              exact hb
            · rw [hp] at hh ⊢
              exact orbit_closed w h0 h hh)
        (by
          show m.n - w'.tagged.length < k
          have hl : w'.tagged.length ≤ m.n := by
            have := hnd.length_le_card
            rwa [Fintype.card_fin] at this
          have : w'.tagged.length = s.tagged.length + p := by rw [ctag, List.length_append]; simp [orbit]
          omega)
      refine ⟨s', loops', ?_, e2, e3, e4, e5, e6, e7⟩
      rw [collect, hf]
      show Option.bind (m.circulate h0 turns (m.next^[1] h0) _) _ = _
      rw [c1]
      exact e1

theorem untag_spec (m : HMesh) (l : List (Fin m.n)) : ∀ t : Fin m.n → Bool, (∀ h, t h = true → h ∈ l) → m.untag l t = fun _ => false := by
  induction l with
  | nil =>
    intro t ht
    funext h
    have := ht h
    simp at this
    exact this
  | cons a l ih =>
    intro t ht
    rw [untag]
    refine ih _ fun h hh => ?_
    by_cases e : h = a
    · subst e; simp at hh
    · rw [Function.update_of_ne e] at hh
      exact (List.mem_cons.mp (ht h hh)).resolve_left e

theorem verts_edges {m : HMesh} (w : m.WF) : ∀ l : List (Fin m.n), l.IsChain (fun a b => m.next a = b) → ∀ a, (∀ h, l.head? = some h → m.src h = a) →
    loopEdges (a :: l.map m.dst) = l.map fun h => (m.src h, m.dst h) := by
  intro l
  induction l with
  | nil => intro _ a _; rfl
  | cons h l ih =>
    intro hc a ha
    have e : m.src h = a := ha h rfl
    have h2 := ih hc.tail (m.dst h) (by
      intro b hb
      cases l with
      | nil => cases hb
      | cons c l =>
        cases hb
        rw [← (List.isChain_cons_cons.mp hc).1, w.next_src])
    show (a, m.dst h) :: loopEdges (m.dst h :: l.map m.dst) = _
    rw [h2, ← e]
    rfl

theorem round_edges {m : HMesh} (w : m.WF) {l : List (Fin m.n)} (hl : m.Round l) :
    loopEdges (m.vertsOf l) = l.map fun h => (m.src h, m.dst h) := by
  obtain ⟨hc, h, hh, -⟩ := hl
  cases l with
  | nil => cases hh
  | cons a l =>
    exact verts_edges w (a :: l) hc (m.src a) (by intro b hb; cases hb; rfl)

theorem round_closed {m : HMesh} (w : m.WF) {l : List (Fin m.n)} (hl : m.Round l) : Closed (m.vertsOf l) := by
  obtain ⟨hc, h, hh, hlast⟩ := hl
  cases l with
  | nil => cases hh
  | cons a l =>
    cases hh
    unfold Closed vertsOf
    rw [List.head?_cons, List.getLast?_cons_of_ne_nil (by simp), List.getLast?_map]
    obtain ⟨b, hb, e⟩ := Option.map_eq_some_iff.mp hlast
    rw [hb, Option.map_some, ← w.next_src, e]

theorem around_nodup {m : HMesh} (w : m.WF) (f : Fin m.nf) : (m.around f).Nodup := by
  have h1 := w.proper f
  have h2 : m.next (m.next (m.he f)) ≠ m.he f := by
    intro e
    have := w.triangle f
    rw [e] at this
    exact h1 this
  have h3 : m.next (m.next (m.he f)) ≠ m.next (m.he f) := fun e => h1 (w.next_inj e)
  unfold around
  simp only [List.nodup_cons, List.mem_cons, List.not_mem_nil, or_false, not_or, not_false_iff, List.nodup_nil, and_true]
  exact ⟨⟨h1.symm, h2.symm⟩, h3.symm⟩

theorem around_face {m : HMesh} (w : m.WF) (f : Fin m.nf) (h : Fin m.n) : h ∈ m.around f ↔ m.face h = some f.1 := by
  unfold around
  simp only [List.mem_cons, List.not_mem_nil, or_false]
  constructor
  · rintro (rfl | rfl | rfl)
    · exact w.he_face f
    · rw [w.next_face, w.he_face]
    · rw [w.next_face, w.next_face, w.he_face]
  · intro hf
    obtain ⟨_, h⟩ := w.in_face h f.1 hf
    exact h

/-- The half-edges are those of the faces and those of the boundary, each once. -/
theorem halfedges_perm {m : HMesh} (w : m.WF) : ((List.finRange m.nf).flatMap m.around ++ m.boundary).Perm (List.finRange m.n) := by
  refine (List.perm_ext_iff_of_nodup ?_ (List.nodup_finRange m.n)).mpr ?_
  · refine List.nodup_append'.mpr ⟨?_, (List.nodup_finRange m.n).filter _, ?_⟩
    · refine List.nodup_flatMap.mpr ⟨fun f _ => around_nodup w f, ?_⟩
      refine (List.nodup_finRange m.nf).imp ?_
      intro a b hab h ha hb
      rw [around_face w] at ha hb
      rw [ha] at hb
      exact hab (Fin.ext (Option.some.inj hb))
    · intro h ha hb
      obtain ⟨f, -, hf⟩ := List.mem_flatMap.mp ha
      rw [around_face w] at hf
      have := (List.mem_filter.mp hb).2
      unfold isBoundary at this
      rw [hf] at this
      cases this
  · intro h
    refine ⟨fun _ => List.mem_finRange h, fun _ => ?_⟩
    cases hf : m.face h with
    | none =>
      refine List.mem_append_right _ (List.mem_filter.mpr ⟨List.mem_finRange h, ?_⟩)
      unfold isBoundary
      rw [hf]
      rfl
    | some f =>
      obtain ⟨lt, -⟩ := w.in_face h f hf
      exact List.mem_append_left _ (List.mem_flatMap.mpr ⟨⟨f, lt⟩, List.mem_finRange _, (around_face w ⟨f, lt⟩ h).mpr hf⟩)

/-- Every directed edge is met as often as its opposite. -/
theorem edges_paired {m : HMesh} (w : m.WF) (a b : ℕ) :
    ((List.finRange m.n).map fun h => (m.src h, m.dst h)).count (a, b) = ((List.finRange m.n).map fun h => (m.src h, m.dst h)).count (b, a) := by
  let σ : Equiv.Perm (Fin m.n) := ⟨m.opp, m.opp, w.opp_opp, w.opp_opp⟩
  have h1 : ((List.finRange m.n).map fun h => (m.src h, m.dst h)).Perm (((List.finRange m.n).map fun h => (m.src h, m.dst h)).map Prod.swap) := by
    have := (σ.map_finRange_perm.symm).map fun h => (m.src h, m.dst h)
    rw [List.map_map] at this ⊢
    refine this.trans (List.Perm.of_eq (List.map_congr_left fun h _ => ?_))
    show (m.src (m.opp h), m.dst (m.opp h)) = (m.dst h, m.src h)
    rw [w.opp_src, ← w.opp_src (m.opp h), w.opp_opp]
  rw [h1.count_eq]
  exact List.count_map_of_injective _ Prod.swap Prod.swap_injective (b, a)

/-! ## C181 -/

/-- **C181, the polygons.** On a mesh whose half-edges carry no tag, `CalcBoundaryPolygonSet` ends (each of its loops turns no more than once per half-edge and once more), the
tags are as before, and the polygons are closed rounds of half-edges that, together, are the half-edges without a face, each exactly
once. -/
theorem C181_polygons (m : HMesh) (w : m.WF) (turns : ℕ) (ht : m.n < turns) :
    ∃ loops : List (List (Fin m.n)), m.calcBoundary turns (fun _ => false) = some (fun _ => false, loops.map m.vertsOf) ∧
      (∀ l ∈ loops, m.Round l ∧ Closed (m.vertsOf l)) ∧ loops.flatten.Perm m.boundary := by
  obtain ⟨s, loops, h1, h2, h3, h4, h5, h6, h7⟩ := collect_spec w turns ht turns { tag := fun _ => false, tagged := [], set := [] } []
    (by simp) rfl rfl (by simp) List.nodup_nil (by simp) (by simpa using ht)
  refine ⟨loops, ?_, fun l hl => ⟨h5 l hl, round_closed w (h5 l hl)⟩, ?_⟩
  · unfold calcBoundary
    rw [h1, Option.map_some, untag_spec m s.tagged s.tag fun h hh => (h2 h).mp hh, h4]
  · rw [← h3]
    refine (List.perm_ext_iff_of_nodup h6 ((List.nodup_finRange m.n).filter _)).mpr fun h => ?_
    rw [h7, List.mem_filter]
    simp

/-- **C181, the boundary.** The polygons, read as loops of the mesh of the integrals, meet every half-edge of the boundary: what C70 to C74 suppose of the loops of
a mesh holds. -/
theorem C181_boundary (m : HMesh) (w : m.WF) (turns : ℕ) (ht : m.n < turns) (nv : ℕ) (pos : ℕ → V3) :
    ∃ loops, m.calcBoundary turns (fun _ => false) = some (fun _ => false, loops) ∧ (m.toSMesh nv pos loops).IsBoundary := by
  obtain ⟨loops, h1, h2, h3⟩ := C181_polygons m w turns ht
  refine ⟨loops.map m.vertsOf, h1, ?_, ?_⟩
  · intro l hl
    obtain ⟨l', hl', rfl⟩ := List.mem_map.mp hl
    exact (h2 l' hl').2
  · have he : (m.toSMesh nv pos (loops.map m.vertsOf)).edges.Perm ((List.finRange m.n).map fun h => (m.src h, m.dst h)) := by
      refine List.Perm.trans (List.Perm.of_eq ?_) ((((List.Perm.append_left _ h3).trans (halfedges_perm w))).map fun h => (m.src h, m.dst h))
      unfold SMesh.edges toSMesh
      rw [List.map_append]
      congr 1
      · simp only [List.flatMap_map, List.map_flatMap]
        refine List.flatMap_congr fun f _ => ?_
        unfold faceEdges around
        simp only [List.map_cons, List.map_nil]
        rw [← w.next_src, ← w.next_src, ← w.next_src, w.triangle]
      · simp only [List.flatMap_map, List.map_flatten]
        rw [List.flatMap_def]
        congr 1
        exact List.map_congr_left fun l hl => round_edges w (h2 l hl).1
    intro a b
    rw [he.count_eq, he.count_eq, edges_paired w]

/-- **C181, watertight meshes.** `IsWatertight` says whether every half-edge has a face, that is, whether there is no boundary polygon. -/
theorem C181_watertight (m : HMesh) (w : m.WF) (turns : ℕ) (ht : m.n < turns) :
    (m.isWatertight = true ↔ ∀ h, m.face h ≠ none) ∧
    (m.isWatertight = true ↔ m.calcBoundary turns (fun _ => false) = some (fun _ => false, [])) := by
  have h1 : m.isWatertight = true ↔ ∀ h, m.face h ≠ none := by
    unfold isWatertight hasBoundaries
    rw [Bool.not_eq_true', List.any_eq_false]
    constructor
    · intro hw h hf
      have ho := w.edge_face h hf
      obtain ⟨f, hf'⟩ := Option.ne_none_iff_exists'.mp ho
      obtain ⟨lt, -⟩ := w.in_face _ f hf'
      refine hw ⟨f, lt⟩ (List.mem_finRange _) ?_
      refine List.any_eq_true.mpr ⟨m.opp h, (around_face w ⟨f, lt⟩ _).mpr hf', ?_⟩
      rw [w.opp_opp]
      unfold isBoundary
      rw [hf]
      rfl
    · intro hw f _ hb
      obtain ⟨h, -, hh⟩ := List.any_eq_true.mp hb
      exact hw _ (Option.isNone_iff_eq_none.mp hh)
  refine ⟨h1, h1.trans ?_⟩
  obtain ⟨loops, e1, e2, e3⟩ := C181_polygons m w turns ht
  rw [e1]
  constructor
  · intro hf
    have : m.boundary = [] := by
      refine List.filter_eq_nil_iff.mpr fun h _ hb => hf h (Option.isNone_iff_eq_none.mp hb)
    rw [this] at e3
    have hl : loops = [] := by
      refine List.eq_nil_iff_forall_not_mem.mpr fun l hl => ?_
      obtain ⟨-, h, hh, -⟩ := (e2 l hl).1
      have : h ∈ loops.flatten := List.mem_flatten.mpr ⟨l, hl, List.mem_of_mem_head? hh⟩
      rw [e3.eq_nil] at this
      cases this
    rw [hl]
    rfl
  · intro hs h hf
    have hl : loops.map m.vertsOf = [] := (Prod.mk.inj (Option.some.inj hs)).2
    rw [List.map_eq_nil_iff] at hl
    rw [hl] at e3
    have hm : h ∈ m.boundary := List.mem_filter.mpr ⟨List.mem_finRange h, by unfold isBoundary; rw [hf]; rfl⟩
    have := e3.mem_iff.mpr hm
    cases this

end HMesh
end Frydom.Mesh
