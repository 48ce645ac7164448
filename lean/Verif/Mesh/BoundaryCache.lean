import Verif.Mesh.Boundary
import Verif.Asset.Grid

/-!
# Boundary polygons in the life of a mesh: the cache of `GetBoundaryPolygonSet`, closed meshes (C181, continued)
-/

namespace Frydom.Mesh
open Frydom.Geom Frydom.Mesh.Clip Frydom.Mesh.Surface

/-- An `FrMesh`: half-edges and their status, positions, `m_polygonSet` (FrMesh.h:65; FrCache.h:17-53, `none` if it is not valid, as it
is at first: the data of a cache that is not valid is not read). Normals and integrals of the faces are functions of the positions here:
every change of the positions in FrMesh is followed by `UpdateAllProperties`, which computes them (FrMesh.cpp:433-467). -/
structure Obj where
  m : HMesh
  nv : ℕ
  pos : ℕ → V3
  tag : Fin m.n → Bool
  cache : Option (List (List V3))

/-- What is done with a mesh. -/
inductive MeshOp where
  | translate (t : V3)
  | rotate (R : M3)
  /-- `Load`, `CreateBox`, clipping: other half-edges. -/
  | replace (m : HMesh) (nv : ℕ) (pos : ℕ → V3)
  /-- `GetBoundaryPolygonSet`, alone or inside `GetVolume`, `GetCOG`, `GetArea`… -/
  | polygons

namespace Obj

/-- A mesh just built: the tags of new half-edges are off (external), the cache is not valid (FrCache.h:24). -/
def fresh (m : HMesh) (nv : ℕ) (pos : ℕ → V3) : Obj := ⟨m, nv, pos, fun _ => false, none⟩

/-- `UpdateAllProperties` (FrMesh.cpp:433-443). -/
def updateAll (o : Obj) : Obj := { o with cache := none }

/-- `Translate` (FrMesh.cpp:320-330). -/
def translate (o : Obj) (t : V3) : Obj := updateAll { o with pos := fun v => o.pos v + t }

/-- `Rotate` (FrMesh.cpp:332-348), the identity being tested exactly. -/
def rotate (o : Obj) (R : M3) : Obj := updateAll { o with pos := fun v => R.mulVec (o.pos v) }

/-- `Load` (FrMesh.cpp:218-227), `CreateBox` (FrMesh.cpp:229-318), `Finalize` of the clipper (FrMeshClipper.cpp:645-658): the
half-edges are others, without tags (OpenMesh keeps the status of the half-edges that stay, which are off by C181), then
`UpdateAllProperties`. -/
def replace (o : Obj) (m : HMesh) (nv : ℕ) (pos : ℕ → V3) : Obj := updateAll ⟨m, nv, pos, fun _ => false, o.cache⟩

/-- `GetBoundaryPolygonSet` (FrMesh.cpp:880-885) with `CalcBoundaryPolygonSet` (FrMesh.cpp:887-938). -/
def getPolygons (turns : ℕ) (o : Obj) : Option (Obj × List (List V3)) :=
  match o.cache with
  | some s => some (o, s)
  | none => (o.m.calcBoundary turns o.tag).map fun r =>
      ({ o with tag := r.1, cache := some (r.2.map fun l => l.map o.pos) }, r.2.map fun l => l.map o.pos)

/-- One operation. -/
def step (turns : ℕ) (o : Obj) : MeshOp → Option Obj
  | .translate t => some (o.translate t)
  | .rotate R => some (o.rotate R)
  | .replace m nv pos => some (o.replace m nv pos)
  | .polygons => (o.getPolygons turns).map Prod.fst

def run (turns : ℕ) : Obj → List MeshOp → Option Obj
  | o, [] => some o
  | o, op :: ops => (o.step turns op).bind fun o' => run turns o' ops

end Obj

/-- `ConvertToTriangleMeshConnected` (FrMesh.cpp:406-431): the vertices in order, and for each face the vertices its half-edges point
to, from the first (`fv_iter`, external). -/
def HMesh.convert (m : HMesh) (nv : ℕ) (pos : ℕ → V3) : Asset.TriMesh where
  verts := (List.range nv).map pos
  faces := (List.finRange m.nf).map fun f => (m.dst (m.he f), m.dst (m.next (m.he f)), m.dst (m.next (m.next (m.he f))))

/-! ## Specification -/

/-- The mesh that the operations make: its half-edges, and its positions after the moves that followed. -/
def current : HMesh × (ℕ → V3) → List MeshOp → HMesh × (ℕ → V3)
  | s, [] => s
  | s, .translate t :: ops => current (s.1, fun v => s.2 v + t) ops
  | s, .rotate R :: ops => current (s.1, fun v => R.mulVec (s.2 v)) ops
  | _, .replace m _ pos :: ops => current (m, pos) ops
  | s, .polygons :: ops => current s ops

/-- A mesh that the loops can go round with the number of turns allowed. -/
def Fits (turns : ℕ) (m : HMesh) : Prop := m.WF ∧ m.n < turns

/-- The boundary polygons that a mesh with no tag and no cache finds. -/
def polygonsOf (turns : ℕ) (m : HMesh) (pos : ℕ → V3) : Option (List (List V3)) :=
  (m.calcBoundary turns fun _ => false).map fun r => r.2.map fun l => l.map pos

/-- State between two operations. -/
def Obj.Good (turns : ℕ) (o : Obj) : Prop :=
  Fits turns o.m ∧ (o.tag = fun _ => false) ∧ ∀ s, o.cache = some s → polygonsOf turns o.m o.pos = some s

theorem polygonsOf_some {turns : ℕ} {m : HMesh} (h : Fits turns m) (pos : ℕ → V3) :
    ∃ l, m.calcBoundary turns (fun _ => false) = some (fun _ => false, l) ∧ polygonsOf turns m pos = some (l.map fun l => l.map pos) := by
  obtain ⟨l, hl, -⟩ := HMesh.C181_polygons m h.1 turns h.2
  exact ⟨_, hl, by unfold polygonsOf; rw [hl]; rfl⟩

theorem getPolygons_good {turns : ℕ} {o : Obj} (h : o.Good turns) :
    ∃ o' s, o.getPolygons turns = some (o', s) ∧ polygonsOf turns o.m o.pos = some s ∧ o'.Good turns ∧ o'.m = o.m ∧ o'.pos = o.pos := by
  obtain ⟨m, nv, pos, tag, cache⟩ := o
  obtain ⟨h1, h2, h3⟩ := h
  have h2 : tag = fun _ => false := h2
  subst h2
  cases cache with
  | some s => exact ⟨_, s, rfl, h3 s rfl, ⟨h1, rfl, h3⟩, rfl, rfl⟩
  | none =>
    obtain ⟨l, e1, e2⟩ := polygonsOf_some h1 pos
    refine ⟨⟨m, nv, pos, fun _ => false, some (l.map fun l => l.map pos)⟩, l.map fun l => l.map pos, ?_, e2, ⟨h1, rfl, ?_⟩, rfl, rfl⟩
    · show (m.calcBoundary turns fun _ => false).map _ = _
      rw [e1]
      rfl
    · intro s hs
      cases hs
      exact e2

/-! ## C181 -/

/-- **C181, whatever was done before.** After any sequence of moves, changes of mesh and computations of the boundary, every computation ended, no tag is left, and
`GetBoundaryPolygonSet` gives the boundary polygons of the mesh as it is now, where it is now: those that a new mesh with the same half-edges and
positions finds. -/
theorem C181_history (turns : ℕ) (m : HMesh) (nv : ℕ) (pos : ℕ → V3) (hm : Fits turns m) (ops : List MeshOp)
    (ho : ∀ m' nv' pos', MeshOp.replace m' nv' pos' ∈ ops → Fits turns m') :
    ∃ o s o', (Obj.fresh m nv pos).run turns ops = some o ∧ (o.m, o.pos) = current (m, pos) ops ∧ (o.tag = fun _ => false) ∧
      o.getPolygons turns = some (o', s) ∧ (Obj.fresh o.m o.nv o.pos).getPolygons turns = some (o', s) := by
  have key : ∀ (ops : List MeshOp) (o : Obj), o.Good turns → (∀ m' nv' pos', MeshOp.replace m' nv' pos' ∈ ops → Fits turns m') →
      ∃ o', o.run turns ops = some o' ∧ o'.Good turns ∧ (o'.m, o'.pos) = current (o.m, o.pos) ops := by
    intro ops
    induction ops with
    | nil => intro o h _; exact ⟨o, rfl, h, rfl⟩
    | cons op ops ih =>
      intro o h hops
      have hrest : ∀ m' nv' pos', MeshOp.replace m' nv' pos' ∈ ops → Fits turns m' := fun a b c hh => hops a b c (List.mem_cons_of_mem _ hh)
      have hnone : ∀ o' : Obj, Fits turns o'.m → (o'.tag = fun _ => false) → o'.cache = none → o'.Good turns := by
        intro o' a b c
        refine ⟨a, b, fun s hs => ?_⟩
        rw [c] at hs
        cases hs
      cases op with
      | translate t =>
        obtain ⟨o', e1, e2, e3⟩ := ih (o.translate t) (hnone _ h.1 h.2.1 rfl) hrest
        exact ⟨o', e1, e2, e3⟩
      | rotate R =>
        obtain ⟨o', e1, e2, e3⟩ := ih (o.rotate R) (hnone _ h.1 h.2.1 rfl) hrest
        exact ⟨o', e1, e2, e3⟩
      | replace m' nv' pos' =>
        obtain ⟨o', e1, e2, e3⟩ := ih (o.replace m' nv' pos') (hnone _ (hops m' nv' pos' (List.mem_cons_self)) rfl rfl) hrest
        exact ⟨o', e1, e2, e3⟩
      | polygons =>
        obtain ⟨o1, s, g1, g2, g3, g4, g5⟩ := getPolygons_good h
        obtain ⟨o', e1, e2, e3⟩ := ih o1 g3 hrest
        refine ⟨o', ?_, e2, ?_⟩
        · show ((o.getPolygons turns).map Prod.fst).bind _ = _
          rw [g1]
          exact e1
        · rw [e3, g4, g5]
          rfl
  obtain ⟨o, e1, e2, e3⟩ := key ops (Obj.fresh m nv pos) ⟨hm, rfl, by intro s hs; cases hs⟩ ho
  obtain ⟨l, f1, f2⟩ := polygonsOf_some e2.1 o.pos
  obtain ⟨mo, nvo, poso, tago, cacheo⟩ := o
  have ht : tago = fun _ => false := e2.2.1
  subst ht
  have hf : (Obj.fresh mo nvo poso).getPolygons turns =
      some (⟨mo, nvo, poso, fun _ => false, some (l.map fun l => l.map poso)⟩, l.map fun l => l.map poso) := by
    show (mo.calcBoundary turns fun _ => false).map _ = _
    rw [f1]
    rfl
  refine ⟨_, _, _, e1, e3, rfl, ?_, hf⟩
  cases cacheo with
  | none => exact hf
  | some s =>
    have := e2.2.2 s rfl
    have h2 : polygonsOf turns mo poso = some (l.map fun l => l.map poso) := f2
    rw [h2] at this
    cases this
    rfl

/-- **C181, closed meshes.** When `IsWatertight` holds, the volume computed is the volume enclosed, from whatever point, and the vector areas of the faces cancel: a uniform pressure has no resultant. -/
theorem C181_closed (m : HMesh) (w : m.WF) (hw : m.isWatertight = true) (nv : ℕ) (pos : ℕ → V3) (j : List V3 → Junk) (O : V3) :
    (m.toSMesh nv pos []).getVolume j = some (volInt (fun _ => 1) O (m.toSMesh nv pos []).tris) ∧
    meshedN (m.toSMesh nv pos []).tris .one = 0 := by
  obtain ⟨loops, h1, h2⟩ := HMesh.C181_boundary m w (m.n + 1) (Nat.lt_succ_self _) nv pos
  have h3 := (HMesh.C181_watertight m w (m.n + 1) (Nat.lt_succ_self _)).2.mp hw
  rw [h1] at h3
  have hl : loops = [] := (Prod.mk.inj (Option.some.inj h3)).2
  subst hl
  have hg : Surface.Good (m.toSMesh nv pos []) := ⟨h2, by intro l hl; cases hl⟩
  have hc : (m.toSMesh nv pos []).closedUp = (m.toSMesh nv pos []).tris := by
    unfold SMesh.closedUp SMesh.rings
    show _ ++ List.flatMap fan ([].map _) = _
    simp
  refine ⟨by rw [← hc]; exact C71_volume _ hg j O, ?_⟩
  have hi : ∀ i : Fin 3, coord i (meshedN (m.toSMesh nv pos []).tris .one) = 0 := by
    intro i
    rw [meshedN_eq _ .one trivial i]
    have := closedUp_sum _ h2 (fun p q => coord i (V3.cross p q) / 2) (by
      intro a b
      fin_cases i <;> simp [coord] <;> ring)
    rw [hc] at this
    rw [← this]
    congr 1
    refine List.map_congr_left fun t _ => ?_
    have hs : simplex Poly.one.eval t = 1 / 2 := simplex_const 1 t
    unfold flux cyc normalVec
    rw [hs]
    fin_cases i <;> simp [coord] <;> ring
  ext
  · exact hi 0
  · exact hi 1
  · exact hi 2

/-- **C181, drawn meshes.** The converted mesh has the vertices and the faces of the mesh, each face with the same vertices turned the same way. -/
theorem C181_convert (m : HMesh) (w : m.WF) (nv : ℕ) (pos : ℕ → V3) (hv : ∀ h, m.src h < nv) :
    (∀ v < nv, (m.convert nv pos).verts[v]? = some (pos v)) ∧ (m.convert nv pos).verts.length = nv ∧
    (m.convert nv pos).faces = (m.toSMesh nv pos []).faces.map (fun f => ((f.turned 1).a, (f.turned 1).b, (f.turned 1).c)) ∧
    ∀ f ∈ (m.convert nv pos).faces, f.1 < nv ∧ f.2.1 < nv ∧ f.2.2 < nv := by
  have hd : ∀ h, m.dst h < nv := fun h => by rw [← w.next_src]; exact hv _
  refine ⟨?_, by simp [HMesh.convert], ?_, ?_⟩
  · intro v hvn
    simp [HMesh.convert, hvn]
  · unfold HMesh.convert HMesh.toSMesh
    rw [List.map_map]
    refine List.map_congr_left fun f _ => ?_
    show _ = (_, _, _)
    rw [← w.next_src, ← w.next_src, ← w.next_src, w.triangle]
    rfl
  · intro f hf
    obtain ⟨g, -, rfl⟩ := List.mem_map.mp hf
    exact ⟨hd _, hd _, hd _⟩

/-! ## Non-vacuity: a tetrahedron without its base, and the whole tetrahedron -/

/-- A tetrahedron of vertices 0 to 3: half-edges 3f, 3f + 1, 3f + 2 go round the face f; with `cut` the face 3 (the base 0, 2, 1) is missing, and
its half-edges are the boundary. -/
def tetra (cut : Bool) : HMesh where
  n := 12
  src := ![0, 1, 3, 1, 2, 3, 2, 0, 3, 0, 2, 1]
  dst := ![1, 3, 0, 2, 3, 1, 0, 3, 2, 2, 1, 0]
  next := ![1, 2, 0, 4, 5, 3, 7, 8, 6, 10, 11, 9]
  opp := ![11, 5, 7, 10, 8, 1, 9, 2, 4, 6, 3, 0]
  face := ![some 0, some 0, some 0, some 1, some 1, some 1, some 2, some 2, some 2,
    if cut then none else some 3, if cut then none else some 3, if cut then none else some 3]
  nf := if cut then 3 else 4
  he := fun f => ⟨3 * f.1, by have := f.2; split_ifs at this <;> omega⟩

theorem tetra_cut_wf : (tetra true).WF where
  next_inj := by unfold tetra; decide
  next_src := by unfold tetra; decide
  next_face := by unfold tetra; decide
  opp_opp := by unfold tetra; decide
  opp_src := by unfold tetra; decide
  edge_face := by unfold tetra; decide
  he_face := by unfold tetra; decide
  triangle := by unfold tetra; decide
  proper := by unfold tetra; decide
  in_face := by
    intro h f hf
    have hlt : f < 3 := by
      revert hf
      revert h
      unfold tetra
      intro h hf
      fin_cases h <;> simp at hf <;> omega
    have key : ∀ (f : Fin (tetra true).nf) (h : Fin (tetra true).n), (tetra true).face h = some f.1 →
        h = (tetra true).he f ∨ h = (tetra true).next ((tetra true).he f) ∨ h = (tetra true).next ((tetra true).next ((tetra true).he f)) := by
      unfold tetra; decide
    exact ⟨hlt, key ⟨f, hlt⟩ h hf⟩

theorem tetra_wf : (tetra false).WF where
  next_inj := by unfold tetra; decide
  next_src := by unfold tetra; decide
  next_face := by unfold tetra; decide
  opp_opp := by unfold tetra; decide
  opp_src := by unfold tetra; decide
  edge_face := by unfold tetra; decide
  he_face := by unfold tetra; decide
  triangle := by unfold tetra; decide
  proper := by unfold tetra; decide
  in_face := by
    intro h f hf
    have hlt : f < 4 := by
      revert hf
      revert h
      unfold tetra
      intro h hf
      fin_cases h <;> simp at hf <;> omega
    have key : ∀ (f : Fin (tetra false).nf) (h : Fin (tetra false).n), (tetra false).face h = some f.1 →
        h = (tetra false).he f ∨ h = (tetra false).next ((tetra false).he f) ∨ h = (tetra false).next ((tetra false).next ((tetra false).he f)) := by
      unfold tetra; decide
    exact ⟨hlt, key ⟨f, hlt⟩ h hf⟩

/-- Both kinds of mesh exist: the cut tetrahedron is not watertight, the whole one is. -/
example : (tetra true).isWatertight = false ∧ (tetra false).isWatertight = true := by
  unfold tetra
  constructor <;> decide

example (pos : ℕ → V3) (t : V3) : Fits 13 (tetra true) ∧ ∃ o s o',
    (Obj.fresh (tetra true) 4 pos).run 13 [.polygons, .translate t, .replace (tetra false) 4 pos] = some o ∧
      (o.m, o.pos) = (tetra false, pos) ∧ o.getPolygons 13 = some (o', s) := by
  have h1 : Fits 13 (tetra true) := ⟨tetra_cut_wf, show 12 < 13 by norm_num⟩
  refine ⟨h1, ?_⟩
  obtain ⟨o, s, o', a, b, -, c, -⟩ := C181_history 13 (tetra true) 4 pos h1 [.polygons, .translate t, .replace (tetra false) 4 pos] (by
    intro m' nv' pos' h
    simp at h
    rw [h.1]
    exact ⟨tetra_wf, show 12 < 13 by norm_num⟩)
  exact ⟨o, s, o', a, b, c⟩

end Frydom.Mesh
