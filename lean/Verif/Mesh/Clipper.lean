import Verif.Mesh.Plane

/-!
# Model of `mesh::FrMeshClipper` (src/frydom/mesh/FrMeshClipper.{h,cpp})

A triangular OpenMesh mesh is: numbered vertices (position and `VertexPosition` flag), and the list of its faces (triples of
vertex numbers) in handle order. OpenMesh itself is not part of /repo; what the clipper uses of it is modelled by what it
guarantees on a manifold triangle mesh:
* `add_vertex` returns the next vertex number; `new_face` the next face number;
* `split(edge, v)` replaces every face (a,b,c) having the edge by its two halves, one of which keeps the handle of the face;
  the half that keeps it is the one at the end of half-edge 0 of the edge (TriConnectivity::split);
* the circulators of a face list its three vertices (half-edges, edges) in order, from an unspecified first one;
* the circulator of the outgoing half-edges of a vertex lists its neighbours in an unspecified order.
What is unspecified is a parameter (`Choices`) over which every theorem quantifies.
`none` is a failed assertion, a past-the-end iterator, or (fuel exhausted) a run that has not ended yet.
-/

open Classical

noncomputable section

namespace Frydom.Mesh
open Geom

namespace Clip

/-- `VertexPosition` (FrMeshTraits.h:51-56). -/
inductive VP | above | on | under

/-- A triangle: three vertex numbers in order. -/
structure Face where
  a : ℕ
  b : ℕ
  c : ℕ

/-- `FrClippingSurface` (FrMeshClipper.h:96-120): signed distance, intersection with an edge (`none`: assertion failure). -/
structure Surf where
  dist : V3 → ℝ
  inter : V3 → V3 → Option V3

/-- m_Threshold, m_ProjectionThresholdRatio (FrMeshClipper.h:176-177). -/
structure Params where
  thr : ℝ
  ratio : ℝ

/-- What OpenMesh leaves unspecified: `half0 a b`: half-edge 0 of the edge {a,b} goes from a to b; `turn`: the first vertex of
the circulators of a face; `ring`: the order in which the neighbours of a vertex are listed. -/
structure Choices where
  half0 : ℕ → ℕ → Bool
  turn : Face → Fin 3
  ring : List ℕ → List ℕ

/-- The mesh and c_FacesToDelete (FrMeshClipper.h:169-183). -/
structure TMesh where
  nv : ℕ
  pos : ℕ → V3
  flag : ℕ → VP
  faces : List Face
  del : List ℕ

/-- The vertex is one of the face's. -/
def Face.has (f : Face) (v : ℕ) : Prop := v = f.a ∨ v = f.b ∨ v = f.c
/-- The face has the edge. -/
def Face.hasEdge (f : Face) (u w : ℕ) : Prop := f.has u ∧ f.has w
/-- The face with vertex `y` replaced by `v`. -/
def Face.subst (f : Face) (y v : ℕ) : Face :=
  ⟨if f.a = y then v else f.a, if f.b = y then v else f.b, if f.c = y then v else f.c⟩
/-- `fv_iter` from the first vertex chosen by OpenMesh. -/
def Face.turned (f : Face) : Fin 3 → Face
  | 0 => f
  | 1 => ⟨f.b, f.c, f.a⟩
  | 2 => ⟨f.c, f.a, f.b⟩

/-- `ClassifyVertex` (FrMeshClipper.cpp:305-323). -/
def classify (S : Surf) (P : Params) (p : V3) : VP :=
  if |S.dist p| < P.thr then .on else if S.dist p > 0 then .above else .under

/-- Counting in `ClassifyFace` (FrMeshClipper.cpp:334-344). -/
def one (p : Prop) : ℕ := if p then 1 else 0
def nAbove (m : TMesh) (f : Face) : ℕ :=
  one (m.flag f.a = .above) + one (m.flag f.b = .above) + one (m.flag f.c = .above)
def nUnder (m : TMesh) (f : Face) : ℕ :=
  one (m.flag f.a = .under) + one (m.flag f.b = .under) + one (m.flag f.c = .under)

/-- `FacePositionType` (FrMeshClipper.h:32-92). -/
inductive FPT | p003 | p012 | p021 | p030 | p102 | p111 | p120 | p201 | p210 | p300

/-- `ClassifyFace` (FrMeshClipper.cpp:346-376). -/
def classifyFace (m : TMesh) (f : Face) : FPT :=
  if nAbove m f = 0 then
    if nUnder m f = 0 then .p030 else if nUnder m f = 1 then .p021 else if nUnder m f = 2 then .p012 else .p003
  else if nAbove m f = 1 then
    if nUnder m f = 0 then .p120 else if nUnder m f = 1 then .p111 else .p102
  else if nAbove m f = 2 then
    if nUnder m f = 0 then .p210 else .p201
  else .p300

/-- `IsEdgeCrossing`, `IsHalfEdgeCrossing` (FrMeshClipper.cpp:529-554): from the distances, not from the flags. -/
def crossing (S : Surf) (P : Params) (p q : V3) : Prop :=
  ¬ (|S.dist p| < P.thr ∨ |S.dist q| < P.thr) ∧ S.dist p * S.dist q < 0
/-- `IsHalfEdgeDownCrossing` (FrMeshClipper.cpp:556-569). -/
def downCrossing (S : Surf) (P : Params) (p q : V3) : Prop :=
  ¬ (|S.dist p| < P.thr ∨ |S.dist q| < P.thr) ∧ (S.dist p > 0 ∧ S.dist q < 0)
/-- `IsHalfEdgeUpCrossing` (FrMeshClipper.cpp:571-584). -/
def upCrossing (S : Surf) (P : Params) (p q : V3) : Prop :=
  ¬ (|S.dist p| < P.thr ∨ |S.dist q| < P.thr) ∧ (S.dist p < 0 ∧ S.dist q > 0)

/-- The neighbours of a vertex (targets of its outgoing half-edges, `voh_iter`). -/
def neighbours (m : TMesh) (v : ℕ) : List ℕ :=
  (m.faces.filter (fun f => f.has v)).flatMap fun f => [f.a, f.b, f.c].filter (fun w => w ≠ v)

/-- The loop over the outgoing half-edges of a vertex in `HasProjection` (FrMeshClipper.cpp:259-289). `best` is
(Pi_final, distMin) once an intersection has been retained (anyVertexProjected). The initial distMin, 1e10, is taken as
infinite. -/
def scan (S : Surf) (P : Params) (m : TMesh) (v : ℕ) : List ℕ → Option (V3 × ℝ) → Option (Option (V3 × ℝ))
  | [], best => some best
  | w :: ws, best =>
    if crossing S P (m.pos v) (m.pos w) then
      (S.inter (m.pos v) (m.pos w)).bind fun I =>
        let dist := V3.norm (I - m.pos v)
        if dist < V3.norm (m.pos w - m.pos v) * P.ratio then
          scan S P m v ws (match best with
            | none => some (I, dist)
            | some b => if dist < b.2 then some (I, dist) else some b)
        else scan S P m v ws best
    else scan S P m v ws best

/-- The loop over the vertices of the face in `HasProjection` (FrMeshClipper.cpp:248-302): the first vertex to project, and
where. -/
def hasProjection (S : Surf) (P : Params) (C : Choices) (m : TMesh) : List ℕ → Option (Option (ℕ × V3))
  | [] => some none
  | v :: vs =>
    (scan S P m v (C.ring (neighbours m v)) none).bind fun r =>
      match r with
      | some b => some (some (v, b.1))
      | none => hasProjection S P C m vs

/-- Placing a vertex on the surface (FrMeshClipper.cpp:294-299). -/
def project (m : TMesh) (v : ℕ) (I : V3) : TMesh :=
  { m with pos := Function.update m.pos v I, flag := Function.update m.flag v .on }

/-- `InsertIntersectionVertex` then `split` (FrMeshClipper.cpp:500-503, 612-628). -/
def insertSplit (C : Choices) (m : TMesh) (u w : ℕ) (I : V3) : TMesh :=
  let v := m.nv
  let y := if C.half0 u w then u else w
  let x := if C.half0 u w then w else u
  { m with
    nv := m.nv + 1
    pos := Function.update m.pos v I
    flag := Function.update m.flag v .on
    faces := m.faces.map (fun f => if f.hasEdge u w then f.subst y v else f) ++
      (m.faces.filter (fun f => f.hasEdge u w)).map (fun f => f.subst x v) }

/-- `FlagVertexAdjacentFacesToBeDeleted` (FrMeshClipper.cpp:517-527): the numbers of the faces around `v` of class 120, 210
or 030. -/
def dryAround (m : TMesh) (v : ℕ) : List ℕ :=
  (List.range m.faces.length).filter fun j => ∃ f, m.faces[j]? = some f ∧ f.has v ∧
    (classifyFace m f = .p120 ∨ classifyFace m f = .p210 ∨ classifyFace m f = .p030)

/-- `ProcessHalfEdge` (FrMeshClipper.cpp:493-508). -/
def processHalfEdge (S : Surf) (C : Choices) (m : TMesh) (u w : ℕ) : Option TMesh :=
  (S.inter (m.pos u) (m.pos w)).map fun I =>
    let m1 := insertSplit C m u w I
    { m1 with del := m1.del ++ dryAround m1 m.nv }

/-- `FindDowncrossingHalfEdge` (FrMeshClipper.cpp:598-610): stops at the third half-edge whatever it is. -/
def findDown (S : Surf) (P : Params) (m : TMesh) (f : Face) : ℕ × ℕ :=
  if downCrossing S P (m.pos f.a) (m.pos f.b) then (f.a, f.b)
  else if downCrossing S P (m.pos f.b) (m.pos f.c) then (f.b, f.c)
  else (f.c, f.a)
/-- `FindUpcrossingHalfEdge` (FrMeshClipper.cpp:586-596): turns for ever (`none`) if there is none. -/
def findUp (S : Surf) (P : Params) (m : TMesh) (f : Face) : Option (ℕ × ℕ) :=
  if upCrossing S P (m.pos f.a) (m.pos f.b) then some (f.a, f.b)
  else if upCrossing S P (m.pos f.b) (m.pos f.c) then some (f.b, f.c)
  else if upCrossing S P (m.pos f.c) (m.pos f.a) then some (f.c, f.a)
  else none
/-- The loop over the edges in case 111 (FrMeshClipper.cpp:441-448): past the end (`none`) if no edge crosses. -/
def findEdge (S : Surf) (P : Params) (m : TMesh) (f : Face) : Option (ℕ × ℕ) :=
  if crossing S P (m.pos f.a) (m.pos f.b) then some (f.a, f.b)
  else if crossing S P (m.pos f.b) (m.pos f.c) then some (f.b, f.c)
  else if crossing S P (m.pos f.c) (m.pos f.a) then some (f.c, f.a)
  else none

/-- The clipping of a face of class 102 or 201 (FrMeshClipper.cpp:421-428, 467-471). -/
def clipTwo (S : Surf) (P : Params) (C : Choices) (m : TMesh) (f : Face) : Option TMesh :=
  let d := findDown S P m f
  (findUp S P m f).bind fun u =>
    (processHalfEdge S C m d.1 d.2).bind fun m1 => processHalfEdge S C m1 u.1 u.2
/-- The clipping of a face of class 111 (FrMeshClipper.cpp:441-448), from half-edge 0 of the edge. -/
def clipOne (S : Surf) (P : Params) (C : Choices) (m : TMesh) (f : Face) : Option TMesh :=
  (findEdge S P m f).bind fun e =>
    if C.half0 e.1 e.2 then processHalfEdge S C m e.1 e.2 else processHalfEdge S C m e.2 e.1

/-- `ProcessFace` (FrMeshClipper.cpp:381-491) on face number `i`. -/
def processFace (S : Surf) (P : Params) (C : Choices) : ℕ → TMesh → ℕ → Option TMesh
  | 0, _, _ => none
  | n + 1, m, i =>
    (m.faces[i]?).bind fun f0 =>
      let f := f0.turned (C.turn f0)
      match classifyFace m f with
      | .p003 | .p012 | .p021 => some m
      | .p030 | .p120 | .p210 | .p300 => some { m with del := m.del ++ [i] }
      | .p102 | .p201 =>
        (hasProjection S P C m [f.a, f.b, f.c]).bind fun r =>
          match r with
          | some vI => processFace S P C n (project m vI.1 vI.2) i
          | none => clipTwo S P C m f
      | .p111 =>
        (hasProjection S P C m [f.a, f.b, f.c]).bind fun r =>
          match r with
          | some vI => processFace S P C n (project m vI.1 vI.2) i
          | none => clipOne S P C m f

/-- `Clip` (FrMeshClipper.cpp:215-225): the loop also visits the faces appended meanwhile. -/
def clipLoop (S : Surf) (P : Params) (C : Choices) : ℕ → TMesh → ℕ → Option TMesh
  | 0, _, _ => none
  | n + 1, m, i =>
    if i < m.faces.length then (processFace S P C (n + 1) m i).bind fun m1 => clipLoop S P C n m1 (i + 1)
    else some m

/-- A mesh as given to the clipper: number of vertices, positions, faces. -/
structure Input where
  nv : ℕ
  pos : ℕ → V3
  faces : List Face

/-- `Initialize`, `ClassifyVertices` (FrMeshClipper.cpp:178-209). c_FacesToDelete is empty between two runs (line 644). -/
def start (S : Surf) (P : Params) (M : Input) : TMesh :=
  ⟨M.nv, M.pos, fun v => classify S P (M.pos v), M.faces, []⟩

/-- `ApplyFaceDeletion` and `garbage_collection` (FrMeshClipper.cpp:638-656): the faces whose number is not in
c_FacesToDelete. -/
def remaining (m : TMesh) : List Face :=
  ((List.range m.faces.length).filter (fun j => j ∉ m.del)).filterMap fun j => m.faces[j]?

/-- The three corners of a triangle. -/
structure Tri where
  p : V3
  q : V3
  r : V3
def triOf (pos : ℕ → V3) (f : Face) : Tri := ⟨pos f.a, pos f.b, pos f.c⟩

/-- `Apply` (FrMeshClipper.cpp:151-164): the triangles of the mesh afterwards. -/
def apply (S : Surf) (P : Params) (C : Choices) (n : ℕ) (M : Input) : Option (List Tri) :=
  (clipLoop S P C n (start S P M) 0).map fun m => (remaining m).map (triOf m.pos)

/-- The horizontal part of a position (FrMeshClipper.cpp:46-47, 71-72, 135-136). -/
def horiz (b : V3) : V3 := ⟨b.x, b.y, 0⟩

/-- `FrClippingPlane` (FrMeshClipper.cpp:23-79) with its body position (line 17-19). `intersect` (Mesh.Plane) is the same
formula, with the same two assertions, as lines 32-58. -/
def planeSurf (pl : Plane) (body : V3) : Surf where
  dist p := V3.dot (p - (pl.getOrigin .NWU - horiz body)) (pl.getNormal .NWU)
  inter p q := intersect (pl.getOrigin .NWU - horiz body) (pl.getNormal .NWU) p q

/-- The dichotomy loop (FrMeshClipper.cpp:102-127), with the number of iterations left. The test of line 116, after the
update of the bounds, is made first here: the bounds are not read again when it succeeds. When no iteration is left:
Pout = (0,0,0). -/
def bisect (d : V3 → ℝ) (p0 p1 : V3) (z1 : ℝ) : ℕ → ℝ → ℝ → V3
  | 0, _, _ => 0
  | k + 1, s0, s1 =>
    let s := (1 / 2) * (s0 + s1)
    let p := s • p1 + (1 - s) • p0
    let dz := d p
    if |dz| ≤ 1e-4 then p
    else if (dz > 0 ∧ z1 > 0) ∨ (dz ≤ 0 ∧ z1 ≤ 0) then bisect d p0 p1 z1 k s0 s
    else bisect d p0 p1 z1 k s s1

/-- `FrClippingWaveSurface::GetDistance` (FrMeshClipper.cpp:130-141); `eta x y`: `FrFreeSurface::GetPosition` in NWU
(FrFreeSurface.cpp:55-61). -/
def waveDist (eta : ℝ → ℝ → ℝ) (body p : V3) : ℝ :=
  let t := p + horiz body
  t.z - eta t.x t.y

/-- `FrClippingWaveSurface` (FrMeshClipper.cpp:87-141); m_ThresholdDichotomy = 1e-4 (FrMeshClipper.h:152-158). -/
def waveSurf (eta : ℝ → ℝ → ℝ) (body : V3) : Surf where
  dist := waveDist eta body
  inter p q := some (
    if |waveDist eta body p| ≤ 1e-4 then p
    else if |waveDist eta body q| ≤ 1e-4 then q
    else bisect (waveDist eta body) p q (waveDist eta body q) 1001 0 1)

end Clip

end Frydom.Mesh
