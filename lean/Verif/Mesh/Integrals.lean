import Verif.Mesh.Clipper
import Verif.Mesh.Props
import Verif.Inertia.Model

/-!
# Model of `mesh::FrMesh` (src/frydom/mesh/FrMesh.cpp, FrMeshTraits.h): face integrals, area, volume, centre, inertia

A mesh is numbered vertices and the list of its triangles, as in `Mesh.Clipper`, with the loops of its boundary half-edges.
OpenMesh (external) gives the unit normals (zero for a flat face), the first half-edge of a face (`first`, unspecified) and the
loops of boundary half-edges (`loops`; `IsBoundary` in `IntegralsProps` is what OpenMesh guarantees on them).
-/

open Classical

noncomputable section

namespace Frydom.Mesh
open Geom Inertia

namespace Surface
open Clip

/-- The integrands available on a face (FrMeshTraits.h:29-47, 137-240). -/
inductive Poly | one | x | y | z | yz | xz | xy | x2 | y2 | z2 | x3 | y3 | z3 | x2y | y2z | z2x

/-- `f1`, `f2`, `f3`, `g0`.. of `CalcFacePolynomialIntegrals` for one coordinate (FrMesh.cpp:500-509). -/
def F1 (a b c : ℝ) : ℝ := a + b + c
def F2 (a b c : ℝ) : ℝ := a * a + b * (a + b) + c * F1 a b c
def F3 (a b c : ℝ) : ℝ := a * (a * a) + b * (a * a + b * (a + b)) + c * F2 a b c
def G0 (a b c : ℝ) : ℝ := F2 a b c + a * (F1 a b c + a)
def G1 (a b c : ℝ) : ℝ := F2 a b c + b * (F1 a b c + b)
def G2 (a b c : ℝ) : ℝ := F2 a b c + c * (F1 a b c + c)

/-- The mixed products (FrMesh.cpp:519-527) for two coordinates. -/
def codeMixed (a0 b0 a1 b1 a2 b2 : ℝ) : ℝ :=
  6 * a0 * b0 + 3 * (a1 * b1 + a2 * b2) - a0 * F1 b0 b1 b2 - b0 * F1 a0 a1 a2

/-- `CalcFacePolynomialIntegrals` (FrMesh.cpp:469-541): the value stored for a face whose vertices are, from its first
half-edge on, P0, P1, P2. -/
def faceIntegral (t : Tri) : Poly → ℝ :=
  let P0 := t.p
  let P1 := t.q
  let P2 := t.r
  let delta := V3.norm (V3.cross (P1 - P0) (P2 - P0))
  fun
  | .one => delta / 2
  | .x => delta * F1 P0.x P1.x P2.x / 6
  | .y => delta * F1 P0.y P1.y P2.y / 6
  | .z => delta * F1 P0.z P1.z P2.z / 6
  | .yz => delta * codeMixed P0.y P0.z P1.y P1.z P2.y P2.z / 12
  | .xz => delta * codeMixed P0.x P0.z P1.x P1.z P2.x P2.z / 12
  | .xy => delta * codeMixed P0.x P0.y P1.x P1.y P2.x P2.y / 12
  | .x2 => delta * F2 P0.x P1.x P2.x / 12
  | .y2 => delta * F2 P0.y P1.y P2.y / 12
  | .z2 => delta * F2 P0.z P1.z P2.z / 12
  | .x3 => delta * F3 P0.x P1.x P2.x / 20
  | .y3 => delta * F3 P0.y P1.y P2.y / 20
  | .z3 => delta * F3 P0.z P1.z P2.z / 20
  | .x2y => delta * (P0.y * G0 P0.x P1.x P2.x + P1.y * G1 P0.x P1.x P2.x + P2.y * G2 P0.x P1.x P2.x) / 60
  | .y2z => delta * (P0.z * G0 P0.y P1.y P2.y + P1.z * G1 P0.y P1.y P2.y + P2.z * G2 P0.y P1.y P2.y) / 60
  | .z2x => delta * (P0.x * G0 P0.z P1.z P2.z + P1.x * G1 P0.z P1.z P2.z + P2.x * G2 P0.z P1.z P2.z) / 60

/-- `update_normals` (external): unit normal of a face, zero if the face is flat. -/
def faceNormal (t : Tri) : V3 := V3.normalized (V3.cross (t.q - t.p) (t.r - t.p))

/-- Vertices, triangles, boundary loops (each from the origin of a boundary half-edge round to it again, FrMesh.cpp:899-922). -/
structure SMesh where
  nv : ℕ
  pos : ℕ → V3
  faces : List Face
  first : Face → Fin 3
  loops : List (List ℕ)

/-- The faces as the integrals read them: from their first half-edge. -/
def SMesh.tris (M : SMesh) : List Tri := M.faces.map fun f => triOf M.pos (f.turned (M.first f))
/-- The loops with their positions. -/
def SMesh.rings (M : SMesh) : List (List V3) := M.loops.map fun l => l.map M.pos

/-- `GetMeshedSurfaceIntegral(type)` (FrMesh.cpp:869-877). -/
def meshed (T : List Tri) (k : Poly) : ℝ := (T.map fun t => faceIntegral t k).sum
/-- `GetMeshedSurfaceIntegral(iNormal, type)` (FrMesh.cpp:857-866), for the three components of the normal. -/
def meshedN (T : List Tri) (k : Poly) : V3 :=
  ⟨(T.map fun t => (faceNormal t).x * faceIntegral t k).sum, (T.map fun t => (faceNormal t).y * faceIntegral t k).sum,
    (T.map fun t => (faceNormal t).z * faceIntegral t k).sum⟩

/-- A boundary polygon with the plane that `GetPlane` builds anew at each call (FrPolygon.cpp:178-180). -/
structure Cap where
  poly : Polygon
  plane : Plane
/-- `CalcBoundaryPolygonSet` (FrMesh.cpp:887-938): one `FrPolygon` per loop; `j` are its uninitialised accumulators.
`none`: an assertion of `FrPolygon` or `FrPlane` fails. -/
def mkCap (j : List V3 → Junk) (l : List V3) : Option Cap :=
  (Polygon.new (j l) l .NWU).bind fun p => (planeOf p.vertices).map fun pl => ⟨p, pl⟩
def mkCaps (j : List V3 → Junk) : List (List V3) → Option (List Cap)
  | [] => some []
  | l :: ls => (mkCap j l).bind fun c => (mkCaps j ls).map fun cs => c :: cs

/-- `e`: distance of the plane to the origin (FrMesh.cpp:608, 647, 797). -/
def Cap.e (c : Cap) : ℝ := V3.dot (c.plane.frame.getPosition .NWU) (c.plane.getNormal .NWU)
/-- `GetInverseRotationMatrix` of the frame of the plane (FrMesh.cpp:610-611, 648, 798). -/
def Cap.R (c : Cap) : M3 := invRotMat c.plane.frame.rot
def Cap.n (c : Cap) : V3 := c.plane.getNormal .NWU
/-- The integral of the polygon. -/
def Cap.i (c : Cap) (t : Integrand) : ℝ := c.poly.getSurfaceIntegral t

/-- Contribution of a boundary polygon to the volume (FrMesh.cpp:603-615). -/
def Cap.volume (c : Cap) : ℝ :=
  c.n.z * (c.e * c.n.z * c.i .one + c.R.a02 * c.i .x + c.R.a12 * c.i .y)
/-- `GetVolume` (FrMesh.cpp:596-620). -/
def volumeOf (T : List Tri) (cs : List Cap) : ℝ := (meshedN T .z).z + (cs.map Cap.volume).sum

/-- `Gcorr`, then multiplied by the normal (FrMesh.cpp:808-824). -/
def Cap.moment (c : Cap) : V3 :=
  let q (r0 r1 n : ℝ) : ℝ := r0 * r0 * c.i .x2 + r1 * r1 * c.i .y2 + c.e * c.e * n * n * c.i .one + 2 * r0 * r1 * c.i .xy +
    2 * c.e * n * (r0 * c.i .x + r1 * c.i .y)
  ⟨q c.R.a00 c.R.a10 c.n.x * c.n.x, q c.R.a01 c.R.a11 c.n.y * c.n.y, q c.R.a02 c.R.a12 c.n.z * c.n.z⟩
def sumV : List V3 → V3
  | [] => 0
  | a :: l => a + sumV l
/-- `GetCOG` (FrMesh.cpp:776-828). -/
def cogOf (T : List Tri) (cs : List Cap) : V3 :=
  let inv := 0.5 / volumeOf T cs
  (⟨(meshedN T .x2).x * inv, (meshedN T .y2).y * inv, (meshedN T .z2).z * inv⟩ : V3) + sumV (cs.map fun c => inv • c.moment)

/-- `GetMeshedSurfaceArea`, `GetArea` (FrMesh.cpp:573-594). -/
def meshedArea (T : List Tri) : ℝ := meshed T .one
def areaOf (T : List Tri) (cs : List Cap) : ℝ := meshedArea T + (cs.map fun c => c.poly.getArea).sum

/-- The polygon's part of the squares in `GetPlainInertiaTensor` (FrMesh.cpp:652-671), for normal component `n` and column
`r0`, `r1` of the matrix. -/
def Cap.square (c : Cap) (n r0 r1 : ℝ) : ℝ :=
  n * (1 / 3) * (r0 ^ 3 * c.i .x3 + r1 ^ 3 * c.i .y3 + 3 * r0 ^ 2 * r1 * c.i .x2y + 3 * r1 ^ 2 * r0 * c.i .y2x)
    + c.e * n ^ 2 * (r0 ^ 2 * c.i .x2 + r1 ^ 2 * c.i .y2 + 2 * r0 * r1 * c.i .xy)
    + c.e * c.e * n ^ 3 * (r0 * c.i .x + r1 * c.i .y) + 1 / 3 * c.e * c.e * c.e * n ^ 4 * c.i .one
/-- The polygon's part of the products (FrMesh.cpp:674-696 for xy, 698-720 for yz, 722-744 for zx, the same formula on the
columns (0,1), (1,2), (2,0)). -/
def Cap.product (c : Cap) (n m r0 r1 s0 s1 : ℝ) : ℝ :=
  n * (r0 ^ 2 * s0 * c.i .x3 + r1 ^ 2 * s1 * c.i .y3
    + (r0 ^ 2 * s1 + 2 * r0 * s0 * r1) * c.i .x2y + (s0 ^ 2 * r1 + 2 * r0 * r1 * s1) * c.i .y2x
    + c.e * ((r0 ^ 2 * m + 2 * r0 * s0 * n) * c.i .x2 + (r1 ^ 2 * m + 2 * r1 * s1 * n) * c.i .y2
      + 2 * (r0 * r1 * m + s0 * r1 * n + r0 * s1 * n) * c.i .xy)
    + c.e * c.e * n * ((s0 * n + 2 * r0 * m) * c.i .x + (s1 * n + 2 * r1 * m) * c.i .y)
    + c.e * c.e * c.e * n ^ 2 * m * c.i .one)

/-- The coefficients of `GetPlainInertiaTensor` at the origin of the mesh (FrMesh.cpp:622-758). -/
def plainCoeffs (density : ℝ) (T : List Tri) (cs : List Cap) : Coeffs :=
  let x2 := 1 / 3 * (meshedN T .x3).x + (cs.map fun c => c.square c.n.x c.R.a00 c.R.a10).sum
  let y2 := 1 / 3 * (meshedN T .y3).y + (cs.map fun c => c.square c.n.y c.R.a01 c.R.a11).sum
  let z2 := 1 / 3 * (meshedN T .z3).z + (cs.map fun c => c.square c.n.z c.R.a02 c.R.a12).sum
  let xy := (meshedN T .x2y).x + (cs.map fun c => c.product c.n.x c.n.y c.R.a00 c.R.a10 c.R.a01 c.R.a11).sum
  let yz := (meshedN T .y2z).y + (cs.map fun c => c.product c.n.y c.n.z c.R.a01 c.R.a11 c.R.a02 c.R.a12).sum
  let zx := (meshedN T .z2x).z + (cs.map fun c => c.product c.n.z c.n.x c.R.a02 c.R.a12 c.R.a00 c.R.a10).sum
  ⟨density * (y2 + z2), density * (x2 + z2), density * (x2 + y2), -0.5 * density * xy, -0.5 * density * zx, -0.5 * density * yz⟩
/-- `GetPlainInertiaTensor` (FrMesh.cpp:622-758). -/
def plainInertia (density : ℝ) (T : List Tri) (cs : List Cap) : Tensor :=
  Tensor.ofFrame (density * volumeOf T cs) (plainCoeffs density T cs) Frame.identity (cogOf T cs) .NWU

/-- `GetShellInertiaTensor` (FrMesh.cpp:760-774) of a mesh without boundary (asserted line 762). -/
def shellInertia (density thickness : ℝ) (T : List Tri) : Tensor :=
  Tensor.ofFrame (density * volumeOf T [])
    ⟨density * thickness * (meshed T .y2 + meshed T .z2), density * thickness * (meshed T .x2 + meshed T .z2),
      density * thickness * (meshed T .y2 + meshed T .x2), -density * thickness * meshed T .xy,
      -density * thickness * meshed T .xz, -density * thickness * meshed T .yz⟩
    Frame.identity (cogOf T []) .NWU

namespace SMesh
variable (j : List V3 → Junk) (M : SMesh)

/-- The public functions: `none` if an assertion fails while the boundary polygons are built. -/
def getVolume : Option ℝ := (mkCaps j M.rings).map (volumeOf M.tris)
def getCOG : Option V3 := (mkCaps j M.rings).map (cogOf M.tris)
def getArea : Option ℝ := (mkCaps j M.rings).map (areaOf M.tris)
def getPlainInertia (density : ℝ) : Option Tensor := (mkCaps j M.rings).map (plainInertia density M.tris)
/-- The assertion of line 762 is the test. -/
def getShellInertia (density thickness : ℝ) : Option Tensor :=
  (mkCaps j M.rings).bind fun cs => if cs = [] then some (shellInertia density thickness M.tris) else none

/-- `Translate` (FrMesh.cpp:321-330); all properties are recomputed afterwards (here: computed from the positions). -/
def translate (t : V3) : SMesh := { M with pos := fun v => M.pos v + t }
/-- `Rotate(matrix)` (FrMesh.cpp:332-348): nothing is done for the identity, which is the same (simplification: the test is exact). -/
def rotate (R : M3) : SMesh := { M with pos := fun v => R.mulVec (M.pos v) }
/-- `Rotate(phi, theta, psi)` (FrMesh.cpp:350-387). -/
def rotateAngles (phi theta psi : ℝ) : SMesh :=
  M.rotate
    ⟨Real.cos theta * Real.cos psi, Real.sin phi * Real.sin theta * Real.cos psi - Real.cos phi * Real.sin psi,
      Real.cos phi * Real.sin theta * Real.cos psi + Real.sin phi * Real.sin psi,
      Real.cos theta * Real.sin psi, Real.sin phi * Real.sin theta * Real.sin psi + Real.cos phi * Real.cos psi,
      Real.cos phi * Real.sin theta * Real.sin psi - Real.sin phi * Real.cos psi,
      -Real.sin theta, Real.cos theta * Real.sin phi, Real.cos theta * Real.cos phi⟩
end SMesh

/-- The vertices of `CreateBox` (FrMesh.cpp:233-240). -/
def boxPos (lx ly lz : ℝ) : ℕ → V3
  | 0 => (0.5 : ℝ) • ⟨-lx, -ly, lz⟩
  | 1 => (0.5 : ℝ) • ⟨lx, -ly, lz⟩
  | 2 => (0.5 : ℝ) • ⟨lx, ly, lz⟩
  | 3 => (0.5 : ℝ) • ⟨-lx, ly, lz⟩
  | 4 => (0.5 : ℝ) • ⟨-lx, -ly, -lz⟩
  | 5 => (0.5 : ℝ) • ⟨lx, -ly, -lz⟩
  | 6 => (0.5 : ℝ) • ⟨lx, ly, -lz⟩
  | 7 => (0.5 : ℝ) • ⟨-lx, ly, -lz⟩
  | _ => 0
/-- Its faces (FrMesh.cpp:243-315). -/
def boxFaces : List Face :=
  [⟨0, 1, 2⟩, ⟨2, 3, 0⟩, ⟨0, 4, 1⟩, ⟨1, 4, 5⟩, ⟨1, 5, 2⟩, ⟨2, 5, 6⟩, ⟨2, 6, 3⟩, ⟨3, 6, 7⟩, ⟨3, 7, 0⟩, ⟨0, 7, 4⟩, ⟨6, 5, 4⟩,
    ⟨7, 6, 4⟩]
/-- `CreateBox` on an empty mesh (FrMesh.cpp:229-319). -/
def box (first : Face → Fin 3) (lx ly lz : ℝ) : SMesh := ⟨8, boxPos lx ly lz, boxFaces, first, []⟩

/-- `FrAABoundingBox` (FrMesh.h). -/
structure BBox where
  xmin : ℝ
  xmax : ℝ
  ymin : ℝ
  ymax : ℝ
  zmin : ℝ
  zmax : ℝ
/-- One iteration of the loop (FrMesh.cpp:557-565). -/
def BBox.step (b : BBox) (p : V3) : BBox :=
  ⟨min b.xmin p.x, max b.xmax p.x, min b.ymin p.y, max b.ymax p.y, min b.zmin p.z, max b.zmax p.z⟩
/-- `GetBoundingBox` (FrMesh.cpp:543-567): the vertices, used by a face or not. -/
def SMesh.boundingBox (M : SMesh) : BBox :=
  if M.nv = 0 then ⟨0, 0, 0, 0, 0, 0⟩
  else ((List.range M.nv).map M.pos).foldl BBox.step ⟨(M.pos 0).x, (M.pos 0).x, (M.pos 0).y, (M.pos 0).y, (M.pos 0).z, (M.pos 0).z⟩

end Surface

end Frydom.Mesh
