import Verif.Mesh.Plane
import Mathlib.Analysis.SpecialFunctions.Integrals.Basic

/-!
# Model of `mesh::FrPolygon` (src/frydom/mesh/FrPolygon.{h,cpp})

`junk` values stand for the four accumulators that the code leaves uninitialised (FrPolygon.cpp:64-65).
-/

open Classical

noncomputable section

namespace Frydom.Mesh
open Geom

/-- The integrands of `IntegrandType` (FrMeshTraits.h / FrPolygon.h:60-90). -/
inductive Integrand | one | x | y | xy | x2 | y2 | x2y | y2x | x3 | y3

/-- The ten accumulators (FrPolygon.cpp:64). -/
structure Acc where
  i1 : ℝ
  ix : ℝ
  iy : ℝ
  ixy : ℝ
  ix2 : ℝ
  iy2 : ℝ
  ix2y : ℝ
  iy2x : ℝ
  ix3 : ℝ
  iy3 : ℝ

/-- The uninitialised values of IntX2Y, IntY2X, IntX3, IntY3 (FrPolygon.cpp:64-65). -/
structure Junk where
  x2y : ℝ
  y2x : ℝ
  x3 : ℝ
  y3 : ℝ

/-- Initial accumulators (FrPolygon.cpp:64-65). -/
def Acc.init (j : Junk) : Acc := ⟨0, 0, 0, 0, 0, 0, j.x2y, j.y2x, j.x3, j.y3⟩

/-- One iteration of the loop over edges (FrPolygon.cpp:75-109). -/
def Acc.step (p0 p1 : V3) (a : Acc) : Acc :=
  let x0 := p0.x
  let y0 := p0.y
  let x1 := p1.x
  let y1 := p1.y
  let dx := x1 - x0
  let dy := y1 - y0
  let px := x0 + x1
  let py := y0 + y1
  let aa := x0 * x0 + x1 * x1
  let b := y0 * y0 + y1 * y1
  { i1 := a.i1 + dy * px
    ix := a.ix + dy * (px * px - x0 * x1)
    iy := a.iy + dx * (py * py - y0 * y1)
    ixy := a.ixy + dy * (py * px * px + 2 * (y0 * x0 * x0 + y1 * x1 * x1))
    ix2 := a.ix2 + dy * aa * px
    iy2 := a.iy2 + dx * b * py
    ix2y := a.ix2y + dy * (py * px ^ 3 + 3 * x0 ^ 3 * y0 + 3 * x1 ^ 3 * y1 - x0 * x0 * x1 * y1 - x0 * x1 * x1 * y0)
    iy2x := a.iy2x + dx * (px * py ^ 3 + 3 * y0 ^ 3 * x0 + 3 * y1 ^ 3 * x1 - y0 * y0 * y1 * x1 - y0 * y1 * y1 * x0)
    ix3 := a.ix3 + dy * (x0 ^ 4 + x0 ^ 3 * x1 + x0 * x1 ^ 3 + x1 ^ 4)
    iy3 := a.iy3 + dx * (y0 ^ 4 + y0 ^ 3 * y1 + y0 * y1 ^ 3 + y1 ^ 4) }

/-- The loop over edges, `pos0` first (FrPolygon.cpp:71-109). -/
def Acc.loop : V3 → List V3 → Acc → Acc
  | _, [], a => a
  | p0, p1 :: l, a => loop p1 l (Acc.step p0 p1 a)

/-- The final divisions (FrPolygon.cpp:111-120). -/
def Acc.finish (a : Acc) : Acc :=
  ⟨a.i1 / 2, a.ix / 6, a.iy / -6, a.ixy / 24, a.ix2 / 12, a.iy2 / -12, a.ix2y / 60, a.iy2x / -60, a.ix3 / 20, a.iy3 / -20⟩

/-- `ComputeSurfacePolynomialIntegrals` on the vertices expressed in the plane's frame (FrPolygon.cpp:60-124); an empty list is
undefined behaviour in the code, `none` here. -/
def integrals (j : Junk) : List V3 → Option Acc
  | [] => none
  | p0 :: l => some (Acc.loop p0 l (Acc.init j)).finish

/-- `PolygonSurfaceIntegrals::GetSurfaceIntegral` (FrPolygon.h:61-86). -/
def Acc.get (a : Acc) : Integrand → ℝ
  | .one => a.i1
  | .x => a.ix
  | .y => a.iy
  | .xy => a.ixy
  | .x2 => a.ix2
  | .y2 => a.iy2
  | .x2y => a.ix2y
  | .y2x => a.iy2x
  | .x3 => a.ix3
  | .y3 => a.iy3

/-- Fields m_vertexList (NWU), c_planar, c_surfaceIntegrals (FrPolygon.h); `c_planar` is true whenever construction succeeds. -/
structure Polygon where
  vertices : List V3
  ints : Acc

/-- `GetPlane` (FrPolygon.cpp:178-180). -/
def planeOf (l : List V3) : Option Plane := Plane.ofCloud l .NWU

/-- `CheckPlanar` (FrPolygon.cpp:147-159). -/
def checkPlanar (pl : Plane) (l : List V3) : Prop := ∀ v ∈ l, pl.distance v .NWU < 1e-4

/-- `GetVertexInPlane` (FrPolygon.cpp:165-176). -/
def vertexInPlane (pl : Plane) (l : List V3) : List V3 := l.map fun v => pl.frame.pointInFrame v .NWU

/-- Constructor (FrPolygon.cpp:20-31); `none`: one of the assertions fails (degenerate plane, not planar). -/
def Polygon.new (j : Junk) (l : List V3) (fc : FC) : Option Polygon :=
  let l' := l.map (conv fc)
  (planeOf l').bind fun pl =>
    if checkPlanar pl l' then (integrals j (vertexInPlane pl l')).map fun a => ⟨l', a⟩ else none

/-- `GetVertexList` (FrPolygon.cpp:33-41). -/
def Polygon.getVertexList (p : Polygon) (fc : FC) : List V3 := p.vertices.map (conv fc)
/-- `GetSurfaceIntegral` (FrPolygon.cpp:130-132). -/
def Polygon.getSurfaceIntegral (p : Polygon) (t : Integrand) : ℝ := p.ints.get t
/-- `GetArea` (FrPolygon.cpp:56-58). -/
def Polygon.getArea (p : Polygon) : ℝ := p.getSurfaceIntegral .one

/-- `Fr2DAABB` (FrPolygon.h). -/
structure AABB where
  xmin : ℝ
  xmax : ℝ
  ymin : ℝ
  ymax : ℝ
/-- One iteration of the bounding box loop (FrPolygon.cpp:192-197). -/
def AABB.step (b : AABB) (v : V3) : AABB := ⟨min b.xmin v.x, max b.xmax v.x, min b.ymin v.y, max b.ymax v.y⟩
/-- `GetBoundingBox` (FrPolygon.cpp:182-200); `none` for an empty list (undefined behaviour). -/
def Polygon.boundingBox (p : Polygon) : Option AABB :=
  match p.vertices with
  | [] => none
  | v0 :: l => some ((v0 :: l).foldl AABB.step ⟨v0.x, v0.x, v0.y, v0.y⟩)

/-! ## Specification -/

/-- The monomials. -/
def Integrand.eval : Integrand → ℝ → ℝ → ℝ
  | .one, _, _ => 1
  | .x, a, _ => a
  | .y, _, b => b
  | .xy, a, b => a * b
  | .x2, a, _ => a ^ 2
  | .y2, _, b => b ^ 2
  | .x2y, a, b => a ^ 2 * b
  | .y2x, a, b => b ^ 2 * a
  | .x3, a, _ => a ^ 3
  | .y3, _, b => b ^ 3

/-- Integral of `f` over the triangle `O P Q`, counted negatively when it turns clockwise: the triangle is the image of the unit
simplex by `(u,v) ↦ O + u (P-O) + v (Q-O)`, of Jacobian `(P-O) × (Q-O)`. -/
def triInt (f : ℝ → ℝ → ℝ) (O P Q : ℝ × ℝ) : ℝ :=
  ((P.1 - O.1) * (Q.2 - O.2) - (P.2 - O.2) * (Q.1 - O.1)) *
    ∫ u in (0:ℝ)..1, ∫ v in (0:ℝ)..(1 - u),
      f (O.1 + u * (P.1 - O.1) + v * (Q.1 - O.1)) (O.2 + u * (P.2 - O.2) + v * (Q.2 - O.2))

/-- Signed integral over the polygon: sum over the successive edges of the signed triangles with apex `O`. -/
def polyInt (f : ℝ → ℝ → ℝ) (O : ℝ × ℝ) : List (ℝ × ℝ) → ℝ
  | P :: Q :: l => triInt f O P Q + polyInt f O (Q :: l)
  | _ => 0

/-- The list of vertices is closed: its last vertex is its first one (as built in FrMesh.cpp:906-926). -/
def Closed {α : Type} (l : List α) : Prop := l.head? = l.getLast?

/-! ## Lemmas -/

theorem int_poly3 (a b c d w : ℝ) :
    ∫ v in (0:ℝ)..w, (a + b * v + c * v ^ 2 + d * v ^ 3) = a * w + b * w ^ 2 / 2 + c * w ^ 3 / 3 + d * w ^ 4 / 4 := by
  have hd : ∀ v ∈ Set.uIcc 0 w, HasDerivAt (fun v : ℝ => a * v + b * v ^ 2 / 2 + c * v ^ 3 / 3 + d * v ^ 4 / 4)
      (a + b * v + c * v ^ 2 + d * v ^ 3) v := by
    intro v _
    have h1 := ((hasDerivAt_id v).const_mul a)
    have h2 := (((hasDerivAt_id v).pow 2).const_mul b).div_const 2
    have h3 := (((hasDerivAt_id v).pow 3).const_mul c).div_const 3
    have h4 := (((hasDerivAt_id v).pow 4).const_mul d).div_const 4
    have h := ((h1.add h2).add h3).add h4
    refine h.congr_deriv ?_
    simp only [id]; norm_num; ring
  rw [intervalIntegral.integral_eq_sub_of_hasDerivAt hd]
  · ring
  · exact Continuous.intervalIntegrable (by fun_prop) _ _

theorem int_poly4 (a b c d e : ℝ) :
    ∫ v in (0:ℝ)..1, (a + b * v + c * v ^ 2 + d * v ^ 3 + e * v ^ 4) = a + b / 2 + c / 3 + d / 4 + e / 5 := by
  have hd : ∀ v ∈ Set.uIcc (0:ℝ) 1, HasDerivAt
      (fun v : ℝ => a * v + b * v ^ 2 / 2 + c * v ^ 3 / 3 + d * v ^ 4 / 4 + e * v ^ 5 / 5)
      (a + b * v + c * v ^ 2 + d * v ^ 3 + e * v ^ 4) v := by
    intro v _
    have h1 := ((hasDerivAt_id v).const_mul a)
    have h2 := (((hasDerivAt_id v).pow 2).const_mul b).div_const 2
    have h3 := (((hasDerivAt_id v).pow 3).const_mul c).div_const 3
    have h4 := (((hasDerivAt_id v).pow 4).const_mul d).div_const 4
    have h5 := (((hasDerivAt_id v).pow 5).const_mul e).div_const 5
    have h := (((h1.add h2).add h3).add h4).add h5
    refine h.congr_deriv ?_
    simp only [id]; norm_num; ring
  rw [intervalIntegral.integral_eq_sub_of_hasDerivAt hd]
  · ring
  · exact Continuous.intervalIntegrable (by fun_prop) _ _

/-- Integral over the unit simplex of a polynomial of degree at most three. -/
theorem int_simplex (g : ℝ → ℝ → ℝ) (c00 c10 c01 c20 c11 c02 c30 c21 c12 c03 : ℝ)
    (h : ∀ u v, g u v = c00 + c10 * u + c01 * v + c20 * u ^ 2 + c11 * u * v + c02 * v ^ 2 + c30 * u ^ 3 + c21 * u ^ 2 * v +
      c12 * u * v ^ 2 + c03 * v ^ 3) :
    ∫ u in (0:ℝ)..1, ∫ v in (0:ℝ)..(1 - u), g u v =
      c00 / 2 + c10 / 6 + c01 / 6 + c20 / 12 + c11 / 24 + c02 / 12 + c30 / 20 + c21 / 60 + c12 / 60 + c03 / 20 := by
  have h1 : ∀ u, ∫ v in (0:ℝ)..(1 - u), g u v =
      (c00 + c01 / 2 + c02 / 3 + c03 / 4) +
      (c10 - c00 + c11 / 2 - c01 + c12 / 3 - c02 - c03) * u +
      (c20 - c10 + c21 / 2 - c11 + c01 / 2 - c12 + c02 + 3 * c03 / 2) * u ^ 2 +
      (c30 - c20 - c21 + c11 / 2 + c12 - c02 / 3 - c03) * u ^ 3 +
      (-c30 + c21 / 2 - c12 / 3 + c03 / 4) * u ^ 4 := by
    intro u
    have : ∫ v in (0:ℝ)..(1 - u), g u v = ∫ v in (0:ℝ)..(1 - u),
        ((c00 + c10 * u + c20 * u ^ 2 + c30 * u ^ 3) + (c01 + c11 * u + c21 * u ^ 2) * v + (c02 + c12 * u) * v ^ 2 + c03 * v ^ 3) := by
      congr 1; funext v; rw [h]; ring
    rw [this, int_poly3]
    ring
  simp only [h1]
  rw [int_poly4]
  ring

/-- Antisymmetric edge terms whose cyclic sum is the signed triangle integral. -/
def edge : Integrand → V3 → V3 → ℝ
  | .one, p, q => (q.y - p.y) * (p.x + q.x) / 2
  | .x, p, q => (q.y - p.y) * ((p.x + q.x) * (p.x + q.x) - p.x * q.x) / 6
  | .y, p, q => (q.x - p.x) * ((p.y + q.y) * (p.y + q.y) - p.y * q.y) / -6
  | .xy, p, q => (q.y - p.y) * ((p.y + q.y) * (p.x + q.x) * (p.x + q.x) + 2 * (p.y * p.x * p.x + q.y * q.x * q.x)) / 24
  | .x2, p, q => (q.y - p.y) * (p.x * p.x + q.x * q.x) * (p.x + q.x) / 12
  | .y2, p, q => (q.x - p.x) * (p.y * p.y + q.y * q.y) * (p.y + q.y) / -12
  | .x2y, p, q => (q.y - p.y) * ((p.y + q.y) * (p.x + q.x) ^ 3 + 3 * p.x ^ 3 * p.y + 3 * q.x ^ 3 * q.y -
      p.x * p.x * q.x * q.y - p.x * q.x * q.x * p.y) / 60
  | .y2x, p, q => (q.x - p.x) * ((p.x + q.x) * (p.y + q.y) ^ 3 + 3 * p.y ^ 3 * p.x + 3 * q.y ^ 3 * q.x -
      p.y * p.y * q.y * q.x - p.y * q.y * q.y * p.x) / -60
  | .x3, p, q => (q.y - p.y) * (p.x ^ 4 + p.x ^ 3 * q.x + p.x ^ 2 * q.x ^ 2 + p.x * q.x ^ 3 + q.x ^ 4) / 20
  | .y3, p, q => (q.x - p.x) * (p.y ^ 4 + p.y ^ 3 * q.y + p.y ^ 2 * q.y ^ 2 + p.y * q.y ^ 3 + q.y ^ 4) / -20

def xy (p : V3) : ℝ × ℝ := (p.x, p.y)

theorem triInt_eq (t : Integrand) (o p q : V3) :
    triInt t.eval (xy o) (xy p) (xy q) = edge t p q - (edge t o q - edge t o p) := by
  obtain ⟨ox, oy, oz⟩ := o
  obtain ⟨px, py, pz⟩ := p
  obtain ⟨qx, qy, qz⟩ := q
  unfold triInt xy
  simp only
  obtain ⟨a, ha⟩ : ∃ a, a = px - ox := ⟨_, rfl⟩
  obtain ⟨b, hb⟩ : ∃ b, b = qx - ox := ⟨_, rfl⟩
  obtain ⟨c, hc⟩ : ∃ c, c = py - oy := ⟨_, rfl⟩
  obtain ⟨d, hd⟩ : ∃ d, d = qy - oy := ⟨_, rfl⟩
  rw [← ha, ← hb, ← hc, ← hd]
  obtain rfl : px = ox + a := by rw [ha]; ring
  obtain rfl : qx = ox + b := by rw [hb]; ring
  obtain rfl : py = oy + c := by rw [hc]; ring
  obtain rfl : qy = oy + d := by rw [hd]; ring
  clear ha hb hc hd
  cases t <;> simp only [Integrand.eval, edge]
  · rw [int_simplex (fun _ _ => (1:ℝ)) 1 0 0 0 0 0 0 0 0 0 (by intros; ring)]; ring
  · rw [int_simplex (fun u v => ox + u * a + v * b) ox a b 0 0 0 0 0 0 0 (by intros; ring)]; ring
  · rw [int_simplex (fun u v => oy + u * c + v * d) oy c d 0 0 0 0 0 0 0 (by intros; ring)]; ring
  · rw [int_simplex (fun u v => (ox + u * a + v * b) * (oy + u * c + v * d)) (ox * oy) (a * oy + ox * c) (b * oy + ox * d)
      (a * c) (a * d + b * c) (b * d) 0 0 0 0 (by intros; ring)]; ring
  · rw [int_simplex (fun u v => (ox + u * a + v * b) ^ 2) (ox ^ 2) (2 * ox * a) (2 * ox * b)
      (a ^ 2) (2 * a * b) (b ^ 2) 0 0 0 0 (by intros; ring)]; ring
  · rw [int_simplex (fun u v => (oy + u * c + v * d) ^ 2) (oy ^ 2) (2 * oy * c) (2 * oy * d)
      (c ^ 2) (2 * c * d) (d ^ 2) 0 0 0 0 (by intros; ring)]; ring
  · rw [int_simplex (fun u v => (ox + u * a + v * b) ^ 2 * (oy + u * c + v * d))
      (ox ^ 2 * oy) (2 * ox * a * oy + ox ^ 2 * c) (2 * ox * b * oy + ox ^ 2 * d)
      (a ^ 2 * oy + 2 * ox * a * c) (2 * a * b * oy + 2 * ox * a * d + 2 * ox * b * c) (b ^ 2 * oy + 2 * ox * b * d)
      (a ^ 2 * c) (a ^ 2 * d + 2 * a * b * c) (b ^ 2 * c + 2 * a * b * d) (b ^ 2 * d) (by intros; ring)]; ring
  · rw [int_simplex (fun u v => (oy + u * c + v * d) ^ 2 * (ox + u * a + v * b))
      (oy ^ 2 * ox) (2 * oy * c * ox + oy ^ 2 * a) (2 * oy * d * ox + oy ^ 2 * b)
      (c ^ 2 * ox + 2 * oy * c * a) (2 * c * d * ox + 2 * oy * c * b + 2 * oy * d * a) (d ^ 2 * ox + 2 * oy * d * b)
      (c ^ 2 * a) (c ^ 2 * b + 2 * c * d * a) (d ^ 2 * a + 2 * c * d * b) (d ^ 2 * b) (by intros; ring)]; ring
  · rw [int_simplex (fun u v => (ox + u * a + v * b) ^ 3)
      (ox ^ 3) (3 * ox ^ 2 * a) (3 * ox ^ 2 * b) (3 * ox * a ^ 2) (6 * ox * a * b) (3 * ox * b ^ 2)
      (a ^ 3) (3 * a ^ 2 * b) (3 * a * b ^ 2) (b ^ 3) (by intros; ring)]; ring
  · rw [int_simplex (fun u v => (oy + u * c + v * d) ^ 3)
      (oy ^ 3) (3 * oy ^ 2 * c) (3 * oy ^ 2 * d) (3 * oy * c ^ 2) (6 * oy * c * d) (3 * oy * d ^ 2)
      (c ^ 3) (3 * c ^ 2 * d) (3 * c * d ^ 2) (d ^ 3) (by intros; ring)]; ring

/-- Sum over successive pairs. -/
def pairSum {α : Type} (E : α → α → ℝ) : List α → ℝ
  | p :: q :: l => E p q + pairSum E (q :: l)
  | _ => 0

theorem pairSum_telescope {α : Type} (h : α → ℝ) (p : α) (l : List α) :
    pairSum (fun a b => h b - h a) (p :: l) = h ((p :: l).getLast (by simp)) - h p := by
  induction l generalizing p with
  | nil => simp [pairSum]
  | cons q l ih => rw [pairSum, ih, List.getLast_cons (List.cons_ne_nil q l)]; ring

theorem pairSum_closed {α : Type} (h : α → ℝ) {l : List α} (hl : Closed l) : pairSum (fun a b => h b - h a) l = 0 := by
  cases l with
  | nil => rfl
  | cons p l =>
    rw [pairSum_telescope]
    unfold Closed at hl
    rw [List.head?_cons, List.getLast?_eq_getLast_of_ne_nil (by simp)] at hl
    injection hl with hl
    rw [← hl]; ring

theorem pairSum_sub {α : Type} (E F : α → α → ℝ) (l : List α) :
    pairSum (fun a b => E a b - F a b) l = pairSum E l - pairSum F l := by
  induction l with
  | nil => simp [pairSum]
  | cons p l ih => cases l with
    | nil => simp [pairSum]
    | cons q l => rw [pairSum, pairSum, pairSum, ih]; ring

theorem polyInt_eq (t : Integrand) (o : V3) (l : List V3) (hl : Closed l) :
    polyInt t.eval (xy o) (l.map xy) = pairSum (edge t) l := by
  have h1 : ∀ l : List V3, polyInt t.eval (xy o) (l.map xy) = pairSum (fun p q => edge t p q - (edge t o q - edge t o p)) l := by
    intro l
    induction l with
    | nil => rfl
    | cons p l ih => cases l with
      | nil => rfl
      | cons q l =>
        simp only [List.map_cons] at ih ⊢
        rw [polyInt, pairSum, ih, triInt_eq]
  rw [h1, pairSum_sub, pairSum_closed (edge t o) hl, sub_zero]

/-- The uninitialised start value, scaled as the code does. -/
def junkTerm (j : Junk) : Integrand → ℝ
  | .x2y => j.x2y / 60
  | .y2x => j.y2x / -60
  | .x3 => j.x3 / 20
  | .y3 => j.y3 / -20
  | _ => 0

/-- Code edge terms: as `edge` but for the cubes. -/
def codeEdge : Integrand → V3 → V3 → ℝ
  | .x3, p, q => edge .x3 p q - (q.y - p.y) * (p.x ^ 2 * q.x ^ 2) / 20
  | .y3, p, q => edge .y3 p q - (q.x - p.x) * (p.y ^ 2 * q.y ^ 2) / -20
  | t, p, q => edge t p q

theorem loop_get (p0 : V3) (l : List V3) (a : Acc) (t : Integrand) :
    (Acc.loop p0 l a).finish.get t = a.finish.get t + pairSum (codeEdge t) (p0 :: l) := by
  induction l generalizing p0 a with
  | nil => simp [Acc.loop, pairSum]
  | cons p1 l ih =>
    rw [Acc.loop, ih, pairSum, ← add_assoc]
    congr 1
    cases t <;> simp only [Acc.get, Acc.finish, Acc.step, codeEdge, edge] <;> ring

theorem integrals_get (j : Junk) (l : List V3) (hl : l ≠ []) :
    ∃ a, integrals j l = some a ∧ ∀ t, a.get t = junkTerm j t + pairSum (codeEdge t) l := by
  cases l with
  | nil => exact absurd rfl hl
  | cons p l =>
    refine ⟨_, rfl, fun t => ?_⟩
    rw [loop_get]
    congr 1
    cases t <;> simp [Acc.get, Acc.finish, Acc.init, junkTerm]

end Frydom.Mesh
