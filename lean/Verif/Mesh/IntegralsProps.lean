import Verif.Mesh.Integrals
import Verif.Inertia.Props

/-!
# Properties of the integrals of a mesh (C70-C75)
-/

open Classical

noncomputable section

namespace Frydom.Mesh
open Geom Inertia

namespace Surface
open Clip

/-! ## Specification -/

/-- Mean value type integral over the triangle: the triangle is the image of the unit simplex. -/
def simplex (g : V3 → ℝ) (t : Tri) : ℝ :=
  ∫ u in (0:ℝ)..1, ∫ v in (0:ℝ)..(1 - u), g (t.p + u • (t.q - t.p) + v • (t.r - t.p))
/-- Twice the vector area: the vector normal to the triangle, of norm its Jacobian. -/
def normalVec (t : Tri) : V3 := V3.cross (t.q - t.p) (t.r - t.p)
/-- Integral of `g` over the triangle, with respect to area. -/
def surfInt (g : V3 → ℝ) (t : Tri) : ℝ := V3.norm (normalVec t) * simplex g t
/-- Integral of `g n` over the triangle. -/
def flux (g : V3 → ℝ) (t : Tri) : V3 := simplex g t • normalVec t

/-- Integral of `f` over the tetrahedron of apex `O` and base `t`, counted negatively if the normal of `t` points to `O`: the
tetrahedron is the image of the unit one, of Jacobian the triple product. -/
def tetInt (f : V3 → ℝ) (O : V3) (t : Tri) : ℝ :=
  V3.dot (t.p - O) (V3.cross (t.q - O) (t.r - O)) *
    ∫ a in (0:ℝ)..1, ∫ b in (0:ℝ)..(1 - a), ∫ c in (0:ℝ)..(1 - a - b), f (O + a • (t.p - O) + b • (t.q - O) + c • (t.r - O))
/-- Integral of `f` over the volume enclosed by a closed surface with normals outwards: the sum of the tetrahedra from any point
`O` (the parts outside are counted once positively and once negatively). -/
def volInt (f : V3 → ℝ) (O : V3) (T : List Tri) : ℝ := (T.map (tetInt f O)).sum

/-- A loop closed by triangles from its first vertex. -/
def fan : List V3 → List Tri
  | [] => []
  | o :: l => go o l
where
  go (o : V3) : List V3 → List Tri
    | p :: q :: l => ⟨o, p, q⟩ :: go o (q :: l)
    | _ => []

/-- Directed edges. -/
def faceEdges (f : Face) : List (ℕ × ℕ) := [(f.a, f.b), (f.b, f.c), (f.c, f.a)]
def loopEdges (l : List ℕ) : List (ℕ × ℕ) := l.zip l.tail
def SMesh.edges (M : SMesh) : List (ℕ × ℕ) := M.faces.flatMap faceEdges ++ M.loops.flatMap loopEdges
/-- What OpenMesh guarantees: the loops are closed, and every half-edge of a face or of a loop has its opposite in a face or in
a loop. -/
structure SMesh.IsBoundary (M : SMesh) : Prop where
  closed : ∀ l ∈ M.loops, Closed l
  paired : ∀ a b, M.edges.count (a, b) = M.edges.count (b, a)

/-- The surface closed by its boundary polygons. -/
def SMesh.closedUp (M : SMesh) : List Tri := M.tris ++ M.rings.flatMap fan

/-- A loop lies in a plane and encloses an area. -/
structure Flat (l : List V3) : Prop where
  area : vectorArea l ≠ 0
  planar : ∀ v ∈ l, V3.dot (v - centroid l) (vectorArea l) = 0

/-! ## Integrals of polynomials -/

theorem simplex_const (c : ℝ) (t : Tri) : simplex (fun _ => c) t = c / 2 := by
  unfold simplex
  rw [int_simplex (fun _ _ => c) c 0 0 0 0 0 0 0 0 0 (by intros; ring)]; ring

theorem simplex_lin (a b c : ℝ) :
    ∫ u in (0:ℝ)..1, ∫ v in (0:ℝ)..(1 - u), (a + u * (b - a) + v * (c - a)) = F1 a b c / 6 := by
  rw [int_simplex (fun u v => a + u * (b - a) + v * (c - a)) a (b - a) (c - a) 0 0 0 0 0 0 0 (by intros; ring)]
  unfold F1; ring

theorem simplex_mul (a b c a' b' c' : ℝ) :
    ∫ u in (0:ℝ)..1, ∫ v in (0:ℝ)..(1 - u), (a + u * (b - a) + v * (c - a)) * (a' + u * (b' - a') + v * (c' - a')) =
      (a * a' + b * b' + c * c' + (a + b + c) * (a' + b' + c')) / 24 := by
  rw [int_simplex (fun u v => (a + u * (b - a) + v * (c - a)) * (a' + u * (b' - a') + v * (c' - a'))) (a * a')
    ((b - a) * a' + a * (b' - a')) ((c - a) * a' + a * (c' - a')) ((b - a) * (b' - a'))
    ((b - a) * (c' - a') + (c - a) * (b' - a')) ((c - a) * (c' - a')) 0 0 0 0 (by intros; ring)]
  ring

theorem simplex_sq (a b c : ℝ) :
    ∫ u in (0:ℝ)..1, ∫ v in (0:ℝ)..(1 - u), (a + u * (b - a) + v * (c - a)) ^ 2 = F2 a b c / 12 := by
  have := simplex_mul a b c a b c
  simp only [← sq] at this
  rw [this]; unfold F2 F1; ring

theorem simplex_sq_mul (a b c a' b' c' : ℝ) :
    ∫ u in (0:ℝ)..1, ∫ v in (0:ℝ)..(1 - u), (a + u * (b - a) + v * (c - a)) ^ 2 * (a' + u * (b' - a') + v * (c' - a')) =
      (a' * G0 a b c + b' * G1 a b c + c' * G2 a b c) / 60 := by
  obtain ⟨k, hk⟩ : ∃ k, k = b - a := ⟨_, rfl⟩
  obtain ⟨l, hl⟩ : ∃ l, l = c - a := ⟨_, rfl⟩
  obtain ⟨k', hk'⟩ : ∃ k, k = b' - a' := ⟨_, rfl⟩
  obtain ⟨l', hl'⟩ : ∃ l, l = c' - a' := ⟨_, rfl⟩
  rw [← hk, ← hl, ← hk', ← hl']
  obtain rfl : b = a + k := by rw [hk]; ring
  obtain rfl : c = a + l := by rw [hl]; ring
  obtain rfl : b' = a' + k' := by rw [hk']; ring
  obtain rfl : c' = a' + l' := by rw [hl']; ring
  rw [int_simplex (fun u v => (a + u * k + v * l) ^ 2 * (a' + u * k' + v * l'))
      (a ^ 2 * a') (2 * a * k * a' + a ^ 2 * k') (2 * a * l * a' + a ^ 2 * l')
      (k ^ 2 * a' + 2 * a * k * k') (2 * k * l * a' + 2 * a * k * l' + 2 * a * l * k') (l ^ 2 * a' + 2 * a * l * l')
      (k ^ 2 * k') (k ^ 2 * l' + 2 * k * l * k') (l ^ 2 * k' + 2 * k * l * l') (l ^ 2 * l') (by intros; ring)]
  unfold G0 G1 G2 F2 F1; ring

theorem simplex_cube (a b c : ℝ) :
    ∫ u in (0:ℝ)..1, ∫ v in (0:ℝ)..(1 - u), (a + u * (b - a) + v * (c - a)) ^ 3 = F3 a b c / 20 := by
  have := simplex_sq_mul a b c a b c
  have e : ∀ u v : ℝ, (a + u * (b - a) + v * (c - a)) ^ 2 * (a + u * (b - a) + v * (c - a)) =
    (a + u * (b - a) + v * (c - a)) ^ 3 := by intros; ring
  simp only [e] at this
  rw [this]; unfold G0 G1 G2 F3 F2 F1; ring

/-- The monomials. -/
def Poly.eval : Poly → V3 → ℝ
  | .one, _ => 1
  | .x, v => v.x
  | .y, v => v.y
  | .z, v => v.z
  | .yz, v => v.y * v.z
  | .xz, v => v.x * v.z
  | .xy, v => v.x * v.y
  | .x2, v => v.x ^ 2
  | .y2, v => v.y ^ 2
  | .z2, v => v.z ^ 2
  | .x3, v => v.x ^ 3
  | .y3, v => v.y ^ 3
  | .z3, v => v.z ^ 3
  | .x2y, v => v.x ^ 2 * v.y
  | .y2z, v => v.y ^ 2 * v.z
  | .z2x, v => v.z ^ 2 * v.x

/-- Those that are not a product of two coordinates. -/
def Poly.Plain : Poly → Prop
  | .yz | .xz | .xy => False
  | _ => True

/-! ## C70: integrals over a face -/

/-- **C70.** The integrals of 1, the coordinates, their squares and cubes and x²y, y²z, z²x stored for a face are the integrals
over the triangle, whichever of its vertices comes first. -/
theorem C70_face_integrals_partial (t : Tri) (k : Poly) (hk : k.Plain) : faceIntegral t k = surfInt k.eval t := by
  cases k <;> simp only [Poly.Plain] at hk <;> unfold faceIntegral surfInt simplex normalVec <;>
    simp only [Poly.eval, V3.add_x, V3.add_y, V3.add_z, V3.smul_x, V3.smul_y, V3.smul_z, V3.sub_x, V3.sub_y, V3.sub_z,
      simplex_lin, simplex_sq, simplex_cube, simplex_sq_mul]
  case one =>
    rw [int_simplex (fun _ _ => (1:ℝ)) 1 0 0 0 0 0 0 0 0 0 (by intros; ring)]; ring
  all_goals ring

/-- The error made on the integral of the product of two coordinates, of increments `a1`, `a2` and `b1`, `b2` along the edges
from the first vertex. -/
def mixedError (a1 b1 a2 b2 : ℝ) : ℝ := 4 * (a1 * b1 + a2 * b2) - a1 * b2 - a2 * b1

/-- **C70, defect.** The integrals of yz, xz and xy are wrong: the error is exactly the following, zero only for flat faces and
when 4 (a₁b₁ + a₂b₂) = a₁b₂ + a₂b₁ for the increments of the two coordinates from the first vertex of the face. -/
theorem C70_products_wrong (t : Tri) :
    faceIntegral t .xz - surfInt (Poly.xz.eval) t =
      V3.norm (normalVec t) / 24 * mixedError (t.q - t.p).x (t.q - t.p).z (t.r - t.p).x (t.r - t.p).z ∧
    faceIntegral t .yz - surfInt (Poly.yz.eval) t =
      V3.norm (normalVec t) / 24 * mixedError (t.q - t.p).y (t.q - t.p).z (t.r - t.p).y (t.r - t.p).z ∧
    faceIntegral t .xy - surfInt (Poly.xy.eval) t =
      V3.norm (normalVec t) / 24 * mixedError (t.q - t.p).x (t.q - t.p).y (t.r - t.p).x (t.r - t.p).y := by
  refine ⟨?_, ?_, ?_⟩ <;> unfold faceIntegral surfInt simplex normalVec codeMixed mixedError F1 <;>
    simp only [Poly.eval, V3.add_x, V3.add_y, V3.add_z, V3.smul_x, V3.smul_y, V3.smul_z, V3.sub_x, V3.sub_y, V3.sub_z,
      simplex_mul] <;> ring

/-- A triangle for which the stored integral of xz is three times the integral, or four times if the face is read from its next
vertex. -/
theorem C70_products_example :
    ∃ p q r : V3, surfInt Poly.xz.eval ⟨p, q, r⟩ = Real.sqrt 2 / 12 ∧ faceIntegral ⟨p, q, r⟩ .xz = Real.sqrt 2 / 4 ∧
      faceIntegral ⟨q, r, p⟩ .xz = Real.sqrt 2 / 3 := by
  have hn : ∀ v : V3, v = ⟨-1, 0, 1⟩ → V3.norm v = Real.sqrt 2 := by rintro v rfl; unfold V3.norm V3.dot; norm_num
  have e1 : V3.cross ((⟨1, 0, 1⟩ : V3) - ⟨0, 0, 0⟩) (⟨0, 1, 0⟩ - ⟨0, 0, 0⟩) = ⟨-1, 0, 1⟩ := by ext <;> simp
  have e2 : V3.cross ((⟨0, 1, 0⟩ : V3) - ⟨1, 0, 1⟩) (⟨0, 0, 0⟩ - ⟨1, 0, 1⟩) = ⟨-1, 0, 1⟩ := by ext <;> simp
  refine ⟨⟨0, 0, 0⟩, ⟨1, 0, 1⟩, ⟨0, 1, 0⟩, ?_, ?_, ?_⟩
  · unfold surfInt simplex normalVec
    simp only [Poly.eval, V3.add_x, V3.add_z, V3.smul_x, V3.smul_z, V3.sub_x, V3.sub_z, simplex_mul, hn _ e1]
    ring
  · unfold faceIntegral codeMixed F1
    simp only [hn _ e1]
    ring
  · unfold faceIntegral codeMixed F1
    simp only [hn _ e2]
    ring

/-! ## Sums over the edges of a closed surface -/

theorem sum_map_neg {α : Type} (g : α → ℝ) (l : List α) : (l.map fun a => -g a).sum = -(l.map g).sum := by
  induction l with
  | nil => simp
  | cons a l ih => simp only [List.map_cons, List.sum_cons, ih]; ring

theorem sum_map_add {α : Type} (g h : α → ℝ) (l : List α) : (l.map fun a => g a + h a).sum = (l.map g).sum + (l.map h).sum := by
  induction l with
  | nil => simp
  | cons a l ih => simp only [List.map_cons, List.sum_cons, ih]; ring

theorem sum_map_sub {α : Type} (g h : α → ℝ) (l : List α) : (l.map fun a => g a - h a).sum = (l.map g).sum - (l.map h).sum := by
  induction l with
  | nil => simp
  | cons a l ih => simp only [List.map_cons, List.sum_cons, ih]; ring

theorem sum_map_mul {α : Type} (c : ℝ) (g : α → ℝ) (l : List α) : (l.map fun a => c * g a).sum = c * (l.map g).sum := by
  induction l with
  | nil => simp
  | cons a l ih => simp only [List.map_cons, List.sum_cons, ih]; ring

/-- A sum over paired edges of a quantity that changes sign with the direction is zero. -/
theorem paired_sum (E : List (ℕ × ℕ)) (h : ∀ a b, E.count (a, b) = E.count (b, a)) (g : ℕ → ℕ → ℝ) (hg : ∀ a b, g a b = -g b a) :
    (E.map fun e => g e.1 e.2).sum = 0 := by
  have hp : (E.map Prod.swap).Perm E := by
    rw [List.perm_iff_count]
    rintro ⟨a, b⟩
    rw [← h b a]
    have := List.count_map_of_injective E Prod.swap Prod.swap_injective (b, a)
    simpa using this
  have h1 := (hp.map fun e => g e.1 e.2).sum_eq
  rw [List.map_map] at h1
  have h2 : ((fun e : ℕ × ℕ => g e.1 e.2) ∘ Prod.swap) = fun e => -(fun e : ℕ × ℕ => g e.1 e.2) e := by
    funext e; simp [hg e.2 e.1]
  rw [h2, sum_map_neg] at h1
  linarith

/-- Sum round a triangle. -/
def cyc (g : V3 → V3 → ℝ) (t : Tri) : ℝ := g t.p t.q + g t.q t.r + g t.r t.p

theorem cyc_turned (g : V3 → V3 → ℝ) (pos : ℕ → V3) (f : Face) (k : Fin 3) :
    cyc g (triOf pos (f.turned k)) = cyc g (triOf pos f) := by
  unfold cyc triOf
  fin_cases k <;> simp [Face.turned] <;> ring

theorem fan_go_sum (g : V3 → V3 → ℝ) (o p : V3) (l : List V3) :
    ((fan.go o (p :: l)).map (cyc g)).sum =
      pairSum g (p :: l) + pairSum (fun a b => g o a + g b o) (p :: l) := by
  induction l generalizing p with
  | nil => simp [fan.go, pairSum]
  | cons q l ih =>
    rw [fan.go, List.map_cons, List.sum_cons, ih, pairSum, pairSum]
    unfold cyc
    simp only
    ring

theorem fan_sum (g : V3 → V3 → ℝ) (hg : ∀ a b, g a b = -g b a) {l : List V3} (hl : Closed l) :
    ((fan l).map (cyc g)).sum = pairSum g l := by
  have h0 : ∀ a, g a a = 0 := fun a => by have := hg a a; linarith
  cases l with
  | nil => simp [fan, pairSum]
  | cons o l =>
    cases l with
    | nil => simp [fan, fan.go, pairSum]
    | cons p l =>
      rw [fan, fan_go_sum, pairSum]
      have e : (fun a b => g o a + g b o) = fun a b => (-g o) b - (-g o) a := by
        funext a b; simp only [Pi.neg_apply]; rw [hg b o]; ring
      rw [e, pairSum_telescope]
      have hlast : (p :: l).getLast (by simp) = o := by
        have := closed_last hl
        rwa [List.getLast_cons (List.cons_ne_nil p l)] at this
      rw [hlast]
      simp only [Pi.neg_apply, h0]
      ring

theorem pairSum_zip {α : Type} (E : α → α → ℝ) (l : List α) : pairSum E l = ((l.zip l.tail).map fun e => E e.1 e.2).sum := by
  induction l with
  | nil => rfl
  | cons p l ih => cases l with
    | nil => rfl
    | cons q l => rw [pairSum, ih]; simp

/-- **Stokes.** Round a closed surface, what is summed along the edges in both directions cancels. -/
theorem closedUp_sum (M : SMesh) (hM : M.IsBoundary) (g : V3 → V3 → ℝ) (hg : ∀ a b, g a b = -g b a) :
    (M.closedUp.map (cyc g)).sum = 0 := by
  have h := paired_sum M.edges hM.paired (fun a b => g (M.pos a) (M.pos b)) (fun a b => hg _ _)
  unfold SMesh.edges at h
  rw [List.map_append, List.sum_append] at h
  unfold SMesh.closedUp
  rw [List.map_append, List.sum_append]
  have h1 : (M.tris.map (cyc g)).sum = ((M.faces.flatMap faceEdges).map fun e => g (M.pos e.1) (M.pos e.2)).sum := by
    unfold SMesh.tris
    generalize M.faces = L
    induction L with
    | nil => simp
    | cons f L ih =>
      simp only [List.map_cons, List.sum_cons, List.flatMap_cons, List.map_append, List.sum_append]
      rw [ih, cyc_turned]
      simp [faceEdges, cyc, triOf]
      ring
  have h2 : ((M.rings.flatMap fan).map (cyc g)).sum = ((M.loops.flatMap loopEdges).map fun e => g (M.pos e.1) (M.pos e.2)).sum := by
    unfold SMesh.rings
    have hcl := hM.closed
    generalize M.loops = L at hcl
    induction L with
    | nil => simp
    | cons l L ih =>
      simp only [List.map_cons, List.flatMap_cons, List.map_append, List.sum_append]
      rw [ih (fun l hl => hcl l (List.mem_cons_of_mem _ hl)), fan_sum g hg ((hcl l (by simp)).map M.pos), pairSum_map,
        pairSum_zip]
      rfl
  rw [h1, h2]
  exact h

/-! ## Integrals over tetrahedra and the divergence theorem -/

theorem int_tetra (g : ℝ → ℝ → ℝ → ℝ) (c0 ca cb cc caa cbb ccc cab cac cbc : ℝ)
    (h : ∀ a b c, g a b c = c0 + ca * a + cb * b + cc * c + caa * a ^ 2 + cbb * b ^ 2 + ccc * c ^ 2 + cab * a * b + cac * a * c +
      cbc * b * c) :
    ∫ a in (0:ℝ)..1, ∫ b in (0:ℝ)..(1 - a), ∫ c in (0:ℝ)..(1 - a - b), g a b c =
      c0 / 6 + (ca + cb + cc) / 24 + (caa + cbb + ccc) / 60 + (cab + cac + cbc) / 120 := by
  have h1 : ∀ a b, ∫ c in (0:ℝ)..(1 - a - b), g a b c =
      (c0 + ca * a + cb * b + caa * a ^ 2 + cbb * b ^ 2 + cab * a * b) * (1 - a - b) +
        (cc + cac * a + cbc * b) * (1 - a - b) ^ 2 / 2 + ccc * (1 - a - b) ^ 3 / 3 := by
    intro a b
    have : ∫ c in (0:ℝ)..(1 - a - b), g a b c = ∫ c in (0:ℝ)..(1 - a - b),
        ((c0 + ca * a + cb * b + caa * a ^ 2 + cbb * b ^ 2 + cab * a * b) + (cc + cac * a + cbc * b) * c + ccc * c ^ 2 +
          0 * c ^ 3) := by
      congr 1; funext c; rw [h]; ring
    rw [this, int_poly3]
    ring
  simp only [h1]
  rw [int_simplex (fun a b => (c0 + ca * a + cb * b + caa * a ^ 2 + cbb * b ^ 2 + cab * a * b) * (1 - a - b) +
        (cc + cac * a + cbc * b) * (1 - a - b) ^ 2 / 2 + ccc * (1 - a - b) ^ 3 / 3)
    (c0 + cc / 2 + ccc / 3) (ca - c0 + cac / 2 - cc - ccc) (cb - c0 + cbc / 2 - cc - ccc) (caa - ca + cc / 2 - cac + ccc)
    (cab - ca - cb + cc - cac - cbc + 2 * ccc) (cbb - cb + cc / 2 - cbc + ccc) (-caa + cac / 2 - ccc / 3)
    (-caa - cab + cac + cbc / 2 - ccc) (-cbb - cab + cbc + cac / 2 - ccc) (-cbb + cbc / 2 - ccc / 3) (by intros; ring)]
  ring

theorem tet_lin (o p q r : ℝ) :
    ∫ a in (0:ℝ)..1, ∫ b in (0:ℝ)..(1 - a), ∫ c in (0:ℝ)..(1 - a - b), (o + a * (p - o) + b * (q - o) + c * (r - o)) =
      (o + p + q + r) / 24 := by
  rw [int_tetra (fun a b c => o + a * (p - o) + b * (q - o) + c * (r - o)) o (p - o) (q - o) (r - o) 0 0 0 0 0 0
    (by intros; ring)]
  ring

theorem tet_mul (o p q r o' p' q' r' : ℝ) :
    ∫ a in (0:ℝ)..1, ∫ b in (0:ℝ)..(1 - a), ∫ c in (0:ℝ)..(1 - a - b),
      (o + a * (p - o) + b * (q - o) + c * (r - o)) * (o' + a * (p' - o') + b * (q' - o') + c * (r' - o')) =
      (o * o' + p * p' + q * q' + r * r' + (o + p + q + r) * (o' + p' + q' + r')) / 120 := by
  obtain ⟨k, hk⟩ : ∃ k, k = p - o := ⟨_, rfl⟩
  obtain ⟨l, hl⟩ : ∃ k, k = q - o := ⟨_, rfl⟩
  obtain ⟨m, hm⟩ : ∃ k, k = r - o := ⟨_, rfl⟩
  obtain ⟨k', hk'⟩ : ∃ k, k = p' - o' := ⟨_, rfl⟩
  obtain ⟨l', hl'⟩ : ∃ k, k = q' - o' := ⟨_, rfl⟩
  obtain ⟨m', hm'⟩ : ∃ k, k = r' - o' := ⟨_, rfl⟩
  rw [← hk, ← hl, ← hm, ← hk', ← hl', ← hm']
  obtain rfl : p = o + k := by rw [hk]; ring
  obtain rfl : q = o + l := by rw [hl]; ring
  obtain rfl : r = o + m := by rw [hm]; ring
  obtain rfl : p' = o' + k' := by rw [hk']; ring
  obtain rfl : q' = o' + l' := by rw [hl']; ring
  obtain rfl : r' = o' + m' := by rw [hm']; ring
  rw [int_tetra (fun a b c => (o + a * k + b * l + c * m) * (o' + a * k' + b * l' + c * m')) (o * o') (o * k' + k * o')
    (o * l' + l * o') (o * m' + m * o') (k * k') (l * l') (m * m') (k * l' + l * k') (k * m' + m * k') (l * m' + m * l')
    (by intros; ring)]
  ring

/-- The triple product of three positions relative to `O`. -/
def det (O : V3) (t : Tri) : ℝ := V3.dot (t.p - O) (V3.cross (t.q - O) (t.r - O))

theorem tetInt_one (O : V3) (t : Tri) : tetInt (fun _ => 1) O t = det O t / 6 := by
  unfold tetInt det
  rw [int_tetra (fun _ _ _ => (1:ℝ)) 1 0 0 0 0 0 0 0 0 0 (by intros; ring)]
  ring

/-- The coordinates. -/
def coord : Fin 3 → V3 → ℝ
  | 0, v => v.x
  | 1, v => v.y
  | 2, v => v.z

theorem coord_affine (i : Fin 3) (o p q : V3) (u v : ℝ) :
    coord i (o + u • (p - o) + v • (q - o)) = coord i o + u * (coord i p - coord i o) + v * (coord i q - coord i o) := by
  fin_cases i <;> rfl

theorem coord_affine3 (i : Fin 3) (o p q r : V3) (a b c : ℝ) :
    coord i (o + a • (p - o) + b • (q - o) + c • (r - o)) =
      coord i o + a * (coord i p - coord i o) + b * (coord i q - coord i o) + c * (coord i r - coord i o) := by
  fin_cases i <;> rfl

theorem tetInt_coord (i : Fin 3) (O : V3) (t : Tri) :
    tetInt (coord i) O t = det O t * (coord i O + coord i t.p + coord i t.q + coord i t.r) / 24 := by
  unfold tetInt
  simp only [coord_affine3, tet_lin]
  unfold det; ring

theorem tetInt_mul (i k : Fin 3) (O : V3) (t : Tri) :
    tetInt (fun v => coord i v * coord k v) O t = det O t * (coord i O * coord k O + coord i t.p * coord k t.p +
      coord i t.q * coord k t.q + coord i t.r * coord k t.r + (coord i O + coord i t.p + coord i t.q + coord i t.r) *
      (coord k O + coord k t.p + coord k t.q + coord k t.r)) / 120 := by
  unfold tetInt
  simp only [coord_affine3, tet_mul]
  unfold det; ring

theorem flux_coord (i : Fin 3) (t : Tri) :
    flux (coord i) t = (F1 (coord i t.p) (coord i t.q) (coord i t.r) / 6) • normalVec t := by
  unfold flux simplex
  simp only [coord_affine, simplex_lin]
theorem flux_sq (i : Fin 3) (t : Tri) :
    flux (fun v => coord i v ^ 2) t = (F2 (coord i t.p) (coord i t.q) (coord i t.r) / 12) • normalVec t := by
  unfold flux simplex
  simp only [coord_affine, simplex_sq]
theorem flux_cube (i : Fin 3) (t : Tri) :
    flux (fun v => coord i v ^ 3) t = (F3 (coord i t.p) (coord i t.q) (coord i t.r) / 20) • normalVec t := by
  unfold flux simplex
  simp only [coord_affine, simplex_cube]
theorem flux_sq_mul (i k : Fin 3) (t : Tri) :
    flux (fun v => coord i v ^ 2 * coord k v) t = ((coord k t.p * G0 (coord i t.p) (coord i t.q) (coord i t.r) +
      coord k t.q * G1 (coord i t.p) (coord i t.q) (coord i t.r) + coord k t.r * G2 (coord i t.p) (coord i t.q) (coord i t.r)) / 60) •
      normalVec t := by
  unfold flux simplex
  simp only [coord_affine, simplex_sq_mul]

/-- The circulation of the vector potential: integral along the edge of `f`, times a component of the moment of the edge. -/
def area2 (i : Fin 3) (O p q : V3) : ℝ := coord i (V3.cross (p - O) (q - O))

def circ1 (i : Fin 3) (O p q : V3) : ℝ :=
  area2 i O p q * (coord i O / 2 + (coord i (p - O) + coord i (q - O)) / 6)
def circ2 (i : Fin 3) (O p q : V3) : ℝ :=
  area2 i O p q * (coord i O ^ 2 / 4 + coord i O * (coord i (p - O) + coord i (q - O)) / 6 +
    (coord i (p - O) ^ 2 + coord i (p - O) * coord i (q - O) + coord i (q - O) ^ 2) / 24)

theorem area2_anti (i : Fin 3) (O p q : V3) : area2 i O p q = -area2 i O q p := by
  unfold area2
  fin_cases i <;> simp [coord] <;> ring
theorem circ1_anti (i : Fin 3) (O p q : V3) : circ1 i O p q = -circ1 i O q p := by
  unfold circ1; rw [area2_anti i O p q]; ring
theorem circ2_anti (i : Fin 3) (O p q : V3) : circ2 i O p q = -circ2 i O q p := by
  unfold circ2; rw [area2_anti i O p q]; ring

theorem div_one (i : Fin 3) (O : V3) (t : Tri) :
    coord i (flux (coord i) t) - tetInt (fun _ => 1) O t = cyc (circ1 i O) t := by
  rw [flux_coord, tetInt_one]
  unfold cyc circ1 area2 det normalVec F1 V3.dot
  fin_cases i <;> simp [coord] <;> ring

theorem div_coord (i : Fin 3) (O : V3) (t : Tri) :
    coord i (flux (fun v => coord i v ^ 2) t) / 2 - tetInt (coord i) O t = cyc (circ2 i O) t := by
  rw [flux_sq, tetInt_coord]
  unfold cyc circ2 area2 det normalVec F2 F1 V3.dot
  fin_cases i <;> simp [coord] <;> ring

/-- Integral of x² y along an edge from (px, py) to (qx, qy), added to (ox, oy), weighted by the distance to the origin. -/
def along (ox oy px py qx qy : ℝ) : ℝ :=
  ox ^ 2 * oy / 2 + (ox ^ 2 * (py + qy) / 2 + ox * oy * (px + qx)) / 3 +
    (2 * ox * (2 * px * py + px * qy + qx * py + 2 * qx * qy) / 6 + oy * (px ^ 2 + px * qx + qx ^ 2) / 3) / 4 +
    (3 * px ^ 2 * py + px ^ 2 * qy + 2 * px * qx * py + 2 * px * qx * qy + qx ^ 2 * py + 3 * qx ^ 2 * qy) / 60
def circ3 (i k : Fin 3) (O p q : V3) : ℝ :=
  area2 i O p q * along (coord i O) (coord k O) (coord i (p - O)) (coord k (p - O)) (coord i (q - O)) (coord k (q - O))

theorem along_symm (ox oy px py qx qy : ℝ) : along ox oy px py qx qy = along ox oy qx qy px py := by unfold along; ring
theorem circ3_anti (i k : Fin 3) (O p q : V3) : circ3 i k O p q = -circ3 i k O q p := by
  unfold circ3; rw [area2_anti i O p q, along_symm]; ring

theorem div_sq (i : Fin 3) (O : V3) (t : Tri) :
    coord i (flux (fun v => coord i v ^ 3) t) / 3 - tetInt (fun v => coord i v * coord i v) O t =
      cyc (fun p q => circ3 i i O p q / 3) t := by
  rw [flux_cube, tetInt_mul]
  unfold cyc circ3 area2 along det normalVec F3 F2 F1 V3.dot
  fin_cases i <;> simp [coord] <;> ring

theorem div_mul (i k : Fin 3) (hik : i ≠ k) (O : V3) (t : Tri) :
    coord i (flux (fun v => coord i v ^ 2 * coord k v) t) / 2 - tetInt (fun v => coord i v * coord k v) O t =
      cyc (fun p q => circ3 i k O p q / 2) t := by
  rw [flux_sq_mul, tetInt_mul]
  unfold cyc circ3 area2 along det normalVec G0 G1 G2 F2 F1 V3.dot
  fin_cases i <;> fin_cases k <;> first | exact absurd rfl hik | (simp [coord] <;> ring)

/-- **Divergence theorem** on a surface closed by its boundary polygons. -/
theorem flux_volume (M : SMesh) (hM : M.IsBoundary) (O : V3) (i : Fin 3) :
    (M.closedUp.map fun t => coord i (flux (coord i) t)).sum = volInt (fun _ => 1) O M.closedUp ∧
    (M.closedUp.map fun t => coord i (flux (fun v => coord i v ^ 2) t)).sum = 2 * volInt (coord i) O M.closedUp ∧
    (M.closedUp.map fun t => coord i (flux (fun v => coord i v ^ 3) t)).sum =
      3 * volInt (fun v => coord i v * coord i v) O M.closedUp ∧
    ∀ k, i ≠ k → (M.closedUp.map fun t => coord i (flux (fun v => coord i v ^ 2 * coord k v) t)).sum =
      2 * volInt (fun v => coord i v * coord k v) O M.closedUp := by
  have h1 := closedUp_sum M hM (circ1 i O) (circ1_anti i O)
  have h2 := closedUp_sum M hM (circ2 i O) (circ2_anti i O)
  have h3 := closedUp_sum M hM (fun p q => circ3 i i O p q / 3) (fun p q => by rw [circ3_anti i _ O p q]; ring)
  have h4 : ∀ k, (M.closedUp.map (cyc fun p q => circ3 i k O p q / 2)).sum = 0 := fun k =>
    closedUp_sum M hM (fun p q => circ3 i k O p q / 2) (fun p q => by rw [circ3_anti i _ O p q]; ring)
  unfold volInt
  refine ⟨?_, ?_, ?_, ?_⟩
  · rw [← sub_eq_zero, ← sum_map_sub, ← h1]
    congr 2; funext t; exact div_one i O t
  · rw [← sum_map_mul, ← sub_eq_zero, ← sum_map_sub]
    have : (fun t => coord i (flux (fun v => coord i v ^ 2) t) - 2 * tetInt (coord i) O t) = fun t => 2 * cyc (circ2 i O) t := by
      funext t; rw [← div_coord]; ring
    rw [this, sum_map_mul, h2, mul_zero]
  · rw [← sum_map_mul, ← sub_eq_zero, ← sum_map_sub]
    have : (fun t => coord i (flux (fun v => coord i v ^ 3) t) - 3 * tetInt (fun v => coord i v * coord i v) O t) =
        fun t => 3 * cyc (fun p q => circ3 i i O p q / 3) t := by
      funext t; rw [← div_sq]; ring
    rw [this, sum_map_mul, h3, mul_zero]
  · intro k hk
    rw [← sum_map_mul, ← sub_eq_zero, ← sum_map_sub]
    have : (fun t => coord i (flux (fun v => coord i v ^ 2 * coord k v) t) - 2 * tetInt (fun v => coord i v * coord k v) O t) =
        fun t => 2 * cyc (fun p q => circ3 i k O p q / 2) t := by
      funext t; rw [← div_mul i k hk]; ring
    rw [this, sum_map_mul, h4, mul_zero]

/-! ## The faces -/

theorem normal_mul (v : V3) (s : ℝ) : (V3.norm v * s) • V3.normalized v = s • v := by
  by_cases h : V3.norm v = 0
  · have : v = 0 := by
      by_contra hv
      exact (V3.norm_pos hv).ne' h
    subst this
    ext <;> simp [V3.normalized]
  · ext <;> simp [V3.normalized] <;> field_simp

theorem meshedN_eq (T : List Tri) (k : Poly) (hk : k.Plain) (i : Fin 3) :
    coord i (meshedN T k) = (T.map fun t => coord i (flux k.eval t)).sum := by
  have h : ∀ t, (faceIntegral t k) • faceNormal t = flux k.eval t := by
    intro t
    rw [C70_face_integrals_partial t k hk]
    exact normal_mul _ _
  have h' : ∀ t, coord i (flux k.eval t) = coord i (faceNormal t) * faceIntegral t k := by
    intro t; rw [← h]; fin_cases i <;> simp [coord, mul_comm]
  simp only [h']
  fin_cases i <;> rfl

/-! ## The boundary polygons -/

/-- The planar coordinates along two axes. -/
def plan (ex ey v : V3) : ℝ × ℝ := (V3.dot v ex, V3.dot v ey)

/-- The polygon of a flat loop: axes of its plane, position of its points, integrals. -/
structure CapSpec (c : Cap) (l : List V3) (ex ey : V3) : Prop where
  axes : RightHanded ex ey c.n
  rows : c.R = ⟨ex.x, ex.y, ex.z, ey.x, ey.y, ey.z, c.n.x, c.n.y, c.n.z⟩
  points : ∀ v ∈ l, v = c.e • c.n + V3.dot v ex • ex + V3.dot v ey • ey
  ints : ∀ t : Integrand, t.Low → ∀ O : ℝ × ℝ, c.i t = polyInt t.eval O (l.map (plan ex ey))
  xaxis : ex = frameX c.n
  yaxis : ey = V3.cross c.n (frameX c.n)
  verts : c.poly.vertices = l

theorem rightHanded_coords {a b n : V3} (h : RightHanded a b n) (v : V3) :
    v = V3.dot v n • n + V3.dot v a • a + V3.dot v b • b := by
  obtain ⟨h1, h2, h3, h4, h5, h6, -⟩ := h.isRot.transpose
  simp only [M3.transpose, M3.ofCols, M3.c0, M3.c1, M3.c2, V3.dot] at h1 h2 h3 h4 h5 h6
  unfold V3.dot
  ext <;> simp
  · linear_combination -v.x * h1 - v.y * h4 - v.z * h5
  · linear_combination -v.y * h2 - v.x * h4 - v.z * h6
  · linear_combination -v.z * h3 - v.x * h5 - v.y * h6

theorem cap_spec (j : List V3 → Junk) {l : List V3} (hc : Closed l) (hf : Flat l) :
    ∃ c ex ey, mkCap j l = some c ∧ CapSpec c l ex ey ∧ c.n = V3.normalized (vectorArea l) := by
  have hn : V3.norm (vectorArea l) ≠ 0 := (V3.norm_pos hf.area).ne'
  have hpl : ∀ v ∈ l, V3.dot (v - centroid l) (V3.normalized (vectorArea l)) = 0 := by
    intro v hv
    have := hf.planar v hv
    unfold V3.normalized V3.dot at *
    simp only [V3.smul_x, V3.smul_y, V3.smul_z]
    linear_combination (V3.norm (vectorArea l))⁻¹ * this
  have hg : GoodInput l .NWU := by
    refine ⟨hc, by rw [map_nwu]; exact hf.area, ?_⟩
    rw [map_nwu]
    intro v hv
    rw [hpl v hv]; norm_num
  obtain ⟨pl, h1, -, h3, h4, h5, h6, h7, h8, hu⟩ := planeOf_spec hc hf.area
  obtain ⟨pl', p, h1', h2, hR, hint⟩ := C23_integrals_partial (j l) l .NWU hg
  obtain ⟨pl'', p', h1'', h2', hv, -⟩ := Polygon.new_spec (j l) hg
  rw [map_nwu] at h1' hR hint h1'' hv
  obtain rfl : pl = pl' := by rw [h1] at h1'; injection h1'
  obtain rfl : p = p' := by rw [h2] at h2'; injection h2'
  have hn' : (⟨p, pl⟩ : Cap).n = pl.normal := by unfold Cap.n Plane.getNormal; rw [conv_nwu]
  have hpos : V3.dot pl.frame.pos pl.normal = V3.dot (centroid l) pl.normal := by
    rw [h5]; generalize V3.dot (centroid l) pl.normal = k
    unfold V3.dot at *
    simp only [V3.smul_x, V3.smul_y, V3.smul_z]
    linear_combination k * hu
  have he : (⟨p, pl⟩ : Cap).e = V3.dot (centroid l) pl.normal := by
    unfold Cap.e Plane.getNormal Frame.getPosition; rw [conv_nwu, conv_nwu, hpos]
  rw [← h3] at hR hpl
  refine ⟨⟨p, pl⟩, getXAxis pl.frame.rot .NWU, getYAxis pl.frame.rot .NWU, ?_, ⟨?_, ?_, ?_, ?_, by rw [hn', h6], by rw [hn', h7], hv⟩, ?_⟩
  · unfold mkCap
    rw [h2]
    simp only [Option.bind_some]
    rw [hv, h1]
    rfl
  · rw [hn']; exact hR
  · have hz : (⟨p, pl⟩ : Cap).n = getZAxis pl.frame.rot .NWU := by rw [hn', h8]
    rw [hz]
    unfold Cap.R invRotMat getXAxis getYAxis getZAxis convQ
    have hunit : pl.frame.rot.normSq = 1 := h4
    simp only [hunit, div_one]
    ext <;> simp [Q.toMat, Q.xAxis, Q.yAxis, Q.zAxis] <;> ring
  · intro v hv
    rw [hn', he]
    have := rightHanded_coords hR v
    have e : V3.dot v pl.normal = V3.dot (centroid l) pl.normal := by
      have := hpl v hv
      unfold V3.dot at *
      simp only [V3.sub_x, V3.sub_y, V3.sub_z] at this
      linarith
    rw [← e]; exact this
  · intro t ht O
    show p.getSurfaceIntegral t = _
    rw [hint t ht O]
    congr 1
    unfold planeCoords plan
    apply List.map_congr_left
    intro v _
    obtain ⟨-, -, -, -, hxn, hyn, -⟩ := hR
    rw [h5]
    generalize V3.dot (centroid l) pl.normal = k
    unfold V3.dot at *
    simp only [V3.sub_x, V3.sub_y, V3.sub_z, V3.smul_x, V3.smul_y, V3.smul_z, Prod.mk.injEq]
    exact ⟨by linear_combination -k * hxn, by linear_combination -k * hyn⟩
  · rw [hn', h3]

end Surface

end Frydom.Mesh
