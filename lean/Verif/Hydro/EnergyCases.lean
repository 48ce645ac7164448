import Verif.Hydro.HydrostaticEnergy
import Verif.Mesh.BoxProps

/-!
# Bodies on which the hypotheses of C191 are met
-/

noncomputable section

namespace Frydom.Hydro
open Frydom.Geom Frydom.Core Frydom.Mesh Frydom.Mesh.Surface Frydom.Mesh.Clip
open Frydom.Link (HasVel)
open Filter Topology

/-! ## A cone that crosses the surface -/

/-- What vanishes beyond a parallel to the base of a triangle has the integral of the smaller triangle. -/
theorem simplex_scaled (F : ℝ → ℝ → ℝ) (hF : Continuous (Function.uncurry F)) {l : ℝ} (h0 : 0 ≤ l) (h1 : l ≤ 1) (hv : ∀ u v, l ≤ u + v → F u v = 0) :
    l * l * (∫ u in (0:ℝ)..1, ∫ v in (0:ℝ)..(1 - u), F (l * u) (l * v)) = ∫ u in (0:ℝ)..1, ∫ v in (0:ℝ)..(1 - u), F u v := by
  have inner : ∀ u : ℝ, l * (∫ v in (0:ℝ)..(1 - u), F (l * u) (l * v)) = ∫ w in (0:ℝ)..(l - l * u), F (l * u) w := by
    intro u
    have := intervalIntegral.mul_integral_comp_mul_left (f := fun w => F (l * u) w) (a := 0) (b := 1 - u) l
    rw [this]
    congr 1 <;> ring
  have outer : l * (∫ u in (0:ℝ)..1, ∫ w in (0:ℝ)..(l - l * u), F (l * u) w) = ∫ x in (0:ℝ)..l, ∫ w in (0:ℝ)..(l - x), F x w := by
    have := intervalIntegral.mul_integral_comp_mul_left (f := fun x => ∫ w in (0:ℝ)..(l - x), F x w) (a := 0) (b := 1) l
    rw [this]
    congr 1 <;> ring
  have ci : ∀ u a b : ℝ, IntervalIntegrable (fun v => F u v) MeasureTheory.volume a b := fun u a b =>
    (hF.comp (by fun_prop : Continuous fun v : ℝ => (u, v))).intervalIntegrable a b
  have co : ∀ a b : ℝ, IntervalIntegrable (fun u => ∫ v in (0:ℝ)..(1 - u), F u v) MeasureTheory.volume a b := fun a b =>
    (intervalIntegral.continuous_parametric_intervalIntegral_of_continuous (f := F) (s := fun u => 1 - u) hF (by fun_prop)).intervalIntegrable a b
  rw [← intervalIntegral.integral_add_adjacent_intervals (co 0 l) (co l 1)]
  have z : ∫ u in l..1, ∫ v in (0:ℝ)..(1 - u), F u v = 0 := by
    rw [intervalIntegral.integral_congr (g := fun _ => (0:ℝ))]
    · simp
    · intro u hu
      rw [Set.uIcc_of_le h1] at hu
      show ∫ v in (0:ℝ)..(1 - u), F u v = 0
      rw [intervalIntegral.integral_congr (g := fun _ => (0:ℝ))]
      · simp
      · intro v hv'
        rw [Set.uIcc_of_le (by linarith [hu.2])] at hv'
        exact hv u v (by linarith [hu.1, hv'.1])
  rw [z, add_zero, mul_assoc, ← intervalIntegral.integral_const_mul]
  simp only [inner]
  rw [outer]
  refine intervalIntegral.integral_congr fun x hx => ?_
  rw [Set.uIcc_of_le h0] at hx
  show ∫ w in (0:ℝ)..(l - x), F x w = ∫ v in (0:ℝ)..(1 - x), F x v
  rw [← intervalIntegral.integral_add_adjacent_intervals (ci x 0 (l - x)) (ci x (l - x) (1 - x))]
  rw [intervalIntegral.integral_congr (a := l - x) (b := 1 - x) (g := fun _ => (0:ℝ))]
  · simp
  · intro v hv'
    rw [Set.uIcc_of_le (by linarith)] at hv'
    exact hv x v (by linarith [hv'.1])

theorem flux_scaled (f : ℝ → ℝ → ℝ → ℝ) (hf : Continuous (fun x : ℝ × ℝ × ℝ => f x.1 x.2.1 x.2.2)) (hz : ∀ x y z, 0 ≤ z → f x y z = 0) (k q r : V3) {l : ℝ} (h0 : 0 ≤ l) (h1 : l ≤ 1)
    (hq : k.z + l * (q.z - k.z) = 0) (hr : q.z = r.z) (hk : k.z ≤ 0) (hl : 0 < l) (i : Fin 3) :
    coord i (flux (fun v => f v.x v.y v.z) ⟨k, k + l • (q - k), k + l • (r - k)⟩) = coord i (flux (fun v => f v.x v.y v.z) ⟨k, q, r⟩) := by
  have hqk : 0 ≤ q.z - k.z := by
    by_contra hc
    push Not at hc
    have := mul_neg_of_pos_of_neg hl hc
    linarith
  have hF := simplex_scaled (fun u v => f (k.x + u * (q.x - k.x) + v * (r.x - k.x)) (k.y + u * (q.y - k.y) + v * (r.y - k.y)) (k.z + u * (q.z - k.z) + v * (r.z - k.z)))
    (by
      unfold Function.uncurry
      exact hf.comp (f := fun p : ℝ × ℝ => (k.x + p.1 * (q.x - k.x) + p.2 * (r.x - k.x), k.y + p.1 * (q.y - k.y) + p.2 * (r.y - k.y), k.z + p.1 * (q.z - k.z) + p.2 * (r.z - k.z))) (by fun_prop)) h0 h1 (by
      intro u v huv
      apply hz
      rw [← hr]
      have : l * (q.z - k.z) ≤ (u + v) * (q.z - k.z) := mul_le_mul_of_nonneg_right huv hqk
      linarith)
  unfold flux
  rw [coord_smul, coord_smul]
  have e1 : simplex (fun v => f v.x v.y v.z) ⟨k, q, r⟩ = ∫ u in (0:ℝ)..1, ∫ v in (0:ℝ)..(1 - u),
      f (k.x + u * (q.x - k.x) + v * (r.x - k.x)) (k.y + u * (q.y - k.y) + v * (r.y - k.y)) (k.z + u * (q.z - k.z) + v * (r.z - k.z)) := rfl
  have e2 : simplex (fun v => f v.x v.y v.z) ⟨k, k + l • (q - k), k + l • (r - k)⟩ = ∫ u in (0:ℝ)..1, ∫ v in (0:ℝ)..(1 - u),
      f (k.x + l * u * (q.x - k.x) + l * v * (r.x - k.x)) (k.y + l * u * (q.y - k.y) + l * v * (r.y - k.y)) (k.z + l * u * (q.z - k.z) + l * v * (r.z - k.z)) := by
    unfold simplex
    refine intervalIntegral.integral_congr fun u _ => intervalIntegral.integral_congr fun v _ => ?_
    show f _ _ _ = f _ _ _
    congr 1 <;> simp <;> ring
  have en : coord i (normalVec ⟨k, k + l • (q - k), k + l • (r - k)⟩) = l * l * coord i (normalVec ⟨k, q, r⟩) := by
    unfold normalVec
    fin_cases i <;> simp [coord] <;> ring
  rw [en, e1, e2, ← hF]
  ring

theorem flux_dry (f : ℝ → ℝ → ℝ → ℝ) (hz : ∀ x y z, 0 ≤ z → f x y z = 0) (t : Tri) (hp : 0 ≤ t.p.z) (hq : t.q.z = t.p.z) (hr : t.r.z = t.p.z) (i : Fin 3) :
    coord i (flux (fun v => f v.x v.y v.z) t) = 0 := by
  have : simplex (fun v => f v.x v.y v.z) t = 0 := by
    unfold simplex
    have e : ∀ u v : ℝ, f (t.p + u • (t.q - t.p) + v • (t.r - t.p)).x (t.p + u • (t.q - t.p) + v • (t.r - t.p)).y (t.p + u • (t.q - t.p) + v • (t.r - t.p)).z = 0 := by
      intro u v
      apply hz
      simp only [V3.add_z, V3.smul_z, V3.sub_z, hq, hr]
      linarith
    simp only [e]
    simp
  unfold flux
  rw [coord_smul, this, zero_mul]

/-- The part under the sea of a cone of draught `l`, as the clipper leaves it: three faces and a waterline. -/
def coneMesh (l : ℝ) : SMesh :=
  ⟨4, fun | 0 => ⟨0, 0, -l⟩ | 1 => ⟨l, 0, 0⟩ | 2 => ⟨0, l, 0⟩ | 3 => 0 | _ => 0, [⟨0, 2, 1⟩, ⟨0, 1, 3⟩, ⟨0, 3, 2⟩], fun _ => 0, [[1, 2, 3, 1]]⟩

/-- The whole hull, in body axes: keel at (0, 0, -1), deck at z = 1. -/
def coneHull : List Tri :=
  [⟨⟨0, 0, -1⟩, ⟨0, 2, 1⟩, ⟨2, 0, 1⟩⟩, ⟨⟨0, 0, -1⟩, ⟨2, 0, 1⟩, ⟨0, 0, 1⟩⟩, ⟨⟨0, 0, -1⟩, ⟨0, 0, 1⟩, ⟨0, 2, 1⟩⟩, ⟨⟨2, 0, 1⟩, ⟨0, 2, 1⟩, ⟨0, 0, 1⟩⟩]

theorem coneMesh_rings (l : ℝ) : (coneMesh l).rings = [[⟨l, 0, 0⟩, ⟨0, l, 0⟩, 0, ⟨l, 0, 0⟩]] := by simp [SMesh.rings, coneMesh]

theorem coneMesh_good {l : ℝ} (hl : 0 < l) : Good (coneMesh l) := by
  have hva : vectorArea [(⟨l, 0, 0⟩ : V3), ⟨0, l, 0⟩, 0, ⟨l, 0, 0⟩] = ⟨0, 0, l * l / 2⟩ := by
    simp only [vectorArea]
    ext <;> simp
    ring
  refine ⟨⟨?_, ?_⟩, ?_⟩
  · intro k hk
    simp only [coneMesh, List.mem_singleton] at hk
    subst hk; rfl
  · have hp : ((coneMesh l).edges.map Prod.swap).Perm (coneMesh l).edges := by
      show ((([⟨0, 2, 1⟩, ⟨0, 1, 3⟩, ⟨0, 3, 2⟩] : List Face).flatMap faceEdges ++ [[1, 2, 3, 1]].flatMap loopEdges).map Prod.swap).Perm
        (([⟨0, 2, 1⟩, ⟨0, 1, 3⟩, ⟨0, 3, 2⟩] : List Face).flatMap faceEdges ++ [[1, 2, 3, 1]].flatMap loopEdges)
      decide
    intro a b
    have h1 := hp.count_eq (b, a)
    have h2 := List.count_map_of_injective (coneMesh l).edges Prod.swap Prod.swap_injective (a, b)
    simp only [Prod.swap_prod_mk] at h2
    rw [← h2, h1]
  · intro k hk
    rw [coneMesh_rings, List.mem_singleton] at hk
    subst hk
    refine ⟨?_, ?_⟩
    · rw [hva]; intro h
      have := congrArg V3.z h
      have h2 : l * l / 2 > 0 := by positivity
      exact absurd this h2.ne'
    · rw [hva]
      intro v hv
      unfold centroid
      simp only [sumPts, List.length_cons, List.length_nil]
      simp only [List.mem_cons, List.not_mem_nil, or_false] at hv
      rcases hv with rfl | rfl | rfl | rfl <;> simp [V3.dot]

theorem coneMesh_at (l : ℝ) : AtSurface (coneMesh l) := by
  intro k hk
  rw [coneMesh_rings, List.mem_singleton] at hk
  subst hk
  intro v hv
  simp only [List.mem_cons, List.not_mem_nil, or_false] at hv
  rcases hv with rfl | rfl | rfl | rfl <;> simp

theorem coneMesh_tris (l : ℝ) : (coneMesh l).tris = [⟨⟨0, 0, -l⟩, ⟨0, l, 0⟩, ⟨l, 0, 0⟩⟩, ⟨⟨0, 0, -l⟩, ⟨l, 0, 0⟩, 0⟩, ⟨⟨0, 0, -l⟩, 0, ⟨0, l, 0⟩⟩] := by
  simp [SMesh.tris, coneMesh, Face.turned, triOf]

theorem coneMesh_volume (l : ℝ) : volInt (fun _ => 1) 0 (coneMesh l).closedUp = l ^ 3 / 6 := by
  have hc : (coneMesh l).closedUp = (coneMesh l).tris ++ [⟨⟨l, 0, 0⟩, ⟨0, l, 0⟩, 0⟩, ⟨⟨l, 0, 0⟩, 0, ⟨l, 0, 0⟩⟩] := by
    unfold SMesh.closedUp SMesh.rings; rfl
  rw [hc, coneMesh_tris]; unfold volInt
  simp [tetInt_one, det, V3.dot]
  ring

/-- A body that heaves by sin(t)/2, without turning. -/
def heaver (t : ℝ) : ABody :=
  ⟨⟨⟨⟨0, 0, Real.sin t / 2⟩, Q.one⟩, ⟨0, 0, Real.cos t / 2⟩, ⟨0, 0, 0, 0⟩, 0, ⟨0, 0, Real.sin t / 2⟩, ⟨0, 0, Real.cos t / 2⟩⟩, ⟨0, 0, -Real.sin t / 2⟩, ⟨0, 0, 0, 0⟩⟩

/-- Bodies that move along a vertical without turning. -/
theorem vertical_moving {z z' z'' : ℝ → ℝ} (h1 : ∀ t, HasDerivAt z (z' t) t) (h2 : ∀ t, HasDerivAt z' (z'' t) t) :
    Moving fun t => (⟨⟨⟨⟨0, 0, z t⟩, Q.one⟩, ⟨0, 0, z' t⟩, ⟨0, 0, 0, 0⟩, 0, ⟨0, 0, z t⟩, ⟨0, 0, z' t⟩⟩, ⟨0, 0, z'' t⟩, ⟨0, 0, 0, 0⟩⟩ : ABody) := by
  refine ⟨fun _ => Q.isUnit_one, ?_, fun _ _ => rfl, ?_, ?_, ?_, ?_, ?_⟩
  · intro t
    rw [rotate_zero]
    ext <;> simp
  · intro t
    ext <;> simp [Body.pointSpeed, qvec, qpure]
  · exact fun t => ⟨hasDerivAt_const _ _, hasDerivAt_const _ _, h1 t⟩
  · exact fun t => ⟨hasDerivAt_const _ _, hasDerivAt_const _ _, h2 t⟩
  · exact fun t => ⟨hasDerivAt_const _ _, hasDerivAt_const _ _, hasDerivAt_const _ _, hasDerivAt_const _ _⟩
  · exact fun t => ⟨hasDerivAt_const _ _, hasDerivAt_const _ _, hasDerivAt_const _ _, hasDerivAt_const _ _⟩

theorem heaver_moving : Moving heaver := by
  refine vertical_moving (z := fun t => Real.sin t / 2) (z' := fun t => Real.cos t / 2) (z'' := fun t => -Real.sin t / 2) ?_ ?_
  · exact fun t => (Real.hasDerivAt_sin t).div_const 2
  · exact fun t => (Real.hasDerivAt_cos t).div_const 2

theorem heaver_seen (t : ℝ) (p : V3) : seenFrom (heaver t).body p = ⟨p.x, p.y, p.z + Real.sin t / 2⟩ := by
  have e : seenFrom (heaver t).body p = ⟨0, 0, Real.sin t / 2⟩ + rotate Q.one .NWU p - ⟨0, 0, 0⟩ := rfl
  rw [e]
  have : rotate Q.one .NWU p = p := by
    show Q.one.rotate p = p
    ext <;> simp [Q.rotate, Q.toMat, Q.one] <;> ring
  rw [this]
  ext <;> simp
  ring

/-- Its mesh is the wetted part of the cone. -/
theorem cone_wetted (t : ℝ) : Wetted (coneHull.map (carry (seenFrom (heaver t).body))) (coneMesh (1 - Real.sin t / 2)) := by
  obtain ⟨l, hl⟩ : ∃ l, l = 1 - Real.sin t / 2 := ⟨_, rfl⟩
  have b1 := Real.sin_le_one t
  have b2 := Real.neg_one_le_sin t
  have hl0 : 0 < l := by linarith
  have hl2 : l ≤ 2 := by linarith
  rw [← hl]
  refine ⟨?_, ?_⟩
  · intro T hT
    rw [coneMesh_tris] at hT
    simp only [List.mem_cons, List.not_mem_nil, or_false] at hT
    rcases hT with rfl | rfl | rfl <;> simp [hl0.le]
  · intro f hf hz i
    rw [coneMesh_tris]
    have key : ∀ q r : V3, q.z = 1 → r.z = 1 → coord i (flux (fun v => f v.x v.y v.z) ⟨⟨0, 0, -l⟩, ⟨l / 2 * q.x, l / 2 * q.y, 0⟩, ⟨l / 2 * r.x, l / 2 * r.y, 0⟩⟩) =
        coord i (flux (fun v => f v.x v.y v.z) (carry (seenFrom (heaver t).body) ⟨⟨0, 0, -1⟩, q, r⟩)) := by
      intro q r hq hr
      have h := flux_scaled f hf hz ⟨0, 0, -l⟩ ⟨q.x, q.y, 2 - l⟩ ⟨r.x, r.y, 2 - l⟩ (l := l / 2) (by linarith) (by linarith) (by show -l + l / 2 * (2 - l - -l) = 0; ring) rfl
        (by show -l ≤ 0; linarith) (by linarith) i
      have c : carry (seenFrom (heaver t).body) ⟨⟨0, 0, -1⟩, q, r⟩ = ⟨⟨0, 0, -l⟩, ⟨q.x, q.y, 2 - l⟩, ⟨r.x, r.y, 2 - l⟩⟩ := by
        unfold carry
        simp only [heaver_seen, hq, hr, hl]
        congr 1 <;> ext <;> simp <;> ring
      rw [c, ← h]
      congr 3
      · ext <;> simp
      · ext <;> simp
    have k1 := key ⟨0, 2, 1⟩ ⟨2, 0, 1⟩ rfl rfl
    have k2 := key ⟨2, 0, 1⟩ ⟨0, 0, 1⟩ rfl rfl
    have k3 := key ⟨0, 0, 1⟩ ⟨0, 2, 1⟩ rfl rfl
    have k4 := flux_dry f hz (carry (seenFrom (heaver t).body) ⟨⟨2, 0, 1⟩, ⟨0, 2, 1⟩, ⟨0, 0, 1⟩⟩)
      (by simp only [carry, heaver_seen]; linarith) (by simp only [carry, heaver_seen]) (by simp only [carry, heaver_seen]) i
    have z0 : (⟨0, 0, 0⟩ : V3) = 0 := rfl
    simp only [mul_zero, div_mul_cancel₀ l (two_ne_zero' ℝ), z0] at k1 k2 k3
    unfold coneHull
    simp only [List.map_cons, List.map_nil, List.sum_cons, List.sum_nil]
    rw [k1, k2, k3, k4]
    ring

/-- The hypotheses of `C191_power` are met by the heaving cone, which crosses the surface: the energy of the water changes at the rate -ρ g V w. -/
example (j : List V3 → Junk) (t : ℝ) :
    HasDerivAt (fun s => displacedEnergy 1000 10 (coneMesh (1 - Real.sin s / 2))) (-(1000 * 10 * ((1 - Real.sin t / 2) ^ 3 / 6) * (Real.cos t / 2))) t := by
  have hp : ∀ s, 0 < 1 - Real.sin s / 2 := fun s => by linarith [Real.sin_le_one s]
  have hV : volInt (fun _ => 1) 0 (coneMesh (1 - Real.sin t / 2)).closedUp ≠ 0 := by
    rw [coneMesh_volume]
    have := hp t
    positivity
  obtain ⟨f', h1, h2⟩ := C191_power j 1000 10 coneHull heaver heaver_moving (fun s => coneMesh (1 - Real.sin s / 2)) (fun s => coneMesh_good (hp s)) (fun s => coneMesh_at _)
    cone_wetted {} t (by simp [coneMesh]) hV
  obtain ⟨f'', k1, -, k3, -⟩ := C78_archimedes_partial j 1000 10 _ (coneMesh_good (hp t)) (coneMesh_at _) (by simp [coneMesh]) 0 hV (heaver t).body
    ⟨heaver_moving.unit t, heaver_moving.placed t⟩ {}
  obtain rfl : f' = f'' := Option.some.inj (h1.symm.trans k1)
  refine (h2 0).congr_deriv ?_
  have hw : (heaver t).body.angVelWorld .NWU = 0 := by
    unfold Body.angVelWorld Body.wvelPar
    ext <;> simp [heaver, qvec, Q.mul, conv]
  have hv : ((heaver t).body.velWorldAtPointInBody 0 .NWU).z = Real.cos t / 2 := by
    have := (C160_motion heaver heaver_moving 0 (Node.new Body.new) t .NWU)
    have e : (fun s => (heaver s).body.pointInWorld 0 .NWU) = fun s => (heaver s).body.cogPositionInWorld .NWU := by
      funext s
      unfold Body.pointInWorld Body.toWorld rotate
      rw [conv_zero, rotate_zero, conv_zero]
      ext <;> simp [Body.getPosition, Body.cogPositionInWorld, heaver, conv]
    have u := HasVel.unique (e ▸ this.1) this.2.2.1
    rw [u]
    rfl
  rw [hw, k3, coneMesh_volume]
  simp only [V3.dot, hv]
  simp

/-! ## A box that sinks -/

/-- A box of 2000 kg and 1 m³, released at rest under the sea. -/
def sinker (t : ℝ) : DBody :=
  { a := ⟨⟨⟨⟨0, 0, -5 - 5 * t ^ 2 / 2⟩, Q.one⟩, ⟨0, 0, -(5 * t)⟩, ⟨0, 0, 0, 0⟩, 0, ⟨0, 0, -5 - 5 * t ^ 2 / 2⟩, ⟨0, 0, -(5 * t)⟩⟩, ⟨0, 0, -5⟩, ⟨0, 0, 0, 0⟩⟩, mass := 2000, I := M3.one }

theorem sinker_moving : Moving fun t => (sinker t).a := by
  refine vertical_moving (z := fun t => -5 - 5 * t ^ 2 / 2) (z' := fun t => -(5 * t)) (z'' := fun _ => -5) ?_ ?_
  · intro t
    have := (((hasDerivAt_id t).pow 2).const_mul 5).div_const 2 |>.const_sub (-5)
    refine this.congr_deriv ?_
    simp
    ring
  · intro t
    have := ((hasDerivAt_id t).const_mul (5:ℝ)).neg
    refine this.congr_deriv ?_
    simp

/-- Its hull, wholly under the sea. -/
def sunkMesh (t : ℝ) : SMesh := (box (fun _ => 0) 1 1 1).translate ⟨0, 0, -5 - 5 * t ^ 2 / 2⟩

theorem sunk_good (t : ℝ) : Good (sunkMesh t) :=
  ⟨⟨(box_boundary (fun _ => 0) 1 1 1).1, (box_boundary (fun _ => 0) 1 1 1).2⟩, by intro l hl; simp [sunkMesh, SMesh.translate, box, SMesh.rings] at hl⟩
theorem sunk_at (t : ℝ) : AtSurface (sunkMesh t) := by intro l hl; simp [sunkMesh, SMesh.translate, box, SMesh.rings] at hl
theorem sunk_volume (t : ℝ) : volInt (fun _ => 1) 0 (sunkMesh t).closedUp = 1 := by
  have j : List V3 → Junk := fun _ => ⟨0, 0, 0, 0⟩
  have h1 := C71_volume (sunkMesh t) (sunk_good t) j 0
  have h2 := (C76_translate (box (fun _ => 0) 1 1 1) (box_good _ 1 1 1) j ⟨0, 0, -5 - 5 * t ^ 2 / 2⟩).2.1
  have h3 := (C75_box (fun _ => 0) 1 1 1 1 (by norm_num) j).1
  rw [h3] at h2
  have := Option.some.inj (h1.symm.trans h2)
  rw [this]
  norm_num
theorem sunk_centre (j : List V3 → Junk) (t : ℝ) : (sunkMesh t).getCOG j = some ⟨0, 0, -5 - 5 * t ^ 2 / 2⟩ := by
  have h3 := C75_box (fun _ => 0) 1 1 1 1 (by norm_num) j
  obtain ⟨G, hG, hG'⟩ := (C76_translate (box (fun _ => 0) 1 1 1) (box_good _ 1 1 1) j ⟨0, 0, -5 - 5 * t ^ 2 / 2⟩).2.2 _ h3.1 (by norm_num)
  obtain rfl : G = 0 := Option.some.inj (hG.symm.trans h3.2.1)
  refine Eq.trans hG' ?_
  congr 1
  ext <;> simp

theorem sunk_seen (t : ℝ) (p : V3) : seenFrom (sinker t).body p = p + ⟨0, 0, -5 - 5 * t ^ 2 / 2⟩ := by
  have e : seenFrom (sinker t).body p = ⟨0, 0, -5 - 5 * t ^ 2 / 2⟩ + rotate Q.one .NWU p - ⟨0, 0, 0⟩ := rfl
  rw [e]
  have : rotate Q.one .NWU p = p := by
    show Q.one.rotate p = p
    ext <;> simp [Q.rotate, Q.toMat, Q.one] <;> ring
  rw [this]
  ext <;> simp
  ring

theorem sunk_tris (t : ℝ) : (sunkMesh t).tris = (box (fun _ => 0) 1 1 1).tris.map (carry (seenFrom (sinker t).body)) := by
  unfold SMesh.tris
  rw [List.map_map]
  refine List.map_congr_left fun f _ => ?_
  show triOf (sunkMesh t).pos f = carry _ (triOf (box (fun _ => 0) 1 1 1).pos f)
  unfold carry triOf
  simp only [sunk_seen]
  rfl

theorem sunk_wetted (t : ℝ) : Wetted ((box (fun _ => 0) 1 1 1).tris.map (carry (seenFrom (sinker t).body))) (sunkMesh t) := by
  refine ⟨?_, ?_⟩
  · intro T hT
    rw [sunk_tris] at hT
    obtain ⟨U, hU, rfl⟩ := List.mem_map.mp hT
    have hb : ∀ i, ((box (fun _ => 0) 1 1 1).pos i).z ≤ 1 := by
      intro i
      simp only [box]
      unfold boxPos
      split <;> norm_num
    have hU' : U.p.z ≤ 1 ∧ U.q.z ≤ 1 ∧ U.r.z ≤ 1 := by
      unfold SMesh.tris at hU
      obtain ⟨f, -, rfl⟩ := List.mem_map.mp hU
      exact ⟨hb _, hb _, hb _⟩
    simp only [carry, sunk_seen, V3.add_z]
    have := sq_nonneg t
    exact ⟨by linarith [hU'.1], by linarith [hU'.2.1], by linarith [hU'.2.2]⟩
  · intro f _ _ i
    rw [sunk_tris]

/-- The load computed: the weight of 1 m³ of water, at the COG. -/
theorem sunk_load (j : List V3 → Junk) (t : ℝ) : ∃ F, computePlaneForce j 1000 10 (sunkMesh t) (sinker t).body {} = some F ∧ F.force = ⟨0, 0, 10000⟩ ∧ F.torque = 0 := by
  have hpl : Placed (sinker t).body := ⟨sinker_moving.unit t, sinker_moving.placed t⟩
  have hF : hydrostaticForce 1000 10 (sunkMesh t) .NWU = ⟨0, 0, 10000⟩ := by
    rw [force_eq, pressure_force_sum (sunk_good t).boundary (sunk_at t) 1000 10 0, sunk_volume]
    show (⟨0, 0, _⟩ : V3) = _
    norm_num
  have h2 : computePlaneForce j 1000 10 (sunkMesh t) (sinker t).body {} =
      some (({} : Force).setForceInWorldAtPointInWorld (sinker t).body ⟨0, 0, 10000⟩ ⟨0, 0, -5 - 5 * t ^ 2 / 2⟩ .NWU) := by
    unfold computePlaneForce centreOfBuoyancy
    rw [if_neg (by simp [sunkMesh, SMesh.translate, box]), sunk_centre, hF]
    show some (Force.setForceInWorldAtPointInWorld _ _ _ ((⟨0, 0, -5 - 5 * t ^ 2 / 2⟩ : V3) + ⟨0, 0, 0⟩) .NWU) = _
    congr 2
    ext <;> simp
  refine ⟨_, h2, ?_⟩
  obtain ⟨l1, l2⟩ := (C52_point_forces {} (sinker t).body hpl ⟨0, 0, 10000⟩ ⟨0, 0, -5 - 5 * t ^ 2 / 2⟩ .NWU).2.1
  generalize ({} : Force).setForceInWorldAtPointInWorld (sinker t).body ⟨0, 0, 10000⟩ ⟨0, 0, -5 - 5 * t ^ 2 / 2⟩ .NWU = F at l1 l2
  refine ⟨l1, ?_⟩
  have h := l2 ⟨0, 0, -5 - 5 * t ^ 2 / 2⟩
  have e : F.getTorqueInWorldAtPointInWorld (sinker t).body ⟨0, 0, -5 - 5 * t ^ 2 / 2⟩ .NWU =
      rotate Q.one .NWU F.torque + V3.cross ((⟨0, 0, -5 - 5 * t ^ 2 / 2⟩ : V3) - ⟨0, 0, -5 - 5 * t ^ 2 / 2⟩) F.force := rfl
  have r : rotate Q.one .NWU F.torque = F.torque := by
    show Q.one.rotate F.torque = F.torque
    ext <;> simp [Q.rotate, Q.toMat, Q.one] <;> ring
  rw [e, r] at h
  have hx := congrArg V3.x h
  have hy := congrArg V3.y h
  have hz := congrArg V3.z h
  simp at hx hy hz
  ext
  · exact hx
  · exact hy
  · exact hz

/-- The hypotheses of `C191_energy` are met by the sinking box: half of the energy of its weight goes to the water, half to its speed. -/
example (t : ℝ) : bodyEnergy 10 (sinker t) + displacedEnergy 1000 10 (sunkMesh t) = bodyEnergy 10 (sinker 0) + displacedEnergy 1000 10 (sunkMesh 0) := by
  have j : List V3 → Junk := fun _ => ⟨0, 0, 0, 0⟩
  choose F h1 h2 h3 using sunk_load j
  have hw : ∀ t, (sinker t).wvelLoc = 0 := by
    intro t
    unfold DBody.wvelLoc Body.wvelPar
    have : (2:ℝ) • qvec ((sinker t).body.rotDt.mul (sinker t).body.cog.rot.conj) = 0 := by
      ext <;> simp [sinker, DBody.body, qvec, Q.mul]
    rw [this, rotate_zero]
  refine C191_energy j 1000 10 (box (fun _ => 0) 1 1 1).tris sinker sinker_moving (fun _ _ => rfl) (fun _ _ => rfl) ?_ (fun _ => rfl) (fun _ => rfl) sunkMesh sunk_good sunk_at sunk_wetted
    (by intro s; simp [sunkMesh, SMesh.translate, box]) (by intro s; rw [sunk_volume]; norm_num) (fun _ => {}) F h1 (fun _ => rfl) ?_ ?_ ?_ t 0
  · intro t u v
    show V3.dot u (M3.one.mulVec v) = V3.dot (M3.one.mulVec u) v
    simp [V3.dot, M3.mulVec, M3.one]
  · intro t
    rw [hw]
    show (0 : V3) = _
    ext <;> simp
  · intro t
    show (2000:ℝ) • (⟨0, 0, -5⟩ : V3) = (0 : V3) + (1:ℝ) • ((0 : V3) + ((F t).force + 0) + (-((2000:ℝ) * 10)) • V3.e3)
    rw [h2]
    ext <;> simp [V3.e3]
    norm_num
  · intro t
    have e : (sinker t).a.angAccBody .NWU = 0 := by
      have : (sinker t).a.waccPar = 0 := by
        ext <;> simp [sinker, ABody.waccPar, qvec, Q.mul]
      unfold ABody.angAccBody ABody.angAccWorld
      rw [this, toBody_conv, rotate_zero, conv_zero]
    rw [e]
    show M3.mulVec M3.one 0 = (0 : V3) + (1:ℝ) • ((0 : V3) + ((F t).torque + 0) - 0)
    rw [h3]
    ext <;> simp

end Frydom.Hydro
