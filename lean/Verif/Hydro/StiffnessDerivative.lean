import Verif.Hydro.LinearHydrostatics
import Verif.Hydro.WaterlineStrip
import Verif.Mesh.MotionProps
import Mathlib.Analysis.SpecialFunctions.Trigonometric.Deriv

/-!
# The hydrostatic stiffness is the derivative of the hydrostatic load (C183)

`FrHydrostaticsProperties` (Hydrostatics.lean, C80) integrates over the water plane; `FrLinearHydrostaticForce` multiplies the matrix by (heave, roll, pitch). Here the load itself is written from
scratch: the pressure of the sea at rest on the whole surface of the hull, and the weight, for a hull heaved and turned, without any clipping. The matrix of the code is minus its derivative.
-/

noncomputable section

namespace Frydom.Hydro
open Frydom.Geom Frydom.Mesh Frydom.Mesh.Surface Frydom.Mesh.Clip
open Filter Topology

/-! ## Specification -/

/-- Depth of water over a point: zero above the sea. -/
def depth (v : V3) : ℝ := max (-v.z) 0

/-- Force of the sea at rest on a triangle: integral of -ρ g depth n. -/
def seaForce (rho g : ℝ) (t : Tri) : V3 := (-(rho * g)) • flux depth t
/-- Its moment about `P`. -/
def seaMoment (rho g : ℝ) (P : V3) (t : Tri) : V3 :=
  (-(rho * g)) • ⟨(flux (fun v => (v.y - P.y) * depth v) t).z - (flux (fun v => (v.z - P.z) * depth v) t).y,
    (flux (fun v => (v.z - P.z) * depth v) t).x - (flux (fun v => (v.x - P.x) * depth v) t).z,
    (flux (fun v => (v.x - P.x) * depth v) t).y - (flux (fun v => (v.y - P.y) * depth v) t).x⟩

/-- Where a point of the body goes: heave `h` and rotation `R` about `r`. -/
def displaced (r : V3) (h : ℝ) (R : M3) (v : V3) : V3 := r + ⟨0, 0, h⟩ + R.mulVec (v - r)
def displacedTri (r : V3) (h : ℝ) (R : M3) (t : Tri) : Tri := ⟨displaced r h R t.p, displaced r h R t.q, displaced r h R t.r⟩

/-- Rotation of roll `a` and pitch `b` (Cardan angles of the API). -/
def rollPitch (a b : ℝ) : M3 := (setCardan .NWU ⟨a, b, 0⟩).toMat

/-- Vertical force on the displaced hull `T` of mass `m`. -/
def verticalLoad (rho g m : ℝ) (r : V3) (T : List Tri) (h : ℝ) (R : M3) : ℝ :=
  (sumV ((T.map (displacedTri r h R)).map (seaForce rho g))).z - m * g
/-- Moment on it about the displaced point `r`, the weight being applied at the displaced centre of gravity `G`. -/
def momentLoad (rho g m : ℝ) (G r : V3) (T : List Tri) (h : ℝ) (R : M3) : V3 :=
  sumV ((T.map (displacedTri r h R)).map (seaMoment rho g (displaced r h R r))) +
    V3.cross (displaced r h R G - displaced r h R r) ⟨0, 0, -(m * g)⟩

/-- The triangle is under the sea (it may touch the surface), and is not in its plane. -/
def Wet (t : Tri) : Prop := t.p.z ≤ 0 ∧ t.q.z ≤ 0 ∧ t.r.z ≤ 0 ∧ (t.p.z ≠ 0 ∨ t.q.z ≠ 0 ∨ t.r.z ≠ 0)
/-- The triangle is above the sea (it may touch the surface), and is not in its plane. -/
def Dry (t : Tri) : Prop := 0 ≤ t.p.z ∧ 0 ≤ t.q.z ∧ 0 ≤ t.r.z ∧ (t.p.z ≠ 0 ∨ t.q.z ≠ 0 ∨ t.r.z ≠ 0)

/-! ## Integrals of the depth -/

/-- Weight of a load or of a moment: `k xᵢ - P`. -/
def weightAt (k : ℝ) (i : Fin 3) (P : ℝ) (v : V3) : ℝ := k * coord i v - P

theorem weight_aff (k : ℝ) (i : Fin 3) (P : ℝ) (t : Tri) (u v : ℝ) :
    weightAt k i P (t.p + u • (t.q - t.p) + v • (t.r - t.p)) = aff (weightAt k i P t.p) (weightAt k i P t.q) (weightAt k i P t.r) u v := by
  unfold weightAt aff
  rw [coord_affine]
  ring

theorem flux_depth (k : ℝ) (i : Fin 3) (P : ℝ) (t : Tri) :
    flux (fun v => weightAt k i P v * depth v) t =
      stripInt (-t.p.z) (-t.q.z) (-t.r.z) (weightAt k i P t.p) (weightAt k i P t.q) (weightAt k i P t.r) • normalVec t := by
  unfold flux simplex stripInt
  congr 1
  refine intervalIntegral.integral_congr fun u _ => intervalIntegral.integral_congr fun v _ => ?_
  show weightAt k i P _ * depth _ = _
  rw [weight_aff]
  unfold depth aff
  congr 2
  simp only [V3.add_z, V3.smul_z, V3.sub_z]
  ring

theorem flux_altitude (k : ℝ) (i : Fin 3) (P : ℝ) (t : Tri) :
    flux (fun v => weightAt k i P v * v.z) t =
      mul2 (weightAt k i P t.p) (weightAt k i P t.q) (weightAt k i P t.r) t.p.z t.q.z t.r.z • normalVec t := by
  unfold flux simplex mul2
  congr 1
  rw [← simplex_mul]
  refine intervalIntegral.integral_congr fun u _ => intervalIntegral.integral_congr fun v _ => ?_
  show weightAt k i P _ * _ = _
  rw [weight_aff]
  unfold aff
  simp only [V3.add_z, V3.smul_z, V3.sub_z]

/-- Depth is minus the altitude, up to what is above the sea. -/
theorem strip_split (a b c a' b' c' : ℝ) : stripInt (-a) (-b) (-c) a' b' c' = stripInt a b c a' b' c' - mul2 a' b' c' a b c := by
  have e : mul2 a' b' c' a b c = ∫ u in (0:ℝ)..1, ∫ v in (0:ℝ)..(1 - u), aff a' b' c' u v * aff a b c u v := by
    unfold mul2 aff
    rw [simplex_mul]
  rw [e]
  unfold stripInt
  rw [← intervalIntegral.integral_sub]
  · refine intervalIntegral.integral_congr fun u _ => ?_
    show _ = (∫ v in (0:ℝ)..(1 - u), _) - ∫ v in (0:ℝ)..(1 - u), _
    rw [← intervalIntegral.integral_sub]
    · refine intervalIntegral.integral_congr fun v _ => ?_
      show aff a' b' c' u v * max (aff (-a) (-b) (-c) u v) 0 = aff a' b' c' u v * max (aff a b c u v) 0 - aff a' b' c' u v * aff a b c u v
      have h1 : aff (-a) (-b) (-c) u v = -aff a b c u v := by unfold aff; ring
      rw [h1, ← mul_sub]
      congr 1
      generalize aff a b c u v = z
      rcases le_total z 0 with h | h
      · rw [max_eq_left (by linarith), max_eq_right h]; ring
      · rw [max_eq_right (by linarith), max_eq_left h]; ring
    · apply Continuous.intervalIntegrable; unfold aff; fun_prop
    · apply Continuous.intervalIntegrable; unfold aff; fun_prop
  · apply Continuous.intervalIntegrable
    exact intervalIntegral.continuous_parametric_intervalIntegral_of_continuous (f := fun u v => aff a' b' c' u v * max (aff a b c u v) 0)
      (s := fun u => 1 - u) (by unfold Function.uncurry aff; fun_prop) (by fun_prop)
  · apply Continuous.intervalIntegrable
    exact intervalIntegral.continuous_parametric_intervalIntegral_of_continuous (f := fun u v => aff a' b' c' u v * aff a b c u v)
      (s := fun u => 1 - u) (by unfold Function.uncurry aff; fun_prop) (by fun_prop)

/-! ## The motion -/

/-- A motion that starts from rest at the origin of the parameter with rates of heave `h'`, roll `a` and pitch `b`. -/
structure Starts (h : ℝ → ℝ) (R : ℝ → M3) (h' a b : ℝ) : Prop where
  rot : ∀ s, (R s).IsRot
  h0 : h 0 = 0
  R0 : R 0 = ⟨1, 0, 0, 0, 1, 0, 0, 0, 1⟩
  dh : HasDerivAt h h' 0
  d00 : HasDerivAt (fun s => (R s).a00) 0 0
  d01 : HasDerivAt (fun s => (R s).a01) 0 0
  d02 : HasDerivAt (fun s => (R s).a02) b 0
  d10 : HasDerivAt (fun s => (R s).a10) 0 0
  d11 : HasDerivAt (fun s => (R s).a11) 0 0
  d12 : HasDerivAt (fun s => (R s).a12) (-a) 0
  d20 : HasDerivAt (fun s => (R s).a20) (-b) 0
  d21 : HasDerivAt (fun s => (R s).a21) a 0
  d22 : HasDerivAt (fun s => (R s).a22) 0 0

/-- Rate of a coordinate of a point. -/
def rate (h' a b : ℝ) (r v : V3) : Fin 3 → ℝ
  | 0 => b * (v.z - r.z)
  | 1 => -(a * (v.z - r.z))
  | 2 => h' + a * (v.y - r.y) - b * (v.x - r.x)

variable {h : ℝ → ℝ} {R : ℝ → M3} {h' a b : ℝ}

theorem Starts.at0 (S : Starts h R h' a b) (r v : V3) : displaced r (h 0) (R 0) v = v := by
  unfold displaced
  rw [S.h0, S.R0]
  ext <;> simp [M3.mulVec]

theorem Starts.tri0 (S : Starts h R h' a b) (r : V3) (t : Tri) : displacedTri r (h 0) (R 0) t = t := by
  unfold displacedTri
  rw [S.at0, S.at0, S.at0]

theorem Starts.deriv (S : Starts h R h' a b) (r v : V3) (i : Fin 3) :
    HasDerivAt (fun s => coord i (displaced r (h s) (R s) v)) (rate h' a b r v i) 0 := by
  fin_cases i
  · show HasDerivAt (fun s => r.x + 0 + ((R s).a00 * (v.x - r.x) + (R s).a01 * (v.y - r.y) + (R s).a02 * (v.z - r.z))) (b * (v.z - r.z)) 0
    exact ((((S.d00.mul_const (v.x - r.x)).add (S.d01.mul_const (v.y - r.y))).add (S.d02.mul_const (v.z - r.z))).const_add (r.x + 0)).congr_deriv (by ring)
  · show HasDerivAt (fun s => r.y + 0 + ((R s).a10 * (v.x - r.x) + (R s).a11 * (v.y - r.y) + (R s).a12 * (v.z - r.z))) (-(a * (v.z - r.z))) 0
    exact ((((S.d10.mul_const (v.x - r.x)).add (S.d11.mul_const (v.y - r.y))).add (S.d12.mul_const (v.z - r.z))).const_add (r.y + 0)).congr_deriv (by ring)
  · show HasDerivAt (fun s => r.z + h s + ((R s).a20 * (v.x - r.x) + (R s).a21 * (v.y - r.y) + (R s).a22 * (v.z - r.z))) (h' + a * (v.y - r.y) - b * (v.x - r.x)) 0
    exact ((S.dh.const_add r.z).add (((S.d20.mul_const (v.x - r.x)).add (S.d21.mul_const (v.y - r.y))).add (S.d22.mul_const (v.z - r.z)))).congr_deriv (by ring)

theorem Starts.dz (S : Starts h R h' a b) (r v : V3) : HasDerivAt (fun s => (displaced r (h s) (R s) v).z) (rate h' a b r v 2) 0 := S.deriv r v 2

theorem Starts.normal (S : Starts h R h' a b) (r : V3) (t : Tri) (m : Fin 3) :
    ∃ d, HasDerivAt (fun s => coord m (normalVec (displacedTri r (h s) (R s) t))) d 0 := by
  have p := fun i => S.deriv r t.p i
  have q := fun i => S.deriv r t.q i
  have w := fun i => S.deriv r t.r i
  fin_cases m
  · exact ⟨_, (((q 1).sub (p 1)).mul ((w 2).sub (p 2))).sub (((q 2).sub (p 2)).mul ((w 1).sub (p 1)))⟩
  · exact ⟨_, (((q 2).sub (p 2)).mul ((w 0).sub (p 0))).sub (((q 0).sub (p 0)).mul ((w 2).sub (p 2)))⟩
  · exact ⟨_, (((q 0).sub (p 0)).mul ((w 1).sub (p 1))).sub (((q 1).sub (p 1)).mul ((w 0).sub (p 0)))⟩

theorem Starts.weight (S : Starts h R h' a b) (r v : V3) (k : ℝ) (i : Fin 3) {P : ℝ → ℝ} {P' : ℝ} (hP : HasDerivAt P P' 0) :
    HasDerivAt (fun s => weightAt k i (P s) (displaced r (h s) (R s) v)) (k * rate h' a b r v i - P') 0 :=
  ((S.deriv r v i).const_mul k).sub hP

/-! ## Faces: what emerges or is immersed does not count -/

theorem dry_deriv (S : Starts h R h' a b) (r : V3) {t : Tri} (ht : Dry t) (k : ℝ) (i m : Fin 3) {P : ℝ → ℝ} {P' : ℝ} (hP : HasDerivAt P P' 0) :
    HasDerivAt (fun s => coord m (flux (fun v => weightAt k i (P s) v * depth v) (displacedTri r (h s) (R s) t))) 0 0 := by
  obtain ⟨d, hd⟩ := S.normal r t m
  have e : (fun s => coord m (flux (fun v => weightAt k i (P s) v * depth v) (displacedTri r (h s) (R s) t))) =
      fun s => stripInt (-(displaced r (h s) (R s) t.p).z) (-(displaced r (h s) (R s) t.q).z) (-(displaced r (h s) (R s) t.r).z)
        (weightAt k i (P s) (displaced r (h s) (R s) t.p)) (weightAt k i (P s) (displaced r (h s) (R s) t.q)) (weightAt k i (P s) (displaced r (h s) (R s) t.r)) *
        coord m (normalVec (displacedTri r (h s) (R s) t)) := by
    funext s
    rw [flux_depth, coord_smul]
    rfl
  rw [e]
  obtain ⟨h1, h2, h3, h4⟩ := ht
  have := stripInt_deriv (S.dz r t.p).neg (S.dz r t.q).neg (S.dz r t.r).neg (S.weight r t.p k i hP) (S.weight r t.q k i hP) (S.weight r t.r k i hP)
    (by show -(displaced r (h 0) (R 0) t.p).z ≤ 0; rw [S.at0]; linarith) (by show -(displaced r (h 0) (R 0) t.q).z ≤ 0; rw [S.at0]; linarith)
    (by show -(displaced r (h 0) (R 0) t.r).z ≤ 0; rw [S.at0]; linarith)
    (by show -(displaced r (h 0) (R 0) t.p).z ≠ 0 ∨ -(displaced r (h 0) (R 0) t.q).z ≠ 0 ∨ -(displaced r (h 0) (R 0) t.r).z ≠ 0
        rw [S.at0, S.at0, S.at0]; simpa using h4)
  have h0 : stripInt (-(displaced r (h 0) (R 0) t.p).z) (-(displaced r (h 0) (R 0) t.q).z) (-(displaced r (h 0) (R 0) t.r).z)
        (weightAt k i (P 0) (displaced r (h 0) (R 0) t.p)) (weightAt k i (P 0) (displaced r (h 0) (R 0) t.q)) (weightAt k i (P 0) (displaced r (h 0) (R 0) t.r)) = 0 := by
    have := stripInt_zero (a := -(displaced r (h 0) (R 0) t.p).z) (b := -(displaced r (h 0) (R 0) t.q).z) (c := -(displaced r (h 0) (R 0) t.r).z)
      (a' := weightAt k i (P 0) (displaced r (h 0) (R 0) t.p)) (b' := weightAt k i (P 0) (displaced r (h 0) (R 0) t.q)) (c' := weightAt k i (P 0) (displaced r (h 0) (R 0) t.r))
    rw [S.at0, S.at0, S.at0] at this ⊢
    exact this (by linarith) (by linarith) (by linarith)
  refine (this.mul hd).congr_deriv ?_
  rw [zero_mul, zero_add]
  exact mul_eq_zero_of_left h0 _

theorem wet_deriv (S : Starts h R h' a b) (r : V3) {t : Tri} (ht : Wet t) (k : ℝ) (i m : Fin 3) {P : ℝ → ℝ} {P' : ℝ} (hP : HasDerivAt P P' 0) :
    HasDerivAt (fun s => coord m (flux (fun v => weightAt k i (P s) v * depth v) (displacedTri r (h s) (R s) t)) +
      coord m (flux (fun v => weightAt k i (P s) v * v.z) (displacedTri r (h s) (R s) t))) 0 0 := by
  obtain ⟨d, hd⟩ := S.normal r t m
  have e : (fun s => coord m (flux (fun v => weightAt k i (P s) v * depth v) (displacedTri r (h s) (R s) t)) +
      coord m (flux (fun v => weightAt k i (P s) v * v.z) (displacedTri r (h s) (R s) t))) =
      fun s => stripInt ((displaced r (h s) (R s) t.p).z) ((displaced r (h s) (R s) t.q).z) ((displaced r (h s) (R s) t.r).z)
        (weightAt k i (P s) (displaced r (h s) (R s) t.p)) (weightAt k i (P s) (displaced r (h s) (R s) t.q)) (weightAt k i (P s) (displaced r (h s) (R s) t.r)) *
        coord m (normalVec (displacedTri r (h s) (R s) t)) := by
    funext s
    rw [flux_depth, flux_altitude, coord_smul, coord_smul, strip_split]
    simp only [displacedTri]
    ring
  rw [e]
  obtain ⟨h1, h2, h3, h4⟩ := ht
  have := stripInt_deriv (S.dz r t.p) (S.dz r t.q) (S.dz r t.r) (S.weight r t.p k i hP) (S.weight r t.q k i hP) (S.weight r t.r k i hP)
    (by rw [S.at0]; exact h1) (by rw [S.at0]; exact h2) (by rw [S.at0]; exact h3) (by rw [S.at0, S.at0, S.at0]; exact h4)
  have h0 : stripInt ((displaced r (h 0) (R 0) t.p).z) ((displaced r (h 0) (R 0) t.q).z) ((displaced r (h 0) (R 0) t.r).z)
        (weightAt k i (P 0) (displaced r (h 0) (R 0) t.p)) (weightAt k i (P 0) (displaced r (h 0) (R 0) t.q)) (weightAt k i (P 0) (displaced r (h 0) (R 0) t.r)) = 0 := by
    rw [S.at0, S.at0, S.at0]
    exact stripInt_zero h1 h2 h3
  refine (this.mul hd).congr_deriv ?_
  rw [zero_mul, zero_add]
  exact mul_eq_zero_of_left h0 _

theorem deriv_sum (f : Tri → ℝ → ℝ) (f' : Tri → ℝ) (T : List Tri) (hT : ∀ t ∈ T, HasDerivAt (f t) (f' t) 0) :
    HasDerivAt (fun s => (T.map fun t => f t s).sum) (T.map f').sum 0 := by
  induction T with
  | nil => exact hasDerivAt_const _ _
  | cons t T ih =>
    simp only [List.map_cons, List.sum_cons]
    exact (hT t (by simp)).add (ih fun u hu => hT u (List.mem_cons_of_mem _ hu))

theorem sum_const_zero (T : List Tri) : (T.map fun _ => (0:ℝ)).sum = 0 := sum_zero_of _ _ fun _ _ => rfl

/-- Depth on the whole hull, altitude on its wetted part: they differ by nothing at first order. -/
theorem hull_deriv (S : Starts h R h' a b) (r : V3) {W D : List Tri} (hW : ∀ t ∈ W, Wet t) (hD : ∀ t ∈ D, Dry t) (k : ℝ) (i m : Fin 3) {P : ℝ → ℝ} {P' : ℝ}
    (hP : HasDerivAt P P' 0) :
    HasDerivAt (fun s => ((W ++ D).map fun t => coord m (flux (fun v => weightAt k i (P s) v * depth v) (displacedTri r (h s) (R s) t))).sum +
      (W.map fun t => coord m (flux (fun v => weightAt k i (P s) v * v.z) (displacedTri r (h s) (R s) t))).sum) 0 0 := by
  have h1 := deriv_sum (fun t s => coord m (flux (fun v => weightAt k i (P s) v * depth v) (displacedTri r (h s) (R s) t)) +
      coord m (flux (fun v => weightAt k i (P s) v * v.z) (displacedTri r (h s) (R s) t))) (fun _ => 0) W fun t ht => wet_deriv S r (hW t ht) k i m hP
  have h2 := deriv_sum (fun t s => coord m (flux (fun v => weightAt k i (P s) v * depth v) (displacedTri r (h s) (R s) t))) (fun _ => 0) D
    fun t ht => dry_deriv S r (hD t ht) k i m hP
  refine ((h1.add h2).congr_deriv (by rw [sum_const_zero, sum_const_zero, add_zero])).congr_of_eventuallyEq (Eventually.of_forall fun s => ?_)
  simp only [Pi.add_apply, List.map_append, List.sum_append, sum_map_add]
  ring

/-! ## The lids -/

/-- Rate of the load of the altitude on a triangle of the water plane. -/
theorem lid_deriv (S : Starts h R h' a b) (r : V3) {t : Tri} (h1 : t.p.z = 0) (h2 : t.q.z = 0) (h3 : t.r.z = 0) (k : ℝ) (i m : Fin 3) {P : ℝ → ℝ} {P' : ℝ}
    (hP : HasDerivAt P P' 0) :
    HasDerivAt (fun s => coord m (flux (fun v => weightAt k i (P s) v * v.z) (displacedTri r (h s) (R s) t)))
      (mul2 (weightAt k i (P 0) t.p) (weightAt k i (P 0) t.q) (weightAt k i (P 0) t.r) (rate h' a b r t.p 2) (rate h' a b r t.q 2) (rate h' a b r t.r 2) *
        coord m (normalVec t)) 0 := by
  obtain ⟨d, hd⟩ := S.normal r t m
  have e : (fun s => coord m (flux (fun v => weightAt k i (P s) v * v.z) (displacedTri r (h s) (R s) t))) =
      fun s => mul2 (weightAt k i (P s) (displaced r (h s) (R s) t.p)) (weightAt k i (P s) (displaced r (h s) (R s) t.q)) (weightAt k i (P s) (displaced r (h s) (R s) t.r))
        (displaced r (h s) (R s) t.p).z (displaced r (h s) (R s) t.q).z (displaced r (h s) (R s) t.r).z * coord m (normalVec (displacedTri r (h s) (R s) t)) := by
    funext s
    rw [flux_altitude, coord_smul]
    rfl
  rw [e]
  have w1 := S.weight r t.p k i hP
  have w2 := S.weight r t.q k i hP
  have w3 := S.weight r t.r k i hP
  have z1 := S.dz r t.p
  have z2 := S.dz r t.q
  have z3 := S.dz r t.r
  have hm := ((((w1.mul z1).add (w2.mul z2)).add (w3.mul z3)).add (((w1.add w2).add w3).mul ((z1.add z2).add z3))).div_const 24
  refine (hm.mul hd).congr_deriv ?_
  simp only [Pi.add_apply, Pi.mul_apply, S.at0, S.tri0, h1, h2, h3]
  unfold mul2
  ring

theorem waterInt_fans (f : V3 → ℝ) (M : SMesh) : waterInt f M = ((M.rings.flatMap fan).map fun t => coord 2 (flux f t)).sum := by
  unfold waterInt
  induction M.rings with
  | nil => rfl
  | cons l L ih => rw [List.flatMap_cons, List.map_append, List.sum_append, List.map_cons, List.sum_cons, ih]; rfl

theorem lid_flat {M : SMesh} (h0 : AtSurface M) {t : Tri} (ht : t ∈ M.rings.flatMap fan) : t.p.z = 0 ∧ t.q.z = 0 ∧ t.r.z = 0 := by
  obtain ⟨l, hl, h1, h2, h3⟩ := mem_fans ht
  exact ⟨h0 l hl _ h1, h0 l hl _ h2, h0 l hl _ h3⟩

theorem lid_normal {t : Tri} (h1 : t.p.z = 0) (h2 : t.q.z = 0) (h3 : t.r.z = 0) : (normalVec t).x = 0 ∧ (normalVec t).y = 0 := by
  unfold normalVec
  simp [h1, h2, h3]

theorem horizontal_of_level : ∀ (l : List V3), (∀ v ∈ l, v.z = 0) → Horizontal l := by
  intro l
  induction l with
  | nil => intro _; exact ⟨rfl, rfl⟩
  | cons p l ih =>
    intro h
    cases l with
    | nil => exact ⟨rfl, rfl⟩
    | cons q l =>
      obtain ⟨e1, e2⟩ := ih fun v hv => h v (List.mem_cons_of_mem _ hv)
      have hp := h p (by simp)
      have hq := h q (by simp)
      refine ⟨?_, ?_⟩
      · rw [vectorArea]; simp [e1, hp, hq]
      · rw [vectorArea]; simp [e2, hp, hq]

/-- The lids in motion: heave, roll and pitch of the water plane. -/
theorem lids_deriv (S : Starts h R h' a b) (r : V3) {M : SMesh} (h0 : AtSurface M) (k : ℝ) (i : Fin 3) {P : ℝ → ℝ} {P' : ℝ} (hP : HasDerivAt P P' 0) (m : Fin 3) :
    HasDerivAt (fun s => ((M.rings.flatMap fan).map fun t => coord m (flux (fun v => weightAt k i (P s) v * v.z) (displacedTri r (h s) (R s) t))).sum)
      (if m = 2 then h' * waterInt (weightAt k i (P 0)) M + a * waterInt (fun v => weightAt k i (P 0) v * (v.y - r.y)) M -
        b * waterInt (fun v => weightAt k i (P 0) v * (v.x - r.x)) M else 0) 0 := by
  refine (deriv_sum _ _ (M.rings.flatMap fan) fun t ht => lid_deriv S r (lid_flat h0 ht).1 (lid_flat h0 ht).2.1 (lid_flat h0 ht).2.2 k i m hP).congr_deriv ?_
  by_cases hm : m = 2
  · subst hm
    rw [if_pos rfl, waterInt_fans, waterInt_fans, waterInt_fans, ← sum_map_mul, ← sum_map_mul, ← sum_map_mul, ← sum_map_add, ← sum_map_sub]
    congr 1
    refine List.map_congr_left fun t ht => ?_
    have e0 : flux (weightAt k i (P 0)) t = ((weightAt k i (P 0) t.p + weightAt k i (P 0) t.q + weightAt k i (P 0) t.r) / 6) • normalVec t := by
      unfold flux simplex
      simp only [weight_aff]
      unfold aff
      rw [simplex_lin]
      rfl
    have e1 : ∀ (c : Fin 3) (d : ℝ), flux (fun v => weightAt k i (P 0) v * (coord c v - d)) t =
        mul2 (weightAt k i (P 0) t.p) (weightAt k i (P 0) t.q) (weightAt k i (P 0) t.r) (coord c t.p - d) (coord c t.q - d) (coord c t.r - d) • normalVec t := by
      intro c d
      unfold flux simplex mul2
      congr 1
      rw [← simplex_mul]
      refine intervalIntegral.integral_congr fun u _ => intervalIntegral.integral_congr fun v _ => ?_
      show weightAt k i (P 0) _ * (coord c _ - d) = _
      rw [weight_aff, coord_affine]
      unfold aff
      ring
    have e2 : flux (fun v => weightAt k i (P 0) v * (v.y - r.y)) t = _ := e1 1 r.y
    have e3 : flux (fun v => weightAt k i (P 0) v * (v.x - r.x)) t = _ := e1 0 r.x
    rw [e0, e2, e3, coord_smul, coord_smul, coord_smul]
    unfold mul2 rate
    simp only [coord]
    ring
  · rw [if_neg hm]
    refine sum_zero_of _ _ fun t ht => ?_
    obtain ⟨h1, h2, h3⟩ := lid_flat h0 ht
    obtain ⟨n1, n2⟩ := lid_normal h1 h2 h3
    have : coord m (normalVec t) = 0 := by
      fin_cases m
      · exact n1
      · exact n2
      · exact absurd rfl hm
    rw [this, mul_zero]

/-! ## The closed surface in motion -/

theorem displaced_move (r : V3) (h : ℝ) (R : M3) (v : V3) : displaced r h R v = move R (r + ⟨0, 0, h⟩ - R.mulVec r) v := by
  unfold displaced move
  ext <;> simp [M3.mulVec] <;> ring

theorem moved_sum (M : SMesh) (r : V3) (h : ℝ) (R : M3) (f : Tri → ℝ) :
    ((M.moved R (r + ⟨0, 0, h⟩ - R.mulVec r)).closedUp.map f).sum =
      (M.tris.map fun t => f (displacedTri r h R t)).sum + ((M.rings.flatMap fan).map fun t => f (displacedTri r h R t)).sum := by
  rw [closedUp_moved]
  have e : (fun T : Tri => (⟨move R (r + ⟨0, 0, h⟩ - R.mulVec r) T.p, move R (r + ⟨0, 0, h⟩ - R.mulVec r) T.q, move R (r + ⟨0, 0, h⟩ - R.mulVec r) T.r⟩ : Tri)) =
      displacedTri r h R := by
    funext t
    unfold displacedTri
    rw [displaced_move, displaced_move, displaced_move]
  rw [e]
  unfold SMesh.closedUp
  rw [List.map_append, List.map_append, List.sum_append, List.map_map, List.map_map]
  rfl

theorem moved_volume {R : M3} (hR : R.IsRot) (M : SMesh) (r : V3) (h : ℝ) (O : V3) (f : V3 → ℝ) :
    volInt f (displaced r h R O) (M.moved R (r + ⟨0, 0, h⟩ - R.mulVec r)).closedUp = volInt (fun v => f (displaced r h R v)) O M.closedUp := by
  rw [displaced_move, volInt_moved hR]
  congr 1
  funext v
  rw [displaced_move]

/-- Force on the closed surface: the volume. -/
theorem closed_force (M : SMesh) (hM : M.IsBoundary) {R : M3} (hR : R.IsRot) (r : V3) (h : ℝ) (O : V3) :
    (M.tris.map fun t => coord 2 (flux (fun v => weightAt 0 0 (-1) v * v.z) (displacedTri r h R t))).sum +
      ((M.rings.flatMap fan).map fun t => coord 2 (flux (fun v => weightAt 0 0 (-1) v * v.z) (displacedTri r h R t))).sum = volInt (fun _ => 1) O M.closedUp := by
  have hb : (M.moved R (r + ⟨0, 0, h⟩ - R.mulVec r)).IsBoundary := ⟨hM.closed, hM.paired⟩
  have := closed1 _ hb (displaced r h R O) 2
  rw [if_pos rfl, moved_volume hR, moved_sum] at this
  rw [← this]
  have e : (fun v : V3 => weightAt 0 0 (-1) v * v.z) = fun v => v.z := by
    funext v; unfold weightAt; ring
  rw [e]

/-- Moment on it: that of the volume at its centre. -/
theorem closed_moment (M : SMesh) (hM : M.IsBoundary) {R : M3} (hR : R.IsRot) (r : V3) (h : ℝ) (O : V3) (i m : Fin 3) (him : m ≠ i) (P : ℝ) (hP : P = coord i (displaced r h R r)) :
    (M.tris.map fun t => coord m (flux (fun v => weightAt 1 i P v * v.z) (displacedTri r h R t))).sum +
      ((M.rings.flatMap fan).map fun t => coord m (flux (fun v => weightAt 1 i P v * v.z) (displacedTri r h R t))).sum =
    if m = 2 then coord i (R.mulVec ⟨volInt (fun v => v.x) O M.closedUp - r.x * volInt (fun _ => 1) O M.closedUp,
      volInt (fun v => v.y) O M.closedUp - r.y * volInt (fun _ => 1) O M.closedUp, volInt (fun v => v.z) O M.closedUp - r.z * volInt (fun _ => 1) O M.closedUp⟩) else 0 := by
  have hb : (M.moved R (r + ⟨0, 0, h⟩ - R.mulVec r)).IsBoundary := ⟨hM.closed, hM.paired⟩
  have := closed2 _ hb (displaced r h R O) i m P
  rw [if_neg him, zero_add, moved_sum, moved_volume hR, moved_volume hR] at this
  have e : (fun v : V3 => weightAt 1 i P v * v.z) = fun v => (coord i v - P) * v.z := by
    funext v; unfold weightAt; ring
  rw [e, this]
  by_cases hm : m = 2
  · rw [if_pos hm, if_pos hm, hP]
    fin_cases i
    · show volInt (fun v => r.x + 0 + (R.a00 * (v.x - r.x) + R.a01 * (v.y - r.y) + R.a02 * (v.z - r.z))) O M.closedUp -
        (r.x + 0 + (R.a00 * (r.x - r.x) + R.a01 * (r.y - r.y) + R.a02 * (r.z - r.z))) * _ = R.a00 * _ + R.a01 * _ + R.a02 * _
      have e : (fun v : V3 => r.x + 0 + (R.a00 * (v.x - r.x) + R.a01 * (v.y - r.y) + R.a02 * (v.z - r.z))) =
          fun v => R.a00 * v.x + R.a01 * v.y + R.a02 * v.z + (r.x - R.a00 * r.x - R.a01 * r.y - R.a02 * r.z) := by funext v; ring
      rw [e, volInt_affine]
      ring
    · show volInt (fun v => r.y + 0 + (R.a10 * (v.x - r.x) + R.a11 * (v.y - r.y) + R.a12 * (v.z - r.z))) O M.closedUp -
        (r.y + 0 + (R.a10 * (r.x - r.x) + R.a11 * (r.y - r.y) + R.a12 * (r.z - r.z))) * _ = R.a10 * _ + R.a11 * _ + R.a12 * _
      have e : (fun v : V3 => r.y + 0 + (R.a10 * (v.x - r.x) + R.a11 * (v.y - r.y) + R.a12 * (v.z - r.z))) =
          fun v => R.a10 * v.x + R.a11 * v.y + R.a12 * v.z + (r.y - R.a10 * r.x - R.a11 * r.y - R.a12 * r.z) := by funext v; ring
      rw [e, volInt_affine]
      ring
    · exact absurd hm him
  · rw [if_neg hm, if_neg hm]

/-! ## The three loads -/

theorem vertical_eq (rho g m : ℝ) (r : V3) (T : List Tri) (h : ℝ) (R : M3) :
    verticalLoad rho g m r T h R = -(rho * g) * (T.map fun t => coord 2 (flux (fun v => weightAt 0 0 (-1) v * depth v) (displacedTri r h R t))).sum - m * g := by
  have e : (fun v : V3 => weightAt 0 0 (-1) v * depth v) = depth := by
    funext v; unfold weightAt; ring
  unfold verticalLoad
  rw [e, ← sum_map_mul]
  show coord 2 (sumV _) - m * g = _
  rw [sumV_coord, List.map_map, List.map_map]
  rfl

/-- The sums of a moment. -/
def momentSum (r : V3) (T : List Tri) (h : ℝ) (R : M3) (i m : Fin 3) : ℝ :=
  (T.map fun t => coord m (flux (fun v => weightAt 1 i (coord i (displaced r h R r)) v * depth v) (displacedTri r h R t))).sum

theorem moment_eq (rho g m : ℝ) (G r : V3) (T : List Tri) (h : ℝ) (R : M3) :
    (momentLoad rho g m G r T h R).x = -(rho * g) * (momentSum r T h R 1 2 - momentSum r T h R 2 1) + (coord 1 (displaced r h R G) - coord 1 (displaced r h R r)) * -(m * g) ∧
    (momentLoad rho g m G r T h R).y = -(rho * g) * (momentSum r T h R 2 0 - momentSum r T h R 0 2) + (coord 0 (displaced r h R G) - coord 0 (displaced r h R r)) * (m * g) := by
  have e : ∀ i P, (fun v : V3 => weightAt 1 i P v * depth v) = fun v => (coord i v - P) * depth v := by
    intro i P
    funext v; unfold weightAt; ring
  unfold momentLoad momentSum
  constructor
  · show coord 0 (sumV _) + ((displaced r h R G - displaced r h R r).y * -(m * g) - (displaced r h R G - displaced r h R r).z * 0) = _
    rw [sumV_coord, List.map_map, List.map_map, e, e, ← sum_map_sub, ← sum_map_mul, mul_zero, sub_zero]
    rfl
  · show coord 1 (sumV _) + ((displaced r h R G - displaced r h R r).z * 0 - (displaced r h R G - displaced r h R r).x * -(m * g)) = _
    rw [sumV_coord, List.map_map, List.map_map, e, e, ← sum_map_sub, ← sum_map_mul, mul_zero, zero_sub, mul_neg, neg_neg]
    rfl

theorem vertical_deriv (S : Starts h R h' a b) (rho g m : ℝ) (r : V3) {M : SMesh} (hM : M.IsBoundary) (h0 : AtSurface M) (hW : ∀ t ∈ M.tris, Wet t) {D : List Tri}
    (hD : ∀ t ∈ D, Dry t) :
    HasDerivAt (fun s => verticalLoad rho g m r (M.tris ++ D) (h s) (R s))
      (-(rho * g) * (h' * waterInt (fun _ => 1) M + a * waterInt (fun v => v.y - r.y) M - b * waterInt (fun v => v.x - r.x) M)) 0 := by
  have hP : HasDerivAt (fun _ : ℝ => (-1 : ℝ)) 0 0 := hasDerivAt_const _ _
  have h1 := hull_deriv S r hW hD 0 0 2 hP
  have h2 := lids_deriv S r h0 0 0 hP 2
  rw [if_pos rfl] at h2
  have w1 : weightAt 0 0 (-1) = fun _ => 1 := by funext v; unfold weightAt; ring
  rw [w1] at h2
  simp only [one_mul] at h2
  refine ((((h1.add h2).add_const (-volInt (fun _ => 1) 0 M.closedUp)).const_mul (-(rho * g))).sub_const (m * g)).congr_deriv ?_ |>.congr_of_eventuallyEq
    (Eventually.of_forall fun s => ?_)
  · rw [zero_add]
  · simp only [Pi.add_apply]
    rw [vertical_eq, ← closed_force M hM (S.rot s) r (h s) 0]
    rw [w1]
    ring_nf

/-- Rate of a sum of a moment. -/
theorem momentSum_deriv (S : Starts h R h' a b) (r : V3) {M : SMesh} (hM : M.IsBoundary) (h0 : AtSurface M) (hW : ∀ t ∈ M.tris, Wet t) {D : List Tri} (hD : ∀ t ∈ D, Dry t)
    (O : V3) (i m : Fin 3) (him : m ≠ i) :
    HasDerivAt (fun s => momentSum r (M.tris ++ D) (h s) (R s) i m)
      (if m = 2 then h' * waterInt (fun v => coord i v - coord i r) M + a * waterInt (fun v => (coord i v - coord i r) * (v.y - r.y)) M -
        b * waterInt (fun v => (coord i v - coord i r) * (v.x - r.x)) M -
        rate 0 a b 0 ⟨volInt (fun v => v.x) O M.closedUp - r.x * volInt (fun _ => 1) O M.closedUp, volInt (fun v => v.y) O M.closedUp - r.y * volInt (fun _ => 1) O M.closedUp,
          volInt (fun v => v.z) O M.closedUp - r.z * volInt (fun _ => 1) O M.closedUp⟩ i else 0) 0 := by
  have hP := S.deriv r r i
  have h1 := hull_deriv S r hW hD 1 i m hP
  have h2 := lids_deriv S r h0 1 i hP m
  have w1 : weightAt 1 i (coord i (displaced r (h 0) (R 0) r)) = fun v => coord i v - coord i r := by
    funext v; rw [S.at0]; unfold weightAt; ring
  rw [w1] at h2
  set C : V3 := ⟨volInt (fun v => v.x) O M.closedUp - r.x * volInt (fun _ => 1) O M.closedUp, volInt (fun v => v.y) O M.closedUp - r.y * volInt (fun _ => 1) O M.closedUp,
    volInt (fun v => v.z) O M.closedUp - r.z * volInt (fun _ => 1) O M.closedUp⟩ with hC
  have h3 : HasDerivAt (fun s => if m = 2 then coord i ((R s).mulVec C) else 0) (if m = 2 then rate 0 a b 0 C i else 0) 0 := by
    by_cases hm : m = 2
    · simp only [if_pos hm]
      have S' : Starts (fun _ => 0) R 0 a b := { S with h0 := rfl, dh := hasDerivAt_const _ _ }
      refine (S'.deriv 0 C i).congr_of_eventuallyEq (Eventually.of_forall fun s => ?_)
      show coord i ((R s).mulVec C) = coord i (displaced 0 0 (R s) C)
      congr 1
      unfold displaced
      ext <;> simp [M3.mulVec]
    · simp only [if_neg hm]
      exact hasDerivAt_const _ _
  refine ((h1.add h2).sub h3).congr_deriv ?_ |>.congr_of_eventuallyEq (Eventually.of_forall fun s => ?_)
  · rw [zero_add]
    by_cases hm : m = 2
    · rw [if_pos hm, if_pos hm, if_pos hm]
    · rw [if_neg hm, if_neg hm, if_neg hm, sub_zero]
  · simp only [Pi.add_apply, Pi.sub_apply]
    rw [hC, ← closed_moment M hM (S.rot s) r (h s) O i m him _ rfl]
    unfold momentSum
    ring

/-! ## Heave, roll and pitch -/

theorem rollPitch_eq (a b : ℝ) : rollPitch a b =
    ⟨Real.cos b, Real.sin a * Real.sin b, Real.cos a * Real.sin b, 0, Real.cos a, -Real.sin a, -Real.sin b, Real.cos b * Real.sin a, Real.cos b * Real.cos a⟩ := by
  unfold rollPitch setCardan convAngles
  rw [eulerToQuat_toMat]
  unfold eulerToMat
  ext <;> simp

/-- Heave, roll and pitch that start from zero. -/
theorem starts_of {h p q : ℝ → ℝ} {h' p' q' : ℝ} (h0 : h 0 = 0) (p0 : p 0 = 0) (q0 : q 0 = 0) (dh : HasDerivAt h h' 0) (dp : HasDerivAt p p' 0) (dq : HasDerivAt q q' 0) :
    Starts h (fun s => rollPitch (p s) (q s)) h' p' q' where
  rot := fun s => Q.isRot (eulerToQuat_unit _ _ _)
  h0 := h0
  R0 := by
    show rollPitch (p 0) (q 0) = _
    rw [p0, q0, rollPitch_eq]
    ext <;> simp
  dh := dh
  d00 := by
    simp only [rollPitch_eq]
    exact dq.cos.congr_deriv (by rw [q0]; simp)
  d01 := by
    simp only [rollPitch_eq]
    exact (dp.sin.mul dq.sin).congr_deriv (by rw [p0, q0]; simp)
  d02 := by
    simp only [rollPitch_eq]
    exact (dp.cos.mul dq.sin).congr_deriv (by rw [p0, q0]; simp)
  d10 := by
    simp only [rollPitch_eq]
    exact hasDerivAt_const _ _
  d11 := by
    simp only [rollPitch_eq]
    exact dp.cos.congr_deriv (by rw [p0]; simp)
  d12 := by
    simp only [rollPitch_eq]
    exact dp.sin.neg.congr_deriv (by rw [p0]; simp)
  d20 := by
    simp only [rollPitch_eq]
    exact dq.sin.neg.congr_deriv (by rw [q0]; simp)
  d21 := by
    simp only [rollPitch_eq]
    exact (dq.cos.mul dp.sin).congr_deriv (by rw [p0, q0]; simp)
  d22 := by
    simp only [rollPitch_eq]
    exact (dq.cos.mul dp.cos).congr_deriv (by rw [p0, q0]; simp)

/-! ## C183 -/

/-- **C183.** A hull whose wetted part is the mesh `M` given to the hydrostatics (boundary in the plane of the sea, outer loops) and the rest `D` above the sea, no face lying in the plane of the sea, of the
mass it displaces, centre of gravity `G` anywhere, reduction point `r` anywhere: the computation gives a matrix which is minus the derivative of the load of the sea and of the weight on the whole hull, for every
heave, roll and pitch that start from the position studied. -/
theorem C183_stiffness (j : List V3 → Junk) (rho g : ℝ) (G r : V3) (M : SMesh) (hg : Good M) (hl : M.loops ≠ []) (h0 : AtSurface M) (ho : AllOuter M) (hW : ∀ t ∈ M.tris, Wet t)
    (D : List Tri) (hD : ∀ t ∈ D, Dry t) (O : V3) (V : ℝ) (hV : V = volInt (fun _ => 1) O M.closedUp) (hV0 : V ≠ 0) :
    ∃ p, (Props.new rho g G r .NWU).compute j M = some p ∧
      ∀ (heave roll pitch : ℝ → ℝ) (h' a b : ℝ), heave 0 = 0 → roll 0 = 0 → pitch 0 = 0 → HasDerivAt heave h' 0 → HasDerivAt roll a 0 → HasDerivAt pitch b 0 →
        HasDerivAt (fun s => verticalLoad rho g (rho * V) r (M.tris ++ D) (heave s) (rollPitch (roll s) (pitch s)))
          (-(p.K.getK33 * h' + p.K.getK34 * a + p.K.getK35 * b)) 0 ∧
        HasDerivAt (fun s => (momentLoad rho g (rho * V) G r (M.tris ++ D) (heave s) (rollPitch (roll s) (pitch s))).x)
          (-(p.K.getK34 * h' + p.K.getK44 * a + p.K.getK45 * b)) 0 ∧
        HasDerivAt (fun s => (momentLoad rho g (rho * V) G r (M.tris ++ D) (heave s) (rollPitch (roll s) (pitch s))).y)
          (-(p.K.getK35 * h' + p.K.getK45 * a + p.K.getK55 * b)) 0 := by
  have hh : AllHorizontal M := fun l hl => horizontal_of_level l (h0 l hl)
  obtain ⟨p, B, hp, hB, hs⟩ := C80_properties_partial j rho g G r .NWU M hg hl hh ho O (hV ▸ hV0)
  rw [← hV] at hB hs
  refine ⟨p, hp, ?_⟩
  intro heave roll pitch h' a b e1 e2 e3 d1 d2 d3
  have S := starts_of e1 e2 e3 d1 d2 d3
  have hBz : volInt (fun v => v.z) O M.closedUp = V * B.z := (congrArg V3.z hB).symm
  have cr : conv FC.NWU r = r := rfl
  have cG : conv FC.NWU G = G := rfl
  have k33 := hs.K33
  have k34 := hs.K34
  have k35 := hs.K35
  have k45 := hs.K45
  have k44 : p.K.getK44 = rho * g * waterInt (fun v => (v.y - r.y) ^ 2) M + rho * g * V * (B.z - G.z) := by
    rw [hs.K44, hs.heightT, hs.radiusT, cr, cG]
    field_simp
    ring
  have k55 : p.K.getK55 = rho * g * waterInt (fun v => (v.x - r.x) ^ 2) M + rho * g * V * (B.z - G.z) := by
    rw [hs.K55, hs.heightL, hs.radiusL, cr, cG]
    field_simp
    ring
  rw [cr] at k34 k35 k45
  refine ⟨?_, ?_, ?_⟩
  · refine (vertical_deriv S rho g (rho * V) r hg.boundary h0 hW hD).congr_deriv ?_
    rw [k33, k34, k35]
    ring
  · have s12 := momentSum_deriv S r hg.boundary h0 hW hD O 1 2 (by decide)
    have s21 := momentSum_deriv S r hg.boundary h0 hW hD O 2 1 (by decide)
    rw [if_pos rfl] at s12
    rw [if_neg (by decide)] at s21
    refine (((s12.sub s21).const_mul (-(rho * g))).add (((S.deriv r G 1).sub (S.deriv r r 1)).mul_const (-(rho * V * g)))).congr_deriv ?_ |>.congr_of_eventuallyEq
      (Eventually.of_forall fun s => (moment_eq rho g (rho * V) G r _ (heave s) (rollPitch (roll s) (pitch s))).1)
    have q1 : waterInt (fun v => (v.y - r.y) * (v.y - r.y)) M = waterInt (fun v => (v.y - r.y) ^ 2) M := by congr 1; funext v; ring
    have q2 : waterInt (fun v => (v.y - r.y) * (v.x - r.x)) M = waterInt (fun v => (v.x - r.x) * (v.y - r.y)) M := by congr 1; funext v; ring
    rw [k34, k44, k45]
    simp only [rate, coord, q1, q2, hBz, ← hV, V3.zero_z]
    ring
  · have s20 := momentSum_deriv S r hg.boundary h0 hW hD O 2 0 (by decide)
    have s02 := momentSum_deriv S r hg.boundary h0 hW hD O 0 2 (by decide)
    rw [if_neg (by decide)] at s20
    rw [if_pos rfl] at s02
    refine (((s20.sub s02).const_mul (-(rho * g))).add (((S.deriv r G 0).sub (S.deriv r r 0)).mul_const (rho * V * g))).congr_deriv ?_ |>.congr_of_eventuallyEq
      (Eventually.of_forall fun s => (moment_eq rho g (rho * V) G r _ (heave s) (rollPitch (roll s) (pitch s))).2)
    have q1 : waterInt (fun v => (v.x - r.x) * (v.x - r.x)) M = waterInt (fun v => (v.x - r.x) ^ 2) M := by congr 1; funext v; ring
    rw [k35, k55, k45]
    simp only [rate, coord, q1, hBz, ← hV, V3.zero_z]
    ring

/-- The hypotheses are met: the hull of `Buoyancy` (keel at (0, 0, -1)) with a deck ending in a point at (0, 0, 1); the vertical force decreases by 5000 per unit of heave. -/
example (j : List V3 → Junk) (first : Face → Fin 3) :
    let top : List Tri := [⟨⟨1, 0, 0⟩, ⟨0, 1, 0⟩, ⟨0, 0, 1⟩⟩, ⟨⟨0, 1, 0⟩, 0, ⟨0, 0, 1⟩⟩, ⟨0, ⟨1, 0, 0⟩, ⟨0, 0, 1⟩⟩]
    HasDerivAt (fun s => verticalLoad 1000 10 (1000 * (1 / 6)) ⟨1, 2, 3⟩ ((hull first).tris ++ top) s (rollPitch 0 0)) (-5000) 0 := by
  intro top
  have hW : ∀ t ∈ (hull first).tris, Wet t := by
    intro t ht
    unfold SMesh.tris at ht
    obtain ⟨f, hf, rfl⟩ := List.mem_map.mp ht
    generalize (hull first).first f = k
    simp only [hull, List.mem_cons, List.not_mem_nil, or_false] at hf
    rcases hf with rfl | rfl | rfl <;> fin_cases k <;> simp [Face.turned, triOf, hull, Wet]
  have hD : ∀ t ∈ top, Dry t := by
    intro t ht
    simp only [top, List.mem_cons, List.not_mem_nil, or_false] at ht
    rcases ht with rfl | rfl | rfl <;> simp [Dry]
  have hh : AllHorizontal (hull first) := fun l hl => by rw [Horizontal, hull_rings first l hl]; simp
  have ho : AllOuter (hull first) := fun l hl => by rw [Outer, hull_rings first l hl]; norm_num
  obtain ⟨p, hp, hs⟩ := C183_stiffness j 1000 10 ⟨0, 0, 5⟩ ⟨1, 2, 3⟩ (hull first) (hull_good first) (by simp [hull]) (hull_at first) ho hW top hD 0 (1 / 6)
    (hull_volume first).symm (by norm_num)
  obtain ⟨p', B, h1, -, h3⟩ := C80_properties_partial j 1000 10 ⟨0, 0, 5⟩ ⟨1, 2, 3⟩ .NWU (hull first) (hull_good first) (by simp [hull]) hh ho 0
    (by rw [hull_volume]; norm_num)
  obtain rfl : p = p' := Option.some.inj (hp.symm.trans h1)
  have hw : waterInt (fun _ => 1) (hull first) = 1 / 2 := by
    have : (hull first).rings = [[(⟨1, 0, 0⟩ : V3), ⟨0, 1, 0⟩, 0, ⟨1, 0, 0⟩]] := by simp [SMesh.rings, hull]
    unfold waterInt loopInt
    rw [this]
    simp only [flux_one, fan, fan.go, List.map_cons, List.map_nil, List.sum_cons, List.sum_nil, normalVec]
    simp
  refine (hs id (fun _ => 0) (fun _ => 0) 1 0 0 rfl rfl rfl (hasDerivAt_id 0) (hasDerivAt_const 0 (0 : ℝ)) (hasDerivAt_const 0 (0 : ℝ))).1.congr_deriv ?_
  rw [h3.K33, hw]
  norm_num

end Frydom.Hydro
