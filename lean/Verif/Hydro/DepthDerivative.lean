import Verif.Hydro.StiffnessDerivative
import Verif.Link.Link

/-!
# The integral of the square of the depth along a motion (lemmas for C191)
-/

noncomputable section

namespace Frydom.Hydro
open Frydom.Geom Frydom.Mesh Frydom.Mesh.Surface Frydom.Mesh.Clip
open Frydom.Link (HasVel)
open Filter Topology

/-- Integral over the unit simplex of the square of the positive part of an affine function. -/
def sqInt (a b c : ℝ) : ℝ := ∫ u in (0:ℝ)..1, ∫ v in (0:ℝ)..(1 - u), max (aff a b c u v) 0 ^ 2

theorem simplex_mono {f g : ℝ → ℝ → ℝ} (hf : Continuous (Function.uncurry f)) (hg : Continuous (Function.uncurry g)) (h : ∀ u v, f u v ≤ g u v) :
    (∫ u in (0:ℝ)..1, ∫ v in (0:ℝ)..(1 - u), f u v) ≤ ∫ u in (0:ℝ)..1, ∫ v in (0:ℝ)..(1 - u), g u v := by
  refine intervalIntegral.integral_mono_on zero_le_one ?_ ?_ ?_
  · apply Continuous.intervalIntegrable
    exact intervalIntegral.continuous_parametric_intervalIntegral_of_continuous (f := f) (s := fun u => 1 - u) hf (by fun_prop)
  · apply Continuous.intervalIntegrable
    exact intervalIntegral.continuous_parametric_intervalIntegral_of_continuous (f := g) (s := fun u => 1 - u) hg (by fun_prop)
  · intro u hu
    refine intervalIntegral.integral_mono_on (by linarith [hu.2]) ?_ ?_ fun v _ => h u v
    · apply Continuous.intervalIntegrable
      exact hf.comp (by fun_prop : Continuous fun v : ℝ => (u, v))
    · apply Continuous.intervalIntegrable
      exact hg.comp (by fun_prop : Continuous fun v : ℝ => (u, v))

theorem simplex_lc {f g h : ℝ → ℝ → ℝ} (hf : Continuous (Function.uncurry f)) (hg : Continuous (Function.uncurry g)) (hh : Continuous (Function.uncurry h)) (x y z : ℝ) :
    (∫ u in (0:ℝ)..1, ∫ v in (0:ℝ)..(1 - u), (x * f u v + y * g u v + z * h u v)) =
      x * (∫ u in (0:ℝ)..1, ∫ v in (0:ℝ)..(1 - u), f u v) + y * (∫ u in (0:ℝ)..1, ∫ v in (0:ℝ)..(1 - u), g u v) + z * ∫ u in (0:ℝ)..1, ∫ v in (0:ℝ)..(1 - u), h u v := by
  have ci : ∀ {k : ℝ → ℝ → ℝ}, Continuous (Function.uncurry k) → ∀ (c : ℝ) (u : ℝ), IntervalIntegrable (fun v => c * k u v) MeasureTheory.volume 0 (1 - u) := by
    intro k hk c u
    apply Continuous.intervalIntegrable
    exact continuous_const.mul (hk.comp (by fun_prop : Continuous fun v : ℝ => (u, v)))
  have co : ∀ {k : ℝ → ℝ → ℝ}, Continuous (Function.uncurry k) → ∀ c : ℝ, IntervalIntegrable (fun u => c * ∫ v in (0:ℝ)..(1 - u), k u v) MeasureTheory.volume 0 1 := by
    intro k hk c
    apply Continuous.intervalIntegrable
    exact continuous_const.mul (intervalIntegral.continuous_parametric_intervalIntegral_of_continuous (f := k) (s := fun u => 1 - u) hk (by fun_prop))
  have e : ∀ u : ℝ, (∫ v in (0:ℝ)..(1 - u), (x * f u v + y * g u v + z * h u v)) =
      x * (∫ v in (0:ℝ)..(1 - u), f u v) + y * (∫ v in (0:ℝ)..(1 - u), g u v) + z * ∫ v in (0:ℝ)..(1 - u), h u v := by
    intro u
    rw [intervalIntegral.integral_add ((ci hf x u).add (ci hg y u)) (ci hh z u), intervalIntegral.integral_add (ci hf x u) (ci hg y u),
      intervalIntegral.integral_const_mul, intervalIntegral.integral_const_mul, intervalIntegral.integral_const_mul]
  simp only [e]
  rw [intervalIntegral.integral_add ((co hf x).add (co hg y)) (co hh z), intervalIntegral.integral_add (co hf x) (co hg y),
      intervalIntegral.integral_const_mul, intervalIntegral.integral_const_mul, intervalIntegral.integral_const_mul]

theorem sq_pos_part (x y : ℝ) : |max y 0 ^ 2 - max x 0 ^ 2 - 2 * (max x 0 * (y - x))| ≤ (y - x) ^ 2 := by
  rcases le_total y 0 with hy | hy <;> rcases le_total x 0 with hx | hx
  · rw [max_eq_right hy, max_eq_right hx]; rw [abs_le]; constructor <;> nlinarith [sq_nonneg (y - x)]
  · rw [max_eq_right hy, max_eq_left hx, abs_le]; constructor <;> nlinarith [sq_nonneg (y - x), sq_nonneg y]
  · rw [max_eq_left hy, max_eq_right hx, abs_le]; constructor <;> nlinarith [sq_nonneg (y - x), sq_nonneg x]
  · rw [max_eq_left hy, max_eq_left hx, abs_le]; constructor <;> nlinarith [sq_nonneg (y - x)]

theorem strip_linear (a b c x y z : ℝ) : stripInt a b c x y z = x * stripInt a b c 1 0 0 + y * stripInt a b c 0 1 0 + z * stripInt a b c 0 0 1 := by
  unfold stripInt
  rw [← simplex_lc (by unfold Function.uncurry aff; fun_prop) (by unfold Function.uncurry aff; fun_prop) (by unfold Function.uncurry aff; fun_prop)]
  refine intervalIntegral.integral_congr fun u _ => intervalIntegral.integral_congr fun v _ => ?_
  show aff x y z u v * _ = x * (aff 1 0 0 u v * _) + y * (aff 0 1 0 u v * _) + z * (aff 0 0 1 u v * _)
  unfold aff
  ring

/-- Remainder of the first order expansion. -/
theorem sqInt_expand (a b c a' b' c' : ℝ) :
    |sqInt a' b' c' - sqInt a b c - 2 * stripInt a b c (a' - a) (b' - b) (c' - c)| ≤ F2 (a' - a) (b' - b) (c' - c) / 12 := by
  have e : sqInt a' b' c' - sqInt a b c - 2 * stripInt a b c (a' - a) (b' - b) (c' - c) =
      ∫ u in (0:ℝ)..1, ∫ v in (0:ℝ)..(1 - u), (1 * max (aff a' b' c' u v) 0 ^ 2 + (-1) * max (aff a b c u v) 0 ^ 2 +
        (-2) * (aff (a' - a) (b' - b) (c' - c) u v * max (aff a b c u v) 0)) := by
    rw [simplex_lc (by unfold Function.uncurry aff; fun_prop) (by unfold Function.uncurry aff; fun_prop) (by unfold Function.uncurry aff; fun_prop)]
    unfold sqInt stripInt
    ring
  have hq : F2 (a' - a) (b' - b) (c' - c) / 12 = ∫ u in (0:ℝ)..1, ∫ v in (0:ℝ)..(1 - u), aff (a' - a) (b' - b) (c' - c) u v ^ 2 := by
    rw [← simplex_sq]
    rfl
  have hn : -(F2 (a' - a) (b' - b) (c' - c) / 12) = ∫ u in (0:ℝ)..1, ∫ v in (0:ℝ)..(1 - u), -(aff (a' - a) (b' - b) (c' - c) u v ^ 2) := by
    rw [hq]
    simp only [intervalIntegral.integral_neg]
  have pt : ∀ u v : ℝ, |1 * max (aff a' b' c' u v) 0 ^ 2 + (-1) * max (aff a b c u v) 0 ^ 2 +
        (-2) * (aff (a' - a) (b' - b) (c' - c) u v * max (aff a b c u v) 0)| ≤ aff (a' - a) (b' - b) (c' - c) u v ^ 2 := by
    intro u v
    have h := sq_pos_part (aff a b c u v) (aff a' b' c' u v)
    have d : aff (a' - a) (b' - b) (c' - c) u v = aff a' b' c' u v - aff a b c u v := by unfold aff; ring
    rw [d]
    refine (le_of_eq ?_).trans h
    congr 1
    ring
  rw [e, abs_le]
  constructor
  · rw [hn]
    exact simplex_mono (by unfold Function.uncurry aff; fun_prop) (by unfold Function.uncurry aff; fun_prop) fun u v => (abs_le.mp (pt u v)).1
  · rw [hq]
    exact simplex_mono (by unfold Function.uncurry aff; fun_prop) (by unfold Function.uncurry aff; fun_prop) fun u v => (abs_le.mp (pt u v)).2

theorem deriv_squeeze {E Q : ℝ → ℝ} {t : ℝ} (hQ : HasDerivAt Q 0 t) (h0 : Q t = 0) (h : ∀ s, |E s| ≤ Q s) : HasDerivAt E 0 t := by
  have hE0 : E t = 0 := by
    have := h t
    rw [h0] at this
    exact abs_nonpos_iff.mp this
  rw [hasDerivAt_iff_isLittleO] at hQ ⊢
  simp only [smul_zero, sub_zero, h0, hE0] at hQ ⊢
  refine Asymptotics.IsBigO.trans_isLittleO (Asymptotics.IsBigO.of_bound 1 (Eventually.of_forall fun s => ?_)) hQ
  rw [one_mul, Real.norm_eq_abs, Real.norm_eq_abs]
  exact (h s).trans (le_abs_self _)

/-- The rate of the integral of the square. -/
theorem sqInt_deriv {A B C : ℝ → ℝ} {a b c t : ℝ} (hA : HasDerivAt A a t) (hB : HasDerivAt B b t) (hC : HasDerivAt C c t) :
    HasDerivAt (fun s => sqInt (A s) (B s) (C s)) (2 * stripInt (A t) (B t) (C t) a b c) t := by
  have dA := hA.sub_const (A t)
  have dB := hB.sub_const (B t)
  have dC := hC.sub_const (C t)
  have h1 : HasDerivAt (fun s => 2 * stripInt (A t) (B t) (C t) (A s - A t) (B s - B t) (C s - C t)) (2 * stripInt (A t) (B t) (C t) a b c) t := by
    rw [strip_linear (A t) (B t) (C t) a b c]
    have := (((dA.mul_const (stripInt (A t) (B t) (C t) 1 0 0)).add (dB.mul_const (stripInt (A t) (B t) (C t) 0 1 0))).add (dC.mul_const (stripInt (A t) (B t) (C t) 0 0 1))).const_mul 2
    refine this.congr_of_eventuallyEq (Eventually.of_forall fun s => ?_)
    show 2 * stripInt (A t) (B t) (C t) _ _ _ = _
    rw [strip_linear]
    rfl
  have h2 : HasDerivAt (fun s => F2 (A s - A t) (B s - B t) (C s - C t) / 12) 0 t := by
    have e : ∀ x y z : ℝ, F2 x y z = x ^ 2 + y ^ 2 + z ^ 2 + x * y + y * z + z * x := by intro x y z; unfold F2 F1; ring
    simp only [e]
    have := ((((((dA.pow 2).add (dB.pow 2)).add (dC.pow 2)).add (dA.mul dB)).add (dB.mul dC)).add (dC.mul dA)).div_const 12
    refine this.congr_deriv ?_
    simp
  have h3 := deriv_squeeze h2 (by simp [F2, F1]) fun s => sqInt_expand (A t) (B t) (C t) (A s) (B s) (C s)
  have := (h3.add h1).add_const (sqInt (A t) (B t) (C t))
  refine (this.congr_of_eventuallyEq (Eventually.of_forall fun s => ?_)).congr_deriv (by ring)
  show _ = sqInt (A s) (B s) (C s) - sqInt (A t) (B t) (C t) - 2 * stripInt (A t) (B t) (C t) (A s - A t) (B s - B t) (C s - C t) +
    2 * stripInt (A t) (B t) (C t) (A s - A t) (B s - B t) (C s - C t) + sqInt (A t) (B t) (C t)
  ring

theorem flux_depth_sq (t : Tri) : flux (fun v => depth v ^ 2) t = sqInt (-t.p.z) (-t.q.z) (-t.r.z) • normalVec t := by
  unfold flux simplex sqInt
  congr 1
  refine intervalIntegral.integral_congr fun u _ => intervalIntegral.integral_congr fun v _ => ?_
  show depth _ ^ 2 = _
  unfold depth aff
  congr 2
  simp only [V3.add_z, V3.smul_z, V3.sub_z]
  ring

/-! ## A triangle carried by a rigid motion -/

/-- The triangle carried by a motion. -/
def carry (X : V3 → V3) (t : Tri) : Tri := ⟨X t.p, X t.q, X t.r⟩

/-- At time `t` the motion has the velocity field of a rigid body: `c` at the point `o`, turning at `w`. -/
def RigidRate (X : ℝ → V3 → V3) (t : ℝ) (c w o : V3) : Prop := ∀ p, HasVel (fun s => X s p) (c + V3.cross w (X t p - o)) t

theorem carry_deriv {X : ℝ → V3 → V3} {t : ℝ} {c w o : V3} (h : RigidRate X t c w o) (T : Tri) :
    HasDerivAt (fun s => coord 2 (flux (fun v => depth v ^ 2) (carry (X s) T)))
      (w.x * coord 1 (flux (fun v => depth v ^ 2) (carry (X t) T)) - w.y * coord 0 (flux (fun v => depth v ^ 2) (carry (X t) T)) -
        2 * (c.z * coord 2 (flux depth (carry (X t) T)) + w.x * coord 2 (flux (fun v => (v.y - o.y) * depth v) (carry (X t) T)) -
          w.y * coord 2 (flux (fun v => (v.x - o.x) * depth v) (carry (X t) T)))) t := by
  obtain ⟨px, py, pz⟩ := h T.p
  obtain ⟨qx, qy, qz⟩ := h T.q
  obtain ⟨rx, ry, rz⟩ := h T.r
  have hn : HasDerivAt (fun s => (normalVec (carry (X s) T)).z) (w.x * (normalVec (carry (X t) T)).y - w.y * (normalVec (carry (X t) T)).x) t := by
    have := ((qx.sub px).mul (ry.sub py)).sub ((qy.sub py).mul (rx.sub px))
    refine (this.congr_of_eventuallyEq (Eventually.of_forall fun s => ?_)).congr_deriv ?_
    · simp [normalVec, carry]
    · simp [normalVec, carry]
      ring
  have hs := sqInt_deriv pz.neg qz.neg rz.neg
  have e0 : ∀ s, coord 2 (flux (fun v => depth v ^ 2) (carry (X s) T)) = sqInt (-(X s T.p).z) (-(X s T.q).z) (-(X s T.r).z) * (normalVec (carry (X s) T)).z := by
    intro s
    rw [flux_depth_sq, coord_smul]
    rfl
  have d1 : flux depth (carry (X t) T) = stripInt (-(X t T.p).z) (-(X t T.q).z) (-(X t T.r).z) 1 1 1 • normalVec (carry (X t) T) := by
    have := flux_depth 0 0 (-1) (carry (X t) T)
    unfold weightAt at this
    simpa [carry] using this
  have d2 : ∀ (i : Fin 3) (P : ℝ), flux (fun v => (coord i v - P) * depth v) (carry (X t) T) =
      stripInt (-(X t T.p).z) (-(X t T.q).z) (-(X t T.r).z) (coord i (X t T.p) - P) (coord i (X t T.q) - P) (coord i (X t T.r) - P) • normalVec (carry (X t) T) := by
    intro i P
    have := flux_depth 1 i P (carry (X t) T)
    unfold weightAt at this
    simpa [carry] using this
  have d2x := d2 0 o.x
  have d2y := d2 1 o.y
  simp only [coord] at d2x d2y
  simp only [e0]
  refine (hs.mul hn).congr_deriv ?_
  rw [d1, d2x, d2y, flux_depth_sq]
  simp only [coord_smul]
  simp only [coord]
  rw [strip_linear _ _ _ 1 1 1, strip_linear _ _ _ ((X t T.p).x - o.x), strip_linear _ _ _ ((X t T.p).y - o.y)]
  rw [strip_linear _ _ _ (-(c + V3.cross w (X t T.p - o)).z)]
  simp only [V3.add_z, V3.cross_z, V3.sub_x, V3.sub_y, carry, Pi.neg_apply]
  ring

end Frydom.Hydro
