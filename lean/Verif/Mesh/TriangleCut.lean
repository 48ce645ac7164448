import Verif.Mesh.IntegralsProps
import Verif.Mesh.ClipperProps
import Mathlib.MeasureTheory.Integral.Prod

/-!
# Integrals over a triangle that is cut in two (lemmas for C192)
-/

open Classical

noncomputable section

namespace Frydom.Mesh
open Geom Clip Surface

/-- The function is continuous in the coordinates of the point. -/
def Cont (g : V3 → ℝ) : Prop := Continuous fun x : ℝ × ℝ × ℝ => g ⟨x.1, x.2.1, x.2.2⟩

theorem Cont.pull {g : V3 → ℝ} (hg : Cont g) (p a b : V3) : Continuous (Function.uncurry fun u v : ℝ => g (p + u • a + v • b)) := by
  have e : (Function.uncurry fun u v : ℝ => g (p + u • a + v • b)) =
      (fun x : ℝ × ℝ × ℝ => g ⟨x.1, x.2.1, x.2.2⟩) ∘ fun w : ℝ × ℝ => (p.x + w.1 * a.x + w.2 * b.x, p.y + w.1 * a.y + w.2 * b.y, p.z + w.1 * a.z + w.2 * b.z) := by
    funext w
    rfl
  rw [e]
  exact Continuous.comp hg (by fun_prop)

open MeasureTheory in
/-- The order of the integrations over the unit triangle. -/
theorem unit_swap (F : ℝ → ℝ → ℝ) (hF : Continuous (Function.uncurry F)) :
    (∫ u in (0:ℝ)..1, ∫ v in (0:ℝ)..(1 - u), F u v) = ∫ u in (0:ℝ)..1, ∫ v in (0:ℝ)..(1 - u), F v u := by
  have key : ∀ G : ℝ → ℝ → ℝ, (∫ u in (0:ℝ)..1, ∫ v in (0:ℝ)..(1 - u), G u v) =
      ∫ u in (0:ℝ)..1, ∫ v in (0:ℝ)..1, Set.indicator {w : ℝ × ℝ | w.1 + w.2 ≤ 1} (Function.uncurry G) (u, v) := by
    intro G
    refine intervalIntegral.integral_congr fun u hu => ?_
    rw [Set.uIcc_of_le zero_le_one] at hu
    show (∫ v in (0:ℝ)..(1 - u), G u v) = _
    rw [intervalIntegral.integral_of_le (by linarith [hu.2]), intervalIntegral.integral_of_le zero_le_one]
    have e : (fun v => Set.indicator {w : ℝ × ℝ | w.1 + w.2 ≤ 1} (Function.uncurry G) (u, v)) = Set.indicator (Set.Iic (1 - u)) (fun v => G u v) := by
      funext v
      unfold Set.indicator
      by_cases h : u + v ≤ 1
      · rw [if_pos (show (u, v) ∈ {w : ℝ × ℝ | w.1 + w.2 ≤ 1} from h), if_pos (show v ∈ Set.Iic (1 - u) by simp; linarith)]
        rfl
      · rw [if_neg (show ¬ (u, v) ∈ {w : ℝ × ℝ | w.1 + w.2 ≤ 1} from h), if_neg (show ¬ v ∈ Set.Iic (1 - u) by simp; linarith)]
    rw [e, setIntegral_indicator measurableSet_Iic]
    congr 2
    ext v
    simp only [Set.mem_Ioc, Set.mem_inter_iff, Set.mem_Iic]
    constructor
    · rintro ⟨a, b⟩; exact ⟨⟨a, by linarith [hu.1]⟩, b⟩
    · rintro ⟨⟨a, -⟩, b⟩; exact ⟨a, b⟩
  rw [key F, key fun u v => F v u]
  rw [intervalIntegral_intervalIntegral_swap (F := fun u v => Set.indicator {w : ℝ × ℝ | w.1 + w.2 ≤ 1} (Function.uncurry F) (u, v))]
  · refine intervalIntegral.integral_congr fun v _ => intervalIntegral.integral_congr fun u _ => ?_
    show Set.indicator _ _ (u, v) = Set.indicator _ _ (v, u)
    unfold Set.indicator
    simp only [Set.mem_setOf_eq, add_comm u v]
    rfl
  · have hc : MeasurableSet {w : ℝ × ℝ | w.1 + w.2 ≤ 1} := (isClosed_le (by fun_prop) (by fun_prop)).measurableSet
    refine IntegrableOn.indicator ?_ hc
    refine IntegrableOn.mono_set (t := Set.Icc 0 1 ×ˢ Set.Icc 0 1) ?_ ?_
    · exact hF.continuousOn.integrableOn_compact (isCompact_Icc.prod isCompact_Icc)
    · rw [Set.uIoc_of_le zero_le_one]
      exact Set.prod_mono Set.Ioc_subset_Icc_self Set.Ioc_subset_Icc_self

theorem simplex_swap {g : V3 → ℝ} (hg : Cont g) (p q r : V3) : simplex g ⟨p, q, r⟩ = simplex g ⟨p, r, q⟩ := by
  unfold simplex
  rw [unit_swap _ (hg.pull p (q - p) (r - p))]
  refine intervalIntegral.integral_congr fun u _ => intervalIntegral.integral_congr fun v _ => ?_
  show g _ = g _
  congr 1
  ext <;> simp <;> ring

theorem simplex_turn {g : V3 → ℝ} (p q r : V3) : simplex g ⟨p, q, r⟩ = simplex g ⟨r, q, p⟩ := by
  unfold simplex
  refine intervalIntegral.integral_congr fun u _ => ?_
  show (∫ v in (0:ℝ)..(1 - u), g _) = ∫ v in (0:ℝ)..(1 - u), g _
  have := intervalIntegral.integral_comp_sub_left (a := 0) (b := 1 - u) (fun v => g (r + u • (q - r) + v • (p - r))) (1 - u)
  simp only [sub_self, sub_zero] at this
  rw [← this]
  refine intervalIntegral.integral_congr fun v _ => ?_
  show g _ = g _
  congr 1
  ext <;> simp <;> ring

theorem simplex_cut {g : V3 → ℝ} (hg : Cont g) {p q r I : V3} {s : ℝ} (hI : I = p + s • (q - p)) :
    simplex g ⟨p, r, q⟩ = s * simplex g ⟨p, r, I⟩ + (1 - s) * simplex g ⟨I, r, q⟩ := by
  have ci : ∀ (G : ℝ → ℝ → ℝ), Continuous (Function.uncurry G) → ∀ u a b : ℝ, IntervalIntegrable (fun v => G u v) MeasureTheory.volume a b := fun G hG u a b =>
    (hG.comp (by fun_prop : Continuous fun v : ℝ => (u, v))).intervalIntegrable a b
  have co : ∀ (G : ℝ → ℝ → ℝ), Continuous (Function.uncurry G) → ∀ a b : ℝ, IntervalIntegrable (fun u => ∫ v in (0:ℝ)..(1 - u), G u v) MeasureTheory.volume a b := fun G hG a b =>
    (intervalIntegral.continuous_parametric_intervalIntegral_of_continuous (f := G) (s := fun u => 1 - u) hG (by fun_prop)).intervalIntegrable a b
  unfold simplex
  rw [← intervalIntegral.integral_const_mul, ← intervalIntegral.integral_const_mul,
    ← intervalIntegral.integral_add ((co _ (hg.pull p (r - p) (I - p)) 0 1).const_mul s) ((co _ (hg.pull I (r - I) (q - I)) 0 1).const_mul (1 - s))]
  refine intervalIntegral.integral_congr fun u _ => ?_
  show (∫ v in (0:ℝ)..(1 - u), g (p + u • (r - p) + v • (q - p))) = s * (∫ v in (0:ℝ)..(1 - u), g (p + u • (r - p) + v • (I - p))) +
    (1 - s) * ∫ v in (0:ℝ)..(1 - u), g (I + u • (r - I) + v • (q - I))
  have h1 := intervalIntegral.mul_integral_comp_mul_left (f := fun w => g (p + u • (r - p) + w • (q - p))) (a := 0) (b := 1 - u) s
  have h2 := intervalIntegral.mul_integral_comp_mul_add (f := fun w => g (p + u • (r - p) + w • (q - p))) (a := 0) (b := 1 - u) (1 - s) (s * (1 - u))
  have e1 : (fun v : ℝ => g (p + u • (r - p) + v • (I - p))) = fun v => g (p + u • (r - p) + (s * v) • (q - p)) := by
    funext v
    congr 1
    rw [hI]
    ext <;> simp <;> ring
  have e2 : (fun v : ℝ => g (I + u • (r - I) + v • (q - I))) = fun v => g (p + u • (r - p) + ((1 - s) * v + s * (1 - u)) • (q - p)) := by
    funext v
    congr 1
    rw [hI]
    ext <;> simp <;> ring
  rw [e1, e2, h1, h2]
  have a1 : s * (0:ℝ) = 0 := mul_zero s
  have a2 : (1 - s) * (0:ℝ) + s * (1 - u) = s * (1 - u) := by ring
  have a3 : (1 - s) * (1 - u) + s * (1 - u) = 1 - u := by ring
  rw [a1, a2, a3]
  exact (intervalIntegral.integral_add_adjacent_intervals (ci _ (hg.pull p (r - p) (q - p)) u 0 (s * (1 - u))) (ci _ (hg.pull p (r - p) (q - p)) u _ (1 - u))).symm

/-- The average over a face does not depend on the order of its corners. -/
theorem simplex_perm {g : V3 → ℝ} (hg : Cont g) {pos : ℕ → V3} {f : Face} {n x y z : ℕ} (hok : f.Ok n) (hx : f.has x) (hy : f.has y) (hz : f.has z)
    (h1 : x ≠ y) (h2 : y ≠ z) (h3 : x ≠ z) : simplex g (triOf pos f) = simplex g ⟨pos x, pos y, pos z⟩ := by
  rcases perm3 hok hx hy hz h1 h2 h3 with h | h | h | h | h | h <;> subst h <;> unfold triOf <;> simp only
  · exact simplex_swap hg _ _ _
  · rw [simplex_swap hg, simplex_turn, simplex_swap hg]
  · rw [simplex_turn, simplex_swap hg]
  · rw [simplex_swap hg, simplex_turn]
  · exact simplex_turn _ _ _

/-- The averages over the two halves of a face that is split. -/
theorem simplex_split {g : V3 → ℝ} (hg : Cont g) {pos : ℕ → V3} {f : Face} {n x y v : ℕ} {s : ℝ} (hok : f.Ok n) (hx : f.has x) (hy : f.has y)
    (hne : x ≠ y) (hv : n ≤ v) {I : V3} (hI : I = pos x + s • (pos y - pos x)) :
    simplex g (triOf pos f) = s * simplex g (triOf (Function.update pos v I) (f.subst y v)) +
      (1 - s) * simplex g (triOf (Function.update pos v I) (f.subst x v)) := by
  obtain ⟨z, hzx, hzy, hzn, hz, -, -, hs⟩ := enum hok hx hy hne
  obtain ⟨ok1, has1, -⟩ := hs v hv
  obtain ⟨z', hzx', hzy', hzn', hz', hall', -, hs'⟩ := enum hok hy hx hne.symm
  have hzz : z' = z := by
    rcases (hall' z).mp hz with r | r | r
    · exact absurd r hzy
    · exact absurd r hzx
    · exact r.symm
  subst hzz
  obtain ⟨ok2, has2, -⟩ := hs' v hv
  have hxn := hok.lt hx
  have hyn := hok.lt hy
  rw [simplex_perm hg hok hx hz hy hzx.symm hzy hne,
    simplex_perm hg ok1 ((has1 x).mpr (by simp)) ((has1 z').mpr (by simp)) ((has1 v).mpr (Or.inl rfl)) hzx.symm (by omega) (by omega),
    simplex_perm hg ok2 ((has2 v).mpr (Or.inl rfl)) ((has2 z').mpr (by simp)) ((has2 y).mpr (by simp)) (by omega) hzy (by omega)]
  rw [Function.update_self, Function.update_of_ne (show x ≠ v by omega), Function.update_of_ne (show y ≠ v by omega),
    Function.update_of_ne (show z' ≠ v by omega)]
  exact simplex_cut hg hI

end Frydom.Mesh
