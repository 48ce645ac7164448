import Verif.Hydro.Equilibrium
import Mathlib.Analysis.Calculus.MeanValue
import Mathlib.Analysis.Calculus.Deriv.Pow
import Mathlib.Analysis.Calculus.Deriv.Mul
import Mathlib.Analysis.Calculus.Deriv.Add

/-!
# Convergence of the displacement search (C86), hulls that are not wall-sided

`FrHydroStaticEquilibrium::SolveDisplacement` (src/frydom/hydrodynamics/hydrostatic/FrHydroStaticEquilibrium.cpp:95-172), modelled in `Verif.Hydro.Equilibrium`.
The hull is described by its volume `V z` and the area of its water plane `A z` at the altitude `z`, which is minus the derivative of the volume.
-/

open Classical

noncomputable section

namespace Frydom.Hydro
open Frydom.Geom Frydom.Core Frydom.Mesh Frydom.Mesh.Surface

/-! ## Specification -/

/-- Between the altitudes `lo` and `hi` the hull crosses the water plane, the immersed volume is `V z` and the water plane has the area `A z`, the rate at which the volume decreases when the
body is raised. -/
structure Crosses (E : Sea) (q : Q) (V A : ℝ → ℝ) (lo hi : ℝ) : Prop where
  level : ∀ z, lo ≤ z → z ≤ hi → AllHorizontal (E.clip q z) ∧ AllOuter (E.clip q z)
  area : ∀ z, lo ≤ z → z ≤ hi → waterInt (fun _ => 1) (E.clip q z) = A z
  volume : ∀ z, lo ≤ z → z ≤ hi → wetVolume (E.clip q z) = V z
  wet : ∀ z, lo ≤ z → z ≤ hi → 1e-6 < V z
  rate : ∀ z, lo ≤ z → z ≤ hi → HasDerivAt V (-(A z)) z

/-! ## Proofs -/

/-- The search succeeds from every altitude with a budget: `P n z` says that `n` iterations are enough from the altitude `z`. -/
theorem disp_converges {E : Sea} (hE : E.Ready) (s : Solver) {V A : ℝ → ℝ} {lo hi : ℝ} (hC : Crosses E s.body.getQuaternion V A lo hi) (P : ℕ → ℝ → Prop)
    (hP : ∀ n z, P n z → (lo ≤ z ∧ z ≤ hi) ∧
      (|(E.rho * E.g * V z - s.mass * E.g) / (s.mass * E.g)| < s.tol ∨
        ∃ m, n = m + 1 ∧ P m (z + heaveStep s.relax.x (E.rho * E.g * V z - s.mass * E.g) (E.rho * E.g * A z)))) :
    ∀ (n : ℕ) (b1 : Body) (i1 : ℕ) (sol : ℝ), b1.getQuaternion = s.body.getQuaternion → P n ((b1.getPosition .NWU).z + sol) →
      i1 + n ≤ s.maxIter → ∃ s', Solver.displacementLoop E { s with body := b1, iter := i1 } sol = some (s', true) ∧ s'.iter ≤ i1 + n := by
  intro n
  induction n with
  | zero =>
    intro b1 i1 sol hq hp hii
    obtain ⟨⟨hl, hh⟩, hc⟩ := hP _ _ hp
    obtain ⟨cs, -, -, e⟩ := loop_eq hE { s with body := b1, iter := i1 } sol
    have hrt := raised_translate b1 sol
    have hmesh : E.mesh (b1.translateInWorld ⟨0, 0, sol⟩ .NWU) = E.clip s.body.getQuaternion ((b1.getPosition .NWU).z + sol) := by
      unfold Sea.mesh; rw [hrt.rot, hrt.pos, hq]; rfl
    simp only [] at e
    rw [hmesh, hC.volume _ hl hh, if_neg (not_le.mpr (hC.wet _ hl hh)), if_neg (by omega : ¬ i1 > s.maxIter)] at e
    rcases hc with hc | ⟨m, hm, -⟩
    · rw [if_pos hc] at e
      exact ⟨_, e, by simp⟩
    · omega
  | succ n ih =>
    intro b1 i1 sol hq hp hii
    obtain ⟨⟨hl, hh⟩, hc⟩ := hP _ _ hp
    obtain ⟨cs, -, hcs, e⟩ := loop_eq hE { s with body := b1, iter := i1 } sol
    have hrt := raised_translate b1 sol
    have hmesh : E.mesh (b1.translateInWorld ⟨0, 0, sol⟩ .NWU) = E.clip s.body.getQuaternion ((b1.getPosition .NWU).z + sol) := by
      unfold Sea.mesh; rw [hrt.rot, hrt.pos, hq]; rfl
    simp only [] at e hcs
    rw [hmesh] at e hcs
    rw [hC.volume _ hl hh, if_neg (not_le.mpr (hC.wet _ hl hh)), if_neg (by omega : ¬ i1 > s.maxIter)] at e
    by_cases h1 : |(E.rho * E.g * V ((b1.getPosition .NWU).z + sol) - s.mass * E.g) / (s.mass * E.g)| < s.tol
    · rw [if_pos h1] at e
      exact ⟨_, e, by simp⟩
    · rw [if_neg h1] at e
      rcases hc with hc | ⟨m, hm, hp'⟩
      · exact absurd hc h1
      have hmn : m = n := by omega
      subst hmn
      have hk : (cs.map fun c => E.rho * E.g * c.i .one).sum = E.rho * E.g * A ((b1.getPosition .NWU).z + sol) := by
        rw [List.sum_map_mul_left]
        congr 1
        have h3 := caps_level hcs (hE s.body.getQuaternion _).flat (hC.level _ hl hh).1
        have h4 := (waterInt_shift h3 (hC.level _ hl hh).2 0 0).1
        rw [hC.area _ hl hh] at h4
        exact h4.symm
      rw [hk] at e
      have hpos : ((b1.translateInWorld ⟨0, 0, sol⟩ .NWU).getPosition .NWU).z = (b1.getPosition .NWU).z + sol := by rw [hrt.pos]; rfl
      obtain ⟨s', e', h'⟩ := ih (b1.translateInWorld ⟨0, 0, sol⟩ .NWU) (i1 + 1) _ (hrt.rot.trans hq) (by rw [hpos]; exact hp') (by omega)
      exact ⟨s', e.trans e', by omega⟩

/-- Mean area between two altitudes. -/
theorem Crosses.mean {E : Sea} {q : Q} {V A : ℝ → ℝ} {lo hi : ℝ} (h : Crosses E q V A lo hi) {y z : ℝ} (hy : lo ≤ y) (hyz : y < z) (hz : z ≤ hi) :
    ∃ c, y < c ∧ c < z ∧ V y - V z = A c * (z - y) := by
  have hd : ∀ x ∈ Set.Icc y z, HasDerivAt V (-(A x)) x := fun x hx => h.rate x (hy.trans hx.1) (hx.2.trans hz)
  obtain ⟨c, hc, e⟩ := exists_hasDerivAt_eq_slope V (fun x => -(A x)) hyz
    (fun x hx => (hd x hx).continuousAt.continuousWithinAt) (fun x hx => hd x ⟨hx.1.le, hx.2.le⟩)
  have hne : z - y ≠ 0 := (sub_pos.mpr hyz).ne'
  rw [eq_div_iff hne] at e
  exact ⟨c, hc.1, hc.2, by linarith⟩

theorem relaxed_cases {r : ℝ} (hr : 0 < r) (x : ℝ) : (r < x ∧ relaxed r x = r) ∨ (x < -r ∧ relaxed r x = -r) ∨ (-r ≤ x ∧ x ≤ r ∧ relaxed r x = x) := by
  unfold relaxed copysign
  rw [abs_of_pos hr]
  split_ifs with h1 h2
  · exact Or.inr (Or.inl ⟨by rw [abs_of_neg h2] at h1; linarith, rfl⟩)
  · exact Or.inl ⟨by rw [abs_of_nonneg (not_lt.mp h2)] at h1; exact h1, rfl⟩
  · have := abs_le.mp (not_lt.mp h1)
    exact Or.inr (Or.inr ⟨this.1, this.2, rfl⟩)

/-- The move, when the mean area between the altitude and the equilibrium is `Ac`. -/
theorem heaveStep_eq {rg A Ac m g e r res : ℝ} (hrg : 0 < rg) (hA : 0 < A) (hres : res = rg * (Ac * e)) :
    heaveStep r res (rg * A) = relaxed r (Ac / A * e) := by
  unfold heaveStep
  rw [if_neg (mul_pos hrg hA).ne', hres]
  congr 1
  field_simp

/-- One relaxed step towards a point at the distance `e`, of `k e` with `k` between `1 - q` and `1 + q`. -/
theorem step_bound {r q k e : ℝ} (hr : 0 < r) (hq : 0 ≤ q) (h1 : 1 - q ≤ k) (h2 : k ≤ 1 + q) (hk : 0 ≤ k) :
    |e - relaxed r (k * e)| ≤ |e| - r ∨ |e - relaxed r (k * e)| ≤ q * |e| := by
  rcases le_total 0 e with he | he
  · have a1 : (1 - q) * e ≤ k * e := mul_le_mul_of_nonneg_right h1 he
    have a2 : k * e ≤ (1 + q) * e := mul_le_mul_of_nonneg_right h2 he
    have a3 : 0 ≤ k * e := mul_nonneg hk he
    have a4 : 0 ≤ q * e := mul_nonneg hq he
    rw [abs_of_nonneg he]
    rcases relaxed_cases hr (k * e) with ⟨c, e1⟩ | ⟨c, e1⟩ | ⟨c, c', e1⟩ <;> rw [e1]
    · rcases le_total r e with h | h
      · left; rw [abs_of_nonneg (by linarith)]
      · right; rw [abs_of_nonpos (by linarith)]; linarith
    · linarith
    · right; rw [abs_le]; constructor <;> linarith
  · have a1 : k * e ≤ (1 - q) * e := mul_le_mul_of_nonpos_right h1 he
    have a2 : (1 + q) * e ≤ k * e := mul_le_mul_of_nonpos_right h2 he
    have a3 : k * e ≤ 0 := mul_nonpos_of_nonneg_of_nonpos hk he
    have a4 : q * e ≤ 0 := mul_nonpos_of_nonneg_of_nonpos hq he
    rw [abs_of_nonpos he]
    rcases relaxed_cases hr (k * e) with ⟨c, e1⟩ | ⟨c, e1⟩ | ⟨c, c', e1⟩ <;> rw [e1]
    · linarith
    · rcases le_total e (-r) with h | h
      · left; rw [abs_of_nonpos (by linarith)]; linarith
      · right; rw [abs_of_nonneg (by linarith)]; linarith
    · right; rw [abs_le]; constructor <;> linarith

theorem afloat_of {E : Sea} (hE : E.Ready) {s s' : Solver} (hm : s.mass * E.g ≠ 0) (e : s.solveDisplacement E 0 = some (s', true)) : Afloat E s' := by
  obtain ⟨s2, ok, e2, h⟩ := disp_spec hE _ s 0 rfl
  rw [show s.displacementLoop E 0 = s.solveDisplacement E 0 from rfl, e] at e2
  injection e2 with e2
  injection e2 with e3 e4
  subst e3
  exact (h.yes e4.symm).2 hm

/-- The residual at the altitude `z`. -/
theorem Crosses.residual {E : Sea} {q : Q} {V A : ℝ → ℝ} {lo hi Z mass Amin Amax : ℝ} (h : Crosses E q V A lo hi) (hZ : E.rho * V Z = mass)
    (hZr : lo ≤ Z ∧ Z ≤ hi) (hA : ∀ z, lo ≤ z → z ≤ hi → Amin ≤ A z ∧ A z ≤ Amax) (z : ℝ) (hz : lo ≤ z ∧ z ≤ hi) :
    ∃ Ac, Amin ≤ Ac ∧ Ac ≤ Amax ∧ (∃ c, (min z Z ≤ c ∧ c ≤ max z Z) ∧ Ac = A c) ∧ E.rho * E.g * V z - mass * E.g = E.rho * E.g * (Ac * (Z - z)) := by
  rcases lt_trichotomy z Z with hl | rfl | hl
  · obtain ⟨c, c1, c2, e⟩ := h.mean hz.1 hl hZr.2
    have := hA c (hz.1.trans c1.le) (c2.le.trans hZr.2)
    refine ⟨A c, this.1, this.2, ⟨c, ⟨(min_le_left _ _).trans c1.le, c2.le.trans (le_max_right _ _)⟩, rfl⟩, ?_⟩
    rw [← e, ← hZ]; ring
  · exact ⟨A z, (hA z hz.1 hz.2).1, (hA z hz.1 hz.2).2, ⟨z, by simp, rfl⟩, by rw [← hZ]; ring⟩
  · obtain ⟨c, c1, c2, e⟩ := h.mean hZr.1 hl hz.2
    have := hA c (hZr.1.trans c1.le) (c2.le.trans hz.2)
    refine ⟨A c, this.1, this.2, ⟨c, ⟨(min_le_right _ _).trans c1.le, c2.le.trans (le_max_left _ _)⟩, rfl⟩, ?_⟩
    rw [show A c * (Z - z) = -(A c * (z - Z)) by ring, ← e, ← hZ]; ring

theorem close_enough {rho g mass tol Ac Amax e d : ℝ} (hrho : 0 < rho) (hm : 0 < mass * g) (hg : 0 < g) (hAc : 0 ≤ Ac) (hAm : Ac ≤ Amax) (hd : |e| ≤ d) (h : rho * (Amax * d) < tol * mass) :
    |rho * g * (Ac * e) / (mass * g)| < tol := by
  rw [abs_div, abs_of_pos hm, div_lt_iff₀ hm, abs_mul, abs_of_pos (mul_pos hrho hg), abs_mul, abs_of_nonneg hAc]
  have h1 : Ac * |e| ≤ Amax * d := mul_le_mul hAm hd (abs_nonneg _) (hAc.trans hAm)
  have h2 : rho * (Ac * |e|) ≤ rho * (Amax * d) := mul_le_mul_of_nonneg_left h1 hrho.le
  calc rho * g * (Ac * |e|) = rho * (Ac * |e|) * g := by ring
    _ < tol * mass * g := mul_lt_mul_of_pos_right (by linarith) hg
    _ = tol * (mass * g) := by ring

/-- **C86, convergence.** A hull of any shape whose water plane changes by less than a factor of two (area between `Amin` and `Amax < 2 Amin`) at the altitudes not further from the equilibrium
altitude `Z` than the one where the user put the body: the displacement is found, after `n1` iterations for the distance at the speed of the relaxation and `n2` for the tolerance.
(`mem = 0`: the search begins where the user put the body.) -/
theorem C86_convergence (E : Sea) (hE : E.Ready) (s : Solver) (hrho : 0 < E.rho) (hg : 0 < E.g) (hm : 0 < s.mass) (hr : 0 < s.relax.x)
    (V A : ℝ → ℝ) (Z d Amin Amax : ℝ) (hC : Crosses E s.body.getQuaternion V A (Z - d) (Z + d)) (hd : |Z - (s.body.getPosition .NWU).z| ≤ d) (hZ : E.rho * V Z = s.mass)
    (hA0 : 0 < Amin) (hA : ∀ z, Z - d ≤ z → z ≤ Z + d → Amin ≤ A z ∧ A z ≤ Amax) (hA2 : Amax < 2 * Amin)
    (n1 n2 : ℕ) (hn1 : d ≤ n1 * s.relax.x) (hn2 : E.rho * (Amax * ((Amax / Amin - 1) ^ n2 * d)) < s.tol * s.mass) (hit : s.iter + (n1 + n2) ≤ s.maxIter) :
    ∃ s', s.solveDisplacement E 0 = some (s', true) ∧ s'.iter ≤ s.iter + (n1 + n2) ∧ Afloat E s' := by
  have hd0 : 0 ≤ d := (abs_nonneg _).trans hd
  have hAA : Amin ≤ Amax := (hA Z (by linarith) (by linarith)).1.trans (hA Z (by linarith) (by linarith)).2
  have hAx : 0 < Amax := hA0.trans_le hAA
  obtain ⟨q, hq⟩ : ∃ q, q = Amax / Amin - 1 := ⟨_, rfl⟩
  rw [← hq] at hn2
  have hq0 : 0 ≤ q := by rw [hq]; have := (one_le_div hA0).mpr hAA; linarith
  have hq1 : q < 1 := by rw [hq]; have := (div_lt_iff₀ hA0).mpr hA2; linarith
  have hq2 : 1 - q ≤ Amin / Amax := by
    rw [hq, le_div_iff₀ hAx]
    have e : Amax / Amin * Amin = Amax := div_mul_cancel₀ _ hA0.ne'
    have h0 : 0 ≤ (Amax - Amin) ^ 2 / Amin := by positivity
    have e2 : (Amax - Amin) ^ 2 / Amin = Amin - (1 - (Amax / Amin - 1)) * Amax := by field_simp; ring
    linarith
  have hmg : 0 < s.mass * E.g := mul_pos hm hg
  have hrg : 0 < E.rho * E.g := mul_pos hrho hg
  let P : ℕ → ℝ → Prop := fun n z => ∃ m1 m2 : ℕ, m1 + m2 = n ∧ |Z - z| ≤ d ∧ |Z - z| ≤ m1 * s.relax.x ∧ E.rho * (Amax * (q ^ m2 * |Z - z|)) < s.tol * s.mass
  have hP : ∀ n z, P n z → (Z - d ≤ z ∧ z ≤ Z + d) ∧
      (|(E.rho * E.g * V z - s.mass * E.g) / (s.mass * E.g)| < s.tol ∨
        ∃ m, n = m + 1 ∧ P m (z + heaveStep s.relax.x (E.rho * E.g * V z - s.mass * E.g) (E.rho * E.g * A z))) := by
    rintro n z ⟨m1, m2, hn, hzd, b1, b2⟩
    have hz : Z - d ≤ z ∧ z ≤ Z + d := by have := abs_le.mp hzd; constructor <;> linarith
    refine ⟨hz, ?_⟩
    obtain ⟨Ac, c1, c2, -, hres⟩ := hC.residual hZ ⟨by linarith, by linarith⟩ hA z hz
    have hAz := hA z hz.1 hz.2
    have hAzp : 0 < A z := hA0.trans_le hAz.1
    have hAc : 0 < Ac := hA0.trans_le c1
    rw [heaveStep_eq (m := 0) (g := 0) hrg hAzp hres]
    have hk1 : 1 - q ≤ Ac / A z := hq2.trans (div_le_div₀ hAc.le c1 hAzp hAz.2)
    have hk2 : Ac / A z ≤ 1 + q := by
      rw [hq, add_sub_cancel]; exact div_le_div₀ hAx.le c2 hA0 hAz.1
    have hstep := step_bound (e := Z - z) hr hq0 hk1 hk2 (div_pos hAc hAzp).le
    have hz' : ∀ x, Z - (z + x) = Z - z - x := fun x => by ring
    have hpn : ∀ m : ℕ, 0 ≤ q ^ m := fun m => pow_nonneg hq0 m
    rcases m2 with _ | m2
    · left
      rw [hres]
      exact close_enough hrho hmg hg hAc.le c2 le_rfl (by simpa using b2)
    rcases hstep with hs | hs
    · rcases m1 with _ | m1
      · have := abs_nonneg (Z - z - relaxed s.relax.x (Ac / A z * (Z - z)))
        rw [Nat.cast_zero, zero_mul] at b1
        linarith
      · right
        refine ⟨m1 + (m2 + 1), by omega, m1, m2 + 1, rfl, ?_, ?_, ?_⟩
        · rw [hz']; linarith
        · rw [hz']; push_cast at b1; linarith
        · rw [hz']
          refine lt_of_le_of_lt ?_ b2
          exact mul_le_mul_of_nonneg_left (mul_le_mul_of_nonneg_left (mul_le_mul_of_nonneg_left (by linarith) (hpn _)) hAx.le) hrho.le
    · right
      refine ⟨m1 + m2, by omega, m1, m2, rfl, ?_, ?_, ?_⟩
      all_goals rw [hz']
      · have := mul_le_mul_of_nonneg_right hq1.le (abs_nonneg (Z - z)); linarith
      · have := mul_le_mul_of_nonneg_right hq1.le (abs_nonneg (Z - z)); linarith
      · refine lt_of_le_of_lt ?_ b2
        refine mul_le_mul_of_nonneg_left (mul_le_mul_of_nonneg_left ?_ hAx.le) hrho.le
        calc q ^ m2 * |Z - z - relaxed s.relax.x (Ac / A z * (Z - z))| ≤ q ^ m2 * (q * |Z - z|) := mul_le_mul_of_nonneg_left hs (hpn _)
          _ = q ^ (m2 + 1) * |Z - z| := by ring
  obtain ⟨s', e, h'⟩ := disp_converges hE s hC P hP (n1 + n2) s.body s.iter 0 rfl
    ⟨n1, n2, rfl, by simpa using hd, by simpa using hd.trans hn1, by
      rw [add_zero]
      refine lt_of_le_of_lt ?_ hn2
      exact mul_le_mul_of_nonneg_left (mul_le_mul_of_nonneg_left (mul_le_mul_of_nonneg_left hd (pow_nonneg hq0 _)) hAx.le) hrho.le⟩ hit
  exact ⟨s', e, h', afloat_of hE hmg.ne' e⟩

/-- **C86, convergence of flared hulls.** When the water plane grows with the draught (sides leaning outwards, whatever the amount), the displacement is found from every altitude in the range:
`n1` iterations for the distance at the speed of the relaxation, one to pass under the equilibrium and `n2` for the tolerance. -/
theorem C86_flared (E : Sea) (hE : E.Ready) (s : Solver) (hrho : 0 < E.rho) (hg : 0 < E.g) (hm : 0 < s.mass) (hr : 0 < s.relax.x)
    (V A : ℝ → ℝ) (Z lo hi Amin Amax : ℝ) (hC : Crosses E s.body.getQuaternion V A lo hi) (hz : lo ≤ (s.body.getPosition .NWU).z ∧ (s.body.getPosition .NWU).z ≤ hi)
    (hlo : lo + s.relax.x ≤ Z) (hhi : Z ≤ hi) (hZ : E.rho * V Z = s.mass)
    (hA0 : 0 < Amin) (hA : ∀ z, lo ≤ z → z ≤ hi → Amin ≤ A z ∧ A z ≤ Amax) (hflare : ∀ y z, lo ≤ y → y ≤ z → z ≤ hi → A z ≤ A y)
    (D : ℝ) (hD : |Z - (s.body.getPosition .NWU).z| ≤ D) (hDr : s.relax.x ≤ D)
    (n1 n2 : ℕ) (hn1 : D ≤ n1 * s.relax.x) (hn2 : E.rho * (Amax * ((1 - Amin / Amax) ^ n2 * D)) < s.tol * s.mass) (hit : s.iter + (n1 + 1 + n2) ≤ s.maxIter) :
    ∃ s', s.solveDisplacement E 0 = some (s', true) ∧ s'.iter ≤ s.iter + (n1 + 1 + n2) ∧ Afloat E s' := by
  have hZlo : lo ≤ Z := by linarith
  have hAA : Amin ≤ Amax := (hA Z hZlo hhi).1.trans (hA Z hZlo hhi).2
  have hAx : 0 < Amax := hA0.trans_le hAA
  obtain ⟨q, hq⟩ : ∃ q, q = 1 - Amin / Amax := ⟨_, rfl⟩
  rw [← hq] at hn2
  have hq0 : 0 ≤ q := by rw [hq]; have := (div_le_one hAx).mpr hAA; linarith
  have hq1 : q < 1 := by rw [hq]; have := div_pos hA0 hAx; linarith
  have hmg : 0 < s.mass * E.g := mul_pos hm hg
  have hrg : 0 < E.rho * E.g := mul_pos hrho hg
  have hpn : ∀ m : ℕ, 0 ≤ q ^ m := fun m => pow_nonneg hq0 m
  have mono : ∀ (m : ℕ) (x y : ℝ), x ≤ y → E.rho * (Amax * (q ^ m * x)) ≤ E.rho * (Amax * (q ^ m * y)) := fun m x y h =>
    mul_le_mul_of_nonneg_left (mul_le_mul_of_nonneg_left (mul_le_mul_of_nonneg_left h (hpn _)) hAx.le) hrho.le
  let P : ℕ → ℝ → Prop := fun n z => (lo ≤ z ∧ z ≤ hi) ∧
    ((z ≤ Z ∧ ∃ m1 m2 : ℕ, m1 + m2 = n ∧ Z - z ≤ m1 * s.relax.x ∧ E.rho * (Amax * (q ^ m2 * (Z - z))) < s.tol * s.mass) ∨
      (Z < z ∧ ∃ m1 : ℕ, m1 + 1 + n2 = n ∧ z - Z ≤ m1 * s.relax.x))
  have hP : ∀ n z, P n z → (lo ≤ z ∧ z ≤ hi) ∧
      (|(E.rho * E.g * V z - s.mass * E.g) / (s.mass * E.g)| < s.tol ∨
        ∃ m, n = m + 1 ∧ P m (z + heaveStep s.relax.x (E.rho * E.g * V z - s.mass * E.g) (E.rho * E.g * A z))) := by
    rintro n z ⟨hz, hp⟩
    refine ⟨hz, ?_⟩
    obtain ⟨Ac, c1, c2, ⟨c, ⟨k1, k2⟩, rfl⟩, hres⟩ := hC.residual hZ ⟨hZlo, hhi⟩ hA z hz
    have hAz := hA z hz.1 hz.2
    have hAzp : 0 < A z := hA0.trans_le hAz.1
    have hAc : 0 < A c := hA0.trans_le c1
    rw [heaveStep_eq (m := 0) (g := 0) hrg hAzp hres]
    rcases hp with ⟨hle, m1, m2, hn, b1, b2⟩ | ⟨hlt, m1, hn, b1⟩
    · rw [min_eq_left hle] at k1
      rw [max_eq_right hle] at k2
      have hkle : A c / A z ≤ 1 := (div_le_one hAzp).mpr (hflare z c hz.1 k1 (k2.trans hhi))
      have hkge : 1 - q ≤ A c / A z := by rw [hq, sub_sub_cancel]; exact div_le_div₀ hAc.le c1 hAzp hAz.2
      have hkp : 0 < A c / A z := div_pos hAc hAzp
      generalize A c / A z = k at *
      have he : 0 ≤ Z - z := by linarith
      have a1 : (1 - q) * (Z - z) ≤ k * (Z - z) := mul_le_mul_of_nonneg_right hkge he
      have a2 : k * (Z - z) ≤ 1 * (Z - z) := mul_le_mul_of_nonneg_right hkle he
      have a3 : 0 ≤ k * (Z - z) := mul_nonneg hkp.le he
      rcases m2 with _ | m2
      · left
        rw [hres]
        refine close_enough hrho hmg hg hAc.le c2 (abs_of_nonneg he).le (by simpa using b2)
      right
      rcases relaxed_cases hr (k * (Z - z)) with ⟨c', e1⟩ | ⟨c', e1⟩ | ⟨c', c'', e1⟩ <;> rw [e1]
      · rcases m1 with _ | m1
        · simp at b1; linarith
        · refine ⟨m1 + (m2 + 1), by omega, ⟨by linarith, by linarith⟩, Or.inl ⟨by linarith, m1, m2 + 1, rfl, ?_, ?_⟩⟩
          · push_cast at b1; linarith
          · exact lt_of_le_of_lt (mono _ _ _ (by linarith)) b2
      · linarith
      · refine ⟨m1 + m2, by omega, ⟨by linarith, by linarith⟩, Or.inl ⟨by linarith, m1, m2, rfl, by linarith, ?_⟩⟩
        refine lt_of_le_of_lt ?_ b2
        have := mono m2 (Z - (z + k * (Z - z))) (q * (Z - z)) (by linarith)
        refine this.trans (le_of_eq ?_)
        ring
    · rw [min_eq_right hlt.le] at k1
      rw [max_eq_left hlt.le] at k2
      have hk : 1 ≤ A c / A z := (one_le_div hAzp).mpr (hflare c z (hZlo.trans k1) k2 hz.2)
      generalize A c / A z = k at *
      have he : Z - z ≤ 0 := by linarith
      have a1 : k * (Z - z) ≤ 1 * (Z - z) := mul_le_mul_of_nonpos_right hk he
      have land : ∀ x, -s.relax.x ≤ x → x < 0 → z + x ≤ Z → (lo ≤ z + x ∧ z + x ≤ hi) ∧ Z - (z + x) ≤ s.relax.x := fun x h1 h2 h3 =>
        ⟨⟨by linarith, by linarith⟩, by linarith⟩
      have under : ∀ x, -s.relax.x ≤ x → x < 0 → z + x ≤ Z → P (m1 + n2) (z + x) := by
        intro x h1 h2 h3
        obtain ⟨l1, l2⟩ := land x h1 h2 h3
        refine ⟨l1, Or.inl ⟨h3, m1, n2, rfl, ?_, lt_of_le_of_lt (mono _ _ _ (by linarith)) hn2⟩⟩
        have hm1 : (1 : ℝ) ≤ m1 := by
          rcases m1 with _ | m1
          · simp at b1; linarith
          · push_cast; have : (0 : ℝ) ≤ m1 := Nat.cast_nonneg _; linarith
        have := mul_le_mul_of_nonneg_right hm1 hr.le
        linarith
      right
      rcases relaxed_cases hr (k * (Z - z)) with ⟨c', e1⟩ | ⟨c', e1⟩ | ⟨c', c'', e1⟩ <;> rw [e1]
      · linarith
      · rcases le_or_gt (z + -s.relax.x) Z with h | h
        · exact ⟨m1 + n2, by omega, under _ le_rfl (by linarith) h⟩
        · rcases m1 with _ | m1
          · simp at b1; linarith
          · refine ⟨m1 + 1 + n2, by omega, ⟨by linarith, by linarith⟩, Or.inr ⟨h, m1, rfl, ?_⟩⟩
            push_cast at b1; linarith
      · exact ⟨m1 + n2, by omega, under _ c' (by linarith) (by linarith)⟩
  have hstart : P (n1 + 1 + n2) ((s.body.getPosition .NWU).z + 0) := by
    rw [add_zero]
    refine ⟨hz, ?_⟩
    have hab := abs_le.mp hD
    rcases le_or_gt (s.body.getPosition .NWU).z Z with h | h
    · refine Or.inl ⟨h, n1 + 1, n2, rfl, ?_, ?_⟩
      · push_cast; rw [add_mul]; linarith
      · exact lt_of_le_of_lt (mono _ _ _ (by linarith)) hn2
    · exact Or.inr ⟨h, n1, rfl, by linarith⟩
  obtain ⟨s', e, h'⟩ := disp_converges hE s hC P hP (n1 + 1 + n2) s.body s.iter 0 rfl hstart hit
  exact ⟨s', e, h', afloat_of hE hmg.ne' e⟩

/-! ## An example: a truncated pyramid -/

/-- The immersed part, at the draught `d`, of a hull with flared sides: the section at the height `t` above the bottom is a triangle of side `1 + t / 10`. -/
def flaredHull (d : ℝ) : SMesh :=
  ⟨6, fun | 0 => ⟨1 + d / 10, 0, 0⟩ | 1 => ⟨0, 1 + d / 10, 0⟩ | 2 => 0 | 3 => ⟨1, 0, -d⟩ | 4 => ⟨0, 1, -d⟩ | 5 => ⟨0, 0, -d⟩ | _ => 0,
    [⟨1, 0, 3⟩, ⟨1, 3, 4⟩, ⟨2, 1, 4⟩, ⟨2, 4, 5⟩, ⟨0, 2, 5⟩, ⟨0, 5, 3⟩, ⟨4, 3, 5⟩], fun _ => 0, [[0, 1, 2, 0]]⟩
/-- The hull, its reference point 5 above its bottom, its attitude ignored. -/
def flaredSea (j : List V3 → Junk) : Sea := ⟨1000, 10, fun _ z => if z < 4.9 then flaredHull (5 - z) else emptyMesh, fun _ _ => 0, j⟩

theorem flared_rings (d : ℝ) (l : List V3) (hl : l ∈ (flaredHull d).rings) :
    l = [(⟨1 + d / 10, 0, 0⟩ : V3), ⟨0, 1 + d / 10, 0⟩, 0, ⟨1 + d / 10, 0, 0⟩] := by
  simpa [SMesh.rings, flaredHull] using hl
theorem flared_area (d : ℝ) (l : List V3) (hl : l ∈ (flaredHull d).rings) : vectorArea l = ⟨0, 0, (1 + d / 10) ^ 2 / 2⟩ := by
  rw [flared_rings d l hl]
  simp only [vectorArea]
  ext <;> simp
  ring
theorem flared_good (d : ℝ) (hd : 0 < d) : Good (flaredHull d) := by
  refine ⟨⟨?_, ?_⟩, ?_⟩
  · intro l hl
    simp only [flaredHull, List.mem_singleton] at hl
    subst hl; rfl
  · exact (prism_good d).1.2
  · intro l hl
    have hva := flared_area d l hl
    have := flared_rings d l hl
    subst this
    refine ⟨?_, ?_⟩
    · rw [hva]; intro h; have := congrArg V3.z h
      have h2 : (0 : ℝ) < (1 + d / 10) ^ 2 / 2 := by positivity
      simp only [V3.zero_z] at this
      linarith
    · rw [hva]
      intro v hv
      unfold centroid
      simp only [sumPts, List.length_cons, List.length_nil]
      simp only [List.mem_cons, List.not_mem_nil, or_false] at hv
      rcases hv with rfl | rfl | rfl | rfl <;> simp [V3.dot, V3.normalized]
theorem flared_volume (d : ℝ) : wetVolume (flaredHull d) = d * (1 + (1 + d / 10) + (1 + d / 10) ^ 2) / 6 := by
  unfold wetVolume
  have hc : (flaredHull d).closedUp = (flaredHull d).tris ++ [⟨⟨1 + d / 10, 0, 0⟩, ⟨0, 1 + d / 10, 0⟩, 0⟩, ⟨⟨1 + d / 10, 0, 0⟩, 0, ⟨1 + d / 10, 0, 0⟩⟩] := by
    unfold SMesh.closedUp SMesh.rings; rfl
  rw [hc]; unfold volInt SMesh.tris
  have e : tetInt (fun _ => 1) 0 = fun t => det 0 t / 6 := by funext t; rw [tetInt_one]
  rw [e, List.map_append, List.sum_append, List.map_map]
  simp [flaredHull, det, Clip.triOf, V3.dot, Function.comp, Clip.Face.turned]
  ring
theorem flared_water (d : ℝ) : waterInt (fun _ => 1) (flaredHull d) = (1 + d / 10) ^ 2 / 2 := by
  have : (flaredHull d).rings = [[(⟨1 + d / 10, 0, 0⟩ : V3), ⟨0, 1 + d / 10, 0⟩, 0, ⟨1 + d / 10, 0, 0⟩]] := by simp [SMesh.rings, flaredHull]
  unfold waterInt loopInt
  rw [this]
  simp only [flux_one, fan, fan.go, List.map_cons, List.map_nil, List.sum_cons, List.sum_nil, normalVec]
  simp
  ring
theorem flared_ready (j : List V3 → Junk) : (flaredSea j).Ready := by
  intro q z
  show Good (if z < 4.9 then flaredHull (5 - z) else emptyMesh)
  split_ifs with h
  · exact flared_good _ (by linarith)
  · exact empty_good

/-- Volume and area of the water plane of the hull. -/
def flaredV (z : ℝ) : ℝ := (5 - z) * (1 + (1 + (5 - z) / 10) + (1 + (5 - z) / 10) ^ 2) / 6
def flaredA (z : ℝ) : ℝ := (1 + (5 - z) / 10) ^ 2 / 2

theorem flared_crosses (j : List V3 → Junk) (q : Q) : Crosses (flaredSea j) q flaredV flaredA 1 4.5 := by
  have hc : ∀ z : ℝ, z ≤ 4.5 → (flaredSea j).clip q z = flaredHull (5 - z) := fun z hz => if_pos (by linarith)
  refine ⟨fun z _ hz => ?_, fun z _ hz => ?_, fun z _ hz => ?_, fun z _ hz => ?_, fun z _ _ => ?_⟩
  · rw [hc z hz]
    refine ⟨fun l hl => ?_, fun l hl => ?_⟩
    · unfold Horizontal; rw [flared_area _ l hl]; simp
    · unfold Outer; rw [flared_area _ l hl]
      show (0 : ℝ) < (1 + (5 - z) / 10) ^ 2 / 2
      have : (0 : ℝ) < 1 + (5 - z) / 10 := by linarith
      positivity
  · rw [hc z hz]; exact flared_water _
  · rw [hc z hz]; exact flared_volume _
  · unfold flaredV
    have h1 : (0.5 : ℝ) ≤ 5 - z := by linarith
    nlinarith [sq_nonneg (1 + (5 - z) / 10)]
  · have h1 : HasDerivAt (fun z : ℝ => 5 - z) (-1) z := (hasDerivAt_id z).const_sub 5
    have h2 : HasDerivAt (fun z : ℝ => 1 + (5 - z) / 10) (-1 / 10) z := (h1.div_const 10).const_add 1
    have h3 : HasDerivAt (fun z : ℝ => (1 + (5 - z) / 10) ^ 2) (2 * (1 + (5 - z) / 10) * (-1 / 10)) z := by
      have h := h2.pow 2
      refine h.congr_deriv ?_
      norm_num
    have h4 := (h1.mul ((h2.const_add 1).add h3)).div_const 6
    refine h4.congr_deriv ?_
    unfold flaredA
    simp only [Pi.add_apply]
    ring

theorem drop_altitude (x : ℝ) : ((Body.new.setPosition ⟨0, 0, x⟩ .NWU).getPosition .NWU).z = x := by
  rw [setPosition_eq]
  show (Body.at _ _).refPos.z = x
  rw [at_refPos]; rfl

/-- The hypotheses of `C86_convergence` are met: the hull, of mass 3640/3, dropped at the altitude 4 (draught 1), is found to float (draught 2) with the default settings. -/
example (j : List V3 → Junk) :
    ∃ s', Solver.solveDisplacement (flaredSea j) 0 { body := Body.new.setPosition ⟨0, 0, 4⟩ .NWU, mass := 3640 / 3, cog := 0 } = some (s', true) ∧ Afloat (flaredSea j) s' := by
  have hz := drop_altitude 4
  have hC := flared_crosses j (Body.new.setPosition ⟨0, 0, 4⟩ .NWU).getQuaternion
  obtain ⟨s', h1, -, h2⟩ := C86_convergence (flaredSea j) (flared_ready j) { body := Body.new.setPosition ⟨0, 0, 4⟩ .NWU, mass := 3640 / 3, cog := 0 }
    (by norm_num [flaredSea]) (by norm_num [flaredSea]) (by norm_num) (by norm_num) flaredV flaredA 3 1 0.605 0.845
    ⟨fun z a b => hC.level z (by linarith) (by linarith), fun z a b => hC.area z (by linarith) (by linarith), fun z a b => hC.volume z (by linarith) (by linarith),
      fun z a b => hC.wet z (by linarith) (by linarith), fun z a b => hC.rate z (by linarith) (by linarith)⟩
    (by simp only [hz]; norm_num) (by norm_num [flaredSea, flaredV]) (by norm_num)
    (fun z a b => by unfold flaredA; constructor <;> nlinarith) (by norm_num) 10 5 (by norm_num) (by norm_num [flaredSea]) (by norm_num)
  exact ⟨s', h1, h2⟩

/-- The hypotheses of `C86_flared` are met, from the altitude 4.5 (draught 0.5). -/
example (j : List V3 → Junk) :
    ∃ s', Solver.solveDisplacement (flaredSea j) 0 { body := Body.new.setPosition ⟨0, 0, 4.5⟩ .NWU, mass := 3640 / 3, cog := 0 } = some (s', true) ∧ Afloat (flaredSea j) s' := by
  have hz := drop_altitude 4.5
  obtain ⟨s', h1, -, h2⟩ := C86_flared (flaredSea j) (flared_ready j) { body := Body.new.setPosition ⟨0, 0, 4.5⟩ .NWU, mass := 3640 / 3, cog := 0 }
    (by norm_num [flaredSea]) (by norm_num [flaredSea]) (by norm_num) (by norm_num) flaredV flaredA 3 1 4.5 0.55 0.98 (flared_crosses j _)
    (by simp only [hz]; norm_num) (by norm_num) (by norm_num) (by norm_num [flaredSea, flaredV]) (by norm_num)
    (fun z a b => by unfold flaredA; constructor <;> nlinarith) (fun y z a b c => by unfold flaredA; nlinarith)
    1.5 (by simp only [hz]; norm_num [abs_le]) (by norm_num) 15 10 (by norm_num) (by norm_num [flaredSea]) (by norm_num)
  exact ⟨s', h1, h2⟩

/-! ## Hulls for which the search does not end -/

/-- **C86, no convergence (defect).** When the altitudes `z` and `z + r`, `r` being the relaxation, are on either side of the equilibrium, out of tolerance, and the stiffness at each is so small
that the relaxation is reached, the search goes from one to the other until the iterations are exhausted: the answer is no, although the equilibrium lies between the two. -/
theorem C86_cycle_wrong (E : Sea) (hE : E.Ready) (s : Solver) (hrho : 0 < E.rho) (hg : 0 < E.g) (hr : 0 < s.relax.x) (z : ℝ)
    (hq : ∀ y, y = z ∨ y = z + s.relax.x → AllHorizontal (E.clip s.body.getQuaternion y) ∧ AllOuter (E.clip s.body.getQuaternion y) ∧
      1e-6 < wetVolume (E.clip s.body.getQuaternion y) ∧ 0 < waterInt (fun _ => 1) (E.clip s.body.getQuaternion y) ∧
      s.tol * |s.mass * E.g| ≤ |E.rho * E.g * wetVolume (E.clip s.body.getQuaternion y) - s.mass * E.g| ∧ s.mass * E.g ≠ 0)
    (hlow : E.rho * wetVolume (E.clip s.body.getQuaternion z) - s.mass > s.relax.x * (E.rho * waterInt (fun _ => 1) (E.clip s.body.getQuaternion z)))
    (hhigh : E.rho * wetVolume (E.clip s.body.getQuaternion (z + s.relax.x)) - s.mass < -(s.relax.x * (E.rho * waterInt (fun _ => 1) (E.clip s.body.getQuaternion (z + s.relax.x)))))
    (h0 : (s.body.getPosition .NWU).z = z) :
    ∃ s', s.solveDisplacement E 0 = some (s', false) ∧ ((s'.body.getPosition .NWU).z = z ∨ (s'.body.getPosition .NWU).z = z + s.relax.x) := by
  have hrg : 0 < E.rho * E.g := mul_pos hrho hg
  have key : ∀ (k : ℕ) (b1 : Body) (i1 : ℕ) (sol : ℝ), s.maxIter + 1 - i1 = k → b1.getQuaternion = s.body.getQuaternion →
      ((b1.getPosition .NWU).z + sol = z ∨ (b1.getPosition .NWU).z + sol = z + s.relax.x) →
      ∃ s', Solver.displacementLoop E { s with body := b1, iter := i1 } sol = some (s', false) ∧
        ((s'.body.getPosition .NWU).z = z ∨ (s'.body.getPosition .NWU).z = z + s.relax.x) := by
    intro k
    induction k with
    | zero =>
      intro b1 i1 sol hk hrot hy
      obtain ⟨cs, -, -, e⟩ := loop_eq hE { s with body := b1, iter := i1 } sol
      have hrt := raised_translate b1 sol
      have hpos : ((b1.translateInWorld ⟨0, 0, sol⟩ .NWU).getPosition .NWU).z = (b1.getPosition .NWU).z + sol := by rw [hrt.pos]; rfl
      have h2 : i1 > s.maxIter := by omega
      simp only [if_pos h2, ite_self] at e
      exact ⟨_, e, by simp only [hpos]; exact hy⟩
    | succ k ih =>
      intro b1 i1 sol hk hrot hy
      obtain ⟨cs, -, hcs, e⟩ := loop_eq hE { s with body := b1, iter := i1 } sol
      have hrt := raised_translate b1 sol
      have hmesh : E.mesh (b1.translateInWorld ⟨0, 0, sol⟩ .NWU) = E.clip s.body.getQuaternion ((b1.getPosition .NWU).z + sol) := by
        unfold Sea.mesh; rw [hrt.rot, hrt.pos, hrot]; rfl
      have hpos : ((b1.translateInWorld ⟨0, 0, sol⟩ .NWU).getPosition .NWU).z = (b1.getPosition .NWU).z + sol := by rw [hrt.pos]; rfl
      obtain ⟨w1, w2, w3, w4, w5, w6⟩ := hq _ hy
      simp only [] at e hcs
      rw [hmesh] at e hcs
      have h3 := caps_level hcs (hE s.body.getQuaternion _).flat w1
      have h4 := (waterInt_shift h3 w2 0 0).1
      have hK : (cs.map fun c => E.rho * E.g * c.i .one).sum = E.rho * E.g * waterInt (fun _ => 1) (E.clip s.body.getQuaternion ((b1.getPosition .NWU).z + sol)) := by
        rw [List.sum_map_mul_left]; congr 1; exact h4.symm
      rw [if_neg (not_le.mpr w3), if_neg (by omega : ¬ i1 > s.maxIter), if_neg (by
        rw [abs_div, div_lt_iff₀ (abs_pos.mpr w6), not_lt]; exact w5), hK] at e
      have hkp := mul_pos hrg w4
      unfold heaveStep at e
      rw [if_neg hkp.ne'] at e
      rcases hy with hy | hy
      · rw [hy] at e hkp
        have hs : relaxed s.relax.x ((E.rho * E.g * wetVolume (E.clip s.body.getQuaternion z) - s.mass * E.g) / (E.rho * E.g * waterInt (fun _ => 1) (E.clip s.body.getQuaternion z))) = s.relax.x := by
          rcases relaxed_cases hr ((E.rho * E.g * wetVolume (E.clip s.body.getQuaternion z) - s.mass * E.g) / (E.rho * E.g * waterInt (fun _ => 1) (E.clip s.body.getQuaternion z))) with
            ⟨-, e1⟩ | ⟨c, -⟩ | ⟨-, c, -⟩
          · exact e1
          · rw [div_lt_iff₀ hkp] at c
            have := mul_lt_mul_of_pos_right hlow hg
            have h5 := mul_pos hr hkp
            linarith
          · rw [div_le_iff₀ hkp] at c
            have := mul_lt_mul_of_pos_right hlow hg
            linarith
        rw [hs] at e
        obtain ⟨s', e', h'⟩ := ih (b1.translateInWorld ⟨0, 0, sol⟩ .NWU) (i1 + 1) s.relax.x (by omega) (hrt.rot.trans hrot) (by rw [hpos, hy]; exact Or.inr rfl)
        exact ⟨s', e.trans e', h'⟩
      · rw [hy] at e hkp
        have hs : relaxed s.relax.x ((E.rho * E.g * wetVolume (E.clip s.body.getQuaternion (z + s.relax.x)) - s.mass * E.g) / (E.rho * E.g * waterInt (fun _ => 1) (E.clip s.body.getQuaternion (z + s.relax.x)))) = -s.relax.x := by
          rcases relaxed_cases hr ((E.rho * E.g * wetVolume (E.clip s.body.getQuaternion (z + s.relax.x)) - s.mass * E.g) / (E.rho * E.g * waterInt (fun _ => 1) (E.clip s.body.getQuaternion (z + s.relax.x)))) with
            ⟨c, -⟩ | ⟨-, e1⟩ | ⟨c, -, -⟩
          · rw [lt_div_iff₀ hkp] at c
            have := mul_lt_mul_of_pos_right hhigh hg
            have h5 := mul_pos hr hkp
            linarith
          · exact e1
          · rw [le_div_iff₀ hkp] at c
            have := mul_lt_mul_of_pos_right hhigh hg
            linarith
        rw [hs] at e
        obtain ⟨s', e', h'⟩ := ih (b1.translateInWorld ⟨0, 0, sol⟩ .NWU) (i1 + 1) (-s.relax.x) (by omega) (hrt.rot.trans hrot) (by rw [hpos, hy]; left; ring)
        exact ⟨s', e.trans e', h'⟩
  exact key _ s.body s.iter 0 rfl rfl (by rw [add_zero]; exact Or.inl h0)

/-- A buoy 12 cm high: two pyramids on the triangle (1,0), (0,1), (0,0) (at the level of the reference point). Its immersed part when the triangle is at the altitude `z ≥ 0`: the lower pyramid,
of scale `k = 1 - z / 0.06`. -/
def tip (k z : ℝ) : SMesh :=
  ⟨4, fun | 0 => ⟨k, 0, 0⟩ | 1 => ⟨0, k, 0⟩ | 2 => 0 | 3 => ⟨0, 0, z - 0.06⟩ | _ => 0, [⟨1, 0, 3⟩, ⟨2, 1, 3⟩, ⟨0, 2, 3⟩], fun _ => 0, [[0, 1, 2, 0]]⟩
/-- When the triangle is under water (`z < 0`): the lower pyramid and a slice of the upper one, up to the section of scale `k = 1 + z / 0.06`. -/
def bulge (k z : ℝ) : SMesh :=
  ⟨7, fun | 0 => ⟨k, 0, 0⟩ | 1 => ⟨0, k, 0⟩ | 2 => 0 | 3 => ⟨1, 0, z⟩ | 4 => ⟨0, 1, z⟩ | 5 => ⟨0, 0, z⟩ | 6 => ⟨0, 0, z - 0.06⟩ | _ => 0,
    [⟨1, 0, 3⟩, ⟨1, 3, 4⟩, ⟨2, 1, 4⟩, ⟨2, 4, 5⟩, ⟨0, 2, 5⟩, ⟨0, 5, 3⟩, ⟨4, 3, 6⟩, ⟨5, 4, 6⟩, ⟨3, 5, 6⟩], fun _ => 0, [[0, 1, 2, 0]]⟩
def diamond (z : ℝ) : SMesh := if z < 0 then bulge (1 + z / 0.06) z else tip (1 - z / 0.06) z
/-- The buoy, near the water plane. -/
def diamondSea (j : List V3 → Junk) : Sea := ⟨1000, 10, fun _ z => if |z| ≤ 0.05 then diamond z else emptyMesh, fun _ _ => 0, j⟩

theorem ring_area (k : ℝ) : vectorArea [(⟨k, 0, 0⟩ : V3), ⟨0, k, 0⟩, 0, ⟨k, 0, 0⟩] = ⟨0, 0, k ^ 2 / 2⟩ := by
  simp only [vectorArea]
  ext <;> simp
  ring
theorem good_of_ring {M : SMesh} (k : ℝ) (hk : 0 < k) (hl : M.loops = [[0, 1, 2, 0]])
    (hr : M.rings = [[(⟨k, 0, 0⟩ : V3), ⟨0, k, 0⟩, 0, ⟨k, 0, 0⟩]]) (hp : (M.edges.map Prod.swap).Perm M.edges) : Good M := by
  refine ⟨⟨?_, ?_⟩, ?_⟩
  · intro l h
    rw [hl, List.mem_singleton] at h
    subst h; rfl
  · intro a b
    have h1 := hp.count_eq (b, a)
    have h2 := List.count_map_of_injective M.edges Prod.swap Prod.swap_injective (a, b)
    simp only [Prod.swap_prod_mk] at h2
    rw [← h2, h1]
  · intro l h
    rw [hr, List.mem_singleton] at h
    subst h
    refine ⟨?_, ?_⟩
    · rw [ring_area]; intro h; have := congrArg V3.z h
      have h2 : (0 : ℝ) < k ^ 2 / 2 := by positivity
      simp only [V3.zero_z] at this
      linarith
    · rw [ring_area]
      intro v hv
      unfold centroid
      simp only [sumPts, List.length_cons, List.length_nil]
      simp only [List.mem_cons, List.not_mem_nil, or_false] at hv
      rcases hv with rfl | rfl | rfl | rfl <;> simp [V3.dot, V3.normalized]
theorem tip_ring (k z : ℝ) : (tip k z).rings = [[(⟨k, 0, 0⟩ : V3), ⟨0, k, 0⟩, 0, ⟨k, 0, 0⟩]] := by simp [SMesh.rings, tip]
theorem bulge_ring (k z : ℝ) : (bulge k z).rings = [[(⟨k, 0, 0⟩ : V3), ⟨0, k, 0⟩, 0, ⟨k, 0, 0⟩]] := by simp [SMesh.rings, bulge]
theorem tip_good (k z : ℝ) (hk : 0 < k) : Good (tip k z) := by
  refine good_of_ring k hk rfl (tip_ring k z) ?_
  show ((([⟨1, 0, 3⟩, ⟨2, 1, 3⟩, ⟨0, 2, 3⟩] : List Clip.Face).flatMap faceEdges ++ [[0, 1, 2, 0]].flatMap loopEdges).map Prod.swap).Perm
    (([⟨1, 0, 3⟩, ⟨2, 1, 3⟩, ⟨0, 2, 3⟩] : List Clip.Face).flatMap faceEdges ++ [[0, 1, 2, 0]].flatMap loopEdges)
  decide
theorem bulge_good (k z : ℝ) (hk : 0 < k) : Good (bulge k z) := by
  refine good_of_ring k hk rfl (bulge_ring k z) ?_
  show ((([⟨1, 0, 3⟩, ⟨1, 3, 4⟩, ⟨2, 1, 4⟩, ⟨2, 4, 5⟩, ⟨0, 2, 5⟩, ⟨0, 5, 3⟩, ⟨4, 3, 6⟩, ⟨5, 4, 6⟩, ⟨3, 5, 6⟩] : List Clip.Face).flatMap faceEdges ++ [[0, 1, 2, 0]].flatMap loopEdges).map Prod.swap).Perm
    (([⟨1, 0, 3⟩, ⟨1, 3, 4⟩, ⟨2, 1, 4⟩, ⟨2, 4, 5⟩, ⟨0, 2, 5⟩, ⟨0, 5, 3⟩, ⟨4, 3, 6⟩, ⟨5, 4, 6⟩, ⟨3, 5, 6⟩] : List Clip.Face).flatMap faceEdges ++ [[0, 1, 2, 0]].flatMap loopEdges)
  decide
theorem ring_water {M : SMesh} (k : ℝ) (h : M.rings = [[(⟨k, 0, 0⟩ : V3), ⟨0, k, 0⟩, 0, ⟨k, 0, 0⟩]]) : waterInt (fun _ => 1) M = k ^ 2 / 2 := by
  unfold waterInt loopInt
  rw [h]
  simp only [flux_one, fan, fan.go, List.map_cons, List.map_nil, List.sum_cons, List.sum_nil, normalVec]
  simp
  ring
theorem tip_volume (k z : ℝ) : wetVolume (tip k z) = k ^ 2 * (0.06 - z) / 6 := by
  unfold wetVolume
  have hc : (tip k z).closedUp = (tip k z).tris ++ [⟨⟨k, 0, 0⟩, ⟨0, k, 0⟩, 0⟩, ⟨⟨k, 0, 0⟩, 0, ⟨k, 0, 0⟩⟩] := by
    unfold SMesh.closedUp SMesh.rings; rfl
  rw [hc]; unfold volInt SMesh.tris
  have e : tetInt (fun _ => 1) 0 = fun t => det 0 t / 6 := by funext t; rw [tetInt_one]
  rw [e, List.map_append, List.sum_append, List.map_map]
  simp [tip, det, Clip.triOf, V3.dot, Function.comp, Clip.Face.turned]
  ring
theorem bulge_volume (k z : ℝ) : wetVolume (bulge k z) = -z * (1 + k + k ^ 2) / 6 + 0.06 / 6 := by
  unfold wetVolume
  have hc : (bulge k z).closedUp = (bulge k z).tris ++ [⟨⟨k, 0, 0⟩, ⟨0, k, 0⟩, 0⟩, ⟨⟨k, 0, 0⟩, 0, ⟨k, 0, 0⟩⟩] := by
    unfold SMesh.closedUp SMesh.rings; rfl
  rw [hc]; unfold volInt SMesh.tris
  have e : tetInt (fun _ => 1) 0 = fun t => det 0 t / 6 := by funext t; rw [tetInt_one]
  rw [e, List.map_append, List.sum_append, List.map_map]
  simp [bulge, det, Clip.triOf, V3.dot, Function.comp, Clip.Face.turned]
  ring
theorem diamond_ready (j : List V3 → Junk) : (diamondSea j).Ready := by
  intro q z
  show Good (if |z| ≤ 0.05 then diamond z else emptyMesh)
  unfold diamond
  split_ifs with h1 h2
  · refine bulge_good _ _ ?_
    have := (abs_le.mp h1).1
    rw [div_eq_mul_inv]; norm_num; linarith
  · refine tip_good _ _ ?_
    have := (abs_le.mp h1).2
    rw [div_eq_mul_inv]; norm_num; linarith
  · exact empty_good

/-- The buoy of 10 kg floats with the triangle at the water plane (altitude 0). With the default settings the search from the altitude -0.05 m answers no: the hypotheses of `C86_cycle_wrong` are met. -/
example (j : List V3 → Junk) (q : Q) :
    (diamondSea j).rho * wetVolume ((diamondSea j).clip q 0) = 10 ∧
    ∃ s', Solver.solveDisplacement (diamondSea j) 0 { body := Body.new.setPosition ⟨0, 0, -0.05⟩ .NWU, mass := 10, cog := 0 } = some (s', false) := by
  constructor
  · have e : (diamondSea j).clip q 0 = tip (1 - 0 / 0.06) 0 := by
      show (if |(0 : ℝ)| ≤ 0.05 then diamond 0 else emptyMesh) = _
      rw [if_pos (by norm_num)]; exact if_neg (lt_irrefl _)
    rw [e, tip_volume]; norm_num [diamondSea]
  · have hz := drop_altitude (-0.05)
    have e1 : (diamondSea j).clip (Body.new.setPosition ⟨0, 0, -0.05⟩ .NWU).getQuaternion (-0.05) = bulge (1 / 6) (-0.05) := by
      show (if |(-0.05 : ℝ)| ≤ 0.05 then diamond (-0.05) else emptyMesh) = _
      rw [if_pos (by rw [abs_neg, abs_of_pos] <;> norm_num)]
      unfold diamond
      rw [if_pos (by norm_num)]; congr 1; norm_num
    have e2 : (diamondSea j).clip (Body.new.setPosition ⟨0, 0, -0.05⟩ .NWU).getQuaternion (-0.05 + 0.1) = tip (1 / 6) 0.05 := by
      show (if |(-0.05 + 0.1 : ℝ)| ≤ 0.05 then diamond (-0.05 + 0.1) else emptyMesh) = _
      rw [show (-0.05 + 0.1 : ℝ) = 0.05 by norm_num, if_pos (by rw [abs_of_pos]; norm_num)]
      unfold diamond
      rw [if_neg (by norm_num)]; congr 1; norm_num
    obtain ⟨s', h, -⟩ := C86_cycle_wrong (diamondSea j) (diamond_ready j) { body := Body.new.setPosition ⟨0, 0, -0.05⟩ .NWU, mass := 10, cog := 0 }
      (by norm_num [diamondSea]) (by norm_num [diamondSea]) (by norm_num) (-0.05)
      (by
        intro y hy
        simp only [] at hy
        rcases hy with rfl | rfl
        · simp only [e1]
          refine ⟨fun l hl => ?_, fun l hl => ?_, ?_, ?_, ?_, ?_⟩
          · rw [bulge_ring, List.mem_singleton] at hl; subst hl; unfold Horizontal; rw [ring_area]; simp
          · rw [bulge_ring, List.mem_singleton] at hl; subst hl; unfold Outer; rw [ring_area]; norm_num
          · rw [bulge_volume]; norm_num
          · rw [ring_water _ (bulge_ring _ _)]; norm_num
          · rw [bulge_volume]; simp only [diamondSea]; rw [abs_of_pos, abs_of_pos] <;> norm_num
          · norm_num [diamondSea]
        · simp only [e2]
          refine ⟨fun l hl => ?_, fun l hl => ?_, ?_, ?_, ?_, ?_⟩
          · rw [tip_ring, List.mem_singleton] at hl; subst hl; unfold Horizontal; rw [ring_area]; simp
          · rw [tip_ring, List.mem_singleton] at hl; subst hl; unfold Outer; rw [ring_area]; norm_num
          · rw [tip_volume]; norm_num
          · rw [ring_water _ (tip_ring _ _)]; norm_num
          · rw [tip_volume]; simp only [diamondSea]; rw [abs_of_pos, abs_of_neg] <;> norm_num
          · norm_num [diamondSea])
      (by simp only [e1]; rw [bulge_volume, ring_water _ (bulge_ring _ _)]; norm_num [diamondSea])
      (by simp only [e2]; rw [tip_volume, ring_water _ (tip_ring _ _)]; norm_num [diamondSea]) hz
    exact ⟨s', h⟩

/-! ## A body already at equilibrium -/

theorem still_zero (s : Solver) : (s.move 0).refPos = s.body.refPos ∧ (s.move 0).cog.rot = s.body.cog.rot := by
  refine ⟨by rw [move_same]; ext <;> simp, ?_⟩
  unfold Solver.move Body.rotateBy
  have : setCardan .NWU ⟨(0 : V3).y, (0 : V3).z, 0⟩ = Q.one := by
    simp [setCardan, convAngles, eulerToQuat, Q.one]
  rw [this, setRotation_eq, at_rot]
  show (s.body.translateInWorld _ _).cog.rot.mul Q.one = _
  rw [translateInWorld_eq, at_rot]
  ext <;> simp [Q.mul, Q.one]

/-- **C86, a body at equilibrium.** When the body (on the vertical axis of the world, its hull crossing the water plane) is put where buoyancy balances the weight and their moment vanishes, within the
tolerance, `SolveEquilibrium` answers yes at once and leaves the body where it is. (`mem = 0`.) -/
theorem C86_at_rest (E : Sea) (hE : E.Ready) (hI : ∀ q z, Indexed (E.clip q z)) (s : Solver) (hm : 0 < s.mass * E.g) (hit : s.iter ≤ s.maxIter)
    (h0 : s.body.refPos.x = 0 ∧ s.body.refPos.y = 0) (hl : (E.mesh s.body).loops ≠ []) (hh : AllHorizontal (E.mesh s.body)) (ho : AllOuter (E.mesh s.body))
    (hf : Afloat E s) (hroll : ∀ B, Extent (fun v => v.y) (IsVertex (E.mesh s.body)) B → |(netMoment E s).x| < s.tol * (s.mass * E.g * B))
    (hpitch : ∀ L, Extent (fun v => v.x) (IsVertex (E.mesh s.body)) L → |(netMoment E s).y| < s.tol * (s.mass * E.g * L)) :
    ∃ s', s.solveEquilibrium E 0 = some (s', true) ∧ s'.iter = s.iter ∧ s'.body.getPosition .NWU = s.body.getPosition .NWU ∧ s'.body.getQuaternion = s.body.getQuaternion := by
  obtain ⟨hw, hb⟩ := hf
  -- the displacement
  obtain ⟨cs, -, -, e⟩ := loop_eq hE s 0
  have hrt := raised_translate s.body 0
  have hr0 : (s.body.translateInWorld ⟨0, 0, 0⟩ .NWU).refPos = s.body.refPos := by
    refine (show (s.body.translateInWorld ⟨0, 0, 0⟩ .NWU).refPos = s.body.refPos + ⟨0, 0, 0⟩ from hrt.pos).trans ?_
    ext <;> simp
  have same : ∀ b' : Body, b'.refPos = s.body.refPos → b'.cog.rot = s.body.cog.rot → E.mesh b' = E.mesh s.body := by
    intro b' h1 h2
    unfold Sea.mesh
    show E.clip b'.cog.rot b'.refPos.z = E.clip s.body.cog.rot s.body.refPos.z
    rw [h1, h2]
  rw [same _ hr0 hrt.rot, if_neg (not_le.mpr hw), if_neg (not_lt.mpr hit), if_pos (by
    rw [abs_div, div_lt_iff₀ (abs_pos.mpr hm.ne')]; exact hb)] at e
  unfold Solver.solveEquilibrium Solver.solveDisplacement
  rw [e]
  simp only []
  -- the equilibrium
  obtain ⟨t, ht⟩ : ∃ t : Solver, t = { s with body := s.body.translateInWorld ⟨0, 0, 0⟩ .NWU } := ⟨_, rfl⟩
  rw [← ht]
  have m0 := still_zero t
  have m1 : (t.move 0).refPos = s.body.refPos := by rw [m0.1, ht]; exact hr0
  have m2 : (t.move 0).cog.rot = s.body.cog.rot := by rw [m0.2, ht]; exact hrt.rot
  have hmesh := same _ m1 m2
  have hcog : (t.move 0).pointInWorld t.cog .NWU = s.body.pointInWorld s.cog .NWU := by
    have : t.cog = s.cog := by rw [ht]
    rw [this]
    unfold Body.pointInWorld Body.getPosition Body.toWorld
    rw [m1, m2]
  have hG : Good (E.mesh s.body) := hE _ _
  obtain ⟨cs', c1, c2⟩ := hG.caps E.j
  have hV0 : wetVolume (E.mesh s.body) ≠ 0 := by intro h; rw [h] at hw; norm_num at hw
  obtain ⟨p, B, hp, -, -⟩ := C80_properties_partial E.j E.rho E.g (s.body.pointInWorld s.cog .NWU) 0 .NWU (E.mesh s.body) hG hl hh ho 0 hV0
  have hBc := residual_moment (b := s.body) hG hp hV0
  obtain ⟨-, -, -, h2, h3⟩ := compute_some hp
  obtain ⟨hn, hx, hy⟩ := extents_pos E.j hG (hI _ _) hw
  obtain ⟨ex, ey⟩ := box_extents hn
  rw [← h3] at hx ex
  rw [← h2] at hy ey
  have r1 := hroll _ ey
  have r2 := hpitch _ ex
  have t1 : t.mass = s.mass := by rw [ht]
  have t2 : t.tol = s.tol := by rw [ht]
  have t3 : t.iter = s.iter := by rw [ht]
  have t4 : t.maxIter = s.maxIter := by rw [ht]
  refine ⟨{ t with body := t.move 0 }, ?_, t3, m1, m2⟩
  rw [Solver.equilibriumLoop]
  simp only [hmesh, c1, volumeOf_eq hG c2 0, hcog, hp]
  have hwv : volInt (fun _ => 1) 0 (E.mesh s.body).closedUp = wetVolume (E.mesh s.body) := rfl
  rw [hwv, if_neg (not_le.mpr hw), dif_neg (by rw [t3, t4]; omega), if_pos]
  rw [t1, t2]
  simp only [residualOf, scaleOf, hBc]
  refine ⟨?_, ?_, ?_⟩
  · rw [abs_div, abs_of_pos hm, div_lt_iff₀ hm]
    rwa [abs_of_pos hm] at hb
  · rw [abs_div, abs_of_pos (mul_pos hm hy), div_lt_iff₀ (mul_pos hm hy)]
    refine lt_of_eq_of_lt ?_ r1
    congr 1
    unfold netMoment buoyancyCentre inWorld
    simp [h0.2]
    ring
  · rw [abs_div, abs_of_pos (mul_pos hm hx), div_lt_iff₀ (mul_pos hm hx)]
    refine lt_of_eq_of_lt ?_ r2
    congr 1
    unfold netMoment buoyancyCentre inWorld
    simp [h0.1]
    ring

theorem prism_moment (d : ℝ) : (wetMoment (prism d)).x = d / 6 ∧ (wetMoment (prism d)).y = d / 6 := by
  have hc : (prism d).closedUp = (prism d).tris ++ [⟨⟨1, 0, 0⟩, ⟨0, 1, 0⟩, 0⟩, ⟨⟨1, 0, 0⟩, 0, ⟨1, 0, 0⟩⟩] := by
    unfold SMesh.closedUp SMesh.rings; rfl
  have key : ∀ i : Fin 3, volInt (coord i) 0 (prism d).closedUp =
      (((prism d).tris ++ [(⟨⟨1, 0, 0⟩, ⟨0, 1, 0⟩, 0⟩ : Clip.Tri), ⟨⟨1, 0, 0⟩, 0, ⟨1, 0, 0⟩⟩]).map fun t => det 0 t * (coord i 0 + coord i t.p + coord i t.q + coord i t.r) / 24).sum := by
    intro i
    rw [hc]; unfold volInt
    congr 1
    exact List.map_congr_left fun t _ => tetInt_coord i 0 t
  constructor
  · refine (key 0).trans ?_
    unfold SMesh.tris
    rw [List.map_append, List.sum_append, List.map_map]
    simp [prism, det, Clip.triOf, V3.dot, Function.comp, Clip.Face.turned, coord]
    ring
  · refine (key 1).trans ?_
    unfold SMesh.tris
    rw [List.map_append, List.sum_append, List.map_map]
    simp [prism, det, Clip.triOf, V3.dot, Function.comp, Clip.Face.turned, coord]
    ring

/-- The hypotheses of `C86_at_rest` are met: the prism of mass 1000 with its centre of gravity on the vertical of its centre, put at the altitude 3 (draught 2), is left there. -/
example (j : List V3 → Junk) :
    ∃ s', Solver.solveEquilibrium (prismSea j) 0 { body := Body.new.setPosition ⟨0, 0, 3⟩ .NWU, mass := 1000, cog := ⟨1 / 3, 1 / 3, 0⟩ } = some (s', true) ∧
      s'.body.getPosition .NWU = ⟨0, 0, 3⟩ := by
  have hz := drop_altitude 3
  have hpos : (Body.new.setPosition ⟨0, 0, 3⟩ .NWU).refPos = ⟨0, 0, 3⟩ := by rw [setPosition_eq, at_refPos]; rfl
  have e : (prismSea j).mesh (Body.new.setPosition ⟨0, 0, 3⟩ .NWU) = prism 2 := by
    unfold Sea.mesh
    rw [hz]
    show (if (3 : ℝ) < 4.9 then prism (5 - 3) else emptyMesh) = _
    rw [if_pos (by norm_num)]; norm_num
  have hV : wetVolume (prism 2) = 1 := by rw [prism_volume]; norm_num
  have hM := prism_moment 2
  have hnet : ∀ s : Solver, s.body = Body.new.setPosition ⟨0, 0, 3⟩ .NWU → s.mass = 1000 → s.cog = ⟨1 / 3, 1 / 3, 0⟩ → (netMoment (prismSea j) s).x = 0 ∧ (netMoment (prismSea j) s).y = 0 := by
    intro s h1 h2 h3
    have hc : s.body.pointInWorld s.cog .NWU = ⟨1 / 3, 1 / 3, 3⟩ := by
      rw [h1, h3]
      have hr : (Body.new.setPosition ⟨0, 0, 3⟩ .NWU).cog.rot = Q.one := rfl
      unfold Body.pointInWorld Body.getPosition Body.toWorld
      rw [hpos, hr]
      show (⟨0, 0, 3⟩ : V3) + Q.one.rotate ⟨1 / 3, 1 / 3, 0⟩ = _
      rw [Q.rotate_one]
      ext <;> simp
    unfold netMoment buoyancyCentre inWorld
    rw [hc, h1, e, hV, hpos, h2]
    simp [prismSea, hM.1, hM.2]
    norm_num
  obtain ⟨n1, n2⟩ := hnet { body := Body.new.setPosition ⟨0, 0, 3⟩ .NWU, mass := 1000, cog := ⟨1 / 3, 1 / 3, 0⟩ } rfl rfl rfl
  obtain ⟨hn, hx, hy⟩ := extents_pos j (prism_good 2) (by
    have := prism_indexed j Q.one 3
    rwa [show (prismSea j).clip Q.one 3 = prism 2 from by
      show (if (3 : ℝ) < 4.9 then prism (5 - 3) else emptyMesh) = _
      rw [if_pos (by norm_num)]; norm_num] at this) (by rw [hV]; norm_num)
  obtain ⟨ex, ey⟩ := box_extents hn
  obtain ⟨s', h1, -, h2, -⟩ := C86_at_rest (prismSea j) (prism_ready j) (prism_indexed j) { body := Body.new.setPosition ⟨0, 0, 3⟩ .NWU, mass := 1000, cog := ⟨1 / 3, 1 / 3, 0⟩ }
    (by norm_num [prismSea]) (by norm_num) ⟨by rw [hpos], by rw [hpos]⟩ (by simp only [e]; simp [prism])
    (by simp only [e]; intro l hl; unfold Horizontal; rw [prism_area _ l hl]; simp)
    (by simp only [e]; intro l hl; unfold Outer; rw [prism_area _ l hl]; norm_num)
    ⟨by simp only [e, hV]; norm_num, by simp only [e, hV]; norm_num [prismSea]⟩
    (by
      simp only [e, n1, abs_zero]
      intro B hB
      rw [extent_unique hB ey]
      norm_num [prismSea]; linarith)
    (by
      simp only [e, n2, abs_zero]
      intro B hB
      rw [extent_unique hB ex]
      norm_num [prismSea]; linarith)
  exact ⟨s', h1, by rw [h2]; exact hpos⟩

end Frydom.Hydro
