import Verif.Func.Sem
import Mathlib.Analysis.Calculus.Deriv.Inv
import Mathlib.Analysis.Calculus.Deriv.Abs

/-! # Derivative lemmas for C02 (helpers) -/

open Classical Filter Topology

noncomputable section

namespace Frydom.Func

theorem hd_cast {f : ℝ → ℝ} {x b b' : ℝ} (h : HasDerivAt f b x) (e : b = b') : HasDerivAt f b' x := e ▸ h

theorem hasDerivAt_sq (a : ℝ) : HasDerivAt (fun u : ℝ => u ^ 2) (2 * a) a := by
  have := hasDerivAt_pow 2 a
  exact hd_cast this (by norm_num)

theorem hasDerivAt_sq_comp {f : ℝ → ℝ} {a b : ℝ} (h : HasDerivAt f b a) :
    HasDerivAt (fun u : ℝ => f u ^ 2) (2 * f a * b) a :=
  HasDerivAt.comp a (hasDerivAt_sq (f a)) h

theorem hasDerivAt_inv_comp {f : ℝ → ℝ} {a b : ℝ} (h : HasDerivAt f b a) (h0 : f a ≠ 0) :
    HasDerivAt (fun u : ℝ => (f u)⁻¹) (-b / f a ^ 2) a := h.inv h0

theorem hasDerivAt_sqrt_comp {f : ℝ → ℝ} {a b : ℝ} (h : HasDerivAt f b a) (h0 : f a ≠ 0) :
    HasDerivAt (fun u : ℝ => Real.sqrt (f u)) (b / (2 * Real.sqrt (f a))) a := h.sqrt h0

/-- `f` is differentiable near `x`, with first and second derivative `b`, `c` at `x`. -/
structure C2 (f : ℝ → ℝ) (x b c : ℝ) : Prop where
  d1 : HasDerivAt f b x
  near : ∀ᶠ y in 𝓝 x, DifferentiableAt ℝ f y
  d2 : HasDerivAt (deriv f) c x

namespace C2

variable {f g : ℝ → ℝ} {x b c b' c' : ℝ}

theorem of {φ φ' : ℝ → ℝ} {u c : ℝ} (h : ∀ᶠ v in 𝓝 u, HasDerivAt φ (φ' v) v) (h' : HasDerivAt φ' c u) :
    C2 φ u (φ' u) c := by
  refine ⟨h.self_of_nhds, h.mono fun _ hv => hv.differentiableAt, ?_⟩
  refine h'.congr_of_eventuallyEq ?_
  exact h.mono fun _ hv => hv.deriv

theorem congr (h : C2 f x b c) (e : g =ᶠ[𝓝 x] f) : C2 g x b c := by
  refine ⟨h.d1.congr_of_eventuallyEq e, ?_, ?_⟩
  · filter_upwards [h.near, e.eventuallyEq_nhds] with y hy he
    exact (he.differentiableAt_iff).mpr hy
  · refine h.d2.congr_of_eventuallyEq ?_
    filter_upwards [e.eventuallyEq_nhds] with y he
    exact he.deriv_eq

theorem cst (v : ℝ) (x : ℝ) : C2 (fun _ => v) x 0 0 :=
  of (φ' := fun _ => 0) (Eventually.of_forall fun y => hasDerivAt_const y v) (hasDerivAt_const x 0)

theorem ident (x : ℝ) : C2 (fun y => y) x 1 0 :=
  of (φ' := fun _ => 1) (Eventually.of_forall fun y => hasDerivAt_id y) (hasDerivAt_const x 1)

theorem add (hf : C2 f x b c) (hg : C2 g x b' c') : C2 (fun y => f y + g y) x (b + b') (c + c') := by
  refine ⟨hf.d1.add hg.d1, ?_, ?_⟩
  · filter_upwards [hf.near, hg.near] with y h1 h2 using h1.add h2
  · refine (hf.d2.add hg.d2).congr_of_eventuallyEq ?_
    filter_upwards [hf.near, hg.near] with y h1 h2
    exact (h1.hasDerivAt.add h2.hasDerivAt).deriv

theorem neg (hf : C2 f x b c) : C2 (fun y => -f y) x (-b) (-c) := by
  refine ⟨hf.d1.neg, ?_, ?_⟩
  · filter_upwards [hf.near] with y h1 using h1.neg
  · refine hf.d2.neg.congr_of_eventuallyEq ?_
    filter_upwards [hf.near] with y h1
    exact h1.hasDerivAt.neg.deriv

theorem sub (hf : C2 f x b c) (hg : C2 g x b' c') : C2 (fun y => f y - g y) x (b - b') (c - c') := by
  simpa [sub_eq_add_neg] using hf.add hg.neg

theorem mul (hf : C2 f x b c) (hg : C2 g x b' c') :
    C2 (fun y => f y * g y) x (b * g x + f x * b') (c * g x + b * b' + (b * b' + f x * c')) := by
  refine ⟨hf.d1.mul hg.d1, ?_, ?_⟩
  · filter_upwards [hf.near, hg.near] with y h1 h2 using h1.mul h2
  · have e : deriv (fun y => f y * g y) =ᶠ[𝓝 x] fun y => deriv f y * g y + f y * deriv g y := by
      filter_upwards [hf.near, hg.near] with y h1 h2
      exact (h1.hasDerivAt.mul h2.hasDerivAt).deriv
    refine HasDerivAt.congr_of_eventuallyEq ?_ e
    have := (hf.d2.mul hg.d1).add (hf.d1.mul hg.d2)
    rw [hf.d1.deriv, hg.d1.deriv] at this
    exact this

theorem comp {φ : ℝ → ℝ} (hφ : C2 φ (f x) b' c') (hf : C2 f x b c) :
    C2 (fun y => φ (f y)) x (b' * b) (c' * b * b + b' * c) := by
  have ct : Tendsto f (𝓝 x) (𝓝 (f x)) := hf.d1.continuousAt
  refine ⟨hφ.d1.comp x hf.d1, ?_, ?_⟩
  · filter_upwards [hf.near, ct.eventually hφ.near] with y h1 h2
    exact DifferentiableAt.comp y h2 h1
  · have e : deriv (fun y => φ (f y)) =ᶠ[𝓝 x] fun y => deriv φ (f y) * deriv f y := by
      filter_upwards [hf.near, ct.eventually hφ.near] with y h1 h2
      exact (HasDerivAt.comp y h2.hasDerivAt h1.hasDerivAt).deriv
    refine HasDerivAt.congr_of_eventuallyEq ?_ e
    have h1 : HasDerivAt (fun y => deriv φ (f y)) (c' * b) x := HasDerivAt.comp x hφ.d2 hf.d1
    have := h1.mul hf.d2
    rw [hφ.d1.deriv, hf.d1.deriv] at this
    exact this

theorem cast (h : C2 f x b c) (e1 : b = b') (e2 : c = c') : C2 f x b' c' := by
  subst e1; subst e2; exact h

theorem inv {u : ℝ} (hu : u ≠ 0) : C2 (fun v => v⁻¹) u (-(u ^ 2)⁻¹) (2 / u ^ 3) := by
  refine of (φ' := fun v => -(v ^ 2)⁻¹) ?_ ?_
  · filter_upwards [isOpen_ne.mem_nhds hu] with v hv using hasDerivAt_inv hv
  · have h := (hasDerivAt_inv_comp (hasDerivAt_sq u) (pow_ne_zero 2 hu)).neg
    refine hd_cast h ?_
    field_simp

theorem div (hf : C2 f x b c) (hg : C2 g x b' c') (h0 : g x ≠ 0) :
    C2 (fun y => f y / g y) x ((b * g x - b' * f x) / (g x * g x))
      ((c - 2 * ((b * g x - b' * f x) / (g x * g x)) * b' - f x / g x * c') / g x) := by
  have h := hf.mul (C2.comp (C2.inv h0) hg)
  have e : (fun y => f y / g y) = fun y => f y * (g y)⁻¹ := by funext y; rw [div_eq_mul_inv]
  rw [e]
  refine h.cast ?_ ?_
  · field_simp; ring
  · field_simp; ring

end C2

theorem rpow_three_half {t : ℝ} (ht : 0 < t) : t ^ (1.5 : ℝ) = t * Real.sqrt t := by
  have : (1.5 : ℝ) = 1 + 1 / 2 := by norm_num
  rw [this, Real.rpow_add ht, Real.rpow_one, Real.sqrt_eq_rpow]

theorem rpowC_some {u q : ℝ} (h : 0 < u ∨ (u = 0 ∧ 0 ≤ q) ∨ (u < 0 ∧ ∃ n : ℤ, q = n)) :
    rpowC u q = some (u ^ q) := by
  unfold rpowC
  rcases h with h | ⟨h, hq⟩ | ⟨h, hn⟩
  · simp [h]
  · subst h
    simp only [lt_irrefl, if_false, if_true]
    by_cases h0 : q = 0
    · simp [h0]
    · have : 0 < q := lt_of_le_of_ne hq (Ne.symm h0)
      simp [h0, this, Real.zero_rpow h0]
  · simp [not_lt.mpr h.le, h.ne, hn]

/-- What a one-operand class must do at a regular point. -/
def UOK (k : UKind) (a : ℝ) : Prop :=
  ∃ b' c', C2 (semU k) a b' c' ∧ ∀ b c, uJet k ⟨some a, some b, some c⟩ =
    ⟨some (semU k a), some (b' * b), some (c' * b * b + b' * c)⟩

theorem UOK_id {k : UKind} (h1 : semU k = fun u => u) (h2 : ∀ j, uJet k j = j) (a : ℝ) : UOK k a := by
  refine ⟨1, 0, by rw [h1]; exact C2.ident a, ?_⟩
  intro b c; rw [h2, h1]; simp

theorem UOK_neg (a : ℝ) : UOK .neg a :=
  ⟨-1, 0, ((C2.ident a).neg).cast rfl (by simp), by intro b c; simp [uJet, fneg, lift1, semU]⟩

theorem UOK_cos (a : ℝ) : UOK .cos a := by
  refine ⟨-Real.sin a, -Real.cos a, C2.of (φ' := fun u => -Real.sin u)
    (Eventually.of_forall fun u => Real.hasDerivAt_cos u) (Real.hasDerivAt_sin a).neg, ?_⟩
  intro b c
  simp only [uJet, fneg, lift1, fmul, fsub, lift2, semU, Jet.mk.injEq, Option.some.injEq, true_and]
  constructor <;> ring

theorem UOK_sin (a : ℝ) : UOK .sin a := by
  refine ⟨Real.cos a, -Real.sin a, C2.of (φ' := fun u => Real.cos u)
    (Eventually.of_forall fun u => Real.hasDerivAt_sin u) (Real.hasDerivAt_cos a), ?_⟩
  intro b c
  simp only [uJet, lift1, fmul, fsub, lift2, semU, Jet.mk.injEq, Option.some.injEq, true_and]
  constructor <;> ring

theorem tan_sq {u : ℝ} (h : Real.cos u ≠ 0) : 1 / Real.cos u ^ 2 = 1 + Real.tan u ^ 2 := by
  rw [Real.tan_eq_sin_div_cos]
  field_simp
  linarith [Real.sin_sq_add_cos_sq u]

theorem UOK_tan {a : ℝ} (h : Real.cos a ≠ 0) : UOK .tan a := by
  have hd : ∀ u, Real.cos u ≠ 0 → HasDerivAt Real.tan (1 + Real.tan u ^ 2) u := by
    intro u hu
    have := Real.hasDerivAt_tan hu
    rwa [tan_sq hu] at this
  refine ⟨1 + Real.tan a ^ 2, 2 * Real.tan a * (1 + Real.tan a ^ 2),
    C2.of (φ' := fun u => 1 + Real.tan u ^ 2) ?_ ?_, ?_⟩
  · have : ∀ᶠ u in 𝓝 a, Real.cos u ≠ 0 := Real.continuous_cos.continuousAt.eventually_ne h
    exact this.mono hd
  · exact (hasDerivAt_sq_comp (hd a h)).const_add 1
  · intro b c
    simp only [uJet, ftan, partial1, h, ne_eq, not_false_eq_true, if_true, fmul, fadd, lift2, semU,
      Jet.mk.injEq, Option.some.injEq, true_and]
    constructor <;> ring

theorem one_sub_sq_pos {a : ℝ} (h : -1 < a ∧ a < 1) : 0 < 1 - a * a := by nlinarith [h.1, h.2]

theorem hasDerivAt_sqrt_one_sub {a : ℝ} (h : -1 < a ∧ a < 1) :
    HasDerivAt (fun u : ℝ => Real.sqrt (1 - u ^ 2)) (-a / Real.sqrt (1 - a ^ 2)) a := by
  have hp : (1 - a ^ 2) ≠ 0 := by have := one_sub_sq_pos h; nlinarith
  refine hd_cast (hasDerivAt_sqrt_comp ((hasDerivAt_sq a).const_sub 1) hp) ?_
  ring

theorem hasDerivAt_inv_sqrt_one_sub {a : ℝ} (h : -1 < a ∧ a < 1) :
    HasDerivAt (fun u : ℝ => 1 / Real.sqrt (1 - u ^ 2)) (a / ((1 - a * a) * Real.sqrt (1 - a * a))) a := by
  have hp := one_sub_sq_pos h
  have hs : Real.sqrt (1 - a ^ 2) ≠ 0 := by
    apply (Real.sqrt_pos.mpr _).ne'; nlinarith
  have h1 := hasDerivAt_inv_comp (hasDerivAt_sqrt_one_sub h) hs
  have e : (fun u : ℝ => 1 / Real.sqrt (1 - u ^ 2)) = fun u : ℝ => (Real.sqrt (1 - u ^ 2))⁻¹ := by
    funext u; rw [one_div]
  rw [e]
  refine hd_cast h1 ?_
  have e2 : 1 - a * a = 1 - a ^ 2 := by ring
  rw [e2]
  have h2 : Real.sqrt (1 - a ^ 2) ^ 2 = 1 - a ^ 2 := Real.sq_sqrt (by nlinarith)
  rw [h2]
  have : (1 - a ^ 2) ≠ 0 := by nlinarith
  field_simp

theorem near_Ioo {a : ℝ} (h : -1 < a ∧ a < 1) : ∀ᶠ u in 𝓝 a, -1 < u ∧ u < 1 :=
  Ioo_mem_nhds h.1 h.2

theorem UOK_asin {a : ℝ} (h : -1 < a ∧ a < 1) : UOK .asin a := by
  refine ⟨_, _, C2.of (φ' := fun u => 1 / Real.sqrt (1 - u ^ 2)) ?_ (hasDerivAt_inv_sqrt_one_sub h), ?_⟩
  · exact (near_Ioo h).mono fun u hu => Real.hasDerivAt_arcsin hu.1.ne' hu.2.ne
  · intro b c
    have hp := one_sub_sq_pos h
    have hs : Real.sqrt (1 - a * a) ≠ 0 := (Real.sqrt_pos.mpr hp).ne'
    have hd : -1 ≤ a ∧ a ≤ 1 := ⟨h.1.le, h.2.le⟩
    have hq : rpowC (1 - a * a) 1.5 = some ((1 - a * a) * Real.sqrt (1 - a * a)) := by
      rw [rpowC_some (Or.inl hp), rpow_three_half hp]
    have e2 : 1 - a ^ 2 = 1 - a * a := by ring
    have hne : (1 - a * a) * Real.sqrt (1 - a * a) ≠ 0 := mul_ne_zero hp.ne' hs
    simp only [uJet, fasin, fsqrt, partial1, hd, and_self, if_true, fmul, fadd, fsub, fdiv, lift2, semU, hp.le,
      fpow, hq, hs, hne, if_false, e2, Jet.mk.injEq, Option.some.injEq, true_and]
    constructor
    · ring
    · field_simp; ring

theorem UOK_acos {a : ℝ} (h : -1 < a ∧ a < 1) : UOK .acos a := by
  refine ⟨_, _, C2.of (φ' := fun u => -(1 / Real.sqrt (1 - u ^ 2))) ?_ (hasDerivAt_inv_sqrt_one_sub h).neg, ?_⟩
  · exact (near_Ioo h).mono fun u hu => Real.hasDerivAt_arccos hu.1.ne' hu.2.ne
  · intro b c
    have hp := one_sub_sq_pos h
    have hs : Real.sqrt (1 - a * a) ≠ 0 := (Real.sqrt_pos.mpr hp).ne'
    have hd : -1 ≤ a ∧ a ≤ 1 := ⟨h.1.le, h.2.le⟩
    have hq : rpowC (1 - a * a) 1.5 = some ((1 - a * a) * Real.sqrt (1 - a * a)) := by
      rw [rpowC_some (Or.inl hp), rpow_three_half hp]
    have e2 : 1 - a ^ 2 = 1 - a * a := by ring
    have hne : (1 - a * a) * Real.sqrt (1 - a * a) ≠ 0 := mul_ne_zero hp.ne' hs
    simp only [uJet, facos, fsqrt, partial1, hd, and_self, if_true, fmul, fneg, lift1, fsub, fdiv, lift2, semU, hp.le,
      fpow, hq, hs, hne, if_false, e2, Jet.mk.injEq, Option.some.injEq, true_and]
    constructor
    · ring
    · field_simp; ring

theorem UOK_atan (a : ℝ) : UOK .atan a := by
  have hp : 1 + a * a ≠ 0 := by nlinarith [mul_self_nonneg a]
  have hp2 : 1 + a ^ 2 ≠ 0 := by nlinarith [mul_self_nonneg a]
  refine ⟨1 / (1 + a ^ 2), -(2 * a) / (1 + a ^ 2) ^ 2, C2.of (φ' := fun u => 1 / (1 + u ^ 2))
    (Eventually.of_forall fun u => Real.hasDerivAt_arctan u) ?_, ?_⟩
  · simp only [one_div]
    exact hasDerivAt_inv_comp ((hasDerivAt_sq a).const_add 1) hp2
  · intro b c
    simp only [uJet, lift1, fmul, fsub, fadd, fdiv, lift2, semU, hp, mul_self_eq_zero, if_false, Jet.mk.injEq,
      Option.some.injEq, true_and]
    have e2 : 1 + a ^ 2 = 1 + a * a := by ring
    rw [e2]
    constructor
    · field_simp
    · field_simp; ring

theorem UOK_cosh (a : ℝ) : UOK .cosh a := by
  refine ⟨Real.sinh a, Real.cosh a, C2.of (φ' := fun u => Real.sinh u)
    (Eventually.of_forall fun u => Real.hasDerivAt_cosh u) (Real.hasDerivAt_sinh a), ?_⟩
  intro b c
  simp only [uJet, lift1, fmul, fadd, lift2, semU, Jet.mk.injEq, Option.some.injEq, true_and]
  constructor <;> ring

theorem UOK_sinh (a : ℝ) : UOK .sinh a := by
  refine ⟨Real.cosh a, Real.sinh a, C2.of (φ' := fun u => Real.cosh u)
    (Eventually.of_forall fun u => Real.hasDerivAt_sinh u) (Real.hasDerivAt_cosh a), ?_⟩
  intro b c
  simp only [uJet, lift1, fmul, fadd, lift2, semU, Jet.mk.injEq, Option.some.injEq, true_and]
  constructor <;> ring

theorem hasDerivAt_tanh' (u : ℝ) : HasDerivAt Real.tanh (1 - Real.tanh u ^ 2) u := by
  have hc : Real.cosh u ≠ 0 := (Real.cosh_pos u).ne'
  have h := (Real.hasDerivAt_sinh u).div (Real.hasDerivAt_cosh u) hc
  have e : (fun y => Real.sinh y / Real.cosh y) = Real.tanh := by
    funext y; rw [Real.tanh_eq_sinh_div_cosh]
  have h' : HasDerivAt (fun y => Real.sinh y / Real.cosh y)
      ((Real.cosh u * Real.cosh u - Real.sinh u * Real.sinh u) / Real.cosh u ^ 2) u := h
  rw [e] at h'
  convert h' using 1
  rw [Real.tanh_eq_sinh_div_cosh]
  field_simp

theorem UOK_tanh (a : ℝ) : UOK .tanh a := by
  refine ⟨1 - Real.tanh a ^ 2, -(2 * Real.tanh a * (1 - Real.tanh a ^ 2)), C2.of (φ' := fun u => 1 - Real.tanh u ^ 2)
    (Eventually.of_forall fun u => hasDerivAt_tanh' u) ?_, ?_⟩
  · exact (hasDerivAt_sq_comp (hasDerivAt_tanh' a)).const_sub 1
  · intro b c
    simp only [uJet, lift1, fmul, fsub, lift2, semU, Jet.mk.injEq, Option.some.injEq, true_and]
    constructor <;> ring

theorem UOK_acosh {a : ℝ} (h : 1 < a) : UOK .acosh a := by
  have hp : 0 < a * a - 1 := by nlinarith
  have hp2 : 0 < a ^ 2 - 1 := by nlinarith
  have hs : Real.sqrt (a * a - 1) ≠ 0 := (Real.sqrt_pos.mpr hp).ne'
  have hs2 : Real.sqrt (a ^ 2 - 1) ≠ 0 := (Real.sqrt_pos.mpr hp2).ne'
  refine ⟨(Real.sqrt (a ^ 2 - 1))⁻¹, -a / ((a ^ 2 - 1) * Real.sqrt (a ^ 2 - 1)),
    C2.of (φ' := fun u => (Real.sqrt (u ^ 2 - 1))⁻¹) ?_ ?_, ?_⟩
  · have : ∀ᶠ u in 𝓝 a, 1 < u := Ioi_mem_nhds h
    exact this.mono fun u hu => Real.hasDerivAt_arcosh hu
  · have h1 : HasDerivAt (fun u : ℝ => Real.sqrt (u ^ 2 - 1)) (a / Real.sqrt (a ^ 2 - 1)) a := by
      refine hd_cast (hasDerivAt_sqrt_comp ((hasDerivAt_sq a).sub_const 1) hp2.ne') ?_
      field_simp
    refine hd_cast (hasDerivAt_inv_comp h1 hs2) ?_
    rw [Real.sq_sqrt hp2.le]
    have := hp2.ne'
    field_simp
  · intro b c
    have hq : rpowC (a * a - 1) 1.5 = some ((a * a - 1) * Real.sqrt (a * a - 1)) := by
      rw [rpowC_some (Or.inl hp), rpow_three_half hp]
    have e2 : a ^ 2 - 1 = a * a - 1 := by ring
    have hne : (a * a - 1) * Real.sqrt (a * a - 1) ≠ 0 := mul_ne_zero hp.ne' hs
    simp only [uJet, facosh, fsqrt, partial1, h.le, if_true, fmul, fsub, fdiv, lift2, semU, hp.le,
      fpow, hq, hs, hne, if_false, e2, Jet.mk.injEq, Option.some.injEq, true_and]
    constructor
    · field_simp
    · field_simp; ring

theorem hasDerivAt_artanh' {a : ℝ} (h : -1 < a ∧ a < 1) : HasDerivAt Real.artanh (1 / (1 - a ^ 2)) a := by
  have hden : 1 - a ≠ 0 := by linarith [h.2]
  have hnum : 1 + a ≠ 0 := by linarith [h.1]
  have hp : (1 - a ^ 2) ≠ 0 := by have := one_sub_sq_pos h; nlinarith
  have hq : HasDerivAt (fun u : ℝ => (1 + u) / (1 - u)) ((1 * (1 - a) - (1 + a) * (-1)) / (1 - a) ^ 2) a :=
    ((hasDerivAt_id a).const_add 1).div ((hasDerivAt_id a).const_sub 1) hden
  have hl := (hq.log (div_ne_zero hnum hden)).const_mul (1 / 2)
  have e : Real.artanh =ᶠ[𝓝 a] fun u => 1 / 2 * Real.log ((1 + u) / (1 - u)) := by
    filter_upwards [near_Ioo h] with u hu
    exact Real.artanh_eq_half_log ⟨hu.1.le, hu.2.le⟩
  refine HasDerivAt.congr_of_eventuallyEq ?_ e
  refine hd_cast hl ?_
  have : (1 - a ^ 2) = (1 - a) * (1 + a) := by ring
  rw [this]
  field_simp
  ring

theorem UOK_atanh {a : ℝ} (h : -1 < a ∧ a < 1) : UOK .atanh a := by
  have hp := one_sub_sq_pos h
  have hp2 : (1 - a ^ 2) ≠ 0 := by nlinarith
  refine ⟨1 / (1 - a ^ 2), 2 * a / (1 - a ^ 2) ^ 2, C2.of (φ' := fun u => 1 / (1 - u ^ 2))
    ((near_Ioo h).mono fun u hu => hasDerivAt_artanh' hu) ?_, ?_⟩
  · simp only [one_div]
    exact hd_cast (hasDerivAt_inv_comp ((hasDerivAt_sq a).const_sub 1) hp2) (by ring)
  · intro b c
    simp only [uJet, fatanh, partial1, h, and_self, if_true, fmul, fsub, fadd, fdiv, lift2, semU, hp.ne',
      mul_self_eq_zero, if_false, Jet.mk.injEq, Option.some.injEq, true_and]
    have e2 : 1 - a ^ 2 = 1 - a * a := by ring
    rw [e2]
    have := hp.ne'
    constructor
    · field_simp
    · field_simp; ring

theorem UOK_sqrt {a : ℝ} (h : 0 < a) : UOK .sqrt a := by
  have hs : Real.sqrt a ≠ 0 := (Real.sqrt_pos.mpr h).ne'
  refine ⟨1 / (2 * Real.sqrt a), -1 / (4 * (a * Real.sqrt a)), C2.of (φ' := fun u => 1 / (2 * Real.sqrt u)) ?_ ?_, ?_⟩
  · have : ∀ᶠ u in 𝓝 a, 0 < u := Ioi_mem_nhds h
    exact this.mono fun u hu => Real.hasDerivAt_sqrt hu.ne'
  · have h2 : 2 * Real.sqrt a ≠ 0 := by positivity
    simp only [one_div]
    refine hd_cast (hasDerivAt_inv_comp ((Real.hasDerivAt_sqrt h.ne').const_mul 2) h2) ?_
    have hsq : Real.sqrt a ^ 2 = a := Real.sq_sqrt h.le
    rw [mul_pow, hsq]
    field_simp
    norm_num
  · intro b c
    have hq : rpowC a 1.5 = some (a * Real.sqrt a) := by
      rw [rpowC_some (Or.inl h), rpow_three_half h]
    have hne : a * Real.sqrt a ≠ 0 := mul_ne_zero h.ne' hs
    simp only [uJet, fsqrt, partial1, h.le, if_true, fmul, fsub, fdiv, lift2, semU, hs, hne, if_false, fpow, hq,
      Jet.mk.injEq, Option.some.injEq, true_and]
    have := h.ne'
    constructor
    · field_simp; ring
    · field_simp; ring

theorem UOK_abs {a : ℝ} (h : a ≠ 0) : UOK .abs a := by
  rcases lt_or_gt_of_ne h with h | h
  · have e : semU .abs =ᶠ[𝓝 a] fun u => -u := by
      filter_upwards [Iio_mem_nhds h] with u hu using abs_of_neg hu
    refine ⟨-1, 0, ((C2.ident a).neg.cast rfl (by simp)).congr e, ?_⟩
    intro b c
    simp [uJet, fsign, lift1, fmul, lift2, semU, not_le.mpr h]
  · have e : semU .abs =ᶠ[𝓝 a] fun u => u := by
      filter_upwards [Ioi_mem_nhds h] with u hu using abs_of_pos hu
    refine ⟨1, 0, (C2.ident a).congr e, ?_⟩
    intro b c
    simp [uJet, fsign, lift1, fmul, lift2, semU, h.le]

theorem UOK_pow {p a : ℝ} (h : regU (.pow p) a) : UOK (.pow p) a := by
  have hh : a ≠ 0 ∨ 2 ≤ p := by
    rcases h with h | ⟨_, n, hn, hp⟩ | ⟨h, _⟩
    · exact Or.inl h.ne'
    · right; rw [hp]; exact_mod_cast hn
    · exact Or.inl h.ne
  have g0 : rpowC a p = some (a ^ p) := by
    apply rpowC_some
    rcases h with h | ⟨h0, n, hn, hp⟩ | h
    · exact Or.inl h
    · right; left; refine ⟨h0, ?_⟩; rw [hp]; positivity
    · exact Or.inr (Or.inr h)
  have g1 : rpowC a (p - 1) = some (a ^ (p - 1)) := by
    apply rpowC_some
    rcases h with h | ⟨h0, n, hn, hp⟩ | ⟨h, n, hn⟩
    · exact Or.inl h
    · right; left; refine ⟨h0, ?_⟩; rw [hp]
      have : (2 : ℝ) ≤ n := by exact_mod_cast hn
      linarith
    · right; right; refine ⟨h, n - 1, ?_⟩; rw [hn]; push_cast; ring
  have g2 : rpowC a (p - 2) = some (a ^ (p - 2)) := by
    apply rpowC_some
    rcases h with h | ⟨h0, n, hn, hp⟩ | ⟨h, n, hn⟩
    · exact Or.inl h
    · right; left; refine ⟨h0, ?_⟩; rw [hp]
      have : (2 : ℝ) ≤ n := by exact_mod_cast hn
      linarith
    · right; right; refine ⟨h, n - 2, ?_⟩; rw [hn]; push_cast; ring
  refine ⟨p * a ^ (p - 1), p * ((p - 1) * a ^ (p - 2)), C2.of (φ' := fun u => p * u ^ (p - 1)) ?_ ?_, ?_⟩
  · rcases hh with hh | hh
    · filter_upwards [isOpen_ne.mem_nhds hh] with u hu using Real.hasDerivAt_rpow_const (Or.inl hu)
    · exact Eventually.of_forall fun u => Real.hasDerivAt_rpow_const (Or.inr (by linarith))
  · have : HasDerivAt (fun u : ℝ => u ^ (p - 1)) ((p - 1) * a ^ (p - 1 - 1)) a :=
      Real.hasDerivAt_rpow_const (hh.imp id (by intro h; linarith))
    have e : p - 1 - 1 = p - 2 := by ring
    rw [e] at this
    exact this.const_mul p
  · intro b c
    simp only [uJet, fpow, g0, g1, g2, fmul, fadd, lift2, semU, Jet.mk.injEq, Option.some.injEq, true_and]
    constructor <;> ring

theorem UOK_all {k : UKind} (hk : k ≠ .asinh) {a : ℝ} (h : regU k a) : UOK k a := by
  cases k
  case asinh => exact absurd rfl hk
  case neg => exact UOK_neg a
  case cos => exact UOK_cos a
  case sin => exact UOK_sin a
  case tan => exact UOK_tan h
  case acos => exact UOK_acos h
  case asin => exact UOK_asin h
  case atan => exact UOK_atan a
  case cosh => exact UOK_cosh a
  case sinh => exact UOK_sinh a
  case tanh => exact UOK_tanh a
  case acosh => exact UOK_acosh h
  case atanh => exact UOK_atanh h
  case sqrt => exact UOK_sqrt h
  case abs => exact UOK_abs h
  case pow p => exact UOK_pow h
  all_goals exact UOK_id rfl (fun _ => rfl) a

/-- The value part, wherever the value is defined. -/
theorem uJet_y {k : UKind} (hk : k ≠ .asinh) {a : ℝ} (h : domU k a) (j : Jet) (hj : j.y = some a) :
    (uJet k j).y = some (semU k a) := by
  cases k
  case asinh => exact absurd rfl hk
  case pow p => simp only [uJet, hj, fpow, semU]; exact rpowC_some h
  all_goals simp_all [uJet, semU, domU, lift1, fneg, ftan, facos, fasin, facosh, fatanh, fsqrt, partial1]

theorem den_y {s : Sh} (hs : noAsinh s) {x : ℝ} (h : Dom s x) : (den s (some x)).y = some (sem s x) := by
  induction s generalizing x with
  | var => rfl
  | const v => rfl
  | un k f ih =>
    by_cases hk : k.plain
    · have e : Dom f x ∧ domU k (sem f x) := by
        cases k <;> first | exact h | exact absurd hk (by simp [UKind.plain])
      have e2 : sem (.un k f) x = semU k (sem f x) := by
        cases k <;> first | rfl | exact absurd hk (by simp [UKind.plain])
      have e3 : den (.un k f) (some x) = uJet k (den f (some x)) := by
        cases k <;> first | rfl | exact absurd hk (by simp [UKind.plain])
      rw [e2, e3]
      exact uJet_y hs.1 e.2 _ (ih hs.2 e.1)
    · cases k <;> try (exact absurd trivial hk)
      case clampAfter c =>
        simp only [Dom] at h
        by_cases hc : c ≤ x
        · simp only [hc, if_true] at h; simp [den, sem, hc, ih hs.2 h]
        · simp only [hc, if_false] at h; simp [den, sem, hc, ih hs.2 h]
      case clampBefore c =>
        simp only [Dom] at h
        by_cases hc : x ≤ c
        · simp only [hc, if_true] at h; simp [den, sem, hc, ih hs.2 h]
        · simp only [hc, if_false] at h; simp [den, sem, hc, ih hs.2 h]
  | bin op f g ihf ihg =>
    cases op
    case comp =>
      obtain ⟨h1, h2⟩ := h
      simp only [den, bJet, sem, ihg hs.2 h1]
      exact ihf hs.1 h2
    case div =>
      obtain ⟨h1, h2, h3⟩ := h
      simp [den, bJet, sem, ihf hs.1 h1, ihg hs.2 h2, fdiv, h3]
    all_goals
      obtain ⟨h1, h2⟩ := h
      simp [den, bJet, sem, ihf hs.1 h1, ihg hs.2 h2, fadd, fsub, fmul, lift2]

theorem den_C2 {s : Sh} (hs : noAsinh s) {x : ℝ} (h : Reg s x) :
    ∃ b c, C2 (sem s) x b c ∧ den s (some x) = ⟨some (sem s x), some b, some c⟩ := by
  induction s generalizing x with
  | var => exact ⟨1, 0, C2.ident x, rfl⟩
  | const v => exact ⟨0, 0, C2.cst v x, rfl⟩
  | un k f ih =>
    by_cases hk : k.plain
    · have e : Reg f x ∧ regU k (sem f x) := by
        cases k <;> first | exact h | exact absurd hk (by simp [UKind.plain])
      have e2 : sem (.un k f) = fun x => semU k (sem f x) := by
        funext x
        cases k <;> first | rfl | exact absurd hk (by simp [UKind.plain])
      have e3 : den (.un k f) (some x) = uJet k (den f (some x)) := by
        cases k <;> first | rfl | exact absurd hk (by simp [UKind.plain])
      obtain ⟨b, c, h1, h2⟩ := ih hs.2 e.1
      obtain ⟨b', c', h3, h4⟩ := UOK_all hs.1 e.2
      refine ⟨b' * b, c' * b * b + b' * c, ?_, ?_⟩
      · rw [e2]; exact C2.comp h3 h1
      · rw [e3, h2, h4, e2]
    · cases k <;> try (exact absurd trivial hk)
      case clampAfter c =>
        rcases h with ⟨hx, hr⟩ | ⟨hx, hd⟩
        · obtain ⟨b, d, h1, h2⟩ := ih hs.2 hr
          refine ⟨b, d, h1.congr ?_, by simp [den, sem, not_le.mpr hx, h2]⟩
          filter_upwards [Iio_mem_nhds hx] with y hy
          simp [sem, not_le.mpr (show y < c from hy)]
        · refine ⟨0, 0, (C2.cst (sem f c) x).congr ?_, by simp [den, sem, hx.le, den_y hs.2 hd]⟩
          filter_upwards [Ioi_mem_nhds hx] with y hy
          simp [sem, le_of_lt (show c < y from hy)]
      case clampBefore c =>
        rcases h with ⟨hx, hr⟩ | ⟨hx, hd⟩
        · obtain ⟨b, d, h1, h2⟩ := ih hs.2 hr
          refine ⟨b, d, h1.congr ?_, by simp [den, sem, not_le.mpr hx, h2]⟩
          filter_upwards [Ioi_mem_nhds hx] with y hy
          simp [sem, not_le.mpr (show c < y from hy)]
        · refine ⟨0, 0, (C2.cst (sem f c) x).congr ?_, by simp [den, sem, hx.le, den_y hs.2 hd]⟩
          filter_upwards [Iio_mem_nhds hx] with y hy
          simp [sem, le_of_lt (show y < c from hy)]
  | bin op f g ihf ihg =>
    cases op
    case comp =>
      obtain ⟨h1, h2⟩ := h
      obtain ⟨b, c, hb, eb⟩ := ihg hs.2 h1
      obtain ⟨b', c', hb', eb'⟩ := ihf hs.1 h2
      have hh : C2 (fun y => sem f (sem g y)) x _ _ := C2.comp hb' hb
      refine ⟨_, _, hh, ?_⟩
      simp only [den, eb, eb', bJet, sem, fmul, fadd, lift2, Jet.mk.injEq, Option.some.injEq, true_and]
      constructor <;> ring
    case div =>
      obtain ⟨h1, h2, h3⟩ := h
      obtain ⟨b, c, hb, eb⟩ := ihf hs.1 h1
      obtain ⟨b', c', hb', eb'⟩ := ihg hs.2 h2
      refine ⟨_, _, C2.div hb hb' h3, ?_⟩
      simp [den, eb, eb', bJet, sem, fmul, fsub, fdiv, lift2, h3]
    case add =>
      obtain ⟨h1, h2⟩ := h
      obtain ⟨b, c, hb, eb⟩ := ihf hs.1 h1
      obtain ⟨b', c', hb', eb'⟩ := ihg hs.2 h2
      exact ⟨_, _, C2.add hb hb', by simp [den, eb, eb', bJet, sem, fadd, lift2]⟩
    case sub =>
      obtain ⟨h1, h2⟩ := h
      obtain ⟨b, c, hb, eb⟩ := ihf hs.1 h1
      obtain ⟨b', c', hb', eb'⟩ := ihg hs.2 h2
      exact ⟨_, _, C2.sub hb hb', by simp [den, eb, eb', bJet, sem, fsub, lift2]⟩
    case mul =>
      obtain ⟨h1, h2⟩ := h
      obtain ⟨b, c, hb, eb⟩ := ihf hs.1 h1
      obtain ⟨b', c', hb', eb'⟩ := ihg hs.2 h2
      refine ⟨_, _, C2.mul hb hb', ?_⟩
      simp only [den, eb, eb', bJet, sem, fmul, fadd, lift2, Jet.mk.injEq, Option.some.injEq, true_and]
      constructor <;> ring

end Frydom.Func
