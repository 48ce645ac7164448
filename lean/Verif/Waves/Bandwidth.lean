import Verif.Waves.Spreading

/-!
# Bandwidth search (C44)

`dichotomySearch` of `src/frydom/environment/ocean/freeSurface/waves/FrWaveSpectrum.cpp`.
-/

open Classical Filter Topology MeasureTheory Set

noncomputable section

namespace Frydom.Waves
open Real

/-- How a call ends. -/
inductive Outcome (α : Type) where
  | loops | throws | returns (w : α)

/-- Local variables of `dichotomySearch`; `ret` is set by the `return` statement. -/
structure Bis where
  lo : ℝ
  hi : ℝ
  ret : Option ℝ

/-- The loop continues: no `return` yet and `fabs(wmin - wmax) > epsilon * epsilon` (FrWaveSpectrum.cpp:302). -/
def bisCond (b : Bis) : Prop := b.ret = none ∧ (1e-10 * 1e-10 : ℝ) < |b.lo - b.hi|

/-- Body of the loop (FrWaveSpectrum.cpp:303-311); `f` is `Eval`. -/
def bisBody (f : ℝ → ℝ) (threshold : ℝ) (b : Bis) : Bis :=
  let wresult := (b.lo + b.hi) / 2
  if |f wresult - threshold| < 1e-10 then { b with ret := some wresult }
  else if (f b.hi - threshold) * (f wresult - threshold) < 0 then { b with lo := wresult }
  else { b with hi := wresult }

/-- `FrWaveSpectrum::dichotomySearch(wmin, wmax, threshold)` (FrWaveSpectrum.cpp:298-314). -/
def dichotomySearch (f : ℝ → ℝ) (wmin wmax threshold : ℝ) : Outcome ℝ :=
  match whileLoop bisCond (bisBody f threshold) ⟨wmin, wmax, none⟩ with
  | none => .loops
  | some b => match b.ret with
    | some w => .returns w
    | none => .throws

/-- Sequence of two calls that may throw. -/
def Outcome.bind {α β : Type} (o : Outcome α) (k : α → Outcome β) : Outcome β :=
  match o with
  | .loops => .loops
  | .throws => .throws
  | .returns w => k w

/-- `FrWaveSpectrum::GetFrequencyBandwidth` (FrWaveSpectrum.cpp:290-296). -/
def getFrequencyBandwidth (f : ℝ → ℝ) (hs wp : ℝ) : Outcome (ℝ × ℝ) :=
  let m0 := hs ^ 2 / 16
  let threshold := m0 * 0.01
  (dichotomySearch f 1e-4 wp threshold).bind fun wmin =>
  (dichotomySearch f wp 10 threshold).bind fun wmax => .returns (wmin, wmax)

/-- `FrWaveDirectionalModel::GetDirectionBandwidth` and its `dichotomySearch` (FrWaveSpectrum.cpp:37-63): the same loop started
from `[theta_mean - π, theta_mean]` with threshold 0.01. -/
def getDirectionBandwidth (D : ℝ → ℝ → ℝ) (theta_mean : ℝ) : Outcome (ℝ × ℝ) :=
  (dichotomySearch (fun theta => D theta theta_mean) (theta_mean - π) theta_mean 0.01).bind fun theta_min =>
    let Dtheta := theta_mean - theta_min
    .returns (theta_min, theta_min + 2 * Dtheta)

/-! ## Invariants -/

theorem bis_width (f : ℝ → ℝ) (t : ℝ) (b : Bis) (h : (bisBody f t b).ret = none) :
    |(bisBody f t b).lo - (bisBody f t b).hi| = |b.lo - b.hi| / 2 := by
  have e1 : |(b.lo + b.hi) / 2 - b.hi| = |b.lo - b.hi| / 2 := by
    rw [show (b.lo + b.hi) / 2 - b.hi = (b.lo - b.hi) / 2 by ring, abs_div, abs_of_pos (by norm_num : (0:ℝ) < 2)]
  have e2 : |b.lo - (b.lo + b.hi) / 2| = |b.lo - b.hi| / 2 := by
    rw [show b.lo - (b.lo + b.hi) / 2 = (b.lo - b.hi) / 2 by ring, abs_div, abs_of_pos (by norm_num : (0:ℝ) < 2)]
  unfold bisBody at h ⊢
  simp only at h ⊢
  split_ifs at h ⊢ <;> simp_all

theorem bis_ret_none (f : ℝ → ℝ) (t : ℝ) (b : Bis) (h : (bisBody f t b).ret = none) : b.ret = none := by
  unfold bisBody at h
  simp only at h
  split_ifs at h <;> simp_all

/-- The loop always ends. -/
theorem bis_ends (f : ℝ → ℝ) (t : ℝ) (b : Bis) : ∃ n, ¬ bisCond ((bisBody f t)^[n] b) := by
  by_contra hcon
  push Not at hcon
  have hw : ∀ n, |((bisBody f t)^[n] b).lo - ((bisBody f t)^[n] b).hi| = |b.lo - b.hi| / 2 ^ n := by
    intro n
    induction n with
    | zero => simp
    | succ n ih =>
      have h := (hcon (n + 1)).1
      rw [Function.iterate_succ_apply'] at h ⊢
      rw [bis_width f t _ h, ih, pow_succ, div_div]
  have hl : Tendsto (fun n : ℕ => |b.lo - b.hi| / 2 ^ n) atTop (𝓝 0) :=
    tendsto_const_nhds.div_atTop (tendsto_pow_atTop_atTop_of_one_lt (by norm_num))
  have := (hl.eventually (gt_mem_nhds (by norm_num : (0:ℝ) < 1e-10 * 1e-10))).exists
  obtain ⟨n, hn⟩ := this
  have h2 := (hcon n).2
  rw [hw] at h2
  exact absurd h2 (not_lt.mpr hn.le)

theorem whileLoop_inv {α : Type} {cond : α → Prop} {body : α → α} {x y : α} (h : whileLoop cond body x = some y)
    (I : α → Prop) (h0 : I x) (hs : ∀ z, cond z → I z → I (body z)) : I y ∧ ¬ cond y := by
  unfold whileLoop at h
  split_ifs at h with hex
  · injection h with h
    have hpre : ∀ n, n ≤ Nat.find hex → I (body^[n] x) := by
      intro n
      induction n with
      | zero => intro _; exact h0
      | succ n ih =>
        intro hn
        rw [Function.iterate_succ_apply']
        refine hs _ ?_ (ih (by omega))
        have := Nat.find_min hex (m := n) (by omega)
        exact not_not.mp this
    rw [← h]
    exact ⟨hpre _ le_rfl, Nat.find_spec hex⟩

theorem dichotomy_cases (f : ℝ → ℝ) (a b t : ℝ) (I : Bis → Prop) (h0 : I ⟨a, b, none⟩)
    (hs : ∀ z, bisCond z → I z → I (bisBody f t z)) :
    ∃ y, I y ∧ ¬ bisCond y ∧ dichotomySearch f a b t = (match y.ret with | some w => .returns w | none => .throws) := by
  obtain ⟨n, hn, -⟩ := whileLoop_spec (bis_ends f t ⟨a, b, none⟩)
  obtain ⟨h1, h2⟩ := whileLoop_inv hn I h0 hs
  refine ⟨_, h1, h2, ?_⟩
  unfold dichotomySearch
  rw [hn]

/-! ## C44 -/

/-- **C44, soundness.** Whatever the density, the search ends: it throws or returns an abscissa strictly between the two ends at which
the density is within `1e-10` of the threshold. -/
theorem C44_sound (f : ℝ → ℝ) (a b t : ℝ) (hab : a < b) :
    dichotomySearch f a b t = .throws ∨
    ∃ w, dichotomySearch f a b t = .returns w ∧ a < w ∧ w < b ∧ |f w - t| < 1e-10 := by
  obtain ⟨y, ⟨h1, h2, h3, h4⟩, -, hy⟩ := dichotomy_cases f a b t
    (fun z => a ≤ z.lo ∧ z.lo < z.hi ∧ z.hi ≤ b ∧ ∀ w, z.ret = some w → a < w ∧ w < b ∧ |f w - t| < 1e-10)
    ⟨le_rfl, hab, le_rfl, by simp⟩ (by
      rintro z ⟨hz, -⟩ ⟨h1, h2, h3, h4⟩
      unfold bisBody
      simp only
      split_ifs with c1 c2
      · refine ⟨h1, h2, h3, ?_⟩
        intro w hw
        simp only [Option.some.injEq] at hw
        subst hw
        exact ⟨by linarith, by linarith, c1⟩
      · exact ⟨by simp only; linarith, by simp only; linarith, h3, by simpa using h4⟩
      · exact ⟨h1, by simp only; linarith, by simp only; linarith, by simpa using h4⟩)
  rw [hy]
  rcases hr : y.ret with _ | w
  · exact Or.inl rfl
  · exact Or.inr ⟨w, rfl, h4 w hr⟩

/-- **C44, completeness.** When the density crosses the threshold between the two ends and is Lipschitz with a constant up to `1e10`,
the search succeeds. -/
theorem C44_complete (f : ℝ → ℝ) (a b t : ℝ) (hab : a + 1e-20 < b)
    (hsign : (f a - t) * (f b - t) < 0)
    (hlip : ∀ x y, a ≤ x → x ≤ y → y ≤ b → |f x - f y| ≤ 1e10 * (y - x)) :
    ∃ w, dichotomySearch f a b t = .returns w ∧ a < w ∧ w < b ∧ |f w - t| < 1e-10 := by
  have hab' : a < b := by norm_num at hab; linarith
  rcases C44_sound f a b t hab' with hthrow | h
  swap
  · exact h
  exfalso
  obtain ⟨y, ⟨h1, h2, h3, h4, h5⟩, hnc, hy⟩ := dichotomy_cases f a b t
    (fun z => a ≤ z.lo ∧ z.lo < z.hi ∧ z.hi ≤ b ∧ (z.ret = none → (f z.lo - t) * (f z.hi - t) < 0) ∧
      ((z.lo = a ∧ z.hi = b) ∨ z.ret ≠ none ∨ 1e-10 ≤ |f z.lo - t| ∨ 1e-10 ≤ |f z.hi - t|))
    ⟨le_rfl, hab', le_rfl, fun _ => hsign, Or.inl ⟨rfl, rfl⟩⟩ (by
      rintro z ⟨hz, -⟩ ⟨h1, h2, h3, h4, h5⟩
      have h4' := h4 hz
      unfold bisBody
      simp only
      split_ifs with c1 c2
      · exact ⟨h1, h2, h3, by simp, Or.inr (Or.inl (by simp))⟩
      · refine ⟨by simp only; linarith, by simp only; linarith, h3, fun _ => by simp only; linarith, Or.inr (Or.inr (Or.inl ?_))⟩
        exact not_lt.mp c1
      · refine ⟨h1, by simp only; linarith, by simp only; linarith, fun _ => ?_, Or.inr (Or.inr (Or.inr (not_lt.mp c1)))⟩
        simp only
        have c1' := not_lt.mp c1
        have c2' := not_lt.mp c2
        set r := f ((z.lo + z.hi) / 2) - t with hr
        have hr0 : r ≠ 0 := by
          intro h0; rw [h0] at c1'; norm_num at c1'
        rcases lt_or_gt_of_ne hr0 with hn | hp
        · have hh : f z.hi - t ≤ 0 := by
            by_contra hcon
            have := mul_neg_of_pos_of_neg (not_le.mp hcon) hn
            linarith
          have hl : 0 < f z.lo - t := by
            by_contra hcon
            have := mul_nonneg_of_nonpos_of_nonpos (not_lt.mp hcon) hh
            linarith
          exact mul_neg_of_pos_of_neg hl hn
        · have hh : 0 ≤ f z.hi - t := by
            by_contra hcon
            have := mul_neg_of_neg_of_pos (not_le.mp hcon) hp
            linarith
          have hl : f z.lo - t < 0 := by
            by_contra hcon
            have := mul_nonneg (not_lt.mp hcon) hh
            linarith
          exact mul_neg_of_neg_of_pos hl hp)
  rw [hy] at hthrow
  rcases hr : y.ret with _ | w
  swap
  · rw [hr] at hthrow; simp at hthrow
  have hwid : |y.lo - y.hi| ≤ 1e-10 * 1e-10 := by
    by_contra hcon
    exact hnc ⟨hr, not_le.mp hcon⟩
  rw [abs_sub_comm, abs_of_pos (by linarith)] at hwid
  have hL := hlip y.lo y.hi h1 h2.le h3
  have hp := h4 hr
  have hL' : |f y.lo - f y.hi| ≤ 1e-10 := by
    refine hL.trans ?_
    norm_num at hwid ⊢
    linarith
  rcases h5 with ⟨ha, hb⟩ | h5 | h5 | h5
  · rw [ha, hb] at hwid; norm_num at hwid hab; linarith
  · exact h5 hr
  · rw [abs_le] at hL'
    rcases le_abs.mp h5 with h6 | h6
    · have : f y.hi - t < 0 := by
        by_contra hcon
        have := mul_nonneg (by norm_num at h6 ⊢; linarith : 0 ≤ f y.lo - t) (not_lt.mp hcon)
        linarith
      linarith [hL'.2]
    · have : 0 < f y.hi - t := by
        by_contra hcon
        have := mul_nonneg_of_nonpos_of_nonpos (by norm_num at h6 ⊢; linarith : f y.lo - t ≤ 0) (not_lt.mp hcon)
        linarith
      linarith [hL'.1]
  · rw [abs_le] at hL'
    rcases le_abs.mp h5 with h6 | h6
    · have : f y.lo - t < 0 := by
        by_contra hcon
        have := mul_nonneg (not_lt.mp hcon) (by norm_num at h6 ⊢; linarith : 0 ≤ f y.hi - t)
        linarith
      linarith [hL'.1]
    · have : 0 < f y.lo - t := by
        by_contra hcon
        have := mul_nonneg_of_nonpos_of_nonpos (not_lt.mp hcon) (by norm_num at h6 ⊢; linarith : f y.hi - t ≤ 0)
        linarith
      linarith [hL'.2]

/-- **C44, frequency bandwidth.** Whenever `GetFrequencyBandwidth` returns, its two frequencies surround the peak frequency, and the
density there is within `1e-10` of one per cent of the variance `Hs²/16`; it never loops for ever. -/
theorem C44_frequency_bandwidth (f : ℝ → ℝ) (hs wp : ℝ) (h1 : 1e-4 < wp) (h2 : wp < 10) :
    getFrequencyBandwidth f hs wp = .throws ∨
    ∃ wmin wmax, getFrequencyBandwidth f hs wp = .returns (wmin, wmax) ∧ 1e-4 < wmin ∧ wmin < wp ∧ wp < wmax ∧ wmax < 10 ∧
      |f wmin - 0.01 * (hs ^ 2 / 16)| < 1e-10 ∧ |f wmax - 0.01 * (hs ^ 2 / 16)| < 1e-10 := by
  have ec : hs ^ 2 / 16 * 0.01 = 0.01 * (hs ^ 2 / 16) := by ring
  unfold getFrequencyBandwidth
  simp only [ec]
  rcases C44_sound f 1e-4 wp (0.01 * (hs ^ 2 / 16)) h1 with h | ⟨w, h, a1, a2, a3⟩
  · rw [h]; exact Or.inl rfl
  · rw [h]
    rcases C44_sound f wp 10 (0.01 * (hs ^ 2 / 16)) h2 with h' | ⟨w', h', b1, b2, b3⟩
    · rw [show (Outcome.returns w).bind _ = _ from rfl, h']; exact Or.inl rfl
    · rw [show (Outcome.returns w).bind _ = _ from rfl, h']
      exact Or.inr ⟨w, w', rfl, a1, a2, b1, b2, a3, b3⟩

/-! ### The direction bandwidth of the cos2s model -/

theorem cs_lower (s : ℝ) (hs : 0 < s) : 1 / (2 * π) ≤ cos2sCs s := by
  have hπ := pi_pos
  have h := C43_cos2s_normalised s 0 hs
  have hle : ∫ theta in ((0:ℝ) - π)..(0 + π), cos2sEval s theta 0 ≤ ∫ _ in ((0:ℝ) - π)..(0 + π), cos2sCs s := by
    apply intervalIntegral.integral_mono_on (by linarith)
    · apply Continuous.intervalIntegrable
      unfold cos2sEval
      exact continuous_const.mul ((continuous_cos.comp (by fun_prop)).rpow_const fun _ => Or.inr (by linarith))
    · exact continuous_const.intervalIntegrable _ _
    · intro x hx
      unfold cos2sEval
      have h0 := half_cos_nonneg (theta := x) (m := 0) (by rw [sub_zero, abs_le]; exact ⟨by linarith [hx.1], by linarith [hx.2]⟩)
      have h1 : cos (0.5 * (x - 0)) ^ (2 * s) ≤ 1 := rpow_le_one h0 (cos_le_one _) (by linarith)
      have := cs_pos s hs
      nlinarith
  rw [h, intervalIntegral.integral_const, smul_eq_mul] at hle
  rw [div_le_iff₀ (by positivity)]
  linarith

theorem cs_upper (s : ℝ) (hs : 0 < s) : cos2sCs s ≤ s + 1 := by
  rw [cs_eq s hs]
  have p1 : 0 < Gamma (s + 1) := Gamma_pos_of_pos (by linarith)
  have p2 : 0 < Gamma (s + 1 / 2) := Gamma_pos_of_pos (by linarith)
  have hsp : 1 ≤ √π := by rw [one_le_sqrt]; linarith [pi_gt_three]
  have hc := Real.Gamma_mul_add_mul_le_rpow_Gamma_mul_rpow_Gamma (s := s + 1 / 2) (t := s + 3 / 2) (a := 1 / 2) (b := 1 / 2)
    (by linarith) (by linarith) (by norm_num) (by norm_num) (by norm_num)
  have hrec : Gamma (s + 3 / 2) = (s + 1 / 2) * Gamma (s + 1 / 2) := by
    rw [show s + 3 / 2 = s + 1 / 2 + 1 by ring, Real.Gamma_add_one (by linarith)]
  rw [show 1 / 2 * (s + 1 / 2) + 1 / 2 * (s + 3 / 2) = s + 1 by ring, hrec, mul_rpow (by linarith) p2.le,
    ← sqrt_eq_rpow, ← sqrt_eq_rpow] at hc
  have e : √(Gamma (s + 1 / 2)) * (√(s + 1 / 2) * √(Gamma (s + 1 / 2))) = √(s + 1 / 2) * Gamma (s + 1 / 2) := by
    have := mul_self_sqrt p2.le
    calc _ = √(s + 1 / 2) * (√(Gamma (s + 1 / 2)) * √(Gamma (s + 1 / 2))) := by ring
      _ = _ := by rw [this]
  rw [e] at hc
  rw [div_le_iff₀ (by positivity)]
  have hq : √(s + 1 / 2) ≤ s + 1 := by
    rw [sqrt_le_left (by linarith)]; nlinarith
  calc Gamma (s + 1) ≤ √(s + 1 / 2) * Gamma (s + 1 / 2) := hc
    _ ≤ (s + 1) * Gamma (s + 1 / 2) := by gcongr
    _ ≤ (s + 1) * (2 * √π * Gamma (s + 1 / 2)) := by
      gcongr
      nlinarith

theorem cos2s_lip (s m : ℝ) (hs : 1 / 2 ≤ s) (hs2 : s ≤ 1000) (x y : ℝ) (hx : m - π ≤ x) (hxy : x ≤ y) (hy : y ≤ m) :
    |cos2sEval s x m - cos2sEval s y m| ≤ 1e10 * (y - x) := by
  have hs0 : 0 < s := by linarith
  have hcs := cs_pos s hs0
  have hcu := cs_upper s hs0
  have hder : ∀ u ∈ Icc (m - π) m, HasDerivWithinAt (fun u => cos2sEval s u m)
      (cos2sCs s * (-sin (0.5 * (u - m)) * 0.5 * (2 * s) * cos (0.5 * (u - m)) ^ (2 * s - 1))) (Icc (m - π) m) u := by
    intro u _
    have h1 : HasDerivAt (fun u => 0.5 * (u - m)) 0.5 u := by
      have := ((hasDerivAt_id u).sub_const m).const_mul 0.5
      simpa using this
    have h2 := (h1.cos.rpow_const (p := 2 * s) (Or.inr (by linarith))).const_mul (cos2sCs s)
    exact h2.hasDerivWithinAt
  have hb : ∀ u ∈ Icc (m - π) m, ‖cos2sCs s * (-sin (0.5 * (u - m)) * 0.5 * (2 * s) * cos (0.5 * (u - m)) ^ (2 * s - 1))‖ ≤ 1e10 := by
    intro u hu
    have h0 := half_cos_nonneg (theta := u) (m := m) (by rw [abs_le]; exact ⟨by linarith [hu.1], by linarith [hu.2, pi_pos]⟩)
    have h1 : cos (0.5 * (u - m)) ^ (2 * s - 1) ≤ 1 := rpow_le_one h0 (cos_le_one _) (by linarith)
    have h1' : 0 ≤ cos (0.5 * (u - m)) ^ (2 * s - 1) := rpow_nonneg h0 _
    have h2 := abs_sin_le_one (0.5 * (u - m))
    rw [Real.norm_eq_abs, abs_mul, abs_mul, abs_mul, abs_mul, abs_neg, abs_of_pos hcs, abs_of_nonneg h1',
      abs_of_pos (by norm_num : (0:ℝ) < 0.5), abs_of_pos (by linarith : 0 < 2 * s)]
    calc cos2sCs s * (|sin (0.5 * (u - m))| * 0.5 * (2 * s) * cos (0.5 * (u - m)) ^ (2 * s - 1))
        ≤ (s + 1) * (1 * 0.5 * (2 * s) * 1) := by gcongr
      _ ≤ (1000 + 1) * (1 * 0.5 * (2 * 1000) * 1) := by gcongr
      _ ≤ 1e10 := by norm_num
  have := (convex_Icc (m - π) m).norm_image_sub_le_of_norm_hasDerivWithin_le hder hb
    (x := x) (y := y) ⟨hx, by linarith⟩ ⟨by linarith, hy⟩
  rw [Real.norm_eq_abs, Real.norm_eq_abs, abs_sub_comm, abs_of_nonneg (by linarith : 0 ≤ y - x)] at this
  exact this

/-- **C44, direction bandwidth.** For the cos2s model with a spreading factor in [1/2, 1000] (which contains the documented range
[1, 100]) `GetDirectionBandwidth` always succeeds: the two directions are within half a turn of the mean direction, symmetric about
it, and the density at both is within `1e-10` of 0.01. -/
theorem C44_direction_bandwidth (s theta_mean : ℝ) (hs : 1 / 2 ≤ s) (hs2 : s ≤ 1000) :
    ∃ theta_min theta_max, getDirectionBandwidth (cos2sEval s) theta_mean = .returns (theta_min, theta_max) ∧
      theta_mean - π < theta_min ∧ theta_min < theta_mean ∧ theta_mean < theta_max ∧ theta_max < theta_mean + π ∧
      theta_max - theta_mean = theta_mean - theta_min ∧
      |cos2sEval s theta_min theta_mean - 0.01| < 1e-10 ∧ |cos2sEval s theta_max theta_mean - 0.01| < 1e-10 := by
  have hs0 : 0 < s := by linarith
  have hπ := pi_pos
  have hπ4 := pi_lt_d2
  have hπ3 := pi_gt_three
  have hz := (C43_cos2s_shape s theta_mean hs0).2.2.2
  have hm : cos2sEval s theta_mean theta_mean = cos2sCs s := by simp [cos2sEval]
  have hlow := cs_lower s hs0
  have h01 : 0.01 < cos2sCs s := by
    refine lt_of_lt_of_le ?_ hlow
    rw [lt_div_iff₀ (by positivity)]
    norm_num at hπ4 ⊢
    linarith
  obtain ⟨w, h, h1, h2, h3⟩ := C44_complete (fun theta => cos2sEval s theta theta_mean) (theta_mean - π) theta_mean 0.01
    (by norm_num; linarith)
    (by rw [hz, hm]; exact mul_neg_of_neg_of_pos (by norm_num) (by linarith))
    (fun x y hx hxy hy => cos2s_lip s theta_mean hs hs2 x y hx hxy hy)
  have hsym := (C43_cos2s_shape s theta_mean hs0).2.1 (theta_mean - w)
  refine ⟨w, w + 2 * (theta_mean - w), ?_, h1, h2, by linarith, by linarith, by ring, h3, ?_⟩
  · unfold getDirectionBandwidth
    rw [h]; rfl
  · rw [show w + 2 * (theta_mean - w) = theta_mean + (theta_mean - w) by ring, hsym, sub_sub_cancel]
    exact h3

/-- A non-trivial instance. -/
example : ∃ a b, getDirectionBandwidth (cos2sEval 10) 0 = .returns (a, b) := by
  obtain ⟨a, b, h, -⟩ := C44_direction_bandwidth 10 0 (by norm_num) (by norm_num)
  exact ⟨a, b, h⟩

end Frydom.Waves
