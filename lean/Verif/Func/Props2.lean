import Verif.Func.Props

/-! # Properties C06 (ramps) and C07 (setters) of the function objects -/

open Classical Filter Topology Set

noncomputable section

namespace Frydom.Func

/-! ## C06 -/

/-- Clip to the interval `[x0, x1]`. -/
def clip (x0 x1 x : ℝ) : ℝ := max x0 (min x x1)

theorem clip_of_le {x0 x1 x : ℝ} (h : x0 ≤ x1) (hx : x ≤ x0) : clip x0 x1 x = x0 := by
  simp [clip, hx.trans h, hx]

theorem clip_of_ge {x0 x1 x : ℝ} (h : x0 ≤ x1) (hx : x1 ≤ x) : clip x0 x1 x = x1 := by
  simp [clip, hx, h]

theorem clip_of_mem {x0 x1 x : ℝ} (h0 : x0 ≤ x) (h1 : x ≤ x1) : clip x0 x1 x = x := by
  simp [clip, h0, h1]

theorem clip_mem {x0 x1 : ℝ} (h : x0 ≤ x1) (x : ℝ) : x0 ≤ clip x0 x1 x ∧ clip x0 x1 x ≤ x1 :=
  ⟨le_max_left _ _, max_le h (min_le_right _ _)⟩

theorem clip_mono (x0 x1 : ℝ) : Monotone (clip x0 x1) := fun _ _ h =>
  max_le_max le_rfl (min_le_min h le_rfl)

theorem clip_cont (x0 x1 : ℝ) : Continuous (clip x0 x1) :=
  continuous_const.max (continuous_id.min continuous_const)

theorem sem_double_clamp {x0 x1 : ℝ} (h : x0 < x1) (f : Sh) (x : ℝ) :
    sem (.un (.clampAfter x1) (.un (.clampBefore x0) f)) x = sem f (clip x0 x1 x) := by
  simp only [sem]
  by_cases h1 : x1 ≤ x
  · simp [h1, clip_of_ge h.le h1, not_le.mpr h]
  · by_cases h0 : x ≤ x0
    · simp [h1, h0, clip_of_le h.le h0]
    · simp [h1, h0, clip_of_mem (not_le.mp h0).le (not_le.mp h1).le]

theorem Dom_double_clamp {x0 x1 : ℝ} (f : Sh) (h : ∀ t, Dom f t) (x : ℝ) :
    Dom (.un (.clampAfter x1) (.un (.clampBefore x0) f)) x := by
  simp only [Dom]
  split_ifs <;> exact h _

/-- A ramp through `(x0,y0)` and `(x1,y1)` in the sense of C06. -/
structure IsRamp (x0 y0 x1 y1 : ℝ) (R : ℝ → ℝ) : Prop where
  before : ∀ x, x ≤ x0 → R x = y0
  after : ∀ x, x1 ≤ x → R x = y1
  cont : Continuous R
  mono : y0 ≤ y1 → Monotone R
  anti : y1 ≤ y0 → Antitone R
  between : ∀ x, min y0 y1 ≤ R x ∧ R x ≤ max y0 y1

theorem isRamp_of {x0 y0 x1 y1 : ℝ} (h : x0 < x1) (g s : ℝ → ℝ) (hg : ∀ t, g t = y0 + (y1 - y0) * s t)
    (hc : Continuous s) (h0 : s x0 = 0) (h1 : s x1 = 1) (hm : MonotoneOn s (Icc x0 x1)) :
    IsRamp x0 y0 x1 y1 (fun x => g (clip x0 x1 x)) := by
  have hmono : ∀ x y, x ≤ y → s (clip x0 x1 x) ≤ s (clip x0 x1 y) := fun x y hxy =>
    hm (clip_mem h.le x) (clip_mem h.le y) (clip_mono _ _ hxy)
  have hr : ∀ x, 0 ≤ s (clip x0 x1 x) ∧ s (clip x0 x1 x) ≤ 1 := by
    intro x
    constructor
    · rw [← h0]; exact hm (left_mem_Icc.mpr h.le) (clip_mem h.le x) (clip_mem h.le x).1
    · rw [← h1]; exact hm (clip_mem h.le x) (right_mem_Icc.mpr h.le) (clip_mem h.le x).2
  refine ⟨?_, ?_, ?_, ?_, ?_, ?_⟩
  · intro x hx; simp [hg, clip_of_le h.le hx, h0]
  · intro x hx; simp [hg, clip_of_ge h.le hx, h1]
  · have e : (fun x => g (clip x0 x1 x)) = fun x => y0 + (y1 - y0) * s (clip x0 x1 x) := by funext x; rw [hg]
    rw [e]
    exact continuous_const.add (continuous_const.mul (hc.comp (clip_cont _ _)))
  · intro hy x y hxy
    simp only [hg]
    have := hmono x y hxy
    nlinarith [sub_nonneg.mpr hy]
  · intro hy x y hxy
    simp only [hg]
    have := hmono x y hxy
    nlinarith [sub_nonneg.mpr hy]
  · intro x
    simp only [hg]
    obtain ⟨a, b⟩ := hr x
    rcases le_total y0 y1 with hy | hy
    · rw [min_eq_left hy, max_eq_right hy]; constructor <;> nlinarith
    · rw [min_eq_right hy, max_eq_left hy]; constructor <;> nlinarith

/-- **C06, linear ramp.** For `x0 < x1`, whatever was queried before: the answers of a linear ramp are those of a
monotone continuous ramp, affine between the two points; the reported slope is the chord's strictly inside and 0 outside. -/
theorem C06_linear_ramp (junk : Jet) (x0 y0 x1 y1 : ℝ) (h : x0 < x1) :
    ∃ R : ℝ → ℝ, IsRamp x0 y0 x1 y1 R ∧
      (∀ x, x0 ≤ x → x ≤ x1 → R x = y0 + (y1 - y0) * ((x - x0) / (x1 - x0))) ∧
      (∀ l x, (Obj.linRamp junk x0 y0 x1 y1).ask l .y x = some (R x)) ∧
      (∀ l x, x0 < x → x < x1 → (Obj.linRamp junk x0 y0 x1 y1).ask l .dy x = some ((y1 - y0) / (x1 - x0))) ∧
      (∀ l x, x ≤ x0 ∨ x1 ≤ x → (Obj.linRamp junk x0 y0 x1 y1).ask l .dy x = some 0) := by
  have hd : x1 - x0 ≠ 0 := by linarith
  have hr := rel_linRamp junk x0 y0 x1 y1
  set f := shAffine ((y1 - y0) / (x1 - x0)) (y0 - (y1 - y0) / (x1 - x0) * x0) with hf
  have hsem : ∀ t, sem f t = y0 + (y1 - y0) * ((t - x0) / (x1 - x0)) := by
    intro t; simp only [hf, shAffine, sem]; field_simp; ring
  refine ⟨fun x => sem f (clip x0 x1 x), ?_, ?_, ?_, ?_, ?_⟩
  · refine isRamp_of h _ (fun t => (t - x0) / (x1 - x0)) hsem ?_ ?_ ?_ ?_
    · exact (continuous_id.sub continuous_const).div_const _
    · simp
    · exact div_self hd
    · intro a _ b _ hab
      have : 0 < x1 - x0 := by linarith
      simp only
      gcongr
  · intro x h0 h1; simp only [clip_of_mem h0 h1, hsem]
  · intro l x
    rw [hr.ask]
    have hD : Dom (shLinRamp x0 y0 x1 y1) x :=
      ⟨Dom_double_clamp _ (fun t => by simp [shAffine, Dom]) x, trivial⟩
    have hn : noAsinh (shLinRamp x0 y0 x1 y1) := by simp [shLinRamp, shAffine, noAsinh]
    have := den_y hn hD
    simp only [sub_zero]
    show (den (shLinRamp x0 y0 x1 y1) (some x)).y = _
    rw [this]
    exact congrArg some (sem_double_clamp h f x)
  · intro l x h0 h1
    rw [hr.ask]
    simp only [sub_zero, shLinRamp, den, not_le.mpr h0, not_le.mpr h1, if_false, uJet, shAffine, bJet, Jet.get, fmul,
      fadd, lift2]
    simp
  · intro l x hx
    rw [hr.ask]
    simp only [sub_zero, shLinRamp, den, uJet]
    rcases hx with hx | hx
    · have h1 : ¬ x1 ≤ x := by linarith
      simp [h1, hx, Jet.get]
    · simp [hx, Jet.get]

/-- A `C¹` profile with zero slope at both ends stays `C¹` when clipped. -/
theorem hasDerivAt_clip {x0 x1 : ℝ} (h : x0 < x1) (g g' : ℝ → ℝ) (hg : ∀ t, HasDerivAt g (g' t) t)
    (h0 : g' x0 = 0) (h1 : g' x1 = 0) (x : ℝ) :
    HasDerivAt (fun t => g (clip x0 x1 t)) (g' (clip x0 x1 x)) x := by
  have lo : ∀ y, y ≤ x0 → HasDerivWithinAt (fun t => g (clip x0 x1 t)) 0 (Iic x0) y := by
    intro y hy
    refine (hasDerivWithinAt_const y (Iic x0) (g x0)).congr ?_ ?_
    · intro z hz; simp only [clip_of_le h.le (show z ≤ x0 from hz)]
    · simp only [clip_of_le h.le hy]
  have hi : ∀ y, x1 ≤ y → HasDerivWithinAt (fun t => g (clip x0 x1 t)) 0 (Ici x1) y := by
    intro y hy
    refine (hasDerivWithinAt_const y (Ici x1) (g x1)).congr ?_ ?_
    · intro z hz; simp only [clip_of_ge h.le (show x1 ≤ z from hz)]
    · simp only [clip_of_ge h.le hy]
  have mid : ∀ y, x0 ≤ y → y ≤ x1 → HasDerivWithinAt (fun t => g (clip x0 x1 t)) (g' y) (Icc x0 x1) y := by
    intro y hy hy1
    refine (hg y).hasDerivWithinAt.congr ?_ ?_
    · intro z hz; simp only [clip_of_mem hz.1 hz.2]
    · simp only [clip_of_mem hy hy1]
  rcases lt_trichotomy x x0 with hx | hx | hx
  · rw [clip_of_le h.le hx.le, h0]
    exact (lo x hx.le).hasDerivAt (Iic_mem_nhds hx)
  · subst hx
    rw [clip_of_le h.le le_rfl, h0]
    have a := lo x le_rfl
    have b := mid x le_rfl h.le
    rw [h0] at b
    refine (a.union b).hasDerivAt ?_
    rw [Iic_union_Icc_eq_Iic h.le]
    exact Iic_mem_nhds h
  · rcases lt_trichotomy x x1 with hx1 | hx1 | hx1
    · rw [clip_of_mem hx.le hx1.le]
      exact (mid x hx.le hx1.le).hasDerivAt (Icc_mem_nhds hx hx1)
    · subst hx1
      rw [clip_of_ge h.le le_rfl, h1]
      have a := hi x le_rfl
      have b := mid x hx.le le_rfl
      rw [h1] at b
      refine (b.union a).hasDerivAt ?_
      rw [Icc_union_Ici_eq_Ici h.le]
      exact Ici_mem_nhds h
    · rw [clip_of_ge h.le hx1.le, h1]
      exact (hi x hx1.le).hasDerivAt (Ici_mem_nhds hx1)

/-- **C06, cosine ramp.** For `x0 < x1`, whatever was queried before: the answers are those of a monotone ramp that is
continuously differentiable everywhere, and the reported first derivative is its derivative everywhere (junctions included). -/
theorem C06_cos_ramp (junk : Jet) (x0 y0 x1 y1 : ℝ) (h : x0 < x1) :
    ∃ R : ℝ → ℝ, IsRamp x0 y0 x1 y1 R ∧ Differentiable ℝ R ∧ Continuous (deriv R) ∧
      (∀ x, x0 ≤ x → x ≤ x1 → R x = y0 + (y1 - y0) * ((1 - Real.cos (Real.pi * ((x - x0) / (x1 - x0)))) / 2)) ∧
      (∀ l x, (Obj.cosRamp junk x0 y0 x1 y1).ask l .y x = some (R x)) ∧
      (∀ l x, (Obj.cosRamp junk x0 y0 x1 y1).ask l .dy x = some (deriv R x)) := by
  have hd : x1 - x0 ≠ 0 := by linarith
  have hr := rel_cosRamp junk x0 y0 x1 y1
  set om := Real.pi / (x1 - x0) with hom
  set f : Sh := .bin .add (.const y0) (.bin .mul (.const (0.5 * (y1 - y0)))
      (.bin .sub (.const 1) (.un .cos (.bin .mul (.const om)
        (.bin .sub .var (.const x0)))))) with hf
  have hsem : ∀ t, sem f t = y0 + 0.5 * (y1 - y0) * (1 - Real.cos (om * (t - x0))) := by
    intro t; simp only [hf, sem, semU]
  have hsem2 : ∀ t, sem f t = y0 + (y1 - y0) * ((1 - Real.cos (Real.pi * ((t - x0) / (x1 - x0)))) / 2) := by
    intro t
    have : om * (t - x0) = Real.pi * ((t - x0) / (x1 - x0)) := by rw [hom]; ring
    rw [hsem, this]; norm_num; ring
  set g' : ℝ → ℝ := fun t => 0.5 * (y1 - y0) * (om * Real.sin (om * (t - x0))) with hg'
  have hder : ∀ t, HasDerivAt (sem f) (g' t) t := by
    intro t
    have e : sem f = fun t => y0 + 0.5 * (y1 - y0) * (1 - Real.cos (om * (t - x0))) := by funext u; exact hsem u
    rw [e]
    have h1 : HasDerivAt (fun t : ℝ => om * (t - x0)) om t := by
      have := ((hasDerivAt_id t).sub_const x0).const_mul om
      exact hd_cast this (by simp)
    have h2 : HasDerivAt (fun t : ℝ => Real.cos (om * (t - x0))) (-Real.sin (om * (t - x0)) * om) t :=
      HasDerivAt.comp t (Real.hasDerivAt_cos _) h1
    have h3 := ((h2.const_sub 1).const_mul (0.5 * (y1 - y0))).const_add y0
    refine hd_cast h3 ?_
    simp only [hg']; ring
  have h0 : g' x0 = 0 := by simp [hg']
  have h1 : g' x1 = 0 := by
    have : om * (x1 - x0) = Real.pi := by rw [hom]; field_simp
    simp [hg', this]
  have hR := hasDerivAt_clip h (sem f) g' hder h0 h1
  have hderiv : deriv (fun x => sem f (clip x0 x1 x)) = fun x => g' (clip x0 x1 x) := by
    funext x; exact (hR x).deriv
  refine ⟨fun x => sem f (clip x0 x1 x), ?_, fun x => (hR x).differentiableAt, ?_, ?_, ?_, ?_⟩
  · refine isRamp_of h _ (fun t => (1 - Real.cos (Real.pi * ((t - x0) / (x1 - x0)))) / 2) hsem2 ?_ ?_ ?_ ?_
    · fun_prop
    · simp
    · simp only [div_self hd]; norm_num
    · intro a ha b hb hab
      have hp : 0 < x1 - x0 := by linarith
      have key : ∀ t, t ∈ Icc x0 x1 → Real.pi * ((t - x0) / (x1 - x0)) ∈ Icc 0 Real.pi := by
        intro t ht
        have h1 : 0 ≤ (t - x0) / (x1 - x0) := div_nonneg (by linarith [ht.1]) hp.le
        have h2 : (t - x0) / (x1 - x0) ≤ 1 := by rw [div_le_one hp]; linarith [ht.2]
        exact ⟨mul_nonneg Real.pi_pos.le h1, by nlinarith [Real.pi_pos]⟩
      have hle : Real.pi * ((a - x0) / (x1 - x0)) ≤ Real.pi * ((b - x0) / (x1 - x0)) := by
        have := Real.pi_pos
        gcongr
      have := Real.strictAntiOn_cos.antitoneOn (key a ha) (key b hb) hle
      simp only
      linarith
  · rw [hderiv]
    have : Continuous g' := by simp only [hg']; fun_prop
    exact this.comp (clip_cont _ _)
  · intro x hx0 hx1; simp only [clip_of_mem hx0 hx1, hsem2]
  · intro l x
    rw [hr.ask]
    have hD : Dom (shCosRamp x0 y0 x1 y1) x :=
      ⟨Dom_double_clamp _ (fun t => by simp [Dom, domU]) x, trivial⟩
    have hn : noAsinh (shCosRamp x0 y0 x1 y1) := by simp [shCosRamp, noAsinh]
    have := den_y hn hD
    simp only [sub_zero]
    show (den (shCosRamp x0 y0 x1 y1) (some x)).y = _
    rw [this]
    exact congrArg some (sem_double_clamp h f x)
  · intro l x
    rw [hr.ask, hderiv]
    simp only [sub_zero, shCosRamp]
    show (uJet .cosRamp (den (.un (.clampAfter x1) (.un (.clampBefore x0) f)) (some x))).dy = _
    simp only [den, uJet]
    by_cases hx1 : x1 ≤ x
    · simp [hx1, clip_of_ge h.le hx1, h1]
    · by_cases hx0 : x ≤ x0
      · simp [hx1, hx0, clip_of_le h.le hx0, h0]
      · simp only [hx1, hx0, if_false]
        have hn : noAsinh f := by simp [hf, noAsinh]
        have hreg : Reg f x := by simp [hf, Reg, regU]
        obtain ⟨b, c, hb, e⟩ := den_C2 hn hreg
        rw [e, clip_of_mem (not_le.mp hx0).le (not_le.mp hx1).le]
        simp only
        rw [hb.d1.unique (hder x)]

/-- Non-vacuity: a ramp from (0,0) to (10,1). -/
example : (0 : ℝ) < 10 := by norm_num

/-! ## C07 -/

/-- What a stale root cache does: an object of shape `un k f` with sound operand whose root cache was filled for some
earlier operand/parameter. If the first query after the change is not at the cached abscissa, everything is right from
then on. -/
theorem stale_ok {k : UKind} {f : Sh} (b : Base) (sf : St f) (hg : Good f sf) (h0 : (base f sf).off = 0)
    (w' : Which) (x' : ℝ) (hx : touch (.un k f) none (x' - b.off) ≠ b.cx)
    (l : List (Which × ℝ)) (w : Which) (x : ℝ) :
    Obj.ask ⟨.un k f, (b, sf)⟩ [] w' x' = (den (.un k f) (some (x' - b.off))).get w' ∧
    Obj.ask ⟨.un k f, (b, sf)⟩ ((w', x') :: l) w x = (den (.un k f) (some (x - b.off))).get w := by
  have hfresh : Good (.un k f) (({ b with cx := none } : Base), sf) := ⟨hg, h0, by simp⟩
  have hE : eval (.un k f) ((b, sf) : Base × St f) (some (x' - b.off)) =
      eval (.un k f) ((({ b with cx := none } : Base), sf) : Base × St f) (some (x' - b.off)) := by
    show evalU k f (eval f) (b, sf) (some (x' - b.off)) = evalU k f (eval f) ({ b with cx := none }, sf) (some (x' - b.off))
    generalize x' - b.off = a at hx
    have hU : ∀ k' : UKind, b.cx ≠ some a →
        evalUn k' f (eval f) (b, sf) (some a) = evalUn k' f (eval f) ({ b with cx := none }, sf) (some a) := by
      intro k' hne; simp [evalUn, hne]
    have hC : ∀ c : ℝ, b.cx ≠ some c →
        evalClamped c f (eval f) (b, sf) = evalClamped c f (eval f) ({ b with cx := none }, sf) := by
      intro c hne; simp [evalClamped, hne]
    cases k
    case clampAfter c =>
      simp only [evalU]
      by_cases hc : c ≤ a
      · simp only [hc, if_true]
        exact hC c (by simpa [touch, hc, eq_comm] using hx)
      · simp only [hc, if_false]
        exact hU _ (by simpa [touch, hc, eq_comm] using hx)
    case clampBefore c =>
      simp only [evalU]
      by_cases hc : a ≤ c
      · simp only [hc, if_true]
        exact hC c (by simpa [touch, hc, eq_comm] using hx)
      · simp only [hc, if_false]
        exact hU _ (by simpa [touch, hc, eq_comm] using hx)
    all_goals exact hU _ (fun e => hx e.symm)
  have hrel : Rel (⟨.un k f, ((({ b with cx := none } : Base), sf) : Base × St f)⟩ : Obj) ⟨.un k f, b.off, none⟩ :=
    ⟨rfl, hfresh, rfl, rfl⟩
  have hq : Obj.query ⟨.un k f, (b, sf)⟩ w' x' =
      Obj.query ⟨.un k f, ((({ b with cx := none } : Base), sf) : Base × St f)⟩ w' x' := by
    unfold Obj.query Func.query
    have e1 : (base (.un k f) ((b, sf) : Base × St f)).off = b.off := rfl
    have e2 : (base (.un k f) ((({ b with cx := none } : Base), sf) : Base × St f)).off = b.off := rfl
    simp only [e1, e2, hE]
  constructor
  · show (Obj.query ⟨.un k f, (b, sf)⟩ w' x').2 = _
    rw [hq]; exact (hrel.query w' x').2
  · show (Obj.query ⟨.un k f, (b, sf)⟩ w' x').1.ask l w x = _
    rw [hq]
    exact (hrel.query w' x').1.ask l w x

/-- **C07 (partial), `FrPowFunction::Set` and `FrClampFunction::Set`.** After changing the parameter of the root of a
built object, if the first query is not made at the abscissa for which the root holds cached results, that query and
every later one answer for the new parameter. Missing: the case of a query at the cached abscissa, where the old answer
is returned (`C07_pow_set_counterexample`). -/
theorem C07_set_parameter_partial (k k' : UKind) (f : Sh) (st : St (.un k f)) (ho : Built ⟨.un k f, st⟩)
    (w' : Which) (x' : ℝ)
    (hx : touch (.un k' f) none (x' - (base _ st).off) ≠ (base _ st).cx)
    (l : List (Which × ℝ)) (w : Which) (x : ℝ) :
    (Obj.setKind k' ⟨.un k f, st⟩).ask [] w' x' = (den (.un k' f) (some (x' - (base _ st).off))).get w' ∧
    (Obj.setKind k' ⟨.un k f, st⟩).ask ((w', x') :: l) w x = (den (.un k' f) (some (x - (base _ st).off))).get w := by
  obtain ⟨q, hq⟩ := ho.rel
  obtain ⟨b, sf⟩ := st
  exact stale_ok b sf hq.good.1 hq.good.2.1 w' x' hx l w x

/-- **C07 (partial), ramps' `SetByTwoPoints`, polynomial `Add`, in-place operators.** Same statement for a change of
operand. -/
theorem C07_replace_operand_partial (k : UKind) (f : Sh) (st : St (.un k f)) (ho : Built ⟨.un k f, st⟩)
    (g : Obj) (hg : ∃ q, Rel g q) (w' : Which) (x' : ℝ)
    (hx : touch (.un k g.1) none (x' - (base _ st).off) ≠ (base _ st).cx)
    (l : List (Which × ℝ)) (w : Which) (x : ℝ) :
    (Obj.replaceOperand g ⟨.un k f, st⟩).ask [] w' x' = (den (.un k g.1) (some (x' - (base _ st).off))).get w' ∧
    (Obj.replaceOperand g ⟨.un k f, st⟩).ask ((w', x') :: l) w x =
      (den (.un k g.1) (some (x - (base _ st).off))).get w := by
  obtain ⟨q, hq⟩ := ho.rel
  obtain ⟨r, hr⟩ := hg
  obtain ⟨b, sf⟩ := st
  exact stale_ok b (clone g.1 g.2) (clone_good _ _ hr.good) (by simp [base_clone]) w' x' hx l w x

/-- `Set` is lost when the next query is at the cached abscissa: `x^2` evaluated at 3, `Set(3)`, asked at 3 again. -/
theorem C07_pow_set_counterexample (junk : Jet) :
    let o := ((Obj.un junk (.pow 2) (.var junk)).query .y 3).1
    Built o ∧ (o.setKind (.pow 3)).ask [] .y 3 = some 9 ∧ (o.setKind (.pow 3)).ask [(.y, 0)] .y 3 = some 27 := by
  intro o
  have hb0 := built_un_var junk (.pow 2) trivial
  have hb : Built o := hb0.query .y 3
  have h9 : (den (.un (.pow 2) .var) (some 3)).y = some 9 := by
    simp [den, uJet, fpow, rpowC]; norm_num
  have h27 : (den (.un (.pow 3) .var) (some 3)).y = some 27 := by
    simp [den, uJet, fpow, rpowC]; norm_num
  refine ⟨hb, ?_, ?_⟩
  · have e2 : (3 : ℝ) - 0 = 3 := sub_zero 3
    simp [o, Obj.ask, Obj.hist, Obj.setKind, Obj.query, Func.query, eval, evalU, evalUn, base, Obj.un, mkUn, Obj.var,
      mkVar, fresh, Jet.get, clone, get3, uJet, fsub, lift2, fpow, rpowC]
    norm_num
  · let st0 : St (.un (.pow 2) .var) := (Obj.un junk (.pow 2) (.var junk)).2
    let st : St (.un (.pow 2) .var) := o.2
    have hb' : Built ⟨.un (.pow 2) .var, st⟩ := hb
    have hoff : (base (.un (.pow 2) .var) st).off = 0 := rfl
    have hcx : (base (.un (.pow 2) .var) st).cx = some 3 := by
      have h1 : (base (.un (.pow 2) .var) st).cx = touch (.un (.pow 2) .var) (base (.un (.pow 2) .var) st0).cx (3 - 0) :=
        eval_cx (.un (.pow 2) .var) st0 (3 - 0)
      rw [h1]; simp [touch]
    have := (C07_set_parameter_partial (.pow 2) (.pow 3) .var st hb' .y 0 (by rw [hoff, hcx]; simp [touch]) [] .y 3).2
    rw [hoff, sub_zero] at this
    exact this.trans h27

/-- **C07 is false for `FrLinearFunction`:** `Set`, `SetSlope`, `SetIntercept`, `SetByTwoPoints` never change any answer,
whatever was asked before and after. -/
theorem C07_linear_setters_have_no_effect (junk : Jet) (a b a' b' : ℝ) (l m : List (Which × ℝ)) (x : ℝ) :
    (((Obj.linear junk a b).hist l).setKind (.linear a' b')).ask m .y x = some (b * x + a) := by
  obtain ⟨last, hr⟩ := (rel_linear junk a b).hist l
  generalize (Obj.linear junk a b).hist l = o at hr
  obtain ⟨hs, hg, ho, hl⟩ := hr
  rcases o with ⟨s, st⟩
  simp only at hs ho hl
  subst hs
  have hr' : Rel (Obj.setKind (.linear a' b') ⟨.un (.linear a b) (shAffine b a), st⟩)
      ⟨.un (.linear a' b') (shAffine b a), 0, last⟩ :=
    ⟨rfl, ⟨hg.1, hg.2.1, fun u hu _ => hg.2.2 u hu trivial⟩, ho, hl⟩
  rw [hr'.ask]
  simp [shAffine, den, uJet, bJet, fmul, fadd, lift2, Jet.get]

/-- `FrConstantFunction::Set` does take effect, always. -/
theorem C07_constant_set (v v' : ℝ) (l m : List (Which × ℝ)) (x : ℝ) :
    (((Obj.const v).hist l).setConst v').ask m .y x = some v' := by
  obtain ⟨last, hr⟩ := (Rel.const v).hist l
  rw [(hr.setConst v').ask]
  rfl

/-- In-place operators on a built one-operand object: `f += g` replaces the *operand* of `f` by `operand + g`. -/
theorem C07_inplace_acts_on_operand (junk : Jet) (op : BKind) (k : UKind) (f : Sh) (st : St (.un k f))
    (ho : Built ⟨.un k f, st⟩) (g : Obj) (hg : Built g) :
    ∃ o', Obj.inplace junk op g ⟨.un k f, st⟩ = some o' ∧ o'.1 = .un k (.bin op f g.1) ∧
    ∀ x, touch (.un k (.bin op f g.1)) none (x - (base _ st).off) ≠ (base _ st).cx → ∀ w,
      o'.ask [] w x = (den (.un k (.bin op f g.1)) (some (x - (base _ st).off))).get w := by
  refine ⟨_, rfl, rfl, ?_⟩
  intro x hx w
  obtain ⟨q, hq⟩ := ho.rel
  obtain ⟨r, hr⟩ := hg.rel
  obtain ⟨b, sf⟩ := st
  exact (stale_ok b _ (clone_good _ _ (mkBin_good junk op _ _ _ _ hq.good.1 hr.good)) (by simp [base_clone]) w x hx
    [] w x).1

/-- Consequence: `c = cos(x); c += 1` makes `c` the function `cos(x + 1)`, not `cos(x) + 1`. -/
theorem C07_inplace_counterexample (junk : Jet) :
    ∃ o', Obj.inplace junk .add (.const 1) (.un junk .cos (.var junk)) = some o' ∧
      o'.ask [] .y 0 = some (Real.cos 1) ∧ Real.cos 1 ≠ Real.cos 0 + 1 := by
  have hc : Built (.const 1) := ⟨[.const 1], _, _, _, rfl, rfl, by simp⟩
  obtain ⟨o', e, _, h⟩ := C07_inplace_acts_on_operand junk .add .cos .var _ (built_un_var junk .cos trivial)
    (.const 1) hc
  refine ⟨o', e, ?_, ?_⟩
  · have h' : o'.ask [] .y 0 = (den (.un .cos (.bin .add .var (.const 1))) (some (0 - 0))).get .y :=
      h 0 (by show touch _ none (0 - 0) ≠ none; simp [touch]) .y
    rw [h']
    simp [den, uJet, bJet, Obj.const, fadd, lift2, lift1, Jet.get]
  · rw [Real.cos_zero]
    have := Real.cos_le_one 1
    linarith

/-- On a bare variable or constant the in-place operators dereference a null pointer. -/
theorem C07_inplace_on_variable_is_ub (junk : Jet) (op : BKind) (g : Obj) :
    Obj.inplace junk op g (.var junk) = none ∧ ∀ v, Obj.inplace junk op g (.const v) = none :=
  ⟨rfl, fun _ => rfl⟩

/-- **C07, polynomials.** `Add(val, n)` (n ≥ 1) on a polynomial object adds `val xⁿ` to its value (first query not at
the cached abscissa). -/
theorem C07_polynomial_add_partial (junk : Jet) (val : ℝ) (n : ℕ) (hn : 1 ≤ n) (f : Sh) (st : St (.un .poly f))
    (ho : Built ⟨.un .poly f, st⟩) (h0 : (base _ st).off = 0) (x : ℝ) (hx : (base _ st).cx ≠ some x) :
    ∃ o', Obj.polyAdd junk val n ⟨.un .poly f, st⟩ = some o' ∧
      o'.ask [] .y x = Obj.ask ⟨.un .poly f, st⟩ [] .y x +ₒ some (val * x ^ n) := by
  refine ⟨_, rfl, ?_⟩
  have hterm : Rel (Obj.bin junk .mul (.const val) (.un junk (.pow n) (.var junk))) _ :=
    (Rel.const val).bin ((Rel.var junk).un junk (.pow n)) junk .mul
  rw [ho.ask]
  obtain ⟨q, hq⟩ := ho.rel
  obtain ⟨b, sf⟩ := st
  have h0' : b.off = 0 := h0
  have := (stale_ok (k := .poly) b _ (clone_good _ _ (mkBin_good junk .add _ _ _ _ hq.good.1 hterm.good))
    (by simp [base_clone]) .y x (by rw [h0', sub_zero]; exact fun e => hx e.symm) [] .y x).1
  rw [h0', sub_zero] at this
  have hn' : 0 < n := hn
  have hpow : rpowC x n = some (x ^ n) := by
    rw [rpowC_some, Real.rpow_natCast]
    rcases lt_trichotomy x 0 with h | h | h
    · exact Or.inr (Or.inr ⟨h, n, by simp⟩)
    · exact Or.inr (Or.inl ⟨h, by positivity⟩)
    · exact Or.inl h
  refine this.trans ?_
  show (den _ (some x)).y = _
  have e2 : Obj.off ⟨.un .poly f, ((b, sf) : Base × St f)⟩ = 0 := h0
  rw [e2, sub_zero]
  show (den _ (some x)).y = (den (.un .poly f) (some x)).y +ₒ _
  simp [den, uJet, bJet, Obj.bin, Obj.un, Obj.var, Obj.const, fpow, hpow, fmul, lift2]

/-- Non-vacuity of the C07 theorems: a fresh polynomial object. -/
example : Built (Obj.un Jet.bad .poly (.const 4)) :=
  ⟨[.const 4, .un Jet.bad .poly 0], [⟨.const 4, 0, none⟩, ⟨.un .poly (.const 4), 0, none⟩], [],
    [.const 4, .un Jet.bad .poly (.const 4)], by simp [specRun, specStep, UKind.plain], by simp [run, step], by simp⟩

end Frydom.Func
