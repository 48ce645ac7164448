import Verif.Func.SatTanh
import Verif.Waves.Dispersion

/-! # Properties C08 (saturation) and C09 (tanh ramp) -/

open Classical

noncomputable section

namespace Frydom.Func

/-! ## C08 -/

theorem Sat.query_spec {s : Sat} {q : SpecObj} (h : Rel s.op q) (x : ℝ) :
    (∃ last, Rel (s.query x).1.op { q with last := last }) ∧
    (s.query x).1.lo = s.lo ∧ (s.query x).1.hi = s.hi ∧ (s.query x).1.off = s.off ∧
    (s.query x).2 = (den q.sh (some (x - s.off - q.off))).y.map fun y =>
      satClip s.lo s.hi y (den q.sh (some (x - s.off - q.off))).dy (den q.sh (some (x - s.off - q.off))).ddy := by
  obtain ⟨h1, e1⟩ := h.query .y (x - s.off)
  obtain ⟨h2, e2⟩ := h1.query .dy (x - s.off)
  obtain ⟨h3, e3⟩ := h2.query .ddy (x - s.off)
  refine ⟨⟨_, h3⟩, rfl, rfl, rfl, ?_⟩
  simp only [Sat.query, e1, e2, e3, Jet.get]

theorem Sat.hist_spec (s : Sat) (q : SpecObj) (h : Rel s.op q) (l : List ℝ) :
    (∃ last, Rel (s.hist l).op { q with last := last }) ∧
    (s.hist l).lo = s.lo ∧ (s.hist l).hi = s.hi ∧ (s.hist l).off = s.off := by
  induction l generalizing s q with
  | nil => exact ⟨⟨q.last, h⟩, rfl, rfl, rfl⟩
  | cons a l ih =>
    obtain ⟨⟨last, hr⟩, e1, e2, e3, _⟩ := s.query_spec h a
    obtain ⟨⟨last', hr'⟩, e1', e2', e3'⟩ := ih (s.query a).1 _ hr
    exact ⟨⟨last', hr'⟩, e1'.trans e1, e2'.trans e2, e3'.trans e3⟩

/-- What a saturation answers at `x` after queries `l`, in terms of the answers of a fresh copy of its operand. -/
theorem Sat.answer (f : Obj) (hf : Built f) (h0 : f.off = 0) (lo hi : EReal) (l : List ℝ) (x : ℝ) (y : ℝ)
    (hy : f.ask [] .y x = some y) :
    ((Sat.hist ⟨f.clone, lo, hi, 0⟩ l).query x).2 = some (satClip lo hi y (f.ask [] .dy x) (f.ask [] .ddy x)) := by
  obtain ⟨q, hq⟩ := hf.rel
  have hoff : q.off = 0 := by rw [← hq.off]; exact h0
  obtain ⟨⟨last, hr⟩, e1, e2, e3⟩ := Sat.hist_spec ⟨f.clone, lo, hi, 0⟩ _ hq.clone l
  obtain ⟨_, _, _, _, e⟩ := Sat.query_spec hr x
  rw [e, e1, e2, e3]
  rw [hq.ask, hoff] at hy
  rw [hq.ask, hq.ask, hoff]
  simp only [sub_zero, Jet.get] at hy ⊢
  rw [hy]
  rfl

/-- **C08, `saturate_both`.** For `lo ≤ hi`, whatever was queried before, the answer is the operand's value clipped into
`[lo, hi]`; strictly inside the band the derivatives are the operand's, at and beyond the bounds they are zero. -/
theorem C08_saturate_both_partial (f : Obj) (hf : Built f) (h0 : f.off = 0) (lo hi : ℝ) (h : lo ≤ hi) (l : List ℝ) (x y : ℝ)
    (hy : f.ask [] .y x = some y) :
    ∃ r : SatOut, (((saturateBoth f lo hi).hist l).query x).2 = some r ∧
      r.y = ((max lo (min y hi) : ℝ) : EReal) ∧
      (lo < y → y < hi → r.dy = f.ask [] .dy x ∧ r.ddy = f.ask [] .ddy x) ∧
      (y ≤ lo ∨ hi ≤ y → r.dy = some 0 ∧ r.ddy = some 0) := by
  refine ⟨_, Sat.answer f hf h0 lo hi l x y hy, ?_⟩
  generalize f.ask [] .dy x = dy
  generalize f.ask [] .ddy x = ddy
  by_cases h1 : y ≤ lo
  · have h1' : (y : EReal) ≤ lo := by exact_mod_cast h1
    have hm : max lo (min y hi) = lo := max_eq_left ((min_le_left _ _).trans h1)
    have e : satClip lo hi y dy ddy = ⟨lo, some 0, some 0⟩ := by
      unfold satClip
      rw [if_pos h1']
      by_cases h2 : (hi : EReal) ≤ lo
      · have : hi = lo := le_antisymm (by exact_mod_cast h2) h
        simp [this]
      · simp only [if_neg h2]
    rw [e, hm]
    exact ⟨rfl, fun a _ => absurd h1 (not_le.mpr a), fun _ => ⟨rfl, rfl⟩⟩
  · have h1' : ¬ (y : EReal) ≤ lo := by exact_mod_cast h1
    by_cases h2 : hi ≤ y
    · have h2' : (hi : EReal) ≤ y := by exact_mod_cast h2
      have hm : max lo (min y hi) = hi := by rw [min_eq_right h2, max_eq_right h]
      have e : satClip lo hi y dy ddy = ⟨hi, some 0, some 0⟩ := by
        unfold satClip
        simp only [if_neg h1', if_pos h2']
      rw [e, hm]
      exact ⟨rfl, fun _ a => absurd h2 (not_le.mpr a), fun _ => ⟨rfl, rfl⟩⟩
    · have h2' : ¬ (hi : EReal) ≤ y := by exact_mod_cast h2
      have hm : max lo (min y hi) = y := by rw [min_eq_left (not_le.mp h2).le, max_eq_right (not_le.mp h1).le]
      have e : satClip lo hi y dy ddy = ⟨y, dy, ddy⟩ := by
        unfold satClip
        simp only [if_neg h1', if_neg h2']
      rw [e, hm]
      exact ⟨rfl, fun _ _ => ⟨rfl, rfl⟩, fun a => by rcases a with a | a <;> contradiction⟩

/-- `saturate_high(f, ymax)` is the *constant* `ymax`: the never-set lower bound is `+∞`. -/
theorem C08_saturate_high_is_constant (f : Obj) (hf : Built f) (h0 : f.off = 0) (ymax : ℝ) (l : List ℝ) (x y : ℝ)
    (hy : f.ask [] .y x = some y) :
    ∃ r : SatOut, (((saturateHigh f ymax).hist l).query x).2 = some r ∧ r.y = (ymax : EReal) := by
  refine ⟨_, Sat.answer f hf h0 ⊤ ymax l x y hy, ?_⟩
  simp [satClip]

/-- `saturate_low(f, ymin)` always answers `-∞`: the never-set upper bound is `-∞`. -/
theorem C08_saturate_low_is_minus_infinity (f : Obj) (hf : Built f) (h0 : f.off = 0) (ymin : ℝ) (l : List ℝ) (x y : ℝ)
    (hy : f.ask [] .y x = some y) :
    ∃ r : SatOut, (((saturateLow f ymin).hist l).query x).2 = some r ∧ r.y = ⊥ := by
  refine ⟨_, Sat.answer f hf h0 ymin ⊥ l x y hy, ?_⟩
  simp [satClip]

/-- Hence the one-sided half of C08 is false: `saturate_high(x, 5)` at 2 answers 5, not `min 2 5`. -/
theorem C08_saturate_high_counterexample (junk : Jet) :
    ∃ r : SatOut, ((saturateHigh (.var junk) 5).query 2).2 = some r ∧ r.y ≠ ((min 2 5 : ℝ) : EReal) := by
  have hy : (Obj.var junk).ask [] .y 2 = some 2 := by rw [(Rel.var junk).ask]; simp [den, Jet.get]
  obtain ⟨r, e, hr⟩ := C08_saturate_high_is_constant (.var junk) (built_var junk) rfl 5 [] 2 2 hy
  refine ⟨r, e, ?_⟩
  rw [hr]
  norm_num

/-- Non-vacuity of the C08 theorems. -/
example (junk : Jet) : Built (.var junk) ∧ (Obj.var junk).off = 0 ∧ (Obj.var junk).ask [] .y 2 = some 2 :=
  ⟨built_var junk, rfl, by rw [(Rel.var junk).ask]; simp [den, Jet.get]⟩

/-! ## C09 -/

/-- The curve the tanh ramp is meant to follow, in the shifted abscissa used by `Eval`. -/
def tanhCurve (xOff width height yOff a t : ℝ) : ℝ :=
  if t ≤ xOff then yOff
  else if xOff + width ≤ t then yOff + height
  else 0.5 * height * (1 + Real.tanh (2 * a * t / width - a)) + yOff

def Tanh.curve (s : Tanh) (x : ℝ) : ℝ := tanhCurve s.xOff s.width s.height s.yOff s.a (x - s.xOff)

/-- `x` is strictly inside the ramp. -/
def Tanh.inside (s : Tanh) (x : ℝ) : Prop := s.xOff < x - s.xOff ∧ x - s.xOff < s.xOff + s.width

/-- Same parameters. -/
def Tanh.same (s t : Tanh) : Prop :=
  s.xOff = t.xOff ∧ s.width = t.width ∧ s.height = t.height ∧ s.yOff = t.yOff ∧ s.a = t.a

theorem Tanh.query_same (s : Tanh) (x : ℝ) : (s.query x).same s := by
  unfold Tanh.query Tanh.eval
  split_ifs <;> exact ⟨rfl, rfl, rfl, rfl, rfl⟩

theorem Tanh.same.trans {s t u : Tanh} (h : s.same t) (k : t.same u) : s.same u :=
  ⟨h.1.trans k.1, h.2.1.trans k.2.1, h.2.2.1.trans k.2.2.1, h.2.2.2.1.trans k.2.2.2.1, h.2.2.2.2.trans k.2.2.2.2⟩

theorem Tanh.same.curve {s t : Tanh} (h : s.same t) (x : ℝ) : s.curve x = t.curve x := by
  obtain ⟨a, b, c, d, e⟩ := h
  simp [Tanh.curve, a, b, c, d, e]

theorem Tanh.same.inside {s t : Tanh} (h : s.same t) (x : ℝ) : s.inside x ↔ t.inside x := by
  obtain ⟨a, b, c, d, e⟩ := h
  simp [Tanh.inside, a, b]

theorem Tanh.hist_same (s : Tanh) (l : List ℝ) : (s.hist l).same s := by
  induction l generalizing s with
  | nil => exact ⟨rfl, rfl, rfl, rfl, rfl⟩
  | cons a l ih => exact (ih (s.query a)).trans (s.query_same a)

/-- One query answers the curve unless the cache claims to hold the abscissa. -/
theorem Tanh.query_y (s : Tanh) (x : ℝ) (h : s.inside x → s.cx = some (x - s.xOff) → s.y = s.curve x) :
    (s.query x).y = s.curve x := by
  unfold Tanh.query Tanh.eval
  by_cases h1 : x - s.xOff ≤ s.xOff
  · simp [h1, Tanh.curve, tanhCurve]
  · by_cases h2 : s.xOff + s.width ≤ x - s.xOff
    · simp [h1, h2, Tanh.curve, tanhCurve]
    · by_cases h3 : s.cx = some (x - s.xOff)
      · simp only [h1, h2, h3, if_true, if_false]
        exact h ⟨not_le.mp h1, not_le.mp h2⟩ h3
      · simp [h1, h2, h3, Tanh.curve, tanhCurve]

/-- **C09 (partial).** A tanh ramp with a fresh cache answers its curve at `x` provided every earlier query was strictly
inside the ramp, or `x` itself was never asked before. Missing (and false, see the counterexample): mixed histories. -/
theorem C09_history_partial (s : Tanh) (hs : s.cx = none) (l : List ℝ) (x : ℝ)
    (hl : (∀ u ∈ l, s.inside u) ∨ x ∉ l) : ((s.hist l).query x).y = s.curve x := by
  rcases hl with hl | hl
  · have key : ∀ (l : List ℝ) (s : Tanh), (∀ u, s.inside u → s.cx = some (u - s.xOff) → s.y = s.curve u) →
        (∀ u ∈ l, s.inside u) → ∀ u, (s.hist l).inside u → (s.hist l).cx = some (u - (s.hist l).xOff) →
          (s.hist l).y = (s.hist l).curve u := by
      intro l
      induction l with
      | nil => intro s h _; exact h
      | cons a l ih =>
        intro s h hin
        refine ih (s.query a) ?_ (fun u hu => (s.query_same a).inside u |>.mpr (hin u (by simp [hu])))
        intro u _ hc
        have ha := hin a (by simp)
        have hy := s.query_y a (h a)
        have hcx : (s.query a).cx = some (a - s.xOff) := by
          unfold Tanh.query Tanh.eval
          simp only [not_le.mpr ha.1, not_le.mpr ha.2, if_false]
          split_ifs with h3
          · exact h3
          · rfl
        have hx := (s.query_same a).1
        rw [hcx, hx] at hc
        have : a = u := by
          have := Option.some.inj hc
          linarith
        subst this
        rw [hy, (s.query_same a).curve]
    have hsame := s.hist_same l
    rw [Tanh.query_y, hsame.curve]
    exact key l s (fun u _ hc => by simp [hs] at hc) hl x
  · have key : ∀ (l : List ℝ) (s : Tanh), s.cx ≠ some (x - s.xOff) → x ∉ l →
        (s.hist l).cx ≠ some (x - (s.hist l).xOff) := by
      intro l
      induction l with
      | nil => intro s h _; exact h
      | cons a l ih =>
        intro s h hin
        simp only [List.mem_cons, not_or] at hin
        refine ih (s.query a) ?_ hin.2
        rw [(s.query_same a).1]
        unfold Tanh.query Tanh.eval
        split_ifs
        · exact h
        · exact h
        · exact h
        · simp only [ne_eq, Option.some.injEq]
          intro e
          exact hin.1 (by linarith)
    have hsame := s.hist_same l
    rw [Tanh.query_y, hsame.curve]
    intro _ hc
    exact absurd hc (key l s (by simp [hs]) hl)

/-- **C09 is false:** the default ramp (from (0,0) to (1,1)) answers 1/2 at its middle, and 0 there after a query below
the ramp. -/
theorem C09_history_counterexample (y0 dy0 : ℝ) :
    ((Tanh.new y0 dy0).query 0.5).y = 0.5 ∧ (((Tanh.new y0 dy0).hist [0.5, -1]).query 0.5).y = 0 := by
  set s := Tanh.new y0 dy0 with hs
  have h1 : ¬ (0.5 : ℝ) - 0 ≤ 0 := by norm_num
  have h2 : ¬ (0 : ℝ) + 1 ≤ 0.5 - 0 := by norm_num
  have e1 : (s.query 0.5).cx = some (0.5 - 0) := by
    show (Tanh.eval s (0.5 - 0)).cx = _
    unfold Tanh.eval
    rw [if_neg (show ¬ (0.5 : ℝ) - 0 ≤ s.xOff from h1), if_neg (show ¬ s.xOff + s.width ≤ 0.5 - 0 from h2), if_neg]
    simp [hs, Tanh.new]
  constructor
  · rw [Tanh.query_y _ _ (fun _ hc => by simp [hs, Tanh.new] at hc)]
    simp only [Tanh.curve, tanhCurve]
    rw [if_neg (show ¬ (0.5 : ℝ) - s.xOff ≤ s.xOff from h1), if_neg (show ¬ s.xOff + s.width ≤ 0.5 - s.xOff from h2)]
    have : 2 * s.a * (0.5 - s.xOff) / s.width - s.a = 0 := by simp [hs, Tanh.new]; ring
    rw [this, Real.tanh_zero]
    simp [hs, Tanh.new]
  · set t := s.query 0.5 with ht
    obtain ⟨ex, ew, _, ey, _⟩ := s.query_same 0.5
    have ex0 : t.xOff = 0 := ex
    have ew1 : t.width = 1 := ew
    have ey0 : t.yOff = 0 := ey
    have e2 : t.query (-1) = { t with y := t.yOff, dy := 0 } := by
      unfold Tanh.query Tanh.eval
      rw [if_pos (by rw [ex0]; norm_num)]
    show ((t.query (-1)).query 0.5).y = 0
    rw [e2]
    unfold Tanh.query Tanh.eval
    simp only [ex0, ew1, ey0]
    rw [if_neg h1, if_neg h2, if_pos e1]

/-- **C09, end points (partial).** With the x-offset left at 0 (width and offset setters), `0 < width`: 0 and `width` are
mapped to the two levels, whatever was asked before. -/
theorem C09_end_points_partial (s : Tanh) (h0 : s.xOff = 0) (hw : 0 < s.width) (l : List ℝ) :
    ((s.hist l).query 0).y = s.yOff ∧ ((s.hist l).query s.width).y = s.yOff + s.height := by
  obtain ⟨a, b, c, d, e⟩ := s.hist_same l
  constructor
  · rw [Tanh.query_y]
    · simp [Tanh.curve, tanhCurve, a, d, h0]
    · intro h; simp [Tanh.inside, a, h0] at h
  · rw [Tanh.query_y]
    · simp [Tanh.curve, tanhCurve, a, b, c, d, h0, hw]
    · intro h; simp [Tanh.inside, a, b, h0] at h

/-- **C09, end points are wrong** when set by `SetByTwoPoints` with a nonzero start: the offset is applied twice. The ramp
through (10,0) and (15,1) answers 0 at 15. -/
theorem C09_end_point_counterexample (y0 dy0 : ℝ) :
    (((Tanh.new y0 dy0).setByTwoPoints 10 0 15 1).query 15).y = 0 := by
  simp only [Tanh.query, Tanh.eval, Tanh.setByTwoPoints]
  norm_num

/-- **C09, end points set by `SetByTwoPoints`.** The offset is applied twice: whatever was set or asked before, the level `y0` is held up to `2 x0` and the level `y1` from `x0 + x1` on, instead of `x0`
and `x1`; the two are the same exactly when `x0 = 0`, and the ramp then goes through its two points. Right after the call, the values in between are strictly between the two levels. -/
theorem C09_two_points_partial (s : Tanh) (x0 y0 x1 y1 : ℝ) (h : x0 < x1) (l : List ℝ) :
    let r := s.setByTwoPoints x0 y0 x1 y1
    (∀ x, x ≤ 2 * x0 → ((r.hist l).query x).y = y0) ∧ (∀ x, x0 + x1 ≤ x → ((r.hist l).query x).y = y1) ∧
    (x0 = 0 → ((r.hist l).query x0).y = y0 ∧ ((r.hist l).query x1).y = y1) ∧
    (s.cx = none → y0 < y1 → ∀ x, 2 * x0 < x → x < x0 + x1 → y0 < (r.query x).y ∧ (r.query x).y < y1) := by
  intro r
  obtain ⟨a, b, c, d, e⟩ := r.hist_same l
  have a' : (r.hist l).xOff = x0 := a
  have b' : (r.hist l).width = x1 - x0 := b
  have c' : (r.hist l).height = y1 - y0 := c
  have d' : (r.hist l).yOff = y0 := d
  have p1 : ∀ x, x ≤ 2 * x0 → ((r.hist l).query x).y = y0 := by
    intro x hx
    rw [Tanh.query_y _ _ (fun hi => absurd hi.1 (by rw [a']; linarith))]
    unfold Tanh.curve tanhCurve
    rw [a', d', if_pos (by linarith)]
  have p2 : ∀ x, x0 + x1 ≤ x → ((r.hist l).query x).y = y1 := by
    intro x hx
    rw [Tanh.query_y _ _ (fun hi => absurd hi.2 (by rw [a', b']; linarith))]
    unfold Tanh.curve tanhCurve
    rw [a', b', c', d', if_neg (by linarith), if_pos (by linarith)]
    ring
  refine ⟨p1, p2, fun h0 => ⟨p1 x0 (by rw [h0]; simp), p2 x1 (by rw [h0]; simp)⟩, fun hc hy x h1 h2 => ?_⟩
  have q : (r.query x).y = 0.5 * (y1 - y0) * (1 + Real.tanh (2 * s.a * (x - x0) / (x1 - x0) - s.a)) + y0 := by
    show (r.eval (x - x0)).y = _
    unfold Tanh.eval
    rw [if_neg (show ¬ x - x0 ≤ r.xOff by show ¬ x - x0 ≤ x0; linarith), if_neg (show ¬ r.xOff + r.width ≤ x - x0 by show ¬ x0 + (x1 - x0) ≤ x - x0; linarith),
      if_neg (show ¬ r.cx = some (x - x0) by show ¬ s.cx = _; rw [hc]; simp)]
    rfl
  rw [q]
  have t1 := Real.tanh_lt_one (2 * s.a * (x - x0) / (x1 - x0) - s.a)
  have t2 := Real.neg_one_lt_tanh (2 * s.a * (x - x0) / (x1 - x0) - s.a)
  constructor <;> nlinarith

/-- **C09, tolerance.** A ramp that rises from its start, with the default tolerance (one thousandth) or with a tolerance set in `]0, 1/2[`: strictly inside the ramp the value returned is within the
height times `[tol, 1 - tol]`, so that the jumps at the two ends are at most `tol` times the height, and they are no smaller: both bounds are approached at the ends. -/
theorem C09_tolerance (s : Tanh) (y0 dy0 tol : ℝ) (ht : 0 < tol) (ht2 : tol < 1 / 2)
    (hs : s = (Tanh.new y0 dy0).setTolerance tol ∨ (tol = 1e-3 ∧ s = Tanh.new y0 dy0)) (w h yo : ℝ) (hw : 0 < w) (hh : 0 < h) :
    let r := ((s.setWidth w).setHeight h).setYOffset yo
    (∀ x, 0 < x → x < w → yo + tol * h < (r.query x).y ∧ (r.query x).y < yo + (1 - tol) * h) ∧
    ∀ e > 0, (∃ x, 0 < x ∧ x < w ∧ (r.query x).y < yo + tol * h + e) ∧ ∃ x, 0 < x ∧ x < w ∧ yo + (1 - tol) * h - e < (r.query x).y := by
  intro r
  have hne : tol ≠ 0 := ht.ne'
  have hq : 0 < (1 - tol) / tol := div_pos (by linarith) ht
  have hx : s.xOff = 0 ∧ s.a = tanhA tol ∧ s.cx = none := by
    rcases hs with rfl | ⟨rfl, rfl⟩ <;> exact ⟨rfl, rfl, rfl⟩
  have ha : Real.tanh (tanhA tol) = 1 - 2 * tol := by
    have e : Real.exp (tanhA tol) * Real.exp (tanhA tol) = (1 - tol) / tol := by
      rw [← Real.exp_add, tanhA]
      rw [show 0.5 * Real.log ((1 - tol) / tol) + 0.5 * Real.log ((1 - tol) / tol) = Real.log ((1 - tol) / tol) by ring, Real.exp_log hq]
    rw [Real.tanh_eq_sinh_div_cosh, Real.sinh_eq, Real.cosh_eq, Real.exp_neg]
    have hp := Real.exp_pos (tanhA tol)
    have hp2 : Real.exp (tanhA tol) ^ 2 = (1 - tol) / tol := by rw [sq, e]
    rw [div_div_div_cancel_right₀ (by norm_num)]
    have : (Real.exp (tanhA tol) - (Real.exp (tanhA tol))⁻¹) / (Real.exp (tanhA tol) + (Real.exp (tanhA tol))⁻¹) =
        (Real.exp (tanhA tol) ^ 2 - 1) / (Real.exp (tanhA tol) ^ 2 + 1) := by
      rw [div_eq_div_iff (by positivity) (by positivity)]
      field_simp
    rw [this, hp2]
    field_simp
    ring
  have hapos : 0 < tanhA tol := by
    unfold tanhA
    have : 0 < Real.log ((1 - tol) / tol) := Real.log_pos (by rw [lt_div_iff₀ ht]; linarith)
    positivity
  have hy : ∀ x, 0 < x → x < w → (r.query x).y = 0.5 * h * (1 + Real.tanh (2 * tanhA tol * x / w - tanhA tol)) + yo := by
    intro x h1 h2
    show (r.eval (x - s.xOff)).y = _
    unfold Tanh.eval
    rw [if_neg (show ¬ x - s.xOff ≤ r.xOff by show ¬ x - s.xOff ≤ s.xOff; rw [hx.1]; linarith), if_neg (show ¬ r.xOff + r.width ≤ x - s.xOff by show ¬ s.xOff + w ≤ x - s.xOff; rw [hx.1]; linarith),
      if_neg (show ¬ r.cx = some (x - s.xOff) by show ¬ s.cx = _; rw [hx.2.2]; simp)]
    show 0.5 * h * (1 + Real.tanh (2 * s.a * (x - s.xOff) / w - s.a)) + yo = _
    rw [hx.1, hx.2.1, sub_zero]
  have hmono := Frydom.Waves.tanh_strictMono
  refine ⟨fun x h1 h2 => ?_, fun e he => ?_⟩
  · rw [hy x h1 h2]
    have e1 : 0 < x / w := div_pos h1 hw
    have e2 : x / w < 1 := (div_lt_one hw).mpr h2
    have e3 : 2 * tanhA tol * x / w = tanhA tol * (2 * (x / w)) := by ring
    have l1 : Real.tanh (-tanhA tol) < Real.tanh (2 * tanhA tol * x / w - tanhA tol) := hmono (by rw [e3]; nlinarith)
    have l2 : Real.tanh (2 * tanhA tol * x / w - tanhA tol) < Real.tanh (tanhA tol) := hmono (by rw [e3]; nlinarith)
    rw [Real.tanh_neg, ha] at l1
    rw [ha] at l2
    constructor <;> nlinarith
  · -- the value is continuous in the abscissa
    have hc : Continuous fun x => 0.5 * h * (1 + Real.tanh (2 * tanhA tol * x / w - tanhA tol)) + yo := by
      have : Continuous Real.tanh := continuous_iff_continuousAt.mpr fun x => (Frydom.Waves.hasDerivAt_tanh x).continuousAt
      fun_prop
    have v0 : 0.5 * h * (1 + Real.tanh (2 * tanhA tol * 0 / w - tanhA tol)) + yo = yo + tol * h := by
      rw [mul_zero, zero_div, zero_sub, Real.tanh_neg, ha]; ring
    have v1 : 0.5 * h * (1 + Real.tanh (2 * tanhA tol * w / w - tanhA tol)) + yo = yo + (1 - tol) * h := by
      rw [mul_div_assoc, div_self hw.ne', show 2 * tanhA tol * 1 - tanhA tol = tanhA tol by ring, ha]; ring
    constructor
    · have := Metric.continuous_iff.mp hc 0 e he
      obtain ⟨d, hd, hd2⟩ := this
      have hm : 0 < min d w := lt_min hd hw
      have := hd2 (min d w / 2) (by rw [Real.dist_eq, sub_zero, abs_of_pos (by linarith)]; linarith [min_le_left d w])
      have h2 : min d w / 2 < w := by linarith [min_le_right d w]
      refine ⟨min d w / 2, by linarith, h2, ?_⟩
      rw [hy _ (by linarith) h2]
      rw [Real.dist_eq, v0] at this
      have := (abs_lt.mp this).2
      linarith
    · have := Metric.continuous_iff.mp hc w e he
      obtain ⟨d, hd, hd2⟩ := this
      have hm : 0 < min d w := lt_min hd hw
      have := hd2 (w - min d w / 2) (by rw [Real.dist_eq, sub_sub_cancel_left, abs_neg, abs_of_pos (by linarith)]; linarith [min_le_left d w])
      have h2 : 0 < w - min d w / 2 := by linarith [min_le_right d w]
      refine ⟨w - min d w / 2, h2, by linarith, ?_⟩
      rw [hy _ h2 (by linarith)]
      rw [Real.dist_eq, v1] at this
      have := (abs_lt.mp this).1
      linarith

/-- Non-vacuity of `C09_tolerance`: the default ramp, 20 s long. -/
example (y0 dy0 : ℝ) : 0.001 < (((((Tanh.new y0 dy0).setWidth 20).setHeight 1).setYOffset 0).query 0.1).y := by
  have := ((C09_tolerance (Tanh.new y0 dy0) y0 dy0 1e-3 (by norm_num) (by norm_num) (Or.inr ⟨rfl, rfl⟩) 20 1 0 (by norm_num) (by norm_num)).1
    0.1 (by norm_num) (by norm_num)).1
  norm_num at this ⊢
  linarith

/-- Non-vacuity of `C09_history_partial`. -/
example (y0 dy0 : ℝ) : (Tanh.new y0 dy0).cx = none ∧ ∀ u ∈ [0.25, (0.5 : ℝ)], (Tanh.new y0 dy0).inside u := by
  refine ⟨rfl, ?_⟩
  intro u hu
  simp only [List.mem_cons, List.not_mem_nil, or_false] at hu
  rcases hu with rfl | rfl <;> norm_num [Tanh.inside, Tanh.new]

end Frydom.Func
