import Verif.Func.Props
import Mathlib.Analysis.Calculus.MeanValue
import Mathlib.Algebra.Order.Archimedean.Basic

/-!
# Tables, estimated derivatives, texts, functions given to Chrono (C179)

`src/frydom/core/math/functions/FrFunctionBase.cpp`: `WriteToGnuPlotFile` (113-142), `Estimate_y_dx`, `Estimate_y_dxdx` (145-151), `GetRepr`, `FrFunctionChronoInterface` (23-43, 256-263).
-/

open Classical

noncomputable section

namespace Frydom.Func

/-- A row of the file: abscissa and the three results. -/
structure Row where
  x : ℝ
  jet : Jet

/-- Results asked one after the other at `x`: the object after them, and what each gave. -/
def answers (x : ℝ) : Obj → List Which → Obj × List (Which × FV)
  | o, [] => (o, [])
  | o, w :: ws => ((answers x (o.query w x).1 ws).1, (w, (o.query w x).2) :: (answers x (o.query w x).1 ws).2)

/-- The loop of `WriteToGnuPlotFile` (FrFunctionBase.cpp:118-123): `Table xmax dx o x rows o'` when the loop entered at `x` with the object `o` ends, having written `rows`, with the object `o'`. The three results are the arguments of one
call of `fmt::format_to`: C++ may evaluate them in any order (`ws`). Numbers are written without rounding (simplification). -/
inductive Table (xmax dx : ℝ) : Obj → ℝ → List Row → Obj → Prop
  | stop {o x} : ¬ x ≤ xmax → Table xmax dx o x [] o
  | row {o x ws jet rows o'} : x ≤ xmax → ws.Perm [.y, .dy, .ddy] → (∀ a ∈ (answers x o ws).2, jet.get a.1 = a.2) →
      Table xmax dx (answers x o ws).1 (x + dx) rows o' → Table xmax dx o x (⟨x, jet⟩ :: rows) o'

/-- `Estimate_y_dx(x)` with `FR_BDF` = 1e-7 (FrFunctionBase.cpp:12, 145-147); the order of the two calls does not show. -/
def estimateDx (o : Obj) (l : List (Which × ℝ)) (x : ℝ) : FV := fdiv (fsub (o.ask l .y (x + 1e-7)) (o.ask (l ++ [(.y, x + 1e-7)]) .y x)) (some 1e-7)
/-- `Estimate_y_dxdx(x)` (FrFunctionBase.cpp:149-151). -/
def estimateDxDx (o : Obj) (l : List (Which × ℝ)) (x : ℝ) : FV := fdiv (fsub (o.ask l .dy (x + 1e-7)) (o.ask (l ++ [(.dy, x + 1e-7)]) .dy x)) (some 1e-7)

/-- `GetRepr()` of the operands and results (FrFunctionBase.cpp:283-285, 336-338, 360-364, 399-401, 421-423, 442-444, 466-468, 490-494, and `return ""` in all classes of `lib/` and `ramp/`); `num` is `std::to_string`. Variables inside an
expression are copies, whose name is the default (FrFunctionBase.cpp:277, FrFunctionBase.h:251). -/
def text (num : ℝ → String) : Sh → String
  | .var => "x"
  | .const v => num v
  | .un .plus f => text num f
  | .un .neg f => "-" ++ text num f
  | .un _ _ => ""
  | .bin .add f g => text num f ++ "+" ++ text num g
  | .bin .sub f g => text num f ++ "-" ++ text num g
  | .bin .mul f g => text num f ++ "*" ++ text num g
  | .bin .div f g => text num f ++ "/" ++ text num g
  | .bin .comp f g => text num f ++ " o(" ++ text num g ++ ")"

/-- The function Chrono calls (`SetMotorFunction`): a copy made at that moment (FrFunctionBase.cpp:256-259, 23-43). -/
def toChrono (o : Obj) : Obj := o.clone

/-! ## Lemmas -/

theorem answers_spec (x : ℝ) : ∀ (ws : List Which) (o : Obj) (h : List (Which × ℝ)), Built o →
    ∃ h', (answers x (o.hist h) ws).1 = o.hist h' ∧ ∀ a ∈ (answers x (o.hist h) ws).2, a.2 = o.ask [] a.1 x
  | [], o, h, _ => ⟨h, rfl, by simp [answers]⟩
  | w :: ws, o, h, ho => by
    have e : ((o.hist h).query w x).1 = o.hist (h ++ [(w, x)]) := by simp [Obj.hist, List.foldl_append]
    obtain ⟨h', h1, h2⟩ := answers_spec x ws o (h ++ [(w, x)]) ho
    refine ⟨h', ?_, ?_⟩
    · show (answers x ((o.hist h).query w x).1 ws).1 = _
      rw [e]; exact h1
    · intro a ha
      have ha' : a = (w, ((o.hist h).query w x).2) ∨ a ∈ (answers x ((o.hist h).query w x).1 ws).2 := by
        simpa [answers] using ha
      rcases ha' with rfl | ha'
      · exact C01_answer_independent_of_queries o ho h [] w x
      · rw [e] at ha'; exact h2 a ha'

theorem answers_keys (x : ℝ) : ∀ (ws : List Which) (o : Obj) (w : Which), w ∈ ws → ∃ v, (w, v) ∈ (answers x o ws).2
  | w' :: ws, o, w, h => by
    rcases List.mem_cons.mp h with rfl | h
    · exact ⟨(o.query w x).2, by simp [answers]⟩
    · obtain ⟨v, hv⟩ := answers_keys x ws (o.query w' x).1 w h
      exact ⟨v, by simp [answers, hv]⟩

/-- The row prescribed by the function at `x`. -/
def rowOf (o : Obj) (x : ℝ) : Row := ⟨x, ⟨o.ask [] .y x, o.ask [] .dy x, o.ask [] .ddy x⟩⟩

theorem row_value {o : Obj} (ho : Built o) {h : List (Which × ℝ)} {x : ℝ} {ws : List Which} (hp : ws.Perm [.y, .dy, .ddy]) {jet : Jet}
    (hj : ∀ a ∈ (answers x (o.hist h) ws).2, jet.get a.1 = a.2) : (⟨x, jet⟩ : Row) = rowOf o x := by
  obtain ⟨h', -, h2⟩ := answers_spec x ws o h ho
  have key : ∀ w, w ∈ [Which.y, .dy, .ddy] → jet.get w = o.ask [] w x := by
    intro w hw
    obtain ⟨v, hv⟩ := answers_keys x ws (o.hist h) w (hp.mem_iff.mpr hw)
    exact (hj _ hv).trans (h2 _ hv)
  have k1 := key .y (by simp)
  have k2 := key .dy (by simp)
  have k3 := key .ddy (by simp)
  obtain ⟨y, dy, ddy⟩ := jet
  simp only [Jet.get] at k1 k2 k3
  rw [k1, k2, k3]; rfl

theorem table_rows {o : Obj} (ho : Built o) {xmax dx : ℝ} {s : Obj} {x : ℝ} {rows : List Row} {o' : Obj} (ht : Table xmax dx s x rows o') :
    ∀ h, s = o.hist h → rows = (List.range rows.length).map (fun k : ℕ => rowOf o (x + k * dx)) ∧ (∀ k < rows.length, x + (k : ℕ) * dx ≤ xmax) ∧
      ¬ x + rows.length * dx ≤ xmax ∧ ∃ h', o' = o.hist h' := by
  induction ht with
  | stop hx => intro h e; exact ⟨rfl, by simp, by simpa using hx, h, e⟩
  | @row s x ws jet rows o' hx hp hj ht ih =>
    intro h e
    subst e
    obtain ⟨h', h1, -⟩ := answers_spec x ws o h ho
    obtain ⟨i1, i2, i3, i4⟩ := ih h' h1
    refine ⟨?_, ?_, ?_, i4⟩
    · rw [List.length_cons, List.range_succ_eq_map, List.map_cons, List.map_map]
      congr 1
      · rw [row_value ho hp hj]; simp
      · conv_lhs => rw [i1]
        apply List.map_congr_left
        intro k _
        simp only [Function.comp]
        congr 1
        push_cast; ring
    · intro k hk
      cases k with
      | zero => simpa using hx
      | succ k =>
        have := i2 k (by simpa using hk)
        have e : x + ((k + 1 : ℕ) : ℝ) * dx = x + dx + k * dx := by push_cast; ring
        rw [e]; exact this
    · have e : x + (((⟨x, jet⟩ : Row) :: rows).length : ℝ) * dx = x + dx + rows.length * dx := by
        rw [List.length_cons]; push_cast; ring
      rw [e]; exact i3

theorem table_exists {o : Obj} (ho : Built o) (xmax dx : ℝ) : ∀ (n : ℕ) (x : ℝ) (h : List (Which × ℝ)), (∀ k < n, x + (k : ℕ) * dx ≤ xmax) → ¬ x + n * dx ≤ xmax →
    ∃ rows o', Table xmax dx (o.hist h) x rows o' ∧ rows.length = n
  | 0, x, h, _, h2 => ⟨[], _, .stop (by simpa using h2), rfl⟩
  | n + 1, x, h, h1, h2 => by
    obtain ⟨h', e1, e2⟩ := answers_spec x [.y, .dy, .ddy] o h ho
    obtain ⟨rows, o', ht, hl⟩ := table_exists ho xmax dx n (x + dx) h'
      (fun k hk => by have := h1 (k + 1) (by omega); push_cast at this; linarith) (fun hc => h2 (by push_cast; linarith))
    refine ⟨⟨x, (rowOf o x).jet⟩ :: rows, o', .row (by simpa using h1 0 (by omega)) (List.Perm.refl _) (fun a ha => ?_) (e1 ▸ ht), by simp [hl]⟩
    have := e2 a ha
    rw [this]
    obtain ⟨w, v⟩ := a
    cases w <;> rfl

/-! ## Theorems -/

/-- **C179, the table.** For every function a user can build, whatever was asked before, with a positive step: the table is written; its rows are exactly the abscissae `xmin + k dx` not above `xmax`, in order, each with the value and the
two derivatives the function has there (see C02); the function answers as before; in whatever order C++ evaluates the three results. -/
theorem C179_table (o : Obj) (ho : Built o) (h : List (Which × ℝ)) (xmin xmax dx : ℝ) (hd : 0 < dx) :
    (∃ rows o', Table xmax dx (o.hist h) xmin rows o') ∧
    ∀ rows o', Table xmax dx (o.hist h) xmin rows o' →
      (∀ (k : ℕ), xmin + k * dx ≤ xmax ↔ k < rows.length) ∧
      (∀ k (hk : k < rows.length), rows[k].x = xmin + k * dx ∧ ∀ w, rows[k].jet.get w = o.ask [] w (xmin + k * dx)) ∧
      ∀ l w x, o'.ask l w x = o.ask [] w x := by
  constructor
  · obtain ⟨n, hn, hlt⟩ : ∃ n : ℕ, ¬ xmin + n * dx ≤ xmax ∧ ∀ k < n, xmin + (k : ℕ) * dx ≤ xmax := by
      have hex : ∃ n : ℕ, ¬ xmin + n * dx ≤ xmax := by
        obtain ⟨n, hn⟩ := exists_nat_gt ((xmax - xmin) / dx)
        refine ⟨n, fun hc => ?_⟩
        rw [div_lt_iff₀ hd] at hn
        linarith
      exact ⟨Nat.find hex, Nat.find_spec hex, fun k hk => not_not.mp (Nat.find_min hex hk)⟩
    obtain ⟨rows, o', ht, -⟩ := table_exists ho xmax dx n xmin h hlt hn
    exact ⟨rows, o', ht⟩
  · intro rows o' ht
    obtain ⟨e, h1, h2, h', rfl⟩ := table_rows ho ht h rfl
    refine ⟨fun k => ⟨fun hk => ?_, h1 k⟩, fun k hk => ?_, fun l w x => ?_⟩
    · by_contra hc
      push Not at hc
      refine h2 (le_trans ?_ hk)
      have : (rows.length : ℝ) ≤ k := by exact_mod_cast hc
      have := mul_le_mul_of_nonneg_right this hd.le
      linarith
    · have hr : rows[k] = rowOf o (xmin + k * dx) := by
        have := congrArg (fun l : List Row => l[k]?) e
        simp only [List.getElem?_map, List.getElem?_range hk, List.getElem?_eq_getElem hk, Option.map_some] at this
        exact Option.some.inj this
      rw [hr]
      exact ⟨rfl, fun w => by cases w <;> rfl⟩
    · have : (o.hist h').ask l w x = o.ask (h' ++ l) w x := by simp [Obj.ask, Obj.hist, List.foldl_append]
      rw [this]; exact C01_answer_independent_of_queries o ho _ _ w x

/-- **C179, a step that is not positive (defect).** With a zero or negative step and `xmin ≤ xmax` the writing never ends; above the range there is an empty table whatever the step. -/
theorem C179_no_end (o : Obj) (ho : Built o) (h : List (Which × ℝ)) (xmin xmax dx : ℝ) :
    (dx ≤ 0 → xmin ≤ xmax → ¬ ∃ rows o', Table xmax dx (o.hist h) xmin rows o') ∧
    (xmax < xmin → ∀ rows o', Table xmax dx (o.hist h) xmin rows o' → rows = []) := by
  refine ⟨fun hd hx ⟨rows, o', ht⟩ => ?_, fun hx rows o' ht => ?_⟩
  · obtain ⟨-, -, h2, -⟩ := table_rows ho ht h rfl
    refine h2 ?_
    have : (rows.length : ℝ) * dx ≤ 0 := mul_nonpos_of_nonneg_of_nonpos (by positivity) hd
    linarith
  · cases ht with
    | stop _ => rfl
    | row hx' _ _ _ => exact absurd hx' (not_le.mpr hx)

/-- **C179, estimated derivatives.** Where the function is smooth on `[x, x + 1e-7]` the estimate of the derivative is a value the derivative takes between the two, so it is off by at most `1e-7` times the largest second derivative there;
likewise the estimate of the second derivative is the slope of the first derivative over that interval, a value taken by the second derivative. -/
theorem C179_estimates (o : Obj) (ho : Built o) (hn : noAsinh o.1) (l : List (Which × ℝ)) (x : ℝ) (hx : ∀ t ∈ Set.Icc x (x + 1e-7), Reg o.1 (t - o.off)) :
    (∃ t ∈ Set.Ioo x (x + 1e-7), estimateDx o l x = o.ask [] .dy t) ∧ (∃ t ∈ Set.Ioo x (x + 1e-7), estimateDxDx o l x = o.ask [] .ddy t) ∧
    ∀ M d e, (∀ t ∈ Set.Icc x (x + 1e-7), ∀ c, o.ask [] .ddy t = some c → |c| ≤ M) → o.ask [] .dy x = some d → estimateDx o l x = some e → |e - d| ≤ M * 1e-7 := by
  set F : ℝ → ℝ := fun t => sem o.1 (t - o.off) with hF
  have hh : x < x + 1e-7 := by norm_num
  have D := fun t ht => C02_derivatives_partial o ho hn [] t (hx t ht)
  have mv : ∀ G : ℝ → ℝ, (∀ t ∈ Set.Icc x (x + 1e-7), DifferentiableAt ℝ G t) → ∃ t ∈ Set.Ioo x (x + 1e-7), (G (x + 1e-7) - G x) / 1e-7 = deriv G t := by
    intro G hG
    obtain ⟨t, ht, e⟩ := exists_deriv_eq_slope G hh (fun t ht => (hG t ht).continuousAt.continuousWithinAt) (fun t ht => (hG t ⟨ht.1.le, ht.2.le⟩).differentiableWithinAt)
    exact ⟨t, ht, by rw [e, add_sub_cancel_left]⟩
  have lo : x ∈ Set.Icc x (x + 1e-7) := ⟨le_refl _, hh.le⟩
  have hi : x + 1e-7 ∈ Set.Icc x (x + 1e-7) := ⟨hh.le, le_refl _⟩
  have ask : ∀ l w t, o.ask l w t = o.ask [] w t := fun l w t => C01_answer_independent_of_queries o ho l [] w t
  have e1 : estimateDx o l x = some ((F (x + 1e-7) - F x) / 1e-7) := by
    unfold estimateDx
    rw [ask l, ask (l ++ _), (D _ hi).1, (D _ lo).1]
    show fdiv (some (F (x + 1e-7) - F x)) (some 1e-7) = _
    simp [fdiv]; norm_num
  have e2 : estimateDxDx o l x = some ((deriv F (x + 1e-7) - deriv F x) / 1e-7) := by
    unfold estimateDxDx
    rw [ask l, ask (l ++ _), (D _ hi).2.2.1, (D _ lo).2.2.1]
    show fdiv (some (deriv F (x + 1e-7) - deriv F x)) (some 1e-7) = _
    simp [fdiv]; norm_num
  refine ⟨?_, ?_, ?_⟩
  · obtain ⟨t, ht, e⟩ := mv F fun t ht => (D t ht).2.1
    exact ⟨t, ht, by rw [e1, e, (D t ⟨ht.1.le, ht.2.le⟩).2.2.1]⟩
  · obtain ⟨t, ht, e⟩ := mv (deriv F) fun t ht => (D t ht).2.2.2.1
    exact ⟨t, ht, by rw [e2, e, (D t ⟨ht.1.le, ht.2.le⟩).2.2.2.2]⟩
  · intro M d e hM hd he
    obtain ⟨t, ht, et⟩ := mv F fun t ht => (D t ht).2.1
    have hd' : d = deriv F x := by rw [(D x lo).2.2.1] at hd; exact (Option.some.inj hd).symm
    have he' : e = deriv F t := by rw [e1, et] at he; exact (Option.some.inj he).symm
    have hm : ∀ s ∈ Set.Icc x (x + 1e-7), ‖deriv (deriv F) s‖ ≤ M := fun s hs => hM s hs _ (D s hs).2.2.2.2
    have := (convex_Icc x (x + 1e-7)).norm_image_sub_le_of_norm_deriv_le (f := deriv F) (fun s hs => (D s hs).2.2.2.1) hm lo ⟨ht.1.le, ht.2.le⟩
    rw [Real.norm_eq_abs, Real.norm_eq_abs] at this
    rw [he', hd']
    refine this.trans ?_
    have h0 : 0 ≤ M := (norm_nonneg _).trans (hm x lo)
    have : |t - x| ≤ 1e-7 := by rw [abs_of_pos (by linarith [ht.1])]; linarith [ht.2]
    exact mul_le_mul_of_nonneg_left this h0

/-- **C179, texts (defect).** The text of a function does not tell which function it is: no parentheses are written, so `(x+a)*b` and `x+a*b` read the same although they differ at every `x` but 0 unless `b` is 1; all
elementary functions, powers, clamps, ramps read as the empty text. -/
theorem C179_text_wrong (num : ℝ → String) (a b : ℝ) (junk : Jet) (l m : List (Which × ℝ)) (x : ℝ) :
    text num (.bin .mul (.bin .add .var (.const a)) (.const b)) = text num (.bin .add .var (.bin .mul (.const a) (.const b))) ∧
    (Obj.bin junk .mul (.bin junk .add (.var junk) (.const a)) (.const b)).ask l .y x = some ((x + a) * b) ∧
    (Obj.bin junk .add (.var junk) (.bin junk .mul (.const a) (.const b))).ask m .y x = some (x + a * b) ∧
    ((x + a) * b = x + a * b ↔ x = 0 ∨ b = 1) ∧
    ∀ f : Sh, text num (.un .cos f) = "" ∧ text num (.un .sin f) = "" ∧ text num (.un .cos f) = text num (.un .linRamp f) ∧ ∀ p, text num (.un (.pow p) f) = "" := by
  have hv : ∃ q, Rel (Obj.var junk) q := (built_var junk).rel
  have hc : ∀ v, ∃ q, Rel (Obj.const v) q := fun v =>
    Built.rel ⟨[.const v], [⟨.const v, 0, none⟩], [], [.const v], by simp [specRun, specStep], by simp [run, step], by simp⟩
  obtain ⟨q, hq⟩ := hv
  obtain ⟨ra, hra⟩ := hc a
  obtain ⟨rb, hrb⟩ := hc b
  refine ⟨?_, ?_, ?_, ?_, fun f => ⟨rfl, rfl, rfl, fun p => rfl⟩⟩
  · simp only [text, String.append_assoc]
  · rw [ask_bin (hq.bin hra junk .add) hrb]
    rfl
  · rw [ask_bin hq (hra.bin hrb junk .mul)]
    rfl
  · constructor
    · intro h
      have : x * (b - 1) = 0 := by linear_combination h
      rcases mul_eq_zero.mp this with h | h
      · exact Or.inl h
      · exact Or.inr (by linarith)
    · rintro (rfl | rfl) <;> ring

/-- **C179, functions given to a motor.** The motor follows the function as it was when given, whatever was asked of it before, **without its offset** (defect): so at time `t` it follows the function at `t` plus the offset, and what the
user asks or sets on his own function afterwards has no effect. -/
theorem C179_chrono (o : Obj) (ho : Built o) (l m : List (Which × ℝ)) (w : Which) (t : ℝ) :
    (toChrono o).ask l w t = o.ask m w (t + o.off) ∧ (o.off = 0 → (toChrono o).ask l w t = o.ask m w t) ∧ (toChrono (o.hist m)).ask l w t = (toChrono o).ask l w t := by
  have h1 := fun m => C04_clone_forgets_offset o ho l m w t
  refine ⟨h1 m, fun h0 => by rw [show (toChrono o).ask l w t = _ from h1 m, h0, add_zero], ?_⟩
  have h2 := C04_clone_forgets_offset (o.hist m) (ho.hist m) l [] w t
  show (o.hist m).clone.ask l w t = o.clone.ask l w t
  obtain ⟨q, hq⟩ := ho.rel
  obtain ⟨last, hr⟩ := hq.hist m
  have e : (o.hist m).off = o.off := by
    show (base _ _).off = (base _ _).off
    rw [hr.off, hq.off]
  rw [h2, h1 (m ++ []), e]
  simp [Obj.ask, Obj.hist, List.foldl_append]

/-- The hypotheses are met: the table of `cos x`, built, smooth everywhere; three rows from 0 to 1 by halves. -/
example : ∃ o, Built o ∧ noAsinh o.1 ∧ (∀ t, Reg o.1 (t - o.off)) ∧ ∃ rows o', Table 1 0.5 (o.hist []) 0 rows o' ∧ rows.length = 3 := by
  have hb := built_un_var Jet.bad .cos trivial
  refine ⟨_, hb, by simp [Obj.un, Obj.var, noAsinh], fun t => by simp [Obj.un, Obj.var, Reg, regU], ?_⟩
  exact table_exists hb 1 0.5 3 0 [] (fun k hk => by interval_cases k <;> norm_num) (by norm_num)

end Frydom.Func
