import Verif.Func.Cache
import Verif.Func.Deriv

/-! # Properties C01–C05 and C07 of the function objects -/

open Classical

noncomputable section

namespace Frydom.Func

/-! ## Vocabulary used in the statements -/

/-- A function object as users obtain them: it lies in the heap after some program that the specification accepts
(no clamp built on an operand whose cache is unsafe). -/
def Built (o : Obj) : Prop :=
  ∃ cs p outs h, specRun [] cs = some (p, outs) ∧ run [] cs = some (h, outs) ∧ o ∈ h

/-- The x-offset of an object (`GetXOffset`). -/
def Obj.off (o : Obj) : ℝ := (base o.1 o.2).off

/-- The object after a list of queries. -/
def Obj.hist (o : Obj) (l : List (Which × ℝ)) : Obj := l.foldl (fun o q => (o.query q.1 q.2).1) o

/-- The answer of query `w` at `x` after the queries `l`. -/
def Obj.ask (o : Obj) (l : List (Which × ℝ)) (w : Which) (x : ℝ) : FV := ((o.hist l).query w x).2

theorem Built.rel {o : Obj} (h : Built o) : ∃ q, Rel o q := by
  obtain ⟨cs, p, outs, hp, h1, h2, hm⟩ := h
  obtain ⟨h', e, H⟩ := run_refines cs (h := []) (p := []) List.Forall₂.nil p outs h1
  rw [h2] at e
  cases e
  obtain ⟨q, _, hr⟩ := (List.forall₂_iff_get.mp H |> fun ⟨hl, hr⟩ => by
    obtain ⟨i, hi, e⟩ := List.getElem_of_mem hm
    exact ⟨p[i]'(by omega), List.getElem_mem _, by have := hr i hi (by omega); simpa [e] using this⟩ :
      ∃ q, q ∈ p ∧ Rel o q)
  exact ⟨q, hr⟩

theorem Rel.hist {o q} (h : Rel o q) (l : List (Which × ℝ)) :
    ∃ last, Rel (o.hist l) { q with last := last } := by
  induction l generalizing o q with
  | nil => exact ⟨q.last, h⟩
  | cons a l ih =>
    obtain ⟨last, hr⟩ := ih (h.query a.1 a.2).1
    exact ⟨last, hr⟩

theorem Rel.ask {o q} (h : Rel o q) (l : List (Which × ℝ)) (w : Which) (x : ℝ) :
    o.ask l w x = (den q.sh (some (x - q.off))).get w := by
  obtain ⟨last, hr⟩ := h.hist l
  exact (hr.query w x).2

theorem Rel.ask' {o q} (h : Rel o q) (l : List (Which × ℝ)) (w : Which) (x : ℝ) :
    o.ask l w x = (den o.1 (some (x - o.off))).get w := by
  rw [h.ask, Obj.off, h.off, h.sh]

theorem Built.ask {o : Obj} (h : Built o) (l : List (Which × ℝ)) (w : Which) (x : ℝ) :
    o.ask l w x = (den o.1 (some (x - o.off))).get w := by
  obtain ⟨q, hq⟩ := h.rel
  exact hq.ask' l w x

/-! ## C01 -/

/-- **C01.** Whatever program a user runs (building objects from variables, constants, operators, elementary functions,
powers, linear functions, ramps, safe clamps; copying them; setting offsets and constants; querying in any order), every
answer of the memoising implementation is the one of the stateless specification, in which a query is a pure lookup of
the expression. No bound on the program. -/
theorem C01_history_independence (cs : List Cmd) (p : List SpecObj) (outs : List FV)
    (h : specRun [] cs = some (p, outs)) : ∃ h', run [] cs = some (h', outs) := by
  obtain ⟨h', e, _⟩ := run_refines cs (h := []) (p := []) List.Forall₂.nil p outs h
  exact ⟨h', e⟩

/-- **C01**, per object: answers do not depend on the queries made before. -/
theorem C01_answer_independent_of_queries (o : Obj) (ho : Built o) (l l' : List (Which × ℝ)) (w : Which) (x : ℝ) :
    o.ask l w x = o.ask l' w x := by
  rw [ho.ask, ho.ask]

/-- Commands other than clamping (for those the result may depend on earlier queries, see C05). -/
def Cmd.basic : Cmd → Prop
  | .clamp _ _ => False
  | .un _ k _ => k.plain
  | _ => True

/-- Two abstract heaps that differ only in the bookkeeping of the last evaluation. -/
abbrev Weak : List SpecObj → List SpecObj → Prop := List.Forall₂ (fun a b => a.sh = b.sh ∧ a.off = b.off)

theorem Weak.get {h p} (H : Weak h p) (i : ℕ) (q : SpecObj) (hq : h[i]? = some q) :
    ∃ o, p[i]? = some o ∧ q.sh = o.sh ∧ q.off = o.off := by
  induction H generalizing i with
  | nil => simp at hq
  | cons r _ ih =>
    cases i with
    | zero => simp at hq; subst hq; exact ⟨_, rfl, r⟩
    | succ i => simpa using ih i (by simpa using hq)

theorem Weak.app {h p o q} (H : Weak h p) (r : o.sh = q.sh ∧ o.off = q.off) : Weak (h ++ [o]) (p ++ [q]) :=
  List.rel_append H (List.Forall₂.cons r List.Forall₂.nil)

theorem Weak.set {h p} (H : Weak h p) (i : ℕ) {o q : SpecObj} (r : o.sh = q.sh ∧ o.off = q.off) :
    Weak (h.set i o) (p.set i q) := by
  induction H generalizing i with
  | nil => simp
  | cons r' t ih =>
    cases i with
    | zero => simpa using ⟨r, t⟩
    | succ i => simpa using ⟨r', ih i⟩

theorem HRel.get' {h p} (H : HRel h p) (i : ℕ) (o : Obj) (hq : h[i]? = some o) :
    ∃ q, p[i]? = some q ∧ Rel o q := by
  induction H generalizing i with
  | nil => simp at hq
  | cons r _ ih =>
    cases i with
    | zero => simp at hq; subst hq; exact ⟨_, rfl, r⟩
    | succ i => simpa using ih i (by simpa using hq)

theorem specStep_complete {h p} (H : HRel h p) (c : Cmd) (hc : c.basic) {h' outs} (hs : step h c = some (h', outs)) :
    ∃ p' outs', specStep p c = some (p', outs') := by
  cases c <;> simp only [step] at hs
  case clamp => exact absurd hc (by simp [Cmd.basic])
  case un junk k i =>
    obtain ⟨o, ho, e⟩ := Option.map_eq_some_iff.mp hs
    obtain ⟨q, hq, _⟩ := H.get' i o ho
    exact ⟨_, _, by simp only [specStep, show k.plain from hc, if_true, hq, Option.map_some]; rfl⟩
  case bin junk op i j =>
    obtain ⟨o, ho, e⟩ := Option.bind_eq_some_iff.mp hs
    obtain ⟨o', ho', e⟩ := Option.map_eq_some_iff.mp e
    obtain ⟨q, hq, _⟩ := H.get' i o ho
    obtain ⟨q', hq', _⟩ := H.get' j o' ho'
    exact ⟨_, _, by simp only [specStep, hq, hq', Option.map_some, Option.bind_some]; rfl⟩
  case var => exact ⟨_, _, rfl⟩
  case const => exact ⟨_, _, rfl⟩
  case linear => exact ⟨_, _, rfl⟩
  case linRamp => exact ⟨_, _, rfl⟩
  case cosRamp => exact ⟨_, _, rfl⟩
  all_goals
    obtain ⟨o, ho, e⟩ := Option.map_eq_some_iff.mp hs
    obtain ⟨q, hq, _⟩ := H.get' _ o ho
    exact ⟨_, _, by simp only [specStep, hq, Option.map_some]; rfl⟩

theorem specStep_weak {p q} (H : Weak p q) (c : Cmd) (hc : c.basic) {p' outs} (hs : specStep p c = some (p', outs)) :
    ∃ q', specStep q c = some (q', outs) ∧ Weak p' q' := by
  cases c <;> simp only [specStep] at hs
  case clamp => exact absurd hc (by simp [Cmd.basic])
  case var => cases hs; exact ⟨_, rfl, H.app ⟨rfl, rfl⟩⟩
  case const => cases hs; exact ⟨_, rfl, H.app ⟨rfl, rfl⟩⟩
  case linear => cases hs; exact ⟨_, rfl, H.app ⟨rfl, rfl⟩⟩
  case linRamp => cases hs; exact ⟨_, rfl, H.app ⟨rfl, rfl⟩⟩
  case cosRamp => cases hs; exact ⟨_, rfl, H.app ⟨rfl, rfl⟩⟩
  case un junk k i =>
    simp only [show k.plain from hc, if_true] at hs
    obtain ⟨o, ho, e⟩ := Option.map_eq_some_iff.mp hs
    cases e
    obtain ⟨o', ho', e1, e2⟩ := H.get i o ho
    refine ⟨_, by simp only [specStep, show k.plain from hc, if_true, ho', Option.map_some]; rfl, ?_⟩
    exact H.app ⟨by simp [e1], rfl⟩
  case bin junk op i j =>
    obtain ⟨o, ho, e⟩ := Option.bind_eq_some_iff.mp hs
    obtain ⟨o2, ho2, e⟩ := Option.map_eq_some_iff.mp e
    cases e
    obtain ⟨o', ho', e1, e2⟩ := H.get i o ho
    obtain ⟨o2', ho2', e12, e22⟩ := H.get j o2 ho2
    refine ⟨_, by simp only [specStep, ho', ho2', Option.map_some, Option.bind_some]; rfl, ?_⟩
    exact H.app ⟨by simp [e1, e12], rfl⟩
  case query i w x =>
    obtain ⟨o, ho, e⟩ := Option.map_eq_some_iff.mp hs
    cases e
    obtain ⟨o', ho', e1, e2⟩ := H.get i o ho
    refine ⟨_, by simp only [specStep, ho', Option.map_some, e1, e2]; rfl, ?_⟩
    exact H.set i ⟨by simp [e1], by simp [e2]⟩
  case setOff i d =>
    obtain ⟨o, ho, e⟩ := Option.map_eq_some_iff.mp hs
    cases e
    obtain ⟨o', ho', e1, e2⟩ := H.get i o ho
    refine ⟨_, by simp only [specStep, ho', Option.map_some]; rfl, ?_⟩
    exact H.set i ⟨by simp [e1], rfl⟩
  case setConst i d =>
    obtain ⟨o, ho, e⟩ := Option.map_eq_some_iff.mp hs
    cases e
    obtain ⟨o', ho', e1, e2⟩ := H.get i o ho
    refine ⟨_, by simp only [specStep, ho', Option.map_some]; rfl, ?_⟩
    exact H.set i ⟨by simp [e1], by simp [e2]⟩
  all_goals
    obtain ⟨o, ho, e⟩ := Option.map_eq_some_iff.mp hs
    cases e
    obtain ⟨o', ho', e1, e2⟩ := H.get _ o ho
    refine ⟨_, by simp only [specStep, ho', Option.map_some]; rfl, ?_⟩
    exact H.app ⟨by simp [e1], by simp⟩

theorem Weak.refl (p : List SpecObj) : Weak p p := List.forall₂_same.mpr fun _ _ => ⟨rfl, rfl⟩

theorem Weak.trans {p q r : List SpecObj} (h1 : Weak p q) (h2 : Weak q r) : Weak p r := by
  induction h1 generalizing r with
  | nil => exact h2
  | cons a _ ih =>
    cases h2 with
    | cons b t => exact List.Forall₂.cons ⟨a.1.trans b.1, a.2.trans b.2⟩ (ih t)

theorem run_weak (cs : List Cmd) (hb : ∀ c ∈ cs, c.basic) {h p k q} (H : HRel h p) (K : HRel k q) (W : Weak p q)
    {h' outs} (hr : run h cs = some (h', outs)) : ∃ k', run k cs = some (k', outs) := by
  induction cs generalizing h p k q outs with
  | nil => cases hr; exact ⟨k, rfl⟩
  | cons c cs ih =>
    obtain ⟨⟨h1, o1⟩, s1, e⟩ := Option.bind_eq_some_iff.mp hr
    obtain ⟨⟨h2, o2⟩, s2, e⟩ := Option.map_eq_some_iff.mp e
    cases e
    have hc := hb c (by simp)
    obtain ⟨p1, o1', sp⟩ := specStep_complete H c hc s1
    obtain ⟨h1', s1', H1⟩ := step_refines H c _ _ sp
    rw [s1] at s1'
    cases s1'
    obtain ⟨q1, sq, W1⟩ := specStep_weak W c hc sp
    obtain ⟨k1, t1, K1⟩ := step_refines K c _ _ sq
    obtain ⟨k', t2⟩ := ih (fun d hd => hb d (by simp [hd])) H1 K1 W1 s2
    exact ⟨k', by simp [run, t1, t2]⟩

theorem list_set_self {l : List SpecObj} {i : ℕ} {q : SpecObj} (h : l[i]? = some q) : l.set i q = l := by
  apply List.ext_getElem?
  intro j
  by_cases e : i = j
  · subst e
    obtain ⟨hi, e⟩ := List.getElem?_eq_some_iff.mp h
    simp [hi, e]
  · simp [e]

/-- **C01**, stated without the specification machine: inserting a query anywhere in a (clamp-free) program never
changes any later answer. -/
theorem C01_queries_are_invisible (cs cs' : List Cmd) (hb : ∀ c ∈ cs, c.basic) (hb' : ∀ c ∈ cs', c.basic)
    (i : ℕ) (w : Which) (x : ℝ) (h1 h2 : List Obj) (o1 o2 : List FV)
    (r1 : run [] cs = some (h1, o1)) (r2 : run h1 cs' = some (h2, o2)) (hi : i < h1.length) :
    ∃ h1' a h2', step h1 (.query i w x) = some (h1', [a]) ∧ run h1' cs' = some (h2', o2) := by
  have key : ∀ (cs : List Cmd) (h : List Obj) (p : List SpecObj), (∀ c ∈ cs, c.basic) → HRel h p →
      ∀ h' o, run h cs = some (h', o) → ∃ p', HRel h' p' := by
    intro cs
    induction cs with
    | nil => intro h p _ H h' o e; cases e; exact ⟨p, H⟩
    | cons c cs ih =>
      intro h p hb H h' o hr
      obtain ⟨⟨g1, u1⟩, s1, e⟩ := Option.bind_eq_some_iff.mp hr
      obtain ⟨⟨g2, u2⟩, s2, e⟩ := Option.map_eq_some_iff.mp e
      cases e
      obtain ⟨p1, o1', sp⟩ := specStep_complete H c (hb c (by simp)) s1
      obtain ⟨h1', s1', H1⟩ := step_refines H c _ _ sp
      rw [s1] at s1'
      cases s1'
      exact ih _ _ (fun d hd => hb d (by simp [hd])) H1 _ _ s2
  obtain ⟨p1, H1⟩ := key cs [] [] hb List.Forall₂.nil h1 o1 r1
  obtain ⟨q, hq, hrel⟩ := H1.get' i h1[i] (by simp [hi])
  have hs : step h1 (.query i w x) = some (h1.set i (h1[i].query w x).1, [(h1[i].query w x).2]) := by
    simp [step, hi]
  have hK := H1.set i (hrel.query w x).1
  have W : Weak p1 (p1.set i { q with last := touch q.sh q.last (x - q.off) }) := by
    have := (Weak.refl p1).set i (o := q) (q := { q with last := touch q.sh q.last (x - q.off) }) ⟨rfl, rfl⟩
    rwa [list_set_self hq] at this
  obtain ⟨k', hk⟩ := run_weak cs' hb' H1 hK W r2
  exact ⟨_, _, k', hs, hk⟩

theorem run_append (cs : List Cmd) (c : Cmd) {h h1 h2 o1 o2} (r : run h cs = some (h1, o1))
    (s : step h1 c = some (h2, o2)) : run h (cs ++ [c]) = some (h2, o1 ++ o2) := by
  induction cs generalizing h o1 with
  | nil => cases r; simp [run, s]
  | cons d cs ih =>
    obtain ⟨⟨g1, u1⟩, s1, e⟩ := Option.bind_eq_some_iff.mp r
    obtain ⟨⟨g2, u2⟩, s2, e⟩ := Option.map_eq_some_iff.mp e
    cases e
    simp [run, s1, ih s2]

theorem specRun_append (cs : List Cmd) (c : Cmd) {h h1 h2 o1 o2} (r : specRun h cs = some (h1, o1))
    (s : specStep h1 c = some (h2, o2)) : specRun h (cs ++ [c]) = some (h2, o1 ++ o2) := by
  induction cs generalizing h o1 with
  | nil => cases r; simp [specRun, s]
  | cons d cs ih =>
    obtain ⟨⟨g1, u1⟩, s1, e⟩ := Option.bind_eq_some_iff.mp r
    obtain ⟨⟨g2, u2⟩, s2, e⟩ := Option.map_eq_some_iff.mp e
    cases e
    simp [specRun, s1, ih s2]

/-- A program used as non-vacuity witness: `f = cos(x)*x`, queried, offset, copied and queried again. -/
def demo : List Cmd := [.var Jet.bad, .query 0 .y 3, .un Jet.bad .cos 0, .bin Jet.bad .mul 1 0,
    .query 2 .dy 1, .setOff 2 5, .clone 2, .query 3 .ddy 1, .clamp (.clampAfter 2) 0]

/-- Non-vacuity of C01. -/
example : ∃ r, specRun [] demo = some r := by
  have hs : clampSafe (.clampAfter 2) 2 Sh.var (some (3 - 0 : ℝ)) := by
    intro a ha; cases ha; exact ⟨by norm_num, fun _ => trivial⟩
  have r1 := specRun_append [] (.var Jet.bad) (h := []) rfl rfl
  have r2 := specRun_append _ (.query 0 .y 3) r1 rfl
  have r3 := specRun_append _ (.un Jet.bad .cos 0) r2 (if_pos trivial)
  have r4 := specRun_append _ (.bin Jet.bad .mul 1 0) r3 rfl
  have r5 := specRun_append _ (.query 2 .dy 1) r4 rfl
  have r6 := specRun_append _ (.setOff 2 5) r5 rfl
  have r7 := specRun_append _ (.clone 2) r6 rfl
  have r8 := specRun_append _ (.query 3 .ddy 1) r7 rfl
  have r9 := specRun_append _ (.clamp (.clampAfter 2) 0) r8 (if_pos hs)
  exact ⟨_, r9⟩

/-- Non-vacuity of `C01_queries_are_invisible`. -/
example : ∃ h o h' o', run [] [.var Jet.bad, .un Jet.bad .cos 0] = some (h, o) ∧ 1 < h.length ∧
    run h [.bin Jet.bad .mul 1 0, .query 2 .y 1] = some (h', o') := ⟨_, _, _, _, rfl, by decide, rfl⟩

/-- A built object stays built when queried. -/
theorem Built.query {o : Obj} (ho : Built o) (w : Which) (x : ℝ) : Built (o.query w x).1 := by
  obtain ⟨cs, p, outs, h, h1, h2, hm⟩ := ho
  obtain ⟨h', e, H⟩ := run_refines cs (h := []) (p := []) List.Forall₂.nil p outs h1
  rw [h2] at e
  cases e
  obtain ⟨i, hi, e⟩ := List.getElem_of_mem hm
  have hg : h[i]? = some o := by rw [← e]; exact List.getElem?_eq_getElem hi
  obtain ⟨q, hq, r⟩ := H.get' i o hg
  have hsp : specStep p (.query i w x) = some (p.set i { q with last := touch q.sh q.last (x - q.off) },
      [(den q.sh (some (x - q.off))).get w]) := by simp only [specStep, hq, Option.map_some]
  obtain ⟨h', hs, _⟩ := step_refines H _ _ _ hsp
  refine ⟨cs ++ [.query i w x], _, _, _, specRun_append cs _ h1 hsp, run_append cs _ h2 hs, ?_⟩
  have : step h (.query i w x) = some (h.set i (o.query w x).1, [(o.query w x).2]) := by
    simp only [step, hg, Option.map_some]
  rw [this] at hs
  have e3 := (Prod.mk.inj (Option.some.inj hs)).1
  rw [← e3]
  exact List.mem_set hi _

theorem Built.hist {o : Obj} (ho : Built o) (l : List (Which × ℝ)) : Built (o.hist l) := by
  induction l generalizing o with
  | nil => exact ho
  | cons a l ih => exact ih (ho.query a.1 a.2)

/-! ## C02 -/

/-- **C02 (partial: expressions without `asinh`).** For every object a user can build, after any queries, at every point
of smoothness: `Get_y` is the value of the mathematical function, `Get_y_dx` its derivative and `Get_y_dxdx` its second
derivative (all three finite, and these derivatives exist). Missing from the full property: `asinh` (false, see
`C02_asinh_counterexample`) and the tanh ramp (false, see C09). -/
theorem C02_derivatives_partial (o : Obj) (ho : Built o) (hn : noAsinh o.1) (l : List (Which × ℝ)) (x : ℝ)
    (hx : Reg o.1 (x - o.off)) :
    let F : ℝ → ℝ := fun t => sem o.1 (t - o.off)
    o.ask l .y x = some (F x) ∧
    DifferentiableAt ℝ F x ∧ o.ask l .dy x = some (deriv F x) ∧
    DifferentiableAt ℝ (deriv F) x ∧ o.ask l .ddy x = some (deriv (deriv F) x) := by
  intro F
  obtain ⟨b, c, h1, h2⟩ := den_C2 hn hx
  have hsh : C2 (fun t : ℝ => t - o.off) x 1 0 := ((C2.ident x).sub (C2.cst o.off x)).cast (by simp) (by simp)
  have hF : C2 F x b c := (C2.comp (f := fun t : ℝ => t - o.off) (φ := sem o.1) h1 hsh).cast (by simp) (by simp)
  refine ⟨?_, hF.d1.differentiableAt, ?_, hF.d2.differentiableAt, ?_⟩
  · rw [ho.ask, h2]; rfl
  · rw [ho.ask, h2, hF.d1.deriv]; rfl
  · rw [ho.ask, h2, hF.d2.deriv]; rfl

/-- The value part holds wherever the mathematical value is defined, smooth or not. -/
theorem C02_value_partial (o : Obj) (ho : Built o) (hn : noAsinh o.1) (l : List (Which × ℝ)) (x : ℝ)
    (hx : Dom o.1 (x - o.off)) : o.ask l .y x = some (sem o.1 (x - o.off)) := by
  rw [ho.ask]; exact den_y hn hx

theorem Built.of_run (cs : List Cmd) (p outs) (h : specRun [] cs = some (p, outs)) (i : ℕ) (q : SpecObj)
    (hq : p[i]? = some q) : ∃ o, Built o ∧ o.1 = q.sh ∧ o.off = q.off := by
  obtain ⟨h', e, H⟩ := run_refines cs (h := []) (p := []) List.Forall₂.nil p outs h
  obtain ⟨o, ho, r⟩ := H.get i q hq
  exact ⟨o, ⟨cs, p, outs, h', h, e, List.mem_of_getElem? ho⟩, r.sh, r.off⟩

/-- The variable `x`. -/
theorem built_var (junk : Jet) : Built (.var junk) :=
  ⟨[.var junk], _, _, _, rfl, rfl, by simp⟩

theorem built_un_var (junk : Jet) (k : UKind) (hk : k.plain) : Built (.un junk k (.var junk)) :=
  ⟨[.var junk, .un junk k 0], [⟨.var, 0, none⟩, ⟨.un k .var, 0, none⟩], [], [.var junk, .un junk k (.var junk)],
    by simp [specRun, specStep, hk], by simp [run, step], by simp⟩

/-- Non-vacuity of `C02_derivatives_partial`: `tanh(cos(x)/x)` clamped after 7, at `x = 2`. -/
example : ∃ o, Built o ∧ noAsinh o.1 ∧ Reg o.1 (2 - o.off) ∧ ∃ f, o.1 = .un (.clampAfter 7) f := by
  obtain ⟨o, h1, h2, h3⟩ := Built.of_run [.var Jet.bad, .un Jet.bad .cos 0, .bin Jet.bad .div 1 0, .un Jet.bad .tanh 2,
      .clamp (.clampAfter 7) 3] [⟨.var, 0, none⟩, ⟨.un .cos .var, 0, none⟩, ⟨.bin .div (.un .cos .var) .var, 0, none⟩,
      ⟨.un .tanh (.bin .div (.un .cos .var) .var), 0, none⟩,
      ⟨.un (.clampAfter 7) (.un .tanh (.bin .div (.un .cos .var) .var)), 0, none⟩] []
      (by simp [specRun, specStep, UKind.plain, UKind.clampAt, clampSafe]) 4 _ rfl
  refine ⟨o, h1, ?_, ?_, ⟨_, h2⟩⟩
  · rw [h2]; simp [noAsinh]
  · rw [h2, h3]
    simp only [Reg, regU, sem]
    left
    norm_num

/-- `asinh` is wrong: `asinh(x)` at `x = 0` is not `arsinh 0 = 0` (the code calls `acosh`, NaN at 0), although its
reported derivative is the derivative of `arsinh`. -/
theorem C02_asinh_counterexample (junk : Jet) :
    let o := Obj.un junk .asinh (.var junk)
    Built o ∧ o.ask [] .y 0 = none ∧ o.ask [] .dy 0 = some 1 ∧
      o.ask [] .y 1 = some 0 ∧ Real.arsinh 1 ≠ 0 := by
  have hb : Built (.un junk .asinh (.var junk)) := built_un_var junk .asinh trivial
  refine ⟨hb, ?_, ?_, ?_, ?_⟩
  · rw [hb.ask]
    show (uJet .asinh (den .var (some (0 - 0)))).y = none
    simp [uJet, den, facosh, partial1]
  · rw [hb.ask]
    show (uJet .asinh (den .var (some (0 - 0)))).dy = some 1
    simp [uJet, den, fmul, fadd, fdiv, fsqrt, partial1, lift2]
  · rw [hb.ask]
    show (uJet .asinh (den .var (some (1 - 0)))).y = some 0
    simp [uJet, den, facosh, partial1]
  · simp

/-- The identity written as a power, `pow(x,1)`, reports a non-finite second derivative at 0 although its true second
derivative is 0 (`0 * pow(0,-1)`); the same happens to the linear term of a polynomial. -/
theorem C02_pow_one_at_zero_counterexample (junk : Jet) :
    let o := Obj.un junk (.pow 1) (.var junk)
    Built o ∧ o.ask [] .y 0 = some 0 ∧ o.ask [] .dy 0 = some 1 ∧ o.ask [] .ddy 0 = none := by
  have hb : Built (.un junk (.pow 1) (.var junk)) := built_un_var junk (.pow 1) trivial
  have e1 : (1 : ℝ) - 2 ≠ 0 := by norm_num
  have e2 : ¬ (0 : ℝ) < 1 - 2 := by norm_num
  refine ⟨hb, ?_, ?_, ?_⟩
  · rw [hb.ask]
    show (uJet (.pow 1) (den .var (some (0 - 0)))).y = some 0
    simp [uJet, den, fpow, rpowC]
  · rw [hb.ask]
    show (uJet (.pow 1) (den .var (some (0 - 0)))).dy = some 1
    simp [uJet, den, fpow, rpowC, fmul, lift2]
  · rw [hb.ask]
    show (uJet (.pow 1) (den .var (some (0 - 0)))).ddy = none
    simp [uJet, den, fpow, rpowC, fmul, fadd, lift2, e1, e2]

/-! ## C03 -/

theorem ask_bin {o p q r} (ho : Rel o q) (hp : Rel p r) (junk : Jet) (op : BKind) (l : List (Which × ℝ)) (w : Which)
    (x : ℝ) : (Obj.bin junk op o p).ask l w x = (den (.bin op o.1 p.1) (some x)).get w := by
  rw [(ho.bin hp junk op).ask, ho.sh, hp.sh]; simp

/-- **C03.** Operators act pointwise. For built operands without x-offset, with any query histories `l`, `m`, `n` on the
result and on the operands: the value of `f+g`, `f-g`, `f*g`, `f/g`, `f<<g`, `-f`, `+f` at `x` is the sum, difference,
product, quotient (non-finite for a zero divisor), composition, negation, identity of the operands' answers. -/
theorem C03_operators_pointwise (o p : Obj) (ho : Built o) (hp : Built p) (oo : o.off = 0) (po : p.off = 0)
    (junk : Jet) (l m n : List (Which × ℝ)) (x : ℝ) :
    (Obj.bin junk .add o p).ask l .y x = o.ask m .y x +ₒ p.ask n .y x ∧
    (Obj.bin junk .sub o p).ask l .y x = o.ask m .y x -ₒ p.ask n .y x ∧
    (Obj.bin junk .mul o p).ask l .y x = o.ask m .y x *ₒ p.ask n .y x ∧
    (Obj.bin junk .div o p).ask l .y x = o.ask m .y x /ₒ p.ask n .y x ∧
    (∀ v, p.ask n .y x = some v → (Obj.bin junk .comp o p).ask l .y x = o.ask m .y v) ∧
    (Obj.un junk .neg o).ask l .y x = fneg (o.ask m .y x) ∧
    (Obj.un junk .plus o).ask l .y x = o.ask m .y x := by
  have e1 := fun w x => ho.ask m w x
  have e2 := fun w x => hp.ask n w x
  rw [oo] at e1
  rw [po] at e2
  simp only [sub_zero] at e1 e2
  obtain ⟨q, hq⟩ := ho.rel
  obtain ⟨r, hr⟩ := hp.rel
  have hu : ∀ k : UKind, k.plain → (Obj.un junk k o).ask l .y x = (uJet k (den o.1 (some x))).y := by
    intro k hk
    rw [(hq.un junk k).ask, hq.sh]
    simp only [sub_zero, den_un_plain hk]
    rfl
  refine ⟨?_, ?_, ?_, ?_, ?_, ?_, ?_⟩
  · rw [ask_bin hq hr, e1, e2]; rfl
  · rw [ask_bin hq hr, e1, e2]; rfl
  · rw [ask_bin hq hr, e1, e2]; rfl
  · rw [ask_bin hq hr, e1, e2]; rfl
  · intro v hv
    rw [e2] at hv
    have hv' : (den p.1 (some x)).y = some v := hv
    rw [ask_bin hq hr, e1]
    simp only [den, hv']
    rfl
  · rw [hu .neg trivial, e1]; rfl
  · rw [hu .plus trivial, e1]; rfl

/-- **C03**, scalar variants: `f op alpha` and `alpha op f` are the binary operators applied to the constant function,
which answers `alpha` everywhere. -/
theorem C03_constant (alpha : ℝ) (l : List (Which × ℝ)) (x : ℝ) :
    (Obj.const alpha).ask l .y x = some alpha ∧ (Obj.const alpha).ask l .dy x = some 0 ∧
      (Obj.const alpha).ask l .ddy x = some 0 := by
  refine ⟨?_, ?_, ?_⟩ <;> · rw [(Rel.const alpha).ask]; rfl

/-- An operand's x-offset is lost by the operators: with `g = x` shifted by 1, `g + 0` is not `g`. -/
theorem C03_offset_counterexample (junk : Jet) :
    let g := (Obj.var junk).setOff 1
    g.ask [] .y 0 = some (-1) ∧ (Obj.bin junk .add g (.const 0)).ask [] .y 0 = some 0 := by
  intro g
  have hg : Rel g _ := (Rel.var junk).setOff 1
  constructor
  · rw [hg.ask]; simp [den, Jet.get]
  · rw [(hg.bin (Rel.const 0) junk .add).ask]; simp [den, Jet.get, bJet, fadd, lift2]

/-- Non-vacuity of C03: `cos(x)` and `x` are built and have no offset. -/
example : Built (.un Jet.bad .cos (.var Jet.bad)) ∧ (Obj.un Jet.bad .cos (.var Jet.bad)).off = 0 ∧
    Built (.var Jet.bad) ∧ (Obj.var Jet.bad).off = 0 :=
  ⟨built_un_var _ _ trivial, rfl, built_var _, rfl⟩

/-! ## C04 -/

/-- **C04.** A copy answers like the original *without its x-offset*: for every built object, all histories, all `x`. -/
theorem C04_clone_forgets_offset (o : Obj) (ho : Built o) (l m : List (Which × ℝ)) (w : Which) (x : ℝ) :
    o.clone.ask l w x = o.ask m w (x + o.off) := by
  obtain ⟨q, hq⟩ := ho.rel
  rw [hq.clone.ask, hq.ask, Obj.off, hq.off]
  simp

/-- **C04 (partial: objects without offset).** A copy answers exactly like the original. -/
theorem C04_clone_same_partial (o : Obj) (ho : Built o) (h0 : o.off = 0) (l m : List (Which × ℝ)) (w : Which) (x : ℝ) :
    o.clone.ask l w x = o.ask m w x := by
  rw [C04_clone_forgets_offset o ho l m, h0, add_zero]

/-- The full C04 is false: a shifted variable and its copy differ. -/
theorem C04_offset_counterexample : ∃ o, Built o ∧ o.clone.ask [] .y 0 ≠ o.ask [] .y 0 := by
  refine ⟨(Obj.var Jet.bad).setOff 1, ⟨[.var Jet.bad, .setOff 0 1], [⟨.var, 1, none⟩], [], [(Obj.var Jet.bad).setOff 1],
    by simp [specRun, specStep], by simp [run, step], by simp⟩, ?_⟩
  rw [((Rel.var Jet.bad).setOff 1).clone.ask, ((Rel.var Jet.bad).setOff 1).ask]
  simp [den, Jet.get]

/-! ## C05 -/

/-- **C05 (partial: clamps built safely).** `clamp_after(f,c)`: equal to `f` before `c`, constant `f(c)` with zero
derivatives from `c` on, for all later histories. `clampSafe` on the operand's last evaluation is what is missing from the
full property; a freshly built or never evaluated operand is always safe. (`f` is asked with its own offset removed.) -/
theorem C05_clamp_after_partial (o : Obj) (ho : Built o) (c : ℝ)
    (hs : clampSafe (.clampAfter c) c o.1 (base o.1 o.2).cx) (l m : List (Which × ℝ)) (w : Which) (x : ℝ) :
    (x < c → (Obj.clampd (.clampAfter c) o).ask l w x = o.ask m w (x + o.off)) ∧
    (c ≤ x → (Obj.clampd (.clampAfter c) o).ask l .y x = o.ask m .y (c + o.off) ∧
      (Obj.clampd (.clampAfter c) o).ask l .dy x = some 0 ∧ (Obj.clampd (.clampAfter c) o).ask l .ddy x = some 0) := by
  obtain ⟨q, hq⟩ := ho.rel
  have hr : Rel (Obj.clampd (.clampAfter c) o) ⟨.un (.clampAfter c) q.sh, 0, q.last⟩ :=
    hq.clampd _ c rfl (by rw [← hq.sh, ← hq.last]; exact hs)
  simp only [hr.ask, hq.ask, Obj.off, hq.off]
  constructor
  · intro hx; simp [den, not_le.mpr hx]
  · intro hx; simp [den, hx, Jet.get]

/-- **C05 (partial)**, `clamp_before`. -/
theorem C05_clamp_before_partial (o : Obj) (ho : Built o) (c : ℝ)
    (hs : clampSafe (.clampBefore c) c o.1 (base o.1 o.2).cx) (l m : List (Which × ℝ)) (w : Which) (x : ℝ) :
    (c < x → (Obj.clampd (.clampBefore c) o).ask l w x = o.ask m w (x + o.off)) ∧
    (x ≤ c → (Obj.clampd (.clampBefore c) o).ask l .y x = o.ask m .y (c + o.off) ∧
      (Obj.clampd (.clampBefore c) o).ask l .dy x = some 0 ∧ (Obj.clampd (.clampBefore c) o).ask l .ddy x = some 0) := by
  obtain ⟨q, hq⟩ := ho.rel
  have hr : Rel (Obj.clampd (.clampBefore c) o) ⟨.un (.clampBefore c) q.sh, 0, q.last⟩ :=
    hq.clampd _ c rfl (by rw [← hq.sh, ← hq.last]; exact hs)
  simp only [hr.ask, hq.ask, Obj.off, hq.off]
  constructor
  · intro hx; simp [den, not_le.mpr hx]
  · intro hx; simp [den, hx, Jet.get]

/-- Non-vacuity: the variable evaluated at 3 may be clamped after 2. -/
example : ∃ o, Built o ∧ (base o.1 o.2).cx = some 3 ∧ clampSafe (.clampAfter 2) 2 o.1 (base o.1 o.2).cx := by
  have e : (base _ ((Obj.var Jet.bad).query .y 3).1.2).cx = some 3 := by
    show some ((3 : ℝ) - 0) = some 3
    rw [sub_zero]
  refine ⟨((Obj.var Jet.bad).query .y 3).1, (built_var _).query .y 3, e, ?_⟩
  intro a ha
  rw [e] at ha
  cases ha
  exact ⟨by norm_num, fun _ => trivial⟩

/-- The full C05 is false: evaluate `x` at 1, then clamp it after 1; the clamped function reports slope 1 at 2. -/
theorem C05_clamp_history_counterexample :
    let o := ((Obj.var Jet.bad).query .y 1).1
    Built o ∧ (Obj.clampd (.clampAfter 1) o).ask [] .dy 2 = some 1 ∧
      (Obj.clampd (.clampAfter 1) (.var Jet.bad)).ask [] .dy 2 = some 0 := by
  refine ⟨(built_var _).query .y 1, ?_, ?_⟩
  · simp [Obj.ask, Obj.hist, Obj.clampd, mkClamp, Obj.query, Func.query, eval, evalU, evalClamped, base, Obj.var, mkVar,
      fresh, Jet.get]
  · rw [((Rel.var Jet.bad).clampd (.clampAfter 1) 1 rfl (clampSafe_none _ _ _)).ask]
    simp [den, Jet.get]

/-- A second way to break it: `x` evaluated at 5, clamped after 3, then clamped before 4: at 5 the result is 5, not 3. -/
theorem C05_nested_clamp_counterexample :
    let x5 := ((Obj.var Jet.bad).query .y 5).1
    let f := Obj.clampd (.clampAfter 3) x5
    f.ask [] .y 5 = some 3 ∧ (Obj.clampd (.clampBefore 4) f).ask [] .y 5 = some 5 := by
  have h2 : (3 : ℝ) ≤ 5 := by norm_num
  have h3 : ¬ (5 : ℝ) ≤ 4 := by norm_num
  constructor
  · simp [Obj.ask, Obj.hist, Obj.clampd, mkClamp, Obj.query, Func.query, eval, evalU, evalClamped, base, Obj.var, mkVar,
      fresh, Jet.get, clone, get1, h2]
  · simp [Obj.ask, Obj.hist, Obj.clampd, mkClamp, Obj.query, Func.query, eval, evalU, evalUn, base, Obj.var, mkVar,
      fresh, Jet.get, h3]

end Frydom.Func
