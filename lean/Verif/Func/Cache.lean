import Verif.Func.Spec

/-! # Cache invariant of the function objects (helper lemmas for C01, C03, C04, C05, C07) -/

open Classical

noncomputable section

namespace Frydom.Func

/-- The cache invariant. -/
def Good : (s : Sh) → St s → Prop
  | .var, b => ∀ a, Base.cx b = some a → Base.jet b = ⟨some a, some 1, some 0⟩
  | .const v, b => Base.jet b = ⟨some v, some 0, some 0⟩ ∧ Base.cx b = none
  | .un k f, st => Good f st.2 ∧ (base f st.2).off = 0 ∧
      ∀ a, st.1.cx = some a → k.consults a → st.1.jet = den (.un k f) (some a)
  | .bin op f g, st => Good f st.2.1 ∧ (base f st.2.1).off = 0 ∧ Good g st.2.2 ∧ (base g st.2.2).off = 0 ∧
      ∀ a, st.1.cx = some a → st.1.jet = den (.bin op f g) (some a)

@[simp] theorem fsub_zero (x : FV) : x -ₒ some 0 = x := by
  cases x <;> simp [fsub, lift2]

/-- What one evaluation does to a good object. -/
def EvalSpec (s : Sh) : Prop :=
  ∀ st x, Good s st → Good s (eval s st x) ∧ (base s (eval s st x)).off = (base s st).off ∧
    (base s (eval s st x)).jet = den s x

theorem get3_spec {s : Sh} (h : EvalSpec s) (st : St s) (x : FV) (hg : Good s st) :
    Good s (get3 s (eval s) st x).1 ∧ (base s (get3 s (eval s) st x).1).off = (base s st).off ∧
      (get3 s (eval s) st x).2 = den s (x -ₒ some (base s st).off) := by
  unfold get3
  set o := (base s st).off with ho
  obtain ⟨g1, o1, j1⟩ := h st (x -ₒ some o) hg
  set s1 := eval s st (x -ₒ some o)
  have o1' : (base s s1).off = o := by rw [o1]
  obtain ⟨g2, o2, j2⟩ := h s1 (x -ₒ some o) g1
  set s2 := eval s s1 (x -ₒ some o) with hs2
  have o2' : (base s s2).off = o := by rw [o2, o1']
  obtain ⟨g3, o3, j3⟩ := h s2 (x -ₒ some o) g2
  simp only [o1', ← hs2, o2']
  refine ⟨g3, by rw [o3, o2'], ?_⟩
  rw [j1, j2, j3]

theorem get1_spec {s : Sh} (h : EvalSpec s) (st : St s) (x : FV) (hg : Good s st) :
    Good s (get1 s (eval s) st x).1 ∧ (base s (get1 s (eval s) st x).1).off = (base s st).off ∧
      (get1 s (eval s) st x).2 = (den s (x -ₒ some (base s st).off)).y := by
  unfold get1
  obtain ⟨g1, o1, j1⟩ := h st (x -ₒ some (base s st).off) hg
  exact ⟨g1, o1, congrArg Jet.y j1⟩

theorem den_un_plain {k : UKind} (hk : k.plain) (f : Sh) (a : ℝ) :
    den (.un k f) (some a) = uJet k (den f (some a)) := by
  cases k <;> simp_all [den, UKind.plain]

theorem evalUn_spec {k : UKind} {f : Sh} (h : EvalSpec f) (st : Base × St f) (x : FV)
    (hd : ∀ a, x = some a → den (.un k f) (some a) = uJet k (den f (some a)))
    (hr : ∀ a, x = some a → k.consults a)
    (hg : Good (.un k f) st) :
    Good (.un k f) (evalUn k f (eval f) st x) ∧ (evalUn k f (eval f) st x).1.off = st.1.off ∧
      (evalUn k f (eval f) st x).1.jet = den (.un k f) x := by
  obtain ⟨gf, of, hc⟩ := hg
  unfold evalUn
  match x with
  | none => exact ⟨⟨gf, of, by simp⟩, rfl, by simp [den]⟩
  | some a =>
    by_cases hcx : st.1.cx = some a
    · simp only [hcx, if_true]
      exact ⟨⟨gf, of, hc⟩, by simp, hc a hcx (hr a rfl)⟩
    · simp only [hcx, if_false]
      obtain ⟨g1, o1, j1⟩ := get3_spec h st.2 (some a) gf
      rw [of] at o1 j1
      rw [fsub_zero] at j1
      refine ⟨⟨g1, o1, ?_⟩, by simp, ?_⟩
      · intro b hb _
        simp only [Option.some.injEq] at hb
        subst hb
        simp only [j1, hd a rfl]
      · simp only [j1, hd a rfl]

theorem evalClamped_spec {k : UKind} {c : ℝ} {f : Sh} (h : EvalSpec f) (st : Base × St f)
    (hd : den (.un k f) (some c) = ⟨(den f (some c)).y, some 0, some 0⟩)
    (hr : k.consults c)
    (hg : Good (.un k f) st) :
    Good (.un k f) (evalClamped c f (eval f) st) ∧ (evalClamped c f (eval f) st).1.off = st.1.off ∧
      (evalClamped c f (eval f) st).1.jet = den (.un k f) (some c) := by
  obtain ⟨gf, of, hc⟩ := hg
  unfold evalClamped
  by_cases hcx : st.1.cx = some c
  · simp only [hcx, if_true]
    exact ⟨⟨gf, of, hc⟩, by simp, hc c hcx hr⟩
  · simp only [hcx, if_false]
    obtain ⟨g1, o1, j1⟩ := get1_spec h st.2 (some c) gf
    rw [of] at o1 j1
    rw [fsub_zero] at j1
    refine ⟨⟨g1, o1, ?_⟩, by simp, ?_⟩
    · intro b hb _
      simp only [Option.some.injEq] at hb
      subst hb
      simp only [j1, hd]
    · simp only [j1, hd]

theorem evalU_spec {k : UKind} {f : Sh} (ih : EvalSpec f) (st : Base × St f) (x : FV)
    (hg : Good (.un k f) st) :
    Good (.un k f) (evalU k f (eval f) st x) ∧ (evalU k f (eval f) st x).1.off = st.1.off ∧
      (evalU k f (eval f) st x).1.jet = den (.un k f) x := by
  cases x with
  | none => exact evalUn_spec ih st none (by simp) (by simp) hg
  | some a =>
    by_cases hk : k.plain
    · have e : evalU k f (eval f) st (some a) = evalUn k f (eval f) st (some a) := by
        cases k <;> first | rfl | exact absurd hk (by simp [UKind.plain])
      rw [e]
      refine evalUn_spec ih st (some a) (fun b _ => den_un_plain hk f b) ?_ hg
      intro b _; cases k <;> simp_all [UKind.consults, UKind.plain]
    · cases k <;> try (exact absurd trivial hk)
      case clampAfter c =>
        by_cases hca : c ≤ a
        · have e : evalU (.clampAfter c) f (eval f) st (some a) = evalClamped c f (eval f) st := by
            simp only [evalU, hca, if_true]
          have e2 : den (.un (.clampAfter c) f) (some a) = den (.un (.clampAfter c) f) (some c) := by
            simp [den, hca]
          rw [e, e2]
          exact evalClamped_spec ih st (by simp [den]) (le_refl c) hg
        · have e : evalU (.clampAfter c) f (eval f) st (some a) =
              evalUn (.clampAfter c) f (eval f) st (some a) := by
            simp only [evalU, hca, if_false]
          rw [e]
          refine evalUn_spec ih st (some a) ?_ ?_ hg
          · intro b hb; simp only [Option.some.injEq] at hb; subst hb; simp [den, hca, uJet]
          · intro b hb; simp only [Option.some.injEq] at hb; subst hb; exact (not_le.mp hca).le
      case clampBefore c =>
        by_cases hca : a ≤ c
        · have e : evalU (.clampBefore c) f (eval f) st (some a) = evalClamped c f (eval f) st := by
            simp only [evalU, hca, if_true]
          have e2 : den (.un (.clampBefore c) f) (some a) = den (.un (.clampBefore c) f) (some c) := by
            simp [den, hca]
          rw [e, e2]
          exact evalClamped_spec ih st (by simp [den]) (le_refl c) hg
        · have e : evalU (.clampBefore c) f (eval f) st (some a) =
              evalUn (.clampBefore c) f (eval f) st (some a) := by
            simp only [evalU, hca, if_false]
          rw [e]
          refine evalUn_spec ih st (some a) ?_ ?_ hg
          · intro b hb; simp only [Option.some.injEq] at hb; subst hb; simp [den, hca, uJet]
          · intro b hb; simp only [Option.some.injEq] at hb; subst hb; exact (not_le.mp hca).le

theorem evalB_spec {op : BKind} {f g : Sh} (ihf : EvalSpec f) (ihg : EvalSpec g) (st : Base × St f × St g) (x : FV)
    (hg : Good (.bin op f g) st) :
    Good (.bin op f g) (evalB op f g (eval f) (eval g) st x) ∧
      (evalB op f g (eval f) (eval g) st x).1.off = st.1.off ∧
      (evalB op f g (eval f) (eval g) st x).1.jet = den (.bin op f g) x := by
  obtain ⟨gf, of, gg, og, hc⟩ := hg
  cases x with
  | none => exact ⟨⟨gf, of, gg, og, by simp [evalB]⟩, rfl, by simp [evalB, den]⟩
  | some a =>
    by_cases hcx : st.1.cx = some a
    · have e : evalB op f g (eval f) (eval g) st (some a) = st := by simp only [evalB, hcx, if_true]
      rw [e]
      exact ⟨⟨gf, of, gg, og, hc⟩, rfl, hc a hcx⟩
    · obtain ⟨g2, o2, j2⟩ := get3_spec ihg st.2.2 (some a) gg
      rw [og] at o2 j2
      rw [fsub_zero] at j2
      by_cases hop : op = .comp
      · subst hop
        obtain ⟨g1, o1, j1⟩ := get3_spec ihf st.2.1 (get3 g (eval g) st.2.2 (some a)).2.y gf
        rw [of] at o1 j1
        rw [fsub_zero] at j1
        simp only [evalB, hcx, if_false]
        refine ⟨⟨g1, o1, g2, o2, ?_⟩, trivial, ?_⟩
        · intro b hb
          simp only [Option.some.injEq] at hb
          subst hb
          simp only [j1, den]
          rw [j2]
        · simp only [j1, den]
          rw [j2]
      · obtain ⟨g1, o1, j1⟩ := get3_spec ihf st.2.1 (some a) gf
        rw [of] at o1 j1
        rw [fsub_zero] at j1
        cases op <;> try (exact absurd rfl hop)
        all_goals
          simp only [evalB, hcx, if_false]
          refine ⟨⟨g1, o1, g2, o2, ?_⟩, trivial, ?_⟩
          · intro b hb
            simp only [Option.some.injEq] at hb
            subst hb
            simp only [j1, den, j2]
          · simp only [j1, den, j2]

/-- Every evaluation of a good object yields the prescribed results and leaves it good. -/
theorem eval_spec : ∀ s, EvalSpec s := by
  intro s
  induction s with
  | var =>
    intro st x _
    refine ⟨?_, rfl, by simp [den]; rfl⟩
    intro a ha
    have : x = some a := ha
    subst this
    rfl
  | const v => intro st x h; exact ⟨h, rfl, h.1⟩
  | un k f ih => intro st x hg; exact evalU_spec ih st x hg
  | bin op f g ihf ihg => intro st x hg; exact evalB_spec ihf ihg st x hg

theorem base_clone (s : Sh) (st : St s) :
    base s (clone s st) = { base s st with off := 0 } := by
  cases s <;> rfl

theorem clone_good : ∀ (s : Sh) (st : St s), Good s st → Good s (clone s st) := by
  intro s
  induction s with
  | var => intro st h; exact h
  | const v => intro st h; exact h
  | un k f ih => intro st h; exact ⟨ih _ h.1, by simp [clone, base_clone], h.2.2⟩
  | bin op f g ihf ihg =>
    intro st h
    exact ⟨ihf _ h.1, by simp [clone, base_clone], ihg _ h.2.2.1, by simp [clone, base_clone], h.2.2.2.2⟩

theorem setBase_off_good (s : Sh) (st : St s) (d : ℝ) (h : Good s st) :
    Good s (setBase s st { base s st with off := d }) := by
  cases s <;> exact h

theorem base_setBase (s : Sh) (st : St s) (b : Base) : base s (setBase s st b) = b := by
  cases s <;> rfl

theorem mkUn_good (junk : Jet) (k : UKind) (f : Sh) (sf : St f) (h : Good f sf) :
    Good (.un k f) (mkUn junk k f sf) :=
  ⟨clone_good f sf h, by simp [mkUn, base_clone], by simp [mkUn, fresh]⟩

theorem mkBin_good (junk : Jet) (op : BKind) (f g : Sh) (sf : St f) (sg : St g) (hf : Good f sf) (hg : Good g sg) :
    Good (.bin op f g) (mkBin junk op f g sf sg) :=
  ⟨clone_good f sf hf, by simp [mkBin, base_clone], clone_good g sg hg, by simp [mkBin, base_clone],
    by simp [mkBin, fresh]⟩

/-- The cache of a good object holds the prescribed results, except on the dead side of a clamp. -/
theorem cached_ok (s : Sh) (st : St s) (a : ℝ) (h : Good s st) (hc : (base s st).cx = some a)
    (hr : s.holds a) : (base s st).jet = den s (some a) := by
  cases s with
  | var => exact h a hc
  | const v => exact h.1
  | un k f => exact h.2.2 a hc hr
  | bin op f g => exact h.2.2.2.2 a hc

theorem mkClamp_good (k : UKind) (c : ℝ) (hk : k.clampAt = some c) (f : Sh) (sf : St f) (h : Good f sf)
    (hs : clampSafe k c f (base f sf).cx) : Good (.un k f) (mkClamp k f sf) := by
  refine ⟨clone_good f sf h, by simp [mkClamp, base_clone], ?_⟩
  intro a ha hr
  have ha' : (base f sf).cx = some a := ha
  obtain ⟨hne, hh⟩ := hs a ha'
  have hj : (base f sf).jet = den f (some a) := cached_ok f sf a h ha' (hh hr)
  show (base f sf).jet = _
  rw [hj]
  cases k <;> simp only [UKind.clampAt, Option.some.injEq, reduceCtorEq] at hk
  · subst hk
    have : ¬ _ ≤ a := not_le.mpr (lt_of_le_of_ne hr hne)
    simp [den, this]
  · subst hk
    have : ¬ a ≤ _ := not_le.mpr (lt_of_le_of_ne hr (Ne.symm hne))
    simp [den, this]

theorem evalUn_cx (k : UKind) (f : Sh) (ev : St f → FV → St f) (st : Base × St f) (a : ℝ) :
    (evalUn k f ev st (some a)).1.cx = some a := by
  unfold evalUn
  by_cases h : st.1.cx = some a <;> simp [h]

theorem evalClamped_cx (c : ℝ) (f : Sh) (ev : St f → FV → St f) (st : Base × St f) :
    (evalClamped c f ev st).1.cx = some c := by
  unfold evalClamped
  by_cases h : st.1.cx = some c <;> simp [h]

theorem evalU_cx (k : UKind) (f : Sh) (ev : St f → FV → St f) (st : Base × St f) (l : Option ℝ) (a : ℝ) :
    (evalU k f ev st (some a)).1.cx = touch (.un k f) l a := by
  cases k
  case clampAfter c =>
    simp only [touch, evalU]
    by_cases hca : c ≤ a <;> simp [hca, evalClamped_cx, evalUn_cx]
  case clampBefore c =>
    simp only [touch, evalU]
    by_cases hca : a ≤ c <;> simp [hca, evalClamped_cx, evalUn_cx]
  all_goals exact evalUn_cx _ f ev st a

theorem eval_cx (s : Sh) (st : St s) (a : ℝ) :
    (base s (eval s st (some a))).cx = touch s (base s st).cx a := by
  cases s with
  | var => rfl
  | const v => rfl
  | un k f =>
    exact evalU_cx k f (eval f) st (base (.un k f) st).cx a
  | bin op f g =>
    obtain ⟨b, s1, s2⟩ := st
    show (evalB op f g (eval f) (eval g) (b, s1, s2) (some a)).1.cx = some a
    unfold evalB
    by_cases h : b.cx = some a
    · simp [h]
    · cases op <;> simp [h]

/-! ## The concrete machine refines the abstract one -/

/-- Correspondence between a concrete and an abstract object. -/
structure Rel (o : Obj) (p : SpecObj) : Prop where
  sh : o.1 = p.sh
  good : Good o.1 o.2
  off : (base o.1 o.2).off = p.off
  last : (base o.1 o.2).cx = p.last

theorem Rel.var (junk : Jet) : Rel (.var junk) ⟨.var, 0, none⟩ :=
  ⟨rfl, fun a ha => (Option.some_ne_none a ha.symm).elim, rfl, rfl⟩

theorem Rel.const (v : ℝ) : Rel (.const v) ⟨.const v, 0, none⟩ :=
  ⟨rfl, ⟨rfl, rfl⟩, rfl, rfl⟩

theorem Rel.un {o p} (h : Rel o p) (junk : Jet) (k : UKind) : Rel (.un junk k o) ⟨.un k p.sh, 0, none⟩ :=
  ⟨by simp [Obj.un, h.sh], mkUn_good junk k _ _ h.good, rfl, rfl⟩

theorem Rel.bin {o p o' p'} (h : Rel o p) (h' : Rel o' p') (junk : Jet) (op : BKind) :
    Rel (.bin junk op o o') ⟨.bin op p.sh p'.sh, 0, none⟩ :=
  ⟨by simp [Obj.bin, h.sh, h'.sh], mkBin_good junk op _ _ _ _ h.good h'.good, rfl, rfl⟩

theorem Rel.clampd {o p} (h : Rel o p) (k : UKind) (c : ℝ) (hk : k.clampAt = some c)
    (hs : clampSafe k c p.sh p.last) : Rel (.clampd k o) ⟨.un k p.sh, 0, p.last⟩ := by
  refine ⟨by simp [Obj.clampd, h.sh], ?_, rfl, h.last⟩
  refine mkClamp_good k c hk _ _ h.good ?_
  rw [h.last, h.sh]; exact hs

theorem Rel.clone {o p} (h : Rel o p) : Rel o.clone ⟨p.sh, 0, p.last⟩ := by
  refine ⟨h.sh, clone_good _ _ h.good, ?_, ?_⟩
  · simp [Obj.clone, base_clone]
  · simp only [Obj.clone, base_clone]; exact h.last

theorem Rel.setOff {o p} (h : Rel o p) (d : ℝ) : Rel (o.setOff d) { p with off := d } := by
  refine ⟨h.sh, setBase_off_good _ _ d h.good, ?_, ?_⟩
  · simp [Obj.setOff, base_setBase]
  · simp only [Obj.setOff, base_setBase]; exact h.last

theorem Rel.setConst {o p} (h : Rel o p) (v : ℝ) : Rel (o.setConst v) { p with sh := p.sh.setConst v } := by
  obtain ⟨hs, hg, ho, hl⟩ := h
  rcases o with ⟨s, st⟩
  rcases p with ⟨s', off, last⟩
  simp only at hs ho hl
  subst hs
  cases s with
  | const w =>
    refine ⟨rfl, ⟨?_, hg.2⟩, ho, hl⟩
    have h1 : Base.jet st = ⟨some w, some 0, some 0⟩ := hg.1
    have h2 : (Base.jet st).dy = some 0 := by rw [h1]
    have h3 : (Base.jet st).ddy = some 0 := by rw [h1]
    show Jet.mk (some v) (Base.jet st).dy (Base.jet st).ddy = _
    rw [h2, h3]
  | var => exact ⟨rfl, hg, ho, hl⟩
  | un k f => exact ⟨rfl, hg, ho, hl⟩
  | bin op f g => exact ⟨rfl, hg, ho, hl⟩

theorem Rel.query {o p} (h : Rel o p) (w : Which) (x : ℝ) :
    Rel (o.query w x).1 { p with last := touch p.sh p.last (x - p.off) } ∧
      (o.query w x).2 = (den p.sh (some (x - p.off))).get w := by
  obtain ⟨hs, hg, ho, hl⟩ := h
  rcases o with ⟨s, st⟩
  rcases p with ⟨s', off, last⟩
  simp only at hs ho hl
  subst hs
  obtain ⟨g1, o1, j1⟩ := eval_spec s st (some (x - off)) hg
  simp only [Obj.query, Func.query, ho]
  refine ⟨⟨rfl, g1, by rw [o1, ho], ?_⟩, by rw [j1]⟩
  rw [eval_cx, hl]

theorem clampSafe_none (k c s) : clampSafe k c s none := by intro a ha; cases ha

theorem rel_linear (junk : Jet) (a b : ℝ) :
    Rel (.linear junk a b) ⟨.un (.linear a b) (shAffine b a), 0, none⟩ :=
  (((Rel.const b).bin (Rel.var junk) junk .mul).bin (Rel.const a) junk .add).un junk (.linear a b)

theorem rel_linRamp (junk : Jet) (x0 y0 x1 y1 : ℝ) :
    Rel (.linRamp junk x0 y0 x1 y1) ⟨shLinRamp x0 y0 x1 y1, 0, none⟩ :=
  ((((((Rel.const _).bin (Rel.var junk) junk .mul).bin (Rel.const _) junk .add).clampd (.clampBefore x0) x0 rfl
    (clampSafe_none _ _ _)).clampd (.clampAfter x1) x1 rfl (clampSafe_none _ _ _)).un junk .linRamp)

theorem rel_cosRamp (junk : Jet) (x0 y0 x1 y1 : ℝ) :
    Rel (.cosRamp junk x0 y0 x1 y1) ⟨shCosRamp x0 y0 x1 y1, 0, none⟩ :=
  ((((Rel.const y0).bin ((Rel.const _).bin ((Rel.const 1).bin
    ((((Rel.const _).bin ((Rel.var junk).bin (Rel.const x0) junk .sub) junk .mul)).un junk .cos) junk .sub) junk .mul)
    junk .add).clampd (.clampBefore x0) x0 rfl
    (clampSafe_none _ _ _)).clampd (.clampAfter x1) x1 rfl (clampSafe_none _ _ _)).un junk .cosRamp

abbrev HRel : List Obj → List SpecObj → Prop := List.Forall₂ Rel

theorem HRel.app {h p o q} (H : HRel h p) (r : Rel o q) : HRel (h ++ [o]) (p ++ [q]) :=
  List.rel_append (R := Rel) H (List.Forall₂.cons r List.Forall₂.nil)

theorem HRel.get {h p} (H : HRel h p) (i : ℕ) (q : SpecObj) (hq : p[i]? = some q) :
    ∃ o, h[i]? = some o ∧ Rel o q := by
  induction H generalizing i with
  | nil => simp at hq
  | cons r _ ih =>
    cases i with
    | zero => simp at hq; subst hq; exact ⟨_, rfl, r⟩
    | succ i => simpa using ih i (by simpa using hq)

theorem HRel.set {h p} (H : HRel h p) (i : ℕ) {o q} (r : Rel o q) : HRel (h.set i o) (p.set i q) := by
  induction H generalizing i with
  | nil => simp
  | cons r' t ih =>
    cases i with
    | zero => simpa using ⟨r, t⟩
    | succ i => simpa using ⟨r', ih i⟩

theorem step_refines {h p} (H : HRel h p) (c : Cmd) (p' outs) (hs : specStep p c = some (p', outs)) :
    ∃ h', step h c = some (h', outs) ∧ HRel h' p' := by
  cases c <;> simp only [specStep] at hs
  case var junk => cases hs; exact ⟨_, rfl, H.app (Rel.var junk)⟩
  case const v => cases hs; exact ⟨_, rfl, H.app (Rel.const v)⟩
  case linear junk a b => cases hs; exact ⟨_, rfl, H.app (rel_linear junk a b)⟩
  case linRamp => cases hs; exact ⟨_, rfl, H.app (rel_linRamp ..)⟩
  case cosRamp => cases hs; exact ⟨_, rfl, H.app (rel_cosRamp ..)⟩
  case un junk k i =>
    split at hs
    · obtain ⟨q, hq, e⟩ := Option.map_eq_some_iff.mp hs
      cases e
      obtain ⟨o, ho, r⟩ := H.get i q hq
      exact ⟨_, by simp [step, ho], H.app (r.un junk k)⟩
    · cases hs
  case clamp k i =>
    obtain ⟨q, hq, e⟩ := Option.bind_eq_some_iff.mp hs
    obtain ⟨o, ho, r⟩ := H.get i q hq
    cases hk : k.clampAt with
    | none => simp [hk] at e
    | some c =>
      simp only [hk] at e
      split at e
      · rename_i hsafe
        cases e
        exact ⟨_, by simp [step, ho], H.app (r.clampd k c hk hsafe)⟩
      · cases e
  case bin junk op i j =>
    obtain ⟨q, hq, e⟩ := Option.bind_eq_some_iff.mp hs
    obtain ⟨q', hq', e⟩ := Option.map_eq_some_iff.mp e
    cases e
    obtain ⟨o, ho, r⟩ := H.get i q hq
    obtain ⟨o', ho', r'⟩ := H.get j q' hq'
    exact ⟨_, by simp [step, ho, ho'], H.app (r.bin r' junk op)⟩
  case binR junk op i a =>
    obtain ⟨q, hq, e⟩ := Option.map_eq_some_iff.mp hs
    cases e
    obtain ⟨o, ho, r⟩ := H.get i q hq
    exact ⟨_, by simp [step, ho], H.app (r.bin (Rel.const a) junk op)⟩
  case binL junk op a i =>
    obtain ⟨q, hq, e⟩ := Option.map_eq_some_iff.mp hs
    cases e
    obtain ⟨o, ho, r⟩ := H.get i q hq
    exact ⟨_, by simp [step, ho], H.app ((Rel.const a).bin r junk op)⟩
  case clone i =>
    obtain ⟨q, hq, e⟩ := Option.map_eq_some_iff.mp hs
    cases e
    obtain ⟨o, ho, r⟩ := H.get i q hq
    exact ⟨_, by simp [step, ho], H.app r.clone⟩
  case setOff i d =>
    obtain ⟨q, hq, e⟩ := Option.map_eq_some_iff.mp hs
    cases e
    obtain ⟨o, ho, r⟩ := H.get i q hq
    exact ⟨_, by simp [step, ho], H.set i (r.setOff d)⟩
  case setConst i v =>
    obtain ⟨q, hq, e⟩ := Option.map_eq_some_iff.mp hs
    cases e
    obtain ⟨o, ho, r⟩ := H.get i q hq
    exact ⟨_, by simp [step, ho], H.set i (r.setConst v)⟩
  case query i w x =>
    obtain ⟨q, hq, e⟩ := Option.map_eq_some_iff.mp hs
    cases e
    obtain ⟨o, ho, r⟩ := H.get i q hq
    obtain ⟨r1, r2⟩ := r.query w x
    exact ⟨_, by simp only [step, ho, Option.map_some, r2], H.set i r1⟩

theorem run_refines (cs : List Cmd) {h p} (H : HRel h p) (p' outs) (hs : specRun p cs = some (p', outs)) :
    ∃ h', run h cs = some (h', outs) ∧ HRel h' p' := by
  induction cs generalizing h p outs with
  | nil => cases hs; exact ⟨h, rfl, H⟩
  | cons c cs ih =>
    obtain ⟨⟨p1, o1⟩, h1, e⟩ := Option.bind_eq_some_iff.mp hs
    obtain ⟨⟨p2, o2⟩, h2, e⟩ := Option.map_eq_some_iff.mp e
    cases e
    obtain ⟨hh, s1, H1⟩ := step_refines H c _ _ h1
    obtain ⟨h', s2, H2⟩ := ih H1 _ h2
    exact ⟨h', by simp [run, s1, s2], H2⟩

end Frydom.Func
