import Verif.Core.Registry

/-!
# The temporary line of a dynamic cable (C145)

The part of `FrDynamicCableBase::Initialize` (`src/frydom/cable/FrDynamicCable.cpp:144-152, 243-248`) that deals with the system: a catenary line named "dynamicCableInitialization" is added to the system
(`make_catenary_line`, `src/frydom/cable/FrCatenaryLine.cpp`), its initialization adds a force to each of the two bodies (`FrCatenaryLine.cpp:281-294`), and the three are removed at the end.
Built on the model of the system in `Verif/Core/Registry.lean`.
-/

namespace Frydom.Cable
open Frydom.Core.Registry

/-- One call after another; an exception or an undefined behaviour stops the sequence. -/
def runAll (O : Objs) : Sys → List Op → Out
  | s, [] => .ok s
  | s, o :: os => match o.run O s with
    | .ok s' => runAll O s' os
    | r => r

/-- The calls on the system made when a slack dynamic cable is initialized (FrDynamicCable.cpp:144-152, 243-248): the line `x`, the forces `fa` on the body `a` and `fb` on the body `b`. -/
def temporaryLine (x a fa b fb : ℕ) : List Op := [.add x, .addForce a fa, .addForce b fb, .remove x, .removeForce a fa, .removeForce b fb]

/-- The calls up to the end of `catenaryLine->Initialize()`. -/
def temporaryLineUp (x a fa b fb : ℕ) : List Op := [.add x, .addForce a fa, .addForce b fb]

/-- **C145, nothing is left.** When the names are free, initializing a slack cable succeeds, and leaves in the system, on the bodies and in the log exactly what was there before. -/
theorem C145_clean_partial {O : Objs} {s : Sys} {p : Spec} (h : Runs O s p) (x a fa b fb : ℕ) (hx0 : x ≠ 0) (hxk : O.kind x = .catenaryLine) (hx : ¬ p.here x)
    (ha : p.here a) (hb : p.here b) (hak : O.kind a = .body) (hbk : O.kind b = .body)
    (hfa : O.kind fa = .force ∧ O.parent fa = a ∧ fa ≠ 0 ∧ ¬ p.hangs a fa) (hfb : O.kind fb = .force ∧ O.parent fb = b ∧ fb ≠ 0 ∧ ¬ p.hangs b fb) (hne : fa ≠ fb)
    (px : O.path x ∉ s.paths) (pa : O.path fa ∉ s.paths) (pb : O.path fb ∉ s.paths) (pd : O.path x ≠ O.path fa ∧ O.path x ≠ O.path fb ∧ O.path fa ≠ O.path fb) :
    ∃ s' p', runAll O s (temporaryLine x a fa b fb) = .ok s' ∧ Runs O s' p' ∧ (∀ y, p'.here y ↔ p.here y) ∧ (∀ c f, p'.hangs c f ↔ p.hangs c f) ∧
      (∀ y, s'.stepped.count y = s.stepped.count y ∧ s'.logged.count y = s.logged.count y) ∧
      O.path x ∈ s'.paths ∧ O.path fa ∈ s'.paths ∧ O.path fb ∈ s'.paths := by
  have hxa : x ≠ a := fun e => hx (e ▸ ha)
  have hxb : x ≠ b := fun e => hx (e ▸ hb)
  obtain ⟨s1, e1⟩ := (C57_total h).1 x hx (.inr (.inr px))
  have r1 := Runs.call (.add x) h hx0 e1
  have q1 : s1.paths = O.path x :: s.paths := by
    unfold Sys.add at e1
    have hc : (O.kind x).cat = some .prePhysics := by rw [hxk]; rfl
    rw [hc] at e1
    simp only [] at e1
    have hr : (O.kind x).registers = true := by rw [hxk]; rfl
    have hp' : O.path x ∉ (s.push O .prePhysics x).paths := px
    have hnot : x ∉ s.ch Cat.prePhysics.ch := fun hm => hx (((inv_runs h).ch _ x).mp hm).1
    rw [if_neg hnot, if_pos hr, if_neg hp'] at e1
    have := Out.ok.inj e1
    rw [← this]
    by_cases hl : O.loggable x = true
    · rw [if_pos hl]
      exact (log_rest _ x).2.2.2.2.2
    · rw [if_neg hl]
      rfl
  have na1 : O.path fa ∉ s1.paths := by
    rw [q1]
    simp only [List.mem_cons, not_or]
    exact ⟨pd.1.symm, pa⟩
  obtain ⟨⟨s2, e2⟩, _⟩ := (C57_total r1).2.2.1 a fa hfa.2.2.2 na1
  have r2 := Runs.call (.addForce a fa) r1 ⟨hak, Or.inl ha, hfa.1, hfa.2.1, hfa.2.2.1⟩ e2
  have q2 := (paths_addForce e2).1
  have nb2 : O.path fb ∉ s2.paths := by
    rw [q2, q1]
    simp only [List.mem_cons, not_or]
    exact ⟨pd.2.2.symm, pd.2.1.symm, pb⟩
  have hnh : ¬ ((p.step O (.add x)).step O (.addForce a fa)).hangs b fb := by
    rintro (hh | ⟨_, hh⟩)
    · exact hfb.2.2.2 hh
    · exact hne hh.symm
  obtain ⟨⟨s3, e3⟩, _⟩ := (C57_total r2).2.2.1 b fb hnh nb2
  have r3 := Runs.call (.addForce b fb) r2 ⟨hbk, Or.inl hb, hfb.1, hfb.2.1, hfb.2.2.1⟩ e3
  have q3 := (paths_addForce e3).1
  have hxc : (O.kind x).cat ≠ none := by rw [hxk]; simp [Kind.cat]
  obtain ⟨s4, e4⟩ := (C57_total r3).2.1 x (Or.inr ⟨rfl, hxc⟩)
  have r4 := Runs.call (.remove x) r3 trivial e4
  have q4 := paths_remove e4
  obtain ⟨s5, e5⟩ := (C57_total r4).2.2.2 a fa ⟨Or.inl (Or.inr ⟨rfl, rfl⟩), hxa.symm⟩ hfa.1
  have r5 := Runs.call (.removeForce a fa) r4 trivial e5
  have q5 := paths_removeForce e5
  obtain ⟨s6, e6⟩ := (C57_total r5).2.2.2 b fb ⟨⟨Or.inr ⟨rfl, rfl⟩, hxb.symm⟩, fun hh => hne hh.2.symm⟩ hfb.1
  have r6 := Runs.call (.removeForce b fb) r5 trivial e6
  have q6 := paths_removeForce e6
  have hpaths : s6.paths = O.path fb :: O.path fa :: O.path x :: s.paths := by rw [q6, q5, q4, q3, q2, q1]
  have hhere : ∀ y, (((((((p.step O (.add x)).step O (.addForce a fa)).step O (.addForce b fb)).step O (.remove x)).step O (.removeForce a fa)).step O (.removeForce b fb)).here y ↔ p.here y) := by
    intro y
    constructor
    · rintro ⟨hy | hy, hne'⟩
      · exact hy
      · exact absurd hy.1 hne'
    · intro hy
      exact ⟨Or.inl hy, fun e => hx (e ▸ hy)⟩
  have hhangs : ∀ c f, (((((((p.step O (.add x)).step O (.addForce a fa)).step O (.addForce b fb)).step O (.remove x)).step O (.removeForce a fa)).step O (.removeForce b fb)).hangs c f ↔ p.hangs c f) := by
    intro c f
    constructor
    · rintro ⟨⟨⟨(hh | hh) | hh, _⟩, n1⟩, n2⟩
      · exact hh
      · exact absurd hh n1
      · exact absurd hh n2
    · intro hh
      refine ⟨⟨⟨Or.inl (Or.inl hh), ?_⟩, ?_⟩, ?_⟩
      · rintro rfl
        have := ((inv_runs h).hangsKind c f hh).1
        exact hx this
      · rintro ⟨rfl, rfl⟩
        exact hfa.2.2.2 hh
      · rintro ⟨rfl, rfl⟩
        exact hfb.2.2.2 hh
  refine ⟨s6, _, ?_, r6, hhere, hhangs, fun y => ⟨?_, ?_⟩, ?_, ?_, ?_⟩
  · simp only [temporaryLine, runAll, Op.run, e1, e2, e3, e4, e5, e6]
  · by_cases hy : p.here y
    · rw [(C57_stepped h y).1 hy, (C57_stepped r6 y).1 ((hhere y).2 hy)]
    · rw [(C57_stepped h y).2 hy, (C57_stepped r6 y).2 fun hh => hy ((hhere y).1 hh)]
  · by_cases hy : y = 0 ∨ (p.here y ∧ O.loggable y = true) ∨ ∃ b, p.hangs b y
    · rw [(C57_logged h y).1 hy, (C57_logged r6 y).1]
      rcases hy with hh | hh | ⟨c, hh⟩
      · exact Or.inl hh
      · exact Or.inr (Or.inl ⟨(hhere y).2 hh.1, hh.2⟩)
      · exact Or.inr (Or.inr ⟨c, (hhangs c y).2 hh⟩)
    · rw [(C57_logged h y).2 hy, (C57_logged r6 y).2]
      rintro (hh | hh | ⟨c, hh⟩)
      · exact hy (Or.inl hh)
      · exact hy (Or.inr (Or.inl ⟨(hhere y).1 hh.1, hh.2⟩))
      · exact hy (Or.inr (Or.inr ⟨c, (hhangs c y).1 hh⟩))
  · rw [hpaths]; simp
  · rw [hpaths]; simp
  · rw [hpaths]; simp

/-- **C145, only one slack cable.** The name of the temporary line is always the same and stays registered. After one slack cable was initialized in a system, the initialization of another one throws when its temporary line is added; that line stays in the
system, and is simulated although it is not logged. -/
theorem C145_second {O : Objs} {s : Sys} {p : Spec} (h : Runs O s p) (x a fa b fb y a' fa' b' fb' : ℕ) (s' : Sys) (p' : Spec) (h' : Runs O s' p')
    (hrun : runAll O s (temporaryLine x a fa b fb) = .ok s') (hxk : O.kind x = .catenaryLine) (hx : ¬ p.here x)
    (hy0 : y ≠ 0) (hyk : O.kind y = .catenaryLine) (hy : ¬ p'.here y) (hname : O.path y = O.path x) :
    ∃ s'', runAll O s' (temporaryLineUp y a' fa' b' fb') = .thrown s'' ∧ y ∈ s''.stepped ∧ y ∉ s''.logged := by
  -- the name of the first line is registered
  have hmem : O.path x ∈ s'.paths := by
    have step : ∀ (o : Op) (os : List Op) (t t' : Sys), runAll O t (o :: os) = .ok t' → ∃ t1, o.run O t = .ok t1 ∧ runAll O t1 os = .ok t' := by
      intro o os t t' hh
      unfold runAll at hh
      cases hr : o.run O t with
      | ok t1 => rw [hr] at hh; exact ⟨t1, rfl, hh⟩
      | thrown t1 => rw [hr] at hh; cases hh
      | bad => rw [hr] at hh; cases hh
    obtain ⟨s1, e1, hh⟩ := step _ _ _ _ hrun
    obtain ⟨s2, e2, hh⟩ := step _ _ _ _ hh
    obtain ⟨s3, e3, hh⟩ := step _ _ _ _ hh
    obtain ⟨s4, e4, hh⟩ := step _ _ _ _ hh
    obtain ⟨s5, e5, hh⟩ := step _ _ _ _ hh
    obtain ⟨s6, e6, hh⟩ := step _ _ _ _ hh
    have e : s6 = s' := Out.ok.inj hh
    subst e
    have hr : (O.kind x).registers = true := by rw [hxk]; rfl
    have hc : (O.kind x).cat ≠ none := by rw [hxk]; simp [Kind.cat]
    have g1 := ((paths_add e1).2 hr hc).1
    rw [paths_removeForce e6, paths_removeForce e5, paths_remove e4, (paths_addForce e3).1, (paths_addForce e2).1]
    exact List.mem_cons_of_mem _ (List.mem_cons_of_mem _ g1)
  have hcy : (O.kind y).cat = some .prePhysics := by rw [hyk]; rfl
  have hhang : ¬ ∃ c, p'.hangs c y := by
    rintro ⟨c, hh⟩
    have := cat_none_of ((inv_runs h').hangsKind c y hh).2.2.2.1
    rw [hcy] at this
    cases this
  obtain ⟨s'', t1, t2, _, t4⟩ := C59_throw_leaves_half h' y hy hhang hy0 .prePhysics hcy (by rw [hyk]; rfl) (by rw [hname]; exact hmem)
  refine ⟨s'', ?_, t2, t4⟩
  simp only [temporaryLineUp, runAll, Op.run, t1]

/-- The objects of the example: two bodies (1, 2), two lines with the same path (3, 6) and forces (4, 5). -/
def exLines : Objs :=
  ⟨fun x => if x = 1 ∨ x = 2 then .body else if x = 3 ∨ x = 6 then .catenaryLine else if x = 4 ∨ x = 5 then .force else .other,
   fun x => List.replicate (if x = 6 then 3 else x) 'a', fun x => if x = 4 then 1 else 2, fun _ => true⟩

/-- Two bodies, a slack cable initialized between them, then a second one. -/
example : ∃ s p s' p', Runs exLines s p ∧ runAll exLines s (temporaryLine 3 1 4 2 5) = .ok s' ∧ Runs exLines s' p' ∧ s'.stepped = s.stepped ∧
    ∃ s'', runAll exLines s' (temporaryLineUp 6 1 4 2 5) = .thrown s'' ∧ 6 ∈ s''.stepped := by
  have r0 := Runs.init (O := exLines)
  have r1 := Runs.call (.add 1) r0 (by simp [Op.Sane]) rfl
  have r2 := Runs.call (.add 2) r1 (by simp [Op.Sane]) rfl
  have r3 := Runs.call (.add 3) r2 (by simp [Op.Sane]) rfl
  have r4 := Runs.call (.addForce 1 4) r3 (by simp [Op.Sane, exLines, Spec.step, Kind.cat]) rfl
  have r5 := Runs.call (.addForce 2 5) r4 (by simp [Op.Sane, exLines, Spec.step, Kind.cat]) rfl
  have r6 := Runs.call (.remove 3) r5 trivial rfl
  have r7 := Runs.call (.removeForce 1 4) r6 trivial rfl
  have r8 := Runs.call (.removeForce 2 5) r7 trivial rfl
  exact ⟨_, _, _, _, r2, rfl, r8, by decide, _, rfl, by decide⟩

end Frydom.Cable
