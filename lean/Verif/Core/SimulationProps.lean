import Verif.Core.Simulation

/-!
# Proofs on initialization, steps and logs (C147, C148, C149)
-/

namespace Frydom.Core.Simulation
open Frydom.Core.Registry Frydom.Geom
open Frydom.Cable (runAll)

/-! ## Nodes of bodies -/

theorem nodes_add {O : Objs} {s s' : Sys} {x : ℕ} (h : s.add O x = .ok s') : s'.nodes = s.nodes ∧ s'.forces = s.forces := by
  unfold Sys.add at h
  cases hc : (O.kind x).cat with
  | none => rw [hc] at h; have := Out.ok.inj h; subst this; exact ⟨rfl, rfl⟩
  | some c =>
    rw [hc] at h
    simp only [] at h
    split_ifs at h <;> have := Out.ok.inj h <;> subst this
    · exact ⟨(log_rest _ x).2.2.2.1, (log_rest _ x).2.2.1⟩
    · exact ⟨rfl, rfl⟩
    · exact ⟨(log_rest _ x).2.2.2.1, (log_rest _ x).2.2.1⟩
    · exact ⟨rfl, rfl⟩

theorem nodes_addForce {O : Objs} {s s' : Sys} {b f : ℕ} (h : s.addForce O b f = .ok s') : s'.nodes = s.nodes ∧ s'.lst = s.lst := by
  unfold Sys.addForce at h
  simp only [] at h
  split_ifs at h
  have := Out.ok.inj h
  subst this
  exact ⟨(log_rest _ f).2.2.2.1, (log_rest _ f).1⟩

theorem nodes_newNode {O : Objs} {s s' : Sys} {b f : ℕ} (h : s.newNode O b f = .ok s') :
    s'.nodes = set s.nodes b (s.nodes b ++ [f]) ∧ s'.lst = s.lst ∧ s'.forces = s.forces := by
  unfold Sys.newNode at h
  simp only [] at h
  split_ifs at h
  have := Out.ok.inj h
  subst this
  exact ⟨(log_rest _ f).2.2.2.1, (log_rest _ f).1, (log_rest _ f).2.2.1⟩

theorem nodes_removeForce {s s' : Sys} {b f : ℕ} (h : s.removeForce b f = .ok s') : s'.nodes = s.nodes := by
  unfold Sys.removeForce at h
  split_ifs at h
  have := Out.ok.inj h
  subst this
  rfl

theorem nodes_remove {O : Objs} {s s' : Sys} {x : ℕ} (h : s.remove O x = .ok s') : ∀ b, s'.nodes b = s.nodes b ∨ s'.nodes b = [] := by
  unfold Sys.remove at h
  cases hc : (O.kind x).cat with
  | none => rw [hc] at h; cases h
  | some c =>
    rw [hc] at h
    simp only [] at h
    split_ifs at h
    all_goals
      have := Out.ok.inj h
      subst this
      intro b
    · by_cases hb : b = x
      · right
        show set s.nodes x [] b = []
        rw [hb, set_same]
      · left
        show set s.nodes x [] b = s.nodes b
        rw [set_ne _ _ hb]
    · exact Or.inl rfl
    · by_cases hb : b = x
      · right
        show set s.nodes x [] b = []
        rw [hb, set_same]
      · left
        show set s.nodes x [] b = s.nodes b
        rw [set_ne _ _ hb]
    · exact Or.inl rfl

theorem nodes_nodup {O : Objs} {s : Sys} {p : Spec} (h : Runs O s p) : ∀ b, (s.nodes b).Nodup := by
  induction h with
  | init => intro b; exact List.nodup_nil
  | @call s s' p o hr hs he ih =>
    intro b
    cases o with
    | add x => rw [(nodes_add he).1]; exact ih b
    | remove x =>
      rcases nodes_remove he b with e | e <;> rw [e]
      · exact ih b
      · exact List.nodup_nil
    | addForce a f => rw [(nodes_addForce he).1]; exact ih b
    | newNode a f =>
      rw [(nodes_newNode he).1]
      by_cases hb : b = a
      · subst hb
        rw [set_same]
        refine nodup_append_one (ih b) fun hm => (paths_newNode he).2 ?_
        exact (paths_inv hr).1 f (Or.inr (Or.inr ⟨b, ((inv_runs hr).hangs b f).mpr (Or.inr hm)⟩))
      · rw [set_ne _ _ hb]
        exact ih b
    | removeForce a f => rw [nodes_removeForce he]; exact ih b

/-! ## The pass -/

/-- What is visited in a pass, when the nodes of the bodies at their visits are `N`. -/
def visitN (F N : ℕ → List ℕ) (c : Cat) (x : ℕ) : List ℕ := if c = .bodies then x :: (F x ++ N x) else [x]

theorem visitN_other (F F' N N' : ℕ → List ℕ) {c : Cat} (h : c ≠ .bodies) (x : ℕ) : visitN F N c x = visitN F' N' c x := by
  unfold visitN
  rw [if_neg h, if_neg h]

/-- The fields a pass does not touch. -/
structure Same (s s' : Sim) : Prop where
  inited : s'.inited = s.inited
  smooth : s'.smooth = s.smooth
  time : s'.time = s.time
  envTime : s'.envTime = s.envTime
  logThis : s'.logThis = s.logThis
  fc : s'.fc = s.fc
  msgs : s'.msgs = s.msgs

theorem Same.refl (s : Sim) : Same s s := ⟨rfl, rfl, rfl, rfl, rfl, rfl, rfl⟩
theorem Same.trans {a b c : Sim} (h : Same a b) (k : Same b c) : Same a c :=
  ⟨k.1.trans h.1, k.2.trans h.2, k.3.trans h.3, k.4.trans h.4, k.5.trans h.5, k.6.trans h.6, k.7.trans h.7⟩

theorem initOne_ok {P : Prog} {c : Cat} {x : ℕ} {s s' : Sim} (h : s.initOne P c x = .ok s') :
    runAll P.objs s.sys (P.onInit x s.sys) = .ok s'.sys ∧ Same s s' ∧ s'.trace = s.trace ++ (visitN s.sys.forces s.sys.nodes c x).map fun y => .init (.obj y) := by
  unfold Sim.initOne at h
  simp only [Sim.emit] at h
  split at h
  · rename_i y hy
    have := Res.ok.inj h
    subst this
    exact ⟨hy, ⟨rfl, rfl, rfl, rfl, rfl, rfl, rfl⟩, rfl⟩
  · cases h
  · cases h

theorem bind_ok {r : Res} {f : Sim → Res} {s' : Sim} (h : r.bind f = .ok s') : ∃ s, r = .ok s ∧ f s = .ok s' := by
  cases r with
  | ok s => exact ⟨s, rfl, h⟩
  | thrown => cases h
  | bad => cases h

/-- What a part of a pass does to the containers. -/
structure Grown (P : Prog) (p : Spec) (s : Sys) (p' : Spec) (s' : Sys) (lo : ℕ) : Prop where
  runs : Runs P.objs s' p'
  here : ∀ y, p.here y → p'.here y
  lst : ∀ c', rank c' ≤ lo → s'.lst c' = s.lst c'
  forces : 1 ≤ lo → s'.forces = s.forces
  nodes : ∀ b, ∃ e, s'.nodes b = s.nodes b ++ e

theorem Grown.refl {P : Prog} {p : Spec} {s : Sys} (h : Runs P.objs s p) (lo : ℕ) : Grown P p s p s lo := ⟨h, fun _ h => h, fun _ _ => rfl, fun _ => rfl, fun _ => ⟨[], by simp⟩⟩

theorem Grown.trans {P : Prog} {p p1 p2 : Spec} {s s1 s2 : Sys} {lo : ℕ} (h : Grown P p s p1 s1 lo) (k : Grown P p1 s1 p2 s2 lo) : Grown P p s p2 s2 lo := by
  refine ⟨k.runs, fun y hy => k.here y (h.here y hy), fun c hc => (k.lst c hc).trans (h.lst c hc), fun hl => (k.forces hl).trans (h.forces hl), fun b => ?_⟩
  obtain ⟨e, he⟩ := h.nodes b
  obtain ⟨e', he'⟩ := k.nodes b
  exact ⟨e ++ e', by rw [he', he, List.append_assoc]⟩

theorem Grown.lower {P : Prog} {p p1 : Spec} {s s1 : Sys} {lo lo' : ℕ} (h : Grown P p s p1 s1 lo) (hl : lo' ≤ lo) : Grown P p s p1 s1 lo' :=
  ⟨h.runs, h.here, fun c hc => h.lst c (hc.trans hl), fun hh => h.forces (hh.trans hl), h.nodes⟩

theorem initList_spec {P : Prog} (ht : Tame P) (c : Cat) : ∀ (l : List ℕ) (s s' : Sim) (p : Spec), l.Nodup → Runs P.objs s.sys p → p.here 1 →
    (∀ x ∈ l, p.here x ∧ (P.objs.kind x).cat = some c) → s.initList P c l = .ok s' →
    ∃ p' N, Grown P p s.sys p' s'.sys (rank c) ∧ Same s s' ∧ (∀ b, s.sys.nodes b <+: N b ∧ N b <+: s'.sys.nodes b) ∧
      s'.trace = s.trace ++ (l.flatMap (visitN s.sys.forces N c)).map fun y => .init (.obj y)
  | [], s, s', p, _, hr, _, _, h => by
    have := Res.ok.inj h
    subst this
    exact ⟨p, s.sys.nodes, Grown.refl hr _, Same.refl s, fun b => ⟨List.prefix_refl _, List.prefix_refl _⟩, by simp⟩
  | x :: l, s, s', p, hn, hr, h1, hx, h => by
    obtain ⟨s1, e1, e2⟩ := bind_ok h
    obtain ⟨a1, a2, a3⟩ := initOne_ok e1
    obtain ⟨p1, b1, b2, b3, b4, b5⟩ := ht x c s.sys p s1.sys hr h1 (hx x List.mem_cons_self).1 (hx x List.mem_cons_self).2 a1
    have g1 : Grown P p s.sys p1 s1.sys (rank c) := ⟨b1, b2, b3, b4, b5⟩
    obtain ⟨p2, N, g2, m2, n2, t2⟩ := initList_spec ht c l s1 s' p1 (List.nodup_cons.mp hn).2 b1 (b2 1 h1)
      (fun y hy => ⟨b2 y (hx y (List.mem_cons_of_mem _ hy)).1, (hx y (List.mem_cons_of_mem _ hy)).2⟩) e2
    have hxl : x ∉ l := (List.nodup_cons.mp hn).1
    refine ⟨p2, set N x (s.sys.nodes x), g1.trans g2, a2.trans m2, fun b => ?_, ?_⟩
    · obtain ⟨e, he⟩ := b5 b
      have hp : s.sys.nodes b <+: s1.sys.nodes b := ⟨e, he.symm⟩
      obtain ⟨e', he'⟩ := g2.nodes b
      have hp' : s1.sys.nodes b <+: s'.sys.nodes b := ⟨e', he'.symm⟩
      by_cases hb : b = x
      · subst hb
        rw [set_same]
        exact ⟨List.prefix_refl _, hp.trans hp'⟩
      · rw [set_ne _ _ hb]
        exact ⟨hp.trans (n2 b).1, (n2 b).2⟩
    · rw [t2, a3, List.flatMap_cons, List.map_append, ← List.append_assoc]
      have v1 : visitN s.sys.forces (set N x (s.sys.nodes x)) c x = visitN s.sys.forces s.sys.nodes c x := by
        unfold visitN
        rw [set_same]
      have v2 : l.flatMap (visitN s.sys.forces (set N x (s.sys.nodes x)) c) = l.flatMap (visitN s1.sys.forces N c) := by
        refine List.flatMap_congr fun y hy => ?_
        by_cases hc : c = .bodies
        · have hf : s1.sys.forces = s.sys.forces := b4 (by rw [hc]; exact le_refl 1)
          unfold visitN
          rw [hf, set_ne _ _ (show y ≠ x from fun e => hxl (e ▸ hy))]
        · exact visitN_other _ _ _ _ hc y
      rw [v1, v2]

theorem initCats_spec {P : Prog} (ht : Tame P) : ∀ (cs : List Cat) (s s' : Sim) (p : Spec) (lo : ℕ), cs.Pairwise (fun a b => rank a < rank b) → (∀ c ∈ cs, lo ≤ rank c) →
    Runs P.objs s.sys p → p.here 1 → s.initCats P cs = .ok s' →
    ∃ p' N, Grown P p s.sys p' s'.sys lo ∧ Same s s' ∧ (∀ b, s.sys.nodes b <+: N b ∧ N b <+: s'.sys.nodes b) ∧
      s'.trace = s.trace ++ (cs.flatMap fun c => (s'.sys.lst c).flatMap (visitN s'.sys.forces N c)).map fun y => .init (.obj y)
  | [], s, s', p, lo, _, _, hr, _, h => by
    have := Res.ok.inj h
    subst this
    exact ⟨p, s.sys.nodes, Grown.refl hr _, Same.refl s, fun b => ⟨List.prefix_refl _, List.prefix_refl _⟩, by simp⟩
  | c :: cs, s, s', p, lo, hs, hlo, hr, h1, h => by
    obtain ⟨s1, e1, e2⟩ := bind_ok h
    obtain ⟨p1, N1, g1, m1, n1, t1⟩ := initList_spec ht c (s.sys.lst c) s s1 p ((inv_runs hr).nodup c) hr h1 (fun x hx => ((inv_runs hr).lst c x).mp hx) e1
    obtain ⟨hc, hcs⟩ := List.pairwise_cons.mp hs
    obtain ⟨p2, N2, g2, m2, n2, t2⟩ := initCats_spec ht cs s1 s' p1 (rank c) hcs (fun d hd => (hc d hd).le) g1.runs (g1.here 1 h1) e2
    have hl1 : s'.sys.lst c = s.sys.lst c := (g2.lst c (le_refl _)).trans (g1.lst c (le_refl _))
    have hnb : c = .bodies → ∀ d ∈ cs, d ≠ .bodies := by
      rintro rfl d hd rfl
      exact lt_irrefl _ (hc _ hd)
    have hw1 : ∀ b, s.sys.nodes b <+: s1.sys.nodes b := fun b => by obtain ⟨e, he⟩ := g1.nodes b; exact ⟨e, he.symm⟩
    have hw2 : ∀ b, s1.sys.nodes b <+: s'.sys.nodes b := fun b => by obtain ⟨e, he⟩ := g2.nodes b; exact ⟨e, he.symm⟩
    refine ⟨p2, if c = .bodies then N1 else N2, (g1.lower (hlo c List.mem_cons_self)).trans (g2.lower (hlo c List.mem_cons_self)), m1.trans m2, fun b => ?_, ?_⟩
    · by_cases hb : c = .bodies
      · rw [if_pos hb]
        exact ⟨(n1 b).1, (n1 b).2.trans (hw2 b)⟩
      · rw [if_neg hb]
        exact ⟨(hw1 b).trans (n2 b).1, (n2 b).2⟩
    · rw [t2, t1, List.flatMap_cons, List.map_append, ← List.append_assoc, hl1]
      by_cases hb : c = .bodies
      · rw [if_pos hb]
        have hf : s'.sys.forces = s.sys.forces := by
          have r1 : 1 ≤ rank c := by rw [hb]; exact le_refl 1
          exact (g2.forces r1).trans (g1.forces r1)
        have v2 : (cs.flatMap fun d => (s'.sys.lst d).flatMap (visitN s'.sys.forces N1 d)) = cs.flatMap fun d => (s'.sys.lst d).flatMap (visitN s'.sys.forces N2 d) := by
          refine List.flatMap_congr fun d hd => List.flatMap_congr fun y _ => ?_
          exact visitN_other _ _ _ _ (hnb hb d hd) y
        rw [v2, hf]
      · rw [if_neg hb]
        have v1 : (s.sys.lst c).flatMap (visitN s'.sys.forces N2 c) = (s.sys.lst c).flatMap (visitN s.sys.forces N1 c) :=
          List.flatMap_congr fun y _ => visitN_other _ _ _ _ hb y
        rw [v1]

/-! ## The log -/

/-- One more set of messages, and one more file for each message. -/
def moreMsgs (P : Prog) (x : ℕ) (l : List (List Char × List (List Char))) : List (List Char × List (List Char)) :=
  (l ++ (P.messages x).map fun n => (n, [])).map fun (m : List Char × List (List Char)) => (m.1, m.2 ++ [Sim.file P x m.1])

theorem logInit_fold {P : Prog} : ∀ (l : List ℕ) (s : Sim), l.Nodup →
    (l.foldl (Sim.logInitOne P) s).trace = s.trace ++ (l.filter fun x => s.logThis x).map .logInit ∧
    (∀ x, (l.foldl (Sim.logInitOne P) s).msgs x = if x ∈ l ∧ s.logThis x = true then moreMsgs P x (s.msgs x) else s.msgs x) ∧
    (l.foldl (Sim.logInitOne P) s).sys = s.sys ∧ (l.foldl (Sim.logInitOne P) s).logThis = s.logThis ∧ (l.foldl (Sim.logInitOne P) s).fc = s.fc ∧
    (l.foldl (Sim.logInitOne P) s).smooth = s.smooth ∧ (l.foldl (Sim.logInitOne P) s).time = s.time ∧ (l.foldl (Sim.logInitOne P) s).envTime = s.envTime
  | [], s, _ => by simp
  | y :: l, s, hn => by
    have hy : y ∉ l := (List.nodup_cons.mp hn).1
    obtain ⟨i1, i2, i3, i4, i5, i6, i7, i8⟩ := logInit_fold l (Sim.logInitOne P s y) (List.nodup_cons.mp hn).2
    rw [List.foldl_cons]
    have hq : ∀ {α : Type} (g : Sim → α), (∀ m t, g { s with msgs := m, trace := t } = g s) → g (Sim.logInitOne P s y) = g s := by
      intro α g hg
      unfold Sim.logInitOne
      split
      · exact hg _ _
      · rfl
    have hl := hq Sim.logThis (fun _ _ => rfl)
    refine ⟨?_, fun x => ?_, i3.trans (hq _ fun _ _ => rfl), i4.trans hl, i5.trans (hq _ fun _ _ => rfl), i6.trans (hq _ fun _ _ => rfl), i7.trans (hq _ fun _ _ => rfl), i8.trans (hq _ fun _ _ => rfl)⟩
    · rw [i1, hl, List.filter_cons]
      unfold Sim.logInitOne
      split <;> simp
    · rw [i2, hl]
      by_cases hb : s.logThis y = true
      · have e : (Sim.logInitOne P s y).msgs = set s.msgs y (moreMsgs P y (s.msgs y)) := by
          unfold Sim.logInitOne
          rw [if_pos hb]
          rfl
        rw [e]
        by_cases hxy : x = y
        · subst hxy
          rw [set_same, if_neg (fun hh => hy hh.1), if_pos ⟨List.mem_cons_self, hb⟩]
        · rw [set_ne _ _ hxy]
          simp [hxy]
      · have e : (Sim.logInitOne P s y).msgs = s.msgs := by
          unfold Sim.logInitOne
          rw [if_neg hb]
        rw [e]
        by_cases hxy : x = y
        · subst hxy
          rw [if_neg (fun hh => hb hh.2), if_neg (fun hh => hb hh.2)]
        · simp [hxy]

/-- All that a first initialization does. -/
theorem start_spec {P : Prog} (ht : Tame P) {s s' : Sim} {p : Spec} (hr : Runs P.objs s.sys p) (h1 : p.here 1) (hi : s.inited = false) (h : s.start P = .ok s') :
    ∃ p' N, Grown P p s.sys p' s'.sys 0 ∧ (∀ b, s.sys.nodes b <+: N b ∧ N b <+: s'.sys.nodes b) ∧
      s'.trace = s.trace ++ Ev.init .env :: ((order.flatMap fun c => (s'.sys.lst c).flatMap (visitN s'.sys.forces N c)).map fun y => .init (.obj y)) ++
        (s'.sys.logged.filter fun x => s.logThis x).map .logInit ∧
      (∀ x, s'.msgs x = if x ∈ s'.sys.logged ∧ s.logThis x = true then moreMsgs P x (s.msgs x) else s.msgs x) ∧
      s'.inited = true ∧ s'.logThis = s.logThis ∧ s'.fc = s.fc ∧ s'.smooth = s.smooth ∧ s'.time = s.time ∧ s'.envTime = (if s.smooth then s.time else s.envTime) := by
  unfold Sim.start at h
  rw [hi] at h
  simp only [Bool.false_eq_true, if_false] at h
  obtain ⟨s1, e1, e2⟩ := bind_ok h
  obtain ⟨p', N, g, m, n, t⟩ := initCats_spec ht order (s.emit [.init .env]) s1 p 0 (by decide) (fun _ _ => Nat.zero_le _) hr h1 e1
  have := Res.ok.inj e2
  subst this
  have hn : s1.sys.logged.Nodup := (inv_runs g.runs).logNodup
  obtain ⟨i1, i2, i3, i4, i5, i6, i7, i8⟩ := logInit_fold (P := P) s1.sys.logged { s1 with envTime := if s1.smooth then s1.time else s1.envTime } hn
  have hsys : (Sim.logInit P { s1 with envTime := if s1.smooth then s1.time else s1.envTime }).sys = s1.sys := i3
  have hlt : s1.logThis = s.logThis := m.logThis
  have hsm : s1.smooth = s.smooth := m.smooth
  have hti : s1.time = s.time := m.time
  have hen : s1.envTime = s.envTime := m.envTime
  have hms : s1.msgs = s.msgs := m.msgs
  refine ⟨p', N, ?_, ?_, ?_, fun x => ?_, rfl, ?_, ?_, ?_, ?_, ?_⟩
  · show Grown P p s.sys p' (Sim.logInit P _).sys 0
    rw [hsys]
    exact g
  · intro b
    show s.sys.nodes b <+: N b ∧ N b <+: (Sim.logInit P _).sys.nodes b
    rw [hsys]
    exact n b
  · show (Sim.logInit P _).trace = _
    rw [show (Sim.logInit P { s1 with envTime := if s1.smooth then s1.time else s1.envTime }).trace = _ from i1]
    show s1.trace ++ _ = _ ++ Ev.init .env :: ((order.flatMap fun c => ((Sim.logInit P _).sys.lst c).flatMap (visitN (Sim.logInit P _).sys.forces N c)).map _) ++ ((Sim.logInit P _).sys.logged.filter _).map _
    rw [hsys, t, hlt]
    simp [Sim.emit]
  · show (Sim.logInit P _).msgs x = if x ∈ (Sim.logInit P _).sys.logged ∧ _ then _ else _
    rw [hsys, ← hlt, ← hms]
    exact i2 x
  · exact i4.trans hlt
  · exact i5.trans m.fc
  · exact i6.trans hsm
  · exact i7.trans hti
  · refine i8.trans ?_
    show (if s1.smooth then s1.time else s1.envTime) = _
    rw [hsm, hti, hen]

/-! ## What is visited -/

theorem rank_inj {a b : Cat} (h : rank a = rank b) : a = b := by cases a <;> cases b <;> first | rfl | (exact absurd h (by decide))

/-- The objects visited. -/
def visited (s : Sys) (N : ℕ → List ℕ) : List ℕ := order.flatMap fun c => (s.lst c).flatMap (visitN s.forces N c)

theorem mem_visitN {O : Objs} {s : Sys} {p : Spec} (hr : Runs O s p) {N : ℕ → List ℕ} (hN : ∀ b, N b <+: s.nodes b) {c : Cat} {b x : ℕ} (hb : b ∈ s.lst c) (hx : x ∈ visitN s.forces N c b) :
    x = b ∨ (c = .bodies ∧ p.hangs b x) := by
  unfold visitN at hx
  split_ifs at hx with hc
  · simp only [List.mem_cons, List.mem_append] at hx
    rcases hx with h | h | h
    · exact Or.inl h
    · exact Or.inr ⟨hc, ((inv_runs hr).hangs b x).mpr (Or.inl h)⟩
    · exact Or.inr ⟨hc, ((inv_runs hr).hangs b x).mpr (Or.inr ((hN b).subset h))⟩
  · exact Or.inl (List.mem_singleton.mp hx)

theorem phase_hung {O : Objs} {s : Sys} {p : Spec} (hr : Runs O s p) {b x : ℕ} (h : p.hangs b x) : phase O (.obj x) = 2 := by
  simp only [phase]
  rw [cat_none_of ((inv_runs hr).hangsKind b x h).2.2.2.1]
  rfl

theorem phase_visited {O : Objs} {s : Sys} {p : Spec} (hr : Runs O s p) {N : ℕ → List ℕ} (hN : ∀ b, N b <+: s.nodes b) {c : Cat} {x : ℕ}
    (hx : x ∈ (s.lst c).flatMap (visitN s.forces N c)) : phase O (.obj x) = rank c + 1 := by
  obtain ⟨b, hb, hx⟩ := List.mem_flatMap.mp hx
  rcases mem_visitN hr hN hb hx with rfl | ⟨rfl, hh⟩
  · simp only [phase]
    rw [(((inv_runs hr).lst c x).mp hb).2]
  · exact phase_hung hr hh

theorem visit_nodup {O : Objs} {s : Sys} {p : Spec} (hr : Runs O s p) {N : ℕ → List ℕ} (hN : ∀ b, N b <+: s.nodes b) (c : Cat) : ((s.lst c).flatMap (visitN s.forces N c)).Nodup := by
  have hi := inv_runs hr
  rw [List.nodup_flatMap]
  refine ⟨fun b hb => ?_, ?_⟩
  · unfold visitN
    split_ifs with hc
    · subst hc
      have hk : O.kind b = .body := by
        have := ((hi.lst _ b).mp hb).2
        cases h : O.kind b <;> rw [h] at this <;> first | rfl | cases this
      have hf : b ∉ s.forces b ∧ b ∉ N b := by
        constructor
        · intro h
          have := hi.forceKind b b h
          rw [hk] at this; cases this
        · intro h
          have := hi.nodeKind b b ((hN b).subset h)
          rw [hk] at this; cases this
      refine List.nodup_cons.mpr ⟨by simp [hf.1, hf.2], List.nodup_append.mpr ⟨hi.forcesNodup b, (nodes_nodup hr b).sublist (hN b).sublist, ?_⟩⟩
      rintro x hx y hy rfl
      have h1 := hi.forceKind b x hx
      have h2 := hi.nodeKind b x ((hN b).subset hy)
      rw [h1] at h2; cases h2
    · exact List.nodup_singleton b
  · refine ((hi.nodup c).imp_of_mem ?_)
    intro a b ha hb hab x hxa hxb
    rcases mem_visitN hr hN ha hxa with rfl | ⟨hc, hh⟩ <;> rcases mem_visitN hr hN hb hxb with rfl | ⟨hc', hh'⟩
    · exact hab rfl
    · have h1 := ((hi.lst c x).mp ha).2
      rw [cat_none_of (hi.hangsKind b x hh').2.2.2.1] at h1; cases h1
    · have h1 := ((hi.lst c x).mp hb).2
      rw [cat_none_of (hi.hangsKind a x hh).2.2.2.1] at h1; cases h1
    · exact hab ((hi.hangsKind a x hh).2.2.1.symm.trans (hi.hangsKind b x hh').2.2.1)

theorem visited_nodup {O : Objs} {s : Sys} {p : Spec} (hr : Runs O s p) {N : ℕ → List ℕ} (hN : ∀ b, N b <+: s.nodes b) : (visited s N).Nodup := by
  unfold visited
  rw [List.nodup_flatMap]
  refine ⟨fun c _ => visit_nodup hr hN c, ?_⟩
  have : order.Pairwise (fun a b => a ≠ b) := by decide
  refine this.imp ?_
  intro a b hab x hxa hxb
  have h1 := phase_visited hr hN hxa
  have h2 := phase_visited hr hN hxb
  exact hab (rank_inj (by omega))

theorem visited_sorted {O : Objs} {s : Sys} {p : Spec} (hr : Runs O s p) {N : ℕ → List ℕ} (hN : ∀ b, N b <+: s.nodes b) :
    (visited s N).Pairwise fun x y => phase O (.obj x) ≤ phase O (.obj y) := by
  unfold visited
  rw [List.pairwise_flatMap]
  refine ⟨fun c _ => ?_, ?_⟩
  · refine List.Pairwise.imp_of_mem (R := fun _ _ => True) ?_ (List.pairwise_of_forall fun _ _ => trivial)
    intro x y hx hy _
    rw [phase_visited hr hN hx, phase_visited hr hN hy]
  · have : order.Pairwise (fun a b => rank a < rank b) := by decide
    refine this.imp ?_
    intro a b hab x hx y hy
    rw [phase_visited hr hN hx, phase_visited hr hN hy]
    omega

theorem visited_bodies_first {O : Objs} {s : Sys} {p : Spec} (hr : Runs O s p) {N : ℕ → List ℕ} (hN : ∀ b, N b <+: s.nodes b) : (visited s N).Pairwise fun x y => ¬ p.hangs y x := by
  have hi := inv_runs hr
  have nobody : ∀ b x y, p.hangs b y → ¬ p.hangs y x := by
    intro b x y h1 h2
    have k1 := (hi.hangsKind b y h1).2.2.2.1
    rw [(hi.hangsKind y x h2).2.1] at k1
    rcases k1 with k | k <;> cases k
  have nohang : ∀ c b y, b ∈ s.lst c → ¬ p.hangs y b := by
    intro c b y h1 h2
    have k1 := ((hi.lst c b).mp h1).2
    rw [cat_none_of (hi.hangsKind y b h2).2.2.2.1] at k1; cases k1
  unfold visited
  rw [List.pairwise_flatMap]
  refine ⟨fun c _ => ?_, ?_⟩
  · rw [List.pairwise_flatMap]
    refine ⟨fun b hb => ?_, ?_⟩
    · have key : (visitN s.forces N c b).Pairwise fun _ y => y ≠ b := by
        have hn := (List.nodup_flatMap.mp (visit_nodup hr hN c)).1 b hb
        unfold visitN at hn ⊢
        split_ifs at hn ⊢ with hc
        · obtain ⟨h1, h2⟩ := List.nodup_cons.mp hn
          refine List.pairwise_cons.mpr ⟨fun y hy e => h1 (e ▸ hy), ?_⟩
          refine List.Pairwise.imp_of_mem ?_ h2
          intro x y _ hy _ e
          exact h1 (e ▸ hy)
        · exact List.pairwise_singleton _ _
      refine List.Pairwise.imp_of_mem ?_ key
      intro x y hx hy hne hh
      rcases mem_visitN hr hN hb hy with e | ⟨_, h2⟩
      · exact hne e
      · exact nobody b x y h2 hh
    · refine (hi.nodup c).imp_of_mem ?_
      intro a b ha hb hab x hx y hy hh
      rcases mem_visitN hr hN hb hy with rfl | ⟨_, h2⟩
      · rcases mem_visitN hr hN ha hx with rfl | ⟨_, h1⟩
        · exact nohang c x y ha hh
        · exact hab ((hi.hangsKind a x h1).2.2.1.symm.trans (hi.hangsKind y x hh).2.2.1)
      · exact nobody b x y h2 hh
  · have : order.Pairwise (fun a b => rank a < rank b) := by decide
    refine this.imp ?_
    intro a b hab x hx y hy hh
    have h1 := phase_visited hr hN hx
    have h2 := phase_visited hr hN hy
    rw [phase_hung hr hh] at h1
    have h3 : phase O (.obj y) = 2 := by
      simp only [phase]
      rw [(hi.hangsKind y x hh).2.1]
      rfl
    omega

theorem mem_visited {O : Objs} {s : Sys} {p : Spec} (hr : Runs O s p) {N : ℕ → List ℕ} (hN : ∀ b, N b <+: s.nodes b) (x : ℕ) :
    x ∈ visited s N ↔ p.here x ∨ ∃ b, p.hangs b x ∧ (x ∈ s.forces b ∨ x ∈ N b) := by
  have hi := inv_runs hr
  have hall : ∀ c : Cat, c ∈ order := by intro c; cases c <;> decide
  constructor
  · intro h
    obtain ⟨c, _, h⟩ := List.mem_flatMap.mp h
    obtain ⟨b, hb, hx⟩ := List.mem_flatMap.mp h
    unfold visitN at hx
    split_ifs at hx with hc
    · simp only [List.mem_cons, List.mem_append] at hx
      rcases hx with rfl | h | h
      · exact Or.inl ((hi.lst c x).mp hb).1
      · exact Or.inr ⟨b, (hi.hangs b x).mpr (Or.inl h), Or.inl h⟩
      · exact Or.inr ⟨b, (hi.hangs b x).mpr (Or.inr ((hN b).subset h)), Or.inr h⟩
    · rw [List.mem_singleton.mp hx]
      exact Or.inl ((hi.lst c b).mp hb).1
  · rintro (h | ⟨b, hh, h⟩)
    · cases hc : (O.kind x).cat with
      | none => exact absurd hc (hi.hereKind x h).1
      | some c =>
        refine List.mem_flatMap.mpr ⟨c, hall c, List.mem_flatMap.mpr ⟨x, (hi.lst c x).mpr ⟨h, hc⟩, ?_⟩⟩
        unfold visitN
        split_ifs <;> simp
    · obtain ⟨k1, k2, _⟩ := hi.hangsKind b x hh
      refine List.mem_flatMap.mpr ⟨.bodies, hall _, List.mem_flatMap.mpr ⟨b, (hi.lst _ b).mpr ⟨k1, by rw [k2]; rfl⟩, ?_⟩⟩
      unfold visitN
      rw [if_pos rfl]
      rcases h with h | h <;> simp [h]

/-! ## Histories -/

theorem here_iff {O : Objs} {s : Sys} {p : Spec} (hr : Runs O s p) {b : ℕ} (hk : O.kind b = .body) : p.here b ↔ b ∈ s.lst .bodies := by
  rw [(inv_runs hr).lst]
  exact ⟨fun h => ⟨h, by rw [hk]; rfl⟩, fun h => h.1⟩

theorem start_inited {P : Prog} {s : Sim} (h : s.inited = true) : s.start P = .ok s := by
  unfold Sim.start
  rw [h]
  rfl

theorem step_ok {P : Prog} {h : ℝ} {s s' : Sim} (e : s.step P h = .ok s') : ∃ s1, s.start P = .ok s1 ∧
    s' = if s1.smooth then ({ s1 with time := s1.time + h, envTime := s1.time + h } : Sim).stepFinalize else { s1 with time := s1.time + h } := by
  obtain ⟨s1, e1, e2⟩ := bind_ok e
  refine ⟨s1, e1, ?_⟩
  have := Res.ok.inj e2
  rw [← this]

theorem start_runs {P : Prog} (ht : Tame P) {s s' : Sim} {p : Spec} (hr : Runs P.objs s.sys p) (h1 : p.here 1) (h : s.start P = .ok s') :
    ∃ p', Runs P.objs s'.sys p' ∧ p'.here 1 := by
  cases hi : s.inited with
  | true => rw [start_inited hi] at h; have := Res.ok.inj h; subst this; exact ⟨p, hr, h1⟩
  | false => obtain ⟨p', N, g, _⟩ := start_spec ht hr h1 hi h; exact ⟨p', g.runs, g.here 1 h1⟩

/-- Well formed: reached by successful well typed calls, the world body in the system. -/
def Sound (P : Prog) (s : Sim) : Prop := P.objs.kind 1 = .body ∧ ∃ p, Runs P.objs s.sys p ∧ p.here 1

theorem sound_call {P : Prog} (ht : Tame P) {s s' : Sim} (h : Sound P s) {c : Call} (hs : c.Sane P s) (e : c.run P s = .ok s') : Sound P s' := by
  obtain ⟨hk, p, hr, h1⟩ := h
  refine ⟨hk, ?_⟩
  cases c with
  | op o =>
    obtain ⟨⟨p', hr', hs'⟩, hne⟩ := hs
    have h1' : p'.here 1 := (here_iff hr' hk).mpr ((here_iff hr hk).mp h1)
    simp only [Call.run] at e
    split at e
    · rename_i y hy
      have := Res.ok.inj e
      subst this
      refine ⟨_, Runs.call o hr' hs' hy, ?_⟩
      cases o with
      | add x => exact Or.inl h1'
      | remove x => exact ⟨h1', fun e => hne (by rw [e])⟩
      | addForce b f => exact h1'
      | newNode b f => exact h1'
      | removeForce b f => exact h1'
    · cases e
    · cases e
  | start => exact start_runs ht hr h1 e
  | forceStart => exact start_runs (s := { s with inited := false }) ht hr h1 e
  | step h =>
    obtain ⟨s1, e1, e2⟩ := step_ok e
    obtain ⟨p', hr', h1'⟩ := start_runs ht hr h1 e1
    have : s'.sys = s1.sys := by
      rw [e2]
      split <;> rfl
    rw [this]
    exact ⟨p', hr', h1'⟩
  | logThis x b => have := Res.ok.inj e; subst this; exact ⟨p, hr, h1⟩
  | setLogFC fc => have := Res.ok.inj e; subst this; exact ⟨p, hr, h1⟩

theorem sound_fresh {P : Prog} {s : Sim} (h : Fresh P s) : Sound P s := by
  obtain ⟨hk, y, b, hy, rfl⟩ := h
  exact ⟨hk, _, Runs.call (.add 1) Runs.init (show (1 : ℕ) ≠ 0 by decide) hy, Or.inr ⟨rfl, by rw [hk]; simp [Kind.cat]⟩⟩

theorem sound_calls {P : Prog} (ht : Tame P) {s s' : Sim} {cs : List Call} (h : Calls P s cs s') (h0 : Sound P s) : Sound P s' := by
  induction h with
  | nil => exact h0
  | snoc c _ hs he ih => exact sound_call ht ih hs he

/-- **C147, the order of the initialization.** The first initialization goes through the environment, then through every object of the system exactly once, in the order pre-physics items (equilibrium frames, catenary
lines), bodies, links, constraints, actuators, FEA meshes; the forces and nodes of a body come after it, each at most once, exactly once for all forces and for the nodes that were there before; objects made during the
initialization (the link of a locked body) included; nothing else is initialized; the logs are prepared last. -/
theorem C147_pass {P : Prog} (ht : Tame P) {s s' : Sim} {p : Spec} (hr : Runs P.objs s.sys p) (h1 : p.here 1) (hi : s.inited = false) (h : s.start P = .ok s') :
    ∃ (p' : Spec) (L : List ℕ), Runs P.objs s'.sys p' ∧ s'.inited = true ∧
      s'.trace = s.trace ++ Ev.init .env :: (L.map fun y => .init (.obj y)) ++ (s'.sys.logged.filter fun x => s.logThis x).map .logInit ∧
      (∀ y, p.here y → p'.here y) ∧
      (∀ x, p'.here x → L.count x = 1) ∧ (∀ b f, p'.hangs b f → P.objs.kind f = .force → L.count f = 1) ∧ (∀ b n, p.hangs b n → P.objs.kind n = .node → L.count n = 1) ∧
      (∀ x, L.count x ≤ 1) ∧ (∀ x, ¬ p'.here x → (¬ ∃ b, p'.hangs b x) → L.count x = 0) ∧
      (L.Pairwise fun x y => phase P.objs (.obj x) ≤ phase P.objs (.obj y)) ∧ (L.Pairwise fun x y => ¬ p'.hangs y x) := by
  obtain ⟨p', N, g, n, t, _, hi', _⟩ := start_spec ht hr h1 hi h
  have hN : ∀ b, N b <+: s'.sys.nodes b := fun b => (n b).2
  have hnd := visited_nodup g.runs hN
  have one : ∀ x, x ∈ visited s'.sys N → (visited s'.sys N).count x = 1 := fun x hx => List.count_eq_one_of_mem hnd hx
  refine ⟨p', visited s'.sys N, g.runs, hi', t, g.here, fun x hx => one x ((mem_visited g.runs hN x).mpr (Or.inl hx)), ?_, ?_, fun x => ?_, fun x hx hh => ?_, visited_sorted g.runs hN,
    visited_bodies_first g.runs hN⟩
  · intro b f hf hk
    refine one f ((mem_visited g.runs hN f).mpr (Or.inr ⟨b, hf, Or.inl ?_⟩))
    rcases ((inv_runs g.runs).hangs b f).mp hf with hh | hh
    · exact hh
    · have := (inv_runs g.runs).nodeKind b f hh
      rw [hk] at this; cases this
  · intro b f hf hk
    have hm : f ∈ s.sys.nodes b := by
      rcases ((inv_runs hr).hangs b f).mp hf with hh | hh
      · have := (inv_runs hr).forceKind b f hh
        rw [hk] at this; cases this
      · exact hh
    have hm' : f ∈ N b := (n b).1.subset hm
    exact one f ((mem_visited g.runs hN f).mpr (Or.inr ⟨b, ((inv_runs g.runs).hangs b f).mpr (Or.inr ((hN b).subset hm')), Or.inr hm'⟩))
  · exact List.nodup_iff_count_le_one.mp hnd x
  · refine List.count_eq_zero_of_not_mem fun hm => ?_
    rcases (mem_visited g.runs hN x).mp hm with a | ⟨b, a, _⟩
    · exact hx a
    · exact hh ⟨b, a⟩

/-- **C147, a step.** With smooth contacts, a step of an initialized system adds the step to the time, tells it to the environment, finalizes the environment, then every object of the system and every force and node of
its bodies exactly once, nothing else, in the same order, bodies before what hangs on them; then the rows of the logs are written. -/
theorem C147_step {P : Prog} {s s' : Sim} {p : Spec} (hr : Runs P.objs s.sys p) (hi : s.inited = true) (hsm : s.smooth = true) (dt : ℝ) (h : s.step P dt = .ok s') :
    s'.sys = s.sys ∧ s'.time = s.time + dt ∧ s'.envTime = s.time + dt ∧
    ∃ (L : List ℕ) (R : List (List Char)), s'.trace = s.trace ++ Ev.fin .env :: (L.map fun y => .fin (.obj y)) ++ R.map .row ∧
      (∀ x, (p.here x ∨ ∃ b, p.hangs b x) → L.count x = 1) ∧ (∀ x, ¬ (p.here x ∨ ∃ b, p.hangs b x) → L.count x = 0) ∧
      (L.Pairwise fun x y => phase P.objs (.obj x) ≤ phase P.objs (.obj y)) ∧ (L.Pairwise fun x y => ¬ p.hangs y x) := by
  obtain ⟨s1, e1, e2⟩ := step_ok h
  rw [start_inited hi] at e1
  have := Res.ok.inj e1
  subst this
  rw [if_pos hsm] at e2
  subst e2
  have hN : ∀ b, s.sys.nodes b <+: s.sys.nodes b := fun b => List.prefix_refl _
  have hnd := visited_nodup hr hN
  have hmem : ∀ x, x ∈ visited s.sys s.sys.nodes ↔ p.here x ∨ ∃ b, p.hangs b x := by
    intro x
    rw [mem_visited hr hN]
    constructor
    · rintro (a | ⟨b, a, _⟩)
      · exact Or.inl a
      · exact Or.inr ⟨b, a⟩
    · rintro (a | ⟨b, a⟩)
      · exact Or.inl a
      · exact Or.inr ⟨b, a, ((inv_runs hr).hangs b x).mp a⟩
  have hrows : ∀ (t : Sim) (l : List ℕ), ∃ R : List (List Char), l.flatMap t.rows = R.map .row := by
    intro t l
    refine ⟨l.flatMap fun x => if t.logThis x then (t.msgs x).flatMap fun m => m.2 else [], ?_⟩
    rw [List.map_flatMap]
    refine List.flatMap_congr fun x _ => ?_
    unfold Sim.rows
    split
    · rw [List.map_flatMap]
    · rfl
  obtain ⟨R, hR⟩ := hrows { s with time := s.time + dt, envTime := s.time + dt } s.sys.logged
  refine ⟨rfl, rfl, rfl, visited s.sys s.sys.nodes, R, ?_, fun x hx => List.count_eq_one_of_mem hnd ((hmem x).mpr hx), fun x hx => List.count_eq_zero_of_not_mem fun hm => hx ((hmem x).mp hm),
    visited_sorted hr hN, visited_bodies_first hr hN⟩
  rw [← hR, List.append_assoc]
  rfl

/-- No `ForceInitialize` among the calls. -/
def NotForced (cs : List Call) : Prop := Call.forceStart ∉ cs

/-- The events of initialization and of preparation of logs. -/
def Ev.setup : Ev → Bool
  | .init _ => true
  | .logInit _ => true
  | _ => false

theorem rows_setup (s : Sim) (x : ℕ) : ∀ e ∈ s.rows x, e.setup = false := by
  intro e he
  unfold Sim.rows at he
  split at he
  · obtain ⟨m, _, hm⟩ := List.mem_flatMap.mp he
    obtain ⟨f, _, rfl⟩ := List.mem_map.mp hm
    rfl
  · cases he

theorem finalize_setup (s : Sim) : s.stepFinalize.trace.filter Ev.setup = s.trace.filter Ev.setup := by
  unfold Sim.stepFinalize Sim.emit
  rw [List.filter_append]
  have : ∀ e ∈ (Ev.fin .env :: ((order.flatMap fun c => (s.sys.lst c).flatMap (Sim.visit s.sys c)).map fun y => Ev.fin (.obj y)) ++ s.sys.logged.flatMap s.rows), ¬ e.setup = true := by
    intro e he
    simp only [List.cons_append, List.mem_cons, List.mem_append, List.mem_map, List.mem_flatMap] at he
    rcases he with rfl | ⟨y, _, rfl⟩ | ⟨x, _, hx⟩
    · simp [Ev.setup]
    · simp [Ev.setup]
    · rw [rows_setup s x e hx]; simp
  rw [List.filter_eq_nil_iff.mpr this, List.append_nil]

/-- A call other than `ForceInitialize` on an initialized system. -/
theorem inited_call {P : Prog} {s s' : Sim} (hi : s.inited = true) {c : Call} (hc : c ≠ .forceStart) (e : c.run P s = .ok s') :
    s'.inited = true ∧ s'.msgs = s.msgs ∧ s'.trace.filter Ev.setup = s.trace.filter Ev.setup := by
  cases c with
  | op o =>
    simp only [Call.run] at e
    split at e
    · have := Res.ok.inj e; subst this; exact ⟨hi, rfl, rfl⟩
    · cases e
    · cases e
  | start =>
    have e' : s.start P = .ok s' := e
    rw [start_inited hi] at e'
    have := Res.ok.inj e'; subst this; exact ⟨hi, rfl, rfl⟩
  | forceStart => exact absurd rfl hc
  | step h =>
    obtain ⟨s1, e1, e2⟩ := step_ok e
    rw [start_inited hi] at e1
    have := Res.ok.inj e1
    subst this
    rw [e2]
    split
    · exact ⟨hi, rfl, finalize_setup _⟩
    · exact ⟨hi, rfl, rfl⟩
  | logThis x b => have := Res.ok.inj e; subst this; exact ⟨hi, rfl, rfl⟩
  | setLogFC fc => have := Res.ok.inj e; subst this; exact ⟨hi, rfl, rfl⟩

theorem inited_calls {P : Prog} {s s' : Sim} {cs : List Call} (h : Calls P s cs s') (hi : s.inited = true) (hc : NotForced cs) :
    s'.inited = true ∧ s'.msgs = s.msgs ∧ s'.trace.filter Ev.setup = s.trace.filter Ev.setup := by
  induction h with
  | nil => exact ⟨hi, rfl, rfl⟩
  | snoc c _ _ he ih =>
    obtain ⟨i1, i2, i3⟩ := ih (fun hm => hc (List.mem_append_left _ hm))
    obtain ⟨j1, j2, j3⟩ := inited_call i1 (fun e => hc (by rw [e]; simp)) he
    exact ⟨j1, j2.trans i2, j3.trans i3⟩

theorem count_setup (e : Ev) (he : e.setup = true) {t t' : List Ev} (h : t'.filter Ev.setup = t.filter Ev.setup) : t'.count e = t.count e := by
  rw [← List.count_filter (l := t') he, h, List.count_filter he]

/-- **C147, late objects (defect).** Once the system is initialized, no call other than `ForceInitialize` initializes anything: an object added later (with all it hangs on a body later) takes part in the simulation
without ever being initialized, and its log is never prepared. -/
theorem C147_late {P : Prog} {s s' : Sim} {cs : List Call} (h : Calls P s cs s') (hi : s.inited = true) (hc : NotForced cs) :
    s'.inited = true ∧ (∀ w, s'.trace.count (.init w) = s.trace.count (.init w)) ∧ ∀ x, s'.trace.count (.logInit x) = s.trace.count (.logInit x) := by
  obtain ⟨h1, _, h3⟩ := inited_calls h hi hc
  exact ⟨h1, fun w => count_setup _ rfl h3, fun x => count_setup _ rfl h3⟩

theorem count_init_pass (L : List ℕ) (G : List ℕ) (t : List Ev) (x : ℕ) :
    (t ++ Ev.init .env :: (L.map fun y => Ev.init (.obj y)) ++ G.map Ev.logInit).count (Ev.init (.obj x)) = t.count (.init (.obj x)) + L.count x := by
  rw [List.count_append, List.count_append, List.count_cons]
  have h1 : (L.map fun y => Ev.init (.obj y)).count (.init (.obj x)) = L.count x :=
    List.count_map_of_injective L (fun y => Ev.init (.obj y)) (fun a b h => by simpa using h) x
  have h2 : (G.map Ev.logInit).count (.init (.obj x)) = 0 := List.count_eq_zero_of_not_mem (by simp)
  rw [h1, h2]
  simp

theorem count_env_pass (L : List ℕ) (G : List ℕ) (t : List Ev) :
    (t ++ Ev.init .env :: (L.map fun y => Ev.init (.obj y)) ++ G.map Ev.logInit).count (Ev.init .env) = t.count (.init .env) + 1 := by
  rw [List.count_append, List.count_append, List.count_cons]
  have h1 : (L.map fun y => Ev.init (.obj y)).count (.init .env) = 0 := List.count_eq_zero_of_not_mem (by simp)
  have h2 : (G.map Ev.logInit).count (.init .env) = 0 := List.count_eq_zero_of_not_mem (by simp)
  rw [h1, h2]
  simp

theorem count_log_pass (L : List ℕ) (G : List ℕ) (t : List Ev) (x : ℕ) :
    (t ++ Ev.init .env :: (L.map fun y => Ev.init (.obj y)) ++ G.map Ev.logInit).count (Ev.logInit x) = t.count (.logInit x) + G.count x := by
  rw [List.count_append, List.count_append, List.count_cons]
  have h1 : (L.map fun y => Ev.init (.obj y)).count (.logInit x) = 0 := List.count_eq_zero_of_not_mem (by simp)
  have h2 : (G.map Ev.logInit).count (.logInit x) = G.count x := List.count_map_of_injective G Ev.logInit (fun a b h => by simpa using h) x
  rw [h1, h2]
  simp

/-- A call on a system that is not initialized yet: either nothing is set up, or there was a pass. -/
theorem fresh_call {P : Prog} (ht : Tame P) {s s' : Sim} (hs : Sound P s) (hi : s.inited = false) {c : Call} (e : c.run P s = .ok s') :
    (s'.inited = false ∧ s'.trace = s.trace ∧ s'.msgs = s.msgs) ∨
    ∃ s1, s.start P = .ok s1 ∧ s'.inited = true ∧ s'.msgs = s1.msgs ∧ s'.trace.filter Ev.setup = s1.trace.filter Ev.setup := by
  cases c with
  | op o =>
    simp only [Call.run] at e
    split at e
    · have := Res.ok.inj e; subst this; exact Or.inl ⟨hi, rfl, rfl⟩
    · cases e
    · cases e
  | start =>
    obtain ⟨_, p, hr, h1⟩ := hs
    obtain ⟨_, _, _, _, _, _, hi', _⟩ := start_spec ht hr h1 hi e
    exact Or.inr ⟨s', e, hi', rfl, rfl⟩
  | forceStart =>
    obtain ⟨_, p, hr, h1⟩ := hs
    have hs0 : ({ s with inited := false } : Sim) = s := by rw [← hi]
    have e' : s.start P = .ok s' := by
      have : s.forceStart P = .ok s' := e
      unfold Sim.forceStart at this
      rw [hs0] at this
      exact this
    obtain ⟨_, _, _, _, _, _, hi', _⟩ := start_spec ht hr h1 hi e'
    exact Or.inr ⟨s', e', hi', rfl, rfl⟩
  | step h =>
    obtain ⟨s1, e1, e2⟩ := step_ok e
    obtain ⟨_, p, hr, h1⟩ := hs
    obtain ⟨_, _, _, _, _, _, hi', _⟩ := start_spec ht hr h1 hi e1
    right
    rw [e2]
    split
    · exact ⟨s1, e1, hi', rfl, finalize_setup _⟩
    · exact ⟨s1, e1, hi', rfl, rfl⟩
  | logThis x b => have := Res.ok.inj e; subst this; exact Or.inl ⟨hi, rfl, rfl⟩
  | setLogFC fc => have := Res.ok.inj e; subst this; exact Or.inl ⟨hi, rfl, rfl⟩

/-- **C147, once.** In any history without `ForceInitialize`, however many calls to `Initialize` and steps it has, the environment and every object are initialized at most once; the environment exactly once if the
system is initialized. -/
theorem C147_once {P : Prog} (ht : Tame P) {s0 s : Sim} {cs : List Call} (hf : Fresh P s0) (h : Calls P s0 cs s) (hc : NotForced cs) :
    (∀ w, s.trace.count (.init w) ≤ 1) ∧ (s.trace.count (.init .env) = if s.inited then 1 else 0) := by
  have key : (s.inited = false → s.trace = []) ∧ (∀ w, s.trace.count (.init w) ≤ 1) ∧ (s.trace.count (.init .env) = if s.inited then 1 else 0) := by
    induction h with
    | nil =>
      obtain ⟨_, y, b, _, rfl⟩ := hf
      exact ⟨fun _ => rfl, fun w => by simp [Sim.new], by simp [Sim.new]⟩
    | @snoc s1 s2 cs' c hcs hs he ih =>
      have hc' : NotForced cs' := fun hm => hc (List.mem_append_left _ hm)
      obtain ⟨i0, i1, i2⟩ := ih hc'
      have hso := sound_calls ht hcs (sound_fresh hf)
      cases hi : s1.inited with
      | true =>
        obtain ⟨j1, _, j3⟩ := inited_call hi (fun e => hc (by rw [e]; simp)) he
        refine ⟨fun hh => (by rw [j1] at hh; cases hh), fun w => ?_, ?_⟩
        · rw [count_setup _ rfl j3]
          exact i1 w
        · rw [count_setup _ rfl j3, i2, hi, j1]
      | false =>
        rcases fresh_call ht hso hi he with ⟨j1, j2, _⟩ | ⟨s3, j1, j2, _, j4⟩
        · exact ⟨fun _ => j2.trans (i0 hi), fun w => by rw [j2]; exact i1 w, by rw [j2, i2, hi, j1]⟩
        · obtain ⟨_, p, hr, h1⟩ := hso
          obtain ⟨p', L, _, _, ht', _, _, _, _, hle, _⟩ := C147_pass ht hr h1 hi j1
          rw [i0 hi] at ht'
          refine ⟨fun hh => (by rw [j2] at hh; cases hh), fun w => ?_, ?_⟩
          · rw [count_setup _ rfl j4, ht']
            cases w with
            | env => rw [count_env_pass]; simp
            | obj x =>
              rw [count_init_pass]
              simpa using hle x
          · rw [count_setup _ rfl j4, ht', count_env_pass, j2]
            simp
  exact key.2

end Frydom.Core.Simulation
