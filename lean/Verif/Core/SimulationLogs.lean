import Verif.Core.SimulationProps

/-!
# Locked bodies, rows of the logs, kinds of contact (C147, C148, C149)
-/

namespace Frydom.Core.Simulation
open Frydom.Core.Registry Frydom.Geom
open Frydom.Cable (runAll)

/-! ## What the initialization of objects does -/

/-- What a locked body `b` does (core/body/FrBody.cpp:1042-1071): the node `n` on it, the node `w` on the world body, the link `l`. -/
def lockOps (b n w l : ℕ) : List Op := [.newNode b n, .newNode 1 w, .add l]

/-- What a catenary line does (cable/FrCatenaryLine.cpp:281-294): a force on each of the two bodies. -/
def lineOps (a fa b fb : ℕ) : List Op := [.addForce a fa, .addForce b fb]

/-- The initializations of the code: nothing, a locked body, a catenary line between bodies of the system. -/
def Usual (P : Prog) : Prop := P.objs.kind 1 = .body ∧ ∀ x s, P.onInit x s = [] ∨
  (P.objs.kind x = .body ∧ ∃ n w l, P.onInit x s = lockOps x n w l ∧ P.objs.kind n = .node ∧ P.objs.parent n = x ∧ n ≠ 0 ∧ P.objs.kind w = .node ∧ P.objs.parent w = 1 ∧ w ≠ 0 ∧
    P.objs.kind l = .link ∧ l ≠ 0) ∨
  (P.objs.kind x = .catenaryLine ∧ ∃ a fa b fb, P.onInit x s = lineOps a fa b fb ∧ a ∈ s.lst .bodies ∧ b ∈ s.lst .bodies ∧ P.objs.kind fa = .force ∧ P.objs.parent fa = a ∧ fa ≠ 0 ∧
    P.objs.kind fb = .force ∧ P.objs.parent fb = b ∧ fb ≠ 0)

theorem runAll_cons {O : Objs} {s s' : Sys} {o : Op} {os : List Op} (h : runAll O s (o :: os) = .ok s') : ∃ s1, o.run O s = .ok s1 ∧ runAll O s1 os = .ok s' := by
  unfold runAll at h
  split at h
  · rename_i s1 h1
    exact ⟨s1, h1, h⟩
  · rename_i r hr
    rw [h] at hr
    exact absurd rfl (hr s')

theorem runAll_nil {O : Objs} {s s' : Sys} (h : runAll O s [] = .ok s') : s' = s := (Out.ok.inj h).symm

theorem body_of_mem {O : Objs} {s : Sys} {p : Spec} (hr : Runs O s p) {b : ℕ} (h : b ∈ s.lst .bodies) : p.here b ∧ O.kind b = .body := by
  obtain ⟨h1, h2⟩ := ((inv_runs hr).lst _ b).mp h
  refine ⟨h1, ?_⟩
  cases hk : O.kind b <;> rw [hk] at h2 <;> first | rfl | cases h2

theorem lst_add {O : Objs} {s s' : Sys} {x : ℕ} {c : Cat} (hc : (O.kind x).cat = some c) (h : s.add O x = .ok s') : ∀ c', c' ≠ c → s'.lst c' = s.lst c' := by
  intro c' hne
  unfold Sys.add at h
  rw [hc] at h
  simp only [] at h
  have e : (s.push O c x).lst c' = s.lst c' := set_ne _ _ hne
  split_ifs at h <;> have := Out.ok.inj h <;> subst this
  · rw [(log_rest _ x).1]; exact e
  · exact e
  · rw [(log_rest _ x).1]; exact e
  · exact e

/-- **C147, what the code does.** Locked bodies and catenary lines do to the containers only what the loops of the initialization allow. -/
theorem C147_tame {P : Prog} (h : Usual P) : Tame P := by
  obtain ⟨hw1, h⟩ := h
  intro x c s p s' hr h1 hx hc he
  rcases h x s with e | ⟨hk, n, w, l, e, kn, pn, n0, kw, pw, w0, kl, l0⟩ | ⟨hk, a, fa, b, fb, e, ha, hb, ka, pa, a0, kb, pb, b0⟩
  · rw [e] at he
    rw [runAll_nil he]
    exact ⟨p, hr, fun _ h => h, fun _ _ => rfl, fun _ => rfl, fun _ => ⟨[], by simp⟩⟩
  · rw [e] at he
    obtain ⟨s1, r1, he⟩ := runAll_cons he
    obtain ⟨s2, r2, he⟩ := runAll_cons he
    obtain ⟨s3, r3, he⟩ := runAll_cons he
    rw [runAll_nil he]
    have q1 := Runs.call (.newNode x n) hr ⟨hk, hx, kn, pn, n0⟩ r1
    have q2 := Runs.call (.newNode 1 w) q1 ⟨hw1, h1, kw, pw, w0⟩ r2
    have q3 := Runs.call (.add l) q2 l0 r3
    obtain ⟨n1, l1, f1⟩ := nodes_newNode r1
    obtain ⟨n2, l2, f2⟩ := nodes_newNode r2
    obtain ⟨n3, f3⟩ := nodes_add r3
    have hcb : c = .bodies := by
      rw [hk] at hc
      exact (Option.some.inj hc).symm
    have hlk : (P.objs.kind l).cat = some .links := by rw [kl]; rfl
    refine ⟨_, q3, fun y hy => Or.inl hy, fun c' hc' => ?_, fun _ => by rw [f3, f2, f1], fun b => ?_⟩
    · have hne : c' ≠ .links := by
        rintro rfl
        rw [hcb] at hc'
        exact absurd hc' (by decide)
      rw [lst_add hlk r3 c' hne, l2, l1]
    · rw [n3, n2]
      have step : ∀ (f : ℕ → List ℕ) (a y : ℕ), ∃ e, set f a (f a ++ [y]) b = f b ++ e := by
        intro f a y
        by_cases hb : b = a
        · subst hb
          rw [set_same]
          exact ⟨_, rfl⟩
        · rw [set_ne _ _ hb]
          exact ⟨[], by simp⟩
      obtain ⟨e1, h1⟩ := step s1.nodes 1 w
      obtain ⟨e2, h2⟩ := step s.nodes x n
      rw [h1, n1, h2, List.append_assoc]
      exact ⟨_, rfl⟩
  · rw [e] at he
    obtain ⟨s1, r1, he⟩ := runAll_cons he
    obtain ⟨s2, r2, he⟩ := runAll_cons he
    rw [runAll_nil he]
    obtain ⟨ha1, ha2⟩ := body_of_mem hr ha
    obtain ⟨hb1, hb2⟩ := body_of_mem hr hb
    have q1 := Runs.call (.addForce a fa) hr ⟨ha2, ha1, ka, pa, a0⟩ r1
    have q2 := Runs.call (.addForce b fb) q1 ⟨hb2, hb1, kb, pb, b0⟩ r2
    obtain ⟨n1, l1⟩ := nodes_addForce r1
    obtain ⟨n2, l2⟩ := nodes_addForce r2
    have hcb : c = .prePhysics := by
      rw [hk] at hc
      exact (Option.some.inj hc).symm
    refine ⟨_, q2, fun y hy => hy, fun c' _ => by rw [l2, l1], fun h => ?_, fun b => ⟨[], by rw [n2, n1]; simp⟩⟩
    rw [hcb] at h
    exact absurd h (by decide)

/-! ## A second initialization -/

theorem paths_op {O : Objs} {s s' : Sys} {o : Op} (h : o.run O s = .ok s') : ∀ q, q ∈ s.paths → q ∈ s'.paths := by
  intro q hq
  cases o with
  | add x => exact (paths_add h).1 q hq
  | remove x => rw [paths_remove h]; exact hq
  | addForce b f => rw [(paths_addForce h).1]; exact List.mem_cons_of_mem _ hq
  | newNode b f => rw [(paths_newNode h).1]; exact List.mem_cons_of_mem _ hq
  | removeForce b f => rw [paths_removeForce h]; exact hq

theorem paths_runAll {O : Objs} : ∀ (os : List Op) (s s' : Sys), runAll O s os = .ok s' → ∀ q, q ∈ s.paths → q ∈ s'.paths
  | [], s, s', h, q, hq => by rw [runAll_nil h]; exact hq
  | o :: os, s, s', h, q, hq => by
    obtain ⟨s1, h1, h2⟩ := runAll_cons h
    exact paths_runAll os s1 s' h2 q (paths_op h1 q hq)

theorem paths_initList {P : Prog} {c : Cat} : ∀ (l : List ℕ) (s s' : Sim), s.initList P c l = .ok s' → ∀ q, q ∈ s.sys.paths → q ∈ s'.sys.paths
  | [], s, s', h, q, hq => by have := Res.ok.inj h; subst this; exact hq
  | x :: l, s, s', h, q, hq => by
    obtain ⟨s1, e1, e2⟩ := bind_ok h
    exact paths_initList l s1 s' e2 q (paths_runAll _ _ _ (initOne_ok e1).1 q hq)

theorem paths_initCats {P : Prog} : ∀ (cs : List Cat) (s s' : Sim), s.initCats P cs = .ok s' → ∀ q, q ∈ s.sys.paths → q ∈ s'.sys.paths
  | [], s, s', h, q, hq => by have := Res.ok.inj h; subst this; exact hq
  | c :: cs, s, s', h, q, hq => by
    obtain ⟨s1, e1, e2⟩ := bind_ok h
    exact paths_initCats cs s1 s' e2 q (paths_initList _ _ _ e1 q hq)

/-- A body with locked degrees of freedom: its initialization starts by making a node whose path is `q` (core/body/FrBody.cpp:1049: a name made from that of the body). -/
def Locked (P : Prog) (b : ℕ) (q : List Char) : Prop := P.objs.kind b = .body ∧ ∀ s, ∃ n rest, P.onInit b s = .newNode b n :: rest ∧ P.objs.path n = q

theorem locked_initOne {P : Prog} {b : ℕ} {q : List Char} (hl : Locked P b q) {c : Cat} {s s' : Sim} (h : s.initOne P c b = .ok s') : q ∉ s.sys.paths ∧ q ∈ s'.sys.paths := by
  obtain ⟨n, rest, e, hq⟩ := hl.2 s.sys
  have h1 := (initOne_ok h).1
  rw [e] at h1
  obtain ⟨s1, r1, r2⟩ := runAll_cons h1
  obtain ⟨a, b⟩ := paths_newNode r1
  rw [hq] at a b
  exact ⟨b, paths_runAll _ _ _ r2 q (by rw [a]; exact List.mem_cons_self)⟩

theorem locked_initList {P : Prog} {b : ℕ} {q : List Char} (hl : Locked P b q) {c : Cat} : ∀ (l : List ℕ) (s s' : Sim), s.initList P c l = .ok s' → b ∈ l → q ∉ s.sys.paths ∧ q ∈ s'.sys.paths
  | x :: l, s, s', h, hb => by
    obtain ⟨s1, e1, e2⟩ := bind_ok h
    by_cases hx : b = x
    · subst hx
      obtain ⟨h1, h2⟩ := locked_initOne hl e1
      exact ⟨h1, paths_initList _ _ _ e2 q h2⟩
    · obtain ⟨h1, h2⟩ := locked_initList hl l s1 s' e2 ((List.mem_cons.mp hb).resolve_left hx)
      exact ⟨fun hq => h1 (paths_runAll _ _ _ (initOne_ok e1).1 q hq), h2⟩

theorem start_paths {P : Prog} {s s' : Sim} (h : s.start P = .ok s') : ∀ q, q ∈ s.sys.paths → q ∈ s'.sys.paths := by
  intro q hq
  cases hi : s.inited with
  | true => rw [start_inited hi] at h; have := Res.ok.inj h; subst this; exact hq
  | false =>
    unfold Sim.start at h
    rw [hi] at h
    simp only [Bool.false_eq_true, if_false] at h
    obtain ⟨s1, e1, e2⟩ := bind_ok h
    have := Res.ok.inj e2
    subst this
    have hs : ∀ t : Sim, (t.logInit P).sys = t.sys := by
      intro t
      unfold Sim.logInit
      generalize t.sys.logged = l
      induction l generalizing t with
      | nil => rfl
      | cons y l ih =>
        rw [List.foldl_cons, ih]
        unfold Sim.logInitOne
        split <;> rfl
    show q ∈ (Sim.logInit P _).sys.paths
    rw [hs]
    exact paths_initCats _ _ _ e1 q hq

/-- A pass goes through when the path of the node of a locked body of the system is free, and uses it. -/
theorem locked_start {P : Prog} (ht : Tame P) {b : ℕ} {q : List Char} (hl : Locked P b q) {s s' : Sim} (hs : Sound P s) (hi : s.inited = false) (hb : b ∈ s.sys.lst .bodies)
    (h : s.start P = .ok s') : q ∉ s.sys.paths ∧ q ∈ s'.sys.paths := by
  obtain ⟨hk1, p, hr, h1⟩ := hs
  have h0 := h
  unfold Sim.start at h
  rw [hi] at h
  simp only [Bool.false_eq_true, if_false] at h
  obtain ⟨s1, e1, e2⟩ := bind_ok h
  obtain ⟨t1, f1, e1⟩ := bind_ok e1
  obtain ⟨t2, f2, e1⟩ := bind_ok e1
  obtain ⟨p1, N1, g1, _⟩ := initList_spec ht .prePhysics _ (s.emit [.init .env]) t1 p ((inv_runs hr).nodup _) hr h1 (fun x hx => ((inv_runs hr).lst _ x).mp hx) f1
  have hb1 : b ∈ t1.sys.lst .bodies := (here_iff g1.runs hl.1).mp (g1.here b ((here_iff hr hl.1).mpr hb))
  obtain ⟨a1, a2⟩ := locked_initList hl _ _ _ f2 hb1
  refine ⟨fun hq => a1 (paths_initList _ _ _ f1 q hq), ?_⟩
  have a3 := paths_initCats _ _ _ e1 q a2
  have := Res.ok.inj e2
  have hs : ∀ t : Sim, (t.logInit P).sys = t.sys := by
    intro t
    unfold Sim.logInit
    generalize t.sys.logged = l
    induction l generalizing t with
    | nil => rfl
    | cons y l ih =>
      rw [List.foldl_cons, ih]
      unfold Sim.logInitOne
      split <;> rfl
  rw [← this]
  show q ∈ (Sim.logInit P _).sys.paths
  rw [hs]
  exact a3

theorem paths_call {P : Prog} {s s' : Sim} {c : Call} (e : c.run P s = .ok s') : ∀ q, q ∈ s.sys.paths → q ∈ s'.sys.paths := by
  intro q hq
  cases c with
  | op o =>
    simp only [Call.run] at e
    split at e
    · rename_i y hy
      have := Res.ok.inj e; subst this; exact paths_op hy q hq
    · cases e
    · cases e
  | start => exact start_paths e q hq
  | forceStart => exact start_paths (s := { s with inited := false }) e q hq
  | step h =>
    obtain ⟨s1, e1, e2⟩ := step_ok e
    have : s'.sys = s1.sys := by
      rw [e2]
      split <;> rfl
    rw [this]
    exact start_paths e1 q hq
  | logThis x b => have := Res.ok.inj e; subst this; exact hq
  | setLogFC fc => have := Res.ok.inj e; subst this; exact hq

theorem paths_calls {P : Prog} {s s' : Sim} {cs : List Call} (h : Calls P s cs s') : ∀ q, q ∈ s.sys.paths → q ∈ s'.sys.paths := by
  induction h with
  | nil => exact fun _ h => h
  | snoc c _ _ he ih => exact fun q hq => paths_call he q (ih q hq)

/-- **C147, a second initialization (defect).** A body with locked degrees of freedom makes its nodes again: once a system with such a body was initialized, `ForceInitialize` never returns normally, at any later time,
as long as the body is in the system. -/
theorem C147_forced_locked {P : Prog} (ht : Tame P) {b : ℕ} {q : List Char} (hl : Locked P b q) {s s1 s2 : Sim} {cs : List Call} (hs : Sound P s) (hi : s.inited = false)
    (hb : b ∈ s.sys.lst .bodies) (h1 : s.start P = .ok s1) (hc : Calls P s1 cs s2) (hb2 : b ∈ s2.sys.lst .bodies) : ∀ s3, s2.forceStart P ≠ .ok s3 := by
  intro s3 h3
  have hq := paths_calls hc q (locked_start ht hl hs hi hb h1).2
  have hs1 : Sound P s1 := sound_call (c := .start) ht hs trivial h1
  have hs2 := sound_calls ht hc hs1
  exact (locked_start ht hl (s := { s2 with inited := false }) hs2 rfl hb2 h3).1 hq

/-! ## Rows of the logs -/

/-- The messages after `k` preparations of the log. -/
def gen (P : Prog) (x : ℕ) : ℕ → List (List Char × List (List Char))
  | 0 => []
  | k + 1 => moreMsgs P x (gen P x k)

theorem logInit_count {P : Prog} (ht : Tame P) {s s' : Sim} (hs : Sound P s) (hi : s.inited = false) (h : s.start P = .ok s') (hm : ∀ x, s.msgs x = gen P x (s.trace.count (.logInit x))) :
    (∀ x, s'.msgs x = gen P x (s'.trace.count (.logInit x))) ∧ ∀ x, s'.trace.count (.logInit x) = s.trace.count (.logInit x) + (if x ∈ s'.sys.logged ∧ s.logThis x = true then 1 else 0) := by
  obtain ⟨_, p, hr, h1⟩ := hs
  obtain ⟨p', N, g, _, t, m, _⟩ := start_spec ht hr h1 hi h
  have hc : ∀ x, s'.trace.count (.logInit x) = s.trace.count (.logInit x) + (if x ∈ s'.sys.logged ∧ s.logThis x = true then 1 else 0) := by
    intro x
    rw [t, count_log_pass]
    congr 1
    have hn : (s'.sys.logged.filter fun x => s.logThis x).Nodup := (inv_runs g.runs).logNodup.filter _
    by_cases hx : x ∈ s'.sys.logged ∧ s.logThis x = true
    · rw [if_pos hx]
      exact List.count_eq_one_of_mem hn (List.mem_filter.mpr hx)
    · rw [if_neg hx]
      exact List.count_eq_zero_of_not_mem fun hm => hx (List.mem_filter.mp hm)
  refine ⟨fun x => ?_, hc⟩
  rw [m x, hc x]
  split
  · rw [hm x]; rfl
  · exact hm x

/-- **C148, messages.** After any history, an object has its messages once for every time its log was prepared. -/
theorem gen_calls {P : Prog} (ht : Tame P) {s0 s : Sim} {cs : List Call} (hf : Fresh P s0) (h : Calls P s0 cs s) : ∀ x, s.msgs x = gen P x (s.trace.count (.logInit x)) := by
  induction h with
  | nil =>
    obtain ⟨_, y, b, _, rfl⟩ := hf
    intro x
    rfl
  | @snoc s1 s2 cs' c hcs hs he ih =>
    have hso := sound_calls ht hcs (sound_fresh hf)
    by_cases hc : c = .forceStart
    · subst hc
      exact (logInit_count (s := { s1 with inited := false }) ht hso rfl he ih).1
    · cases hi : s1.inited with
      | true =>
        obtain ⟨_, j2, j3⟩ := inited_call hi hc he
        intro x
        rw [j2, count_setup _ rfl j3]
        exact ih x
      | false =>
        rcases fresh_call ht hso hi he with ⟨_, j2, j3⟩ | ⟨s3, j1, _, j3, j4⟩
        · intro x
          rw [j3, j2]
          exact ih x
        · intro x
          rw [j3, count_setup _ rfl j4]
          exact (logInit_count ht hso hi j1 ih).1 x

/-- What the names are like: paths end with a slash; types and messages have none; what is logged has a registered path (logging/FrPathManager.h:44-49, logging/FrTypeNames.cpp). -/
structure Names (P : Prog) : Prop where
  path : ∀ x, ∃ a, P.objs.path x = a ++ ['/']
  type : ∀ x, '/' ∉ P.typeName x
  msg : ∀ x, ∀ n ∈ P.messages x, '/' ∉ n
  reg : ∀ x, P.objs.loggable x = true → (P.objs.kind x).registers = true

theorem split_last {a b r q : List Char} (hr : '/' ∉ r) (hq : '/' ∉ q) (h : a ++ '/' :: r = b ++ '/' :: q) : a = b ∧ r = q := by
  have h' := congrArg List.reverse h
  simp only [List.reverse_append, List.reverse_cons, List.append_assoc, List.singleton_append] at h'
  obtain ⟨e1, e2⟩ := split_slash r.reverse q.reverse a.reverse b.reverse (by simpa using hr) (by simpa using hq) (by simpa using h')
  exact ⟨List.reverse_injective e2, List.reverse_injective e1⟩

theorem file_inj {P : Prog} (hn : Names P) {x y : ℕ} {n m : List Char} (hx : n ∈ P.messages x) (hy : m ∈ P.messages y) (h : Sim.file P x n = Sim.file P y m) :
    P.objs.path x = P.objs.path y ∧ P.typeName x ++ n = P.typeName y ++ m := by
  obtain ⟨a, ha⟩ := hn.path x
  obtain ⟨b, hb⟩ := hn.path y
  unfold Sim.file at h
  rw [ha, hb] at h
  have c : '/' ∉ ".csv".toList := by decide
  have e1 : '/' ∉ P.typeName x ++ n ++ ".csv".toList := by
    simp only [List.mem_append, not_or]
    exact ⟨⟨hn.type x, hn.msg x n hx⟩, c⟩
  have e2 : '/' ∉ P.typeName y ++ m ++ ".csv".toList := by
    simp only [List.mem_append, not_or]
    exact ⟨⟨hn.type y, hn.msg y m hy⟩, c⟩
  obtain ⟨q1, q2⟩ := split_last (a := a) (b := b) e1 e2 (by simpa using h)
  rw [ha, hb, q1]
  exact ⟨rfl, List.append_cancel_right q2⟩

theorem logged_registered {P : Prog} (hn : Names P) {s : Sys} {p : Spec} (hr : Runs P.objs s p) {x : ℕ} (hx : x ∈ s.logged) : Registered P.objs p x := by
  rcases ((inv_runs hr).log x).mp hx with a | ⟨a, b⟩ | a
  · exact Or.inl a
  · exact Or.inr (Or.inl ⟨a, hn.reg x b⟩)
  · exact Or.inr (Or.inr a)

/-- **C148, files.** Two messages of objects logged in a system are never written to the same file. -/
theorem C148_files {P : Prog} (hn : Names P) {s : Sys} {p : Spec} (hr : Runs P.objs s p) {x y : ℕ} (hx : x ∈ s.logged) (hy : y ∈ s.logged) {n m : List Char}
    (hxn : n ∈ P.messages x) (hym : m ∈ P.messages y) (h : Sim.file P x n = Sim.file P y m) : x = y ∧ n = m := by
  obtain ⟨h1, h2⟩ := file_inj hn hxn hym h
  have hxy := C58_no_shared_path hr (logged_registered hn hr hx) (logged_registered hn hr hy) h1
  subst hxy
  exact ⟨rfl, List.append_cancel_left h2⟩

theorem gen_names {P : Prog} {x k : ℕ} : ∀ m ∈ gen P x k, m.1 ∈ P.messages x ∧ ∀ f ∈ m.2, f = Sim.file P x m.1 := by
  induction k with
  | zero => intro m hm; cases hm
  | succ k ih =>
    intro m hm
    simp only [gen, moreMsgs, List.mem_map, List.mem_append] at hm
    obtain ⟨a, ha, rfl⟩ := hm
    have : a.1 ∈ P.messages x ∧ ∀ f ∈ a.2, f = Sim.file P x a.1 := by
      rcases ha with ha | ⟨n, hn, rfl⟩
      · exact ih a ha
      · exact ⟨hn, fun f hf => by cases hf⟩
    refine ⟨this.1, fun f hf => ?_⟩
    rcases List.mem_append.mp hf with hf | hf
    · exact this.2 f hf
    · exact List.mem_singleton.mp hf

theorem gen_countP (P : Prog) (x : ℕ) (n : List Char) (k : ℕ) : (gen P x k).countP (fun m => m.1 = n) = k * (P.messages x).count n := by
  induction k with
  | zero => simp [gen]
  | succ k ih =>
    have h2 : ∀ l : List (List Char), (l.map fun n => ((n, []) : List Char × List (List Char))).countP (fun m => m.1 = n) = l.count n := by
      intro l
      rw [List.countP_map, List.count]
      congr 1
      funext a
      show decide (a = n) = (a == n)
      by_cases h : a = n <;> simp [h]
    have h3 : ∀ l : List (List Char × List (List Char)), (l.map fun m => (m.1, m.2 ++ [Sim.file P x m.1])).countP (fun m => m.1 = n) = l.countP (fun m => m.1 = n) := by
      intro l
      rw [List.countP_map]
      rfl
    simp only [gen, moreMsgs]
    rw [h3, List.countP_append, h2, ih]
    ring

/-- The rows of a list of messages. -/
def rowsOf (l : List (List Char × List (List Char))) : List Ev := l.flatMap fun m => m.2.map .row

theorem rowsOf_more (P : Prog) (x : ℕ) (n : List Char) : ∀ l : List (List Char × List (List Char)),
    (rowsOf (l.map fun (m : List Char × List (List Char)) => (m.1, m.2 ++ [Sim.file P x m.1]))).count (.row (Sim.file P x n)) = (rowsOf l).count (.row (Sim.file P x n)) + l.countP (fun m => m.1 = n)
  | [] => rfl
  | m :: l => by
    have ih := rowsOf_more P x n l
    have e : ∀ a b : List Char, Sim.file P x a = Sim.file P x b ↔ a = b := by
      intro a b
      constructor
      · intro h
        unfold Sim.file at h
        exact List.append_cancel_left (List.append_cancel_right h)
      · rintro rfl; rfl
    unfold rowsOf at *
    rw [List.map_cons, List.flatMap_cons, List.flatMap_cons, List.count_append, List.count_append, List.countP_cons, ih]
    have : (m.2 ++ [Sim.file P x m.1]).map Ev.row = m.2.map .row ++ [.row (Sim.file P x m.1)] := by simp
    show ((m.2 ++ [Sim.file P x m.1]).map Ev.row).count _ + _ = _
    rw [this, List.count_append, List.count_singleton]
    have hd : (Ev.row (Sim.file P x m.1) == Ev.row (Sim.file P x n)) = decide (m.1 = n) := by
      by_cases h : m.1 = n
      · simp [h]
      · have : ¬ Sim.file P x m.1 = Sim.file P x n := fun hh => h ((e _ _).mp hh)
        simp [h, this]
    rw [hd]
    by_cases h : m.1 = n <;> simp [h] <;> omega

theorem rowsOf_gen (P : Prog) (x : ℕ) (n : List Char) (k : ℕ) : 2 * (rowsOf (gen P x k)).count (.row (Sim.file P x n)) = (P.messages x).count n * (k * (k + 1)) := by
  induction k with
  | zero => simp [gen, rowsOf]
  | succ k ih =>
    have h0 : ∀ l : List (List Char), (rowsOf (l.map fun n => ((n, []) : List Char × List (List Char)))).count (.row (Sim.file P x n)) = 0 := by
      intro l
      refine List.count_eq_zero_of_not_mem ?_
      simp [rowsOf]
    have h1 : ∀ l l' : List (List Char × List (List Char)), rowsOf (l ++ l') = rowsOf l ++ rowsOf l' := by
      intro l l'
      unfold rowsOf
      rw [List.flatMap_append]
    have h2 := gen_countP P x n (k + 1)
    have h3 : (gen P x (k + 1)).countP (fun m => m.1 = n) = (gen P x k ++ (P.messages x).map fun n => ((n, []) : List Char × List (List Char))).countP (fun m => m.1 = n) := by
      simp only [gen, moreMsgs]
      rw [List.countP_map]
      rfl
    simp only [gen, moreMsgs]
    rw [rowsOf_more, h1, List.count_append, h0, ← h3, h2, Nat.mul_add, Nat.mul_add, ih]
    ring

theorem rowsOf_other {P : Prog} {x y k : ℕ} {n : List Char} (h : ∀ m ∈ P.messages y, Sim.file P y m ≠ Sim.file P x n) : (rowsOf (gen P y k)).count (.row (Sim.file P x n)) = 0 := by
  refine List.count_eq_zero_of_not_mem fun hm => ?_
  obtain ⟨m, hm1, hm2⟩ := List.mem_flatMap.mp hm
  obtain ⟨f, hf, e⟩ := List.mem_map.mp hm2
  obtain ⟨a, b⟩ := gen_names m hm1
  have : f = Sim.file P x n := by injection e
  exact h m.1 a ((b f hf).symm.trans this)

/-- Rows written by one step. -/
theorem step_rows {P : Prog} (ht : Tame P) (hn : Names P) {s0 s s' : Sim} {cs : List Call} (hf : Fresh P s0) (hc : Calls P s0 cs s) (hi : s.inited = true) (hsm : s.smooth = true) (dt : ℝ)
    (h : s.step P dt = .ok s') (x : ℕ) (n : List Char) (hxn : n ∈ P.messages x) (hreg : x ∈ s.sys.logged ∨ ∀ y ∈ s.sys.logged, P.objs.path y ≠ P.objs.path x) :
    s'.trace.count (.row (Sim.file P x n)) = s.trace.count (.row (Sim.file P x n)) +
      if x ∈ s.sys.logged ∧ s.logThis x = true then (rowsOf (gen P x (s.trace.count (.logInit x)))).count (.row (Sim.file P x n)) else 0 := by
  obtain ⟨s1, e1, e2⟩ := step_ok h
  rw [start_inited hi] at e1
  have := Res.ok.inj e1
  subst this
  rw [if_pos hsm] at e2
  subst e2
  have hm := gen_calls ht hf hc
  obtain ⟨_, p, hr, h1⟩ := sound_calls ht hc (sound_fresh hf)
  unfold Sim.stepFinalize Sim.emit
  show (s.trace ++ (Ev.fin .env :: _ ++ s.sys.logged.flatMap _)).count _ = _
  rw [List.count_append, List.cons_append, List.count_cons, List.count_append]
  have z1 : ((order.flatMap fun c => (s.sys.lst c).flatMap (Sim.visit s.sys c)).map fun y => Ev.fin (.obj y)).count (.row (Sim.file P x n)) = 0 :=
    List.count_eq_zero_of_not_mem (by simp)
  have z2 : (Ev.fin .env == Ev.row (Sim.file P x n)) = false := by simp
  have hrow : ∀ y, (({ s with time := s.time + dt, envTime := s.time + dt } : Sim).rows y) = if s.logThis y then rowsOf (gen P y (s.trace.count (.logInit y))) else [] := by
    intro y
    unfold Sim.rows
    show (if s.logThis y then (s.msgs y).flatMap _ else []) = _
    rw [hm y]
    rfl
  have z3 : (s.sys.logged.flatMap ({ s with time := s.time + dt, envTime := s.time + dt } : Sim).rows).count (.row (Sim.file P x n)) =
      if x ∈ s.sys.logged ∧ s.logThis x = true then (rowsOf (gen P x (s.trace.count (.logInit x)))).count (.row (Sim.file P x n)) else 0 := by
    have other : ∀ y ∈ s.sys.logged, y ≠ x → (({ s with time := s.time + dt, envTime := s.time + dt } : Sim).rows y).count (.row (Sim.file P x n)) = 0 := by
      intro y hy hyx
      rw [hrow]
      split
      · refine rowsOf_other fun m hm' he => ?_
        rcases hreg with hx | hx
        · exact hyx (C148_files hn hr hy hx hm' hxn he).1
        · exact hx y hy (file_inj hn hm' hxn he).1
      · rfl
    rw [List.count_flatMap]
    by_cases hx : x ∈ s.sys.logged
    · have hnd := (inv_runs hr).logNodup
      obtain ⟨l1, l2, hl⟩ := List.append_of_mem hx
      rw [hl] at hnd other ⊢
      have hn1 : ∀ y ∈ l1, y ≠ x := by
        intro y hy e
        subst e
        exact (List.nodup_append.mp hnd).2.2 y hy y List.mem_cons_self rfl
      have hn2 : ∀ y ∈ l2, y ≠ x := by
        intro y hy e
        subst e
        exact (List.nodup_cons.mp (List.nodup_append.mp hnd).2.1).1 hy
      have s1 : (l1.map (List.count (Ev.row (Sim.file P x n)) ∘ ({ s with time := s.time + dt, envTime := s.time + dt } : Sim).rows)).sum = 0 := by
        refine List.sum_eq_zero ?_
        intro a ha
        obtain ⟨y, hy, rfl⟩ := List.mem_map.mp ha
        exact other y (List.mem_append_left _ hy) (hn1 y hy)
      have s2 : (l2.map (List.count (Ev.row (Sim.file P x n)) ∘ ({ s with time := s.time + dt, envTime := s.time + dt } : Sim).rows)).sum = 0 := by
        refine List.sum_eq_zero ?_
        intro a ha
        obtain ⟨y, hy, rfl⟩ := List.mem_map.mp ha
        exact other y (List.mem_append_right _ (List.mem_cons_of_mem _ hy)) (hn2 y hy)
      rw [List.map_append, List.sum_append, List.map_cons, List.sum_cons, s1, s2]
      simp only [Function.comp, hrow, zero_add, add_zero]
      by_cases hl : s.logThis x = true
      · simp [hl]
      · simp [hl]
    · rw [if_neg (fun hh => hx hh.1)]
      refine List.sum_eq_zero ?_
      intro a ha
      obtain ⟨y, hy, rfl⟩ := List.mem_map.mp ha
      exact other y hy (fun e => hx (e ▸ hy))
  rw [z1, z3, z2]
  simp

/-- **C148, rows of a step.** In any history, a step writes to the file of a message of a logged object `k (k + 1) / 2` rows, where `k` is the number of times the log of the object was prepared: one row after the normal
single initialization, and (defect) three after one `ForceInitialize`, six after two. An object with `LogThis(false)`, or removed, writes nothing. -/
theorem C148_step {P : Prog} (ht : Tame P) (hn : Names P) {s0 s s' : Sim} {cs : List Call} (hf : Fresh P s0) (hc : Calls P s0 cs s) (hi : s.inited = true) (hsm : s.smooth = true) (dt : ℝ)
    (h : s.step P dt = .ok s') (x : ℕ) (n : List Char) (hx : x ∈ s.sys.logged) (hone : (P.messages x).count n = 1) :
    (s.logThis x = true → 2 * (s'.trace.count (.row (Sim.file P x n)) - s.trace.count (.row (Sim.file P x n))) = s.trace.count (.logInit x) * (s.trace.count (.logInit x) + 1)) ∧
    (s.logThis x = false → s'.trace.count (.row (Sim.file P x n)) = s.trace.count (.row (Sim.file P x n))) := by
  have hxn : n ∈ P.messages x := List.count_pos_iff.mp (by omega)
  have hr := step_rows ht hn hf hc hi hsm dt h x n hxn (Or.inl hx)
  constructor
  · intro hl
    rw [if_pos ⟨hx, hl⟩] at hr
    rw [hr, Nat.add_sub_cancel_left, rowsOf_gen, hone, one_mul]
  · intro hl
    rw [if_neg (fun hh => by rw [hl] at hh; cases hh.2)] at hr
    exact hr

/-- Only steps. -/
def OnlySteps (cs : List Call) : Prop := ∀ c ∈ cs, ∃ h, c = .step h

theorem calls_append {P : Prog} {s s1 s2 : Sim} {cs ds : List Call} (h : Calls P s cs s1) (k : Calls P s1 ds s2) : Calls P s (cs ++ ds) s2 := by
  induction k with
  | nil => simpa using h
  | snoc c _ hs he ih =>
    rw [← List.append_assoc]
    exact Calls.snoc c ih hs he

/-- **C148, a simulation.** After a first initialization during which the object was in the system and logged, `m` steps write exactly `m` rows to the file of each of its messages, and nothing was written before. -/
theorem C148_run {P : Prog} (ht : Tame P) (hn : Names P) {s0 s s1 s2 : Sim} {cs ds : List Call} (hf : Fresh P s0) (hsm0 : s0.smooth = true) (hc : Calls P s0 cs s) (hi : s.inited = false) (hnf : NotForced cs)
    (h1 : s.start P = .ok s1) (hd : Calls P s1 ds s2) (hst : OnlySteps ds) (x : ℕ) (n : List Char) (hx : x ∈ s1.sys.logged) (hl : s.logThis x = true) (hone : (P.messages x).count n = 1) :
    s2.trace.count (.row (Sim.file P x n)) = ds.length := by
  have hxn : n ∈ P.messages x := List.count_pos_iff.mp (by omega)
  -- nothing before
  have base : ∀ {cs : List Call} {s : Sim}, Calls P s0 cs s → s.inited = false → NotForced cs → s.trace = [] := by
    intro cs s hc
    induction hc with
    | nil =>
      obtain ⟨_, y, b, _, rfl⟩ := hf
      exact fun _ _ => rfl
    | @snoc t1 t2 cs' c hcs hs he ih =>
      intro hi hnf
      have hnf' : NotForced cs' := fun hm => hnf (List.mem_append_left _ hm)
      cases hi1 : t1.inited with
      | true => rw [(inited_call hi1 (fun e => hnf (by rw [e]; simp)) he).1] at hi; cases hi
      | false =>
        rcases fresh_call ht (sound_calls ht hcs (sound_fresh hf)) hi1 he with ⟨_, j2, _⟩ | ⟨_, _, j2, _⟩
        · rw [j2]; exact ih hi1 hnf'
        · rw [hi] at j2; cases j2
  have smooth : ∀ {cs : List Call} {s : Sim}, Calls P s0 cs s → s.smooth = true := by
    intro cs s hc
    induction hc with
    | nil => exact hsm0
    | @snoc t1 t2 cs' c hcs hs he ih =>
      have hso := sound_calls ht hcs (sound_fresh hf)
      have hstart : ∀ {t t' : Sim}, Sound P t → t.start P = .ok t' → t'.smooth = t.smooth := by
        intro t t' hs ht'
        cases hti : t.inited with
        | true => rw [start_inited hti] at ht'; have := Res.ok.inj ht'; subst this; rfl
        | false =>
          obtain ⟨_, p, hr, h1⟩ := hs
          obtain ⟨_, _, _, _, _, _, _, _, _, q, _⟩ := start_spec ht hr h1 hti ht'
          exact q
      cases c with
      | op o =>
        simp only [Call.run] at he
        split at he
        · have := Res.ok.inj he; subst this; exact ih
        · cases he
        · cases he
      | start => exact (hstart hso he).trans ih
      | forceStart => exact (hstart (t := { t1 with inited := false }) hso he).trans ih
      | step h =>
        obtain ⟨s1, e1, e2⟩ := step_ok he
        have q := (hstart hso e1).trans ih
        rw [e2, if_pos q]
        exact q
      | logThis x b => have := Res.ok.inj he; subst this; exact ih
      | setLogFC fc => have := Res.ok.inj he; subst this; exact ih
  have ht0 := base hc hi hnf
  have hso := sound_calls ht hc (sound_fresh hf)
  obtain ⟨hm1, hc1⟩ := logInit_count ht hso hi h1 (gen_calls ht hf hc)
  have k1 : s1.trace.count (.logInit x) = 1 := by rw [hc1 x, ht0, if_pos ⟨hx, hl⟩]; rfl
  obtain ⟨_, p, hr, hw⟩ := hso
  obtain ⟨p', L, _, hi1, htr, _⟩ := C147_pass ht hr hw hi h1
  have r1 : s1.trace.count (.row (Sim.file P x n)) = 0 := by
    rw [htr, ht0]
    refine List.count_eq_zero_of_not_mem ?_
    simp
  have hlt : s1.logThis = s.logThis := by
    obtain ⟨_, _, _, _, _, _, _, q, _⟩ := start_spec ht hr hw hi h1
    exact q
  have hc1' : Calls P s0 (cs ++ [.start]) s1 := Calls.snoc .start hc trivial h1
  -- steps
  have main : s2.trace.count (.row (Sim.file P x n)) = ds.length ∧ s2.sys = s1.sys ∧ s2.logThis = s1.logThis ∧ s2.inited = true ∧ s2.trace.count (.logInit x) = 1 := by
    induction hd with
    | nil => exact ⟨r1, rfl, rfl, hi1, k1⟩
    | @snoc t1 t2 ds' c hds hs he ih =>
      obtain ⟨i1, i2, i3, i4, i5⟩ := ih (fun c hc => hst c (List.mem_append_left _ hc))
      obtain ⟨dt, rfl⟩ := hst c (by simp)
      have hcc := calls_append hc1' hds
      have he' : t1.step P dt = .ok t2 := he
      have hsm1 := smooth hcc
      have q := step_rows ht hn hf hcc i4 hsm1 dt he' x n hxn (Or.inl (by rw [i2]; exact hx))
      rw [if_pos ⟨by rw [i2]; exact hx, by rw [i3, hlt]; exact hl⟩, i5, i1] at q
      have g := rowsOf_gen P x n 1
      rw [hone] at g
      have hsetup := (inited_call i4 (c := .step dt) (by simp) he).2.2
      obtain ⟨s3, e1, e2⟩ := step_ok he'
      rw [start_inited i4] at e1
      have := Res.ok.inj e1
      subst this
      rw [if_pos hsm1] at e2
      refine ⟨?_, ?_, ?_, ?_, ?_⟩
      · rw [q, List.length_append]
        simp only [List.length_singleton]
        omega
      · rw [e2]; exact i2
      · rw [e2]; exact i3
      · rw [e2]; exact i4
      · rw [count_setup _ rfl hsetup]; exact i5
  exact main.1

/-- **C148, late objects (defect).** An object whose log was not prepared by the initialization (added after it, or with `LogThis(false)` during it) is in the log of the system but writes nothing in any later step, whatever
calls were made in between (`LogThis(true)`, `Initialize` included), short of `ForceInitialize`. -/
theorem C148_late {P : Prog} (ht : Tame P) (hn : Names P) {s0 s s1 s2 : Sim} {cs ds : List Call} (hf : Fresh P s0) (hc : Calls P s0 cs s) (hi : s.inited = true) (hd : Calls P s ds s1) (hnf : NotForced ds)
    (hsm : s1.smooth = true) (x : ℕ) (n : List Char) (hxn : n ∈ P.messages x) (hk : s.trace.count (.logInit x) = 0) (hx : x ∈ s1.sys.logged) (dt : ℝ) (h : s1.step P dt = .ok s2) :
    s2.trace.count (.row (Sim.file P x n)) = s1.trace.count (.row (Sim.file P x n)) := by
  obtain ⟨h1, _, h3⟩ := C147_late hd hi hnf
  have q := step_rows ht hn hf (calls_append hc hd) h1 hsm dt h x n hxn (Or.inl hx)
  rw [q, h3, hk]
  simp [gen, rowsOf]

/-- No call but `SetLogFrameConvention` changes a convention. -/
theorem fc_same {P : Prog} (ht : Tame P) {s s' : Sim} {cs : List Call} (hsS : Sound P s) (hc : Calls P s cs s') (hn : ∀ fc', Call.setLogFC fc' ∉ cs) : s'.fc = s.fc := by
  induction hc with
  | nil => rfl
  | @snoc t1 t2 ds' c hds hsn he ih =>
    have i := ih (fun fc' hm => hn fc' (List.mem_append_left _ hm))
    rw [← i]
    have hso := sound_calls ht hds hsS
    have hstart : ∀ {t t' : Sim}, Sound P t → t.start P = .ok t' → t'.fc = t.fc := by
      intro t t' hs ht'
      cases hti : t.inited with
      | true => rw [start_inited hti] at ht'; have := Res.ok.inj ht'; subst this; rfl
      | false =>
        obtain ⟨_, p, hr, h1⟩ := hs
        obtain ⟨_, _, _, _, _, _, _, _, q, _⟩ := start_spec ht hr h1 hti ht'
        exact q
    cases c with
    | op o =>
      simp only [Call.run] at he
      split at he
      · have := Res.ok.inj he; subst this; rfl
      · cases he
      · cases he
    | start => exact hstart hso he
    | forceStart => exact hstart (t := { t1 with inited := false }) hso he
    | step h =>
      obtain ⟨s1, e1, e2⟩ := step_ok he
      have q := hstart hso e1
      rw [e2]
      split
      · exact q
      · exact q
    | logThis x b => have := Res.ok.inj he; subst this; rfl
    | setLogFC fc' => exact absurd (by simp) (hn fc')

/-- **C148, convention of the logs (defect for later objects).** `SetLogFrameConvention` reaches the objects that are in the log of the system at that moment (the system, its loggable objects, what hangs on its bodies)
and no other: whatever follows, short of a new call, objects added later are logged in the convention they had, NWU by default. -/
theorem C148_frame {P : Prog} (ht : Tame P) {s0 s s' : Sim} {cs : List Call} (h0 : Sound P s0) (fc : FC) (hs : s = s0.setLogFC fc) (hc : Calls P s cs s') (hn : ∀ fc', Call.setLogFC fc' ∉ cs) :
    ∃ p, Runs P.objs s0.sys p ∧ ∀ x, ((x = 0 ∨ (p.here x ∧ P.objs.loggable x = true) ∨ ∃ b, p.hangs b x) → s'.fc x = fc) ∧
      (¬ (x = 0 ∨ (p.here x ∧ P.objs.loggable x = true) ∨ ∃ b, p.hangs b x) → s'.fc x = s0.fc x) := by
  have hsS : Sound P s := by rw [hs]; exact h0
  have same : s'.fc = s.fc := fc_same ht hsS hc hn
  obtain ⟨_, p, hr, _⟩ := h0
  refine ⟨p, hr, fun x => ?_⟩
  rw [same, hs]
  unfold Sim.setLogFC
  have hl := (inv_runs hr).log x
  constructor
  · intro h
    exact if_pos (hl.mpr h)
  · intro h
    exact if_neg fun hm => h (hl.mp hm)

/-- **C148, convention by default.** Without a call of `SetLogFrameConvention` everything is logged in the convention NWU. -/
theorem C148_default_frame {P : Prog} (ht : Tame P) {s0 s : Sim} {cs : List Call} (hf : Fresh P s0) (hc : Calls P s0 cs s) (hn : ∀ fc', Call.setLogFC fc' ∉ cs) (x : ℕ) : s.fc x = .NWU := by
  rw [fc_same ht (sound_fresh hf) hc hn]
  obtain ⟨_, sys, b, _, rfl⟩ := hf
  rfl

/-! ## Contacts -/

/-- The events of the end of a step. -/
def Ev.ending : Ev → Bool
  | .fin _ => true
  | .row _ => true
  | _ => false

/-- The steps of a history. -/
def dts : List Call → List ℝ
  | [] => []
  | .step h :: cs => h :: dts cs
  | _ :: cs => dts cs

theorem dts_append (a b : List Call) : dts (a ++ b) = dts a ++ dts b := by
  induction a with
  | nil => rfl
  | cons c a ih => cases c <;> simp [dts, ih]

/-- **C149, non smooth contacts (defect).** In a system with non smooth contacts the time goes on with the steps, but no object is ever finalized, no row is ever written to a log, and the environment keeps the time it
had (so that time-dependent waves, wind and current stay as at the beginning). -/
theorem C149_nonsmooth {P : Prog} (ht : Tame P) {s s' : Sim} {cs : List Call} (h0 : Sound P s) (hns : s.smooth = false) (hc : Calls P s cs s') :
    s'.time = s.time + (dts cs).sum ∧ s'.envTime = s.envTime ∧ (∀ w, s'.trace.count (.fin w) = s.trace.count (.fin w)) ∧ ∀ f, s'.trace.count (.row f) = s.trace.count (.row f) := by
  have hstart : ∀ {t t' : Sim}, Sound P t → t.smooth = false → t.start P = .ok t' →
      t'.smooth = false ∧ t'.time = t.time ∧ t'.envTime = t.envTime ∧ t'.trace.filter Ev.ending = t.trace.filter Ev.ending := by
    intro t t' hs hsm ht'
    cases hti : t.inited with
    | true => rw [start_inited hti] at ht'; have := Res.ok.inj ht'; subst this; exact ⟨hsm, rfl, rfl, rfl⟩
    | false =>
      obtain ⟨_, p, hr, h1⟩ := hs
      obtain ⟨p', N, _, _, q1, _, _, _, _, q2, q3, q4⟩ := start_spec ht hr h1 hti ht'
      refine ⟨q2.trans hsm, q3, by rw [q4, hsm]; rfl, ?_⟩
      rw [q1, List.filter_append, List.filter_append]
      have z : ∀ (L G : List ℕ), (Ev.init .env :: (L.map fun y => Ev.init (.obj y))).filter Ev.ending = [] ∧ (G.map Ev.logInit).filter Ev.ending = [] := by
        intro L G
        constructor
        · rw [List.filter_eq_nil_iff]
          intro e he
          simp only [List.mem_cons, List.mem_map] at he
          rcases he with rfl | ⟨y, _, rfl⟩ <;> simp [Ev.ending]
        · rw [List.filter_eq_nil_iff]
          intro e he
          obtain ⟨y, _, rfl⟩ := List.mem_map.mp he
          simp [Ev.ending]
      rw [(z _ []).1, (z [] _).2]
      simp
  have main : s'.smooth = false ∧ s'.time = s.time + (dts cs).sum ∧ s'.envTime = s.envTime ∧ s'.trace.filter Ev.ending = s.trace.filter Ev.ending := by
    induction hc with
    | nil => exact ⟨hns, by simp [dts], rfl, rfl⟩
    | @snoc t1 t2 ds' c hds hsn he ih =>
      obtain ⟨i1, i2, i3, i4⟩ := ih
      have hso := sound_calls ht hds h0
      rw [dts_append]
      cases c with
      | op o =>
        simp only [Call.run] at he
        split at he
        · have := Res.ok.inj he; subst this; exact ⟨i1, by simp [dts, i2], i3, i4⟩
        · cases he
        · cases he
      | start =>
        obtain ⟨j1, j2, j3, j4⟩ := hstart hso i1 he
        exact ⟨j1, by simp [dts, j2, i2], j3.trans i3, j4.trans i4⟩
      | forceStart =>
        obtain ⟨j1, j2, j3, j4⟩ := hstart (t := { t1 with inited := false }) hso i1 he
        exact ⟨j1, by simp [dts, j2, i2], j3.trans i3, j4.trans i4⟩
      | step h =>
        obtain ⟨s1, e1, e2⟩ := step_ok he
        obtain ⟨j1, j2, j3, j4⟩ := hstart hso i1 e1
        rw [if_neg (by rw [j1]; simp)] at e2
        subst e2
        exact ⟨j1, by simp [dts, j2, i2, add_assoc], j3.trans i3, j4.trans i4⟩
      | logThis x b => have := Res.ok.inj he; subst this; exact ⟨i1, by simp [dts, i2], i3, i4⟩
      | setLogFC fc => have := Res.ok.inj he; subst this; exact ⟨i1, by simp [dts]; exact i2, i3, i4⟩
  obtain ⟨_, m2, m3, m4⟩ := main
  have cnt : ∀ e : Ev, e.ending = true → s'.trace.count e = s.trace.count e := by
    intro e he
    rw [← List.count_filter (l := s'.trace) he, m4, List.count_filter he]
  exact ⟨m2, m3, fun w => cnt _ rfl, fun f => cnt _ rfl⟩

/-- **C149, change of contacts (defect).** `SetSystemType` on a built system empties it, the world body included, and brings the time back to zero; but the logs of all the former objects remain: the next step finalizes
no object and writes their rows again. -/
theorem C149_switch {P : Prog} {s s' : Sim} (hn : s.sys.logged.Nodup) (dt : ℝ) (h : (s.setSystemType true).step P dt = .ok s') :
    s'.time = dt ∧ (∀ c, s'.sys.lst c = []) ∧ (∀ x, s'.trace.count (.fin (.obj x)) = s.trace.count (.fin (.obj x))) ∧ (∀ x, s'.trace.count (.init (.obj x)) = s.trace.count (.init (.obj x))) ∧
    ∀ x ∈ s.sys.logged, s.logThis x = true → ∀ n ∈ P.messages x, s.trace.count (.row (Sim.file P x n)) < s'.trace.count (.row (Sim.file P x n)) := by
  obtain ⟨s1, e1, e2⟩ := step_ok h
  unfold Sim.start at e1
  have hin : (s.setSystemType true).inited = false := rfl
  rw [hin] at e1
  simp only [Bool.false_eq_true, if_false] at e1
  obtain ⟨s2, f1, f2⟩ := bind_ok e1
  have hs2 : s2 = (s.setSystemType true).emit [.init .env] := (Res.ok.inj (show Res.ok ((s.setSystemType true).emit [.init .env]) = .ok s2 from f1)).symm
  have f3 := Res.ok.inj f2
  obtain ⟨i1, i2, i3, i4, i5, i6, i7, i8⟩ := logInit_fold (P := P) s2.sys.logged { s2 with envTime := if s2.smooth then s2.time else s2.envTime } (by rw [hs2]; exact hn)
  have g0 : s1.sys = s2.sys := by rw [← f3]; exact i3
  have g1 : s1.trace = s2.trace ++ (s2.sys.logged.filter fun x => s2.logThis x).map .logInit := by rw [← f3]; exact i1
  have g2 : s1.smooth = true := by rw [← f3]; exact i6.trans (by rw [hs2]; rfl)
  have g3 : s1.time = 0 := by rw [← f3]; exact i7.trans (by rw [hs2]; rfl)
  have g4 : s1.logThis = s.logThis := by rw [← f3]; exact i4.trans (by rw [hs2]; rfl)
  have g5 : ∀ x, s1.msgs x = if x ∈ s.sys.logged ∧ s.logThis x = true then moreMsgs P x (s.msgs x) else s.msgs x := by
    intro x
    rw [← f3]
    refine (i2 x).trans ?_
    rw [hs2]
    rfl
  have hsys : s1.sys = s.sys.clear := by rw [g0, hs2]; rfl
  rw [if_pos g2] at e2
  have htr : s'.trace = s.trace ++ ([Ev.init .env] ++ (s2.sys.logged.filter fun x => s2.logThis x).map .logInit ++ [.fin .env] ++
      s.sys.logged.flatMap ({ s1 with time := s1.time + dt, envTime := s1.time + dt } : Sim).rows) := by
    rw [e2]
    unfold Sim.stepFinalize
    show s1.trace ++ (Ev.fin .env :: ((order.flatMap fun c => (s1.sys.lst c).flatMap _).map _) ++ s1.sys.logged.flatMap _) = _
    rw [g1, hs2, hsys]
    have hz : (order.flatMap fun c => (s.sys.clear.lst c).flatMap (Sim.visit s.sys.clear c)) = [] := by simp [Sys.clear]
    show _ ++ (Ev.fin .env :: (List.map _ (order.flatMap fun c => (s.sys.clear.lst c).flatMap (Sim.visit s.sys.clear c))) ++ _) = _
    rw [hz]
    simp [Sim.emit, Sim.setSystemType, Sys.clear]
  have hrw : ∀ x, ∀ e ∈ ({ s1 with time := s1.time + dt, envTime := s1.time + dt } : Sim).rows x, ∃ f, e = Ev.row f := by
    intro x e he
    unfold Sim.rows at he
    split at he
    · obtain ⟨m, _, hm⟩ := List.mem_flatMap.mp he
      obtain ⟨f, _, rfl⟩ := List.mem_map.mp hm
      exact ⟨f, rfl⟩
    · cases he
  have none : ∀ e : Ev, e ≠ .init .env → (∀ x, e ≠ .logInit x) → e ≠ .fin .env → (∀ f, e ≠ .row f) → s'.trace.count e = s.trace.count e := by
    intro e a1 a2 a3 a4
    rw [htr, List.count_append]
    have : ∀ l : List Ev, e ∉ l → l.count e = 0 := fun l h => List.count_eq_zero_of_not_mem h
    refine Nat.add_eq_left.mpr (this _ ?_)
    · simp only [List.mem_append, List.mem_singleton, List.mem_map, List.mem_flatMap, not_or]
      refine ⟨⟨⟨a1, ?_⟩, a3⟩, ?_⟩
      · rintro ⟨y, _, e'⟩
        exact a2 y e'.symm
      · rintro ⟨y, _, hy⟩
        obtain ⟨f, hf⟩ := hrw y e hy
        exact a4 f hf
  refine ⟨by rw [e2]; show s1.time + dt = dt; rw [g3, zero_add], fun c => by rw [e2]; show s1.sys.lst c = []; rw [hsys]; rfl, fun x => none _ (by simp) (by simp) (by simp) (by simp),
    fun x => none _ (by simp) (by simp) (by simp) (by simp), fun x hx hl n hnm => ?_⟩
  rw [htr, List.count_append]
  have hm : Ev.row (Sim.file P x n) ∈ ([Ev.init .env] ++ (s2.sys.logged.filter fun x => s2.logThis x).map .logInit ++ [.fin .env] ++
      s.sys.logged.flatMap ({ s1 with time := s1.time + dt, envTime := s1.time + dt } : Sim).rows) := by
    refine List.mem_append_right _ (List.mem_flatMap.mpr ⟨x, hx, ?_⟩)
    unfold Sim.rows
    show _ ∈ if s1.logThis x then (s1.msgs x).flatMap _ else []
    rw [g4, if_pos hl, g5 x, if_pos ⟨hx, hl⟩]
    refine List.mem_flatMap.mpr ⟨(n, [] ++ [Sim.file P x n]), ?_, by simp⟩
    unfold moreMsgs
    exact List.mem_map.mpr ⟨(n, []), List.mem_append_right _ (List.mem_map.mpr ⟨n, hnm, rfl⟩), rfl⟩
  have := List.count_pos_iff.mpr hm
  omega

/-! ## An example -/

/-- The world body (1), a locked body (2), its nodes (3, 4) and its link (5), a force (6); one message per object. -/
def exProg : Prog :=
  ⟨⟨fun x => if x = 1 ∨ x = 2 then .body else if x = 3 ∨ x = 4 then .node else if x = 5 then .link else if x = 6 then .force else .other, fun x => List.replicate x 'a' ++ ['/'],
      fun x => if x = 4 then 1 else 2, fun _ => true⟩,
    fun x _ => if x = 2 then lockOps 2 3 4 5 else [], fun _ => [['m']], fun _ => ['t']⟩

theorem ex_tame : Tame exProg := C147_tame ⟨by decide, fun x s => by
  by_cases hx : x = 2
  · subst hx
    exact Or.inr (Or.inl ⟨by decide, 3, 4, 5, rfl, by decide, by decide, by decide, by decide, by decide, by decide, by decide, by decide⟩)
  · exact Or.inl (by simp [exProg, hx])⟩

theorem ex_names : Names exProg :=
  ⟨fun x => ⟨_, rfl⟩, fun x => by simp [exProg], fun x n hn => by simp [exProg] at hn; subst hn; decide, fun x _ => by
    simp only [exProg]
    split_ifs <;> rfl⟩

theorem ex_locked : Locked exProg 2 (List.replicate 3 'a' ++ ['/']) := ⟨by decide, fun s => ⟨3, _, rfl, rfl⟩⟩

/-- The state a call leaves when it goes well. -/
noncomputable def Res.get : Res → Sim
  | .ok s => s
  | _ => Sim.new (Sys.init exProg.objs) true

/-- The system of the example, after its constructor. -/
def exSys : Sys :=
  match (Sys.init exProg.objs).add exProg.objs 1 with
  | .ok y => y
  | _ => Sys.init exProg.objs

/-- The system of the example, once its body and the force on it are there. -/
noncomputable def exBuilt : Sim := (Call.run exProg (Call.run exProg (Sim.new exSys true) (.op (.add 2))).get (.op (.addForce 2 6))).get

theorem ex_fresh (b : Bool) : Fresh exProg (Sim.new exSys b) := ⟨by decide, exSys, b, rfl, rfl⟩

/-- The hypotheses of the theorems above are met: a locked body is added, a force put on it, then the system initialized and two steps made. The force is initialized with its body, the link made by the lock is initialized
too, two rows are written for the body and none for the world body. -/
example : ∃ s1 s2 s3, Calls exProg (Sim.new exSys true) [.op (.add 2), .op (.addForce 2 6)] s1 ∧ s1.inited = false ∧ s1.start exProg = .ok s2 ∧ Calls exProg s2 [.step 1, .step 1] s3 ∧
    2 ∈ s2.sys.logged ∧ s1.logThis 2 = true ∧ OnlySteps [Call.step 1, .step 1] ∧
    s2.trace = [.init .env, .init (.obj 1), .init (.obj 2), .init (.obj 6), .init (.obj 5), .logInit 0, .logInit 2, .logInit 6, .logInit 3, .logInit 4, .logInit 5] ∧
    s3.trace.count (.row (Sim.file exProg 2 ['m'])) = 2 ∧ s3.trace.count (.row (Sim.file exProg 1 ['m'])) = 0 ∧ s3.envTime = 1 + 1 := by
  have r0 : Runs exProg.objs exSys _ := Runs.call (.add 1) Runs.init (show (1 : ℕ) ≠ 0 by decide) rfl
  have r1 := Runs.call (O := exProg.objs) (.add 2) r0 (show (2 : ℕ) ≠ 0 by decide) rfl
  have c1 := Calls.snoc (.op (.add 2)) (Calls.nil (P := exProg) (Sim.new exSys true)) ⟨⟨_, r0, show (2 : ℕ) ≠ 0 by decide⟩, by simp⟩ rfl
  have c2 := Calls.snoc (.op (.addForce 2 6)) c1 ⟨⟨_, r1, ⟨by decide, Or.inr ⟨rfl, by decide⟩, by decide, by decide, by decide⟩⟩, by simp⟩ rfl
  have e0 : (exBuilt.start exProg) = .ok (exBuilt.start exProg).get := rfl
  have e1 : Call.run exProg (exBuilt.start exProg).get (.step 1) = .ok (Sim.step exProg 1 (exBuilt.start exProg).get).get := rfl
  have e2 : Call.run exProg (Sim.step exProg 1 (exBuilt.start exProg).get).get (.step 1) = .ok (Sim.step exProg 1 (Sim.step exProg 1 (exBuilt.start exProg).get).get).get := rfl
  refine ⟨exBuilt, _, _, c2, rfl, e0, Calls.snoc (.step 1) (Calls.snoc (.step 1) (Calls.nil (P := exProg) _) trivial e1) trivial e2, ?_, ?_, ?_, ?_, ?_, ?_, ?_⟩
  · decide
  · rfl
  · intro c hc
    simp at hc
    exact ⟨1, hc⟩
  · rfl
  · decide
  · decide
  · show (0 : ℝ) + 1 + 1 = 1 + 1
    ring

theorem ex_sound : Sound exProg exBuilt := by
  have r0 : Runs exProg.objs exSys _ := Runs.call (.add 1) Runs.init (show (1 : ℕ) ≠ 0 by decide) rfl
  have r1 := Runs.call (O := exProg.objs) (.add 2) r0 (show (2 : ℕ) ≠ 0 by decide) rfl
  have c1 := Calls.snoc (.op (.add 2)) (Calls.nil (P := exProg) (Sim.new exSys true)) ⟨⟨_, r0, show (2 : ℕ) ≠ 0 by decide⟩, by simp⟩ rfl
  have c2 : Calls exProg _ _ exBuilt := Calls.snoc (.op (.addForce 2 6)) c1 ⟨⟨_, r1, ⟨by decide, Or.inr ⟨rfl, by decide⟩, by decide, by decide, by decide⟩⟩, by simp⟩ rfl
  exact sound_calls ex_tame c2 (sound_fresh (ex_fresh true))

/-- In the example the second initialization throws. -/
example : ∀ s3, Sim.forceStart exProg (exBuilt.start exProg).get ≠ .ok s3 :=
  C147_forced_locked ex_tame ex_locked ex_sound rfl (by decide) rfl (Calls.nil _) (by decide)

/-- With non smooth contacts, the same start and one step: no row, and the environment still at time zero. -/
example : ∃ s1 s2, Calls exProg (Sim.new exSys false) [.start, .step 1] s2 ∧ s1 = Sim.new exSys false ∧ s2.time = 1 ∧ s2.envTime = 0 := by
  have e0 : Call.run exProg (Sim.new exSys false) .start = .ok (Sim.start exProg (Sim.new exSys false)).get := rfl
  have e1 : Call.run exProg (Sim.start exProg (Sim.new exSys false)).get (.step 1) = .ok (Sim.step exProg 1 (Sim.start exProg (Sim.new exSys false)).get).get := rfl
  have c := Calls.snoc (.step 1) (Calls.snoc .start (Calls.nil (P := exProg) (Sim.new exSys false)) trivial e0) trivial e1
  obtain ⟨h1, h2, _⟩ := C149_nonsmooth ex_tame (sound_fresh (ex_fresh false)) rfl c
  refine ⟨_, _, c, rfl, ?_, h2⟩
  rw [h1]
  show (0 : ℝ) + (dts [Call.start, Call.step 1]).sum = 1
  simp [dts]

end Frydom.Core.Simulation
