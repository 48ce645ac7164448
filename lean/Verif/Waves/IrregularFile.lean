import Verif.Waves.IrregularDirs

/-!
# Irregular wave fields: seeds (C167) and files (C168)
-/

open Classical

noncomputable section

namespace Frydom.Waves
open Real Frydom.Geom Frydom.Seakeeping

variable {seeded : ℤ → ℕ → ℝ} {ops : List (Sea × SetOp)} {sea : Sea} {r : Option (ℝ → ℝ)} {draw : ℕ → ℝ} {f g : Irr}

/-- `GenerateRandomWavePhases(seed)` on an initialised optimised field: inherited (FrAiryIrregularWaveField.cpp:228-255), it replaces the phases and leaves the caches
(FrAiryIrregularOptimWaveField.h:26-30). -/
def Irr.generatePhasesOptim (p : Irr × AiryOptim) (draw : ℕ → ℝ) : Irr × AiryOptim :=
  (p.1.generatePhases draw, { p.2 with base := (p.1.generatePhases draw).view })

/-! ## C167 -/

/-- **C167, reproducible.** After `Initialize`, `GenerateRandomWavePhases(seed)` gives waves that depend on the seed only: two fields built by the same calls have the same elevation, velocity, acceleration and
pressure everywhere and at all later times, whatever the random device drew at `Initialize`; and every phase is the draw of its rank in the sequence of the seed. -/
theorem C167_seed (draw₁ draw₂ : ℕ → ℝ) (g₁ g₂ : Irr) (h₁ : Ready seeded ops sea r draw₁ f g₁) (h₂ : Ready seeded ops sea r draw₂ f g₂) (seed : ℤ) :
    (g₁.generatePhases (seeded seed)).view = (g₂.generatePhases (seeded seed)).view ∧ (g₁.generatePhases (seeded seed)).InBounds ∧
    ∀ i < g₁.view.nbDir, ∀ j < g₁.view.nbFreq, (g₁.generatePhases (seeded seed)).view.phase i j = seeded seed (i * g₁.view.nbFreq + j) := by
  obtain ⟨hin, -⟩ := C165_components h₁
  obtain ⟨min, max, ks, a, dirs, hc, hb, hd, hsp, hw, ha, hg⟩ := Irr.init_ok h₁.inv h₁.inited
  obtain ⟨min', max', ks', a', dirs', hc', hb', hd', hsp', hw', ha', hg'⟩ := Irr.init_ok h₂.inv h₂.inited
  have hbd : min = min' ∧ max = max' := by
    rcases hb with hb | ⟨hb, -, hb2⟩ <;> rcases hb' with hb' | ⟨hb', -, hb2'⟩
    · rw [hb] at hb'; simp only [Option.some.injEq, Prod.mk.injEq] at hb'; exact ⟨hb'.1, hb'.2.1⟩
    · rw [hb] at hb'; cases hb'
    · rw [hb] at hb'; cases hb'
    · rw [hb2] at hb2'; simp only [Outcome.returns.injEq, Prod.mk.injEq] at hb2'; exact hb2'
  obtain ⟨rfl, rfl⟩ := hbd
  have hfq : g₁.freqs = g₂.freqs := by
    apply List.ext_getElem (by rw [hsp.1, hsp'.1])
    intro j h1 h2
    have hj : j < f.nbFreq := by rw [← hsp.1]; exact h1
    have e1 := hsp.2 j hj
    have e2 := hsp'.2 j hj
    rw [List.getD_eq_getElem _ _ h1] at e1
    rw [List.getD_eq_getElem _ _ h2] at e2
    rw [e1, e2]
  have hdd : dirs = dirs' := by rw [hd, hd']
  subst hdd
  rw [← hfq, hw] at hw'
  obtain rfl := Option.some.inj hw'
  rw [← hfq, ha] at ha'
  obtain rfl := Option.some.inj ha'
  have hnbF : g₁.nbFreq = f.nbFreq := by rw [hg]; rfl
  have hph : ∀ i < g₁.view.nbDir, ∀ j < g₁.view.nbFreq, (g₁.generatePhases (seeded seed)).view.phase i j = seeded seed (i * g₁.view.nbFreq + j) := by
    intro i hi j hj
    show ((g₁.generatePhases (seeded seed)).phases.getD i []).getD j 0 = seeded seed (i * g₁.nbFreq + j)
    unfold Irr.generatePhases
    rw [table_get _ _ _ i j (lt_of_lt_of_le hi hin.1) (lt_of_lt_of_le hj hin.2.1), hsp.1, hnbF]
  refine ⟨?_, ?_, hph⟩
  · have e : g₂.generatePhases (seeded seed) = g₁.generatePhases (seeded seed) := by
      have hfq' : g₂.freqs = g₁.freqs := hfq.symm
      rw [hfq'] at hg'
      generalize g₁.freqs = F at hg hg'
      subst hg hg'
      rfl
    rw [e]
  · refine ⟨hin.1, hin.2.1, hin.2.2.1, hin.2.2.2.1, ?_⟩
    intro i hi
    show ∃ row, (g₁.generatePhases (seeded seed)).phases[i]? = some row ∧ g₁.nbFreq ≤ row.length
    unfold Irr.generatePhases
    rw [hnbF, ← hsp.1]
    exact table_row _ _ _ i (lt_of_lt_of_le hi hin.1)

/-- **C167 (defect), seed before `Initialize`.** Phases generated before `Initialize`, with whatever seed, are discarded: the field after `Initialize` is the one without the call, with the phases of the random
device. -/
theorem C167_seed_before (f : Irr) (hf : f.fromFile = false) (seed : ℤ) : (f.generatePhases (seeded seed)).init sea r draw = f.init sea r draw := by
  unfold Irr.init
  simp only
  rw [if_neg (show ¬ (f.baseInit sea).fromFile = true by show ¬ f.fromFile = true; rw [hf]; simp),
    if_neg (show ¬ ((f.generatePhases (seeded seed)).baseInit sea).fromFile = true by show ¬ f.fromFile = true; rw [hf]; simp)]
  set F := (f.baseInit sea).fillDirs with hF
  set G := ((f.generatePhases (seeded seed)).baseInit sea).fillDirs with hG
  have hFG : ∃ ph, G = { F with phases := ph } := by
    rw [hF, hG]
    by_cases hd : f.dirs = []
    · refine ⟨(f.generatePhases (seeded seed)).phases, ?_⟩
      unfold Irr.fillDirs
      rw [if_pos (show (f.baseInit sea).dirs = [] from hd), if_pos (show ((f.generatePhases (seeded seed)).baseInit sea).dirs = [] from hd)]
      rfl
    · refine ⟨(f.generatePhases (seeded seed)).phases, ?_⟩
      unfold Irr.fillDirs
      rw [if_neg (show ¬ (f.baseInit sea).dirs = [] from hd), if_neg (show ¬ ((f.generatePhases (seeded seed)).baseInit sea).dirs = [] from hd)]
      rfl
  obtain ⟨ph, e⟩ := hFG
  rw [e]
  have hband : ({ F with phases := ph } : Irr).band = F.band := rfl
  rw [hband]
  cases F.band with
  | error e => rfl
  | ok b =>
    show ((({ F with phases := ph } : Irr).setFrequencies sea b.1 b.2 F.nbFreq).bind _) = ((F.setFrequencies sea b.1 b.2 F.nbFreq).bind _)
    unfold Irr.setFrequencies
    by_cases hc : 0 < b.1 ∧ b.1 ≤ b.2 ∧ F.nbFreq ≠ 0 ∧ (F.nbFreq = 1 → b.1 = b.2)
    swap
    · rw [if_neg hc, if_neg hc]
    rw [if_pos hc, if_pos hc]
    simp only
    generalize (if F.nbFreq = 1 then [b.1] else linspaceList b.1 b.2 F.nbFreq) = freqs
    have hw : ({ F with phases := ph } : Irr).waveNumbers sea freqs = F.waveNumbers sea freqs := rfl
    rw [hw]
    cases F.waveNumbers sea freqs with
    | none => rfl
    | some ks =>
      simp only
      unfold Irr.refresh
      by_cases hd : F.dirs = []
      · rw [if_pos hd, if_pos hd]
        rfl
      · rw [if_neg hd, if_neg hd]
        simp only
        cases F.spectrum.amplitudes freqs F.dirs with
        | none => rfl
        | some a => rfl

/-- **C167 (defect), optimised field.** On an initialised optimised field, generating phases from a seed does not change the elevation at any time, but changes the pressure, which (without stretching) becomes that of
waves with the new phases: elevation and pressure are then those of two different seas. -/
theorem C167_optim_seed (o : AiryOptim) (h : f.initializeOptim sea r draw = .ok (g, o)) (seed : ℤ) (t x y z : ℝ) (fc : FC) (r' : Option (ℝ → ℝ)) (d : ℝ) :
    let o' := (Irr.generatePhasesOptim (g, o) (seeded seed)).2
    ((o'.update r' d t).stepFinalize).elevation x y fc = ((o.update r' d t).stepFinalize).elevation x y fc ∧
    (f.kind = .none → ((o'.update r' d t).stepFinalize).pressure x y z fc = ((g.generatePhases (seeded seed)).view.update r' d t).pressure x y z fc) := by
  intro o'
  have hb : o.base = g.view ∧ g.kind = f.kind := by
    unfold Irr.initializeOptim at h
    cases hi : f.init sea r draw with
    | error e => rw [hi] at h; cases h
    | ok g' =>
      rw [hi] at h
      change (match g'.spectrum.amplitudes g'.freqs g'.dirs with
        | none => Except.error Fail.outOfBounds
        | some a => .ok (g', AiryOptim.initCaches ⟨g'.view, fun _ => 0, fun _ => 0, fun _ _ => 0, fun _ => 0⟩ fun i j => (a.getD i []).getD j 0)) = .ok (g, o) at h
      cases ha : g'.spectrum.amplitudes g'.freqs g'.dirs with
      | none => rw [ha] at h; cases h
      | some a =>
        rw [ha] at h
        simp only [Except.ok.injEq, Prod.mk.injEq] at h
        obtain ⟨rfl, rfl⟩ := h
        refine ⟨rfl, ?_⟩
        unfold Irr.init at hi
        simp only at hi
        split_ifs at hi
        · obtain rfl := Except.ok.inj hi; rfl
        · cases hbd : ((f.baseInit sea).fillDirs).band with
          | error e => rw [hbd] at hi; cases hi
          | ok p =>
            rw [hbd] at hi
            change ((((f.baseInit sea).fillDirs).setFrequencies sea p.1 p.2 ((f.baseInit sea).fillDirs).nbFreq).bind fun f =>
              .ok ((f.generatePhases draw).update r sea.floor.depth 0)) = .ok g' at hi
            cases hs : ((f.baseInit sea).fillDirs).setFrequencies sea p.1 p.2 ((f.baseInit sea).fillDirs).nbFreq with
            | error e => rw [hs] at hi; cases hi
            | ok G =>
              rw [hs] at hi
              obtain rfl := Except.ok.inj hi
              obtain ⟨-, freqs, ks, -, -, hr⟩ := Irr.setFrequencies_ok hs
              have hk : ((f.baseInit sea).fillDirs).kind = f.kind := by unfold Irr.fillDirs; split_ifs <;> rfl
              show G.kind = _
              rcases Irr.refresh_ok hr with ⟨-, rfl⟩ | ⟨-, am, -, rfl⟩ <;> exact hk
  have hbase : o'.base = (g.generatePhases (seeded seed)).view := rfl
  constructor
  · show ∑ i ∈ Finset.range o'.base.nbDir, ∑ j ∈ Finset.range o'.base.nbFreq, _ = ∑ i ∈ Finset.range o.base.nbDir, ∑ j ∈ Finset.range o.base.nbFreq, _
    rw [hb.1, hbase]
    refine Finset.sum_congr rfl fun i _ => Finset.sum_congr rfl fun j _ => ?_
    unfold AiryOptim.complexElevation
    show (Complex.exp (Complex.I * (((o'.base.update r' d t)).k j : ℂ) * _) * Complex.exp (-Complex.I * ((o'.base.update r' d t).freq j : ℂ) * _) * o.aExpJphi i j * _ *
        ((o'.base.update r' d t).ramp : ℂ)).im =
      (Complex.exp (Complex.I * (((o.base.update r' d t)).k j : ℂ) * _) * Complex.exp (-Complex.I * ((o.base.update r' d t).freq j : ℂ) * _) * o.aExpJphi i j * _ *
        ((o.base.update r' d t).ramp : ℂ)).im
    rw [hb.1, hbase]
    rfl
  · intro hk
    have hk' : g.kind = .none := hb.2.trans hk
    unfold AiryOptim.pressure Airy.pressure
    show (∑ j ∈ Finset.range (o'.base.update r' d t).nbFreq, ∑ i ∈ Finset.range (o'.base.update r' d t).nbDir, _) * _ * _ = _
    rw [hbase]
    congr 2
    refine Finset.sum_congr rfl fun j _ => Finset.sum_congr rfl fun i _ => ?_
    have e1 : ∀ p : AiryOptim, p.base.kind = .none → ∀ x y z k, p.evalV x y z k = Ez p.base.infV z k p.base.depth := by
      intro p hp x y z k; unfold AiryOptim.evalV; rw [hp]; rfl
    have e2 : ∀ p : Airy, p.kind = .none → ∀ x y z k, p.evalV x y z k = Ez p.infV z k p.depth := by
      intro p hp x y z k; unfold Airy.evalV; rw [hp]; rfl
    rw [e1 _ (show ((o'.update r' d t).stepFinalize).base.kind = .none from hk'), e2 _ (show ((g.generatePhases (seeded seed)).view.update r' d t).kind = .none from hk')]
    rfl

/-! ## C168 -/

/-- **C168, files.** The sea state of an initialised field, written by `WriteToJSON` and loaded by `LoadJSON` in a new field with the same stretching, then initialised in the same sea: the two fields then answer all queries
(elevation, velocity, acceleration, pressure, everywhere) the same way at all times, whatever the random device draws, up to the time: the new field starts again at zero. -/
theorem C168_roundtrip (h : Ready seeded ops sea r draw f g) (t : StretchType) (hk : f.kind = t.kind) (sea₀ : Sea) (draw' : ℕ → ℝ) :
    ∃ k k', ((Irr.new sea₀).setStretching t).load g.write = .ok k ∧ k.init sea r draw' = .ok k' ∧ k'.view = g.view ∧ k'.InBounds ∧ k'.meanDir = g.meanDir := by
  obtain ⟨hin, -⟩ := C165_components h
  obtain ⟨min, max, ks, a, dirs, hc, hb, hd, hsp, hw, ha, hg⟩ := Irr.init_ok h.inv h.inited
  have hne : g.freqs ≠ [] := by intro e; have := hsp.1; rw [e] at this; exact hc.2.2.1 this.symm
  have hlen : g.dirs.length = f.nbDir := by
    have : g.dirs = dirs := by rw [hg]
    rw [this]
    rcases h.inv.dirs with ⟨e1, e2⟩ | ⟨e1, x, y, e2⟩
    · rw [hd, if_pos e1, e2]; rfl
    · rw [hd, if_neg (by rintro e; rw [e] at e2; have := e2.1; simp at this; omega)]; exact e2.1
  have hload : ((Irr.new sea₀).setStretching t).load g.write = .ok { (Irr.new sea₀).setStretching t with
      freqs := g.freqs, ks := g.ks, nbFreq := g.freqs.length, minFreq := g.freqs.headD 0, maxFreq := g.freqs.getLastD 0,
      dirs := g.dirs, nbDir := g.dirs.length, meanDir := g.meanDir, amp := g.amp, phases := g.phases, fromFile := true } := by
    unfold Irr.load
    rw [if_neg (show ¬ g.write.freqs = [] from hne)]
    rfl
  refine ⟨_, _, hload, rfl, ?_, ?_, rfl⟩
  · have e1 : g.freqs.length = g.nbFreq := by rw [hsp.1, hg]; rfl
    have e2 : g.dirs.length = g.nbDir := by rw [hlen, hg]; rfl
    have e3 : g.time = 0 ∧ g.ramp = r.elim 1 (fun q => q 0) ∧ g.depth = (if sea.floor.infinite then 0 else sea.floor.depth) ∧ g.density = sea.density ∧ g.gravity = sea.gravity ∧
        g.inf = sea.floor.infinite ∧ g.infV = sea.floor.infinite ∧ g.kind = t.kind := by
      rw [hg]; exact ⟨rfl, rfl, rfl, rfl, rfl, rfl, rfl, hk⟩
    obtain ⟨q1, q2, q3, q4, q5, q6, q7, q8⟩ := e3
    unfold Irr.view Irr.update Irr.baseInit
    simp only [e1, e2, q1, q2, q3, q4, q5, q6, q7, q8, Irr.setStretching, Irr.new]
    cases hi : sea.floor.infinite <;> cases r <;> simp
  · have e1 : g.freqs.length = g.nbFreq := by rw [hsp.1, hg]; rfl
    have e2 : g.dirs.length = g.nbDir := by rw [hlen, hg]; rfl
    obtain ⟨i1, i2, i3, i4, i5⟩ := hin
    refine ⟨le_rfl, le_rfl, ?_, ?_, ?_⟩
    · show g.freqs.length ≤ g.ks.length
      rw [e1]; exact i3
    · show ∀ i < g.dirs.length, ∃ row, g.amp[i]? = some row ∧ g.freqs.length ≤ row.length
      rw [e1, e2]; exact i4
    · show ∀ i < g.dirs.length, ∃ row, g.phases[i]? = some row ∧ g.freqs.length ≤ row.length
      rw [e1, e2]; exact i5

/-- **C168 (defect), optimised field, several directions.** A file with two directions or more makes `Initialize` of a new optimised field read beyond the end of a vector, in every sea. -/
theorem C168_optim_directions (j : Irr.File) (hf : j.freqs ≠ []) (hd : 2 ≤ j.dirs.length) (sea₀ : Sea) (k : Irr) (hk : (Irr.new sea₀).load j = .ok k) :
    k.initializeOptim sea r draw = .error .outOfBounds := by
  unfold Irr.load at hk
  rw [if_neg hf] at hk
  obtain rfl := Except.ok.inj hk
  unfold Irr.initializeOptim
  have : (Irr.new sea₀).spectrum.amplitudes j.freqs j.dirs = none := C42_no_model _ _ _ hf hd
  unfold Irr.init
  simp only
  rw [if_pos (show (Irr.baseInit _ sea).fromFile = true from rfl)]
  change (match (Irr.new sea₀).spectrum.amplitudes j.freqs j.dirs with
        | none => Except.error Fail.outOfBounds
        | some a => _) = _
  rw [this]

/-- **C168 (defect), optimised field, one direction.** The amplitudes of the file are ignored by the elevation of an optimised field: two files that differ only by the amplitudes give the same elevation at `Initialize`. -/
theorem C168_optim_amplitudes (j : Irr.File) (amp' : List (List ℝ)) (sea₀ : Sea) (k k' : Irr) (hk : (Irr.new sea₀).load j = .ok k)
    (hk' : (Irr.new sea₀).load { j with amp := amp' } = .ok k') (g g' : Irr) (o o' : AiryOptim) (ho : k.initializeOptim sea r draw = .ok (g, o))
    (ho' : k'.initializeOptim sea r draw = .ok (g', o')) (x y : ℝ) (fc : FC) : o.elevation x y fc = o'.elevation x y fc := by
  have hf : j.freqs ≠ [] := by
    intro e; unfold Irr.load at hk; rw [if_pos e] at hk; cases hk
  unfold Irr.load at hk hk'
  rw [if_neg hf] at hk
  rw [if_neg (show ¬ ({ j with amp := amp' } : Irr.File).freqs = [] from hf)] at hk'
  obtain rfl := Except.ok.inj hk
  obtain rfl := Except.ok.inj hk'
  unfold Irr.initializeOptim Irr.init at ho ho'
  simp only at ho ho'
  rw [if_pos (show (Irr.baseInit _ sea).fromFile = true from rfl)] at ho ho'
  change (match (Irr.new sea₀).spectrum.amplitudes j.freqs j.dirs with
        | none => Except.error Fail.outOfBounds
        | some a => _) = _ at ho
  change (match (Irr.new sea₀).spectrum.amplitudes j.freqs j.dirs with
        | none => Except.error Fail.outOfBounds
        | some a => _) = _ at ho'
  cases ha : (Irr.new sea₀).spectrum.amplitudes j.freqs j.dirs with
  | none => rw [ha] at ho; cases ho
  | some a =>
    rw [ha] at ho ho'
    have e1 := congrArg Prod.snd (Except.ok.inj ho)
    have e2 := congrArg Prod.snd (Except.ok.inj ho')
    rw [← show _ = o from e1, ← show _ = o' from e2]
    rfl

/-- A file of a calm sea: one component, of amplitude zero and phase `π/2`. -/
def calmFile : Irr.File := ⟨[1], [1 / 9.81], [0], 0, [[0]], [[π / 2]]⟩

/-- **C168 (defect), instance.** Loaded from the file of a calm sea, the plain field is calm everywhere and always; the optimised field has waves: the elevation at the origin at `Initialize` is positive (the amplitude of the
default spectrum). -/
theorem C168_optim_counterexample :
    ∃ k, (Irr.new deepSea).load calmFile = .ok k ∧
      (∃ g, k.init deepSea none draw = .ok g ∧ ∀ t x y fc, (g.view.update none 0 t).elevation x y fc = 0) ∧
      ∃ g o, k.initializeOptim deepSea none draw = .ok (g, o) ∧ 0 < o.elevation 0 0 .NWU := by
  let k : Irr := { Irr.new deepSea with freqs := [1], ks := [1 / 9.81], nbFreq := 1, minFreq := 1, maxFreq := 1, dirs := [0], nbDir := 1, meanDir := 0, amp := [[0]], phases := [[π / 2]], fromFile := true }
  let g : Irr := (k.baseInit deepSea).update none 0 0
  have hload : (Irr.new deepSea).load calmFile = .ok k := by
    unfold Irr.load; rw [if_neg (by simp [calmFile])]; rfl
  have hinit : k.init deepSea none draw = .ok g := rfl
  have hS : 0 < jonswap 3 (2 * π / 9) 3.3 1 := by
    have hwp : (0 : ℝ) < 2 * π / 9 := by positivity
    obtain ⟨a, ha0, -, -, ha⟩ := jonswap_pos_eq 3 (2 * π / 9) 3.3 1 one_pos hwp
    rw [ha]
    have hl : 0.287 * log 3.3 < 1 := by
      have : log 3.3 ≤ 3.3 - 1 := log_le_sub_one_of_pos (by norm_num)
      norm_num at this ⊢; linarith
    have h1 : 0 < 1 - 0.287 * log 3.3 := by linarith
    have h2 := rpow_pos_of_pos (show (0 : ℝ) < 3.3 by norm_num) a
    positivity
  let A : ℝ := √(2 * jonswap 3 (2 * π / 9) 3.3 1 * 1 * 1 * 1)
  have hA : 0 < A := sqrt_pos.mpr (by linarith)
  have ham : k.spectrum.amplitudes [1] [0] = some [[A]] := by
    rw [amplitudes_iff _ _ _ (by simp) (by simp)]
    refine ⟨by simp, by simp, by simp, ?_⟩
    simp [cellWidth, spreadOf, A, WSpectrum.eval, k, Irr.new]
  refine ⟨k, hload, ⟨g, hinit, ?_⟩, g, AiryOptim.initCaches ⟨g.view, fun _ => 0, fun _ => 0, fun _ _ => 0, fun _ => 0⟩
    fun i j => (([[A]] : List (List ℝ)).getD i []).getD j 0, ?_, ?_⟩
  · intro t x y fc
    unfold Airy.elevation
    show ∑ i ∈ Finset.range 1, ∑ j ∈ Finset.range 1, ((g.view.update none 0 t).complexElevation x y fc i j).im = 0
    simp only [Finset.range_one, Finset.sum_singleton]
    rw [Airy.ce_im]
    have : (g.view.update none 0 t).amp 0 0 = 0 := rfl
    rw [this]; ring
  · unfold Irr.initializeOptim
    rw [hinit]
    show (match g.spectrum.amplitudes g.freqs g.dirs with
        | none => Except.error Fail.outOfBounds
        | some a => .ok (g, AiryOptim.initCaches ⟨g.view, fun _ => 0, fun _ => 0, fun _ _ => 0, fun _ => 0⟩ fun i j => (a.getD i []).getD j 0)) = _
    rw [show g.spectrum.amplitudes g.freqs g.dirs = some [[A]] from ham]
  · unfold AiryOptim.elevation
    show 0 < ∑ i ∈ Finset.range 1, ∑ j ∈ Finset.range 1, _
    simp only [Finset.range_one, Finset.sum_singleton]
    unfold AiryOptim.complexElevation AiryOptim.initCaches AiryOptim.internalUpdate
    have e1 : g.view.time = 0 := rfl
    have e2 : g.view.ramp = 1 := rfl
    have e3 : g.view.phase 0 0 = π / 2 := rfl
    simp only [e1, e2, e3, nwuSign]
    have e4 : Complex.exp (Complex.I * ((π / 2 : ℝ) : ℂ)) = Complex.I := by
      rw [mul_comm]; push_cast; exact Complex.exp_pi_div_two_mul_I
    rw [e4]
    simpa using hA

/-- The hypotheses of `C167_seed` and `C168_roundtrip` are met. -/
example (draw₁ draw₂ : ℕ → ℝ) : (∃ f g, Ready seeded demoCalls deepSea r draw₁ f g ∧ f.kind = StretchType.kind .noStretching) ∧ ∃ f g, Ready seeded demoCalls deepSea r draw₂ f g := by
  obtain ⟨f, g, h, hk, -⟩ := demo_ready (seeded := seeded) (r := r) (draw := draw₁)
  obtain ⟨f', g', h', -⟩ := demo_ready (seeded := seeded) (r := r) (draw := draw₂)
  exact ⟨⟨f, g, h, hk⟩, f', g', h'⟩

/-- The hypotheses of `C168_optim_directions` and `C167_optim_seed` are met. -/
example : (∃ k, (Irr.new deepSea).load { calmFile with dirs := [0, 1] } = .ok k) ∧ ∃ f g o, Irr.initializeOptim f deepSea none draw = .ok (g, o) ∧ f.kind = .none := by
  constructor
  · unfold Irr.load
    rw [if_neg (by simp [calmFile])]
    exact ⟨_, rfl⟩
  · obtain ⟨k, h1, -, g, o, h2, -⟩ := C168_optim_counterexample (draw := draw)
    refine ⟨k, g, o, h2, ?_⟩
    unfold Irr.load at h1
    rw [if_neg (by simp [calmFile])] at h1
    obtain rfl := Except.ok.inj h1
    rfl

end Frydom.Waves
