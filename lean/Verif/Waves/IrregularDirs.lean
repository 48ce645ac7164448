import Verif.Waves.IrregularProps

/-!
# Setting up an irregular wave field: directions, success (C165), defects (C166)
-/

open Classical

noncomputable section

namespace Frydom.Waves
open Real Frydom.Geom Frydom.Seakeeping

variable {seeded : ℤ → ℕ → ℝ} {ops : List (Sea × SetOp)} {sea : Sea} {r : Option (ℝ → ℝ)} {draw : ℕ → ℝ} {f g : Irr}

/-- Calls that give or change a directional model. -/
def SetOp.spreads : SetOp → Prop
  | .directional _ _ _ => True
  | .model _ => True
  | _ => False

/-- Calls that change or drop the directional model. -/
def SetOp.respreads : SetOp → Prop
  | .directional _ _ _ => True
  | .model _ => True
  | .spectrum _ _ _ => True
  | _ => False

/-- An invariant kept by every call of a history is kept by the history. -/
theorem Irr.run_inv {P : Irr → Prop} : ∀ {ops : List (Sea × SetOp)} {f g : Irr}, P f →
    (∀ o ∈ ops, ∀ f g, P f → Irr.apply seeded o.1 o.2 f = .ok g → P g) → Irr.run seeded ops f = .ok g → P g
  | [], f, g, h, _, hr => by obtain rfl := Except.ok.inj hr; exact h
  | (sea, op) :: l, f, g, h, hs, hr => by
    unfold Irr.run at hr
    cases ha : f.apply seeded sea op with
    | error e => rw [ha] at hr; cases hr
    | ok f' =>
      rw [ha] at hr
      exact run_inv (hs (sea, op) (by simp) f f' h ha) (fun o ho => hs o (by simp [ho])) hr

theorem Irr.run_append : ∀ (l l' : List (Sea × SetOp)) (f g : Irr), Irr.run seeded (l ++ l') f = .ok g →
    ∃ m, Irr.run seeded l f = .ok m ∧ Irr.run seeded l' m = .ok g
  | [], l', f, g, h => ⟨f, rfl, h⟩
  | (sea, op) :: l, l', f, g, h => by
    rw [List.cons_append] at h
    change ((f.apply seeded sea op).bind fun f => run seeded (l ++ l') f) = .ok g at h
    cases ha : f.apply seeded sea op with
    | error e => rw [ha] at h; cases h
    | ok f' =>
      rw [ha] at h
      obtain ⟨m, h1, h2⟩ := run_append l l' f' g h
      refine ⟨m, ?_, h2⟩
      show ((f.apply seeded sea op).bind fun f => run seeded l f) = .ok m
      rw [ha]; exact h1

/-- **C165, one direction.** When no directional model was ever asked for, `Initialize` leaves a single direction: the mean direction asked last (0, i.e. going North, if none was). -/
theorem C165_single (h : Ready seeded ops sea r draw f g) (hno : ∀ o ∈ ops, ¬ o.2.spreads) :
    g.view.nbDir = 1 ∧ g.view.dir 0 = ops.foldl (fun m o => askedMean m o.2) 0 ∧ f.spectrum.dir = none := by
  obtain ⟨sea₀, h0⟩ := h.built
  have key : f.dirs = [] ∧ f.nbDir = 1 ∧ f.spectrum.dir = none := by
    refine Irr.run_inv (P := fun f => f.dirs = [] ∧ f.nbDir = 1 ∧ f.spectrum.dir = none) ⟨rfl, rfl, rfl⟩ ?_ h0
    rintro ⟨sea', op⟩ ho f g ⟨e1, e2, e3⟩ ha
    have hop := hno _ ho
    have hmean : ∀ a unit fc dc, f.setMeanAngle a unit fc dc = .ok g → g.dirs = [] ∧ g.nbDir = 1 ∧ g.spectrum.dir = none := by
      intro a unit fc dc hs
      unfold Irr.setMeanAngle at hs
      simp only at hs
      rw [if_neg (by rw [e3]; simp)] at hs
      obtain rfl := Except.ok.inj hs
      exact ⟨e1, e2, e3⟩
    cases op with
    | frequencies min max nb =>
      obtain ⟨-, freqs, ks, -, -, hr⟩ := Irr.setFrequencies_ok ha
      rcases Irr.refresh_ok hr with ⟨-, rfl⟩ | ⟨hk, -⟩
      · exact ⟨e1, e2, e3⟩
      · exact absurd e1 hk
    | meanAngle a unit fc dc => exact hmean _ _ _ _ ha
    | meanDirection ux uy fc dc => exact hmean _ _ _ _ ha
    | directional nb s type => exact absurd trivial hop
    | spectrum shape hs tp => obtain rfl := Except.ok.inj ha; exact ⟨e1, e2, rfl⟩
    | height hs => obtain rfl := Except.ok.inj ha; exact ⟨e1, e2, e3⟩
    | peak wp => obtain rfl := Except.ok.inj ha; exact ⟨e1, e2, e3⟩
    | model d => exact absurd trivial hop
    | stretching t => obtain rfl := Except.ok.inj ha; exact ⟨e1, e2, e3⟩
    | phases seed => obtain rfl := Except.ok.inj ha; exact ⟨e1, e2, e3⟩
  obtain ⟨min, max, ks, a, dirs, hc, hb, hd, hsp, hw, ha, hg⟩ := Irr.init_ok h.inv h.inited
  refine ⟨by show g.nbDir = 1; rw [hg]; exact key.2.1, ?_, key.2.2⟩
  show g.dirs.getD 0 0 = _
  rw [hg]
  show dirs.getD 0 0 = _
  rw [hd, if_pos key.1]; rfl

/-- **C165, spread directions.** When `SetDirectionalParameters(nb, s, COS2S)` (`s` in [1/2, 1000]) is called and neither the spectrum nor its directional model is replaced afterwards (the mean direction,
the frequencies, the height, the period and the stretching may be): after `Initialize` there are `nb` directions, evenly spaced, symmetric about the mean direction asked last (before or after), within half a
turn of it, up to the two directions where the spreading density is 0.01, and the amplitudes use the spreading about that mean direction. -/
theorem C165_spread (ops₁ ops₂ : List (Sea × SetOp)) (sea₁ : Sea) (nb : ℕ) (s : ℝ) (hs : 1 / 2 ≤ s) (hs2 : s ≤ 1000)
    (h : Ready seeded (ops₁ ++ (sea₁, .directional nb s .cos2s) :: ops₂) sea r draw f g) (hno : ∀ o ∈ ops₂, ¬ o.2.respreads) :
    let m := (ops₁ ++ (sea₁, SetOp.directional nb s .cos2s) :: ops₂).foldl (fun m o => askedMean m o.2) 0
    g.view.nbDir = nb ∧ 2 ≤ nb ∧ f.spectrum.dir = some (.cos2s s) ∧
    ∃ δ, 0 < δ ∧ δ < π ∧ (∀ i < nb, g.view.dir i = m - δ + i * (2 * δ / ((nb : ℝ) - 1))) ∧
      (g.view.dir 0 + g.view.dir (nb - 1)) / 2 = m ∧
      |cos2sEval s (g.view.dir 0) m - 0.01| < 1e-10 ∧ |cos2sEval s (g.view.dir (nb - 1)) m - 0.01| < 1e-10 := by
  intro m
  obtain ⟨sea₀, h0⟩ := h.built
  obtain ⟨f₁, h1, h2⟩ := Irr.run_append _ _ _ _ h0
  unfold Irr.run at h2
  cases h3 : f₁.apply seeded sea₁ (.directional nb s .cos2s) with
  | error e => rw [h3] at h2; cases h2
  | ok f₂ =>
    rw [h3] at h2
    have comp : ∀ f g : Irr, f.nbDir = nb → f.spectrum.dir = some (.cos2s s) → f.computeDirections = .ok g →
        g.nbDir = nb ∧ 2 ≤ nb ∧ g.spectrum.dir = some (.cos2s s) ∧
          ∃ a b, getDirectionBandwidth (cos2sEval s) g.meanDir = .returns (a, b) ∧ g.dirs = linspaceList a b nb := by
      intro f g e1 e2 hc
      obtain ⟨c1, a, b, c2, c3⟩ := Irr.computeDirections_ok hc
      rw [e2] at c2
      rcases c2 with ⟨s', c4, c5⟩ | ⟨c4, -⟩
      · cases c4
        rcases Irr.refresh_ok c3 with ⟨-, rfl⟩ | ⟨-, am, -, rfl⟩
        · exact ⟨e1, e1 ▸ c1, e2, a, b, c5, by show linspaceList a b f.nbDir = _; rw [e1]⟩
        · exact ⟨e1, e1 ▸ c1, e2, a, b, c5, by show linspaceList a b f.nbDir = _; rw [e1]⟩
      · cases c4
    have k2 := comp { f₁ with nbDir := nb, dirs := [], spectrum := { f₁.spectrum with dir := some (.cos2s s) } } f₂ rfl rfl h3
    have key : f.nbDir = nb ∧ 2 ≤ nb ∧ f.spectrum.dir = some (.cos2s s) ∧
          ∃ a b, getDirectionBandwidth (cos2sEval s) f.meanDir = .returns (a, b) ∧ f.dirs = linspaceList a b nb := by
      refine Irr.run_inv (P := fun f => f.nbDir = nb ∧ 2 ≤ nb ∧ f.spectrum.dir = some (.cos2s s) ∧
          ∃ a b, getDirectionBandwidth (cos2sEval s) f.meanDir = .returns (a, b) ∧ f.dirs = linspaceList a b nb) k2 ?_ h2
      rintro ⟨sea', op⟩ ho f g ⟨e1, e2, e3, a, b, e4, e5⟩ ha
      have hop := hno _ ho
      have hmean : ∀ x unit fc dc, f.setMeanAngle x unit fc dc = .ok g → g.nbDir = nb ∧ 2 ≤ nb ∧ g.spectrum.dir = some (.cos2s s) ∧
          ∃ a b, getDirectionBandwidth (cos2sEval s) g.meanDir = .returns (a, b) ∧ g.dirs = linspaceList a b nb := by
        intro x unit fc dc hs
        unfold Irr.setMeanAngle at hs
        simp only at hs
        rw [if_pos (by rw [e3]; rfl)] at hs
        exact comp { f with meanDir := setDirectionAngle true x unit fc dc } g e1 e3 hs
      cases op with
      | frequencies min max nb =>
        obtain ⟨-, freqs, ks, -, -, hr⟩ := Irr.setFrequencies_ok ha
        rcases Irr.refresh_ok hr with ⟨-, rfl⟩ | ⟨-, am, -, rfl⟩
        · exact ⟨e1, e2, e3, a, b, e4, e5⟩
        · exact ⟨e1, e2, e3, a, b, e4, e5⟩
      | meanAngle a unit fc dc => exact hmean _ _ _ _ ha
      | meanDirection ux uy fc dc => exact hmean _ _ _ _ ha
      | directional nb s type => exact absurd trivial hop
      | spectrum shape hs tp => exact absurd trivial hop
      | height hs => obtain rfl := Except.ok.inj ha; exact ⟨e1, e2, e3, a, b, e4, e5⟩
      | peak wp => obtain rfl := Except.ok.inj ha; exact ⟨e1, e2, e3, a, b, e4, e5⟩
      | model d => exact absurd trivial hop
      | stretching t => obtain rfl := Except.ok.inj ha; exact ⟨e1, e2, e3, a, b, e4, e5⟩
      | phases seed => obtain rfl := Except.ok.inj ha; exact ⟨e1, e2, e3, a, b, e4, e5⟩
    obtain ⟨e1, e2, e3, a, b, e4, e5⟩ := key
    have hm : f.meanDir = m := h.inv.mean
    obtain ⟨a', b', q0, q1, q2, q3, q4, q5, q6, q7⟩ := C44_direction_bandwidth s m hs hs2
    rw [hm, q0] at e4
    cases e4
    obtain ⟨min, max, ks, am, dirs, hc, hb, hd, hsp, hw, ha, hg⟩ := Irr.init_ok h.inv h.inited
    have hne : f.dirs ≠ [] := by rw [e5]; intro e; have := linspace_length a b nb; rw [e] at this; simp at this; omega
    have hgd : g.dirs = linspaceList a b nb := by rw [hg]; show dirs = _; rw [hd, if_neg hne, e5]
    have hnb1 : ((nb : ℝ) - 1) ≠ 0 := by
      have : (2 : ℝ) ≤ nb := by exact_mod_cast e2
      intro e; linarith
    have hdir : ∀ i < nb, g.view.dir i = a + i * ((b - a) / ((nb : ℝ) - 1)) := by
      intro i hi
      show g.dirs.getD i 0 = _
      rw [hgd, linspace_getD a b nb i hi]
    have d0 : g.view.dir 0 = a := by rw [hdir 0 (by omega)]; simp
    have d1 : g.view.dir (nb - 1) = b := by
      rw [hdir (nb - 1) (by omega), Nat.cast_sub (by omega), Nat.cast_one, mul_div_cancel₀ _ hnb1]; ring
    refine ⟨by show g.nbDir = nb; rw [hg]; exact e1, e2, e3, m - a, by linarith, by linarith, ?_, ?_, by rw [d0]; exact q6, by rw [d1]; exact q7⟩
    · intro i hi
      rw [hdir i hi, show b - a = 2 * (m - a) by linarith]; ring
    · rw [d0, d1]; linarith

/-- `Initialize` succeeds once the band is known. -/
theorem Irr.init_of_band (sea₀ : Sea) (hrun : Irr.run seeded ops (Irr.new sea₀) = .ok f) (hgr : 0 < sea.gravity) {mn mx : ℝ}
    (hb : f.band = .ok (mn, mx)) (b1 : 0 < mn) (b2 : mn ≤ mx) (b3 : f.nbFreq ≠ 0) (b4 : f.nbFreq = 1 → mn = mx)
    (h3 : f.nbFreq ≠ 3) (h3' : f.nbDir ≠ 3) (hdir : f.spectrum.dir = none → f.nbDir = 1) :
    ∃ g, Ready seeded ops sea r draw f g := by
  have hI := Irr.inv_run (Irr.inv_new sea₀) hrun
  set F := (f.baseInit sea).fillDirs with hF
  have hFe : F = { f.baseInit sea with dirs := F.dirs } := by
    rw [hF]; unfold Irr.fillDirs; split_ifs <;> rfl
  have hFd : F.dirs = if f.dirs = [] then [f.meanDir] else f.dirs := by
    rw [hF]; unfold Irr.fillDirs
    by_cases hd : f.dirs = []
    · rw [if_pos (show (f.baseInit sea).dirs = [] from hd), if_pos hd]; rfl
    · rw [if_neg (show ¬ (f.baseInit sea).dirs = [] from hd), if_neg hd]; rfl
  have hlen : F.dirs.length = f.nbDir ∧ F.dirs ≠ [] := by
    rw [hFd]
    rcases hI.dirs with ⟨e1, e2⟩ | ⟨e1, x, y, e2⟩
    · rw [if_pos e1, e2]; exact ⟨rfl, List.cons_ne_nil _ _⟩
    · have : f.dirs ≠ [] := by rintro e; rw [e] at e2; have := e2.1; simp at this; omega
      rw [if_neg this]; exact ⟨e2.1, this⟩
  have hFf : F.minFreq = f.minFreq ∧ F.maxFreq = f.maxFreq ∧ F.nbFreq = f.nbFreq ∧ F.spectrum = f.spectrum := by
    rw [hFe]; exact ⟨rfl, rfl, rfl, rfl⟩
  have hset : ∃ G, F.setFrequencies sea mn mx f.nbFreq = .ok G := by
    unfold Irr.setFrequencies
    rw [if_pos ⟨b1, b2, b3, b4⟩]
    simp only
    have hsp : IsSpaced mn mx f.nbFreq (if f.nbFreq = 1 then [mn] else linspaceList mn mx f.nbFreq) := by
      by_cases h1 : f.nbFreq = 1
      · rw [if_pos h1, h1]; exact isSpaced_one _ _
      · rw [if_neg h1]; exact isSpaced_linspace _ _ _ (by omega)
    generalize (if f.nbFreq = 1 then [mn] else linspaceList mn mx f.nbFreq) = freqs at hsp
    have hfr : freqs ≠ [] := by intro e; rw [e] at hsp; exact b3 hsp.1.symm
    have hw : ∃ ks, F.waveNumbers sea freqs = some ks := by
      unfold Irr.waveNumbers
      split_ifs
      · exact ⟨_, rfl⟩
      · obtain ⟨ks, h1, -⟩ := C25_list sea.floor.depth sea.gravity hgr freqs
        exact ⟨ks, h1⟩
    obtain ⟨ks, hks⟩ := hw
    rw [hks]
    simp only
    unfold Irr.refresh
    rw [if_neg hlen.2]
    have := (amplitudes_iff f.spectrum freqs F.dirs hfr hlen.2 _).mpr
      ⟨by rw [hsp.1]; exact h3, by rw [hlen.1]; exact h3', fun e => by rw [hlen.1]; exact hdir e, rfl⟩
    rw [← hFf.2.2.2] at this
    rw [show ({ F with minFreq := mn, maxFreq := mx, nbFreq := f.nbFreq, freqs := freqs, ks := ks } : Irr).spectrum.amplitudes freqs F.dirs = _ from this]
    exact ⟨_, rfl⟩
  obtain ⟨G, hG⟩ := hset
  refine ⟨(G.generatePhases draw).update r sea.floor.depth 0, ⟨sea₀, hrun⟩, ?_⟩
  unfold Irr.init
  simp only
  rw [if_neg (show ¬ (f.baseInit sea).fromFile = true by show ¬ f.fromFile = true; rw [hI.file]; simp), ← hF]
  have hband : F.band = .ok (mn, mx) := by
    rw [← hb]
    unfold Irr.band
    rw [hFf.1, hFf.2.1, hFf.2.2.2]
  rw [hband]
  show ((F.setFrequencies sea mn mx F.nbFreq).bind _) = _
  rw [hFf.2.2.1, hG]
  rfl

/-- **C165, success.** `Initialize` succeeds after every sequence of calls in which a band was asked for, when gravity is positive, the numbers of frequencies and of directions are not three (C42), and there is a
directional model if there is more than one direction. -/
theorem C165_succeeds (sea₀ : Sea) (hrun : Irr.run seeded ops (Irr.new sea₀) = .ok f) (hgr : 0 < sea.gravity)
    (hb : (ops.foldl (fun b o => askedBand b o.2) none).isSome) (h3 : f.nbFreq ≠ 3) (h3' : f.nbDir ≠ 3) (hdir : f.spectrum.dir = none → f.nbDir = 1) :
    ∃ g, Ready seeded ops sea r draw f g := by
  have hI := Irr.inv_run (Irr.inv_new sea₀) hrun
  rcases hI.band with ⟨b0, -⟩ | ⟨b0, b1, b2, b3, b4, b5⟩
  · rw [b0] at hb; cases hb
  · refine Irr.init_of_band sea₀ hrun hgr (mn := f.minFreq) (mx := f.maxFreq) ?_ b1 b2 b3 b4 h3 h3' hdir
    unfold Irr.band
    rw [if_neg (fun h => b1.ne' h.1)]

/-- A deep sea. -/
def deepSea : Sea := ⟨⟨true, 0⟩, 1025, 9.81⟩

/-- Pierson-Moskowitz waves of 2 m and 10 s, coming from 30° (NED), twenty frequencies. -/
def demoCalls : List (Sea × SetOp) :=
  [(deepSea, .spectrum .pm 2 10), (deepSea, .meanAngle 30 .deg .NED .comefrom), (deepSea, .frequencies 0.5 2 20)]

/-- The hypotheses of `C165_succeeds`, `C165_components`, `C165_dispersion`, `C165_flow`, `C165_single`, `C165_spectrum` (the first call chooses the spectrum) are met by those calls. -/
theorem demo_ready : ∃ f g, Ready seeded demoCalls deepSea r draw f g ∧ f.kind = .none ∧ ∀ o ∈ demoCalls, ¬ o.2.spreads := by
  have hsp : ∃ f, Irr.run seeded demoCalls (Irr.new deepSea) = .ok f ∧ f.nbFreq = 20 ∧ f.nbDir = 1 ∧ f.kind = .none := by
    let f₂ : Irr := { (Irr.new deepSea).setSpectrum .pm 2 10 with meanDir := setDirectionAngle true 30 .deg .NED .comefrom }
    let f₃ : Irr := { f₂ with
        minFreq := 0.5, maxFreq := 2, nbFreq := 20, freqs := linspaceList 0.5 2 20, ks := (linspaceList 0.5 2 20).map fun freq => freq ^ 2 / deepSea.gravity }
    have hset : f₂.setFrequencies deepSea 0.5 2 20 = .ok f₃ := by
      unfold Irr.setFrequencies
      rw [if_pos (by norm_num)]
      rfl
    refine ⟨f₃, ?_, rfl, rfl, rfl⟩
    show ((f₂.setFrequencies deepSea 0.5 2 20).bind fun f => .ok f) = _
    rw [hset]; rfl
  obtain ⟨f, h1, h2, h3, h4⟩ := hsp
  obtain ⟨g, hg⟩ := C165_succeeds (r := r) (draw := draw) deepSea h1 (show (0 : ℝ) < deepSea.gravity by norm_num [deepSea]) rfl (by rw [h2]; norm_num) (by rw [h3]; norm_num) (fun _ => h3)
  refine ⟨f, g, hg, h4, ?_⟩
  intro o ho
  simp only [demoCalls, List.mem_cons, List.not_mem_nil, or_false] at ho
  rcases ho with rfl | rfl | rfl <;> exact fun h => h

/-- The hypotheses of `C165_spread` are met: five directions about North. -/
example : ∃ f g, Ready seeded ([(deepSea, .frequencies 0.5 2 20)] ++ (deepSea, .directional 5 10 .cos2s) :: []) deepSea r draw f g := by
  obtain ⟨a, b, hab, -⟩ := C44_direction_bandwidth 10 0 (by norm_num) (by norm_num)
  let f₁ : Irr := { Irr.new deepSea with
        minFreq := 0.5, maxFreq := 2, nbFreq := 20, freqs := linspaceList 0.5 2 20, ks := (linspaceList 0.5 2 20).map fun freq => freq ^ 2 / deepSea.gravity }
  have hset : (Irr.new deepSea).setFrequencies deepSea 0.5 2 20 = .ok f₁ := by
    unfold Irr.setFrequencies
    rw [if_pos (by norm_num)]
    rfl
  have hdir : ∃ f, f₁.setDirectional 5 10 .cos2s = .ok f ∧ f.nbFreq = 20 ∧ f.nbDir = 5 ∧ f.spectrum.dir ≠ none := by
    unfold Irr.setDirectional Irr.computeDirections
    simp only [Irr.dirModelOf]
    rw [show getDirectionBandwidth (DirModel.eval (.cos2s 10)) f₁.meanDir = .returns (a, b) from hab]
    simp only
    rw [if_neg (by norm_num)]
    unfold Irr.refresh
    have hfr : f₁.freqs ≠ [] := by intro e; have := congrArg List.length e; rw [show f₁.freqs = linspaceList 0.5 2 20 from rfl, linspace_length] at this; simp at this
    have hfl : f₁.freqs.length = 20 := linspace_length _ _ _
    have hne : linspaceList a b 5 ≠ [] := by intro e; have := congrArg List.length e; rw [linspace_length] at this; simp at this
    rw [if_neg hfr]
    have hdn : (some (DirModel.cos2s 10)) = none → (linspaceList a b 5).length = 1 := fun e => nomatch e
    have := (amplitudes_iff { f₁.spectrum with dir := some (.cos2s 10) } f₁.freqs (linspaceList a b 5) hfr hne _).mpr
      ⟨by rw [hfl]; norm_num, by rw [linspace_length]; norm_num, hdn, rfl⟩
    simp only [this]
    exact ⟨_, rfl, rfl, rfl, by simp⟩
  obtain ⟨f, h1, h2, h3, h4⟩ := hdir
  have hrun : Irr.run seeded ([(deepSea, .frequencies 0.5 2 20)] ++ (deepSea, .directional 5 10 .cos2s) :: []) (Irr.new deepSea) = .ok f := by
    show (((Irr.new deepSea).setFrequencies deepSea 0.5 2 20).bind fun f => (f.setDirectional 5 10 .cos2s).bind fun f => .ok f) = _
    rw [hset]
    show ((f₁.setDirectional 5 10 .cos2s).bind fun f => .ok f) = _
    rw [h1]; rfl
  obtain ⟨g, hg⟩ := C165_succeeds (r := r) (draw := draw) deepSea hrun (show (0 : ℝ) < deepSea.gravity by norm_num [deepSea]) rfl (by rw [h2]; norm_num) (by rw [h3]; norm_num)
    (fun e => absurd e h4)
  exact ⟨f, g, hg⟩

/-! ## C166: defects -/

/-- **C166 (defect), no spreading.** `SetDirectionalParameters(…, NONE)` always uses a null pointer. -/
theorem C166_none (f : Irr) (nb : ℕ) (s : ℝ) : f.setDirectional nb s .none = .error .nullPointer := rfl

/-- **C166 (defect), spectrum after the directions.** Once `SetDirectionalParameters` has succeeded, setting a new spectrum loses the directional model and `Initialize` can no longer succeed: it reads beyond the
end of a vector (or fails before), in every sea. -/
theorem C166_spectrum_after_directions {f f₁ : Irr} (sea₀ : Sea) (hrun : Irr.run seeded ops (Irr.new sea₀) = .ok f) (nb : ℕ) (s : ℝ) (type : DirType)
    (h : f.setDirectional nb s type = .ok f₁) (shape : Shape) (hs tp : ℝ) (sea : Sea) (r : Option (ℝ → ℝ)) (draw : ℕ → ℝ) (g : Irr) :
    (f₁.setSpectrum shape hs tp).init sea r draw ≠ .ok g := by
  intro hi
  have hf := Irr.inv_run (Irr.inv_new sea₀) hrun
  have h1 : Irr.Inv _ _ f₁ := Irr.inv_apply (op := .directional nb s type) (seeded := fun _ => draw) (sea := sea) hf h
  have h2 : Irr.Inv _ _ (f₁.setSpectrum shape hs tp) := ⟨h1.file, h1.clock, h1.band, h1.mean, h1.dirs⟩
  obtain ⟨c1, x, y, -, c3⟩ := Irr.computeDirections_ok h
  have hd : f₁.dirs = linspaceList x y nb := by
    rcases Irr.refresh_ok c3 with ⟨-, rfl⟩ | ⟨-, am, -, rfl⟩ <;> rfl
  have hlen : f₁.dirs.length = nb := by rw [hd, linspace_length]
  have hnb : 2 ≤ nb := c1
  have hne : f₁.dirs ≠ [] := by intro e; rw [e] at hlen; simp at hlen; omega
  obtain ⟨min, max, ks, a, dirs, hc, -, hdd, hsp, hw, ha, hg⟩ := Irr.init_ok h2 hi
  have hfr : g.freqs ≠ [] := by intro e; have := hsp.1; rw [e] at this; exact hc.2.2.1 this.symm
  have : dirs = f₁.dirs := by rw [hdd]; exact if_neg hne
  rw [this] at ha
  have := ((amplitudes_iff _ _ _ hfr hne a).mp ha).2.2.1 rfl
  omega

/-- **C166 (defect), direction after `Initialize`.** On an initialised field without directional model, changing the mean direction is accepted and read back but changes nothing to the waves returned. -/
theorem C166_direction_after (g : Irr) (hd : g.spectrum.dir = none) (a : ℝ) (unit : AngleUnit) (fc : FC) (dc : DC) :
    ∃ g', g.setMeanAngle a unit fc dc = .ok g' ∧ g'.meanDir = setDirectionAngle true a unit fc dc ∧ g'.view = g.view := by
  refine ⟨{ g with meanDir := setDirectionAngle true a unit fc dc }, ?_, rfl, rfl⟩
  unfold Irr.setMeanAngle
  simp only
  rw [if_neg (by rw [hd]; simp)]

/-- **C166 (defect), spectrum after `Initialize`.** Setting a new spectrum, a new height or a new peak frequency on an initialised field changes nothing to the waves; and a second `Initialize` after a
new spectrum keeps the band of frequencies of the first (even if none was ever asked). -/
theorem C166_spectrum_after (h : Ready seeded ops sea r draw f g) (shape : Shape) (hs tp : ℝ) (op : SetOp)
    (hop : op = .spectrum shape hs tp ∨ op = .height hs ∨ op = .peak hs) (sea' : Sea) :
    (∃ g', g.apply seeded sea' op = .ok g' ∧ g'.view = g.view) ∧
    ∀ g' g'' (draw' : ℕ → ℝ), g.apply seeded sea' op = .ok g' → g'.init sea r draw' = .ok g'' → g''.view.nbFreq = g.view.nbFreq ∧ ∀ j < g.view.nbFreq, g''.view.freq j = g.view.freq j := by
  have hview : ∃ g', g.apply seeded sea' op = .ok g' ∧ g'.view = g.view := by
    rcases hop with rfl | rfl | rfl <;> exact ⟨_, rfl, rfl⟩
  refine ⟨hview, ?_⟩
  intro g' g'' draw' h1 h2
  obtain ⟨min, max, ks, a, dirs, hc, -, hdd, hsp, hw, ha, hg⟩ := Irr.init_ok h.inv h.inited
  have hnb : g.nbFreq = f.nbFreq := by rw [hg]; rfl
  have q : g'.minFreq = min ∧ g'.maxFreq = max ∧ g'.nbFreq = f.nbFreq ∧ g'.fromFile = false := by
    have q0 : g.minFreq = min ∧ g.maxFreq = max ∧ g.nbFreq = f.nbFreq ∧ g.fromFile = false := by rw [hg]; exact ⟨rfl, rfl, rfl, h.inv.file⟩
    rcases hop with rfl | rfl | rfl <;> (obtain rfl := Except.ok.inj h1; exact q0)
  obtain ⟨q1, q2, q3, q4⟩ := q
  unfold Irr.init at h2
  simp only at h2
  rw [if_neg (show ¬ (g'.baseInit sea).fromFile = true by show ¬ g'.fromFile = true; rw [q4]; simp)] at h2
  set F := (g'.baseInit sea).fillDirs with hF
  have hFe : F = { g'.baseInit sea with dirs := F.dirs } := by
    rw [hF]; unfold Irr.fillDirs; split_ifs <;> rfl
  have hFf : F.minFreq = min ∧ F.maxFreq = max ∧ F.nbFreq = f.nbFreq := by
    rw [hFe]; exact ⟨q1, q2, q3⟩
  have hband : F.band = .ok (min, max) := by
    unfold Irr.band
    rw [hFf.1, hFf.2.1, if_neg (fun h => hc.1.ne' h.1)]
  rw [hband] at h2
  change ((F.setFrequencies sea min max F.nbFreq).bind fun f => .ok ((f.generatePhases draw').update r sea.floor.depth 0)) = .ok g'' at h2
  rw [hFf.2.2] at h2
  cases hs2 : F.setFrequencies sea min max f.nbFreq with
  | error e => rw [hs2] at h2; cases h2
  | ok G =>
    rw [hs2] at h2
    obtain rfl := Except.ok.inj h2
    obtain ⟨-, freqs, ks', hsp', -, hr⟩ := Irr.setFrequencies_ok hs2
    have hG : G.freqs = freqs ∧ G.nbFreq = f.nbFreq := by
      rcases Irr.refresh_ok hr with ⟨-, rfl⟩ | ⟨-, am, -, rfl⟩ <;> exact ⟨rfl, rfl⟩
    refine ⟨by show G.nbFreq = g.nbFreq; rw [hG.2, hnb], ?_⟩
    intro j hj
    have hj' : j < f.nbFreq := hnb ▸ hj
    show G.freqs.getD j 0 = g.freqs.getD j 0
    rw [hG.1, hsp'.2 j hj', hsp.2 j hj']

/-- **C166 (defect), more components after `Initialize`.** `SetWaveFrequencies` with more frequencies, or `SetDirectionalParameters` with more directions, on an initialised field leaves the phases as
they were: the next query reads them beyond their end. -/
theorem C166_more_components (h : Ready seeded ops sea r draw f g) (g' : Irr) (sea' : Sea) :
    (∀ min max nb, g.setFrequencies sea' min max nb = .ok g' → g.view.nbFreq < nb → ¬ g'.InBounds) ∧
    (∀ nb s type, g.setDirectional nb s type = .ok g' → g.view.nbDir < nb → ¬ g'.InBounds) := by
  obtain ⟨⟨hin, -⟩, min, max, θ₀, θ₁, -, -, -, -, hdirs, -⟩ := C165_components h
  obtain ⟨min, max, ks, a, dirs, hc, -, hdd, hsp, hw, ha, hg⟩ := Irr.init_ok h.inv h.inited
  have hgp : g.phases = (List.range dirs.length).map fun i => (List.range f.nbFreq).map fun j => draw (i * f.nbFreq + j) := by rw [hg]
  have hnbF : g.nbFreq = f.nbFreq := by rw [hg]; rfl
  have hnbD : g.nbDir = f.nbDir := by rw [hg]; rfl
  have hlen : dirs.length = f.nbDir := by
    rcases h.inv.dirs with ⟨e1, e2⟩ | ⟨e1, x, y, e2⟩
    · rw [hdd, if_pos e1, e2]; rfl
    · rw [hdd, if_neg (by rintro e; rw [e] at e2; have := e2.1; simp at this; omega)]; exact e2.1
  have hpos : 0 < f.nbDir := by rcases h.inv.dirs with ⟨-, e2⟩ | ⟨e1, -⟩ <;> omega
  constructor
  · intro min' max' nb hset hlt hb
    obtain ⟨-, freqs, ks', -, -, hr⟩ := Irr.setFrequencies_ok hset
    have q : g'.phases = g.phases ∧ g'.nbDir = g.nbDir ∧ g'.nbFreq = nb := by
      rcases Irr.refresh_ok hr with ⟨-, rfl⟩ | ⟨-, am, -, rfl⟩ <;> exact ⟨rfl, rfl, rfl⟩
    obtain ⟨row, h1, h2⟩ := hb.2.2.2.2 0 (by rw [q.2.1, hnbD]; exact hpos)
    rw [q.1, hgp, List.getElem?_map, List.getElem?_range (by rw [hlen]; exact hpos)] at h1
    obtain rfl := Option.some.inj h1
    rw [q.2.2] at h2
    have hlt' : f.nbFreq < nb := hnbF ▸ hlt
    simp at h2
    omega
  · intro nb s type hset hlt hb
    obtain ⟨c1, x, y, -, c3⟩ := Irr.computeDirections_ok hset
    have q : g'.phases = g.phases ∧ g'.nbDir = nb := by
      rcases Irr.refresh_ok c3 with ⟨-, rfl⟩ | ⟨-, am, -, rfl⟩ <;> exact ⟨rfl, rfl⟩
    have hlt' : f.nbDir < nb := hnbD ▸ hlt
    obtain ⟨row, h1, -⟩ := hb.2.2.2.2 f.nbDir (by rw [q.2]; exact hlt')
    rw [q.1, hgp, List.getElem?_eq_none (by simp [hlen])] at h1
    cases h1

/-- The hypotheses of the two theorems above are met: asking for 25 frequencies instead of 20. -/
example : ∃ f g g', Ready seeded demoCalls deepSea r draw f g ∧ g.setFrequencies deepSea 0.5 2 25 = .ok g' ∧ g.view.nbFreq < 25 := by
  obtain ⟨f, g, h, -, hno⟩ := demo_ready (seeded := seeded) (r := r) (draw := draw)
  obtain ⟨hnb, -, hdir⟩ := C165_single h hno
  have hF : g.view.nbFreq = 20 := by
    obtain ⟨-, min, max, θ₀, θ₁, -, -, hb, -⟩ := C165_components h
    rcases hb with hb | ⟨hb, -⟩
    · have e : some ((0.5 : ℝ), (2 : ℝ), 20) = some (min, max, g.view.nbFreq) := hb
      simp only [Option.some.injEq, Prod.mk.injEq] at e
      exact e.2.2.symm
    · have e : some ((0.5 : ℝ), (2 : ℝ), 20) = none := hb
      cases e
  have hset : ∃ g', g.setFrequencies deepSea 0.5 2 25 = .ok g' := by
    unfold Irr.setFrequencies
    rw [if_pos (by norm_num)]
    simp only
    rw [if_neg (by norm_num)]
    have hw : ∃ ks, g.waveNumbers deepSea (linspaceList 0.5 2 25) = some ks := by
      unfold Irr.waveNumbers
      split_ifs
      · exact ⟨_, rfl⟩
      · obtain ⟨ks, h1, -⟩ := C25_list deepSea.floor.depth deepSea.gravity (by norm_num [deepSea]) (linspaceList 0.5 2 25)
        exact ⟨ks, h1⟩
    obtain ⟨ks, hks⟩ := hw
    rw [hks]
    simp only
    unfold Irr.refresh
    obtain ⟨min, max, ks', a, dirs, hc, -, hdd, hsp, hw, ha, hg⟩ := Irr.init_ok h.inv h.inited
    have hgs : g.spectrum = f.spectrum := by rw [hg]; rfl
    have hgd : g.dirs = dirs := by rw [hg]
    have hlen : g.dirs.length = 1 := by
      have hfd : f.nbDir = 1 := by have : g.nbDir = f.nbDir := by rw [hg]; rfl
                                   rw [← this]; exact hnb
      rw [hgd, hdd]
      rcases h.inv.dirs with ⟨e1, -⟩ | ⟨e1, -⟩
      · rw [if_pos e1]; rfl
      · omega
    have hne : g.dirs ≠ [] := by intro e; rw [e] at hlen; simp at hlen
    have hne2 : linspaceList 0.5 2 25 ≠ [] := by intro e; have := congrArg List.length e; rw [linspace_length] at this; simp at this
    rw [if_neg hne]
    have := (amplitudes_iff g.spectrum (linspaceList 0.5 2 25) g.dirs hne2 hne _).mpr
      ⟨by rw [linspace_length]; norm_num, by rw [hlen]; norm_num, fun _ => hlen, rfl⟩
    simp only [this]
    exact ⟨_, rfl⟩
  obtain ⟨g', hg'⟩ := hset
  exact ⟨f, g, g', h, hg', by rw [hF]; norm_num⟩

end Frydom.Waves
