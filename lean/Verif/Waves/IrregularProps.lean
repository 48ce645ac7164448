import Verif.Waves.IrregularSetup
import Verif.Waves.AiryProps
import Verif.Waves.Bandwidth

/-!
# Setting up an irregular wave field: the components after `Initialize` (C165)
-/

open Classical

noncomputable section

namespace Frydom.Waves
open Real Frydom.Geom Frydom.Seakeeping

/-! ## Specification -/

/-- The band of frequencies asked last, if any. -/
def askedBand (b : Option (ℝ × ℝ × ℕ)) : SetOp → Option (ℝ × ℝ × ℕ)
  | .frequencies min max nb => some (min, max, nb)
  | _ => b

/-- The mean direction asked last (in the internal convention: NWU, going to, radians). -/
def askedMean (m : ℝ) : SetOp → ℝ
  | .meanAngle a unit fc dc => setDirectionAngle true a unit fc dc
  | .meanDirection ux uy fc dc => setDirectionAngle true (Complex.arg ⟨ux, uy⟩) .rad fc dc
  | _ => m

/-- `n` values evenly spaced from `a` to `b` (`a` alone if `n = 1`): the `j`-th. -/
def spaced (a b : ℝ) (n j : ℕ) : ℝ := if n = 1 then a else a + j * ((b - a) / ((n : ℝ) - 1))

/-- Their spacing, taken as one for a single value. -/
def spacing (a b : ℝ) (n : ℕ) : ℝ := if n = 1 then 1 else (b - a) / ((n : ℝ) - 1)

/-! ## Lemmas -/

theorem linspace_length (a b : ℝ) (n : ℕ) : (linspaceList a b n).length = n := by simp [linspaceList]

theorem linspace_getD (a b : ℝ) (n j : ℕ) (h : j < n) : (linspaceList a b n).getD j 0 = a + j * ((b - a) / ((n : ℝ) - 1)) := by
  unfold linspaceList
  rw [List.getD_eq_getElem?_getD, List.getElem?_map, List.getElem?_range h]; rfl

/-- A list of `n` evenly spaced values. -/
def IsSpaced (a b : ℝ) (n : ℕ) (l : List ℝ) : Prop := l.length = n ∧ ∀ j < n, l.getD j 0 = spaced a b n j

theorem isSpaced_linspace (a b : ℝ) (n : ℕ) (h : 2 ≤ n) : IsSpaced a b n (linspaceList a b n) :=
  ⟨linspace_length a b n, fun j hj => by rw [linspace_getD a b n j hj, spaced, if_neg (by omega)]⟩

theorem isSpaced_one (a b : ℝ) : IsSpaced a b 1 [a] :=
  ⟨rfl, fun j hj => by obtain rfl : j = 0 := by omega
                       simp [spaced]⟩

/-- All the cells of evenly spaced values have the same width. -/
theorem cellWidth_spaced {a b : ℝ} {n : ℕ} {l : List ℝ} (h : IsSpaced a b n l) (i : ℕ) (hi : i < n) :
    cellWidth (l.length - 1) (fun k => l.getD k 0) i = spacing a b n := by
  obtain ⟨hl, hv⟩ := h
  unfold cellWidth spacing
  rw [hl]
  by_cases h1 : n = 1
  · rw [if_pos (by omega), if_pos h1]
  · have hn : n - 1 ≠ 0 := by omega
    rw [if_neg hn, if_neg h1]
    have hsp : ∀ j < n, l.getD j 0 = a + j * ((b - a) / ((n : ℝ) - 1)) := fun j hj => by rw [hv j hj, spaced, if_neg h1]
    split_ifs with c1 c2
    · simp only [hsp 1 (by omega), hsp 0 (by omega)]; push_cast; ring
    · simp only [hsp (n - 1) (by omega), hsp (n - 1 - 1) (by omega)]
      have : ((n - 1 : ℕ) : ℝ) = ((n - 1 - 1 : ℕ) : ℝ) + 1 := by
        rw [← Nat.cast_one (R := ℝ), ← Nat.cast_add]; congr 1; omega
      rw [this]; ring
    · simp only [hsp (i + 1) (by omega), hsp (i - 1) (by omega)]
      have : ((i : ℕ) : ℝ) = ((i - 1 : ℕ) : ℝ) + 1 := by
        rw [← Nat.cast_one (R := ℝ), ← Nat.cast_add]; congr 1; omega
      push_cast
      rw [this]; ring

/-- The spreading used for the `i`-th direction. -/
def spreadOf (D : Option DirModel) (thetas : List ℝ) (i : ℕ) : ℝ :=
  match D with
  | none => 1
  | some D => D.eval (thetas.getD i 0) ((thetas.getD 0 0 + thetas.getD (thetas.length - 1) 0) / 2)

theorem getWaveAmplitudes2_three (S : ℝ → ℝ) (D : Option (ℝ → ℝ → ℝ)) (ws thetas : List ℝ) (h : thetas ≠ []) (h3 : ws.length = 3) :
    getWaveAmplitudes2 S D ws thetas = none := by
  have hl : (vectorDiscretization ws).length = 2 := by simp [vectorDiscretization, h3]
  have hpos : 0 < thetas.length := List.length_pos_of_ne_nil h
  unfold getWaveAmplitudes2
  simp only
  apply mapM_none _ _ 0 (List.mem_range.mpr hpos)
  apply mapM_none _ _ 2 (List.mem_range.mpr (by omega))
  rw [List.getElem?_eq_none (l := vectorDiscretization ws) (by omega)]
  simp

/-- When the amplitudes can be computed, and what they are. -/
theorem amplitudes_iff (s : WSpectrum) (ws thetas : List ℝ) (hne : ws ≠ []) (hne' : thetas ≠ []) (a : List (List ℝ)) :
    s.amplitudes ws thetas = some a ↔
      ws.length ≠ 3 ∧ thetas.length ≠ 3 ∧ (s.dir = none → thetas.length = 1) ∧
      a = (List.range thetas.length).map fun j => (List.range ws.length).map fun i =>
        √(2 * s.eval (ws.getD i 0) * spreadOf s.dir thetas j * cellWidth (thetas.length - 1) (fun k => thetas.getD k 0) j *
          cellWidth (ws.length - 1) (fun k => ws.getD k 0) i) := by
  have hlen' : 0 < thetas.length := List.length_pos_of_ne_nil hne'
  by_cases h3 : ws.length = 3
  · rw [show s.amplitudes ws thetas = none from getWaveAmplitudes2_three _ _ _ _ hne' h3]; simp [h3]
  by_cases h3' : thetas.length = 3
  · rw [show s.amplitudes ws thetas = none from C42_three_directions _ _ _ _ hne h3']; simp [h3']
  by_cases h1 : s.dir = none → thetas.length = 1
  swap
  · push Not at h1
    rw [show s.amplitudes ws thetas = none by
      unfold WSpectrum.amplitudes; rw [h1.1]; exact C42_no_model _ _ _ hne (by omega)]
    simp [h1]
  obtain ⟨hl, hg⟩ := discretization_get ws hne h3
  obtain ⟨hl', hg'⟩ := discretization_get thetas hne' h3'
  have hres : s.amplitudes ws thetas = some ((List.range thetas.length).map fun j => (List.range ws.length).map fun i =>
        √(2 * s.eval (ws.getD i 0) * spreadOf s.dir thetas j * cellWidth (thetas.length - 1) (fun k => thetas.getD k 0) j *
          cellWidth (ws.length - 1) (fun k => ws.getD k 0) i)) := by
    unfold WSpectrum.amplitudes getWaveAmplitudes2
    simp only
    apply mapM_all
    intro j hj
    have hj' := List.mem_range.mp hj
    apply mapM_all
    intro i hi
    have hi' := List.mem_range.mp hi
    rw [hg i hi', hg' j hj']
    cases hd : s.dir with
    | none =>
      have := h1 hd
      obtain rfl : j = 0 := by omega
      rfl
    | some D =>
      simp only [Option.map_some, List.getElem?_map, List.getElem?_eq_getElem hj', Option.bind_some, spreadOf,
        List.getD_eq_getElem _ _ hj']
      congr 6
      ring
  rw [hres]
  simp only [Option.some.injEq, ne_eq, h3, not_false_eq_true, h3', true_and]
  exact ⟨fun h => ⟨h1, h.symm⟩, fun h => h.2.symm⟩

theorem table_get (n m : ℕ) (e : ℕ → ℕ → ℝ) (i j : ℕ) (hi : i < n) (hj : j < m) :
    (((List.range n).map fun i => (List.range m).map fun j => e i j).getD i []).getD j 0 = e i j := by
  rw [List.getD_eq_getElem?_getD (i := i), List.getElem?_map, List.getElem?_range hi]
  simp only [Option.map_some, Option.getD_some]
  rw [List.getD_eq_getElem?_getD, List.getElem?_map, List.getElem?_range hj]; rfl

theorem table_row (n m : ℕ) (e : ℕ → ℕ → ℝ) (i : ℕ) (hi : i < n) :
    ∃ row, ((List.range n).map fun i => (List.range m).map fun j => e i j)[i]? = some row ∧ m ≤ row.length :=
  ⟨_, by rw [List.getElem?_map, List.getElem?_range hi]; rfl, by simp⟩

namespace Irr

theorem refresh_ok {f g : Irr} {known : List ℝ} (h : f.refresh known = .ok g) :
    (known = [] ∧ g = f) ∨ (known ≠ [] ∧ ∃ a, f.spectrum.amplitudes f.freqs f.dirs = some a ∧ g = { f with amp := a }) := by
  unfold refresh at h
  by_cases hk : known = []
  · rw [if_pos hk] at h; left; exact ⟨hk, (Except.ok.inj h).symm⟩
  · rw [if_neg hk] at h
    right
    refine ⟨hk, ?_⟩
    cases ha : f.spectrum.amplitudes f.freqs f.dirs with
    | none => rw [ha] at h; cases h
    | some a => rw [ha] at h; exact ⟨a, rfl, (Except.ok.inj h).symm⟩

/-- What a successful `SetWaveFrequencies` leaves. -/
theorem setFrequencies_ok {f g : Irr} {sea : Sea} {min max : ℝ} {nb : ℕ} (h : f.setFrequencies sea min max nb = .ok g) :
    (0 < min ∧ min ≤ max ∧ nb ≠ 0 ∧ (nb = 1 → min = max)) ∧ ∃ freqs ks, IsSpaced min max nb freqs ∧ f.waveNumbers sea freqs = some ks ∧
      refresh { f with minFreq := min, maxFreq := max, nbFreq := nb, freqs := freqs, ks := ks } f.dirs = .ok g := by
  unfold setFrequencies at h
  by_cases hc : 0 < min ∧ min ≤ max ∧ nb ≠ 0 ∧ (nb = 1 → min = max)
  swap
  · rw [if_neg hc] at h; cases h
  rw [if_pos hc] at h
  refine ⟨hc, ?_⟩
  simp only at h
  have hsp : IsSpaced min max nb (if nb = 1 then [min] else linspaceList min max nb) := by
    by_cases h1 : nb = 1
    · rw [if_pos h1, h1]; exact isSpaced_one min max
    · rw [if_neg h1]; exact isSpaced_linspace min max nb (by omega)
  generalize (if nb = 1 then [min] else linspaceList min max nb) = freqs at h hsp
  cases hw : f.waveNumbers sea freqs with
  | none => rw [hw] at h; cases h
  | some ks => rw [hw] at h; exact ⟨freqs, ks, hsp, hw, h⟩

/-- What a successful `ComputeWaveDirections` leaves. -/
theorem computeDirections_ok {f g : Irr} (h : f.computeDirections = .ok g) :
    2 ≤ f.nbDir ∧ ∃ a b, ((∃ s, f.spectrum.dir = some (.cos2s s) ∧ getDirectionBandwidth (cos2sEval s) f.meanDir = .returns (a, b)) ∨
        (f.spectrum.dir = some .test ∧ a = f.meanDir ∧ b = f.meanDir + 0.1)) ∧
      refresh { f with dirs := linspaceList a b f.nbDir } f.freqs = .ok g := by
  unfold computeDirections at h
  cases hd : f.spectrum.dir with
  | none => rw [hd] at h; cases h
  | some D =>
    rw [hd] at h
    cases D with
    | cos2s s =>
      simp only at h
      cases hb : getDirectionBandwidth (DirModel.eval (.cos2s s)) f.meanDir with
      | loops => rw [hb] at h; cases h
      | throws => rw [hb] at h; cases h
      | returns p =>
        obtain ⟨a, b⟩ := p
        rw [hb] at h
        simp only at h
        by_cases h2 : f.nbDir < 2
        · rw [if_pos h2] at h; cases h
        · rw [if_neg h2] at h
          exact ⟨by omega, a, b, Or.inl ⟨s, rfl, hb⟩, h⟩
    | test =>
      simp only at h
      by_cases h2 : f.nbDir < 2
      · rw [if_pos h2] at h; cases h
      · rw [if_neg h2] at h
        exact ⟨by omega, _, _, Or.inr ⟨rfl, rfl, rfl⟩, h⟩

/-- What holds of a field before it is initialised, `b` and `m` being the band and the mean direction asked last. -/
structure Inv (b : Option (ℝ × ℝ × ℕ)) (m : ℝ) (f : Irr) : Prop where
  file : f.fromFile = false
  clock : f.time = 0 ∧ f.ramp = 1 ∧ f.depth = 0
  band : (b = none ∧ f.minFreq = 0 ∧ f.maxFreq = 0 ∧ f.nbFreq = 40 ∧ f.freqs = []) ∨
    (b = some (f.minFreq, f.maxFreq, f.nbFreq) ∧ 0 < f.minFreq ∧ f.minFreq ≤ f.maxFreq ∧ f.nbFreq ≠ 0 ∧ (f.nbFreq = 1 → f.minFreq = f.maxFreq) ∧
      IsSpaced f.minFreq f.maxFreq f.nbFreq f.freqs)
  mean : f.meanDir = m
  dirs : (f.dirs = [] ∧ f.nbDir = 1) ∨ (2 ≤ f.nbDir ∧ ∃ a b, IsSpaced a b f.nbDir f.dirs)

theorem inv_refresh {b : Option (ℝ × ℝ × ℕ)} {m : ℝ} {f g : Irr} {known : List ℝ} (h : Inv b m f) (hr : f.refresh known = .ok g) : Inv b m g := by
  rcases refresh_ok hr with ⟨-, rfl⟩ | ⟨-, a, -, rfl⟩
  · exact h
  · exact ⟨h.file, h.clock, h.band, h.mean, h.dirs⟩

theorem inv_compute {b : Option (ℝ × ℝ × ℕ)} {m : ℝ} {f g : Irr} (file : f.fromFile = false) (clock : f.time = 0 ∧ f.ramp = 1 ∧ f.depth = 0)
    (band : (b = none ∧ f.minFreq = 0 ∧ f.maxFreq = 0 ∧ f.nbFreq = 40 ∧ f.freqs = []) ∨
      (b = some (f.minFreq, f.maxFreq, f.nbFreq) ∧ 0 < f.minFreq ∧ f.minFreq ≤ f.maxFreq ∧ f.nbFreq ≠ 0 ∧ (f.nbFreq = 1 → f.minFreq = f.maxFreq) ∧
        IsSpaced f.minFreq f.maxFreq f.nbFreq f.freqs)) (mean : f.meanDir = m) (h : f.computeDirections = .ok g) : Inv b m g := by
  obtain ⟨h2, x, y, -, hr⟩ := computeDirections_ok h
  refine inv_refresh (f := { f with dirs := linspaceList x y f.nbDir }) ⟨file, clock, band, mean, Or.inr ⟨h2, x, y, ?_⟩⟩ hr
  exact isSpaced_linspace x y _ h2

theorem inv_new (sea : Sea) : Inv none 0 (new sea) := ⟨rfl, ⟨rfl, rfl, rfl⟩, Or.inl ⟨rfl, rfl, rfl, rfl, rfl⟩, rfl, Or.inl ⟨rfl, rfl⟩⟩

theorem inv_apply {seeded : ℤ → ℕ → ℝ} {sea : Sea} {op : SetOp} {b : Option (ℝ × ℝ × ℕ)} {m : ℝ} {f g : Irr} (h : Inv b m f)
    (hop : f.apply seeded sea op = .ok g) : Inv (askedBand b op) (askedMean m op) g := by
  have hmean : ∀ a unit fc dc, f.setMeanAngle a unit fc dc = .ok g → Inv b (setDirectionAngle true a unit fc dc) g := by
    intro a unit fc dc hop
    unfold setMeanAngle at hop
    simp only at hop
    by_cases hd : f.spectrum.dir.isSome = true
    · rw [if_pos hd] at hop
      exact inv_compute (f := { f with meanDir := setDirectionAngle true a unit fc dc }) h.file h.clock h.band rfl hop
    · rw [if_neg hd] at hop
      obtain rfl := Except.ok.inj hop
      exact ⟨h.file, h.clock, h.band, rfl, h.dirs⟩
  cases op with
  | frequencies min max nb =>
    obtain ⟨hc, freqs, ks, hsp, -, hr⟩ := setFrequencies_ok hop
    exact inv_refresh (f := { f with minFreq := min, maxFreq := max, nbFreq := nb, freqs := freqs, ks := ks })
      ⟨h.file, h.clock, Or.inr ⟨rfl, hc.1, hc.2.1, hc.2.2.1, hc.2.2.2, hsp⟩, h.mean, h.dirs⟩ hr
  | meanAngle a unit fc dc => exact hmean a unit fc dc hop
  | meanDirection ux uy fc dc => exact hmean _ _ fc dc hop
  | directional nb s type => exact inv_compute (f := { f with nbDir := nb, dirs := [], spectrum := { f.spectrum with dir := dirModelOf s type } }) h.file h.clock h.band h.mean hop
  | spectrum shape hs tp => obtain rfl := Except.ok.inj hop; exact ⟨h.file, h.clock, h.band, h.mean, h.dirs⟩
  | height hs => obtain rfl := Except.ok.inj hop; exact ⟨h.file, h.clock, h.band, h.mean, h.dirs⟩
  | peak wp => obtain rfl := Except.ok.inj hop; exact ⟨h.file, h.clock, h.band, h.mean, h.dirs⟩
  | model d => obtain rfl := Except.ok.inj hop; exact ⟨h.file, h.clock, h.band, h.mean, h.dirs⟩
  | stretching t => obtain rfl := Except.ok.inj hop; exact ⟨h.file, h.clock, h.band, h.mean, h.dirs⟩
  | phases seed => obtain rfl := Except.ok.inj hop; exact ⟨h.file, h.clock, h.band, h.mean, h.dirs⟩

theorem inv_run {seeded : ℤ → ℕ → ℝ} : ∀ {ops : List (Sea × SetOp)} {b : Option (ℝ × ℝ × ℕ)} {m : ℝ} {f g : Irr}, Inv b m f →
    Irr.run seeded ops f = .ok g → Inv (ops.foldl (fun b o => askedBand b o.2) b) (ops.foldl (fun m o => askedMean m o.2) m) g
  | [], _, _, f, g, h, hr => by obtain rfl := Except.ok.inj hr; exact h
  | (sea, op) :: l, b, m, f, g, h, hr => by
    unfold Irr.run at hr
    cases ha : f.apply seeded sea op with
    | error e => rw [ha] at hr; cases hr
    | ok f' =>
      rw [ha] at hr
      have := inv_run (inv_apply h ha) hr
      exact this

/-- What a successful `Initialize` leaves. -/
theorem init_ok {b : Option (ℝ × ℝ × ℕ)} {m : ℝ} {f g : Irr} {sea : Sea} {r : Option (ℝ → ℝ)} {draw : ℕ → ℝ} (hf : Inv b m f)
    (h : f.init sea r draw = .ok g) :
    ∃ min max ks a dirs, (0 < min ∧ min ≤ max ∧ f.nbFreq ≠ 0 ∧ (f.nbFreq = 1 → min = max)) ∧
      ((b = some (min, max, f.nbFreq)) ∨ (b = none ∧ f.nbFreq = 40 ∧
        getFrequencyBandwidth f.spectrum.eval f.spectrum.hs f.spectrum.wp = .returns (min, max))) ∧
      dirs = (if f.dirs = [] then [m] else f.dirs) ∧
      IsSpaced min max f.nbFreq g.freqs ∧ (f.baseInit sea).waveNumbers sea g.freqs = some ks ∧
      f.spectrum.amplitudes g.freqs dirs = some a ∧
      g = { f.baseInit sea with
              minFreq := min, maxFreq := max, dirs := dirs, freqs := g.freqs, ks := ks, amp := a,
              phases := (List.range dirs.length).map fun i => (List.range f.nbFreq).map fun j => draw (i * f.nbFreq + j),
              time := 0, ramp := r.elim 1 fun q => q 0,
              depth := if sea.floor.infinite then 0 else sea.floor.depth } := by
  unfold init at h
  simp only at h
  rw [if_neg (show ¬ (f.baseInit sea).fromFile = true by show ¬ f.fromFile = true; rw [hf.file]; simp)] at h
  set F := (f.baseInit sea).fillDirs with hF
  have hFd : F.dirs = if f.dirs = [] then [m] else f.dirs := by
    rw [hF]; unfold fillDirs
    by_cases hd : f.dirs = []
    · rw [if_pos (show (f.baseInit sea).dirs = [] from hd), if_pos hd]
      show [f.meanDir] = [m]
      rw [hf.mean]
    · rw [if_neg (show ¬ (f.baseInit sea).dirs = [] from hd), if_neg hd]; rfl
  have hFe : F = { f.baseInit sea with dirs := F.dirs } := by
    rw [hF]; unfold fillDirs; split_ifs <;> rfl
  have hne : F.dirs ≠ [] := by
    rw [hFd]
    by_cases c : f.dirs = []
    · rw [if_pos c]; exact List.cons_ne_nil _ _
    · rw [if_neg c]; exact c
  cases hb : F.band with
  | error e => rw [hb] at h; cases h
  | ok p =>
    obtain ⟨min, max⟩ := p
    rw [hb] at h
    change ((F.setFrequencies sea min max F.nbFreq).bind fun f => .ok ((f.generatePhases draw).update r sea.floor.depth 0)) = .ok g at h
    have hnb : F.nbFreq = f.nbFreq := by rw [hFe]; rfl
    cases hs : F.setFrequencies sea min max F.nbFreq with
    | error e => rw [hs] at h; cases h
    | ok G =>
      rw [hs] at h
      obtain rfl := Except.ok.inj h
      obtain ⟨hc, freqs, ks, hsp, hw, hr⟩ := setFrequencies_ok hs
      rw [hnb] at hc hsp hr
      rcases refresh_ok hr with ⟨h0, -⟩ | ⟨-, a, ha, rfl⟩
      · exact absurd h0 hne
      refine ⟨min, max, ks, a, F.dirs, hc, ?_, hFd, hsp, ?_, ?_, ?_⟩
      · unfold band at hb
        have e1 : F.minFreq = f.minFreq := by rw [hFe]; rfl
        have e2 : F.maxFreq = f.maxFreq := by rw [hFe]; rfl
        have e3 : F.spectrum = f.spectrum := by rw [hFe]; rfl
        rw [e1, e2, e3] at hb
        rcases hf.band with ⟨b0, b1, b2, b3, -⟩ | ⟨b0, b1, -⟩
        · rw [if_pos ⟨b1, b2⟩] at hb
          right
          refine ⟨b0, b3, ?_⟩
          cases hq : getFrequencyBandwidth f.spectrum.eval f.spectrum.hs f.spectrum.wp with
          | loops => rw [hq] at hb; cases hb
          | throws => rw [hq] at hb; cases hb
          | returns p => rw [hq] at hb; rw [Except.ok.inj hb]
        · rw [if_neg (fun h => b1.ne' h.1)] at hb
          left
          have := Except.ok.inj hb
          rw [b0, (Prod.mk.inj this).1, (Prod.mk.inj this).2]
      · rw [hFe] at hw; exact hw
      · have e3 : F.spectrum = f.spectrum := by rw [hFe]; rfl
        rw [← e3]; exact ha
      · unfold generatePhases update
        have hl : freqs.length = f.nbFreq := hsp.1
        simp only [hl]
        have q : F.inf = sea.floor.infinite ∧ F.depth = (if sea.floor.infinite = true then f.depth else sea.floor.depth) ∧ F.ramp = f.ramp ∧
            F.meanDir = f.meanDir ∧ F.nbDir = f.nbDir ∧ F.spectrum = f.spectrum ∧ F.fromFile = f.fromFile ∧ F.density = sea.density ∧
            F.gravity = sea.gravity ∧ F.infV = sea.floor.infinite ∧ F.kind = f.kind := by
          rw [hFe]; exact ⟨rfl, rfl, rfl, rfl, rfl, rfl, rfl, rfl, rfl, rfl, rfl⟩
        obtain ⟨q1, q2, q3, q4, q5, q6, q7, q8, q9, q10, q11⟩ := q
        simp only [q1, q2, q3, q4, q5, q6, q7, q8, q9, q10, q11, baseInit, hf.clock.2.1, hf.clock.2.2]
        cases hi : sea.floor.infinite <;> cases r <;> simp

end Irr

/-! ## C165 -/

/-- A field built by any successful sequence of calls on a new field, then initialised. -/
structure Ready (seeded : ℤ → ℕ → ℝ) (ops : List (Sea × SetOp)) (sea : Sea) (r : Option (ℝ → ℝ)) (draw : ℕ → ℝ) (f g : Irr) : Prop where
  built : ∃ sea₀, Irr.run seeded ops (Irr.new sea₀) = .ok f
  inited : f.init sea r draw = .ok g

variable {seeded : ℤ → ℕ → ℝ} {ops : List (Sea × SetOp)} {sea : Sea} {r : Option (ℝ → ℝ)} {draw : ℕ → ℝ} {f g : Irr}

theorem Ready.inv (h : Ready seeded ops sea r draw f g) :
    Irr.Inv (ops.foldl (fun b o => askedBand b o.2) none) (ops.foldl (fun m o => askedMean m o.2) 0) f := by
  obtain ⟨sea₀, h0⟩ := h.built
  exact Irr.inv_run (Irr.inv_new sea₀) h0

/-- **C165, components.** Whatever the calls made before, in whatever order, once `Initialize` has succeeded: no query reads a vector beyond its end; the frequencies are evenly spaced in the band asked last
(40 of them between the two frequencies where the spectrum is one per cent of the variance, if none was asked), the directions are evenly spaced, and every component has the amplitude
`√(2 S(w) D(θ) Δθ Δw)` of the spectrum as it is when the field is initialised (`D Δθ` being one for a single direction without spreading). -/
theorem C165_components (h : Ready seeded ops sea r draw f g) :
    g.InBounds ∧ ∃ min max θ₀ θ₁, 0 < min ∧ min ≤ max ∧
      (ops.foldl (fun b o => askedBand b o.2) none = some (min, max, g.view.nbFreq) ∨
        (ops.foldl (fun b o => askedBand b o.2) none = none ∧ g.view.nbFreq = 40 ∧
          getFrequencyBandwidth f.spectrum.eval f.spectrum.hs f.spectrum.wp = .returns (min, max))) ∧
      (∀ j < g.view.nbFreq, g.view.freq j = spaced min max g.view.nbFreq j) ∧
      (∀ i < g.view.nbDir, g.view.dir i = spaced θ₀ θ₁ g.view.nbDir i) ∧
      (f.spectrum.dir = none → g.view.nbDir = 1) ∧
      ∀ i < g.view.nbDir, ∀ j < g.view.nbFreq, g.view.amp i j =
        √(2 * f.spectrum.eval (g.view.freq j) *
          (f.spectrum.dir.elim 1 fun D => D.eval (g.view.dir i) ((g.view.dir 0 + g.view.dir (g.view.nbDir - 1)) / 2)) *
          spacing θ₀ θ₁ g.view.nbDir * spacing min max g.view.nbFreq) := by
  obtain ⟨min, max, ks, a, dirs, hc, hb, hd, hsp, hw, ha, hg⟩ := Irr.init_ok h.inv h.inited
  have hnbF : g.nbFreq = f.nbFreq := by rw [hg]; rfl
  have hnbD : g.nbDir = f.nbDir := by rw [hg]; rfl
  have hgd : g.dirs = dirs := by rw [hg]
  have hgk : g.ks = ks := by rw [hg]
  have hga : g.amp = a := by rw [hg]
  have hgp : g.phases = (List.range dirs.length).map fun i => (List.range f.nbFreq).map fun j => draw (i * f.nbFreq + j) := by rw [hg]
  have hdirs : ∃ θ₀ θ₁, IsSpaced θ₀ θ₁ f.nbDir dirs := by
    rcases h.inv.dirs with ⟨e1, e2⟩ | ⟨e1, x, y, e2⟩
    · rw [hd, if_pos e1, e2]; exact ⟨_, 0, isSpaced_one _ _⟩
    · rw [hd, if_neg (by rintro e; rw [e] at e2; have := e2.1; simp at this; omega)]; exact ⟨x, y, e2⟩
  obtain ⟨θ₀, θ₁, hds⟩ := hdirs
  have hne : g.freqs ≠ [] := by
    intro e; have := hsp.1; rw [e] at this; exact hc.2.2.1 this.symm
  have hnbD0 : f.nbDir ≠ 0 := by
    rcases h.inv.dirs with ⟨-, e2⟩ | ⟨e1, -⟩ <;> omega
  have hne' : dirs ≠ [] := by
    intro e; have := hds.1; rw [e] at this; exact hnbD0 this.symm
  obtain ⟨-, -, h1, ha'⟩ := (amplitudes_iff f.spectrum g.freqs dirs hne hne' a).mp ha
  have hkl : ks.length = f.nbFreq := by
    unfold Irr.waveNumbers at hw
    split_ifs at hw
    · obtain rfl := Option.some.inj hw; simpa using hsp.1
    · have : ∀ (l : List ℝ) (ks : List ℝ), l.mapM (fun w => solveDispersion sea.floor.depth w sea.gravity) = some ks → ks.length = l.length := by
        intro l
        induction l with
        | nil => intro ks h; simp at h; rw [h]
        | cons x l ih =>
          intro ks h
          rw [List.mapM_cons] at h
          cases h1 : solveDispersion sea.floor.depth x sea.gravity with
          | none => rw [h1] at h; cases h
          | some k =>
            rw [h1] at h
            cases h2 : l.mapM (fun w => solveDispersion sea.floor.depth w sea.gravity) with
            | none => rw [h2] at h; cases h
            | some ks' => rw [h2] at h; obtain rfl := Option.some.inj h; simp [ih ks' h2]
      rw [this _ _ hw, hsp.1]
  refine ⟨⟨?_, ?_, ?_, ?_, ?_⟩, min, max, θ₀, θ₁, hc.1, hc.2.1, ?_, ?_, ?_, ?_, ?_⟩
  · rw [hnbD, hgd, hds.1]
  · rw [hnbF, hsp.1]
  · rw [hnbF, hgk, hkl]
  · intro i hi
    rw [hga, ha', hnbF, ← hsp.1]
    exact table_row _ _ _ i (by rw [hds.1, ← hnbD]; exact hi)
  · intro i hi
    rw [hgp, hnbF]
    exact table_row _ _ _ i (by rw [hds.1, ← hnbD]; exact hi)
  · show _ = some (min, max, g.nbFreq) ∨ _ ∧ g.nbFreq = 40 ∧ _
    rw [hnbF]; exact hb
  · intro j hj
    show g.freqs.getD j 0 = spaced min max g.nbFreq j
    rw [hnbF]; exact hsp.2 j (hnbF ▸ hj)
  · intro i hi
    show g.dirs.getD i 0 = spaced θ₀ θ₁ g.nbDir i
    rw [hnbD, hgd]; exact hds.2 i (hnbD ▸ hi)
  · intro e
    show g.nbDir = 1
    rw [hnbD, ← hds.1]; exact h1 e
  · intro i hi j hj
    have hi' : i < f.nbDir := hnbD ▸ hi
    have hj' : j < f.nbFreq := hnbF ▸ hj
    show (g.amp.getD i []).getD j 0 = _
    rw [hga, ha', table_get _ _ _ i j (by rw [hds.1]; exact hi') (by rw [hsp.1]; exact hj'), cellWidth_spaced hds i hi', cellWidth_spaced hsp j hj']
    show _ = √(2 * f.spectrum.eval (g.freqs.getD j 0) *
          (f.spectrum.dir.elim 1 fun D => D.eval (g.dirs.getD i 0) ((g.dirs.getD 0 0 + g.dirs.getD (g.nbDir - 1) 0) / 2)) *
          spacing θ₀ θ₁ g.nbDir * spacing min max g.nbFreq)
    rw [hnbD, hnbF, hgd]
    unfold spreadOf
    cases f.spectrum.dir with
    | none => rfl
    | some D => rw [hds.1]; rfl

/-- **C165, dispersion.** After `Initialize`, in a sea of positive gravity: in infinite depth the wave numbers are exactly `w²/g`; in finite depth they are positive and satisfy
`w² = g k tanh(k h)` up to `1e-6 g/h` (C25), for the depth and gravity at the time of `Initialize`, whatever they were during the earlier calls; density and gravity of the pressure are those too. -/
theorem C165_dispersion (h : Ready seeded ops sea r draw f g) (hgr : 0 < sea.gravity) :
    (g.view.inf = sea.floor.infinite ∧ g.view.infV = sea.floor.infinite ∧ g.view.density = sea.density ∧ g.view.gravity = sea.gravity ∧
      (sea.floor.infinite = false → g.view.depth = sea.floor.depth)) ∧
    (sea.floor.infinite = true → ∀ j < g.view.nbFreq, 0 < g.view.k j ∧ g.view.freq j ^ 2 = sea.gravity * g.view.k j) ∧
    (sea.floor.infinite = false → 0 < sea.floor.depth → ∀ j < g.view.nbFreq, 0 < g.view.k j ∧
      |g.view.freq j ^ 2 - sea.gravity * g.view.k j * tanh (g.view.k j * sea.floor.depth)| ≤ 1e-6 * (sea.gravity / sea.floor.depth)) := by
  obtain ⟨min, max, ks, a, dirs, hc, hb, hd, hsp, hw, ha, hg⟩ := Irr.init_ok h.inv h.inited
  have hnbF : g.nbFreq = f.nbFreq := by rw [hg]; rfl
  have hgk : g.ks = ks := by rw [hg]
  have hpos : ∀ j < g.view.nbFreq, 0 < g.view.freq j := by
    intro j hj
    show 0 < g.freqs.getD j 0
    have hj' : j < f.nbFreq := hnbF ▸ hj
    rw [hsp.2 j hj']
    unfold spaced
    split_ifs with c
    · exact hc.1
    · have : (0 : ℝ) ≤ (max - min) / ((f.nbFreq : ℝ) - 1) := by
        have h2 : 2 ≤ f.nbFreq := by have := hc.2.2.1; omega
        have : (2 : ℝ) ≤ f.nbFreq := by exact_mod_cast h2
        exact div_nonneg (by linarith [hc.2.1]) (by linarith)
      have := mul_nonneg (Nat.cast_nonneg (α := ℝ) j) this
      linarith [hc.1]
  refine ⟨⟨by show g.inf = _; rw [hg]; rfl, by show g.infV = _; rw [hg]; rfl, by show g.density = _; rw [hg]; rfl, by show g.gravity = _; rw [hg]; rfl, ?_⟩, ?_, ?_⟩
  · intro e
    show g.depth = _
    rw [hg]
    simp [e]
  · intro e j hj
    have hp := hpos j hj
    have hj' : j < f.nbFreq := hnbF ▸ hj
    unfold Irr.waveNumbers at hw
    rw [if_pos (show (f.baseInit sea).inf = true from e)] at hw
    have hk : g.view.k j = g.view.freq j ^ 2 / sea.gravity := by
      show g.ks.getD j 0 = g.freqs.getD j 0 ^ 2 / _
      rw [hgk, ← Option.some.inj hw]
      have hlt : j < g.freqs.length := by rw [hsp.1]; exact hj'
      simp [List.getD_eq_getElem?_getD, List.getElem?_map, List.getElem?_eq_getElem hlt]
    rw [hk]
    exact ⟨by positivity, by field_simp⟩
  · intro e hdep j hj
    have hp := hpos j hj
    have hj' : j < f.nbFreq := hnbF ▸ hj
    unfold Irr.waveNumbers at hw
    rw [if_neg (show ¬ (f.baseInit sea).inf = true by show ¬ sea.floor.infinite = true; simp [e])] at hw
    obtain ⟨ks', h1, h2⟩ := C25_list sea.floor.depth sea.gravity hgr g.freqs
    rw [h1] at hw
    obtain rfl := Option.some.inj hw
    have hlt : j < g.freqs.length := by rw [hsp.1]; exact hj'
    have hlt2 : j < ks'.length := by rw [← h2.length_eq]; exact hlt
    have h3 : solveDispersion sea.floor.depth (g.freqs[j]'hlt) sea.gravity = some (ks'[j]'hlt2) := (List.forall₂_iff_get.mp h2).2 j hlt hlt2
    have ef : g.view.freq j = g.freqs[j]'hlt := List.getD_eq_getElem _ _ hlt
    have ek : g.view.k j = ks'[j]'hlt2 := by show g.ks.getD j 0 = _; rw [hgk]; exact List.getD_eq_getElem _ _ hlt2
    obtain ⟨k, -, hk1, hk2, hk3, -⟩ := C25_finite_depth sea.floor.depth (g.view.freq j) sea.gravity hdep hgr hp.ne'
    rw [ef] at hk1
    rw [h3] at hk1
    rw [ek, Option.some.inj hk1]
    exact ⟨hk2, hk3⟩

/-- **C165, flow.** After `Initialize` in deep water (no stretching), the waves returned are, at all later times, a linear free-surface flow. -/
theorem C165_flow (h : Ready seeded ops sea r draw f g) (hgr : 0 < sea.gravity) (hinf : sea.floor.infinite = true) (hk : f.kind = .none) :
    LinearWaveFlow sea.gravity sea.density none
      (fun x y t => (g.view.update none g.view.depth t).elevation x y .NWU) (fun x y z t => (g.view.update none g.view.depth t).velocity x y z .NWU)
      (fun x y z t => (g.view.update none g.view.depth t).acceleration x y z .NWU) (fun x y z t => (g.view.update none g.view.depth t).pressure x y z .NWU) := by
  obtain ⟨⟨h1, h2, h3, h4, -⟩, h5, -⟩ := C165_dispersion h hgr
  have hkind : g.view.kind = .none := by
    obtain ⟨min, max, ks, a, dirs, hc, hb, hd, hsp, hw, ha, hg⟩ := Irr.init_ok h.inv h.inited
    show g.kind = _
    rw [hg]; exact hk
  have := C35_airy_flow g.view hkind (by rw [h1, h2]) (by rw [h1, hinf]; simp) (by
    intro j hj
    obtain ⟨e1, e2⟩ := h5 hinf j hj
    exact ⟨e1, by rw [h1, hinf, h4]; simpa using e2⟩)
  rw [h1, hinf, h3, h4] at this
  simpa using this

/-- **C165, phases and time.** After `Initialize` every component has its own draw as a phase (no draw is used twice), so that all phases are in `[0, 2π[` when the draws are; the time is
zero and the ramp is that of time zero. -/
theorem C165_phases (h : Ready seeded ops sea r draw f g) :
    (∀ i < g.view.nbDir, ∀ j < g.view.nbFreq, g.view.phase i j = draw (i * g.view.nbFreq + j)) ∧
    (∀ i i' j j', j < g.view.nbFreq → j' < g.view.nbFreq → i * g.view.nbFreq + j = i' * g.view.nbFreq + j' → i = i' ∧ j = j') ∧
    g.view.time = 0 ∧ g.view.ramp = r.elim 1 (fun q => q 0) := by
  obtain ⟨hin, -⟩ := C165_components h
  obtain ⟨min, max, ks, a, dirs, hc, hb, hd, hsp, hw, ha, hg⟩ := Irr.init_ok h.inv h.inited
  have hnbF : g.nbFreq = f.nbFreq := by rw [hg]; rfl
  have hgd : g.dirs = dirs := by rw [hg]
  have hgp : g.phases = (List.range dirs.length).map fun i => (List.range f.nbFreq).map fun j => draw (i * f.nbFreq + j) := by rw [hg]
  refine ⟨fun i hi j hj => ?_, ?_, by show g.time = 0; rw [hg], by show g.ramp = _; rw [hg]⟩
  · show (g.phases.getD i []).getD j 0 = draw (i * g.nbFreq + j)
    rw [hgp, hnbF, table_get _ _ _ i j (by rw [← hgd]; exact lt_of_lt_of_le hi hin.1) (hnbF ▸ hj)]
  · intro i i' j j' hj hj' e
    have hn : 0 < g.view.nbFreq := by omega
    have e1 := congrArg (· / g.view.nbFreq) e
    have e2 := congrArg (· % g.view.nbFreq) e
    simp only [Nat.mul_add_mod', Nat.mod_eq_of_lt hj, Nat.mod_eq_of_lt hj'] at e2
    rw [Nat.add_comm, Nat.add_comm (i' * _)] at e1
    simp only [Nat.add_mul_div_right _ _ hn, Nat.div_eq_of_lt hj, Nat.div_eq_of_lt hj', Nat.zero_add] at e1
    exact ⟨e1, e2⟩

/-- The calls that say what the spectrum is. -/
def SetOp.OfSpectrum : SetOp → Prop
  | .spectrum _ _ _ | .height _ | .peak _ => True
  | _ => False

theorem refresh_spectrum {f g : Irr} {known : List ℝ} (h : f.refresh known = .ok g) : g.spectrum = f.spectrum := by
  rcases Irr.refresh_ok h with ⟨-, rfl⟩ | ⟨-, a, -, rfl⟩ <;> rfl

theorem compute_spectrum {f g : Irr} (h : f.computeDirections = .ok g) : g.spectrum = f.spectrum := by
  obtain ⟨-, x, y, -, hr⟩ := Irr.computeDirections_ok h
  exact refresh_spectrum (f := { f with dirs := linspaceList x y f.nbDir }) hr

theorem apply_spectrum {seeded : ℤ → ℕ → ℝ} {sea : Sea} {op : SetOp} {f g : Irr} (hop : ¬ op.OfSpectrum) (h : f.apply seeded sea op = .ok g) :
    g.spectrum.shape = f.spectrum.shape ∧ g.spectrum.hs = f.spectrum.hs ∧ g.spectrum.wp = f.spectrum.wp := by
  have hmean : ∀ a unit fc dc, f.setMeanAngle a unit fc dc = .ok g → g.spectrum = f.spectrum := by
    intro a unit fc dc hop
    unfold Irr.setMeanAngle at hop
    simp only at hop
    by_cases hd : f.spectrum.dir.isSome = true
    · rw [if_pos hd] at hop
      exact compute_spectrum (f := { f with meanDir := setDirectionAngle true a unit fc dc }) hop
    · rw [if_neg hd] at hop
      obtain rfl := Except.ok.inj hop
      rfl
  cases op with
  | frequencies min max nb =>
    obtain ⟨-, freqs, ks, -, -, hr⟩ := Irr.setFrequencies_ok h
    rw [refresh_spectrum (f := { f with minFreq := min, maxFreq := max, nbFreq := nb, freqs := freqs, ks := ks }) hr]; exact ⟨rfl, rfl, rfl⟩
  | meanAngle a unit fc dc => rw [hmean a unit fc dc h]; exact ⟨rfl, rfl, rfl⟩
  | meanDirection ux uy fc dc => rw [hmean _ _ fc dc h]; exact ⟨rfl, rfl, rfl⟩
  | directional nb s type => rw [compute_spectrum (f := { f with nbDir := nb, dirs := [], spectrum := { f.spectrum with dir := Irr.dirModelOf s type } }) h]; exact ⟨rfl, rfl, rfl⟩
  | spectrum shape hs tp => exact absurd trivial hop
  | height hs => exact absurd trivial hop
  | peak wp => exact absurd trivial hop
  | model d => obtain rfl := Except.ok.inj h; exact ⟨rfl, rfl, rfl⟩
  | stretching t => obtain rfl := Except.ok.inj h; exact ⟨rfl, rfl, rfl⟩
  | phases seed => obtain rfl := Except.ok.inj h; exact ⟨rfl, rfl, rfl⟩

theorem run_append {seeded : ℤ → ℕ → ℝ} : ∀ {l l' : List (Sea × SetOp)} {f g : Irr}, Irr.run seeded (l ++ l') f = .ok g →
    ∃ m, Irr.run seeded l f = .ok m ∧ Irr.run seeded l' m = .ok g
  | [], _, f, _, h => ⟨f, rfl, h⟩
  | (sea, op) :: l, l', f, g, h => by
    rw [List.cons_append] at h
    unfold Irr.run at h
    cases ha : f.apply seeded sea op with
    | error e => rw [ha] at h; cases h
    | ok f' =>
      rw [ha] at h
      obtain ⟨m, h1, h2⟩ := run_append (l := l) (f := f') h
      refine ⟨m, ?_, h2⟩
      show (f.apply seeded sea op).bind (fun f => Irr.run seeded l f) = _
      rw [ha]; exact h1

theorem run_spectrum {seeded : ℤ → ℕ → ℝ} : ∀ {l : List (Sea × SetOp)} {f g : Irr}, (∀ o ∈ l, ¬ o.2.OfSpectrum) → Irr.run seeded l f = .ok g →
    g.spectrum.shape = f.spectrum.shape ∧ g.spectrum.hs = f.spectrum.hs ∧ g.spectrum.wp = f.spectrum.wp
  | [], _, _, _, h => by obtain rfl := Except.ok.inj h; exact ⟨rfl, rfl, rfl⟩
  | (sea, op) :: l, f, g, ho, h => by
    unfold Irr.run at h
    cases ha : f.apply seeded sea op with
    | error e => rw [ha] at h; cases h
    | ok f' =>
      rw [ha] at h
      obtain ⟨e1, e2, e3⟩ := apply_spectrum (ho (sea, op) (by simp)) ha
      obtain ⟨d1, d2, d3⟩ := run_spectrum (fun o h' => ho o (by simp [h'])) h
      exact ⟨d1.trans e1, d2.trans e2, d3.trans e3⟩

/-- **C165, the spectrum asked for.** Whatever was called before and after, the spectrum with which the field is initialised has the shape and the significant height of the last call that chose it, and its peak is at the period given:
the peak frequency times the period is `2π`. Without any such call it is a JONSWAP spectrum of 3 m and 9 s. A height or a peak frequency set on the spectrum replaces that one only. -/
theorem C165_spectrum {seeded : ℤ → ℕ → ℝ} {l l' : List (Sea × SetOp)} {sea₀ sea₁ : Sea} {f g : Irr} {sea : Sea} {r : Option (ℝ → ℝ)} {draw : ℕ → ℝ}
    (hi : f.init sea r draw = .ok g) (hl : ∀ o ∈ l', ¬ o.2.OfSpectrum) :
    (∀ shape hs tp, tp ≠ 0 → Irr.run seeded (l ++ (sea₁, .spectrum shape hs tp) :: l') (Irr.new sea₀) = .ok f →
      g.spectrum.shape = shape ∧ g.spectrum.hs = hs ∧ g.spectrum.wp * tp = 2 * π) ∧
    (Irr.run seeded l' (Irr.new sea₀) = .ok f → g.spectrum.shape = .jonswap 3.3 ∧ g.spectrum.hs = 3 ∧ g.spectrum.wp * 9 = 2 * π) ∧
    (∀ hs, Irr.run seeded (l ++ (sea₁, .height hs) :: l') (Irr.new sea₀) = .ok f → g.spectrum.hs = hs ∧ ∃ m, Irr.run seeded l (Irr.new sea₀) = .ok m ∧
      g.spectrum.shape = m.spectrum.shape ∧ g.spectrum.wp = m.spectrum.wp) ∧
    (∀ wp, Irr.run seeded (l ++ (sea₁, .peak wp) :: l') (Irr.new sea₀) = .ok f → g.spectrum.wp = wp ∧ ∃ m, Irr.run seeded l (Irr.new sea₀) = .ok m ∧
      g.spectrum.shape = m.spectrum.shape ∧ g.spectrum.hs = m.spectrum.hs) := by
  have hg : ∀ {ops : List (Sea × SetOp)}, Irr.run seeded ops (Irr.new sea₀) = .ok f → g.spectrum = f.spectrum := by
    intro ops h
    obtain ⟨min, max, ks, a, dirs, -, -, -, -, -, -, e⟩ := Irr.init_ok (Irr.inv_run (Irr.inv_new sea₀) h) hi
    rw [e]; rfl
  refine ⟨fun shape hs tp h0 h => ?_, fun h => ?_, fun hs h => ?_, fun wp h => ?_⟩
  · obtain ⟨m, -, h2⟩ := run_append h
    obtain ⟨d1, d2, d3⟩ := run_spectrum (f := m.setSpectrum shape hs tp) hl h2
    rw [hg h]
    exact ⟨d1, d2, by rw [d3]; exact div_mul_cancel₀ _ h0⟩
  · obtain ⟨d1, d2, d3⟩ := run_spectrum hl h
    rw [hg h]
    exact ⟨d1, d2, by rw [d3]; show 2 * π / 9 * 9 = _; ring⟩
  · obtain ⟨m, h1, h2⟩ := run_append h
    obtain ⟨d1, d2, d3⟩ := run_spectrum (f := { m with spectrum := { m.spectrum with hs := hs } }) hl h2
    rw [hg h]
    exact ⟨d2, m, h1, d1, d3⟩
  · obtain ⟨m, h1, h2⟩ := run_append h
    obtain ⟨d1, d2, d3⟩ := run_spectrum (f := { m with spectrum := { m.spectrum with wp := wp } }) hl h2
    rw [hg h]
    exact ⟨d3, m, h1, d1, d2⟩

end Frydom.Waves
