import Verif.Waves.IrregularDirs
import Verif.Waves.BandwidthExists

/-!
# Irregular waves for which no frequency band was asked (C165, C166)

`FrAiryIrregularWaveField::Initialize` (FrAiryIrregularWaveField.cpp:281-311) takes the band of the spectrum (`FrWaveSpectrum::GetFrequencyBandwidth`).
-/

open Classical

noncomputable section

namespace Frydom.Waves
open Real Frydom.Geom Frydom.Seakeeping

variable {seeded : ℤ → ℕ → ℝ} {ops : List (Sea × SetOp)} {sea : Sea} {r : Option (ℝ → ℝ)} {draw : ℕ → ℝ} {f g : Irr}

/-- A sea state of the usual kind: Pierson-Moskowitz, or JONSWAP with a peakedness from 1 to 10; a significant height up to 50 m and a peak frequency from 0.05 to 3.7 rad/s. -/
def WSpectrum.Usual (s : WSpectrum) : Prop :=
  (s.shape = .pm ∨ ∃ γ, s.shape = .jonswap γ ∧ 1 ≤ γ ∧ γ ≤ 10) ∧ 0 < s.hs ∧ s.hs ≤ 50 ∧ 0.05 ≤ s.wp ∧ s.wp ≤ 3.7

theorem WSpectrum.Usual.band {s : WSpectrum} (h : s.Usual) :
    ∃ wmin wmax, getFrequencyBandwidth s.eval s.hs s.wp = .returns (wmin, wmax) ∧ 1e-4 < wmin ∧ wmin < s.wp ∧ s.wp < wmax ∧ wmax < 10 ∧
      |s.eval wmin - 0.01 * (s.hs ^ 2 / 16)| < 1e-10 ∧ |s.eval wmax - 0.01 * (s.hs ^ 2 / 16)| < 1e-10 := by
  obtain ⟨h1 | ⟨γ, h1, g1, g2⟩, h2, h3, h4, h5⟩ := h
  · have e : s.eval = piersonMoskowitz s.hs s.wp := by unfold WSpectrum.eval; rw [h1]
    rw [e]
    exact C44_pierson_moskowitz_bandwidth s.hs s.wp h2 h3 h4 h5
  · have e : s.eval = jonswap s.hs s.wp γ := by unfold WSpectrum.eval; rw [h1]
    rw [e]
    exact C44_jonswap_bandwidth s.hs s.wp γ h2 h3 h4 h5 g1 g2

/-- **C165, default band.** `Initialize` succeeds after every sequence of calls in which no band was asked for and that leaves a usual sea state (gravity positive, number of directions not three, a
directional model if there is more than one direction): the field then has forty evenly spaced frequencies, whose first is below the peak, whose last is above, and the density at both is one per cent of
the variance, to `1e-10`. -/
theorem C165_default_band (sea₀ : Sea) (hrun : Irr.run seeded ops (Irr.new sea₀) = .ok f) (hgr : 0 < sea.gravity) (hb : ops.foldl (fun b o => askedBand b o.2) none = none)
    (hs : f.spectrum.Usual) (h3' : f.nbDir ≠ 3) (hdir : f.spectrum.dir = none → f.nbDir = 1) :
    ∃ g, Ready seeded ops sea r draw f g ∧ g.view.nbFreq = 40 ∧
      (∀ j < 40, g.view.freq j = g.view.freq 0 + (g.view.freq 39 - g.view.freq 0) * (j / 39)) ∧
      1e-4 < g.view.freq 0 ∧ g.view.freq 0 < f.spectrum.wp ∧ f.spectrum.wp < g.view.freq 39 ∧ g.view.freq 39 < 10 ∧
      |f.spectrum.eval (g.view.freq 0) - 0.01 * (f.spectrum.hs ^ 2 / 16)| < 1e-10 ∧ |f.spectrum.eval (g.view.freq 39) - 0.01 * (f.spectrum.hs ^ 2 / 16)| < 1e-10 := by
  have hI := Irr.inv_run (Irr.inv_new sea₀) hrun
  rw [hb] at hI
  obtain ⟨-, m0, m1, hn, -⟩ | ⟨b0, -⟩ := hI.band
  swap
  · cases b0
  obtain ⟨wmin, wmax, e, w1, w2, w3, w4, w5, w6⟩ := hs.band
  have hband : f.band = .ok (wmin, wmax) := by
    unfold Irr.band
    rw [if_pos ⟨m0, m1⟩, e]
  obtain ⟨g, hg⟩ := Irr.init_of_band (r := r) (draw := draw) sea₀ hrun hgr hband (by norm_num at w1 ⊢; linarith) (by linarith) (by omega) (by omega) (by omega) h3' hdir
  obtain ⟨-, min, max, θ₀, θ₁, -, -, hc, hfr, -⟩ := C165_components hg
  rcases hc with hc | ⟨-, hn', hc⟩
  · rw [hb] at hc; cases hc
  rw [e] at hc
  obtain ⟨rfl, rfl⟩ : wmin = min ∧ wmax = max := by injection hc with hc; exact Prod.mk.inj hc
  rw [hn'] at hfr
  have f0 : g.view.freq 0 = wmin := by rw [hfr 0 (by norm_num)]; unfold spaced; norm_num
  have f39 : g.view.freq 39 = wmax := by rw [hfr 39 (by norm_num)]; unfold spaced; norm_num; ring
  refine ⟨g, hg, hn', fun j hj => ?_, ?_⟩
  · rw [f0, f39, hfr j hj]; unfold spaced; norm_num; ring
  · rw [f0, f39]; exact ⟨w1, w2, w3, w4, w5, w6⟩

/-- **C165, a field as it is made.** A new field in any sea initialises without a call: JONSWAP waves of 3 m and 9 s going North. -/
theorem C165_new_field (sea₀ : Sea) (hgr : 0 < sea.gravity) : ∃ g, Ready seeded [] sea r draw (Irr.new sea₀) g ∧ g.view.nbFreq = 40 ∧ g.view.nbDir = 1 ∧ g.view.dir 0 = 0 := by
  have hu : (Irr.new sea₀).spectrum.Usual := by
    have h1 := pi_gt_d6
    have h2 := pi_lt_d6
    refine ⟨Or.inr ⟨3.3, rfl, by norm_num, by norm_num⟩, ?_, ?_, ?_, ?_⟩
    · show (0 : ℝ) < 3; norm_num
    · show (3 : ℝ) ≤ 50; norm_num
    · show (0.05 : ℝ) ≤ 2 * π / 9; norm_num at h1 ⊢; linarith
    · show 2 * π / 9 ≤ (3.7 : ℝ); norm_num at h2 ⊢; linarith
  obtain ⟨g, hg, hn, -⟩ := C165_default_band (seeded := seeded) (r := r) (draw := draw) (ops := []) sea₀ rfl hgr rfl hu (show (1 : ℕ) ≠ 3 by norm_num) (fun _ => rfl)
  obtain ⟨a, b, -⟩ := C165_single hg (by simp)
  exact ⟨g, hg, hn, a, b⟩

/-- **C166, short waves (defect).** After every sequence of calls in which no band was asked for and that leaves a JONSWAP sea state of peak frequency from 4.5 to 10 rad/s (peak period below 1.4 s: a
towing tank) and peakedness up to 3.3, `Initialize` throws. -/
theorem C166_short_waves (sea₀ : Sea) (hrun : Irr.run seeded ops (Irr.new sea₀) = .ok f) (hb : ops.foldl (fun b o => askedBand b o.2) none = none)
    {γ : ℝ} (hs : f.spectrum.shape = .jonswap γ) (h1 : 1 ≤ γ) (h33 : γ ≤ 3.3) (hs0 : 0.01 ≤ f.spectrum.hs) (hwp : 4.5 ≤ f.spectrum.wp) (hwp' : f.spectrum.wp < 10) :
    f.init sea r draw = .error .throws := by
  have hI := Irr.inv_run (Irr.inv_new sea₀) hrun
  rw [hb] at hI
  obtain ⟨-, m0, m1, hn, -⟩ | ⟨b0, -⟩ := hI.band
  swap
  · cases b0
  have e : f.spectrum.eval = jonswap f.spectrum.hs f.spectrum.wp γ := by unfold WSpectrum.eval; rw [hs]
  have ht := C44_short_waves_throw f.spectrum.hs f.spectrum.wp γ hs0 hwp hwp' h1 h33
  unfold Irr.init
  simp only
  rw [if_neg (show ¬ (f.baseInit sea).fromFile = true by show ¬ f.fromFile = true; rw [hI.file]; simp)]
  have hF : (f.baseInit sea).fillDirs.band = .error .throws := by
    have q : (f.baseInit sea).fillDirs.minFreq = f.minFreq ∧ (f.baseInit sea).fillDirs.maxFreq = f.maxFreq ∧ (f.baseInit sea).fillDirs.spectrum = f.spectrum := by
      unfold Irr.fillDirs; split_ifs <;> exact ⟨rfl, rfl, rfl⟩
    unfold Irr.band
    rw [q.1, q.2.1, q.2.2, if_pos ⟨m0, m1⟩, e, ht]
  rw [hF]
  rfl

/-- Waves of 10 cm and one second in a tank. -/
example : ∃ f, Irr.run seeded [(deepSea, .spectrum (.jonswap 3.3) 0.1 1)] (Irr.new deepSea) = .ok f ∧ f.init sea r draw = .error .throws := by
  refine ⟨(Irr.new deepSea).setSpectrum (.jonswap 3.3) 0.1 1, rfl, ?_⟩
  have h1 := pi_gt_d6
  have h2 := pi_lt_d6
  refine C166_short_waves (seeded := seeded) (ops := [(deepSea, .spectrum (.jonswap 3.3) 0.1 1)]) deepSea rfl rfl (γ := 3.3) rfl (by norm_num) le_rfl ?_ ?_ ?_
  · show (0.01 : ℝ) ≤ 0.1; norm_num
  · show (4.5 : ℝ) ≤ 2 * π / 1; norm_num at h1 ⊢; linarith
  · show 2 * π / 1 < 10; norm_num at h2 ⊢; linarith

end Frydom.Waves
