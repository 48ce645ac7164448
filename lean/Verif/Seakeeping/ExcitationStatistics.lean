import Verif.Seakeeping.Excitation
import Verif.Waves.SeaResponse

/-!
# Means in the course of time of the linear excitation load (C188)

`FrLinearHDBForce::Compute_F_HDB` (FrLinearHDBForce.cpp:143-206) with the waves at every instant.
-/

open Classical

noncomputable section

namespace Frydom.Seakeeping
open Frydom.Geom Frydom.Core Frydom.Waves Frydom.Hydro

/-- Components of a load along the axes of a frame: force, then moment about the centre of gravity, read in the world. -/
def components (e : Frame) (f : Force) (b : Body) : Fin 6 → ℝ :=
  ![V3.dot (axesOf e ⟨1, 0, 0⟩) (f.getForceInWorld .NWU), V3.dot (axesOf e ⟨0, 1, 0⟩) (f.getForceInWorld .NWU), V3.dot (axesOf e ⟨0, 0, 1⟩) (f.getForceInWorld .NWU),
    V3.dot (axesOf e ⟨1, 0, 0⟩) (f.getTorqueInWorldAtCOG b .NWU), V3.dot (axesOf e ⟨0, 1, 0⟩) (f.getTorqueInWorldAtCOG b .NWU), V3.dot (axesOf e ⟨0, 0, 1⟩) (f.getTorqueInWorldAtCOG b .NWU)]

theorem axes_dot {e : Frame} (h : e.rot.IsUnit) (u v : V3) : V3.dot (axesOf e u) (axesOf e v) = V3.dot u v := by
  show V3.dot (e.rot.rotate u) (e.rot.rotate v) = _
  exact (Q.isRot h).dot u v

theorem components_eq (F : HdbForce) (H : Hdb) (hs : StandardModes H) (w : Airy) (e : EqFrame) (he : e.frame.rot.IsUnit) (b : Body) (hb : Placed b) (f : Force) (i : Fin 6) :
    components e.frame (F.compute H w e b f) b i = forceMode (F.coeffs.getD fun _ _ _ => 0) w e.frame.pos.x e.frame.pos.y i := by
  obtain ⟨h1, h2⟩ := compute_reads F H w e b hb f
  rw [(sumModes_standard H hs _).1] at h1
  rw [(sumModes_standard H hs _).2] at h2
  unfold components
  rw [h1, h2]
  simp only [axes_dot he]
  fin_cases i <;> simp [V3.dot] <;> rfl

/-- **C188, excitation.** Under an irregular sea of one direction (distinct positive frequencies), as long as the equilibrium frame stays where it is, each of the six components along its axes of the linear excitation
load returned (the standard modes, the force initialised with the waves) has a null mean in the course of time, and the mean of its square is the sum over the waves of half the square of the amplitude times the square of
the modulus of the coefficient of the database, wherever the frame is. -/
theorem C188_excitation (F : HdbForce) (hF : F.coeffs = none) (H : Hdb) (hs : StandardModes H) (w : Airy) (hn : w.nbDir = 1) (hw : ∀ j < w.nbFreq, 0 < w.freq j)
    (hd : ∀ i < w.nbFreq, ∀ j < w.nbFreq, w.freq i = w.freq j → i = j) {r : Option (ℝ → ℝ)} (hr : Settled r w.ramp) (depth : ℝ) (e : EqFrame) (he : e.frame.rot.IsUnit) (b : Body) (hb : Placed b) (f : Force) (i : Fin 6) :
    TimeMean (fun t => components e.frame ((F.init H w).compute H (w.update r depth t) e b f) b i) 0 ∧
    TimeMean (fun t => components e.frame ((F.init H w).compute H (w.update r depth t) e b f) b i ^ 2)
      (∑ j ∈ Finset.range w.nbFreq, ‖hdbInterp H.grid H.data i (w.dir 0) (w.freq j)‖ ^ 2 * (w.amp 0 j ^ 2 / 2)) := by
  have hc : (F.init H w).coeffs = some fun idir imode ifreq => hdbInterp H.grid H.data imode (w.dir idir) (w.freq ifreq) := by
    unfold HdbForce.init; rw [hF]
  have key : ∀ t, components e.frame ((F.init H w).compute H (w.update r depth t) e b f) b i = rampNow r w.ramp t *
      ∑ j ∈ Finset.range w.nbFreq, (w.amp 0 j * ‖hdbInterp H.grid H.data i (w.dir 0) (w.freq j)‖) *
        Real.sin ((phaseAt w e.frame.pos.x e.frame.pos.y 0 j + (hdbInterp H.grid H.data i (w.dir 0) (w.freq j)).arg) - w.freq j * t) := by
    intro t
    rw [components_eq _ H hs _ e he b hb f i, hc]
    have := forceMode_eq (fun dir freq i => hdbInterp H.grid H.data i dir freq) (w.update r depth t) e.frame.pos.x e.frame.pos.y i
    change forceMode (fun d i k => hdbInterp H.grid H.data i ((w.update r depth t).dir d) ((w.update r depth t).freq k)) _ _ _ i = _
    rw [this]
    unfold linearResponse
    rw [show (w.update r depth t).nbDir = 1 from hn, Finset.sum_range_one, Finset.mul_sum]
    refine Finset.sum_congr rfl fun j _ => ?_
    rw [show rampNow r w.ramp t = (w.update r depth t).ramp by cases r <;> rfl]
    generalize (w.update r depth t).ramp = R
    simp only [Airy.update, phaseAt]
    rw [show ∀ a b c d : ℝ, a - b + c + d = a + c + d - b from fun a b c d => by ring]
    ring
  simp only [key]
  have R := response_mean hr w.nbFreq w.freq (fun j => w.amp 0 j * ‖hdbInterp H.grid H.data i (w.dir 0) (w.freq j)‖)
    (fun j => phaseAt w e.frame.pos.x e.frame.pos.y 0 j + (hdbInterp H.grid H.data i (w.dir 0) (w.freq j)).arg) hw hd
  refine ⟨R.1, ?_⟩
  convert R.2 using 1
  exact Finset.sum_congr rfl fun j _ => by ring

/-- **C188, response spectrum.** With the waves of a sea without directional spreading initialised after any sequence of calls, the mean of the square of each component is the sum over the frequencies of the density of the
sea times the square of the modulus of the coefficient, times the spacing of the frequencies. -/
theorem C188_response_spectrum {seeded : ℤ → ℕ → ℝ} {ops : List (Sea × SetOp)} {sea : Sea} {r : Option (ℝ → ℝ)} {draw : ℕ → ℝ} {s g : Irr} (h : Ready seeded ops sea r draw s g) (hd : s.spectrum.dir = none)
    (hlt : g.view.freq 0 < g.view.freq (g.view.nbFreq - 1)) (hS : ∀ w, 0 < w → 0 ≤ s.spectrum.eval w) (hr : r = none ∨ ∃ q t₁, r = some q ∧ Continuous q ∧ ∀ t, t₁ ≤ t → q t = 1)
    (F : HdbForce) (hF : F.coeffs = none) (H : Hdb) (hs : StandardModes H) (depth : ℝ) (e : EqFrame) (he : e.frame.rot.IsUnit) (b : Body) (hb : Placed b) (f : Force) (i : Fin 6) :
    TimeMean (fun t => components e.frame ((F.init H g.view).compute H (g.view.update r depth t) e b f) b i) 0 ∧
    TimeMean (fun t => components e.frame ((F.init H g.view).compute H (g.view.update r depth t) e b f) b i ^ 2)
      (∑ j ∈ Finset.range g.view.nbFreq, ‖hdbInterp H.grid H.data i (g.view.dir 0) (g.view.freq j)‖ ^ 2 * s.spectrum.eval (g.view.freq j) *
        ((g.view.freq (g.view.nbFreq - 1) - g.view.freq 0) / (g.view.nbFreq - 1))) := by
  obtain ⟨h1, h2, h3, h4⟩ := h.one hd hlt hS
  have set : Settled r g.view.ramp := by
    rcases hr with rfl | ⟨q, t₁, rfl, hq, h1⟩
    · exact Or.inl ⟨rfl, (C165_phases h).2.2.2⟩
    · exact Or.inr ⟨q, t₁, rfl, hq, h1⟩
  have key := C188_excitation F hF H hs g.view h1 h2 h3 set depth e he b hb f i
  refine ⟨key.1, ?_⟩
  convert key.2 using 1
  refine Finset.sum_congr rfl fun j hj => ?_
  rw [h4 j (Finset.mem_range.mp hj)]
  ring

/-- The hypotheses of `C188_excitation` are met: a database with unit coefficients, two waves, a ramp over ten seconds, a body and a frame. -/
example : ∃ (F : HdbForce) (H : Hdb) (e : EqFrame) (b : Body), F.coeffs = none ∧ StandardModes H ∧ (crossedSea 1).nbDir = 1 ∧ (∀ j < (crossedSea 1).nbFreq, 0 < (crossedSea 1).freq j) ∧
    (∀ i < (crossedSea 1).nbFreq, ∀ j < (crossedSea 1).nbFreq, (crossedSea 1).freq i = (crossedSea 1).freq j → i = j) ∧ Settled (some tenSeconds) (crossedSea 1).ramp ∧ e.frame.rot.IsUnit ∧ Placed b := by
  refine ⟨⟨none⟩, ⟨⟨2, fun i => i, 2, fun i => i⟩, 6, ![⟨false, ⟨1, 0, 0⟩⟩, ⟨false, ⟨0, 1, 0⟩⟩, ⟨false, ⟨0, 0, 1⟩⟩, ⟨true, ⟨1, 0, 0⟩⟩, ⟨true, ⟨0, 1, 0⟩⟩, ⟨true, ⟨0, 0, 1⟩⟩],
    fun _ _ _ => 1⟩, ⟨⟨⟨0, 0, 0⟩, Q.one⟩, ⟨⟨⟨0, 0, 0⟩, Q.one⟩, ⟨⟨0, 0, 0⟩, Q.one⟩, ⟨0, 0, 0⟩, ⟨0, 0, 0⟩⟩, ⟨0, 0, 0⟩, 0, false, 0⟩, Body.new.setPosition ⟨1, 2, 3⟩ .NED, rfl, ⟨rfl, fun _ => rfl⟩, rfl, fun j _ => ?_, fun i _ j _ e => ?_, settled_tenSeconds _, Q.isUnit_one, at_placed _ _ Q.isUnit_one⟩
  · simp only [crossedSea]; positivity
  · simp only [crossedSea] at e
    exact_mod_cast add_right_cancel e

end Frydom.Seakeeping
