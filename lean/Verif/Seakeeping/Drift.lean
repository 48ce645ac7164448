import Verif.Seakeeping.Excitation
import Mathlib.Analysis.Calculus.Deriv.Add
import Mathlib.Analysis.Calculus.Deriv.Mul

/-!
# Wave drift loads (C113, C114)

`src/frydom/hydrodynamics/seakeeping/linear/second_order_drift/FrWaveDriftForce.cpp`. The table of a degree of freedom (`mathutils::LookupTable2d`) is any
function of the two arguments of `Eval`; `none` when the database has no series of that name. The wave field is `Waves.Airy`.
-/

open Classical

noncomputable section

namespace Frydom.Seakeeping
open Frydom.Geom Frydom.Core Frydom.Waves Frydom.Hydro

/-- `FrWaveDriftPolarData` (FrBEMBody.h:120-176): series surge, sway, heave, roll, pitch, yaw. -/
abbrev DriftTable := Fin 6 → Option (ℝ → ℝ → ℝ)

/-- `GetRelativeWaveDir()[idir]` (FrWaveDriftForce.cpp:119-135). -/
def relativeWaveDir (junk : ℝ) (w : Airy) (e : EqFrame) (idir : ℕ) : ℝ := w.dir idir - (getCardan junk .NWU e.frame.rot).yaw

/-- `GetEncounterWaveFrequencies(speed)[idir][ifreq]` (FrWaveDriftForce.cpp:137-171). -/
def encounterFrequency (w : Airy) (speed : V3) (idir ifreq : ℕ) : ℝ :=
  let vect : V3 := ⟨Real.cos (w.dir idir), Real.sin (w.dir idir), 0⟩
  w.freq ifreq - w.k ifreq * V3.dot speed vect

/-- One component of the load (FrWaveDriftForce.cpp:51-109, six times the same loops). -/
def driftComponent (junk : ℝ) (T : DriftTable) (w : Airy) (e : EqFrame) (i : Fin 6) : ℝ :=
  match T i with
  | none => 0
  | some C => ∑ idir ∈ Finset.range w.nbDir, ∑ ifreq ∈ Finset.range w.nbFreq,
      w.amp idir ifreq ^ 2 * C (relativeWaveDir junk w e idir) (encounterFrequency w (e.velocityInWorld .NWU) idir ifreq)

/-- `Compute` (FrWaveDriftForce.cpp:30-110). -/
def driftCompute (junk : ℝ) (T : DriftTable) (w : Airy) (e : EqFrame) (b : Body) (f : Force) : Force :=
  let a := driftComponent junk T w e
  f.setForceTorqueInBodyAtCOG b ⟨a 0, a 1, a 2⟩ ⟨a 3, a 4, a 5⟩ .NWU

/-! ## Specification -/

/-- Phase of an elementary wave at a place and time (the argument of its sine). -/
def wavePhaseAt (w : Airy) (d k : ℕ) (x y t : ℝ) : ℝ := w.k k * (x * Real.cos (w.dir d) + y * Real.sin (w.dir d)) - w.freq k * t + w.phase d k

/-- Mean load of a sea on a degree of freedom with quadratic transfer function `C`, for a body heading `psi` and advancing at `v`. -/
def meanDrift (C : ℝ → ℝ → ℝ) (w : Airy) (psi : ℝ) (v : V3) : ℝ :=
  ∑ d ∈ Finset.range w.nbDir, ∑ k ∈ Finset.range w.nbFreq,
    w.amp d k ^ 2 * C (w.dir d - psi) (w.freq k - w.k k * (v.x * Real.cos (w.dir d) + v.y * Real.sin (w.dir d)))

/-! ## C113 -/

/-- **C113, load.** For an equilibrium frame of heading `psi` (Cardan angles in their range), the load is applied at the centre of gravity, in the axes of the body, and each of its six components is the
sum over the elementary waves of the squared amplitude times the coefficient at the relative direction and encounter frequency; a component without series is null. -/
theorem C113_load (junk : ℝ) (T : DriftTable) (w : Airy) (e : EqFrame) (a : Cardan) (ha : InRange .NWU a) (he : e.frame.rot = setCardan .NWU a) (b : Body) (hb : Placed b) (f : Force) :
    let m := fun i : Fin 6 => match T i with | none => 0 | some C => meanDrift C w a.yaw (e.velocityInWorld .NWU)
    IsLoad (driftCompute junk T w e b f) b .NWU (b.toWorld ⟨m 0, m 1, m 2⟩ .NWU) (b.toWorld ⟨m 3, m 4, m 5⟩ .NWU) (b.cogPositionInWorld .NWU) := by
  intro m
  have hm : driftComponent junk T w e = m := by
    funext i
    simp only [m, driftComponent]
    cases T i with
    | none => rfl
    | some C =>
      simp only []
      unfold meanDrift
      apply Finset.sum_congr rfl; intro d _
      apply Finset.sum_congr rfl; intro k _
      have h1 : relativeWaveDir junk w e d = w.dir d - a.yaw := by
        unfold relativeWaveDir
        rw [he, (C13_round_trip_angles junk .NWU a ha).2]
      have h2 : encounterFrequency w (e.velocityInWorld .NWU) d k =
          w.freq k - w.k k * ((e.velocityInWorld .NWU).x * Real.cos (w.dir d) + (e.velocityInWorld .NWU).y * Real.sin (w.dir d)) := by
        unfold encounterFrequency
        simp [V3.dot]
      rw [h1, h2]
  unfold driftCompute
  rw [hm]
  simp only []
  exact load_at_cog f b hb _ _

/-- **C113, encounter frequency.** The frequency at which a table is read is the rate at which an observer advancing at the velocity of the equilibrium frame sees the phase of the wave decrease. -/
theorem C113_encounter (w : Airy) (v : V3) (x y : ℝ) (d k : ℕ) (t : ℝ) :
    HasDerivAt (fun s : ℝ => wavePhaseAt w d k (x + s * v.x) (y + s * v.y) s) (-(encounterFrequency w v d k)) t := by
  have h : (fun s : ℝ => wavePhaseAt w d k (x + s * v.x) (y + s * v.y) s) =
      fun s : ℝ => s * (-(encounterFrequency w v d k)) + (w.k k * (x * Real.cos (w.dir d) + y * Real.sin (w.dir d)) + w.phase d k) := by
    funext s
    unfold wavePhaseAt encounterFrequency
    simp only [V3.dot]; ring
  rw [h]
  have := ((hasDerivAt_id t).mul_const (-(encounterFrequency w v d k))).add_const (w.k k * (x * Real.cos (w.dir d) + y * Real.sin (w.dir d)) + w.phase d k)
  simpa using this

/-- **C113, quadratic.** Multiplying the amplitudes of the sea by `s` multiplies the drift load by `s²`; without waves there is no drift. -/
theorem C113_quadratic (junk : ℝ) (T : DriftTable) (w : Airy) (s : ℝ) (e : EqFrame) (i : Fin 6) :
    driftComponent junk T (scaled w s) e i = s ^ 2 * driftComponent junk T w e i := by
  unfold driftComponent
  cases T i with
  | none => simp
  | some C =>
    simp only []
    rw [Finset.mul_sum]
    apply Finset.sum_congr rfl; intro d _
    rw [Finset.mul_sum]
    apply Finset.sum_congr rfl; intro k _
    show (s * w.amp d k) ^ 2 * C (relativeWaveDir junk w e d) (encounterFrequency w (e.velocityInWorld .NWU) d k) = _
    ring

/-- **C113, place and phase.** The load depends neither on the position of the body, nor on the phases of the waves. -/
theorem C113_no_phase (junk : ℝ) (T : DriftTable) (w : Airy) (phase : ℕ → ℕ → ℝ) (e e' : EqFrame) (hr : e'.frame.rot = e.frame.rot) (hv : e'.vel = e.vel) :
    driftComponent junk T { w with phase := phase } e' = driftComponent junk T w e := by
  funext i
  unfold driftComponent
  have h1 : ∀ d, relativeWaveDir junk { w with phase := phase } e' d = relativeWaveDir junk w e d := by intro d; unfold relativeWaveDir; rw [hr]
  have h2 : e'.velocityInWorld .NWU = e.velocityInWorld .NWU := by unfold EqFrame.velocityInWorld; rw [hv]
  simp only [h1, h2]
  rfl

/-! ## C114 -/

/-- **C114 (defect), ramp.** The drift load ignores the ramp of the wave field (and time): while the elevation is null everywhere at the start of the ramp, the load is already that of the full sea. -/
theorem C114_ramp_ignored (junk : ℝ) (T : DriftTable) (w : Airy) (e : EqFrame) :
    (∀ x y fc, ({ w with ramp := 0 } : Airy).elevation x y fc = 0) ∧ driftComponent junk T { w with ramp := 0 } e = driftComponent junk T w e := by
  refine ⟨?_, rfl⟩
  intro x y fc
  unfold Airy.elevation
  apply Finset.sum_eq_zero; intro d _
  apply Finset.sum_eq_zero; intro k _
  simp [Airy.complexElevation]

/-- **C114 (defect), relative direction.** The relative direction is not reduced to [0, 2π): for a wave whose direction is in [0, 2π) but less than the heading of the frame, the table is read at a negative angle, outside
a table that covers a full turn from 0, although the reduced angle is inside. -/
theorem C114_angle_out_of_table (junk : ℝ) (w : Airy) (e : EqFrame) (a : Cardan) (ha : InRange .NWU a) (he : e.frame.rot = setCardan .NWU a) (d : ℕ) (_h0 : 0 ≤ w.dir d) (h1 : w.dir d < a.yaw)
    (n : ℕ) (x : ℕ → ℝ) (hx0 : x 0 = 0) (hx1 : x (n - 1) = 2 * Real.pi) :
    ¬ InGrid n x (relativeWaveDir junk w e d) ∧ InGrid n x (normalize2Pi (relativeWaveDir junk w e d)) := by
  have hrel : relativeWaveDir junk w e d = w.dir d - a.yaw := by
    unfold relativeWaveDir
    rw [he, (C13_round_trip_angles junk .NWU a ha).2]
  refine ⟨?_, ?_⟩
  · rw [hrel]; intro h; have := h.1; rw [hx0] at this; linarith
  · obtain ⟨p, q⟩ := Frydom.Env.normalize2Pi_range (relativeWaveDir junk w e d)
    exact ⟨by rw [hx0]; exact p, by rw [hx1]; exact q.le⟩

/-- A case of `C113`/`C114`: heading of 1 radian, no roll nor pitch. -/
example : InRange .NWU ⟨0, 0, 1⟩ := by
  have := Real.pi_gt_three
  refine ⟨?_, ?_, ?_, ?_, ?_, ?_⟩ <;> simp only <;> linarith

end Frydom.Seakeeping
