import Verif.Seakeeping.Interp
import Verif.Seakeeping.Database
import Verif.Waves.Airy
import Verif.Hydro.LinearHydrostatics
import Verif.Hydro.EqFrameVariants

/-!
# Linear excitation loads from the database (C110, C111, C112)

`src/frydom/hydrodynamics/seakeeping/linear/excitation/FrLinearHDBForce.cpp`, `FrLinearExcitationForce.cpp`, `FrLinearDiffractionForce.cpp`,
`FrLinearFroudeKrylovForce.cpp`. The wave field is `Waves.Airy` (irregular field; `GetWaveDirections(RAD, NWU, GOTO)` and `GetWaveFrequencies(RADS)` are its
directions and frequencies up to whole turns, which the reduction to [0, 2π) removes).
-/

open Classical

noncomputable section

namespace Frydom.Seakeeping
open Frydom.Geom Frydom.Core Frydom.Waves Frydom.Hydro

/-- `FrBEMMode` (FrBEMBody.h:33-72): type and direction (the point of an angular mode is not read by the loads). -/
structure Mode where
  angular : Bool
  direction : V3

/-- The database seen by a force of a body: the grids, the number of force modes (`GetNbForceMode`), the modes and the coefficients
(`GetHDBData(iangle)`: excitation, diffraction or Froude-Krylov, FrLinearExcitationForce.cpp:22-28 and the like). -/
structure Hdb where
  grid : HdbGrid
  nbMode : ℕ
  mode : Fin 6 → Mode
  data : ℕ → Fin 6 → ℕ → ℂ

/-- The force object: `m_Fhdb` (FrLinearHDBForce.h:41), `none` when empty; `[idir](imode, ifreq)`. -/
structure HdbForce where
  coeffs : Option (ℕ → Fin 6 → ℕ → ℂ)

/-- `Initialize` (FrLinearHDBForce.cpp:22-46): the coefficients are interpolated for the directions and frequencies of the wave field, unless already there. -/
def HdbForce.init (F : HdbForce) (H : Hdb) (w : Airy) : HdbForce :=
  match F.coeffs with
  | none => ⟨some fun idir imode ifreq => hdbInterp H.grid H.data imode (w.dir idir) (w.freq ifreq)⟩
  | some c => ⟨some c⟩

/-- `forceMode(imode)` (FrLinearHDBForce.cpp:168-178). -/
def forceMode (c : ℕ → Fin 6 → ℕ → ℂ) (w : Airy) (x y : ℝ) (imode : Fin 6) : ℝ :=
  ∑ ifreq ∈ Finset.range w.nbFreq, ∑ idir ∈ Finset.range w.nbDir, (w.complexElevation x y .NWU idir ifreq * c idir imode ifreq).im

/-- The modes below `nbMode`. -/
def modesBelow (n : ℕ) : List (Fin 6) := (List.finRange 6).filter fun i => i.1 < n

/-- Sum of the loads of the modes of one type (FrLinearHDBForce.cpp:180-198). -/
def sumModes (H : Hdb) (angular : Bool) (a : Fin 6 → ℝ) : V3 :=
  ((modesBelow H.nbMode).map fun i => if (H.mode i).angular = angular then a i • (H.mode i).direction else (0 : V3)).sum

/-- `Compute_F_HDB` (FrLinearHDBForce.cpp:143-206). -/
def HdbForce.compute (F : HdbForce) (H : Hdb) (w : Airy) (e : EqFrame) (b : Body) (f : Force) : Force :=
  let c := F.coeffs.getD fun _ _ _ => 0
  let a := forceMode c w (e.frame.getX .NWU) (e.frame.getY .NWU)
  let force := sumModes H false a
  let torque := sumModes H true a
  f.setForceTorqueInWorldAtCOG b (e.frame.projFrameInParent force .NWU) (e.frame.projFrameInParent torque .NWU) .NWU

/-! ## Specification -/

/-- The six standard modes: translations along and rotations about the three axes. -/
def StandardModes (H : Hdb) : Prop :=
  H.nbMode = 6 ∧ ∀ i : Fin 6, H.mode i = ![⟨false, ⟨1, 0, 0⟩⟩, ⟨false, ⟨0, 1, 0⟩⟩, ⟨false, ⟨0, 0, 1⟩⟩, ⟨true, ⟨1, 0, 0⟩⟩, ⟨true, ⟨0, 1, 0⟩⟩, ⟨true, ⟨0, 0, 1⟩⟩] i

/-- Load on degree of freedom `i` of a sea made of elementary waves: each one, of amplitude `a` and phase `φ` at the point, contributes
`a |C| sin(φ + arg C)`, with `C` the coefficient of the database for its direction and frequency. -/
def linearResponse (C : ℝ → ℝ → Fin 6 → ℂ) (w : Airy) (x y : ℝ) (i : Fin 6) : ℝ :=
  ∑ d ∈ Finset.range w.nbDir, ∑ k ∈ Finset.range w.nbFreq,
    w.ramp * w.amp d k * ‖C (w.dir d) (w.freq k) i‖ *
      Real.sin (w.k k * (x * Real.cos (w.dir d) + y * Real.sin (w.dir d)) - w.freq k * w.time + w.phase d k + (C (w.dir d) (w.freq k) i).arg)

/-! ## Lemmas -/

theorem im_wave (a r p : ℝ) (C : ℂ) :
    ((a : ℂ) * Complex.exp (Complex.I * (p : ℂ)) * ((1 : ℝ) : ℂ) * (r : ℂ) * C).im = r * a * ‖C‖ * Real.sin (p + C.arg) := by
  have hC : C = (‖C‖ : ℂ) * Complex.exp (C.arg * Complex.I) := (Complex.norm_mul_exp_arg_mul_I C).symm
  have : (a : ℂ) * Complex.exp (Complex.I * (p : ℂ)) * ((1 : ℝ) : ℂ) * (r : ℂ) * C =
      ((r * a * ‖C‖ : ℝ) : ℂ) * Complex.exp (((p + C.arg : ℝ) : ℂ) * Complex.I) := by
    conv_lhs => rw [hC]
    push_cast
    rw [add_mul, Complex.exp_add, mul_comm Complex.I (p : ℂ)]
    ring
  rw [this, Complex.im_ofReal_mul, Complex.exp_ofReal_mul_I_im]

theorem forceMode_eq (C : ℝ → ℝ → Fin 6 → ℂ) (w : Airy) (x y : ℝ) (i : Fin 6) :
    forceMode (fun d i k => C (w.dir d) (w.freq k) i) w x y i = linearResponse C w x y i := by
  unfold forceMode linearResponse
  rw [Finset.sum_comm]
  apply Finset.sum_congr rfl; intro d _
  apply Finset.sum_congr rfl; intro k _
  unfold Airy.complexElevation
  simp only [nwuSign, one_mul]
  exact im_wave _ _ _ _

theorem sumModes_standard (H : Hdb) (hs : StandardModes H) (a : Fin 6 → ℝ) :
    sumModes H false a = ⟨a 0, a 1, a 2⟩ ∧ sumModes H true a = ⟨a 3, a 4, a 5⟩ := by
  have hl : modesBelow H.nbMode = [0, 1, 2, 3, 4, 5] := by
    rw [hs.1]; decide
  unfold sumModes
  rw [hl]
  simp only [List.map_cons, List.map_nil, List.sum_cons, List.sum_nil, hs.2]
  constructor
  · simp only [Matrix.cons_val, if_true, Bool.false_eq_true, if_false, Bool.true_eq_false]
    ext <;> simp
  · simp only [Matrix.cons_val, if_true, Bool.false_eq_true, if_false, Bool.true_eq_false]
    ext <;> simp

theorem load_world_cog (f : Force) (b : Body) (h : Placed b) (v t : V3) :
    IsLoad (f.setForceTorqueInWorldAtCOG b v t .NWU) b .NWU v t (b.cogPositionInWorld .NWU) := by
  have := load_at_cog f b h v (b.toBody t .NWU)
  rw [toWorld_toBody h] at this
  exact this

/-! ## C110 -/

/-- **C110, load.** With the six standard modes, for a force initialized with the wave field: the load is applied at the centre of gravity; its components in the
axes of the equilibrium frame are the linear response to the sea seen at the position of that frame, with the coefficients of the database interpolated at the direction and
frequency of each elementary wave. -/
theorem C110_load (F : HdbForce) (hF : F.coeffs = none) (H : Hdb) (hs : StandardModes H) (w : Airy) (e : EqFrame) (b : Body) (hb : Placed b) (f : Force) :
    let R := linearResponse (fun dir freq i => hdbInterp H.grid H.data i dir freq) w e.frame.pos.x e.frame.pos.y
    IsLoad ((F.init H w).compute H w e b f) b .NWU (axesOf e.frame ⟨R 0, R 1, R 2⟩) (axesOf e.frame ⟨R 3, R 4, R 5⟩) (b.cogPositionInWorld .NWU) := by
  intro R
  have hc : (F.init H w).coeffs = some fun idir imode ifreq => hdbInterp H.grid H.data imode (w.dir idir) (w.freq ifreq) := by
    unfold HdbForce.init; rw [hF]
  unfold HdbForce.compute
  rw [hc]
  simp only [Option.getD_some]
  have hR : ∀ i, forceMode (fun idir imode ifreq => hdbInterp H.grid H.data imode (w.dir idir) (w.freq ifreq)) w (e.frame.getX .NWU) (e.frame.getY .NWU) i = R i :=
    fun i => forceMode_eq (fun dir freq i => hdbInterp H.grid H.data i dir freq) w e.frame.pos.x e.frame.pos.y i
  rw [(sumModes_standard H hs _).1, (sumModes_standard H hs _).2]
  simp only [hR]
  exact load_world_cog f b hb _ _

/-- **C110, regular wave.** For a single wave of amplitude `a`, wave number `k` and frequency `ω` (ramp over) and an equilibrium frame at the origin, each component of the load in the axes of the
frame is `a |C| sin(arg C + φ - ω t)`: an oscillation at the frequency of the wave, whose amplitude is that of the wave times the modulus of the coefficient. -/
theorem C110_regular_wave (C : ℝ → ℝ → Fin 6 → ℂ) (w : Airy) (hd : w.nbDir = 1) (hk : w.nbFreq = 1) (hr : w.ramp = 1) (i : Fin 6) :
    linearResponse C w 0 0 i = w.amp 0 0 * ‖C (w.dir 0) (w.freq 0) i‖ * Real.sin ((C (w.dir 0) (w.freq 0) i).arg + w.phase 0 0 - w.freq 0 * w.time) ∧
    |linearResponse C w 0 0 i| ≤ |w.amp 0 0| * ‖C (w.dir 0) (w.freq 0) i‖ := by
  have h : linearResponse C w 0 0 i = w.amp 0 0 * ‖C (w.dir 0) (w.freq 0) i‖ * Real.sin ((C (w.dir 0) (w.freq 0) i).arg + w.phase 0 0 - w.freq 0 * w.time) := by
    unfold linearResponse
    rw [hd, hk]
    simp only [Finset.sum_range_one, hr, one_mul]
    congr 2; ring
  refine ⟨h, ?_⟩
  rw [h, abs_mul, abs_mul, abs_of_nonneg (norm_nonneg _)]
  exact mul_le_of_le_one_right (by positivity) (Real.abs_sin_le_one _)

/-- The same database with other coefficients. -/
def Hdb.with (H : Hdb) (data : ℕ → Fin 6 → ℕ → ℂ) : Hdb := { H with data := data }

theorem hdbInterp_add (G : HdbGrid) (d1 d2 : ℕ → Fin 6 → ℕ → ℂ) (i : Fin 6) (dir freq : ℝ) :
    hdbInterp G (fun a i k => d1 a i k + d2 a i k) i dir freq = hdbInterp G d1 i dir freq + hdbInterp G d2 i dir freq := by
  unfold hdbInterp
  rw [← interp_add]
  congr 1
  ext ifreq
  unfold waveDirInterp
  rw [← interp_add]

theorem sumModes_add (H : Hdb) (t : Bool) (a b : Fin 6 → ℝ) : sumModes H t (fun i => a i + b i) = sumModes H t a + sumModes H t b := by
  unfold sumModes
  generalize modesBelow H.nbMode = l
  induction l with
  | nil => simp
  | cons i l ih =>
    simp only [List.map_cons, List.sum_cons, ih]
    by_cases h : (H.mode i).angular = t
    · simp only [h, if_true]; module
    · simp only [h, if_false]; module

theorem sumModes_smul (H : Hdb) (t : Bool) (c : ℝ) (a : Fin 6 → ℝ) : sumModes H t (fun i => c * a i) = c • sumModes H t a := by
  unfold sumModes
  generalize modesBelow H.nbMode = l
  induction l with
  | nil => simp
  | cons i l ih =>
    simp only [List.map_cons, List.sum_cons, ih]
    by_cases h : (H.mode i).angular = t
    · simp only [h, if_true]; module
    · simp only [h, if_false]; module

theorem forceMode_add (c1 c2 : ℕ → Fin 6 → ℕ → ℂ) (w : Airy) (x y : ℝ) (i : Fin 6) :
    forceMode (fun d i k => c1 d i k + c2 d i k) w x y i = forceMode c1 w x y i + forceMode c2 w x y i := by
  unfold forceMode
  simp only [← Finset.sum_add_distrib, mul_add, Complex.add_im]

theorem axesOf_add (f : Frame) (u v : V3) : axesOf f (u + v) = axesOf f u + axesOf f v := by
  show conv .NWU (f.rot.rotate (conv .NWU (u + v))) = conv .NWU (f.rot.rotate (conv .NWU u)) + conv .NWU (f.rot.rotate (conv .NWU v))
  simp only [conv]
  exact Q.rotate_add _ _ _

theorem axesOf_smul (f : Frame) (c : ℝ) (v : V3) : axesOf f (c • v) = c • axesOf f v := by
  show conv .NWU (f.rot.rotate (conv .NWU (c • v))) = c • conv .NWU (f.rot.rotate (conv .NWU v))
  simp only [conv]
  exact Q.rotate_smul _ _ _

theorem compute_reads (F : HdbForce) (H : Hdb) (w : Airy) (e : EqFrame) (b : Body) (hb : Placed b) (f : Force) :
    (F.compute H w e b f).getForceInWorld .NWU = axesOf e.frame (sumModes H false (forceMode (F.coeffs.getD fun _ _ _ => 0) w (e.frame.getX .NWU) (e.frame.getY .NWU))) ∧
    (F.compute H w e b f).getTorqueInWorldAtCOG b .NWU = axesOf e.frame (sumModes H true (forceMode (F.coeffs.getD fun _ _ _ => 0) w (e.frame.getX .NWU) (e.frame.getY .NWU))) := by
  refine ⟨rfl, ?_⟩
  show b.toWorld (conv .NWU (conv .NWU (b.toBody (axesOf e.frame _) .NWU))) .NWU = _
  rw [conv_conv, toWorld_toBody hb]

/-- **C110, superposition.** Whatever the modes and the mask, the linear excitation load is the sum of the linear diffraction and linear Froude-Krylov loads (the
excitation coefficients being those the database computes). -/
theorem C110_excitation_is_sum (H : Hdb) (D K : ℕ → Fin 6 → ℕ → ℂ) (w : Airy) (e : EqFrame) (b : Body) (hb : Placed b) (f : Force) :
    let F : HdbForce := ⟨none⟩
    let tot := (F.init (H.with (computeExcitation D K)) w).compute (H.with (computeExcitation D K)) w e b f
    let dif := (F.init (H.with D) w).compute (H.with D) w e b f
    let fk := (F.init (H.with K) w).compute (H.with K) w e b f
    tot.getForceInWorld .NWU = dif.getForceInWorld .NWU + fk.getForceInWorld .NWU ∧
    tot.getTorqueInWorldAtCOG b .NWU = dif.getTorqueInWorldAtCOG b .NWU + fk.getTorqueInWorldAtCOG b .NWU := by
  intro F tot dif fk
  have hsum : ∀ t, sumModes (H.with (computeExcitation D K)) t (forceMode (fun idir imode ifreq => hdbInterp H.grid (computeExcitation D K) imode (w.dir idir) (w.freq ifreq)) w
      (e.frame.getX .NWU) (e.frame.getY .NWU)) =
      sumModes (H.with D) t (forceMode (fun idir imode ifreq => hdbInterp H.grid D imode (w.dir idir) (w.freq ifreq)) w (e.frame.getX .NWU) (e.frame.getY .NWU)) +
      sumModes (H.with K) t (forceMode (fun idir imode ifreq => hdbInterp H.grid K imode (w.dir idir) (w.freq ifreq)) w (e.frame.getX .NWU) (e.frame.getY .NWU)) := by
    intro t
    have hh : (fun (idir : ℕ) (imode : Fin 6) (ifreq : ℕ) => hdbInterp H.grid (computeExcitation D K) imode (w.dir idir) (w.freq ifreq)) =
        fun (idir : ℕ) (imode : Fin 6) (ifreq : ℕ) => hdbInterp H.grid D imode (w.dir idir) (w.freq ifreq) + hdbInterp H.grid K imode (w.dir idir) (w.freq ifreq) := by
      ext idir imode ifreq
      exact hdbInterp_add H.grid D K imode _ _
    rw [hh]
    have h2 := sumModes_add H t (forceMode (fun idir imode ifreq => hdbInterp H.grid D imode (w.dir idir) (w.freq ifreq)) w (e.frame.getX .NWU) (e.frame.getY .NWU))
      (forceMode (fun idir imode ifreq => hdbInterp H.grid K imode (w.dir idir) (w.freq ifreq)) w (e.frame.getX .NWU) (e.frame.getY .NWU))
    simp only [← forceMode_add] at h2
    exact h2
  have r1 := compute_reads (F.init (H.with (computeExcitation D K)) w) (H.with (computeExcitation D K)) w e b hb f
  have r2 := compute_reads (F.init (H.with D) w) (H.with D) w e b hb f
  have r3 := compute_reads (F.init (H.with K) w) (H.with K) w e b hb f
  refine ⟨?_, ?_⟩
  · rw [show tot.getForceInWorld .NWU = _ from r1.1, show dif.getForceInWorld .NWU = _ from r2.1, show fk.getForceInWorld .NWU = _ from r3.1, ← axesOf_add]
    exact congrArg (axesOf e.frame) (hsum false)
  · rw [show tot.getTorqueInWorldAtCOG b .NWU = _ from r1.2, show dif.getTorqueInWorldAtCOG b .NWU = _ from r2.2, show fk.getTorqueInWorldAtCOG b .NWU = _ from r3.2, ← axesOf_add]
    exact congrArg (axesOf e.frame) (hsum true)

/-- The sea with every amplitude multiplied. -/
def scaled (w : Airy) (s : ℝ) : Airy := { w with amp := fun d k => s * w.amp d k }

/-- **C110, proportionality.** Multiplying the amplitude of every wave multiplies the load by the same factor; no wave, no load. -/
theorem C110_proportional (H : Hdb) (w : Airy) (s : ℝ) (e : EqFrame) (b : Body) (hb : Placed b) (f : Force) :
    let F : HdbForce := ⟨none⟩
    let one := (F.init H w).compute H w e b f
    let big := (F.init H (scaled w s)).compute H (scaled w s) e b f
    big.getForceInWorld .NWU = s • one.getForceInWorld .NWU ∧ big.getTorqueInWorldAtCOG b .NWU = s • one.getTorqueInWorldAtCOG b .NWU := by
  intro F one big
  have hm : ∀ c i, forceMode c (scaled w s) (e.frame.getX .NWU) (e.frame.getY .NWU) i = s * forceMode c w (e.frame.getX .NWU) (e.frame.getY .NWU) i := by
    intro c i
    unfold forceMode
    rw [Finset.mul_sum]
    apply Finset.sum_congr rfl; intro k _
    rw [Finset.mul_sum]
    apply Finset.sum_congr rfl; intro d _
    have : (scaled w s).complexElevation (e.frame.getX .NWU) (e.frame.getY .NWU) .NWU d k = (s : ℂ) * w.complexElevation (e.frame.getX .NWU) (e.frame.getY .NWU) .NWU d k := by
      unfold Airy.complexElevation scaled
      simp only []
      push_cast; ring
    rw [this, mul_assoc, Complex.im_ofReal_mul]
  have r1 := compute_reads (F.init H w) H w e b hb f
  have r2 := compute_reads (F.init H (scaled w s)) H (scaled w s) e b hb f
  have hco : (F.init H (scaled w s)).coeffs = (F.init H w).coeffs := rfl
  rw [hco] at r2
  have hfun : forceMode ((F.init H w).coeffs.getD fun _ _ _ => 0) (scaled w s) (e.frame.getX .NWU) (e.frame.getY .NWU) =
      fun i => s * forceMode ((F.init H w).coeffs.getD fun _ _ _ => 0) w (e.frame.getX .NWU) (e.frame.getY .NWU) i := funext fun i => hm _ i
  rw [hfun] at r2
  refine ⟨?_, ?_⟩
  · rw [show big.getForceInWorld .NWU = _ from r2.1, show one.getForceInWorld .NWU = _ from r1.1, sumModes_smul, axesOf_smul]
  · rw [show big.getTorqueInWorldAtCOG b .NWU = _ from r2.2, show one.getTorqueInWorldAtCOG b .NWU = _ from r1.2, sumModes_smul, axesOf_smul]

/-- **C110, defect: stale coefficients.** Once initialized, a second initialization with another wave field or another database does not change the coefficients. -/
theorem C110_not_refreshed (F : HdbForce) (H H' : Hdb) (w w' : Airy) : (F.init H w).init H' w' = F.init H w := by
  obtain ⟨c⟩ := F
  cases c <;> rfl

/-! ## C111 -/

/-- **C111 (defect).** The heading of the body is ignored when choosing the coefficients: two equilibrium frames at the same place, whatever their headings, get the same components of the load
*in their own axes*. The coefficient used is that of the direction of the wave in the world, not relative to the body. -/
theorem C111_heading_ignored (F : HdbForce) (H : Hdb) (w : Airy) (e e' : EqFrame) (hp : e'.frame.pos = e.frame.pos) (b : Body) (hb : Placed b) (f : Force) :
    ∃ u t : V3, ((F.compute H w e b f).getForceInWorld .NWU = axesOf e.frame u ∧ (F.compute H w e b f).getTorqueInWorldAtCOG b .NWU = axesOf e.frame t) ∧
      ((F.compute H w e' b f).getForceInWorld .NWU = axesOf e'.frame u ∧ (F.compute H w e' b f).getTorqueInWorldAtCOG b .NWU = axesOf e'.frame t) := by
  have r1 := compute_reads F H w e b hb f
  have r2 := compute_reads F H w e' b hb f
  have hx : e'.frame.getX .NWU = e.frame.getX .NWU := by show e'.frame.pos.x = e.frame.pos.x; rw [hp]
  have hy : e'.frame.getY .NWU = e.frame.getY .NWU := by show e'.frame.pos.y = e.frame.pos.y; rw [hp]
  rw [hx, hy] at r2
  exact ⟨_, _, r1, r2⟩

/-! ## C112 -/

/-- **C112 (defect).** The masks are applied twice: coefficients are stored on six rows, and then the loads read the first `nbMode` rows only. If the first `nbMode` degrees of freedom are
inactive, the load is null for every sea. -/
theorem C112_masked_excitation_lost (B : BodyFile) (m : DofMask) (hv : ValidMask B.forceMask) (H : Hdb)
    (hn : H.nbMode = (readMask B.forceMask m).nb)
    (hdata : H.data = computeExcitation (readDiffraction B (readMask B.forceMask m)) (readFroudeKrylov B (readMask B.forceMask m)))
    (hoff : ∀ i : Fin 6, i.1 < (activeDofs B.forceMask).length → B.forceMask i = 0) (w : Airy) (e : EqFrame) (b : Body) (hb : Placed b) (f : Force) :
    let r := (HdbForce.init ⟨none⟩ H w).compute H w e b f
    r.getForceInWorld .NWU = 0 ∧ r.getTorqueInWorldAtCOG b .NWU = 0 := by
  intro r
  have hz : ∀ i : Fin 6, i.1 < H.nbMode → ∀ a k, H.data a i k = 0 := by
    intro i hi a k
    have hi' : B.forceMask i = 0 := hoff i (by rw [hn] at hi; rw [← setMask_nb m B.forceMask hv]; exact hi)
    obtain ⟨e1, e2, e3⟩ := C106_excitation B m hv a k i
    rw [hdata, e3, e1, e2, hi']
    simp
  have hs : ∀ t, sumModes H t (forceMode ((HdbForce.init ⟨none⟩ H w).coeffs.getD fun _ _ _ => 0) w (e.frame.getX .NWU) (e.frame.getY .NWU)) = 0 := by
    intro t
    unfold sumModes
    apply List.sum_eq_zero
    intro v hv'
    obtain ⟨i, hi, rfl⟩ := List.mem_map.mp hv'
    have hi2 : i.1 < H.nbMode := by simpa [modesBelow] using hi
    have hF : forceMode ((HdbForce.init ⟨none⟩ H w).coeffs.getD fun _ _ _ => 0) w (e.frame.getX .NWU) (e.frame.getY .NWU) i = 0 := by
      unfold forceMode
      apply Finset.sum_eq_zero; intro k _
      apply Finset.sum_eq_zero; intro d _
      have : ((HdbForce.init ⟨none⟩ H w).coeffs.getD fun _ _ _ => 0) d i k = 0 := by
        show hdbInterp H.grid H.data i (w.dir d) (w.freq k) = 0
        unfold hdbInterp
        have hw : (fun ifreq => waveDirInterp H.grid H.data i ifreq (normalize2Pi (w.dir d))) = fun _ => (0 : ℂ) := by
          ext ifreq
          unfold waveDirInterp
          have : (fun iangle => H.data iangle i ifreq) = fun _ => (0 : ℂ) := funext fun a => hz i hi2 a ifreq
          rw [this, interp_zero]
        rw [hw, interp_zero]
      rw [this]; simp
    simp only [hF, zero_smul, ite_self]
  have r1 := compute_reads (HdbForce.init ⟨none⟩ H w) H w e b hb f
  rw [hs, hs] at r1
  have h0 : axesOf e.frame 0 = 0 := by
    show conv .NWU (e.frame.rot.rotate (conv .NWU 0)) = 0
    simp only [conv]; exact rotate_zero _
  rw [h0] at r1
  exact r1

/-- A case of `C112`: heave and pitch only. -/
example : let mask : Fin 6 → ℤ := ![0, 0, 1, 0, 1, 0]
    ValidMask mask ∧ ∀ i : Fin 6, i.1 < (activeDofs mask).length → mask i = 0 := by
  have : activeDofs ![0, 0, 1, 0, 1, 0] = [2, 4] := by
    unfold activeDofs
    rw [show List.finRange 6 = [0, 1, 2, 3, 4, 5] from rfl]
    simp [List.filter]
  refine ⟨fun i => by fin_cases i <;> simp, ?_⟩
  rw [this]
  intro i hi
  fin_cases i <;> simp at hi ⊢

/-- A case of `C110`: the standard modes exist. -/
example : ∃ H : Hdb, StandardModes H :=
  ⟨⟨⟨2, fun i => i, 2, fun i => i⟩, 6, ![⟨false, ⟨1, 0, 0⟩⟩, ⟨false, ⟨0, 1, 0⟩⟩, ⟨false, ⟨0, 0, 1⟩⟩, ⟨true, ⟨1, 0, 0⟩⟩, ⟨true, ⟨0, 1, 0⟩⟩, ⟨true, ⟨0, 0, 1⟩⟩],
    fun _ _ _ => 1⟩, rfl, fun _ => rfl⟩

end Frydom.Seakeeping
