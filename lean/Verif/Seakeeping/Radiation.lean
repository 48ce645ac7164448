import Verif.Seakeeping.Excitation
import Verif.Seakeeping.Trapz
import Verif.Recorder.Props
import Verif.Hydro.Damping
import Verif.Hydro.MeanMotion

/-!
# Radiation loads by convolution (C115, C116)

`src/frydom/hydrodynamics/seakeeping/linear/radiation/FrRadiationModel.cpp`, `FrRadiationForce.cpp`. The bodies of the database are numbered; a generalized vector is
`Fin 6 → ℝ`; the interpolators of the impulse responses (`Interp1dLinear`, FrBEMBody.cpp:252-290) are `interpAt`. The order of the bodies (an unordered map) does not matter for sums of reals.
-/

open Classical

noncomputable section

namespace Frydom.Seakeeping
open Frydom.Geom Frydom.Core Frydom.Hydro Frydom.Recorder

abbrev Vec6 := Fin 6 → ℝ

/-- `FrRadiationConvolutionModel` and what it reads of the database (FrRadiationModel.h, FrBEMBody.h): number of bodies, active motions (`GetListDOF`), time discretization, impulse responses
`[body][body in motion][motion] sample` without and with forward speed, infinite added mass `[body][body in motion]`, size of the memory (`m_Te`, `m_dt`), recorders, loads. -/
structure RadModel where
  nb : ℕ
  dofs : ℕ → List (Fin 6)
  nTime : ℕ
  time : ℕ → ℝ
  irf : ℕ → ℕ → Fin 6 → ℕ → Vec6
  irfU : ℕ → ℕ → Fin 6 → ℕ → Vec6
  ainf : ℕ → ℕ → Matrix (Fin 6) (Fin 6) ℝ
  te : ℝ
  dt : ℝ
  recs : ℕ → Option (Rec Vec6)
  force : ℕ → V3 × V3

namespace RadModel

/-- `m_recorder[body]`: a missing entry is created by the default constructor (FrRecorder.h:33-47: 1800 s, one record each 0.01 s, no capacity before `Initialize`). -/
def recorder (m : RadModel) (j : ℕ) : Rec Vec6 := (m.recs j).getD (Rec.new 1800 0.01)

/-- `GetIRFInterpolatorK(motion, idof)->Eval(t)` (FrBEMBody.cpp:349-353, 252-270), and `Ku` (355-359, 272-290). -/
def kernel (m : RadModel) (i j : ℕ) (d : Fin 6) (t : ℝ) : Vec6 := interpAt m.nTime m.time (m.irf i j d) t
def kernelU (m : RadModel) (i j : ℕ) (d : Fin 6) (t : ℝ) : Vec6 := interpAt m.nTime m.time (m.irfU i j d) t

/-- `TrapzLoc(vtime, kernel)` for a body in motion and one of its motions (FrRadiationModel.cpp:181-197, 236-246). -/
def convolve (m : RadModel) (j : ℕ) (K : ℝ → Vec6) (d : Fin 6) : Vec6 :=
  trapzLoc (m.recorder j).getTime.length (fun it => (m.recorder j).getTime.getD it 0)
    (fun it => (m.recorder j).data.getD it 0 d • K ((m.recorder j).getTime.getD it 0))

/-- The loops on the bodies in motion and their active motions (FrRadiationModel.cpp:179-199). -/
def memory (m : RadModel) (i : ℕ) : Vec6 :=
  ∑ j ∈ Finset.range m.nb, ((m.dofs j).map fun d => m.convolve j (m.kernel i j d) d).sum

/-- `ConvolutionKu(meanSpeed)` (FrRadiationModel.cpp:232-271). -/
def convolutionKu (m : RadModel) (e : ℕ → EqFrame) (U : ℝ) : Vec6 :=
  ∑ i ∈ Finset.range m.nb, ∑ j ∈ Finset.range m.nb,
    (U • m.convolve j (m.kernelU i j 4) 4 + U • m.convolve j (m.kernelU i j 5) 5 +
      U • (fun r : Fin 6 => m.ainf i i r 2 * ((e j).perturbationAngularVelocityInFrame .NWU).y - m.ainf i i r 1 * ((e j).perturbationAngularVelocityInFrame .NWU).z))

/-- `radiationForce` before the projection (FrRadiationModel.cpp:174-206). -/
def total (m : RadModel) (e : ℕ → EqFrame) (i : ℕ) : Vec6 :=
  let U := (e i).velocityInFrame .NWU
  if fltEps < V3.dot U U then m.memory i + m.convolutionKu e (Real.sqrt (V3.dot U U)) else m.memory i

/-- Recording of the perturbation velocities (FrRadiationModel.cpp:171-174). -/
def recordAll (m : RadModel) (time : ℝ) (e : ℕ → EqFrame) : RadModel :=
  { m with recs := fun j => if j < m.nb then some ((m.recorder j).record time
      (gen ((e j).perturbationVelocityInFrame .NWU) ((e j).perturbationAngularVelocityInFrame .NWU))) else m.recs j }

/-- `Compute(time)` (FrRadiationModel.cpp:164-212); `e j` is the equilibrium frame of the body `j`, `sysTime`, `sysStep` those of the system. -/
def compute (m : RadModel) (sysTime sysStep : ℝ) (e : ℕ → EqFrame) (time : ℝ) : RadModel :=
  if |time - sysTime| < 0.1 * sysStep ∧ fltEps < time then m
  else
    let m' := m.recordAll time e
    { m' with force := fun i => if i < m.nb then
        (-((e i).frame.projFrameInParent (genForce (m'.total e i)) .NWU), -((e i).frame.projFrameInParent (genTorque (m'.total e i)) .NWU)) else m.force i }

/-- `GetImpulseResponseSize` (FrRadiationModel.cpp:219-230); the number of samples is an `unsigned int` (`N - 1` wraps around). Result: `Te`, `dt`. -/
def impulseResponseSize (sysStep freqStep : ℝ) : ℝ × ℝ :=
  let te := 0.5 * (2 * Real.pi) / freqStep
  let N := ⌊te / sysStep⌋₊
  (te, te / (((N + (2 ^ 32 - 1)) % 2 ^ 32 : ℕ) : ℝ))

/-- `DBL_EPSILON`. -/
def dblEps : ℝ := 2 ^ (-52 : ℤ)

/-- `Initialize` (FrRadiationModel.cpp:124-138). -/
def init (m : RadModel) (sysStep freqStep : ℝ) : RadModel :=
  let s := if m.te < dblEps ∨ m.dt < dblEps then impulseResponseSize sysStep freqStep else (m.te, m.dt)
  { m with te := s.1, dt := s.2, recs := fun j => if j < m.nb then some (((m.recs j).getD (Rec.new s.1 s.2)).init) else m.recs j }

/-- `Clear` (FrRadiationModel.cpp:158-162). -/
def clear (m : RadModel) : RadModel := { m with recs := fun j => if j < m.nb then some (m.recorder j).clear else m.recs j }

/-- `SetImpulseResponseSize(BEMBody, Te, dt)` (FrRadiationModel.cpp:273-275). -/
def setSizeOf (m : RadModel) (i : ℕ) (te dt : ℝ) : RadModel := { m with recs := fun j => if j = i then some (Rec.new te dt) else m.recs j }
/-- `SetImpulseResponseSize(Te, dt)` (FrRadiationModel.cpp:278-283). -/
def setSize (m : RadModel) (te dt : ℝ) : RadModel := { m with te := te, dt := dt }

/-- `GetRadiationInertiaPart(body)` (FrRadiationModel.cpp:133-156); `acc j` is `GetCOGAccelerationInBody(NWU)` and `GetAngularAccelerationInBody(NWU)` of the body `j`. -/
def inertiaPart (m : RadModel) (acc : ℕ → V3 × V3) (i : ℕ) : Vec6 :=
  ∑ j ∈ Finset.range m.nb, (-(m.ainf i j)).mulVec (gen (acc j).1 (acc j).2)

end RadModel

/-- `FrRadiationConvolutionForce::Compute` (FrRadiationForce.cpp:116-126). -/
def radiationCompute (m : RadModel) (i : ℕ) (b : Body) (f : Force) : Force :=
  f.setForceTorqueInWorldAtCOG b (m.force i).1 (m.force i).2 .NWU
/-- `GetForceInertiaPartInBody` (FrRadiationForce.cpp:136-140), same for the torque. -/
def inertiaInBody (c : V3) (fc : FC) : V3 := conv fc c
/-- `GetForceInertiaPartInWorld` (FrRadiationForce.cpp:148-151), same for the torque. -/
def inertiaInWorld (b : Body) (c : V3) (fc : FC) : V3 := b.toWorld c fc

/-! ## Specification -/

/-- A recorder of step `step` and capacity `cap` that has recorded exactly the samples `h` (oldest first) since it was initialized or cleared; the instants increase by at most the step. -/
def HasRecorded (r : Rec Vec6) (step : ℝ) (cap : ℕ) (h : List (ℝ × Vec6)) : Prop :=
  ∃ r0 : Rec Vec6, r0.data = [] ∧ r0.step = step ∧ r0.cap = cap ∧ r = r0.run h ∧ match h with | [] => True | x :: xs => Paced step x.1 xs

/-- A velocity history: the piecewise-linear interpolant of the samples. -/
def motionAt (h : List (ℝ × Vec6)) (t : ℝ) : Vec6 := interp (signal [] h) t

/-- The memory integral over the delays `τ 0, …, τ (N-1)`, by the trapezoidal rule, of the impulse response `K` on the velocity `v` seen in the past of `t`. -/
def pastLoad (K : ℝ → Vec6) (v : ℝ → ℝ) (t : ℝ) (N : ℕ) (τ : ℕ → ℝ) : Vec6 := trapzLoc N τ fun k => v (t - τ k) • K (τ k)

/-- Delays of a memory of step `step` and capacity `cap` at time `t`, for a record that began at `t0`: from zero, increasing by at most the step, within the memory, and reaching either the first
grid instant of the record or the last but one of the memory. -/
structure Delays (step : ℝ) (cap : ℕ) (t0 t : ℝ) (N : ℕ) (τ : ℕ → ℝ) : Prop where
  pos : 1 ≤ N
  le_cap : N ≤ cap
  zero : τ 0 = 0
  mono : ∀ k, k + 1 < N → τ k ≤ τ (k + 1)
  fine : ∀ k, k + 1 < N → τ (k + 1) - τ k ≤ step
  range : ∀ k, k < N → 0 ≤ τ k ∧ τ k ≤ (cap - 1 : ℝ) * step ∧ τ k ≤ t - t0
  reach : (2 ≤ N ∧ τ (N - 1) = t - t0 - step) ∨ (N = 1 ∧ t - t0 < step) ∨ (N = cap ∧ (cap - 2 : ℝ) * step ≤ τ (N - 1))

/-! ## Lemmas -/

theorem run_append {T : Type*} [AddCommGroup T] [Module ℝ T] (r : Rec T) (h h' : List (ℝ × T)) : r.run (h ++ h') = (r.run h).run h' := by
  induction h generalizing r with
  | nil => rfl
  | cons x xs ih => exact ih _

theorem getD_of_lt {α : Type*} (l : List α) (d : α) (k : ℕ) (h : k < l.length) : l.getD k d = l[k] := by
  simp [List.getD, List.getElem?_eq_getElem h]

theorem getTime_getD (r : Rec Vec6) (k : ℕ) (hk : k < r.getTime.length) : r.getTime.getD k 0 = if k = 0 then 0 else r.delta + ((k - 1 : ℕ) : ℝ) * r.step := by
  unfold Rec.getTime at hk ⊢
  by_cases h : 1 < r.data.length
  · rw [if_pos h] at hk ⊢
    rcases k with _ | _ | k
    · simp
    · simp
    · simp only [List.length_cons, List.length_map, List.length_range] at hk
      simp only [List.getD_cons_succ]
      rw [getD_of_lt _ _ _ (by simp; omega)]
      simp
  · rw [if_neg h] at hk ⊢
    simp at hk
    subst hk; simp

theorem getTime_length (r : Rec Vec6) (h : 1 ≤ r.data.length) : r.getTime.length = r.data.length := by
  unfold Rec.getTime
  split_ifs with h1
  · simp; omega
  · simp; omega

/-- After recording, the recorder lists the delays of the specification and the velocities at these delays. -/
theorem delays_of (r : Rec Vec6) (step : ℝ) (hs : 0 < step) (cap : ℕ) (hc : 1 ≤ cap) (x : ℝ × Vec6) (xs : List (ℝ × Vec6)) (h : HasRecorded r step cap (x :: xs)) :
    Delays step cap x.1 r.last r.getTime.length (fun k => r.getTime.getD k 0) ∧
    r.last = ((signal [] (x :: xs)).headD x).1 ∧
    ∀ k < r.getTime.length, r.data.getD k 0 = motionAt (x :: xs) (r.last - r.getTime.getD k 0) := by
  obtain ⟨r0, h0, rfl, rfl, hr, hp⟩ := h
  have hd := C21_delays r0 h0 hs hc x xs hp
  obtain ⟨e1, e2, n, hinv⟩ := Inv.of_run r0 h0 hs hc x xs hp
  rw [← hr] at hd e1 e2 hinv
  simp only [] at hd
  obtain ⟨y, l, hy, hl, htop, hdat⟩ := hinv.last
  have hlen : r.data.length = min r0.cap (n + 1) := by
    rw [hdat, e2, List.length_take]; simp [grid]
  have hpos : 1 ≤ r.data.length := by rw [hlen]; omega
  have hN : r.getTime.length = r.data.length := hd.1
  have hlo := hinv.lo
  have hhi := hinv.hi
  have hprev := hinv.prev
  rw [e1] at hhi hprev
  have hdelta : 1 < r.data.length → r.delta = r.last - (x.1 + n * r0.step) := by
    intro h; rw [hinv.delta h, hprev]
  have hτ : ∀ k, k < r.getTime.length → r.getTime.getD k 0 = if k = 0 then 0 else r.last - (x.1 + n * r0.step) + ((k - 1 : ℕ) : ℝ) * r0.step := by
    intro k hk
    rw [getTime_getD r k hk, e1]
    by_cases h0 : k = 0
    · simp [h0]
    · rw [if_neg h0, if_neg h0, hdelta (by omega)]
  have hcast : ∀ k, k < r.getTime.length → 1 ≤ k → ((k - 1 : ℕ) : ℝ) = (k : ℝ) - 1 := by
    intro k _ h1; push_cast [h1]; ring
  have hδ0 : 0 ≤ r.last - (x.1 + n * r0.step) := by rw [hprev] at hlo; linarith
  have hδ1 : r.last - (x.1 + n * r0.step) < r0.step := by rw [hprev] at hhi; linarith
  have hcapR : (1:ℝ) ≤ (r0.cap : ℝ) := by exact_mod_cast hc
  have hn0 : (0:ℝ) ≤ n * r0.step := by positivity
  refine ⟨⟨by omega, by rw [hN, hlen]; omega, ?_, ?_, ?_, ?_, ?_⟩, ?_, ?_⟩
  · show r.getTime.getD 0 0 = 0
    rw [hτ 0 (by omega)]; simp
  · intro k hk
    show r.getTime.getD k 0 ≤ r.getTime.getD (k + 1) 0
    rw [hτ k (by omega), hτ (k + 1) hk]
    rcases Nat.eq_zero_or_pos k with h0 | h0
    · subst h0; simp; linarith
    · rw [if_neg (by omega : ¬ k = 0), if_neg (by omega : ¬ k + 1 = 0), hcast k (by omega) (by omega)]
      rw [show k + 1 - 1 = k by omega]; nlinarith
  · intro k hk
    show r.getTime.getD (k + 1) 0 - r.getTime.getD k 0 ≤ r0.step
    rw [hτ k (by omega), hτ (k + 1) hk]
    rcases Nat.eq_zero_or_pos k with h0 | h0
    · subst h0; simp; linarith
    · rw [if_neg (by omega : ¬ k = 0), if_neg (by omega : ¬ k + 1 = 0), hcast k (by omega) (by omega)]
      rw [show k + 1 - 1 = k by omega]; nlinarith
  · intro k hk
    show 0 ≤ r.getTime.getD k 0 ∧ r.getTime.getD k 0 ≤ _ ∧ r.getTime.getD k 0 ≤ _
    rw [hτ k hk]
    by_cases h0 : k = 0
    · subst h0
      simp only [if_true]
      refine ⟨le_rfl, mul_nonneg (by linarith) hs.le, by linarith⟩
    · rw [if_neg h0, hcast k hk (by omega)]
      have hk1 : (1:ℝ) ≤ k := by exact_mod_cast (by omega : 1 ≤ k)
      have hkc : (k:ℝ) + 1 ≤ r0.cap := by exact_mod_cast (by rw [hN, hlen] at hk; omega : k + 1 ≤ r0.cap)
      have hkn : (k:ℝ) ≤ n := by exact_mod_cast (by rw [hN, hlen] at hk; omega : k ≤ n)
      have a1 : (0:ℝ) ≤ ((k:ℝ) - 1) * r0.step := mul_nonneg (by linarith) hs.le
      have a2 : ((k:ℝ) - 1) * r0.step ≤ ((r0.cap:ℝ) - 2) * r0.step := mul_le_mul_of_nonneg_right (by linarith) hs.le
      have a3 : ((k:ℝ) - 1) * r0.step ≤ ((n:ℝ) - 1) * r0.step := mul_le_mul_of_nonneg_right (by linarith) hs.le
      refine ⟨by linarith, by nlinarith, by nlinarith⟩
  · show (2 ≤ r.getTime.length ∧ r.getTime.getD (r.getTime.length - 1) 0 = _) ∨ _ ∨ (r.getTime.length = r0.cap ∧ _ ≤ r.getTime.getD (r.getTime.length - 1) 0)
    rcases Nat.lt_or_ge n r0.cap with hlt | hge
    · have hL : r.getTime.length = n + 1 := by rw [hN, hlen]; omega
      rcases Nat.eq_zero_or_pos n with hz | hz
      · right; left
        refine ⟨by omega, ?_⟩
        rw [hz] at hδ1; push_cast at hδ1; linarith
      · left
        refine ⟨by omega, ?_⟩
        rw [hL, hτ _ (by omega), if_neg (by omega)]
        rw [show n + 1 - 1 - 1 = n - 1 by omega]
        push_cast [hz]; ring
    · right; right
      have hL : r.getTime.length = r0.cap := by rw [hN, hlen]; omega
      refine ⟨hL, ?_⟩
      rw [hL, hτ _ (by omega)]
      by_cases h1 : r0.cap = 1
      · rw [if_pos (by omega), h1]; push_cast; linarith
      · rw [if_neg (by omega), show r0.cap - 1 - 1 = r0.cap - 2 by omega]
        have : 2 ≤ r0.cap := by omega
        push_cast [this]; linarith
  · rw [hl, hy]; rfl
  · intro k hk
    have hk' : k < r.data.length := by rw [← hN]; exact hk
    rw [getD_of_lt _ _ _ hk', getD_of_lt _ _ _ hk]
    exact hd.2 k hk' hk

theorem last_record (r : Rec Vec6) (t : ℝ) (v : Vec6) : (r.record t v).last = t := by
  unfold Rec.record
  split
  · rfl
  · simp only []
    split_ifs with h1 h2
    · exact h1.symm
    · rfl
    · rfl

theorem HasRecorded.record {r : Rec Vec6} {step : ℝ} {cap : ℕ} {h : List (ℝ × Vec6)} (hr : HasRecorded r step cap h) (t : ℝ) (v : Vec6)
    (hp : match h ++ [(t, v)] with | [] => True | x :: xs => Paced step x.1 xs) : HasRecorded (r.record t v) step cap (h ++ [(t, v)]) := by
  obtain ⟨r0, a, b, c, d, _⟩ := hr
  refine ⟨r0, a, b, c, ?_, hp⟩
  rw [run_append, d]; rfl

/-! ## C115 -/

/-- Motions recorded by the model for body `j` at an update. -/
def perturbationVelocity6 (e : EqFrame) : Vec6 := gen (e.perturbationVelocityInFrame .NWU) (e.perturbationAngularVelocityInFrame .NWU)

/-- **C115, load.** Any number of bodies, each with its recorder that has recorded a history `h j` of perturbation velocities, extended by the current one at time `t` (the instants increase by at most the
step of the recorder). After an update at `t` (not at the time of the system) without mean speed of the equilibrium frame of body `i`: the load on it is minus, in the axes of its
equilibrium frame, the sum over the bodies in motion and their active motions of the memory integral of the impulse response on the past velocity of that motion, over the delays of the memory. -/
theorem C115_load (m : RadModel) (sysTime sysStep t : ℝ) (e : ℕ → EqFrame) (hup : 0.1 * sysStep ≤ |t - sysTime| ∨ t ≤ fltEps) (i : ℕ) (hi : i < m.nb)
    (hU : V3.dot ((e i).velocityInFrame .NWU) ((e i).velocityInFrame .NWU) ≤ fltEps)
    (step : ℕ → ℝ) (hs : ∀ j < m.nb, 0 < step j) (cap : ℕ → ℕ) (hc : ∀ j < m.nb, 1 ≤ cap j) (first : ℕ → ℝ × Vec6) (past : ℕ → List (ℝ × Vec6))
    (hr : ∀ j < m.nb, HasRecorded (m.recorder j) (step j) (cap j) (first j :: past j))
    (hp : ∀ j < m.nb, Paced (step j) (first j).1 (past j ++ [(t, perturbationVelocity6 (e j))])) :
    let h := fun j => first j :: (past j ++ [(t, perturbationVelocity6 (e j))])
    ∃ (N : ℕ → ℕ) (τ : ℕ → ℕ → ℝ), (∀ j < m.nb, Delays (step j) (cap j) (first j).1 t (N j) (τ j)) ∧
      let G : Vec6 := ∑ j ∈ Finset.range m.nb, ((m.dofs j).map fun d => pastLoad (m.kernel i j d) (fun s => motionAt (h j) s d) t (N j) (τ j)).sum
      (m.compute sysTime sysStep e t).force i = (-(axesOf (e i).frame (genForce G)), -(axesOf (e i).frame (genTorque G))) := by
  intro h
  have hnot : ¬ (|t - sysTime| < 0.1 * sysStep ∧ fltEps < t) := by
    rintro ⟨a, b⟩; rcases hup with c | c <;> linarith
  have hrec : ∀ j < m.nb, HasRecorded ((m.recordAll t e).recorder j) (step j) (cap j) (h j) := by
    intro j hj
    have : (m.recordAll t e).recorder j = (m.recorder j).record t (perturbationVelocity6 (e j)) := by
      unfold RadModel.recorder RadModel.recordAll
      simp only [hj, if_true, Option.getD_some]
      rfl
    rw [this]
    exact (hr j hj).record t _ (hp j hj)
  have hlast : ∀ j < m.nb, ((m.recordAll t e).recorder j).last = t := by
    intro j hj
    have : (m.recordAll t e).recorder j = (m.recorder j).record t (perturbationVelocity6 (e j)) := by
      unfold RadModel.recorder RadModel.recordAll
      simp only [hj, if_true, Option.getD_some]
      rfl
    rw [this, last_record]
  refine ⟨fun j => ((m.recordAll t e).recorder j).getTime.length, fun j k => ((m.recordAll t e).recorder j).getTime.getD k 0, ?_, ?_⟩
  · intro j hj
    have := (delays_of _ (step j) (hs j hj) (cap j) (hc j hj) (first j) _ (hrec j hj)).1
    rw [hlast j hj] at this
    exact this
  · intro G
    have htot : (m.recordAll t e).total e i = G := by
      unfold RadModel.total
      simp only []
      rw [if_neg (not_lt.mpr hU)]
      unfold RadModel.memory
      show ∑ j ∈ Finset.range m.nb, ((m.dofs j).map fun d => (m.recordAll t e).convolve j (m.kernel i j d) d).sum = G
      apply Finset.sum_congr rfl
      intro j hj
      rw [Finset.mem_range] at hj
      congr 1
      apply List.map_congr_left
      intro d _
      unfold RadModel.convolve pastLoad
      apply trapz_congr
      intro k hk
      rw [(delays_of _ (step j) (hs j hj) (cap j) (hc j hj) (first j) _ (hrec j hj)).2.2 k hk, hlast j hj]
    unfold RadModel.compute
    rw [if_neg hnot]
    simp only [hi, if_true]
    rw [htot]
    rfl

/-- **C115, applied load.** The load of the model is applied at the centre of gravity of the body, in the world. -/
theorem C115_applied (m : RadModel) (i : ℕ) (b : Body) (hb : Placed b) (f : Force) :
    IsLoad (radiationCompute m i b f) b .NWU (m.force i).1 (m.force i).2 (b.cogPositionInWorld .NWU) := load_world_cog f b hb _ _

/-- **C115, convergence.** Over any delays of a memory, the memory integral differs from the true integral of the impulse response on the past velocity, from delay zero to the last delay, by at most
`L × step × duration`, `L` a Lipschitz constant of the integrand: it converges with the step. With a single delay there is no past and the integral is null. -/
theorem C115_integral (K : ℝ → Vec6) (v : ℝ → ℝ) (t : ℝ) (step : ℝ) (cap : ℕ) (t0 : ℝ) (N : ℕ) (τ : ℕ → ℝ) (hd : Delays step cap t0 t N τ) (L : NNReal)
    (hL : LipschitzWith L fun s : ℝ => v (t - s) • K s) :
    ‖pastLoad K v t N τ - ∫ s in (0 : ℝ)..(τ (N - 1)), v (t - s) • K s‖ ≤ L * step * τ (N - 1) := by
  rcases Nat.lt_or_ge N 2 with h1 | h2
  · have : N = 1 := by have := hd.pos; omega
    subst this
    simp only [show 1 - 1 = 0 from rfl, hd.zero, intervalIntegral.integral_same, mul_zero, sub_zero]
    unfold pastLoad
    rw [(C104_linear 1 τ _ (fun _ => (0 : Vec6)) 0 0).2.2 le_rfl]
    simp
  · have := C104_error N h2 τ hd.mono (fun s : ℝ => v (t - s) • K s) L hL step hd.fine
    rw [hd.zero, sub_zero] at this
    exact this

/-- **C115, table.** If the discretization of the impulse responses goes from zero to at least the length of the memory, no delay is outside (no assertion of the interpolator fails). -/
theorem C115_in_table (step : ℝ) (cap : ℕ) (t0 t : ℝ) (N : ℕ) (τ : ℕ → ℝ) (hd : Delays step cap t0 t N τ) (n : ℕ) (x : ℕ → ℝ) (h0 : x 0 = 0) (h1 : (cap - 1 : ℝ) * step ≤ x (n - 1)) :
    ∀ k < N, InGrid n x (τ k) := by
  intro k hk
  obtain ⟨a, b, _⟩ := hd.range k hk
  exact ⟨by rw [h0]; exact a, b.trans h1⟩

theorem mem_signal {T : Type*} (xs : List (ℝ × T)) : ∀ acc : List (ℝ × T), ∀ y ∈ signal acc xs, y ∈ acc ∨ y ∈ xs := by
  induction xs with
  | nil => intro acc y h; exact Or.inl h
  | cons x xs ih =>
    intro acc y h
    cases acc with
    | nil =>
      rcases ih [x] y h with h | h
      · right; simp at h; simp [h]
      · right; simp [h]
    | cons z zs =>
      simp only [signal] at h
      split_ifs at h with hz
      · rcases ih _ y h with h | h
        · exact Or.inl h
        · right; simp [h]
      · rcases ih _ y h with h | h
        · rcases List.mem_cons.mp h with h | h
          · right; simp [h]
          · exact Or.inl h
        · right; simp [h]

theorem interp_null : ∀ l : List (ℝ × Vec6), (∀ y ∈ l, y.2 = 0) → ∀ s, interp l s = 0
  | [], _, _ => rfl
  | [a], h, _ => h a (by simp)
  | b :: a :: l, h, s => by
    simp only [interp]
    split_ifs
    · exact interp_null (a :: l) (fun y hy => h y (List.mem_cons_of_mem _ hy)) s
    · unfold line; rw [h a (by simp), h b (by simp)]; simp

/-- **C115, rest.** Bodies that never moved from their equilibrium frames have no radiation load. -/
theorem C115_rest (h : List (ℝ × Vec6)) (hz : ∀ x ∈ h, x.2 = 0) (K : ℝ → Vec6) (d : Fin 6) (t : ℝ) (N : ℕ) (τ : ℕ → ℝ) :
    pastLoad K (fun s => motionAt h s d) t N τ = 0 := by
  apply trapz_zero
  intro k _
  have : motionAt h (t - τ k) = 0 := by
    apply interp_null
    intro y hy
    rcases mem_signal h [] y hy with h' | h'
    · simp at h'
    · exact hz y h'
  simp only [this]; simp

/-- The distinct instants, newest first. -/
def instants (acc : List ℝ) : List ℝ → List ℝ
  | [] => acc
  | x :: xs => match acc with
    | [] => instants [x] xs
    | y :: _ => if x = y then instants acc xs else instants (x :: acc) xs

theorem signal_map (u : ℝ → Vec6) (ts : List ℝ) : ∀ acc : List ℝ, signal (acc.map fun s => (s, u s)) (ts.map fun s => (s, u s)) = (instants acc ts).map fun s => (s, u s) := by
  induction ts with
  | nil => intro acc; rfl
  | cons x xs ih =>
    intro acc
    cases acc with
    | nil => exact ih [x]
    | cons y ys =>
      simp only [List.map_cons, signal, instants]
      split_ifs
      · exact ih (y :: ys)
      · exact ih (x :: y :: ys)

theorem interp_combine (u v : ℝ → Vec6) (a b : ℝ) : ∀ (ts : List ℝ) (s : ℝ), interp (ts.map fun s => (s, a • u s + b • v s)) s =
    a • interp (ts.map fun s => (s, u s)) s + b • interp (ts.map fun s => (s, v s)) s
  | [], _ => by simp [interp]
  | [_], _ => rfl
  | x :: y :: l, s => by
    have := interp_combine u v a b (y :: l) s
    simp only [List.map_cons, interp] at this ⊢
    split_ifs
    · exact this
    · unfold line; simp only []; module

/-- **C115, superposition.** For any instants of record, the memory integral of a combination of motions is the combination of the memory integrals. -/
theorem C115_superposition (ts : List ℝ) (u v : ℝ → Vec6) (a b : ℝ) (K : ℝ → Vec6) (d : Fin 6) (t : ℝ) (N : ℕ) (τ : ℕ → ℝ) :
    let P := fun w : ℝ → Vec6 => pastLoad K (fun s => motionAt (ts.map fun s => (s, w s)) s d) t N τ
    P (fun s => a • u s + b • v s) = a • P u + b • P v := by
  intro P
  simp only [P, pastLoad]
  rw [← (C104_linear N τ (fun k => motionAt (ts.map fun s => (s, u s)) (t - τ k) d • K (τ k)) (fun k => motionAt (ts.map fun s => (s, v s)) (t - τ k) d • K (τ k)) a b).1]
  apply trapz_congr
  intro k _
  have hm : ∀ w : ℝ → Vec6, motionAt (ts.map fun s => (s, w s)) = interp ((instants [] ts).map fun s => (s, w s)) := by
    intro w; funext s; unfold motionAt
    rw [← signal_map w ts []]; rfl
  rw [hm, hm, hm, interp_combine]
  simp only [Pi.add_apply, Pi.smul_apply, smul_eq_mul]
  module

/-! ## C116 -/

/-- **C116, size.** If the period `π / Δω` of the database holds between 2 and 2³² time steps, `N` in number rounded down: the default memory lasts `π / Δω`, its step divides it into `N - 1` steps and is
larger than the time step; after `Initialize` a recorder that was not set has this step and `N - 1` values. -/
theorem C116_size (m : RadModel) (sysStep freqStep : ℝ) (hs : 0 < sysStep) (hf : 0 < freqStep) (hm : m.te = 0 ∨ m.dt = 0) (N : ℕ) (hN : N = ⌊Real.pi / freqStep / sysStep⌋₊) (h2 : 2 ≤ N) (h32 : N < 2 ^ 32) :
    let m' := m.init sysStep freqStep
    m'.te = Real.pi / freqStep ∧ m'.te = (N - 1 : ℝ) * m'.dt ∧ sysStep < m'.dt ∧
    ∀ j < m.nb, m.recs j = none → (m'.recorder j).data = [] ∧ (m'.recorder j).step = m'.dt ∧ (m'.recorder j).cap = N - 1 := by
  intro m'
  have he : (0:ℝ) < RadModel.dblEps := by unfold RadModel.dblEps; positivity
  have hcond : m.te < RadModel.dblEps ∨ m.dt < RadModel.dblEps := by rcases hm with h | h <;> rw [h] <;> simp [he]
  have hte : (0.5 * (2 * Real.pi) / freqStep : ℝ) = Real.pi / freqStep := by ring
  have hmod : (N + (2 ^ 32 - 1)) % 2 ^ 32 = N - 1 := by omega
  have hsz : RadModel.impulseResponseSize sysStep freqStep = (Real.pi / freqStep, Real.pi / freqStep / ((N - 1 : ℕ) : ℝ)) := by
    unfold RadModel.impulseResponseSize
    simp only [hte]
    rw [← hN, hmod]
  have e1 : m'.te = Real.pi / freqStep := by
    show (if m.te < RadModel.dblEps ∨ m.dt < RadModel.dblEps then RadModel.impulseResponseSize sysStep freqStep else (m.te, m.dt)).1 = _
    rw [if_pos hcond, hsz]
  have e2 : m'.dt = Real.pi / freqStep / ((N - 1 : ℕ) : ℝ) := by
    show (if m.te < RadModel.dblEps ∨ m.dt < RadModel.dblEps then RadModel.impulseResponseSize sysStep freqStep else (m.te, m.dt)).2 = _
    rw [if_pos hcond, hsz]
  have hpos : (0:ℝ) < ((N - 1 : ℕ) : ℝ) := by exact_mod_cast (by omega : 0 < N - 1)
  have hTe : 0 < Real.pi / freqStep := div_pos Real.pi_pos hf
  have hcast : ((N - 1 : ℕ) : ℝ) = (N : ℝ) - 1 := by push_cast [(by omega : 1 ≤ N)]; ring
  have hle : (N : ℝ) ≤ Real.pi / freqStep / sysStep := by rw [hN]; exact Nat.floor_le (by positivity)
  refine ⟨e1, ?_, ?_, ?_⟩
  · rw [e1, e2, ← hcast]; field_simp
  · rw [e2, lt_div_iff₀ hpos, hcast]
    rw [le_div_iff₀ hs] at hle
    nlinarith
  · intro j hj hnone
    have hr : m'.recorder j = (Rec.new m'.te m'.dt).init := by
      show ((if j < m.nb then some (((m.recs j).getD (Rec.new m'.te m'.dt)).init) else m.recs j)).getD _ = _
      rw [if_pos hj, hnone]; rfl
    rw [hr]
    refine ⟨by simp [Rec.init, Rec.new], rfl, ?_⟩
    show ⌊m'.te / m'.dt⌋₊ = N - 1
    rw [e1, e2, div_div_cancel₀ hTe.ne', Nat.floor_natCast]

/-- A setting of the memory by the user, before the simulation. -/
inductive SizeCall where
  /-- `SetImpulseResponseSize(body, Te, dt)` -/
  | own (i : ℕ) (te dt : ℝ)
  /-- `SetImpulseResponseSize(Te, dt)` -/
  | all (te dt : ℝ)
/-- Effect of a setting (FrRadiationModel.cpp:269-283). -/
def SizeCall.run (m : RadModel) : SizeCall → RadModel
  | .own i te dt => m.setSizeOf i te dt
  | .all te dt => m.setSize te dt

/-- **C116, settings.** For all settings made before `Initialize`, in any order: each body remembers for the duration and with the step last asked for this body; if none was asked for it, for those last asked for all the
bodies; its memory then holds `⌊Te / dt⌋` values and is empty. No setting for a body changes another one. -/
theorem C116_settings (m : RadModel) (h0 : ∀ j, m.recs j = none) (calls : List SizeCall)
    (hv : ∀ te dt, SizeCall.all te dt ∈ calls → RadModel.dblEps < te ∧ RadModel.dblEps < dt) (sysStep freqStep : ℝ) (i : ℕ) (hi : i < m.nb) :
    let r := ((calls.foldl SizeCall.run m).init sysStep freqStep).recorder i
    (∀ pre post te dt, calls = pre ++ .own i te dt :: post → (∀ te' dt', SizeCall.own i te' dt' ∉ post) →
      r.persistence = te ∧ r.step = dt ∧ r.cap = ⌊te / dt⌋₊ ∧ r.data = []) ∧
    (∀ pre post te dt, calls = pre ++ .all te dt :: post → (∀ te' dt', SizeCall.all te' dt' ∉ post) → (∀ te' dt', SizeCall.own i te' dt' ∉ calls) →
      r.persistence = te ∧ r.step = dt ∧ r.cap = ⌊te / dt⌋₊ ∧ r.data = []) := by
  have hnb : ∀ (l : List SizeCall) (m : RadModel), (l.foldl SizeCall.run m).nb = m.nb := by
    intro l
    induction l with
    | nil => intro m; rfl
    | cons c l ih => intro m; rw [List.foldl_cons, ih]; cases c <;> rfl
  have hown : ∀ (l : List SizeCall) (m : RadModel), (∀ te' dt', SizeCall.own i te' dt' ∉ l) → (l.foldl SizeCall.run m).recs i = m.recs i := by
    intro l
    induction l with
    | nil => intro m _; rfl
    | cons c l ih =>
      intro m h
      rw [List.foldl_cons, ih _ (fun a b hm => h a b (List.mem_cons_of_mem _ hm))]
      cases c with
      | own k te dt =>
        by_cases hk : i = k
        · subst hk; exact absurd List.mem_cons_self (h te dt)
        · show (if i = k then _ else _) = _
          rw [if_neg hk]
      | all te dt => rfl
  have hall : ∀ (l : List SizeCall) (m : RadModel), (∀ te' dt', SizeCall.all te' dt' ∉ l) → (l.foldl SizeCall.run m).te = m.te ∧ (l.foldl SizeCall.run m).dt = m.dt := by
    intro l
    induction l with
    | nil => intro m _; exact ⟨rfl, rfl⟩
    | cons c l ih =>
      intro m h
      rw [List.foldl_cons]
      obtain ⟨a, b⟩ := ih (c.run m) (fun a b hm => h a b (List.mem_cons_of_mem _ hm))
      rw [a, b]
      cases c with
      | own k te dt => exact ⟨rfl, rfl⟩
      | all te dt => exact absurd List.mem_cons_self (h te dt)
  have hr : ∀ M : RadModel, M.nb = m.nb → (M.init sysStep freqStep).recorder i =
      ((M.recs i).getD (Rec.new (M.init sysStep freqStep).te (M.init sysStep freqStep).dt)).init := by
    intro M hM
    show ((if i < M.nb then some (((M.recs i).getD (Rec.new (M.init sysStep freqStep).te (M.init sysStep freqStep).dt)).init) else M.recs i)).getD _ = _
    rw [if_pos (hM ▸ hi)]; rfl
  intro r
  constructor
  · intro pre post te dt hc hp
    have h1 : (calls.foldl SizeCall.run m).recs i = some (Rec.new te dt) := by
      rw [hc, List.foldl_append, List.foldl_cons, hown post _ hp]
      show (if i = i then _ else _) = _
      rw [if_pos rfl]
    have h2 : r = (Rec.new te dt).init := by
      show (((calls.foldl SizeCall.run m).init sysStep freqStep).recorder i) = _
      rw [hr _ (hnb _ _), h1]; rfl
    rw [h2]
    exact ⟨rfl, rfl, rfl, by simp [Rec.init, Rec.new]⟩
  · intro pre post te dt hc hp hno
    have h1 : (calls.foldl SizeCall.run m).recs i = none := by rw [hown _ _ hno]; exact h0 i
    have h3 : (calls.foldl SizeCall.run m).te = te ∧ (calls.foldl SizeCall.run m).dt = dt := by
      rw [hc, List.foldl_append, List.foldl_cons]
      exact hall post _ hp
    obtain ⟨ht, hd⟩ := hv te dt (by rw [hc]; simp)
    have h2 : r = (Rec.new te dt).init := by
      show (((calls.foldl SizeCall.run m).init sysStep freqStep).recorder i) = _
      rw [hr _ (hnb _ _), h1]
      show (Rec.new (if _ then _ else _ : ℝ × ℝ).1 (if _ then _ else _ : ℝ × ℝ).2).init = _
      rw [h3.1, h3.2, if_neg (by push Not; exact ⟨ht.le, hd.le⟩)]
    rw [h2]
    exact ⟨rfl, rfl, rfl, by simp [Rec.init, Rec.new]⟩

/-- **C116, settings, non-vacuity.** Two bodies, a memory for the second one then another for all. -/
example (m : RadModel) (h0 : ∀ j, m.recs j = none) (h2 : m.nb = 2) :
    let M := ([SizeCall.own 1 50 0.5, .all 100 0.1].foldl SizeCall.run m).init 0.01 0.1
    (M.recorder 1).persistence = 50 ∧ (M.recorder 0).persistence = 100 := by
  have hv : ∀ te dt, SizeCall.all te dt ∈ [SizeCall.own 1 50 0.5, .all 100 0.1] → RadModel.dblEps < te ∧ RadModel.dblEps < dt := by
    intro te dt h
    simp only [List.mem_cons, reduceCtorEq, SizeCall.all.injEq, List.not_mem_nil, or_false, false_or] at h
    obtain ⟨rfl, rfl⟩ := h
    unfold RadModel.dblEps
    constructor <;> norm_num
  refine ⟨((C116_settings m h0 _ hv 0.01 0.1 1 (by omega)).1 [] _ 50 0.5 rfl (by simp)).1, ((C116_settings m h0 _ hv 0.01 0.1 0 (by omega)).2 [.own 1 50 0.5] [] 100 0.1 rfl (by simp) (by simp)).1⟩

/-- **C116, clearing.** `Clear` empties the memory of every body and keeps its duration and its step. -/
theorem C116_clear (m : RadModel) (i : ℕ) (hi : i < m.nb) :
    (m.clear.recorder i).data = [] ∧ (m.clear.recorder i).persistence = (m.recorder i).persistence ∧ (m.clear.recorder i).step = (m.recorder i).step ∧
    (m.clear.recorder i).cap = ⌊(m.recorder i).persistence / (m.recorder i).step⌋₊ := by
  have h : m.clear.recorder i = (m.recorder i).clear := by
    show ((if i < m.nb then some (m.recorder i).clear else m.recs i)).getD _ = _
    rw [if_pos hi]; rfl
  rw [h]
  exact ⟨by simp [Rec.clear, Rec.init], rfl, rfl, rfl⟩

/-- **C116, small period (defect).** If the period `π / Δω` is shorter than one time step the step of the memory is the period divided by 2³² - 1 (the count wraps around); if it holds exactly one time step, the
step is a division by zero. -/
theorem C116_small_period (sysStep freqStep : ℝ) :
    (⌊Real.pi / freqStep / sysStep⌋₊ = 0 → (RadModel.impulseResponseSize sysStep freqStep).2 = Real.pi / freqStep / (2 ^ 32 - 1)) ∧
    (⌊Real.pi / freqStep / sysStep⌋₊ = 1 → ∃ d : ℝ, d = 0 ∧ (RadModel.impulseResponseSize sysStep freqStep).2 = Real.pi / freqStep / d) := by
  have hte : (0.5 * (2 * Real.pi) / freqStep : ℝ) = Real.pi / freqStep := by ring
  refine ⟨fun h => ?_, fun h => ⟨_, rfl, ?_⟩⟩
  · unfold RadModel.impulseResponseSize
    simp only [hte]
    rw [h]; norm_num
  · unfold RadModel.impulseResponseSize
    simp only [hte]
    rw [h]; norm_num

/-- **C116, start.** At the first update after initialization (or clearing) every load is null without mean speed. -/
theorem C116_start (m : RadModel) (sysTime sysStep t : ℝ) (e : ℕ → EqFrame) (hup : 0.1 * sysStep ≤ |t - sysTime| ∨ t ≤ fltEps) (i : ℕ) (hi : i < m.nb)
    (hU : V3.dot ((e i).velocityInFrame .NWU) ((e i).velocityInFrame .NWU) ≤ fltEps) (h0 : ∀ j < m.nb, (m.recorder j).data = []) :
    (m.compute sysTime sysStep e t).force i = (0, 0) := by
  have hnot : ¬ (|t - sysTime| < 0.1 * sysStep ∧ fltEps < t) := by
    rintro ⟨a, b⟩; rcases hup with c | c <;> linarith
  have htot : (m.recordAll t e).total e i = 0 := by
    unfold RadModel.total
    simp only []
    rw [if_neg (not_lt.mpr hU)]
    unfold RadModel.memory
    apply Finset.sum_eq_zero
    intro j hj
    have hj' : j < m.nb := Finset.mem_range.mp hj
    have hrec : (m.recordAll t e).recorder j = (m.recorder j).record t (perturbationVelocity6 (e j)) := by
      unfold RadModel.recorder RadModel.recordAll
      simp only [hj', if_true, Option.getD_some]
      rfl
    have hlen : ((m.recordAll t e).recorder j).getTime.length ≤ 1 := by
      have hd : ((m.recorder j).record t (perturbationVelocity6 (e j))).data = [perturbationVelocity6 (e j)].take (m.recorder j).cap := by
        unfold Rec.record
        split
        · rfl
        · rename_i h; rw [h0 j hj'] at h; simp at h
      have := List.length_take_le' (m.recorder j).cap [perturbationVelocity6 (e j)]
      simp only [List.length_singleton] at this
      rw [hrec]
      unfold Rec.getTime
      rw [hd]
      split_ifs with h1
      · omega
      · simp
    have : ∀ d, (m.recordAll t e).convolve j ((m.recordAll t e).kernel i j d) d = 0 := by
      intro d
      unfold RadModel.convolve
      exact (C104_linear _ _ _ (fun _ => (0 : Vec6)) 0 0).2.2 hlen
    simp [this]
  have hz : genForce (0 : Vec6) = 0 ∧ genTorque (0 : Vec6) = 0 := by constructor <;> ext <;> simp [genForce, genTorque]
  have hz2 : (e i).frame.projFrameInParent 0 .NWU = 0 := by
    show (e i).frame.rot.rotate 0 = 0
    ext <;> simp [Q.rotate, Q.toMat, M3.mulVec]
  unfold RadModel.compute
  rw [if_neg hnot]
  simp only [hi, if_true]
  rw [htot, hz.1, hz.2, hz2]
  simp

/-- **C116, once per step.** An update at the time of the system (to a tenth of a step; later than the start) changes nothing: neither records nor loads. -/
theorem C116_skip (m : RadModel) (sysTime sysStep t : ℝ) (e : ℕ → EqFrame) (h : |t - sysTime| < 0.1 * sysStep) (ht : fltEps < t) : m.compute sysTime sysStep e t = m := by
  unfold RadModel.compute; rw [if_pos ⟨h, ht⟩]

/-! ## C117 -/

/-- **C117 (defect), shared forward-speed load.** With a mean speed, what is added to the load of a body for forward speed sums the responses of all the bodies: a body without any response to forward speed
(null impulse responses with speed, null added mass) receives the load of the other. -/
theorem C117_shared (m : RadModel) (h2 : m.nb = 2) (e : ℕ → EqFrame) (hK : ∀ j d k, m.irfU 0 j d k = 0) (hA : m.ainf 0 0 = 0)
    (hU : fltEps < V3.dot ((e 0).velocityInFrame .NWU) ((e 0).velocityInFrame .NWU)) :
    let U := Real.sqrt (V3.dot ((e 0).velocityInFrame .NWU) ((e 0).velocityInFrame .NWU))
    m.total e 0 = m.memory 0 + ∑ j ∈ Finset.range 2, (U • m.convolve j (m.kernelU 1 j 4) 4 + U • m.convolve j (m.kernelU 1 j 5) 5 +
      U • (fun r : Fin 6 => m.ainf 1 1 r 2 * ((e j).perturbationAngularVelocityInFrame .NWU).y - m.ainf 1 1 r 1 * ((e j).perturbationAngularVelocityInFrame .NWU).z)) := by
  intro U
  have hc : ∀ j d d', m.convolve j (m.kernelU 0 j d) d' = 0 := by
    intro j d d'
    unfold RadModel.convolve
    apply trapz_zero
    intro k _
    have : m.kernelU 0 j d ((m.recorder j).getTime.getD k 0) = 0 := by
      unfold RadModel.kernelU interpAt
      simp [hK]
    rw [this, smul_zero]
  unfold RadModel.total
  simp only []
  rw [if_pos hU]
  congr 1
  unfold RadModel.convolutionKu
  rw [h2, Finset.sum_range_succ, Finset.sum_range_one]
  have : ∑ j ∈ Finset.range 2, (U • m.convolve j (m.kernelU 0 j 4) 4 + U • m.convolve j (m.kernelU 0 j 5) 5 +
      U • (fun r : Fin 6 => m.ainf 0 0 r 2 * ((e j).perturbationAngularVelocityInFrame .NWU).y - m.ainf 0 0 r 1 * ((e j).perturbationAngularVelocityInFrame .NWU).z)) = 0 := by
    apply Finset.sum_eq_zero
    intro j _
    rw [hc, hc, hA]
    funext r; simp
  rw [this, zero_add]

/-- **C117 (defect), backward speed.** The load does not distinguish a forward from a backward mean speed: reversing the velocity of the frame leaves it unchanged. -/
theorem C117_backward (m : RadModel) (e : ℕ → EqFrame) (i : ℕ) :
    m.total (fun j => { e j with vel := -(e j).vel }) i = m.total e i := by
  have hn : (e i).frame.projParentInFrame (-(e i).vel) .NWU = -((e i).frame.projParentInFrame (e i).vel .NWU) := by
    show (quatInv (e i).frame.rot).rotate (-(e i).vel) = -((quatInv (e i).frame.rot).rotate (e i).vel)
    exact Q.rotate_neg _ _
  have hd : V3.dot (EqFrame.velocityInFrame { e i with vel := -(e i).vel } .NWU) (EqFrame.velocityInFrame { e i with vel := -(e i).vel } .NWU) =
      V3.dot ((e i).velocityInFrame .NWU) ((e i).velocityInFrame .NWU) := by
    show V3.dot ((e i).frame.projParentInFrame (-(e i).vel) .NWU) ((e i).frame.projParentInFrame (-(e i).vel) .NWU) = _
    rw [hn]
    show V3.dot (-((e i).velocityInFrame .NWU)) (-((e i).velocityInFrame .NWU)) = _
    simp [V3.dot]
  unfold RadModel.total
  simp only [hd]
  rfl

/-- **C117 (defect), mask set twice.** When the motion mask of the only body is set twice (its list of motions is then twice the active ones, `C105_set_again`) the radiation load doubles. -/
theorem C117_mask_twice (m : RadModel) (h1 : m.nb = 1) (M : DofMask) (hf : M.Fresh) (mask : Fin 6 → ℤ) (hv : ValidMask mask) (i : ℕ) :
    ({ m with dofs := fun _ => ((M.setMask mask).setMask mask).list } : RadModel).memory i = (2 : ℝ) • ({ m with dofs := fun _ => (M.setMask mask).list } : RadModel).memory i := by
  rw [(C105_set_again M hf mask mask hv).1]
  rw [(C105_mask M hf mask hv).2.2.1]
  unfold RadModel.memory
  simp only [h1, Finset.sum_range_one, List.map_append, List.sum_append, two_smul]
  rfl

/-! ## C118 -/

/-- **C118, inertia part.** The inertia part of the radiation load on a body, in body axes: minus the sum over the bodies in motion of the infinite added mass times the acceleration (of the centre of gravity, and angular, in the
axes of the body in motion); null without acceleration; the getter in body axes swaps it for NED, the getter in the world projects it for NWU. -/
theorem C118_inertia (m : RadModel) (acc : ℕ → V3 × V3) (i : ℕ) (b : Body) (r : Fin 6) :
    m.inertiaPart acc i r = -∑ j ∈ Finset.range m.nb, ∑ c : Fin 6, m.ainf i j r c * gen (acc j).1 (acc j).2 c ∧
    ((∀ j < m.nb, acc j = (0, 0)) → m.inertiaPart acc i = 0) ∧
    (∀ c fc, inertiaInBody c fc = conv fc c) ∧ ∀ c, inertiaInWorld b c .NWU = b.toWorld c .NWU := by
  refine ⟨?_, ?_, fun _ _ => rfl, fun _ => rfl⟩
  · unfold RadModel.inertiaPart
    rw [Finset.sum_apply, ← Finset.sum_neg_distrib]
    apply Finset.sum_congr rfl
    intro j _
    simp [Matrix.mulVec, dotProduct]
  · intro h
    unfold RadModel.inertiaPart
    apply Finset.sum_eq_zero
    intro j hj
    rw [h j (Finset.mem_range.mp hj)]
    funext r
    simp only [Matrix.mulVec, dotProduct]
    apply Finset.sum_eq_zero
    intro c _
    fin_cases c <;> simp [gen]

/-- **C118 (defect), NED.** Asked in NED, the getter in the world reads the stored vector (NWU, body axes) as if it were in NED: the result is the NED form of the vector in the world only if the lateral and vertical components
are null. -/
theorem C118_world_ned (b : Body) (hb : Placed b) (c : V3) :
    inertiaInWorld b c .NED = conv .NED (inertiaInWorld b c .NWU) ↔ c.y = 0 ∧ c.z = 0 := by
  show conv .NED (b.cog.rot.rotate (conv .NED c)) = conv .NED (b.cog.rot.rotate c) ↔ _
  constructor
  · intro h
    have h1 := congrArg (conv .NED) h
    rw [conv_conv, conv_conv] at h1
    have h2 := congrArg b.cog.rot.conj.rotate h1
    rw [Q.rotate_conj hb.unit, Q.rotate_conj hb.unit] at h2
    have hy := congrArg V3.y h2
    have hz := congrArg V3.z h2
    simp [conv] at hy hz
    exact ⟨by linarith, by linarith⟩
  · rintro ⟨hy, hz⟩
    have : conv .NED c = c := by ext <;> simp [conv, hy, hz]
    rw [this]

/-- A case of `C115_load`: a memory that has recorded two samples and receives the third. -/
example : HasRecorded ((⟨3, 1, 3, 0, 0, 0, []⟩ : Rec Vec6).run [(0, fun _ => 1), (1, fun _ => 2)]) 1 3 [(0, fun _ => 1), (1, fun _ => 2)] ∧
    Paced 1 0 ([(1, fun _ => 2)] ++ [((3/2 : ℝ), (fun _ => 3 : Vec6))]) :=
  ⟨⟨_, rfl, rfl, rfl, rfl, by norm_num [Paced]⟩, by norm_num [Paced]⟩

end Frydom.Seakeeping
