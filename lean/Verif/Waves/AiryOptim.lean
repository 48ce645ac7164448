import Verif.Waves.AiryProps

/-!
# The optimised wave fields (C37)

`FrAiryRegularOptimWaveField.cpp`, `FrAiryIrregularOptimWaveField.cpp`: same queries, with the time and direction factors cached
by `InternalUpdate` (at `Initialize` and `StepFinalize` only).
-/

open Classical Filter Topology

noncomputable section

namespace Frydom.Waves
open Real Frydom.Geom

/-- `FrAiryIrregularOptimWaveField`: the irregular field plus its caches `c_cosTheta`, `c_sinTheta`, `c_AExpJphi`, `c_expJwt`
(FrAiryIrregularOptimWaveField.h). -/
structure AiryOptim where
  base : Airy
  cosTheta : ℕ → ℝ
  sinTheta : ℕ → ℝ
  aExpJphi : ℕ → ℕ → ℂ
  expJwt : ℕ → ℂ

namespace AiryOptim

/-- `GetComplexElevation` (FrAiryIrregularOptimWaveField.cpp:20-52). -/
def complexElevation (f : AiryOptim) (x y : ℝ) (fc : FC) (idir ifreq : ℕ) : ℂ :=
  let y := nwuSign fc * y
  let kdir := x * f.cosTheta idir + y * f.sinTheta idir
  Complex.exp (Complex.I * (f.base.k ifreq : ℂ) * (kdir : ℂ)) * f.expJwt ifreq * f.aExpJphi idir ifreq *
    (nwuSign fc : ℂ) * (f.base.ramp : ℂ)

/-- `GetElevation` (inherited, virtual call of `GetComplexElevation`; FrAiryIrregularWaveField.cpp:404-415). -/
def elevation (f : AiryOptim) (x y : ℝ) (fc : FC) : ℝ :=
  ∑ i ∈ Finset.range f.base.nbDir, ∑ j ∈ Finset.range f.base.nbFreq, (f.complexElevation x y fc i j).im

/-- Stretching factors: the stretching object queries this (optimised) field. -/
def evalV (f : AiryOptim) (x y z k : ℝ) : ℝ := eval5 f.base.kind f.base.infV (f.elevation x y .NWU) z k f.base.depth
/-- Stretching factors, z-derivative. -/
def evalDZV (f : AiryOptim) (x y z k : ℝ) : ℝ := evalDZ5 f.base.kind f.base.infV (f.elevation x y .NWU) z k f.base.depth

/-- `GetComplexVelocity` (FrAiryIrregularOptimWaveField.cpp:54-90). -/
def complexVelocity (f : AiryOptim) (x y z : ℝ) (fc : FC) (ifreq : ℕ) : ℂ × ℂ × ℂ :=
  let y := nwuSign fc * y
  let z := nwuSign fc * z
  let ki := f.base.k ifreq
  let wi := f.base.freq ifreq
  let Stretching := f.evalV x y z ki
  let StretchingDZ := f.evalDZV x y z ki
  (∑ i ∈ Finset.range f.base.nbDir,
      (f.cosTheta i : ℂ) * (wi : ℂ) * f.complexElevation x y fc i ifreq * (Stretching : ℂ) * (nwuSign fc : ℂ),
   ∑ i ∈ Finset.range f.base.nbDir, (f.sinTheta i : ℂ) * (wi : ℂ) * f.complexElevation x y fc i ifreq * (Stretching : ℂ),
   ∑ i ∈ Finset.range f.base.nbDir,
      -Complex.I / (ki : ℂ) * (wi : ℂ) * f.complexElevation x y fc i ifreq * (StretchingDZ : ℂ))

/-- `GetVelocity` (inherited). -/
def velocity (f : AiryOptim) (x y z : ℝ) (fc : FC) : V3 :=
  ⟨∑ j ∈ Finset.range f.base.nbFreq, (f.complexVelocity x y z fc j).1.im,
   ∑ j ∈ Finset.range f.base.nbFreq, (f.complexVelocity x y z fc j).2.1.im,
   ∑ j ∈ Finset.range f.base.nbFreq, (f.complexVelocity x y z fc j).2.2.im⟩

/-- `GetAcceleration` (inherited). -/
def acceleration (f : AiryOptim) (x y z : ℝ) (fc : FC) : V3 :=
  ⟨∑ j ∈ Finset.range f.base.nbFreq, (-Complex.I * (f.base.freq j : ℂ) * (f.complexVelocity x y z fc j).1).im,
   ∑ j ∈ Finset.range f.base.nbFreq, (-Complex.I * (f.base.freq j : ℂ) * (f.complexVelocity x y z fc j).2.1).im,
   ∑ j ∈ Finset.range f.base.nbFreq, (-Complex.I * (f.base.freq j : ℂ) * (f.complexVelocity x y z fc j).2.2).im⟩

/-- `GetPressure` (inherited and not virtualised: uses `c_amplitude`, the phases and the current time, not the caches;
FrAiryIrregularWaveField.cpp:460-501) — except for the stretching, which queries the optimised elevation. -/
def pressure (f : AiryOptim) (x y z : ℝ) (fc : FC) : ℝ :=
  (∑ j ∈ Finset.range f.base.nbFreq, ∑ i ∈ Finset.range f.base.nbDir,
    f.evalV x (nwuSign fc * y) z (f.base.k j) * (if f.base.inf then 1 else tanh (f.base.k j * f.base.depth)) *
      (f.base.complexElevation x y fc i j).im) * f.base.density * f.base.gravity

/-- `InternalUpdate` (FrAiryIrregularOptimWaveField.cpp:129-140). -/
def internalUpdate (f : AiryOptim) : AiryOptim :=
  { f with expJwt := fun j => Complex.exp (-Complex.I * (f.base.freq j : ℂ) * (f.base.time : ℂ)) }

/-- The part of `Initialize` after `FrAiryIrregularWaveField::Initialize()` (FrAiryIrregularOptimWaveField.cpp:92-122);
`spectrumAmp` is `m_waveSpectrum->GetWaveAmplitudes(m_waveFrequencies, m_waveDirections)`. -/
def initCaches (f : AiryOptim) (spectrumAmp : ℕ → ℕ → ℝ) : AiryOptim :=
  internalUpdate
    { f with
      cosTheta := fun i => cos (f.base.dir i)
      sinTheta := fun i => sin (f.base.dir i)
      aExpJphi := fun i j => (spectrumAmp i j : ℂ) * Complex.exp (Complex.I * (f.base.phase i j : ℂ)) }

/-- `Update(time)` (FrWaveField.cpp:140-146, not overridden). -/
def update (f : AiryOptim) (rampAt : Option (ℝ → ℝ)) (oceanDepth t : ℝ) : AiryOptim :=
  { f with base := f.base.update rampAt oceanDepth t }

/-- `StepFinalize()` (FrAiryIrregularOptimWaveField.cpp:124-127). -/
def stepFinalize (f : AiryOptim) : AiryOptim := f.internalUpdate

end AiryOptim

/-- What happens to a wave field during a simulation: the solver updates it (possibly several times per step, at any time), and
finalises the steps. -/
inductive SimOp
  | update (t : ℝ)
  | stepFinalize

/-- Run of the optimised field. -/
def AiryOptim.run (r : Option (ℝ → ℝ)) (depth : ℝ) : List SimOp → AiryOptim → AiryOptim
  | [], f => f
  | .update t :: l, f => run r depth l (f.update r depth t)
  | .stepFinalize :: l, f => run r depth l f.stepFinalize

/-- Run of the plain field (its `StepFinalize` does nothing: FrWaveField.cpp:68-69). -/
def Airy.run (r : Option (ℝ → ℝ)) (depth : ℝ) : List SimOp → Airy → Airy
  | [], f => f
  | .update t :: l, f => run r depth l (f.update r depth t)
  | .stepFinalize :: l, f => run r depth l f

/-- Time of the last finalised step (or of the initialisation), given the time of the last update. -/
def lastFinal : List SimOp → (now last : ℝ) → ℝ
  | [], _, last => last
  | .update t :: l, _, last => lastFinal l t last
  | .stepFinalize :: l, now, _ => lastFinal l now now

/-- The plain field observed at another time (same ramp, depth and data). -/
def Airy.atTime (f : Airy) (t : ℝ) : Airy := { f with time := t }

namespace AiryOptim

/-- The caches are those of the base field at time `s`. -/
structure Cached (f : AiryOptim) (s : ℝ) : Prop where
  cosT : ∀ i, f.cosTheta i = cos (f.base.dir i)
  sinT : ∀ i, f.sinTheta i = sin (f.base.dir i)
  aexp : ∀ i j, f.aExpJphi i j = (f.base.amp i j : ℂ) * Complex.exp (Complex.I * (f.base.phase i j : ℂ))
  ejwt : ∀ j, f.expJwt j = Complex.exp (-Complex.I * (f.base.freq j : ℂ) * (s : ℂ))

variable {f : AiryOptim} {s : ℝ}

theorem Cached.ce (h : f.Cached s) (x y : ℝ) (fc : FC) (i j : ℕ) :
    f.complexElevation x y fc i j = (f.base.atTime s).complexElevation x y fc i j := by
  simp only [complexElevation, h.cosT, h.sinT, h.aexp, h.ejwt, Airy.complexElevation, Airy.atTime]
  have : Complex.exp (Complex.I *
      ((f.base.k j * (x * cos (f.base.dir i) + nwuSign fc * y * sin (f.base.dir i)) - f.base.freq j * s + f.base.phase i j : ℝ) : ℂ)) =
      Complex.exp (Complex.I * (f.base.k j : ℂ) * ((x * cos (f.base.dir i) + nwuSign fc * y * sin (f.base.dir i) : ℝ) : ℂ)) *
      Complex.exp (-Complex.I * (f.base.freq j : ℂ) * (s : ℂ)) * Complex.exp (Complex.I * (f.base.phase i j : ℂ)) := by
    rw [← Complex.exp_add, ← Complex.exp_add]
    congr 1
    push_cast
    ring
  rw [this]; ring

theorem Cached.elev (h : f.Cached s) (x y : ℝ) (fc : FC) : f.elevation x y fc = (f.base.atTime s).elevation x y fc := by
  simp only [elevation, Airy.elevation, h.ce]; rfl

theorem Cached.cv (h : f.Cached s) (x y z : ℝ) (fc : FC) (j : ℕ) :
    f.complexVelocity x y z fc j = (f.base.atTime s).complexVelocity x y z fc j := by
  simp only [complexVelocity, Airy.complexVelocity, evalV, evalDZV, Airy.evalV, Airy.evalDZV, h.ce, h.elev, h.cosT, h.sinT]
  rfl

theorem Cached.vel (h : f.Cached s) (x y z : ℝ) (fc : FC) :
    f.velocity x y z fc = (f.base.atTime s).velocity x y z fc := by
  simp only [velocity, Airy.velocity, h.cv]; rfl
theorem Cached.acc (h : f.Cached s) (x y z : ℝ) (fc : FC) :
    f.acceleration x y z fc = (f.base.atTime s).acceleration x y z fc := by
  simp only [acceleration, Airy.acceleration, h.cv]; rfl

theorem Cached.upd (h : f.Cached s) (r : Option (ℝ → ℝ)) (d t : ℝ) : (f.update r d t).Cached s :=
  ⟨h.cosT, h.sinT, h.aexp, h.ejwt⟩
theorem Cached.fin (h : f.Cached s) : f.stepFinalize.Cached f.base.time := ⟨h.cosT, h.sinT, h.aexp, fun _ => rfl⟩

theorem run_base (r : Option (ℝ → ℝ)) (d : ℝ) (l : List SimOp) : ∀ f : AiryOptim, (f.run r d l).base = f.base.run r d l := by
  induction l with
  | nil => intro f; rfl
  | cons o l ih => intro f; cases o <;> exact ih _

theorem run_cached (r : Option (ℝ → ℝ)) (d : ℝ) (l : List SimOp) :
    ∀ (f : AiryOptim) (s : ℝ), f.Cached s → (f.run r d l).Cached (lastFinal l f.base.time s) := by
  induction l with
  | nil => intro f s h; exact h
  | cons o l ih =>
    intro f s h
    cases o with
    | update t => exact ih _ s (h.upd r d t)
    | stepFinalize => exact ih _ _ h.fin

end AiryOptim

/-- **C37, irregular field.** Over any simulation history (updates and step finalisations in any order) after an initialisation
with the amplitudes of the field, the optimised irregular field reports exactly the elevation, velocity and acceleration of the
plain field with the same data, taken at the time of the last finalised step. -/
theorem C37_irregular_partial (f : AiryOptim) (r : Option (ℝ → ℝ)) (d : ℝ) (l : List SimOp) (x y z : ℝ) (fc : FC) :
    let o := (f.initCaches f.base.amp).run r d l
    let p := (f.base.run r d l).atTime (lastFinal l f.base.time f.base.time)
    o.elevation x y fc = p.elevation x y fc ∧ o.velocity x y z fc = p.velocity x y z fc ∧
      o.acceleration x y z fc = p.acceleration x y z fc := by
  intro o p
  have h0 : (f.initCaches f.base.amp).Cached f.base.time := ⟨fun _ => rfl, fun _ => rfl, fun _ _ => rfl, fun _ => rfl⟩
  have h := AiryOptim.run_cached r d l _ _ h0
  have hb := AiryOptim.run_base r d l (f.initCaches f.base.amp)
  have e : (f.initCaches f.base.amp).base = f.base := rfl
  rw [e] at hb h
  refine ⟨?_, ?_, ?_⟩
  · rw [h.elev, hb]
  · rw [h.vel, hb]
  · rw [h.acc, hb]

/-- **C37, synchronised.** In particular, when the step has been finalised since the last update, the two fields report the same
elevation, velocity, acceleration and pressure. -/
theorem C37_irregular_synchronised (f : AiryOptim) (r : Option (ℝ → ℝ)) (d : ℝ) (l : List SimOp) (x y z : ℝ) (fc : FC) :
    let o := (f.initCaches f.base.amp).run r d (l ++ [.stepFinalize])
    let p := f.base.run r d (l ++ [.stepFinalize])
    o.elevation x y fc = p.elevation x y fc ∧ o.velocity x y z fc = p.velocity x y z fc ∧
      o.acceleration x y z fc = p.acceleration x y z fc ∧ o.pressure x y z fc = p.pressure x y z fc := by
  intro o p
  have key : ∀ (l : List SimOp) (g : Airy) (s : ℝ),
      lastFinal (l ++ [.stepFinalize]) g.time s = (g.run r d (l ++ [.stepFinalize])).time := by
    intro l
    induction l with
    | nil => intro g s; rfl
    | cons a l ih =>
      intro g s
      cases a with
      | update t => exact ih (g.update r d t) s
      | stepFinalize => exact ih g g.time
  have h := C37_irregular_partial f r d (l ++ [.stepFinalize]) x y z fc
  have hb := AiryOptim.run_base r d (l ++ [.stepFinalize]) (f.initCaches f.base.amp)
  have e : (f.initCaches f.base.amp).base = f.base := rfl
  rw [e] at hb
  have hat : p.atTime p.time = p := rfl
  simp only [key] at h
  refine ⟨h.1, h.2.1, h.2.2, ?_⟩
  have he : ∀ x y, o.elevation x y .NWU = p.elevation x y .NWU := by
    intro x y
    have := (C37_irregular_partial f r d (l ++ [.stepFinalize]) x y z .NWU).1
    simp only [key] at this
    exact this
  simp only [AiryOptim.pressure, Airy.pressure, AiryOptim.evalV, Airy.evalV, he]
  simp only [show o.base = p from hb]

/-! ## Regular optimised field -/

/-- `FrAiryRegularOptimWaveField`: the regular field plus `c_expJwt`, `c_cosTheta`, `c_sinTheta`
(FrAiryRegularOptimWaveField.h). -/
structure RegularOptim where
  base : Regular
  expJwt : ℂ
  cosTheta : ℝ
  sinTheta : ℝ

namespace RegularOptim

/-- `GetComplexElevation` (FrAiryRegularOptimWaveField.cpp:37-48). -/
def complexElevation (f : RegularOptim) (x y : ℝ) (fc : FC) : ℂ :=
  let y := nwuSign fc * y
  let kdir := x * f.cosTheta + y * f.sinTheta
  f.expJwt * Complex.exp (Complex.I * (f.base.k : ℂ) * (kdir : ℂ)) * (nwuSign fc : ℂ) * (f.base.ramp : ℂ)
/-- `GetElevation` (inherited). -/
def elevation (f : RegularOptim) (x y : ℝ) (fc : FC) : ℝ := (f.complexElevation x y fc).im
/-- Stretching factors. -/
def evalV (f : RegularOptim) (x y z k : ℝ) : ℝ := eval5 f.base.kind f.base.infV (f.elevation x y .NWU) z k f.base.depth
/-- Stretching factors, z-derivative. -/
def evalDZV (f : RegularOptim) (x y z k : ℝ) : ℝ := evalDZ5 f.base.kind f.base.infV (f.elevation x y .NWU) z k f.base.depth
/-- `GetComplexVelocity` (FrAiryRegularOptimWaveField.cpp:50-68). -/
def complexVelocity (f : RegularOptim) (x y z : ℝ) (fc : FC) : ℂ × ℂ × ℂ :=
  let y := nwuSign fc * y
  let z := nwuSign fc * z
  let ce := f.complexElevation x y fc
  let Vtemp := (f.base.omega : ℂ) * ce * (f.evalV x y z f.base.k : ℂ)
  ((f.cosTheta : ℂ) * Vtemp * (nwuSign fc : ℂ), (f.sinTheta : ℂ) * Vtemp,
    -Complex.I * (f.base.omega : ℂ) / (f.base.k : ℂ) * ce * (f.evalDZV x y z f.base.k : ℂ))
/-- `GetVelocity` (inherited). -/
def velocity (f : RegularOptim) (x y z : ℝ) (fc : FC) : V3 :=
  let v := f.complexVelocity x y z fc
  ⟨v.1.im, v.2.1.im, v.2.2.im⟩
/-- `GetAcceleration` (inherited). -/
def acceleration (f : RegularOptim) (x y z : ℝ) (fc : FC) : V3 :=
  let v := f.complexVelocity x y z fc
  ⟨(-Complex.I * (f.base.omega : ℂ) * v.1).im, (-Complex.I * (f.base.omega : ℂ) * v.2.1).im,
    (-Complex.I * (f.base.omega : ℂ) * v.2.2).im⟩
/-- `GetPressure` (inherited; calls the virtual `GetElevation`). -/
def pressure (f : RegularOptim) (x y z : ℝ) (fc : FC) : ℝ :=
  if f.base.inf then f.base.density * f.base.gravity * f.elevation x y fc * f.evalV x y z f.base.k
  else f.base.density * f.base.gravity * f.elevation x y fc * f.evalV x y z f.base.k * tanh (f.base.k * f.base.depth)
/-- `InternalUpdate` (FrAiryRegularOptimWaveField.cpp:18-22). -/
def internalUpdate (f : RegularOptim) : RegularOptim :=
  { f with
    expJwt := (f.base.height : ℂ) * Complex.exp (-Complex.I * (f.base.omega : ℂ) * (f.base.time : ℂ))
    cosTheta := cos f.base.dirAngle
    sinTheta := sin f.base.dirAngle }

/-- **C37, regular field**: right after `Initialize` or `StepFinalize`, the optimised regular field reports the elevation,
velocity, acceleration and pressure of the plain one; after any later `Update`s it reports the elevation, velocity and
acceleration of the plain one at the time of that `Initialize` or `StepFinalize`. -/
theorem C37_regular (f : RegularOptim) (r : Option (ℝ → ℝ)) (d : ℝ) (ts : List ℝ) (x y z : ℝ) (fc : FC) :
    let o := ts.foldl (fun g t => { g with base := g.base.update r d t }) f.internalUpdate
    let p := { ts.foldl (fun g t => g.update r d t) f.base with time := f.base.time }
    o.elevation x y fc = p.elevation x y fc ∧ o.velocity x y z fc = p.velocity x y z fc ∧
      o.acceleration x y z fc = p.acceleration x y z fc ∧ o.pressure x y z fc = p.pressure x y z fc := by
  have key : ∀ (ts : List ℝ) (g : RegularOptim),
      let o := ts.foldl (fun (g : RegularOptim) t => { g with base := g.base.update r d t }) g
      o.base = ts.foldl (fun g t => g.update r d t) g.base ∧ o.expJwt = g.expJwt ∧ o.cosTheta = g.cosTheta ∧
        o.sinTheta = g.sinTheta ∧ o.base.height = g.base.height ∧ o.base.omega = g.base.omega ∧
        o.base.dirAngle = g.base.dirAngle := by
    intro ts
    induction ts with
    | nil => intro g; exact ⟨rfl, rfl, rfl, rfl, rfl, rfl, rfl⟩
    | cons t ts ih => intro g; exact ih _
  intro o p
  obtain ⟨h1, h2, h3, h4, h5, h6, h7⟩ := key ts f.internalUpdate
  have hb : f.internalUpdate.base = f.base := rfl
  rw [hb] at h1 h5 h6 h7
  have hp : p = { o.base with time := f.base.time } := by rw [show o.base = _ from h1]
  have ce : ∀ y fc, o.complexElevation x y fc = p.complexElevation x y fc := by
    intro y fc
    have e1 : o.expJwt = _ := h2
    have e2 : o.cosTheta = _ := h3
    have e3 : o.sinTheta = _ := h4
    have e5 : o.base.height = _ := h5
    have e6 : o.base.omega = _ := h6
    have e7 : o.base.dirAngle = _ := h7
    simp only [complexElevation, Regular.complexElevation, hp, e1, e2, e3, e5, e6, e7, internalUpdate]
    have : Complex.exp (Complex.I * ((o.base.k * (x * cos f.base.dirAngle + nwuSign fc * y * sin f.base.dirAngle) -
        f.base.omega * f.base.time : ℝ) : ℂ)) = Complex.exp (-Complex.I * (f.base.omega : ℂ) * (f.base.time : ℂ)) *
        Complex.exp (Complex.I * (o.base.k : ℂ) *
          ((x * cos f.base.dirAngle + nwuSign fc * y * sin f.base.dirAngle : ℝ) : ℂ)) := by
      rw [← Complex.exp_add]
      congr 1
      push_cast
      ring
    rw [this]; ring
  have el : ∀ y fc, o.elevation x y fc = p.elevation x y fc := fun y fc => by
    simp only [elevation, Regular.elevation, ce]
  have hc : o.cosTheta = cos p.dirAngle := by rw [hp]; exact h3.trans (by rw [show o.base.dirAngle = _ from h7]; rfl)
  have hs : o.sinTheta = sin p.dirAngle := by rw [hp]; exact h4.trans (by rw [show o.base.dirAngle = _ from h7]; rfl)
  have cv : o.complexVelocity x y z fc = p.complexVelocity x y z fc := by
    simp only [complexVelocity, Regular.complexVelocity, evalV, evalDZV, Regular.evalV, Regular.evalDZV, ce, el, hc, hs]
    simp only [hp]
  refine ⟨el _ _, ?_, ?_, ?_⟩
  · simp only [velocity, Regular.velocity, cv]
  · simp only [acceleration, Regular.acceleration, cv]
    simp only [hp]
  · simp only [pressure, Regular.pressure, evalV, Regular.evalV, el]
    simp only [hp]

end RegularOptim

/-- **C37 fails between an update and the end of the step**: after `Update(π/2)` a unit wave of frequency 1 at the origin is
at its trough, and the plain field says so; the optimised one still reports the elevation of time 0. -/
theorem C37_stale_counterexample :
    let f : Regular := ⟨1, 1, 1, 0, 0, 1, 0, 1, 1, true, true, .none⟩
    let o : RegularOptim := (RegularOptim.mk f 0 0 0).internalUpdate
    let o' : RegularOptim := { o with base := o.base.update none 0 (π / 2) }
    (f.update none 0 (π / 2)).elevation 0 0 .NWU = -1 ∧ o'.elevation 0 0 .NWU = 0 := by
  intro f o o'
  constructor
  · rw [show f.update none 0 (π / 2) = f.update none f.depth (π / 2) from rfl, C35_regular_elevation]
    simp [f]
  · have h := (RegularOptim.C37_regular (RegularOptim.mk f 0 0 0) none 0 [π / 2] 0 0 0 .NWU).1
    refine Eq.trans h ?_
    have : ({ ([π / 2].foldl (fun g t => g.update none 0 t) f) with time := f.time } : Regular) = f.update none f.depth 0 := by
      simp [f, Regular.update]
    refine (congrArg (fun g : Regular => g.elevation 0 0 .NWU) this).trans ?_
    rw [C35_regular_elevation]
    simp [f]

/-- **C37 fails for fields loaded from a file**: the caches take the amplitudes of the spectrum object, whatever the amplitudes
of the field: when the spectrum gives zero (or any other) amplitudes, the elevation reported does not depend on the loaded ones. -/
theorem C37_loaded_counterexample (f : AiryOptim) (amp' : ℕ → ℕ → ℝ) (spectrumAmp : ℕ → ℕ → ℝ) (x y : ℝ) (fc : FC) :
    (f.initCaches spectrumAmp).elevation x y fc =
      ({ f with base := { f.base with amp := amp' } }.initCaches spectrumAmp).elevation x y fc ∧
    (f.initCaches fun _ _ => 0).elevation x y fc = 0 := by
  refine ⟨rfl, ?_⟩
  simp [AiryOptim.elevation, AiryOptim.complexElevation, AiryOptim.initCaches, AiryOptim.internalUpdate]

end Frydom.Waves
