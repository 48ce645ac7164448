import Verif.Waves.Stretching
import Verif.Geom.Model
import Mathlib.Analysis.SpecialFunctions.Trigonometric.Deriv

/-!
# Model of the Airy wave fields

`src/frydom/environment/ocean/freeSurface/waves/airy/FrAiry{Regular,Irregular}WaveField.cpp` and `FrWaveField.cpp`.

Vectors indexed by direction and frequency are functions of the indices, together with their sizes `nbDir`, `nbFreq`; every
loop of the code runs over these ranges only. Accumulation loops are finite sums (real/complex addition is associative here).
-/

open Classical Filter Topology

noncomputable section

namespace Frydom.Waves
open Real Frydom.Geom

/-- The data an irregular Airy wave field queries: `m_nbDir`, `m_nbFreq`, `m_waveDirections`, `m_waveFrequencies`,
`m_waveNumbers`, `c_amplitude`, `m_wavePhases`, `c_time`, `c_ramp`, `c_depth`, `c_density`, `c_gravity`, `m_infinite_depth`,
the stretching object and its `c_infinite_depth` (FrWaveField.h:46-55, FrAiryIrregularWaveField.h, FrKinematicStretching.h:46). -/
structure Airy where
  nbDir : ℕ
  nbFreq : ℕ
  dir : ℕ → ℝ
  freq : ℕ → ℝ
  k : ℕ → ℝ
  amp : ℕ → ℕ → ℝ
  phase : ℕ → ℕ → ℝ
  time : ℝ
  ramp : ℝ
  depth : ℝ
  density : ℝ
  gravity : ℝ
  inf : Bool
  infV : Bool
  kind : Kind

/-- `NWUsign` (FrAiryIrregularWaveField.cpp:323-328 and the like). -/
def nwuSign : FC → ℝ
  | .NWU => 1
  | .NED => -1

namespace Airy

/-- `GetComplexElevation(x, y, fc)[idir][ifreq]` (FrAiryIrregularWaveField.cpp:318-365). -/
def complexElevation (f : Airy) (x y : ℝ) (fc : FC) (idir ifreq : ℕ) : ℂ :=
  let y := nwuSign fc * y
  let kdir := x * cos (f.dir idir) + y * sin (f.dir idir)
  f.amp idir ifreq *
    Complex.exp (Complex.I * ((f.k ifreq * kdir - f.freq ifreq * f.time + f.phase idir ifreq : ℝ) : ℂ)) *
    (nwuSign fc : ℂ) * (f.ramp : ℂ)

/-- `GetElevation(x, y, fc)` (FrAiryIrregularWaveField.cpp:404-415). -/
def elevation (f : Airy) (x y : ℝ) (fc : FC) : ℝ :=
  ∑ i ∈ Finset.range f.nbDir, ∑ j ∈ Finset.range f.nbFreq, (f.complexElevation x y fc i j).im

/-- `m_verticalFactor->Eval(x, y, z, k, c_depth)`; the stretching reads the elevation with `GetElevation(x, y, NWU)`
(FrKinematicStretching.cpp:132-141, 176-184, 208-217, 274-283). -/
def evalV (f : Airy) (x y z k : ℝ) : ℝ := eval5 f.kind f.infV (f.elevation x y .NWU) z k f.depth
/-- `m_verticalFactor->EvalDZ(x, y, z, k, c_depth)`. -/
def evalDZV (f : Airy) (x y z k : ℝ) : ℝ := evalDZ5 f.kind f.infV (f.elevation x y .NWU) z k f.depth

/-- `GetComplexVelocity(x, y, z, fc)[ifreq]` (FrAiryIrregularWaveField.cpp:367-402). Note that `y` has already changed sign
when `GetComplexElevation(x, y, fc)` is called (line 377), which changes it again. -/
def complexVelocity (f : Airy) (x y z : ℝ) (fc : FC) (ifreq : ℕ) : ℂ × ℂ × ℂ :=
  let y := nwuSign fc * y
  let z := nwuSign fc * z
  let ki := f.k ifreq
  let wi := f.freq ifreq
  let Stretching := f.evalV x y z ki
  let StretchingDZ := f.evalDZV x y z ki
  (∑ i ∈ Finset.range f.nbDir,
      (cos (f.dir i) : ℂ) * (wi : ℂ) * f.complexElevation x y fc i ifreq * (Stretching : ℂ) * (nwuSign fc : ℂ),
   ∑ i ∈ Finset.range f.nbDir, (sin (f.dir i) : ℂ) * (wi : ℂ) * f.complexElevation x y fc i ifreq * (Stretching : ℂ),
   ∑ i ∈ Finset.range f.nbDir,
      -Complex.I / (ki : ℂ) * (wi : ℂ) * f.complexElevation x y fc i ifreq * (StretchingDZ : ℂ))

/-- `GetVelocity(x, y, z, fc)` (FrAiryIrregularWaveField.cpp:417-426). -/
def velocity (f : Airy) (x y z : ℝ) (fc : FC) : V3 :=
  ⟨∑ j ∈ Finset.range f.nbFreq, (f.complexVelocity x y z fc j).1.im,
   ∑ j ∈ Finset.range f.nbFreq, (f.complexVelocity x y z fc j).2.1.im,
   ∑ j ∈ Finset.range f.nbFreq, (f.complexVelocity x y z fc j).2.2.im⟩

/-- `GetAcceleration(x, y, z, fc)` (FrAiryIrregularWaveField.cpp:428-439). -/
def acceleration (f : Airy) (x y z : ℝ) (fc : FC) : V3 :=
  ⟨∑ j ∈ Finset.range f.nbFreq, (-Complex.I * (f.freq j : ℂ) * (f.complexVelocity x y z fc j).1).im,
   ∑ j ∈ Finset.range f.nbFreq, (-Complex.I * (f.freq j : ℂ) * (f.complexVelocity x y z fc j).2.1).im,
   ∑ j ∈ Finset.range f.nbFreq, (-Complex.I * (f.freq j : ℂ) * (f.complexVelocity x y z fc j).2.2).im⟩

/-- `GetPressure(x, y, z, fc)` (FrAiryIrregularWaveField.cpp:460-501): `z` is not converted. -/
def pressure (f : Airy) (x y z : ℝ) (fc : FC) : ℝ :=
  (∑ j ∈ Finset.range f.nbFreq, ∑ i ∈ Finset.range f.nbDir,
    f.evalV x (nwuSign fc * y) z (f.k j) * (if f.inf then 1 else tanh (f.k j * f.depth)) *
      (f.complexElevation x y fc i j).im) * f.density * f.gravity

/-- `GetVelocity(x, y, z, cutoff, fc)` (FrWaveField.cpp:31-40). -/
def velocityCut (f : Airy) (x y z : ℝ) (cutoff : Bool) (fc : FC) : V3 :=
  if cutoff = true ∧ f.elevation x y fc < z then 0 else f.velocity x y z fc
/-- `GetAcceleration(x, y, z, cutoff, fc)` (FrWaveField.cpp:46-55). -/
def accelerationCut (f : Airy) (x y z : ℝ) (cutoff : Bool) (fc : FC) : V3 :=
  if cutoff = true ∧ f.elevation x y fc < z then 0 else f.acceleration x y z fc

/-- `FrWaveField::Update(time)` (FrWaveField.cpp:140-146); `rampAt` is the value of the active time ramp (`none`: inactive),
`oceanDepth` is `GetOcean()->GetDepth(NWU)`. -/
def update (f : Airy) (rampAt : Option (ℝ → ℝ)) (oceanDepth : ℝ) (t : ℝ) : Airy :=
  { f with
    time := t
    ramp := match rampAt with | some r => r t | none => f.ramp
    depth := if f.inf then f.depth else oceanDepth }

end Airy

/-- The data of a regular Airy wave field (FrAiryRegularWaveField.h:31-39 and FrWaveField.h:46-55). -/
structure Regular where
  height : ℝ
  omega : ℝ
  k : ℝ
  dirAngle : ℝ
  time : ℝ
  ramp : ℝ
  depth : ℝ
  density : ℝ
  gravity : ℝ
  inf : Bool
  infV : Bool
  kind : Kind

namespace Regular

/-- `GetComplexElevation(x, y, fc)[0][0]` (FrAiryRegularWaveField.cpp:122-132). -/
def complexElevation (f : Regular) (x y : ℝ) (fc : FC) : ℂ :=
  let y := nwuSign fc * y
  let kdir := x * cos f.dirAngle + y * sin f.dirAngle
  f.height * Complex.exp (Complex.I * ((f.k * kdir - f.omega * f.time : ℝ) : ℂ)) * (nwuSign fc : ℂ) * (f.ramp : ℂ)

/-- `GetElevation` (FrAiryRegularWaveField.cpp:153-155). -/
def elevation (f : Regular) (x y : ℝ) (fc : FC) : ℝ := (f.complexElevation x y fc).im
/-- Vertical factors, as for the irregular field. -/
def evalV (f : Regular) (x y z k : ℝ) : ℝ := eval5 f.kind f.infV (f.elevation x y .NWU) z k f.depth
/-- Vertical factors, z-derivative. -/
def evalDZV (f : Regular) (x y z k : ℝ) : ℝ := evalDZ5 f.kind f.infV (f.elevation x y .NWU) z k f.depth

/-- `GetComplexVelocity` (FrAiryRegularWaveField.cpp:133-151). -/
def complexVelocity (f : Regular) (x y z : ℝ) (fc : FC) : ℂ × ℂ × ℂ :=
  let y := nwuSign fc * y
  let z := nwuSign fc * z
  let ce := f.complexElevation x y fc
  let Vtemp := (f.omega : ℂ) * ce * (f.evalV x y z f.k : ℂ)
  ((cos f.dirAngle : ℂ) * Vtemp * (nwuSign fc : ℂ), (sin f.dirAngle : ℂ) * Vtemp,
    -Complex.I * (f.omega : ℂ) / (f.k : ℂ) * ce * (f.evalDZV x y z f.k : ℂ))

/-- `GetVelocity` (FrAiryRegularWaveField.cpp:157-160). -/
def velocity (f : Regular) (x y z : ℝ) (fc : FC) : V3 :=
  let v := f.complexVelocity x y z fc
  ⟨v.1.im, v.2.1.im, v.2.2.im⟩
/-- `GetAcceleration` (FrAiryRegularWaveField.cpp:162-167). -/
def acceleration (f : Regular) (x y z : ℝ) (fc : FC) : V3 :=
  let v := f.complexVelocity x y z fc
  ⟨(-Complex.I * (f.omega : ℂ) * v.1).im, (-Complex.I * (f.omega : ℂ) * v.2.1).im, (-Complex.I * (f.omega : ℂ) * v.2.2).im⟩
/-- `GetPressure` (FrAiryRegularWaveField.cpp:171-187): neither `y` nor `z` is converted for the vertical factor. -/
def pressure (f : Regular) (x y z : ℝ) (fc : FC) : ℝ :=
  if f.inf then f.density * f.gravity * f.elevation x y fc * f.evalV x y z f.k
  else f.density * f.gravity * f.elevation x y fc * f.evalV x y z f.k * tanh (f.k * f.depth)

/-- `FrWaveField::Update(time)` (FrWaveField.cpp:140-146). -/
def update (f : Regular) (rampAt : Option (ℝ → ℝ)) (oceanDepth : ℝ) (t : ℝ) : Regular :=
  { f with
    time := t
    ramp := match rampAt with | some r => r t | none => f.ramp
    depth := if f.inf then f.depth else oceanDepth }

/-- The one-component irregular field with the same data (a proof device, not code). -/
def toAiry (f : Regular) : Airy :=
  ⟨1, 1, fun _ => f.dirAngle, fun _ => f.omega, fun _ => f.k, fun _ _ => f.height, fun _ _ => 0, f.time, f.ramp, f.depth,
    f.density, f.gravity, f.inf, f.infV, f.kind⟩

theorem complexElevation_toAiry (f : Regular) (x y : ℝ) (fc : FC) :
    f.toAiry.complexElevation x y fc 0 0 = f.complexElevation x y fc := by
  simp [toAiry, Airy.complexElevation, complexElevation]

theorem elevation_toAiry (f : Regular) (x y : ℝ) (fc : FC) : f.toAiry.elevation x y fc = f.elevation x y fc := by
  have h := complexElevation_toAiry f x y fc
  simp only [Airy.elevation]
  rw [show f.toAiry.nbDir = 1 from rfl, show f.toAiry.nbFreq = 1 from rfl, Finset.sum_range_one, Finset.sum_range_one, h]; rfl

theorem complexVelocity_toAiry (f : Regular) (x y z : ℝ) (fc : FC) :
    f.toAiry.complexVelocity x y z fc 0 = f.complexVelocity x y z fc := by
  simp only [Airy.complexVelocity, complexVelocity, Airy.evalV, Airy.evalDZV, evalV, evalDZV, elevation_toAiry]
  rw [show f.toAiry.nbDir = 1 from rfl]
  simp only [Finset.sum_range_one, complexElevation_toAiry]
  simp only [toAiry, Prod.mk.injEq]
  refine ⟨by ring, by ring, by ring⟩

theorem velocity_toAiry (f : Regular) (x y z : ℝ) (fc : FC) : f.toAiry.velocity x y z fc = f.velocity x y z fc := by
  simp only [Airy.velocity, velocity]
  rw [show f.toAiry.nbFreq = 1 from rfl]
  simp only [Finset.sum_range_one, complexVelocity_toAiry]

theorem acceleration_toAiry (f : Regular) (x y z : ℝ) (fc : FC) :
    f.toAiry.acceleration x y z fc = f.acceleration x y z fc := by
  simp only [Airy.acceleration, acceleration]
  rw [show f.toAiry.nbFreq = 1 from rfl]
  simp only [Finset.sum_range_one, complexVelocity_toAiry]
  rfl

theorem pressure_toAiry_nwu (f : Regular) (x y z : ℝ) : f.toAiry.pressure x y z .NWU = f.pressure x y z .NWU := by
  simp only [Airy.pressure, pressure, Airy.evalV, evalV, elevation_toAiry, nwuSign, one_mul]
  rw [show f.toAiry.nbFreq = 1 from rfl, show f.toAiry.nbDir = 1 from rfl]
  simp only [Finset.sum_range_one, complexElevation_toAiry]
  simp only [toAiry, elevation]
  rcases Bool.eq_false_or_eq_true f.inf with h | h <;> simp only [h, if_true, Bool.false_eq_true, if_false] <;> ring

end Regular

end Frydom.Waves
