import Verif.Waves.AirySetup
import Verif.Waves.AiryOptim
import Verif.Waves.Amplitudes
import Verif.Waves.Spectrum
import Verif.Seakeeping.Database

/-!
# Setting up an irregular wave field (C165–C168): model

`src/frydom/environment/ocean/freeSurface/waves/airy/FrAiryIrregularWaveField.cpp`, `FrAiryIrregularOptimWaveField.cpp`,
`FrWaveSpectrum.cpp`: the setters in any order, `Initialize`, the random phases, the JSON file.

Simplifications: reals for doubles; `mathutils::linspace` of fewer than two points is not specified (failure `undefined`); the
assertions of the code are failures; a JSON file holds the numbers written exactly; the log messages are left out.
-/

open Classical

noncomputable section

namespace Frydom.Waves
open Real Frydom.Geom Frydom.Seakeeping

/-- How a call may fail to give a field: failed assertion, use of a null pointer, read beyond the end of a vector, `linspace` of
fewer than two points, exception thrown, endless loop. -/
inductive Fail
  | assertion | nullPointer | outOfBounds | undefined | throws | loops
  deriving DecidableEq

/-- The directional models: `FrCos2sDirectionalModel`, `FrTestDirectionalModel` (FrWaveSpectrum.h:76-135). -/
inductive DirModel
  | cos2s (s : ℝ) | test

/-- `Eval` of the directional models (FrWaveSpectrum.cpp:84-86, 105-107). -/
def DirModel.eval : DirModel → ℝ → ℝ → ℝ
  | .cos2s s => cos2sEval s
  | .test => fun _ _ => 1

/-- `WAVE_DIRECTIONAL_MODEL`. -/
inductive DirType
  | none | cos2s | test

/-- The shape of a spectrum. -/
inductive Shape
  | jonswap (gamma : ℝ) | pm | test

/-- `FrWaveSpectrum` (FrWaveSpectrum.h:143-150): shape, `m_significant_height`, `m_peak_frequency`, `m_directional_model` (`none`:
null). Defaults: 3 m, 9 s, no directional model. -/
structure WSpectrum where
  shape : Shape
  hs : ℝ := 3
  wp : ℝ := 2 * π / 9
  dir : Option DirModel := none

/-- `Eval(w)` (FrWaveSpectrum.cpp:340-365, 376-386, 384-386). -/
def WSpectrum.eval (s : WSpectrum) : ℝ → ℝ :=
  match s.shape with
  | .jonswap gamma => jonswap s.hs s.wp gamma
  | .pm => piersonMoskowitz s.hs s.wp
  | .test => fun _ => 1

/-- `GetWaveAmplitudes(waveFrequencies, waveDirections)` (FrWaveSpectrum.cpp:223-256). -/
def WSpectrum.amplitudes (s : WSpectrum) (ws thetas : List ℝ) : Option (List (List ℝ)) :=
  getWaveAmplitudes2 s.eval (s.dir.map DirModel.eval) ws thetas

/-- What a wave field reads from its surroundings: the sea bed, the density of the water, gravity. -/
structure Sea where
  floor : Floor
  density : ℝ
  gravity : ℝ

/-- `FrAiryIrregularWaveField` (FrAiryIrregularWaveField.h:44-66) and the caches of `FrWaveField` (FrWaveField.h:46-55). -/
structure Irr where
  minFreq : ℝ := 0
  maxFreq : ℝ := 0
  nbFreq : ℕ := 40
  meanDir : ℝ := 0
  nbDir : ℕ := 1
  spectrum : WSpectrum := { shape := .jonswap 3.3 }
  dirs : List ℝ := []
  freqs : List ℝ := []
  ks : List ℝ := []
  amp : List (List ℝ) := []
  phases : List (List ℝ) := []
  fromFile : Bool := false
  inf : Bool
  time : ℝ := 0
  ramp : ℝ := 1
  depth : ℝ := 0
  density : ℝ := 0
  gravity : ℝ := 0
  infV : Bool := false
  kind : Kind := .none

namespace Irr

/-- Construction (FrAiryIrregularWaveField.cpp:27-35, FrWaveField.cpp:25-27). -/
def new (sea : Sea) : Irr := { inf := sea.floor.infinite }

/-- `m_waveNumbers` of `SetWaveFrequencies` (FrAiryIrregularWaveField.cpp:53-69). -/
def waveNumbers (f : Irr) (sea : Sea) (freqs : List ℝ) : Option (List ℝ) :=
  if f.inf then some (freqs.map fun freq => freq ^ 2 / sea.gravity)
  else solveDispersionList sea.floor.depth freqs sea.gravity

/-- The amplitudes refreshed when both frequencies and directions are known (FrAiryIrregularWaveField.cpp:70-72, 148-150). -/
def refresh (f : Irr) (known : List ℝ) : Except Fail Irr :=
  if known = [] then .ok f
  else match f.spectrum.amplitudes f.freqs f.dirs with
    | none => .error .outOfBounds
    | some a => .ok { f with amp := a }

/-- `SetWaveFrequencies(minFreq, maxFreq, nbFreq)` (FrAiryIrregularWaveField.cpp:37-77). -/
def setFrequencies (f : Irr) (sea : Sea) (min max : ℝ) (nb : ℕ) : Except Fail Irr :=
  if 0 < min ∧ min ≤ max ∧ nb ≠ 0 ∧ (nb = 1 → min = max) then
    let freqs := if nb = 1 then [min] else linspaceList min max nb
    match f.waveNumbers sea freqs with
    | none => .error .loops
    | some ks => refresh { f with minFreq := min, maxFreq := max, nbFreq := nb, freqs := freqs, ks := ks } f.dirs
  else .error .assertion

/-- `ComputeWaveDirections()` (FrAiryIrregularWaveField.cpp:125-151). `GetDirectionalModel()` is dereferenced without a test. -/
def computeDirections (f : Irr) : Except Fail Irr :=
  match f.spectrum.dir with
  | none => .error .nullPointer
  | some (.cos2s s) =>
    match getDirectionBandwidth (DirModel.eval (.cos2s s)) f.meanDir with
    | .loops => .error .loops
    | .throws => .error .throws
    | .returns (a, b) =>
      if f.nbDir < 2 then .error .undefined
      else refresh { f with dirs := linspaceList a b f.nbDir } f.freqs
  | some .test =>
    if f.nbDir < 2 then .error .undefined
    else refresh { f with dirs := linspaceList f.meanDir (f.meanDir + 0.1) f.nbDir } f.freqs

/-- `SetMeanWaveDirectionAngle` (FrAiryIrregularWaveField.cpp:79-93). -/
def setMeanAngle (f : Irr) (a : ℝ) (unit : AngleUnit) (fc : FC) (dc : DC) : Except Fail Irr :=
  let f := { f with meanDir := setDirectionAngle true a unit fc dc }
  if f.spectrum.dir.isSome then f.computeDirections else .ok f

/-- `SetMeanWaveDirection` (FrAiryIrregularWaveField.cpp:95-100). -/
def setMeanDirection (f : Irr) (ux uy : ℝ) (fc : FC) (dc : DC) : Except Fail Irr := f.setMeanAngle (Complex.arg ⟨ux, uy⟩) .rad fc dc

/-- `SetDirectionalModel` / `SetCos2sDirectionalModel` as called by `SetDirectionalParameters` (FrAiryIrregularWaveField.cpp:106-116,
FrWaveSpectrum.cpp:119-137, 152-155). -/
def dirModelOf (s : ℝ) : DirType → Option DirModel
  | .none => none
  | .test => some .test
  | .cos2s => some (.cos2s s)

/-- `SetDirectionalParameters(nbDir, spreadingFactor, dirType)` (FrAiryIrregularWaveField.cpp:102-123). -/
def setDirectional (f : Irr) (nb : ℕ) (s : ℝ) (type : DirType) : Except Fail Irr :=
  computeDirections { f with nbDir := nb, dirs := [], spectrum := { f.spectrum with dir := dirModelOf s type } }

/-- `SetJonswapWaveSpectrum`, `SetPiersonMoskovitzWaveSpectrum` (FrAiryIrregularWaveField.cpp:162-174) and `SetTestWaveSpectrum`
(176-179): a new spectrum, without directional model; the peak period is given in seconds (FrWaveSpectrum.cpp:112-116). -/
def setSpectrum (f : Irr) (shape : Shape) (hs tp : ℝ) : Irr := { f with spectrum := { shape := shape, hs := hs, wp := 2 * π / tp } }

/-- `GenerateRandomWavePhases` (FrAiryIrregularWaveField.cpp:235-255): the numbers drawn one after the other, direction by direction. -/
def generatePhases (f : Irr) (draw : ℕ → ℝ) : Irr :=
  { f with phases := (List.range f.dirs.length).map fun i => (List.range f.freqs.length).map fun j => draw (i * f.freqs.length + j) }

/-- `SetStretching` (FrAiryIrregularWaveField.cpp:183-219). -/
def setStretching (f : Irr) (t : StretchType) : Irr := { f with kind := t.kind, infV := f.inf }

/-- `FrWaveField::Update(time)` (FrWaveField.cpp:140-146). -/
def update (f : Irr) (rampAt : Option (ℝ → ℝ)) (oceanDepth t : ℝ) : Irr :=
  { f with
    time := t
    ramp := match rampAt with | some r => r t | none => f.ramp
    depth := if f.inf then f.depth else oceanDepth }

/-- `FrWaveField::Initialize()` (FrWaveField.cpp:61-66) and the flag of the stretching (FrAiryIrregularWaveField.cpp:287-288). -/
def baseInit (f : Irr) (sea : Sea) : Irr :=
  { f with
    inf := sea.floor.infinite
    depth := if sea.floor.infinite then f.depth else sea.floor.depth
    density := sea.density
    gravity := sea.gravity
    infV := sea.floor.infinite }

/-- `if (m_waveDirections.empty()) …` (FrAiryIrregularWaveField.cpp:292). -/
def fillDirs (f : Irr) : Irr := if f.dirs = [] then { f with dirs := [f.meanDir] } else f

/-- The frequency band used by `Initialize` (FrAiryIrregularWaveField.cpp:294-296). -/
def band (f : Irr) : Except Fail (ℝ × ℝ) :=
  if f.minFreq = 0 ∧ f.maxFreq = 0 then
    match getFrequencyBandwidth f.spectrum.eval f.spectrum.hs f.spectrum.wp with
    | .loops => .error .loops
    | .throws => .error .throws
    | .returns b => .ok b
  else .ok (f.minFreq, f.maxFreq)

/-- `Initialize()` (FrAiryIrregularWaveField.cpp:281-311); `draw`: the numbers drawn from the random device; `rampAt` as in `update`. -/
def init (f : Irr) (sea : Sea) (rampAt : Option (ℝ → ℝ)) (draw : ℕ → ℝ) : Except Fail Irr :=
  let f := f.baseInit sea
  if f.fromFile then .ok (f.update rampAt sea.floor.depth 0)
  else
    let f := f.fillDirs
    f.band.bind fun b => (f.setFrequencies sea b.1 b.2 f.nbFreq).bind fun f =>
      .ok ((f.generatePhases draw).update rampAt sea.floor.depth 0)

/-- The file of `WriteToJSON` (FrAiryIrregularWaveField.cpp:503-520). -/
structure File where
  freqs : List ℝ
  ks : List ℝ
  dirs : List ℝ
  mean : ℝ
  amp : List (List ℝ)
  phases : List (List ℝ)

/-- `WriteToJSON` (FrAiryIrregularWaveField.cpp:503-520). -/
def write (f : Irr) : File := ⟨f.freqs, f.ks, f.dirs, f.meanDir, f.amp, f.phases⟩

/-- `LoadJSON` (FrAiryIrregularWaveField.cpp:522-549); `front()` and `back()` of an empty vector are undefined. -/
def load (f : Irr) (j : File) : Except Fail Irr :=
  if j.freqs = [] then .error .outOfBounds
  else .ok { f with
    freqs := j.freqs, ks := j.ks, nbFreq := j.freqs.length, minFreq := j.freqs.headD 0, maxFreq := j.freqs.getLastD 0,
    dirs := j.dirs, nbDir := j.dirs.length, meanDir := j.mean, amp := j.amp, phases := j.phases, fromFile := true }

/-- The queries read the vectors at the indices below `m_nbDir`, `m_nbFreq` (FrAiryIrregularWaveField.cpp:330-359): the field as the
queries of `Airy` see it. -/
def view (f : Irr) : Airy where
  nbDir := f.nbDir
  nbFreq := f.nbFreq
  dir i := f.dirs.getD i 0
  freq j := f.freqs.getD j 0
  k j := f.ks.getD j 0
  amp i j := (f.amp.getD i []).getD j 0
  phase i j := (f.phases.getD i []).getD j 0
  time := f.time
  ramp := f.ramp
  depth := f.depth
  density := f.density
  gravity := f.gravity
  inf := f.inf
  infV := f.infV
  kind := f.kind

/-- No query reads a vector beyond its end: every vector has the `m_nbDir`, `m_nbFreq` elements the loops go through. -/
def InBounds (f : Irr) : Prop :=
  f.nbDir ≤ f.dirs.length ∧ f.nbFreq ≤ f.freqs.length ∧ f.nbFreq ≤ f.ks.length ∧
  (∀ i < f.nbDir, ∃ row, f.amp[i]? = some row ∧ f.nbFreq ≤ row.length) ∧
  ∀ i < f.nbDir, ∃ row, f.phases[i]? = some row ∧ f.nbFreq ≤ row.length

end Irr

/-- What a user can call on a field (and on the spectrum it returns) before it is initialised. -/
inductive SetOp
  | frequencies (min max : ℝ) (nb : ℕ)
  | meanAngle (a : ℝ) (unit : AngleUnit) (fc : FC) (dc : DC)
  | meanDirection (ux uy : ℝ) (fc : FC) (dc : DC)
  | directional (nb : ℕ) (s : ℝ) (type : DirType)
  | spectrum (shape : Shape) (hs tp : ℝ)
  | height (hs : ℝ)
  | peak (wp : ℝ)
  | model (d : Option DirModel)
  | stretching (t : StretchType)
  | phases (seed : ℤ)

/-- One call, in the sea as it is at that moment. `height`, `peak`, `model` are `GetWaveSpectrum()->SetHs`, `SetPeakFreq`,
`SetDirectionalModel` / `DirectionalOFF` (FrWaveSpectrum.cpp:118-177); `seeded n` are the numbers drawn from the generator of seed `n`
(FrAiryIrregularWaveField.cpp:228-233). -/
def Irr.apply (seeded : ℤ → ℕ → ℝ) (sea : Sea) : SetOp → Irr → Except Fail Irr
  | .frequencies min max nb, f => f.setFrequencies sea min max nb
  | .meanAngle a unit fc dc, f => f.setMeanAngle a unit fc dc
  | .meanDirection ux uy fc dc, f => f.setMeanDirection ux uy fc dc
  | .directional nb s type, f => f.setDirectional nb s type
  | .spectrum shape hs tp, f => .ok (f.setSpectrum shape hs tp)
  | .height hs, f => .ok { f with spectrum := { f.spectrum with hs := hs } }
  | .peak wp, f => .ok { f with spectrum := { f.spectrum with wp := wp } }
  | .model d, f => .ok { f with spectrum := { f.spectrum with dir := d } }
  | .stretching t, f => .ok (f.setStretching t)
  | .phases seed, f => .ok (f.generatePhases (seeded seed))

/-- A history of calls, each in the sea of its moment; it ends at the first failure. -/
def Irr.run (seeded : ℤ → ℕ → ℝ) : List (Sea × SetOp) → Irr → Except Fail Irr
  | [], f => .ok f
  | (sea, op) :: l, f => (f.apply seeded sea op).bind fun f => run seeded l f

/-- `FrAiryIrregularOptimWaveField`: the same field, and the caches filled by `Initialize` (FrAiryIrregularOptimWaveField.cpp:92-122),
whose amplitudes are asked from the spectrum again. The caches are lists indexed as `AiryOptim` reads them. -/
def Irr.initializeOptim (f : Irr) (sea : Sea) (rampAt : Option (ℝ → ℝ)) (draw : ℕ → ℝ) : Except Fail (Irr × AiryOptim) :=
  (f.init sea rampAt draw).bind fun f =>
    match f.spectrum.amplitudes f.freqs f.dirs with
    | none => .error .outOfBounds
    | some a => .ok (f, AiryOptim.initCaches ⟨f.view, fun _ => 0, fun _ => 0, fun _ _ => 0, fun _ => 0⟩ fun i j => (a.getD i []).getD j 0)

end Frydom.Waves
