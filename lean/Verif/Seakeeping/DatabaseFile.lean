import Verif.Seakeeping.Database
import Verif.Geom.Basic

/-!
# Loading a whole hydrodynamic database (C175)

The constructor `FrHydroDB::FrHydroDB` and its readers (`src/frydom/hydrodynamics/seakeeping/linear/hdb/FrHydroDB.cpp:124-458`), `FrHDF5Reader` (`src/frydom/IO/FrHDF5.cpp:42-242`)
and the setters of `FrBEMBody` (`FrBEMBody.cpp:120-249`).

An HDF5 file is a partial function of absolute paths. External (HDF5): a dataset of another class than the one asked for is taken to be refused, `H5Lexists` tells whether the path is
in the file. Debug build: the assertions of the setters and those of Eigen on sizes end the loading.
-/

open Classical

noncomputable section

namespace Frydom.Seakeeping.H5
open Frydom.Geom (V3)

/-- What is found at a path. Arrays have their dimensions and their values in the order of the file (last index fastest). -/
inductive Node
  | int (n : ℤ)
  | real (x : ℝ)
  | str (s : String)
  | reals (dims : List ℕ) (data : ℕ → ℝ)
  | ints (dims : List ℕ) (data : ℕ → ℤ)
  | group

/-- A file. -/
abbrev File := String → Option Node

/-- How loading fails: nothing of the kind at the path, too many dimensions, an assertion, or reading beyond a vector. -/
inductive Err
  | missing | dims | assertion | memory

/-- An Eigen matrix. -/
structure Mat (α : Type) where
  rows : ℕ
  cols : ℕ
  entry : ℕ → ℕ → α

/-! ## `FrHDF5Reader` -/

/-- The switch on the dimensions and the copy (FrHDF5.cpp:44-86, 110-152). -/
def arrange {α : Type} (dims : List ℕ) (data : ℕ → α) : Except Err (Mat α) :=
  match dims with
  | [] => .ok ⟨0, 0, fun r c => data (r * 0 + c)⟩
  | [n] => .ok ⟨n, 1, fun r c => data (r * 1 + c)⟩
  | [n, m] => .ok ⟨n, m, fun r c => data (r * m + c)⟩
  | _ => .error .dims

/-- `ReadDoubleArray` (FrHDF5.cpp:42-91). -/
def readDoubleArray (f : File) (p : String) : Except Err (Mat ℝ) :=
  match f p with
  | some (.reals d x) => arrange d x
  | _ => .error .missing

/-- `ReadIntArray` (FrHDF5.cpp:108-160). -/
def readIntArray (f : File) (p : String) : Except Err (Mat ℤ) :=
  match f p with
  | some (.ints d x) => arrange d x
  | _ => .error .missing

/-- `ReadDouble` (FrHDF5.cpp:170-177). -/
def readDouble (f : File) (p : String) : Except Err ℝ :=
  match f p with
  | some (.real x) => .ok x
  | some (.int n) => .ok n
  | _ => .error .missing

/-- `ReadInt` (FrHDF5.cpp:179-186). -/
def readInt (f : File) (p : String) : Except Err ℤ :=
  match f p with
  | some (.int n) => .ok n
  | _ => .error .missing

/-- `ReadString` (FrHDF5.cpp:197-207). -/
def readString (f : File) (p : String) : Except Err String :=
  match f p with
  | some (.str s) => .ok s
  | _ => .error .missing

/-- `GroupExist` (FrHDF5.cpp:217-219). -/
def groupExist (f : File) (p : String) : Bool := (f p).isSome

/-- One turn of the loop of `ReadDoubleArraySTD` (FrHDF5.cpp:100-105): `vec` is not emptied between two columns. -/
def stdStep (m : Mat ℝ) (s : List ℝ × List (List ℝ)) (i : ℕ) : List ℝ × List (List ℝ) :=
  let v := s.1 ++ (List.range m.rows).map fun j => m.entry j i
  (v, s.2 ++ [v])

/-- `ReadDoubleArraySTD` (FrHDF5.cpp:93-108). -/
def toStd (m : Mat ℝ) : List (List ℝ) := ((List.range m.cols).foldl (stdStep m) ([], [])).2

/-- `ReadDoubleArraySTD(path)[0]` (FrHydroDB.cpp:423-424, 444-445). -/
def readFirst (f : File) (p : String) : Except Err (List ℝ) :=
  (readDoubleArray f p).bind fun m => match toStd m with
    | v :: _ => .ok v
    | [] => .error .memory

/-! ## Conversions of matrices -/

/-- A `Position` or `Direction` from a dynamic matrix: it must be a column of three (assertion of Eigen). -/
def vec3 (m : Mat ℝ) : Except Err V3 := if m.rows = 3 ∧ m.cols = 1 then .ok ⟨m.entry 0 0, m.entry 1 0, m.entry 2 0⟩ else .error .assertion
/-- A `Vector6d<int>` from a dynamic matrix. -/
def vec6i (m : Mat ℤ) : Except Err (Fin 6 → ℤ) := if m.rows = 6 ∧ m.cols = 1 then .ok (fun k => m.entry k.1 0) else .error .assertion
/-- A `Matrix66` from a dynamic matrix. -/
def mat66 (m : Mat ℝ) : Except Err (Fin 6 → Fin 6 → ℝ) := if m.rows = 6 ∧ m.cols = 6 then .ok (fun i j => m.entry i.1 j.1) else .error .assertion

/-- `SetMask` with its assertion (FrBEMBody.cpp:24-47). -/
def setMask (m : DofMask) (mask : Fin 6 → ℤ) : Except Err DofMask := if ValidMask mask then .ok (m.setMask mask) else .error .assertion

/-! ## Bodies -/

/-- A mode of force or of motion (FrBEMBody.h:30-76). -/
structure Mode where
  angular : Bool
  direction : V3
  /-- set for angular modes only -/
  point : Option V3

/-- What the first loop gives to a `FrBEMBody`. -/
structure Head where
  id : ℕ
  name : String
  position : V3
  forceModes : List Mode
  motionModes : List Mode
  force : DofMask
  motion : DofMask

/-- Path of the group of a body (FrHydroDB.cpp:170-176). -/
def bodyPath (i : ℕ) : String := "/Bodies/Body_" ++ toString i

/-- One mode (FrHydroDB.cpp:250-271, 282-302). -/
def readMode (f : File) (p : String) : Except Err Mode :=
  (readString f (p ++ "/Type")).bind fun t =>
  ((readDoubleArray f (p ++ "/Direction")).bind vec3).bind fun d =>
  if t = "ANGULAR" then ((readDoubleArray f (p ++ "/Point")).bind vec3).bind fun x => .ok ⟨true, d, some x⟩
  else .ok ⟨false, d, none⟩

/-- The loops of `ModeReader` (FrHydroDB.cpp:238-304): the second one also counts to the number of force modes. A negative number is a huge unsigned one. -/
def readModes (f : File) (p : String) : Except Err (List Mode × List Mode) :=
  (readInt f (p ++ "/Modes/NbForceModes")).bind fun n =>
  ((List.range (n % 2 ^ 32).toNat).mapM fun k => readMode f (p ++ "/Modes/ForceModes/Mode_" ++ toString k)).bind fun fm =>
  (readInt f (p ++ "/Modes/NbMotionModes")).bind fun _ =>
  ((List.range (n % 2 ^ 32).toNat).mapM fun k => readMode f (p ++ "/Modes/MotionModes/Mode_" ++ toString k)).bind fun mm =>
  .ok (fm, mm)

/-- The masks (FrHydroDB.cpp:193-198, 232-236). `m0`: what is in memory. -/
def readMasks (f : File) (m0 : DofMask) (p : String) : Except Err (DofMask × DofMask) :=
  if groupExist f (p ++ "/Mask") then
    ((readIntArray f (p ++ "/Mask/ForceMask")).bind vec6i).bind fun a =>
    (setMask m0 a).bind fun fm =>
    ((readIntArray f (p ++ "/Mask/MotionMask")).bind vec6i).bind fun b =>
    (setMask m0 b).bind fun mm => .ok (fm, mm)
  else
    (setMask m0 fun _ => 1).bind fun mm => (setMask m0 fun _ => 1).bind fun fm => .ok (fm, mm)

/-- One turn of the first loop (FrHydroDB.cpp:173-203). `NewBody` numbers the body by the bodies already there. -/
def headStep (f : File) (m0 : DofMask) (l : List Head) (i : ℕ) : Except Err (List Head) :=
  (readString f (bodyPath i ++ "/BodyName")).bind fun name =>
  ((readDoubleArray f (bodyPath i ++ "/BodyPosition")).bind vec3).bind fun pos =>
  (readInt f (bodyPath i ++ "/ID")).bind fun id =>
  if (l.length : ℤ) = id then
    (readModes f (bodyPath i)).bind fun modes =>
    (readMasks f m0 (bodyPath i)).bind fun masks =>
    if modes.1 ≠ [] ∧ modes.2 ≠ [] then .ok (l ++ [⟨l.length, name, pos, modes.1, modes.2, masks.1, masks.2⟩])
    else .error .assertion
  else .error .assertion

/-! ## Couplings -/

/-- `forceMaskMatrix * mat` with the sizes Eigen asks for; `cols`: the size the setter asserts. -/
def maskTimes (F : DofMask) (cols : ℕ) (m : Mat ℝ) : Except Err (Fin 6 → ℕ → ℝ) :=
  if m.rows = F.nb ∧ m.cols = cols then .ok (maskMul F m.entry) else .error .assertion

/-- `SetDiffraction(iangle, forceMaskMatrix * (re + MU_JJ * im))` (FrHydroDB.cpp:321-328, 330-337, FrBEMBody.cpp:216-228). -/
def readComplex (f : File) (F : DofMask) (nFreq : ℕ) (p : String) : Except Err (Fin 6 → ℕ → ℂ) :=
  (readDoubleArray f (p ++ "/RealCoeffs")).bind fun re =>
  (readDoubleArray f (p ++ "/ImagCoeffs")).bind fun im =>
  if re.rows = im.rows ∧ re.cols = im.cols ∧ re.rows = F.nb ∧ re.cols = nFreq then .ok (maskMulC F (complexCoeffs re.entry im.entry)) else .error .assertion

/-- The two kinds of coefficients of one direction (FrHydroDB.cpp:317-338). -/
def readDirection (f : File) (F : DofMask) (nFreq : ℕ) (p : String) (a : ℕ) : Except Err ((Fin 6 → ℕ → ℂ) × (Fin 6 → ℕ → ℂ)) :=
  (readComplex f F nFreq (p ++ "/Excitation/Diffraction" ++ ("/Angle_" ++ toString a))).bind fun d =>
  (readComplex f F nFreq (p ++ "/Excitation/FroudeKrylov/" ++ ("/Angle_" ++ toString a))).bind fun k => .ok (d, k)

/-- The loop over the motions of a body (FrHydroDB.cpp:374-387, 395-409): responses and number of those read. -/
def irfTurn (f : File) (F M : DofMask) (nTime : ℕ) (p : String) (s : List (Fin 6 → ℕ → ℝ) × ℕ) (imotion : Fin 6) : Except Err (List (Fin 6 → ℕ → ℝ) × ℕ) :=
  if M.mask imotion then
    ((readDoubleArray f (p ++ ("/DOF_" ++ toString s.2))).bind (maskTimes F nTime)).bind fun m => .ok (s.1 ++ [m], s.2 + 1)
  else .ok (s.1 ++ [fun _ _ => 0], s.2)

/-- The responses of one body in motion (FrHydroDB.cpp:370-388). -/
def readIrf (f : File) (F M : DofMask) (nTime : ℕ) (p : String) : Except Err (List (Fin 6 → ℕ → ℝ)) :=
  ((List.finRange 6).foldlM (irfTurn f F M nTime p) ([], 0)).bind fun s => .ok s.1

/-- What is kept of the coupling with one body in motion. -/
structure Coupling where
  addedMass : Fin 6 → Fin 6 → ℝ
  irf : List (Fin 6 → ℕ → ℝ)
  irfU : Option (List (Fin 6 → ℕ → ℝ))

/-- Product with the transpose of the motion mask (FrHydroDB.cpp:366-369). -/
def massTimes (F M : DofMask) (m : Mat ℝ) : Except Err (Fin 6 → Fin 6 → ℝ) :=
  if m.rows = F.nb ∧ m.cols = M.nb then .ok (fun i j => ∑ c ∈ Finset.range M.nb, maskMul F m.entry i c * M.matrix j c) else .error .assertion

/-- One turn of the loop of `RadiationReader` (FrHydroDB.cpp:357-411). -/
def readCoupling (f : File) (F M : DofMask) (nTime : ℕ) (p : String) (j : ℕ) : Except Err Coupling :=
  ((readDoubleArray f (p ++ "/Radiation" ++ ("/BodyMotion_" ++ toString j) ++ "/InfiniteAddedMass")).bind (massTimes F M)).bind fun am =>
  (readIrf f F M nTime (p ++ "/Radiation" ++ ("/BodyMotion_" ++ toString j) ++ "/ImpulseResponseFunctionK")).bind fun k =>
  if groupExist f (p ++ "/Radiation" ++ ("/BodyMotion_" ++ toString j) ++ "/ImpulseResponseFunctionKU") then
    (readIrf f F M nTime (p ++ "/Radiation" ++ ("/BodyMotion_" ++ toString j) ++ "/ImpulseResponseFunctionKU")).bind fun ku => .ok ⟨am, k, some ku⟩
  else .ok ⟨am, k, none⟩

/-- The wave drift table of a body: frequencies, then for each mode found its name and its coefficients. -/
structure Drift where
  freqs : List ℝ
  series : List (String × List ℝ)

/-- One mode of `WaveDriftReader` (FrHydroDB.cpp:431-449). -/
def driftStep (f : File) (nDir : ℕ) (p : String) (l : List (String × List ℝ)) (mode : String) : Except Err (List (String × List ℝ)) :=
  if groupExist f (p ++ "/" ++ mode) then
    ((List.range nDir).mapM fun d => readFirst f (p ++ "/" ++ mode ++ "/heading_" ++ toString d ++ "/data")).bind fun cs => .ok (l ++ [(mode, cs.flatten)])
  else .ok l

/-- The modes of the wave drift, in the order of the source (FrHydroDB.cpp:421). -/
def driftModes : List String := ["surge", "sway", "heave", "roll", "pitch", "yaw"]

/-- `WaveDriftReader` (FrHydroDB.cpp:414-450). -/
def readDrift (f : File) (nDir : ℕ) (p : String) : Except Err Drift :=
  (readFirst f (p ++ "/freq")).bind fun fr => (driftModes.foldlM (driftStep f nDir p) []).bind fun l => .ok ⟨fr, l⟩

/-- A body once loaded. -/
structure Loaded where
  head : Head
  diffraction : List (Fin 6 → ℕ → ℂ)
  froudeKrylov : List (Fin 6 → ℕ → ℂ)
  /-- `ComputeExcitation` (FrBEMBody.cpp:236-243) -/
  excitation : List (Fin 6 → ℕ → ℂ)
  coupling : List Coupling
  drift : Option Drift
  /-- heave, roll, pitch; none: never set -/
  stiffness : Option (Fin 3 → Fin 3 → ℝ)

/-- One turn of the second loop (FrHydroDB.cpp:206-229). -/
def finishBody (f : File) (nFreq nDir nTime : ℕ) (heads : List Head) (i : ℕ) (h : Head) : Except Err Loaded :=
  ((List.range nDir).mapM (readDirection f h.force nFreq (bodyPath i))).bind fun dk =>
  (heads.zipIdx.mapM fun hj => readCoupling f h.force hj.1.motion nTime (bodyPath i) hj.2).bind fun rad =>
  (if groupExist f (bodyPath i ++ "/WaveDrift") then (readDrift f nDir (bodyPath i ++ "/WaveDrift")).bind fun d => .ok (some d) else .ok none).bind fun drift =>
  (if groupExist f (bodyPath i ++ "/Hydrostatic") then
    ((readDoubleArray f (bodyPath i ++ "/Hydrostatic" ++ "/StiffnessMatrix")).bind mat66).bind fun k => .ok (some (readStiffness k)) else .ok none).bind fun stiff =>
  .ok ⟨h, dk.map (·.1), dk.map (·.2), dk.map (fun x i c => x.1 i c + x.2 i c), rad, drift, stiff⟩

/-- The database. -/
structure Db where
  gravity : ℝ
  density : ℝ
  length : ℝ
  depth : ℝ
  freq : Grid
  dir : Grid
  time : Grid
  bodies : List Loaded

/-- The conversion of an `int` to `unsigned int`. -/
def unsigned (n : ℤ) : ℕ := (n % 2 ^ 32).toNat

/-- `FrHydroDB::FrHydroDB(h5file)` (FrHydroDB.cpp:124-230). -/
def load (f : File) (m0 : DofMask) : Except Err Db :=
  (readDouble f "/GravityAcc").bind fun g =>
  (readDouble f "/WaterDensity").bind fun rho =>
  (readDouble f "/NormalizationLength").bind fun len =>
  (readDouble f "/WaterDepth").bind fun dep =>
  (readInt f "/NbBody").bind fun nb =>
  (readInt f "/Discretizations/Frequency/NbFrequencies").bind fun nf =>
  (readDouble f "/Discretizations/Frequency/MinFrequency").bind fun f0 =>
  (readDouble f "/Discretizations/Frequency/MaxFrequency").bind fun f1 =>
  (readInt f "/Discretizations/WaveDirections/NbWaveDirections").bind fun nd =>
  (readDouble f "/Discretizations/WaveDirections/MinAngle").bind fun d0 =>
  (readDouble f "/Discretizations/WaveDirections/MaxAngle").bind fun d1 =>
  (readInt f "/Discretizations/Time/NbTimeSample").bind fun nt =>
  (readDouble f "/Discretizations/Time/FinalTime").bind fun t1 =>
  ((List.range (unsigned nb)).foldlM (headStep f m0) []).bind fun heads =>
  (heads.zipIdx.mapM fun hi => finishBody f (unsigned nf) (unsigned nd) (unsigned nt) heads hi.2 hi.1).bind fun bodies =>
  .ok ⟨g, rho, len, dep, ⟨f0, f1, unsigned nf⟩, ⟨d0, d1, unsigned nd⟩, ⟨0, t1, unsigned nt⟩, bodies⟩

/-! ## Specification -/

/-- The array of reals at the path `p` has the value `x` at row `r`, column `c` (a one-dimensional array is a column). -/
def Entry (f : File) (p : String) (r c : ℕ) (x : ℝ) : Prop :=
  ∃ (R C : ℕ) (data : ℕ → ℝ), r < R ∧ c < C ∧
    ((f p = some (.reals [R, C] data) ∧ x = data (r * C + c)) ∨ (C = 1 ∧ f p = some (.reals [R] data) ∧ x = data r))

/-- The three values at the path `p` are the coordinates of `v`. -/
def Triple (f : File) (p : String) (v : V3) : Prop := Entry f p 0 0 v.x ∧ Entry f p 1 0 v.y ∧ Entry f p 2 0 v.z

/-- The mask of the body `i`, of a kind (`ForceMask`, `MotionMask`): the six numbers of the file, or ones if the file has no masks for the body. -/
def MaskIn (f : File) (i : ℕ) (kind : String) (mask : Fin 6 → ℤ) : Prop :=
  (f (bodyPath i ++ "/Mask") = none ∧ ∀ k, mask k = 1) ∨
  (f (bodyPath i ++ "/Mask") ≠ none ∧ ∃ data : ℕ → ℤ, (∀ k, mask k = data k.1) ∧
    (f (bodyPath i ++ "/Mask/" ++ kind) = some (.ints [6] data) ∨ f (bodyPath i ++ "/Mask/" ++ kind) = some (.ints [6, 1] data)))

/-- The two masks of the body `i`. -/
structure Masks (f : File) (i : ℕ) (mf mm : Fin 6 → ℤ) : Prop where
  force : MaskIn f i "ForceMask" mf
  motion : MaskIn f i "MotionMask" mm
  validForce : ValidMask mf
  validMotion : ValidMask mm

/-- The group of the body in motion `j` in the radiation of the body `i`. -/
def radPath (i j : ℕ) : String := bodyPath i ++ "/Radiation" ++ ("/BodyMotion_" ++ toString j)

/-- The mode described at the path `p`. -/
def ModeIn (f : File) (p : String) (m : Mode) : Prop :=
  ∃ t, f (p ++ "/Type") = some (.str t) ∧ (m.angular = true ↔ t = "ANGULAR") ∧ Triple f (p ++ "/Direction") m.direction ∧
    (t = "ANGULAR" → ∃ x, m.point = some x ∧ Triple f (p ++ "/Point") x)

/-- What the file says of the body `i` itself, masks included. -/
structure HeadIn (f : File) (m0 : DofMask) (i : ℕ) (h : Head) : Prop where
  id : h.id = i
  idFile : f (bodyPath i ++ "/ID") = some (.int i)
  name : f (bodyPath i ++ "/BodyName") = some (.str h.name)
  position : Triple f (bodyPath i ++ "/BodyPosition") h.position
  modes : ∃ n, f (bodyPath i ++ "/Modes/NbForceModes") = some (.int n) ∧ h.forceModes.length = unsigned n ∧ h.motionModes.length = unsigned n
  forceModes : ∀ (k : ℕ) (m : Mode), h.forceModes[k]? = some m → ModeIn f (bodyPath i ++ "/Modes/ForceModes/Mode_" ++ toString k) m
  motionModes : ∀ (k : ℕ) (m : Mode), h.motionModes[k]? = some m → ModeIn f (bodyPath i ++ "/Modes/MotionModes/Mode_" ++ toString k) m
  masks : ∃ mf mm, Masks f i mf mm ∧ h.force = m0.setMask mf ∧ h.motion = m0.setMask mm

/-- A list of six responses is what the file says at the path `p`, for the masks `mf` (forces) and `mm` (motions). -/
def IrfIn (f : File) (p : String) (nTime : ℕ) (mf mm : Fin 6 → ℤ) (K : List (Fin 6 → ℕ → ℝ)) : Prop :=
  K.length = 6 ∧ ∀ j : Fin 6, ∃ k, K[j.1]? = some k ∧ ∀ (i : Fin 6) (t : ℕ), t < nTime →
    ((mf i = 1 ∧ mm j = 1) → Entry f (p ++ ("/DOF_" ++ toString (rank mm j))) (rank mf i) t (k i t)) ∧ (¬(mf i = 1 ∧ mm j = 1) → k i t = 0)

/-- The number at a path. -/
def Scalar (f : File) (p : String) (x : ℝ) : Prop := f p = some (.real x) ∨ ∃ n : ℤ, f p = some (.int n) ∧ x = n

/-- The first column of the array at the path `p`. -/
def Column (f : File) (p : String) (l : List ℝ) : Prop :=
  ∃ (R C : ℕ) (data : ℕ → ℝ), l.length = R ∧ 0 < C ∧ (f p = some (.reals [R, C] data) ∨ (C = 1 ∧ f p = some (.reals [R] data))) ∧
    ∀ r, r < R → l[r]? = some (data (r * C))

/-- The wave drift table at the path `p`: the frequencies, and for each mode that is in the file, in the order of the source, the coefficients of all the directions one after the other. -/
structure DriftIn (f : File) (p : String) (nDir : ℕ) (d : Drift) : Prop where
  freqs : Column f (p ++ "/freq") d.freqs
  names : d.series.map (·.1) = driftModes.filter fun m => (f (p ++ "/" ++ m)).isSome
  series : ∀ x ∈ d.series, ∃ cs : List (List ℝ), cs.length = nDir ∧ x.2 = cs.flatten ∧
    ∀ (k : ℕ) (c : List ℝ), cs[k]? = some c → Column f (p ++ "/" ++ x.1 ++ "/heading_" ++ toString k ++ "/data") c

/-- What a loaded body is. -/
structure LoadedIn (f : File) (nFreq nDir nTime nb : ℕ) (i : ℕ) (b : Loaded) : Prop where
  excitation : ∀ mf mm, Masks f i mf mm → b.diffraction.length = nDir ∧ b.froudeKrylov.length = nDir ∧ b.excitation.length = nDir ∧
    ∀ a, a < nDir → ∃ d k e, b.diffraction[a]? = some d ∧ b.froudeKrylov[a]? = some k ∧ b.excitation[a]? = some e ∧ ∀ (dof : Fin 6) (w : ℕ), w < nFreq →
      e dof w = d dof w + k dof w ∧ (mf dof ≠ 1 → d dof w = 0 ∧ k dof w = 0) ∧
      (mf dof = 1 → Entry f (bodyPath i ++ "/Excitation/Diffraction" ++ ("/Angle_" ++ toString a) ++ "/RealCoeffs") (rank mf dof) w (d dof w).re ∧
        Entry f (bodyPath i ++ "/Excitation/Diffraction" ++ ("/Angle_" ++ toString a) ++ "/ImagCoeffs") (rank mf dof) w (d dof w).im ∧
        Entry f (bodyPath i ++ "/Excitation/FroudeKrylov/" ++ ("/Angle_" ++ toString a) ++ "/RealCoeffs") (rank mf dof) w (k dof w).re ∧
        Entry f (bodyPath i ++ "/Excitation/FroudeKrylov/" ++ ("/Angle_" ++ toString a) ++ "/ImagCoeffs") (rank mf dof) w (k dof w).im)
  radiation : b.coupling.length = nb ∧ ∀ j, j < nb → ∀ mf mm mf' mm', Masks f i mf mm → Masks f j mf' mm' → ∃ c, b.coupling[j]? = some c ∧
    (∀ x y : Fin 6, ((mf x = 1 ∧ mm' y = 1) → Entry f (radPath i j ++ "/InfiniteAddedMass") (rank mf x) (rank mm' y) (c.addedMass x y)) ∧
      (¬(mf x = 1 ∧ mm' y = 1) → c.addedMass x y = 0)) ∧
    IrfIn f (radPath i j ++ "/ImpulseResponseFunctionK") nTime mf mm' c.irf ∧
    (c.irfU = none ↔ f (radPath i j ++ "/ImpulseResponseFunctionKU") = none) ∧
    ∀ K, c.irfU = some K → IrfIn f (radPath i j ++ "/ImpulseResponseFunctionKU") nTime mf mm' K
  drift : (b.drift = none ↔ f (bodyPath i ++ "/WaveDrift") = none) ∧ ∀ d, b.drift = some d → DriftIn f (bodyPath i ++ "/WaveDrift") nDir d
  stiffness : (b.stiffness = none ↔ f (bodyPath i ++ "/Hydrostatic") = none) ∧ ∀ K, b.stiffness = some K → ∀ x y : Fin 3,
    Entry f (bodyPath i ++ "/Hydrostatic" ++ "/StiffnessMatrix") (2 + x.1) (2 + y.1) (K x y)

/-- There is an array of reals of `R` rows and `C` columns at the path `p`. -/
def Shape (f : File) (p : String) (R C : ℕ) : Prop := ∃ data, f p = some (.reals [R, C] data) ∨ (C = 1 ∧ f p = some (.reals [R] data))

/-- There is a mode at the path `p`. -/
def ModeThere (f : File) (p : String) : Prop :=
  ∃ t, f (p ++ "/Type") = some (.str t) ∧ Shape f (p ++ "/Direction") 3 1 ∧ (t = "ANGULAR" → Shape f (p ++ "/Point") 3 1)

/-- The number of degrees of freedom kept by a mask. -/
def kept (mask : Fin 6 → ℤ) : ℕ := (activeDofs mask).length

/-- A file that follows the format, with `nb` bodies, `nf` frequencies, `nd` directions and `nt` times: every number, array and group the format asks for is there with its size
(drift, hydrostatics and forward speed responses may be missing), the bodies are numbered in their order, each has at least one force mode and as many motion modes, the masks are of
zeros and ones. -/
structure WellFormed (f : File) (nb nf nd nt : ℕ) (mf mm : ℕ → Fin 6 → ℤ) : Prop where
  small : nb < 2 ^ 32 ∧ nf < 2 ^ 32 ∧ nd < 2 ^ 32 ∧ nt < 2 ^ 32
  counts : f "/NbBody" = some (.int nb) ∧ f "/Discretizations/Frequency/NbFrequencies" = some (.int nf) ∧
    f "/Discretizations/WaveDirections/NbWaveDirections" = some (.int nd) ∧ f "/Discretizations/Time/NbTimeSample" = some (.int nt)
  scalars : ∀ p ∈ ["/GravityAcc", "/WaterDensity", "/NormalizationLength", "/WaterDepth", "/Discretizations/Frequency/MinFrequency", "/Discretizations/Frequency/MaxFrequency",
    "/Discretizations/WaveDirections/MinAngle", "/Discretizations/WaveDirections/MaxAngle", "/Discretizations/Time/FinalTime"], ∃ x, Scalar f p x
  ids : ∀ i, i < nb → f (bodyPath i ++ "/ID") = some (.int i)
  names : ∀ i, i < nb → ∃ s, f (bodyPath i ++ "/BodyName") = some (.str s)
  positions : ∀ i, i < nb → Shape f (bodyPath i ++ "/BodyPosition") 3 1
  modes : ∀ i, i < nb → ∃ n : ℕ, 0 < n ∧ n < 2 ^ 32 ∧ f (bodyPath i ++ "/Modes/NbForceModes") = some (.int n) ∧ f (bodyPath i ++ "/Modes/NbMotionModes") = some (.int n) ∧
    ∀ k, k < n → ModeThere f (bodyPath i ++ "/Modes/ForceModes/Mode_" ++ toString k) ∧ ModeThere f (bodyPath i ++ "/Modes/MotionModes/Mode_" ++ toString k)
  masks : ∀ i, i < nb → Masks f i (mf i) (mm i)
  excitation : ∀ i, i < nb → ∀ a, a < nd → ∀ part ∈ ["/RealCoeffs", "/ImagCoeffs"],
    Shape f (bodyPath i ++ "/Excitation/Diffraction" ++ ("/Angle_" ++ toString a) ++ part) (kept (mf i)) nf ∧
    Shape f (bodyPath i ++ "/Excitation/FroudeKrylov/" ++ ("/Angle_" ++ toString a) ++ part) (kept (mf i)) nf
  addedMass : ∀ i j, i < nb → j < nb → Shape f (radPath i j ++ "/InfiniteAddedMass") (kept (mf i)) (kept (mm j))
  irf : ∀ i j, i < nb → j < nb → ∀ d, d < kept (mm j) → Shape f (radPath i j ++ "/ImpulseResponseFunctionK" ++ ("/DOF_" ++ toString d)) (kept (mf i)) nt
  irfU : ∀ i j, i < nb → j < nb → f (radPath i j ++ "/ImpulseResponseFunctionKU") ≠ none → ∀ d, d < kept (mm j) →
    Shape f (radPath i j ++ "/ImpulseResponseFunctionKU" ++ ("/DOF_" ++ toString d)) (kept (mf i)) nt
  drift : ∀ i, i < nb → f (bodyPath i ++ "/WaveDrift") ≠ none → (∃ n, Shape f (bodyPath i ++ "/WaveDrift" ++ "/freq") n 1) ∧
    ∀ m ∈ ["surge", "sway", "heave", "roll", "pitch", "yaw"], f (bodyPath i ++ "/WaveDrift" ++ "/" ++ m) ≠ none → ∀ k, k < nd →
      ∃ n, Shape f (bodyPath i ++ "/WaveDrift" ++ "/" ++ m ++ "/heading_" ++ toString k ++ "/data") n 1
  stiffness : ∀ i, i < nb → f (bodyPath i ++ "/Hydrostatic") ≠ none → Shape f (bodyPath i ++ "/Hydrostatic" ++ "/StiffnessMatrix") 6 6

/-! ## Lemmas -/

theorem bind_ok {α β : Type} {x : Except Err α} {g : α → Except Err β} {b : β} : x.bind g = .ok b ↔ ∃ a, x = .ok a ∧ g a = .ok b := by
  cases x with
  | error e => simp [Except.bind]
  | ok a => simp [Except.bind]

theorem mapM_ok {α β : Type} (g : α → Except Err β) (l : List α) : ∀ r, l.mapM g = .ok r →
    r.length = l.length ∧ ∀ (k : ℕ) (x : α), l[k]? = some x → ∃ y, r[k]? = some y ∧ g x = .ok y := by
  induction l with
  | nil =>
    intro r h
    rw [List.mapM_nil] at h
    cases h
    simp
  | cons a l ih =>
    intro r h
    rw [List.mapM_cons] at h
    obtain ⟨y, hy, h⟩ := bind_ok.mp h
    obtain ⟨r', hr, h⟩ := bind_ok.mp h
    cases h
    obtain ⟨h1, h2⟩ := ih r' hr
    refine ⟨by simp [h1], ?_⟩
    intro k x hk
    cases k with
    | zero => simp only [List.getElem?_cons_zero, Option.some.injEq] at hk; subst hk; exact ⟨y, by simp, hy⟩
    | succ k =>
      rw [List.getElem?_cons_succ] at hk
      obtain ⟨z, hz, hg⟩ := h2 k x hk
      exact ⟨z, by simpa using hz, hg⟩

theorem mapM_all {α β : Type} (g : α → Except Err β) (l : List α) (h : ∀ x ∈ l, ∃ y, g x = .ok y) : ∃ r, l.mapM g = .ok r := by
  induction l with
  | nil => exact ⟨[], by rw [List.mapM_nil]; rfl⟩
  | cons a l ih =>
    obtain ⟨y, hy⟩ := h a (by simp)
    obtain ⟨r, hr⟩ := ih fun x hx => h x (by simp [hx])
    exact ⟨y :: r, by rw [List.mapM_cons]; exact bind_ok.mpr ⟨y, hy, bind_ok.mpr ⟨r, hr, rfl⟩⟩⟩

theorem read_real {f : File} {p : String} {m : Mat ℝ} (h : readDoubleArray f p = .ok m) (r c : ℕ) (hr : r < m.rows) (hc : c < m.cols) :
    Entry f p r c (m.entry r c) := by
  unfold readDoubleArray at h
  split at h
  · rename_i d x hf
    unfold arrange at h
    split at h
    · cases h; simp at hr
    · rename_i n
      cases h
      have hc' : c = 0 := by simpa using hc
      subst hc'
      exact ⟨n, 1, x, hr, by simp, Or.inr ⟨rfl, hf, by simp⟩⟩
    · cases h
      exact ⟨_, _, x, hr, hc, Or.inl ⟨hf, rfl⟩⟩
    · cases h
  · cases h

theorem read_three {f : File} {p : String} {v : V3} (h : (readDoubleArray f p).bind vec3 = .ok v) : Triple f p v := by
  obtain ⟨m, hm, h⟩ := bind_ok.mp h
  unfold vec3 at h
  split at h
  · rename_i hs
    cases h
    exact ⟨read_real hm 0 0 (by omega) (by omega), read_real hm 1 0 (by omega) (by omega), read_real hm 2 0 (by omega) (by omega)⟩
  · cases h

theorem read_mask {f : File} {p : String} {a : Fin 6 → ℤ} (h : (readIntArray f p).bind vec6i = .ok a) :
    ∃ data : ℕ → ℤ, (∀ k, a k = data k.1) ∧ (f p = some (.ints [6] data) ∨ f p = some (.ints [6, 1] data)) := by
  obtain ⟨m, hm, h⟩ := bind_ok.mp h
  unfold vec6i at h
  split at h
  · rename_i hs
    cases h
    unfold readIntArray at hm
    split at hm
    · rename_i d x hf
      unfold arrange at hm
      split at hm
      · cases hm; simp at hs
      · cases hm
        simp only at hs
        obtain ⟨rfl, -⟩ := hs
        exact ⟨x, fun k => by simp, Or.inl hf⟩
      · cases hm
        simp only at hs
        obtain ⟨rfl, rfl⟩ := hs
        exact ⟨x, fun k => by simp, Or.inr hf⟩
      · cases hm
    · cases hm
  · cases h

theorem setMask_ok {m0 m : DofMask} {a : Fin 6 → ℤ} (h : setMask m0 a = .ok m) : ValidMask a ∧ m = m0.setMask a := by
  unfold setMask at h
  split at h
  · rename_i hv; cases h; exact ⟨hv, rfl⟩
  · cases h

theorem readMasks_ok {f : File} {m0 : DofMask} {i : ℕ} {r : DofMask × DofMask} (h : readMasks f m0 (bodyPath i) = .ok r) :
    ∃ mf mm, Masks f i mf mm ∧ r.1 = m0.setMask mf ∧ r.2 = m0.setMask mm := by
  unfold readMasks at h
  split at h
  · rename_i hg
    have hne : f (bodyPath i ++ "/Mask") ≠ none := by
      unfold groupExist at hg; intro e; rw [e] at hg; simp at hg
    obtain ⟨a, ha, h⟩ := bind_ok.mp h
    obtain ⟨fm, hfm, h⟩ := bind_ok.mp h
    obtain ⟨b, hb, h⟩ := bind_ok.mp h
    obtain ⟨mm, hmm, h⟩ := bind_ok.mp h
    cases h
    obtain ⟨va, rfl⟩ := setMask_ok hfm
    obtain ⟨vb, rfl⟩ := setMask_ok hmm
    have e : ∀ k : String, bodyPath i ++ "/Mask/" ++ k = bodyPath i ++ ("/Mask/" ++ k) := fun k => by rw [String.append_assoc]
    refine ⟨a, b, ⟨Or.inr ⟨hne, ?_⟩, Or.inr ⟨hne, ?_⟩, va, vb⟩, rfl, rfl⟩
    · rw [e]; exact read_mask ha
    · rw [e]; exact read_mask hb
  · rename_i hg
    have hn : f (bodyPath i ++ "/Mask") = none := by
      unfold groupExist at hg; simpa using hg
    obtain ⟨mm, hmm, h⟩ := bind_ok.mp h
    obtain ⟨fm, hfm, h⟩ := bind_ok.mp h
    cases h
    obtain ⟨va, rfl⟩ := setMask_ok hfm
    obtain ⟨vb, rfl⟩ := setMask_ok hmm
    exact ⟨_, _, ⟨Or.inl ⟨hn, fun _ => rfl⟩, Or.inl ⟨hn, fun _ => rfl⟩, va, vb⟩, rfl, rfl⟩

theorem readInt_ok {f : File} {p : String} {n : ℤ} (h : readInt f p = .ok n) : f p = some (.int n) := by
  unfold readInt at h
  split at h
  · rename_i hf; cases h; exact hf
  · cases h

theorem readString_ok {f : File} {p : String} {n : String} (h : readString f p = .ok n) : f p = some (.str n) := by
  unfold readString at h
  split at h
  · rename_i hf; cases h; exact hf
  · cases h

theorem readMode_ok {f : File} {p : String} {m : Mode} (h : readMode f p = .ok m) : ModeIn f p m := by
  unfold readMode at h
  obtain ⟨t, ht, h⟩ := bind_ok.mp h
  obtain ⟨d, hd, h⟩ := bind_ok.mp h
  refine ⟨t, readString_ok ht, ?_⟩
  split at h
  · rename_i ha
    obtain ⟨x, hx, h⟩ := bind_ok.mp h
    cases h
    exact ⟨by simp [ha], read_three hd, fun _ => ⟨x, rfl, read_three hx⟩⟩
  · rename_i ha
    cases h
    exact ⟨by simp [ha], read_three hd, fun e => absurd e ha⟩

theorem range_get {n k : ℕ} (h : k < n) : (List.range n)[k]? = some k := by simp [h]

theorem readModes_ok {f : File} {p : String} {r : List Mode × List Mode} (h : readModes f p = .ok r) :
    (∃ n, f (p ++ "/Modes/NbForceModes") = some (.int n) ∧ r.1.length = unsigned n ∧ r.2.length = unsigned n) ∧
    (∀ (k : ℕ) (m : Mode), r.1[k]? = some m → ModeIn f (p ++ "/Modes/ForceModes/Mode_" ++ toString k) m) ∧
    ∀ (k : ℕ) (m : Mode), r.2[k]? = some m → ModeIn f (p ++ "/Modes/MotionModes/Mode_" ++ toString k) m := by
  unfold readModes at h
  obtain ⟨n, hn, h⟩ := bind_ok.mp h
  obtain ⟨fm, hfm, h⟩ := bind_ok.mp h
  obtain ⟨n', -, h⟩ := bind_ok.mp h
  obtain ⟨mm, hmm, h⟩ := bind_ok.mp h
  cases h
  obtain ⟨l1, g1⟩ := mapM_ok _ _ _ hfm
  obtain ⟨l2, g2⟩ := mapM_ok _ _ _ hmm
  rw [List.length_range] at l1 l2
  refine ⟨⟨n, readInt_ok hn, l1, l2⟩, fun k m hk => ?_, fun k m hk => ?_⟩
  · obtain ⟨hk', -⟩ := List.getElem?_eq_some_iff.mp hk
    obtain ⟨y, hy, hg⟩ := g1 k k (range_get (by rw [← l1]; exact hk'))
    rw [hk] at hy; cases hy
    exact readMode_ok hg
  · obtain ⟨hk', -⟩ := List.getElem?_eq_some_iff.mp hk
    obtain ⟨y, hy, hg⟩ := g2 k k (range_get (by rw [← l2]; exact hk'))
    rw [hk] at hy; cases hy
    exact readMode_ok hg

theorem headStep_ok {f : File} {m0 : DofMask} {l l' : List Head} {i : ℕ} (h : headStep f m0 l i = .ok l') (hi : l.length = i) :
    ∃ hd, l' = l ++ [hd] ∧ HeadIn f m0 i hd ∧ hd.forceModes ≠ [] := by
  unfold headStep at h
  obtain ⟨name, hname, h⟩ := bind_ok.mp h
  obtain ⟨pos, hpos, h⟩ := bind_ok.mp h
  obtain ⟨id, hid, h⟩ := bind_ok.mp h
  split at h
  · rename_i he
    obtain ⟨modes, hmodes, h⟩ := bind_ok.mp h
    obtain ⟨masks, hmasks, h⟩ := bind_ok.mp h
    split at h
    · rename_i hne
      cases h
      obtain ⟨m1, m2, m3⟩ := readModes_ok hmodes
      refine ⟨_, rfl, ⟨hi, ?_, readString_ok hname, read_three hpos, m1, m2, m3, readMasks_ok hmasks⟩, hne.1⟩
      rw [readInt_ok hid, ← he, hi]
    · cases h
  · cases h

theorem heads_ok (f : File) (m0 : DofMask) (n : ℕ) : ∀ r, (List.range n).foldlM (headStep f m0) [] = .ok r →
    r.length = n ∧ ∀ (i : ℕ) (h : Head), r[i]? = some h → HeadIn f m0 i h ∧ h.forceModes ≠ [] := by
  induction n with
  | zero => intro r h; cases h; simp
  | succ n ih =>
    intro r h
    rw [List.range_succ, List.foldlM_append] at h
    obtain ⟨r', hr, h⟩ := bind_ok.mp h
    obtain ⟨h1, h2⟩ := ih r' hr
    rw [List.foldlM_cons] at h
    obtain ⟨r'', hs, h⟩ := bind_ok.mp h
    cases h
    obtain ⟨hd, rfl, hin, hne⟩ := headStep_ok hs h1
    refine ⟨by simp [h1], fun i x hx => ?_⟩
    rcases lt_trichotomy i n with hlt | rfl | hgt
    · rw [List.getElem?_append_left (by omega)] at hx; exact h2 i x hx
    · rw [List.getElem?_append_right (by omega), h1] at hx
      simp only [Nat.sub_self, List.getElem?_cons_zero, Option.some.injEq] at hx
      subst hx; exact ⟨hin, hne⟩
    · rw [List.getElem?_append_right (by omega), h1] at hx
      have : ([hd] : List Head)[i - n]? = none := List.getElem?_eq_none (by simp; omega)
      rw [this] at hx; cases hx

/-- The arrays of responses, as the pure reader of C106 takes them. -/
def irfArrays (f : File) (p : String) (d : ℕ) : ℕ → ℕ → ℝ :=
  match readDoubleArray f (p ++ ("/DOF_" ++ toString d)) with
  | .ok m => m.entry
  | .error _ => fun _ _ => 0

theorem irf_turns (f : File) (F M : DofMask) (nTime : ℕ) (p : String) (l : List (Fin 6)) : ∀ s s', l.foldlM (irfTurn f F M nTime p) s = .ok s' →
    s' = l.foldl (irfStep F M (irfArrays f p)) s ∧ s'.2 = s.2 + (l.filter fun i => M.mask i).length ∧
    ∀ d, s.2 ≤ d → d < s'.2 → ∃ m, readDoubleArray f (p ++ ("/DOF_" ++ toString d)) = .ok m ∧ m.rows = F.nb ∧ m.cols = nTime := by
  induction l with
  | nil => intro s s' h; cases h; exact ⟨rfl, by simp, fun d h1 h2 => by omega⟩
  | cons a l ih =>
    intro s s' h
    rw [List.foldlM_cons] at h
    obtain ⟨t, ht, h⟩ := bind_ok.mp h
    obtain ⟨h1, h2, h3⟩ := ih t s' h
    unfold irfTurn at ht
    split at ht
    · rename_i hm
      obtain ⟨m', hm', ht⟩ := bind_ok.mp ht
      obtain ⟨mt, hmt, hmm⟩ := bind_ok.mp hm'
      unfold maskTimes at hmm
      split at hmm
      · rename_i hsz
        cases hmm
        cases ht
        have e : irfStep F M (irfArrays f p) s a = (s.1 ++ [maskMul F mt.entry], s.2 + 1) := by
          unfold irfStep irfArrays
          rw [if_pos hm, hmt]
        refine ⟨by rw [List.foldl_cons, e]; exact h1, by rw [h2]; simp [hm]; omega, fun d hd hd' => ?_⟩
        rcases Nat.lt_or_ge s.2 d with hlt | hge
        · exact h3 d hlt hd'
        · have : d = s.2 := le_antisymm hge hd
          subst this
          exact ⟨mt, hmt, hsz⟩
      · cases hmm
    · rename_i hm
      cases ht
      have e : irfStep F M (irfArrays f p) s a = (s.1 ++ [fun _ _ => 0], s.2) := by
        unfold irfStep; rw [if_neg hm]
      refine ⟨by rw [List.foldl_cons, e]; exact h1, by rw [h2]; simp [hm], h3⟩

theorem readIrf_ok {f : File} {m0 m1 : DofMask} {nTime : ℕ} {p : String} {mf mm : Fin 6 → ℤ} (hf : ValidMask mf) (hm : ValidMask mm) {K : List (Fin 6 → ℕ → ℝ)}
    (h : readIrf f (m0.setMask mf) (m1.setMask mm) nTime p = .ok K) : IrfIn f p nTime mf mm K := by
  unfold readIrf at h
  obtain ⟨s, hs, h⟩ := bind_ok.mp h
  cases h
  obtain ⟨h1, h2, h3⟩ := irf_turns f _ _ nTime p _ _ _ hs
  have hK : s.1 = readIRF (m0.setMask mf) (m1.setMask mm) (irfArrays f p) := by rw [h1]; rfl
  have hcount : s.2 = (activeDofs mm).length := by
    rw [h2]
    simp only [zero_add, activeDofs, setMask_flag]
  let B : BodyFile := ⟨mf, mm, fun _ _ _ => 0, fun _ _ _ => 0, fun _ _ _ => 0, fun _ _ _ => 0, fun _ _ _ => 0, fun _ _ _ _ => 0, fun _ => none⟩
  have key := fun (i j : Fin 6) (t : ℕ) => C106_radiation B B m0 m1 hf hm 0 i j (irfArrays f p) t
  refine ⟨by rw [hK]; exact (key 0 0 0).2.1, fun j => ?_⟩
  obtain ⟨k, hk, -⟩ := (key 0 j 0).2.2
  refine ⟨k, by rw [hK]; exact hk, fun i t ht => ?_⟩
  obtain ⟨k', hk', hv⟩ := (key i j t).2.2
  have : k' = k := by
    have := hk'.symm.trans hk
    exact Option.some.inj this
  subst this
  have hv' : k' i t = if mf i = 1 ∧ mm j = 1 then irfArrays f p (rank mm j) (rank mf i) t else 0 := hv
  constructor
  · intro ha
    rw [if_pos ha] at hv'
    obtain ⟨m, hmr, hr, hc⟩ := h3 (rank mm j) (Nat.zero_le _) (by rw [hcount]; exact rank_lt mm j ha.2)
    have e : irfArrays f p (rank mm j) = m.entry := by unfold irfArrays; rw [hmr]
    rw [hv', e]
    exact read_real hmr _ _ (by rw [hr, setMask_nb m0 mf hf]; exact rank_lt mf i ha.1) (by rw [hc]; exact ht)
  · intro ha
    rw [hv', if_neg ha]

theorem massTimes_ok {f : File} {m0 m1 : DofMask} {p : String} {mf mm : Fin 6 → ℤ} (hf : ValidMask mf) (hm : ValidMask mm) {A : Fin 6 → Fin 6 → ℝ}
    (h : (readDoubleArray f p).bind (massTimes (m0.setMask mf) (m1.setMask mm)) = .ok A) (i j : Fin 6) :
    ((mf i = 1 ∧ mm j = 1) → Entry f p (rank mf i) (rank mm j) (A i j)) ∧ (¬(mf i = 1 ∧ mm j = 1) → A i j = 0) := by
  obtain ⟨m, hmr, h⟩ := bind_ok.mp h
  unfold massTimes at h
  split at h
  · rename_i hs
    cases h
    let B : BodyFile := ⟨mf, mm, fun _ _ _ => 0, fun _ _ _ => 0, fun _ _ _ => 0, fun _ _ _ => 0, fun _ => m.entry, fun _ _ _ _ => 0, fun _ => none⟩
    have key : (∑ c ∈ Finset.range (m1.setMask mm).nb, maskMul (m0.setMask mf) m.entry i c * (m1.setMask mm).matrix j c) =
        if mf i = 1 ∧ mm j = 1 then m.entry (rank mf i) (rank mm j) else 0 := (C106_radiation B B m0 m1 hf hm 0 i j (fun _ _ _ => 0) 0).1
    constructor
    · intro ha
      show Entry f p _ _ (∑ c ∈ Finset.range (m1.setMask mm).nb, maskMul (m0.setMask mf) m.entry i c * (m1.setMask mm).matrix j c)
      rw [key, if_pos ha]
      exact read_real hmr _ _ (by rw [hs.1, setMask_nb m0 mf hf]; exact rank_lt mf i ha.1) (by rw [hs.2, setMask_nb m1 mm hm]; exact rank_lt mm j ha.2)
    · intro ha
      show (∑ c ∈ Finset.range (m1.setMask mm).nb, maskMul (m0.setMask mf) m.entry i c * (m1.setMask mm).matrix j c) = 0
      rw [key, if_neg ha]
  · cases h

theorem readComplex_ok {f : File} {m0 : DofMask} {nFreq : ℕ} {p : String} {mf : Fin 6 → ℤ} (hf : ValidMask mf) {C : Fin 6 → ℕ → ℂ}
    (h : readComplex f (m0.setMask mf) nFreq p = .ok C) (i : Fin 6) (k : ℕ) (hk : k < nFreq) :
    (mf i = 1 → Entry f (p ++ "/RealCoeffs") (rank mf i) k (C i k).re ∧ Entry f (p ++ "/ImagCoeffs") (rank mf i) k (C i k).im) ∧ (mf i ≠ 1 → C i k = 0) := by
  unfold readComplex at h
  obtain ⟨re, hre, h⟩ := bind_ok.mp h
  obtain ⟨im, him, h⟩ := bind_ok.mp h
  split at h
  · rename_i hs
    cases h
    rw [maskMulC_eq m0 mf hf]
    constructor
    · intro ha
      rw [if_pos ha]
      have hr : rank mf i < re.rows := by rw [hs.2.2.1, setMask_nb m0 mf hf]; exact rank_lt mf i ha
      have h1 := read_real hre (rank mf i) k hr (by omega)
      have h2 := read_real him (rank mf i) k (by omega) (by omega)
      refine ⟨?_, ?_⟩
      · simpa [complexCoeffs] using h1
      · simpa [complexCoeffs] using h2
    · intro ha; rw [if_neg ha]
  · cases h

theorem readDouble_ok {f : File} {p : String} {x : ℝ} (h : readDouble f p = .ok x) : Scalar f p x := by
  unfold readDouble at h
  split at h
  · rename_i hf; cases h; exact Or.inl hf
  · rename_i n hf; cases h; exact Or.inr ⟨n, hf, rfl⟩
  · cases h

theorem maskIn_unique {f : File} {i : ℕ} {k : String} {m m' : Fin 6 → ℤ} (h : MaskIn f i k m) (h' : MaskIn f i k m') : m = m' := by
  rcases h with ⟨h0, h⟩ | ⟨h0, d, h, hd⟩
  · rcases h' with ⟨-, h'⟩ | ⟨h1, -⟩
    · funext x; rw [h, h']
    · exact absurd h0 h1
  · rcases h' with ⟨h1, -⟩ | ⟨-, d', h', hd'⟩
    · exact absurd h1 h0
    · have : d = d' := by
        rcases hd with hd | hd <;> rcases hd' with hd' | hd' <;> rw [hd] at hd' <;> simp at hd' <;> exact hd'
      funext x; rw [h, h', this]

/-- What the columns of `ReadDoubleArraySTD` are. -/
theorem std_fold (m : Mat ℝ) (n : ℕ) :
    (List.range n).foldl (stdStep m) ([], []) =
      (((List.range n).map fun i => (List.range m.rows).map fun j => m.entry j i).flatten,
        (List.range n).map fun k => ((List.range (k + 1)).map fun i => (List.range m.rows).map fun j => m.entry j i).flatten) := by
  induction n with
  | zero => rfl
  | succ n ih =>
    rw [List.range_succ, List.foldl_append, ih]
    simp only [List.foldl_cons, List.foldl_nil, stdStep, List.map_append, List.map_cons, List.map_nil, List.flatten_append, List.flatten_cons, List.flatten_nil,
      List.append_nil]
    congr 2
    rw [List.range_succ (n := n)]
    simp

theorem readFirst_ok {f : File} {p : String} {l : List ℝ} (h : readFirst f p = .ok l) : Column f p l := by
  unfold readFirst at h
  obtain ⟨m, hm, h⟩ := bind_ok.mp h
  unfold toStd at h
  rw [std_fold] at h
  simp only at h
  have key : ∀ (c : ℕ), m.cols = c + 1 → l = (List.range m.rows).map fun j => m.entry j 0 := by
    intro c hc
    rw [hc, List.range_succ_eq_map] at h
    simp only [List.map_cons] at h
    cases h
    simp
  unfold readDoubleArray at hm
  split at hm
  · rename_i d x hf
    unfold arrange at hm
    split at hm
    · cases hm
      simp at h
    · rename_i n
      cases hm
      have e := key 0 rfl
      exact ⟨n, 1, x, by rw [e]; simp, by simp, Or.inr ⟨rfl, hf⟩, fun r hr => by rw [e]; simp [hr]⟩
    · rename_i n c
      cases hm
      rcases c with _ | c
      · simp at h
      · have e := key c rfl
        exact ⟨n, c + 1, x, by rw [e]; simp, by simp, Or.inl hf, fun r hr => by rw [e]; simp [hr]⟩
    · cases hm
  · cases hm

theorem drift_fold (f : File) (nDir : ℕ) (p : String) (l : List String) : ∀ s s', l.foldlM (driftStep f nDir p) s = .ok s' →
    ∃ t, s' = s ++ t ∧ t.map (·.1) = (l.filter fun m => (f (p ++ "/" ++ m)).isSome) ∧
      ∀ x ∈ t, ∃ cs : List (List ℝ), cs.length = nDir ∧ x.2 = cs.flatten ∧
        ∀ (k : ℕ) (c : List ℝ), cs[k]? = some c → Column f (p ++ "/" ++ x.1 ++ "/heading_" ++ toString k ++ "/data") c := by
  induction l with
  | nil => intro s s' h; cases h; exact ⟨[], by simp, rfl, by simp⟩
  | cons a l ih =>
    intro s s' h
    rw [List.foldlM_cons] at h
    obtain ⟨u, hu, h⟩ := bind_ok.mp h
    obtain ⟨t, ht, h1, h2⟩ := ih u s' h
    unfold driftStep at hu
    split at hu
    · rename_i hg
      obtain ⟨cs, hcs, hu⟩ := bind_ok.mp hu
      cases hu
      obtain ⟨hl, hc⟩ := mapM_ok _ _ _ hcs
      rw [List.length_range] at hl
      refine ⟨(a, cs.flatten) :: t, by rw [ht]; simp, ?_, ?_⟩
      · unfold groupExist at hg
        rw [List.filter_cons, if_pos hg, List.map_cons, h1]
      · intro x hx
        rcases List.mem_cons.mp hx with rfl | hx
        · refine ⟨cs, hl, rfl, fun k c hk => ?_⟩
          obtain ⟨hk', -⟩ := List.getElem?_eq_some_iff.mp hk
          obtain ⟨y, hy, hg⟩ := hc k k (range_get (by rw [← hl]; exact hk'))
          rw [hk] at hy; cases hy
          exact readFirst_ok hg
        · exact h2 x hx
    · rename_i hg
      cases hu
      refine ⟨t, ht, ?_, h2⟩
      unfold groupExist at hg
      rw [List.filter_cons, if_neg hg, h1]

theorem readDrift_ok {f : File} {nDir : ℕ} {p : String} {d : Drift} (h : readDrift f nDir p = .ok d) : DriftIn f p nDir d := by
  unfold readDrift at h
  obtain ⟨fr, hfr, h⟩ := bind_ok.mp h
  obtain ⟨l, hl, h⟩ := bind_ok.mp h
  cases h
  obtain ⟨t, rfl, h1, h2⟩ := drift_fold f nDir p _ _ _ hl
  exact ⟨readFirst_ok hfr, by simpa using h1, by simpa using h2⟩

theorem zipIdx_get {α : Type} (l : List α) (i : ℕ) (x : α) (h : l[i]? = some x) : l.zipIdx[i]? = some (x, i) := by
  rw [List.getElem?_zipIdx, h]; simp

theorem finishBody_ok {f : File} {m0 : DofMask} {nFreq nDir nTime : ℕ} {heads : List Head} (hh : ∀ (i : ℕ) (h : Head), heads[i]? = some h → HeadIn f m0 i h)
    {i : ℕ} {h : Head} (hi : heads[i]? = some h) {b : Loaded} (hb : finishBody f nFreq nDir nTime heads i h = .ok b) :
    b.head = h ∧ LoadedIn f nFreq nDir nTime heads.length i b := by
  unfold finishBody at hb
  obtain ⟨dk, hdk, hb⟩ := bind_ok.mp hb
  obtain ⟨rad, hrad, hb⟩ := bind_ok.mp hb
  obtain ⟨drift, hdr, hb⟩ := bind_ok.mp hb
  obtain ⟨stiff, hst, hb⟩ := bind_ok.mp hb
  cases hb
  obtain ⟨mf0, mm0, hmask, hF, hM⟩ := (hh i h hi).masks
  refine ⟨rfl, ?_, ?_, ?_, ?_⟩
  · intro mf mm hm
    have e : mf = mf0 := maskIn_unique hm.force hmask.force
    subst e
    obtain ⟨hl, hg⟩ := mapM_ok _ _ _ hdk
    rw [List.length_range] at hl
    refine ⟨by simp [hl], by simp [hl], by simp [hl], fun a ha => ?_⟩
    obtain ⟨y, hy, hr⟩ := hg a a (range_get ha)
    unfold readDirection at hr
    obtain ⟨d, hd, hr⟩ := bind_ok.mp hr
    obtain ⟨k, hk, hr⟩ := bind_ok.mp hr
    cases hr
    refine ⟨d, k, fun x c => d x c + k x c, by simp [hy], by simp [hy], by simp [hy], fun dof w hw => ⟨rfl, fun hn => ?_, fun hn => ?_⟩⟩
    · rw [hF] at hd hk
      exact ⟨(readComplex_ok hm.validForce hd dof w hw).2 hn, (readComplex_ok hm.validForce hk dof w hw).2 hn⟩
    · rw [hF] at hd hk
      have h1 := (readComplex_ok hm.validForce hd dof w hw).1 hn
      have h2 := (readComplex_ok hm.validForce hk dof w hw).1 hn
      exact ⟨h1.1, h1.2, h2.1, h2.2⟩
  · obtain ⟨hl, hg⟩ := mapM_ok _ _ _ hrad
    rw [List.length_zipIdx] at hl
    refine ⟨hl, fun j hj mf mm mf' mm' hm hm' => ?_⟩
    have e : mf = mf0 := maskIn_unique hm.force hmask.force
    subst e
    have hj' : heads[j]? = some heads[j] := List.getElem?_eq_getElem hj
    obtain ⟨c, hc, hr⟩ := hg j _ (zipIdx_get heads j _ hj')
    obtain ⟨mf1, mm1, hmask1, -, hM1⟩ := (hh j _ hj').masks
    have e1 : mm' = mm1 := maskIn_unique hm'.motion hmask1.motion
    subst e1
    simp only [hM1, hF] at hr
    unfold readCoupling at hr
    obtain ⟨am, ham, hr⟩ := bind_ok.mp hr
    obtain ⟨k, hk, hr⟩ := bind_ok.mp hr
    refine ⟨c, hc, ?_⟩
    split at hr
    · rename_i hgr
      obtain ⟨ku, hku, hr⟩ := bind_ok.mp hr
      cases hr
      refine ⟨fun x y => massTimes_ok hm.validForce hm'.validMotion ham x y, readIrf_ok hm.validForce hm'.validMotion hk, ?_, ?_⟩
      · constructor
        · intro h0; cases h0
        · intro h0; unfold groupExist at hgr; unfold radPath at h0; rw [h0] at hgr; simp at hgr
      · intro K hK; cases hK; exact readIrf_ok hm.validForce hm'.validMotion hku
    · rename_i hgr
      cases hr
      refine ⟨fun x y => massTimes_ok hm.validForce hm'.validMotion ham x y, readIrf_ok hm.validForce hm'.validMotion hk, ?_, ?_⟩
      · constructor
        · intro _; unfold groupExist at hgr; unfold radPath; simpa using hgr
        · intro _; rfl
      · intro K hK; cases hK
  · split at hdr
    · rename_i hgr
      obtain ⟨d, hd, hdr⟩ := bind_ok.mp hdr
      cases hdr
      refine ⟨⟨fun h0 => (by cases h0), fun h0 => ?_⟩, fun d' hd' => by cases hd'; exact readDrift_ok hd⟩
      unfold groupExist at hgr; rw [h0] at hgr; simp at hgr
    · rename_i hgr
      cases hdr
      refine ⟨⟨fun _ => by unfold groupExist at hgr; simpa using hgr, fun _ => rfl⟩, fun d' hd' => by cases hd'⟩
  · split at hst
    · rename_i hgr
      obtain ⟨k, hk, hst⟩ := bind_ok.mp hst
      cases hst
      refine ⟨⟨fun h0 => (by cases h0), fun h0 => ?_⟩, fun K hK x y => ?_⟩
      · unfold groupExist at hgr; rw [h0] at hgr; simp at hgr
      · cases hK
        obtain ⟨m, hm, hk⟩ := bind_ok.mp hk
        unfold mat66 at hk
        split at hk
        · rename_i hs
          cases hk
          exact read_real hm _ _ (by omega) (by omega)
        · cases hk
    · rename_i hgr
      cases hst
      exact ⟨⟨fun _ => by unfold groupExist at hgr; simpa using hgr, fun _ => rfl⟩, fun K hK => by cases hK⟩

/-! ## C175 -/

theorem load_ok {f : File} {m0 : DofMask} {D : Db} (h : load f m0 = .ok D) :
    (Scalar f "/GravityAcc" D.gravity ∧ Scalar f "/WaterDensity" D.density ∧ Scalar f "/NormalizationLength" D.length ∧ Scalar f "/WaterDepth" D.depth) ∧
    (∃ n, f "/Discretizations/Frequency/NbFrequencies" = some (.int n) ∧ D.freq.nx = unsigned n ∧
      Scalar f "/Discretizations/Frequency/MinFrequency" D.freq.xmin ∧ Scalar f "/Discretizations/Frequency/MaxFrequency" D.freq.xmax) ∧
    (∃ n, f "/Discretizations/WaveDirections/NbWaveDirections" = some (.int n) ∧ D.dir.nx = unsigned n ∧
      Scalar f "/Discretizations/WaveDirections/MinAngle" D.dir.xmin ∧ Scalar f "/Discretizations/WaveDirections/MaxAngle" D.dir.xmax) ∧
    (∃ n, f "/Discretizations/Time/NbTimeSample" = some (.int n) ∧ D.time.nx = unsigned n ∧ D.time.xmin = 0 ∧ Scalar f "/Discretizations/Time/FinalTime" D.time.xmax) ∧
    (∃ n, f "/NbBody" = some (.int n) ∧ D.bodies.length = unsigned n) ∧
    ∀ (i : ℕ) (b : Loaded), D.bodies[i]? = some b → HeadIn f m0 i b.head ∧ LoadedIn f D.freq.nx D.dir.nx D.time.nx D.bodies.length i b := by
  unfold load at h
  obtain ⟨g, hg, h⟩ := bind_ok.mp h
  obtain ⟨rho, hrho, h⟩ := bind_ok.mp h
  obtain ⟨len, hlen, h⟩ := bind_ok.mp h
  obtain ⟨dep, hdep, h⟩ := bind_ok.mp h
  obtain ⟨nb, hnb, h⟩ := bind_ok.mp h
  obtain ⟨nf, hnf, h⟩ := bind_ok.mp h
  obtain ⟨f0, hf0, h⟩ := bind_ok.mp h
  obtain ⟨f1, hf1, h⟩ := bind_ok.mp h
  obtain ⟨nd, hnd, h⟩ := bind_ok.mp h
  obtain ⟨d0, hd0, h⟩ := bind_ok.mp h
  obtain ⟨d1, hd1, h⟩ := bind_ok.mp h
  obtain ⟨nt, hnt, h⟩ := bind_ok.mp h
  obtain ⟨t1, ht1, h⟩ := bind_ok.mp h
  obtain ⟨heads, hheads, h⟩ := bind_ok.mp h
  obtain ⟨bodies, hbodies, h⟩ := bind_ok.mp h
  cases h
  obtain ⟨hl, hin⟩ := heads_ok f m0 _ _ hheads
  obtain ⟨hbl, hbg⟩ := mapM_ok _ _ _ hbodies
  rw [List.length_zipIdx] at hbl
  refine ⟨⟨readDouble_ok hg, readDouble_ok hrho, readDouble_ok hlen, readDouble_ok hdep⟩, ⟨nf, readInt_ok hnf, rfl, readDouble_ok hf0, readDouble_ok hf1⟩,
    ⟨nd, readInt_ok hnd, rfl, readDouble_ok hd0, readDouble_ok hd1⟩, ⟨nt, readInt_ok hnt, rfl, rfl, readDouble_ok ht1⟩, ⟨nb, readInt_ok hnb, by rw [← hl, ← hbl]⟩, fun i b hb => ?_⟩
  have hi : i < heads.length := by
    obtain ⟨hi, -⟩ := List.getElem?_eq_some_iff.mp hb
    rw [← hbl]; exact hi
  have hi' : heads[i]? = some heads[i] := List.getElem?_eq_getElem hi
  obtain ⟨b', hb', hr⟩ := hbg i _ (zipIdx_get heads i _ hi')
  have hb2 : some b = some b' := hb.symm.trans hb'
  cases hb2
  obtain ⟨e, hload⟩ := finishBody_ok (fun i h hh => (hin i h hh).1) hi' hr
  refine ⟨by rw [e]; exact (hin i _ hi').1, ?_⟩
  show LoadedIn f _ _ _ bodies.length i b
  rw [hbl]
  exact hload

/-! ### A file that follows the format is loaded -/

theorem shape_read {f : File} {p : String} {R C : ℕ} (h : Shape f p R C) : ∃ m, readDoubleArray f p = .ok m ∧ m.rows = R ∧ m.cols = C := by
  obtain ⟨d, h | ⟨rfl, h⟩⟩ := h
  · exact ⟨_, by unfold readDoubleArray; rw [h]; rfl, rfl, rfl⟩
  · exact ⟨_, by unfold readDoubleArray; rw [h]; rfl, rfl, rfl⟩

theorem int_read {f : File} {p : String} {n : ℤ} (h : f p = some (.int n)) : readInt f p = .ok n := by
  unfold readInt; rw [h]

theorem str_read {f : File} {p : String} {n : String} (h : f p = some (.str n)) : readString f p = .ok n := by
  unfold readString; rw [h]

theorem scalar_read {f : File} {p : String} {x : ℝ} (h : Scalar f p x) : readDouble f p = .ok x := by
  unfold readDouble
  rcases h with h | ⟨n, h, rfl⟩ <;> rw [h]

theorem shape_vec3 {f : File} {p : String} (h : Shape f p 3 1) : ∃ v, (readDoubleArray f p).bind vec3 = .ok v := by
  obtain ⟨m, hm, hr, hc⟩ := shape_read h
  exact ⟨_, bind_ok.mpr ⟨m, hm, by unfold vec3; rw [if_pos ⟨hr, hc⟩]⟩⟩

theorem mode_read {f : File} {p : String} (h : ModeThere f p) : ∃ m, readMode f p = .ok m := by
  obtain ⟨t, ht, hd, hx⟩ := h
  obtain ⟨v, hv⟩ := shape_vec3 hd
  by_cases ha : t = "ANGULAR"
  · obtain ⟨x, hx⟩ := shape_vec3 (hx ha)
    exact ⟨_, bind_ok.mpr ⟨t, str_read ht, bind_ok.mpr ⟨v, hv, by rw [if_pos ha]; exact bind_ok.mpr ⟨x, hx, rfl⟩⟩⟩⟩
  · exact ⟨_, bind_ok.mpr ⟨t, str_read ht, bind_ok.mpr ⟨v, hv, by rw [if_neg ha]⟩⟩⟩

theorem unsigned_small {n : ℕ} (h : n < 2 ^ 32) : unsigned (n : ℤ) = n := by
  unfold unsigned
  rw [Int.emod_eq_of_lt (by omega) (by exact_mod_cast h)]
  simp

theorem modes_read {f : File} {p : String} {n : ℕ} (hn : n < 2 ^ 32) (h1 : f (p ++ "/Modes/NbForceModes") = some (.int n))
    (h2 : f (p ++ "/Modes/NbMotionModes") = some (.int n))
    (h : ∀ k, k < n → ModeThere f (p ++ "/Modes/ForceModes/Mode_" ++ toString k) ∧ ModeThere f (p ++ "/Modes/MotionModes/Mode_" ++ toString k)) :
    ∃ r, readModes f p = .ok r ∧ r.1.length = n ∧ r.2.length = n := by
  have hu : ((n : ℤ) % 2 ^ 32).toNat = n := unsigned_small hn
  obtain ⟨fm, hfm⟩ := mapM_all (fun k : ℕ => readMode f (p ++ "/Modes/ForceModes/Mode_" ++ toString k)) (List.range n) fun k hk => mode_read (h k (List.mem_range.mp hk)).1
  obtain ⟨mm, hmm⟩ := mapM_all (fun k : ℕ => readMode f (p ++ "/Modes/MotionModes/Mode_" ++ toString k)) (List.range n) fun k hk => mode_read (h k (List.mem_range.mp hk)).2
  refine ⟨(fm, mm), ?_, ?_, ?_⟩
  · refine bind_ok.mpr ⟨n, int_read h1, bind_ok.mpr ⟨fm, by rw [hu]; exact hfm, bind_ok.mpr ⟨n, int_read h2, bind_ok.mpr ⟨mm, by rw [hu]; exact hmm, rfl⟩⟩⟩⟩
  · have := (mapM_ok _ _ _ hfm).1; simpa using this
  · have := (mapM_ok _ _ _ hmm).1; simpa using this

theorem mask_read {f : File} {p : String} {a : Fin 6 → ℤ} {data : ℕ → ℤ} (ha : ∀ k, a k = data k.1)
    (h : f p = some (.ints [6] data) ∨ f p = some (.ints [6, 1] data)) : (readIntArray f p).bind vec6i = .ok a := by
  have e : a = fun k => data k.1 := funext ha
  rcases h with h | h
  · refine bind_ok.mpr ⟨_, by unfold readIntArray; rw [h]; rfl, ?_⟩
    unfold vec6i
    rw [if_pos (by simp), e]
    simp
  · refine bind_ok.mpr ⟨_, by unfold readIntArray; rw [h]; rfl, ?_⟩
    unfold vec6i
    rw [if_pos (by simp), e]
    simp

theorem masks_read {f : File} {m0 : DofMask} {i : ℕ} {mf mm : Fin 6 → ℤ} (h : Masks f i mf mm) :
    readMasks f m0 (bodyPath i) = .ok (m0.setMask mf, m0.setMask mm) := by
  have e : ∀ k : String, bodyPath i ++ "/Mask/" ++ k = bodyPath i ++ ("/Mask/" ++ k) := fun k => by rw [String.append_assoc]
  have set : ∀ a : Fin 6 → ℤ, ValidMask a → setMask m0 a = .ok (m0.setMask a) := fun a ha => by unfold setMask; rw [if_pos ha]
  unfold readMasks groupExist
  rcases h.force with ⟨h0, h1⟩ | ⟨h0, d, h1, hd⟩
  · rcases h.motion with ⟨-, h2⟩ | ⟨h2, -⟩
    · have e1 : mf = fun _ => 1 := funext h1
      have e2 : mm = fun _ => 1 := funext h2
      have hv := h.validForce
      rw [e1] at hv ⊢
      rw [e2, h0, if_neg (by simp)]
      exact bind_ok.mpr ⟨_, set _ hv, bind_ok.mpr ⟨_, set _ hv, rfl⟩⟩
    · exact absurd h0 h2
  · rcases h.motion with ⟨h2, -⟩ | ⟨-, d', h2, hd'⟩
    · exact absurd h2 h0
    · rw [if_pos (by rw [Option.isSome_iff_ne_none]; exact h0)]
      rw [e] at hd hd'
      exact bind_ok.mpr ⟨_, mask_read h1 hd, bind_ok.mpr ⟨_, set _ h.validForce, bind_ok.mpr ⟨_, mask_read h2 hd', bind_ok.mpr ⟨_, set _ h.validMotion, rfl⟩⟩⟩⟩

theorem heads_read {f : File} {m0 : DofMask} {nb nf nd nt : ℕ} {mf mm : ℕ → Fin 6 → ℤ} (W : WellFormed f nb nf nd nt mf mm) (n : ℕ) : n ≤ nb →
    ∃ r, (List.range n).foldlM (headStep f m0) [] = .ok r := by
  induction n with
  | zero => intro _; exact ⟨[], rfl⟩
  | succ n ih =>
    intro hn
    obtain ⟨r, hr⟩ := ih (by omega)
    have hlen := (heads_ok f m0 n r hr).1
    rw [List.range_succ, List.foldlM_append]
    have hi : n < nb := by omega
    obtain ⟨s, hs⟩ := W.names n hi
    obtain ⟨v, hv⟩ := shape_vec3 (W.positions n hi)
    obtain ⟨k, hk0, hk, h1, h2, h3⟩ := W.modes n hi
    obtain ⟨md, hmd, l1, l2⟩ := modes_read hk h1 h2 h3
    have hne : md.1 ≠ [] ∧ md.2 ≠ [] := by
      constructor
      · intro e; rw [e] at l1; simp at l1; omega
      · intro e; rw [e] at l2; simp at l2; omega
    have step : ∃ r', headStep f m0 r n = .ok r' := by
      refine ⟨r ++ [⟨r.length, s, v, md.1, md.2, m0.setMask (mf n), m0.setMask (mm n)⟩], bind_ok.mpr ⟨s, str_read hs, bind_ok.mpr ⟨v, hv, bind_ok.mpr ⟨n, int_read (W.ids n hi), ?_⟩⟩⟩⟩
      rw [if_pos (by rw [hlen])]
      exact bind_ok.mpr ⟨md, hmd, bind_ok.mpr ⟨_, masks_read (W.masks n hi), by rw [if_pos hne]⟩⟩
    obtain ⟨r', hr'⟩ := step
    exact ⟨r', bind_ok.mpr ⟨r, hr, by rw [List.foldlM_cons]; exact bind_ok.mpr ⟨r', hr', rfl⟩⟩⟩

theorem irf_read {f : File} {F M : DofMask} {nTime : ℕ} {p : String} {R : ℕ} (hF : F.nb = R) (l : List (Fin 6)) :
    ∀ s : List (Fin 6 → ℕ → ℝ) × ℕ, (∀ d, d < s.2 + (l.filter fun i => M.mask i).length → Shape f (p ++ ("/DOF_" ++ toString d)) R nTime) →
      ∃ s', l.foldlM (irfTurn f F M nTime p) s = .ok s' := by
  induction l with
  | nil => intro s _; exact ⟨s, rfl⟩
  | cons a l ih =>
    intro s h
    rw [List.foldlM_cons]
    by_cases ha : M.mask a = true
    · obtain ⟨m, hm, hr, hc⟩ := shape_read (h s.2 (by simp [ha]))
      have ht : irfTurn f F M nTime p s a = .ok (s.1 ++ [maskMul F m.entry], s.2 + 1) := by
        unfold irfTurn
        rw [if_pos ha]
        refine bind_ok.mpr ⟨_, bind_ok.mpr ⟨m, hm, ?_⟩, rfl⟩
        unfold maskTimes
        rw [if_pos ⟨by rw [hr, hF], hc⟩]
      obtain ⟨s', hs'⟩ := ih (s.1 ++ [maskMul F m.entry], s.2 + 1) fun d hd => h d (by
        rw [List.filter_cons, if_pos ha, List.length_cons]
        have : d < s.2 + 1 + (l.filter fun i => M.mask i).length := hd
        omega)
      exact ⟨s', bind_ok.mpr ⟨_, ht, hs'⟩⟩
    · have ht : irfTurn f F M nTime p s a = .ok (s.1 ++ [fun _ _ => 0], s.2) := by
        unfold irfTurn; rw [if_neg ha]
      obtain ⟨s', hs'⟩ := ih (s.1 ++ [fun _ _ => 0], s.2) fun d hd => h d (by
        rw [List.filter_cons, if_neg ha]
        exact hd)
      exact ⟨s', bind_ok.mpr ⟨_, ht, hs'⟩⟩

theorem readIrf_all {f : File} {m0 m1 : DofMask} {nTime : ℕ} {p : String} {mf mm : Fin 6 → ℤ} (hf : ValidMask mf)
    (h : ∀ d, d < kept mm → Shape f (p ++ ("/DOF_" ++ toString d)) (kept mf) nTime) : ∃ K, readIrf f (m0.setMask mf) (m1.setMask mm) nTime p = .ok K := by
  obtain ⟨s, hs⟩ := irf_read (f := f) (F := m0.setMask mf) (M := m1.setMask mm) (nTime := nTime) (p := p) (R := kept mf) (setMask_nb m0 mf hf) (List.finRange 6) ([], 0) (by
    intro d hd
    refine h d ?_
    simpa only [zero_add, activeDofs, setMask_flag, kept] using hd)
  exact ⟨s.1, bind_ok.mpr ⟨s, hs, rfl⟩⟩

theorem coupling_read {f : File} {m0 : DofMask} {nb nf nd nt : ℕ} {mf mm : ℕ → Fin 6 → ℤ} (W : WellFormed f nb nf nd nt mf mm) {i j : ℕ} (hi : i < nb) (hj : j < nb) :
    ∃ c, readCoupling f (m0.setMask (mf i)) (m0.setMask (mm j)) nt (bodyPath i) j = .ok c := by
  have vf := (W.masks i hi).validForce
  have vm := (W.masks j hj).validMotion
  obtain ⟨m, hm, hr, hc⟩ := shape_read (W.addedMass i j hi hj)
  obtain ⟨K, hK⟩ := readIrf_all (m0 := m0) (m1 := m0) (mm := mm j) vf (W.irf i j hi hj)
  have ham : ∃ a, (readDoubleArray f (radPath i j ++ "/InfiniteAddedMass")).bind (massTimes (m0.setMask (mf i)) (m0.setMask (mm j))) = .ok a := by
    have hs : m.rows = (m0.setMask (mf i)).nb ∧ m.cols = (m0.setMask (mm j)).nb :=
      ⟨by rw [hr, setMask_nb m0 _ vf]; rfl, by rw [hc, setMask_nb m0 _ vm]; rfl⟩
    exact ⟨_, bind_ok.mpr ⟨m, hm, if_pos hs⟩⟩
  obtain ⟨a, ham⟩ := ham
  by_cases hg : groupExist f (bodyPath i ++ "/Radiation" ++ ("/BodyMotion_" ++ toString j) ++ "/ImpulseResponseFunctionKU") = true
  · have hne : f (radPath i j ++ "/ImpulseResponseFunctionKU") ≠ none := by
      unfold groupExist at hg; rw [Option.isSome_iff_ne_none] at hg; exact hg
    obtain ⟨KU, hKU⟩ := readIrf_all (m0 := m0) (m1 := m0) (mm := mm j) vf (W.irfU i j hi hj hne)
    exact ⟨_, bind_ok.mpr ⟨a, ham, bind_ok.mpr ⟨K, hK, (if_pos hg).trans (bind_ok.mpr ⟨KU, hKU, rfl⟩)⟩⟩⟩
  · exact ⟨_, bind_ok.mpr ⟨a, ham, bind_ok.mpr ⟨K, hK, if_neg hg⟩⟩⟩

theorem complex_read {f : File} {m0 : DofMask} {nf : ℕ} {p : String} {mf : Fin 6 → ℤ} (hf : ValidMask mf) (h1 : Shape f (p ++ "/RealCoeffs") (kept mf) nf)
    (h2 : Shape f (p ++ "/ImagCoeffs") (kept mf) nf) : ∃ C, readComplex f (m0.setMask mf) nf p = .ok C := by
  obtain ⟨re, hre, r1, c1⟩ := shape_read h1
  obtain ⟨im, him, r2, c2⟩ := shape_read h2
  have hs : re.rows = im.rows ∧ re.cols = im.cols ∧ re.rows = (m0.setMask mf).nb ∧ re.cols = nf :=
    ⟨by rw [r1, r2], by rw [c1, c2], by rw [r1, setMask_nb m0 mf hf]; rfl, c1⟩
  exact ⟨_, bind_ok.mpr ⟨re, hre, bind_ok.mpr ⟨im, him, if_pos hs⟩⟩⟩

theorem first_read {f : File} {p : String} {n : ℕ} (h : Shape f p n 1) : ∃ l, readFirst f p = .ok l := by
  obtain ⟨m, hm, -, hc⟩ := shape_read h
  refine ⟨(List.range m.rows).map fun j => m.entry j 0, bind_ok.mpr ⟨m, hm, ?_⟩⟩
  · have : toStd m = [(List.range m.rows).map fun j => m.entry j 0] := by
      unfold toStd; rw [hc, std_fold]; simp
    rw [this]

theorem drift_read {f : File} {nd : ℕ} {p : String} (l : List String)
    (h : ∀ m ∈ l, f (p ++ "/" ++ m) ≠ none → ∀ k, k < nd → ∃ n, Shape f (p ++ "/" ++ m ++ "/heading_" ++ toString k ++ "/data") n 1) :
    ∀ s, ∃ s', l.foldlM (driftStep f nd p) s = .ok s' := by
  induction l with
  | nil => intro s; exact ⟨s, rfl⟩
  | cons a l ih =>
    intro s
    rw [List.foldlM_cons]
    have step : ∃ t, driftStep f nd p s a = .ok t := by
      unfold driftStep
      by_cases hg : groupExist f (p ++ "/" ++ a) = true
      · rw [if_pos hg]
        have hne : f (p ++ "/" ++ a) ≠ none := by unfold groupExist at hg; rw [Option.isSome_iff_ne_none] at hg; exact hg
        obtain ⟨cs, hcs⟩ := mapM_all (fun d : ℕ => readFirst f (p ++ "/" ++ a ++ "/heading_" ++ toString d ++ "/data")) (List.range nd)
          fun k hk => by obtain ⟨n, hn⟩ := h a (by simp) hne k (List.mem_range.mp hk); exact first_read hn
        exact ⟨_, bind_ok.mpr ⟨cs, hcs, rfl⟩⟩
      · rw [if_neg hg]; exact ⟨s, rfl⟩
    obtain ⟨t, ht⟩ := step
    obtain ⟨s', hs'⟩ := ih (fun m hm => h m (by simp [hm])) t
    exact ⟨s', bind_ok.mpr ⟨t, ht, hs'⟩⟩

theorem body_read {f : File} {m0 : DofMask} {nb nf nd nt : ℕ} {mf mm : ℕ → Fin 6 → ℤ} (W : WellFormed f nb nf nd nt mf mm) {heads : List Head} (hl : heads.length = nb)
    (hh : ∀ (i : ℕ) (h : Head), heads[i]? = some h → HeadIn f m0 i h) {i : ℕ} {h : Head} (hi : heads[i]? = some h) :
    ∃ b, finishBody f nf nd nt heads i h = .ok b := by
  have masks : ∀ (j : ℕ) (x : Head), heads[j]? = some x → j < nb ∧ x.force = m0.setMask (mf j) ∧ x.motion = m0.setMask (mm j) := by
    intro j x hx
    obtain ⟨hj, -⟩ := List.getElem?_eq_some_iff.mp hx
    have hj : j < nb := by omega
    obtain ⟨a, b, hab, h1, h2⟩ := (hh j x hx).masks
    refine ⟨hj, ?_, ?_⟩
    · rw [h1, maskIn_unique hab.force (W.masks j hj).force]
    · rw [h2, maskIn_unique hab.motion (W.masks j hj).motion]
  obtain ⟨hib, hF, -⟩ := masks i h hi
  have vf := (W.masks i hib).validForce
  obtain ⟨dk, hdk⟩ := mapM_all (readDirection f h.force nf (bodyPath i)) (List.range nd) fun a ha => by
    have hx := W.excitation i hib a (List.mem_range.mp ha)
    rw [hF]
    obtain ⟨d, hd⟩ := complex_read (m0 := m0) vf (hx "/RealCoeffs" (by simp)).1 (hx "/ImagCoeffs" (by simp)).1
    obtain ⟨k, hk⟩ := complex_read (m0 := m0) vf (hx "/RealCoeffs" (by simp)).2 (hx "/ImagCoeffs" (by simp)).2
    exact ⟨_, bind_ok.mpr ⟨d, hd, bind_ok.mpr ⟨k, hk, rfl⟩⟩⟩
  obtain ⟨rad, hrad⟩ := mapM_all (fun hj : Head × ℕ => readCoupling f h.force hj.1.motion nt (bodyPath i) hj.2) heads.zipIdx fun hj hm => by
    obtain ⟨x, j⟩ := hj
    have hx : heads[j]? = some x := by
      have := (List.mem_zipIdx_iff_getElem?).mp hm
      exact this
    obtain ⟨hjb, -, hM⟩ := masks j x hx
    simp only [hF, hM]
    exact coupling_read W hib hjb
  have hdrift : ∃ d, (if groupExist f (bodyPath i ++ "/WaveDrift") then (readDrift f nd (bodyPath i ++ "/WaveDrift")).bind fun d => .ok (some d) else .ok none) = Except.ok (ε := Err) d := by
    by_cases hg : groupExist f (bodyPath i ++ "/WaveDrift") = true
    · rw [if_pos hg]
      have hne : f (bodyPath i ++ "/WaveDrift") ≠ none := by unfold groupExist at hg; rw [Option.isSome_iff_ne_none] at hg; exact hg
      obtain ⟨⟨n, hn⟩, hm⟩ := W.drift i hib hne
      obtain ⟨fr, hfr⟩ := first_read hn
      obtain ⟨s, hs⟩ := drift_read driftModes hm []
      exact ⟨_, bind_ok.mpr ⟨⟨fr, s⟩, bind_ok.mpr ⟨fr, hfr, bind_ok.mpr ⟨s, hs, rfl⟩⟩, rfl⟩⟩
    · rw [if_neg hg]; exact ⟨none, rfl⟩
  have hstiff : ∃ d, (if groupExist f (bodyPath i ++ "/Hydrostatic") then
      ((readDoubleArray f (bodyPath i ++ "/Hydrostatic" ++ "/StiffnessMatrix")).bind mat66).bind fun k => .ok (some (readStiffness k)) else .ok none) = Except.ok (ε := Err) d := by
    by_cases hg : groupExist f (bodyPath i ++ "/Hydrostatic") = true
    · rw [if_pos hg]
      have hne : f (bodyPath i ++ "/Hydrostatic") ≠ none := by unfold groupExist at hg; rw [Option.isSome_iff_ne_none] at hg; exact hg
      obtain ⟨m, hm, hr, hc⟩ := shape_read (W.stiffness i hib hne)
      exact ⟨_, bind_ok.mpr ⟨fun x y => m.entry x.1 y.1, bind_ok.mpr ⟨m, hm, by unfold mat66; rw [if_pos ⟨hr, hc⟩]⟩, rfl⟩⟩
    · rw [if_neg hg]; exact ⟨none, rfl⟩
  obtain ⟨dr, hdr⟩ := hdrift
  obtain ⟨st, hst⟩ := hstiff
  exact ⟨_, bind_ok.mpr ⟨dk, hdk, bind_ok.mpr ⟨rad, hrad, bind_ok.mpr ⟨dr, hdr, bind_ok.mpr ⟨st, hst, rfl⟩⟩⟩⟩⟩

/-- C175: a file that follows the format is loaded: no assertion, no missing dataset, no reading beyond a vector. -/
theorem C175_complete (f : File) (m0 : DofMask) (nb nf nd nt : ℕ) (mf mm : ℕ → Fin 6 → ℤ) (W : WellFormed f nb nf nd nt mf mm) :
    ∃ D, load f m0 = .ok D ∧ D.bodies.length = nb ∧ D.freq.nx = nf ∧ D.dir.nx = nd ∧ D.time.nx = nt := by
  obtain ⟨s1, s2, s3, s4⟩ := W.small
  obtain ⟨c1, c2, c3, c4⟩ := W.counts
  have sc : ∀ p ∈ ["/GravityAcc", "/WaterDensity", "/NormalizationLength", "/WaterDepth", "/Discretizations/Frequency/MinFrequency", "/Discretizations/Frequency/MaxFrequency",
    "/Discretizations/WaveDirections/MinAngle", "/Discretizations/WaveDirections/MaxAngle", "/Discretizations/Time/FinalTime"], ∃ x, readDouble f p = .ok x := by
    intro p hp
    obtain ⟨x, hx⟩ := W.scalars p hp
    exact ⟨x, scalar_read hx⟩
  obtain ⟨g, hg⟩ := sc "/GravityAcc" (by simp)
  obtain ⟨rho, hrho⟩ := sc "/WaterDensity" (by simp)
  obtain ⟨len, hlen⟩ := sc "/NormalizationLength" (by simp)
  obtain ⟨dep, hdep⟩ := sc "/WaterDepth" (by simp)
  obtain ⟨f0, hf0⟩ := sc "/Discretizations/Frequency/MinFrequency" (by simp)
  obtain ⟨f1, hf1⟩ := sc "/Discretizations/Frequency/MaxFrequency" (by simp)
  obtain ⟨d0, hd0⟩ := sc "/Discretizations/WaveDirections/MinAngle" (by simp)
  obtain ⟨d1, hd1⟩ := sc "/Discretizations/WaveDirections/MaxAngle" (by simp)
  obtain ⟨t1, ht1⟩ := sc "/Discretizations/Time/FinalTime" (by simp)
  obtain ⟨heads, hheads⟩ := heads_read (m0 := m0) W nb le_rfl
  obtain ⟨hl, hin⟩ := heads_ok f m0 _ _ hheads
  obtain ⟨bodies, hbodies⟩ := mapM_all (fun hi : Head × ℕ => finishBody f nf nd nt heads hi.2 hi.1) heads.zipIdx fun hj hm => by
    obtain ⟨x, j⟩ := hj
    have hx : heads[j]? = some x := (List.mem_zipIdx_iff_getElem?).mp hm
    exact body_read W hl (fun i h hh => (hin i h hh).1) hx
  refine ⟨⟨g, rho, len, dep, ⟨f0, f1, nf⟩, ⟨d0, d1, nd⟩, ⟨0, t1, nt⟩, bodies⟩, ?_, ?_, rfl, rfl, rfl⟩
  · refine bind_ok.mpr ⟨g, hg, bind_ok.mpr ⟨rho, hrho, bind_ok.mpr ⟨len, hlen, bind_ok.mpr ⟨dep, hdep, bind_ok.mpr ⟨nb, int_read c1, bind_ok.mpr ⟨nf, int_read c2,
      bind_ok.mpr ⟨f0, hf0, bind_ok.mpr ⟨f1, hf1, bind_ok.mpr ⟨nd, int_read c3, bind_ok.mpr ⟨d0, hd0, bind_ok.mpr ⟨d1, hd1, bind_ok.mpr ⟨nt, int_read c4,
      bind_ok.mpr ⟨t1, ht1, bind_ok.mpr ⟨heads, ?_, bind_ok.mpr ⟨bodies, ?_, ?_⟩⟩⟩⟩⟩⟩⟩⟩⟩⟩⟩⟩⟩⟩⟩
    · rw [unsigned_small s1]; exact hheads
    · rw [unsigned_small s2, unsigned_small s3, unsigned_small s4]; exact hbodies
    · rw [unsigned_small s2, unsigned_small s3, unsigned_small s4]
  · show bodies.length = nb
    rw [(mapM_ok _ _ _ hbodies).1, List.length_zipIdx, hl]

/-- C175: the general data of a database that was loaded are those of its file. -/
theorem C175_settings (f : File) (m0 : DofMask) (D : Db) (h : load f m0 = .ok D) :
    (Scalar f "/GravityAcc" D.gravity ∧ Scalar f "/WaterDensity" D.density ∧ Scalar f "/NormalizationLength" D.length ∧ Scalar f "/WaterDepth" D.depth) ∧
    (Scalar f "/Discretizations/Frequency/MinFrequency" D.freq.xmin ∧ Scalar f "/Discretizations/Frequency/MaxFrequency" D.freq.xmax ∧
      Scalar f "/Discretizations/WaveDirections/MinAngle" D.dir.xmin ∧ Scalar f "/Discretizations/WaveDirections/MaxAngle" D.dir.xmax ∧
      D.time.xmin = 0 ∧ Scalar f "/Discretizations/Time/FinalTime" D.time.xmax) ∧
    ∀ n : ℕ, n < 2 ^ 32 → (f "/Discretizations/Frequency/NbFrequencies" = some (.int n) → D.freq.nx = n) ∧
      (f "/Discretizations/WaveDirections/NbWaveDirections" = some (.int n) → D.dir.nx = n) ∧ (f "/Discretizations/Time/NbTimeSample" = some (.int n) → D.time.nx = n) ∧
      (f "/NbBody" = some (.int n) → D.bodies.length = n) := by
  obtain ⟨h1, ⟨a, ha, ha1, ha2, ha3⟩, ⟨b, hb, hb1, hb2, hb3⟩, ⟨c, hc, hc1, hc2, hc3⟩, ⟨d, hd, hd1⟩, -⟩ := load_ok h
  refine ⟨h1, ⟨ha2, ha3, hb2, hb3, hc2, hc3⟩, fun n hn => ⟨fun e => ?_, fun e => ?_, fun e => ?_, fun e => ?_⟩⟩
  · rw [ha] at e; cases e; rw [ha1, unsigned_small hn]
  · rw [hb] at e; cases e; rw [hb1, unsigned_small hn]
  · rw [hc] at e; cases e; rw [hc1, unsigned_small hn]
  · rw [hd] at e; cases e; rw [hd1, unsigned_small hn]

/-- C175: name, position, modes and masks of the body `i` are those of the group `Body_i`, whose `ID` is `i`. -/
theorem C175_bodies (f : File) (m0 : DofMask) (D : Db) (h : load f m0 = .ok D) (i : ℕ) (b : Loaded) (hb : D.bodies[i]? = some b) : HeadIn f m0 i b.head :=
  ((load_ok h).2.2.2.2.2 i b hb).1

/-- C175: couplings, wave drift and stiffness of the body `i` are those of its group, the rows being those of its force mask, the columns those of the motion mask of the body in
motion — including the bodies that come later in the file. -/
theorem C175_data (f : File) (m0 : DofMask) (D : Db) (h : load f m0 = .ok D) (i : ℕ) (b : Loaded) (hb : D.bodies[i]? = some b) :
    LoadedIn f D.freq.nx D.dir.nx D.time.nx D.bodies.length i b :=
  ((load_ok h).2.2.2.2.2 i b hb).2

/-- C175: a file in which a body has not the number of its place is refused. -/
theorem C175_ids (f : File) (m0 : DofMask) (nb i : ℕ) (hnb : nb < 2 ^ 32) (hf : f "/NbBody" = some (.int nb)) (hi : i < nb)
    (hid : f (bodyPath i ++ "/ID") ≠ some (.int i)) (D : Db) : load f m0 ≠ .ok D := by
  intro h
  have hl := ((C175_settings f m0 D h).2.2 nb hnb).2.2.2 hf
  have hb : D.bodies[i]? = some D.bodies[i] := List.getElem?_eq_getElem (by omega)
  exact hid (C175_bodies f m0 D h i _ hb).idFile

/-- C175, defect: the number of motion modes of the file is not used: a body has as many motion modes as force modes. -/
theorem C175_motion_modes_wrong (f : File) (m0 : DofMask) (D : Db) (h : load f m0 = .ok D) (i : ℕ) (b : Loaded) (hb : D.bodies[i]? = some b) (n n' : ℕ)
    (hn : n < 2 ^ 32) (h1 : f (bodyPath i ++ "/Modes/NbForceModes") = some (.int n)) (_h2 : f (bodyPath i ++ "/Modes/NbMotionModes") = some (.int n')) (hne : n ≠ n') :
    b.head.motionModes.length = n ∧ b.head.motionModes.length ≠ n' := by
  obtain ⟨k, hk, -, hm⟩ := (C175_bodies f m0 D h i b hb).modes
  rw [h1] at hk
  cases hk
  rw [unsigned_small hn] at hm
  exact ⟨hm, by rw [hm]; exact hne⟩

/-- C175, defect: of the columns given by `ReadDoubleArraySTD` only the first is a column of the array: the `k`-th is the columns 0 to `k` one after the other. -/
theorem C175_std_wrong (m : Mat ℝ) (k : ℕ) (hk : k < m.cols) :
    ∃ l, (toStd m)[k]? = some l ∧ l.length = (k + 1) * m.rows ∧ ∀ c r, c ≤ k → r < m.rows → l[c * m.rows + r]? = some (m.entry r c) := by
  unfold toStd
  rw [std_fold]
  refine ⟨_, by simp only [List.getElem?_map, range_get hk, Option.map_some]; rfl, ?_, ?_⟩
  · simp [List.length_flatten, Function.comp_def]
  · have key : ∀ n c r, c < n → r < m.rows →
        (((List.range n).map fun i => (List.range m.rows).map fun j => m.entry j i).flatten)[c * m.rows + r]? = some (m.entry r c) := by
      intro n
      induction n with
      | zero => intro c r hc; omega
      | succ n ih =>
        intro c r hc hr
        have hlen : (((List.range n).map fun i => (List.range m.rows).map fun j => m.entry j i).flatten).length = n * m.rows := by
          simp [List.length_flatten, Function.comp_def]
        rw [List.range_succ, List.map_append, List.flatten_append]
        rcases Nat.lt_or_ge c n with hlt | hge
        · rw [List.getElem?_append_left]
          · exact ih c r hlt hr
          · rw [hlen]
            calc c * m.rows + r < c * m.rows + m.rows := by omega
              _ = (c + 1) * m.rows := by ring
              _ ≤ n * m.rows := Nat.mul_le_mul_right _ hlt
        · have : c = n := by omega
          subst this
          rw [List.getElem?_append_right (by rw [hlen]; omega), hlen]
          simp [hr]
    intro c r hc hr
    exact key (k + 1) c r (by omega) hr

/-! ### A file -/

/-- A file of one body, with surge and heave in the force mask, surge in the motion mask, two frequencies, one direction, two times; no drift. -/
def exFile : File := fun p => match p with
  | "/GravityAcc" => some (.real 9.81)
  | "/WaterDensity" => some (.int 1025)
  | "/NormalizationLength" => some (.real 1)
  | "/WaterDepth" => some (.real 100)
  | "/NbBody" => some (.int 1)
  | "/Discretizations/Frequency/NbFrequencies" => some (.int 2)
  | "/Discretizations/Frequency/MinFrequency" => some (.real 0.1)
  | "/Discretizations/Frequency/MaxFrequency" => some (.real 2)
  | "/Discretizations/WaveDirections/NbWaveDirections" => some (.int 1)
  | "/Discretizations/WaveDirections/MinAngle" => some (.real 0)
  | "/Discretizations/WaveDirections/MaxAngle" => some (.real 0)
  | "/Discretizations/Time/NbTimeSample" => some (.int 2)
  | "/Discretizations/Time/FinalTime" => some (.real 50)
  | "/Bodies/Body_0/ID" => some (.int 0)
  | "/Bodies/Body_0/BodyName" => some (.str "barge")
  | "/Bodies/Body_0/BodyPosition" => some (.reals [3] fun k => k)
  | "/Bodies/Body_0/Modes/NbForceModes" => some (.int 1)
  | "/Bodies/Body_0/Modes/NbMotionModes" => some (.int 1)
  | "/Bodies/Body_0/Modes/ForceModes/Mode_0/Type" => some (.str "LINEAR")
  | "/Bodies/Body_0/Modes/ForceModes/Mode_0/Direction" => some (.reals [3, 1] fun _ => 0)
  | "/Bodies/Body_0/Modes/MotionModes/Mode_0/Type" => some (.str "ANGULAR")
  | "/Bodies/Body_0/Modes/MotionModes/Mode_0/Direction" => some (.reals [3, 1] fun _ => 1)
  | "/Bodies/Body_0/Modes/MotionModes/Mode_0/Point" => some (.reals [3, 1] fun _ => 2)
  | "/Bodies/Body_0/Mask" => some .group
  | "/Bodies/Body_0/Mask/ForceMask" => some (.ints [6] fun k => if k = 0 ∨ k = 2 then 1 else 0)
  | "/Bodies/Body_0/Mask/MotionMask" => some (.ints [6, 1] fun k => if k = 0 then 1 else 0)
  | "/Bodies/Body_0/Excitation/Diffraction/Angle_0/RealCoeffs" => some (.reals [2, 2] fun k => k)
  | "/Bodies/Body_0/Excitation/Diffraction/Angle_0/ImagCoeffs" => some (.reals [2, 2] fun k => k + 10)
  | "/Bodies/Body_0/Excitation/FroudeKrylov//Angle_0/RealCoeffs" => some (.reals [2, 2] fun k => k + 20)
  | "/Bodies/Body_0/Excitation/FroudeKrylov//Angle_0/ImagCoeffs" => some (.reals [2, 2] fun k => k + 30)
  | "/Bodies/Body_0/Radiation/BodyMotion_0/InfiniteAddedMass" => some (.reals [2, 1] fun k => k + 40)
  | "/Bodies/Body_0/Radiation/BodyMotion_0/ImpulseResponseFunctionK/DOF_0" => some (.reals [2, 2] fun k => k + 50)
  | "/Bodies/Body_0/Hydrostatic" => some .group
  | "/Bodies/Body_0/Hydrostatic/StiffnessMatrix" => some (.reals [6, 6] fun k => k)
  | _ => none

/-- The force mask of the example. -/
def exForce : Fin 6 → ℤ := fun k => if k.1 = 0 ∨ k.1 = 2 then 1 else 0
/-- The motion mask of the example. -/
def exMotion : Fin 6 → ℤ := fun k => if k.1 = 0 then 1 else 0

theorem exFile_wellFormed : WellFormed exFile 1 2 1 2 (fun _ => exForce) (fun _ => exMotion) := by
  have one : ∀ i : ℕ, i < 1 → i = 0 := fun i hi => by omega
  have kf : kept exForce = 2 := by unfold kept activeDofs exForce; decide
  have km : kept exMotion = 1 := by unfold kept activeDofs exMotion; decide
  refine ⟨by norm_num, ⟨rfl, rfl, rfl, rfl⟩, ?_, ?_, ?_, ?_, ?_, ?_, ?_, ?_, ?_, ?_, ?_, ?_⟩
  · intro p hp
    simp only [List.mem_cons, List.not_mem_nil, or_false] at hp
    rcases hp with rfl | rfl | rfl | rfl | rfl | rfl | rfl | rfl | rfl
    · exact ⟨_, Or.inl rfl⟩
    · exact ⟨_, Or.inr ⟨1025, rfl, rfl⟩⟩
    all_goals exact ⟨_, Or.inl rfl⟩
  · intro i hi; obtain rfl := one i hi; rfl
  · intro i hi; obtain rfl := one i hi; exact ⟨"barge", rfl⟩
  · intro i hi; obtain rfl := one i hi; exact ⟨_, Or.inr ⟨rfl, rfl⟩⟩
  · intro i hi; obtain rfl := one i hi
    refine ⟨1, by norm_num, by norm_num, rfl, rfl, fun k hk => ?_⟩
    obtain rfl := one k hk
    exact ⟨⟨"LINEAR", rfl, ⟨_, Or.inl rfl⟩, fun h => absurd h (by decide)⟩, ⟨"ANGULAR", rfl, ⟨_, Or.inl rfl⟩, fun _ => ⟨_, Or.inl rfl⟩⟩⟩
  · intro i hi; obtain rfl := one i hi
    refine ⟨Or.inr ⟨(by intro h; cases h), fun k => if k = 0 ∨ k = 2 then 1 else 0, fun k => rfl, Or.inl rfl⟩,
      Or.inr ⟨(by intro h; cases h), fun k => if k = 0 then 1 else 0, fun k => rfl, Or.inr rfl⟩, ?_, ?_⟩
    · unfold ValidMask exForce; decide
    · unfold ValidMask exMotion; decide
  · intro i hi; obtain rfl := one i hi
    intro a ha; obtain rfl := one a ha
    rw [kf]
    intro part hp
    simp only [List.mem_cons, List.not_mem_nil, or_false] at hp
    rcases hp with rfl | rfl
    · exact ⟨⟨_, Or.inl rfl⟩, ⟨_, Or.inl rfl⟩⟩
    · exact ⟨⟨_, Or.inl rfl⟩, ⟨_, Or.inl rfl⟩⟩
  · intro i j hi hj; obtain rfl := one i hi; obtain rfl := one j hj
    rw [kf, km]; exact ⟨_, Or.inl rfl⟩
  · intro i j hi hj; obtain rfl := one i hi; obtain rfl := one j hj
    rw [kf, km]
    intro d hd; obtain rfl := one d hd
    exact ⟨_, Or.inl rfl⟩
  · intro i j hi hj; obtain rfl := one i hi; obtain rfl := one j hj
    intro h; exact absurd rfl h
  · intro i hi; obtain rfl := one i hi
    intro h; exact absurd rfl h
  · intro i hi; obtain rfl := one i hi
    intro _; exact ⟨_, Or.inl rfl⟩

/-- The theorems are about something: the example is loaded, and the response of heave to surge at the second time is the number of the file. -/
example (m0 : DofMask) : ∃ D b c k, load exFile m0 = .ok D ∧ D.bodies[0]? = some b ∧ b.head.name = "barge" ∧ b.coupling[0]? = some c ∧ c.irf[0]? = some k ∧ k 2 1 = 53 ∧
    c.addedMass 2 0 = 41 ∧ c.addedMass 1 0 = 0 := by
  obtain ⟨D, hD, hn, -, -, ht⟩ := C175_complete exFile m0 1 2 1 2 _ _ exFile_wellFormed
  have hb : D.bodies[0]? = some D.bodies[0] := List.getElem?_eq_getElem (by omega)
  have hm := exFile_wellFormed.masks 0 (by norm_num)
  have hname := (C175_bodies _ _ D hD 0 _ hb).name
  obtain ⟨c, hc, ham, ⟨-, hk⟩, -⟩ := (C175_data _ _ D hD 0 _ hb).radiation.2 0 (by omega) _ _ _ _ hm hm
  obtain ⟨k, hk0, hk⟩ := hk 0
  have r2 : rank exForce 2 = 1 := by unfold rank exForce; decide
  have r0 : rank exMotion 0 = 0 := by unfold rank exMotion; decide
  refine ⟨D, _, c, k, hD, hb, ?_, hc, hk0, ?_, ?_, ?_⟩
  · have e : some (Node.str "barge") = some (Node.str (D.bodies[0]).head.name) := hname
    injection e with e; injection e with e; exact e.symm
  · have h := (hk 2 1 (by rw [ht]; norm_num)).1 ⟨by unfold exForce; decide, by unfold exMotion; decide⟩
    rw [r2, r0] at h
    obtain ⟨R, C, data, -, -, ⟨he, hx⟩ | ⟨-, he, -⟩⟩ := h
    · have e : some (Node.reals [2, 2] fun k => (k : ℝ) + 50) = some (Node.reals [R, C] data) := he
      cases e
      rw [hx]; norm_num
    · have e : some (Node.reals [2, 2] fun k => (k : ℝ) + 50) = some (Node.reals [R] data) := he
      cases e
  · have h := (ham 2 0).1 ⟨by unfold exForce; decide, by unfold exMotion; decide⟩
    rw [r2, r0] at h
    obtain ⟨R, C, data, -, -, ⟨he, hx⟩ | ⟨-, he, -⟩⟩ := h
    · have e : some (Node.reals [2, 1] fun k => (k : ℝ) + 40) = some (Node.reals [R, C] data) := he
      cases e
      rw [hx]; norm_num
    · have e : some (Node.reals [2, 1] fun k => (k : ℝ) + 40) = some (Node.reals [R] data) := he
      cases e
  · exact (ham 1 0).2 fun h => absurd h.1 (by unfold exForce; decide)

end Frydom.Seakeeping.H5
