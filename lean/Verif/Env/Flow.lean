import Verif.Waves.AiryConv
import Verif.Waves.AirySetup
import Verif.Core.Body

/-!
# Current, wind, fluid at a point (C60, C61, C62)

`src/frydom/environment/flow/FrUniformField.cpp`, `src/frydom/environment/flow/FrFlowBase.cpp`, `src/frydom/environment/FrEnvironment.cpp`,
`src/frydom/environment/ocean/FrOcean.cpp`, `src/frydom/environment/ocean/seabed/FrSeabed.cpp`, `src/frydom/core/math/FrVector.cpp`.
-/

open Classical

noncomputable section

namespace Frydom.Env
open Frydom.Geom Frydom.Waves

/-- A vector given as the direction it comes from (`if (IsCOMEFROM(dc)) v = -v`). -/
def applyDir (dc : DC) (v : V3) : V3 := match dc with | .comefrom => -v | .goto => v

/-! ## Field and flow -/

/-- `FrUniformField::Set(velocity, fc, dc)` (FrUniformField.cpp:18-31): the new `m_fluxVectorNWU`. -/
def setVelocity (v : V3) (fc : FC) (dc : DC) : V3 := applyDir dc (conv fc v)

/-- `FrUniformField::Set(angle, magnitude, …)` (FrUniformField.cpp:33-46). `unit` = metres per second in the speed unit (`convert_velocity_unit`, external). -/
def setAngle (angle magnitude : ℝ) (angleUnit : AngleUnit) (unit : ℝ) (fc : FC) (dc : DC) : V3 :=
  let a := applyDCPlus dc (applyFC fc (toRad angleUnit angle))
  ⟨magnitude * unit * Real.cos a, magnitude * unit * Real.sin a, 0⟩

/-- The eight directions (core/math/FrVector.cpp:18-64), components in NWU. -/
inductive Compass where
  | north | northEast | east | southEast | south | southWest | west | northWest

/-- `NORTH(fc)`, … (core/math/FrVector.cpp:18-64). `MU_SQRT2_2` is `√2/2`. -/
def Compass.dir (c : Compass) (fc : FC) : V3 :=
  let s := Real.sqrt 2 / 2
  conv fc (match c with
    | .north => ⟨1, 0, 0⟩
    | .northEast => ⟨s, -s, 0⟩
    | .east => ⟨0, -1, 0⟩
    | .southEast => ⟨-s, -s, 0⟩
    | .south => ⟨-1, 0, 0⟩
    | .southWest => ⟨-s, s, 0⟩
    | .west => ⟨0, 1, 0⟩
    | .northWest => ⟨s, s, 0⟩)

/-- `SetNorth`, … (FrUniformField.cpp:48-86). -/
def setCompass (c : Compass) (magnitude unit : ℝ) (dc : DC) : V3 := applyDir dc ((magnitude * unit) • c.dir .NWU)

/-- `FrUniformField::GetFluxVelocityInWorld` (FrUniformField.cpp:91-95); the position is not used. -/
def fieldVelocity (m : V3) (fc : FC) : V3 := conv fc m

/-- A `FrFlowBase`: its field, its time and the cached value of the ramp (FrFlowBase.h:37-42). -/
structure Flow where
  field : V3 := 0
  time : ℝ := 0
  cRamp : ℝ := 1

namespace Flow
/-- `GetFluxVelocityInWorld` (FrFlowBase.cpp:29-31). -/
def flux (w : Flow) (fc : FC) : V3 := w.cRamp • fieldVelocity w.field fc
/-- `GetRelativeVelocityInFrame` (FrFlowBase.cpp:33-38). -/
def relativeVelocity (w : Flow) (frame : Frame) (worldVel : V3) (fc : FC) : V3 :=
  rotate (quatInv frame.rot) .NWU (conv fc (w.flux fc - worldVel))
/-- `Initialize` and `StepFinalize` (FrFlowBase.cpp:49-56, 63-70): the same refresh of the cached ramp. `ramp = none`: the ramp of the environment is inactive. -/
def refresh (ramp : Option (ℝ → ℝ)) (w : Flow) : Flow := { w with cRamp := match ramp with | some r => r w.time | none => 1 }
/-- `Update` (FrFlowBase.cpp:58-61). -/
def update (t : ℝ) (w : Flow) : Flow := { w with time := t }
/-- A new velocity of the field, at any time. -/
def setField (m : V3) (w : Flow) : Flow := { w with field := m }
end Flow

/-! ## Specification -/

/-- Unit vectors of the compass in the axes of a convention: north is `x` in both; west is `y` in NWU, east is `y` in NED. -/
def northAxis : V3 := ⟨1, 0, 0⟩
def eastAxis : FC → V3
  | .NWU => ⟨0, -1, 0⟩
  | .NED => ⟨0, 1, 0⟩

/-- The horizontal vector at an angle from north, turning towards the `y` axis of the convention (west in NWU, east in NED). -/
def heading (a : ℝ) : V3 := ⟨Real.cos a, Real.sin a, 0⟩

/-! ## C60 -/

theorem applyDir_conv (dc : DC) (fc : FC) (v : V3) : applyDir dc (conv fc v) = conv fc (applyDir dc v) := by
  cases dc
  · rfl
  · show -conv fc v = conv fc (-v); rw [Core.conv_neg]

/-- **C60, velocities.** The velocity given is the velocity read, in the same convention; given as coming from, its opposite; read in the other convention, the same vector of space. -/
theorem C60_velocity (v : V3) (fc fc' : FC) :
    fieldVelocity (setVelocity v fc .goto) fc = v ∧ fieldVelocity (setVelocity v fc .comefrom) fc = -v ∧
    conv fc' (fieldVelocity (setVelocity v fc .goto) fc') = conv fc v := by
  refine ⟨conv_conv fc v, ?_, conv_conv fc' _⟩
  show conv fc (-conv fc v) = -v
  rw [← Core.conv_neg, conv_conv]

/-- **C60, angles.** A speed and an angle give the horizontal velocity of that speed whose angle from north, turning as in the convention, is the angle; given as coming from, the
opposite. Degrees and radians agree. -/
theorem C60_angle (a m u : ℝ) (fc : FC) :
    fieldVelocity (setAngle a m .rad u fc .goto) fc = (m * u) • heading a ∧
    fieldVelocity (setAngle a m .rad u fc .comefrom) fc = -((m * u) • heading a) ∧
    (∀ dc, setAngle a m .deg u fc dc = setAngle (a * (Real.pi / 180)) m .rad u fc dc) := by
  refine ⟨?_, ?_, fun dc => rfl⟩
  · cases fc <;> ext <;> simp [fieldVelocity, setAngle, heading, conv, swap, applyDCPlus, applyFC, toRad]
  · cases fc <;> ext <;> simp [fieldVelocity, setAngle, heading, conv, swap, applyDCPlus, applyFC, toRad, Real.cos_add_pi, Real.sin_add_pi]

/-- The direction of the compass, from the axes (specification). -/
def Compass.spec (c : Compass) (fc : FC) : V3 :=
  match c with
  | .north => northAxis
  | .northEast => (Real.sqrt 2)⁻¹ • (northAxis + eastAxis fc)
  | .east => eastAxis fc
  | .southEast => (Real.sqrt 2)⁻¹ • (-northAxis + eastAxis fc)
  | .south => -northAxis
  | .southWest => (Real.sqrt 2)⁻¹ • (-northAxis - eastAxis fc)
  | .west => -eastAxis fc
  | .northWest => (Real.sqrt 2)⁻¹ • (northAxis - eastAxis fc)

theorem sqrt2_inv : (Real.sqrt 2)⁻¹ = Real.sqrt 2 / 2 := by
  have h : Real.sqrt 2 * Real.sqrt 2 = 2 := Real.mul_self_sqrt (by norm_num)
  have h0 : Real.sqrt 2 ≠ 0 := by intro h0; rw [h0] at h; norm_num at h
  field_simp
  nlinarith

/-- **C60, compass.** The eight named directions are the unit vectors of these names in both conventions, and the setters give the speed in that direction. -/
theorem C60_compass (c : Compass) (m u : ℝ) (fc : FC) :
    c.dir fc = c.spec fc ∧ V3.dot (c.dir fc) (c.dir fc) = 1 ∧ fieldVelocity (setCompass c m u .goto) fc = (m * u) • c.spec fc ∧
    fieldVelocity (setCompass c m u .comefrom) fc = -((m * u) • c.spec fc) := by
  have h : Real.sqrt 2 * Real.sqrt 2 = 2 := Real.mul_self_sqrt (by norm_num)
  have k : c.dir fc = c.spec fc := by
    cases c <;> cases fc <;> ext <;> simp [Compass.dir, Compass.spec, conv, swap, northAxis, eastAxis, sqrt2_inv]
  have k2 : fieldVelocity (c.dir .NWU) fc = c.dir fc := rfl
  refine ⟨k, ?_, ?_, ?_⟩
  · cases c <;> cases fc <;> simp [Compass.dir, conv, swap, V3.dot] <;> nlinarith
  · show conv fc ((m * u) • c.dir .NWU) = _
    rw [conv_smul]
    show (m * u) • fieldVelocity (c.dir .NWU) fc = _
    rw [k2, k]
  · show conv fc (-((m * u) • c.dir .NWU)) = _
    rw [Core.conv_neg, conv_smul]
    show -((m * u) • fieldVelocity (c.dir .NWU) fc) = _
    rw [k2, k]

/-- **C60, seen from a frame.** The relative velocity, turned back to the world, is the velocity of the flow minus that of the frame; it has the components in the NWU axes of the frame
whatever the convention in which the velocity of the frame is given. -/
theorem C60_relative (w : Flow) (f : Frame) (hf : f.rot.IsUnit) (v : V3) (fc : FC) :
    f.projFrameInParent (w.relativeVelocity f v fc) .NWU = w.flux .NWU - conv fc v ∧
    w.relativeVelocity f v fc = w.relativeVelocity f (conv fc v) .NWU := by
  have e : conv fc (w.flux fc - v) = w.flux .NWU - conv fc v := by
    rw [conv_sub]
    congr 1
    show conv fc (w.cRamp • conv fc w.field) = w.cRamp • conv .NWU w.field
    rw [conv_smul, conv_conv]; rfl
  constructor
  · show rotate f.rot .NWU (rotate (quatInv f.rot) .NWU (conv fc (w.flux fc - v))) = _
    rw [e]
    show f.rot.rotate (f.rot.conj.rotate (w.flux .NWU - conv fc v)) = _
    rw [Q.rotate_conj' hf]
  · show rotate (quatInv f.rot) .NWU (conv fc (w.flux fc - v)) = rotate (quatInv f.rot) .NWU (conv .NWU (w.flux .NWU - conv fc v))
    rw [e]
    rfl

/-- A case: a frame at rest heading east in a current going north sees it coming from its starboard side, with its full speed. -/
example : (Flow.relativeVelocity ⟨⟨2, 0, 0⟩, 0, 1⟩ ⟨0, Q.ofAngAxis (-(Real.pi / 2)) ⟨0, 0, 1⟩⟩ 0 .NED).y = 2 := by
  have h1 : Real.sin (Real.pi / 2 / 2) * Real.cos (Real.pi / 2 / 2) = 1 / 2 := by
    have := Real.sin_two_mul (Real.pi / 2 / 2)
    rw [show 2 * (Real.pi / 2 / 2) = Real.pi / 2 by ring, Real.sin_pi_div_two] at this
    linarith
  simp [Flow.relativeVelocity, Flow.flux, fieldVelocity, Geom.rotate, quatInv, Q.rotate, Q.conj, Q.ofAngAxis, conv, swap, neg_div, Q.toMat, M3.mulVec]
  nlinarith [h1]

/-! ## C61 -/

/-- What happens to a flow: updates during a step (as many as the solver makes), ends of steps, changes of the field. -/
inductive FlowOp where
  | update (t : ℝ)
  | stepFinalize
  | setField (m : V3)

/-- Its effect. -/
def FlowOp.run (ramp : Option (ℝ → ℝ)) (w : Flow) : FlowOp → Flow
  | .update t => w.update t
  | .stepFinalize => w.refresh ramp
  | .setField m => w.setField m

/-- The time of the last update before the last end of step (`s` before any end of step, `t` = last update so far). -/
def frozenTime (s t : ℝ) : List FlowOp → ℝ
  | [] => s
  | .update t' :: l => frozenTime s t' l
  | .stepFinalize :: l => frozenTime t t l
  | .setField _ :: l => frozenTime s t l
/-- The field last set. -/
def lastField (m : V3) : List FlowOp → V3
  | [] => m
  | .setField m' :: l => lastField m' l
  | _ :: l => lastField m l

theorem run_state (ramp : Option (ℝ → ℝ)) (l : List FlowOp) : ∀ (w : Flow) (s : ℝ), w.cRamp = (match ramp with | some r => r s | none => 1) →
    (l.foldl (FlowOp.run ramp) w).field = lastField w.field l ∧
    (l.foldl (FlowOp.run ramp) w).cRamp = (match ramp with | some r => r (frozenTime s w.time l) | none => 1) := by
  induction l with
  | nil => intro w s h; exact ⟨rfl, h⟩
  | cons o l ih =>
    intro w s h
    cases o with
    | update t => exact ih (w.update t) s h
    | stepFinalize =>
      obtain ⟨h1, h2⟩ := ih (w.refresh ramp) w.time rfl
      exact ⟨h1, h2⟩
    | setField m => exact ih (w.setField m) s h

/-- **C61 (partial).** After initialisation and any history, the velocity of the flow is the field last set times the ramp *at the last update before the last end of step*; without
ramp it is exactly the field last set. -/
theorem C61_history_partial (ramp : Option (ℝ → ℝ)) (w : Flow) (l : List FlowOp) (fc : FC) :
    (l.foldl (FlowOp.run ramp) (w.refresh ramp)).flux fc =
      (match ramp with | some r => r (frozenTime w.time w.time l) | none => 1) • fieldVelocity (lastField w.field l) fc := by
  obtain ⟨h1, h2⟩ := run_state ramp l (w.refresh ramp) w.time rfl
  unfold Flow.flux
  rw [h1, h2]; rfl

/-- **C61.** So the velocity is that of the current time exactly when read after an end of step. -/
theorem C61_after_step (r : ℝ → ℝ) (w : Flow) (l : List FlowOp) (t : ℝ) (fc : FC) :
    ((l ++ [FlowOp.update t, FlowOp.stepFinalize]).foldl (FlowOp.run (some r)) (w.refresh (some r))).flux fc = r t • fieldVelocity (lastField w.field l) fc := by
  rw [List.foldl_append]
  obtain ⟨h1, -⟩ := run_state (some r) l (w.refresh (some r)) w.time rfl
  show (r t) • fieldVelocity (l.foldl (FlowOp.run (some r)) (w.refresh (some r))).field fc = _
  rw [h1]; rfl

/-- **C61, false as said.** During a step the velocity still has the ramp of the end of the previous step: for every ramp that changes between two times there is a history at whose
current time the velocity is not the field times the ramp. -/
theorem C61_lag (r : ℝ → ℝ) (s t : ℝ) (hr : r s ≠ r t) (m : V3) (hm : m.x ≠ 0) :
    ∃ l : List FlowOp, (l.foldl (FlowOp.run (some r)) ((⟨m, s, 1⟩ : Flow).refresh (some r))).time = t ∧
      (l.foldl (FlowOp.run (some r)) ((⟨m, s, 1⟩ : Flow).refresh (some r))).flux .NWU ≠ r t • fieldVelocity m .NWU := by
  refine ⟨[.update t], rfl, fun h => ?_⟩
  have h1 : r s * m.x = r t * m.x := by
    have := congrArg V3.x h
    simpa [Flow.flux, Flow.refresh, Flow.update, FlowOp.run, fieldVelocity, conv] using this
  exact hr (mul_right_cancel₀ hm h1)

/-! ## C62 -/

/-- `FLUID_TYPE` (environment/FrFluidType.h). -/
inductive Fluid where
  | water | air
  deriving DecidableEq

/-- `GetFluidTypeAtPointInWorld` (FrEnvironment.cpp:92-113). `elev` is `GetFreeSurface()->GetElevation`; `eps` is `DBL_EPSILON`. -/
def fluidAt (eps : ℝ) (elev : ℝ → ℝ → FC → ℝ) (waves : Bool) (p : V3) (fc : FC) : Fluid :=
  let e := if waves then elev p.x p.y fc else 0
  match fc with
  | .NED => if p.z < e + eps then .air else .water
  | .NWU => if p.z > e - eps then .air else .water

/-- Elevations in the two conventions describe the same surface. -/
def SameSurface (elev : ℝ → ℝ → FC → ℝ) : Prop := ∀ x y, elev x y .NED = -elev x (-y) .NWU

/-- **C62.** The fluid at a point of space does not depend on the convention in which the point is given; it is air exactly above the surface (within the tolerance) — the surface
with waves if asked, the mean level otherwise. -/
theorem C62_fluid (eps : ℝ) (elev : ℝ → ℝ → FC → ℝ) (h : SameSurface elev) (waves : Bool) (p : V3) (fc : FC) :
    fluidAt eps elev waves (conv fc p) fc = fluidAt eps elev waves p .NWU ∧
    (fluidAt eps elev waves p .NWU = .air ↔ (if waves then elev p.x p.y .NWU else 0) - eps < p.z) := by
  constructor
  · cases fc
    · rfl
    · have e : (if waves then elev p.x (-p.y) .NED else 0) = -(if waves then elev p.x p.y .NWU else 0) := by
        cases waves
        · simp
        · have := h p.x (-p.y)
          rw [neg_neg] at this
          simpa using this
      show (if -p.z < (if waves then elev p.x (-p.y) .NED else 0) + eps then Fluid.air else .water) = _
      rw [e]
      show _ = (if p.z > (if waves then elev p.x p.y .NWU else 0) - eps then Fluid.air else .water)
      generalize (if waves then elev p.x p.y FC.NWU else 0) = c
      by_cases hh : p.z > c - eps
      · rw [if_pos hh, if_pos (by linarith)]
      · rw [if_neg hh, if_neg (by linarith)]
  · show (if p.z > (if waves then elev p.x p.y .NWU else 0) - eps then Fluid.air else .water) = .air ↔ _
    generalize (if waves then elev p.x p.y FC.NWU else 0) = c
    by_cases hh : p.z > c - eps
    · rw [if_pos hh]; simpa using hh
    · rw [if_neg hh]; simpa using hh

/-- The hypothesis is met by the wave fields of the library (and by the null one, whose elevation is zero). -/
theorem C62_surfaces (f : Airy) (g : Regular) :
    SameSurface f.elevation ∧ SameSurface g.elevation ∧ SameSurface (fun _ _ _ => 0) :=
  ⟨fun x y => (C36_elevation f g x y).1, fun x y => (C36_elevation f g x y).2, fun _ _ => by simp⟩

/-! ## C63 -/

/-- A flat seabed under a still tide: `m_bathymetry` (NWU) and the height of the tide (FrSeabed.cpp:91-113; FrTidalModel.cpp, `NO_TIDAL`: always `0`, kept general here). -/
structure Levels where
  bathymetry : ℝ
  tide : ℝ

namespace Levels
/-- `SetBathymetry` (FrSeabed.cpp:91-96). -/
def setBathymetry (l : Levels) (h : ℝ) (fc : FC) : Levels := { l with bathymetry := match fc with | .NED => -h | .NWU => h }
/-- `GetBathymetry` (FrSeabed.cpp:95-107). -/
def getBathymetry (l : Levels) (fc : FC) : ℝ := match fc with | .NED => -l.bathymetry | .NWU => l.bathymetry
/-- `FrTidal::GetHeight` (FrTidalModel.cpp:139-143). -/
def tideHeight (l : Levels) (fc : FC) : ℝ := match fc with | .NED => -l.tide | .NWU => l.tide
/-- `FrOcean::GetDepth` (FrOcean.cpp:101-107). -/
def depth (l : Levels) (fc : FC) : ℝ := l.tideHeight fc - l.getBathymetry fc
end Levels

/-- **C63 (partial).** The bathymetry set is the one read, as a vertical coordinate in each convention, and the depth asked in NWU is the height of the column of water. -/
theorem C63_depth_partial (l : Levels) (h : ℝ) (fc fc' : FC) :
    (l.setBathymetry h fc).getBathymetry fc = h ∧ ((l.setBathymetry h fc).getBathymetry fc' = (conv fc' (conv fc ⟨0, 0, h⟩)).z) ∧
    ((l.setBathymetry h fc).depth .NWU = l.tide - (conv fc ⟨0, 0, h⟩).z) := by
  cases fc <;> cases fc' <;> simp [Levels.setBathymetry, Levels.getBathymetry, Levels.depth, Levels.tideHeight, conv, swap]

/-- **C63, false in NED.** Asked in NED the depth is the opposite of the height of the column: negative for every seabed below the water. -/
theorem C63_depth_ned (l : Levels) : l.depth .NED = -l.depth .NWU ∧ (l.bathymetry < l.tide → l.depth .NED < 0 ∧ l.depth .NED ≠ l.depth .NWU) := by
  have e : l.depth .NED = -l.depth .NWU := by simp only [Levels.depth, Levels.tideHeight, Levels.getBathymetry]; ring
  refine ⟨e, fun h => ?_⟩
  have h1 : 0 < l.depth .NWU := by simp only [Levels.depth, Levels.tideHeight, Levels.getBathymetry]; linarith
  rw [e]
  exact ⟨by linarith, by intro hh; linarith⟩

example : ((⟨0, 0⟩ : Levels).setBathymetry (-50) .NWU).depth .NWU = 50 ∧ ((⟨0, 0⟩ : Levels).setBathymetry 50 .NED).depth .NED = -50 := by
  constructor <;> norm_num [Levels.setBathymetry, Levels.depth, Levels.tideHeight, Levels.getBathymetry]

end Frydom.Env
