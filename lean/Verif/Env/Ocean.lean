import Verif.Geom.Model
import Verif.Seakeeping.Interp

/-!
# Ocean: tide, free surface, depth, fluids (C122, C123)

`src/frydom/environment/ocean/freeSurface/tidal/FrTidalModel.cpp`, `FrFreeSurface.cpp`, `FrOcean.cpp`, `seabed/FrSeabed.cpp`, `FrEnvironment.cpp`.
-/

open Classical

noncomputable section

namespace Frydom.Env.OceanModel
open Frydom.Geom Frydom.Seakeeping

/-- `FrUTCTime` (FrTidalModel.h:41-75): hours, minutes, seconds (`unsigned int`). -/
structure UTC where
  h : ℕ
  m : ℕ
  s : ℕ

/-- The assertions of `Check` (FrTidalModel.cpp:22-27), called by the two constructors with arguments (the correction is 0). -/
def UTC.passes (t : UTC) : Prop := (0 < t.h ∧ t.h < 24) ∧ (0 < t.m ∧ t.m ≤ 60) ∧ (0 < t.s ∧ t.s ≤ 60)
/-- `FrUTCTime(hours, minutes, seconds)` (FrTidalModel.cpp:29-34); `none`: an assertion fails. -/
def UTC.make (h m s : ℕ) : Option UTC := if UTC.passes ⟨h, m, s⟩ then some ⟨h, m, s⟩ else none
/-- `FrUTCTime(hours, minutes)` (FrTidalModel.cpp:36-41). -/
def UTC.make' (h m : ℕ) : Option UTC := if UTC.passes ⟨h, m, 0⟩ then some ⟨h, m, 0⟩ else none
/-- `GetHours`, `GetMinutes`, `GetSeconds` (FrTidalModel.cpp:43-53). -/
def UTC.hours (t : UTC) : ℝ := t.h + t.m / 60 + t.s / 3600
def UTC.minutes (t : UTC) : ℝ := t.h * 60 + t.m + t.s / 60
def UTC.seconds (t : UTC) : ℝ := t.h * 3600 + t.m * 60 + t.s

/-- `FrTidal` (FrTidalModel.h:84-137): mode, extrema, and the altitude of the frame (`none`: null pointer). `low1` says whether `m_level1` is `LOW`. The member `m_time` is `0` and never written. -/
structure Tidal where
  twelfth : Bool
  t1 : UTC
  h1 : ℝ
  low1 : Bool
  t2 : UTC
  h2 : ℝ
  frame : Option ℝ

/-- `timeVect` (FrTidalModel.cpp:66-76). -/
def Tidal.times (T : Tidal) (i : ℕ) : ℝ := T.t1.minutes + i * ((T.t2.minutes - T.t1.minutes) / 6)
/-- `hVect` (FrTidalModel.cpp:65, 78-94). -/
def Tidal.heights (T : Tidal) (i : ℕ) : ℝ :=
  let w := |T.h2 - T.h1| / 12
  let op : ℝ := if T.low1 then 1 else -1
  T.h1 + op * ([0, 1, 3, 6, 9, 11, 12].getD i 0 : ℝ) * w
/-- `tidalTable.Eval("tidal_height", t)`: linear interpolation in the table of seven lines. -/
def Tidal.eval (T : Tidal) (t : ℝ) : ℝ := interpAt 7 T.times T.heights t

/-- `FrTidal(freeSurface)` (FrTidalModel.cpp:101-103): no tide. The fields that the constructor leaves uninitialised are arguments. -/
def Tidal.new (t1 t2 : UTC) (low1 : Bool) (h2 : ℝ) : Tidal := ⟨false, t1, 0, low1, t2, h2, some 0⟩
/-- The constructor from two extrema (FrTidalModel.cpp:105-123): the frame is not created. -/
def Tidal.ofExtrema (t1 : UTC) (h1 : ℝ) (low1 : Bool) (t2 : UTC) (h2 : ℝ) : Tidal := ⟨true, t1, h1, low1, t2, h2, none⟩
/-- `Update(time)` (FrTidalModel.cpp:125-137); `none`: write through a null pointer. -/
def Tidal.update (T : Tidal) (_time : ℝ) : Option Tidal :=
  let w := if T.twelfth then T.eval 0 else T.h1
  T.frame.map fun _ => { T with frame := some w }
/-- `SetNoTidal` (FrTidalModel.cpp:158). -/
def Tidal.setNoTidal (T : Tidal) : Tidal := { T with twelfth := false }
/-- `GetHeight(fc)` (FrTidalModel.cpp:139-143); `none`: null pointer. -/
def Tidal.height (T : Tidal) (fc : FC) : Option ℝ := T.frame.map fun z => match fc with | .NWU => z | .NED => -z

/-- `FrSeabed`: `none` for `FrNullSeabed`, the bathymetry in NWU for `FrMeanSeabed` (FrSeabed.h:150, default -30). -/
abbrev Seabed := Option ℝ
/-- `SetBathymetry` (FrSeabed.cpp:91-96; 44-50 exits the program for a null sea bed). -/
def Seabed.set (_ : ℝ) (b : ℝ) (fc : FC) : Seabed := some (match fc with | .NWU => b | .NED => -b)
/-- `GetBathymetry(fc)`, `GetBathymetry(x, y, fc)` (FrSeabed.cpp:98-110; 52-66 exit the program: `none`). -/
def Seabed.bathymetry (s : Seabed) (fc : FC) : Option ℝ := s.map fun b => match fc with | .NWU => b | .NED => -b

/-- What the free surface reads: the tide, and the elevation of the wave field. -/
structure Surface where
  tide : Tidal
  elevation : ℝ → ℝ → FC → ℝ
  shown : Bool
  bed : Seabed

/-- `FrFreeSurface::GetPosition(x, y, fc)` (FrFreeSurface.cpp:59-61). -/
def Surface.position (S : Surface) (x y : ℝ) (fc : FC) : Option ℝ := (S.tide.height fc).map (· + S.elevation x y fc)
/-- `FrOcean::GetDepth(fc)` (FrOcean.cpp:101-107). -/
def Surface.depth (S : Surface) (fc : FC) : Option ℝ := (S.tide.height fc).bind fun h => (S.bed.bathymetry fc).map fun b => h - b
/-- What the user (or the system) may do with the tide of an ocean: `Update(time)` (FrFreeSurface.cpp:162-167) and `ShowFreeSurface(show)` (170-180). The tide itself cannot be replaced. -/
inductive Event where
  | update (time : ℝ)
  | showSurface (show' : Bool) (null : ℝ → ℝ → FC → ℝ)
  | waves (elevation : ℝ → ℝ → FC → ℝ)
  | seabed (bed : Seabed)
/-- One event; `waves` stands for the setters of wave fields and the update of the current one, `null` for the elevation of the null wave field. -/
def Surface.step (S : Surface) : Event → Option Surface
  | .update t => if S.shown then (S.tide.update t).map fun T => { S with tide := T } else some S
  | .showSurface b null => some (if b then { S with shown := b } else { S with shown := b, elevation := null, tide := S.tide.setNoTidal })
  | .waves e => some { S with elevation := e }
  | .seabed b => some { S with bed := b }
/-- A sequence of events. -/
def Surface.run (S : Surface) : List Event → Option Surface
  | [] => some S
  | e :: l => (S.step e).bind fun S' => S'.run l

/-- `FrEnvironment::GetFluidTypeAtPointInWorld` (FrEnvironment.cpp:92-117): is the point in the air? `eps` is `DBL_EPSILON`, `eta x y fc` the elevation (0 without `waveDeformation`). -/
def inAir (eta : ℝ → ℝ → FC → ℝ) (wd : Bool) (eps : ℝ) (p : V3) (fc : FC) : Prop :=
  let w := if wd then eta p.x p.y fc else 0
  match fc with
  | .NED => p.z < w + eps
  | .NWU => p.z > w - eps

/-- `GetReynoldsNumberInWater`, `InAir` (FrOcean.cpp:63-65, FrAtmosphere.cpp:56-58); `none`: division by a null viscosity. -/
def reynolds (nu length velocity : ℝ) : Option ℝ := if nu = 0 then none else some (|velocity| * length / nu)
/-- `GetFroudeNumberInWater`, `InAir` (FrOcean.cpp:67-69, FrAtmosphere.cpp:60-62). -/
def froude (g length velocity : ℝ) : Option ℝ := if Real.sqrt (g * length) = 0 then none else some (|velocity| / Real.sqrt (g * length))
/-- Kinematic viscosity of a new atmosphere (FrAtmosphere.cpp:27). -/
def newAirViscosity : ℝ := 0
/-- Kinematic and dynamic viscosity and density of a new ocean (FrOcean.cpp:31). -/
def newWater : ℝ × ℝ × ℝ := (1.3604e-6, 0.001397, 1027)

/-! ## C122 -/

/-- **C122, mean level.** Whatever the history of an ocean made by the library (updates at any times, wave fields set or removed, free surface shown or hidden, sea bed changed), nothing fails, the tide is null
in both conventions, the free surface is at the elevation of the waves, and the depth in NWU is minus the altitude of the bottom. -/
theorem C122_level (t1 t2 : UTC) (low1 : Bool) (h2 : ℝ) (elev : ℝ → ℝ → FC → ℝ) (sh : Bool) (bed : Seabed) (l : List Event) :
    ∃ S, (Surface.mk (Tidal.new t1 t2 low1 h2) elev sh bed).run l = some S ∧ (∀ fc, S.tide.height fc = some 0) ∧
      (∀ x y fc, S.position x y fc = some (S.elevation x y fc)) ∧ S.depth .NWU = S.bed.map fun b => -b := by
  have inv : ∀ (l : List Event) (S : Surface), (S.tide.frame = some 0 ∧ S.tide.twelfth = false ∧ S.tide.h1 = 0) →
      ∃ S', S.run l = some S' ∧ (S'.tide.frame = some 0 ∧ S'.tide.twelfth = false ∧ S'.tide.h1 = 0) := by
    intro l
    induction l with
    | nil => intro S h; exact ⟨S, rfl, h⟩
    | cons e l ih =>
      intro S h
      obtain ⟨a, b, c⟩ := h
      have hs : ∃ S', S.step e = some S' ∧ (S'.tide.frame = some 0 ∧ S'.tide.twelfth = false ∧ S'.tide.h1 = 0) := by
        cases e with
        | update t =>
          by_cases hsh : S.shown = true
          · refine ⟨{ S with tide := { S.tide with frame := some 0 } }, ?_, rfl, b, c⟩
            simp [Surface.step, hsh, Tidal.update, a, b, c]
          · exact ⟨S, by simp [Surface.step, hsh], a, b, c⟩
        | showSurface sh null =>
          refine ⟨_, rfl, ?_⟩
          cases sh
          · exact ⟨a, rfl, c⟩
          · exact ⟨a, b, c⟩
        | waves e => exact ⟨_, rfl, a, b, c⟩
        | seabed e => exact ⟨_, rfl, a, b, c⟩
      obtain ⟨S', e1, hS'⟩ := hs
      obtain ⟨S2, e2, h2⟩ := ih S' hS'
      exact ⟨S2, by rw [Surface.run, e1]; exact e2, h2⟩
  obtain ⟨S, e, a, _, _⟩ := inv l (Surface.mk (Tidal.new t1 t2 low1 h2) elev sh bed) ⟨rfl, rfl, rfl⟩
  have hh : ∀ fc, S.tide.height fc = some 0 := by
    intro fc; unfold Tidal.height; rw [a]; cases fc <;> simp
  refine ⟨S, e, hh, ?_, ?_⟩
  · intro x y fc; unfold Surface.position; rw [hh]; simp
  · unfold Surface.depth Seabed.bathymetry; rw [hh]
    cases S.bed <;> simp

/-- **C122, conventions of the level.** Whatever the tide (even one that the ocean cannot have), the level of the free surface asked in NED at the same point is the opposite of the level
in NWU, provided the wave elevation is. -/
theorem C122_position_convention (S : Surface) (x y : ℝ) (he : S.elevation x (-y) .NED = -S.elevation x y .NWU) :
    S.position x (-y) .NED = (S.position x y .NWU).map fun z => -z := by
  unfold Surface.position Tidal.height
  rw [he]
  cases S.tide.frame with
  | none => rfl
  | some z =>
    show some (-z + -S.elevation x y .NWU) = some (-(z + S.elevation x y .NWU))
    congr 1
    ring

/-- A surface with a tide of 2 m and waves. -/
example : ∃ S : Surface, S.position 0 (-1) .NED = some (-3) ∧ S.position 0 1 .NWU = some 3 := by
  refine ⟨⟨⟨false, ⟨1, 1, 1⟩, 0, true, ⟨1, 1, 1⟩, 0, some 2⟩, fun _ y fc => match fc with | .NWU => y | .NED => y, true, none⟩, ?_, ?_⟩ <;>
    simp [Surface.position, Tidal.height] <;> norm_num

/-- **C122, sea bed.** The bathymetry set in a convention is read back in it, and in the other one as the opposite. -/
theorem C122_seabed (old b : ℝ) (fc : FC) :
    (Seabed.set old b fc).bathymetry fc = some b ∧
    (Seabed.set old b .NWU).bathymetry .NED = some (-b) ∧ (Seabed.set old b .NED).bathymetry .NWU = some (-b) := by
  cases fc <;> simp [Seabed.set, Seabed.bathymetry]

/-- **C122 (defect), depth.** Asked in NED the depth is the opposite of the depth: negative over every sea bed below the free surface. -/
theorem C122_depth_ned (S : Surface) (d : ℝ) (h : S.depth .NWU = some d) : S.depth .NED = some (-d) := by
  unfold Surface.depth Tidal.height Seabed.bathymetry at *
  cases hf : S.tide.frame with
  | none => rw [hf] at h; simp at h
  | some z =>
    cases hb : S.bed with
    | none => rw [hf, hb] at h; simp at h
    | some b =>
      rw [hf, hb] at h
      simp only [Option.map_some, Option.bind_some, Option.some.injEq] at h ⊢
      linarith

/-- **C122, fluid at a point.** The fluid found at a point is the same in both conventions (the elevation in NED being the opposite of that in NWU at the same place); in NWU it is air exactly when the point is above the
(deformed or mean) free surface, to `DBL_EPSILON`. -/
theorem C122_fluid (eta : ℝ → ℝ → FC → ℝ) (wd : Bool) (eps : ℝ) (p : V3) (heta : ∀ x y, eta x (-y) .NED = -eta x y .NWU) :
    (inAir eta wd eps (conv .NED p) .NED ↔ inAir eta wd eps p .NWU) ∧
    (inAir eta true eps p .NWU ↔ eta p.x p.y .NWU - eps < p.z) ∧ (inAir eta false eps p .NWU ↔ -eps < p.z) := by
  refine ⟨?_, ?_, ?_⟩
  · unfold inAir
    cases wd
    · simp only [conv, swap, Bool.false_eq_true, if_false]
      constructor <;> intro h <;> linarith
    · simp only [conv, swap, if_true, heta]
      constructor <;> intro h <;> linarith
  · simp [inAir]
  · simp [inAir]

/-- **C122, numbers.** Reynolds and Froude numbers do not depend on the sense of the velocity, are proportional to its magnitude, and Froude's square is the documented `v² / (g L)`. -/
theorem C122_numbers (nu g L v s : ℝ) (hnu : nu ≠ 0) (hg : 0 < g) (hL : 0 < L) :
    ∃ re fr, reynolds nu L v = some re ∧ froude g L v = some fr ∧ reynolds nu L (-v) = some re ∧ froude g L (-v) = some fr ∧
      reynolds nu L (s * v) = some (|s| * re) ∧ froude g L (s * v) = some (|s| * fr) ∧ re * nu = |v| * L ∧ fr ^ 2 = v ^ 2 / (g * L) := by
  have hp : 0 < g * L := mul_pos hg hL
  have hs : Real.sqrt (g * L) ≠ 0 := (Real.sqrt_pos.mpr hp).ne'
  refine ⟨|v| * L / nu, |v| / Real.sqrt (g * L), ?_, ?_, ?_, ?_, ?_, ?_, ?_, ?_⟩
  · simp [reynolds, hnu]
  · simp [froude, hs]
  · simp [reynolds, hnu]
  · simp [froude, hs]
  · rw [reynolds, if_neg hnu, abs_mul, Option.some.injEq]; ring
  · rw [froude, if_neg hs, abs_mul, Option.some.injEq]; ring
  · field_simp
  · rw [div_pow, sq_abs, Real.sq_sqrt hp.le]

/-- **C122 (defect), air and water.** In a new system the Reynolds number in air is a division by zero for every length and velocity (the viscosities of the air are null), and the kinematic viscosity of the
water is the quotient of the two others to 1/10000 only: setting one does not set the other. -/
theorem C122_viscosity (L v : ℝ) : reynolds newAirViscosity L v = none ∧ newWater.1 ≠ newWater.2.1 / newWater.2.2 ∧
    |newWater.1 - newWater.2.1 / newWater.2.2| < newWater.1 / 10000 := by
  refine ⟨by simp [reynolds, newAirViscosity], by norm_num [newWater], ?_⟩
  rw [abs_lt]; constructor <;> norm_num [newWater]

/-! ## C123 -/

/-- **C123, twelfth rule.** For two extrema at different instants the table goes from the first instant to the second in six equal steps (in minutes); from the first level, the heights change by 1, 2, 3, 3, 2, 1 twelfths of
the tidal range, all in the same direction. They end at the second level exactly when the declared level of the first extremum agrees with the two heights. -/
theorem C123_table (t1 t2 : UTC) (h1 h2 : ℝ) (low1 : Bool) :
    let T := Tidal.ofExtrema t1 h1 low1 t2 h2
    T.times 0 = t1.minutes ∧ T.times 6 = t2.minutes ∧ (∀ i, T.times (i + 1) - T.times i = (t2.minutes - t1.minutes) / 6) ∧
    T.heights 0 = h1 ∧
    (∀ i : Fin 6, T.heights (i.1 + 1) - T.heights i.1 = (if low1 then 1 else -1) * (![1, 2, 3, 3, 2, 1] i) * |h2 - h1| / 12) ∧
    (T.heights 6 = h2 ↔ (if low1 then h1 ≤ h2 else h2 ≤ h1)) := by
  intro T
  refine ⟨by simp [T, Tidal.times, Tidal.ofExtrema], by simp [T, Tidal.times, Tidal.ofExtrema]; ring, ?_, by simp [T, Tidal.heights, Tidal.ofExtrema], ?_, ?_⟩
  · intro i; simp only [T, Tidal.times, Tidal.ofExtrema]; push_cast; ring
  · intro i
    simp only [T, Tidal.heights, Tidal.ofExtrema]
    cases low1 <;> fin_cases i <;> simp <;> ring
  · simp only [T, Tidal.heights, Tidal.ofExtrema]
    cases low1
    · simp only [Bool.false_eq_true, if_false, List.getD]
      rcases le_total h1 h2 with h | h
      · rw [abs_of_nonneg (by linarith)]
        constructor
        · intro e; norm_num at e; linarith
        · intro e; norm_num; linarith
      · rw [abs_of_nonpos (by linarith)]
        exact ⟨fun _ => h, fun _ => by norm_num; linarith⟩
    · simp only [if_true, List.getD]
      rcases le_total h1 h2 with h | h
      · rw [abs_of_nonneg (by linarith)]
        exact ⟨fun _ => h, fun _ => by norm_num; linarith⟩
      · rw [abs_of_nonpos (by linarith)]
        constructor
        · intro e; norm_num at e; linarith
        · intro e; norm_num; linarith

/-- **C123, clock.** Hours, minutes and seconds of a time are the same duration in the three units, and the constructor with three arguments keeps them when it accepts them. -/
theorem C123_clock (t : UTC) : t.minutes = 60 * t.hours ∧ t.seconds = 60 * t.minutes := by
  unfold UTC.hours UTC.minutes UTC.seconds; constructor <;> ring

/-- **C123 (defect), times refused.** No time without seconds can be made: the constructor with hours and minutes always fails an assertion, and the one with three arguments fails on every whole minute, whole hour, and in the hour after
midnight, but accepts the 60th minute and second. -/
theorem C123_refused (h m s : ℕ) :
    UTC.make' h m = none ∧ (h = 0 ∨ m = 0 ∨ s = 0 → UTC.make h m s = none) ∧ UTC.make 12 60 60 = some ⟨12, 60, 60⟩ := by
  refine ⟨by simp [UTC.make', UTC.passes], ?_, by simp [UTC.make, UTC.passes]⟩
  intro hz
  unfold UTC.make
  rw [if_neg]
  unfold UTC.passes
  simp only []
  omega

/-- **C123 (defect), no frame.** A tide made from two extrema has no height: the first update writes through a null pointer, and so does the reading of the height, whatever the extrema; had it a frame, the height after every update would be that
of the table at time 0, whatever the time. -/
theorem C123_null (t1 t2 : UTC) (h1 h2 : ℝ) (low1 : Bool) (time : ℝ) (fc : FC) :
    (Tidal.ofExtrema t1 h1 low1 t2 h2).update time = none ∧ (Tidal.ofExtrema t1 h1 low1 t2 h2).height fc = none ∧
    ∀ (z : ℝ) time time', let T : Tidal := { Tidal.ofExtrema t1 h1 low1 t2 h2 with frame := some z }
      T.update time = T.update time' ∧ (T.update time).bind (fun T' => T'.height .NWU) = some (T.eval 0) := by
  refine ⟨rfl, rfl, ?_⟩
  intro z time time'
  refine ⟨rfl, ?_⟩
  simp [Tidal.update, Tidal.ofExtrema, Tidal.height]

/-- A case: low water at 1:01:01, high water at 7:01:01. -/
example : ∃ a b, UTC.make 1 1 1 = some a ∧ UTC.make 7 1 1 = some b ∧ a.seconds < b.seconds := by
  refine ⟨⟨1, 1, 1⟩, ⟨7, 1, 1⟩, by simp [UTC.make, UTC.passes], by simp [UTC.make, UTC.passes], by norm_num [UTC.seconds]⟩

end Frydom.Env.OceanModel
