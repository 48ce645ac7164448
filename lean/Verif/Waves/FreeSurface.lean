import Verif.Waves.IrregularDirs

/-!
# The waves of a free surface over a simulation (C169, C170)

`src/frydom/environment/ocean/freeSurface/FrFreeSurface.cpp`, `waves/FrWaveField.cpp`: the wave field makers, `ShowFreeSurface`,
`Initialize`, `Update`; the grids of elevations and velocities.

Simplifications: the tide and the grid asset are in `Env.Ocean` and `Asset.GridLife`; the optimised fields, whose makers are the
same, are in `Waves.AiryOptim`; `StepFinalize` does nothing on the fields modelled here (FrWaveField.cpp:68-69).
-/

open Classical

noncomputable section

namespace Frydom.Waves
open Real Frydom.Geom

/-- The wave field of a free surface: `FrNullWaveField`, `FrAiryRegularWaveField`, `FrAiryIrregularWaveField`. -/
inductive Field
  | null
  | regular (f : Regular)
  | irregular (f : Irr)

namespace Field

/-- `GetElevation(x, y, fc)` (FrWaveField.cpp:159-161 for the null field; `Waves.Airy` for the others). -/
def elevation : Field → ℝ → ℝ → FC → ℝ
  | null => fun _ _ _ => 0
  | regular f => f.elevation
  | irregular f => f.view.elevation

/-- `GetVelocity(x, y, z, fc)` (FrWaveField.cpp:163-165). -/
def velocity : Field → ℝ → ℝ → ℝ → FC → V3
  | null => fun _ _ _ _ => ⟨0, 0, 0⟩
  | regular f => f.velocity
  | irregular f => f.view.velocity

/-- `GetAcceleration(x, y, z, fc)` (FrWaveField.cpp:167-169). -/
def acceleration : Field → ℝ → ℝ → ℝ → FC → V3
  | null => fun _ _ _ _ => ⟨0, 0, 0⟩
  | regular f => f.acceleration
  | irregular f => f.view.acceleration

/-- `GetPressure(x, y, z, fc)` (FrWaveField.cpp:193-199, FrFreeSurface.cpp:66-70). -/
def pressure : Field → ℝ → ℝ → ℝ → FC → ℝ
  | null => fun _ _ _ _ => 0
  | regular f => f.pressure
  | irregular f => f.view.pressure

/-- Do the queries stay inside the tables of the field? -/
def Safe : Field → Prop
  | null => True
  | regular _ => True
  | irregular f => f.InBounds

/-- `GetElevation(xVect, yVect, fc)` (FrWaveField.cpp:71-95): two nested loops over the indices, the inner vector cleared for each `x`. -/
def elevations (f : Field) (xs ys : List ℝ) (fc : FC) : List (List ℝ) :=
  xs.foldl (fun elevations x => elevations ++ [ys.foldl (fun elev y => elev ++ [f.elevation x y fc]) []]) []

/-- `GetVelocity(xvect, yvect, zvect, fc)` (FrWaveField.cpp:97-127): three nested loops. -/
def velocities (f : Field) (xs ys zs : List ℝ) (fc : FC) : List (List (List V3)) :=
  xs.foldl (fun velocity x => velocity ++
    [ys.foldl (fun velocity_x y => velocity_x ++ [zs.foldl (fun velocity_y z => velocity_y ++ [f.velocity x y z fc]) []]) []]) []

/-- `FrWaveField::Initialize()` (FrWaveField.cpp:61-66; not overridden by the null and regular fields) and
`FrAiryIrregularWaveField::Initialize()`. -/
def init (sea : Sea) (rampAt : Option (ℝ → ℝ)) (draw : ℕ → ℝ) : Field → Except Fail Field
  | null => .ok null
  | regular f => .ok (regular (f.initialize sea.floor sea.density sea.gravity))
  | irregular f => (f.init sea rampAt draw).bind fun f => .ok (irregular f)

/-- `Update(time)` (FrWaveField.cpp:140-146). -/
def update (sea : Sea) (rampAt : Option (ℝ → ℝ)) (t : ℝ) : Field → Field
  | null => null
  | regular f => regular (f.update rampAt sea.floor.depth t)
  | irregular f => irregular (f.update rampAt sea.floor.depth t)

end Field

/-- `FrFreeSurface` (FrFreeSurface.h:55-66): `m_showFreeSurface` (true at construction) and `m_waveField`. -/
structure FreeSurface where
  shown : Bool := true
  field : Field := .null

/-- What a user, or the simulation, may call. `byRef`: the two readings of `Normalize_0_2PI` (`normalizeStmt`). -/
inductive FsOp
  | noWaves
  | regularMaker
  | regularAngle (byRef : Bool) (height period angle : ℝ) (unit : AngleUnit) (fc : FC) (dc : DC)
  | regularDirection (byRef : Bool) (height period ux uy : ℝ) (fc : FC) (dc : DC)
  | irregularMaker
  | irregularCall (op : SetOp)
  | showSurface (b : Bool)
  | init (rampAt : Option (ℝ → ℝ)) (draw : ℕ → ℝ)
  | update (rampAt : Option (ℝ → ℝ)) (t : ℝ)
  | stepFinalize

namespace FreeSurface

/-- The height, period and direction of a new regular field, in the order of the calls of `SetAiryRegularWaveField(…)`
(FrFreeSurface.cpp:83-104; FrAiryRegularWaveField.cpp:30, 34-53). -/
def newRegular (sea : Sea) (height period dirAngle : ℝ) : Except Fail Regular :=
  match ({ Regular.new sea.floor with height := height } : Regular).setWavePeriod sea.floor sea.gravity period with
  | none => .error .loops
  | some f => .ok { f with dirAngle := dirAngle }

/-- One call in the sea of that moment (FrFreeSurface.cpp:72-186). A call on the irregular field returned by its maker is `irregularCall`;
on another field there is no such pointer (nothing happens). -/
def step (seeded : ℤ → ℕ → ℝ) (sea : Sea) : FsOp → FreeSurface → Except Fail FreeSurface
  | .noWaves, S => .ok { S with field := .null }
  | .regularMaker, S => .ok { S with field := .regular (Regular.new sea.floor) }
  | .regularAngle byRef height period angle unit fc dc, S =>
    (newRegular sea height period (setDirectionAngle byRef angle unit fc dc)).bind fun f => .ok { S with field := .regular f }
  | .regularDirection byRef height period ux uy fc dc, S =>
    (newRegular sea height period (setDirection byRef ux uy fc dc)).bind fun f => .ok { S with field := .regular f }
  | .irregularMaker, S => .ok { S with field := .irregular (Irr.new sea) }
  | .irregularCall op, S =>
    match S.field with
    | .irregular f => (f.apply seeded sea op).bind fun f => .ok { S with field := .irregular f }
    | _ => .ok S
  | .showSurface b, S => .ok (if b then { S with shown := b } else { S with shown := b, field := .null })
  | .init rampAt draw, S => if S.shown then (S.field.init sea rampAt draw).bind fun f => .ok { S with field := f } else .ok S
  | .update rampAt t, S => .ok (if S.shown then { S with field := S.field.update sea rampAt t } else S)
  | .stepFinalize, S => .ok S

/-- A history of calls, each in the sea of its moment; it ends at the first failure. -/
def run (seeded : ℤ → ℕ → ℝ) : List (Sea × FsOp) → FreeSurface → Except Fail FreeSurface
  | [], S => .ok S
  | (sea, op) :: l, S => (S.step seeded sea op).bind fun S => run seeded l S

end FreeSurface

/-! ## Specification -/

/-- Does the call make a wave field? -/
def FsOp.makes : FsOp → Bool
  | .regularMaker | .regularAngle .. | .regularDirection .. | .irregularMaker => true
  | _ => false

/-- Calls of the simulation only: initialisation, updates, ends of step. -/
def FsOp.simulates : FsOp → Bool
  | .init .. | .update .. | .stepFinalize => true
  | _ => false

/-- Still water: nothing moves and there is no wave pressure, anywhere. -/
def Field.Still (f : Field) : Prop :=
  (∀ x y fc, f.elevation x y fc = 0) ∧ (∀ x y z fc, f.velocity x y z fc = ⟨0, 0, 0⟩ ∧ f.acceleration x y z fc = ⟨0, 0, 0⟩ ∧ f.pressure x y z fc = 0)

/-- The time asked by the last update of a history (`t` if there is none). -/
def lastTime (t : ℝ) (l : List (Sea × FsOp)) : ℝ :=
  l.foldl (fun t o => match o.2 with | .update _ s => s | _ => t) t

/-- Towards (`goto`) or from (`comefrom`). -/
def DC.sign : DC → ℝ
  | .goto => 1
  | .comefrom => -1

/-- No time ramp is active during the history. -/
def NoRamp (l : List (Sea × FsOp)) : Prop := ∀ o ∈ l, match o.2 with | .update r _ => r = none | .init r _ => r = none | _ => True

variable {seeded : ℤ → ℕ → ℝ}

/-! ## C169: waves asked for -/

theorem FreeSurface.run_append (l l' : List (Sea × FsOp)) (S S' : FreeSurface) (h : S.run seeded l = .ok S') :
    S.run seeded (l ++ l') = S'.run seeded l' := by
  induction l generalizing S with
  | nil => obtain rfl := Except.ok.inj h; rfl
  | cons a l ih =>
    obtain ⟨sea, op⟩ := a
    change ((S.step seeded sea op).bind fun S => FreeSurface.run seeded l S) = _ at h
    show ((S.step seeded sea op).bind fun S => FreeSurface.run seeded (l ++ l') S) = _
    cases hs : S.step seeded sea op with
    | error e => rw [hs] at h; cases h
    | ok T => rw [hs] at h; exact ih T h

/-- A regular field over a history of the simulation, the free surface being shown. -/
theorem FreeSurface.run_regular (l : List (Sea × FsOp)) (hl : ∀ o ∈ l, o.2.simulates) (hr : NoRamp l) (f : Regular) :
    ∃ f' : Regular, FreeSurface.run seeded l ⟨true, .regular f⟩ = .ok ⟨true, .regular f'⟩ ∧ f'.height = f.height ∧ f'.omega = f.omega ∧
      f'.k = f.k ∧ f'.dirAngle = f.dirAngle ∧ f'.ramp = f.ramp ∧ f'.time = lastTime f.time l := by
  induction l generalizing f with
  | nil => exact ⟨f, rfl, rfl, rfl, rfl, rfl, rfl, rfl⟩
  | cons a l ih =>
    obtain ⟨sea, op⟩ := a
    have hl' : ∀ o ∈ l, o.2.simulates := fun o ho => hl o (List.mem_cons_of_mem _ ho)
    have hr' : NoRamp l := fun o ho => hr o (List.mem_cons_of_mem _ ho)
    have h1 := hl _ List.mem_cons_self
    have h2 := hr _ List.mem_cons_self
    cases op with
    | init r draw =>
      obtain ⟨f', e, q⟩ := ih hl' hr' (f.initialize sea.floor sea.density sea.gravity)
      exact ⟨f', e, q⟩
    | update r t =>
      obtain rfl : r = none := h2
      obtain ⟨f', e, q⟩ := ih hl' hr' (f.update none sea.floor.depth t)
      exact ⟨f', e, q⟩
    | stepFinalize =>
      obtain ⟨f', e, q⟩ := ih hl' hr' f
      exact ⟨f', e, q⟩
    | _ => cases h1

theorem Regular.elevation_eq (f : Regular) (x y : ℝ) :
    f.elevation x y .NWU = f.ramp * f.height * sin (f.k * (x * cos f.dirAngle + y * sin f.dirAngle) - f.omega * f.time) := by
  have h := C35_regular_elevation f x y f.time
  rw [← h]
  rfl

/-- **C169, regular waves.** Whatever happened before on a free surface that is shown, `SetAiryRegularWaveField(A, T, angle, unit, fc, dc)`, in a sea of positive gravity and for a period `T ≠ 0`, followed by any history of
initialisations, updates and ends of step (without time ramp), gives the elevation `A sin(k (x, y)·d - 2π/T t)`, `t` the last time: `d` is the horizontal unit vector of the direction asked for in the conventions given, `k` is
`(2π/T)²/g` in infinite depth, and the solution of the dispersion relation in finite depth within the tolerance of C25. -/
theorem C169_regular (S : FreeSurface) (hS : S.shown = true) (sea : Sea) (hg : 0 < sea.gravity) (hd : sea.floor.infinite = false → 0 < sea.floor.depth) (b : Bool) (A T a : ℝ) (hT : T ≠ 0) (unit : AngleUnit) (fc : FC)
    (dc : DC) (l : List (Sea × FsOp)) (hl : ∀ o ∈ l, o.2.simulates) (hr : NoRamp l) :
    let ω := 2 * π / T
    let r := a * (2 * π / unit.turn)
    let d : V3 := dc.sign • conv fc ⟨cos r, sin r, 0⟩
    ∃ S' k, S.run seeded ((sea, .regularAngle b A T a unit fc dc) :: l) = .ok S' ∧
      (∀ x y, S'.field.elevation x y .NWU = A * sin (k * (x * d.x + y * d.y) - ω * lastTime 0 l)) ∧
      (sea.floor.infinite = true → k = ω ^ 2 / sea.gravity) ∧
      (sea.floor.infinite = false → 0 < k ∧ |ω ^ 2 - sea.gravity * k * tanh (k * sea.floor.depth)| ≤ 1e-6 * (sea.gravity / sea.floor.depth)) := by
  intro ω r d
  have hω : ω ≠ 0 := div_ne_zero (by positivity) hT
  have hdir : (⟨cos (setDirectionAngle b a unit fc dc), sin (setDirectionAngle b a unit fc dc), 0⟩ : V3) =
      dc.sign • conv fc ⟨cos (a * (2 * π / unit.turn)), sin (a * (2 * π / unit.turn)), 0⟩ := by
    cases dc <;> exact C38_physical b a unit fc _
  have hnew : ∃ f : Regular, FreeSurface.newRegular sea A T (setDirectionAngle b a unit fc dc) = .ok f ∧ f.height = A ∧ f.omega = ω ∧ f.ramp = 1 ∧ f.time = 0 ∧
      f.dirAngle = setDirectionAngle b a unit fc dc ∧ (sea.floor.infinite = true → f.k = ω ^ 2 / sea.gravity) ∧
      (sea.floor.infinite = false → 0 < f.k ∧ |ω ^ 2 - sea.gravity * f.k * tanh (f.k * sea.floor.depth)| ≤ 1e-6 * (sea.gravity / sea.floor.depth)) := by
    unfold FreeSurface.newRegular Regular.setWavePeriod
    cases hi : sea.floor.infinite with
    | true =>
      have : (Regular.new sea.floor).inf = true := hi
      simp only [this, if_true]
      refine ⟨_, rfl, ?_⟩
      refine ⟨rfl, rfl, rfl, rfl, rfl, fun _ => ?_, fun h => by simp at h⟩
      show ω * ω / sea.gravity = _
      rw [sq]
    | false =>
      have : (Regular.new sea.floor).inf = false := hi
      obtain ⟨k, -, hk, hk0, hk1, -⟩ := C25_finite_depth sea.floor.depth ω sea.gravity (hd hi) hg hω
      have hk' : solveDispersion sea.floor.depth (2 * π / T) sea.gravity = some k := hk
      simp only [this, hk', Option.map_some, if_false, Bool.false_eq_true]
      refine ⟨_, rfl, ?_⟩
      exact ⟨rfl, rfl, rfl, rfl, rfl, fun h => by simp at h, fun _ => ⟨hk0, hk1⟩⟩
  obtain ⟨f, hf, q1, q2, q3, q4, q5, q6, q7⟩ := hnew
  obtain ⟨f', e, p1, p2, p3, p4, p5, p6⟩ := FreeSurface.run_regular (seeded := seeded) l hl hr f
  refine ⟨⟨true, .regular f'⟩, f.k, ?_, ?_, q6, q7⟩
  · show ((FreeSurface.newRegular sea A T (setDirectionAngle b a unit fc dc)).bind fun f => .ok { S with field := .regular f }).bind _ = _
    rw [hf]
    show FreeSurface.run seeded l { S with field := .regular f } = _
    rw [show ({ S with field := .regular f } : FreeSurface) = ⟨true, .regular f⟩ by rw [hS]]
    exact e
  · intro x y
    show f'.elevation x y .NWU = _
    rw [Regular.elevation_eq, p1, p2, p3, p4, p5, p6, q1, q2, q3, q4, q5]
    have e1 : cos (setDirectionAngle b a unit fc dc) = d.x := congrArg V3.x hdir
    have e2 : sin (setDirectionAngle b a unit fc dc) = d.y := congrArg V3.y hdir
    rw [e1, e2]
    ring

/-- The hypotheses are met: waves of 2 m and 10 s from the North-East over 50 m of water, ten seconds later. -/
example : ∃ S', ∃ k : ℝ, (FreeSurface.mk true .null).run seeded [(⟨⟨false, 50⟩, 1025, 9.81⟩, .regularAngle false 2 10 45 .deg .NED .comefrom), (⟨⟨false, 50⟩, 1025, 9.81⟩, .init none fun _ => 0),
      (⟨⟨false, 50⟩, 1025, 9.81⟩, .update none 10)] = .ok S' ∧ 0 < k ∧ S'.field.elevation 0 0 .NWU = 2 * sin (-(2 * π / 10 * 10)) := by
  obtain ⟨S', k, h1, h2, -, h3⟩ := C169_regular (seeded := seeded) ⟨true, .null⟩ rfl ⟨⟨false, 50⟩, 1025, 9.81⟩ (by norm_num) (fun _ => by norm_num) false 2 10 45 (by norm_num) .deg .NED .comefrom
    [(⟨⟨false, 50⟩, 1025, 9.81⟩, .init none fun _ => 0), (⟨⟨false, 50⟩, 1025, 9.81⟩, .update none 10)] (by intro o ho; simp at ho; rcases ho with rfl | rfl <;> rfl)
    (by intro o ho; simp at ho; rcases ho with rfl | rfl <;> rfl)
  refine ⟨S', k, h1, (h3 rfl).1, ?_⟩
  rw [h2]
  simp [lastTime]

/-- **C169, direction vector.** Asked with a nonzero horizontal vector instead of an angle, the waves go along that vector (towards it, or from it), read in the convention given. -/
theorem C169_direction (S : FreeSurface) (sea : Sea) (b : Bool) (A T ux uy : ℝ) (hu : ux ≠ 0 ∨ uy ≠ 0) (fc : FC) (dc : DC) :
    ∃ a, S.run seeded [(sea, .regularDirection b A T ux uy fc dc)] = S.run seeded [(sea, .regularAngle b A T a .rad fc dc)] ∧
      0 < √(ux ^ 2 + uy ^ 2) ∧ √(ux ^ 2 + uy ^ 2) * cos a = ux ∧ √(ux ^ 2 + uy ^ 2) * sin a = uy := by
  refine ⟨Complex.arg ⟨ux, uy⟩, rfl, ?_, ?_, ?_⟩
  · rcases hu with h | h
    · have := sq_nonneg uy; have := pow_pos (abs_pos.mpr h) 2; rw [sq_abs] at this; exact sqrt_pos.mpr (by linarith)
    · have := sq_nonneg ux; have := pow_pos (abs_pos.mpr h) 2; rw [sq_abs] at this; exact sqrt_pos.mpr (by linarith)
  all_goals
    have hn : ‖(⟨ux, uy⟩ : ℂ)‖ = √(ux ^ 2 + uy ^ 2) := by
      rw [Complex.norm_def, Complex.normSq_mk]; congr 1; ring
    rw [← hn]
  · exact Complex.norm_mul_cos_arg _
  · exact Complex.norm_mul_sin_arg _

/-- **C169 (defect), wave height.** The height asked for (the documentation says wave height) is taken as the amplitude: in infinite depth, the sea goes up to `A` and down to `-A` at every moment, twice the height asked for. -/
theorem C169_height (S : FreeSurface) (hS : S.shown = true) (sea : Sea) (hg : 0 < sea.gravity) (hinf : sea.floor.infinite = true) (b : Bool) (A T a : ℝ) (hT : T ≠ 0) (unit : AngleUnit) (fc : FC) (dc : DC)
    (l : List (Sea × FsOp)) (hl : ∀ o ∈ l, o.2.simulates) (hr : NoRamp l) :
    ∃ S', S.run seeded ((sea, .regularAngle b A T a unit fc dc) :: l) = .ok S' ∧
      ∃ x y x' y', S'.field.elevation x y .NWU - S'.field.elevation x' y' .NWU = 2 * A := by
  obtain ⟨S', k, h1, h2, h3, -⟩ := C169_regular (seeded := seeded) S hS sea hg (fun h => by rw [hinf] at h; cases h) b A T a hT unit fc dc l hl hr
  have hk : k ≠ 0 := by
    rw [h3 hinf]
    have : 2 * π / T ≠ 0 := div_ne_zero (by positivity) hT
    positivity
  have hdir : (⟨cos (setDirectionAngle b a unit fc dc), sin (setDirectionAngle b a unit fc dc), 0⟩ : V3) =
      dc.sign • conv fc ⟨cos (a * (2 * π / unit.turn)), sin (a * (2 * π / unit.turn)), 0⟩ := by
    cases dc <;> exact C38_physical b a unit fc _
  set d : V3 := dc.sign • conv fc ⟨cos (a * (2 * π / unit.turn)), sin (a * (2 * π / unit.turn)), 0⟩ with hdd
  have hnorm : d.x * d.x + d.y * d.y = 1 := by
    rw [show d = _ from hdir.symm]
    have := cos_sq_add_sin_sq (setDirectionAngle b a unit fc dc)
    simp only
    linarith
  refine ⟨S', h1, ?_⟩
  have hat : ∀ φ, ∃ x y, S'.field.elevation x y .NWU = A * sin φ := by
    intro φ
    let s := (φ + 2 * π / T * lastTime 0 l) / k
    refine ⟨s * d.x, s * d.y, ?_⟩
    rw [h2]
    congr 2
    have : k * s = φ + 2 * π / T * lastTime 0 l := by simp only [s]; field_simp
    linear_combination this + k * s * hnorm
  obtain ⟨x, y, e1⟩ := hat (π / 2)
  obtain ⟨x', y', e2⟩ := hat (-(π / 2))
  refine ⟨x, y, x', y', ?_⟩
  rw [e1, e2, sin_neg, sin_pi_div_two]
  ring

/-- **C169, irregular waves.** The calls made on the field returned by `SetAiryIrregularWaveField`, then `Initialize` and updates, on a free surface that is shown, act on it as on the field of C165. -/
theorem C169_irregular (S : FreeSurface) (hS : S.shown = true) (sea₀ sea : Sea) (calls : List (Sea × SetOp)) (r : Option (ℝ → ℝ)) (draw : ℕ → ℝ) (f g : Irr)
    (h : Ready seeded calls sea r draw f g) (h₀ : Irr.run seeded calls (Irr.new sea₀) = .ok f) :
    S.run seeded ((sea₀, .irregularMaker) :: calls.map (fun o => (o.1, FsOp.irregularCall o.2)) ++ [(sea, .init r draw)]) = .ok ⟨true, .irregular g⟩ := by
  have key : ∀ (calls : List (Sea × SetOp)) (k f : Irr), Irr.run seeded calls k = .ok f →
      FreeSurface.run seeded (calls.map fun o => (o.1, FsOp.irregularCall o.2)) ⟨true, .irregular k⟩ = .ok ⟨true, .irregular f⟩ := by
    intro calls
    induction calls with
    | nil => intro k f h; obtain rfl := Except.ok.inj h; rfl
    | cons a calls ih =>
      obtain ⟨s, op⟩ := a
      intro k f h
      change ((k.apply seeded s op).bind fun f => Irr.run seeded calls f) = _ at h
      show (((k.apply seeded s op).bind fun f => .ok (⟨true, .irregular f⟩ : FreeSurface)).bind fun S => FreeSurface.run seeded _ S) = _
      cases hk : k.apply seeded s op with
      | error e => rw [hk] at h; cases h
      | ok k' => rw [hk] at h; exact ih k' f h
  have h1 : S.run seeded ((sea₀, .irregularMaker) :: calls.map (fun o => (o.1, FsOp.irregularCall o.2))) = .ok ⟨true, .irregular f⟩ := by
    show FreeSurface.run seeded _ { S with field := .irregular (Irr.new sea₀) } = _
    rw [show ({ S with field := .irregular (Irr.new sea₀) } : FreeSurface) = ⟨true, .irregular (Irr.new sea₀)⟩ by rw [hS]]
    exact key calls _ _ h₀
  rw [FreeSurface.run_append _ _ _ _ h1]
  show ((((f.init sea r draw).bind fun f => .ok (Field.irregular f)).bind fun f => .ok (⟨true, f⟩ : FreeSurface)).bind fun S => .ok S) = _
  rw [h.inited]
  rfl

/-! ## C170: no waves, hidden free surface, grids -/

theorem still_null : Field.Still .null := ⟨fun _ _ _ => rfl, fun _ _ _ _ => ⟨rfl, rfl, rfl⟩⟩

/-- **C170, still water.** After `NoWaves()` or `ShowFreeSurface(false)`, and on a new free surface, the water is still in every later history in which no wave field is made, whatever is called (`ShowFreeSurface(true)` does not bring
the waves back), and no call fails. -/
theorem C170_still (S S₁ : FreeSurface) (sea : Sea) (op : FsOp) (hop : op = .noWaves ∨ op = .showSurface false) (h : S.step seeded sea op = .ok S₁) (l : List (Sea × FsOp)) (hl : ∀ o ∈ l, o.2.makes = false) :
    (∃ S', S₁.run seeded l = .ok S' ∧ S'.field.Still) ∧ ∃ S', ({} : FreeSurface).run seeded l = .ok S' ∧ S'.field.Still := by
  have key : ∀ (l : List (Sea × FsOp)) (S : FreeSurface), S.field = .null → (∀ o ∈ l, o.2.makes = false) → ∃ S', S.run seeded l = .ok S' ∧ S'.field.Still := by
    intro l
    induction l with
    | nil => intro S h _; exact ⟨S, rfl, h ▸ still_null⟩
    | cons a l ih =>
      obtain ⟨s, o⟩ := a
      rintro ⟨sh, fld⟩ h hm
      obtain rfl : fld = .null := h
      have hm' : ∀ o ∈ l, o.2.makes = false := fun o ho => hm o (List.mem_cons_of_mem _ ho)
      have h1 := hm _ List.mem_cons_self
      have hstep : ∃ T : FreeSurface, FreeSurface.step seeded s o ⟨sh, .null⟩ = .ok T ∧ T.field = .null := by
        cases o with
        | noWaves => exact ⟨_, rfl, rfl⟩
        | irregularCall op => exact ⟨_, rfl, rfl⟩
        | showSurface b => cases b <;> exact ⟨_, rfl, rfl⟩
        | init r d => cases sh <;> exact ⟨_, rfl, rfl⟩
        | update r t => cases sh <;> exact ⟨_, rfl, rfl⟩
        | stepFinalize => exact ⟨_, rfl, rfl⟩
        | _ => cases h1
      obtain ⟨T, e1, e2⟩ := hstep
      obtain ⟨S', e3, e4⟩ := ih T e2 hm'
      refine ⟨S', ?_, e4⟩
      show (FreeSurface.step seeded s o ⟨sh, .null⟩).bind _ = _
      rw [e1]
      exact e3
  refine ⟨key l S₁ ?_ hl, key l {} rfl hl⟩
  rcases hop with rfl | rfl <;> (obtain rfl := Except.ok.inj h; rfl)

/-- **C170 (defect), waves on a hidden free surface.** A wave field made while the free surface is hidden is kept and answers the queries, but is neither initialised nor updated, whatever the simulation does: regular waves stay frozen at time
zero and have no pressure; the queries of an irregular field read beyond the end of its tables. -/
theorem C170_hidden (S S₁ : FreeSurface) (sea : Sea) (h : S.shown = false) (l : List (Sea × FsOp)) (hl : ∀ o ∈ l, o.2.simulates) :
    (∀ b A T a unit fc dc, S.step seeded sea (.regularAngle b A T a unit fc dc) = .ok S₁ → S₁.run seeded l = .ok S₁ ∧
      (∃ k θ, ∀ x y, S₁.field.elevation x y .NWU = A * sin (k * (x * cos θ + y * sin θ))) ∧ ∀ x y z fc, S₁.field.pressure x y z fc = 0) ∧
    (S.step seeded sea .irregularMaker = .ok S₁ → S₁.run seeded l = .ok S₁ ∧ ¬ S₁.field.Safe) := by
  have key : ∀ (l : List (Sea × FsOp)) (S : FreeSurface), S.shown = false → (∀ o ∈ l, o.2.simulates) → S.run seeded l = .ok S := by
    intro l
    induction l with
    | nil => intro S _ _; rfl
    | cons a l ih =>
      obtain ⟨s, o⟩ := a
      intro S h hm
      have hm' : ∀ o ∈ l, o.2.simulates := fun o ho => hm o (List.mem_cons_of_mem _ ho)
      have h1 := hm _ List.mem_cons_self
      have hstep : FreeSurface.step seeded s o S = .ok S := by
        obtain ⟨sh, fld⟩ := S
        obtain rfl : sh = false := h
        cases o with
        | init r d => rfl
        | update r t => rfl
        | stepFinalize => rfl
        | _ => cases h1
      show (FreeSurface.step seeded s o S).bind _ = _
      rw [hstep]
      exact ih S h hm'
  constructor
  · intro b A T a unit fc dc hs
    change ((FreeSurface.newRegular sea A T (setDirectionAngle b a unit fc dc)).bind fun f => .ok { S with field := .regular f }) = _ at hs
    unfold FreeSurface.newRegular at hs
    cases hp : ({ Regular.new sea.floor with height := A } : Regular).setWavePeriod sea.floor sea.gravity T with
    | none => rw [hp] at hs; cases hs
    | some f =>
      rw [hp] at hs
      obtain rfl := Except.ok.inj hs
      have hf : f.height = A ∧ f.ramp = 1 ∧ f.time = 0 ∧ f.density = 0 := by
        unfold Regular.setWavePeriod at hp
        simp only at hp
        split_ifs at hp
        · obtain rfl := Option.some.inj hp; exact ⟨rfl, rfl, rfl, rfl⟩
        · obtain ⟨k, -, rfl⟩ := Option.map_eq_some_iff.mp hp; exact ⟨rfl, rfl, rfl, rfl⟩
      refine ⟨key l _ h hl, ⟨f.k, setDirectionAngle b a unit fc dc, fun x y => ?_⟩, fun x y z fc' => ?_⟩
      · show Regular.elevation _ x y .NWU = _
        rw [Regular.elevation_eq]
        show f.ramp * f.height * sin (f.k * (x * cos (setDirectionAngle b a unit fc dc) + y * sin (setDirectionAngle b a unit fc dc)) - f.omega * f.time) = _
        rw [hf.1, hf.2.1, hf.2.2.1]
        ring_nf
      · show Regular.pressure _ x y z fc' = 0
        have hdn : ({ f with dirAngle := setDirectionAngle b a unit fc dc } : Regular).density = 0 := hf.2.2.2
        unfold Regular.pressure
        rw [hdn]
        simp
  · intro hs
    obtain rfl := Except.ok.inj hs
    refine ⟨key l _ h hl, ?_⟩
    rintro ⟨h1, -⟩
    exact absurd h1 (by simp [Irr.new])

/-- The hypotheses are met. -/
example : ∃ S₁, FreeSurface.step seeded ⟨⟨true, 0⟩, 1025, 9.81⟩ (.regularAngle false 2 10 45 .deg .NED .comefrom) ⟨false, .null⟩ = .ok S₁ := ⟨_, rfl⟩

theorem foldl_push {α β : Type} (f : α → β) : ∀ (l : List α) (acc : List β), l.foldl (fun r x => r ++ [f x]) acc = acc ++ l.map f := by
  intro l
  induction l with
  | nil => intro acc; simp
  | cons a l ih => intro acc; simp [ih]

/-- **C170, grids.** The elevations asked on a grid are those asked at its points, in the order of the grid, and so are the velocities: `[i][j]` is the elevation at `(x_i, y_j)`, `[i][j][k]` the velocity at `(x_i, y_j, z_k)`, and
there are no other elements. -/
theorem C170_grid (f : Field) (xs ys zs : List ℝ) (fc : FC) :
    (f.elevations xs ys fc).length = xs.length ∧ (f.velocities xs ys zs fc).length = xs.length ∧
    (∀ row ∈ f.elevations xs ys fc, row.length = ys.length) ∧
    (∀ plane ∈ f.velocities xs ys zs fc, plane.length = ys.length ∧ ∀ row ∈ plane, row.length = zs.length) ∧
    ∀ (i j : ℕ) (x y : ℝ), xs[i]? = some x → ys[j]? = some y →
      (((f.elevations xs ys fc)[i]?).bind fun row => row[j]?) = some (f.elevation x y fc) ∧
      ∀ (k : ℕ) (z : ℝ), zs[k]? = some z → ((((f.velocities xs ys zs fc)[i]?).bind fun (p : List (List V3)) => p[j]?).bind fun (row : List V3) => row[k]?) = some (f.velocity x y z fc) := by
  have e1 : f.elevations xs ys fc = xs.map fun x => ys.map fun y => f.elevation x y fc := by
    unfold Field.elevations
    rw [foldl_push fun x => ys.foldl (fun elev y => elev ++ [f.elevation x y fc]) []]
    simp only [List.nil_append]
    congr 1; funext x
    rw [foldl_push fun y => f.elevation x y fc]; rfl
  have e2 : f.velocities xs ys zs fc = xs.map fun x => ys.map fun y => zs.map fun z => f.velocity x y z fc := by
    unfold Field.velocities
    rw [foldl_push fun x => ys.foldl (fun velocity_x y => velocity_x ++ [zs.foldl (fun velocity_y z => velocity_y ++ [f.velocity x y z fc]) []]) []]
    simp only [List.nil_append]
    congr 1; funext x
    rw [foldl_push fun y => zs.foldl (fun velocity_y z => velocity_y ++ [f.velocity x y z fc]) []]
    simp only [List.nil_append]
    congr 1; funext y
    rw [foldl_push fun z => f.velocity x y z fc]; rfl
  refine ⟨by rw [e1]; simp, by rw [e2]; simp, ?_, ?_, ?_⟩
  · intro row hrow
    rw [e1] at hrow
    obtain ⟨x, -, rfl⟩ := List.mem_map.mp hrow
    simp
  · intro p hp
    rw [e2] at hp
    obtain ⟨x, -, rfl⟩ := List.mem_map.mp hp
    refine ⟨by simp, fun row hrow => ?_⟩
    obtain ⟨y, -, rfl⟩ := List.mem_map.mp hrow
    simp
  · intro i j x y hx hy
    refine ⟨by rw [e1]; simp [hx, hy], fun k z hz => by rw [e2]; simp [hx, hy, hz]⟩

end Frydom.Waves
