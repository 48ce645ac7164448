import Verif.Waves.AiryProps
import Mathlib.Analysis.Real.Pi.Bounds

/-!
# Setting up Airy wave fields: directions (C38), period and stretching (C39)
-/

open Classical Filter Topology

noncomputable section

namespace Frydom.Waves
open Real Frydom.Geom

/-- `ANGLE_UNIT`. -/
inductive AngleUnit
  | rad | deg
/-- `DIRECTION_CONVENTION`. -/
inductive DC
  | goto | comefrom

/-- `mathutils::Normalize_0_2PI` (MathUtils, trusted: reduction modulo `2π`). -/
def normalize2Pi (a : ℝ) : ℝ := a - 2 * π * ⌊a / (2 * π)⌋
/-- `mathutils::Normalize_0_360`. -/
def normalize360 (a : ℝ) : ℝ := a - 360 * ⌊a / 360⌋

/-- The statement `mathutils::Normalize_0_2PI(x);` whose result is not used: MathUtils is not part of the sources, so both
readings are covered — `byRef = true`: the argument is taken by reference and reduced; `false`: the statement does nothing. -/
def normalizeStmt (byRef : Bool) (a : ℝ) : ℝ := if byRef then normalize2Pi a else a

/-- `if (unit == DEG) m_dirAngle *= DEG2RAD;` -/
def toRad (unit : AngleUnit) (a : ℝ) : ℝ := match unit with | .deg => a * (π / 180) | .rad => a
/-- `if (IsNED(fc)) m_dirAngle = -m_dirAngle;` -/
def applyFC (fc : FC) (m : ℝ) : ℝ := match fc with | .NED => -m | .NWU => m
/-- `if (IsCOMEFROM(dc)) m_dirAngle -= MU_PI;` -/
def applyDC (dc : DC) (m : ℝ) : ℝ := match dc with | .comefrom => m - π | .goto => m

/-- `if (dc == COMEFROM) direction += MU_PI;` -/
def applyDCPlus (dc : DC) (m : ℝ) : ℝ := match dc with | .comefrom => m + π | .goto => m

/-- `SetDirection(dirAngle, unit, fc, dc)` of the regular field (FrAiryRegularWaveField.cpp:60-70): the new `m_dirAngle`;
`SetMeanWaveDirectionAngle` of the irregular field is the same with the reduction assigned (FrAiryIrregularWaveField.cpp:79-94,
`byRef = true`). -/
def setDirectionAngle (byRef : Bool) (dirAngle : ℝ) (unit : AngleUnit) (fc : FC) (dc : DC) : ℝ :=
  normalizeStmt byRef (applyDC dc (applyFC fc (toRad unit dirAngle)))

/-- `SetDirection(direction, fc, dc)` (FrAiryRegularWaveField.cpp:72-76); `atan2(y, x)` is the argument of `x + iy`. -/
def setDirection (byRef : Bool) (ux uy : ℝ) (fc : FC) (dc : DC) : ℝ :=
  setDirectionAngle byRef (Complex.arg ⟨ux, uy⟩) .rad fc dc

/-- `GetDirectionAngle(unit, fc, dc)` (FrAiryRegularWaveField.cpp:78-86), `GetMeanWaveDirectionAngle`
(FrAiryIrregularWaveField.cpp:441-449). -/
def getDirectionAngle (m : ℝ) (unit : AngleUnit) (fc : FC) (dc : DC) : ℝ :=
  let d := applyDC dc (applyFC fc m)
  let d := match unit with | .deg => d * (180 / π) | .rad => d
  normalize360 d

/-- `GetDirection(fc, dc)` (FrAiryRegularWaveField.cpp:88-91, FrAiryIrregularWaveField.cpp:451-454): horizontal components. -/
def getDirection (m : ℝ) (fc : FC) (dc : DC) : ℝ × ℝ :=
  (cos (getDirectionAngle m .rad fc dc), sin (getDirectionAngle m .rad fc dc))

/-- `GetWaveDirections(unit, fc, dc)[i]` for an internal direction `m` (FrAiryRegularWaveField.cpp:203-214,
FrAiryIrregularWaveField.cpp:267-279). -/
def getWaveDirection (byRef : Bool) (m : ℝ) (unit : AngleUnit) (fc : FC) (dc : DC) : ℝ :=
  let d := normalizeStmt byRef (applyDCPlus dc (applyFC fc m))
  match unit with | .deg => d * (180 / π) | .rad => d

/-- A full turn. -/
def AngleUnit.turn : AngleUnit → ℝ
  | .rad => 2 * π
  | .deg => 360

theorem normalizeStmt_eq (b : Bool) (a : ℝ) : ∃ n : ℤ, normalizeStmt b a = a + 2 * π * n := by
  cases b
  · exact ⟨0, by simp [normalizeStmt]⟩
  · exact ⟨-⌊a / (2 * π)⌋, by simp [normalizeStmt, normalize2Pi]; ring⟩

theorem normalize360_eq (a : ℝ) : ∃ n : ℤ, normalize360 a = a + 360 * n :=
  ⟨-⌊a / 360⌋, by simp [normalize360]; ring⟩

theorem normalize360_range (a : ℝ) : 0 ≤ normalize360 a ∧ normalize360 a < 360 := by
  unfold normalize360
  have h1 := Int.floor_le (a / 360)
  have h2 := Int.lt_floor_add_one (a / 360)
  constructor
  · have := mul_le_mul_of_nonneg_left h1 (by norm_num : (0:ℝ) ≤ 360)
    linarith [mul_div_cancel₀ a (by norm_num : (360:ℝ) ≠ 0)]
  · have := mul_lt_mul_of_pos_left h2 (by norm_num : (0:ℝ) < 360)
    linarith [mul_div_cancel₀ a (by norm_num : (360:ℝ) ≠ 0)]

theorem normalize360_id {a : ℝ} (h0 : 0 ≤ a) (h1 : a < 360) : normalize360 a = a := by
  have : ⌊a / 360⌋ = 0 := Int.floor_eq_zero_iff.mpr ⟨by positivity, by rw [div_lt_one (by norm_num)]; exact h1⟩
  simp [normalize360, this]

/-- **C38, degrees.** The direction angle read in degrees, in the conventions it was set with, is the angle set, reduced to
`[0, 360)`. -/
theorem C38_degrees (b : Bool) (a : ℝ) (fc : FC) (dc : DC) :
    let g := getDirectionAngle (setDirectionAngle b a .deg fc dc) .deg fc dc
    (∃ n : ℤ, g = a + 360 * n) ∧ 0 ≤ g ∧ g < 360 := by
  intro g
  refine ⟨?_, normalize360_range _⟩
  obtain ⟨n, hn⟩ := normalizeStmt_eq b (applyDC dc (applyFC fc (toRad .deg a)))
  have hπ := pi_ne_zero
  cases fc <;> cases dc <;> simp only [applyDC, applyFC, toRad] at hn <;>
    simp only [g, setDirectionAngle, getDirectionAngle, applyDC, applyFC, toRad, hn]
  · obtain ⟨k, hk⟩ := normalize360_eq ((a * (π / 180) + 2 * π * n) * (180 / π))
    refine ⟨n + k, ?_⟩
    rw [hk]; push_cast; field_simp; ring
  · obtain ⟨k, hk⟩ := normalize360_eq ((a * (π / 180) - π + 2 * π * n - π) * (180 / π))
    refine ⟨n + k - 1, ?_⟩
    rw [hk]; push_cast; field_simp; ring
  · obtain ⟨k, hk⟩ := normalize360_eq (-(-(a * (π / 180)) + 2 * π * n) * (180 / π))
    refine ⟨-n + k, ?_⟩
    rw [hk]; push_cast; field_simp; ring
  · obtain ⟨k, hk⟩ := normalize360_eq ((-(-(a * (π / 180)) - π + 2 * π * n) - π) * (180 / π))
    refine ⟨-n + k, ?_⟩
    rw [hk]; push_cast; field_simp; ring

/-- **C38, list getter.** The directions read with `GetWaveDirections` in the unit and conventions they were set with are those
set, up to full turns, in both units. -/
theorem C38_wave_directions (b b' : Bool) (a : ℝ) (unit : AngleUnit) (fc : FC) (dc : DC) :
    ∃ n : ℤ, getWaveDirection b' (setDirectionAngle b a unit fc dc) unit fc dc = a + unit.turn * n := by
  have hπ := pi_ne_zero
  set r := toRad unit a with hr
  obtain ⟨n, hn⟩ := normalizeStmt_eq b (applyDC dc (applyFC fc r))
  have hs : setDirectionAngle b a unit fc dc = applyDC dc (applyFC fc r) + 2 * π * n := hn
  have main : ∃ n' : ℤ, normalizeStmt b' (applyDCPlus dc (applyFC fc (applyDC dc (applyFC fc r) + 2 * π * n))) =
      r + 2 * π * n' := by
    cases fc <;> cases dc <;> simp only [applyDC, applyFC, applyDCPlus]
    · obtain ⟨k, hk⟩ := normalizeStmt_eq b' (r + 2 * π * n)
      exact ⟨n + k, by rw [hk]; push_cast; ring⟩
    · obtain ⟨k, hk⟩ := normalizeStmt_eq b' (r - π + 2 * π * n + π)
      exact ⟨n + k, by rw [hk]; push_cast; ring⟩
    · obtain ⟨k, hk⟩ := normalizeStmt_eq b' (-(-r + 2 * π * n))
      exact ⟨-n + k, by rw [hk]; push_cast; ring⟩
    · obtain ⟨k, hk⟩ := normalizeStmt_eq b' (-(-r - π + 2 * π * n) + π)
      exact ⟨-n + k + 1, by rw [hk]; push_cast; ring⟩
  obtain ⟨n', hn'⟩ := main
  refine ⟨n', ?_⟩
  unfold getWaveDirection
  simp only
  rw [hs, hn']
  cases unit
  · simp [hr, AngleUnit.turn, toRad]
  · simp only [hr, AngleUnit.turn, toRad]; field_simp; ring

/-- **C38, physical direction.** Whatever the unit and conventions used, the waves of a field whose direction is set to the
angle `a` travel towards (`goto`) or come from (`comefrom`) the heading `a`, counted from the x (North) axis positively
towards the y axis of the convention (West in NWU, East in NED). -/
theorem C38_physical (b : Bool) (a : ℝ) (unit : AngleUnit) (fc : FC) (dc : DC) :
    let m := setDirectionAngle b a unit fc dc
    let r := a * (2 * π / unit.turn)
    let s : ℝ := match dc with | .goto => 1 | .comefrom => -1
    (⟨cos m, sin m, 0⟩ : V3) = s • conv fc ⟨cos r, sin r, 0⟩ := by
  intro m r s
  have hr : r = toRad unit a := by
    have hπ := pi_ne_zero
    cases unit
    · simp only [r, AngleUnit.turn, toRad]; field_simp
    · simp only [r, AngleUnit.turn, toRad]; ring
  obtain ⟨n, hn⟩ := normalizeStmt_eq b (applyDC dc (applyFC fc r))
  have hm : m = applyDC dc (applyFC fc r) + n * (2 * π) := by
    rw [show (n : ℝ) * (2 * π) = 2 * π * n by ring, ← hn, hr]; rfl
  have hc := congrArg cos hm
  have hs := congrArg sin hm
  rw [cos_add_int_mul_two_pi] at hc
  rw [sin_add_int_mul_two_pi] at hs
  cases fc <;> cases dc <;> simp only [applyDC, applyFC] at hc hs <;> ext <;>
    simp [hc, hs, s, conv, swap, cos_sub_pi, sin_sub_pi]

/-- **C38, direction given by a vector.** The waves go along the vector given (or against it when it says where they come from), read in the frame convention given, whatever its
length (the null vector excepted). -/
theorem C38_vector (b : Bool) (ux uy : ℝ) (h : ux ≠ 0 ∨ uy ≠ 0) (fc : FC) :
    ∃ n : ℝ, 0 < n ∧ n * n = ux * ux + uy * uy ∧
      n • (⟨cos (setDirection b ux uy fc .goto), sin (setDirection b ux uy fc .goto), 0⟩ : V3) = conv fc ⟨ux, uy, 0⟩ ∧
      n • (⟨cos (setDirection b ux uy fc .comefrom), sin (setDirection b ux uy fc .comefrom), 0⟩ : V3) = -conv fc ⟨ux, uy, 0⟩ := by
  have hz : (⟨ux, uy⟩ : ℂ) ≠ 0 := by
    intro e
    have h1 := congrArg Complex.re e
    have h2 := congrArg Complex.im e
    simp at h1 h2
    rcases h with h | h
    · exact h h1
    · exact h h2
  have hn : 0 < ‖(⟨ux, uy⟩ : ℂ)‖ := norm_pos_iff.mpr hz
  have hc : ‖(⟨ux, uy⟩ : ℂ)‖ * cos (Complex.arg ⟨ux, uy⟩) = ux := Complex.norm_mul_cos_arg _
  have hs : ‖(⟨ux, uy⟩ : ℂ)‖ * sin (Complex.arg ⟨ux, uy⟩) = uy := Complex.norm_mul_sin_arg _
  refine ⟨‖(⟨ux, uy⟩ : ℂ)‖, hn, ?_, ?_, ?_⟩
  · have := Complex.sq_norm (⟨ux, uy⟩ : ℂ)
    rw [Complex.normSq_apply] at this
    rw [← this]; ring
  · have := C38_physical b (Complex.arg ⟨ux, uy⟩) .rad fc .goto
    simp only [AngleUnit.turn] at this
    rw [show (2 * π / (2 * π) : ℝ) = 1 from div_self (by positivity), mul_one] at this
    show ‖(⟨ux, uy⟩ : ℂ)‖ • (⟨cos (setDirectionAngle b _ .rad fc .goto), sin (setDirectionAngle b _ .rad fc .goto), 0⟩ : V3) = _
    rw [this]
    cases fc <;> ext <;> simp [conv, swap, hc, hs]
  · have := C38_physical b (Complex.arg ⟨ux, uy⟩) .rad fc .comefrom
    simp only [AngleUnit.turn] at this
    rw [show (2 * π / (2 * π) : ℝ) = 1 from div_self (by positivity), mul_one] at this
    show ‖(⟨ux, uy⟩ : ℂ)‖ • (⟨cos (setDirectionAngle b _ .rad fc .comefrom), sin (setDirectionAngle b _ .rad fc .comefrom), 0⟩ : V3) = _
    rw [this]
    cases fc <;> ext <;> simp [conv, swap, hc, hs]

/-- **C38, radians (part).** Read in radians, the angle is right when the internal direction expressed in the asked conventions
is in `[0, 360)` rad. Missing: negative ones (always the case in NED/comefrom), for which `C38_radians_counterexample` holds. -/
theorem C38_radians_partial (m : ℝ) (fc : FC) (dc : DC)
    (d : ℝ) (hd : d = applyDC dc (applyFC fc m))
    (h0 : 0 ≤ d) (h1 : d < 360) :
    getDirectionAngle m .rad fc dc = d ∧ getDirection m fc dc = (cos d, sin d) := by
  have : getDirectionAngle m .rad fc dc = d := by
    cases fc <;> cases dc <;> simp only [getDirectionAngle, applyDC, applyFC] at hd ⊢
    · rw [← hd]; exact normalize360_id h0 h1
    · rw [← hd]; exact normalize360_id h0 h1
    · rw [← hd]; exact normalize360_id h0 h1
    · rw [← hd]; exact normalize360_id h0 h1
  exact ⟨this, by simp [getDirection, this]⟩

theorem not_turn_360 (n : ℤ) : (360 : ℝ) ≠ 2 * π * n := by
  intro h
  have h1 := pi_gt_d2
  have h2 := pi_lt_d2
  rcases le_or_gt n 57 with hn | hn
  · have hn' : (n : ℝ) ≤ 57 := by exact_mod_cast hn
    have : 2 * π * (n : ℝ) ≤ 2 * π * 57 := by gcongr
    linarith
  · have hn' : (58 : ℝ) ≤ n := by exact_mod_cast hn
    have : 2 * π * 58 ≤ 2 * π * (n : ℝ) := by gcongr
    linarith

/-- **C38 fails in radians**: for every field whose internal direction is strictly between 0 and a turn, the direction asked in
NED, in radians, is off by 360 rad, which is not a whole number of turns; and the direction vector read back for a wave set to
go to `(0, -1)` (NWU; the angle not being reduced when set) is not `(0, -1)`. -/
theorem C38_radians_counterexample :
    (∀ m, 0 < m → m < 2 * π → ∀ n : ℤ, getDirectionAngle m .rad .NED .goto ≠ -m + 2 * π * n) ∧
    getDirection (setDirection false 0 (-1) .NWU .goto) .NWU .goto ≠ (0, -1) := by
  have h2 := pi_lt_d2
  have key : ∀ m, 0 < m → m < 2 * π → normalize360 (-m) = -m + 360 := by
    intro m h0 h1
    have : ⌊-m / 360⌋ = -1 := by
      rw [Int.floor_eq_iff]
      constructor
      · push_cast; rw [le_div_iff₀ (by norm_num)]; linarith
      · push_cast; rw [div_lt_iff₀ (by norm_num)]; linarith
    simp [normalize360, this]
  constructor
  · intro m h0 h1 n h
    have : getDirectionAngle m .rad .NED .goto = -m + 360 := key m h0 h1
    rw [this] at h
    exact not_turn_360 n (by linarith)
  · have harg : Complex.arg ⟨0, -1⟩ = -(π / 2) := by
      have : (⟨0, -1⟩ : ℂ) = -Complex.I := by apply Complex.ext <;> simp
      rw [this, Complex.arg_neg_I]
    have : getDirectionAngle (setDirection false 0 (-1) .NWU .goto) .rad .NWU .goto = -(π / 2) + 360 := by
      simp only [getDirectionAngle, setDirection, setDirectionAngle, normalizeStmt, applyDC, applyFC, toRad, harg, Bool.false_eq_true, if_false]
      exact key _ (by positivity) (by linarith [pi_pos])
    intro h
    have hc : cos (-(π / 2) + 360) = 0 := by
      have := congrArg Prod.fst h
      simpa [getDirection, *] using this
    have hs : sin 360 = 0 := by
      rw [show (360 : ℝ) = (-(π / 2) + 360) + π / 2 by ring, sin_add_pi_div_two]
      exact hc
    obtain ⟨n, hn⟩ := sin_eq_zero_iff.mp hs
    have h1 := pi_gt_d4
    have h2' := pi_lt_d4
    rcases le_or_gt n 114 with hle | hgt
    · have : (n : ℝ) ≤ 114 := by exact_mod_cast hle
      have : (n : ℝ) * π ≤ 114 * π := by gcongr
      linarith
    · have : (115 : ℝ) ≤ n := by exact_mod_cast hgt
      have : 115 * π ≤ (n : ℝ) * π := by gcongr
      linarith

/-- Non-vacuity: a heading of 225° set in NED/comefrom reads back as 225° (here with an exact instance of C38). -/
example : ∃ n : ℤ, getDirectionAngle (setDirectionAngle false 225 .deg .NED .comefrom) .deg .NED .comefrom = 225 + 360 * n :=
  (C38_degrees false 225 .NED .comefrom).1

/-! ## Period, depth, stretching (C39) -/

/-- The ocean floor as the wave fields see it: `GetInfiniteDepth()` and the depth. -/
structure Floor where
  infinite : Bool
  depth : ℝ

/-- `SetWavePeriod(period)` (FrAiryRegularWaveField.cpp:34-53) in a given ocean; `none`: the dispersion loop does not end. -/
def Regular.setWavePeriod (f : Regular) (fl : Floor) (g : ℝ) (period : ℝ) : Option Regular :=
  let omega := 2 * π / period
  if f.inf then some { f with omega := omega, k := omega * omega / g, infV := true }
  else (solveDispersion fl.depth omega g).map fun k =>
    let inf := decide (3 / k < fl.depth)
    { f with omega := omega, k := k, inf := inf, infV := inf }

/-- Construction: `FrWaveField` reads the floor, the stretching is told (FrAiryRegularWaveField.cpp:24-28, FrWaveField.cpp:25-27). -/
def Regular.new (fl : Floor) : Regular :=
  ⟨0, 0, 0, 0, 0, 1, 0, 0, 0, fl.infinite, fl.infinite, .none⟩

/-- `FrWaveField::Initialize` (FrWaveField.cpp:61-66; not overridden by the regular field): the flag of the stretching is not
updated. -/
def Regular.initialize (f : Regular) (fl : Floor) (density g : ℝ) : Regular :=
  { f with
    inf := fl.infinite
    depth := if fl.infinite then f.depth else fl.depth
    density := density
    gravity := g }

/-- `STRETCHING_TYPE` (FrKinematicStretching.h). -/
inductive StretchType
  | noStretching | vertical | extrapolate | wheeler | chakrabarti | delta | hdelta

/-- The stretching asked for; default parameters of the classes (FrKinematicStretching.cpp:270-273 and .h:270). -/
def StretchType.kind : StretchType → Kind
  | .noStretching => .none
  | .vertical => .vertical
  | .extrapolate => .extrapol
  | .wheeler => .wheeler
  | .chakrabarti => .chakrabarti
  | .delta => .delta 0 0.3
  | .hdelta => .hdelta 0.3

/-- `SetStretching` of the irregular field (FrAiryIrregularWaveField.cpp:183-222). -/
def Airy.setStretching (f : Airy) (t : StretchType) : Airy :=
  { f with
    kind := match t with
      | .noStretching => .none
      | .vertical => .vertical
      | .extrapolate => .extrapol
      | .wheeler => .wheeler
      | .chakrabarti => .chakrabarti
      | .delta => .delta 0 0.3
      | .hdelta => .hdelta 0.3
    infV := f.inf }

/-- `SetStretching` of the regular field (FrAiryRegularWaveField.cpp:95-117): no `break` after `CHAKRABARTI` and `DELTA`, which
fall through to the default case; no case for `HDELTA`. -/
def Regular.setStretching (f : Regular) (t : StretchType) : Regular :=
  { f with
    kind := match t with
      | .noStretching => .none
      | .vertical => .vertical
      | .extrapolate => .extrapol
      | .wheeler => .wheeler
      | .chakrabarti | .delta | .hdelta => .none
    infV := f.inf }

/-- **C39, first period.** On a newly built regular field in water of finite depth, setting a period gives the wave number of
that period in that depth (residual at most `1e-6 g / depth` on the dispersion relation); in infinite depth it gives `ω²/g`, whatever
was set before. -/
theorem C39_wave_number (fl : Floor) (g : ℝ) (hg : 0 < g) (T : ℝ) (hT : T ≠ 0) :
    (fl.infinite = false → 0 < fl.depth → ∃ f, (Regular.new fl).setWavePeriod fl g T = some f ∧ f.omega = 2 * π / T ∧ 0 < f.k ∧
      |f.omega ^ 2 - g * f.k * tanh (f.k * fl.depth)| ≤ 1e-6 * (g / fl.depth)) ∧
    (∀ f0 : Regular, f0.inf = true → ∃ f, f0.setWavePeriod fl g T = some f ∧ f.omega = 2 * π / T ∧ f.inf = true ∧
      f.omega ^ 2 = g * f.k) := by
  constructor
  · intro hi hd
    have hw : 2 * π / T ≠ 0 := div_ne_zero (by positivity) hT
    obtain ⟨k, -, hk, hkp, hres, -⟩ := C25_finite_depth fl.depth (2 * π / T) g hd hg hw
    refine ⟨{ Regular.new fl with omega := 2 * π / T, k := k, inf := decide (3 / k < fl.depth), infV := decide (3 / k < fl.depth) }, ?_, rfl, hkp, hres⟩
    unfold Regular.setWavePeriod
    simp only [Regular.new, hi, Bool.false_eq_true, if_false]
    rw [hk]; rfl
  · intro f0 h
    refine ⟨{ f0 with omega := 2 * π / T, k := 2 * π / T * (2 * π / T) / g, infV := true }, ?_, rfl, h, ?_⟩
    · simp [Regular.setWavePeriod, h]
    · simp only; field_simp

/-- `x tanh x` increases on the positive numbers. -/
theorem mul_tanh_lt {a b : ℝ} (ha : 0 < a) (hab : a < b) : a * tanh a < b * tanh b :=
  mul_lt_mul hab (tanh_strictMono hab).le (tanh_pos ha) (ha.trans hab).le

/-- **C39 fails for a second period**: in 10 m of water, a field first set to a period for which the waves are deep-water ones
(`3/k < depth`) and then to 100 s uses the deep-water number `ω²/g` for the long wave; its dispersion residual is then more
than one thousand times what the solver guarantees. -/
theorem C39_history_counterexample (f : Regular) (hf : f.inf = true) :
    ∃ f', f.setWavePeriod ⟨false, 10⟩ 10 100 = some f' ∧
      1e-3 < f'.omega ^ 2 - 10 * f'.k * tanh (f'.k * 10) := by
  refine ⟨{ f with omega := 2 * π / 100, k := 2 * π / 100 * (2 * π / 100) / 10, infV := true }, by
    simp [Regular.setWavePeriod, hf], ?_⟩
  simp only
  have h1 := pi_gt_d2
  have h2 := pi_lt_d2
  set k := 2 * π / 100 * (2 * π / 100) / 10 with hk
  have hk0 : 0 < k := by positivity
  have hk1 : k < 0.0004 := by
    rw [hk]
    have : π * π < 3.15 * 3.15 := by nlinarith
    nlinarith
  have hk2 : 0.00039 < k := by
    rw [hk]
    have : 3.14 * 3.14 < π * π := by nlinarith
    nlinarith
  have ht : tanh (k * 10) ≤ k * 10 := tanh_le_self (by positivity)
  have e : (2 * π / 100) ^ 2 = 10 * k := by rw [hk]; ring
  rw [e]
  have : 10 * k * tanh (k * 10) ≤ 10 * k * (k * 10) := mul_le_mul_of_nonneg_left ht (by positivity)
  nlinarith

/-- Such a history exists: a new field in 10 m of water set to 1 s waves ends with the flag set. -/
theorem C39_history_reachable : ∃ f, (Regular.new ⟨false, 10⟩).setWavePeriod ⟨false, 10⟩ 10 1 = some f ∧ f.inf = true := by
  have hπ := pi_gt_d2
  obtain ⟨k, -, hk, hkp, hres, -⟩ := C25_finite_depth 10 (2 * π / 1) 10 (by norm_num) (by norm_num) (by positivity)
  refine ⟨{ Regular.new ⟨false, 10⟩ with omega := 2 * π / 1, k := k, inf := decide (3 / k < 10), infV := decide (3 / k < 10) }, ?_, ?_⟩
  · unfold Regular.setWavePeriod
    simp only [Regular.new, Bool.false_eq_true, if_false]
    rw [hk]; rfl
  · simp only [decide_eq_true_eq]
    rw [div_lt_iff₀ hkp]
    by_contra hcon
    have hle : k ≤ 0.3 := by linarith
    have htl := tanh_lt_one (k * 10)
    have hlow := (abs_le.mp hres).2
    have hb : 10 * k * tanh (k * 10) ≤ 3 := by
      have h0 : 0 ≤ tanh (k * 10) := (tanh_pos (by positivity)).le
      have := mul_le_mul hle htl.le h0 (by norm_num : (0:ℝ) ≤ 0.3)
      linarith
    norm_num at hlow
    nlinarith

/-- **C39, initialisation.** Initialising a regular field in infinite depth, or whose waves were not declared deep-water ones,
keeps the vertical profile and the pressure law consistent (same depth regime). -/
theorem C39_initialize_partial (f : Regular) (fl : Floor) (ρ g : ℝ) (h : f.infV = fl.infinite) :
    (f.initialize fl ρ g).infV = (f.initialize fl ρ g).inf := h

/-- **C39 fails at initialisation** for deep-water waves over a finite depth: the exponential profile is used together with the
finite-depth pressure law, so that the dynamic pressure at the mean level is not `ρ g` times the elevation. -/
theorem C39_initialize_counterexample (f : Regular) (fl : Floor) (ρ g : ℝ) (hf : f.infV = true) (hfl : fl.infinite = false)
    (hkind : f.kind = .none) (x y : ℝ) (hne : f.elevation x y .NWU ≠ 0) (hρ : ρ ≠ 0) (hg : g ≠ 0) :
    (f.initialize fl ρ g).pressure x y 0 .NWU = ρ * g * f.elevation x y .NWU * tanh (f.k * fl.depth) ∧
    (f.initialize fl ρ g).pressure x y 0 .NWU ≠ ρ * g * (f.initialize fl ρ g).elevation x y .NWU := by
  have e : (f.initialize fl ρ g).elevation x y .NWU = f.elevation x y .NWU := rfl
  have h1 : (f.initialize fl ρ g).pressure x y 0 .NWU = ρ * g * f.elevation x y .NWU * tanh (f.k * fl.depth) := by
    simp only [Regular.pressure, Regular.evalV, e]
    simp [Regular.initialize, hfl, hkind, eval5, Ez, hf]
  refine ⟨h1, ?_⟩
  rw [h1, e]
  intro h
  have h2 : ρ * g * f.elevation x y .NWU ≠ 0 := mul_ne_zero (mul_ne_zero hρ hg) hne
  have h3 := mul_left_cancel₀ h2 (h.trans (mul_one _).symm)
  exact absurd h3 (tanh_lt_one _).ne

/-- **C39, stretching.** The irregular field uses the stretching asked for; the regular field does for the first four types. -/
theorem C39_stretching (f : Airy) (r : Regular) (t : StretchType) :
    (f.setStretching t).kind = t.kind ∧ (f.setStretching t).infV = f.inf ∧
    (t ≠ .chakrabarti → t ≠ .delta → t ≠ .hdelta → (r.setStretching t).kind = t.kind) ∧ (r.setStretching t).infV = r.inf := by
  cases t <;> simp [Airy.setStretching, Regular.setStretching, StretchType.kind]

/-- **C39 fails for the stretching of regular fields**: asking for Chakrabarti, delta or H-delta stretching gives none: the
kinematics are those without stretching. -/
theorem C39_stretching_counterexample (r : Regular) (t : StretchType) (h : t = .chakrabarti ∨ t = .delta ∨ t = .hdelta)
    (x y z : ℝ) (fc : FC) : (r.setStretching t).velocity x y z fc = (r.setStretching .noStretching).velocity x y z fc ∧
      (r.setStretching t).kind ≠ t.kind := by
  rcases h with rfl | rfl | rfl <;> exact ⟨rfl, by simp [Regular.setStretching, StretchType.kind]⟩

end Frydom.Waves
