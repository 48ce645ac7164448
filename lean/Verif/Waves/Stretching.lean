import Verif.Waves.Dispersion

/-!
# Model of the kinematic stretchings (src/frydom/environment/ocean/freeSurface/waves/FrKinematicStretching.{h,cpp})

A stretching reads the wave elevation at the point through `m_waveField->GetElevation(x, y, NWU)`; here this number is the
argument `eta`. `Eval(x,y,z,k,depth)` is a virtual function distinct from `Eval(z,k,depth)`; the wave fields call the
former only.
-/

open Classical Filter Topology

noncomputable section

namespace Frydom.Waves
open Real

/-- `STRETCHING_TYPE` and the parameters of each class (FrKinematicStretching.h). -/
inductive Kind
  | none | vertical | extrapol | wheeler | chakrabarti
  | delta (hd delta : ℝ)
  | hdelta (delta : ℝ)

/-- `DBL_EPSILON`. -/
def eps : ℝ := 2 ^ (-52 : ℤ)

/-- `Ez` (FrKinematicStretching.cpp:79-85); `inf` is `c_infinite_depth`. -/
def Ez (inf : Bool) (z k depth : ℝ) : ℝ := if inf then exp (k * z) else cosh (k * (z + depth)) / sinh (k * depth)
/-- `diffEz` (FrKinematicStretching.cpp:80-86). -/
def diffEz (inf : Bool) (z k depth : ℝ) : ℝ :=
  if inf then k * exp (k * z) else k * sinh (k * (z + depth)) / sinh (k * depth)

/-- Three-argument `Eval` (FrKinematicStretching.cpp:26-28, 92-98, 112-118, 162-165); not overridden by Chakrabarti, delta
and H-delta. -/
def eval3 (kind : Kind) (inf : Bool) (z k depth : ℝ) : ℝ :=
  match kind with
  | .vertical => if z < eps then Ez inf z k depth else Ez inf 0 k depth
  | .extrapol => if z < eps then Ez inf z k depth else Ez inf 0 k depth + k * z
  | .wheeler => 1
  | _ => Ez inf z k depth

/-- Three-argument `EvalDZ` (FrKinematicStretching.cpp:49-51, 100-106, 120-126, 167-170). -/
def evalDZ3 (kind : Kind) (inf : Bool) (z k depth : ℝ) : ℝ :=
  match kind with
  | .vertical => if z < eps then diffEz inf z k depth else diffEz inf 0 k depth
  | .extrapol => if z < eps then diffEz inf z k depth else diffEz inf 0 k depth + k
  | .wheeler => 1
  | _ => diffEz inf z k depth

/-- Delta stretching: `Zp` (FrKinematicStretching.cpp:232-243). -/
def zpDelta (hd delta eta z : ℝ) : ℝ := if -hd < z then (z + hd) * (hd + delta * eta) / (hd + eta) - hd else z
/-- `DZp` (FrKinematicStretching.cpp:245-256). -/
def dzpDelta (hd delta eta z : ℝ) : ℝ := if -hd < z then (hd + delta * eta) / (hd + eta) else 1
/-- H-delta stretching: `Zp`, `DZp` (FrKinematicStretching.cpp:298-310). -/
def zpHDelta (delta eta z depth : ℝ) : ℝ := (z + depth) * (depth + delta * eta) / (depth + eta) - depth
def dzpHDelta (delta eta depth : ℝ) : ℝ := (depth + delta * eta) / (depth + eta)

/-- Five-argument `Eval` (FrKinematicStretching.cpp:30-33 — which calls `Ez`, not the three-argument `Eval` —, 139-149, 185-193,
215-224, 287-296). -/
def eval5 (kind : Kind) (inf : Bool) (eta z k depth : ℝ) : ℝ :=
  match kind with
  | .none | .vertical | .extrapol => Ez inf z k depth
  | .wheeler => Ez inf (depth * ((depth + z) / (depth + eta) - 1)) k depth
  | .chakrabarti => if inf then exp (k * z) else cosh (k * (z + depth)) / sinh (k * (depth + eta))
  | .delta hd d =>
    let zp := zpDelta hd d eta z
    if zp < eps then Ez inf zp k depth else Ez inf 0 k depth + k * zp
  | .hdelta d =>
    let zp := zpHDelta d eta z depth
    if zp < eps then Ez inf zp k depth else Ez inf 0 k depth + k * zp

/-- Five-argument `EvalDZ` (FrKinematicStretching.cpp:53-56 — calls the virtual three-argument `EvalDZ` —, 152-163, 195-205,
226-242, 298-311). -/
def evalDZ5 (kind : Kind) (inf : Bool) (eta z k depth : ℝ) : ℝ :=
  match kind with
  | .none | .vertical | .extrapol => evalDZ3 kind inf z k depth
  | .wheeler => diffEz inf (depth * ((depth + z) / (depth + eta) - 1)) k depth * (depth / (depth + eta))
  | .chakrabarti => if inf then k * exp (k * z) else k * sinh (k * (z + depth)) / sinh (k * (depth + eta))
  | .delta hd d =>
    let zp := zpDelta hd d eta z
    let drz := dzpDelta hd d eta z
    if zp < eps then diffEz inf zp k depth * drz else diffEz inf 0 k depth * drz + k
  | .hdelta d =>
    let zp := zpHDelta d eta z depth
    let drz := dzpHDelta d eta depth
    if zp < eps then diffEz inf zp k depth * drz else diffEz inf 0 k depth * drz + k

/-! ## Lemmas -/

theorem eps_pos : 0 < eps := by unfold eps; positivity
theorem eps_lt : eps < 1 := by unfold eps; norm_num

theorem hasDerivAt_Ez (inf : Bool) (z k depth : ℝ) : HasDerivAt (fun z => Ez inf z k depth) (diffEz inf z k depth) z := by
  cases inf
  · simp only [Ez, diffEz, Bool.false_eq_true, if_false]
    have h := (((hasDerivAt_id z).add_const depth).const_mul k).cosh.div_const (sinh (k * depth))
    refine h.congr_deriv ?_
    simp; ring
  · simp only [Ez, diffEz, if_true]
    have h := ((hasDerivAt_id z).const_mul k).exp
    refine h.congr_deriv ?_
    simp; ring

/-- The vertical coordinate at which the linear solution is evaluated. -/
def zp (kind : Kind) (eta z depth : ℝ) : ℝ :=
  match kind with
  | .wheeler => depth * ((depth + z) / (depth + eta) - 1)
  | .delta hd d => zpDelta hd d eta z
  | .hdelta d => zpHDelta d eta z depth
  | _ => z

/-! ## C26 -/

/-- **C26, no wave.** Where the elevation is zero and at or below the mean level, every stretching reduces to the Airy depth
function and its derivative. -/
theorem C26_calm (kind : Kind) (inf : Bool) (z k depth : ℝ) (hz : z ≤ 0) (hd : depth ≠ 0) :
    eval5 kind inf 0 z k depth = Ez inf z k depth ∧ evalDZ5 kind inf 0 z k depth = diffEz inf z k depth := by
  have hze : z < eps := lt_of_le_of_lt hz eps_pos
  cases kind with
  | none => exact ⟨rfl, rfl⟩
  | vertical => exact ⟨rfl, by simp [evalDZ5, evalDZ3, hze]⟩
  | extrapol => exact ⟨rfl, by simp [evalDZ5, evalDZ3, hze]⟩
  | wheeler =>
    have e : depth * ((depth + z) / (depth + 0) - 1) = z := by rw [add_zero]; field_simp; ring
    have e2 : depth / (depth + 0) = 1 := by rw [add_zero, div_self hd]
    simp only [eval5, evalDZ5, e, e2, mul_one]; trivial
  | chakrabarti => simp [eval5, evalDZ5, Ez, diffEz]
  | delta h d =>
    have e : zpDelta h d 0 z = z := by
      unfold zpDelta
      split_ifs with hc
      · have : h ≠ 0 := by rintro rfl; linarith
        rw [mul_zero, add_zero, mul_div_assoc, div_self this]; ring
      · rfl
    have e2 : dzpDelta h d 0 z = 1 := by
      unfold dzpDelta
      split_ifs with hc
      · have : h ≠ 0 := by rintro rfl; linarith
        rw [mul_zero, add_zero, div_self this]
      · rfl
    simp only [eval5, evalDZ5, e, e2, if_pos hze, mul_one]; trivial
  | hdelta d =>
    have e : zpHDelta d 0 z depth = z := by
      unfold zpHDelta
      rw [mul_zero, add_zero, mul_div_assoc, div_self hd]; ring
    have e2 : dzpHDelta d 0 depth = 1 := by unfold dzpHDelta; rw [mul_zero, add_zero, div_self hd]
    simp only [eval5, evalDZ5, e, e2, if_pos hze, mul_one]; trivial

/-- **C26, derivatives, everywhere** for no stretching, Wheeler and Chakrabarti: the z-derivative reported is the derivative of
the value, at every height and elevation. -/
theorem C26_derivative (kind : Kind) (hk : kind = .none ∨ kind = .wheeler ∨ kind = .chakrabarti) (inf : Bool)
    (eta z k depth : ℝ) : HasDerivAt (fun z => eval5 kind inf eta z k depth) (evalDZ5 kind inf eta z k depth) z := by
  rcases hk with rfl | rfl | rfl
  · exact hasDerivAt_Ez inf z k depth
  · simp only [eval5, evalDZ5]
    have h1 : HasDerivAt (fun z => depth * ((depth + z) / (depth + eta) - 1)) (depth / (depth + eta)) z := by
      have h := ((((hasDerivAt_id z).const_add depth).div_const (depth + eta)).sub_const 1).const_mul depth
      refine h.congr_deriv ?_
      ring
    exact (hasDerivAt_Ez inf _ k depth).comp z h1
  · cases inf
    · simp only [eval5, evalDZ5, Bool.false_eq_true, if_false]
      have h := (((hasDerivAt_id z).add_const depth).const_mul k).cosh.div_const (sinh (k * (depth + eta)))
      refine h.congr_deriv ?_
      simp; ring
    · exact hasDerivAt_Ez true z k depth

/-- **C26, derivatives under the (stretched) mean level (part)**: for every stretching, at every point whose stretched height is
below `DBL_EPSILON` (and, for delta stretching, off the level `-hd` where the coordinate itself has a kink) the reported
z-derivative is the derivative of the value. Missing: points above the mean level for vertical, extrapolation, delta and
H-delta stretching, where the code is wrong (counterexamples below). -/
theorem C26_derivative_below_partial (kind : Kind) (inf : Bool) (eta z k depth : ℝ) (hz : zp kind eta z depth < eps)
    (hkink : ∀ hd d, kind = .delta hd d → z ≠ -hd) :
    HasDerivAt (fun z => eval5 kind inf eta z k depth) (evalDZ5 kind inf eta z k depth) z := by
  cases kind with
  | none => exact C26_derivative _ (by simp) inf eta z k depth
  | wheeler => exact C26_derivative _ (by simp) inf eta z k depth
  | chakrabarti => exact C26_derivative _ (by simp) inf eta z k depth
  | vertical =>
    simp only [zp] at hz
    simp only [eval5, evalDZ5, evalDZ3, if_pos hz]; exact hasDerivAt_Ez inf z k depth
  | extrapol =>
    simp only [zp] at hz
    simp only [eval5, evalDZ5, evalDZ3, if_pos hz]; exact hasDerivAt_Ez inf z k depth
  | delta hd d =>
    simp only [zp] at hz
    simp only [eval5, evalDZ5, if_pos hz]
    have hne := hkink hd d rfl
    have hder : HasDerivAt (fun z => zpDelta hd d eta z) (dzpDelta hd d eta z) z := by
      unfold dzpDelta
      rcases lt_or_gt_of_ne hne with h | h
      · rw [if_neg (not_lt.mpr h.le)]
        refine (hasDerivAt_id z).congr_of_eventuallyEq ?_
        filter_upwards [Iio_mem_nhds h] with y hy
        simp only [zpDelta, if_neg (not_lt.mpr (le_of_lt (Set.mem_Iio.mp hy)))]; rfl
      · rw [if_pos h]
        have h1 := ((((hasDerivAt_id z).add_const hd).mul_const (hd + d * eta)).div_const (hd + eta)).sub_const hd
        have h2 := h1.congr_of_eventuallyEq (f₁ := fun z => zpDelta hd d eta z) (by
          filter_upwards [Ioi_mem_nhds h] with y hy
          simp only [zpDelta, if_pos (Set.mem_Ioi.mp hy)]; rfl)
        refine h2.congr_deriv ?_
        ring
    have hcomp := (hasDerivAt_Ez inf (zpDelta hd d eta z) k depth).comp z hder
    refine hcomp.congr_of_eventuallyEq ?_
    have hopen := hder.continuousAt.eventually (Iio_mem_nhds hz)
    filter_upwards [hopen] with y hy
    simp only [if_pos hy]; rfl
  | hdelta d =>
    simp only [zp] at hz
    simp only [eval5, evalDZ5, if_pos hz]
    have hder : HasDerivAt (fun z => zpHDelta d eta z depth) (dzpHDelta d eta depth) z := by
      unfold zpHDelta dzpHDelta
      have h1 := ((((hasDerivAt_id z).add_const depth).mul_const (depth + d * eta)).div_const (depth + eta)).sub_const depth
      refine h1.congr_deriv ?_
      ring
    have hcomp := (hasDerivAt_Ez inf (zpHDelta d eta z depth) k depth).comp z hder
    refine hcomp.congr_of_eventuallyEq ?_
    have hopen := hder.continuousAt.eventually (Iio_mem_nhds hz)
    filter_upwards [hopen] with y hy
    simp only [if_pos hy]; rfl

/-- Non-vacuity: 2 m under the mean level below a crest of 1 m. -/
example : HasDerivAt (fun z => eval5 (.hdelta 0.3) false 1 z 0.1 20) (evalDZ5 (.hdelta 0.3) false 1 (-2) 0.1 20) (-2) := by
  apply C26_derivative_below_partial
  · have := eps_pos
    simp only [zp, zpHDelta]; norm_num; linarith
  · intro hd d h; cases h

/-- **C26 fails above the mean level** for vertical and extrapolation stretching in their three-argument form: the value is
frozen (resp. grows like `k z`) but the reported derivative is not 0 (resp. `k`). -/
theorem C26_above_counterexample :
    (∀ z, eps < z → HasDerivAt (fun z => eval3 .vertical true z 1 10) 0 z ∧ evalDZ3 .vertical true z 1 10 = 1) ∧
    (∀ z, eps < z → HasDerivAt (fun z => eval3 .extrapol true z 1 10) 1 z ∧ evalDZ3 .extrapol true z 1 10 = 2) := by
  constructor
  · intro z hz
    refine ⟨?_, ?_⟩
    · refine (hasDerivAt_const z (Ez true 0 1 10)).congr_of_eventuallyEq ?_
      filter_upwards [Ioi_mem_nhds hz] with y hy
      simp [eval3, not_lt.mpr (le_of_lt (Set.mem_Ioi.mp hy))]
    · simp [evalDZ3, not_lt.mpr hz.le, diffEz]
  · intro z hz
    refine ⟨?_, ?_⟩
    · have h := ((hasDerivAt_id z).const_mul (1:ℝ)).const_add (Ez true 0 1 10)
      rw [one_mul] at h
      refine h.congr_of_eventuallyEq ?_
      filter_upwards [Ioi_mem_nhds hz] with y hy
      simp [eval3, not_lt.mpr (le_of_lt (Set.mem_Ioi.mp hy))]
    · simp [evalDZ3, not_lt.mpr hz.le, diffEz]; norm_num

/-- **Vertical and extrapolation stretching have no effect on the value used by the wave fields** (five-argument form): above
the mean level it is still the exponential, while the z-derivative is the stretched one; so the derivative is wrong there. -/
theorem C26_vertical_ignored_counterexample (kind : Kind) (hk : kind = .vertical ∨ kind = .extrapol) :
    (∀ inf eta z k depth, eval5 kind inf eta z k depth = Ez inf z k depth) ∧
    ¬ HasDerivAt (fun z => eval5 kind true 0 z 1 10) (evalDZ5 kind true 0 1 1 10) 1 := by
  refine ⟨by rcases hk with rfl | rfl <;> intros <;> rfl, ?_⟩
  intro h
  have h1 : HasDerivAt (fun z => eval5 kind true 0 z 1 10) (exp 1) 1 := by
    have := hasDerivAt_Ez true 1 1 10
    simp only [diffEz, if_true, one_mul] at this
    rcases hk with rfl | rfl <;> exact this
  have e := h.unique h1
  have hne : ¬ (1 : ℝ) < eps := not_lt.mpr eps_lt.le
  have hexp := Real.add_one_lt_exp (x := 1) (by norm_num)
  have hexp2 : (2:ℝ) < exp 1 := by linarith
  rcases hk with rfl | rfl
  · simp [evalDZ5, evalDZ3, hne, diffEz] at e; linarith
  · simp [evalDZ5, evalDZ3, hne, diffEz] at e
    linarith

/-- **C26 fails above the mean level for delta and H-delta stretching**: with elevation 1, depth (or `hd`) 1, delta 1 the
coordinate is not stretched, the value grows like `k z` but the reported derivative is `2 k`. -/
theorem C26_delta_counterexample :
    ¬ HasDerivAt (fun z => eval5 (.delta 1 1) true 1 z 1 10) (evalDZ5 (.delta 1 1) true 1 1 1 10) 1 ∧
    ¬ HasDerivAt (fun z => eval5 (.hdelta 1) true 1 z 1 10) (evalDZ5 (.hdelta 1) true 1 1 1 10) 1 := by
  have hne : ¬ (1 : ℝ) < eps := not_lt.mpr eps_lt.le
  have hlin : HasDerivAt (fun z : ℝ => Ez true 0 1 10 + 1 * z) 1 1 := by
    have h := ((hasDerivAt_id (1:ℝ)).const_mul (1:ℝ)).const_add (Ez true 0 1 10)
    rw [one_mul] at h
    exact h
  have e1 : ∀ y : ℝ, eps < y → zpDelta 1 1 1 y = y := by
    intro y hy
    have := eps_pos
    unfold zpDelta
    rw [if_pos (by linarith)]; norm_num
  have e2 : ∀ y : ℝ, zpHDelta 1 1 y 10 = y := by intro y; unfold zpHDelta; norm_num
  constructor
  · intro h
    have h1 : HasDerivAt (fun z => eval5 (.delta 1 1) true 1 z 1 10) 1 1 := by
      refine hlin.congr_of_eventuallyEq ?_
      filter_upwards [Ioi_mem_nhds eps_lt] with y hy
      simp [eval5, e1 y hy, not_lt.mpr (le_of_lt (Set.mem_Ioi.mp hy))]
    have e := h.unique h1
    have hd : dzpDelta 1 1 1 1 = 1 := by unfold dzpDelta; norm_num
    simp [evalDZ5, e1 1 eps_lt, hne, diffEz, hd] at e
  · intro h
    have h1 : HasDerivAt (fun z => eval5 (.hdelta 1) true 1 z 1 10) 1 1 := by
      refine hlin.congr_of_eventuallyEq ?_
      filter_upwards [Ioi_mem_nhds eps_lt] with y hy
      simp [eval5, e2 y, not_lt.mpr (le_of_lt (Set.mem_Ioi.mp hy))]
    have e := h.unique h1
    have hd : dzpHDelta 1 1 10 = 1 := by unfold dzpHDelta; norm_num
    simp [evalDZ5, e2 1, hne, diffEz, hd] at e

end Frydom.Waves
