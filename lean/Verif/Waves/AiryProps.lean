import Verif.Waves.Airy
import Mathlib.Analysis.SpecialFunctions.Exp

/-!
# Linear wave theory: specification, and the Airy wave fields satisfy it (C35), conventions (C38)
-/

open Classical Filter Topology

noncomputable section

namespace Frydom.Waves
open Real Frydom.Geom

/-! ## Specification -/

/-- The linearised free-surface flow of an inviscid fluid of density `ρ` under gravity `g`, in a frame with `z` upwards and
`z = 0` the mean level: elevation `η x y t`, velocity `v x y z t`, acceleration `a x y z t`, dynamic pressure `p x y z t`;
`bottom = some d` for a flat bottom at `z = -d`, `none` for infinitely deep water. -/
structure LinearWaveFlow (g ρ : ℝ) (bottom : Option ℝ) (η : ℝ → ℝ → ℝ → ℝ) (v a : ℝ → ℝ → ℝ → ℝ → V3)
    (p : ℝ → ℝ → ℝ → ℝ → ℝ) : Prop where
  /-- the flow is incompressible -/
  divergence : ∀ x y z t, ∃ dx dy dz, HasDerivAt (fun s => (v s y z t).x) dx x ∧ HasDerivAt (fun s => (v x s z t).y) dy y ∧
    HasDerivAt (fun s => (v x y s t).z) dz z ∧ dx + dy + dz = 0
  /-- and irrotational -/
  curl : ∀ x y z t, ∃ c1 c2 c3, HasDerivAt (fun s => (v x s z t).z) c1 y ∧ HasDerivAt (fun s => (v x y s t).y) c1 z ∧
    HasDerivAt (fun s => (v x y s t).x) c2 z ∧ HasDerivAt (fun s => (v s y z t).z) c2 x ∧
    HasDerivAt (fun s => (v s y z t).y) c3 x ∧ HasDerivAt (fun s => (v x s z t).x) c3 y
  /-- the acceleration is the time derivative of the velocity -/
  accel : ∀ x y z t, HasDerivAt (fun s => (v x y z s).x) (a x y z t).x t ∧ HasDerivAt (fun s => (v x y z s).y) (a x y z t).y t ∧
    HasDerivAt (fun s => (v x y z s).z) (a x y z t).z t
  /-- linearised Euler equation -/
  momentum : ∀ x y z t, HasDerivAt (fun s => p s y z t) (-ρ * (a x y z t).x) x ∧
    HasDerivAt (fun s => p x s z t) (-ρ * (a x y z t).y) y ∧ HasDerivAt (fun s => p x y s t) (-ρ * (a x y z t).z) z
  /-- a particle of the free surface stays on it -/
  kinematic : ∀ x y t, HasDerivAt (fun s => η x y s) (v x y 0 t).z t
  /-- constant pressure at the free surface -/
  dynamic : ∀ x y t, p x y 0 t = ρ * g * η x y t
  /-- no flow through the bottom -/
  impermeable : ∀ d, bottom = some d → ∀ x y t, (v x y (-d) t).z = 0
  /-- no motion at great depth -/
  decay : bottom = none → ∀ x y t, Tendsto (fun z => (v x y z t).x) atBot (𝓝 0) ∧
    Tendsto (fun z => (v x y z t).y) atBot (𝓝 0) ∧ Tendsto (fun z => (v x y z t).z) atBot (𝓝 0)

/-! ## Expansions in real form -/

namespace Airy

/-- Phase of a component. -/
def ph (f : Airy) (x y t : ℝ) (i j : ℕ) : ℝ :=
  f.k j * (x * cos (f.dir i) + y * sin (f.dir i)) - f.freq j * t + f.phase i j

theorem exp_I_mul (θ : ℝ) : Complex.exp (Complex.I * (θ : ℂ)) = (cos θ : ℂ) + (sin θ : ℂ) * Complex.I := by
  rw [mul_comm, Complex.exp_mul_I, Complex.ofReal_cos, Complex.ofReal_sin]

theorem ce_im (f : Airy) (x y : ℝ) (fc : FC) (i j : ℕ) :
    (f.complexElevation x y fc i j).im = f.amp i j * f.ramp * nwuSign fc * sin (f.ph x (nwuSign fc * y) f.time i j) := by
  simp only [complexElevation, exp_I_mul, ph]
  simp only [Complex.mul_im, Complex.mul_re, Complex.add_im, Complex.add_re, Complex.ofReal_im, Complex.ofReal_re,
    Complex.I_re, Complex.I_im]
  ring

theorem ce_re (f : Airy) (x y : ℝ) (fc : FC) (i j : ℕ) :
    (f.complexElevation x y fc i j).re = f.amp i j * f.ramp * nwuSign fc * cos (f.ph x (nwuSign fc * y) f.time i j) := by
  simp only [complexElevation, exp_I_mul, ph]
  simp only [Complex.mul_im, Complex.mul_re, Complex.add_im, Complex.add_re, Complex.ofReal_im, Complex.ofReal_re,
    Complex.I_re, Complex.I_im]
  ring

theorem sum_im (s : Finset ℕ) (g : ℕ → ℂ) : (∑ i ∈ s, g i).im = ∑ i ∈ s, (g i).im := Complex.im_sum s g

theorem vx_eq (f : Airy) (x y z : ℝ) (fc : FC) :
    (f.velocity x y z fc).x = ∑ j ∈ Finset.range f.nbFreq, ∑ i ∈ Finset.range f.nbDir,
      cos (f.dir i) * f.freq j * f.evalV x (nwuSign fc * y) (nwuSign fc * z) (f.k j) * nwuSign fc *
        (f.complexElevation x (nwuSign fc * y) fc i j).im := by
  simp only [velocity, complexVelocity, sum_im]
  refine Finset.sum_congr rfl fun j _ => Finset.sum_congr rfl fun i _ => ?_
  simp only [Complex.mul_im, Complex.mul_re, Complex.ofReal_im, Complex.ofReal_re]
  ring

theorem vy_eq (f : Airy) (x y z : ℝ) (fc : FC) :
    (f.velocity x y z fc).y = ∑ j ∈ Finset.range f.nbFreq, ∑ i ∈ Finset.range f.nbDir,
      sin (f.dir i) * f.freq j * f.evalV x (nwuSign fc * y) (nwuSign fc * z) (f.k j) *
        (f.complexElevation x (nwuSign fc * y) fc i j).im := by
  simp only [velocity, complexVelocity, sum_im]
  refine Finset.sum_congr rfl fun j _ => Finset.sum_congr rfl fun i _ => ?_
  simp only [Complex.mul_im, Complex.mul_re, Complex.ofReal_im, Complex.ofReal_re]
  ring

theorem I_div (k : ℝ) : -Complex.I / (k : ℂ) = ((-k⁻¹ : ℝ) : ℂ) * Complex.I := by
  push_cast
  rw [div_eq_mul_inv]; ring

theorem vz_eq (f : Airy) (x y z : ℝ) (fc : FC) :
    (f.velocity x y z fc).z = ∑ j ∈ Finset.range f.nbFreq, ∑ i ∈ Finset.range f.nbDir,
      -((f.k j)⁻¹ * f.freq j * f.evalDZV x (nwuSign fc * y) (nwuSign fc * z) (f.k j)) *
        (f.complexElevation x (nwuSign fc * y) fc i j).re := by
  simp only [velocity, complexVelocity, sum_im, I_div]
  refine Finset.sum_congr rfl fun j _ => Finset.sum_congr rfl fun i _ => ?_
  simp only [Complex.mul_im, Complex.mul_re, Complex.ofReal_im, Complex.ofReal_re, Complex.I_re, Complex.I_im]
  ring

theorem ax_eq (f : Airy) (x y z : ℝ) (fc : FC) :
    (f.acceleration x y z fc).x = ∑ j ∈ Finset.range f.nbFreq, ∑ i ∈ Finset.range f.nbDir,
      -(cos (f.dir i) * f.freq j ^ 2 * f.evalV x (nwuSign fc * y) (nwuSign fc * z) (f.k j) * nwuSign fc *
        (f.complexElevation x (nwuSign fc * y) fc i j).re) := by
  simp only [acceleration, complexVelocity, Finset.mul_sum, sum_im]
  refine Finset.sum_congr rfl fun j _ => Finset.sum_congr rfl fun i _ => ?_
  simp only [Complex.mul_im, Complex.mul_re, Complex.ofReal_im, Complex.ofReal_re, Complex.neg_re, Complex.neg_im,
    Complex.I_re, Complex.I_im]
  ring

theorem ay_eq (f : Airy) (x y z : ℝ) (fc : FC) :
    (f.acceleration x y z fc).y = ∑ j ∈ Finset.range f.nbFreq, ∑ i ∈ Finset.range f.nbDir,
      -(sin (f.dir i) * f.freq j ^ 2 * f.evalV x (nwuSign fc * y) (nwuSign fc * z) (f.k j) *
        (f.complexElevation x (nwuSign fc * y) fc i j).re) := by
  simp only [acceleration, complexVelocity, Finset.mul_sum, sum_im]
  refine Finset.sum_congr rfl fun j _ => Finset.sum_congr rfl fun i _ => ?_
  simp only [Complex.mul_im, Complex.mul_re, Complex.ofReal_im, Complex.ofReal_re, Complex.neg_re, Complex.neg_im,
    Complex.I_re, Complex.I_im]
  ring

theorem az_eq (f : Airy) (x y z : ℝ) (fc : FC) :
    (f.acceleration x y z fc).z = ∑ j ∈ Finset.range f.nbFreq, ∑ i ∈ Finset.range f.nbDir,
      -((f.k j)⁻¹ * f.freq j ^ 2 * f.evalDZV x (nwuSign fc * y) (nwuSign fc * z) (f.k j)) *
        (f.complexElevation x (nwuSign fc * y) fc i j).im := by
  simp only [acceleration, complexVelocity, Finset.mul_sum, sum_im, I_div]
  refine Finset.sum_congr rfl fun j _ => Finset.sum_congr rfl fun i _ => ?_
  simp only [Complex.mul_im, Complex.mul_re, Complex.ofReal_im, Complex.ofReal_re, Complex.neg_re, Complex.neg_im,
    Complex.I_re, Complex.I_im]
  ring

/-! ### Partial derivatives of the phase -/

theorem ph_dx (f : Airy) (x y t : ℝ) (i j : ℕ) : HasDerivAt (fun s => f.ph s y t i j) (f.k j * cos (f.dir i)) x := by
  have h := (((((hasDerivAt_id x).mul_const (cos (f.dir i))).add_const (y * sin (f.dir i))).const_mul (f.k j)).sub_const
    (f.freq j * t)).add_const (f.phase i j)
  refine h.congr_deriv ?_
  simp
theorem ph_dy (f : Airy) (x y t : ℝ) (i j : ℕ) : HasDerivAt (fun s => f.ph x s t i j) (f.k j * sin (f.dir i)) y := by
  have h := (((((hasDerivAt_id y).mul_const (sin (f.dir i))).const_add (x * cos (f.dir i))).const_mul (f.k j)).sub_const
    (f.freq j * t)).add_const (f.phase i j)
  refine h.congr_deriv ?_
  simp
theorem ph_dt (f : Airy) (x y t : ℝ) (i j : ℕ) : HasDerivAt (fun s => f.ph x y s i j) (-f.freq j) t := by
  have h := (((hasDerivAt_id t).const_mul (f.freq j)).const_sub
    (f.k j * (x * cos (f.dir i) + y * sin (f.dir i)))).add_const (f.phase i j)
  refine h.congr_deriv ?_
  simp

/-! ### The field in real form, without stretching, NWU -/

variable (f : Airy)

/-- Sum over all components. -/
def S (f : Airy) (c : ℕ → ℕ → ℝ) : ℝ := ∑ j ∈ Finset.range f.nbFreq, ∑ i ∈ Finset.range f.nbDir, c i j

theorem hasDerivAt_S {g : ℝ → ℕ → ℕ → ℝ} {g' : ℕ → ℕ → ℝ} {x : ℝ} (h : ∀ i j, HasDerivAt (fun s => g s i j) (g' i j) x) :
    HasDerivAt (fun s => f.S (g s)) (f.S g') x :=
  HasDerivAt.fun_sum fun j _ => HasDerivAt.fun_sum fun i _ => h i j

theorem S_congr {c d : ℕ → ℕ → ℝ} (h : ∀ i j, j < f.nbFreq → c i j = d i j) : f.S c = f.S d :=
  Finset.sum_congr rfl fun j hj => Finset.sum_congr rfl fun i _ => h i j (Finset.mem_range.mp hj)
theorem S_mul (a : ℝ) (c : ℕ → ℕ → ℝ) : a * f.S c = f.S fun i j => a * c i j := by
  simp only [S, Finset.mul_sum]
theorem S_add (c d : ℕ → ℕ → ℝ) : f.S c + f.S d = f.S fun i j => c i j + d i j := by
  simp only [S, Finset.sum_add_distrib]
theorem S_zero : f.S (fun _ _ => 0) = 0 := by simp [S]
theorem S_tendsto {g : ℝ → ℕ → ℕ → ℝ} {l : Filter ℝ} (h : ∀ i j, j < f.nbFreq → Tendsto (fun s => g s i j) l (𝓝 0)) :
    Tendsto (fun s => f.S (g s)) l (𝓝 0) := by
  have := tendsto_finsetSum (Finset.range f.nbFreq) (f := fun j s => ∑ i ∈ Finset.range f.nbDir, g s i j) (a := fun _ => (0:ℝ))
    (x := l) (fun j hj => by
      have := tendsto_finsetSum (Finset.range f.nbDir) (f := fun i s => g s i j) (a := fun _ => (0:ℝ)) (x := l)
        (fun i _ => h i j (Finset.mem_range.mp hj))
      simpa using this)
  simpa [S] using this

/-- The field at time `t` (no active time ramp, constant depth). -/
def at_ (t : ℝ) : Airy := { f with time := t }

theorem update_eq (t : ℝ) : f.update none f.depth t = f.at_ t := by
  simp [update, at_]

variable {f}

theorem elev_S (t x y : ℝ) : (f.at_ t).elevation x y .NWU = f.S fun i j => f.amp i j * f.ramp * sin (f.ph x y t i j) := by
  simp only [elevation, ce_im, nwuSign, one_mul, mul_one]
  rw [Finset.sum_comm]; rfl

theorem evalV_none (hk : f.kind = .none) (x y z k : ℝ) : f.evalV x y z k = Ez f.infV z k f.depth := by
  simp [evalV, hk, eval5]
theorem evalDZV_none (hk : f.kind = .none) (x y z k : ℝ) : f.evalDZV x y z k = diffEz f.infV z k f.depth := by
  simp [evalDZV, hk, evalDZ5, evalDZ3]

theorem vx_S (hk : f.kind = .none) (t x y z : ℝ) : ((f.at_ t).velocity x y z .NWU).x = f.S fun i j =>
    cos (f.dir i) * f.freq j * (f.amp i j * f.ramp) * sin (f.ph x y t i j) * Ez f.infV z (f.k j) f.depth := by
  rw [vx_eq]
  simp only [ce_im, nwuSign, one_mul, mul_one, evalV_none (f := f.at_ t) hk]
  refine f.S_congr fun i j _ => ?_
  simp only [at_, ph]; ring
theorem vy_S (hk : f.kind = .none) (t x y z : ℝ) : ((f.at_ t).velocity x y z .NWU).y = f.S fun i j =>
    sin (f.dir i) * f.freq j * (f.amp i j * f.ramp) * sin (f.ph x y t i j) * Ez f.infV z (f.k j) f.depth := by
  rw [vy_eq]
  simp only [ce_im, nwuSign, one_mul, mul_one, evalV_none (f := f.at_ t) hk]
  refine f.S_congr fun i j _ => ?_
  simp only [at_, ph]; ring
theorem vz_S (hk : f.kind = .none) (t x y z : ℝ) : ((f.at_ t).velocity x y z .NWU).z = f.S fun i j =>
    -((f.k j)⁻¹ * f.freq j * (f.amp i j * f.ramp)) * cos (f.ph x y t i j) * diffEz f.infV z (f.k j) f.depth := by
  rw [vz_eq]
  simp only [ce_re, nwuSign, one_mul, mul_one, evalDZV_none (f := f.at_ t) hk]
  refine f.S_congr fun i j _ => ?_
  simp only [at_, ph]; ring
theorem ax_S (hk : f.kind = .none) (t x y z : ℝ) : ((f.at_ t).acceleration x y z .NWU).x = f.S fun i j =>
    -(cos (f.dir i) * f.freq j ^ 2 * (f.amp i j * f.ramp)) * cos (f.ph x y t i j) * Ez f.infV z (f.k j) f.depth := by
  rw [ax_eq]
  simp only [ce_re, nwuSign, one_mul, mul_one, evalV_none (f := f.at_ t) hk]
  refine f.S_congr fun i j _ => ?_
  simp only [at_, ph]; ring
theorem ay_S (hk : f.kind = .none) (t x y z : ℝ) : ((f.at_ t).acceleration x y z .NWU).y = f.S fun i j =>
    -(sin (f.dir i) * f.freq j ^ 2 * (f.amp i j * f.ramp)) * cos (f.ph x y t i j) * Ez f.infV z (f.k j) f.depth := by
  rw [ay_eq]
  simp only [ce_re, nwuSign, one_mul, mul_one, evalV_none (f := f.at_ t) hk]
  refine f.S_congr fun i j _ => ?_
  simp only [at_, ph]; ring
theorem az_S (hk : f.kind = .none) (t x y z : ℝ) : ((f.at_ t).acceleration x y z .NWU).z = f.S fun i j =>
    -((f.k j)⁻¹ * f.freq j ^ 2 * (f.amp i j * f.ramp)) * sin (f.ph x y t i j) * diffEz f.infV z (f.k j) f.depth := by
  rw [az_eq]
  simp only [ce_im, nwuSign, one_mul, mul_one, evalDZV_none (f := f.at_ t) hk]
  refine f.S_congr fun i j _ => ?_
  simp only [at_, ph]; ring
theorem p_S (hk : f.kind = .none) (t x y z : ℝ) : (f.at_ t).pressure x y z .NWU = f.S fun i j =>
    f.density * f.gravity * (if f.inf then 1 else tanh (f.k j * f.depth)) * (f.amp i j * f.ramp) * sin (f.ph x y t i j) *
      Ez f.infV z (f.k j) f.depth := by
  simp only [pressure, ce_im, nwuSign, one_mul, mul_one, evalV_none (f := f.at_ t) hk, Finset.sum_mul]
  refine f.S_congr fun i j _ => ?_
  simp only [at_, ph]
  rcases Bool.eq_false_or_eq_true f.inf with h | h <;> simp only [h, if_true, Bool.false_eq_true, if_false] <;> ring

/-- Second derivative of the depth function. -/
theorem hasDerivAt_diffEz (inf : Bool) (z k depth : ℝ) :
    HasDerivAt (fun z => diffEz inf z k depth) (k ^ 2 * Ez inf z k depth) z := by
  cases inf
  · simp only [Ez, diffEz, Bool.false_eq_true, if_false]
    have h := (((((hasDerivAt_id z).add_const depth).const_mul k).sinh).const_mul k).div_const (sinh (k * depth))
    refine h.congr_deriv ?_
    simp; ring
  · simp only [Ez, diffEz, if_true]
    have h := (((hasDerivAt_id z).const_mul k).exp).const_mul k
    refine h.congr_deriv ?_
    simp; ring

end Airy

/-- The components of the field obey the dispersion relation of the water depth, in the form the field uses. -/
def Airy.Dispersive (f : Airy) : Prop :=
  ∀ j, j < f.nbFreq → 0 < f.k j ∧
    f.freq j ^ 2 = f.gravity * f.k j * (if f.inf then 1 else tanh (f.k j * f.depth))

/-- **C35.** The kinematics and pressure an irregular Airy wave field reports (any number of directions and frequencies,
amplitudes and phases; no stretching; NWU; time ramp inactive; the wave numbers solving the dispersion relation) are a linear
free-surface flow. -/
theorem C35_airy_flow (f : Airy) (hk : f.kind = .none) (hinf : f.infV = f.inf) (hd : f.inf = false → 0 < f.depth)
    (hdisp : f.Dispersive) :
    LinearWaveFlow f.gravity f.density (if f.inf then none else some f.depth)
      (fun x y t => (f.update none f.depth t).elevation x y .NWU)
      (fun x y z t => (f.update none f.depth t).velocity x y z .NWU)
      (fun x y z t => (f.update none f.depth t).acceleration x y z .NWU)
      (fun x y z t => (f.update none f.depth t).pressure x y z .NWU) := by
  simp only [Airy.update_eq]
  constructor
  · -- divergence
    intro x y z t
    simp only [Airy.vx_S hk, Airy.vy_S hk, Airy.vz_S hk]
    refine ⟨_, _, _, f.hasDerivAt_S fun i j => ((((f.ph_dx x y t i j).sin).const_mul _).mul_const _),
      f.hasDerivAt_S fun i j => ((((f.ph_dy x y t i j).sin).const_mul _).mul_const _),
      f.hasDerivAt_S fun i j => (Airy.hasDerivAt_diffEz f.infV z (f.k j) f.depth).const_mul _, ?_⟩
    rw [Airy.S_add, Airy.S_add, ← f.S_zero]
    refine f.S_congr fun i j hj => ?_
    have hkj := (hdisp j hj).1.ne'
    have e : sin (f.dir i) ^ 2 + cos (f.dir i) ^ 2 = 1 := sin_sq_add_cos_sq _
    have e2 : (f.k j)⁻¹ * f.k j ^ 2 = f.k j := by field_simp
    linear_combination (f.freq j * (f.amp i j * f.ramp) * cos (f.ph x y t i j) * Ez f.infV z (f.k j) f.depth * f.k j) * e
      - (f.freq j * (f.amp i j * f.ramp) * cos (f.ph x y t i j) * Ez f.infV z (f.k j) f.depth) * e2
  · -- curl
    intro x y z t
    simp only [Airy.vx_S hk, Airy.vy_S hk, Airy.vz_S hk]
    refine ⟨_, _, _, f.hasDerivAt_S fun i j => ((((f.ph_dy x y t i j).cos).const_mul _).mul_const _),
      (f.hasDerivAt_S fun i j => (hasDerivAt_Ez f.infV z (f.k j) f.depth).const_mul _).congr_deriv
        (f.S_congr fun i j hj => ?_),
      f.hasDerivAt_S fun i j => (hasDerivAt_Ez f.infV z (f.k j) f.depth).const_mul _,
      (f.hasDerivAt_S fun i j => ((((f.ph_dx x y t i j).cos).const_mul _).mul_const _)).congr_deriv
        (f.S_congr fun i j hj => ?_),
      f.hasDerivAt_S fun i j => ((((f.ph_dx x y t i j).sin).const_mul _).mul_const _),
      (f.hasDerivAt_S fun i j => ((((f.ph_dy x y t i j).sin).const_mul _).mul_const _)).congr_deriv
        (f.S_congr fun i j hj => ?_)⟩
    · have e2 : (f.k j)⁻¹ * f.k j = 1 := inv_mul_cancel₀ (hdisp j hj).1.ne'
      linear_combination (-(sin (f.dir i) * f.freq j * (f.amp i j * f.ramp) * sin (f.ph x y t i j) *
        diffEz f.infV z (f.k j) f.depth)) * e2
    · have e2 : (f.k j)⁻¹ * f.k j = 1 := inv_mul_cancel₀ (hdisp j hj).1.ne'
      linear_combination ((cos (f.dir i) * f.freq j * (f.amp i j * f.ramp) * sin (f.ph x y t i j) *
        diffEz f.infV z (f.k j) f.depth)) * e2
    · ring
  · -- acceleration
    intro x y z t
    simp only [Airy.vx_S hk, Airy.vy_S hk, Airy.vz_S hk, Airy.ax_S hk, Airy.ay_S hk, Airy.az_S hk]
    refine ⟨(f.hasDerivAt_S fun i j => ((((f.ph_dt x y t i j).sin).const_mul _).mul_const _)).congr_deriv
        (f.S_congr fun i j hj => ?_),
      (f.hasDerivAt_S fun i j => ((((f.ph_dt x y t i j).sin).const_mul _).mul_const _)).congr_deriv
        (f.S_congr fun i j hj => ?_),
      (f.hasDerivAt_S fun i j => ((((f.ph_dt x y t i j).cos).const_mul _).mul_const _)).congr_deriv
        (f.S_congr fun i j hj => ?_)⟩ <;> ring
  · -- momentum
    intro x y z t
    simp only [Airy.p_S hk, Airy.ax_S hk, Airy.ay_S hk, Airy.az_S hk, Airy.S_mul]
    refine ⟨(f.hasDerivAt_S fun i j => ((((f.ph_dx x y t i j).sin).const_mul _).mul_const _)).congr_deriv
        (f.S_congr fun i j hj => ?_),
      (f.hasDerivAt_S fun i j => ((((f.ph_dy x y t i j).sin).const_mul _).mul_const _)).congr_deriv
        (f.S_congr fun i j hj => ?_),
      (f.hasDerivAt_S fun i j => (hasDerivAt_Ez f.infV z (f.k j) f.depth).const_mul _).congr_deriv
        (f.S_congr fun i j hj => ?_)⟩
    · rw [(hdisp j hj).2]; ring
    · rw [(hdisp j hj).2]; ring
    · have e2 : (f.k j)⁻¹ * f.k j = 1 := inv_mul_cancel₀ (hdisp j hj).1.ne'
      rw [(hdisp j hj).2]
      generalize (if f.inf = true then (1:ℝ) else tanh (f.k j * f.depth)) = T
      linear_combination (-(f.density * f.gravity * T * (f.amp i j * f.ramp) * sin (f.ph x y t i j) *
        diffEz f.infV z (f.k j) f.depth)) * e2
  · -- kinematic
    intro x y t
    simp only [Airy.elev_S, Airy.vz_S hk]
    refine (f.hasDerivAt_S fun i j => (((f.ph_dt x y t i j).sin).const_mul _)).congr_deriv (f.S_congr fun i j hj => ?_)
    have e : diffEz f.infV 0 (f.k j) f.depth = f.k j := by
      have hkp := (hdisp j hj).1
      unfold diffEz
      split_ifs with hi
      · simp
      · have : 0 < f.depth := hd (by rw [← hinf]; simpa using hi)
        have : sinh (f.k j * f.depth) ≠ 0 := (sinh_pos_iff.mpr (by positivity)).ne'
        rw [zero_add]; field_simp
    have e2 : (f.k j)⁻¹ * f.k j = 1 := inv_mul_cancel₀ (hdisp j hj).1.ne'
    rw [e]
    linear_combination ((f.freq j * (f.amp i j * f.ramp)) * cos (f.ph x y t i j)) * e2
  · -- dynamic
    intro x y t
    simp only [Airy.elev_S, Airy.p_S hk, Airy.S_mul]
    refine f.S_congr fun i j hj => ?_
    have e : (if f.inf = true then (1:ℝ) else tanh (f.k j * f.depth)) * Ez f.infV 0 (f.k j) f.depth = 1 := by
      have hkp := (hdisp j hj).1
      unfold Ez
      rw [hinf]
      split_ifs with hi
      · simp
      · have : 0 < f.depth := hd (by simpa using hi)
        have h1 : sinh (f.k j * f.depth) ≠ 0 := (sinh_pos_iff.mpr (by positivity)).ne'
        have h2 := (cosh_pos (f.k j * f.depth)).ne'
        rw [zero_add, tanh_eq_sinh_div_cosh]; field_simp
    linear_combination (f.density * f.gravity * (f.amp i j * f.ramp) * sin (f.ph x y t i j)) * e
  · -- bottom
    intro d hd' x y t
    have hi : f.inf = false := by
      rcases Bool.eq_false_or_eq_true f.inf with h | h
      · simp [h] at hd'
      · exact h
    simp only [hi, Bool.false_eq_true, if_false, Option.some.injEq] at hd'
    simp only [Airy.vz_S hk]
    rw [← f.S_zero]
    refine f.S_congr fun i j hj => ?_
    simp [diffEz, hinf, hi, ← hd']
  · -- decay
    intro hd' x y t
    have hi : f.inf = true := by
      rcases Bool.eq_false_or_eq_true f.inf with h | h
      · exact h
      · simp [h] at hd'
    have hlim : ∀ j, j < f.nbFreq → Tendsto (fun z => exp (f.k j * z)) atBot (𝓝 0) := fun j hj =>
      tendsto_exp_atBot.comp (tendsto_id.const_mul_atBot (hdisp j hj).1)
    simp only [Airy.vx_S hk, Airy.vy_S hk, Airy.vz_S hk, Ez, diffEz, hinf, hi, if_true]
    refine ⟨f.S_tendsto fun i j hj => ?_, f.S_tendsto fun i j hj => ?_, f.S_tendsto fun i j hj => ?_⟩
    · simpa using (hlim j hj).const_mul (cos (f.dir i) * f.freq j * (f.amp i j * f.ramp) * sin (f.ph x y t i j))
    · simpa using (hlim j hj).const_mul (sin (f.dir i) * f.freq j * (f.amp i j * f.ramp) * sin (f.ph x y t i j))
    · simpa using ((hlim j hj).const_mul (f.k j)).const_mul
        (-((f.k j)⁻¹ * f.freq j * (f.amp i j * f.ramp)) * cos (f.ph x y t i j))

/-- **C35 for regular waves.** The same for a regular Airy wave field. -/
theorem C35_regular_flow (f : Regular) (hk : f.kind = .none) (hinf : f.infV = f.inf) (hd : f.inf = false → 0 < f.depth)
    (hpos : 0 < f.k) (hdisp : f.omega ^ 2 = f.gravity * f.k * (if f.inf then 1 else tanh (f.k * f.depth))) :
    LinearWaveFlow f.gravity f.density (if f.inf then none else some f.depth)
      (fun x y t => (f.update none f.depth t).elevation x y .NWU)
      (fun x y z t => (f.update none f.depth t).velocity x y z .NWU)
      (fun x y z t => (f.update none f.depth t).acceleration x y z .NWU)
      (fun x y z t => (f.update none f.depth t).pressure x y z .NWU) := by
  have h := C35_airy_flow f.toAiry hk hinf hd (fun j _ => ⟨hpos, hdisp⟩)
  have e : ∀ t, f.toAiry.update none f.toAiry.depth t = (f.update none f.depth t).toAiry := by
    intro t
    simp only [Airy.update, Regular.update, Regular.toAiry]
    congr 1
  simp only [e, Regular.elevation_toAiry, Regular.velocity_toAiry, Regular.acceleration_toAiry,
    Regular.pressure_toAiry_nwu] at h
  exact h

/-- The elevation a regular wave reports is the sine wave of the requested height (used as amplitude), direction and
frequency. -/
theorem C35_regular_elevation (f : Regular) (x y t : ℝ) :
    (f.update none f.depth t).elevation x y .NWU =
      f.ramp * f.height * sin (f.k * (x * cos f.dirAngle + y * sin f.dirAngle) - f.omega * t) := by
  have e : f.update none f.depth t = { f with time := t } := by simp [Regular.update]
  rw [e, ← Regular.elevation_toAiry]
  simp only [Airy.elevation, Airy.ce_im]
  simp only [Regular.toAiry, Airy.ph, nwuSign, Finset.sum_range_one, one_mul, mul_one, add_zero]
  ring

/-- **C35 with the wave numbers the code computes.** The solver meets the dispersion relation up to a residual (`δ ≤ 1e-6 g / depth`
by C25). With any residual `δ` on each component, every clause of the linear flow but the Euler equation is exact (they do not use the
dispersion relation), and the Euler equation holds up to `|ρ| δ` times the sum of the component amplitudes at that depth. -/
theorem C35_momentum_defect (f : Airy) (hk : f.kind = .none) (δ : ℝ)
    (hdisp : ∀ j, j < f.nbFreq → 0 < f.k j ∧
      |f.freq j ^ 2 - f.gravity * f.k j * (if f.inf then 1 else tanh (f.k j * f.depth))| ≤ δ) (x y z t : ℝ) :
    let p := fun x y z => (f.update none f.depth t).pressure x y z .NWU
    let a := (f.update none f.depth t).acceleration x y z .NWU
    let B := |f.density| * δ * ∑ j ∈ Finset.range f.nbFreq, ∑ i ∈ Finset.range f.nbDir,
      |f.amp i j * f.ramp| * |Ez f.infV z (f.k j) f.depth|
    let Bz := |f.density| * δ * ∑ j ∈ Finset.range f.nbFreq, ∑ i ∈ Finset.range f.nbDir,
      |f.amp i j * f.ramp| * |diffEz f.infV z (f.k j) f.depth| / f.k j
    (∃ e, |e| ≤ B ∧ HasDerivAt (fun s => p s y z) (-f.density * a.x + e) x) ∧
    (∃ e, |e| ≤ B ∧ HasDerivAt (fun s => p x s z) (-f.density * a.y + e) y) ∧
    (∃ e, |e| ≤ Bz ∧ HasDerivAt (fun s => p x y s) (-f.density * a.z + e) z) := by
  intro p a B Bz
  have abs_S : ∀ c d : ℕ → ℕ → ℝ, (∀ i j, j < f.nbFreq → |c i j| ≤ d i j) → |f.S c| ≤ f.S d := by
    intro c d h
    refine (Finset.abs_sum_le_sum_abs _ _).trans (Finset.sum_le_sum fun j hj => ?_)
    exact (Finset.abs_sum_le_sum_abs _ _).trans (Finset.sum_le_sum fun i _ => h i j (Finset.mem_range.mp hj))
  simp only [p, a, B, Bz, Airy.update_eq, Airy.p_S hk, Airy.ax_S hk, Airy.ay_S hk, Airy.az_S hk, Airy.S_mul]
  have hB : ∀ c : ℕ → ℕ → ℝ, ∑ j ∈ Finset.range f.nbFreq, ∑ i ∈ Finset.range f.nbDir, c i j = f.S c := fun _ => rfl
  simp only [hB, Airy.S_mul]
  set T : ℕ → ℝ := fun j => if f.inf then 1 else tanh (f.k j * f.depth) with hT
  have hT' : ∀ j, (if f.inf = true then (1:ℝ) else tanh (f.k j * f.depth)) = T j := fun _ => rfl
  have h1 : ∀ θ : ℝ, |cos θ| ≤ 1 := abs_cos_le_one
  have h2 : ∀ θ : ℝ, |sin θ| ≤ 1 := abs_sin_le_one
  have hδ : ∀ j, j < f.nbFreq → 0 ≤ δ := fun j hj => (abs_nonneg _).trans (hdisp j hj).2
  -- one component: product of the defect and of numbers at most 1
  have bound : ∀ (u v : ℝ) (i j : ℕ) (E : ℝ), j < f.nbFreq → |u| ≤ 1 → |v| ≤ 1 →
      |f.density * (f.gravity * f.k j * T j - f.freq j ^ 2) * (u * v) * (f.amp i j * f.ramp) * E| ≤
        |f.density| * δ * (|f.amp i j * f.ramp| * |E|) := by
    intro u v i j E hj hu hv
    have hd : |f.gravity * f.k j * T j - f.freq j ^ 2| ≤ δ := by rw [abs_sub_comm]; exact (hdisp j hj).2
    have huv : |u * v| ≤ 1 := by rw [abs_mul]; exact mul_le_one₀ hu (abs_nonneg _) hv
    rw [abs_mul, abs_mul, abs_mul, abs_mul]
    calc |f.density| * |f.gravity * f.k j * T j - f.freq j ^ 2| * |u * v| * |f.amp i j * f.ramp| * |E|
        ≤ |f.density| * δ * 1 * |f.amp i j * f.ramp| * |E| := by
          have := hδ j hj
          gcongr
      _ = _ := by ring
  refine ⟨⟨f.S fun i j => f.density * (f.gravity * f.k j * T j - f.freq j ^ 2) *
        (cos (f.dir i) * cos (f.ph x y t i j)) * (f.amp i j * f.ramp) * Ez f.infV z (f.k j) f.depth, ?_, ?_⟩,
    ⟨f.S fun i j => f.density * (f.gravity * f.k j * T j - f.freq j ^ 2) *
        (sin (f.dir i) * cos (f.ph x y t i j)) * (f.amp i j * f.ramp) * Ez f.infV z (f.k j) f.depth, ?_, ?_⟩,
    ⟨f.S fun i j => f.density * (f.gravity * f.k j * T j - f.freq j ^ 2) *
        (1 * sin (f.ph x y t i j)) * (f.amp i j * f.ramp) * (diffEz f.infV z (f.k j) f.depth / f.k j), ?_, ?_⟩⟩
  · exact abs_S _ _ fun i j hj => bound _ _ i j _ hj (h1 _) (h1 _)
  · refine (f.hasDerivAt_S fun i j => ((((f.ph_dx x y t i j).sin).const_mul _).mul_const _)).congr_deriv ?_
    rw [Airy.S_add]
    exact f.S_congr fun i j hj => by simp only [hT']; ring
  · exact abs_S _ _ fun i j hj => bound _ _ i j _ hj (h2 _) (h1 _)
  · refine (f.hasDerivAt_S fun i j => ((((f.ph_dy x y t i j).sin).const_mul _).mul_const _)).congr_deriv ?_
    rw [Airy.S_add]
    exact f.S_congr fun i j hj => by simp only [hT']; ring
  · refine abs_S _ _ fun i j hj => ?_
    have := bound 1 (sin (f.ph x y t i j)) i j (diffEz f.infV z (f.k j) f.depth / f.k j) hj (by simp) (h2 _)
    rw [abs_div, abs_of_pos (hdisp j hj).1] at this
    rwa [mul_div_assoc]
  · refine (f.hasDerivAt_S fun i j => (hasDerivAt_Ez f.infV z (f.k j) f.depth).const_mul _).congr_deriv ?_
    rw [Airy.S_add]
    refine f.S_congr fun i j hj => ?_
    simp only [hT']
    have hne := (hdisp j hj).1.ne'
    field_simp
    ring

/-- The field reduced to one of its components (the other amplitudes set to zero). -/
def Airy.only (f : Airy) (i₀ j₀ : ℕ) : Airy := { f with amp := fun i j => if i = i₀ ∧ j = j₀ then f.amp i j else 0 }

theorem Airy.sum_only (f : Airy) (q : Airy → ℝ) (c : ℕ → ℕ → ℝ) (h0 : q f = f.S fun i j => f.amp i j * c i j)
    (h1 : ∀ i₀ j₀, q (f.only i₀ j₀) = f.S fun i j => (f.only i₀ j₀).amp i j * c i j) :
    q f = ∑ j ∈ Finset.range f.nbFreq, ∑ i ∈ Finset.range f.nbDir, q (f.only i j) := by
  rw [h0]
  simp only [h1, S]
  refine Finset.sum_congr rfl fun j₀ hj => Finset.sum_congr rfl fun i₀ hi => ?_
  rw [Finset.sum_eq_single j₀, Finset.sum_eq_single i₀]
  · simp [only]
  · intro b _ hb; simp [only, hb]
  · intro h; exact absurd hi h
  · intro b _ hb; simp [only, hb]
  · intro h; exact absurd hj h

/-- **C35, superposition.** The elevation, velocity, acceleration and pressure of an irregular field without stretching are the
sums over its components of those of the fields with the other amplitudes set to zero. -/
theorem C35_superposition (f : Airy) (hk : f.kind = .none) (x y z : ℝ) :
    let total := fun (q : Airy → ℝ) =>
      ∑ j ∈ Finset.range f.nbFreq, ∑ i ∈ Finset.range f.nbDir, q (f.only i j)
    f.elevation x y .NWU = total (fun g => g.elevation x y .NWU) ∧
    (f.velocity x y z .NWU).x = total (fun g => (g.velocity x y z .NWU).x) ∧
    (f.velocity x y z .NWU).y = total (fun g => (g.velocity x y z .NWU).y) ∧
    (f.velocity x y z .NWU).z = total (fun g => (g.velocity x y z .NWU).z) ∧
    (f.acceleration x y z .NWU).x = total (fun g => (g.acceleration x y z .NWU).x) ∧
    (f.acceleration x y z .NWU).y = total (fun g => (g.acceleration x y z .NWU).y) ∧
    (f.acceleration x y z .NWU).z = total (fun g => (g.acceleration x y z .NWU).z) ∧
    f.pressure x y z .NWU = total (fun g => g.pressure x y z .NWU) := by
  intro total
  have hS : ∀ i j c, (f.only i j).S c = f.S c := fun _ _ _ => rfl
  refine ⟨?_, ?_, ?_, ?_, ?_, ?_, ?_, ?_⟩
  · refine f.sum_only (fun g => g.elevation x y .NWU) (fun i j => f.ramp * sin (f.ph x y f.time i j)) ?_ fun i₀ j₀ => ?_
    · exact (Airy.elev_S (f := f) f.time x y).trans (f.S_congr fun i j _ => by ring)
    · refine (Airy.elev_S (f := f.only i₀ j₀) f.time x y).trans ?_
      rw [hS]
      exact f.S_congr fun i j _ => by simp only [Airy.only, Airy.ph]; ring
  · refine f.sum_only (fun g => (g.velocity x y z .NWU).x) (fun i j => cos (f.dir i) * f.freq j * f.ramp *
      sin (f.ph x y f.time i j) * Ez f.infV z (f.k j) f.depth) ?_ fun i₀ j₀ => ?_
    · exact (Airy.vx_S (f := f) hk f.time x y z).trans (f.S_congr fun i j _ => by ring)
    · refine (Airy.vx_S (f := f.only i₀ j₀) hk f.time x y z).trans ?_
      rw [hS]
      exact f.S_congr fun i j _ => by simp only [Airy.only, Airy.ph]; ring
  · refine f.sum_only (fun g => (g.velocity x y z .NWU).y) (fun i j => sin (f.dir i) * f.freq j * f.ramp *
      sin (f.ph x y f.time i j) * Ez f.infV z (f.k j) f.depth) ?_ fun i₀ j₀ => ?_
    · exact (Airy.vy_S (f := f) hk f.time x y z).trans (f.S_congr fun i j _ => by ring)
    · refine (Airy.vy_S (f := f.only i₀ j₀) hk f.time x y z).trans ?_
      rw [hS]
      exact f.S_congr fun i j _ => by simp only [Airy.only, Airy.ph]; ring
  · refine f.sum_only (fun g => (g.velocity x y z .NWU).z) (fun i j => -((f.k j)⁻¹ * f.freq j * f.ramp) *
      cos (f.ph x y f.time i j) * diffEz f.infV z (f.k j) f.depth) ?_ fun i₀ j₀ => ?_
    · exact (Airy.vz_S (f := f) hk f.time x y z).trans (f.S_congr fun i j _ => by ring)
    · refine (Airy.vz_S (f := f.only i₀ j₀) hk f.time x y z).trans ?_
      rw [hS]
      exact f.S_congr fun i j _ => by simp only [Airy.only, Airy.ph]; ring
  · refine f.sum_only (fun g => (g.acceleration x y z .NWU).x) (fun i j => -(cos (f.dir i) * f.freq j ^ 2 * f.ramp) *
      cos (f.ph x y f.time i j) * Ez f.infV z (f.k j) f.depth) ?_ fun i₀ j₀ => ?_
    · exact (Airy.ax_S (f := f) hk f.time x y z).trans (f.S_congr fun i j _ => by ring)
    · refine (Airy.ax_S (f := f.only i₀ j₀) hk f.time x y z).trans ?_
      rw [hS]
      exact f.S_congr fun i j _ => by simp only [Airy.only, Airy.ph]; ring
  · refine f.sum_only (fun g => (g.acceleration x y z .NWU).y) (fun i j => -(sin (f.dir i) * f.freq j ^ 2 * f.ramp) *
      cos (f.ph x y f.time i j) * Ez f.infV z (f.k j) f.depth) ?_ fun i₀ j₀ => ?_
    · exact (Airy.ay_S (f := f) hk f.time x y z).trans (f.S_congr fun i j _ => by ring)
    · refine (Airy.ay_S (f := f.only i₀ j₀) hk f.time x y z).trans ?_
      rw [hS]
      exact f.S_congr fun i j _ => by simp only [Airy.only, Airy.ph]; ring
  · refine f.sum_only (fun g => (g.acceleration x y z .NWU).z) (fun i j => -((f.k j)⁻¹ * f.freq j ^ 2 * f.ramp) *
      sin (f.ph x y f.time i j) * diffEz f.infV z (f.k j) f.depth) ?_ fun i₀ j₀ => ?_
    · exact (Airy.az_S (f := f) hk f.time x y z).trans (f.S_congr fun i j _ => by ring)
    · refine (Airy.az_S (f := f.only i₀ j₀) hk f.time x y z).trans ?_
      rw [hS]
      exact f.S_congr fun i j _ => by simp only [Airy.only, Airy.ph]; ring
  · refine f.sum_only (fun g => g.pressure x y z .NWU) (fun i j => f.density * f.gravity *
      (if f.inf then 1 else tanh (f.k j * f.depth)) * f.ramp * sin (f.ph x y f.time i j) * Ez f.infV z (f.k j) f.depth)
      ?_ fun i₀ j₀ => ?_
    · exact (Airy.p_S (f := f) hk f.time x y z).trans (f.S_congr fun i j _ => by ring)
    · refine (Airy.p_S (f := f.only i₀ j₀) hk f.time x y z).trans ?_
      rw [hS]
      refine f.S_congr fun i j _ => ?_
      simp only [Airy.only, Airy.ph]
      rcases Bool.eq_false_or_eq_true f.inf with h | h <;> simp only [h, if_true, Bool.false_eq_true, if_false] <;> ring

/-- Non-vacuity of C35: two directions, two frequencies, in water of depth 10 m (the frequencies are chosen from the wave
numbers 0.1 and 0.2 by the dispersion relation), unit amplitudes. -/
example : ∃ f : Airy, f.kind = .none ∧ f.infV = f.inf ∧ f.inf = false ∧ 0 < f.depth ∧ f.Dispersive ∧ f.nbDir = 2 ∧
    f.nbFreq = 2 ∧ ∀ i j, f.amp i j = 1 := by
  refine ⟨⟨2, 2, fun i => i, fun j => sqrt (9.81 * (0.1 * (j + 1)) * tanh ((0.1 * (j + 1)) * 10)), fun j => 0.1 * (j + 1),
    fun _ _ => 1, fun _ _ => 0.5, 0, 1, 10, 1025, 9.81, false, false, .none⟩, rfl, rfl, rfl, by norm_num, ?_, rfl, rfl,
    fun _ _ => rfl⟩
  intro j _
  have hk : (0:ℝ) < 0.1 * (j + 1) := by positivity
  refine ⟨hk, ?_⟩
  have ht := tanh_pos (show (0:ℝ) < 0.1 * (j + 1) * 10 by positivity)
  simp only [Bool.false_eq_true, if_false]
  rw [sq_sqrt (by positivity)]

end Frydom.Waves
