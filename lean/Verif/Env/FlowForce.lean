import Verif.Env.PolarTable
import Verif.Core.Force
import Verif.Geom.Props2

/-!
# Loads of current and wind (C64, C65)

`src/frydom/environment/flow/FrFlowForce.cpp`, `src/frydom/environment/ocean/current/FrCurrentStandardForce.cpp`,
`src/frydom/environment/atmosphere/wind/FrWindStandardForce.cpp`.
-/

open Classical

noncomputable section

namespace Frydom.Env
open Frydom.Geom Frydom.Waves Frydom.Core

/-! ## Model -/

/-- Rotation of the heading alone: Cardan angles of the body, then `FrRotation(Direction(0,0,1), psi, NWU)` (FrFlowForce.cpp:137-141; FrWindStandardForce.cpp:89-93;
FrCurrentStandardForce.cpp:107-111). `junk`: the uninitialised roll of a body pointing straight down (see `matToEuler`), not used. -/
def yawRot (junk : ℝ) (q : Q) : Q := quatOfAxisAngle V3.e3 (getCardan junk .NWU q).yaw .NWU

/-- Velocity of the flow relative to the COG in the axes of the body (FrFlowForce.cpp:150-160, 173-183). -/
def relFlow (w : Flow) (b : Body) : V3 := w.relativeVelocity ⟨b.cogPositionInWorld .NWU, b.cog.rot⟩ (b.cogVelWorld .NWU) .NWU

/-- Coefficients of a polar table and reference dimensions. `tab` is `m_table.Eval("coeff", ·)` (MathUtils, external). -/
structure Polar where
  tab : ℝ → V3
  frontal : ℝ
  lateral : ℝ
  length : ℝ

/-- `FrFlowForce::Compute` for `FrCurrentForce` and `FrWindForce` (FrFlowForce.cpp:118-162, 173-186). -/
def Polar.compute (k : Polar) (junk rho : ℝ) (w : Flow) (b : Body) (f : Force) : Force :=
  let v := relFlow w b
  let alpha := normalize2Pi (atan2 v.y v.x)
  let c := k.tab alpha
  let u2 := V3.dot v v
  let fx := 0.5 * rho * c.x * k.frontal * u2
  let fy := 0.5 * rho * c.y * k.lateral * u2
  let fz := 0.5 * rho * c.z * k.lateral * k.length * u2
  f.setForceTorqueInWorldAtCOG b (rotate (yawRot junk b.cog.rot) .NWU ⟨fx, fy, 0⟩) (rotate (yawRot junk b.cog.rot) .NWU ⟨0, 0, fz⟩) .NWU

/-- Parameters of the standard forces (FrCurrentStandardForce.h:31-36, FrWindStandardForce.h:30-33). `xCenter` has no initial value: it is whatever was in memory until `SetXCenter`. -/
structure Std where
  breadth : ℝ := -1
  draft : ℝ := -1
  lateral : ℝ := -1
  transverse : ℝ := -1
  lpp : ℝ := -1
  xCenter : ℝ

/-- `FrCurrentStandardForce::Initialize` (FrCurrentStandardForce.cpp:59-68); `none`: exception; `eps` is `FLT_EPSILON`. -/
def Std.initCurrent (eps : ℝ) (k : Std) : Option Std :=
  let k := if k.transverse < eps ∧ k.draft > eps ∧ k.breadth > eps then { k with transverse := k.draft * k.breadth } else k
  if k.lateral < eps then none else if k.transverse < eps then none else if k.lpp < eps then none else some k

/-- `FrWindStandardForce::Initialize` (FrWindStandardForce.cpp:45-50). -/
def Std.initWind (eps : ℝ) (k : Std) : Option Std :=
  if k.transverse < eps then none else if k.lateral < eps then none else if k.lpp < eps then none else some k

/-- Lever of the wind moment as a fraction of the length (FrWindStandardForce.cpp:84). -/
def windLever (alpha : ℝ) : ℝ := 0.3 * (1 - 2 * alpha / Real.pi)
/-- Lever of the current moment (FrCurrentStandardForce.cpp:101-102). -/
def currentLever (alpha : ℝ) : ℝ := max (min (0.4 * (1 - 2 * alpha / Real.pi)) 0.25) (-0.2)

/-- Relative velocity of the standard forces: the velocity of the body is that of its origin, made horizontal (FrWindStandardForce.cpp:62-69, FrCurrentStandardForce.cpp:79-86). -/
def relFlowStd (w : Flow) (b : Body) : V3 :=
  w.relativeVelocity ⟨b.cogPositionInWorld .NWU, b.cog.rot⟩ ⟨(b.linVelWorld .NWU).x, (b.linVelWorld .NWU).y, 0⟩ .NWU

/-- `Compute` of the two standard forces (FrWindStandardForce.cpp:52-99, FrCurrentStandardForce.cpp:70-117), which only differ by two coefficients and the lever. -/
def Std.compute (kx ky : ℝ) (lever : ℝ → ℝ) (k : Std) (junk rho : ℝ) (w : Flow) (b : Body) (f : Force) : Force :=
  let u := -(swap (relFlowStd w b))
  let alpha := normalize2Pi (atan2 u.y u.x)
  let ak := 0.5 * rho * V3.dot u u
  let fx := -kx * ak * k.transverse * Real.cos alpha
  let fy := ky * ak * k.lateral * Real.sin alpha
  let alpha' := if alpha > Real.pi then 2 * Real.pi - alpha else alpha
  let tz := fy * lever alpha' * k.lpp
  f.setForceTorqueInWorldAtPointInBody b (rotate (yawRot junk b.cog.rot) .NWU ⟨fx, fy, 0⟩) (rotate (yawRot junk b.cog.rot) .NWU ⟨0, 0, tz⟩) ⟨k.xCenter, 0, 0⟩ .NWU

/-- Wind: 0.7, 0.9 (FrWindStandardForce.cpp:79-80). -/
def Std.computeWind (k : Std) : ℝ → ℝ → Flow → Body → Force → Force := k.compute 0.7 0.9 windLever
/-- Current: 0.07, 0.6 (FrCurrentStandardForce.cpp:96-97). -/
def Std.computeCurrent (k : Std) : ℝ → ℝ → Flow → Body → Force → Force := k.compute 0.07 0.6 currentLever

/-! ## Specification -/

/-- The bow in the world. -/
def bow (b : Body) : V3 := b.toWorld ⟨1, 0, 0⟩ .NWU
/-- The bow is not vertical. -/
def HasHeading (b : Body) : Prop := 0 < (bow b).x ^ 2 + (bow b).y ^ 2
/-- Horizontal unit vector towards the bow. -/
def ahead (b : Body) : V3 := (1 / Real.sqrt ((bow b).x ^ 2 + (bow b).y ^ 2)) • (⟨(bow b).x, (bow b).y, 0⟩ : V3)
/-- Horizontal unit vector to port of it. -/
def toPort (b : Body) : V3 := ⟨-(ahead b).y, (ahead b).x, 0⟩
/-- The mast is vertical. -/
def Upright (b : Body) : Prop := b.toWorld ⟨0, 0, 1⟩ .NWU = ⟨0, 0, 1⟩

/-! ## Heading -/

theorem toWorld_nwu (b : Body) (v : V3) : b.toWorld v .NWU = b.cog.rot.toMat.mulVec v := rfl
theorem toBody_nwu (b : Body) (v : V3) : b.toBody v .NWU = (quatInv b.cog.rot).toMat.mulVec v := rfl

theorem ofAngAxis_e3 (a : ℝ) (v : V3) : rotate (quatOfAxisAngle V3.e3 a .NWU) .NWU v =
    ⟨Real.cos a * v.x - Real.sin a * v.y, Real.sin a * v.x + Real.cos a * v.y, v.z⟩ := by
  have h := Real.sin_sq_add_cos_sq (a / 2)
  have hc : Real.cos a = Real.cos (a / 2) ^ 2 - Real.sin (a / 2) ^ 2 := by
    have := Real.cos_two_mul (a / 2)
    rw [show 2 * (a / 2) = a by ring] at this
    rw [this]; linarith
  have hs : Real.sin a = 2 * Real.sin (a / 2) * Real.cos (a / 2) := by
    have := Real.sin_two_mul (a / 2)
    rwa [show 2 * (a / 2) = a by ring] at this
  rw [hc, hs]
  have e : rotate (quatOfAxisAngle V3.e3 a .NWU) .NWU v = (⟨Real.cos (a / 2), 0, 0, Real.sin (a / 2)⟩ : Q).toMat.mulVec v := by
    simp [rotate, quatOfAxisAngle, Q.ofAngAxis, conv, V3.e3, Q.rotate, mul_comm]
  rw [e]
  generalize Real.sin (a / 2) = s at *
  generalize Real.cos (a / 2) = c at *
  have hc2 : c ^ 2 = 1 - s ^ 2 := by linarith
  ext <;> simp only [Q.toMat, M3.mulVec] <;> ring_nf <;> simp only [hc2] <;> ring

theorem bow_eq (b : Body) : bow b = ⟨b.cog.rot.toMat.a00, b.cog.rot.toMat.a10, b.cog.rot.toMat.a20⟩ := by
  show b.cog.rot.toMat.mulVec ⟨1, 0, 0⟩ = _
  ext <;> simp [M3.mulVec]

theorem bow_norm (b : Body) (h : Placed b) : (bow b).x ^ 2 + (bow b).y ^ 2 + (bow b).z ^ 2 = 1 := by
  have e : V3.dot (bow b) (bow b) = V3.dot (⟨1, 0, 0⟩ : V3) ⟨1, 0, 0⟩ := (C11_isometry b.cog.rot h.unit .NWU ⟨1, 0, 0⟩ ⟨1, 0, 0⟩).1
  simp [V3.dot] at e
  linarith

/-- The yaw rotation takes a vector of the horizontal axes of the ship to the world. -/
theorem yawRot_rotate (junk : ℝ) (b : Body) (h : Placed b) (hh : HasHeading b) (v : V3) :
    rotate (yawRot junk b.cog.rot) .NWU v = v.x • ahead b + v.y • toPort b + v.z • (⟨0, 0, 1⟩ : V3) := by
  have hn := bow_norm b h
  have hb := bow_eq b
  unfold HasHeading at hh
  have hz : (bow b).z ^ 2 < 1 := by linarith
  have hz' := abs_lt.mp ((sq_lt_one_iff_abs_lt_one _).mp hz)
  have z1 : b.cog.rot.toMat.a20 < 1 := by rw [hb] at hz'; exact hz'.2
  have z2 : -1 < b.cog.rot.toMat.a20 := by rw [hb] at hz'; exact hz'.1
  have hy : (getCardan junk .NWU b.cog.rot).yaw = atan2 (bow b).y (bow b).x := by
    show (matToEuler junk b.cog.rot.toMat).yaw = _
    unfold matToEuler
    rw [if_pos z1, if_pos z2, hb]
  unfold yawRot
  rw [hy, ofAngAxis_e3]
  have hne : (⟨(bow b).x, (bow b).y⟩ : ℂ) ≠ 0 := by
    intro h0
    have h1 := congrArg Complex.re h0
    have h2 := congrArg Complex.im h0
    simp at h1 h2
    rw [h1, h2] at hh
    norm_num at hh
  have hnorm : ‖(⟨(bow b).x, (bow b).y⟩ : ℂ)‖ = Real.sqrt ((bow b).x ^ 2 + (bow b).y ^ 2) := by
    rw [Complex.norm_def, Complex.normSq_mk]; ring_nf
  have hc : Real.cos (atan2 (bow b).y (bow b).x) = (ahead b).x := by
    unfold atan2
    rw [Complex.cos_arg hne, hnorm]
    simp [ahead]; ring
  have hs : Real.sin (atan2 (bow b).y (bow b).x) = (ahead b).y := by
    unfold atan2
    rw [Complex.sin_arg, hnorm]
    simp [ahead]; ring
  have hz0 : (ahead b).z = 0 := by simp [ahead]
  rw [hc, hs]
  ext
  · simp [toPort]; ring
  · simp [toPort]; ring
  · simp [toPort, hz0]

theorem ahead_unit (b : Body) (hh : HasHeading b) : (ahead b).x ^ 2 + (ahead b).y ^ 2 = 1 ∧ (ahead b).z = 0 := by
  unfold HasHeading at hh
  have h2 := Real.sq_sqrt hh.le
  have h3 : Real.sqrt ((bow b).x ^ 2 + (bow b).y ^ 2) ≠ 0 := (Real.sqrt_pos.mpr hh).ne'
  constructor
  · simp only [ahead, V3.smul_x, V3.smul_y]
    field_simp
    linarith
  · simp [ahead]

theorem relFlow_eq (w : Flow) (b : Body) : relFlow w b = b.toBody (w.flux .NWU - b.cogVelWorld .NWU) .NWU := rfl

/-! ## C64 -/

theorem atan2_eq {s a x y : ℝ} (hs : 0 < s) (ha : 0 ≤ a ∧ a < 2 * Real.pi) (hx : x = s * Real.cos a) (hy : y = s * Real.sin a) :
    normalize2Pi (atan2 y x) = a := by
  refine heading_inj (normalize2Pi_range _) ha ?_
  rw [heading_normalize]
  have hne : (⟨x, y⟩ : ℂ) ≠ 0 := by
    intro h0
    have h1 : x = 0 := congrArg Complex.re h0
    have h2 : y = 0 := congrArg Complex.im h0
    have := Real.sin_sq_add_cos_sq a
    rw [h1] at hx
    rw [h2] at hy
    have c0 : Real.cos a = 0 := by
      rcases mul_eq_zero.mp hx.symm with h | h
      · exact absurd h hs.ne'
      · exact h
    have s0 : Real.sin a = 0 := by
      rcases mul_eq_zero.mp hy.symm with h | h
      · exact absurd h hs.ne'
      · exact h
    rw [c0, s0] at this
    norm_num at this
  have hnorm : ‖(⟨x, y⟩ : ℂ)‖ = s := by
    rw [Complex.norm_def, Complex.normSq_mk, hx, hy]
    rw [show s * Real.cos a * (s * Real.cos a) + s * Real.sin a * (s * Real.sin a) = s ^ 2 * (Real.sin a ^ 2 + Real.cos a ^ 2) by ring, Real.sin_sq_add_cos_sq, mul_one,
      Real.sqrt_sq hs.le]
  unfold heading atan2
  rw [Complex.cos_arg hne, Complex.sin_arg, hnorm, hx, hy]
  ext <;> simp <;> field_simp

/-- **C64.** With `r` the velocity of the flow relative to the COG in the axes of the body, going in the direction `a` of the horizontal plane of the body, the load is a force at the
COG, horizontal, whose components ahead and to port are half the density times the coefficients of the table at `a`, the reference areas and the square of the speed, and a vertical
couple likewise: for every motion, every attitude of the body in which the bow is not vertical, every flow. -/
theorem C64_polar_load (k : Polar) (junk rho : ℝ) (w : Flow) (b : Body) (f : Force) (h : Placed b) (hh : HasHeading b) (s a : ℝ) (hs : 0 < s) (ha : 0 ≤ a ∧ a < 2 * Real.pi)
    (hx : (b.toBody (w.flux .NWU - b.cogVelWorld .NWU) .NWU).x = s * Real.cos a) (hy : (b.toBody (w.flux .NWU - b.cogVelWorld .NWU) .NWU).y = s * Real.sin a) :
    IsLoad (k.compute junk rho w b f) b .NWU
      ((rho / 2 * V3.dot (w.flux .NWU - b.cogVelWorld .NWU) (w.flux .NWU - b.cogVelWorld .NWU)) • (((k.tab a).x * k.frontal) • ahead b + ((k.tab a).y * k.lateral) • toPort b))
      ((rho / 2 * V3.dot (w.flux .NWU - b.cogVelWorld .NWU) (w.flux .NWU - b.cogVelWorld .NWU)) • (((k.tab a).z * k.lateral * k.length) • (⟨0, 0, 1⟩ : V3)))
      (b.cogPositionInWorld .NWU) := by
  have hdot : V3.dot (relFlow w b) (relFlow w b) = V3.dot (w.flux .NWU - b.cogVelWorld .NWU) (w.flux .NWU - b.cogVelWorld .NWU) :=
    (C11_isometry (quatInv b.cog.rot) (by have := h.unit; simp only [Q.IsUnit, Q.normSq, quatInv, Q.conj, neg_sq] at *; exact this) .NWU _ _).1
  have ha2 : normalize2Pi (atan2 (relFlow w b).y (relFlow w b).x) = a := atan2_eq hs ha hx hy
  unfold Polar.compute
  simp only []
  rw [yawRot_rotate junk b h hh, yawRot_rotate junk b h hh, ha2, hdot]
  have := (C52_cog_loads f b h ((rho / 2 * V3.dot (w.flux .NWU - b.cogVelWorld .NWU) (w.flux .NWU - b.cogVelWorld .NWU)) •
    (((k.tab a).x * k.frontal) • ahead b + ((k.tab a).y * k.lateral) • toPort b))
      ((rho / 2 * V3.dot (w.flux .NWU - b.cogVelWorld .NWU) (w.flux .NWU - b.cogVelWorld .NWU)) • (((k.tab a).z * k.lateral * k.length) • (⟨0, 0, 1⟩ : V3))) .NWU).1
  convert this using 2
  · ext <;> simp <;> ring
  · ext <;> simp <;> ring

/-- A case: a body at rest, heading north, in a current of 2 m/s to the north. -/
example : ∃ b : Body, Placed b ∧ HasHeading b ∧ (b.toBody ((⟨⟨2, 0, 0⟩, 0, 1⟩ : Flow).flux .NWU - b.cogVelWorld .NWU) .NWU).x = 2 * Real.cos 0 ∧
    (b.toBody ((⟨⟨2, 0, 0⟩, 0, 1⟩ : Flow).flux .NWU - b.cogVelWorld .NWU) .NWU).y = 2 * Real.sin 0 := by
  refine ⟨⟨⟨0, Q.one⟩, 0, ⟨0, 0, 0, 0⟩, 0, 0, 0⟩, ⟨?_, ?_⟩, ?_, ?_, ?_⟩
  · simp [Q.IsUnit, Q.one, Q.normSq]
  · ext <;> simp [Q.one, Q.rotate, Q.toMat, M3.mulVec]
  · unfold HasHeading
    rw [bow_eq]
    norm_num [Q.one, Q.toMat]
  · rw [toBody_nwu]
    simp [quatInv, Q.conj, Q.one, Q.toMat, M3.mulVec, Flow.flux, fieldVelocity, conv, Body.cogVelWorld]
    norm_num
  · rw [toBody_nwu]
    simp [quatInv, Q.conj, Q.one, Q.toMat, M3.mulVec, Flow.flux, fieldVelocity, conv, Body.cogVelWorld]

/-! ## C65 -/

theorem fold_angle {s a x y : ℝ} (hs : 0 < s) (hx : x = s * Real.cos a) (hy : y = s * Real.sin a) :
    (if normalize2Pi (atan2 y x) > Real.pi then 2 * Real.pi - normalize2Pi (atan2 y x) else normalize2Pi (atan2 y x)) = Real.arccos (x / s) := by
  have hr := normalize2Pi_range (atan2 y x)
  have hcos : Real.cos (normalize2Pi (atan2 y x)) = x / s := by
    have e : normalize2Pi (atan2 y x) = normalize2Pi a := by
      refine atan2_eq hs (normalize2Pi_range a) ?_ ?_
      · rw [hx]; congr 1; exact (congrArg V3.x (heading_normalize a)).symm
      · rw [hy]; congr 1; exact (congrArg V3.y (heading_normalize a)).symm
    rw [e, hx]
    have : Real.cos (normalize2Pi a) = Real.cos a := congrArg V3.x (heading_normalize a)
    rw [this]; field_simp
  split_ifs with hc
  · rw [← hcos, ← Real.cos_two_pi_sub, Real.arccos_cos (by linarith [hr.2]) (by linarith)]
  · rw [← hcos, Real.arccos_cos hr.1 (by linarith)]

/-- Loads of both models. With `r` the velocity of the flow relative to the (horizontal) velocity of the origin, in the axes of the body, of horizontal part `s ≠ 0`: the force acts at the point
`(xCenter, 0, 0)` of the body, is horizontal, with components ahead and to port of the sign of the flow; the couple is the port force times the lever of the angle between the bow and
where the flow comes from. -/
theorem std_load (kx ky : ℝ) (lever : ℝ → ℝ) (k : Std) (junk rho : ℝ) (w : Flow) (b : Body) (f : Force) (h : Placed b) (hh : HasHeading b) (r : V3) (s : ℝ) (hs : 0 < s)
    (hr : r = b.toBody (w.flux .NWU - ⟨(b.linVelWorld .NWU).x, (b.linVelWorld .NWU).y, 0⟩) .NWU) (hsr : s ^ 2 = r.x ^ 2 + r.y ^ 2) :
    IsLoad (k.compute kx ky lever junk rho w b f) b .NWU
      ((rho / 2 * V3.dot r r / s) • ((kx * k.transverse * r.x) • ahead b + (ky * k.lateral * r.y) • toPort b))
      ((rho / 2 * V3.dot r r / s * (ky * k.lateral * r.y) * lever (Real.arccos (-r.x / s)) * k.lpp) • (⟨0, 0, 1⟩ : V3))
      (b.pointInWorld ⟨k.xCenter, 0, 0⟩ .NWU) := by
  have hrel : relFlowStd w b = r := hr.symm
  have hu : -(swap r) = ⟨-r.x, r.y, r.z⟩ := by ext <;> simp [swap]
  have hud : V3.dot (⟨-r.x, r.y, r.z⟩ : V3) ⟨-r.x, r.y, r.z⟩ = V3.dot r r := by simp [V3.dot]
  have hne : (⟨-r.x, r.y⟩ : ℂ) ≠ 0 := by
    intro h0
    have h1 : -r.x = 0 := congrArg Complex.re h0
    have h2 : r.y = 0 := congrArg Complex.im h0
    rw [h2, show r.x = 0 by linarith] at hsr
    nlinarith
  have hnorm : ‖(⟨-r.x, r.y⟩ : ℂ)‖ = s := by
    rw [Complex.norm_def, Complex.normSq_mk, show -r.x * -r.x + r.y * r.y = s ^ 2 by rw [hsr]; ring, Real.sqrt_sq hs.le]
  have hx : -r.x = s * Real.cos (atan2 r.y (-r.x)) := by unfold atan2; rw [Complex.cos_arg hne, hnorm]; field_simp
  have hy : r.y = s * Real.sin (atan2 r.y (-r.x)) := by unfold atan2; rw [Complex.sin_arg, hnorm]; field_simp
  have hc : Real.cos (normalize2Pi (atan2 r.y (-r.x))) = -r.x / s := by
    rw [show Real.cos (normalize2Pi (atan2 r.y (-r.x))) = Real.cos (atan2 r.y (-r.x)) from congrArg V3.x (heading_normalize _), eq_div_iff hs.ne', mul_comm]
    exact hx.symm
  have hsn : Real.sin (normalize2Pi (atan2 r.y (-r.x))) = r.y / s := by
    rw [show Real.sin (normalize2Pi (atan2 r.y (-r.x))) = Real.sin (atan2 r.y (-r.x)) from congrArg V3.y (heading_normalize _), eq_div_iff hs.ne', mul_comm]
    exact hy.symm
  unfold Std.compute
  simp only []
  rw [hrel, hu]
  simp only []
  rw [hud, fold_angle hs hx hy, hc, hsn, yawRot_rotate junk b h hh, yawRot_rotate junk b h hh]
  have := load_key f b h ((rho / 2 * V3.dot r r / s) • ((kx * k.transverse * r.x) • ahead b + (ky * k.lateral * r.y) • toPort b))
      ((rho / 2 * V3.dot r r / s * (ky * k.lateral * r.y) * lever (Real.arccos (-r.x / s)) * k.lpp) • (⟨0, 0, 1⟩ : V3)) ⟨k.xCenter, 0, 0⟩ .NWU
  have hz := (ahead_unit b hh).2
  have pz : (toPort b).z = 0 := rfl
  convert this using 2
  · ext
    · simp; ring
    · simp; ring
    · simp only [V3.add_z, V3.smul_z, hz, pz]; ring
  · ext
    · simp
    · simp
    · simp only [V3.add_z, V3.smul_z, hz, pz]; ring

/-- **C65, loads.** With `r` the velocity of the flow relative to the (horizontal) velocity of the origin of the body, in the axes of the body, of horizontal part `s ≠ 0`, for every attitude
in which the bow is not vertical: the force acts at the point `(xCenter, 0, 0)` of the body, is horizontal, with components ahead and to port of the sign of the flow and with the
coefficients of the standard; the couple is the port force times the length times the lever, a function of the angle from the bow of where the flow comes from: `0.3 (1 - 2a/π)` for the
wind, `0.4 (1 - 2a/π)` kept in `[-0.2, 0.25]` for the current. -/
theorem C65_load (k : Std) (junk rho : ℝ) (w : Flow) (b : Body) (f : Force) (h : Placed b) (hh : HasHeading b) (r : V3) (s : ℝ) (hs : 0 < s)
    (hr : r = b.toBody (w.flux .NWU - ⟨(b.linVelWorld .NWU).x, (b.linVelWorld .NWU).y, 0⟩) .NWU) (hsr : s ^ 2 = r.x ^ 2 + r.y ^ 2) :
    IsLoad (k.computeWind junk rho w b f) b .NWU
      ((rho / 2 * V3.dot r r / s) • ((0.7 * k.transverse * r.x) • ahead b + (0.9 * k.lateral * r.y) • toPort b))
      ((rho / 2 * V3.dot r r / s * (0.9 * k.lateral * r.y) * (0.3 * (1 - 2 * Real.arccos (-r.x / s) / Real.pi)) * k.lpp) • (⟨0, 0, 1⟩ : V3))
      (b.pointInWorld ⟨k.xCenter, 0, 0⟩ .NWU) ∧
    IsLoad (k.computeCurrent junk rho w b f) b .NWU
      ((rho / 2 * V3.dot r r / s) • ((0.07 * k.transverse * r.x) • ahead b + (0.6 * k.lateral * r.y) • toPort b))
      ((rho / 2 * V3.dot r r / s * (0.6 * k.lateral * r.y) * max (min (0.4 * (1 - 2 * Real.arccos (-r.x / s) / Real.pi)) 0.25) (-0.2) * k.lpp) • (⟨0, 0, 1⟩ : V3))
      (b.pointInWorld ⟨k.xCenter, 0, 0⟩ .NWU) :=
  ⟨std_load 0.7 0.9 windLever k junk rho w b f h hh r s hs hr hsr, std_load 0.07 0.6 currentLever k junk rho w b f h hh r s hs hr hsr⟩

/-- **C65, lever.** The lever of the wind is between -0.3 and 0.3 of the length, that of the current between -0.2 and 0.25; both decrease as the flow comes from further aft. -/
theorem C65_lever (x y : ℝ) (h0 : 0 ≤ x) (h1 : x ≤ y) (h2 : y ≤ Real.pi) :
    -0.3 ≤ windLever x ∧ windLever x ≤ 0.3 ∧ -0.2 ≤ currentLever x ∧ currentLever x ≤ 0.25 ∧ windLever y ≤ windLever x ∧ currentLever y ≤ currentLever x ∧
    windLever (Real.pi / 2) = 0 ∧ currentLever (Real.pi / 2) = 0 := by
  have hp := Real.pi_pos
  have hxy : 2 * x / Real.pi ≤ 2 * y / Real.pi := by gcongr
  have hx0 : 0 ≤ 2 * x / Real.pi := by positivity
  have hy2 : 2 * y / Real.pi ≤ 2 := by rw [div_le_iff₀ hp]; linarith
  have e : 2 * (Real.pi / 2) / Real.pi = 1 := by field_simp
  unfold windLever currentLever
  rw [e]
  refine ⟨by norm_num; linarith, by norm_num; linarith, le_max_right _ _, max_le (min_le_right _ _) (by norm_num), by norm_num; linarith, ?_, by norm_num, by norm_num⟩
  refine max_le_max (min_le_min ?_ (le_refl _)) (le_refl _)
  norm_num; linarith

theorem upright_axes (b : Body) (h : Placed b) (hu : Upright b) :
    HasHeading b ∧ ahead b = b.toWorld ⟨1, 0, 0⟩ .NWU ∧ toPort b = b.toWorld ⟨0, 1, 0⟩ .NWU := by
  have hn := bow_norm b h
  have hz : (bow b).z = 0 := by
    have e : V3.dot (b.toWorld ⟨1, 0, 0⟩ .NWU) (b.toWorld ⟨0, 0, 1⟩ .NWU) = V3.dot (⟨1, 0, 0⟩ : V3) ⟨0, 0, 1⟩ := (C11_isometry b.cog.rot h.unit .NWU _ _).1
    rw [hu] at e
    simp [V3.dot] at e
    exact e
  rw [hz] at hn
  have h1 : (bow b).x ^ 2 + (bow b).y ^ 2 = 1 := by linarith
  have ha : ahead b = bow b := by
    unfold ahead
    rw [h1]
    ext
    · simp
    · simp
    · simp [hz]
  refine ⟨by unfold HasHeading; rw [h1]; norm_num, ha, ?_⟩
  have e : b.toWorld ⟨0, 1, 0⟩ .NWU = V3.cross (b.toWorld ⟨0, 0, 1⟩ .NWU) (b.toWorld ⟨1, 0, 0⟩ .NWU) := by
    show b.cog.rot.rotate ⟨0, 1, 0⟩ = V3.cross (b.cog.rot.rotate ⟨0, 0, 1⟩) (b.cog.rot.rotate ⟨1, 0, 0⟩)
    rw [← rotate_cross h.unit]
    congr 1
    ext <;> simp [V3.cross]
  rw [e, hu, toPort, ha]
  ext <;> simp [V3.cross, bow]

/-- Both models. On an upright body in a horizontal flow the force is, in body axes, half the density times the speed times (coefficient × area × velocity) on each horizontal axis; it
never pulls against the relative flow, and is the port/starboard mirror image for the mirrored flow (same surge, opposite sway). -/
theorem std_drag (kx ky : ℝ) (lever : ℝ → ℝ) (k : Std) (junk rho : ℝ) (w : Flow) (b : Body) (f : Force) (h : Placed b) (hu : Upright b) (v : V3)
    (hv : v = w.flux .NWU - ⟨(b.linVelWorld .NWU).x, (b.linVelWorld .NWU).y, 0⟩) (hz : v.z = 0) (h0 : v ≠ 0) :
    (k.compute kx ky lever junk rho w b f).getForceInBody b .NWU =
      (rho / 2 * V3.norm v) • (⟨kx * k.transverse * (b.toBody v .NWU).x, ky * k.lateral * (b.toBody v .NWU).y, 0⟩ : V3) ∧
    (0 ≤ rho → 0 ≤ kx → 0 ≤ ky → 0 ≤ k.transverse → 0 ≤ k.lateral → 0 ≤ V3.dot ((k.compute kx ky lever junk rho w b f).getForceInWorld .NWU) v) := by
  obtain ⟨hh, ha, hp⟩ := upright_axes b h hu
  set r := b.toBody v .NWU with hr
  have hiso : V3.dot r r = V3.dot v v :=
    (C11_isometry (quatInv b.cog.rot) (by have := h.unit; simp only [Q.IsUnit, Q.normSq, quatInv, Q.conj, neg_sq] at *; exact this) .NWU _ _).1
  have hrw : b.toWorld r .NWU = v := toWorld_toBody h v .NWU
  have hrz : r.z = 0 := by
    have e : V3.dot (b.toWorld r .NWU) (b.toWorld ⟨0, 0, 1⟩ .NWU) = V3.dot r ⟨0, 0, 1⟩ := (C11_isometry b.cog.rot h.unit .NWU _ _).1
    rw [hrw, hu] at e
    simp [V3.dot] at e
    rw [← e, hz]
  have hvn : V3.norm v ^ 2 = V3.dot v v := by
    unfold V3.norm
    rw [Real.sq_sqrt]
    simp only [V3.dot]; nlinarith [sq_nonneg v.x, sq_nonneg v.y, sq_nonneg v.z]
  have hpos : 0 < V3.norm v := by
    unfold V3.norm
    apply Real.sqrt_pos.mpr
    by_contra hn
    apply h0
    simp only [V3.dot, not_lt] at hn
    have a1 : v.x = 0 := by nlinarith [sq_nonneg v.x, sq_nonneg v.y, sq_nonneg v.z]
    have a2 : v.y = 0 := by nlinarith [sq_nonneg v.x, sq_nonneg v.y, sq_nonneg v.z]
    ext <;> simp [a1, a2, hz]
  have hsr : V3.norm v ^ 2 = r.x ^ 2 + r.y ^ 2 := by
    rw [hvn, ← hiso]; simp only [V3.dot, hrz]; ring
  have hl := (std_load kx ky lever k junk rho w b f h hh r (V3.norm v) hpos (by rw [hr, hv]) hsr).1
  have hq : rho / 2 * V3.dot r r / V3.norm v = rho / 2 * V3.norm v := by
    rw [hiso, ← hvn]; field_simp
  rw [hq, ha, hp] at hl
  have key : (kx * k.transverse * r.x) • b.toWorld ⟨1, 0, 0⟩ .NWU + (ky * k.lateral * r.y) • b.toWorld ⟨0, 1, 0⟩ .NWU =
      b.toWorld ⟨kx * k.transverse * r.x, ky * k.lateral * r.y, 0⟩ .NWU := by
    rw [toWorld_nwu, toWorld_nwu, toWorld_nwu]
    show (kx * k.transverse * r.x) • b.cog.rot.toMat.mulVec ⟨1, 0, 0⟩ + (ky * k.lateral * r.y) • b.cog.rot.toMat.mulVec ⟨0, 1, 0⟩ = _
    ext <;> simp [M3.mulVec] <;> ring
  rw [key] at hl
  constructor
  · show b.toBody ((k.compute kx ky lever junk rho w b f).getForceInWorld .NWU) .NWU = _
    rw [hl]
    have e : (rho / 2 * V3.norm v) • b.toWorld ⟨kx * k.transverse * r.x, ky * k.lateral * r.y, 0⟩ .NWU =
        b.toWorld ((rho / 2 * V3.norm v) • (⟨kx * k.transverse * r.x, ky * k.lateral * r.y, 0⟩ : V3)) .NWU := by
      rw [toWorld_nwu, toWorld_nwu]
      ext <;> simp [M3.mulVec] <;> ring
    rw [e, toBody_toWorld h]
  · intro hrho hkx hky hT hL
    rw [hl]
    have e : V3.dot ((rho / 2 * V3.norm v) • b.toWorld ⟨kx * k.transverse * r.x, ky * k.lateral * r.y, 0⟩ .NWU) v =
        rho / 2 * V3.norm v * V3.dot (b.toWorld ⟨kx * k.transverse * r.x, ky * k.lateral * r.y, 0⟩ .NWU) v := by
      simp only [V3.dot, V3.smul_x, V3.smul_y, V3.smul_z]; ring
    have e2 : V3.dot (b.toWorld ⟨kx * k.transverse * r.x, ky * k.lateral * r.y, 0⟩ .NWU) v = V3.dot (⟨kx * k.transverse * r.x, ky * k.lateral * r.y, 0⟩ : V3) r := by
      conv_lhs => rw [← hrw]
      exact (C11_isometry b.cog.rot h.unit .NWU _ _).1
    rw [e, e2]
    refine mul_nonneg (mul_nonneg (by linarith) hpos.le) ?_
    simp only [V3.dot]
    have a1 := mul_nonneg (mul_nonneg hkx hT) (mul_self_nonneg r.x)
    have a2 := mul_nonneg (mul_nonneg hky hL) (mul_self_nonneg r.y)
    nlinarith

/-- **C65, drag.** On an upright body in a horizontal flow the force is, in body axes, half the density times the speed times (coefficient × area × velocity) on each horizontal axis — so
twice the flow gives four times the force and the flow mirrored from port to starboard gives the same surge and the opposite sway — and it never pulls against the relative flow. -/
theorem C65_drag (k : Std) (junk rho : ℝ) (w : Flow) (b : Body) (f : Force) (h : Placed b) (hu : Upright b) (v : V3)
    (hv : v = w.flux .NWU - ⟨(b.linVelWorld .NWU).x, (b.linVelWorld .NWU).y, 0⟩) (hz : v.z = 0) (h0 : v ≠ 0) :
    (k.computeWind junk rho w b f).getForceInBody b .NWU =
      (rho / 2 * V3.norm v) • (⟨0.7 * k.transverse * (b.toBody v .NWU).x, 0.9 * k.lateral * (b.toBody v .NWU).y, 0⟩ : V3) ∧
    (k.computeCurrent junk rho w b f).getForceInBody b .NWU =
      (rho / 2 * V3.norm v) • (⟨0.07 * k.transverse * (b.toBody v .NWU).x, 0.6 * k.lateral * (b.toBody v .NWU).y, 0⟩ : V3) ∧
    (0 ≤ rho → 0 ≤ k.transverse → 0 ≤ k.lateral → 0 ≤ V3.dot ((k.computeWind junk rho w b f).getForceInWorld .NWU) v ∧
      0 ≤ V3.dot ((k.computeCurrent junk rho w b f).getForceInWorld .NWU) v) :=
  ⟨(std_drag 0.7 0.9 windLever k junk rho w b f h hu v hv hz h0).1, (std_drag 0.07 0.6 currentLever k junk rho w b f h hu v hv hz h0).1, fun h1 h2 h3 =>
    ⟨(std_drag 0.7 0.9 windLever k junk rho w b f h hu v hv hz h0).2 h1 (by norm_num) (by norm_num) h2 h3,
      (std_drag 0.07 0.6 currentLever k junk rho w b f h hu v hv hz h0).2 h1 (by norm_num) (by norm_num) h2 h3⟩⟩

/-- **C65, initialisation.** With every parameter given above the tolerance the initialisation succeeds and keeps them; for the current the transverse area, if missing, is the draft
times the breadth (which must itself exceed the tolerance); a missing area or length is refused. -/
theorem C65_init (eps : ℝ) (heps : 0 < eps) (k : Std) :
    (eps ≤ k.lateral → eps ≤ k.transverse → eps ≤ k.lpp → k.initCurrent eps = some k ∧ k.initWind eps = some k) ∧
    (eps ≤ k.lateral → k.transverse = -1 → eps < k.draft → eps < k.breadth → eps ≤ k.draft * k.breadth → eps ≤ k.lpp →
      k.initCurrent eps = some { k with transverse := k.draft * k.breadth }) ∧
    (k.lateral < eps ∨ k.lpp < eps → k.initCurrent eps = none ∧ k.initWind eps = none) ∧
    (∀ k', k.initCurrent eps = some k' ∨ k.initWind eps = some k' → 0 < k'.lateral ∧ 0 < k'.transverse ∧ 0 < k'.lpp ∧ k'.xCenter = k.xCenter) := by
  refine ⟨?_, ?_, ?_, ?_⟩
  · intro h1 h2 h3
    unfold Std.initCurrent Std.initWind
    have c : ¬ (k.transverse < eps ∧ k.draft > eps ∧ k.breadth > eps) := fun hc => not_lt.mpr h2 hc.1
    simp only [if_neg c, if_neg (not_lt.mpr h1), if_neg (not_lt.mpr h2), if_neg (not_lt.mpr h3), and_self]
  · intro h1 h2 h3 h4 h5 h6
    unfold Std.initCurrent
    have c : k.transverse < eps ∧ k.draft > eps ∧ k.breadth > eps := ⟨by rw [h2]; linarith, h3, h4⟩
    simp only [if_pos c, if_neg (not_lt.mpr h1), if_neg (not_lt.mpr h5), if_neg (not_lt.mpr h6)]
  · intro hm
    unfold Std.initCurrent Std.initWind
    simp only []
    split_ifs <;> simp_all <;> (rcases hm with hm | hm <;> linarith)
  · intro k' hk
    rcases hk with hk | hk
    · unfold Std.initCurrent at hk
      simp only [] at hk
      split_ifs at hk with a1 a2 a3 a4 a5 a6 a7 <;> (obtain rfl := Option.some.inj hk; simp only [not_lt] at *; refine ⟨by linarith, by linarith, by linarith, by simp⟩)
    · unfold Std.initWind at hk
      split_ifs at hk with a1 a2 a3
      obtain rfl := Option.some.inj hk
      simp only [not_lt] at *
      exact ⟨by linarith, by linarith, by linarith, by simp⟩

/-- A case: a body going 2 m/s ahead in still air, 100 m² of transverse area, density 1.2: -168 N. -/
example : ∃ b : Body, Placed b ∧ Upright b ∧ ∀ f,
    (Std.compute 0.7 0.9 windLever { transverse := 100, lateral := 500, lpp := 50, xCenter := 0 } 0 1.2 {} b f).getForceInBody b .NWU = ⟨-168, 0, 0⟩ := by
  let b : Body := ⟨⟨0, Q.one⟩, ⟨2, 0, 0⟩, ⟨0, 0, 0, 0⟩, 0, 0, ⟨2, 0, 0⟩⟩
  have hp : Placed b := by
    constructor
    · simp [b, Q.IsUnit, Q.one, Q.normSq]
    · ext <;> simp [b, Q.one, Q.rotate, Q.toMat, M3.mulVec]
  have hu : Upright b := by
    unfold Upright
    rw [toWorld_nwu]
    ext <;> simp [b, Q.one, Q.toMat, M3.mulVec] <;> norm_num
  refine ⟨b, hp, hu, fun f => ?_⟩
  have e : (⟨-2, 0, 0⟩ : V3) = ({} : Flow).flux .NWU - ⟨(b.linVelWorld .NWU).x, (b.linVelWorld .NWU).y, 0⟩ := by
    ext <;> simp [Flow.flux, fieldVelocity, conv, b, Body.linVelWorld]
  have := (std_drag 0.7 0.9 windLever { transverse := 100, lateral := 500, lpp := 50, xCenter := 0 } 0 1.2 {} b f hp hu ⟨-2, 0, 0⟩ e rfl
    (by intro h; have := congrArg V3.x h; norm_num at this)).1
  rw [this]
  have hn : V3.norm ⟨-2, 0, 0⟩ = 2 := by
    simp [V3.norm, V3.dot]
  have hb : b.toBody ⟨-2, 0, 0⟩ .NWU = ⟨-2, 0, 0⟩ := by
    rw [toBody_nwu]
    ext <;> simp [b, quatInv, Q.conj, Q.one, Q.toMat, M3.mulVec] <;> norm_num
  rw [hn, hb]
  ext <;> norm_num

end Frydom.Env
