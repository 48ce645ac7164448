import Verif.Core.Force
import Verif.Env.Flow
import Mathlib.Data.Matrix.Mul
import Mathlib.LinearAlgebra.Matrix.Notation

/-!
# Damping forces (C29, C30, C31)

`src/frydom/hydrodynamics/damping/FrLinearDamping.cpp`, `src/frydom/hydrodynamics/damping/FrQuadraticDamping.cpp`,
`src/frydom/hydrodynamics/manoeuvring/FrManoeuvringDamping.cpp`.
-/

open Classical

noncomputable section

namespace Frydom.Hydro
open Frydom.Geom Frydom.Core Frydom.Env

/-- Which velocity a damping model takes: that of the body, or relative to a flow (current or wind, chosen by `FLUID_TYPE`, FrEnvironment.cpp:73-83). -/
inductive Reference where
  | world
  | fluid (w : Flow)

/-- Velocity of the COG in body axes (FrLinearDamping.cpp:71-80, FrQuadraticDamping.cpp:62-69). -/
def cogRelVel (b : Body) : Reference → V3
  | .fluid w => -(w.relativeVelocity ⟨b.cogPositionInWorld .NWU, b.cog.rot⟩ (b.cogVelWorld .NWU) .NWU)
  | .world => b.cogVelBody .NWU

/-- `GeneralizedVelocity(v, w)`: six components. -/
def gen (v w : V3) : Fin 6 → ℝ := ![v.x, v.y, v.z, w.x, w.y, w.z]
/-- `GetForce`, `GetTorque` of a generalized force. -/
def genForce (g : Fin 6 → ℝ) : V3 := ⟨g 0, g 1, g 2⟩
def genTorque (g : Fin 6 → ℝ) : V3 := ⟨g 3, g 4, g 5⟩

/-- `FrLinearDamping::Compute` (FrLinearDamping.cpp:68-93). -/
def linearCompute (D : Matrix (Fin 6) (Fin 6) ℝ) (r : Reference) (b : Body) (f : Force) : Force :=
  let g := -(D.mulVec (gen (cogRelVel b r) (b.angVelBody .NWU)))
  f.setForceTorqueInBodyAtCOG b (genForce g) (genTorque g) .NWU

/-- `FrLinearDamping::Check` (FrLinearDamping.cpp:98-107): `true` when no exception is thrown. -/
def linearCheck (D : Matrix (Fin 6) (Fin 6) ℝ) : Prop := ∀ i j, ¬ D i j < 0

/-- `SetDiagonalDamping` on the null matrix (FrLinearDamping.cpp:33-56). -/
def diagonalDamping (d : Fin 6 → ℝ) : Matrix (Fin 6) (Fin 6) ℝ := fun i j => if i = j then d i else 0

/-- Coefficients and sections of `FrQuadraticDamping` (FrQuadraticDamping.cpp:32-54). -/
structure Quad where
  C : V3
  S : V3

/-- `FrQuadraticDamping::Compute` (FrQuadraticDamping.cpp:58-85). -/
def quadCompute (k : Quad) (rho : ℝ) (r : Reference) (b : Body) (f : Force) : Force :=
  let c := cogRelVel b r
  f.setForceInBody b ⟨-0.5 * rho * k.S.x * k.C.x * c.x * |c.x|, -0.5 * rho * k.S.y * k.C.y * c.y * |c.y|, -0.5 * rho * k.S.z * k.C.z * c.z * |c.z|⟩ .NWU

/-! ## Specification -/

/-- Velocity of the fluid, in the world, that the model refers to. -/
def fluidVelocity : Reference → V3
  | .fluid w => w.flux .NWU
  | .world => 0

/-- Power of the load on the motion of the body relative to the fluid, from what the getters say: force times relative velocity of the COG plus torque times spin, world axes. -/
def power (f : Force) (b : Body) (r : Reference) : ℝ :=
  V3.dot (f.getForceInWorld .NWU) (b.cogVelWorld .NWU - fluidVelocity r) + V3.dot (f.getTorqueInWorldAtCOG b .NWU) (b.angVelWorld .NWU)

/-! ## C29 -/

theorem cogRelVel_eq (b : Body) (r : Reference) : cogRelVel b r = b.cog.rot.conj.rotate (b.posDt - fluidVelocity r) := by
  cases r with
  | world =>
    show b.cog.rot.conj.rotate b.posDt = b.cog.rot.conj.rotate (b.posDt - 0)
    congr 1
    ext <;> simp
  | fluid w =>
    show -(b.cog.rot.conj.rotate (w.flux .NWU - b.posDt)) = b.cog.rot.conj.rotate (b.posDt - w.flux .NWU)
    rw [← Q.rotate_neg]
    congr 1
    ext <;> simp

theorem dot_rotate {q : Q} (h : q.IsUnit) (v w : V3) : V3.dot (q.rotate v) w = V3.dot v (q.conj.rotate w) := by
  have := (C11_isometry q h .NWU v (q.conj.rotate w)).1
  have e : V3.dot (q.rotate v) (q.rotate (q.conj.rotate w)) = V3.dot v (q.conj.rotate w) := this
  rw [Q.rotate_conj' h] at e
  exact e

/-- Power from the components in the body. -/
theorem power_body (f : Force) (b : Body) (h : Placed b) (r : Reference) (v t : V3) :
    power (f.setForceTorqueInBodyAtCOG b v t .NWU) b r = V3.dot v (cogRelVel b r) + V3.dot t (b.angVelBody .NWU) := by
  show V3.dot (b.cog.rot.rotate v) (b.posDt - fluidVelocity r) + V3.dot (b.cog.rot.rotate t) b.wvelPar =
    V3.dot v (cogRelVel b r) + V3.dot t (b.cog.rot.conj.rotate b.wvelPar)
  rw [dot_rotate h.unit, dot_rotate h.unit, cogRelVel_eq]

/-- The quadratic form of the matrix. -/
def quadForm (D : Matrix (Fin 6) (Fin 6) ℝ) (g : Fin 6 → ℝ) : ℝ := ∑ i, ∑ j, D i j * g i * g j

theorem power_linear (D : Matrix (Fin 6) (Fin 6) ℝ) (r : Reference) (b : Body) (h : Placed b) (f : Force) :
    power (linearCompute D r b f) b r = -quadForm D (gen (cogRelVel b r) (b.angVelBody .NWU)) := by
  unfold linearCompute
  simp only []
  rw [power_body f b h r]
  simp only [genForce, genTorque, quadForm, V3.dot, Matrix.mulVec, dotProduct, Fin.sum_univ_six, Pi.neg_apply, gen, Matrix.cons_val_zero,
    Matrix.cons_val_one, Matrix.cons_val]
  ring

/-- **C29 (partial).** The force and torque are minus the matrix times the velocity of the body relative to the fluid in body axes, and the power is minus the quadratic form: the force
never gives energy, for any motion and fluid, when the form is non-negative; a diagonal matrix is accepted exactly when its coefficients are non-negative, and then it never does. -/
theorem C29_linear_partial (D : Matrix (Fin 6) (Fin 6) ℝ) (r : Reference) (b : Body) (h : Placed b) (f : Force) :
    (linearCompute D r b f).getForceInBody b .NWU = genForce (-(D.mulVec (gen (b.toBody (b.cogVelWorld .NWU - fluidVelocity r) .NWU) (b.angVelBody .NWU)))) ∧
    (linearCompute D r b f).getTorqueInBodyAtCOG .NWU = genTorque (-(D.mulVec (gen (b.toBody (b.cogVelWorld .NWU - fluidVelocity r) .NWU) (b.angVelBody .NWU)))) ∧
    ((∀ g, 0 ≤ quadForm D g) → power (linearCompute D r b f) b r ≤ 0) ∧
    (∀ d, D = diagonalDamping d → (linearCheck D ↔ ∀ i, 0 ≤ d i)) ∧
    (∀ d, D = diagonalDamping d → linearCheck D → power (linearCompute D r b f) b r ≤ 0) := by
  have e : b.toBody (b.cogVelWorld .NWU - fluidVelocity r) .NWU = cogRelVel b r := by rw [cogRelVel_eq]; rfl
  have hd : ∀ d, D = diagonalDamping d → (linearCheck D ↔ ∀ i, 0 ≤ d i) := by
    rintro d rfl
    constructor
    · intro hc i
      have := hc i i
      simp only [diagonalDamping, if_true] at this
      exact not_lt.mp this
    · intro hp i j
      simp only [diagonalDamping]
      split_ifs
      · exact not_lt.mpr (hp i)
      · exact lt_irrefl 0
  refine ⟨?_, ?_, ?_, hd, ?_⟩
  · rw [e]; exact (C52_cog_loads f b h _ _ .NWU).2.2.1
  · rw [e]; exact (C52_cog_loads f b h _ _ .NWU).2.2.2.1
  · intro hq
    rw [power_linear D r b h]
    exact neg_nonpos.mpr (hq _)
  · intro d hD hc
    rw [power_linear D r b h]
    refine neg_nonpos.mpr ?_
    have hp := (hd d hD).mp hc
    rw [hD]
    unfold quadForm
    refine Finset.sum_nonneg fun i _ => Finset.sum_nonneg fun j _ => ?_
    simp only [diagonalDamping]
    split_ifs with hij
    · subst hij; nlinarith [hp i, mul_self_nonneg (gen (cogRelVel b r) (b.angVelBody .NWU) i)]
    · simp

/-- A body without rotation, its COG at the origin, moving at the velocity `v`. -/
def movingBody (v : V3) : Body := ⟨⟨0, Q.one⟩, v, ⟨0, 0, 0, 0⟩, 0, 0, v⟩

theorem movingBody_placed (v : V3) : Placed (movingBody v) := by
  constructor
  · simp [movingBody, Q.IsUnit, Q.one, Q.normSq]
  · ext <;> simp [movingBody, Q.one, Q.rotate, Q.toMat, M3.mulVec]

theorem movingBody_vel (v : V3) : cogRelVel (movingBody v) .world = v ∧ (movingBody v).angVelBody .NWU = 0 ∧ (movingBody v).velBody .NWU = v := by
  refine ⟨?_, ?_, ?_⟩
  · ext <;> simp [cogRelVel, movingBody, Body.cogVelBody, Body.cogVelWorld, Body.toBody, Geom.rotate, quatInv, Q.conj, Q.one, Q.rotate, Q.toMat, M3.mulVec, conv] <;> norm_num
  · ext <;> simp [movingBody, Body.angVelBody, Body.angVelWorld, Body.wvelPar, Body.toBody, Geom.rotate, quatInv, Q.conj, Q.one, Q.rotate, Q.toMat, M3.mulVec, conv, qvec, Q.mul]
  · ext <;> simp [movingBody, Body.velBody, Body.linVelWorld, Body.toBody, Geom.rotate, quatInv, Q.conj, Q.one, Q.rotate, Q.toMat, M3.mulVec, conv] <;> norm_num

/-- A matrix with `d` on the diagonal and a surge-sway coupling `c`. -/
def coupled (d c : ℝ) : Matrix (Fin 6) (Fin 6) ℝ := !![d, c, 0, 0, 0, 0; c, d, 0, 0, 0, 0; 0, 0, d, 0, 0, 0; 0, 0, 0, d, 0, 0; 0, 0, 0, 0, d, 0; 0, 0, 0, 0, 0, d]

theorem quadForm_coupled (d c : ℝ) (g : Fin 6 → ℝ) :
    quadForm (coupled d c) g = d * (g 0 ^ 2 + g 1 ^ 2 + g 2 ^ 2 + g 3 ^ 2 + g 4 ^ 2 + g 5 ^ 2) + 2 * c * (g 0 * g 1) := by
  simp only [quadForm, Fin.sum_univ_six, coupled, Matrix.of_apply, Matrix.cons_val_zero, Matrix.cons_val_one, Matrix.cons_val]
  ring

/-- **C29, false for accepted matrices.** The library accepts matrices (a coupling larger than the diagonal) with which a body at constant velocity gets energy, and refuses matrices
that never give any. -/
theorem C29_check_counterexample (c d : ℝ) (hd : 0 ≤ d) (hc : d < c) (f : Force) :
    linearCheck (coupled d c) ∧
    0 < power (linearCompute (coupled d c) Reference.world (movingBody ⟨1, -1, 0⟩) f) (movingBody ⟨1, -1, 0⟩) Reference.world ∧
    (∀ g, 0 ≤ quadForm (coupled c (-d)) g) ∧ (0 < d → ¬ linearCheck (coupled c (-d))) := by
  refine ⟨?_, ?_, ?_, ?_⟩
  · intro i j
    fin_cases i <;> fin_cases j <;> simp [coupled] <;> linarith
  · obtain ⟨e1, e2, -⟩ := movingBody_vel ⟨1, -1, 0⟩
    rw [power_linear _ _ _ (movingBody_placed _), e1, e2, quadForm_coupled]
    simp only [gen, Matrix.cons_val_zero, Matrix.cons_val_one, Matrix.cons_val, V3.zero_x, V3.zero_y, V3.zero_z]
    linarith
  · intro g
    rw [quadForm_coupled]
    have h1 := mul_nonneg hd (sq_nonneg (g 0 - g 1))
    have h2 := mul_nonneg (sub_pos.mpr hc).le (add_nonneg (sq_nonneg (g 0)) (sq_nonneg (g 1)))
    have h3 := mul_nonneg (hd.trans hc.le) (add_nonneg (add_nonneg (sq_nonneg (g 2)) (sq_nonneg (g 3))) (add_nonneg (sq_nonneg (g 4)) (sq_nonneg (g 5))))
    linarith
  · intro hd0 hcheck
    have := hcheck 0 1
    simp [coupled] at this
    linarith

/-! ## C30 -/

/-- The three components of the quadratic damping of velocity `c`. -/
def quadForce (k : Quad) (rho : ℝ) (c : V3) : V3 :=
  ⟨-(rho * k.S.x * k.C.x / 2) * (c.x * |c.x|), -(rho * k.S.y * k.C.y / 2) * (c.y * |c.y|), -(rho * k.S.z * k.C.z / 2) * (c.z * |c.z|)⟩

/-- **C30.** After any number of updates (on any motions of the body) the torque is still zero and the force is, component by component in the body, minus half the density times the
section times the coefficient times the velocity times its absolute value, the velocity being that of the COG relative to the fluid. -/
theorem C30_force (k : Quad) (rho : ℝ) (r : Reference) (hist : List Body) (b : Body) (h : Placed b) :
    (quadCompute k rho r b (hist.foldl (fun f b => quadCompute k rho r b f) {})).getForceInBody b .NWU =
      quadForce k rho (b.toBody (b.cogVelWorld .NWU - fluidVelocity r) .NWU) ∧
    (quadCompute k rho r b (hist.foldl (fun f b => quadCompute k rho r b f) {})).getTorqueInBodyAtCOG .NWU = 0 := by
  have e : b.toBody (b.cogVelWorld .NWU - fluidVelocity r) .NWU = cogRelVel b r := by rw [cogRelVel_eq]; rfl
  constructor
  · rw [e]
    show b.cog.rot.conj.rotate (b.cog.rot.rotate _) = _
    rw [Q.rotate_conj h.unit]
    ext <;> simp only [quadForce, conv] <;> ring
  · have key : ∀ (l : List Body) (f : Force), f.torque = 0 → (l.foldl (fun f b => quadCompute k rho r b f) f).torque = 0 := by
      intro l
      induction l with
      | nil => intro f hf; exact hf
      | cons a l ih => intro f hf; exact ih _ hf
    exact key hist _ rfl

theorem mul_abs_scale (s x : ℝ) : s * x * |s * x| = s * |s| * (x * |x|) := by rw [abs_mul]; ring

/-- **C30.** With non-negative coefficients, sections and density each component opposes the velocity, is odd and quadratic in it, and the power is never positive. -/
theorem C30_opposes (k : Quad) (rho : ℝ) (hr : 0 ≤ rho) (hS : 0 ≤ k.S.x ∧ 0 ≤ k.S.y ∧ 0 ≤ k.S.z) (hC : 0 ≤ k.C.x ∧ 0 ≤ k.C.y ∧ 0 ≤ k.C.z) :
    (∀ c, (quadForce k rho c).x * c.x ≤ 0 ∧ (quadForce k rho c).y * c.y ≤ 0 ∧ (quadForce k rho c).z * c.z ≤ 0) ∧
    (∀ (c : V3) (s : ℝ), quadForce k rho (s • c) = (s * |s|) • quadForce k rho c) ∧
    (∀ (r : Reference) (b : Body) (f : Force), Placed b → f.torque = 0 → power (quadCompute k rho r b f) b r ≤ 0) := by
  have one : ∀ a x : ℝ, 0 ≤ a → -a * (x * |x|) * x ≤ 0 := by
    intro a x ha
    have : -a * (x * |x|) * x = -(a * (x * x * |x|)) := by ring
    rw [this]
    exact neg_nonpos.mpr (mul_nonneg ha (mul_nonneg (mul_self_nonneg x) (abs_nonneg x)))
  have pos : ∀ S C : ℝ, 0 ≤ S → 0 ≤ C → 0 ≤ rho * S * C / 2 := fun S C h1 h2 => div_nonneg (mul_nonneg (mul_nonneg hr h1) h2) (by norm_num)
  have main : ∀ c, (quadForce k rho c).x * c.x ≤ 0 ∧ (quadForce k rho c).y * c.y ≤ 0 ∧ (quadForce k rho c).z * c.z ≤ 0 := fun c =>
    ⟨one _ _ (pos _ _ hS.1 hC.1), one _ _ (pos _ _ hS.2.1 hC.2.1), one _ _ (pos _ _ hS.2.2 hC.2.2)⟩
  refine ⟨main, ?_, ?_⟩
  · intro c s
    ext <;> simp only [quadForce, V3.smul_x, V3.smul_y, V3.smul_z, mul_abs_scale] <;> ring
  · intro r b f h ht
    have e : quadCompute k rho r b f = f.setForceTorqueInBodyAtCOG b (quadForce k rho (cogRelVel b r)) 0 .NWU := by
      have e1 : quadForce k rho (cogRelVel b r) = ⟨-0.5 * rho * k.S.x * k.C.x * (cogRelVel b r).x * |(cogRelVel b r).x|,
        -0.5 * rho * k.S.y * k.C.y * (cogRelVel b r).y * |(cogRelVel b r).y|, -0.5 * rho * k.S.z * k.C.z * (cogRelVel b r).z * |(cogRelVel b r).z|⟩ := by
        ext <;> simp only [quadForce] <;> ring
      rw [e1]
      unfold quadCompute Force.setForceTorqueInBodyAtCOG Force.setTorqueInBodyAtCOG
      show _ = ({ f.setForceInBody b _ .NWU with torque := conv .NWU 0 } : Force)
      have : conv .NWU (0 : V3) = f.torque := by rw [ht]; rfl
      rw [this]
      rfl
    rw [e, power_body f b h r]
    obtain ⟨h1, h2, h3⟩ := main (cogRelVel b r)
    simp only [V3.dot, V3.zero_x, V3.zero_y, V3.zero_z]
    linarith

/-- A case: a body at 2 m/s ahead in still water, 1000 kg/m³, section 3 m², coefficient 1: 6000 N astern. -/
example : quadForce ⟨⟨1, 1, 1⟩, ⟨3, 0, 0⟩⟩ 1000 ⟨2, 0, 0⟩ = ⟨-6000, 0, 0⟩ ∧ Placed (movingBody ⟨2, 0, 0⟩) := by
  refine ⟨?_, movingBody_placed _⟩
  ext <;> norm_num [quadForce]

/-! ## C31 -/

/-- A term of the manoeuvring model (`TypeParam_`, FrManoeuvringDamping.h:44-52; `SetParams`, FrManoeuvringDamping.cpp:21-40). Exponents `≤ 0` are ignored. -/
structure Term where
  val : ℝ
  m : ℤ
  n : ℤ
  p : ℤ

/-- One factor of `ForceComponent` (FrManoeuvringDamping.cpp:51-63): `int(m / 2)` truncates; powers of integers. -/
def factor (m : ℤ) (v : ℝ) : ℝ := if 0 < m then |v| ^ (m.toNat / 2) * v ^ (m.toNat - m.toNat / 2) else 1
/-- `ForceComponent` (FrManoeuvringDamping.cpp:49-65). -/
def Term.eval (t : Term) (vx vy vrz : ℝ) : ℝ := t.val * factor t.m vx * factor t.n vy * factor t.p vrz

/-- `SetParams(tag, val)` (FrManoeuvringDamping.cpp:42-47). -/
def Term.ofTag (tag : List Char) (val : ℝ) : Term := ⟨val, tag.count 'u', tag.count 'v', tag.count 'w'⟩

/-- The three lists (FrManoeuvringDamping.h:55-57). -/
structure Man where
  cx : List Term := []
  cy : List Term := []
  cn : List Term := []

/-- `Set(tag, val)` (FrManoeuvringDamping.cpp:64-75); `none`: `tag.at(0)` throws on the empty tag. -/
def Man.set (k : Man) (tag : List Char) (val : ℝ) : Option Man :=
  match tag with
  | [] => none
  | 'X' :: _ => some { k with cx := k.cx ++ [.ofTag tag val] }
  | 'Y' :: _ => some { k with cy := k.cy ++ [.ofTag tag val] }
  | 'N' :: _ => some { k with cn := k.cn ++ [.ofTag tag val] }
  | _ => some k

/-- The sum of a list of terms. -/
def sumTerms (l : List Term) (vx vy vrz : ℝ) : ℝ := (l.map fun t => t.eval vx vy vrz).sum

/-- `Compute` (FrManoeuvringDamping.cpp:107-129); the loops subtract one term after the other from zero. -/
def Man.compute (k : Man) (b : Body) (f : Force) : Force :=
  let vx := (b.velBody .NWU).x
  let vy := (b.velBody .NWU).y
  let vrz := (b.angVelBody .NWU).z
  f.setForceTorqueInBodyAtCOG b ⟨k.cx.foldl (fun s t => s - t.eval vx vy vrz) 0, k.cy.foldl (fun s t => s - t.eval vx vy vrz) 0, 0⟩
    ⟨0, 0, k.cn.foldl (fun s t => s - t.eval vx vy vrz) 0⟩ .NWU

theorem foldl_sub (l : List Term) (vx vy vrz : ℝ) : ∀ s, l.foldl (fun s t => s - t.eval vx vy vrz) s = s - sumTerms l vx vy vrz := by
  induction l with
  | nil => intro s; simp [sumTerms]
  | cons t l ih => intro s; rw [List.foldl_cons, ih]; simp only [sumTerms, List.map_cons, List.sum_cons]; ring

/-- **C31, loads.** The force and torque at the COG in the body are minus the sums of the terms, of the velocities of the origin of the body. -/
theorem C31_load (k : Man) (b : Body) (h : Placed b) (f : Force) :
    (k.compute b f).getForceInBody b .NWU = ⟨-sumTerms k.cx (b.velBody .NWU).x (b.velBody .NWU).y (b.angVelBody .NWU).z,
      -sumTerms k.cy (b.velBody .NWU).x (b.velBody .NWU).y (b.angVelBody .NWU).z, 0⟩ ∧
    (k.compute b f).getTorqueInBodyAtCOG .NWU = ⟨0, 0, -sumTerms k.cn (b.velBody .NWU).x (b.velBody .NWU).y (b.angVelBody .NWU).z⟩ := by
  unfold Man.compute
  simp only [foldl_sub, zero_sub]
  exact ⟨(C52_cog_loads f b h _ _ .NWU).2.2.1, (C52_cog_loads f b h _ _ .NWU).2.2.2.1⟩

/-- **C31, tags.** `Set` puts a term in the list of its first letter (any other letter: nothing), with the numbers of `u`, `v`, `w` for exponents. -/
theorem C31_tags (k : Man) (rest : List Char) (val : ℝ) (vx vy vrz : ℝ) :
    (∃ k', k.set ('X' :: rest) val = some k' ∧ sumTerms k'.cx vx vy vrz = sumTerms k.cx vx vy vrz + val * factor (rest.count 'u') vx * factor (rest.count 'v') vy * factor (rest.count 'w') vrz ∧ k'.cy = k.cy ∧ k'.cn = k.cn) ∧
    (∃ k', k.set ('Y' :: rest) val = some k' ∧ sumTerms k'.cy vx vy vrz = sumTerms k.cy vx vy vrz + val * factor (rest.count 'u') vx * factor (rest.count 'v') vy * factor (rest.count 'w') vrz ∧ k'.cx = k.cx ∧ k'.cn = k.cn) ∧
    (∃ k', k.set ('N' :: rest) val = some k' ∧ sumTerms k'.cn vx vy vrz = sumTerms k.cn vx vy vrz + val * factor (rest.count 'u') vx * factor (rest.count 'v') vy * factor (rest.count 'w') vrz ∧ k'.cx = k.cx ∧ k'.cy = k.cy) ∧
    k.set [] val = none := by
  refine ⟨⟨_, rfl, ?_, rfl, rfl⟩, ⟨_, rfl, ?_, rfl, rfl⟩, ⟨_, rfl, ?_, rfl, rfl⟩, rfl⟩
  all_goals simp [sumTerms, Term.ofTag, Term.eval]

/-- The exponent of `v` whose sign counts. -/
theorem factor_eq (m : ℕ) (v : ℝ) : factor m v = |v| ^ (m / 2) * v ^ (m - m / 2) := by
  unfold factor
  by_cases h : 0 < (m : ℤ)
  · rw [if_pos h]; simp
  · have : m = 0 := by omega
    subst this; simp

/-- **C31, degree.** A factor of exponent `m` has the size of the `m`-th power of the velocity and scales as it for positive scalings. -/
theorem C31_degree (m : ℕ) (v s : ℝ) (hs : 0 ≤ s) : |factor m v| = |v| ^ m ∧ factor m (s * v) = s ^ m * factor m v := by
  have hm : m / 2 + (m - m / 2) = m := by omega
  constructor
  · rw [factor_eq, abs_mul, abs_pow, abs_pow, abs_abs, ← pow_add, hm]
  · rw [factor_eq, factor_eq, abs_mul, abs_of_nonneg hs, mul_pow, mul_pow]
    calc s ^ (m / 2) * |v| ^ (m / 2) * (s ^ (m - m / 2) * v ^ (m - m / 2)) = s ^ (m / 2) * s ^ (m - m / 2) * (|v| ^ (m / 2) * v ^ (m - m / 2)) := by ring
      _ = _ := by rw [← pow_add, hm]

/-- **C31, sign.** A factor changes sign with the velocity exactly for exponents 1 or 2 modulo 4; otherwise (3 or 4 modulo 4) it is even. -/
theorem C31_parity (m : ℕ) (v : ℝ) :
    (m % 4 = 1 ∨ m % 4 = 2 → factor m (-v) = -factor m v) ∧ (m % 4 = 0 ∨ m % 4 = 3 → factor m (-v) = factor m v) := by
  rw [factor_eq, factor_eq, abs_neg]
  constructor
  · intro h
    have ho : Odd (m - m / 2) := Nat.odd_iff.mpr (by omega)
    rw [ho.neg_pow]; ring
  · intro h
    have he : Even (m - m / 2) := Nat.even_iff.mpr (by omega)
    rw [he.neg_pow]

/-- **C31 (partial).** A term of a single velocity in the equation of that velocity, with a positive coefficient, opposes that velocity for every value of it if and only if the exponent
is 1 or 2 modulo 4. In particular `Xuuu` and `Xuuuu` push a body that goes astern. -/
theorem C31_dissipation_partial (m : ℕ) (c : ℝ) (hc : 0 < c) :
    (∀ u, -((⟨c, m, 0, 0⟩ : Term).eval u 0 0) * u ≤ 0) ↔ (m % 4 = 1 ∨ m % 4 = 2) := by
  have e : ∀ u, -((⟨c, m, 0, 0⟩ : Term).eval u 0 0) * u = -(c * (factor m u * u)) := by
    intro u; simp only [Term.eval, factor]; simp; split_ifs <;> ring
  constructor
  · intro h
    by_contra hn
    have hpar := (C31_parity m 1).2 (by omega)
    have h1 := h (-1)
    rw [e, hpar] at h1
    have : factor m 1 = 1 := by rw [factor_eq]; simp
    rw [this] at h1
    linarith
  · intro h u
    rw [e]
    refine neg_nonpos.mpr (mul_nonneg hc.le ?_)
    rw [factor_eq]
    have ho : Even (m - m / 2 + 1) := Nat.even_iff.mpr (by omega)
    have : |u| ^ (m / 2) * u ^ (m - m / 2) * u = |u| ^ (m / 2) * u ^ (m - m / 2 + 1) := by rw [pow_succ]; ring
    rw [this]
    exact mul_nonneg (pow_nonneg (abs_nonneg u) _) (ho.pow_nonneg u)

/-- **C31, where the force acts.** The velocities are those of the origin of the body but the force is put at the COG: with the COG away from the origin a sway damping (`Yv`, positive
coefficient) gives energy in some motions. -/
theorem C31_cog_counterexample (c x : ℝ) (hc : 0 < c) (hx : 0 < x) (f : Force) :
    ∃ (b : Body) (w : V3), Placed b ∧ Spinning b w ∧ b.cogInRef = ⟨x, 0, 0⟩ ∧ 0 < power (({ cy := [⟨c, 0, 1, 0⟩] } : Man).compute b f) b .world := by
  refine ⟨⟨⟨⟨x, 0, 0⟩, Q.one⟩, ⟨0, -x, 0⟩, qhalf ((qpure ⟨0, 0, -2⟩).mul Q.one), ⟨x, 0, 0⟩, 0, ⟨0, x, 0⟩⟩, ⟨0, 0, -2⟩, ⟨?_, ?_⟩, ⟨rfl, ?_⟩, rfl, ?_⟩
  · simp [Q.IsUnit, Q.one, Q.normSq]
  · ext <;> simp [Q.one, Q.rotate, Q.toMat, M3.mulVec] <;> ring
  · ext <;> simp [Q.one, Q.rotate, Q.toMat, M3.mulVec] <;> ring
  · unfold Man.compute
    simp only [foldl_sub]
    rw [power_body]
    · simp [sumTerms, Term.eval, factor, V3.dot, cogRelVel, Body.cogVelBody, Body.cogVelWorld, Body.velBody, Body.linVelWorld, Body.toBody, Geom.rotate, quatInv, Q.conj,
        Q.one, Q.rotate, Q.toMat, M3.mulVec, conv]
      norm_num
      positivity
    · constructor
      · simp [Q.IsUnit, Q.one, Q.normSq]
      · ext <;> simp [Q.one, Q.rotate, Q.toMat, M3.mulVec] <;> ring

end Frydom.Hydro
