import Verif.Hydro.EqFrame
import Verif.Recorder.Props
import Mathlib.Analysis.SpecificLimits.Normed

/-!
# Equilibrium frames following the body (C84, C85)

`src/frydom/hydrodynamics/FrEquilibriumFrame.{h,cpp}`, classes `FrEqFrameSpringDamping` and `FrEqFrameMeanMotion`.
-/

open Classical Filter Topology

noncomputable section

namespace Frydom.Hydro
open Frydom.Geom Frydom.Core Frydom.Env Frydom.Recorder

/-- The vectors are a real vector space (for `Recorder`). -/
instance : AddCommGroup V3 where
  add_assoc a b c := by ext <;> simp <;> ring
  zero_add a := by ext <;> simp
  add_zero a := by ext <;> simp
  nsmul := nsmulRec
  zsmul := zsmulRec
  neg_add_cancel a := by ext <;> simp
  add_comm a b := by ext <;> simp <;> ring
  sub_eq_add_neg a b := by ext <;> simp <;> ring
instance : Module ℝ V3 where
  one_smul a := by ext <;> simp
  mul_smul a b v := by ext <;> simp <;> ring
  smul_zero a := by ext <;> simp
  smul_add a v w := by ext <;> simp <;> ring
  add_smul a b v := by ext <;> simp <;> ring
  zero_smul v := by ext <;> simp

/-! ## Spring and damping -/

/-- `FrEqFrameSpringDamping` (FrEquilibriumFrame.h:180-184). -/
structure SpringFrame where
  base : EqFrame
  damping : ℝ
  stiffness : ℝ
  prevTime : ℝ

/-- Constructor and `SetSpringDamping` (FrEquilibriumFrame.cpp:265-274, 308-314). -/
def SpringFrame.new (e : EqFrame) (cutoff ratio : ℝ) : SpringFrame :=
  let w0 := 2 * Real.pi / cutoff
  ⟨e, 2 * ratio * w0, w0 * w0, 0⟩

/-- `FrEqFrameSpringDamping::Compute` (FrEquilibriumFrame.cpp:276-306). -/
def SpringFrame.compute (junk junk' : ℝ) (s : SpringFrame) (time : ℝ) : SpringFrame :=
  if |time - s.prevTime| < fltEps then s
  else
    let e := s.base
    let dt := time - s.prevTime
    let force0 := s.stiffness • (e.node.positionInWorld .NWU - e.frame.getPosition .NWU) + s.damping • (e.node.velocityInWorld .NWU - e.vel)
    let force : V3 := ⟨force0.x, force0.y, 0⟩
    let psi := (getCardan junk .NWU e.frame.rot).yaw
    let bodyPsi := (getCardan junk' .NWU e.node.frameInWorld.rot).yaw
    let torque := (bodyPsi - psi) * s.stiffness + ((e.node.angVelInWorld .NWU).z - e.w) * s.damping
    let vel := e.vel + dt • force
    let position := e.frame.getPosition .NWU + dt • vel
    let w := e.w + torque * dt
    let f := (e.frame.setPosition position .NWU).setRotation (rotAxisAngle e.frame.rot ⟨0, 0, 1⟩ (w * dt) .NWU)
    { s with base := { e with vel := vel, w := w, frame := f }, prevTime := time }

/-- A step of the simulation: the body has moved (its node is now `n`), then `Compute`. -/
def SpringFrame.step (junk junk' : ℝ) (s : SpringFrame) (n : Node) (time : ℝ) : SpringFrame :=
  SpringFrame.compute junk junk' { s with base := { s.base with node := n } } time

/-! ## A linear recurrence -/

/-- Second order linear recurrences with the roots inside the unit circle tend to 0. -/
theorem recurrence_tendsto (x : ℕ → ℝ) (p q : ℝ) (hx : ∀ n, x (n + 2) = p * x (n + 1) - q * x n) (h1 : 0 < 1 - p + q) (h2 : 0 < 1 + p + q)
    (hq1 : q < 1) (hq2 : -1 < q) : Tendsto x atTop (𝓝 0) := by
  by_cases hd : p ^ 2 < 4 * q
  · have hq0 : 0 < q := by nlinarith [sq_nonneg p]
    have hQ : ∀ n, x (n + 1) ^ 2 - p * x (n + 1) * x n + q * x n ^ 2 = q ^ n * (x 1 ^ 2 - p * x 1 * x 0 + q * x 0 ^ 2) := by
      intro n
      induction n with
      | zero => simp
      | succ n ih =>
        rw [show x (n + 1 + 1) = _ from hx n, pow_succ q]
        linear_combination q * ih
    have hb : ∀ n, x n ^ 2 ≤ q ^ n * ((x 1 ^ 2 - p * x 1 * x 0 + q * x 0 ^ 2) / (q - p ^ 2 / 4)) := by
      intro n
      have hpos : 0 < q - p ^ 2 / 4 := by linarith
      rw [← mul_div_assoc, ← hQ n, le_div_iff₀ hpos]
      nlinarith [sq_nonneg (x (n + 1) - p / 2 * x n)]
    have ht : Tendsto (fun n => q ^ n * ((x 1 ^ 2 - p * x 1 * x 0 + q * x 0 ^ 2) / (q - p ^ 2 / 4))) atTop (𝓝 0) := by
      have := (tendsto_pow_atTop_nhds_zero_of_lt_one hq0.le hq1).mul_const ((x 1 ^ 2 - p * x 1 * x 0 + q * x 0 ^ 2) / (q - p ^ 2 / 4))
      simpa using this
    have hsq : Tendsto (fun n => x n ^ 2) atTop (𝓝 0) := squeeze_zero (fun n => sq_nonneg _) hb ht
    have habs : Tendsto (fun n => |x n|) atTop (𝓝 0) := by
      have := (Real.continuous_sqrt.tendsto 0).comp hsq
      simpa [Function.comp_def, Real.sqrt_sq_eq_abs] using this
    exact (tendsto_zero_iff_abs_tendsto_zero x).mpr habs
  · push Not at hd
    have hdisc : 0 ≤ p ^ 2 - 4 * q := by linarith
    set d := Real.sqrt (p ^ 2 - 4 * q) with hdd
    have hd2 : d ^ 2 = p ^ 2 - 4 * q := Real.sq_sqrt hdisc
    have hd0 : 0 ≤ d := Real.sqrt_nonneg _
    set r1 := (p + d) / 2 with hr1
    set r2 := (p - d) / 2 with hr2
    have hs : r1 + r2 = p := by rw [hr1, hr2]; ring
    have hp : r1 * r2 = q := by rw [hr1, hr2]; nlinarith
    have hle : r2 ≤ r1 := by rw [hr1, hr2]; linarith
    have f1 : 0 < (1 - r1) * (1 - r2) := by nlinarith
    have f2 : 0 < (1 + r1) * (1 + r2) := by nlinarith
    have g1 : r1 < 1 := by
      by_contra hc
      push Not at hc
      have : 1 < r2 := by
        by_contra hc2
        push Not at hc2
        nlinarith
      nlinarith
    have g2 : -1 < r2 := by
      by_contra hc
      push Not at hc
      have : r1 < -1 := by
        by_contra hc2
        push Not at hc2
        nlinarith
      nlinarith
    have g3 : -1 < r1 := by linarith
    have g4 : r2 < 1 := by linarith
    -- a common bound of the roots
    obtain ⟨ρ, k1, k2, k3, k4⟩ : ∃ ρ : ℝ, 0 < ρ ∧ ρ < 1 ∧ |r1| ≤ ρ ∧ |r2| ≤ ρ := by
      refine ⟨max (1 / 2) (max |r1| |r2|), ?_, ?_, ?_, ?_⟩
      · exact lt_of_lt_of_le (by norm_num) (le_max_left _ _)
      · refine max_lt (by norm_num) (max_lt (abs_lt.mpr ⟨g3, g1⟩) (abs_lt.mpr ⟨g2, g4⟩))
      · exact (le_max_left _ _).trans (le_max_right _ _)
      · exact (le_max_right _ _).trans (le_max_right _ _)
    have hy : ∀ n, x (n + 1) - r1 * x n = r2 ^ n * (x 1 - r1 * x 0) := by
      intro n
      induction n with
      | zero => simp
      | succ n ih =>
        rw [show x (n + 1 + 1) = _ from hx n, pow_succ r2, ← hs, ← hp]
        linear_combination r2 * ih
    have hb : ∀ n, |x n| ≤ ρ ^ n * |x 0| + (n : ℝ) * ρ ^ n * (|x 1 - r1 * x 0| / ρ) := by
      intro n
      induction n with
      | zero => simp
      | succ n ih =>
        have e : x (n + 1) = r1 * x n + r2 ^ n * (x 1 - r1 * x 0) := by rw [← hy n]; ring
        have hr1n : |r1 * x n| ≤ ρ * |x n| := by
          rw [abs_mul]; exact mul_le_mul_of_nonneg_right k3 (abs_nonneg _)
        have hr2n : |r2 ^ n * (x 1 - r1 * x 0)| ≤ ρ ^ n * |x 1 - r1 * x 0| := by
          rw [abs_mul, abs_pow]
          exact mul_le_mul_of_nonneg_right (pow_le_pow_left₀ (abs_nonneg _) k4 n) (abs_nonneg _)
        have htri : |x (n + 1)| ≤ |r1 * x n| + |r2 ^ n * (x 1 - r1 * x 0)| := by rw [e]; exact abs_add_le _ _
        have hm : ρ * |x n| ≤ ρ * (ρ ^ n * |x 0| + (n : ℝ) * ρ ^ n * (|x 1 - r1 * x 0| / ρ)) := mul_le_mul_of_nonneg_left ih k1.le
        have heq : ρ * (ρ ^ n * |x 0| + (n : ℝ) * ρ ^ n * (|x 1 - r1 * x 0| / ρ)) + ρ ^ n * |x 1 - r1 * x 0| =
            ρ ^ (n + 1) * |x 0| + ((n + 1 : ℕ) : ℝ) * ρ ^ (n + 1) * (|x 1 - r1 * x 0| / ρ) := by
          push_cast
          field_simp
          ring
        linarith
    have t1 : Tendsto (fun n : ℕ => ρ ^ n * |x 0|) atTop (𝓝 0) := by
      have := (tendsto_pow_atTop_nhds_zero_of_lt_one k1.le k2).mul_const |x 0|
      simpa using this
    have t2 : Tendsto (fun n : ℕ => (n : ℝ) * ρ ^ n * (|x 1 - r1 * x 0| / ρ)) atTop (𝓝 0) := by
      have := (tendsto_self_mul_const_pow_of_lt_one k1.le k2).mul_const (|x 1 - r1 * x 0| / ρ)
      simpa using this
    have habs : Tendsto (fun n => |x n|) atTop (𝓝 0) := by
      refine squeeze_zero (fun n => abs_nonneg _) hb ?_
      simpa using t1.add t2
    exact (tendsto_zero_iff_abs_tendsto_zero x).mpr habs

/-- The error of a coordinate of the frame. -/
theorem spring_tendsto (E u : ℕ → ℝ) (k c dt : ℝ) (hdt : 0 < dt) (hk : 0 < k) (hc : 0 < c) (hst : k * dt ^ 2 + 2 * c * dt < 4)
    (hu : ∀ n, u (n + 1) = u n + dt * (k * -E n + c * -u n)) (hE : ∀ n, E (n + 1) = E n + dt * u (n + 1)) :
    Tendsto E atTop (𝓝 0) ∧ Tendsto u atTop (𝓝 0) := by
  have hkd : 0 < k * dt ^ 2 := by positivity
  have hcd : 0 < c * dt := by positivity
  have h : Tendsto E atTop (𝓝 0) := by
    refine recurrence_tendsto E (2 - c * dt - k * dt ^ 2) (1 - c * dt) (fun n => ?_) (by linarith) (by linarith) (by linarith) (by linarith)
    have e1 := hE (n + 1)
    have e2 := hu (n + 1)
    have e3 := hE n
    rw [show n + 1 + 1 = n + 2 from rfl] at e1 e2
    rw [e2] at e1
    have e4 : dt * u (n + 1) = E (n + 1) - E n := by linarith
    rw [e1]
    linear_combination (1 - c * dt) * e4
  refine ⟨h, ?_⟩
  have h' : Tendsto (fun n => E (n + 1)) atTop (𝓝 0) := (tendsto_add_atTop_iff_nat 1).mpr h
  have hu' : Tendsto (fun n => u (n + 1)) atTop (𝓝 0) := by
    have := (h'.sub h).const_mul dt⁻¹
    simp only [sub_zero, mul_zero] at this
    refine this.congr fun n => ?_
    rw [hE n]
    field_simp
    ring
  exact (tendsto_add_atTop_iff_nat 1).mp hu'

/-! ## C84 -/

/-- The frames computed at the times `dt, 2 dt, ...` while the node of the body goes through `nd 1, nd 2, ...`. -/
def SpringFrame.run (junk junk' dt : ℝ) (nd : ℕ → Node) (s : SpringFrame) : ℕ → SpringFrame
  | 0 => s
  | n + 1 => (SpringFrame.run junk junk' dt nd s n).step junk junk' (nd (n + 1)) ((n + 1 : ℕ) * dt)

/-- The node moves at the constant velocity `V` from `P`. -/
def Steady (nd : ℕ → Node) (P V : V3) (dt : ℝ) : Prop :=
  ∀ n : ℕ, (nd n).positionInWorld .NWU = P + (n * dt) • V ∧ (nd n).velocityInWorld .NWU = V

theorem spring_step (junk junk' dt : ℝ) (hdt : fltEps ≤ dt) (s : SpringFrame) (n : Node) (t : ℝ) (ht : t - s.prevTime = dt) :
    let s' := s.step junk junk' n t
    s'.prevTime = t ∧ s'.damping = s.damping ∧ s'.stiffness = s.stiffness ∧
    (s'.base.vel.x = s.base.vel.x + dt * (s.stiffness * ((n.positionInWorld .NWU).x - s.base.frame.pos.x) + s.damping * ((n.velocityInWorld .NWU).x - s.base.vel.x)) ∧
      s'.base.frame.pos.x = s.base.frame.pos.x + dt * s'.base.vel.x) ∧
    (s'.base.vel.y = s.base.vel.y + dt * (s.stiffness * ((n.positionInWorld .NWU).y - s.base.frame.pos.y) + s.damping * ((n.velocityInWorld .NWU).y - s.base.vel.y)) ∧
      s'.base.frame.pos.y = s.base.frame.pos.y + dt * s'.base.vel.y) ∧
    (s'.base.vel.z = s.base.vel.z ∧ s'.base.frame.pos.z = s.base.frame.pos.z + dt * s.base.vel.z) ∧
    (LevelFrame s.base.frame → LevelFrame s'.base.frame) := by
  intro s'
  have hne : ¬ |t - s.prevTime| < fltEps := by
    rw [ht, abs_of_nonneg (fltEps_pos.le.trans hdt)]; exact not_lt.mpr hdt
  have hs' : s' = s.step junk junk' n t := rfl
  unfold SpringFrame.step SpringFrame.compute at hs'
  simp only [] at hs'
  rw [if_neg hne, ht] at hs'
  rw [hs']
  refine ⟨rfl, rfl, rfl, ⟨rfl, rfl⟩, ⟨rfl, rfl⟩, ⟨?_, ?_⟩, ?_⟩
  · show s.base.vel.z + dt * 0 = _
    ring
  · show s.base.frame.pos.z + dt * (s.base.vel.z + dt * 0) = _
    ring
  · rintro ⟨h1, h2⟩
    have hq : ∀ a : ℝ, quatOfAxisAngle ⟨0, 0, 1⟩ a .NWU = Q.ofAngAxis a V3.e3 := fun a => rfl
    refine ⟨?_, ?_⟩
    · show (s.base.frame.rot.mul (quatOfAxisAngle ⟨0, 0, 1⟩ _ .NWU)).IsUnit
      rw [hq]; exact h1.mul (yawQ_unit _)
    · show (s.base.frame.rot.mul (quatOfAxisAngle ⟨0, 0, 1⟩ _ .NWU)).rotate ⟨0, 0, 1⟩ = _
      rw [hq, Q.rotate_mul h1 (yawQ_unit _), yawQ_rotate]
      have : ∀ a, turned a ⟨0, 0, 1⟩ = ⟨0, 0, 1⟩ := fun a => by ext <;> simp [turned]
      rw [this]
      exact h2

/-- **C84, the frame follows the body.** For every cutoff time, damping ratio and time step `dt` such that `h² + 4 ratio h < 4` with `h = 2π dt / cutoff`, and every
initial frame: when the body moves at a constant velocity (or is at rest, `V = 0`) the horizontal velocity of the frame tends to that of the body and its
horizontal position tends to that of the body one step ahead; the frame stays level and at its altitude. -/
theorem C84_follows_body_partial (junk junk' cutoff ratio dt : ℝ) (hc : 0 < cutoff) (hr : 0 < ratio) (hdt : fltEps ≤ dt)
    (hst : (2 * Real.pi * dt / cutoff) ^ 2 + 4 * ratio * (2 * Real.pi * dt / cutoff) < 4) (e : EqFrame) (hl : LevelFrame e.frame) (hz : e.vel.z = 0)
    (nd : ℕ → Node) (P V : V3) (hn : Steady nd P V dt) :
    let F := fun n => (SpringFrame.run junk junk' dt nd (SpringFrame.new e cutoff ratio) n).base
    Tendsto (fun n => ((F n).positionInWorld .NWU).x - ((nd n).positionInWorld .NWU).x) atTop (𝓝 (dt * V.x)) ∧
    Tendsto (fun n => ((F n).positionInWorld .NWU).y - ((nd n).positionInWorld .NWU).y) atTop (𝓝 (dt * V.y)) ∧
    Tendsto (fun n => ((F n).velocityInWorld .NWU).x) atTop (𝓝 V.x) ∧ Tendsto (fun n => ((F n).velocityInWorld .NWU).y) atTop (𝓝 V.y) ∧
    ∀ n, LevelFrame (F n).getFrame ∧ ((F n).positionInWorld .NWU).z = (e.positionInWorld .NWU).z := by
  intro F
  have hd0 : 0 < dt := lt_of_lt_of_le fltEps_pos hdt
  set w0 := 2 * Real.pi / cutoff with hw0
  have hw : 0 < w0 := by positivity
  set S := SpringFrame.run junk junk' dt nd (SpringFrame.new e cutoff ratio) with hS
  have inv : ∀ n : ℕ, (S n).prevTime = n * dt ∧ (S n).damping = 2 * ratio * w0 ∧ (S n).stiffness = w0 * w0 ∧ LevelFrame (S n).base.frame ∧
      (S n).base.vel.z = 0 ∧ (S n).base.frame.pos.z = e.frame.pos.z := by
    intro n
    induction n with
    | zero => exact ⟨by simp [hS, SpringFrame.run, SpringFrame.new], rfl, rfl, hl, hz, rfl⟩
    | succ n ih =>
      obtain ⟨i1, i2, i3, i4, i5, i6⟩ := ih
      obtain ⟨j1, j2, j3, -, -, ⟨j4, j5⟩, j6⟩ := spring_step junk junk' dt hdt (S n) (nd (n + 1)) ((n + 1 : ℕ) * dt) (by rw [i1]; push_cast; ring)
      exact ⟨j1, j2.trans i2, j3.trans i3, j6 i4, j4.trans i5, by rw [show S (n + 1) = (S n).step junk junk' (nd (n + 1)) ((n + 1 : ℕ) * dt) from rfl, j5, i5, i6]; ring⟩
  have steps : ∀ n : ℕ, _ := fun n => spring_step junk junk' dt hdt (S n) (nd (n + 1)) ((n + 1 : ℕ) * dt) (by rw [(inv n).1]; push_cast; ring)
  have hk : 0 < w0 * w0 := by positivity
  have hcc : 0 < 2 * ratio * w0 := by positivity
  have hst' : w0 * w0 * dt ^ 2 + 2 * (2 * ratio * w0) * dt < 4 := by
    have e1 : 2 * Real.pi * dt / cutoff = w0 * dt := by rw [hw0]; ring
    rw [e1] at hst
    nlinarith
  have hx := spring_tendsto (fun n => (S n).base.frame.pos.x - ((nd (n + 1)).positionInWorld .NWU).x) (fun n => (S n).base.vel.x - V.x) (w0 * w0) (2 * ratio * w0) dt
    hd0 hk hcc hst' (fun n => by
      obtain ⟨-, -, -, ⟨h1, -⟩, -⟩ := steps n
      show (S (n + 1)).base.vel.x - V.x = _
      rw [show S (n + 1) = (S n).step junk junk' (nd (n + 1)) ((n + 1 : ℕ) * dt) from rfl, h1, (inv n).2.1, (inv n).2.2.1, (hn (n + 1)).2]
      ring) (fun n => by
      obtain ⟨-, -, -, ⟨-, h2⟩, -⟩ := steps n
      show (S (n + 1)).base.frame.pos.x - _ = _ + dt * ((S (n + 1)).base.vel.x - V.x)
      rw [show S (n + 1) = (S n).step junk junk' (nd (n + 1)) ((n + 1 : ℕ) * dt) from rfl, h2, (hn (n + 1)).1, (hn (n + 1 + 1)).1]
      simp only [V3.add_x, V3.smul_x]
      push_cast
      ring)
  have hy := spring_tendsto (fun n => (S n).base.frame.pos.y - ((nd (n + 1)).positionInWorld .NWU).y) (fun n => (S n).base.vel.y - V.y) (w0 * w0) (2 * ratio * w0) dt
    hd0 hk hcc hst' (fun n => by
      obtain ⟨-, -, -, -, ⟨h1, -⟩, -⟩ := steps n
      show (S (n + 1)).base.vel.y - V.y = _
      rw [show S (n + 1) = (S n).step junk junk' (nd (n + 1)) ((n + 1 : ℕ) * dt) from rfl, h1, (inv n).2.1, (inv n).2.2.1, (hn (n + 1)).2]
      ring) (fun n => by
      obtain ⟨-, -, -, -, ⟨-, h2⟩, -⟩ := steps n
      show (S (n + 1)).base.frame.pos.y - _ = _ + dt * ((S (n + 1)).base.vel.y - V.y)
      rw [show S (n + 1) = (S n).step junk junk' (nd (n + 1)) ((n + 1 : ℕ) * dt) from rfl, h2, (hn (n + 1)).1, (hn (n + 1 + 1)).1]
      simp only [V3.add_y, V3.smul_y]
      push_cast
      ring)
  refine ⟨?_, ?_, ?_, ?_, fun n => ⟨(inv n).2.2.2.1, (inv n).2.2.2.2.2⟩⟩
  · have := hx.1.add_const (dt * V.x)
    rw [zero_add] at this
    refine this.congr fun n => ?_
    rw [(hn (n + 1)).1, (hn n).1]
    show (S n).base.frame.pos.x - _ + _ = (S n).base.frame.pos.x - _
    simp only [V3.add_x, V3.smul_x]
    push_cast
    ring
  · have := hy.1.add_const (dt * V.y)
    rw [zero_add] at this
    refine this.congr fun n => ?_
    rw [(hn (n + 1)).1, (hn n).1]
    show (S n).base.frame.pos.y - _ + _ = (S n).base.frame.pos.y - _
    simp only [V3.add_y, V3.smul_y]
    push_cast
    ring
  · have := hx.2.add_const V.x
    rw [zero_add] at this
    exact this.congr fun n => sub_add_cancel _ _
  · have := hy.2.add_const V.y
    rw [zero_add] at this
    exact this.congr fun n => sub_add_cancel _ _

/-- Cutoff 60 s, ratio 0.7, step 0.1 s. -/
example : (2 * Real.pi * 0.1 / 60) ^ 2 + 4 * 0.7 * (2 * Real.pi * 0.1 / 60) < 4 ∧ fltEps ≤ 0.1 ∧
    Steady (fun n => ⟨Frame.identity, ⟨⟨(n : ℝ) * 0.1, 0, 0⟩, Q.one⟩, ⟨1, 0, 0⟩, 0⟩) 0 ⟨1, 0, 0⟩ 0.1 := by
  have h1 := Real.pi_pos
  have h2 := Real.pi_lt_four
  refine ⟨by nlinarith, by unfold fltEps; norm_num, fun n => ⟨?_, rfl⟩⟩
  show (⟨(n : ℝ) * 0.1, 0, 0⟩ : V3) = _
  ext <;> simp

theorem yaw_of_yawQ (junk a : ℝ) (h1 : -Real.pi < a) (h2 : a ≤ Real.pi) : (getCardan junk .NWU (Q.ofAngAxis a V3.e3)).yaw = a := by
  have hpi := Real.pi_pos
  have e : Q.ofAngAxis a V3.e3 = setCardan .NWU ⟨0, 0, a⟩ := by
    have := C13_meaning .NWU ⟨0, 0, a⟩
    rw [this]
    ext <;> simp [quatMul, quatOfAxisAngle, Q.ofAngAxis, conv, V3.e1, V3.e2, V3.e3]
  rw [e, (C13_round_trip_angles junk .NWU ⟨0, 0, a⟩ ⟨by simp [hpi], by simp [hpi.le], by simp [hpi], by simp [hpi], ⟨h1, h2⟩⟩).2]

theorem yaw_across (junk' d : ℝ) (hd : 0 < d) (hd' : d < Real.pi) : (getCardan junk' .NWU (Q.ofAngAxis (Real.pi + d) V3.e3)).yaw = -Real.pi + d := by
  have h1 := yaw_of_yawQ junk' (-Real.pi + d) (by linarith) (by linarith)
  have hm : (Q.ofAngAxis (Real.pi + d) V3.e3).toMat = (Q.ofAngAxis (-Real.pi + d) V3.e3).toMat := by
    have hr : ∀ x, (Q.ofAngAxis (Real.pi + d) V3.e3).toMat.mulVec x = (Q.ofAngAxis (-Real.pi + d) V3.e3).toMat.mulVec x := by
      intro x
      show (Q.ofAngAxis (Real.pi + d) V3.e3).rotate x = (Q.ofAngAxis (-Real.pi + d) V3.e3).rotate x
      rw [yawQ_rotate, yawQ_rotate]
      have hc : Real.cos (Real.pi + d) = Real.cos (-Real.pi + d) := by
        rw [show Real.pi + d = -Real.pi + d + 2 * Real.pi by ring, Real.cos_add_two_pi]
      have hs : Real.sin (Real.pi + d) = Real.sin (-Real.pi + d) := by
        rw [show Real.pi + d = -Real.pi + d + 2 * Real.pi by ring, Real.sin_add_two_pi]
      unfold turned
      rw [hc, hs]
    generalize (Q.ofAngAxis (Real.pi + d) V3.e3).toMat = A at hr
    generalize (Q.ofAngAxis (-Real.pi + d) V3.e3).toMat = B at hr
    have a1 := hr ⟨1, 0, 0⟩
    have a2 := hr ⟨0, 1, 0⟩
    have a3 := hr ⟨0, 0, 1⟩
    simp [M3.mulVec] at a1 a2 a3
    obtain ⟨a00, a10, a20⟩ := a1
    obtain ⟨a01, a11, a21⟩ := a2
    obtain ⟨a02, a12, a22⟩ := a3
    cases A; cases B
    simp_all
  unfold getCardan at h1 ⊢
  rw [hm]; exact h1

/-- **C84, heading across south (defect).** Frame and body at rest at the same place, level, headings `π - d` and `π + d` (that is `-π + d`): the frame should turn by
`2d` to the left; it is given a rate of turn to the right, proportional to `2π - 2d`. -/
theorem C84_heading_wrong (junk junk' cutoff ratio dt d : ℝ) (hd : 0 < d) (hd' : d < Real.pi) (hdt : fltEps ≤ dt) (p : V3) :
    let bodyNode : Node := ⟨Frame.identity, ⟨p, Q.ofAngAxis (Real.pi + d) V3.e3⟩, 0, 0⟩
    let e : EqFrame := ⟨⟨p, Q.ofAngAxis (Real.pi - d) V3.e3⟩, bodyNode, 0, 0, false, 0⟩
    let e' := ((SpringFrame.new e cutoff ratio).compute junk junk' dt).base
    (∀ x, axesOf bodyNode.frameInWorld x = turned (2 * d) (axesOf e.getFrame x)) ∧
    (e'.angularVelocity .NWU).z = -(2 * Real.pi - 2 * d) * (2 * Real.pi / cutoff) ^ 2 * dt := by
  intro n e e'
  have hpi := Real.pi_pos
  constructor
  · intro x
    show (Q.ofAngAxis (Real.pi + d) V3.e3).rotate x = turned _ ((Q.ofAngAxis (Real.pi - d) V3.e3).rotate x)
    rw [yawQ_rotate, yawQ_rotate, turned_add]
    congr 1; ring
  · have hne : ¬ |dt - 0| < fltEps := by
      rw [sub_zero, abs_of_nonneg (fltEps_pos.le.trans hdt)]; exact not_lt.mpr hdt
    have hb := yaw_across junk' d hd hd'
    have hf : (getCardan junk .NWU (Q.ofAngAxis (Real.pi - d) V3.e3)).yaw = Real.pi - d := yaw_of_yawQ junk _ (by linarith) (by linarith)
    have he' : e' = ((SpringFrame.new e cutoff ratio).compute junk junk' dt).base := rfl
    unfold SpringFrame.compute at he'
    rw [if_neg (show ¬ |dt - (SpringFrame.new e cutoff ratio).prevTime| < fltEps from hne)] at he'
    rw [he']
    show 0 + (((getCardan junk' .NWU (Q.ofAngAxis (Real.pi + d) V3.e3)).yaw - (getCardan junk .NWU (Q.ofAngAxis (Real.pi - d) V3.e3)).yaw) *
      (2 * Real.pi / cutoff * (2 * Real.pi / cutoff)) + (0 - 0) * (2 * ratio * (2 * Real.pi / cutoff))) * (dt - 0) = _
    rw [hb, hf]
    ring

end Frydom.Hydro
