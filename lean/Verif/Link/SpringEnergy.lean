import Verif.Link.SpringDamper
import Mathlib.MeasureTheory.Integral.IntervalIntegral.FundThmCalculus

/-!
# Energy of the spring of a link, reactions without work (C196)

`FrPrismaticLink::Update`, `UpdateForces` (src/frydom/core/link/links_lib/FrPrismaticLink.cpp:70-91), `FrRevoluteLink::Update`, `UpdateForces` (FrRevoluteLink.cpp:91-130), and the loads and
reactions that `FrLink` returns for the two bodies (FrLink.cpp:101-184, 612-676), while the two bodies move in any way that the joint allows.
-/

noncomputable section

namespace Frydom.Link
open Frydom.Geom Real

/-! ## Specification -/

/-- Two bodies (frames of their COGs in the world, velocities of the COGs, angular velocities) that move in any way, a node fixed in each, and what Chrono gives the link: the frame of node 2
relative to node 1 and its true rates. -/
structure LinkMotion where
  B1 : ℝ → Frame
  B2 : ℝ → Frame
  N1 : Frame
  N2 : Frame
  v1 : ℝ → V3
  w1 : ℝ → V3
  v2 : ℝ → V3
  w2 : ℝ → V3
  c : ℝ → ChLink
  valid1 : ∀ t, (B1 t).Valid
  valid2 : ∀ t, (B2 t).Valid
  validN1 : N1.Valid
  validN2 : N2.Valid
  vel1 : ∀ t, HasVel (fun s => (B1 s).pos) (v1 t) t
  spin1 : ∀ t, HasAngVel (fun s => (B1 s).rot) (w1 t) t
  vel2 : ∀ t, HasVel (fun s => (B2 s).pos) (v2 t) t
  spin2 : ∀ t, HasAngVel (fun s => (B2 s).rot) (w2 t) t
  rel : ∀ t, (c t).relM = ((B1 t).mul N1).otherWrtThis ((B2 t).mul N2)
  relVel : ∀ t, HasVel (fun s => (c s).relM.pos) (c t).relVel t
  relSpin : ∀ t, HasAngVel (fun s => (c s).relM.rot) (c t).relWvel t

namespace LinkMotion
variable (m : LinkMotion)

/-- Power, on the two bodies together, of the spring-damper force and torque at the COG that the link `d` returns for each. -/
def springPower (d : ChLink) (t : ℝ) : ℝ :=
  (Wrench.ofBody (m.B1 t) (springForceOnBody1 d m.N1 .NWU) (springTorqueOnBody1AtCOG d m.N1 .NWU) .NWU).power (m.B1 t).pos (m.v1 t) (m.w1 t) +
  (Wrench.ofBody (m.B2 t) (springForceOnBody2 d m.N2 .NWU) (springTorqueOnBody2AtCOG d m.N2 .NWU) .NWU).power (m.B2 t).pos (m.v2 t) (m.w2 t)

/-- Power, on the two bodies together, of the reaction force and torque at the COG that the link returns for each. -/
def reactionPower (t : ℝ) : ℝ :=
  (Wrench.ofBody (m.B1 t) (reactionForceOnBody1 (generateCache (m.c t)) m.N1 .NWU) (reactionTorqueOnBody1AtCOG (generateCache (m.c t)) m.N1 .NWU) .NWU).power
    (m.B1 t).pos (m.v1 t) (m.w1 t) +
  (Wrench.ofBody (m.B2 t) (reactionForceOnBody2 (generateCache (m.c t)) m.N2 .NWU) (reactionTorqueOnBody2AtCOG (generateCache (m.c t)) m.N2 .NWU) .NWU).power
    (m.B2 t).pos (m.v2 t) (m.w2 t)

end LinkMotion

/-- Energy of a spring of stiffness `k` at `x` from its rest. -/
def springEnergy (k x : ℝ) : ℝ := k * x ^ 2 / 2

/-! ## Lemmas -/

/-- The power of a wrench on a rigid body, reduced to any point. -/
theorem power_about (W : Wrench) (o v w a : V3) : W.power o v w = V3.dot W.force (v + V3.cross w (a - o)) + V3.dot (W.momentAbout a) w := by
  simp only [Wrench.power, Wrench.momentAbout, V3.dot]
  simp
  ring

theorem node_vel {B : ℝ → Frame} {N : Frame} {v w : V3} {t : ℝ} (hp : HasVel (fun s => (B s).pos) v t) (hr : HasAngVel (fun s => (B s).rot) w t) :
    HasVel (fun s => ((B s).mul N).pos) (v + V3.cross w (((B t).mul N).pos - (B t).pos)) t := by
  obtain ⟨x, y, z⟩ := hr N.pos
  obtain ⟨p, q, r⟩ := hp
  have e : ((B t).mul N).pos - (B t).pos = (B t).rot.rotate N.pos := by
    show (B t).pos + (B t).rot.rotate N.pos - (B t).pos = _
    ext <;> simp
  rw [e]
  exact ⟨p.add x, q.add y, r.add z⟩

theorem node_spin {B : ℝ → Frame} {N : Frame} {w : V3} {t : ℝ} (hB : ∀ s, (B s).Valid) (hN : N.Valid) (hr : HasAngVel (fun s => (B s).rot) w t) :
    HasAngVel (fun s => ((B s).mul N).rot) w t := by
  unfold Frame.Valid at hB hN
  intro u
  have h := hr (N.rot.rotate u)
  have e : ∀ s, ((B s).mul N).rot.rotate u = (B s).rot.rotate (N.rot.rotate u) := fun s => Q.rotate_mul (hB s) hN u
  show HasVel (fun s => ((B s).mul N).rot.rotate u) (V3.cross w (((B t).mul N).rot.rotate u)) t
  simp only [e]
  exact h

theorem one_point {o v w a p : V3} : v + V3.cross w (a - o) + V3.cross w (p - a) = v + V3.cross w (p - o) := by
  ext <;> simp <;> ring

/-- The relative rates in terms of the velocities of the bodies. -/
theorem LinkMotion.rates (m : LinkMotion) (t : ℝ) :
    ∃ A B : Frame, A = (m.B1 t).mul m.N1 ∧ B = (m.B2 t).mul m.N2 ∧ A.Valid ∧ B.Valid ∧
      A.rot.rotate (m.c t).relVel = (m.v2 t + V3.cross (m.w2 t) (B.pos - (m.B2 t).pos)) - (m.v1 t + V3.cross (m.w1 t) (B.pos - (m.B1 t).pos)) ∧
      A.rot.rotate (m.c t).relWvel = m.w2 t - m.w1 t ∧ A.rot.rotate (m.c t).relM.pos = B.pos - A.pos := by
  refine ⟨_, _, rfl, rfl, (m.valid1 t).mul m.validN1, (m.valid2 t).mul m.validN2, ?_⟩
  have hA : ∀ s, ((m.B1 s).mul m.N1).Valid := fun s => (m.valid1 s).mul m.validN1
  have hB : ∀ s, ((m.B2 s).mul m.N2).Valid := fun s => (m.valid2 s).mul m.validN2
  have hu := m.relVel t
  have hw := m.relSpin t
  simp only [m.rel] at hu hw
  obtain ⟨e1, e2⟩ := relative_motion hA hB (node_vel (m.vel1 t) (m.spin1 t)) (node_spin m.valid1 m.validN1 (m.spin1 t))
    (node_vel (m.vel2 t) (m.spin2 t)) (node_spin m.valid2 m.validN2 (m.spin2 t)) hu hw
  have vA : ((m.B1 t).mul m.N1).rot.IsUnit := hA t
  obtain ⟨-, e3⟩ := rel_rotate (hA t) (hB t) (m.rel t)
  refine ⟨?_, ?_, e3⟩
  · rw [e1, Q.rotate_conj' vA]
    ext <;> simp <;> ring
  · rw [e2, Q.rotate_conj' vA]

/-- Loads that the link really applies have the power of the link. -/
theorem LinkMotion.power_of (m : LinkMotion) (t : ℝ) (d : ChLink) (hv : d.relVel = (m.c t).relVel) (hw : d.relWvel = (m.c t).relWvel)
    (h1 : SameLoad .NWU (Wrench.ofBody (m.B1 t) (springForceOnBody1 d m.N1 .NWU) (springTorqueOnBody1AtCOG d m.N1 .NWU) .NWU)
      (appliedOnBody1 d ((m.B1 t).mul m.N1) ((m.B2 t).mul m.N2)))
    (h2 : SameLoad .NWU (Wrench.ofBody (m.B2 t) (springForceOnBody2 d m.N2 .NWU) (springTorqueOnBody2AtCOG d m.N2 .NWU) .NWU)
      (appliedOnBody2 d ((m.B1 t).mul m.N1) ((m.B2 t).mul m.N2))) :
    m.springPower d t = V3.dot d.cForce (m.c t).relVel + V3.dot d.cTorque (m.c t).relWvel := by
  obtain ⟨A, B, eA, eB, vA, vB, r1, r2, r3⟩ := m.rates t
  rw [← eA, ← eB] at h1 h2
  obtain ⟨f1, g1⟩ := h1
  obtain ⟨f2, g2⟩ := h2
  have g1 := g1 B.pos
  have g2 := g2 B.pos
  unfold LinkMotion.springPower
  rw [power_about _ _ _ _ B.pos, power_about _ (m.B2 t).pos _ _ B.pos]
  rw [show conv .NWU B.pos = B.pos from rfl] at g1 g2
  rw [f1, f2, g1, g2]
  have d1 := dot_conj_rotate vA d.cForce (A.rot.rotate (m.c t).relVel)
  have d2 := dot_conj_rotate vA d.cTorque (A.rot.rotate (m.c t).relWvel)
  rw [Q.rotate_conj vA, r1] at d1
  rw [Q.rotate_conj vA, r2] at d2
  rw [d1, d2]
  simp only [conv, appliedOnBody1, appliedOnBody2, Wrench.momentAbout, V3.dot]
  simp
  ring

/-- The rate of turn of a relative rotation about z. -/
theorem rotZ_rate {q : ℝ → Q} {θ : ℝ → ℝ} {θ' : ℝ} {w : V3} {t : ℝ} (h : ∀ s, IsRotZ (q s) (θ s)) (hθ : HasDerivAt θ θ' t) (hw : HasAngVel q w t) : w = ⟨0, 0, θ'⟩ := by
  have key : ∀ s, (q s).rotate V3.e1 = ⟨cos (θ s), sin (θ s), 0⟩ ∧ (q s).rotate V3.e3 = V3.e3 := by
    intro s
    obtain ⟨k, hk, hq⟩ := isRotZ_form (h s)
    have hk2 : k ^ 2 = 1 := by rcases hk with h | h <;> rw [h] <;> norm_num
    have hcs := Real.sin_sq_add_cos_sq (θ s / 2)
    have ec : cos (θ s) = 2 * cos (θ s / 2) ^ 2 - 1 := by rw [← Real.cos_two_mul]; ring_nf
    have es : sin (θ s) = 2 * sin (θ s / 2) * cos (θ s / 2) := by rw [← Real.sin_two_mul]; ring_nf
    rw [hq, ec, es]
    constructor
    · ext <;> simp [Q.rotate, Q.toMat, M3.mulVec, V3.e1]
      · linear_combination 2 * cos (θ s / 2) ^ 2 * hk2
      · linear_combination 2 * sin (θ s / 2) * cos (θ s / 2) * hk2
    · ext <;> simp [Q.rotate, Q.toMat, M3.mulVec, V3.e3]
      linear_combination 2 * (cos (θ s / 2) ^ 2 + sin (θ s / 2) ^ 2) * hk2 + 2 * hcs
  have h3 := hw V3.e3
  have h1 := hw V3.e1
  simp only [key] at h1 h3
  obtain ⟨a, b, -⟩ := h3
  simp only [V3.e3, V3.cross_x, V3.cross_y] at a b
  have a := a.unique (hasDerivAt_const t _)
  have b := b.unique (hasDerivAt_const t _)
  obtain ⟨p, q, -⟩ := h1
  have p := p.unique hθ.cos
  have q := q.unique hθ.sin
  simp only [V3.cross_x, V3.cross_y] at p q
  ext
  · show w.x = 0
    linarith
  · show w.y = 0
    linarith
  · show w.z = θ'
    have := Real.sin_sq_add_cos_sq (θ t)
    linear_combination (-Real.sin (θ t)) * p + Real.cos (θ t) * q - (w.z - θ') * this

/-- The nodes of a slider do not turn relative to each other. -/
theorem slider_rates (m : LinkMotion) (hs : ∀ t, OnSlider (m.c t).relM) (t : ℝ) : (m.c t).relVel = ⟨0, 0, (m.c t).relVel.z⟩ ∧ (m.c t).relWvel = 0 := by
  obtain ⟨a, b, -⟩ := m.relVel t
  have hx : (fun s => (m.c s).relM.pos.x) = fun _ => 0 := funext fun s => (hs s).2.1
  have hy : (fun s => (m.c s).relM.pos.y) = fun _ => 0 := funext fun s => (hs s).2.2
  rw [hx] at a; rw [hy] at b
  have a := a.unique (hasDerivAt_const t _)
  have b := b.unique (hasDerivAt_const t _)
  refine ⟨by ext <;> simp [a, b], ?_⟩
  have h : ∀ s, IsRotZ (m.c s).relM.rot 0 := by
    intro s
    left
    rw [(hs s).1]
    ext <;> simp [Q.one, Q.ofAngAxis]
  exact rotZ_rate (θ := fun _ => 0) h (hasDerivAt_const t _) (m.relSpin t)

/-! ## C196 -/

/-- **C196, prismatic link.** While the two bodies move in any way that the slider allows, the energy of the spring (stiffness times the square of the link position, over two) changes at the
opposite of the power of the loads the link returns for the two bodies, less what the damper takes. -/
theorem C196_prismatic (m : LinkMotion) (l : Prismatic) (hs : ∀ t, OnSlider (m.c t).relM) (t : ℝ) :
    HasDerivAt (fun s => springEnergy l.stiffness (l.update (generateCache (m.c s))).getLinkPosition)
      (-m.springPower ((l.update (generateCache (m.c t))).chLink (m.c t)) t - l.damping * (l.update (generateCache (m.c t))).linkVelocity ^ 2) t := by
  obtain ⟨h1, h2, -⟩ := C186_prismatic l (m.c t) (m.B1 t) (m.B2 t) m.N1 m.N2 (m.valid1 t) (m.valid2 t) m.validN1 m.validN2 (m.rel t) (hs t) .NWU _ rfl _ _ rfl rfl
  rw [m.power_of t ((l.update (generateCache (m.c t))).chLink (m.c t)) rfl rfl h1 h2]
  obtain ⟨e1, e2⟩ := slider_rates m hs t
  have hz : ((l.update (generateCache (m.c t))).chLink (m.c t)).cForce.z = -(l.stiffness * ((m.c t).relM.pos.z - l.restLength) + l.damping * (m.c t).relVel.z) := rfl
  have ev : (l.update (generateCache (m.c t))).linkVelocity = (m.c t).relVel.z := rfl
  have ep : (fun s => springEnergy l.stiffness (l.update (generateCache (m.c s))).getLinkPosition) = fun s => l.stiffness * ((m.c s).relM.pos.z - l.restLength) ^ 2 / 2 := rfl
  rw [ep, e2, ev]
  have hd := (((m.relVel t).2.2.sub_const l.restLength).pow 2).const_mul l.stiffness |>.div_const 2
  refine hd.congr_deriv ?_
  rw [e1]
  simp only [V3.dot, hz]
  simp
  ring

/-- **C196, work of a prismatic link.** Between any two times the loads of the link give the two bodies what its spring loses, less what its damper takes: so with a damping coefficient that is not
negative they never give more than the energy of the spring at the start, and nothing over a motion that brings the link back to the same position. -/
theorem C196_prismatic_work (m : LinkMotion) (l : Prismatic) (hs : ∀ t, OnSlider (m.c t).relM) (hc : Continuous fun t => (m.c t).relVel.z) (t0 t1 : ℝ) (P : ℝ → ℝ)
    (hP : ∀ t, P t = m.springPower ((l.update (generateCache (m.c t))).chLink (m.c t)) t) (x : ℝ → ℝ) (hx : ∀ t, x t = (l.update (generateCache (m.c t))).getLinkPosition) :
    (∫ t in t0..t1, P t) = springEnergy l.stiffness (x t0) - springEnergy l.stiffness (x t1) -
      l.damping * ∫ t in t0..t1, (l.update (generateCache (m.c t))).linkVelocity ^ 2 ∧
    (0 ≤ l.damping → t0 ≤ t1 → 0 ≤ l.stiffness → (∫ t in t0..t1, P t) ≤ springEnergy l.stiffness (x t0) ∧ (x t1 = x t0 → (∫ t in t0..t1, P t) ≤ 0)) := by
  have ev : ∀ t, (l.update (generateCache (m.c t))).linkVelocity = (m.c t).relVel.z := fun _ => rfl
  have hxd : ∀ t, HasDerivAt x ((m.c t).relVel.z) t := by
    intro t
    rw [funext hx]
    exact (m.relVel t).2.2.sub_const l.restLength
  have hxc : Continuous x := continuous_iff_continuousAt.2 fun t => (hxd t).continuousAt
  have hE : ∀ t, HasDerivAt (fun s => springEnergy l.stiffness (x s)) (-P t - l.damping * (l.update (generateCache (m.c t))).linkVelocity ^ 2) t := by
    intro t
    rw [hP, funext hx]
    exact C196_prismatic m l hs t
  have hPc : P = fun t => -(l.stiffness * x t * (m.c t).relVel.z) - l.damping * (m.c t).relVel.z ^ 2 := by
    funext t
    have h1 := hE t
    have h2 : HasDerivAt (fun s => springEnergy l.stiffness (x s)) (l.stiffness * x t * (m.c t).relVel.z) t := by
      have := (((hxd t).pow 2).const_mul l.stiffness).div_const 2
      refine this.congr_deriv ?_
      simp
      ring
    have := h1.unique h2
    rw [ev] at this
    linarith
  have hPcont : Continuous P := by rw [hPc]; fun_prop
  have hI : (∫ t in t0..t1, (-P t - l.damping * (l.update (generateCache (m.c t))).linkVelocity ^ 2)) = springEnergy l.stiffness (x t1) - springEnergy l.stiffness (x t0) := by
    refine intervalIntegral.integral_eq_sub_of_hasDerivAt (fun t _ => hE t) ?_
    simp only [ev]
    exact (by fun_prop : Continuous fun t => -P t - l.damping * (m.c t).relVel.z ^ 2).intervalIntegrable _ _
  have hsplit : (∫ t in t0..t1, (-P t - l.damping * (l.update (generateCache (m.c t))).linkVelocity ^ 2)) =
      -(∫ t in t0..t1, P t) - l.damping * ∫ t in t0..t1, (l.update (generateCache (m.c t))).linkVelocity ^ 2 := by
    simp only [ev]
    rw [intervalIntegral.integral_sub (f := fun t => -P t) (hPcont.neg.intervalIntegrable _ _) ((by fun_prop : Continuous fun t => l.damping * (m.c t).relVel.z ^ 2).intervalIntegrable _ _),
      intervalIntegral.integral_neg, intervalIntegral.integral_const_mul]
  have hmain : (∫ t in t0..t1, P t) = springEnergy l.stiffness (x t0) - springEnergy l.stiffness (x t1) -
      l.damping * ∫ t in t0..t1, (l.update (generateCache (m.c t))).linkVelocity ^ 2 := by
    rw [hsplit] at hI
    linarith
  refine ⟨hmain, fun hd ht hk => ?_⟩
  have hn : 0 ≤ ∫ t in t0..t1, (l.update (generateCache (m.c t))).linkVelocity ^ 2 := intervalIntegral.integral_nonneg ht fun t _ => sq_nonneg _
  have hq : 0 ≤ springEnergy l.stiffness (x t1) := by
    unfold springEnergy
    positivity
  have := mul_nonneg hd hn
  rw [hmain]
  refine ⟨by linarith, fun e => ?_⟩
  rw [e]
  linarith

/-- **C196, revolute link.** While the two bodies move in any way that the joint allows, the relative angular velocity given to the link is the rate of the true angle `θ` between the nodes, and the
energy of the spring at the true angle changes at the opposite of the power of the loads the link returns for the two bodies, less what the damper takes, up to `ε` times the stiffness and the
angular velocity when the link angle returned is within `ε` of the true angle from rest (C45: `ε` is 0 outside the dead band of the measure, where it is at most 5e-4, over any number of turns). -/
theorem C196_revolute (m : LinkMotion) (l : Revolute) (θ θ' : ℝ → ℝ) (hr : ∀ t, IsRotZ (m.c t).relM.rot (θ t)) (hθ : ∀ t, HasDerivAt θ (θ' t) t) (ε t : ℝ)
    (he : |(l.update (m.c t).relM.rot (m.c t).relWvel.z).linkAngle - (θ t - l.restAngle)| ≤ ε) :
    (m.c t).relWvel = ⟨0, 0, θ' t⟩ ∧ ∃ D, HasDerivAt (fun s => springEnergy l.stiffness (θ s - l.restAngle)) D t ∧
      |D - (-m.springPower ((l.update (m.c t).relM.rot (m.c t).relWvel.z).chLink (m.c t)) t - l.damping * θ' t ^ 2)| ≤ ε * |l.stiffness * θ' t| := by
  have hw := rotZ_rate hr (hθ t) (m.relSpin t)
  refine ⟨hw, l.stiffness * (θ t - l.restAngle) * θ' t, ?_, ?_⟩
  · have := ((((hθ t).sub_const l.restAngle).pow 2).const_mul l.stiffness).div_const 2
    refine this.congr_deriv ?_
    simp
    ring
  obtain ⟨h1, h2, -⟩ := C186_revolute l (m.c t).relWvel.z (m.c t) (m.B1 t) (m.B2 t) m.N1 m.N2 (m.valid1 t) (m.valid2 t) m.validN1 m.validN2 (m.rel t) ⟨_, hr t⟩ .NWU _ rfl _ _ rfl rfl
  rw [m.power_of t ((l.update (m.c t).relM.rot (m.c t).relWvel.z).chLink (m.c t)) rfl rfl h1 h2]
  have e : V3.dot ((l.update (m.c t).relM.rot (m.c t).relWvel.z).chLink (m.c t)).cForce (m.c t).relVel +
      V3.dot ((l.update (m.c t).relM.rot (m.c t).relWvel.z).chLink (m.c t)).cTorque (m.c t).relWvel =
      (l.update (m.c t).relM.rot (m.c t).relWvel.z).linkTorque * (m.c t).relWvel.z := by
    show V3.dot 0 (m.c t).relVel + V3.dot ⟨0, 0, (l.update (m.c t).relM.rot (m.c t).relWvel.z).cTorque⟩ (m.c t).relWvel = _
    simp [V3.dot, Revolute.linkTorque]
  have hT := (C45_spring_damper l (m.c t).relM.rot (m.c t).relWvel.z).1
  have hz : (m.c t).relWvel.z = θ' t := by rw [hw]
  rw [e, hT]
  generalize (l.update (m.c t).relM.rot (m.c t).relWvel.z).linkAngle = a at he ⊢
  rw [hz]
  have e2 : l.stiffness * (θ t - l.restAngle) * θ' t - (-((-(l.stiffness * a) - l.damping * θ' t) * θ' t) - l.damping * θ' t ^ 2) = -((a - (θ t - l.restAngle)) * (l.stiffness * θ' t)) := by ring
  rw [e2, abs_neg, abs_mul]
  exact mul_le_mul_of_nonneg_right he (abs_nonneg _)

/-- The reactions returned for the two bodies have, together, the opposite of the power of the reaction at node 1 with the relative motion taken there. -/
theorem LinkMotion.reactionPower_eq (m : LinkMotion) (t : ℝ) :
    m.reactionPower t = -(V3.dot (m.c t).reactForce ((m.c t).relVel - V3.cross (m.c t).relWvel (m.c t).relM.pos) + V3.dot (m.c t).reactTorque (m.c t).relWvel) := by
  obtain ⟨A, B, eA, eB, vA, vB, r1, r2, r3⟩ := m.rates t
  obtain ⟨hf, hm⟩ := C47_action_reaction (m.c t) (m.B1 t) (m.B2 t) m.N1 m.N2 (m.valid1 t) (m.valid2 t) m.validN1 m.validN2 (m.rel t) .NWU A.pos
  have hw1 := wrench1 (m.c t) (m.B1 t) m.N1 (m.valid1 t) m.validN1 .NWU
  rw [← eA] at hw1
  have pA : A.pos = (m.B1 t).pos + (m.B1 t).rot.rotate m.N1.pos := by rw [eA]; rfl
  unfold LinkMotion.reactionPower
  rw [power_about _ _ _ _ A.pos, power_about _ (m.B2 t).pos _ _ A.pos]
  set W1 := Wrench.ofBody (m.B1 t) (reactionForceOnBody1 (generateCache (m.c t)) m.N1 .NWU) (reactionTorqueOnBody1AtCOG (generateCache (m.c t)) m.N1 .NWU) .NWU
  set W2 := Wrench.ofBody (m.B2 t) (reactionForceOnBody2 (generateCache (m.c t)) m.N2 .NWU) (reactionTorqueOnBody2AtCOG (generateCache (m.c t)) m.N2 .NWU) .NWU
  have f1 : W1.force = A.rot.rotate (m.c t).reactForce := by rw [hw1]; rfl
  have g1 : W1.momentAbout A.pos = A.rot.rotate (m.c t).reactTorque := by
    rw [hw1]
    simp only [Wrench.momentAbout, conv]
    rw [pA]
    ext <;> simp <;> ring
  have f2 : W2.force = -(A.rot.rotate (m.c t).reactForce) := by
    rw [← f1]
    have hx := congrArg V3.x hf; have hy := congrArg V3.y hf; have hz := congrArg V3.z hf
    simp at hx hy hz
    ext <;> simp <;> linarith
  have g2 : W2.momentAbout A.pos = -(A.rot.rotate (m.c t).reactTorque) := by
    rw [← g1]
    have hx := congrArg V3.x hm; have hy := congrArg V3.y hm; have hz := congrArg V3.z hm
    simp only [V3.add_x, V3.add_y, V3.add_z] at hx hy hz
    ext
    · have : (0:V3).x = 0 := rfl
      rw [this] at hx
      show _ = -_
      linarith
    · have : (0:V3).y = 0 := rfl
      rw [this] at hy
      show _ = -_
      linarith
    · have : (0:V3).z = 0 := rfl
      rw [this] at hz
      show _ = -_
      linarith
  rw [f1, f2, g1, g2]
  have d1 := dot_conj_rotate vA (m.c t).reactForce (A.rot.rotate ((m.c t).relVel - V3.cross (m.c t).relWvel (m.c t).relM.pos))
  have d2 := dot_conj_rotate vA (m.c t).reactTorque (A.rot.rotate (m.c t).relWvel)
  rw [Q.rotate_conj vA] at d1 d2
  rw [d1, d2, Q.rotate_sub, rotate_cross vA, r1, r2, r3]
  simp only [V3.dot]
  simp
  ring

/-- **C196, reactions.** The reactions returned for the two bodies of a slider (no reaction along the slider) and of a revolute joint (no reaction torque about its axis) do no work: their powers on
the two bodies add to zero, along every motion that the joint allows. -/
theorem C196_reactions (m : LinkMotion) :
    ((∀ t, OnSlider (m.c t).relM) → (∀ t, (m.c t).reactForce.z = 0) → ∀ t, m.reactionPower t = 0) ∧
    (∀ θ θ' : ℝ → ℝ, (∀ t, (m.c t).relM.pos = 0 ∧ IsRotZ (m.c t).relM.rot (θ t)) → (∀ t, HasDerivAt θ (θ' t) t) → (∀ t, (m.c t).reactTorque.z = 0) → ∀ t, m.reactionPower t = 0) := by
  constructor
  · intro hs hz t
    obtain ⟨e1, e2⟩ := slider_rates m hs t
    rw [m.reactionPower_eq, e2, e1]
    simp [V3.dot, hz t]
  · intro θ θ' hr hθ hz t
    have hw := rotZ_rate (fun s => (hr s).2) (hθ t) (m.relSpin t)
    have hv : (m.c t).relVel = 0 := by
      have h := m.relVel t
      simp only [(hr _).1] at h
      exact h.unique ⟨hasDerivAt_const _ _, hasDerivAt_const _ _, hasDerivAt_const _ _⟩
    rw [m.reactionPower_eq, (hr t).1, hv, hw]
    simp [V3.dot, hz t]

/-! ## Examples -/

theorem turning_spin (t : ℝ) : HasAngVel (fun s => Q.ofAngAxis s V3.e3) ⟨0, 0, 1⟩ t := by
  have e : ∀ (s : ℝ) (u : V3), (Q.ofAngAxis s V3.e3).rotate u = ⟨cos s * u.x - sin s * u.y, sin s * u.x + cos s * u.y, u.z⟩ := by
    intro s u
    have hcs := Real.sin_sq_add_cos_sq (s / 2)
    have ec : cos s = 2 * cos (s / 2) ^ 2 - 1 := by rw [← Real.cos_two_mul]; ring_nf
    have es : sin s = 2 * sin (s / 2) * cos (s / 2) := by rw [← Real.sin_two_mul]; ring_nf
    rw [ec, es]
    ext <;> simp [Q.rotate, Q.toMat, M3.mulVec, Q.ofAngAxis, V3.e3]
    · ring
    · ring
    · linear_combination 2 * u.z * hcs
  intro u
  simp only [e]
  refine ⟨?_, ?_, ?_⟩
  · refine (((hasDerivAt_cos t).mul_const u.x).sub ((hasDerivAt_sin t).mul_const u.y)).congr_deriv ?_
    simp; ring
  · refine (((hasDerivAt_sin t).mul_const u.x).add ((hasDerivAt_cos t).mul_const u.y)).congr_deriv ?_
    simp; ring
  · refine (hasDerivAt_const t u.z).congr_deriv ?_
    simp

/-- Body 2 turns about the common z axis of the nodes at 1 rad/s. -/
def turning : LinkMotion where
  B1 _ := ⟨0, Q.one⟩
  B2 t := ⟨0, Q.ofAngAxis t V3.e3⟩
  N1 := Frame.identity
  N2 := Frame.identity
  v1 _ := 0
  w1 _ := 0
  v2 _ := 0
  w2 _ := ⟨0, 0, 1⟩
  c t := ⟨⟨0, Q.ofAngAxis t V3.e3⟩, 0, ⟨0, 0, 1⟩, 0, 0, 0, 0, 0, 0⟩
  valid1 _ := Q.isUnit_one
  valid2 t := ofAngAxis_unit (by simp [V3.dot, V3.e3]) t
  validN1 := Q.isUnit_one
  validN2 := Q.isUnit_one
  vel1 t := ⟨hasDerivAt_const _ _, hasDerivAt_const _ _, hasDerivAt_const _ _⟩
  spin1 t := by
    intro u
    have e : V3.cross 0 (Q.one.rotate u) = 0 := by ext <;> simp
    show HasVel (fun _ => Q.one.rotate u) (V3.cross 0 (Q.one.rotate u)) t
    rw [e]
    exact ⟨hasDerivAt_const _ _, hasDerivAt_const _ _, hasDerivAt_const _ _⟩
  vel2 t := ⟨hasDerivAt_const _ _, hasDerivAt_const _ _, hasDerivAt_const _ _⟩
  spin2 t := turning_spin t
  rel t := by
    have z : ∀ q : Q, q.rotate 0 = 0 := by intro q; ext <;> simp [Q.rotate, M3.mulVec]
    have zz : (0:V3) + 0 = 0 := by ext <;> simp
    refine Frame.ext ?_ ?_
    · show (0:V3) = -((Q.one.mul Q.one).conj.rotate (0 + Q.one.rotate 0)) + (Q.one.mul Q.one).conj.rotate (0 + (Q.ofAngAxis t V3.e3).rotate 0)
      rw [z, z, zz, z]
      ext <;> simp
    · show Q.ofAngAxis t V3.e3 = (Q.one.mul Q.one).conj.mul ((Q.ofAngAxis t V3.e3).mul Q.one)
      ext <;> simp [Q.mul, Q.one, Q.conj]
  relVel t := ⟨hasDerivAt_const _ _, hasDerivAt_const _ _, hasDerivAt_const _ _⟩
  relSpin t := turning_spin t

/-- The hypotheses of `C196_revolute` are met with `ε = 0` by a spring of 100 N m/rad and a damper of 5 N m s/rad turned by a right angle: the loads take what the spring stores and what the damper
takes. -/
example : turning.springPower (((({ stiffness := 100, damping := 5 } : Revolute).update (turning.c (π / 2)).relM.rot (turning.c (π / 2)).relWvel.z)).chLink (turning.c (π / 2))) (π / 2) =
    -(100 * (π / 2) + 5) := by
  have hp := pi_gt_three
  have h1 := (C45_multi_turn { stiffness := 100, damping := 5 } rfl (fun n => n * (π / 2)) (fun _ => 1) (fun n => Q.ofAngAxis (n * (π / 2)) V3.e3) (by simp)
    (fun n => Or.inl rfl) (fun n => by
      push_cast
      rw [show ((n:ℝ) + 1) * (π / 2) - n * (π / 2) = π / 2 by ring, abs_of_pos (by positivity)]
      linarith) 1).2.1
  have hc : |cos (((1:ℕ):ℝ) * (π / 2) / 2)| < 0.99999999 := by
    have e : ((1:ℕ):ℝ) * (π / 2) / 2 = π / 4 := by push_cast; ring
    rw [e, cos_pi_div_four, abs_of_pos (by positivity)]
    have : √2 < 1.5 := by rw [Real.sqrt_lt' (by norm_num)]; norm_num
    linarith
  have h2 : ((({ stiffness := 100, damping := 5 } : Revolute).update (turning.c (π / 2)).relM.rot (turning.c (π / 2)).relWvel.z)).linkAngle = π / 2 - 0 := by
    refine Eq.trans ?_ ((h1 hc).trans ?_)
    · show Revolute.linkAngle (Revolute.update _ (Q.ofAngAxis (π / 2) V3.e3) 1) = Revolute.linkAngle (Revolute.update _ (Q.ofAngAxis (((0:ℕ) + 1 : ℕ) * (π / 2)) V3.e3) 1)
      congr 3
      push_cast
      ring
    · push_cast
      ring
  obtain ⟨-, D, hD, hP⟩ := C196_revolute turning { stiffness := 100, damping := 5 } id (fun _ => 1) (fun t => Or.inl rfl) (fun t => hasDerivAt_id t) 0 (π / 2)
    (by rw [h2]; simp)
  rw [zero_mul] at hP
  have hP := sub_eq_zero.1 (abs_nonpos_iff.1 hP)
  have hE : HasDerivAt (fun s : ℝ => springEnergy 100 (id s - 0)) (100 * (π / 2)) (π / 2) := by
    refine (((((hasDerivAt_id (π / 2)).sub_const 0).pow 2).const_mul 100).div_const 2).congr_deriv ?_
    simp
    ring
  have := hD.unique hE
  linarith

end Frydom.Link
