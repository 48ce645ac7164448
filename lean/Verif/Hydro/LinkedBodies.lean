import Verif.Hydro.PassiveBody
import Verif.Link.SpringEnergy

/-!
# Two bodies joined by a prismatic or a revolute link (C196)

The loads and reactions that a link returns for its two bodies (SpringEnergy.lean; src/frydom/core/link/links_lib/FrLink.cpp, FrPrismaticLink.cpp, FrRevoluteLink.cpp) in the equations of the solver for
these bodies (PassiveBody.lean, C195).
-/

noncomputable section

namespace Frydom.Hydro
open Frydom.Geom Frydom.Core Frydom.Cable Frydom.Link

/-! ## Specification -/

/-- The two bodies of a link are these. -/
structure Joins (m : LinkMotion) (b b' : ℝ → DBody) : Prop where
  frame1 : ∀ t, m.B1 t = (b t).body.cog
  frame2 : ∀ t, m.B2 t = (b' t).body.cog
  vel1 : ∀ t, m.v1 t = (b t).body.cogVelWorld .NWU
  vel2 : ∀ t, m.v2 t = (b' t).body.cogVelWorld .NWU
  spin1 : ∀ t, m.w1 t = (b t).body.angVelWorld .NWU
  spin2 : ∀ t, m.w2 t = (b' t).body.angVelWorld .NWU

/-- The spring-damper force and torque at the COG that the link `d` returns for body 1, as a load on it. -/
def springOn1 (m : LinkMotion) (d : ChLink) (b : Body) : Force :=
  ({} : Force).setForceTorqueInBodyAtCOG b (springForceOnBody1 d m.N1 .NWU) (springTorqueOnBody1AtCOG d m.N1 .NWU) .NWU
/-- The same for body 2. -/
def springOn2 (m : LinkMotion) (d : ChLink) (b : Body) : Force :=
  ({} : Force).setForceTorqueInBodyAtCOG b (springForceOnBody2 d m.N2 .NWU) (springTorqueOnBody2AtCOG d m.N2 .NWU) .NWU
/-- The reaction force and torque at the COG that the link returns for body 1, as a load on it. -/
def reactionOn1 (m : LinkMotion) (c : ChLink) (b : Body) : Force :=
  ({} : Force).setForceTorqueInBodyAtCOG b (reactionForceOnBody1 (generateCache c) m.N1 .NWU) (reactionTorqueOnBody1AtCOG (generateCache c) m.N1 .NWU) .NWU
/-- The same for body 2. -/
def reactionOn2 (m : LinkMotion) (c : ChLink) (b : Body) : Force :=
  ({} : Force).setForceTorqueInBodyAtCOG b (reactionForceOnBody2 (generateCache c) m.N2 .NWU) (reactionTorqueOnBody2AtCOG (generateCache c) m.N2 .NWU) .NWU

/-! ## Lemmas -/

theorem power_inBody (b : Body) (f τ : V3) :
    powerOn b (({} : Force).setForceTorqueInBodyAtCOG b f τ .NWU) = (Wrench.ofBody b.cog f τ .NWU).power b.cog.pos (b.cogVelWorld .NWU) (b.angVelWorld .NWU) := by
  show V3.dot (b.cog.rot.rotate f) (b.cogVelWorld .NWU) + V3.dot (b.cog.rot.rotate τ) (b.angVelWorld .NWU) =
    V3.dot (b.cog.rot.rotate f) (b.cogVelWorld .NWU + V3.cross (b.angVelWorld .NWU) (b.cog.pos - b.cog.pos)) + V3.dot (b.cog.rot.rotate τ) (b.angVelWorld .NWU)
  have e : b.cogVelWorld .NWU + V3.cross (b.angVelWorld .NWU) (b.cog.pos - b.cog.pos) = b.cogVelWorld .NWU := by ext <;> simp
  rw [e]

theorem spring_power {m : LinkMotion} {b b' : ℝ → DBody} (h : Joins m b b') (d : ChLink) (t : ℝ) :
    powerOn (b t).body (springOn1 m d (b t).body) + powerOn (b' t).body (springOn2 m d (b' t).body) = m.springPower d t := by
  unfold springOn1 springOn2
  rw [power_inBody, power_inBody, ← h.frame1, ← h.frame2, ← h.vel1, ← h.vel2, ← h.spin1, ← h.spin2]
  rfl

theorem reaction_power {m : LinkMotion} {b b' : ℝ → DBody} (h : Joins m b b') (t : ℝ) :
    powerOn (b t).body (reactionOn1 m (m.c t) (b t).body) + powerOn (b' t).body (reactionOn2 m (m.c t) (b' t).body) = m.reactionPower t := by
  unfold reactionOn1 reactionOn2
  rw [power_inBody, power_inBody, ← h.frame1, ← h.frame2, ← h.vel1, ← h.vel2, ← h.spin1, ← h.spin2]
  rfl

/-- The energies of the two bodies change at the powers of the loads of the link and of the other loads. -/
theorem two_bodies {g : ℝ} {m : LinkMotion} {b b' : ℝ → DBody} (hj : Joins m b b') (d : ℝ → ChLink) (D D' : ℝ → List Force)
    (h : FreeUnderAll g b fun t => springOn1 m (d t) (b t).body :: reactionOn1 m (m.c t) (b t).body :: D t)
    (h' : FreeUnderAll g b' fun t => springOn2 m (d t) (b' t).body :: reactionOn2 m (m.c t) (b' t).body :: D' t) (t : ℝ) :
    HasDerivAt (fun s => bodyEnergy g (b s) + bodyEnergy g (b' s))
      (m.springPower (d t) t + m.reactionPower t + (((D t).map (powerOn (b t).body)).sum + ((D' t).map (powerOn (b' t).body)).sum)) t := by
  refine ((C195_work h t).add (C195_work h' t)).congr_deriv ?_
  rw [← spring_power hj, ← reaction_power hj]
  simp only [List.map_cons, List.sum_cons]
  ring

/-! ## C196 -/

/-- **C196, two bodies on a slider.** Two bodies joined by a prismatic link, under their weights, the spring-damper loads and the reactions that the link returns for them (no reaction along the
slider) and any other loads that never give them power: with a damping coefficient that is not negative the sum of the energies of the bodies and of the spring never increases, and it is
constant without damper and other loads. -/
theorem C196_bodies (g : ℝ) (m : LinkMotion) (b b' : ℝ → DBody) (hj : Joins m b b') (l : Prismatic) (hs : ∀ t, OnSlider (m.c t).relM) (hz : ∀ t, (m.c t).reactForce.z = 0)
    (d : ℝ → ChLink) (hd : ∀ t, d t = (l.update (generateCache (m.c t))).chLink (m.c t)) (D D' : ℝ → List Force)
    (hD : ∀ t, ∀ f ∈ D t, powerOn (b t).body f ≤ 0) (hD' : ∀ t, ∀ f ∈ D' t, powerOn (b' t).body f ≤ 0)
    (h : FreeUnderAll g b fun t => springOn1 m (d t) (b t).body :: reactionOn1 m (m.c t) (b t).body :: D t)
    (h' : FreeUnderAll g b' fun t => springOn2 m (d t) (b' t).body :: reactionOn2 m (m.c t) (b' t).body :: D' t)
    (E : ℝ → ℝ) (hE : ∀ t, E t = bodyEnergy g (b t) + bodyEnergy g (b' t) + springEnergy l.stiffness (l.update (generateCache (m.c t))).getLinkPosition) :
    (0 ≤ l.damping → Antitone E) ∧ (l.damping = 0 → (∀ t, D t = [] ∧ D' t = []) → ∀ t t', E t = E t') := by
  have hd' : ∀ t, HasDerivAt E (((D t).map (powerOn (b t).body)).sum + ((D' t).map (powerOn (b' t).body)).sum - l.damping * (l.update (generateCache (m.c t))).linkVelocity ^ 2) t := by
    intro t
    rw [funext hE]
    refine ((two_bodies hj d D D' h h' t).add (C196_prismatic m l hs t)).congr_deriv ?_
    rw [(C196_reactions m).1 hs hz t, hd t]
    ring
  constructor
  · intro hc
    refine antitone_of_deriv_nonpos (fun t => (hd' t).differentiableAt) fun t => ?_
    rw [(hd' t).deriv]
    have h1 := sum_nonpos (hD t)
    have h2 := sum_nonpos (hD' t)
    have h3 := mul_nonneg hc (sq_nonneg (l.update (generateCache (m.c t))).linkVelocity)
    linarith
  · intro hc he
    refine is_const_of_deriv_eq_zero (fun t => (hd' t).differentiableAt) fun t => ?_
    rw [(hd' t).deriv, (he t).1, (he t).2, hc]
    simp

/-- **C196, two bodies on a revolute joint.** The same for a revolute link (no reaction torque about its axis) while the link angle it returns is the true angle from rest (C45). -/
theorem C196_bodies_revolute (g : ℝ) (m : LinkMotion) (b b' : ℝ → DBody) (hj : Joins m b b') (l : ℝ → Revolute) (k c rest : ℝ)
    (hl : ∀ t, (l t).stiffness = k ∧ (l t).damping = c ∧ (l t).restAngle = rest) (θ θ' : ℝ → ℝ) (hr : ∀ t, (m.c t).relM.pos = 0 ∧ IsRotZ (m.c t).relM.rot (θ t))
    (hθ : ∀ t, HasDerivAt θ (θ' t) t) (ha : ∀ t, ((l t).update (m.c t).relM.rot (m.c t).relWvel.z).linkAngle = θ t - rest) (hz : ∀ t, (m.c t).reactTorque.z = 0)
    (d : ℝ → ChLink) (hd : ∀ t, d t = ((l t).update (m.c t).relM.rot (m.c t).relWvel.z).chLink (m.c t)) (D D' : ℝ → List Force)
    (hD : ∀ t, ∀ f ∈ D t, powerOn (b t).body f ≤ 0) (hD' : ∀ t, ∀ f ∈ D' t, powerOn (b' t).body f ≤ 0)
    (h : FreeUnderAll g b fun t => springOn1 m (d t) (b t).body :: reactionOn1 m (m.c t) (b t).body :: D t)
    (h' : FreeUnderAll g b' fun t => springOn2 m (d t) (b' t).body :: reactionOn2 m (m.c t) (b' t).body :: D' t)
    (E : ℝ → ℝ) (hE : ∀ t, E t = bodyEnergy g (b t) + bodyEnergy g (b' t) + springEnergy k (θ t - rest)) :
    (0 ≤ c → Antitone E) ∧ (c = 0 → (∀ t, D t = [] ∧ D' t = []) → ∀ t t', E t = E t') := by
  have hd' : ∀ t, HasDerivAt E (((D t).map (powerOn (b t).body)).sum + ((D' t).map (powerOn (b' t).body)).sum - c * θ' t ^ 2) t := by
    intro t
    obtain ⟨hk, hc, hrest⟩ := hl t
    obtain ⟨-, S, hS, hS'⟩ := C196_revolute m (l t) θ θ' (fun s => (hr s).2) hθ 0 t (by rw [ha, hrest]; simp)
    rw [zero_mul] at hS'
    have hS' := sub_eq_zero.1 (abs_nonpos_iff.1 hS')
    rw [hk, hrest] at hS
    rw [hc] at hS'
    rw [funext hE]
    refine ((two_bodies hj d D D' h h' t).add hS).congr_deriv ?_
    rw [(C196_reactions m).2 θ θ' hr hθ hz t, hd t, hS']
    ring
  constructor
  · intro hc
    refine antitone_of_deriv_nonpos (fun t => (hd' t).differentiableAt) fun t => ?_
    rw [(hd' t).deriv]
    have h1 := sum_nonpos (hD t)
    have h2 := sum_nonpos (hD' t)
    have h3 := mul_nonneg hc (sq_nonneg (θ' t))
    linarith
  · intro hc he
    refine is_const_of_deriv_eq_zero (fun t => (hd' t).differentiableAt) fun t => ?_
    rw [(hd' t).deriv, (he t).1, (he t).2, hc]
    simp

/-! ## Example: two masses on a spring, falling -/

namespace Falling

/-- A mass of 1000 kg that moves on the vertical. -/
def mass (z z' z'' : ℝ → ℝ) (t : ℝ) : DBody :=
  { a := ⟨⟨⟨⟨0, 0, z t⟩, Q.one⟩, ⟨0, 0, z' t⟩, ⟨0, 0, 0, 0⟩, 0, ⟨0, 0, z t⟩, ⟨0, 0, z' t⟩⟩, ⟨0, 0, z'' t⟩, ⟨0, 0, 0, 0⟩⟩, mass := 1000, I := M3.one }

/-- The lower and the upper mass. -/
def low : ℝ → DBody := mass (fun t => -Real.cos t / 2 - 5 * t ^ 2) (fun t => Real.sin t / 2 - 10 * t) (fun t => Real.cos t / 2 - 10)
/-- see `low` -/
def high : ℝ → DBody := mass (fun t => 1 + Real.cos t / 2 - 5 * t ^ 2) (fun t => -Real.sin t / 2 - 10 * t) (fun t => -Real.cos t / 2 - 10)

theorem low_moving : Moving fun t => (low t).a := by
  refine vertical_moving (z := fun t => -Real.cos t / 2 - 5 * t ^ 2) (z' := fun t => Real.sin t / 2 - 10 * t) (z'' := fun t => Real.cos t / 2 - 10) ?_ ?_ <;> intro t
  · refine ((((Real.hasDerivAt_cos t).neg).div_const 2).sub ((hasDerivAt_pow 2 t).const_mul 5)).congr_deriv ?_
    norm_num; ring
  · refine (((Real.hasDerivAt_sin t).div_const 2).sub ((hasDerivAt_id t).const_mul 10)).congr_deriv ?_
    norm_num

theorem high_moving : Moving fun t => (high t).a := by
  refine vertical_moving (z := fun t => 1 + Real.cos t / 2 - 5 * t ^ 2) (z' := fun t => -Real.sin t / 2 - 10 * t) (z'' := fun t => -Real.cos t / 2 - 10) ?_ ?_ <;> intro t
  · refine ((((Real.hasDerivAt_cos t).div_const 2).const_add 1).sub ((hasDerivAt_pow 2 t).const_mul 5)).congr_deriv ?_
    norm_num; ring
  · refine ((((Real.hasDerivAt_sin t).neg).div_const 2).sub ((hasDerivAt_id t).const_mul 10)).congr_deriv ?_
    norm_num

theorem one_rot (v : V3) : Q.one.rotate v = v := by ext <;> simp [Q.rotate, Q.toMat, Q.one] <;> ring
theorem oneC_rot (v : V3) : Q.one.conj.rotate v = v := by ext <;> simp [Q.rotate, Q.toMat, Q.one, Q.conj] <;> ring

theorem still_spin (t : ℝ) : HasAngVel (fun _ => Q.one) 0 t := by
  intro u
  have e : V3.cross 0 (Q.one.rotate u) = 0 := by ext <;> simp
  rw [e]
  exact ⟨hasDerivAt_const _ _, hasDerivAt_const _ _, hasDerivAt_const _ _⟩

/-- What Chrono gives the link. -/
def given (t : ℝ) : ChLink := ⟨⟨⟨0, 0, 1 + Real.cos t⟩, Q.one⟩, ⟨0, 0, -Real.sin t⟩, 0, ⟨0, 0, -Real.cos t⟩, 0, 0, 0, 0, 0⟩

/-- The two masses and their link. -/
def pair : LinkMotion where
  B1 t := ⟨⟨0, 0, -Real.cos t / 2 - 5 * t ^ 2⟩, Q.one⟩
  B2 t := ⟨⟨0, 0, 1 + Real.cos t / 2 - 5 * t ^ 2⟩, Q.one⟩
  N1 := Frame.identity
  N2 := Frame.identity
  v1 t := ⟨0, 0, Real.sin t / 2 - 10 * t⟩
  w1 _ := 0
  v2 t := ⟨0, 0, -Real.sin t / 2 - 10 * t⟩
  w2 _ := 0
  c := given
  valid1 _ := Q.isUnit_one
  valid2 _ := Q.isUnit_one
  validN1 := Q.isUnit_one
  validN2 := Q.isUnit_one
  vel1 t := low_moving.pos t
  spin1 t := still_spin t
  vel2 t := high_moving.pos t
  spin2 t := still_spin t
  rel t := by
    refine Frame.ext ?_ ?_
    · show (⟨0, 0, 1 + Real.cos t⟩ : V3) = -((Q.one.mul Q.one).conj.rotate (_ + Q.one.rotate 0)) + (Q.one.mul Q.one).conj.rotate (_ + Q.one.rotate 0)
      have e : Q.one.mul Q.one = Q.one := by ext <;> simp [Q.mul, Q.one]
      rw [e, oneC_rot, oneC_rot, one_rot]
      ext <;> simp
      ring
    · show Q.one = (Q.one.mul Q.one).conj.mul (Q.one.mul Q.one)
      ext <;> simp [Q.mul, Q.one, Q.conj]
  relVel t := ⟨hasDerivAt_const _ _, hasDerivAt_const _ _, (Real.hasDerivAt_cos t).const_add 1⟩
  relSpin t := still_spin t

theorem still {b : ℝ → DBody} (z z' z'' : ℝ → ℝ) (hb : b = mass z z' z'') (t : ℝ) : (b t).wvelLoc = 0 ∧ (b t).a.angAccBody .NWU = 0 ∧ (b t).body.wvelPar = 0 := by
  rw [hb]
  have h1 : (mass z z' z'' t).body.wvelPar = 0 := by
    unfold Body.wvelPar
    ext <;> simp [mass, DBody.body, qvec, Q.mul]
  have h2 : (mass z z' z'' t).a.waccPar = 0 := by
    ext <;> simp [mass, ABody.waccPar, qvec, Q.mul]
  refine ⟨?_, ?_, h1⟩
  · unfold DBody.wvelLoc
    rw [h1, Frydom.Core.rotate_zero]
  · unfold ABody.angAccBody ABody.angAccWorld
    rw [h2, toBody_conv, Frydom.Core.rotate_zero, conv_zero]

theorem joins : Joins pair low high := by
  refine ⟨fun _ => rfl, fun _ => rfl, fun _ => rfl, fun _ => rfl, fun t => ?_, fun t => ?_⟩
  · exact (still _ _ _ rfl t).2.2.symm
  · exact (still _ _ _ rfl t).2.2.symm

/-- A spring of 500 N/m and 1 m at rest. -/
def spring : Prismatic := { stiffness := 500, restLength := 1 }

/-- The link once updated. -/
def updated (t : ℝ) : ChLink := (spring.update (generateCache (pair.c t))).chLink (pair.c t)

theorem updated_force (t : ℝ) : (updated t).cForce = ⟨0, 0, -500 * Real.cos t⟩ ∧ (updated t).cTorque = 0 := by
  have h : (updated t).cForce = -(⟨0, 0, 500 * (1 + Real.cos t - 1) + 0 * -Real.sin t⟩ : V3) := rfl
  constructor
  · rw [h]
    ext <;> simp
  · have e : (updated t).cTorque = -(0 : V3) + V3.cross (-(-(Q.one.conj.rotate ⟨0, 0, 1 + Real.cos t⟩))) (-⟨0, 0, 500 * (1 + Real.cos t - 1) + 0 * -Real.sin t⟩) := rfl
    rw [e, oneC_rot]
    ext <;> simp

theorem loads (t : ℝ) : (springOn1 pair (updated t) (low t).body).force = ⟨0, 0, 500 * Real.cos t⟩ ∧ (springOn1 pair (updated t) (low t).body).torque = 0 ∧
    (springOn2 pair (updated t) (high t).body).force = ⟨0, 0, -500 * Real.cos t⟩ ∧ (springOn2 pair (updated t) (high t).body).torque = 0 := by
  obtain ⟨e1, e2⟩ := updated_force t
  have z : (0:V3) + V3.cross 0 0 = 0 := by ext <;> simp
  refine ⟨?_, ?_, ?_, ?_⟩
  · show Q.one.rotate (Q.one.rotate (-(updated t).cForce)) = _
    rw [one_rot, one_rot, e1]
    ext <;> simp
  · show Q.one.rotate (-(updated t).cTorque) + V3.cross 0 (Q.one.rotate (-(updated t).cForce)) = _
    rw [one_rot, one_rot, e2]
    ext <;> simp
  · show Q.one.rotate (Q.one.rotate (updated t).cForce) = _
    rw [one_rot, one_rot, e1]
  · show Q.one.rotate (updated t).cTorque + V3.cross 0 (Q.one.rotate (updated t).cForce) = _
    rw [one_rot, one_rot, e2]
    ext <;> simp

theorem reactions (t : ℝ) : (reactionOn1 pair (pair.c t) (low t).body).force = 0 ∧ (reactionOn1 pair (pair.c t) (low t).body).torque = 0 ∧
    (reactionOn2 pair (pair.c t) (high t).body).force = 0 ∧ (reactionOn2 pair (pair.c t) (high t).body).torque = 0 := by
  refine ⟨?_, ?_, ?_, ?_⟩
  · show Q.one.rotate (Q.one.rotate 0) = _
    rw [one_rot, one_rot]
  · show Q.one.rotate (0 : V3) + V3.cross 0 (Q.one.rotate 0) = _
    rw [one_rot]
    ext <;> simp
  · show Q.one.rotate (Q.one.rotate (-(Q.one.conj.rotate 0))) = _
    rw [one_rot, one_rot, oneC_rot]
    ext <;> simp
  · have e : (reactionOn2 pair (pair.c t) (high t).body).torque = Q.one.rotate (-(Q.one.conj.rotate 0) + V3.cross (-(Q.one.conj.rotate ⟨0, 0, 1 + Real.cos t⟩)) (-(Q.one.conj.rotate 0))) +
        V3.cross 0 (Q.one.rotate (-(Q.one.conj.rotate 0))) := rfl
    rw [e]
    simp only [one_rot, oneC_rot]
    ext <;> simp

theorem free (z z' z'' : ℝ → ℝ) (hm : Moving fun t => (mass z z' z'' t).a) (S R : ℝ → Force) (hS : ∀ t, (S t).force = ⟨0, 0, 1000 * (z'' t + 10)⟩ ∧ (S t).torque = 0)
    (hR : ∀ t, (R t).force = 0 ∧ (R t).torque = 0) : FreeUnderAll 10 (mass z z' z'') fun t => [S t, R t] := by
  refine ⟨hm, fun _ _ => rfl, fun _ _ => rfl, ?_, fun _ => rfl, fun _ => rfl, fun _ => rfl, ?_, ?_, ?_⟩
  · intro t u v
    show V3.dot u (M3.one.mulVec v) = V3.dot (M3.one.mulVec u) v
    simp [V3.dot, M3.mulVec, M3.one]
  · intro t
    rw [(still z z' z'' rfl t).1]
    show (0 : V3) = _
    ext <;> simp
  · intro t
    show (1000:ℝ) • (⟨0, 0, z'' t⟩ : V3) = (0 : V3) + (1:ℝ) • ((0 : V3) + ((S t).force + ((R t).force + 0)) + (-((1000:ℝ) * 10)) • V3.e3)
    rw [(hS t).1, (hR t).1]
    ext <;> simp [V3.e3]
    ring
  · intro t
    rw [(still z z' z'' rfl t).2.1]
    show M3.mulVec M3.one 0 = (0 : V3) + (1:ℝ) • ((0 : V3) + ((S t).torque + ((R t).torque + 0)) - 0)
    rw [(hS t).2, (hR t).2]
    ext <;> simp

/-- The hypotheses of `C196_bodies` are met by the two masses: their energies and that of the spring keep their sum while they fall and oscillate. -/
example (t t' : ℝ) : bodyEnergy 10 (low t) + bodyEnergy 10 (high t) + springEnergy 500 (Real.cos t) =
    bodyEnergy 10 (low t') + bodyEnergy 10 (high t') + springEnergy 500 (Real.cos t') := by
  refine (C196_bodies 10 pair low high joins spring (fun _ => ⟨rfl, rfl, rfl⟩) (fun _ => rfl) updated (fun _ => rfl) (fun _ => []) (fun _ => []) (by simp) (by simp) ?_ ?_
    (fun t => bodyEnergy 10 (low t) + bodyEnergy 10 (high t) + springEnergy 500 (Real.cos t)) ?_).2 rfl (fun _ => ⟨rfl, rfl⟩) t t'
  · refine free _ _ _ low_moving _ _ (fun t => ⟨?_, (loads t).2.1⟩) fun t => ⟨(reactions t).1, (reactions t).2.1⟩
    refine (loads t).1.trans ?_
    ext <;> simp
    ring
  · refine free _ _ _ high_moving _ _ (fun t => ⟨?_, (loads t).2.2.2⟩) fun t => ⟨(reactions t).2.2.1, (reactions t).2.2.2⟩
    refine (loads t).2.2.1.trans ?_
    ext <;> simp
    ring
  · intro t
    have e : (spring.update (generateCache (pair.c t))).getLinkPosition = 1 + Real.cos t - 1 := rfl
    rw [e]
    simp [spring]

end Falling

end Frydom.Hydro
