import Verif.Hydro.LinkedBodies

/-!
# Momentum and angular momentum of bodies under any loads, and of two linked bodies (C197)

The equations of the solver for a body (src/frydom/core/body/FrBody.cpp: `VariablesFbLoadForces`, BodyDynamics.lean, C164) with any list of loads, and with the loads and reactions that a link returns for
its two bodies (src/frydom/core/link/links_lib/FrLink.cpp, SpringEnergy.lean, LinkedBodies.lean).
-/

noncomputable section

namespace Frydom.Hydro
open Frydom.Geom Frydom.Core Frydom.Cable Frydom.Link

/-! ## Specification -/

/-- Mass times velocity of the COG, as the API gives it. -/
def momentum (b : DBody) : V3 := b.mass • b.body.cogVelWorld .NWU
/-- Angular momentum about a point of the world: the inertia (at the COG, in body axes) times the angular velocity, in the world, and the moment of the momentum. -/
def angularMomentum (b : DBody) (p : V3) : V3 :=
  b.body.toWorld (b.I.mulVec (b.body.angVelBody .NWU)) .NWU + V3.cross (b.body.cogPositionInWorld .NWU - p) (momentum b)
/-- The weight. -/
def weightOf (g : ℝ) (b : DBody) : V3 := ⟨0, 0, -(b.mass * g)⟩

/-! ## Lemmas -/

theorem hasVel_turned {q : ℝ → Q} {w : V3} {p : ℝ → V3} {v : V3} {t : ℝ} (hw : HasAngVel q w t) (hp : HasVel p v t) :
    HasVel (fun s => (q s).rotate (p s)) (V3.cross w ((q t).rotate (p t)) + (q t).rotate v) t := by
  obtain ⟨x1, x2, x3⟩ := hw V3.e1
  obtain ⟨y1, y2, y3⟩ := hw V3.e2
  obtain ⟨z1, z2, z3⟩ := hw V3.e3
  obtain ⟨p1, p2, p3⟩ := hp
  have e : ∀ (q : Q) (u : V3), (q.rotate u).x = (q.rotate V3.e1).x * u.x + (q.rotate V3.e2).x * u.y + (q.rotate V3.e3).x * u.z ∧
      (q.rotate u).y = (q.rotate V3.e1).y * u.x + (q.rotate V3.e2).y * u.y + (q.rotate V3.e3).y * u.z ∧
      (q.rotate u).z = (q.rotate V3.e1).z * u.x + (q.rotate V3.e2).z * u.y + (q.rotate V3.e3).z * u.z := by
    intro q u
    refine ⟨?_, ?_, ?_⟩ <;> simp only [Q.rotate, Q.toMat, V3.e1, V3.e2, V3.e3, M3.mulVec] <;> ring
  have e1 := fun s => (e (q s) (p s)).1
  have e2 := fun s => (e (q s) (p s)).2.1
  have e3 := fun s => (e (q s) (p s)).2.2
  refine ⟨?_, ?_, ?_⟩
  · simp only [e1]
    refine (((x1.mul p1).add (y1.mul p2)).add (z1.mul p3)).congr_deriv ?_
    simp only [V3.add_x, V3.cross_x, (e (q t) (p t)).2.1, (e (q t) (p t)).2.2, (e (q t) v).1]
    ring
  · simp only [e2]
    refine (((x2.mul p1).add (y2.mul p2)).add (z2.mul p3)).congr_deriv ?_
    simp only [V3.add_y, V3.cross_y, (e (q t) (p t)).1, (e (q t) (p t)).2.2, (e (q t) v).2.1]
    ring
  · simp only [e3]
    refine (((x3.mul p1).add (y3.mul p2)).add (z3.mul p3)).congr_deriv ?_
    simp only [V3.add_z, V3.cross_z, (e (q t) (p t)).1, (e (q t) (p t)).2.1, (e (q t) v).2.2]
    ring

theorem dot_const {e : V3} {p : ℝ → V3} {v : V3} {t : ℝ} (h : HasVel p v t) : HasDerivAt (fun s => V3.dot e (p s)) (V3.dot e v) t :=
  ((h.1.const_mul e.x).add (h.2.1.const_mul e.y)).add (h.2.2.const_mul e.z)

theorem sum_forces (e : V3) (L : List Force) : (L.map fun f => V3.dot e (f.getForceInWorld .NWU)).sum = V3.dot e (DBody.sumForce L) := by
  induction L with
  | nil => simp [DBody.sumForce, V3.dot]
  | cons f L ih =>
    rw [List.map_cons, List.sum_cons, ih]
    show V3.dot e f.force + V3.dot e (DBody.sumForce L) = V3.dot e (f.force + DBody.sumForce L)
    simp only [V3.dot, V3.add_x, V3.add_y, V3.add_z]
    ring

theorem sum_moments (e p : V3) (b : Body) (L : List Force) : (L.map fun f => V3.dot e (f.getTorqueInWorldAtPointInWorld b p .NWU)).sum =
    V3.dot e (b.cog.rot.rotate (DBody.sumTorque L) + V3.cross (b.cog.pos - p) (DBody.sumForce L)) := by
  induction L with
  | nil =>
    show (0:ℝ) = V3.dot e (b.cog.rot.rotate 0 + V3.cross (b.cog.pos - p) 0)
    rw [Frydom.Core.rotate_zero]
    simp [V3.dot]
  | cons f L ih =>
    rw [List.map_cons, List.sum_cons, ih]
    show V3.dot e (b.cog.rot.rotate f.torque + V3.cross (b.cog.pos - p) f.force) + _ =
      V3.dot e (b.cog.rot.rotate (f.torque + DBody.sumTorque L) + V3.cross (b.cog.pos - p) (f.force + DBody.sumForce L))
    rw [Q.rotate_add]
    simp only [V3.dot, V3.add_x, V3.add_y, V3.add_z, V3.cross_x, V3.cross_y, V3.cross_z]
    ring

/-- The equations of the solver, with the loads in one. -/
theorem FreeUnderAll.equations {g : ℝ} {b : ℝ → DBody} {L : ℝ → List Force} (h : FreeUnderAll g b L) (t : ℝ) :
    (b t).mass • (b t).a.cogAccWorld .NWU = DBody.sumForce (L t) + weightOf g (b t) ∧
    (b t).I.mulVec ((b t).a.angAccBody .NWU) = DBody.sumTorque (L t) - V3.cross ((b t).body.angVelBody .NWU) ((b t).I.mulVec ((b t).body.angVelBody .NWU)) := by
  constructor
  · rw [h.linear]
    show (0 : V3) + (1:ℝ) • ((b t).forceAcc + DBody.sumForce (L t) + (-((b t).mass * g)) • V3.e3) = _
    rw [h.noForce]
    ext <;> simp [weightOf, V3.e3]
  · have e1 : ((b t).fbLoadForces g (L t) 1 (0, 0)).2 = (b t).xTorque (L t) - (b t).gyro := by
      unfold DBody.fbLoadForces
      rw [h.gyroOn]
      ext <;> simp
    rw [h.angular, e1, h.gyro]
    show (b t).torqueAcc + DBody.sumTorque (L t) - _ = _
    rw [h.noTorque]
    have ew : (b t).wvelLoc = (b t).body.angVelBody .NWU := rfl
    rw [ew]
    ext <;> simp

/-! ## C197 -/

/-- **C197, momentum.** In every direction the momentum of a body changes at the sum of the forces of its loads and of its weight. -/
theorem C197_momentum {g : ℝ} {b : ℝ → DBody} {L : ℝ → List Force} (h : FreeUnderAll g b L) (e : V3) (t : ℝ) :
    HasDerivAt (fun s => V3.dot e (momentum (b s))) (((L t).map fun f => V3.dot e (f.getForceInWorld .NWU)).sum + V3.dot e (weightOf g (b t))) t := by
  obtain ⟨-, -, -, hv, -⟩ := C160_motion (fun t => (b t).a) h.moving 0 (Node.new Body.new) t .NWU
  have em : (fun s => V3.dot e (momentum (b s))) = fun s => (b t).mass * V3.dot e ((b s).body.cogVelWorld .NWU) := by
    funext s
    unfold momentum
    rw [h.mass s t]
    simp only [V3.dot, V3.smul_x, V3.smul_y, V3.smul_z]
    ring
  rw [em, sum_forces]
  refine ((dot_const hv).const_mul _).congr_deriv ?_
  obtain ⟨k, -⟩ := h.equations t
  have e1 := congrArg V3.x k; have e2 := congrArg V3.y k; have e3 := congrArg V3.z k
  simp only [V3.smul_x, V3.smul_y, V3.smul_z, V3.add_x, V3.add_y, V3.add_z] at e1 e2 e3
  show (b t).mass * V3.dot e ((b t).a.cogAccWorld .NWU) = _
  simp only [V3.dot]
  linear_combination e.x * e1 + e.y * e2 + e.z * e3

/-- **C197, angular momentum.** About every fixed point of the world and in every direction the angular momentum of a body changes at the sum of the moments of its loads and of its weight. -/
theorem C197_angular {g : ℝ} {b : ℝ → DBody} {L : ℝ → List Force} (h : FreeUnderAll g b L) (e p : V3) (t : ℝ) :
    HasDerivAt (fun s => V3.dot e (angularMomentum (b s) p))
      (((L t).map fun f => V3.dot e (f.getTorqueInWorldAtPointInWorld (b t).body p .NWU)).sum + V3.dot e (V3.cross ((b t).body.cogPositionInWorld .NWU - p) (weightOf g (b t)))) t := by
  obtain ⟨-, -, hz, hv, -, -, hav, haa, -⟩ := C160_motion (fun t => (b t).a) h.moving 0 (Node.new Body.new) t .NWU
  have hu : (b t).body.cog.rot.IsUnit := h.moving.unit t
  have hw : HasVel (fun s => (b s).body.angVelBody .NWU) ((b t).a.angAccBody .NWU) t := by
    refine (HasVel.conj_rotate (q := fun s => (b s).body.cog.rot) hav haa).congr ?_
    show (b t).body.cog.rot.conj.rotate _ = (b t).body.cog.rot.conj.rotate _
    congr 1
    show (b t).a.angAccWorld .NWU - V3.cross ((b t).body.angVelWorld .NWU) ((b t).body.angVelWorld .NWU) = (b t).a.angAccWorld .NWU
    ext <;> simp <;> ring
  have hR := hasVel_turned (q := fun s => (b s).body.cog.rot) hav (mulVec_deriv (b t).I hw)
  have hp : HasVel (fun s => (b s).body.cogPositionInWorld .NWU - p) ((b t).body.cogVelWorld .NWU) t := by
    refine (hz.sub ⟨hasDerivAt_const t p.x, hasDerivAt_const t p.y, hasDerivAt_const t p.z⟩ : HasVel _ (_ - (⟨0, 0, 0⟩ : V3)) t).congr ?_
    show (b t).body.cogVelWorld .NWU - (⟨0, 0, 0⟩ : V3) = (b t).body.cogVelWorld .NWU
    ext <;> simp
  have hm : HasVel (fun s => momentum (b s)) ((b t).mass • (b t).a.cogAccWorld .NWU) t := by
    have em : (fun s => momentum (b s)) = fun s => (b t).mass • (b s).body.cogVelWorld .NWU := by
      funext s
      unfold momentum
      rw [h.mass s t]
    rw [em]
    exact ⟨hv.1.const_mul _, hv.2.1.const_mul _, hv.2.2.const_mul _⟩
  have hA : HasVel (fun s => angularMomentum (b s) p) ((V3.cross ((b t).body.angVelWorld .NWU) ((b t).body.cog.rot.rotate ((b t).I.mulVec ((b t).body.angVelBody .NWU))) +
      (b t).body.cog.rot.rotate ((b t).I.mulVec ((b t).a.angAccBody .NWU))) +
      (V3.cross ((b t).body.cogVelWorld .NWU) (momentum (b t)) + V3.cross ((b t).body.cogPositionInWorld .NWU - p) ((b t).mass • (b t).a.cogAccWorld .NWU))) t := by
    have ea : (fun s => angularMomentum (b s) p) = fun s => (b s).body.cog.rot.rotate ((b t).I.mulVec ((b s).body.angVelBody .NWU)) +
        V3.cross ((b s).body.cogPositionInWorld .NWU - p) (momentum (b s)) := by
      funext s
      unfold angularMomentum
      rw [h.inertia s t]
      rfl
    rw [ea]
    have hc := hp.cross hm
    exact ⟨hR.1.add hc.1, hR.2.1.add hc.2.1, hR.2.2.add hc.2.2⟩
  refine (dot_const hA).congr_deriv ?_
  rw [sum_moments]
  obtain ⟨k1, k2⟩ := h.equations t
  have ew : (b t).body.angVelWorld .NWU = (b t).body.cog.rot.rotate ((b t).body.angVelBody .NWU) := (Q.rotate_conj' hu _).symm
  have z : V3.cross ((b t).body.cogVelWorld .NWU) (momentum (b t)) = 0 := by
    unfold momentum
    ext <;> simp <;> ring
  rw [ew, k1, k2, z, ← Core.rotate_cross hu, Q.rotate_sub]
  show _ = V3.dot e ((b t).body.cog.rot.rotate (DBody.sumTorque (L t)) + V3.cross ((b t).body.cogPositionInWorld .NWU - p) (DBody.sumForce (L t))) + _
  simp only [V3.dot, V3.add_x, V3.add_y, V3.add_z, V3.sub_x, V3.sub_y, V3.sub_z, V3.cross_x, V3.cross_y, V3.cross_z, V3.zero_x, V3.zero_y, V3.zero_z]
  ring

/-- Two loads put by a link on its two bodies have opposite forces and moments about every point. -/
theorem opposite_loads {b b' : Body} {f τ f' τ' : V3} (h : Opposite (Wrench.ofBody b.cog f τ .NWU) (Wrench.ofBody b'.cog f' τ' .NWU)) (e p : V3) :
    V3.dot e ((({} : Force).setForceTorqueInBodyAtCOG b f τ .NWU).getForceInWorld .NWU) + V3.dot e ((({} : Force).setForceTorqueInBodyAtCOG b' f' τ' .NWU).getForceInWorld .NWU) = 0 ∧
    V3.dot e ((({} : Force).setForceTorqueInBodyAtCOG b f τ .NWU).getTorqueInWorldAtPointInWorld b p .NWU) +
      V3.dot e ((({} : Force).setForceTorqueInBodyAtCOG b' f' τ' .NWU).getTorqueInWorldAtPointInWorld b' p .NWU) = 0 := by
  obtain ⟨h1, h2⟩ := h
  have h2 := h2 p
  constructor
  · show V3.dot e (Wrench.ofBody b.cog f τ .NWU).force + V3.dot e (Wrench.ofBody b'.cog f' τ' .NWU).force = 0
    generalize (Wrench.ofBody b.cog f τ .NWU).force = A at h1 ⊢
    generalize (Wrench.ofBody b'.cog f' τ' .NWU).force = B at h1 ⊢
    have e1 := congrArg V3.x h1; have e2 := congrArg V3.y h1; have e3 := congrArg V3.z h1
    simp only [V3.add_x, V3.add_y, V3.add_z, V3.zero_x, V3.zero_y, V3.zero_z] at e1 e2 e3
    simp only [V3.dot]
    linear_combination e.x * e1 + e.y * e2 + e.z * e3
  · show V3.dot e ((Wrench.ofBody b.cog f τ .NWU).momentAbout p) + V3.dot e ((Wrench.ofBody b'.cog f' τ' .NWU).momentAbout p) = 0
    generalize (Wrench.ofBody b.cog f τ .NWU).momentAbout p = A at h2 ⊢
    generalize (Wrench.ofBody b'.cog f' τ' .NWU).momentAbout p = B at h2 ⊢
    have e1 := congrArg V3.x h2; have e2 := congrArg V3.y h2; have e3 := congrArg V3.z h2
    simp only [V3.add_x, V3.add_y, V3.add_z, V3.zero_x, V3.zero_y, V3.zero_z] at e1 e2 e3
    simp only [V3.dot]
    linear_combination e.x * e1 + e.y * e2 + e.z * e3

/-- Two bodies under their weights and under loads of a link that are opposite. -/
theorem conserved {g : ℝ} {m : LinkMotion} {b b' : ℝ → DBody} (hj : Joins m b b') (d : ℝ → ChLink)
    (h : FreeUnderAll g b fun t => [springOn1 m (d t) (b t).body, reactionOn1 m (m.c t) (b t).body])
    (h' : FreeUnderAll g b' fun t => [springOn2 m (d t) (b' t).body, reactionOn2 m (m.c t) (b' t).body])
    (ho : ∀ t, Opposite (Wrench.ofBody (m.B1 t) (springForceOnBody1 (d t) m.N1 .NWU) (springTorqueOnBody1AtCOG (d t) m.N1 .NWU) .NWU)
      (Wrench.ofBody (m.B2 t) (springForceOnBody2 (d t) m.N2 .NWU) (springTorqueOnBody2AtCOG (d t) m.N2 .NWU) .NWU)) (e : V3) :
    ((e.z = 0 ∨ g = 0) → ∀ t t', V3.dot e (momentum (b t)) + V3.dot e (momentum (b' t)) = V3.dot e (momentum (b t')) + V3.dot e (momentum (b' t'))) ∧
    ∀ p, ((e.x = 0 ∧ e.y = 0) ∨ g = 0) → ∀ t t', V3.dot e (angularMomentum (b t) p) + V3.dot e (angularMomentum (b' t) p) =
      V3.dot e (angularMomentum (b t') p) + V3.dot e (angularMomentum (b' t') p) := by
  have hs : ∀ t p, V3.dot e ((springOn1 m (d t) (b t).body).getForceInWorld .NWU) + V3.dot e ((springOn2 m (d t) (b' t).body).getForceInWorld .NWU) = 0 ∧
      V3.dot e ((springOn1 m (d t) (b t).body).getTorqueInWorldAtPointInWorld (b t).body p .NWU) +
        V3.dot e ((springOn2 m (d t) (b' t).body).getTorqueInWorldAtPointInWorld (b' t).body p .NWU) = 0 := by
    intro t p
    have k := ho t
    rw [hj.frame1, hj.frame2] at k
    exact opposite_loads k e p
  have hr : ∀ t p, V3.dot e ((reactionOn1 m (m.c t) (b t).body).getForceInWorld .NWU) + V3.dot e ((reactionOn2 m (m.c t) (b' t).body).getForceInWorld .NWU) = 0 ∧
      V3.dot e ((reactionOn1 m (m.c t) (b t).body).getTorqueInWorldAtPointInWorld (b t).body p .NWU) +
        V3.dot e ((reactionOn2 m (m.c t) (b' t).body).getTorqueInWorldAtPointInWorld (b' t).body p .NWU) = 0 := by
    intro t p
    have k : ∀ a, _ := C47_action_reaction (m.c t) (m.B1 t) (m.B2 t) m.N1 m.N2 (m.valid1 t) (m.valid2 t) m.validN1 m.validN2 (m.rel t) .NWU
    have k' : Opposite (Wrench.ofBody (m.B1 t) (reactionForceOnBody1 (generateCache (m.c t)) m.N1 .NWU) (reactionTorqueOnBody1AtCOG (generateCache (m.c t)) m.N1 .NWU) .NWU)
      (Wrench.ofBody (m.B2 t) (reactionForceOnBody2 (generateCache (m.c t)) m.N2 .NWU) (reactionTorqueOnBody2AtCOG (generateCache (m.c t)) m.N2 .NWU) .NWU) :=
      ⟨(k 0).1, fun a => (k a).2⟩
    rw [hj.frame1, hj.frame2] at k'
    exact opposite_loads k' e p
  constructor
  · intro hg
    have hd : ∀ t, HasDerivAt (fun s => V3.dot e (momentum (b s)) + V3.dot e (momentum (b' s))) 0 t := by
      intro t
      refine ((C197_momentum h e t).add (C197_momentum h' e t)).congr_deriv ?_
      have k1 := (hs t 0).1
      have k2 := (hr t 0).1
      have w : ∀ B : DBody, V3.dot e (weightOf g B) = 0 := by
        intro B
        rcases hg with h0 | h0 <;> simp [V3.dot, weightOf, h0]
      rw [w, w]
      simp only [List.map_cons, List.map_nil, List.sum_cons, List.sum_nil]
      linarith
    exact is_const_of_deriv_eq_zero (fun t => (hd t).differentiableAt) fun t => (hd t).deriv
  · intro p hg
    have hd : ∀ t, HasDerivAt (fun s => V3.dot e (angularMomentum (b s) p) + V3.dot e (angularMomentum (b' s) p)) 0 t := by
      intro t
      refine ((C197_angular h e p t).add (C197_angular h' e p t)).congr_deriv ?_
      have k1 := (hs t p).2
      have k2 := (hr t p).2
      have w : ∀ (B : DBody) (r : V3), V3.dot e (V3.cross r (weightOf g B)) = 0 := by
        intro B r
        rcases hg with ⟨h1, h2⟩ | h0
        · simp [V3.dot, weightOf, h1, h2]
        · simp [V3.dot, weightOf, h0]
      rw [w, w]
      simp only [List.map_cons, List.map_nil, List.sum_cons, List.sum_nil]
      linarith
    exact is_const_of_deriv_eq_zero (fun t => (hd t).differentiableAt) fun t => (hd t).deriv

/-- **C197, two bodies on a slider.** Two bodies joined by a prismatic link, under their weights and the spring-damper loads and the reactions, of any components, that the link returns for them: the
horizontal components of their momentum and the vertical component of their angular momentum about every fixed point remain the same for ever; without gravity, all components. -/
theorem C197_slider (g : ℝ) (m : LinkMotion) (b b' : ℝ → DBody) (hj : Joins m b b') (l : ℝ → Prismatic) (hs : ∀ t, OnSlider (m.c t).relM)
    (d : ℝ → ChLink) (hd : ∀ t, d t = ((l t).update (generateCache (m.c t))).chLink (m.c t))
    (h : FreeUnderAll g b fun t => [springOn1 m (d t) (b t).body, reactionOn1 m (m.c t) (b t).body])
    (h' : FreeUnderAll g b' fun t => [springOn2 m (d t) (b' t).body, reactionOn2 m (m.c t) (b' t).body]) (e : V3) :
    ((e.z = 0 ∨ g = 0) → ∀ t t', V3.dot e (momentum (b t)) + V3.dot e (momentum (b' t)) = V3.dot e (momentum (b t')) + V3.dot e (momentum (b' t'))) ∧
    ∀ p, ((e.x = 0 ∧ e.y = 0) ∨ g = 0) → ∀ t t', V3.dot e (angularMomentum (b t) p) + V3.dot e (angularMomentum (b' t) p) =
      V3.dot e (angularMomentum (b t') p) + V3.dot e (angularMomentum (b' t') p) :=
  conserved hj d h h' (fun t => (C186_prismatic (l t) (m.c t) (m.B1 t) (m.B2 t) m.N1 m.N2 (m.valid1 t) (m.valid2 t) m.validN1 m.validN2 (m.rel t) (hs t) .NWU (d t) (hd t) _ _ rfl rfl).2.2) e

/-- **C197, two bodies on a revolute joint.** The same for a revolute link, whatever angle it has recorded. -/
theorem C197_joint (g : ℝ) (m : LinkMotion) (b b' : ℝ → DBody) (hj : Joins m b b') (l : ℝ → Revolute) (hs : ∀ t, ∃ θ, IsRotZ (m.c t).relM.rot θ) (w : ℝ → ℝ)
    (d : ℝ → ChLink) (hd : ∀ t, d t = ((l t).update (m.c t).relM.rot (w t)).chLink (m.c t))
    (h : FreeUnderAll g b fun t => [springOn1 m (d t) (b t).body, reactionOn1 m (m.c t) (b t).body])
    (h' : FreeUnderAll g b' fun t => [springOn2 m (d t) (b' t).body, reactionOn2 m (m.c t) (b' t).body]) (e : V3) :
    ((e.z = 0 ∨ g = 0) → ∀ t t', V3.dot e (momentum (b t)) + V3.dot e (momentum (b' t)) = V3.dot e (momentum (b t')) + V3.dot e (momentum (b' t'))) ∧
    ∀ p, ((e.x = 0 ∧ e.y = 0) ∨ g = 0) → ∀ t t', V3.dot e (angularMomentum (b t) p) + V3.dot e (angularMomentum (b' t) p) =
      V3.dot e (angularMomentum (b t') p) + V3.dot e (angularMomentum (b' t') p) :=
  conserved hj d h h' (fun t => (C186_revolute (l t) (w t) (m.c t) (m.B1 t) (m.B2 t) m.N1 m.N2 (m.valid1 t) (m.valid2 t) m.validN1 m.validN2 (m.rel t) (hs t) .NWU (d t) (hd t) _ _ rfl rfl).2.2) e

namespace Falling

/-- The two masses of C196 that fall and oscillate. -/
theorem both_free : (FreeUnderAll 10 low fun t => [springOn1 pair (updated t) (low t).body, reactionOn1 pair (pair.c t) (low t).body]) ∧
    FreeUnderAll 10 high fun t => [springOn2 pair (updated t) (high t).body, reactionOn2 pair (pair.c t) (high t).body] := by
  constructor
  · refine free _ _ _ low_moving _ _ (fun t => ⟨?_, (loads t).2.1⟩) fun t => ⟨(reactions t).1, (reactions t).2.1⟩
    refine (loads t).1.trans ?_
    ext <;> simp
    ring
  · refine free _ _ _ high_moving _ _ (fun t => ⟨?_, (loads t).2.2.2⟩) fun t => ⟨(reactions t).2.2.1, (reactions t).2.2.2⟩
    refine (loads t).2.2.1.trans ?_
    ext <;> simp
    ring

/-- The hypotheses of `C197_slider` are met by these masses: about every point the vertical angular momentum is kept. -/
example (p : V3) (t : ℝ) : V3.dot V3.e3 (angularMomentum (low t) p) + V3.dot V3.e3 (angularMomentum (high t) p) =
    V3.dot V3.e3 (angularMomentum (low 0) p) + V3.dot V3.e3 (angularMomentum (high 0) p) :=
  (C197_slider 10 pair low high joins (fun _ => spring) (fun _ => ⟨rfl, rfl, rfl⟩) updated (fun _ => rfl) both_free.1 both_free.2 V3.e3).2 p (Or.inl ⟨rfl, rfl⟩) t 0

/-- The momentum of one of them along the vertical changes at the force of the spring and its weight. -/
example (t : ℝ) : HasDerivAt (fun s => V3.dot V3.e3 (momentum (low s))) (500 * Real.cos t - 10000) t := by
  refine (C197_momentum both_free.1 V3.e3 t).congr_deriv ?_
  simp only [List.map_cons, List.map_nil, List.sum_cons, List.sum_nil]
  show V3.dot V3.e3 (springOn1 pair (updated t) (low t).body).force + (V3.dot V3.e3 (reactionOn1 pair (pair.c t) (low t).body).force + 0) + _ = _
  rw [(loads t).1, (reactions t).1]
  simp [V3.dot, V3.e3, weightOf, low, mass]
  norm_num
  ring

/-- Its angular momentum about a point 1 m away, along the horizontal, changes at the moment of these. -/
example (t : ℝ) : HasDerivAt (fun s => V3.dot V3.e1 (angularMomentum (low s) ⟨0, 1, 0⟩)) (10000 - 500 * Real.cos t) t := by
  refine (C197_angular both_free.1 V3.e1 ⟨0, 1, 0⟩ t).congr_deriv ?_
  rw [sum_moments]
  show V3.dot V3.e1 (Q.one.rotate ((springOn1 pair (updated t) (low t).body).torque + ((reactionOn1 pair (pair.c t) (low t).body).torque + 0)) +
    V3.cross ((⟨0, 0, -Real.cos t / 2 - 5 * t ^ 2⟩ : V3) - ⟨0, 1, 0⟩) ((springOn1 pair (updated t) (low t).body).force + ((reactionOn1 pair (pair.c t) (low t).body).force + 0))) +
    V3.dot V3.e1 (V3.cross ((⟨0, 0, -Real.cos t / 2 - 5 * t ^ 2⟩ : V3) - ⟨0, 1, 0⟩) (⟨0, 0, -(1000 * 10)⟩ : V3)) = _
  rw [(loads t).1, (loads t).2.1, (reactions t).1, (reactions t).2.1, one_rot]
  simp [V3.dot, V3.e1]
  ring

end Falling

end Frydom.Hydro
