import Verif.Cable.CatenaryEnergy
import Verif.Hydro.EnergyCases

/-!
# Bodies joined or moored by a catenary line (C194)

The two forces of a line (`FrCatenaryForce::Compute`, src/frydom/cable/FrCatenaryForce.cpp:29-51) on the bodies whose nodes it joins, when these bodies move (BodyAccel.lean) under the equations
of the solver (BodyDynamics.lean).
-/

noncomputable section

namespace Frydom.Cable
open Frydom.Geom Frydom.Core
open Frydom.Link (HasVel)
open Frydom.Hydro (bodyEnergy bodyEnergy_deriv)

/-! ## Specification -/

/-- Power of a load on a body, as the API gives the force, its torque at the COG and the velocities. -/
def powerOn (b : Body) (F : Force) : ℝ :=
  V3.dot (F.getForceInWorld .NWU) (b.cogVelWorld .NWU) + V3.dot (F.getTorqueInWorldAtCOG b .NWU) (b.angVelWorld .NWU)

/-- A body of constant mass and inertia that moves and obeys the equations of the solver (C164) under its weight and the load `F` alone. -/
structure FreeUnder (g : ℝ) (b : ℝ → DBody) (F : ℝ → Force) : Prop where
  moving : Moving fun t => (b t).a
  inertia : ∀ t t', (b t).I = (b t').I
  mass : ∀ t t', (b t).mass = (b t').mass
  symm : ∀ t u v, V3.dot u ((b t).I.mulVec v) = V3.dot ((b t).I.mulVec u) v
  noForce : ∀ t, (b t).forceAcc = 0
  noTorque : ∀ t, (b t).torqueAcc = 0
  gyroOn : ∀ t, (b t).noGyro = false
  gyro : ∀ t, (b t).gyro = V3.cross (b t).wvelLoc ((b t).I.mulVec (b t).wvelLoc)
  linear : ∀ t, (b t).mass • (b t).a.cogAccWorld .NWU = ((b t).fbLoadForces g [F t] 1 (0, 0)).1
  angular : ∀ t, (b t).I.mulVec ((b t).a.angAccBody .NWU) = ((b t).fbLoadForces g [F t] 1 (0, 0)).2

/-- A line which, at every time, is the same elastic cable, loaded, and in equilibrium. -/
structure Follows (l : ℝ → Line) : Prop where
  same : ∀ x y, SameCable (l x) (l y)
  loaded : ∀ x, Loaded (l x)
  load : ∀ x, (l x).q ≠ 0
  length : ∀ x, 0 < (l x).len
  elastic : ∀ x, (l x).elastic = true
  stiff : ∀ x, 0 < (l x).props.getEA
  solved : ∀ x, (l x).residual .NWU = 0

/-! ## Lemmas -/

theorem FreeUnder.deriv {g : ℝ} {b : ℝ → DBody} {F : ℝ → Force} (h : FreeUnder g b F) (t : ℝ) : HasDerivAt (fun s => bodyEnergy g (b s)) (powerOn (b t).body (F t)) t :=
  bodyEnergy_deriv b h.moving h.inertia h.mass h.symm g (F t) t (h.noForce t) (h.noTorque t) (h.gyroOn t) (h.gyro t) (h.linear t) (h.angular t)

/-- The power of a pull at a node is the product with the velocity of the node. -/
theorem node_power (b : ℝ → ABody) (h : Moving b) (n : Node) (t : ℝ) (F : Force) (w : V3) (hF : IsLoad F (b t).body .NWU w 0 ((n.refresh (b t).body).positionInWorld .NWU)) :
    powerOn (b t).body F = V3.dot w ((n.refresh (b t).body).velocityInWorld .NWU) := by
  have hr : (b t).body.rotDt = qhalf ((qpure (b t).body.wvelPar).mul (b t).body.cog.rot) := rotDt_of_orth (h.unit t) (unit_deriv h.unit (h.rot t))
  have hv : (n.refresh (b t).body).velocityInWorld .NWU = (b t).body.posDt + V3.cross (b t).body.wvelPar ((b t).body.cog.rot.rotate n.rel.pos) := pointSpeed_of (h.unit t) hr _
  have hp : (n.refresh (b t).body).positionInWorld .NWU = (b t).body.cog.pos + (b t).body.cog.rot.rotate n.rel.pos := rfl
  have ht := hF.2 ((b t).body.cogPositionInWorld .NWU)
  have e : F.getTorqueInWorldAtPointInWorld (b t).body ((b t).body.cogPositionInWorld .NWU) .NWU =
      F.getTorqueInWorldAtCOG (b t).body .NWU + V3.cross ((b t).body.cogPositionInWorld .NWU - (b t).body.cogPositionInWorld .NWU) (F.getForceInWorld .NWU) := rfl
  have hc : (b t).body.cogPositionInWorld .NWU = (b t).body.cog.pos := rfl
  rw [e, hp, hc] at ht
  have ht' : F.getTorqueInWorldAtCOG (b t).body .NWU = V3.cross ((b t).body.cog.rot.rotate n.rel.pos) w := by
    have hx := congrArg V3.x ht
    have hy := congrArg V3.y ht
    have hz := congrArg V3.z ht
    simp at hx hy hz
    ext
    · simpa using hx
    · simpa using hy
    · simpa using hz
  unfold powerOn
  rw [ht', hF.1, hv]
  have e1 : (b t).body.cogVelWorld .NWU = (b t).body.posDt := rfl
  have e2 : (b t).body.angVelWorld .NWU = (b t).body.wvelPar := rfl
  rw [e1, e2]
  simp only [V3.dot, V3.add_x, V3.add_y, V3.add_z, V3.cross_x, V3.cross_y, V3.cross_z]
  ring

theorem node_moves (b : ℝ → ABody) (h : Moving b) (n : Node) (t : ℝ) :
    HasDeriv3 (fun s => (n.refresh (b s).body).positionInWorld .NWU) ((n.refresh (b t).body).velocityInWorld .NWU) t :=
  (C160_motion b h 0 n t .NWU).2.2.2.2.2.2.2.2.1

theorem start_power (l : Line) (b : ℝ → ABody) (h : Moving b) (n : Node) (hn : n.rel.rot.IsUnit) (t : ℝ) (f : Force) (hl : l.start = n.refresh (b t).body) :
    powerOn (b t).body (startForce l f (b t).body) = V3.dot (l.startTension .NWU) ((n.refresh (b t).body).velocityInWorld .NWU) := by
  refine node_power b h n t _ _ ?_
  have := node_load f (b t).body ⟨h.unit t, h.placed t⟩ (n.refresh (b t).body) (refresh_attached n (b t).body hn) (l.startTension .NWU) .NWU
  unfold startForce
  rw [hl]
  exact this

theorem end_power (l : Line) (b : ℝ → ABody) (h : Moving b) (n : Node) (hn : n.rel.rot.IsUnit) (t : ℝ) (f : Force) (hl : l.stop = n.refresh (b t).body) :
    powerOn (b t).body (endForce l f (b t).body) = V3.dot (l.endTension .NWU) ((n.refresh (b t).body).velocityInWorld .NWU) := by
  refine node_power b h n t _ _ ?_
  have := node_load f (b t).body ⟨h.unit t, h.placed t⟩ (n.refresh (b t).body) (refresh_attached n (b t).body hn) (l.endTension .NWU) .NWU
  unfold endForce
  rw [hl]
  exact this

theorem Follows.deriv {l : ℝ → Line} (hl : Follows l) (t : ℝ) {va vb : V3} (ha : HasDeriv3 (fun x => (l x).start.positionInWorld .NWU) va t)
    (hb : HasDeriv3 (fun x => (l x).stop.positionInWorld .NWU) vb t) :
    HasDerivAt (fun x => storedEnergy (l x)) (-(V3.dot ((l t).startTension .NWU) va + V3.dot ((l t).endTension .NWU) vb)) t :=
  C194_power l t va vb (hl.same t) hl.loaded (hl.load t) (hl.length t).le (fun _ => hl.stiff t) hl.solved
    (tension_continuous l t (hl.same t) hl.loaded (hl.load t) (hl.length t) (hl.elastic t) (hl.stiff t) hl.solved va vb ha hb) ha hb

/-! ## C194 -/

/-- **C194, the bodies.** Two bodies that move in any way, joined by an elastic line: the energy stored in the line decreases by the power of the two loads it puts on the bodies. -/
theorem C194_bodies (l : ℝ → Line) (hl : Follows l) (b b' : ℝ → ABody) (h : Moving b) (h' : Moving b') (n n' : Node) (hn : n.rel.rot.IsUnit) (hn' : n'.rel.rot.IsUnit)
    (hs : ∀ t, (l t).start = n.refresh (b t).body) (he : ∀ t, (l t).stop = n'.refresh (b' t).body) (f f' : Force) (t : ℝ) :
    HasDerivAt (fun x => storedEnergy (l x))
      (-(powerOn (b t).body (startForce (l t) f (b t).body) + powerOn (b' t).body (endForce (l t) f' (b' t).body))) t := by
  rw [start_power (l t) b h n hn t f (hs t), end_power (l t) b' h' n' hn' t f' (he t)]
  refine hl.deriv t ?_ ?_
  · simp only [hs]
    exact node_moves b h n t
  · simp only [he]
    exact node_moves b' h' n' t

/-- **C194, energy of two bodies joined by a line.** Two bodies under their weight and the forces of an elastic line that joins them: their energies and that stored in the line keep the same
sum for ever. -/
theorem C194_energy (g : ℝ) (l : ℝ → Line) (hl : Follows l) (b b' : ℝ → DBody) (n n' : Node) (hn : n.rel.rot.IsUnit) (hn' : n'.rel.rot.IsUnit)
    (hs : ∀ t, (l t).start = n.refresh (b t).body) (he : ∀ t, (l t).stop = n'.refresh (b' t).body) (f f' : ℝ → Force)
    (h : FreeUnder g b fun t => startForce (l t) (f t) (b t).body) (h' : FreeUnder g b' fun t => endForce (l t) (f' t) (b' t).body) (t t' : ℝ) :
    bodyEnergy g (b t) + bodyEnergy g (b' t) + storedEnergy (l t) = bodyEnergy g (b t') + bodyEnergy g (b' t') + storedEnergy (l t') := by
  have key : ∀ t, HasDerivAt (fun s => bodyEnergy g (b s) + bodyEnergy g (b' s) + storedEnergy (l s)) 0 t := fun t =>
    (((h.deriv t).add (h'.deriv t)).add (C194_bodies l hl (fun t => (b t).a) (fun t => (b' t).a) h.moving h'.moving n n' hn hn' hs he (f t) (f' t) t)).congr_deriv
      (add_neg_cancel (powerOn (b t).body (startForce (l t) (f t) (b t).body) + powerOn (b' t).body (endForce (l t) (f' t) (b' t).body)))
  exact is_const_of_deriv_eq_zero (fun s => (key s).differentiableAt) (fun s => (key s).deriv) t t'

/-- **C194, energy of a moored body.** A body under its weight and the force of an elastic line whose starting node is at a fixed place: the energy of the body and that stored in the line keep
the same sum for ever. -/
theorem C194_moored (g : ℝ) (l : ℝ → Line) (hl : Follows l) (b : ℝ → DBody) (p : V3) (n : Node) (hn : n.rel.rot.IsUnit) (hs : ∀ t, (l t).start.positionInWorld .NWU = p)
    (he : ∀ t, (l t).stop = n.refresh (b t).body) (f : ℝ → Force) (h : FreeUnder g b fun t => endForce (l t) (f t) (b t).body) (t t' : ℝ) :
    bodyEnergy g (b t) + storedEnergy (l t) = bodyEnergy g (b t') + storedEnergy (l t') := by
  have key : ∀ t, HasDerivAt (fun s => bodyEnergy g (b s) + storedEnergy (l s)) 0 t := by
    intro t
    have hst : HasDeriv3 (fun x => (l x).start.positionInWorld .NWU) 0 t := by
      simp only [hs]
      exact ⟨hasDerivAt_const _ _, hasDerivAt_const _ _, hasDerivAt_const _ _⟩
    have hsp : HasDeriv3 (fun x => (l x).stop.positionInWorld .NWU) ((n.refresh (b t).body).velocityInWorld .NWU) t := by
      simp only [he]
      exact node_moves (fun t => (b t).a) h.moving n t
    have hp := end_power (l t) (fun t => (b t).a) h.moving n hn t (f t) (he t)
    have k1 := h.deriv t
    have k2 := hl.deriv t hst hsp
    refine (k1.add k2).congr_deriv ?_
    have hp' : powerOn (b t).body (endForce (l t) (f t) (b t).body) = V3.dot ((l t).endTension .NWU) ((n.refresh (b t).body).velocityInWorld .NWU) := hp
    rw [hp']
    simp [V3.dot]
  exact is_const_of_deriv_eq_zero (fun s => (key s).differentiableAt) (fun s => (key s).deriv) t t'

/-- The same with the body at the starting node and the anchor at the ending node. -/
theorem C194_moored_start (g : ℝ) (l : ℝ → Line) (hl : Follows l) (b : ℝ → DBody) (p : V3) (n : Node) (hn : n.rel.rot.IsUnit) (hs : ∀ t, (l t).stop.positionInWorld .NWU = p)
    (he : ∀ t, (l t).start = n.refresh (b t).body) (f : ℝ → Force) (h : FreeUnder g b fun t => startForce (l t) (f t) (b t).body) (t t' : ℝ) :
    bodyEnergy g (b t) + storedEnergy (l t) = bodyEnergy g (b t') + storedEnergy (l t') := by
  have key : ∀ t, HasDerivAt (fun s => bodyEnergy g (b s) + storedEnergy (l s)) 0 t := by
    intro t
    have hst : HasDeriv3 (fun x => (l x).stop.positionInWorld .NWU) 0 t := by
      simp only [hs]
      exact ⟨hasDerivAt_const _ _, hasDerivAt_const _ _, hasDerivAt_const _ _⟩
    have hsp : HasDeriv3 (fun x => (l x).start.positionInWorld .NWU) ((n.refresh (b t).body).velocityInWorld .NWU) t := by
      simp only [he]
      exact node_moves (fun t => (b t).a) h.moving n t
    have k1 := h.deriv t
    have k2 := hl.deriv t hsp hst
    refine (k1.add k2).congr_deriv ?_
    have hp' : powerOn (b t).body (startForce (l t) (f t) (b t).body) = V3.dot ((l t).startTension .NWU) ((n.refresh (b t).body).velocityInWorld .NWU) :=
      start_power (l t) (fun t => (b t).a) h.moving n hn t (f t) (he t)
    rw [hp']
    simp [V3.dot]
  exact is_const_of_deriv_eq_zero (fun s => (key s).differentiableAt) (fun s => (key s).deriv) t t'

/-! ## A mass that hangs from a line -/

/-- A mass of one tonne that goes up and down below the anchor. -/
def yoyo (t : ℝ) : DBody :=
  { a := ⟨⟨⟨⟨0, 0, -11.005 + Real.cos t⟩, Q.one⟩, ⟨0, 0, -Real.sin t⟩, ⟨0, 0, 0, 0⟩, 0, ⟨0, 0, -11.005 + Real.cos t⟩, ⟨0, 0, -Real.sin t⟩⟩, ⟨0, 0, -Real.cos t⟩, ⟨0, 0, 0, 0⟩⟩,
    mass := 1000, I := M3.one }

theorem yoyo_moving : Moving fun t => (yoyo t).a := by
  refine Frydom.Hydro.vertical_moving (z := fun t => -11.005 + Real.cos t) (z' := fun t => -Real.sin t) (z'' := fun t => -Real.cos t) ?_ ?_
  · intro t
    exact (Real.hasDerivAt_cos t).const_add (-11.005)
  · intro t
    exact (Real.hasDerivAt_sin t).neg

/-- The node at the centre of gravity. -/
def eye : Node := ⟨Frame.identity, Frame.identity, 0, 0⟩

/-- The line: 1 m, EA = 1000 N, 10 N/m in the fluid, from the origin to the mass. -/
def hanger (t : ℝ) : Line :=
  { (Line.new { sec := 1, young := 1000, lam := 1026 } true 1 eye (eye.refresh (yoyo t).body)).initLoad 1025 10 with t0 := ⟨0, 0, -10010 + 1000 * Real.cos t⟩ }

theorem hanger_q (t : ℝ) : (hanger t).q = 10 := by
  show (1026 - 1 * 1025) * (10:ℝ) = 10
  norm_num

theorem hanger_loaded (t : ℝ) : Loaded (hanger t) := by
  have := initLoad_loaded (Line.new { sec := 1, young := 1000, lam := 1026 } true 1 eye (eye.refresh (yoyo t).body)) 1025 10
  exact ⟨this.1, this.2⟩

theorem hanger_N (t s : ℝ) (hs : s ≤ 1) : N (hanger t) s = 10010 - 1000 * Real.cos t - 10 * s := by
  unfold N
  rw [hanger_q]
  have h : (0:ℝ) ≤ 10010 - 1000 * Real.cos t - 10 * s := by linarith [Real.cos_le_one t]
  have e : (hanger t).t0.x * (hanger t).t0.x + (hanger t).t0.y * (hanger t).t0.y + ((hanger t).t0.z + 10 * s) * ((hanger t).t0.z + 10 * s) = (10010 - 1000 * Real.cos t - 10 * s) ^ 2 := by
    show (0:ℝ) * 0 + 0 * 0 + (-10010 + 1000 * Real.cos t + 10 * s) * (-10010 + 1000 * Real.cos t + 10 * s) = _
    ring
  rw [e, Real.sqrt_sq h]

theorem hanger_end (t : ℝ) : (hanger t).stop.positionInWorld .NWU = ⟨0, 0, -11.005 + Real.cos t⟩ := by
  show (⟨0, 0, -11.005 + Real.cos t⟩ : V3) + Q.one.rotate 0 = _
  rw [Frydom.Core.rotate_zero]
  ext <;> simp

theorem hanger_solved (t : ℝ) : (hanger t).residual .NWU = 0 := by
  have hk : compliance (hanger t) = 1 / 1000 := by
    show ((1000:ℝ) * 1)⁻¹ = _
    norm_num
  have hL : (hanger t).len = 1 := rfl
  have h0 : (hanger t).start.positionInWorld .NWU = 0 := rfl
  have ht : (hanger t).t0 = ⟨0, 0, -10010 + 1000 * Real.cos t⟩ := rfl
  unfold Line.residual
  rw [position_eq (hanger_loaded t) (by rw [hanger_q]; norm_num), hanger_end, hk, hL, hanger_N t 1 le_rfl, hanger_N t 0 zero_le_one, hanger_q, h0, ht]
  ext
  · simp
  · simp
  · simp
    ring

theorem hanger_follows : Follows hanger := by
  refine ⟨fun x y => ⟨rfl, rfl, rfl, rfl⟩, hanger_loaded, fun x => by rw [hanger_q]; norm_num, fun x => ?_, fun _ => rfl, fun x => ?_, hanger_solved⟩
  · show (0:ℝ) < 1
    norm_num
  · show (0:ℝ) < 1000 * 1
    norm_num

theorem hanger_pull (t : ℝ) : (hanger t).endTension .NWU = ⟨0, 0, 10000 - 1000 * Real.cos t⟩ := by
  unfold Line.endTension
  rw [tension_eq (hanger_loaded t), hanger_q]
  have hL : (hanger t).len = 1 := rfl
  have ht : (hanger t).t0 = ⟨0, 0, -10010 + 1000 * Real.cos t⟩ := rfl
  rw [hL, ht]
  ext <;> simp
  ring

theorem hanger_load (t : ℝ) : (endForce (hanger t) {} (yoyo t).body).force = ⟨0, 0, 10000 - 1000 * Real.cos t⟩ ∧ (endForce (hanger t) {} (yoyo t).body).torque = 0 := by
  have hpl : Placed (yoyo t).body := ⟨yoyo_moving.unit t, yoyo_moving.placed t⟩
  obtain ⟨h1, h2⟩ := node_load {} (yoyo t).body hpl (eye.refresh (yoyo t).body) (refresh_attached eye _ Q.isUnit_one) ((hanger t).endTension .NWU) .NWU
  have e : endForce (hanger t) {} (yoyo t).body = ({} : Force).setForceTorqueInWorldAtPointInBody (yoyo t).body ((hanger t).endTension .NWU) 0 ((eye.refresh (yoyo t).body).positionInBody (yoyo t).body .NWU) .NWU := rfl
  rw [e]
  generalize ({} : Force).setForceTorqueInWorldAtPointInBody (yoyo t).body ((hanger t).endTension .NWU) 0 ((eye.refresh (yoyo t).body).positionInBody (yoyo t).body .NWU) .NWU = F at h1 h2
  have hp : (eye.refresh (yoyo t).body).positionInWorld .NWU = ⟨0, 0, -11.005 + Real.cos t⟩ := hanger_end t
  rw [hanger_pull] at h1 h2
  refine ⟨h1, ?_⟩
  have h := h2 ⟨0, 0, -11.005 + Real.cos t⟩
  rw [hp] at h
  have e : F.getTorqueInWorldAtPointInWorld (yoyo t).body ⟨0, 0, -11.005 + Real.cos t⟩ .NWU =
      rotate Q.one .NWU F.torque + V3.cross ((⟨0, 0, -11.005 + Real.cos t⟩ : V3) - ⟨0, 0, -11.005 + Real.cos t⟩) F.force := rfl
  have r : rotate Q.one .NWU F.torque = F.torque := by
    show Q.one.rotate F.torque = F.torque
    ext <;> simp [Q.rotate, Q.toMat, Q.one] <;> ring
  rw [e, r] at h
  have hx := congrArg V3.x h
  have hy := congrArg V3.y h
  have hz := congrArg V3.z h
  simp at hx hy hz
  ext
  · exact hx
  · exact hy
  · exact hz

theorem yoyo_free : FreeUnder 10 yoyo fun t => endForce (hanger t) {} (yoyo t).body := by
  have hw : ∀ t, (yoyo t).wvelLoc = 0 := by
    intro t
    unfold DBody.wvelLoc Body.wvelPar
    have : (2:ℝ) • qvec ((yoyo t).body.rotDt.mul (yoyo t).body.cog.rot.conj) = 0 := by
      ext <;> simp [yoyo, DBody.body, qvec, Q.mul]
    rw [this, Frydom.Core.rotate_zero]
  refine ⟨yoyo_moving, fun _ _ => rfl, fun _ _ => rfl, ?_, fun _ => rfl, fun _ => rfl, fun _ => rfl, ?_, ?_, ?_⟩
  · intro t u v
    show V3.dot u (M3.one.mulVec v) = V3.dot (M3.one.mulVec u) v
    simp [V3.dot, M3.mulVec, M3.one]
  · intro t
    rw [hw]
    show (0 : V3) = _
    ext <;> simp
  · intro t
    show (1000:ℝ) • (⟨0, 0, -Real.cos t⟩ : V3) = (0 : V3) + (1:ℝ) • ((0 : V3) + ((endForce (hanger t) {} (yoyo t).body).force + 0) + (-((1000:ℝ) * 10)) • V3.e3)
    rw [(hanger_load t).1]
    ext <;> simp [V3.e3]
    ring
  · intro t
    have e : (yoyo t).a.angAccBody .NWU = 0 := by
      have : (yoyo t).a.waccPar = 0 := by
        ext <;> simp [yoyo, ABody.waccPar, qvec, Q.mul]
      unfold ABody.angAccBody ABody.angAccWorld
      rw [this, toBody_conv, Frydom.Core.rotate_zero, conv_zero]
    rw [e]
    show M3.mulVec M3.one 0 = (0 : V3) + (1:ℝ) • ((0 : V3) + ((endForce (hanger t) {} (yoyo t).body).torque + 0) - 0)
    rw [(hanger_load t).2]
    ext <;> simp

/-- The hypotheses of `C194_moored` are met by the mass that oscillates on its line: what it loses of its height goes to its speed and to the line. -/
example (t : ℝ) : bodyEnergy 10 (yoyo t) + storedEnergy (hanger t) = bodyEnergy 10 (yoyo 0) + storedEnergy (hanger 0) :=
  C194_moored 10 hanger hanger_follows yoyo 0 eye Q.isUnit_one (fun _ => rfl) (fun _ => rfl) (fun _ => {}) yoyo_free t 0

end Frydom.Cable
