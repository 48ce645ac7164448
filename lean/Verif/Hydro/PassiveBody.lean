import Verif.Cable.CatenaryBodies
import Verif.Hydro.Damping

/-!
# Energy of a body under several loads (C195)

The equations the solver puts together for a body (BodyDynamics.lean, C164) with any list of loads; a body that floats in still water (HydrostaticEnergy.lean, C191), moored by elastic catenary lines
(CatenaryBodies.lean, C194) and damped (`FrLinearDamping`, `FrQuadraticDamping`, Damping.lean, C29, C30).
-/

noncomputable section

namespace Frydom.Hydro
open Frydom.Geom Frydom.Core Frydom.Mesh Frydom.Mesh.Surface Frydom.Mesh.Clip Frydom.Cable
open Frydom.Link (HasVel)

/-! ## Specification -/

/-- A body of constant mass and inertia that moves and obeys the equations of the solver (C164) under its weight and the loads `L`. -/
structure FreeUnderAll (g : ℝ) (b : ℝ → DBody) (L : ℝ → List Force) : Prop where
  moving : Moving fun t => (b t).a
  inertia : ∀ t t', (b t).I = (b t').I
  mass : ∀ t t', (b t).mass = (b t').mass
  symm : ∀ t u v, V3.dot u ((b t).I.mulVec v) = V3.dot ((b t).I.mulVec u) v
  noForce : ∀ t, (b t).forceAcc = 0
  noTorque : ∀ t, (b t).torqueAcc = 0
  gyroOn : ∀ t, (b t).noGyro = false
  gyro : ∀ t, (b t).gyro = V3.cross (b t).wvelLoc ((b t).I.mulVec (b t).wvelLoc)
  linear : ∀ t, (b t).mass • (b t).a.cogAccWorld .NWU = ((b t).fbLoadForces g (L t) 1 (0, 0)).1
  angular : ∀ t, (b t).I.mulVec ((b t).a.angAccBody .NWU) = ((b t).fbLoadForces g (L t) 1 (0, 0)).2

/-- A mooring line: its state at every time, the node of the body it is fastened to, the place of its anchor, and which end is on the body. -/
structure Mooring where
  line : ℝ → Line
  node : Node
  anchor : V3
  atEnd : Bool

/-- The line stays in equilibrium between its anchor and the node of the body. -/
structure Mooring.Holds (m : Mooring) (b : ℝ → DBody) : Prop where
  follows : Follows m.line
  unit : m.node.rel.rot.IsUnit
  onBody : ∀ t, (if m.atEnd then (m.line t).stop else (m.line t).start) = m.node.refresh (b t).body
  anchored : ∀ t, (if m.atEnd then (m.line t).start else (m.line t).stop).positionInWorld .NWU = m.anchor

/-- The load that `FrCatenaryForce` puts on the body. -/
def Mooring.load (m : Mooring) (b : Body) (t : ℝ) : Force := if m.atEnd then endForce (m.line t) {} b else startForce (m.line t) {} b

/-! ## Lemmas -/

/-- All the loads in one. -/
def together (L : List Force) : Force := { force := DBody.sumForce L, torque := DBody.sumTorque L }

theorem powerOn_together (b : Body) (L : List Force) : powerOn b (together L) = (L.map (powerOn b)).sum := by
  induction L with
  | nil =>
    show V3.dot 0 (b.cogVelWorld .NWU) + V3.dot (b.cog.rot.rotate 0) (b.angVelWorld .NWU) = 0
    rw [Frydom.Core.rotate_zero]
    simp [V3.dot]
  | cons f L ih =>
    rw [List.map_cons, List.sum_cons, ← ih]
    show V3.dot (f.force + DBody.sumForce L) (b.cogVelWorld .NWU) + V3.dot (b.cog.rot.rotate (f.torque + DBody.sumTorque L)) (b.angVelWorld .NWU) =
      V3.dot f.force (b.cogVelWorld .NWU) + V3.dot (b.cog.rot.rotate f.torque) (b.angVelWorld .NWU) +
        (V3.dot (DBody.sumForce L) (b.cogVelWorld .NWU) + V3.dot (b.cog.rot.rotate (DBody.sumTorque L)) (b.angVelWorld .NWU))
    rw [Q.rotate_add]
    simp only [V3.dot, V3.add_x, V3.add_y, V3.add_z]
    ring

theorem loads_together (b : DBody) (g : ℝ) (L : List Force) : b.fbLoadForces g [together L] 1 (0, 0) = b.fbLoadForces g L 1 (0, 0) := by
  have e1 : DBody.sumForce [together L] = DBody.sumForce L := by
    show DBody.sumForce L + 0 = _
    ext <;> simp
  have e2 : DBody.sumTorque [together L] = DBody.sumTorque L := by
    show DBody.sumTorque L + 0 = _
    ext <;> simp
  unfold DBody.fbLoadForces DBody.xForce DBody.xTorque
  rw [e1, e2]

theorem sum_nonpos {P : Force → ℝ} {L : List Force} (h : ∀ f ∈ L, P f ≤ 0) : (L.map P).sum ≤ 0 := by
  induction L with
  | nil => simp
  | cons f L ih =>
    rw [List.map_cons, List.sum_cons]
    have h1 := h f (by simp)
    have h2 := ih fun f' hf' => h f' (List.mem_cons_of_mem _ hf')
    linarith

/-! ## C195 -/

/-- **C195, work and energy.** The energy of a body (kinetic energy of translation and rotation, and weight times height of the centre of gravity) changes at the sum of the powers of the loads put
on it, each as the API gives its force, its torque and the velocities. -/
theorem C195_work {g : ℝ} {b : ℝ → DBody} {L : ℝ → List Force} (h : FreeUnderAll g b L) (t : ℝ) :
    HasDerivAt (fun s => bodyEnergy g (b s)) (((L t).map (powerOn (b t).body)).sum) t := by
  have k := bodyEnergy_deriv b h.moving h.inertia h.mass h.symm g (together (L t)) t (h.noForce t) (h.noTorque t) (h.gyroOn t) (h.gyro t)
    (by rw [loads_together]; exact h.linear t) (by rw [loads_together]; exact h.angular t)
  exact k.congr_deriv (powerOn_together (b t).body (L t))

/-- A mooring line takes from the energy of the body what it stores. -/
theorem mooring_deriv {m : Mooring} {b : ℝ → DBody} (hm : m.Holds b) (h : Moving fun t => (b t).a) (t : ℝ) :
    HasDerivAt (fun s => storedEnergy (m.line s)) (-powerOn (b t).body (m.load (b t).body t)) t := by
  have h0 : ∀ v : V3, V3.dot v 0 = 0 := by intro v; simp [V3.dot]
  rcases Bool.eq_false_or_eq_true m.atEnd with he | he
  · have hb : ∀ t, (m.line t).stop = m.node.refresh (b t).body := fun t => by have := hm.onBody t; rwa [if_pos he] at this
    have ha : ∀ t, (m.line t).start.positionInWorld .NWU = m.anchor := fun t => by have := hm.anchored t; rwa [if_pos he] at this
    have d1 : HasDeriv3 (fun x => (m.line x).start.positionInWorld .NWU) 0 t := by
      simp only [ha]
      exact ⟨hasDerivAt_const _ _, hasDerivAt_const _ _, hasDerivAt_const _ _⟩
    have d2 : HasDeriv3 (fun x => (m.line x).stop.positionInWorld .NWU) ((m.node.refresh (b t).body).velocityInWorld .NWU) t := by
      simp only [hb]
      exact node_moves (fun t => (b t).a) h m.node t
    refine (hm.follows.deriv t d1 d2).congr_deriv ?_
    have hp : powerOn (b t).body (endForce (m.line t) {} (b t).body) = V3.dot ((m.line t).endTension .NWU) ((m.node.refresh (b t).body).velocityInWorld .NWU) :=
      end_power (m.line t) (fun t => (b t).a) h m.node hm.unit t {} (hb t)
    unfold Mooring.load
    rw [if_pos he, hp, h0, zero_add]
  · have hn : ¬ m.atEnd = true := by rw [he]; simp
    have hb : ∀ t, (m.line t).start = m.node.refresh (b t).body := fun t => by have := hm.onBody t; rwa [if_neg hn] at this
    have ha : ∀ t, (m.line t).stop.positionInWorld .NWU = m.anchor := fun t => by have := hm.anchored t; rwa [if_neg hn] at this
    have d1 : HasDeriv3 (fun x => (m.line x).stop.positionInWorld .NWU) 0 t := by
      simp only [ha]
      exact ⟨hasDerivAt_const _ _, hasDerivAt_const _ _, hasDerivAt_const _ _⟩
    have d2 : HasDeriv3 (fun x => (m.line x).start.positionInWorld .NWU) ((m.node.refresh (b t).body).velocityInWorld .NWU) t := by
      simp only [hb]
      exact node_moves (fun t => (b t).a) h m.node t
    refine (hm.follows.deriv t d2 d1).congr_deriv ?_
    have hp : powerOn (b t).body (startForce (m.line t) {} (b t).body) = V3.dot ((m.line t).startTension .NWU) ((m.node.refresh (b t).body).velocityInWorld .NWU) :=
      start_power (m.line t) (fun t => (b t).a) h m.node hm.unit t {} (hb t)
    unfold Mooring.load
    rw [if_neg hn, hp, h0, add_zero]

theorem moorings_deriv {ms : List Mooring} {b : ℝ → DBody} (hm : ∀ m ∈ ms, m.Holds b) (h : Moving fun t => (b t).a) (t : ℝ) :
    HasDerivAt (fun s => (ms.map fun m => storedEnergy (m.line s)).sum) (-((ms.map fun m => powerOn (b t).body (m.load (b t).body t)).sum)) t := by
  induction ms with
  | nil => simpa using hasDerivAt_const t (0:ℝ)
  | cons m ms ih =>
    simp only [List.map_cons, List.sum_cons]
    exact ((mooring_deriv (hm m (by simp)) h t).add (ih fun m' hm' => hm m' (List.mem_cons_of_mem _ hm'))).congr_deriv (by ring)

/-- The hydrostatic load takes from the energy of the body what the displaced water stores. -/
theorem water_deriv (j : List V3 → Junk) (rho g : ℝ) (H : List Tri) (b : ℝ → DBody) (h : Moving fun t => (b t).a) (M : ℝ → SMesh) (hM : ∀ s, Good (M s))
    (h0 : ∀ s, AtSurface (M s)) (hw : ∀ s, Wetted (H.map (carry (seenFrom (b s).body))) (M s)) (f F : Force) (t : ℝ) (hne : (M t).nv ≠ 0)
    (hV : volInt (fun _ => 1) 0 (M t).closedUp ≠ 0) (hF : computePlaneForce j rho g (M t) (b t).body f = some F) :
    HasDerivAt (fun s => displacedEnergy rho g (M s)) (-powerOn (b t).body F) t := by
  obtain ⟨f', h1, h2⟩ := C191_power j rho g H (fun t => (b t).a) h M hM h0 hw f t hne hV
  obtain rfl : F = f' := Option.some.inj (hF.symm.trans h1)
  have k2 := h2 ((b t).body.getCOG .NWU)
  have hpl : ∀ s, Placed (b s).body := fun s => ⟨h.unit s, h.placed s⟩
  have ec : ∀ s, (b s).body.cogPositionInWorld .NWU = (b s).body.pointInWorld ((b s).body.getCOG .NWU) .NWU := fun s => (C50_points (b s).body (hpl s) 0 0 .NWU).2.2.2
  have ev : (b t).body.velWorldAtPointInBody ((b t).body.getCOG .NWU) .NWU = (b t).body.cogVelWorld .NWU := by
    obtain ⟨m1, -, m3, -⟩ := C160_motion (fun t => (b t).a) h ((b t).body.getCOG .NWU) (Node.new Body.new) t .NWU
    refine HasVel.unique m1 ?_
    have e : (fun s => (b s).a.body.pointInWorld ((b t).body.getCOG .NWU) .NWU) = fun s => (b s).a.body.cogPositionInWorld .NWU := by
      funext s
      have : (b t).body.getCOG .NWU = (b s).body.getCOG .NWU := h.cogFixed t s
      rw [this]
      exact (ec s).symm
    rw [e]
    exact m3
  have et : F.getTorqueInWorldAtPointInBody (b t).body ((b t).body.getCOG .NWU) .NWU = F.getTorqueInWorldAtCOG (b t).body .NWU := by
    unfold Force.getTorqueInWorldAtPointInBody
    rw [← ec]
    unfold Force.getTorqueInWorldAtPointInWorld
    ext <;> simp
  have k3 : HasDerivAt (fun s => displacedEnergy rho g (M s)) (-(V3.dot (F.getForceInWorld .NWU) ((b t).body.cogVelWorld .NWU) +
      V3.dot (F.getTorqueInWorldAtCOG (b t).body .NWU) ((b t).body.angVelWorld .NWU))) t := by
    rw [← ev, ← et]
    exact k2
  exact k3

/-- **C195, a moored body.** A body under its weight, any number of elastic mooring lines and other loads that never give it power: the sum of its energy and of the energies stored in its lines never increases;
without other loads it is constant. -/
theorem C195_moored (g : ℝ) (b : ℝ → DBody) (ms : List Mooring) (hm : ∀ m ∈ ms, m.Holds b) (D : ℝ → List Force) (hD : ∀ t, ∀ f ∈ D t, powerOn (b t).body f ≤ 0)
    (h : FreeUnderAll g b fun t => (ms.map fun m => m.load (b t).body t) ++ D t) :
    Antitone (fun t => bodyEnergy g (b t) + (ms.map fun m => storedEnergy (m.line t)).sum) ∧
      ((∀ t, D t = []) → ∀ t t', bodyEnergy g (b t) + (ms.map fun m => storedEnergy (m.line t)).sum = bodyEnergy g (b t') + (ms.map fun m => storedEnergy (m.line t')).sum) := by
  have key : ∀ t, HasDerivAt (fun t => bodyEnergy g (b t) + (ms.map fun m => storedEnergy (m.line t)).sum) (((D t).map (powerOn (b t).body)).sum) t := by
    intro t
    refine ((C195_work h t).add (moorings_deriv hm h.moving t)).congr_deriv ?_
    rw [List.map_append, List.sum_append, List.map_map]
    have e : (powerOn (b t).body ∘ fun m : Mooring => m.load (b t).body t) = fun m => powerOn (b t).body (m.load (b t).body t) := rfl
    rw [e]
    ring
  refine ⟨antitone_of_deriv_nonpos (fun t => (key t).differentiableAt) fun t => ?_, fun hn t t' => ?_⟩
  · rw [(key t).deriv]
    exact sum_nonpos (hD t)
  · refine is_const_of_deriv_eq_zero (fun t => (key t).differentiableAt) (fun t => ?_) t t'
    rw [(key t).deriv, hn t]
    rfl

/-- **C195, a moored, floating and damped body.** A body that floats in still water under its weight, the nonlinear hydrostatic load, any number of elastic mooring lines, a linear damping whose quadratic form is
not negative and a quadratic damping with coefficients that are not negative: the sum of its energy, of that of the displaced water and of those stored in its lines never increases. -/
theorem C195_floating (j : List V3 → Junk) (rho g : ℝ) (H : List Tri) (b : ℝ → DBody) (M : ℝ → SMesh) (hM : ∀ s, Good (M s)) (h0 : ∀ s, AtSurface (M s))
    (hw : ∀ s, Wetted (H.map (carry (seenFrom (b s).body))) (M s)) (hne : ∀ s, (M s).nv ≠ 0) (hV : ∀ s, volInt (fun _ => 1) 0 (M s).closedUp ≠ 0)
    (f F : ℝ → Force) (hF : ∀ t, computePlaneForce j rho g (M t) (b t).body (f t) = some (F t)) (ms : List Mooring) (hm : ∀ m ∈ ms, m.Holds b)
    (Dm : Matrix (Fin 6) (Fin 6) ℝ) (hDm : ∀ v, 0 ≤ quadForm Dm v) (k : Quad) (hr : 0 ≤ rho) (hS : 0 ≤ k.S.x ∧ 0 ≤ k.S.y ∧ 0 ≤ k.S.z) (hC : 0 ≤ k.C.x ∧ 0 ≤ k.C.y ∧ 0 ≤ k.C.z)
    (h : FreeUnderAll g b fun t => F t :: (ms.map fun m => m.load (b t).body t) ++ [linearCompute Dm .world (b t).body {}, quadCompute k rho .world (b t).body {}]) :
    Antitone (fun t => bodyEnergy g (b t) + displacedEnergy rho g (M t) + (ms.map fun m => storedEnergy (m.line t)).sum) := by
  have hpw : ∀ (B : Body) (f : Force), power f B .world = powerOn B f := by
    intro B f
    unfold power powerOn
    have e : B.cogVelWorld .NWU - fluidVelocity .world = B.cogVelWorld .NWU := by
      show B.cogVelWorld .NWU - 0 = _
      ext <;> simp
    rw [e]
  have key : ∀ t, HasDerivAt (fun t => bodyEnergy g (b t) + displacedEnergy rho g (M t) + (ms.map fun m => storedEnergy (m.line t)).sum)
      (powerOn (b t).body (linearCompute Dm .world (b t).body {}) + powerOn (b t).body (quadCompute k rho .world (b t).body {})) t := by
    intro t
    have k1 := C195_work h t
    have k2 := water_deriv j rho g H b h.moving M hM h0 hw (f t) (F t) t (hne t) (hV t) (hF t)
    have k3 := moorings_deriv hm h.moving t
    refine ((k1.add k2).add k3).congr_deriv ?_
    rw [List.map_append, List.sum_append, List.map_cons, List.sum_cons, List.map_map]
    have e : (powerOn (b t).body ∘ fun m : Mooring => m.load (b t).body t) = fun m => powerOn (b t).body (m.load (b t).body t) := rfl
    rw [e]
    simp only [List.map_cons, List.map_nil, List.sum_cons, List.sum_nil]
    ring
  refine antitone_of_deriv_nonpos (fun t => (key t).differentiableAt) fun t => ?_
  rw [(key t).deriv, ← hpw, ← hpw]
  have hpl : Placed (b t).body := ⟨h.moving.unit t, h.moving.placed t⟩
  have p1 := (C29_linear_partial Dm .world (b t).body hpl {}).2.2.1 hDm
  have p2 := (C30_opposes k rho hr hS hC).2.2 .world (b t).body {} hpl rfl
  linarith

end Frydom.Hydro
