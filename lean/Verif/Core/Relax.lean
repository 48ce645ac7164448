import Verif.Core.BodyAccel
import Verif.Core.Statics
import Verif.Func.Props2
import Verif.Env.Flow

/-!
# Relaxation of the static analysis (C174)

`FrOffshoreSystem::Relax` (src/frydom/core/FrOffshoreSystem.cpp 892-914), `FrDynamicCable::Relax`, `GetStaticResidual` (src/frydom/cable/FrDynamicCable.cpp 469-485),
the residual and the time ramp of `FrStaticAnalysis` (src/frydom/core/statics/FrStaticAnalysis.cpp 67-70, 198-208).
External: `ChMesh::SetNoSpeedNoAcceleration` (the speeds and accelerations of the nodes are made null).
-/

noncomputable section

namespace Frydom.Core.Relax
open Frydom.Geom Frydom.Core

/-- `FrStaticAnalysis::RELAXTYPE` (FrStaticAnalysis.h). -/
inductive Kind
  | noRelax | velocity | acceleration | velocityAndAcceleration

/-- A node of a dynamic cable (`ChNodeFEAxyzrot`): frame, linear and angular speeds and accelerations. -/
structure CNode where
  frame : Frame
  vel : V3
  angVel : V3
  acc : V3
  angAcc : V3

/-- What the relaxation sees of a system: its bodies and its dynamic cables. -/
structure Scene where
  bodies : List ABody
  cables : List (List CNode)

/-- One body (FrOffshoreSystem.cpp:895-908). -/
def relaxBody (k : Kind) (b : ABody) : ABody :=
  match k with
  | .noRelax => b
  | .velocity => { b with body := b.body.setVelWorldNoRotation 0 .NWU }
  | .acceleration => b.setAccBodyNoRotation 0 .NWU
  | .velocityAndAcceleration => ABody.setAccBodyNoRotation { b with body := b.body.setVelWorldNoRotation 0 .NWU } 0 .NWU

/-- `FrDynamicCable::Relax` (FrDynamicCable.cpp:481-485): `SetNoSpeedNoAcceleration` on each node. -/
def relaxCable (c : List CNode) : List CNode := c.map fun n => { n with vel := 0, angVel := 0, acc := 0, angAcc := 0 }

/-- `FrOffshoreSystem::Relax` (FrOffshoreSystem.cpp:892-914). -/
def relax (k : Kind) (s : Scene) : Scene := ⟨s.bodies.map (relaxBody k), s.cables.map relaxCable⟩

/-- `FrDynamicCable::GetStaticResidual` (FrDynamicCable.cpp:469-479). -/
def cableResidual (c : List CNode) : ℝ := c.foldl (fun r n => r + V3.norm n.vel) 0

/-- The residual of an iteration (FrStaticAnalysis.cpp:201-208). -/
def residual (s : Scene) : ℝ :=
  s.cables.foldl (fun r c => r + cableResidual c)
    (s.bodies.foldl (fun r b => r + (V3.norm (b.body.linVelWorld .NWU) + V3.norm (b.body.angVelWorld .NWU))) 0)

/-! ## Specification -/

/-- Every point of the body is at rest: no velocity anywhere, no spin. -/
def AtRest (b : Body) : Prop := ∀ (p : V3) (fc : FC), b.velWorldAtPointInBody p fc = 0 ∧ b.angVelWorld fc = 0

/-- Nothing of the body has moved: each of its points is where it was, and its orientation is kept. -/
def SamePlace (b b' : Body) : Prop := ∀ (p : V3) (fc : FC), b'.pointInWorld p fc = b.pointInWorld p fc ∧ b'.getQuaternion = b.getQuaternion ∧ b'.getCOG fc = b.getCOG fc

/-! ## Lemmas -/

theorem updateAfterMove_place (b : Body) (h : Placed b) : b.updateAfterMove.refPos = b.refPos := by
  show b.cog.pos - b.cog.rot.rotate b.cogInRef = b.refPos
  rw [h.cog, v3_add_sub]

theorem samePlace_of {b b' : Body} (h1 : b'.refPos = b.refPos) (h2 : b'.cog = b.cog) (h3 : b'.cogInRef = b.cogInRef) : SamePlace b b' := by
  intro p fc
  refine ⟨?_, ?_, ?_⟩
  · unfold Body.pointInWorld Body.getPosition Body.toWorld; rw [h1, h2]
  · unfold Body.getQuaternion; rw [h2]
  · unfold Body.getCOG; rw [h3]

theorem setVel_placed {b : Body} (h : Placed b) : Placed (b.setVelWorldNoRotation 0 .NWU) :=
  ⟨h.unit, by rw [show (b.setVelWorldNoRotation 0 .NWU).refPos = b.refPos from updateAfterMove_place _ ⟨h.unit, h.cog⟩]; exact h.cog⟩

theorem setVel_rest {b : Body} (h : Placed b) : AtRest (b.setVelWorldNoRotation 0 .NWU) := by
  intro p fc
  have e : b.setVelWorldNoRotation 0 .NWU = b.setVelWorldNoRotation 0 fc := by
    unfold Body.setVelWorldNoRotation; rw [conv_zero, conv_zero]
  rw [e]
  exact ⟨(C51_no_rotation b h 0 p fc).1, (C51_no_rotation b h 0 p fc).2.1⟩

theorem rest_update {b : Body} (h : Placed b) (hz : b.posDt = 0) (hr : b.rotDt = ⟨0, 0, 0, 0⟩) : AtRest b.updateAfterMove := by
  have : b.updateAfterMove = b.setVelWorldNoRotation 0 .NWU := by
    unfold Body.setVelWorldNoRotation; rw [conv_zero, ← hz, ← hr]
  rw [this]; exact setVel_rest h

theorem norm_nonneg (v : V3) : 0 ≤ V3.norm v := Real.sqrt_nonneg _

theorem norm_zero_iff (v : V3) : V3.norm v = 0 ↔ v = 0 := by
  unfold V3.norm
  constructor
  · intro h
    have h0 : 0 ≤ V3.dot v v := by unfold V3.dot; nlinarith [mul_self_nonneg v.x, mul_self_nonneg v.y, mul_self_nonneg v.z]
    have h1 := (Real.sqrt_eq_zero h0).mp h
    unfold V3.dot at h1
    ext
    · exact mul_self_eq_zero.mp (by show v.x * v.x = 0; nlinarith [mul_self_nonneg v.x, mul_self_nonneg v.y, mul_self_nonneg v.z])
    · exact mul_self_eq_zero.mp (by show v.y * v.y = 0; nlinarith [mul_self_nonneg v.x, mul_self_nonneg v.y, mul_self_nonneg v.z])
    · exact mul_self_eq_zero.mp (by show v.z * v.z = 0; nlinarith [mul_self_nonneg v.x, mul_self_nonneg v.y, mul_self_nonneg v.z])
  · rintro rfl
    simp [V3.dot]

theorem foldl_sum {α : Type} (f : α → ℝ) (l : List α) : ∀ r : ℝ, l.foldl (fun r x => r + f x) r = r + (l.map f).sum := by
  induction l with
  | nil => intro r; simp
  | cons x l ih => intro r; rw [List.foldl_cons, ih, List.map_cons, List.sum_cons]; ring

theorem sum_nonneg {α : Type} (f : α → ℝ) (l : List α) (h : ∀ x, 0 ≤ f x) : 0 ≤ (l.map f).sum := by
  induction l with
  | nil => simp
  | cons x l ih => rw [List.map_cons, List.sum_cons]; exact add_nonneg (h x) ih

theorem le_sum {α : Type} (f : α → ℝ) (l : List α) (h : ∀ x, 0 ≤ f x) : ∀ x ∈ l, f x ≤ (l.map f).sum := by
  induction l with
  | nil => intro x hx; simp at hx
  | cons y l ih =>
    intro x hx
    rw [List.map_cons, List.sum_cons]
    rcases List.mem_cons.mp hx with rfl | hx
    · exact le_add_of_nonneg_right (sum_nonneg f l h)
    · exact (ih x hx).trans (le_add_of_nonneg_left (h y))

theorem sum_zero {α : Type} (f : α → ℝ) (l : List α) (h : ∀ x ∈ l, f x = 0) : (l.map f).sum = 0 := by
  induction l with
  | nil => simp
  | cons x l ih =>
    rw [List.map_cons, List.sum_cons, h x (by simp), ih (fun y hy => h y (by simp [hy])), add_zero]

theorem cableResidual_eq (c : List CNode) : cableResidual c = (c.map fun n => V3.norm n.vel).sum := by
  unfold cableResidual; rw [foldl_sum (fun n : CNode => V3.norm n.vel)]; ring

theorem residual_eq (s : Scene) : residual s =
    (s.bodies.map fun b => V3.norm (b.body.linVelWorld .NWU) + V3.norm (b.body.angVelWorld .NWU)).sum + (s.cables.map cableResidual).sum := by
  unfold residual
  rw [foldl_sum (fun b : ABody => V3.norm (b.body.linVelWorld .NWU) + V3.norm (b.body.angVelWorld .NWU)), foldl_sum cableResidual]; ring

theorem cable_nonneg (c : List CNode) : 0 ≤ cableResidual c := by
  rw [cableResidual_eq]; exact sum_nonneg _ _ fun _ => norm_nonneg _

theorem vel_of_zero {b : Body} (h : Placed b) (h1 : b.linVelWorld .NWU = 0) (h2 : b.angVelWorld .NWU = 0) : AtRest b := by
  intro p fc
  have e1 : b.refVel = 0 := h1
  have e2 : b.wvelPar = 0 := h2
  refine ⟨?_, by unfold Body.angVelWorld; rw [e2, conv_zero]⟩
  unfold Body.velWorldAtPointInBody Body.velBodyAtPointInBody Body.velBody Body.angVelBody Body.linVelWorld Body.angVelWorld
  rw [e1, e2, toBody_conv, rotate_zero, conv_zero]
  have : (0 : V3) + V3.cross 0 p = conv fc 0 := by rw [conv_zero]; ext <;> simp
  rw [this, toWorld_conv, rotate_zero, conv_zero]

/-! ## C174 -/

/-- **C174, nothing moves.** Whatever the kind of relaxation, no body is created or lost and no point of any body moves, and the nodes of the dynamic cables keep their frames. -/
theorem C174_positions (k : Kind) (s : Scene) (h : ∀ b ∈ s.bodies, Placed b.body) :
    (∀ (i : ℕ) (b : ABody), s.bodies[i]? = some b → ∃ b', (relax k s).bodies[i]? = some b' ∧ SamePlace b.body b'.body ∧ Placed b'.body) ∧
    (relax k s).bodies.length = s.bodies.length ∧
    (relax k s).cables.map (fun c => c.map CNode.frame) = s.cables.map (fun c => c.map CNode.frame) := by
  refine ⟨fun i b hb => ⟨relaxBody k b, by simp [relax, hb], ?_⟩, by simp [relax], ?_⟩
  · have hp := h b (List.mem_of_getElem? hb)
    cases k with
    | noRelax => exact ⟨samePlace_of rfl rfl rfl, hp⟩
    | velocity => exact ⟨samePlace_of (updateAfterMove_place _ ⟨hp.unit, hp.cog⟩) rfl rfl, setVel_placed hp⟩
    | acceleration =>
      exact ⟨samePlace_of (updateAfterMove_place _ hp) rfl rfl, ⟨hp.unit, by
        show b.body.cog.pos = b.body.updateAfterMove.refPos + _
        rw [updateAfterMove_place _ hp]; exact hp.cog⟩⟩
    | velocityAndAcceleration =>
      have h1 := setVel_placed hp
      have e : (b.body.setVelWorldNoRotation 0 .NWU).updateAfterMove.refPos = b.body.refPos :=
        (updateAfterMove_place _ h1).trans (updateAfterMove_place _ ⟨hp.unit, hp.cog⟩)
      exact ⟨samePlace_of e rfl rfl, ⟨hp.unit, by
        show b.body.cog.pos = (b.body.setVelWorldNoRotation 0 .NWU).updateAfterMove.refPos + _
        rw [e]; exact hp.cog⟩⟩
  · simp [relax, relaxCable, Function.comp_def]

/-- **C174, what is stopped.** `VELOCITY` brings every point of every body to rest and leaves the accelerations recorded as they were; `ACCELERATION` makes the acceleration of the
centre of gravity and the angular acceleration null and leaves the velocity of the centre of gravity and the spin as they were; with both, no point of any body has a velocity or an
acceleration; `NORELAX` leaves the bodies as they are. -/
theorem C174_bodies (s : Scene) (h : ∀ b ∈ s.bodies, Placed b.body) (i : ℕ) (b : ABody) (hb : s.bodies[i]? = some b) :
    (∃ b', (relax .velocity s).bodies[i]? = some b' ∧ AtRest b'.body ∧ (∀ fc, b'.cogAccWorld fc = b.cogAccWorld fc ∧ b'.angAccWorld fc = b.angAccWorld fc)) ∧
    (∃ b', (relax .acceleration s).bodies[i]? = some b' ∧ (∀ fc, b'.cogAccWorld fc = 0 ∧ b'.angAccWorld fc = 0) ∧
      (∀ fc, b'.body.cogVelWorld fc = b.body.cogVelWorld fc ∧ b'.body.angVelWorld fc = b.body.angVelWorld fc)) ∧
    (∃ b', (relax .velocityAndAcceleration s).bodies[i]? = some b' ∧ AtRest b'.body ∧ (∀ p fc, b'.accWorldAtPointInBody p fc = 0 ∧ b'.angAccWorld fc = 0)) ∧
    (relax .noRelax s).bodies[i]? = some b := by
  have hp := h b (List.mem_of_getElem? hb)
  have hw : ∀ b' : Body, b'.toWorld 0 .NWU = 0 := fun b' => by unfold Body.toWorld rotate conv; exact rotate_zero _
  refine ⟨⟨relaxBody .velocity b, by simp [relax, hb], setVel_rest hp, fun fc => ⟨rfl, rfl⟩⟩, ⟨relaxBody .acceleration b, by simp [relax, hb], fun fc => ⟨?_, ?_⟩, fun fc => ⟨rfl, rfl⟩⟩,
    ⟨relaxBody .velocityAndAcceleration b, by simp [relax, hb], ?_, fun p fc => ⟨?_, ?_⟩⟩, by simp [relax, hb, relaxBody]⟩
  · show conv fc (conv .NWU (b.body.toWorld 0 .NWU)) = 0
    rw [hw, conv_zero, conv_zero]
  · show conv fc ((2:ℝ) • qvec ((⟨0, 0, 0, 0⟩ : Q).mul b.body.cog.rot.conj)) = 0
    rw [show (2:ℝ) • qvec ((⟨0, 0, 0, 0⟩ : Q).mul b.body.cog.rot.conj) = 0 by ext <;> simp [qvec], conv_zero]
  · exact rest_update (setVel_placed hp) rfl rfl
  · show conv fc (conv .NWU ((b.body.setVelWorldNoRotation 0 .NWU).toWorld 0 .NWU) + (2:ℝ) • qvec (((⟨0, 0, 0, 0⟩ : Q).mul (qpure (conv fc p - b.body.getCOG .NWU))).mul b.body.cog.rot.conj) +
      (2:ℝ) • qvec (((⟨0, 0, 0, 0⟩ : Q).mul (qpure (conv fc p - b.body.getCOG .NWU))).mul (⟨0, 0, 0, 0⟩ : Q).conj)) = 0
    rw [hw, conv_zero]
    rw [show (0 : V3) + (2:ℝ) • qvec (((⟨0, 0, 0, 0⟩ : Q).mul (qpure (conv fc p - b.body.getCOG .NWU))).mul b.body.cog.rot.conj) +
      (2:ℝ) • qvec (((⟨0, 0, 0, 0⟩ : Q).mul (qpure (conv fc p - b.body.getCOG .NWU))).mul (⟨0, 0, 0, 0⟩ : Q).conj) = 0 by ext <;> simp [qvec], conv_zero]
  · show conv fc ((2:ℝ) • qvec ((⟨0, 0, 0, 0⟩ : Q).mul b.body.cog.rot.conj)) = 0
    rw [show (2:ℝ) • qvec ((⟨0, 0, 0, 0⟩ : Q).mul b.body.cog.rot.conj) = 0 by ext <;> simp [qvec], conv_zero]

/-- **C174, false as said for the cables.** Every node of every dynamic cable is stopped, speeds and accelerations, whatever the kind asked for: `NORELAX` too. So a kind that keeps the
bodies as they are does not keep the cables. -/
theorem C174_cables_wrong (k : Kind) (s : Scene) :
    (∀ c ∈ (relax k s).cables, ∀ n ∈ c, n.vel = 0 ∧ n.angVel = 0 ∧ n.acc = 0 ∧ n.angAcc = 0) ∧
    (∀ c ∈ s.cables, ∀ n ∈ c, n.vel ≠ 0 → (relax .noRelax s).cables ≠ s.cables) := by
  have h1 : ∀ k, ∀ c ∈ (relax k s).cables, ∀ n ∈ c, n.vel = 0 ∧ n.angVel = 0 ∧ n.acc = 0 ∧ n.angAcc = 0 := by
    intro k c hc n hn
    obtain ⟨c0, -, rfl⟩ := List.mem_map.mp hc
    obtain ⟨n0, -, rfl⟩ := List.mem_map.mp hn
    exact ⟨rfl, rfl, rfl, rfl⟩
  refine ⟨h1 k, fun c hc n hn hv e => hv ?_⟩
  exact (h1 .noRelax c (by rw [e]; exact hc) n hn).1

/-- **C174, what the residual bounds.** The residual is never negative; below the tolerance, every body has a speed and a spin below the tolerance and every node of every dynamic cable a
speed below it; it is null exactly when every body is at rest and no cable node has a linear speed (the spins of the cable nodes are not looked at). -/
theorem C174_residual (s : Scene) (h : ∀ b ∈ s.bodies, Placed b.body) :
    0 ≤ residual s ∧
    (∀ tol, residual s < tol → (∀ b ∈ s.bodies, ∀ fc, V3.norm (b.body.linVelWorld fc) < tol ∧ V3.norm (b.body.angVelWorld fc) < tol) ∧
      ∀ c ∈ s.cables, ∀ n ∈ c, V3.norm n.vel < tol) ∧
    (residual s = 0 ↔ (∀ b ∈ s.bodies, AtRest b.body) ∧ ∀ c ∈ s.cables, ∀ n ∈ c, n.vel = 0) := by
  set f : ABody → ℝ := fun b => V3.norm (b.body.linVelWorld .NWU) + V3.norm (b.body.angVelWorld .NWU) with hf
  have fn : ∀ b, 0 ≤ f b := fun b => add_nonneg (norm_nonneg _) (norm_nonneg _)
  have B := sum_nonneg f s.bodies fn
  have C := sum_nonneg cableResidual s.cables cable_nonneg
  have E : residual s = (s.bodies.map f).sum + (s.cables.map cableResidual).sum := residual_eq s
  have hb : ∀ b ∈ s.bodies, f b ≤ residual s := fun b hb => by rw [E]; exact (le_sum f _ fn b hb).trans (le_add_of_nonneg_right C)
  have hc : ∀ c ∈ s.cables, ∀ n ∈ c, V3.norm n.vel ≤ residual s := by
    intro c hc n hn
    have h1 : V3.norm n.vel ≤ cableResidual c := by
      rw [cableResidual_eq]; exact le_sum (fun n : CNode => V3.norm n.vel) _ (fun _ => norm_nonneg _) n hn
    rw [E]
    exact (h1.trans (le_sum _ _ cable_nonneg c hc)).trans (le_add_of_nonneg_left B)
  have nc : ∀ (fc : FC) (v : V3), V3.norm (conv fc v) = V3.norm v := fun fc v => by unfold V3.norm; rw [conv_dot]
  refine ⟨by rw [E]; exact add_nonneg B C, fun tol ht => ⟨fun b h' fc => ⟨?_, ?_⟩, fun c h1 n h2 => (hc c h1 n h2).trans_lt ht⟩, ?_, ?_⟩
  · have := (le_add_of_nonneg_right (norm_nonneg (b.body.angVelWorld .NWU))).trans (hb b h')
    unfold Body.linVelWorld at this ⊢
    rw [nc] at this ⊢
    exact this.trans_lt ht
  · have := (le_add_of_nonneg_left (norm_nonneg (b.body.linVelWorld .NWU))).trans (hb b h')
    unfold Body.angVelWorld at this ⊢
    rw [nc] at this ⊢
    exact this.trans_lt ht
  · intro h0
    refine ⟨fun b h' => vel_of_zero (h b h') ?_ ?_, fun c h1 n h2 => (norm_zero_iff _).mp (le_antisymm ((hc c h1 n h2).trans h0.le) (norm_nonneg _))⟩
    · exact (norm_zero_iff _).mp (le_antisymm (((le_add_of_nonneg_right (norm_nonneg (b.body.angVelWorld .NWU))).trans (hb b h')).trans h0.le) (norm_nonneg _))
    · exact (norm_zero_iff _).mp (le_antisymm (((le_add_of_nonneg_left (norm_nonneg (b.body.linVelWorld .NWU))).trans (hb b h')).trans h0.le) (norm_nonneg _))
  · rintro ⟨h1, h2⟩
    rw [E, sum_zero f, sum_zero cableResidual, add_zero]
    · intro c hc'
      rw [cableResidual_eq, sum_zero]
      intro n hn
      exact (norm_zero_iff _).mpr (h2 c hc' n hn)
    · intro b hb'
      have r := h1 b hb' 0 .NWU
      have hv : b.body.linVelWorld .NWU = 0 := by
        have := r.1
        unfold Body.velWorldAtPointInBody Body.velBodyAtPointInBody Body.velBody at this
        rw [show b.body.toBody (b.body.linVelWorld .NWU) .NWU + V3.cross (b.body.angVelBody .NWU) 0 = b.body.toBody (b.body.linVelWorld .NWU) .NWU by ext <;> simp,
          toWorld_toBody (h b hb')] at this
        exact this
      show V3.norm _ + V3.norm _ = 0
      rw [hv, r.2, (norm_zero_iff _).mpr rfl, add_zero]

/-- **C174, the residual just after a relaxation.** With `VELOCITY` or both, nothing is left to converge: the residual of the relaxed state is null. -/
theorem C174_residual_after (s : Scene) (h : ∀ b ∈ s.bodies, Placed b.body) :
    residual (relax .velocity s) = 0 ∧ residual (relax .velocityAndAcceleration s) = 0 := by
  have key : ∀ k, (∀ b, Placed b.body → Placed (relaxBody k b).body ∧ AtRest (relaxBody k b).body) → residual (relax k s) = 0 := by
    intro k hk
    refine (C174_residual (relax k s) ?_).2.2.mpr ⟨?_, fun c hc n hn => ((C174_cables_wrong k s).1 c hc n hn).1⟩
    · intro b hb
      obtain ⟨b0, h0, rfl⟩ := List.mem_map.mp hb
      exact (hk b0 (h b0 h0)).1
    · intro b hb
      obtain ⟨b0, h0, rfl⟩ := List.mem_map.mp hb
      exact (hk b0 (h b0 h0)).2
  refine ⟨key _ fun b hp => ⟨setVel_placed hp, setVel_rest hp⟩, key _ fun b hp => ⟨?_, rest_update (setVel_placed hp) rfl rfl⟩⟩
  have h1 := setVel_placed hp
  exact ⟨hp.unit, by
    show b.body.cog.pos = (b.body.setVelWorldNoRotation 0 .NWU).updateAfterMove.refPos + _
    rw [updateAfterMove_place _ h1]; exact h1.cog⟩

theorem capture_ramp {P : Type} (l : List Core.Obj) : ∀ st : Core.Sys P × (Core.Obj → Option Bool), (l.foldl Core.captureOne st).1.ramp = st.1.ramp := by
  induction l with
  | nil => intro st; rfl
  | cons o l ih =>
    intro st
    rw [List.foldl_cons, ih]
    show (st.1.setOn _ o).ramp = _
    cases o <;> rfl

/-- **C174, the ramp of the analysis (defect).** The ramp "set to one" for the analysis is null at all times, whatever was asked of it before; so when the ramp of the environment is
active, the current and the wind of the analysis are null at all times, whatever the field that was set. -/
theorem C174_ramp_wrong {P : Type} (a : Core.Analysis) (s : Core.Sys P) (junk : Func.Jet) (p : Core.RampPts) (hp : (a.initialize s).2.ramp = p) :
    (∀ l x, (Func.Obj.cosRamp junk p.x0 p.y0 p.x1 p.y1).ask l .y x = some 0) ∧
    ∀ r : ℝ → ℝ, (∀ x, ∃ l, (Func.Obj.cosRamp junk p.x0 p.y0 p.x1 p.y1).ask l .y x = some (r x)) →
      ∀ (w : Env.Flow) (l : List Env.FlowOp) (fc : FC), (l.foldl (Env.FlowOp.run (some r)) (w.refresh (some r))).flux fc = 0 := by
  have e : p = ⟨0, 0, 1, 0⟩ := hp.symm.trans (capture_ramp _ _)
  subst e
  obtain ⟨R, hR, -, -, -, hy, -⟩ := Func.C06_cos_ramp junk 0 0 1 0 (by norm_num)
  have R0 : ∀ x, R x = 0 := fun x => le_antisymm (by simpa using (hR.between x).2) (by simpa using (hR.between x).1)
  have h0 : ∀ l x, (Func.Obj.cosRamp junk 0 0 1 0).ask l .y x = some 0 := fun l x => by rw [hy, R0]
  refine ⟨h0, fun r hr w l fc => ?_⟩
  rw [Env.C61_history_partial]
  obtain ⟨l', hl⟩ := hr (Env.frozenTime w.time w.time l)
  have : r (Env.frozenTime w.time w.time l) = 0 := by
    have := (h0 l' _).symm.trans hl
    exact (Option.some.inj this).symm
  show r (Env.frozenTime w.time w.time l) • _ = _
  rw [this]
  ext <;> simp

/-! ## Concrete cases -/

/-- A body turned by half a turn about the vertical, with its COG away from its origin, moving and spinning. -/
def demoBody : ABody := ⟨⟨⟨⟨9, 0, 3⟩, ⟨0, 0, 0, 1⟩⟩, ⟨1, 2, 3⟩, ⟨1, 0, 0, 0⟩, ⟨1, 0, 0⟩, ⟨10, 0, 3⟩, ⟨0, 0, 0⟩⟩, ⟨1, 1, 1⟩, ⟨0, 1, 0, 0⟩⟩

/-- The hypotheses of C174 are met by a body in motion and a cable in motion. -/
example : Placed demoBody.body ∧ demoBody.body.cogVelWorld .NWU ≠ 0 ∧
    (⟨[demoBody], [[⟨⟨0, Q.one⟩, ⟨1, 0, 0⟩, 0, 0, 0⟩]]⟩ : Scene).cables ≠ (relax .noRelax ⟨[demoBody], [[⟨⟨0, Q.one⟩, ⟨1, 0, 0⟩, 0, 0, 0⟩]]⟩).cables := by
  refine ⟨⟨by simp [Q.IsUnit, Q.normSq, demoBody], by ext <;> simp [demoBody, Q.rotate, Q.toMat] <;> norm_num⟩, ?_, ?_⟩
  · intro h; have := congrArg V3.x h; simp [demoBody, Body.cogVelWorld, conv] at this
  · refine Ne.symm ((C174_cables_wrong .noRelax _).2 [⟨⟨0, Q.one⟩, ⟨1, 0, 0⟩, 0, 0, 0⟩] (by simp) ⟨⟨0, Q.one⟩, ⟨1, 0, 0⟩, 0, 0, 0⟩ (by simp) ?_)
    intro h; have := congrArg V3.x h; simp at this

end Frydom.Core.Relax
