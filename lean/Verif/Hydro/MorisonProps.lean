import Verif.Hydro.Morison

/-!
# Morison elements: properties C98-C101
-/

open Classical

noncomputable section

namespace Frydom.Hydro.Morison
open Frydom.Geom Frydom.Core Frydom.Hydro

/-! ## Specification -/

mutual
/-- The single elements of a model, at every depth. -/
def leaves : Element → List Single
  | .single s => [s]
  | .composite _ _ _ _ ps => leavesAll ps
/-- The single elements of a list of models. -/
def leavesAll : List Element → List Single
  | [] => []
  | e :: es => leaves e ++ leavesAll es
end

/-- The centre of an element in the world. -/
def centre (s : Single) : V3 := s.node.positionInWorld .NWU

/-- The three axes of an element in the world (the third one is the axis of the cylinder). -/
def axis1 (s : Single) : V3 := s.node.frameInWorld.rot.rotate ⟨1, 0, 0⟩
@[inherit_doc axis1] def axis2 (s : Single) : V3 := s.node.frameInWorld.rot.rotate ⟨0, 1, 0⟩
@[inherit_doc axis1] def axis3 (s : Single) : V3 := s.node.frameInWorld.rot.rotate ⟨0, 0, 1⟩

/-- The velocity of the water at the centre of the element relative to the element (world axes). -/
def relFlow (S : Sea) (s : Single) : V3 :=
  S.waveVel (centre s) + (if s.includeCurrent then S.current (centre s) else 0) - s.node.velocityInWorld .NWU

/-- The quadratic law of the documentation for one axis: ½ ρ D L C w|w|. -/
def quadratic (S : Sea) (s : Single) (c w : ℝ) : ℝ := 1 / 2 * S.rho * s.props.diameter * s.props.length * c * w * |w|

/-- The inertial term of the documentation for one axis: ρ V (u' + Ca (u' - X'')). -/
def inertial (S : Sea) (s : Single) (ca u x : ℝ) : ℝ := S.rho * s.props.volume * (u + ca * (u - x))

/-- The force that a single element reports after its update. -/
def forceOf (S : Sea) (acc : Node → V3) (b : Body) (s : Single) : V3 := (Element.update S acc b (.single s)).getForce .NWU

/-- Coefficients and dimensions that are not negative. -/
def Physical (s : Single) : Prop :=
  0 ≤ s.props.cd.x ∧ 0 ≤ s.props.cd.y ∧ 0 ≤ s.props.cf ∧ 0 ≤ s.props.diameter ∧ 0 ≤ s.props.length

/-! ## Lemmas -/

theorem flow_eq (S : Sea) (b : Body) (s : Single) :
    s.flowVelocity S b = s.node.abs.rot.conj.rotate (b.cog.rot.conj.rotate (relFlow S s)) := by
  have e : (if s.includeCurrent then S.waveVel (s.node.positionInWorld .NWU) - s.node.velocityInWorld .NWU + S.current (s.node.positionInWorld .NWU)
      else S.waveVel (s.node.positionInWorld .NWU) - s.node.velocityInWorld .NWU) = relFlow S s := by
    unfold relFlow centre
    rcases Bool.eq_false_or_eq_true s.includeCurrent with h | h <;> rw [h] <;> ext <;> simp <;> ring
  show rotate _ .NWU (rotate _ .NWU (if s.includeCurrent then _ else _)) = _
  simp only [rotate, conv, quatInv]
  rw [e]
  rfl

theorem accel_eq (S : Sea) (acc : Node → V3) (b : Body) (s : Single) :
    s.flowAcceleration S acc b = s.node.abs.rot.conj.rotate (b.cog.rot.conj.rotate (S.waveAcc (centre s) - acc s.node)) := rfl

theorem force_eq (S : Sea) (acc : Node → V3) (b : Body) (s : Single) :
    forceOf S acc b s = b.cog.rot.rotate (s.node.abs.rot.rotate (s.localForce S acc b)) := rfl

theorem abs_unit {b : Body} (hb : Placed b) {s : Single} (ha : Attached b s.node) : s.node.abs.rot.IsUnit := by
  rw [ha.abs]; exact Q.IsUnit.mul hb.unit ha.unit

theorem centre_sub {b : Body} {s : Single} (ha : Attached b s.node) : centre s - b.cog.pos = b.cog.rot.rotate s.node.rel.pos := by
  show s.node.abs.pos - b.cog.pos = _
  rw [ha.abs]
  show b.cog.pos + b.cog.rot.rotate s.node.rel.pos - b.cog.pos = _
  ext <;> simp

theorem torque_world {b : Body} (hb : Placed b) (S : Sea) (acc : Node → V3) {s : Single} (ha : Attached b s.node) :
    b.cog.rot.rotate (s.update S acc b).torque = V3.cross (centre s - b.cog.pos) (forceOf S acc b s) := by
  have e : (s.update S acc b).torque = V3.cross s.node.rel.pos (s.node.abs.rot.rotate (s.localForce S acc b)) := by
    show V3.cross (conv .NWU (s.node.rel.pos + b.cogInRef) - conv .NWU b.cogInRef) _ = _
    congr 1
    simp only [conv]
    ext <;> simp
  rw [e, rotate_cross hb.unit, centre_sub ha, force_eq]

theorem foldl_force (l : List Element) : ∀ v : V3, l.foldl (fun f e => f + e.getForce .NWU) v = v + (l.map fun e => e.getForce .NWU).sum := by
  induction l with
  | nil => intro v; simp
  | cons e l ih => intro v; rw [List.foldl_cons, ih]; simp only [List.map_cons, List.sum_cons]; rw [add_assoc]

theorem foldl_torque (l : List Element) : ∀ v : V3, l.foldl (fun f e => f + e.getTorque) v = v + (l.map fun e => e.getTorque).sum := by
  induction l with
  | nil => intro v; simp
  | cons e l ih => intro v; rw [List.foldl_cons, ih]; simp only [List.map_cons, List.sum_cons]; rw [add_assoc]

mutual
theorem update_sums (S : Sea) (acc : Node → V3) (b : Body) : (e : Element) →
    (e.update S acc b).getForce .NWU = ((leaves e).map (forceOf S acc b)).sum ∧
    (e.update S acc b).getTorque = ((leaves e).map fun s => (s.update S acc b).torque).sum
  | .single s => by
    rw [Element.update, leaves]
    simp only [List.map_cons, List.map_nil, List.sum_cons, List.sum_nil, add_zero]
    exact ⟨by rw [forceOf, Element.update], rfl⟩
  | .composite f t c x ps => by
    obtain ⟨h1, h2⟩ := updateAll_sums S acc b ps
    rw [Element.update, leaves]
    exact ⟨by rw [← h1]; show List.foldl _ _ _ = _; rw [foldl_force, zero_add], by rw [← h2]; show List.foldl _ _ _ = _; rw [foldl_torque, zero_add]⟩
theorem updateAll_sums (S : Sea) (acc : Node → V3) (b : Body) : (es : List Element) →
    ((Element.updateAll S acc b es).map fun e => e.getForce .NWU).sum = ((leavesAll es).map (forceOf S acc b)).sum ∧
    ((Element.updateAll S acc b es).map fun e => e.getTorque).sum = ((leavesAll es).map fun s => (s.update S acc b).torque).sum
  | [] => by rw [Element.updateAll, leavesAll]; simp
  | e :: es => by
    obtain ⟨h1, h2⟩ := update_sums S acc b e
    obtain ⟨h3, h4⟩ := updateAll_sums S acc b es
    rw [Element.updateAll, leavesAll]
    simp only [List.map_cons, List.sum_cons, List.map_append, List.sum_append]
    exact ⟨by rw [h1, h3], by rw [h2, h4]⟩
end

theorem rotate_sum (q : Q) (l : List V3) : q.rotate l.sum = (l.map q.rotate).sum := by
  induction l with
  | nil => simp [rotate_zero]
  | cons a l ih => simp only [List.sum_cons, List.map_cons]; rw [Q.rotate_add, ih]

theorem cross_add_left (a b c : V3) : V3.cross (a + b) c = V3.cross a c + V3.cross b c := by ext <;> simp <;> ring
theorem cross_add_right (a b c : V3) : V3.cross a (b + c) = V3.cross a b + V3.cross a c := by ext <;> simp <;> ring

/-- **C98, resultant.** The load that a model of any depth puts on its body is the sum of the forces reported by its single elements, each acting at the centre of its element:
same force, same moment about every point of the world. -/
theorem C98_resultant (S : Sea) (acc : Node → V3) (b : Body) (hb : Placed b) (e : Element) (f : Force) (ha : ∀ s ∈ leaves e, Attached b s.node) :
    (compute S acc b e f).2.getForceInWorld .NWU = ((leaves e).map (forceOf S acc b)).sum ∧
    ∀ a : V3, (compute S acc b e f).2.getTorqueInWorldAtPointInWorld b a .NWU =
      ((leaves e).map fun s => V3.cross (centre s - a) (forceOf S acc b s)).sum := by
  obtain ⟨h1, h2⟩ := update_sums S acc b e
  refine ⟨h1, fun a => ?_⟩
  show b.cog.rot.rotate (e.update S acc b).getTorque + V3.cross (b.cog.pos - a) ((e.update S acc b).getForce .NWU) = _
  rw [h1, h2, rotate_sum, List.map_map]
  generalize hl : leaves e = l at *
  clear hl h1 h2
  induction l with
  | nil => simp; ext <;> simp
  | cons s l ih =>
    have ih' := ih fun t ht => ha t (List.mem_cons_of_mem _ ht)
    have hs := torque_world hb S acc (ha s List.mem_cons_self)
    simp only [List.map_cons, List.sum_cons, Function.comp]
    rw [← ih', cross_add_right, hs]
    simp only [Function.comp_def]
    generalize (List.map (fun x => b.cog.rot.rotate (x.update S acc b).torque) l).sum = T
    generalize (List.map (forceOf S acc b) l).sum = F
    generalize forceOf S acc b s = G
    ext <;> simp <;> ring

theorem dot_axis {p q : Q} (hp : p.IsUnit) (hq : q.IsUnit) (l v e : V3) :
    V3.dot (p.rotate (q.rotate l)) (p.rotate (q.rotate e)) = V3.dot l e ∧
    V3.dot v (p.rotate (q.rotate e)) = V3.dot (q.conj.rotate (p.conj.rotate v)) e := by
  refine ⟨?_, ?_⟩
  · rw [dot_rotate hp, Q.rotate_conj hp, dot_rotate hq, Q.rotate_conj hq]
  · rw [V3.dot_comm, dot_rotate hp, dot_rotate hq, V3.dot_comm]

theorem dot_x (v : V3) : V3.dot v ⟨1, 0, 0⟩ = v.x := by simp [V3.dot]
theorem dot_y (v : V3) : V3.dot v ⟨0, 1, 0⟩ = v.y := by simp [V3.dot]
theorem dot_z (v : V3) : V3.dot v ⟨0, 0, 1⟩ = v.z := by simp [V3.dot]

/-- **C98, conventions.** The force of every element, single or composite, asked in NED is its force of NWU written in NED, and of a composite element asked after an update, in either convention,
it is the sum of the forces of its parts in that convention. -/
theorem C98_conventions (S : Sea) (acc : Node → V3) (b : Body) (e : Element) (fc : FC) :
    e.getForce fc = conv fc (e.getForce .NWU) ∧
    (e.update S acc b).getForce fc = ((leaves e).map fun s => (Element.update S acc b (.single s)).getForce fc).sum := by
  have hc : ∀ e : Element, e.getForce fc = conv fc (e.getForce .NWU) := fun e => by cases e <;> rfl
  have hs : ∀ l : List V3, conv fc l.sum = (l.map (conv fc)).sum := by
    intro l
    induction l with
    | nil => exact conv_zero fc
    | cons a l ih => rw [List.sum_cons, List.map_cons, List.sum_cons, ← ih, conv_add]
  refine ⟨hc e, ?_⟩
  rw [hc, (update_sums S acc b e).1, hs, List.map_map]
  congr 1

/-- **C98, law.** For every attitude of the body: along the axes of the element *turned by the rotation of the body*, each component of the force is the drag law of the
documentation for the component of the relative flow along that axis, and, with the inertial model, ρ V (1 + Ca) times the component of the relative acceleration. -/
theorem C98_law_turned (S : Sea) (acc : Node → V3) (b : Body) (hb : Placed b) (s : Single) (ha : Attached b s.node) :
    let T := b.cog.rot.rotate
    let F := forceOf S acc b s
    let w := relFlow S s
    let a := S.waveAcc (centre s) - acc s.node
    V3.dot F (T (axis1 s)) = quadratic S s s.props.cd.x (V3.dot w (T (axis1 s))) +
      (if s.extended then S.rho * s.props.volume * (1 + s.props.ca.x) * V3.dot a (T (axis1 s)) else 0) ∧
    V3.dot F (T (axis2 s)) = quadratic S s s.props.cd.y (V3.dot w (T (axis2 s))) +
      (if s.extended then S.rho * s.props.volume * (1 + s.props.ca.y) * V3.dot a (T (axis2 s)) else 0) ∧
    V3.dot F (T (axis3 s)) = quadratic S s (Real.pi * s.props.cf) (V3.dot w (T (axis3 s))) := by
  have hu := abs_unit hb ha
  intro T F w a
  have hF : ∀ e, V3.dot F (T (s.node.abs.rot.rotate e)) = V3.dot (s.localForce S acc b) e := fun e =>
    (dot_axis hb.unit hu _ 0 e).1
  have hw : ∀ e, V3.dot w (T (s.node.abs.rot.rotate e)) = V3.dot (s.flowVelocity S b) e := fun e => by
    rw [flow_eq]; exact (dot_axis hb.unit hu 0 _ e).2
  have hA : ∀ e, V3.dot a (T (s.node.abs.rot.rotate e)) = V3.dot (s.flowAcceleration S acc b) e := fun e => by
    rw [accel_eq]; exact (dot_axis hb.unit hu 0 _ e).2
  refine ⟨?_, ?_, ?_⟩
  · show V3.dot F (T (s.node.abs.rot.rotate _)) = quadratic S s _ (V3.dot w (T (s.node.abs.rot.rotate _))) + if _ then _ * V3.dot a (T (s.node.abs.rot.rotate _)) else _
    rw [hF, hw, hA, dot_x, dot_x, dot_x]
    unfold Single.localForce quadratic
    rcases Bool.eq_false_or_eq_true s.extended with h | h <;> rw [h] <;> simp only [if_true, if_false, Bool.false_eq_true] <;> ring
  · show V3.dot F (T (s.node.abs.rot.rotate _)) = quadratic S s _ (V3.dot w (T (s.node.abs.rot.rotate _))) + if _ then _ * V3.dot a (T (s.node.abs.rot.rotate _)) else _
    rw [hF, hw, hA, dot_y, dot_y, dot_y]
    unfold Single.localForce quadratic
    rcases Bool.eq_false_or_eq_true s.extended with h | h <;> rw [h] <;> simp only [if_true, if_false, Bool.false_eq_true] <;> ring
  · show V3.dot F (T (s.node.abs.rot.rotate _)) = quadratic S s _ (V3.dot w (T (s.node.abs.rot.rotate _)))
    rw [hF, hw, dot_z, dot_z]
    unfold Single.localForce quadratic
    simp only []; ring

/-- **C98, law (level body), partial**: when the axes of the body are parallel to those of the world the force has, along each axis of the element, the component that the documentation
gives, except that the inertial term has `ρ V (1 + Ca) (u' - X'')` for `ρ V (u' + Ca (u' - X''))`: they agree when the element is not accelerating. Missing: other attitudes
(`C100_attitude_counterexample`) and accelerating elements (`C100_inertial`). -/
theorem C98_law_partial (S : Sea) (acc : Node → V3) (b : Body) (hb : Placed b) (s : Single) (ha : Attached b s.node) (hl : b.getQuaternion = Q.one)
    (hx : s.extended = true → acc s.node = 0) :
    let F := forceOf S acc b s
    let w := relFlow S s
    let u := S.waveAcc (centre s)
    let x := acc s.node
    V3.dot F (axis1 s) = quadratic S s s.props.cd.x (V3.dot w (axis1 s)) +
      (if s.extended then inertial S s s.props.ca.x (V3.dot u (axis1 s)) (V3.dot x (axis1 s)) else 0) ∧
    V3.dot F (axis2 s) = quadratic S s s.props.cd.y (V3.dot w (axis2 s)) +
      (if s.extended then inertial S s s.props.ca.y (V3.dot u (axis2 s)) (V3.dot x (axis2 s)) else 0) ∧
    V3.dot F (axis3 s) = quadratic S s (Real.pi * s.props.cf) (V3.dot w (axis3 s)) := by
  have hl' : b.cog.rot = Q.one := hl
  have h := C98_law_turned S acc b hb s ha
  simp only [hl', Q.rotate_one] at h
  intro F w u x
  obtain ⟨h1, h2, h3⟩ := h
  refine ⟨?_, ?_, h3⟩
  · rw [h1]
    rcases Bool.eq_false_or_eq_true s.extended with h | h
    · simp only [h, if_true]
      unfold inertial
      rw [show x = 0 from hx h, show acc s.node = 0 from hx h]
      simp only [V3.dot, V3.sub_x, V3.sub_y, V3.sub_z, V3.zero_x, V3.zero_y, V3.zero_z]
      ring
    · simp only [h, if_false, Bool.false_eq_true]; rfl
  · rw [h2]
    rcases Bool.eq_false_or_eq_true s.extended with h | h
    · simp only [h, if_true]
      unfold inertial
      rw [show x = 0 from hx h, show acc s.node = 0 from hx h]
      simp only [V3.dot, V3.sub_x, V3.sub_y, V3.sub_z, V3.zero_x, V3.zero_y, V3.zero_z]
      ring
    · simp only [h, if_false, Bool.false_eq_true]; rfl

theorem mul_abs_nonneg (k w : ℝ) (hk : 0 ≤ k) : 0 ≤ k * w * |w| * w := by
  have : k * w * |w| * w = k * (w * w) * |w| := by ring
  rw [this]
  exact mul_nonneg (mul_nonneg hk (mul_self_nonneg w)) (abs_nonneg w)

/-- **C98, dissipation.** Whatever the attitude, the drag never does work against the relative flow: the power given to the element by the relative flow is not negative. -/
theorem C98_dissipates (S : Sea) (hr : 0 ≤ S.rho) (acc : Node → V3) (b : Body) (hb : Placed b) (s : Single) (ha : Attached b s.node)
    (hp : Physical s) (hx : s.extended = false) : 0 ≤ V3.dot (forceOf S acc b s) (relFlow S s) := by
  obtain ⟨h1, h2, h3, h4, h5⟩ := hp
  have hu := abs_unit hb ha
  have e : V3.dot (forceOf S acc b s) (relFlow S s) = V3.dot (s.localForce S acc b) (s.flowVelocity S b) := by
    rw [force_eq, dot_rotate hb.unit, dot_rotate hu, ← flow_eq]
  rw [e]
  unfold Single.localForce V3.dot
  simp only [hx, if_false, Bool.false_eq_true]
  generalize s.flowVelocity S b = v
  have hD : 0 ≤ S.rho * s.props.diameter * s.props.length := mul_nonneg (mul_nonneg hr h4) h5
  have k1 := mul_abs_nonneg (0.5 * s.props.cd.x * S.rho * s.props.diameter * s.props.length) v.x (by
    have := mul_nonneg h1 hD; nlinarith)
  have k2 := mul_abs_nonneg (0.5 * s.props.cd.y * S.rho * s.props.diameter * s.props.length) v.y (by
    have := mul_nonneg h2 hD; nlinarith)
  have k3 := mul_abs_nonneg (0.5 * s.props.cf * S.rho * Real.pi * s.props.diameter * s.props.length) v.z (by
    have := mul_nonneg (mul_nonneg h3 Real.pi_pos.le) hD; nlinarith)
  exact add_nonneg (add_nonneg k1 k2) k3

/-- **C98, still water.** In still water (no waves, no current) the load of a drag model of any depth takes energy from the body: its power (force at the COG times velocity of the
COG plus torque times angular velocity, as the solver has it) is never positive. -/
theorem C98_power (S : Sea) (hr : 0 ≤ S.rho) (h0 : ∀ p, S.waveVel p = 0 ∧ S.current p = 0) (acc : Node → V3) (b : Body) (hb : Placed b) (ω : V3) (hs : Spinning b ω)
    (e : Element) (f : Force) (ha : ∀ s ∈ leaves e, Attached b s.node) (hp : ∀ s ∈ leaves e, Physical s) (hx : ∀ s ∈ leaves e, s.extended = false) :
    V3.dot ((compute S acc b e f).2.getForceInWorld .NWU) (b.cogVelWorld .NWU) +
      V3.dot ((compute S acc b e f).2.getTorqueInWorldAtPointInWorld b (b.cogPositionInWorld .NWU) .NWU) (b.angVelWorld .NWU) ≤ 0 := by
  obtain ⟨h1, h2⟩ := C98_resultant S acc b hb e f ha
  rw [h1, h2]
  have hw : b.angVelWorld .NWU = ω := hs.wvel hb
  rw [hw]
  generalize leaves e = l at *
  clear h1 h2
  induction l with
  | nil => simp [V3.dot]
  | cons s l ih =>
    have ih' := ih (fun t ht => ha t (List.mem_cons_of_mem _ ht)) (fun t ht => hp t (List.mem_cons_of_mem _ ht)) (fun t ht => hx t (List.mem_cons_of_mem _ ht))
    have hd := C98_dissipates S hr acc b hb s (ha s List.mem_cons_self) (hp s List.mem_cons_self) (hx s List.mem_cons_self)
    have hv : relFlow S s = -(b.cogVelWorld .NWU + V3.cross ω (centre s - b.cogPositionInWorld .NWU)) := by
      have e1 : s.node.velocityInWorld .NWU = b.posDt + V3.cross ω (b.cog.rot.rotate s.node.rel.pos) := by
        show s.node.absVel = _
        rw [(ha s List.mem_cons_self).vel]; exact pointSpeed_of hb.unit hs.rot _
      unfold relFlow
      rw [(h0 _).1, (h0 _).2, e1, ← centre_sub (ha s List.mem_cons_self)]
      show _ = -(b.posDt + V3.cross ω (centre s - b.cog.pos))
      rcases Bool.eq_false_or_eq_true s.includeCurrent with h | h <;> rw [h] <;> ext <;> simp
    rw [hv] at hd
    simp only [List.map_cons, List.sum_cons]
    generalize (List.map (forceOf S acc b) l).sum = F at *
    generalize (List.map (fun s => V3.cross (centre s - b.cogPositionInWorld .NWU) (forceOf S acc b s)) l).sum = T at *
    generalize forceOf S acc b s = G at *
    generalize centre s - b.cogPositionInWorld .NWU = r at *
    generalize b.cogVelWorld .NWU = v at *
    have e2 : V3.dot (G + F) v + V3.dot (V3.cross r G + T) ω = (V3.dot F v + V3.dot T ω) - V3.dot G (-(v + V3.cross ω r)) := by
      simp only [V3.dot, V3.add_x, V3.add_y, V3.add_z, V3.neg_x, V3.neg_y, V3.neg_z, V3.cross_x, V3.cross_y, V3.cross_z]; ring
    rw [e2]; linarith

end Frydom.Hydro.Morison
