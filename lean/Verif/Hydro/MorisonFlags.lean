import Verif.Hydro.MorisonSplit

/-!
# Morison elements: turned bodies and inertia (C100), flags of composite models (C101)
-/

open Classical

noncomputable section

namespace Frydom.Hydro.Morison
open Frydom.Geom Frydom.Core Frydom.Hydro

/-! ## C100 -/

/-- A body turned by a quarter turn about the vertical (`s` is the square root of one half). -/
def quarter (s : ℝ) : Body := ⟨⟨0, ⟨s, 0, 0, s⟩⟩, 0, ⟨0, 0, 0, 0⟩, 0, 0, 0⟩

/-- A uniform flow. -/
def stream (rho : ℝ) (u : V3) : Sea := ⟨rho, fun _ => u, fun _ => 0, fun _ => 0⟩

/-- A plate: drag on its first axis only, aligned with the body. -/
def plate (b : Body) (cd D L : ℝ) : Single := newSingleFrame false b Frame.identity D L ⟨0, 0⟩ ⟨cd, 0⟩ 0

/-- **C100, turned bodies (defect).** The vectors are projected by the rotation of the body and then by the rotation of the element *in the world*, which contains the one of the body
already. A plate on a body turned by a quarter turn, in a flow square on the plate: the documented drag is ½ ρ D L Cd u|u|, the force computed is zero. -/
theorem C100_attitude_counterexample (s : ℝ) (hs : s * s = 1 / 2) (rho cd D L u : ℝ) :
    let b := quarter s
    let p := plate b cd D L
    let S := stream rho ⟨0, u, 0⟩
    Placed b ∧ Attached b p.node ∧ axis1 p = ⟨0, 1, 0⟩ ∧ relFlow S p = ⟨0, u, 0⟩ ∧
      quadratic S p p.props.cd.x (V3.dot (relFlow S p) (axis1 p)) = 1 / 2 * rho * D * L * cd * u * |u| ∧
      forceOf S (fun _ => 0) b p = 0 := by
  intro b p S
  have hu : (⟨s, 0, 0, s⟩ : Q).IsUnit := by simp [Q.IsUnit, Q.normSq]; linarith
  have hb : Placed b := ⟨hu, by show (0 : V3) = 0 + Q.rotate _ 0; rw [rotate_zero]; ext <;> simp⟩
  have ha : Attached b p.node := setFrameInBody_attached _ _ _ Q.isUnit_one
  have e : p.node.abs.rot = ⟨s, 0, 0, s⟩ := by
    show (⟨s, 0, 0, s⟩ : Q).mul Q.one = _
    exact Q.mul_one _
  have e1 : axis1 p = ⟨0, 1, 0⟩ := by
    unfold axis1 Node.frameInWorld
    rw [e]
    ext <;> simp [Q.rotate, Q.toMat, M3.mulVec] <;> linarith
  have ew : relFlow S p = ⟨0, u, 0⟩ := by
    have hv : p.node.velocityInWorld .NWU = 0 := by
      show b.posDt + (2:ℝ) • qvec ((b.rotDt.mul (qpure _)).mul b.cog.rot.conj) = 0
      ext <;> simp [b, quarter, qvec, Q.mul]
    unfold relFlow
    rw [hv]
    show (⟨0, u, 0⟩ : V3) + (if false then _ else 0) - 0 = _
    ext <;> simp
  refine ⟨hb, ha, e1, ew, ?_, ?_⟩
  · rw [e1, ew]
    show 1 / 2 * rho * D * L * cd * V3.dot _ _ * |V3.dot _ _| = _
    rw [show V3.dot (⟨0, u, 0⟩ : V3) ⟨0, 1, 0⟩ = u by simp [V3.dot]]
  · have ev : p.flowVelocity S b = ⟨0, -u, 0⟩ := by
      rw [flow_eq, ew, e]
      show (⟨s, 0, 0, s⟩ : Q).conj.rotate ((⟨s, 0, 0, s⟩ : Q).conj.rotate _) = _
      ext
      · simp only [Q.rotate, Q.toMat, M3.mulVec, Q.conj]; linear_combination (8 * u * (s * s)) * hs
      · simp only [Q.rotate, Q.toMat, M3.mulVec, Q.conj]; linear_combination (-4 * u) * hs
      · simp only [Q.rotate, Q.toMat, M3.mulVec, Q.conj]; ring
    have el : p.localForce S (fun _ => 0) b = 0 := by
      unfold Single.localForce
      rw [ev]
      have hx : p.extended = false := rfl
      have hp : p.props = ⟨⟨cd, 0⟩, ⟨0, 0⟩, 0, D, L, Real.pi / 4 * D * D * L⟩ := rfl
      simp only [hx, hp, if_false, Bool.false_eq_true]
      ext <;> simp
    rw [force_eq, el, rotate_zero, rotate_zero]

/-- **C100, inertia (defect).** With the inertial model on a body with the axes of the world, the force lacks, along each of the two axes of the section, exactly ρ V times the acceleration of the
element compared with the documentation: the body feels its displaced mass a second time. -/
theorem C100_inertial (S : Sea) (acc : Node → V3) (b : Body) (hb : Placed b) (s : Single) (ha : Attached b s.node) (hl : b.getQuaternion = Q.one) (hx : s.extended = true) :
    let F := forceOf S acc b s
    let w := relFlow S s
    let u := S.waveAcc (centre s)
    let x := acc s.node
    V3.dot F (axis1 s) = quadratic S s s.props.cd.x (V3.dot w (axis1 s)) + inertial S s s.props.ca.x (V3.dot u (axis1 s)) (V3.dot x (axis1 s)) -
      S.rho * s.props.volume * V3.dot x (axis1 s) ∧
    V3.dot F (axis2 s) = quadratic S s s.props.cd.y (V3.dot w (axis2 s)) + inertial S s s.props.ca.y (V3.dot u (axis2 s)) (V3.dot x (axis2 s)) -
      S.rho * s.props.volume * V3.dot x (axis2 s) := by
  have hl' : b.cog.rot = Q.one := hl
  have h := C98_law_turned S acc b hb s ha
  simp only [hl', Q.rotate_one] at h
  obtain ⟨h1, h2, -⟩ := h
  intro F w u x
  refine ⟨?_, ?_⟩
  · rw [h1, hx, if_pos rfl]
    unfold inertial
    simp only [V3.dot, V3.sub_x, V3.sub_y, V3.sub_z, w, u, x]
    ring
  · rw [h2, hx, if_pos rfl]
    unfold inertial
    simp only [V3.dot, V3.sub_x, V3.sub_y, V3.sub_z, w, u, x]
    ring

/-! ## C101 -/

/-- **C101, current and composite models (defect).** Choosing on a composite model whether the current counts has no effect on its load, before or after any update. -/
theorem C101_current_ignored (x : Bool) (S : Sea) (acc : Node → V3) (b : Body) (f t : V3) (c ext : Bool) (ps : List Element) (F : Force) :
    (compute S acc b ((Element.composite f t c ext ps).setIncludeCurrent x) F).2 = (compute S acc b (.composite f t c ext ps) F).2 := by
  unfold compute Element.setIncludeCurrent
  simp only [Element.update]
  rfl

/-- **C101, current and memory (defect).** What the elements added to a composite do with the current is whatever was in the memory: with a current `u`, two models built by the same calls on the
same body, differing in that memory, give different drags. -/
theorem C101_current_memory (cd D L rho u : ℝ) (h : rho * D * L * cd ≠ 0) (hu : u ≠ 0) :
    let b := Body.new
    let S : Sea := ⟨rho, fun _ => 0, fun _ => 0, fun _ => ⟨u, 0, 0⟩⟩
    let model := fun (mem x : Bool) => (((Element.composite 0 0 false false []).add
      [.single (newSingleFrame mem b Frame.identity D L ⟨0, 0⟩ ⟨cd, 0⟩ 0)]).setIncludeCurrent x).initialize'
    ∀ x F, (compute S (fun _ => 0) b (model false x) F).2.getForceInWorld .NWU = 0 ∧
      (compute S (fun _ => 0) b (model true x) F).2.getForceInWorld .NWU ≠ 0 := by
  intro b S model x F
  have hb : Placed b := ⟨Q.isUnit_one, by show (0 : V3) = 0 + Q.rotate _ 0; rw [rotate_zero]; ext <;> simp⟩
  have key : ∀ mem, (compute S (fun _ => 0) b (model mem x) F).2.getForceInWorld .NWU =
      (if mem then ⟨1 / 2 * rho * D * L * cd * u * |u|, 0, 0⟩ else 0) := by
    intro mem
    have hl : leaves (model mem x) = [newSingleFrame mem b Frame.identity D L ⟨0, 0⟩ ⟨cd, 0⟩ 0] := by
      show leavesAll [((Element.single _).initialize').setExtended false] = _
      simp only [Element.initialize', Element.setExtended, leavesAll, leaves, List.append_nil]
      rfl
    have ha : ∀ s ∈ leaves (model mem x), Attached b s.node := by
      rw [hl]; intro s hs
      rw [List.mem_singleton.mp hs]
      exact setFrameInBody_attached _ _ _ Q.isUnit_one
    have h1 := (C98_resultant S (fun _ => 0) b hb (model mem x) F ha).1
    rw [hl] at h1
    rw [h1]
    simp only [List.map_cons, List.map_nil, List.sum_cons, List.sum_nil, add_zero]
    generalize hp : newSingleFrame mem b Frame.identity D L ⟨0, 0⟩ ⟨cd, 0⟩ 0 = p
    have er : p.node.abs.rot = Q.one := by rw [← hp]; exact Q.mul_one _
    have ew : relFlow S p = if mem then ⟨u, 0, 0⟩ else 0 := by
      have hv : p.node.velocityInWorld .NWU = 0 := by
        rw [← hp]
        show b.posDt + (2:ℝ) • qvec ((b.rotDt.mul (qpure _)).mul b.cog.rot.conj) = 0
        ext <;> simp [b, Body.new, qvec, Q.mul]
      have hc : p.includeCurrent = mem := by rw [← hp]; rfl
      unfold relFlow
      rw [hv, hc]
      show (0 : V3) + (if mem then (⟨u, 0, 0⟩ : V3) else 0) - 0 = _
      rcases Bool.eq_false_or_eq_true mem with h | h <;> rw [h] <;> ext <;> simp
    have ev : p.flowVelocity S b = if mem then ⟨u, 0, 0⟩ else 0 := by
      rw [flow_eq, ew, er]
      show Q.one.conj.rotate (Q.one.conj.rotate _) = _
      rw [show Q.one.conj = Q.one by ext <;> simp, Q.rotate_one, Q.rotate_one]
    rw [force_eq, er]
    show Q.one.rotate (Q.one.rotate _) = _
    rw [Q.rotate_one, Q.rotate_one]
    unfold Single.localForce
    rw [ev]
    have hx : p.extended = false := by rw [← hp]; rfl
    have hpr : p.props = ⟨⟨cd, 0⟩, ⟨0, 0⟩, 0, D, L, Real.pi / 4 * D * D * L⟩ := by rw [← hp]; rfl
    have hr : S.rho = rho := rfl
    simp only [hx, hpr, hr, if_false, Bool.false_eq_true]
    rcases Bool.eq_false_or_eq_true mem with h | h <;> rw [h]
    · simp only [if_true]
      ext
      · show _ = 1 / 2 * rho * D * L * cd * u * |u|
        ring
      · simp
      · simp
    · simp only [if_false, Bool.false_eq_true]
      ext <;> simp
  refine ⟨by rw [key]; simp, ?_⟩
  rw [key]
  simp only [if_true]
  intro h0
  have := congrArg V3.x h0
  have h1 : 1 / 2 * rho * D * L * cd * u * |u| = 0 := this
  have h2 : 1 / 2 * (rho * D * L * cd) * (u * |u|) = 0 := by linarith
  rcases mul_eq_zero.mp h2 with h3 | h3
  · rcases mul_eq_zero.mp h3 with h4 | h4
    · norm_num at h4
    · exact h h4
  · rcases mul_eq_zero.mp h3 with h4 | h4
    · exact hu h4
    · exact hu (abs_eq_zero.mp h4)

theorem leavesAll_singles (l : List Single) : leavesAll (l.map Element.single) = l := by
  induction l with
  | nil => rfl
  | cons s l ih => rw [List.map_cons, leavesAll, leaves, ih]; rfl

theorem initializeAll_singles (x : Bool) (l : List Single) :
    Element.initializeAll x (l.map Element.single) = (l.map fun s => { s.setVolume with extended := x }).map Element.single := by
  induction l with
  | nil => rfl
  | cons s l ih => rw [List.map_cons, Element.initializeAll, ih, Element.initialize']; rfl

/-- **C101, inertial option.** Initialising a composite model gives its option to each of its own elements and recomputes their volumes, and changes nothing else of them. -/
theorem C101_extended (f t : V3) (c x : Bool) (l : List Single) :
    leaves (Element.composite f t c x (l.map .single)).initialize' =
      l.map fun s => { s with extended := x, props := { s.props with volume := Real.pi * (s.props.diameter / 2) ^ 2 * s.props.length } } := by
  rw [Element.initialize', leaves, initializeAll_singles, leavesAll_singles]
  refine List.map_congr_left fun s _ => ?_
  unfold Single.setVolume
  simp only []
  rw [show Real.pi / 4 * s.props.diameter * s.props.diameter * s.props.length = Real.pi * (s.props.diameter / 2) ^ 2 * s.props.length by ring]

theorem leaves_setExtended_composite (x : Bool) (f t : V3) (c y : Bool) (ps : List Element) :
    leaves ((Element.composite f t c y ps).setExtended x) = leaves (.composite f t c y ps) := by
  rw [Element.setExtended, leaves, leaves]

/-- **C101, nested models (defect).** The option of a model does not reach the elements of the composites inside it: they keep the option of their own composite at the first initialisation. -/
theorem C101_nested_ignored (f t f' t' : V3) (c c' x y : Bool) (l : List Single) :
    leaves (Element.composite f t c x [.composite f' t' c' y (l.map .single)]).initialize' =
      leaves (Element.composite f' t' c' y (l.map .single)).initialize' := by
  rw [Element.initialize', leaves, Element.initializeAll, Element.initializeAll, leavesAll, leavesAll, List.append_nil, Element.initialize',
    leaves_setExtended_composite]

end Frydom.Hydro.Morison
