import Verif.Core.Node
import Verif.Geom.Props3

/-!
# Nodes: axes, rotations about axes, angular velocities (C177)

`src/frydom/core/common/FrNode.cpp`.
-/

open Classical

noncomputable section

namespace Frydom.Core
open Frydom.Geom

namespace Node

/-- `Set(position, e1, e2, e3, fc)` (FrNode.cpp:48-60). -/
def set (n : Node) (b : Body) (p e1 e2 e3 : V3) (fc : FC) : Node := n.setFrameInBody b (Frame.new p (quatOfMat (M3.ofCols e1 e2 e3) fc) fc)

/-- `RotateAround{X,Y,Z}InBody` (FrNode.cpp:194-207), the axis as an argument. -/
def rotateAroundInBody (n : Node) (b : Body) (axis : V3) (a : ℝ) (fc : FC) : Node := n.rotateInBody b (quatOfAxisAngle axis a fc)
/-- `RotateAround{X,Y,Z}InWorld` (FrNode.cpp:209-222), the axis as an argument. -/
def rotateAroundInWorld (n : Node) (b : Body) (axis : V3) (a : ℝ) (fc : FC) : Node := n.rotateInWorld b (quatOfAxisAngle axis a fc)

/-- `TranslateInBody(direction, distance, fc)` (FrNode.cpp:138-142). -/
def translateAlongInBody (n : Node) (b : Body) (d : V3) (dist : ℝ) (fc : FC) : Node := n.translateInBody b (dist • d.normalized) fc
/-- `TranslateInWorld(direction, distance, fc)` (FrNode.cpp:154-158). -/
def translateAlongInWorld (n : Node) (b : Body) (d : V3) (dist : ℝ) (fc : FC) : Node := n.translateInWorld b (dist • d.normalized) fc

/-- The time derivative of the rotation of the marker relative to its body: `ChMarker` is a moving frame relative to the body, with its own derivatives (external); a marker without imposed motion
has null ones. -/
def relRotDt (_ : Node) : Q := ⟨0, 0, 0, 0⟩
/-- `GetAngularVelocityInBody` (FrNode.cpp:254-260): `ChFrameMoving::GetWvel_par` of the marker (external: twice the vector part of `rot_dt * conj rot`). -/
def angVelInBody (n : Node) (fc : FC) : V3 :=
  let w := n.relRotDt.mul n.rel.rot.conj
  conv fc ⟨2 * w.e1, 2 * w.e2, 2 * w.e3⟩
/-- `GetAngularVelocityInNode` (FrNode.cpp:262-268): `ChFrameMoving::GetWvel_loc` of the marker (external: twice the vector part of `conj rot * rot_dt`). -/
def angVelInNode (n : Node) (fc : FC) : V3 :=
  let w := n.rel.rot.conj.mul n.relRotDt
  conv fc ⟨2 * w.e1, 2 * w.e2, 2 * w.e3⟩

end Node

/-- **C177, a node given by its axes.** From a right-handed orthonormal triple in either convention, the node is where it was asked for in the body and its axes in the body, read in that convention, are those given; it stays
attached. -/
theorem C177_set_axes (b : Body) (h : Placed b) (n : Node) (p x y z : V3) (fc : FC) (hr : RightHanded x y z) :
    Attached b (n.set b p x y z fc) ∧ (n.set b p x y z fc).positionInBody b fc = p ∧ getXAxis ((n.set b p x y z fc).frameInBody b).rot fc = x ∧
    getYAxis ((n.set b p x y z fc).frameInBody b).rot fc = y ∧ getZAxis ((n.set b p x y z fc).frameInBody b).rot fc = z := by
  obtain ⟨q, hq, hu, hx, hy, hz⟩ := C33_rotation_from_axes x y z fc hr
  unfold rotOfAxes at hq
  split_ifs at hq
  injection hq with hq
  subst hq
  refine ⟨refresh_attached _ _ hu, ?_, hx, hy, hz⟩
  show conv fc (conv fc p - conv .NWU b.cogInRef + conv .NWU (conv .NWU b.cogInRef)) = p
  have : conv fc p - conv .NWU b.cogInRef + conv .NWU (conv .NWU b.cogInRef) = conv fc p := by
    ext <;> simp [conv]
  rw [this, conv_conv]

/-- **C177, rotations about an axis.** Turning a node about an axis by an angle leaves its place and turns every vector carried by the node by that angle about that axis **of the node**, positively in the convention (Rodrigues'
formula); the calls "in the body" and "in the world" do the same. -/
theorem C177_rotate_around (b : Body) (h : Placed b) (n : Node) (ha : Attached b n) (axis : V3) (h1 : V3.dot axis axis = 1) (a : ℝ) (fc : FC) :
    Attached b (n.rotateAroundInBody b axis a fc) ∧ (n.rotateAroundInBody b axis a fc).positionInBody b fc = n.positionInBody b fc ∧
    (∀ v, rotate ((n.rotateAroundInBody b axis a fc).frameInBody b).rot fc v =
      rotate (n.frameInBody b).rot fc (Real.cos a • v + Real.sin a • V3.cross axis v + ((1 - Real.cos a) * V3.dot axis v) • axis)) ∧
    (n.rotateAroundInWorld b axis a fc).frameInWorld = (n.rotateAroundInBody b axis a fc).frameInWorld := by
  have hu : (quatOfAxisAngle axis a fc).IsUnit := ofAngAxis_unit (by rw [conv_dot]; exact h1) a
  obtain ⟨-, h2, h3, -, h5, -⟩ := C55_rotate_partial b h n ha (quatOfAxisAngle axis a fc) fc
  refine ⟨refresh_attached _ _ (ha.unit.mul hu), h5, fun v => ?_, h3⟩
  have e : ((n.rotateAroundInBody b axis a fc).frameInBody b).rot = (n.frameInBody b).rot.mul (quatOfAxisAngle axis a fc) := h2
  rw [e]
  show conv fc (((n.frameInBody b).rot.mul (quatOfAxisAngle axis a fc)).rotate (conv fc v)) = conv fc ((n.frameInBody b).rot.rotate (conv fc _))
  rw [Q.rotate_mul (show (n.frameInBody b).rot.IsUnit from ha.unit) hu]
  congr 2
  show (Q.ofAngAxis a (conv fc axis)).rotate (conv fc v) = _
  rw [ofAngAxis_rotate, conv_dot, ← conv_cross]
  simp only [conv_add, conv_smul]

/-- **C177, moves along a direction.** A move along a direction by a distance is a move of that length along it: along the axes of the world for one call, along the axes **of the node** for the other (see C55). -/
theorem C177_translate_along (b : Body) (h : Placed b) (n : Node) (ha : Attached b n) (d : V3) (dist : ℝ) (hd : 0 < V3.dot d d) (hp : 0 ≤ dist) (fc : FC) :
    (∃ k : ℝ, 0 ≤ k ∧ (n.translateAlongInWorld b d dist fc).positionInWorld fc = n.positionInWorld fc + k • d ∧ V3.norm (k • d) = dist) ∧
    ∃ k : ℝ, 0 ≤ k ∧ (n.translateAlongInBody b d dist fc).positionInBody b fc = n.positionInBody b fc + rotate (n.frameInBody b).rot fc (k • d) ∧ V3.norm (k • d) = dist := by
  have hn : 0 < V3.norm d := Real.sqrt_pos.mpr hd
  have hk : 0 ≤ dist * (V3.norm d)⁻¹ := mul_nonneg hp (inv_nonneg.mpr hn.le)
  have e : dist • d.normalized = (dist * (V3.norm d)⁻¹) • d := by
    unfold V3.normalized; ext <;> simp <;> ring
  have el : V3.norm ((dist * (V3.norm d)⁻¹) • d) = dist := by
    unfold V3.norm
    have : V3.dot ((dist * (√(V3.dot d d))⁻¹) • d) ((dist * (√(V3.dot d d))⁻¹) • d) = dist ^ 2 := by
      have h2 : √(V3.dot d d) ^ 2 = V3.dot d d := Real.sq_sqrt hd.le
      have h3 : V3.dot ((dist * (√(V3.dot d d))⁻¹) • d) ((dist * (√(V3.dot d d))⁻¹) • d) = (dist * (√(V3.dot d d))⁻¹) ^ 2 * V3.dot d d := by
        simp [V3.dot]; ring
      have h4 : √(V3.dot d d) ≠ 0 := (Real.sqrt_pos.mpr hd).ne'
      rw [h3]
      nth_rewrite 2 [← h2]
      field_simp
    rw [this, Real.sqrt_sq hp]
  refine ⟨⟨_, hk, ?_, el⟩, _, hk, ?_, el⟩
  · rw [← e]; exact (C54_set_get b h n ha Frame.identity 0 _ Q.one fc).2.2.2.2.2.2.2.2.2.1
  · rw [← e]; exact (C55_translate_in_body_partial b n _ fc).1

/-- **C177, angular velocity in the axes of the body and of the node (defect).** They read zero whatever the motion: they are right only for a body that does not rotate, while the angular velocity read in the axes of the world is that
of the body. -/
theorem C177_angular_velocity_wrong (b : Body) (h : Placed b) (n : Node) (ha : Attached b n) (fc : FC) :
    n.angVelInWorld fc = b.angVelWorld fc ∧ n.angVelInBody fc = 0 ∧ n.angVelInNode fc = 0 ∧
    (b.toWorld (n.angVelInBody fc) fc = n.angVelInWorld fc ↔ b.angVelWorld fc = 0) ∧
    (n.projInWorld (n.angVelInNode fc) fc = n.angVelInWorld fc ↔ b.angVelWorld fc = 0) := by
  have e1 : n.angVelInBody fc = 0 := by
    cases fc <;> ext <;> simp [Node.angVelInBody, Node.relRotDt, Q.mul, conv, swap]
  have e2 : n.angVelInNode fc = 0 := by
    cases fc <;> ext <;> simp [Node.angVelInNode, Node.relRotDt, Q.mul, conv, swap]
  have hw := (C54_attached b h n ha fc).2.2.2.1
  have z : ∀ q : Q, rotate q fc 0 = 0 := by
    intro q
    show conv fc (q.rotate (conv fc 0)) = 0
    have : q.rotate 0 = 0 := by ext <;> simp [Q.rotate]
    rw [conv_zero, this, conv_zero]
  refine ⟨hw, e1, e2, ?_, ?_⟩
  · rw [e1, hw]
    have : b.toWorld 0 fc = 0 := z _
    rw [this]; exact eq_comm
  · rw [e2, hw]
    have : n.projInWorld 0 fc = 0 := z _
    rw [this]; exact eq_comm

/-- The hypotheses are met: a body turning about the vertical with a node on it, a right-handed triple that is not the axes. -/
example : ∃ b : Body, Placed b ∧ Attached b (Node.new b) ∧ b.angVelWorld .NWU ≠ 0 ∧ RightHanded ⟨0, 1, 0⟩ ⟨0, 0, 1⟩ ⟨1, 0, 0⟩ := by
  refine ⟨⟨⟨0, Q.one⟩, 0, ⟨0, 0, 0, 1⟩, 0, 0, 0⟩, ⟨Q.isUnit_one, by ext <;> simp [Q.rotate]⟩, refresh_attached _ _ Q.isUnit_one, fun h => ?_, ?_, ?_, ?_, ?_, ?_, ?_, ?_⟩
  · have := congrArg V3.z h
    simp [Body.angVelWorld, Body.wvelPar, conv, Q.one, Q.mul, Q.conj, qvec] at this
  iterate 6 norm_num [V3.dot]
  ext <;> norm_num

end Frydom.Core
