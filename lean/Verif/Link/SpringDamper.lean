import Verif.Link.Link
import Verif.Link.Revolute

/-!
# The spring-damper loads of a link as reported for the two bodies, and the power of a link (C186)

`src/frydom/core/link/links_lib/FrLink.cpp` (178-192, 593-674), `FrRevoluteLink.cpp`, `FrPrismaticLink.cpp`.
-/

noncomputable section

namespace Frydom.Link
open Frydom.Geom

/-! ## The code -/

/-- `GetSpringDamperForceOnNode2` (FrLink.cpp:635-639, 186-188). -/
def springForceOnNode2 (c : ChLink) (fc : FC) : V3 := conv fc c.cForce
/-- `GetSpringDamperTorqueOnNode2` (FrLink.cpp:641-645, 190-192). -/
def springTorqueOnNode2 (c : ChLink) (fc : FC) : V3 := conv fc c.cTorque
/-- `GetSpringDamperForceOnNode1` (FrLink.cpp:623-627, 178-180). -/
def springForceOnNode1 (c : ChLink) (fc : FC) : V3 := conv fc (-c.cForce)
/-- `GetSpringDamperTorqueOnNode1` (FrLink.cpp:629-633, 182-184). -/
def springTorqueOnNode1 (c : ChLink) (fc : FC) : V3 := conv fc (-c.cTorque)
/-- `GetSpringDamperForceOnBody1` (FrLink.cpp:647-650); `n`: `m_node1->GetFrameWRT_COG_InBody()`. -/
def springForceOnBody1 (c : ChLink) (n : Frame) (fc : FC) : V3 := n.projFrameInParent (springForceOnNode1 c fc) fc
/-- `GetSpringDamperForceOnBody2` (FrLink.cpp:652-656). -/
def springForceOnBody2 (c : ChLink) (n : Frame) (fc : FC) : V3 := n.projFrameInParent (springForceOnNode2 c fc) fc
/-- `GetSpringDamperTorqueOnBody1AtCOG` (FrLink.cpp:658-666). -/
def springTorqueOnBody1AtCOG (c : ChLink) (n : Frame) (fc : FC) : V3 :=
  n.projFrameInParent (springTorqueOnNode1 c fc) fc + V3.cross (n.getPosition fc) (n.projFrameInParent (springForceOnNode1 c fc) fc)
/-- `GetSpringDamperTorqueOnBody2AtCOG` (FrLink.cpp:668-676). -/
def springTorqueOnBody2AtCOG (c : ChLink) (n : Frame) (fc : FC) : V3 :=
  n.projFrameInParent (springTorqueOnNode2 c fc) fc + V3.cross (n.getPosition fc) (n.projFrameInParent (springForceOnNode2 c fc) fc)

/-- `FrLink::GetLinkPower` (FrLink.cpp:612-615). -/
def genericLinkPower (c : ChLink) : ℝ :=
  V3.dot (springForceOnNode2 c .NWU) (velocityOfNode2WRTNode1 (generateCache c) .NWU) +
  V3.dot (springTorqueOnNode2 c .NWU) (angularVelocityOfNode2WRTNode1 (generateCache c) .NWU)

/-- The Chrono link of a prismatic link once updated: the load given by `UpdateForces` (FrPrismaticLink.cpp:82-91) is in `C_force`, `C_torque`. -/
def Prismatic.chLink (l : Prismatic) (c : ChLink) : ChLink := { c with cForce := l.cForce, cTorque := l.cTorque }

/-- The Chrono link of a revolute link once updated: no force, a torque along z (FrRevoluteLink.cpp:118-130). -/
def Revolute.chLink (l : Revolute) (c : ChLink) : ChLink := { c with cForce := 0, cTorque := ⟨0, 0, l.cTorque⟩ }

/-! ## Specification: the loads Chrono applies -/

/-- The load Chrono applies to the body of node 2 for `C_force`, `C_torque` (comment quoted in FrLink.cpp:594-598; external): in the axes of node 1, whose frame in
the world is `A`, at the origin of node 2, whose frame in the world is `B`. -/
def appliedOnBody2 (c : ChLink) (A B : Frame) : Wrench := ⟨A.rot.rotate c.cForce, B.pos, A.rot.rotate c.cTorque⟩
/-- The load Chrono applies to the body of node 1: the opposite, at the same point. -/
def appliedOnBody1 (c : ChLink) (A B : Frame) : Wrench := ⟨-(A.rot.rotate c.cForce), B.pos, -(A.rot.rotate c.cTorque)⟩

/-- Two wrenches are the same load: same force and same moment about every point; the first is given in the convention `fc`. -/
def SameLoad (fc : FC) (w v : Wrench) : Prop :=
  w.force = conv fc v.force ∧ ∀ a : V3, w.momentAbout (conv fc a) = conv fc (v.momentAbout a)

/-- The power of a wrench on a rigid body of which the point `o` has velocity `v` and whose angular velocity is `w`. -/
def Wrench.power (W : Wrench) (o v w : V3) : ℝ := V3.dot W.force (v + V3.cross w (W.point - o)) + V3.dot W.moment w

/-! ## The loads reported -/

theorem reported1 (c : ChLink) (B1 N1 : Frame) (h1 : B1.Valid) (k1 : N1.Valid) (fc : FC) :
    Wrench.ofBody B1 (springForceOnBody1 c N1 fc) (springTorqueOnBody1AtCOG c N1 fc) fc =
    ⟨conv fc (-((B1.mul N1).rot.rotate c.cForce)), conv fc B1.pos,
     conv fc (-((B1.mul N1).rot.rotate c.cTorque) - V3.cross (B1.rot.rotate N1.pos) ((B1.mul N1).rot.rotate c.cForce))⟩ := by
  unfold Frame.Valid at h1 k1
  simp only [Wrench.ofBody, springForceOnBody1, springTorqueOnBody1AtCOG, springForceOnNode1, springTorqueOnNode1,
    Frame.projFrameInParent, Frame.getPosition, Frame.mul, rotateFC, Wrench.mk.injEq, true_and]
  rw [← conv_cross, ← conv_add]
  simp only [rotateFC, Q.rotate_add, rotate_cross h1, Q.rotate_mul h1 k1, Q.rotate_neg, cross_neg_right, true_and]
  congr 1

theorem reported2 (c : ChLink) (B2 N2 : Frame) (h2 : B2.Valid) (k2 : N2.Valid) (fc : FC) :
    Wrench.ofBody B2 (springForceOnBody2 c N2 fc) (springTorqueOnBody2AtCOG c N2 fc) fc =
    ⟨conv fc ((B2.mul N2).rot.rotate c.cForce), conv fc B2.pos,
     conv fc ((B2.mul N2).rot.rotate c.cTorque + V3.cross (B2.rot.rotate N2.pos) ((B2.mul N2).rot.rotate c.cForce))⟩ := by
  unfold Frame.Valid at h2 k2
  simp only [Wrench.ofBody, springForceOnBody2, springTorqueOnBody2AtCOG, springForceOnNode2, springTorqueOnNode2,
    Frame.projFrameInParent, Frame.getPosition, Frame.mul, rotateFC, Wrench.mk.injEq, true_and]
  rw [← conv_cross, ← conv_add]
  simp only [rotateFC, Q.rotate_add, rotate_cross h2, Q.rotate_mul h2 k2, and_self]

theorem conv_inj (fc : FC) {a b : V3} (h : conv fc a = conv fc b) : a = b := by
  have := congrArg (conv fc) h
  rwa [conv_conv, conv_conv] at this

/-- A load given by its converted parts. -/
theorem sameLoad_iff (fc : FC) (f p m : V3) (v : Wrench) :
    SameLoad fc ⟨conv fc f, conv fc p, conv fc m⟩ v ↔ f = v.force ∧ m = v.moment + V3.cross (v.point - p) v.force := by
  have key : ∀ a, (Wrench.mk (conv fc f) (conv fc p) (conv fc m)).momentAbout (conv fc a) = conv fc (m + V3.cross (p - a) f) := by
    intro a
    show conv fc m + V3.cross (conv fc p - conv fc a) (conv fc f) = _
    rw [← conv_sub, ← conv_cross, ← conv_add]
  constructor
  · rintro ⟨hf, hm⟩
    have e := conv_inj fc hf
    refine ⟨e, ?_⟩
    have h0 := hm p
    rw [key p] at h0
    have h1 := conv_inj fc h0
    rw [e] at h1
    have z : V3.cross (p - p) v.force = 0 := by ext <;> simp
    rw [z] at h1
    rw [← h1.trans (show v.momentAbout p = v.moment + V3.cross (v.point - p) v.force from rfl)]
    ext <;> simp
  · rintro ⟨hf, hm⟩
    refine ⟨by rw [hf], fun a => ?_⟩
    rw [key a, hf, hm]
    congr 1
    show _ = v.moment + V3.cross (v.point - a) v.force
    ext <;> simp <;> ring

/-- The relative frame Chrono gives, in terms of the nodes in the world. -/
theorem rel_rotate {A B R : Frame} (hA : A.Valid) (hB : B.Valid) (h : R = A.otherWrtThis B) :
    (∀ v, A.rot.rotate (R.rot.rotate v) = B.rot.rotate v) ∧ A.rot.rotate R.pos = B.pos - A.pos := by
  unfold Frame.Valid at hA hB
  subst h
  constructor
  · intro v
    show A.rot.rotate (Q.rotate (A.rot.conj.mul B.rot) v) = _
    rw [Q.rotate_mul hA.conj hB, Q.rotate_conj' hA]
  · show A.rot.rotate (-(A.rot.conj.rotate A.pos) + A.rot.conj.rotate B.pos) = _
    rw [Q.rotate_add, Q.rotate_neg, Q.rotate_conj' hA, Q.rotate_conj' hA]
    ext <;> simp <;> ring

theorem rotate_inj {q : Q} (h : q.IsUnit) {a b : V3} (e : q.rotate a = q.rotate b) : a = b := by
  have := congrArg q.conj.rotate e
  rwa [Q.rotate_conj h, Q.rotate_conj h] at this

/-- **C186, body 1.** For every load of the link, the spring-damper force and torque at the COG reported for body 1 are the load applied to it if and only if the
force is along the line from node 1 to node 2 (or zero): the torque is not transported from node 2 to node 1. -/
theorem C186_body1 (c : ChLink) (B1 B2 N1 N2 : Frame) (h1 : B1.Valid) (h2 : B2.Valid) (k1 : N1.Valid) (k2 : N2.Valid)
    (hrel : c.relM = (B1.mul N1).otherWrtThis (B2.mul N2)) (fc : FC) :
    SameLoad fc (Wrench.ofBody B1 (springForceOnBody1 c N1 fc) (springTorqueOnBody1AtCOG c N1 fc) fc) (appliedOnBody1 c (B1.mul N1) (B2.mul N2)) ↔
      V3.cross c.relM.pos c.cForce = 0 := by
  have vA : (B1.mul N1).rot.IsUnit := Q.IsUnit.mul h1 k1
  obtain ⟨-, rp⟩ := rel_rotate (A := B1.mul N1) (B := B2.mul N2) vA (Q.IsUnit.mul h2 k2) hrel
  rw [reported1 c B1 N1 h1 k1 fc, sameLoad_iff]
  have e : V3.cross c.relM.pos c.cForce = 0 ↔ V3.cross ((B2.mul N2).pos - (B1.mul N1).pos) ((B1.mul N1).rot.rotate c.cForce) = 0 := by
    rw [← rp, ← rotate_cross vA]
    constructor
    · intro h; rw [h]; ext <;> simp [Q.rotate, M3.mulVec]
    · intro h
      refine rotate_inj vA (h.trans ?_)
      ext <;> simp [Q.rotate, M3.mulVec]
  rw [e]
  have pA : (B1.mul N1).pos = B1.pos + B1.rot.rotate N1.pos := rfl
  rw [pA]
  simp only [appliedOnBody1, true_and]
  generalize (B1.mul N1).rot.rotate c.cForce = F
  generalize (B1.mul N1).rot.rotate c.cTorque = T
  generalize B1.rot.rotate N1.pos = x
  generalize (B2.mul N2).pos = p
  constructor
  · intro h
    have hx := congrArg V3.x h; have hy := congrArg V3.y h; have hz := congrArg V3.z h
    simp at hx hy hz
    ext <;> simp <;> linarith
  · intro h
    have hx := congrArg V3.x h; have hy := congrArg V3.y h; have hz := congrArg V3.z h
    simp at hx hy hz
    ext <;> simp <;> linarith

/-- **C186, body 2.** The spring-damper force and torque at the COG reported for body 2 are the load applied to it if and only if the relative rotation of the nodes
leaves the force and the torque unchanged: components in the axes of node 1 are taken as components in the axes of node 2. -/
theorem C186_body2 (c : ChLink) (B1 B2 N1 N2 : Frame) (h1 : B1.Valid) (h2 : B2.Valid) (k1 : N1.Valid) (k2 : N2.Valid)
    (hrel : c.relM = (B1.mul N1).otherWrtThis (B2.mul N2)) (fc : FC) :
    SameLoad fc (Wrench.ofBody B2 (springForceOnBody2 c N2 fc) (springTorqueOnBody2AtCOG c N2 fc) fc) (appliedOnBody2 c (B1.mul N1) (B2.mul N2)) ↔
      c.relM.rot.rotate c.cForce = c.cForce ∧ c.relM.rot.rotate c.cTorque = c.cTorque := by
  have vA : (B1.mul N1).rot.IsUnit := Q.IsUnit.mul h1 k1
  obtain ⟨rr, -⟩ := rel_rotate (A := B1.mul N1) (B := B2.mul N2) vA (Q.IsUnit.mul h2 k2) hrel
  rw [reported2 c B2 N2 h2 k2 fc, sameLoad_iff]
  have e : ∀ v : V3, c.relM.rot.rotate v = v ↔ (B2.mul N2).rot.rotate v = (B1.mul N1).rot.rotate v := by
    intro v
    rw [← rr v]
    exact ⟨fun h => by rw [h], fun h => rotate_inj vA h⟩
  rw [e, e]
  have pB : (B2.mul N2).pos = B2.pos + B2.rot.rotate N2.pos := rfl
  simp only [appliedOnBody2]
  rw [pB]
  refine and_congr_right fun hf => ?_
  rw [hf]
  generalize (B1.mul N1).rot.rotate c.cForce = F
  generalize (B1.mul N1).rot.rotate c.cTorque = T
  generalize (B2.mul N2).rot.rotate c.cTorque = T'
  have z : V3.cross (B2.pos + B2.rot.rotate N2.pos - B2.pos) F = V3.cross (B2.rot.rotate N2.pos) F := by ext <;> simp
  rw [z]
  constructor
  · intro h
    have hx := congrArg V3.x h; have hy := congrArg V3.y h; have hz := congrArg V3.z h
    simp at hx hy hz
    ext <;> linarith
  · intro h; rw [h]

/-- The loads reported for the two bodies of a link are opposite: forces, and moments about every point. -/
def Opposite (w1 w2 : Wrench) : Prop := w1.force + w2.force = 0 ∧ ∀ a, w1.momentAbout a + w2.momentAbout a = 0

theorem opposite_of {fc : FC} {w1 w2 : Wrench} {c : ChLink} {A B : Frame} (h1 : SameLoad fc w1 (appliedOnBody1 c A B)) (h2 : SameLoad fc w2 (appliedOnBody2 c A B)) :
    Opposite w1 w2 := by
  constructor
  · rw [h1.1, h2.1, ← conv_add]
    cases fc <;> ext <;> simp [conv, swap, appliedOnBody1, appliedOnBody2]
  · intro a
    have e1 := h1.2 (conv fc a); have e2 := h2.2 (conv fc a)
    rw [conv_conv] at e1 e2
    rw [e1, e2, ← conv_add]
    have : (appliedOnBody1 c A B).momentAbout (conv fc a) + (appliedOnBody2 c A B).momentAbout (conv fc a) = 0 := by
      ext <;> simp [Wrench.momentAbout, appliedOnBody1, appliedOnBody2] <;> ring
    rw [this]
    cases fc <;> ext <;> simp [conv, swap]

/-- **C186, prismatic link.** With the joint satisfied, after every update the spring-damper loads reported for the two bodies are the loads applied, and they are
opposite, in both frame conventions, wherever the bodies are and however they are turned. -/
theorem C186_prismatic (l : Prismatic) (c : ChLink) (B1 B2 N1 N2 : Frame) (h1 : B1.Valid) (h2 : B2.Valid) (k1 : N1.Valid) (k2 : N2.Valid)
    (hrel : c.relM = (B1.mul N1).otherWrtThis (B2.mul N2)) (hs : OnSlider c.relM) (fc : FC) (d : ChLink) (hd : d = (l.update (generateCache c)).chLink c)
    (w1 w2 : Wrench) (e1 : w1 = Wrench.ofBody B1 (springForceOnBody1 d N1 fc) (springTorqueOnBody1AtCOG d N1 fc) fc)
    (e2 : w2 = Wrench.ofBody B2 (springForceOnBody2 d N2 fc) (springTorqueOnBody2AtCOG d N2 fc) fc) :
    SameLoad fc w1 (appliedOnBody1 d (B1.mul N1) (B2.mul N2)) ∧ SameLoad fc w2 (appliedOnBody2 d (B1.mul N1) (B2.mul N2)) ∧ Opposite w1 w2 := by
  obtain ⟨hr, hx, hy⟩ := hs
  have ed : d.relM = c.relM := by rw [hd]; rfl
  obtain ⟨z, hF⟩ : ∃ z : ℝ, d.cForce = ⟨0, 0, z⟩ := by
    rw [hd]
    refine ⟨-(l.stiffness * (c.relM.pos.z - l.restLength) + l.damping * c.relVel.z), ?_⟩
    show -(V3.mk 0 0 (l.stiffness * (c.relM.pos.z - l.restLength) + l.damping * c.relVel.z)) = _
    ext <;> simp
  have h1' := (C186_body1 d B1 B2 N1 N2 h1 h2 k1 k2 (ed.trans hrel) fc).mpr (by
    rw [ed, hF]; ext <;> simp [hx, hy])
  have h2' := (C186_body2 d B1 B2 N1 N2 h1 h2 k1 k2 (ed.trans hrel) fc).mpr (by
    rw [ed, hr, Q.rotate_one, Q.rotate_one]; exact ⟨rfl, rfl⟩)
  rw [← e1] at h1'; rw [← e2] at h2'
  exact ⟨h1', h2', opposite_of h1' h2'⟩

/-- **C186, revolute link.** The same with the nodes at the same place and turned about their common z axis by any angle. -/
theorem C186_revolute (l : Revolute) (w : ℝ) (c : ChLink) (B1 B2 N1 N2 : Frame) (h1 : B1.Valid) (h2 : B2.Valid) (k1 : N1.Valid) (k2 : N2.Valid)
    (hrel : c.relM = (B1.mul N1).otherWrtThis (B2.mul N2)) (hs : ∃ θ, IsRotZ c.relM.rot θ) (fc : FC) (d : ChLink) (hd : d = (l.update c.relM.rot w).chLink c)
    (w1 w2 : Wrench) (e1 : w1 = Wrench.ofBody B1 (springForceOnBody1 d N1 fc) (springTorqueOnBody1AtCOG d N1 fc) fc)
    (e2 : w2 = Wrench.ofBody B2 (springForceOnBody2 d N2 fc) (springTorqueOnBody2AtCOG d N2 fc) fc) :
    SameLoad fc w1 (appliedOnBody1 d (B1.mul N1) (B2.mul N2)) ∧ SameLoad fc w2 (appliedOnBody2 d (B1.mul N1) (B2.mul N2)) ∧ Opposite w1 w2 := by
  have ed : d.relM = c.relM := by rw [hd]; rfl
  have hF : d.cForce = 0 := by rw [hd]; rfl
  obtain ⟨z, hT⟩ : ∃ z : ℝ, d.cTorque = ⟨0, 0, z⟩ := by rw [hd]; exact ⟨_, rfl⟩
  have h1' := (C186_body1 d B1 B2 N1 N2 h1 h2 k1 k2 (ed.trans hrel) fc).mpr (by rw [hF]; ext <;> simp)
  have h2' := (C186_body2 d B1 B2 N1 N2 h1 h2 k1 k2 (ed.trans hrel) fc).mpr (by
    rw [ed, hF, hT]
    refine ⟨by ext <;> simp [Q.rotate, M3.mulVec], ?_⟩
    obtain ⟨θ, hθ⟩ := hs
    obtain ⟨s, hs, hq⟩ := isRotZ_form hθ
    have hs2 : s * s = 1 := by rcases hs with h | h <;> rw [h] <;> norm_num
    rw [hq]
    have hcs := Real.sin_sq_add_cos_sq (θ / 2)
    ext <;> simp [Q.rotate, Q.toMat, M3.mulVec]
    linear_combination 2 * z * (Real.cos (θ / 2) ^ 2 + Real.sin (θ / 2) ^ 2) * hs2 + 2 * z * hcs)
  rw [← e1] at h1'; rw [← e2] at h2'
  exact ⟨h1', h2', opposite_of h1' h2'⟩

/-! ## The power -/

theorem HasVel.unique {p : ℝ → V3} {v v' : V3} {t : ℝ} (h : HasVel p v t) (h' : HasVel p v' t) : v = v' :=
  V3.ext (h.1.unique h'.1) (h.2.1.unique h'.2.1) (h.2.2.unique h'.2.2)

theorem dot_conj_rotate {q : Q} (h : q.IsUnit) (a b : V3) : V3.dot a (q.conj.rotate b) = V3.dot (q.rotate a) b := by
  have := (Q.isRot h).dot a (q.conj.rotate b)
  rw [← this]
  show V3.dot (q.rotate a) (q.rotate (q.conj.rotate b)) = _
  rw [Q.rotate_conj' h]

/-- Relative velocities of two moving frames. -/
theorem relative_motion {A B : ℝ → Frame} {t : ℝ} {vA wA vB wB u w : V3} (hA : ∀ s, (A s).Valid) (hB : ∀ s, (B s).Valid)
    (a1 : HasVel (fun s => (A s).pos) vA t) (a2 : HasAngVel (fun s => (A s).rot) wA t)
    (b1 : HasVel (fun s => (B s).pos) vB t) (b2 : HasAngVel (fun s => (B s).rot) wB t)
    (hu : HasVel (fun s => ((A s).otherWrtThis (B s)).pos) u t) (hw : HasAngVel (fun s => ((A s).otherWrtThis (B s)).rot) w t) :
    u = (A t).rot.conj.rotate (vB - vA - V3.cross wA ((B t).pos - (A t).pos)) ∧ w = (A t).rot.conj.rotate (wB - wA) := by
  unfold Frame.Valid at hA hB
  constructor
  · have h := HasVel.conj_rotate a2 (b1.sub a1)
    refine hu.unique ?_
    have e : (fun s => ((A s).otherWrtThis (B s)).pos) = fun s => (A s).rot.conj.rotate ((B s).pos - (A s).pos) := by
      funext s
      show -((A s).rot.conj.rotate (A s).pos) + (A s).rot.conj.rotate (B s).pos = _
      rw [Q.rotate_sub]
      ext <;> simp <;> ring
    rw [e]; exact h
  · have key : ∀ v : V3, V3.cross w v = V3.cross ((A t).rot.conj.rotate (wB - wA)) v := by
      intro v
      obtain ⟨x, hx⟩ : ∃ x, ((A t).rot.conj.mul (B t).rot).rotate x = v :=
        ⟨((A t).rot.conj.mul (B t).rot).conj.rotate v, Q.rotate_conj' ((hA t).conj.mul (hB t)) v⟩
      have h1 := hw x
      have h2 := HasVel.conj_rotate a2 (b2 x)
      have e : (fun s => ((A s).otherWrtThis (B s)).rot.rotate x) = fun s => (A s).rot.conj.rotate ((B s).rot.rotate x) := by
        funext s
        show Q.rotate ((A s).rot.conj.mul (B s).rot) x = _
        rw [Q.rotate_mul (hA s).conj (hB s)]
      rw [e] at h1
      have h3 := h1.unique h2
      have e2 : ((A t).otherWrtThis (B t)).rot.rotate x = v := hx
      rw [e2] at h3
      rw [h3, ← hx, Q.rotate_mul (hA t).conj (hB t), ← rotate_cross (hA t).conj]
      congr 1
      ext <;> simp <;> ring
    have k1 := key ⟨1, 0, 0⟩
    have k2 := key ⟨0, 1, 0⟩
    have y1 := congrArg V3.y k1; have z1 := congrArg V3.z k1; have z2 := congrArg V3.z k2
    simp at y1 z1 z2
    ext
    · exact z2
    · linarith
    · exact y1

/-- **C186, power.** For every load and every motion of the two nodes (carried by their bodies), the power returned by a link is the power of the load of the link on
body 1 plus its power on body 2. -/
theorem C186_power (A B : ℝ → Frame) (t : ℝ) (vA wA vB wB : V3) (hA : ∀ s, (A s).Valid) (hB : ∀ s, (B s).Valid)
    (a1 : HasVel (fun s => (A s).pos) vA t) (a2 : HasAngVel (fun s => (A s).rot) wA t)
    (b1 : HasVel (fun s => (B s).pos) vB t) (b2 : HasAngVel (fun s => (B s).rot) wB t)
    (c : ChLink) (hu : HasVel (fun s => ((A s).otherWrtThis (B s)).pos) c.relVel t)
    (hw : HasAngVel (fun s => ((A s).otherWrtThis (B s)).rot) c.relWvel t) :
    genericLinkPower c = (appliedOnBody1 c (A t) (B t)).power (A t).pos vA wA + (appliedOnBody2 c (A t) (B t)).power (B t).pos vB wB := by
  obtain ⟨e1, e2⟩ := relative_motion hA hB a1 a2 b1 b2 hu hw
  have d1 := dot_conj_rotate (hA t) c.cForce (vB - vA - V3.cross wA ((B t).pos - (A t).pos))
  have d2 := dot_conj_rotate (hA t) c.cTorque (wB - wA)
  rw [← e1] at d1; rw [← e2] at d2
  show V3.dot c.cForce c.relVel + V3.dot c.cTorque c.relWvel = _
  rw [d1, d2]
  simp only [Wrench.power, appliedOnBody1, appliedOnBody2, V3.dot]
  simp
  ring

/-- **C186, power of a prismatic link**: with the joint satisfied, what `GetLinkPower` of the prismatic link returns after an update is the general power above, of
the load it has then. -/
theorem C186_power_prismatic (l : Prismatic) (c : ChLink) (hs : OnSlider c.relM) :
    (l.update (generateCache c)).getLinkPower = genericLinkPower ((l.update (generateCache c)).chLink c) := by
  obtain ⟨hr, hx, hy⟩ := hs
  have e : (l.update (generateCache c)).cForce.x = 0 ∧ (l.update (generateCache c)).cForce.y = 0 := by
    constructor <;> (show -(0:ℝ) = 0; norm_num)
  have hp : (generateCache c).frame1WRT2.getPosition .NWU = ⟨0, 0, -c.relM.pos.z⟩ := by
    show -(c.relM.rot.conj.rotate c.relM.pos) = _
    rw [hr]
    ext <;> simp [Q.rotate, Q.toMat, hx, hy]
    ring
  have ht : (l.update (generateCache c)).cTorque = 0 := by
    show -(0:V3) + V3.cross (-((generateCache c).frame1WRT2.getPosition .NWU)) (-⟨0, 0, _⟩) = 0
    rw [hp]
    ext <;> simp
  have g : genericLinkPower ((l.update (generateCache c)).chLink c) = (l.update (generateCache c)).cForce.z * c.relVel.z := by
    show V3.dot (l.update (generateCache c)).cForce c.relVel + V3.dot (l.update (generateCache c)).cTorque c.relWvel = _
    rw [ht]
    simp [V3.dot, e.1, e.2]
  rw [g]
  show c.relVel.z * (l.update (generateCache c)).cForce.z = _
  ring

/-- **C186, power of a revolute link**: with the axes aligned and the relative angular velocity of Chrono given to `Update`, `GetLinkPower` is the power on both bodies. -/
theorem C186_power_revolute (l : Revolute) (c : ChLink) :
    (l.update c.relM.rot c.relWvel.z).linkPower = genericLinkPower ((l.update c.relM.rot c.relWvel.z).chLink c) := by
  show c.relWvel.z * _ = V3.dot 0 c.relVel + V3.dot ⟨0, 0, (l.update c.relM.rot c.relWvel.z).cTorque⟩ c.relWvel
  simp [V3.dot, Revolute.linkTorque]
  ring

/-- A slider of which node 2 leaves node 1 at 2 m/s against a load of 5 N: the hypotheses of `C186_power` are met and the power is -10 W. -/
example : genericLinkPower ⟨sliding.frame 1, ⟨0, 0, 2⟩, 0, 0, 0, 0, 0, ⟨0, 0, -5⟩, 0⟩ = -10 := by
  have hrel : ∀ s, Frame.otherWrtThis ⟨0, Q.one⟩ (sliding.frame s) = sliding.frame s := by
    intro s
    refine Frame.ext ?_ ?_
    · show -(Q.one.conj.rotate 0) + Q.one.conj.rotate (sliding.frame s).pos = _
      ext <;> simp [Q.rotate, Q.toMat, M3.mulVec, Q.conj, Q.one] <;> ring
    · show Q.one.conj.mul Q.one = Q.one
      exact Q.conj_mul Q.isUnit_one
  have z : HasAngVel (fun _ : ℝ => Q.one) 0 1 := by
    have := sliding.hang 1
    exact this
  rw [C186_power (fun _ => ⟨0, Q.one⟩) sliding.frame 1 0 0 ⟨0, 0, 2⟩ 0 (fun _ => Q.isUnit_one) sliding.valid
    ⟨hasDerivAt_const _ _, hasDerivAt_const _ _, hasDerivAt_const _ _⟩ z (sliding.hvel 1) (sliding.hang 1) _
    (by simp only [hrel]; exact sliding.hvel 1) (by simp only [hrel]; exact sliding.hang 1)]
  simp [Wrench.power, appliedOnBody1, appliedOnBody2, V3.dot, Q.rotate_one]
  norm_num

/-- A slider between two displaced and turned bodies: the hypotheses of `C186_prismatic` are met with a load of 20 N. -/
example : ∃ (l : Prismatic) (c : ChLink) (B1 B2 N1 N2 : Frame), B1.Valid ∧ B2.Valid ∧ N1.Valid ∧ N2.Valid ∧ c.relM = (B1.mul N1).otherWrtThis (B2.mul N2) ∧
    OnSlider c.relM ∧ (l.update (generateCache c)).cForce = ⟨0, 0, -20⟩ ∧ B1.pos ≠ B2.pos ∧ N1.pos ≠ 0 := by
  have h3 : (Q.ofAngAxis 1 V3.e3).IsUnit := ofAngAxis_unit (by simp [V3.dot, V3.e3]) 1
  obtain ⟨q, hq⟩ : ∃ q : Q, q = Q.ofAngAxis 1 V3.e3 := ⟨_, rfl⟩
  rw [← hq] at h3
  have e : (Frame.otherWrtThis (Frame.mul ⟨0, q⟩ ⟨⟨1, 0, 0⟩, Q.one⟩) (Frame.mul ⟨⟨0, 0, 2⟩, q⟩ ⟨⟨1, 0, 0⟩, Q.one⟩)) = ⟨q.conj.rotate ⟨0, 0, 2⟩, Q.one⟩ := by
    obtain ⟨e1, e2⟩ := rel_rotate (A := Frame.mul ⟨0, q⟩ ⟨⟨1, 0, 0⟩, Q.one⟩) (B := Frame.mul ⟨⟨0, 0, 2⟩, q⟩ ⟨⟨1, 0, 0⟩, Q.one⟩)
      (Q.IsUnit.mul h3 Q.isUnit_one) (Q.IsUnit.mul h3 Q.isUnit_one) rfl
    have qm : q.mul Q.one = q := by ext <;> simp [Q.mul, Q.one]
    refine Frame.ext ?_ ?_
    · refine rotate_inj h3 ?_
      rw [Q.rotate_conj' h3]
      rw [show (Frame.mul ⟨0, q⟩ ⟨⟨1, 0, 0⟩, Q.one⟩ : Frame).rot = q from qm] at e2
      refine e2.trans ?_
      show (⟨0, 0, 2⟩ : V3) + q.rotate ⟨1, 0, 0⟩ - ((0 : V3) + q.rotate ⟨1, 0, 0⟩) = _
      ext <;> simp
    · show (q.mul Q.one).conj.mul (q.mul Q.one) = Q.one
      rw [qm]
      exact Q.conj_mul h3
  have ez : q.conj.rotate ⟨0, 0, 2⟩ = ⟨0, 0, 2⟩ := by
    have hcs := Real.sin_sq_add_cos_sq (2⁻¹ : ℝ)
    rw [hq]
    ext <;> simp [Q.rotate, Q.toMat, M3.mulVec, Q.ofAngAxis, V3.e3, Q.conj]
    linear_combination 2 * hcs
  rw [ez] at e
  refine ⟨{ stiffness := 10 }, ⟨⟨⟨0, 0, 2⟩, Q.one⟩, 0, 0, 0, 0, 0, 0, 0, 0⟩, ⟨0, q⟩, ⟨⟨0, 0, 2⟩, q⟩, ⟨⟨1, 0, 0⟩, Q.one⟩, ⟨⟨1, 0, 0⟩, Q.one⟩,
    h3, h3, Q.isUnit_one, Q.isUnit_one, e.symm, ⟨rfl, rfl, rfl⟩, ?_, ?_, ?_⟩
  · show -(V3.mk 0 0 ((10 : ℝ) * (2 - 0) + 0 * 0)) = _
    ext <;> norm_num
  · intro h; have := congrArg V3.z h; norm_num at this
  · intro h; have := congrArg V3.x h; norm_num at this

end Frydom.Link
