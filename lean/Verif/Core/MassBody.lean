import Verif.Core.Force
import Verif.Inertia.Props

/-!
# Inertia of a body (C56)

`src/frydom/core/body/FrBody.cpp:407-440`.
-/

open Classical

noncomputable section

namespace Frydom.Core
open Frydom.Geom Frydom.Inertia

/-- A body with the mass and the inertia matrix Chrono keeps for it (at the COG, in the axes of the body, NWU). -/
structure MassBody where
  body : Body
  mass : ℝ
  I : M3

namespace MassBody

/-- `SetInertiaTensor` (FrBody.cpp:418-432). `SetInertiaXX` and `SetInertiaXY` (Chrono, external) fill the symmetric matrix with (Ixx, Iyy, Izz) and (Ixy, Ixz, Iyz). -/
def setInertiaTensor (b : MassBody) (t : Tensor) : MassBody :=
  ⟨b.body.setCOG (t.getCOG .NWU) .NWU, t.mass, matOfCoeffs (t.coeffsAtCOG .NWU)⟩
/-- `GetInertiaTensor` (FrBody.cpp:410-416). -/
def getInertiaTensor (b : MassBody) : Tensor := Tensor.ofCOG b.mass (coeffsOfMat b.I) (b.body.getCOG .NWU) .NWU
/-- `GetMass` (FrBody.cpp:406-408). -/
def getMass (b : MassBody) : ℝ := b.mass

/-- Momentum of the body as the solver has it: mass times velocity of the COG. -/
def momentum (b : MassBody) (fc : FC) : V3 := b.mass • b.body.cogVelWorld fc
/-- Kinetic energy of the body as the solver has it: from the mass, the velocity of the COG and the inertia at the COG (rotation in body axes). -/
def kineticEnergy (b : MassBody) : ℝ :=
  1 / 2 * b.mass * V3.dot (b.body.cogVelWorld .NWU) (b.body.cogVelWorld .NWU) + 1 / 2 * V3.dot (b.body.angVelBody .NWU) (b.I.mulVec (b.body.angVelBody .NWU))

end MassBody

/-! ## Specification: the body as a set of point masses -/

/-- The momentum of the masses `L` fixed to the body. -/
def pointsMomentum (b : Body) (fc : FC) : List Pt → V3
  | [] => 0
  | a :: L => a.m • b.velWorldAtPointInBody (conv fc a.p) fc + pointsMomentum b fc L
/-- The kinetic energy of the masses `L` fixed to the body. -/
def pointsEnergy (b : Body) (fc : FC) : List Pt → ℝ
  | [] => 0
  | a :: L => 1 / 2 * a.m * V3.dot (b.velWorldAtPointInBody (conv fc a.p) fc) (b.velWorldAtPointInBody (conv fc a.p) fc) + pointsEnergy b fc L

/-! ## C56 -/

/-- **C56, set and get.** The inertia tensor read is the one set when its matrix is symmetric; mass and COG are always those set, and the reference frame of the body does not move. -/
theorem C56_set_get (b : MassBody) (t : Tensor) (c : Coeffs) (hs : t.I = matOfCoeffs c) (fc : FC) :
    (b.setInertiaTensor t).getInertiaTensor = t ∧ (b.setInertiaTensor t).getMass = t.mass ∧
    (b.setInertiaTensor t).body.getCOG fc = t.getCOG fc ∧
    (b.setInertiaTensor t).getInertiaTensor.coeffsAtCOG fc = t.coeffsAtCOG fc ∧
    (b.setInertiaTensor t).body.getFrame = b.body.getFrame ∧
    (∀ p, (b.setInertiaTensor t).body.pointInWorld p fc = b.body.pointInWorld p fc) := by
  have e : (b.setInertiaTensor t).getInertiaTensor = t := by
    refine Tensor.ext rfl rfl ?_
    show matOfCoeffs (coeffsOfMat (matOfCoeffs (coeffsOfMat t.I))) = t.I
    rw [hs]; rfl
  exact ⟨e, rfl, rfl, by rw [e], rfl, fun p => rfl⟩

theorem velWorld_field (b : Body) (h : Placed b) (ω : V3) (hs : Spinning b ω) (p : V3) (fc : FC) :
    b.velWorldAtPointInBody (conv fc p) fc = conv fc (b.cog.rot.rotate (b.cog.rot.conj.rotate b.posDt + V3.cross (b.cog.rot.conj.rotate ω) (p - b.cogInRef))) := by
  have hw := hs.wvel h
  unfold Body.velWorldAtPointInBody Body.velBodyAtPointInBody Body.velBody Body.angVelBody Body.linVelWorld Body.angVelWorld
  rw [toBody_conv, toBody_conv, ← conv_cross, ← conv_add, toWorld_conv, hw, hs.ref]
  congr 2
  rw [Q.rotate_sub, rotate_cross h.unit.conj, Q.rotate_conj h.unit]
  ext <;> simp <;> ring

theorem dot_conv (fc : FC) (v : V3) : V3.dot (conv fc v) (conv fc v) = V3.dot v v := by
  cases fc <;> simp [V3.dot, conv, swap]

theorem dot_rot {q : Q} (h : q.IsUnit) (v : V3) : V3.dot (q.rotate v) (q.rotate v) = V3.dot v v := (Q.isRot h).dot v v

theorem sum_momentum (b : Body) (h : Placed b) (ω : V3) (hs : Spinning b ω) (fc : FC) (L : List Pt) :
    pointsMomentum b fc L = conv fc (massOf L • b.posDt + b.cog.rot.rotate (V3.cross (b.cog.rot.conj.rotate ω) (momentOf (about b.cogInRef L)))) := by
  induction L with
  | nil =>
    have e : massOf [] • b.posDt + b.cog.rot.rotate (V3.cross (b.cog.rot.conj.rotate ω) (momentOf (about b.cogInRef []))) = 0 := by
      show (0:ℝ) • b.posDt + b.cog.rot.rotate (V3.cross (b.cog.rot.conj.rotate ω) 0) = 0
      rw [show V3.cross (b.cog.rot.conj.rotate ω) 0 = 0 by ext <;> simp, rotate_zero]
      ext <;> simp
    rw [e, conv_zero]; rfl
  | cons a L ih =>
    show a.m • b.velWorldAtPointInBody (conv fc a.p) fc + pointsMomentum b fc L = _
    rw [ih, velWorld_field b h ω hs, Q.rotate_add, Q.rotate_conj' h.unit]
    have e : ∀ (s : ℝ) (v : V3), s • conv fc v = conv fc (s • v) := by
      intro s v; cases fc <;> ext <;> simp [conv, swap]
    rw [e, ← conv_add]
    congr 1
    show _ = (a.m + massOf L) • b.posDt + b.cog.rot.rotate (V3.cross (b.cog.rot.conj.rotate ω) (a.m • (a.p - b.cogInRef) + momentOf (about b.cogInRef L)))
    rw [show V3.cross (b.cog.rot.conj.rotate ω) (a.m • (a.p - b.cogInRef) + momentOf (about b.cogInRef L)) =
      a.m • V3.cross (b.cog.rot.conj.rotate ω) (a.p - b.cogInRef) + V3.cross (b.cog.rot.conj.rotate ω) (momentOf (about b.cogInRef L)) by
        ext <;> simp <;> ring, Q.rotate_add, Q.rotate_smul]
    ext <;> simp <;> ring

theorem sum_energy (b : Body) (h : Placed b) (ω : V3) (hs : Spinning b ω) (fc : FC) (L : List Pt) :
    pointsEnergy b fc L = 1 / 2 * massOf L * V3.dot b.posDt b.posDt +
      V3.dot (b.cog.rot.conj.rotate b.posDt) (V3.cross (b.cog.rot.conj.rotate ω) (momentOf (about b.cogInRef L))) +
      1 / 2 * V3.dot (b.cog.rot.conj.rotate ω) ((matOfCoeffs (inertiaOf (about b.cogInRef L))).mulVec (b.cog.rot.conj.rotate ω)) := by
  have hv : V3.dot b.posDt b.posDt = V3.dot (b.cog.rot.conj.rotate b.posDt) (b.cog.rot.conj.rotate b.posDt) := (dot_rot h.unit.conj _).symm
  rw [hv]
  induction L with
  | nil => simp [pointsEnergy, massOf, about, momentOf, inertiaOf, matOfCoeffs, V3.dot]
  | cons a L ih =>
    show 1 / 2 * a.m * V3.dot (b.velWorldAtPointInBody (conv fc a.p) fc) (b.velWorldAtPointInBody (conv fc a.p) fc) + pointsEnergy b fc L = _
    rw [ih, velWorld_field b h ω hs, dot_conv, dot_rot h.unit]
    generalize b.cog.rot.conj.rotate b.posDt = u
    generalize b.cog.rot.conj.rotate ω = w
    generalize b.cogInRef = c
    show _ = 1 / 2 * (a.m + massOf L) * V3.dot u u + V3.dot u (V3.cross w (a.m • (a.p - c) + momentOf (about c L))) +
      1 / 2 * V3.dot w ((matOfCoeffs ((ptInertia ⟨a.m, a.p - c⟩).add (inertiaOf (about c L)))).mulVec w)
    simp only [V3.dot, V3.cross_x, V3.cross_y, V3.cross_z, V3.add_x, V3.add_y, V3.add_z, V3.smul_x, V3.smul_y, V3.smul_z, V3.sub_x, V3.sub_y, V3.sub_z,
      M3.mulVec_x, M3.mulVec_y, M3.mulVec_z, matOfCoeffs, ptInertia, Coeffs.add]
    ring

/-- **C56, momentum and energy.** A body given the inertia tensor of any set of point masses fixed to it has, in every rigid motion, the momentum and the kinetic energy of those masses
moving with the velocities read from the body. -/
theorem C56_dynamics (b : MassBody) (t : Tensor) (L : List Pt) (hd : Describes t L) (ω : V3)
    (b' : MassBody) (hm : b'.mass = (b.setInertiaTensor t).mass) (hI : b'.I = (b.setInertiaTensor t).I) (hc : b'.body.getCOG .NWU = (b.setInertiaTensor t).body.getCOG .NWU)
    (h : Placed b'.body) (hs : Spinning b'.body ω) (fc : FC) :
    b'.momentum fc = pointsMomentum b'.body fc L ∧ b'.kineticEnergy = pointsEnergy b'.body fc L := by
  have ec : b'.body.cogInRef = t.cog := hc
  have hw := hs.wvel h
  have em : b'.mass = massOf L := by rw [hm]; exact hd.mass
  have eI : b'.I = matOfCoeffs (inertiaOf (about t.cog L)) := by
    rw [hI]
    show matOfCoeffs (coeffsOfMat t.I) = _
    rw [hd.inertia]; rfl
  constructor
  · rw [sum_momentum _ h ω hs, ec, hd.moment_zero]
    rw [show V3.cross (b'.body.cog.rot.conj.rotate ω) 0 = 0 by ext <;> simp, rotate_zero]
    unfold MassBody.momentum Body.cogVelWorld
    rw [em]
    cases fc <;> ext <;> simp [conv, swap]
  · rw [sum_energy _ h ω hs, ec, hd.moment_zero]
    rw [show V3.cross (b'.body.cog.rot.conj.rotate ω) 0 = 0 by ext <;> simp]
    unfold MassBody.kineticEnergy
    have ea : b'.body.angVelBody .NWU = b'.body.cog.rot.conj.rotate ω := by
      unfold Body.angVelBody Body.angVelWorld
      rw [toBody_conv, hw]; rfl
    have ev : b'.body.cogVelWorld .NWU = b'.body.posDt := rfl
    rw [ea, ev, em, eI]
    simp [V3.dot]

/-- **C56, the hypotheses are met**: the state after setting the inertia and then any generalised velocity at any point. -/
theorem C56_dynamics_after_set (b : MassBody) (hb : Placed b.body) (t : Tensor) (L : List Pt) (hd : Describes t L) (p v w : V3) (fc : FC) :
    let b1 := b.setInertiaTensor t
    let b' : MassBody := { b1 with body := b1.body.setGenVelBodyAtPointInBody p v w fc }
    b'.momentum fc = pointsMomentum b'.body fc L ∧ b'.kineticEnergy = pointsEnergy b'.body fc L := by
  intro b1 b'
  have h1 : Placed b1.body := ⟨hb.unit, rfl⟩
  have hk := setGenVel_key b1.body h1 p v w fc
  exact C56_dynamics b t L hd _ b' rfl rfl rfl (update_placed h1.unit) hk.1 fc

/-- Two masses of 1 kg and 3 kg: their tensor, and the energy of a body with it moving without spin at 2 m/s. -/
example : ∃ t : Tensor, Describes t [⟨1, ⟨4, 0, 0⟩⟩, ⟨3, ⟨0, 0, 0⟩⟩] ∧ t.mass = 4 ∧ t.cog = ⟨1, 0, 0⟩ := by
  refine ⟨⟨4, ⟨1, 0, 0⟩, matOfCoeffs (inertiaOf (about ⟨1, 0, 0⟩ [⟨1, ⟨4, 0, 0⟩⟩, ⟨3, ⟨0, 0, 0⟩⟩]))⟩, ⟨?_, ?_, rfl⟩, rfl, rfl⟩
  · simp [massOf]; norm_num
  · ext <;> simp [momentOf]

end Frydom.Core
