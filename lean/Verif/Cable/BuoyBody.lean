import Verif.Cable.Buoy
import Verif.Hydro.Damping

/-!
# Mooring buoys, the body and its damping (C128)

`src/frydom/cable/FrMooringBuoy.cpp`.
-/

noncomputable section

namespace Frydom.Cable.Buoys
open Frydom.Geom Frydom.Core Frydom.Core.Solids Frydom.Inertia Frydom.Hydro

/-- What the constructor leaves: the body with its inertia, the radius, the matrix of the linear damping force and the velocity it refers to. The collision sphere, the smooth contact and the asset are not modelled. -/
structure Built where
  body : MassBody
  radius : ℝ
  matrix : Matrix (Fin 6) (Fin 6) ℝ
  reference : Reference

/-- `FrMooringBuoy::FrMooringBuoy` (FrMooringBuoy.cpp:28-68), `make_mooring_buoy` (86-98): the damping force is made with `relativeToFluid = false` (44), so refers to the ground whatever the current. `b` is the body made by `FrBody::FrBody`. -/
def Built.new (b : MassBody) (radius mass damping : ℝ) : Built :=
  let inertia := (2.0 / 5.0) * mass * radius * radius
  ⟨b.setInertiaTensor (Tensor.ofCOG mass ⟨inertia, inertia, inertia, 0, 0, 0⟩ 0 .NWU), radius, diagonalDamping (![damping, damping, damping, damping, damping, damping]), .world⟩

/-- **C128, the body.** A buoy is a homogeneous ball of the given radius and mass, its centre of gravity at the origin of the body; its damping is accepted by the initialization exactly when the coefficient is not negative. -/
theorem C128_body (b : MassBody) (R mass damping : ℝ) (hR : 0 < R) :
    Homogeneous (Built.new b R mass damping).body.getInertiaTensor (ball R) (mass / (4 / 3 * Real.pi * R ^ 3)) ∧
    (Built.new b R mass damping).body.getMass = mass ∧ (∀ fc, (Built.new b R mass damping).body.body.getCOG fc = 0) ∧
    (linearCheck (Built.new b R mass damping).matrix ↔ 0 ≤ damping) := by
  refine ⟨C127_sphere b R mass hR, rfl, fun fc => conv_zero fc, ?_⟩
  constructor
  · intro h
    have := h 0 0
    simpa [Built.new, diagonalDamping] using this
  · intro h i j
    show ¬ diagonalDamping ![damping, damping, damping, damping, damping, damping] i j < 0
    unfold diagonalDamping
    split_ifs with e
    · fin_cases i <;> simpa using h
    · simp

/-- **C128, damping.** Whatever the attitude of the buoy the damping force is minus the coefficient times the velocity of the centre in the world and the torque minus the coefficient times the angular velocity, both conventions; it never gives energy when the coefficient is
not negative. The velocity is the one over the ground: in a current a still buoy feels no force. -/
theorem C128_damping (b : MassBody) (R mass damping : ℝ) (body : Body) (h : Placed body) (f : Force) :
    let load := linearCompute (Built.new b R mass damping).matrix (Built.new b R mass damping).reference body f
    (∀ fc, IsLoad load body fc (-damping • body.cogVelWorld fc) (-damping • body.angVelWorld fc) (body.cogPositionInWorld fc)) ∧
    (0 ≤ damping → V3.dot (load.getForceInWorld .NWU) (body.cogVelWorld .NWU) + V3.dot (load.getTorqueInWorldAtCOG body .NWU) (body.angVelWorld .NWU) ≤ 0) ∧
    (body.posDt = 0 → ∀ fc, load.getForceInWorld fc = 0) := by
  intro load
  have em : ∀ v w : V3, -((Built.new b R mass damping).matrix.mulVec (gen v w)) = gen (-damping • v) (-damping • w) := by
    intro v w
    funext i
    show -(Matrix.mulVec (diagonalDamping ![damping, damping, damping, damping, damping, damping]) (gen v w)) i = _
    have : Matrix.mulVec (diagonalDamping ![damping, damping, damping, damping, damping, damping]) (gen v w) i = damping * gen v w i := by
      fin_cases i <;> simp [Matrix.mulVec, dotProduct, diagonalDamping, Fin.sum_univ_succ, gen]
    rw [this]
    fin_cases i <;> simp [gen]
  have e0 : load = f.setForceTorqueInBodyAtCOG body (-damping • body.cogVelBody .NWU) (-damping • body.angVelBody .NWU) .NWU := by
    show f.setForceTorqueInBodyAtCOG body (genForce (-((Built.new b R mass damping).matrix.mulVec (gen (body.cogVelBody .NWU) (body.angVelBody .NWU)))))
      (genTorque (-((Built.new b R mass damping).matrix.mulVec (gen (body.cogVelBody .NWU) (body.angVelBody .NWU))))) .NWU = _
    rw [em]; rfl
  have hs : ∀ (k : ℝ) (v : V3), body.toWorld (k • body.toBody v .NWU) .NWU = k • v := by
    intro k v
    show body.cog.rot.rotate (k • (quatInv body.cog.rot).rotate v) = k • v
    rw [Q.rotate_smul]
    congr 1
    exact toWorld_toBody h v .NWU
  have hN : IsLoad load body .NWU (-damping • body.cogVelWorld .NWU) (-damping • body.angVelWorld .NWU) (body.cogPositionInWorld .NWU) := by
    have := (C52_cog_loads f body h (-damping • body.cogVelBody .NWU) (-damping • body.angVelBody .NWU) .NWU).2.1
    rw [← e0] at this
    rw [show body.toWorld (-damping • body.cogVelBody .NWU) .NWU = -damping • body.cogVelWorld .NWU from hs _ _,
      show body.toWorld (-damping • body.angVelBody .NWU) .NWU = -damping • body.angVelWorld .NWU from hs _ _] at this
    exact this
  have hall : ∀ fc, IsLoad load body fc (-damping • body.cogVelWorld fc) (-damping • body.angVelWorld fc) (body.cogPositionInWorld fc) := by
    intro fc
    refine ⟨?_, fun a => ?_⟩
    · have h1 : load.force = -damping • body.posDt := hN.1
      show conv fc load.force = _
      rw [h1, conv_smul]; rfl
    · obtain ⟨a', rfl⟩ := exists_conv fc a
      have h1 : load.force = -damping • body.posDt := hN.1
      have h2 := hN.2 a'
      have h3 : load.getTorqueInWorldAtPointInWorld body (conv fc a') fc = conv fc (load.getTorqueInWorldAtPointInWorld body a' .NWU) := by
        show body.toWorld (conv fc load.torque) fc + V3.cross (conv fc body.cog.pos - conv fc a') (conv fc load.force) = conv fc (body.toWorld load.torque .NWU + V3.cross (body.cog.pos - a') load.force)
        rw [toWorld_conv, conv_add, ← conv_sub, ← conv_cross]; rfl
      rw [h3, h2, conv_add, conv_smul, conv_cross, conv_sub, conv_smul]; rfl
  refine ⟨hall, fun hd => ?_, fun h0 fc => ?_⟩
  · have hp := (C29_linear_partial (Built.new b R mass damping).matrix .world body h f).2.2.2.2 _ rfl ((C128_body b 1 mass damping one_pos).2.2.2.mpr hd)
    have e : body.cogVelWorld .NWU - fluidVelocity .world = body.cogVelWorld .NWU := by
      show body.cogVelWorld .NWU - 0 = _
      ext <;> simp
    unfold power at hp
    rw [e] at hp
    exact hp
  · rw [(hall fc).1]
    show -damping • conv fc body.posDt = 0
    rw [h0, conv_zero]
    ext <;> simp

/-- The hypotheses are met: a buoy that moves. -/
example (v : V3) : Placed (movingBody v) := movingBody_placed v

end Frydom.Cable.Buoys
