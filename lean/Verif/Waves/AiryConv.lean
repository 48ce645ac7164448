import Verif.Waves.AiryProps

/-!
# Queries of the wave fields in the NED convention (C36)
-/

open Classical Filter Topology

noncomputable section

namespace Frydom.Waves
open Real Frydom.Geom

theorem Airy.ce_conv (f : Airy) (x y : ℝ) (i j : ℕ) :
    f.complexElevation x y .NED i j = -f.complexElevation x (-y) .NWU i j := by
  simp [Airy.complexElevation, nwuSign]

/-- **C36, elevation.** The elevation asked in NED at `(x, y)` is minus the elevation asked in NWU at the same point of space,
`(x, -y)`; regular and irregular fields. -/
theorem C36_elevation (f : Airy) (g : Regular) (x y : ℝ) :
    f.elevation x y .NED = -f.elevation x (-y) .NWU ∧ g.elevation x y .NED = -g.elevation x (-y) .NWU := by
  have h : ∀ f : Airy, f.elevation x y .NED = -f.elevation x (-y) .NWU := by
    intro f
    simp only [Airy.elevation, Airy.ce_conv, Complex.neg_im, Finset.sum_neg_distrib]
  exact ⟨h f, by rw [← Regular.elevation_toAiry, ← Regular.elevation_toAiry]; exact h _⟩

/-- What the velocity and acceleration getters do in NED: they convert the components and the depth, but read the field at
`(x, y)` instead of `(x, -y)` (the sign of `y` is changed twice). No stretching. -/
theorem Airy.velocity_ned (f : Airy) (hk : f.kind = .none) (x y z : ℝ) :
    f.velocity x y z .NED = conv .NED (f.velocity x y (-z) .NWU) ∧
    f.acceleration x y z .NED = conv .NED (f.acceleration x y (-z) .NWU) := by
  have hre : ∀ i j, (f.complexElevation x (-y) .NED i j).re = -(f.complexElevation x y .NWU i j).re := by
    intro i j; rw [f.ce_conv]; simp
  have him : ∀ i j, (f.complexElevation x (-y) .NED i j).im = -(f.complexElevation x y .NWU i j).im := by
    intro i j; rw [f.ce_conv]; simp
  constructor
  · ext
    · simp only [conv, swap]
      rw [vx_eq, vx_eq]
      simp only [nwuSign, evalV_none hk, neg_mul, one_mul, him]
      simp
    · simp only [conv, swap]
      rw [vy_eq, vy_eq]
      simp only [nwuSign, evalV_none hk, neg_mul, one_mul, him, ← Finset.sum_neg_distrib]
      simp
    · simp only [conv, swap]
      rw [vz_eq, vz_eq]
      simp only [nwuSign, evalDZV_none hk, neg_mul, one_mul, hre, ← Finset.sum_neg_distrib]
      simp
  · ext
    · simp only [conv, swap]
      rw [ax_eq, ax_eq]
      simp only [nwuSign, evalV_none hk, neg_mul, one_mul, hre]
      simp
    · simp only [conv, swap]
      rw [ay_eq, ay_eq]
      simp only [nwuSign, evalV_none hk, neg_mul, one_mul, hre, ← Finset.sum_neg_distrib]
      simp
    · simp only [conv, swap]
      rw [az_eq, az_eq]
      simp only [nwuSign, evalDZV_none hk, neg_mul, one_mul, him, ← Finset.sum_neg_distrib]
      simp

theorem Airy.ce_indep (f : Airy) (x y y' : ℝ) (fc : FC) (i j : ℕ) (h : sin (f.dir i) = 0) :
    f.complexElevation x y fc i j = f.complexElevation x y' fc i j := by
  simp [Airy.complexElevation, h]

theorem Airy.velocity_indep (f : Airy) (hk : f.kind = .none) (x y y' z : ℝ) (h : ∀ i, i < f.nbDir → sin (f.dir i) = 0) :
    f.velocity x y z .NWU = f.velocity x y' z .NWU ∧ f.acceleration x y z .NWU = f.acceleration x y' z .NWU := by
  have e : ∀ y y' j, (f.complexVelocity x y z .NWU j) = f.complexVelocity x y' z .NWU j := by
    intro y y' j
    simp only [complexVelocity, evalV_none hk, evalDZV_none hk, nwuSign, one_mul, Prod.mk.injEq]
    refine ⟨Finset.sum_congr rfl fun i hi => ?_, Finset.sum_congr rfl fun i hi => ?_, Finset.sum_congr rfl fun i hi => ?_⟩ <;>
      rw [f.ce_indep x y y' .NWU i j (h i (Finset.mem_range.mp hi))]
  simp only [velocity, acceleration, e y y']
  exact ⟨trivial, trivial⟩

/-- **C36, velocity and acceleration (part).** In NED the velocity and acceleration are the NED components of the NWU ones at the
same point of space, in the vertical plane `y = 0` or when every wave travels along the x axis. Missing: other points and
directions, where the code reads the field at the mirrored point (`C36_velocity_counterexample`). No stretching. -/
theorem C36_velocity_partial (f : Airy) (hk : f.kind = .none) (x y z : ℝ)
    (h : y = 0 ∨ ∀ i, i < f.nbDir → sin (f.dir i) = 0) :
    f.velocity x y z .NED = conv .NED (f.velocity x (-y) (-z) .NWU) ∧
    f.acceleration x y z .NED = conv .NED (f.acceleration x (-y) (-z) .NWU) := by
  obtain ⟨h1, h2⟩ := f.velocity_ned hk x y z
  rcases h with rfl | h
  · rw [h1, h2, neg_zero]; exact ⟨rfl, rfl⟩
  · obtain ⟨h3, h4⟩ := f.velocity_indep hk x y (-y) (-z) h
    rw [h1, h2, h3, h4]; exact ⟨rfl, rfl⟩

/-- **C36, pressure, what the code does**: the dynamic pressure asked in NED is the opposite of the NWU pressure at a point with
the height not converted. -/
theorem C36_pressure_ned (f : Airy) (x y z : ℝ) : f.pressure x y z .NED = -f.pressure x (-y) z .NWU := by
  simp only [Airy.pressure, Airy.ce_conv, Complex.neg_im, nwuSign, neg_mul, one_mul, mul_neg, Finset.sum_neg_distrib]

/-- A unit regular wave travelling to the west (NWU direction π/2), wave number 1 in deep water. -/
def beamSea : Regular := ⟨1, 1, 1, π / 2, 0, 1, 0, 1, 1, true, true, .none⟩

/-- **C36 fails for the velocity** off the plane `y = 0`: in a beam sea, at `y = π/2` (NED) the lateral velocity should be
that of the trough (the crest moves with the wave, here towards −y), the code gives that of the crest. -/
theorem C36_velocity_counterexample :
    (beamSea.velocity 0 (π / 2) 0 .NED).y = -1 ∧ (conv .NED (beamSea.velocity 0 (-(π / 2)) (-0) .NWU)).y = 1 := by
  rw [← Regular.velocity_toAiry, ← Regular.velocity_toAiry, (Airy.velocity_ned _ rfl 0 (π / 2) 0).1]
  have hv : ∀ y, (beamSea.toAiry.velocity 0 y 0 .NWU).y = sin y := by
    intro y
    rw [Airy.vy_eq]
    simp only [Airy.evalV_none (f := beamSea.toAiry) rfl, Airy.ce_im]
    simp [beamSea, Regular.toAiry, Airy.ph, nwuSign, Ez]
  simp only [conv, swap, neg_zero, hv]
  simp

/-- **C36 fails for the pressure**: in a unit head sea in deep water the dynamic pressure under the crest, at 1 m depth, is
`e⁻¹` in NWU; in NED the same query gives `-e`. -/
theorem C36_pressure_counterexample :
    let f : Regular := ⟨1, 1, 1, 0, 0, 1, 0, 1, 1, true, true, .none⟩
    f.pressure (π / 2) 0 (-1) .NWU = exp (-1) ∧ f.pressure (π / 2) 0 1 .NED = -exp 1 := by
  intro f
  have e : ∀ fc, f.elevation (π / 2) 0 fc = nwuSign fc := by
    intro fc
    rw [← Regular.elevation_toAiry]
    simp only [Airy.elevation, Airy.ce_im]
    simp [f, Regular.toAiry, Airy.ph]
  simp only [Regular.pressure, e, Regular.evalV]
  simp [f, eval5, Ez, nwuSign]

/-- **C36, cut-off in NWU.** With the cut-off option the velocity and acceleration are zero above the wave elevation and those
of the field below it. -/
theorem C36_cutoff_nwu (f : Airy) (x y z : ℝ) :
    (f.elevation x y .NWU < z → f.velocityCut x y z true .NWU = 0 ∧ f.accelerationCut x y z true .NWU = 0) ∧
    (z ≤ f.elevation x y .NWU → f.velocityCut x y z true .NWU = f.velocity x y z .NWU ∧
      f.accelerationCut x y z true .NWU = f.acceleration x y z .NWU) ∧
    f.velocityCut x y z false .NWU = f.velocity x y z .NWU ∧ f.accelerationCut x y z false .NWU = f.acceleration x y z .NWU := by
  refine ⟨fun h => ?_, fun h => ?_, ?_⟩
  · simp [Airy.velocityCut, Airy.accelerationCut, h]
  · simp [Airy.velocityCut, Airy.accelerationCut, not_lt.mpr h]
  · simp [Airy.velocityCut, Airy.accelerationCut]

/-- **The cut-off is inverted in NED**: every point strictly under the free surface gets a zero velocity and acceleration, and
the points in the air get those of the wave field. -/
theorem C36_cutoff_ned_counterexample (f : Airy) (x y z : ℝ) :
    (-z < f.elevation x (-y) .NWU → f.velocityCut x y z true .NED = 0 ∧ f.accelerationCut x y z true .NED = 0) ∧
    (f.elevation x (-y) .NWU < -z → f.velocityCut x y z true .NED = f.velocity x y z .NED ∧
      f.accelerationCut x y z true .NED = f.acceleration x y z .NED) := by
  have e := (C36_elevation f ⟨0, 0, 0, 0, 0, 0, 0, 0, 0, false, false, .none⟩ x y).1
  constructor
  · intro h
    have : f.elevation x y .NED < z := by rw [e]; linarith
    simp [Airy.velocityCut, Airy.accelerationCut, this]
  · intro h
    have : ¬ f.elevation x y .NED < z := by rw [e]; linarith
    simp [Airy.velocityCut, Airy.accelerationCut, this]

/-- Non-vacuity of `C36_velocity_partial`: the velocity under a unit crest is not zero. -/
example : (beamSea.toAiry.velocity 0 0 0 .NED).z = 1 := by
  rw [(C36_velocity_partial beamSea.toAiry rfl 0 0 0 (Or.inl rfl)).1]
  simp only [conv, swap]
  rw [Airy.vz_eq]
  simp only [Airy.evalDZV_none (f := beamSea.toAiry) rfl, Airy.ce_re]
  simp [beamSea, Regular.toAiry, Airy.ph, nwuSign, diffEz]

end Frydom.Waves
