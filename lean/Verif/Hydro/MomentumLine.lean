import Verif.Hydro.Momentum

/-!
# Momentum of floating bodies joined by a mooring line (C198)

The forces of a line on its two bodies (`FrCatenaryForce::Compute`, src/frydom/cable/FrCatenaryForce.cpp:29-51, Cable/Catenary.lean), the hydrostatic force of the plane surface
(src/frydom/hydrodynamics/hydrostatic/FrNonlinearHydrostaticForce.cpp:60-64, Buoyancy.lean) and the equations of the solver (BodyDynamics.lean, C164).
-/

noncomputable section

namespace Frydom.Hydro
open Frydom.Geom Frydom.Core Frydom.Cable Frydom.Mesh Frydom.Mesh.Clip Frydom.Mesh.Surface

/-! ## Specification -/

/-- The load is a vertical force whose moment about every point of the world is horizontal, as the API gives them. -/
structure Vertical (b : Body) (F : Force) : Prop where
  x : (F.getForceInWorld .NWU).x = 0
  y : (F.getForceInWorld .NWU).y = 0
  moment : ∀ p, (F.getTorqueInWorldAtPointInWorld b p .NWU).z = 0

/-! ## Lemmas -/

theorem vertical_forces {b : Body} {D : List Force} (h : ∀ F ∈ D, Vertical b F) {e : V3} (he : e.z = 0) : (D.map fun f => V3.dot e (f.getForceInWorld .NWU)).sum = 0 := by
  induction D with
  | nil => rfl
  | cons F D ih =>
    rw [List.map_cons, List.sum_cons, ih fun f hf => h f (List.mem_cons_of_mem _ hf)]
    have k := h F (by simp)
    simp [V3.dot, k.x, k.y, he]

theorem vertical_moments {b : Body} {D : List Force} (h : ∀ F ∈ D, Vertical b F) {e : V3} (hx : e.x = 0) (hy : e.y = 0) (p : V3) :
    (D.map fun f => V3.dot e (f.getTorqueInWorldAtPointInWorld b p .NWU)).sum = 0 := by
  induction D with
  | nil => rfl
  | cons F D ih =>
    rw [List.map_cons, List.sum_cons, ih fun f hf => h f (List.mem_cons_of_mem _ hf)]
    have k := h F (by simp)
    simp [V3.dot, k.moment, hx, hy]

/-- The two pulls of a line in equilibrium are together vertical, and so is the sum of their moments about every point without vertical component. -/
theorem pulls {l : Line} (h : Loaded l) (hq : l.q ≠ 0) (hr : l.residual .NWU = 0) {b b' : Body} (hb : Placed b) (hb' : Placed b') (ha : Attached b l.start) (ha' : Attached b' l.stop)
    (f f' : Force) :
    ((startForce l f b).getForceInWorld .NWU).x + ((endForce l f' b').getForceInWorld .NWU).x = 0 ∧
    ((startForce l f b).getForceInWorld .NWU).y + ((endForce l f' b').getForceInWorld .NWU).y = 0 ∧
    ∀ p, ((startForce l f b).getTorqueInWorldAtPointInWorld b p .NWU).z + ((endForce l f' b').getTorqueInWorldAtPointInWorld b' p .NWU).z = 0 := by
  obtain ⟨⟨h1, h2⟩, h3, h4⟩ := C92_loads l f f' b b' hb hb' ha ha' .NWU
  have hd : l.position l.len .NWU - l.stop.positionInWorld .NWU = 0 := hr
  rw [position_eq h hq] at hd
  have dx := congrArg V3.x hd
  have dy := congrArg V3.y hd
  simp only [V3.sub_x, V3.sub_y, V3.zero_x, V3.zero_y] at dx dy
  rw [h1, h3, tension_eq h, tension_eq h]
  refine ⟨by simp, by simp, fun p => ?_⟩
  rw [h2, h4, tension_eq h, tension_eq h]
  simp only [V3.add_z, V3.zero_z, V3.cross_z, V3.sub_x, V3.sub_y, V3.neg_x, V3.neg_y]
  linear_combination l.t0.y * dx - l.t0.x * dy

/-! ## C198 -/

/-- **C198, hydrostatic force.** The hydrostatic force of the plane surface on a body is a vertical load, whatever the wetted mesh. -/
theorem C198_hydrostatic (j : List V3 → Junk) (rho g : ℝ) (M : SMesh) (hM : M.IsBoundary) (h0 : AtSurface M) (b : Body) (hb : Placed b) (f F : Force)
    (h : computePlaneForce j rho g M b f = some F) : Vertical b F := by
  unfold computePlaneForce at h
  obtain ⟨c, -, rfl⟩ := Option.map_eq_some_iff.1 h
  obtain ⟨k1, k2⟩ := (C52_point_forces f b hb (hydrostaticForce rho g M .NWU) c .NWU).2.1
  have hF : hydrostaticForce rho g M .NWU = ⟨0, 0, rho * g * volInt (fun _ => 1) 0 M.closedUp⟩ := (force_eq rho g M .NWU).trans (pressure_force_sum hM h0 rho g 0)
  rw [hF] at k1 k2 ⊢
  refine ⟨?_, ?_, fun p => ?_⟩
  · rw [k1]
  · rw [k1]
  · rw [k2]
    simp

/-- **C198, two bodies joined by a line.** Two bodies under their weights, the two forces of a line in equilibrium that joins them, and any vertical loads (such as their hydrostatic forces): the
horizontal components of their momentum and the vertical component of their angular momentum about every fixed point remain the same for ever. -/
theorem C198_line (g : ℝ) (l : ℝ → Line) (hl : ∀ t, Loaded (l t)) (hq : ∀ t, (l t).q ≠ 0) (hr : ∀ t, (l t).residual .NWU = 0) (b b' : ℝ → DBody) (n n' : Node)
    (hn : n.rel.rot.IsUnit) (hn' : n'.rel.rot.IsUnit) (hs : ∀ t, (l t).start = n.refresh (b t).body) (he : ∀ t, (l t).stop = n'.refresh (b' t).body) (f f' : ℝ → Force)
    (D D' : ℝ → List Force) (hD : ∀ t, ∀ F ∈ D t, Vertical (b t).body F) (hD' : ∀ t, ∀ F ∈ D' t, Vertical (b' t).body F)
    (h : FreeUnderAll g b fun t => startForce (l t) (f t) (b t).body :: D t) (h' : FreeUnderAll g b' fun t => endForce (l t) (f' t) (b' t).body :: D' t) (e : V3) :
    (e.z = 0 → ∀ t t', V3.dot e (momentum (b t)) + V3.dot e (momentum (b' t)) = V3.dot e (momentum (b t')) + V3.dot e (momentum (b' t'))) ∧
    ∀ p, (e.x = 0 ∧ e.y = 0) → ∀ t t', V3.dot e (angularMomentum (b t) p) + V3.dot e (angularMomentum (b' t) p) =
      V3.dot e (angularMomentum (b t') p) + V3.dot e (angularMomentum (b' t') p) := by
  have hp : ∀ t, _ := fun t => pulls (hl t) (hq t) (hr t) (b := (b t).body) (b' := (b' t).body) ⟨h.moving.unit t, h.moving.placed t⟩ ⟨h'.moving.unit t, h'.moving.placed t⟩
    (by rw [hs]; exact refresh_attached n _ hn) (by rw [he]; exact refresh_attached n' _ hn') (f t) (f' t)
  constructor
  · intro hz
    have hd : ∀ t, HasDerivAt (fun s => V3.dot e (momentum (b s)) + V3.dot e (momentum (b' s))) 0 t := by
      intro t
      refine ((C197_momentum h e t).add (C197_momentum h' e t)).congr_deriv ?_
      obtain ⟨p1, p2, -⟩ := hp t
      rw [List.map_cons, List.map_cons, List.sum_cons, List.sum_cons, vertical_forces (hD t) hz, vertical_forces (hD' t) hz]
      simp only [V3.dot, weightOf, hz]
      linear_combination e.x * p1 + e.y * p2
    exact is_const_of_deriv_eq_zero (fun t => (hd t).differentiableAt) fun t => (hd t).deriv
  · rintro p ⟨hx, hy⟩
    have hd : ∀ t, HasDerivAt (fun s => V3.dot e (angularMomentum (b s) p) + V3.dot e (angularMomentum (b' s) p)) 0 t := by
      intro t
      refine ((C197_angular h e p t).add (C197_angular h' e p t)).congr_deriv ?_
      obtain ⟨-, -, p3⟩ := hp t
      rw [List.map_cons, List.map_cons, List.sum_cons, List.sum_cons, vertical_moments (hD t) hx hy, vertical_moments (hD' t) hx hy]
      have p4 := p3 p
      simp only [V3.dot, weightOf, hx, hy, V3.cross_z]
      linear_combination e.z * p4
    exact is_const_of_deriv_eq_zero (fun t => (hd t).differentiableAt) fun t => (hd t).deriv

/-- **C198, two floating bodies joined by a line.** In particular two floating bodies under their weights, the hydrostatic forces of the plane surface on their wetted meshes and the two forces of a
line in equilibrium: the same quantities are kept. -/
theorem C198_floating (j : List V3 → Junk) (rho g : ℝ) (M M' : ℝ → SMesh) (hM : ∀ t, (M t).IsBoundary) (hM' : ∀ t, (M' t).IsBoundary) (h0 : ∀ t, AtSurface (M t)) (h0' : ∀ t, AtSurface (M' t))
    (l : ℝ → Line) (hl : ∀ t, Loaded (l t)) (hq : ∀ t, (l t).q ≠ 0) (hr : ∀ t, (l t).residual .NWU = 0) (b b' : ℝ → DBody) (n n' : Node)
    (hn : n.rel.rot.IsUnit) (hn' : n'.rel.rot.IsUnit) (hs : ∀ t, (l t).start = n.refresh (b t).body) (he : ∀ t, (l t).stop = n'.refresh (b' t).body) (f f' k k' F F' : ℝ → Force)
    (hF : ∀ t, computePlaneForce j rho g (M t) (b t).body (k t) = some (F t)) (hF' : ∀ t, computePlaneForce j rho g (M' t) (b' t).body (k' t) = some (F' t))
    (h : FreeUnderAll g b fun t => [startForce (l t) (f t) (b t).body, F t]) (h' : FreeUnderAll g b' fun t => [endForce (l t) (f' t) (b' t).body, F' t]) (e : V3) :
    (e.z = 0 → ∀ t t', V3.dot e (momentum (b t)) + V3.dot e (momentum (b' t)) = V3.dot e (momentum (b t')) + V3.dot e (momentum (b' t'))) ∧
    ∀ p, (e.x = 0 ∧ e.y = 0) → ∀ t t', V3.dot e (angularMomentum (b t) p) + V3.dot e (angularMomentum (b' t) p) =
      V3.dot e (angularMomentum (b t') p) + V3.dot e (angularMomentum (b' t') p) := by
  refine C198_line g l hl hq hr b b' n n' hn hn' hs he f f' (fun t => [F t]) (fun t => [F' t]) ?_ ?_ h h' e
  · intro t G hG
    obtain rfl := List.mem_singleton.1 hG
    exact C198_hydrostatic j rho g (M t) (hM t) (h0 t) (b t).body ⟨h.moving.unit t, h.moving.placed t⟩ (k t) (F t) (hF t)
  · intro t G hG
    obtain rfl := List.mem_singleton.1 hG
    exact C198_hydrostatic j rho g (M' t) (hM' t) (h0' t) (b' t).body ⟨h'.moving.unit t, h'.moving.placed t⟩ (k' t) (F' t) (hF' t)

namespace Towing

/-- A body of one tonne that drifts at 3 m/s and goes up and down. -/
def drifting (z z' z'' : ℝ → ℝ) (t : ℝ) : DBody :=
  { a := ⟨⟨⟨⟨3 * t, 2, z t⟩, Q.one⟩, ⟨3, 0, z' t⟩, ⟨0, 0, 0, 0⟩, 0, ⟨3 * t, 2, z t⟩, ⟨3, 0, z' t⟩⟩, ⟨0, 0, z'' t⟩, ⟨0, 0, 0, 0⟩⟩, mass := 1000, I := M3.one }

theorem drifting_moving {z z' z'' : ℝ → ℝ} (h1 : ∀ t, HasDerivAt z (z' t) t) (h2 : ∀ t, HasDerivAt z' (z'' t) t) : Moving fun t => (drifting z z' z'' t).a := by
  refine ⟨fun _ => Q.isUnit_one, ?_, fun _ _ => rfl, ?_, ?_, ?_, ?_, ?_⟩
  · intro t
    show (⟨3 * t, 2, z t⟩ : V3) = ⟨3 * t, 2, z t⟩ + Q.one.rotate 0
    rw [rotate_zero]
    ext <;> simp
  · intro t
    ext <;> simp [Body.pointSpeed, qvec, qpure, drifting]
  · intro t
    refine ⟨?_, hasDerivAt_const _ _, h1 t⟩
    exact ((hasDerivAt_id t).const_mul (3:ℝ)).congr_deriv (mul_one _)
  · exact fun t => ⟨hasDerivAt_const _ _, hasDerivAt_const _ _, h2 t⟩
  · exact fun t => ⟨hasDerivAt_const _ _, hasDerivAt_const _ _, hasDerivAt_const _ _, hasDerivAt_const _ _⟩
  · exact fun t => ⟨hasDerivAt_const _ _, hasDerivAt_const _ _, hasDerivAt_const _ _, hasDerivAt_const _ _⟩

/-- The tug, and the mass below it that oscillates on its line. -/
def tug (t : ℝ) : DBody := drifting (fun _ => 0) (fun _ => 0) (fun _ => 0) t
def towed (t : ℝ) : DBody := drifting (fun t => -11.005 + Real.cos t) (fun t => -Real.sin t) (fun t => -Real.cos t) t

theorem tug_moving : Moving fun t => (tug t).a := drifting_moving (fun t => hasDerivAt_const t _) fun t => hasDerivAt_const t _
theorem towed_moving : Moving fun t => (towed t).a := drifting_moving (fun t => (Real.hasDerivAt_cos t).const_add (-11.005)) fun t => (Real.hasDerivAt_sin t).neg

/-- The line of C194 between them. -/
def towline (t : ℝ) : Line :=
  { (Line.new { sec := 1, young := 1000, lam := 1026 } true 1 (eye.refresh (tug t).body) (eye.refresh (towed t).body)).initLoad 1025 10 with t0 := ⟨0, 0, -10010 + 1000 * Real.cos t⟩ }
/-- What holds the tug at the surface. -/
def lift (t : ℝ) : Force := { force := ⟨0, 0, 20010 - 1000 * Real.cos t⟩ }

theorem towline_q (t : ℝ) : (towline t).q = 10 := hanger_q t
theorem towline_loaded (t : ℝ) : Loaded (towline t) := by
  have := initLoad_loaded (Line.new { sec := 1, young := 1000, lam := 1026 } true 1 (eye.refresh (tug t).body) (eye.refresh (towed t).body)) 1025 10
  exact ⟨this.1, this.2⟩

theorem start_at (t : ℝ) : (towline t).start.positionInWorld .NWU = ⟨3 * t, 2, 0⟩ := by
  show (⟨3 * t, 2, 0⟩ : V3) + Q.one.rotate 0 = _
  rw [rotate_zero]
  ext <;> simp
theorem stop_at (t : ℝ) : (towline t).stop.positionInWorld .NWU = ⟨3 * t, 2, -11.005 + Real.cos t⟩ := by
  show (⟨3 * t, 2, -11.005 + Real.cos t⟩ : V3) + Q.one.rotate 0 = _
  rw [rotate_zero]
  ext <;> simp

theorem towline_solved (t : ℝ) : (towline t).residual .NWU = 0 := by
  have hk : compliance (towline t) = 1 / 1000 := by
    show ((1000:ℝ) * 1)⁻¹ = _
    norm_num
  have hL : (towline t).len = 1 := rfl
  have ht : (towline t).t0 = ⟨0, 0, -10010 + 1000 * Real.cos t⟩ := rfl
  have hN : ∀ s ≤ 1, N (towline t) s = 10010 - 1000 * Real.cos t - 10 * s := hanger_N t
  unfold Line.residual
  rw [position_eq (towline_loaded t) (by rw [towline_q]; norm_num), stop_at, hk, hL, hN 1 le_rfl, hN 0 zero_le_one, towline_q, start_at, ht]
  ext
  · simp
  · simp
  · simp
    ring

/-- A load without couple at the COG. -/
theorem at_cog {F : Force} {b : DBody} {w : V3} (hb : b.body.cog.rot = Q.one) (h : IsLoad F b.body .NWU w 0 b.body.cog.pos) : F.force = w ∧ F.torque = 0 := by
  refine ⟨h.1, ?_⟩
  have k := h.2 b.body.cog.pos
  have e : F.getTorqueInWorldAtPointInWorld b.body b.body.cog.pos .NWU = b.body.cog.rot.rotate F.torque + V3.cross (b.body.cog.pos - b.body.cog.pos) F.force := rfl
  have r : Q.one.rotate F.torque = F.torque := by
    ext <;> simp [Q.rotate, Q.toMat, Q.one] <;> ring
  rw [e, hb, r] at k
  have hx := congrArg V3.x k
  have hy := congrArg V3.y k
  have hz := congrArg V3.z k
  simp at hx hy hz
  ext
  · exact hx
  · exact hy
  · exact hz

theorem towline_loads (t : ℝ) : ((startForce (towline t) {} (tug t).body).force = ⟨0, 0, -10010 + 1000 * Real.cos t⟩ ∧ (startForce (towline t) {} (tug t).body).torque = 0) ∧
    (endForce (towline t) {} (towed t).body).force = ⟨0, 0, 10000 - 1000 * Real.cos t⟩ ∧ (endForce (towline t) {} (towed t).body).torque = 0 := by
  obtain ⟨h1, h2⟩ := C92_loads (towline t) {} {} (tug t).body (towed t).body ⟨tug_moving.unit t, tug_moving.placed t⟩ ⟨towed_moving.unit t, towed_moving.placed t⟩
    (refresh_attached eye _ Q.isUnit_one) (refresh_attached eye _ Q.isUnit_one) .NWU
  have hL : (towline t).len = 1 := rfl
  have ht : (towline t).t0 = ⟨0, 0, -10010 + 1000 * Real.cos t⟩ := rfl
  rw [start_at] at h1
  rw [stop_at] at h2
  refine ⟨⟨(at_cog rfl h1).1.trans ?_, (at_cog rfl h1).2⟩, (at_cog rfl h2).1.trans ?_, (at_cog rfl h2).2⟩
  · rw [tension_eq (towline_loaded t), towline_q, ht]
    ext <;> simp
  · rw [tension_eq (towline_loaded t), towline_q, ht, hL]
    ext <;> simp
    ring

theorem drifting_free {z z' z'' : ℝ → ℝ} (hm : Moving fun t => (drifting z z' z'' t).a) (L : ℝ → List Force)
    (hL : ∀ t, DBody.sumForce (L t) = ⟨0, 0, 1000 * (z'' t + 10)⟩ ∧ DBody.sumTorque (L t) = 0) : FreeUnderAll 10 (drifting z z' z'') L := by
  have hw : ∀ t, (drifting z z' z'' t).wvelLoc = 0 := by
    intro t
    unfold DBody.wvelLoc Body.wvelPar
    have : (2:ℝ) • qvec ((drifting z z' z'' t).body.rotDt.mul (drifting z z' z'' t).body.cog.rot.conj) = 0 := by
      ext <;> simp [drifting, DBody.body, qvec, Q.mul]
    rw [this, rotate_zero]
  refine ⟨hm, fun _ _ => rfl, fun _ _ => rfl, ?_, fun _ => rfl, fun _ => rfl, fun _ => rfl, ?_, ?_, ?_⟩
  · intro t u v
    show V3.dot u (M3.one.mulVec v) = V3.dot (M3.one.mulVec u) v
    simp [V3.dot, M3.mulVec, M3.one]
  · intro t
    rw [hw]
    show (0 : V3) = _
    ext <;> simp
  · intro t
    show (1000:ℝ) • (⟨0, 0, z'' t⟩ : V3) = (0 : V3) + (1:ℝ) • ((0 : V3) + DBody.sumForce (L t) + (-((1000:ℝ) * 10)) • V3.e3)
    rw [(hL t).1]
    ext <;> simp [V3.e3]
    ring
  · intro t
    have e : (drifting z z' z'' t).a.angAccBody .NWU = 0 := by
      have : (drifting z z' z'' t).a.waccPar = 0 := by
        ext <;> simp [drifting, ABody.waccPar, qvec, Q.mul]
      unfold ABody.angAccBody ABody.angAccWorld
      rw [this, toBody_conv, rotate_zero, conv_zero]
    rw [e]
    show M3.mulVec M3.one 0 = (0 : V3) + (1:ℝ) • ((0 : V3) + DBody.sumTorque (L t) - 0)
    rw [(hL t).2]
    ext <;> simp

theorem tug_free : FreeUnderAll 10 tug fun t => [startForce (towline t) {} (tug t).body, lift t] := by
  refine drifting_free tug_moving _ fun t => ⟨?_, ?_⟩
  · show (startForce (towline t) {} (tug t).body).force + ((lift t).force + 0) = _
    rw [(towline_loads t).1.1]
    ext <;> simp [lift]
    ring
  · show (startForce (towline t) {} (tug t).body).torque + ((lift t).torque + 0) = _
    rw [(towline_loads t).1.2]
    ext <;> simp [lift]

theorem towed_free : FreeUnderAll 10 towed fun t => [endForce (towline t) {} (towed t).body] := by
  refine drifting_free towed_moving _ fun t => ⟨?_, ?_⟩
  · show (endForce (towline t) {} (towed t).body).force + 0 = _
    rw [(towline_loads t).2.1]
    ext <;> simp
    ring
  · show (endForce (towline t) {} (towed t).body).torque + 0 = _
    rw [(towline_loads t).2.2]
    ext <;> simp

theorem lift_vertical (t : ℝ) : Vertical (tug t).body (lift t) := by
  refine ⟨rfl, rfl, fun p => ?_⟩
  show (Q.one.rotate 0 + V3.cross ((tug t).body.cog.pos - p) (lift t).force).z = 0
  rw [rotate_zero]
  simp [lift]

/-- The hypotheses of `C198_hydrostatic` are met by a corner of a cube under the tug: its hydrostatic force is not zero and is a vertical load. -/
example (j : List V3 → Junk) (t : ℝ) : ∃ F, computePlaneForce j 1000 10 (coneMesh 1) (tug t).body {} = some F ∧ (F.getForceInWorld .NWU).z ≠ 0 ∧ Vertical (tug t).body F := by
  have hb : Placed (tug t).body := ⟨tug_moving.unit t, tug_moving.placed t⟩
  have hV : volInt (fun _ => 1) 0 (coneMesh 1).closedUp = 1 / 6 := by rw [coneMesh_volume]; norm_num
  obtain ⟨F, h1, -, h2, -⟩ := C78_archimedes_partial j 1000 10 (coneMesh 1) (coneMesh_good one_pos) (coneMesh_at 1) (by simp [coneMesh]) 0 (by rw [hV]; norm_num) (tug t).body hb {}
  refine ⟨F, h1, ?_, C198_hydrostatic j 1000 10 _ (coneMesh_good one_pos).boundary (coneMesh_at 1) _ hb {} F h1⟩
  rw [h2, hV]
  norm_num

/-- The hypotheses of `C198_line` are met by the tug and its mass: while they drift and the mass oscillates, their angular momentum about a vertical axis through any point is kept. -/
example (p : V3) (t : ℝ) : V3.dot V3.e3 (angularMomentum (tug t) p) + V3.dot V3.e3 (angularMomentum (towed t) p) =
    V3.dot V3.e3 (angularMomentum (tug 0) p) + V3.dot V3.e3 (angularMomentum (towed 0) p) :=
  (C198_line 10 towline towline_loaded (fun t => by rw [towline_q]; norm_num) towline_solved tug towed eye eye Q.isUnit_one Q.isUnit_one (fun _ => rfl) (fun _ => rfl) (fun _ => {}) (fun _ => {})
    (fun t => [lift t]) (fun _ => []) (fun t F hF => by obtain rfl := List.mem_singleton.1 hF; exact lift_vertical t) (fun _ _ hF => by simp at hF) tug_free towed_free V3.e3).2 p ⟨rfl, rfl⟩ t 0

/-- Their momentum along x is 6000 kg m/s. -/
example (t : ℝ) : V3.dot V3.e1 (momentum (tug t)) + V3.dot V3.e1 (momentum (towed t)) = 6000 := by
  show V3.dot V3.e1 ((1000:ℝ) • (⟨3, 0, 0⟩ : V3)) + V3.dot V3.e1 ((1000:ℝ) • (⟨3, 0, -Real.sin t⟩ : V3)) = 6000
  simp [V3.dot, V3.e1]
  norm_num

end Towing

end Frydom.Hydro
