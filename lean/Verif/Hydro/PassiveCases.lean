import Verif.Hydro.PassiveBody

/-!
# A body on which the hypotheses of C195 are met

A box of 1 m³ and one tonne under water, hung from an anchor by an elastic line, comes to rest under a linear damping.
-/

noncomputable section

namespace Frydom.Hydro.Tethered
open Frydom.Geom Frydom.Core Frydom.Mesh Frydom.Mesh.Surface Frydom.Mesh.Clip Frydom.Cable
open Frydom.Link (HasVel)

/-- Height of the box. -/
def height (t : ℝ) : ℝ := -1.005 - Real.exp (-t)

/-- The box. -/
def lump (t : ℝ) : DBody :=
  { a := ⟨⟨⟨⟨0, 0, height t⟩, Q.one⟩, ⟨0, 0, Real.exp (-t)⟩, ⟨0, 0, 0, 0⟩, 0, ⟨0, 0, height t⟩, ⟨0, 0, Real.exp (-t)⟩⟩, ⟨0, 0, -Real.exp (-t)⟩, ⟨0, 0, 0, 0⟩⟩, mass := 1000, I := M3.one }

theorem exp_deriv (t : ℝ) : HasDerivAt (fun t : ℝ => Real.exp (-t)) (-Real.exp (-t)) t :=
  ((Real.hasDerivAt_exp (-t)).comp t (hasDerivAt_neg t)).congr_deriv (by ring)

theorem lump_moving : Moving fun t => (lump t).a := by
  refine vertical_moving (z := height) (z' := fun t => Real.exp (-t)) (z'' := fun t => -Real.exp (-t)) ?_ ?_
  · intro t
    exact ((exp_deriv t).const_sub (-1.005)).congr_deriv (by ring)
  · intro t
    exact exp_deriv t

theorem lump_placed (t : ℝ) : Placed (lump t).body := ⟨lump_moving.unit t, lump_moving.placed t⟩

theorem one_rotate (v : V3) : Q.one.rotate v = v := by
  ext <;> simp [Q.rotate, Q.toMat, Q.one] <;> ring

/-! ## The water -/

def lumpMesh (t : ℝ) : SMesh := (box (fun _ => 0) 1 1 1).translate ⟨0, 0, height t⟩

theorem lump_good (t : ℝ) : Good (lumpMesh t) :=
  ⟨⟨(box_boundary (fun _ => 0) 1 1 1).1, (box_boundary (fun _ => 0) 1 1 1).2⟩, by intro l hl; simp [lumpMesh, SMesh.translate, box, SMesh.rings] at hl⟩
theorem lump_at (t : ℝ) : AtSurface (lumpMesh t) := by intro l hl; simp [lumpMesh, SMesh.translate, box, SMesh.rings] at hl
theorem lump_volume (t : ℝ) : volInt (fun _ => 1) 0 (lumpMesh t).closedUp = 1 := by
  have j : List V3 → Junk := fun _ => ⟨0, 0, 0, 0⟩
  have h1 := C71_volume (lumpMesh t) (lump_good t) j 0
  have h2 := (C76_translate (box (fun _ => 0) 1 1 1) (box_good _ 1 1 1) j ⟨0, 0, height t⟩).2.1
  have h3 := (C75_box (fun _ => 0) 1 1 1 1 (by norm_num) j).1
  rw [h3] at h2
  have := Option.some.inj (h1.symm.trans h2)
  rw [this]
  norm_num
theorem lump_centre (j : List V3 → Junk) (t : ℝ) : (lumpMesh t).getCOG j = some ⟨0, 0, height t⟩ := by
  have h3 := C75_box (fun _ => 0) 1 1 1 1 (by norm_num) j
  obtain ⟨G, hG, hG'⟩ := (C76_translate (box (fun _ => 0) 1 1 1) (box_good _ 1 1 1) j ⟨0, 0, height t⟩).2.2 _ h3.1 (by norm_num)
  obtain rfl : G = 0 := Option.some.inj (hG.symm.trans h3.2.1)
  refine Eq.trans hG' ?_
  congr 1
  ext <;> simp

theorem lump_seen (t : ℝ) (p : V3) : seenFrom (lump t).body p = p + ⟨0, 0, height t⟩ := by
  have e : seenFrom (lump t).body p = ⟨0, 0, height t⟩ + rotate Q.one .NWU p - ⟨0, 0, 0⟩ := rfl
  have r : rotate Q.one .NWU p = p := one_rotate p
  rw [e, r]
  ext <;> simp
  ring

theorem lump_tris (t : ℝ) : (lumpMesh t).tris = (box (fun _ => 0) 1 1 1).tris.map (carry (seenFrom (lump t).body)) := by
  unfold SMesh.tris
  rw [List.map_map]
  refine List.map_congr_left fun f _ => ?_
  show triOf (lumpMesh t).pos f = carry _ (triOf (box (fun _ => 0) 1 1 1).pos f)
  unfold carry triOf
  simp only [lump_seen]
  rfl

theorem lump_wetted (t : ℝ) : Wetted ((box (fun _ => 0) 1 1 1).tris.map (carry (seenFrom (lump t).body))) (lumpMesh t) := by
  refine ⟨?_, ?_⟩
  · intro T hT
    rw [lump_tris] at hT
    obtain ⟨U, hU, rfl⟩ := List.mem_map.mp hT
    have hb : ∀ i, ((box (fun _ => 0) 1 1 1).pos i).z ≤ 1 := by
      intro i
      simp only [box]
      unfold boxPos
      split <;> norm_num
    have hU' : U.p.z ≤ 1 ∧ U.q.z ≤ 1 ∧ U.r.z ≤ 1 := by
      unfold SMesh.tris at hU
      obtain ⟨f, -, rfl⟩ := List.mem_map.mp hU
      exact ⟨hb _, hb _, hb _⟩
    simp only [carry, lump_seen, V3.add_z]
    have := Real.exp_pos (-t)
    have hz : height t ≤ -1 := by unfold height; linarith
    exact ⟨by linarith [hU'.1], by linarith [hU'.2.1], by linarith [hU'.2.2]⟩
  · intro f _ _ i
    rw [lump_tris]

/-- A pull at the centre of gravity has no torque there. -/
theorem lump_pull {F : Force} {t : ℝ} {w : V3} (h : IsLoad F (lump t).body .NWU w 0 ⟨0, 0, height t⟩) : F.force = w ∧ F.torque = 0 := by
  obtain ⟨l1, l2⟩ := h
  have l1' : F.force = w := l1
  refine ⟨l1', ?_⟩
  have h := l2 ⟨0, 0, height t⟩
  have e : F.getTorqueInWorldAtPointInWorld (lump t).body ⟨0, 0, height t⟩ .NWU =
      rotate Q.one .NWU F.torque + V3.cross ((⟨0, 0, height t⟩ : V3) - ⟨0, 0, height t⟩) F.force := rfl
  have r : rotate Q.one .NWU F.torque = F.torque := one_rotate _
  rw [e, r] at h
  have hx := congrArg V3.x h
  have hy := congrArg V3.y h
  have hz := congrArg V3.z h
  simp at hx hy hz
  ext
  · exact hx
  · exact hy
  · exact hz

theorem lump_water (j : List V3 → Junk) (t : ℝ) : ∃ F, computePlaneForce j 1000 10 (lumpMesh t) (lump t).body {} = some F ∧ F.force = ⟨0, 0, 10000⟩ ∧ F.torque = 0 := by
  have hF : hydrostaticForce 1000 10 (lumpMesh t) .NWU = ⟨0, 0, 10000⟩ := by
    rw [force_eq, pressure_force_sum (lump_good t).boundary (lump_at t) 1000 10 0, lump_volume]
    show (⟨0, 0, _⟩ : V3) = _
    norm_num
  have h2 : computePlaneForce j 1000 10 (lumpMesh t) (lump t).body {} =
      some (({} : Force).setForceInWorldAtPointInWorld (lump t).body ⟨0, 0, 10000⟩ ⟨0, 0, height t⟩ .NWU) := by
    unfold computePlaneForce centreOfBuoyancy
    rw [if_neg (by simp [lumpMesh, SMesh.translate, box]), lump_centre, hF]
    show some (Force.setForceInWorldAtPointInWorld _ _ _ ((⟨0, 0, height t⟩ : V3) + ⟨0, 0, 0⟩) .NWU) = _
    congr 2
    ext <;> simp
  exact ⟨_, h2, lump_pull (C52_point_forces {} (lump t).body (lump_placed t) ⟨0, 0, 10000⟩ ⟨0, 0, height t⟩ .NWU).2.1⟩

/-! ## The line -/

/-- The line: 1 m, EA = 1000 N, 10 N/m in the fluid, from the origin to the centre of gravity. -/
def tether (t : ℝ) : Line :=
  { (Line.new { sec := 1, young := 1000, lam := 1026 } true 1 eye (eye.refresh (lump t).body)).initLoad 1025 10 with t0 := ⟨0, 0, -10 - 1000 * Real.exp (-t)⟩ }

theorem tether_q (t : ℝ) : (tether t).q = 10 := by
  show (1026 - 1 * 1025) * (10:ℝ) = 10
  norm_num

theorem tether_loaded (t : ℝ) : Loaded (tether t) := by
  have := initLoad_loaded (Line.new { sec := 1, young := 1000, lam := 1026 } true 1 eye (eye.refresh (lump t).body)) 1025 10
  exact ⟨this.1, this.2⟩

theorem tether_N (t s : ℝ) (hs : s ≤ 1) : N (tether t) s = 10 + 1000 * Real.exp (-t) - 10 * s := by
  unfold N
  rw [tether_q]
  have h : (0:ℝ) ≤ 10 + 1000 * Real.exp (-t) - 10 * s := by linarith [Real.exp_pos (-t)]
  have e : (tether t).t0.x * (tether t).t0.x + (tether t).t0.y * (tether t).t0.y + ((tether t).t0.z + 10 * s) * ((tether t).t0.z + 10 * s) = (10 + 1000 * Real.exp (-t) - 10 * s) ^ 2 := by
    show (0:ℝ) * 0 + 0 * 0 + (-10 - 1000 * Real.exp (-t) + 10 * s) * (-10 - 1000 * Real.exp (-t) + 10 * s) = _
    ring
  rw [e, Real.sqrt_sq h]

theorem tether_end (t : ℝ) : (tether t).stop.positionInWorld .NWU = ⟨0, 0, height t⟩ := by
  show (⟨0, 0, height t⟩ : V3) + Q.one.rotate 0 = _
  rw [one_rotate]
  ext <;> simp

theorem tether_solved (t : ℝ) : (tether t).residual .NWU = 0 := by
  have hk : compliance (tether t) = 1 / 1000 := by
    show ((1000:ℝ) * 1)⁻¹ = _
    norm_num
  have hL : (tether t).len = 1 := rfl
  have h0 : (tether t).start.positionInWorld .NWU = 0 := rfl
  have ht : (tether t).t0 = ⟨0, 0, -10 - 1000 * Real.exp (-t)⟩ := rfl
  unfold Line.residual
  rw [position_eq (tether_loaded t) (by rw [tether_q]; norm_num), tether_end, hk, hL, tether_N t 1 le_rfl, tether_N t 0 zero_le_one, tether_q, h0, ht]
  ext
  · simp
  · simp
  · simp [height]
    ring

theorem tether_follows : Follows tether := by
  refine ⟨fun x y => ⟨rfl, rfl, rfl, rfl⟩, tether_loaded, fun x => by rw [tether_q]; norm_num, fun x => ?_, fun _ => rfl, fun x => ?_, tether_solved⟩
  · show (0:ℝ) < 1
    norm_num
  · show (0:ℝ) < 1000 * 1
    norm_num

def rope : Mooring := ⟨tether, eye, 0, true⟩

theorem rope_holds : rope.Holds lump := ⟨tether_follows, Q.isUnit_one, fun _ => rfl, fun _ => rfl⟩

theorem rope_load (t : ℝ) : (rope.load (lump t).body t).force = ⟨0, 0, 1000 * Real.exp (-t)⟩ ∧ (rope.load (lump t).body t).torque = 0 := by
  have hpull : (tether t).endTension .NWU = ⟨0, 0, 1000 * Real.exp (-t)⟩ := by
    unfold Line.endTension
    rw [tension_eq (tether_loaded t), tether_q]
    have hL : (tether t).len = 1 := rfl
    have ht : (tether t).t0 = ⟨0, 0, -10 - 1000 * Real.exp (-t)⟩ := rfl
    rw [hL, ht]
    ext <;> simp
  have h := node_load {} (lump t).body (lump_placed t) (eye.refresh (lump t).body) (refresh_attached eye _ Q.isUnit_one) ((tether t).endTension .NWU) .NWU
  have hp : (eye.refresh (lump t).body).positionInWorld .NWU = ⟨0, 0, height t⟩ := tether_end t
  rw [hp] at h
  have h' := lump_pull h
  rw [hpull] at h'
  have e : rope.load (lump t).body t =
      ({} : Force).setForceTorqueInWorldAtPointInBody (lump t).body ((tether t).endTension .NWU) 0 ((eye.refresh (lump t).body).positionInBody (lump t).body .NWU) .NWU := rfl
  rw [e, hpull]
  exact h'

/-! ## The damping -/

theorem lump_spin (t : ℝ) : (lump t).body.wvelPar = 0 := by
  unfold Body.wvelPar
  ext <;> simp [lump, DBody.body, qvec, Q.mul]

/-- Six coefficients of 2000. -/
def drag : Matrix (Fin 6) (Fin 6) ℝ := diagonalDamping fun _ => 2000

theorem drag_form (v : Fin 6 → ℝ) : 0 ≤ quadForm drag v := by
  unfold quadForm drag diagonalDamping
  refine Finset.sum_nonneg fun i _ => Finset.sum_nonneg fun j _ => ?_
  split_ifs with h
  · rw [h]
    nlinarith [mul_self_nonneg (v j)]
  · simp

theorem drag_load (t : ℝ) : (linearCompute drag .world (lump t).body {}).force = ⟨0, 0, -(2000 * Real.exp (-t))⟩ ∧ (linearCompute drag .world (lump t).body {}).torque = 0 := by
  have e1 : cogRelVel (lump t).body .world = ⟨0, 0, Real.exp (-t)⟩ := by
    show (Q.one.conj).rotate (⟨0, 0, Real.exp (-t)⟩ : V3) = _
    ext <;> simp [Q.rotate, Q.toMat, Q.one, Q.conj]
    norm_num
  have e2 : (lump t).body.angVelBody .NWU = 0 := by
    show (lump t).body.cog.rot.conj.rotate (lump t).body.wvelPar = 0
    rw [lump_spin, Frydom.Core.rotate_zero]
  have ef : (linearCompute drag .world (lump t).body {}).force = Q.one.rotate (genForce (-(drag.mulVec (gen (cogRelVel (lump t).body .world) ((lump t).body.angVelBody .NWU))))) := rfl
  have et : (linearCompute drag .world (lump t).body {}).torque = genTorque (-(drag.mulVec (gen (cogRelVel (lump t).body .world) ((lump t).body.angVelBody .NWU)))) := rfl
  rw [ef, et, one_rotate, e1, e2]
  constructor
  · ext <;> simp [genForce, gen, drag, diagonalDamping, Matrix.mulVec, dotProduct, Fin.sum_univ_six]
  · ext <;> simp [genTorque, gen, drag, diagonalDamping, Matrix.mulVec, dotProduct, Fin.sum_univ_six]

/-- A quadratic damping along the horizontal axes. -/
def plate : Quad := ⟨⟨1, 1, 1⟩, ⟨1, 1, 0⟩⟩

theorem plate_load (t : ℝ) : (quadCompute plate 1000 .world (lump t).body {}).force = 0 ∧ (quadCompute plate 1000 .world (lump t).body {}).torque = 0 := by
  have e1 : cogRelVel (lump t).body .world = ⟨0, 0, Real.exp (-t)⟩ := by
    show (Q.one.conj).rotate (⟨0, 0, Real.exp (-t)⟩ : V3) = _
    ext <;> simp [Q.rotate, Q.toMat, Q.one, Q.conj]
    norm_num
  refine ⟨?_, rfl⟩
  have ef : (quadCompute plate 1000 .world (lump t).body {}).force = Q.one.rotate ⟨-0.5 * 1000 * 1 * 1 * (cogRelVel (lump t).body .world).x * |(cogRelVel (lump t).body .world).x|,
      -0.5 * 1000 * 1 * 1 * (cogRelVel (lump t).body .world).y * |(cogRelVel (lump t).body .world).y|,
      -0.5 * 1000 * 0 * 1 * (cogRelVel (lump t).body .world).z * |(cogRelVel (lump t).body .world).z|⟩ := rfl
  rw [ef, one_rotate, e1]
  ext <;> simp

/-! ## All together -/

/-- The hypotheses of `C195_floating` are met by the box that comes to rest at the end of its line: its energy and those of the water and of the line decrease together. -/
example : Antitone (fun t => bodyEnergy 10 (lump t) + displacedEnergy 1000 10 (lumpMesh t) + ([rope].map fun m => storedEnergy (m.line t)).sum) := by
  have j : List V3 → Junk := fun _ => ⟨0, 0, 0, 0⟩
  choose F h1 h2 h3 using lump_water j
  have hw : ∀ t, (lump t).wvelLoc = 0 := by
    intro t
    unfold DBody.wvelLoc
    rw [lump_spin, Frydom.Core.rotate_zero]
  refine C195_floating j 1000 10 (box (fun _ => 0) 1 1 1).tris lump lumpMesh lump_good lump_at lump_wetted (by intro s; simp [lumpMesh, SMesh.translate, box])
    (by intro s; rw [lump_volume]; norm_num) (fun _ => {}) F h1 [rope] (by intro m hm; rw [List.mem_singleton.1 hm]; exact rope_holds) drag drag_form plate (by norm_num)
    (by simp [plate]) (by simp [plate]) ⟨lump_moving, fun _ _ => rfl, fun _ _ => rfl, ?_, fun _ => rfl, fun _ => rfl, fun _ => rfl, ?_, ?_, ?_⟩
  · intro t u v
    show V3.dot u (M3.one.mulVec v) = V3.dot (M3.one.mulVec u) v
    simp [V3.dot, M3.mulVec, M3.one]
  · intro t
    rw [hw]
    show (0 : V3) = _
    ext <;> simp
  · intro t
    show (1000:ℝ) • (⟨0, 0, -Real.exp (-t)⟩ : V3) = (0 : V3) + (1:ℝ) • ((0 : V3) + ((F t).force + ((rope.load (lump t).body t).force +
      ((linearCompute drag .world (lump t).body {}).force + ((quadCompute plate 1000 .world (lump t).body {}).force + 0)))) + (-((1000:ℝ) * 10)) • V3.e3)
    rw [h2, (rope_load t).1, (drag_load t).1, (plate_load t).1]
    ext <;> simp [V3.e3]
    ring
  · intro t
    have e : (lump t).a.angAccBody .NWU = 0 := by
      have : (lump t).a.waccPar = 0 := by
        ext <;> simp [lump, ABody.waccPar, qvec, Q.mul]
      unfold ABody.angAccBody ABody.angAccWorld
      rw [this, toBody_conv, Frydom.Core.rotate_zero, conv_zero]
    rw [e]
    show M3.mulVec M3.one 0 = (0 : V3) + (1:ℝ) • ((0 : V3) + ((F t).torque + ((rope.load (lump t).body t).torque +
      ((linearCompute drag .world (lump t).body {}).torque + ((quadCompute plate 1000 .world (lump t).body {}).torque + 0)))) - 0)
    rw [h3, (rope_load t).2, (drag_load t).2, (plate_load t).2]
    ext <;> simp

/-- The hypotheses of `C195_moored` are met by the mass of C194 that oscillates on its line, without damping. -/
example (t t' : ℝ) : bodyEnergy 10 (yoyo t) + ([(⟨hanger, eye, 0, true⟩ : Mooring)].map fun m => storedEnergy (m.line t)).sum =
    bodyEnergy 10 (yoyo t') + ([(⟨hanger, eye, 0, true⟩ : Mooring)].map fun m => storedEnergy (m.line t')).sum := by
  refine (C195_moored 10 yoyo [⟨hanger, eye, 0, true⟩] ?_ (fun _ => []) (by simp) ?_).2 (fun _ => rfl) t t'
  · intro m hm
    rw [List.mem_singleton.1 hm]
    exact ⟨hanger_follows, Q.isUnit_one, fun _ => rfl, fun _ => rfl⟩
  · exact ⟨yoyo_moving, yoyo_free.inertia, yoyo_free.mass, yoyo_free.symm, yoyo_free.noForce, yoyo_free.noTorque, yoyo_free.gyroOn, yoyo_free.gyro, yoyo_free.linear, yoyo_free.angular⟩

end Frydom.Hydro.Tethered
