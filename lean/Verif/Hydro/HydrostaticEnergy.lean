import Verif.Hydro.DepthDerivative
import Verif.Core.BodyDynamics
import Verif.Link.SpringDamper
import Mathlib.Analysis.Calculus.MeanValue

/-!
# The hydrostatic load derives from a potential energy (C191)

`FrNonlinearHydrostaticForce` (Buoyancy.lean, C78) on a body that moves: its power is the rate at which the potential energy of the displaced water, ρ g times the integral of the depth over the immersed
volume, decreases, whatever the motion. With the weight and the equations of motion (C164) the mechanical energy of a body floating freely in still water is constant.
-/

noncomputable section

namespace Frydom.Hydro
open Frydom.Geom Frydom.Core Frydom.Mesh Frydom.Mesh.Surface Frydom.Mesh.Clip
open Frydom.Link (HasVel)
open Filter Topology

/-! ## Specification -/

/-- Where `FrHydroMesh::Compute` (FrHydroMesh.cpp:98-118) puts a point of the hull: in the world, relative to the horizontal position of the body. -/
def seenFrom (b : Body) (p : V3) : V3 := b.pointInWorld p .NWU - horizontal b

/-- `M` is the part of the surface `H` that is under the sea: it is under the sea, and every quantity that vanishes above the sea has the same integrals (with the normal) on both. -/
structure Wetted (H : List Tri) (M : SMesh) : Prop where
  under : ∀ t ∈ M.tris, t.p.z ≤ 0 ∧ t.q.z ≤ 0 ∧ t.r.z ≤ 0
  same : ∀ f : ℝ → ℝ → ℝ → ℝ, Continuous (fun x : ℝ × ℝ × ℝ => f x.1 x.2.1 x.2.2) → (∀ x y z, 0 ≤ z → f x y z = 0) → ∀ i : Fin 3,
    (M.tris.map fun t => coord i (flux (fun v => f v.x v.y v.z) t)).sum = (H.map fun t => coord i (flux (fun v => f v.x v.y v.z) t)).sum

/-- Potential energy of the displaced water: ρ g times the integral of the depth over the immersed volume. -/
def displacedEnergy (rho g : ℝ) (M : SMesh) : ℝ := rho * g * volInt (fun v => -v.z) 0 M.closedUp

/-! ## The sums over the hull -/

theorem sum_deriv (f : Tri → ℝ → ℝ) (f' : Tri → ℝ) (t : ℝ) (T : List Tri) (hT : ∀ u ∈ T, HasDerivAt (f u) (f' u) t) :
    HasDerivAt (fun s => (T.map fun u => f u s).sum) (T.map f').sum t := by
  induction T with
  | nil => exact hasDerivAt_const _ _
  | cons u T ih =>
    simp only [List.map_cons, List.sum_cons]
    exact (hT u (by simp)).add (ih fun v hv => hT v (List.mem_cons_of_mem _ hv))

theorem simplex_under {f g : V3 → ℝ} {t : Tri} (hp : t.p.z ≤ 0) (hq : t.q.z ≤ 0) (hr : t.r.z ≤ 0) (h : ∀ v : V3, v.z ≤ 0 → f v = g v) :
    flux f t = flux g t := by
  unfold flux simplex
  congr 1
  refine intervalIntegral.integral_congr fun u hu => intervalIntegral.integral_congr fun v hv => h _ ?_
  rw [Set.uIcc_of_le zero_le_one] at hu
  rw [Set.uIcc_of_le (by linarith [hu.2])] at hv
  simp only [V3.add_z, V3.smul_z, V3.sub_z]
  have e : t.p.z + u * (t.q.z - t.p.z) + v * (t.r.z - t.p.z) = (1 - u - v) * t.p.z + u * t.q.z + v * t.r.z := by ring
  rw [e]
  have h1 := mul_nonpos_of_nonneg_of_nonpos (show 0 ≤ 1 - u - v by linarith [hv.2]) hp
  have h2 := mul_nonpos_of_nonneg_of_nonpos hu.1 hq
  have h3 := mul_nonpos_of_nonneg_of_nonpos hv.1 hr
  linarith

theorem depth_under {v : V3} (h : v.z ≤ 0) : depth v = -v.z := max_eq_left (by linarith)
theorem depth_over {z : ℝ} (h : 0 ≤ z) : max (-z) 0 = 0 := max_eq_right (by linarith)

section Sums
variable {H : List Tri} {M : SMesh} (hw : Wetted H M) (hM : M.IsBoundary) (h0 : AtSurface M)
include hw hM h0

theorem sum_depth_sq (i : Fin 3) : (H.map fun t => coord i (flux (fun v => depth v ^ 2) t)).sum = if i = 2 then 2 * volInt (fun v => v.z) 0 M.closedUp else 0 := by
  have h := hw.same (fun _ _ z => max (-z) 0 ^ 2) (by fun_prop) (fun _ _ z hz => by rw [depth_over hz]; norm_num) i
  have e : (fun v : V3 => depth v ^ 2) = fun v => max (-v.z) 0 ^ 2 := rfl
  rw [e, ← h]
  have k := faces2 hM h0 0 2 i 0
  have c : M.tris.map (fun t => coord i (flux (fun v => max (-v.z) 0 ^ 2) t)) = M.tris.map fun t => coord i (flux (fun v => (coord 2 v - 0) * v.z) t) := by
    refine List.map_congr_left fun t ht => ?_
    obtain ⟨a, b, c⟩ := hw.under t ht
    rw [simplex_under a b c fun v hv => ?_]
    show max (-v.z) 0 ^ 2 = (v.z - 0) * v.z
    rw [max_eq_left (by linarith)]
    ring
  rw [c, k]
  by_cases hi : i = 2
  · simp only [hi, if_true]
    have : (coord 2 : V3 → ℝ) = fun v => v.z := rfl
    rw [this]
    ring
  · simp [hi]

theorem sum_depth : (H.map fun t => coord 2 (flux depth t)).sum = -volInt (fun _ => 1) 0 M.closedUp := by
  have h := hw.same (fun _ _ z => max (-z) 0) (by fun_prop) (fun _ _ z hz => depth_over hz) 2
  have e : depth = fun v : V3 => max (-v.z) 0 := rfl
  rw [e, ← h]
  have k := faces1 hM h0 0 2
  have c : M.tris.map (fun t => coord 2 (flux (fun v => max (-v.z) 0) t)) = M.tris.map fun t => (-1) * coord 2 (flux (fun v => v.z) t) := by
    refine List.map_congr_left fun t ht => ?_
    obtain ⟨a, b, c⟩ := hw.under t ht
    rw [simplex_under (g := fun v => (-1) * v.z) a b c fun v hv => by rw [max_eq_left (by linarith)]; ring]
    unfold flux simplex
    simp only [intervalIntegral.integral_const_mul, coord_smul]
    ring
  rw [c, sum_map_mul, k, if_pos rfl]
  ring

theorem sum_depth_lever (i : Fin 3) (hi : i ≠ 2) (P : ℝ) :
    (H.map fun t => coord 2 (flux (fun v => (coord i v - P) * depth v) t)).sum = -(volInt (coord i) 0 M.closedUp - P * volInt (fun _ => 1) 0 M.closedUp) := by
  have hc : Continuous fun x : ℝ × ℝ × ℝ => (coord i ⟨x.1, x.2.1, x.2.2⟩ - P) * max (-x.2.2) 0 := by
    fin_cases i
    · show Continuous fun x : ℝ × ℝ × ℝ => (x.1 - P) * max (-x.2.2) 0
      fun_prop
    · show Continuous fun x : ℝ × ℝ × ℝ => (x.2.1 - P) * max (-x.2.2) 0
      fun_prop
    · exact absurd rfl hi
  have h := hw.same (fun x y z => (coord i ⟨x, y, z⟩ - P) * max (-z) 0) hc (fun _ _ z hz => by rw [depth_over hz, mul_zero]) 2
  have e : (fun v : V3 => (coord i v - P) * depth v) = fun v => (coord i ⟨v.x, v.y, v.z⟩ - P) * max (-v.z) 0 := rfl
  rw [e, ← h]
  have k := faces2 hM h0 0 i 2 P
  have c : M.tris.map (fun t => coord 2 (flux (fun v => (coord i ⟨v.x, v.y, v.z⟩ - P) * max (-v.z) 0) t)) =
      M.tris.map fun t => (-1) * coord 2 (flux (fun v => (coord i v - P) * v.z) t) := by
    refine List.map_congr_left fun t ht => ?_
    obtain ⟨a, b, c⟩ := hw.under t ht
    rw [simplex_under (g := fun v => (-1) * ((coord i v - P) * v.z)) a b c fun v hv => by
      show (coord i v - P) * max (-v.z) 0 = _
      rw [max_eq_left (by linarith)]; ring]
    unfold flux simplex
    simp only [intervalIntegral.integral_const_mul, coord_smul]
    ring
  rw [c, sum_map_mul, k, if_pos rfl, if_neg (fun h => hi h.symm)]
  ring

theorem energy_eq (rho g : ℝ) : displacedEnergy rho g M = -(rho * g / 2) * (H.map fun t => coord 2 (flux (fun v => depth v ^ 2) t)).sum := by
  rw [sum_depth_sq hw hM h0 2, if_pos rfl]
  unfold displacedEnergy
  have : volInt (fun v : V3 => -v.z) 0 M.closedUp = -volInt (fun v => v.z) 0 M.closedUp := by
    unfold volInt
    have e : tetInt (fun v : V3 => -v.z) 0 = fun t => (-1) * tetInt (fun v => v.z) 0 t := by
      funext t
      unfold tetInt
      simp only [intervalIntegral.integral_neg]
      ring
    rw [e, sum_map_mul]
    ring
  rw [this]
  ring

end Sums

/-! ## The motion of the hull -/

theorem seen_rate {b : ℝ → ABody} (h : Moving b) (t : ℝ) (p : V3) :
    RigidRate (fun s => seenFrom (b s).body) t ((b t).body.velWorldAtPointInBody p .NWU - ⟨((b t).body.linVelWorld .NWU).x, ((b t).body.linVelWorld .NWU).y, 0⟩)
      ((b t).body.angVelWorld .NWU) (seenFrom (b t).body p) := by
  intro q
  obtain ⟨hp, -, -, -, hl, -, ha, -⟩ := C160_motion b h p (Node.new Body.new) t .NWU
  have hh : HasVel (fun s => horizontal (b s).body) ⟨((b t).body.linVelWorld .NWU).x, ((b t).body.linVelWorld .NWU).y, 0⟩ t := ⟨hl.1, hl.2.1, hasDerivAt_const _ _⟩
  have e : ∀ s, (b s).body.pointInWorld q .NWU = (b s).body.pointInWorld p .NWU + (b s).body.getQuaternion.rotate (q - p) := by
    intro s
    unfold Body.pointInWorld Body.toWorld Body.getQuaternion
    show _ + rotate _ .NWU q = _ + rotate _ .NWU p + _
    show _ + Q.rotate _ q = _ + Q.rotate _ p + _
    rw [Q.rotate_sub]
    ext <;> simp
  have hq := (hasVel_add hp (ha (q - p))).sub hh
  have es : ∀ s, seenFrom (b s).body q = (b s).body.pointInWorld p .NWU + (b s).body.getQuaternion.rotate (q - p) - horizontal (b s).body := by
    intro s
    unfold seenFrom
    rw [e]
  have ed : seenFrom (b t).body q - seenFrom (b t).body p = (b t).body.getQuaternion.rotate (q - p) := by
    rw [es]
    unfold seenFrom
    ext <;> simp
  simp only [ed]
  simp only [es]
  refine hq.congr ?_
  ext <;> simp <;> ring

/-- **C191, the hydrostatic load is conservative.** A body of any hull `H` (triangles in body axes) moves in any way; at every time the mesh given to the hydrostatics is the part of the hull under the sea.
At a time when it displaces some water, `Compute` succeeds and the power of the load (force times velocity of any point of the body plus torque about it times angular velocity) is minus the rate of the
potential energy of the displaced water. -/
theorem C191_power (j : List V3 → Junk) (rho g : ℝ) (H : List Tri) (b : ℝ → ABody) (hb : Moving b) (M : ℝ → SMesh) (hM : ∀ s, Good (M s)) (h0 : ∀ s, AtSurface (M s))
    (hw : ∀ s, Wetted (H.map (carry (seenFrom (b s).body))) (M s)) (f : Force) (t : ℝ) (hne : (M t).nv ≠ 0) (hV : volInt (fun _ => 1) 0 (M t).closedUp ≠ 0) :
    ∃ f', computePlaneForce j rho g (M t) (b t).body f = some f' ∧
      ∀ p, HasDerivAt (fun s => displacedEnergy rho g (M s))
        (-(V3.dot (f'.getForceInWorld .NWU) ((b t).body.velWorldAtPointInBody p .NWU) +
          V3.dot (f'.getTorqueInWorldAtPointInBody (b t).body p .NWU) ((b t).body.angVelWorld .NWU))) t := by
  have hpl : Placed (b t).body := ⟨hb.unit t, hb.placed t⟩
  obtain ⟨f', h1, -, h3, h4⟩ := C78_archimedes_partial j rho g (M t) (hM t) (h0 t) hne 0 hV (b t).body hpl f
  refine ⟨f', h1, fun p => ?_⟩
  have hr := seen_rate hb t p
  have key := (sum_deriv (fun T s => coord 2 (flux (fun v => depth v ^ 2) (carry (seenFrom (b s).body) T))) _ t H fun T _ => carry_deriv hr T).const_mul (-(rho * g / 2))
  have e : ∀ s, displacedEnergy rho g (M s) = -(rho * g / 2) * (H.map fun T => coord 2 (flux (fun v => depth v ^ 2) (carry (seenFrom (b s).body) T))).sum := by
    intro s
    rw [energy_eq (hw s) (hM s).boundary (h0 s), List.map_map]
    rfl
  simp only [e]
  refine key.congr_deriv ?_
  have s0 := sum_depth_sq (hw t) (hM t).boundary (h0 t) 0
  have s1 := sum_depth_sq (hw t) (hM t).boundary (h0 t) 1
  have d := sum_depth (hw t) (hM t).boundary (h0 t)
  have lx := sum_depth_lever (hw t) (hM t).boundary (h0 t) 0 (by decide) (seenFrom (b t).body p).x
  have ly := sum_depth_lever (hw t) (hM t).boundary (h0 t) 1 (by decide) (seenFrom (b t).body p).y
  rw [if_neg (by decide), List.map_map] at s0 s1
  rw [List.map_map] at d lx ly
  simp only [Function.comp_def] at s0 s1 d lx ly
  have ht := h4 ((b t).body.pointInWorld p .NWU)
  rw [pressure_moment_sum (hM t).boundary (h0 t) rho g 0] at ht
  unfold Force.getTorqueInWorldAtPointInBody
  rw [ht, h3]
  have cx : (coord 0 : V3 → ℝ) = fun v => v.x := rfl
  have cy : (coord 1 : V3 → ℝ) = fun v => v.y := rfl
  have ex : (fun T : Tri => coord 2 (flux (fun v => (v.x - (seenFrom (b t).body p).x) * depth v) (carry (seenFrom (b t).body) T))) =
      fun T => coord 2 (flux (fun v => (coord 0 v - (seenFrom (b t).body p).x) * depth v) (carry (seenFrom (b t).body) T)) := rfl
  have ey : (fun T : Tri => coord 2 (flux (fun v => (v.y - (seenFrom (b t).body p).y) * depth v) (carry (seenFrom (b t).body) T))) =
      fun T => coord 2 (flux (fun v => (coord 1 v - (seenFrom (b t).body p).y) * depth v) (carry (seenFrom (b t).body) T)) := rfl
  rw [sum_map_sub, sum_map_sub, sum_map_mul, sum_map_mul, sum_map_mul, sum_map_sub, sum_map_add, sum_map_mul, sum_map_mul, sum_map_mul, ex, ey, s0, s1, d, lx, ly, cx, cy]
  have px : (seenFrom (b t).body p).x = ((b t).body.pointInWorld p .NWU - ⟨(b t).body.refPos.x, (b t).body.refPos.y, 0⟩).x := rfl
  have py : (seenFrom (b t).body p).y = ((b t).body.pointInWorld p .NWU - ⟨(b t).body.refPos.x, (b t).body.refPos.y, 0⟩).y := rfl
  rw [px, py]
  unfold V3.dot
  simp only [V3.smul_x, V3.smul_y, V3.smul_z, V3.sub_z]
  ring

/-! ## The energy of a floating body -/

/-- Kinetic energy of translation and of rotation and potential energy of the weight, as the API gives the velocities and the position of the COG. -/
def bodyEnergy (g : ℝ) (b : DBody) : ℝ :=
  b.mass / 2 * V3.dot (b.body.cogVelWorld .NWU) (b.body.cogVelWorld .NWU) + V3.dot (b.body.angVelBody .NWU) (b.I.mulVec (b.body.angVelBody .NWU)) / 2 +
    b.mass * g * (b.body.cogPositionInWorld .NWU).z

theorem dot_deriv {p q : ℝ → V3} {p' q' : V3} {t : ℝ} (hp : HasVel p p' t) (hq : HasVel q q' t) :
    HasDerivAt (fun s => V3.dot (p s) (q s)) (V3.dot p' (q t) + V3.dot (p t) q') t := by
  refine (((hp.1.mul hq.1).add (hp.2.1.mul hq.2.1)).add (hp.2.2.mul hq.2.2)).congr_deriv ?_
  unfold V3.dot
  ring

theorem mulVec_deriv (I : M3) {p : ℝ → V3} {p' : V3} {t : ℝ} (hp : HasVel p p' t) : HasVel (fun s => I.mulVec (p s)) (I.mulVec p') t := by
  obtain ⟨x, y, z⟩ := hp
  exact ⟨((x.const_mul _).add (y.const_mul _)).add (z.const_mul _), ((x.const_mul _).add (y.const_mul _)).add (z.const_mul _), ((x.const_mul _).add (y.const_mul _)).add (z.const_mul _)⟩

/-- The rate of the energy of a body that obeys the equations of the solver is the power of its load at the COG. -/
theorem bodyEnergy_deriv (b : ℝ → DBody) (h : Moving fun t => (b t).a) (hI : ∀ t t', (b t).I = (b t').I) (hm : ∀ t t', (b t).mass = (b t').mass)
    (hs : ∀ t u v, V3.dot u ((b t).I.mulVec v) = V3.dot ((b t).I.mulVec u) v) (g : ℝ) (F : Force) (t : ℝ) (hfa : (b t).forceAcc = 0) (hta : (b t).torqueAcc = 0)
    (hg : (b t).noGyro = false) (hgy : (b t).gyro = V3.cross (b t).wvelLoc ((b t).I.mulVec (b t).wvelLoc))
    (hF : (b t).mass • (b t).a.cogAccWorld .NWU = ((b t).fbLoadForces g [F] 1 (0, 0)).1)
    (hT : (b t).I.mulVec ((b t).a.angAccBody .NWU) = ((b t).fbLoadForces g [F] 1 (0, 0)).2) :
    HasDerivAt (fun s => bodyEnergy g (b s))
      (V3.dot (F.getForceInWorld .NWU) ((b t).body.cogVelWorld .NWU) + V3.dot (F.getTorqueInWorldAtCOG (b t).body .NWU) ((b t).body.angVelWorld .NWU)) t := by
  obtain ⟨-, -, hz, hv, -, -, hav, haa, -⟩ := C160_motion (fun t => (b t).a) h 0 (Node.new Body.new) t .NWU
  have hu : (b t).body.cog.rot.IsUnit := h.unit t
  have hw : HasVel (fun s => (b s).body.angVelBody .NWU) ((b t).a.angAccBody .NWU) t := by
    refine (HasVel.conj_rotate (q := fun s => (b s).body.cog.rot) hav haa).congr ?_
    show (b t).body.cog.rot.conj.rotate _ = (b t).body.cog.rot.conj.rotate _
    congr 1
    show (b t).a.angAccWorld .NWU - V3.cross ((b t).body.angVelWorld .NWU) ((b t).body.angVelWorld .NWU) = (b t).a.angAccWorld .NWU
    ext <;> simp <;> ring
  have e : (fun s => bodyEnergy g (b s)) = fun s => (b t).mass / 2 * V3.dot ((b s).body.cogVelWorld .NWU) ((b s).body.cogVelWorld .NWU) +
      V3.dot ((b s).body.angVelBody .NWU) ((b t).I.mulVec ((b s).body.angVelBody .NWU)) / 2 + (b t).mass * g * ((b s).body.cogPositionInWorld .NWU).z := by
    funext s
    unfold bodyEnergy
    rw [hm s t, hI s t]
  rw [e]
  have k := (((dot_deriv hv hv).const_mul ((b t).mass / 2)).add ((dot_deriv hw (mulVec_deriv (b t).I hw)).div_const 2)).add (hz.2.2.const_mul ((b t).mass * g))
  refine k.congr_deriv ?_
  have eF : (b t).mass • (b t).a.cogAccWorld .NWU = F.getForceInWorld .NWU + (-((b t).mass * g)) • V3.e3 := by
    rw [hF]
    show (0 : V3) + (1:ℝ) • ((b t).forceAcc + (F.force + 0) + (-((b t).mass * g)) • V3.e3) = F.force + (-((b t).mass * g)) • V3.e3
    rw [hfa]
    ext <;> simp
  have eT : (b t).I.mulVec ((b t).a.angAccBody .NWU) = F.torque - V3.cross ((b t).body.angVelBody .NWU) ((b t).I.mulVec ((b t).body.angVelBody .NWU)) := by
    have e1 : ((b t).fbLoadForces g [F] 1 (0, 0)).2 = (b t).xTorque [F] - (b t).gyro := by
      unfold DBody.fbLoadForces
      rw [hg]
      ext <;> simp
    rw [hT, e1, hgy]
    show (b t).torqueAcc + (F.torque + 0) - _ = _
    rw [hta]
    have ew : (b t).wvelLoc = (b t).body.angVelBody .NWU := rfl
    rw [ew]
    ext <;> simp
  have k2 : V3.dot ((b t).a.angAccBody .NWU) ((b t).I.mulVec ((b t).body.angVelBody .NWU)) = V3.dot ((b t).body.angVelBody .NWU) ((b t).I.mulVec ((b t).a.angAccBody .NWU)) := by
    rw [hs]
    unfold V3.dot
    ring
  have k3 : V3.dot (F.getTorqueInWorldAtCOG (b t).body .NWU) ((b t).body.angVelWorld .NWU) = V3.dot F.torque ((b t).body.angVelBody .NWU) := by
    have ew : (b t).body.angVelWorld .NWU = (b t).body.cog.rot.rotate ((b t).body.angVelBody .NWU) := (Q.rotate_conj' hu _).symm
    rw [ew]
    exact (Q.isRot hu).dot _ _
  have e1 := congrArg V3.x eF
  have e2 := congrArg V3.y eF
  have e3 := congrArg V3.z eF
  simp only [V3.smul_x, V3.smul_y, V3.smul_z, V3.add_x, V3.add_y, V3.add_z, V3.e3] at e1 e2 e3
  rw [k3, k2, eT]
  generalize (b t).I.mulVec ((b t).body.angVelBody .NWU) = L
  show (b t).mass / 2 * (V3.dot ((b t).a.cogAccWorld .NWU) ((b t).body.cogVelWorld .NWU) + V3.dot ((b t).body.cogVelWorld .NWU) ((b t).a.cogAccWorld .NWU)) + _ +
    (b t).mass * g * ((b t).body.cogVelWorld .NWU).z = _
  unfold V3.dot
  simp only [V3.sub_x, V3.sub_y, V3.sub_z, V3.cross_x, V3.cross_y, V3.cross_z]
  linear_combination ((b t).body.cogVelWorld .NWU).x * e1 + ((b t).body.cogVelWorld .NWU).y * e2 + ((b t).body.cogVelWorld .NWU).z * e3

/-- **C191, energy.** A body of constant mass and inertia whose only loads are its weight and the nonlinear hydrostatic force computed at every time for the part of its hull under the sea, and that obeys
the equations of the solver (C164): the sum of its kinetic energy, of the energy of its weight and of the energy of the displaced water remains the same for ever. -/
theorem C191_energy (j : List V3 → Junk) (rho g : ℝ) (H : List Tri) (b : ℝ → DBody) (h : Moving fun t => (b t).a) (hI : ∀ t t', (b t).I = (b t').I)
    (hm : ∀ t t', (b t).mass = (b t').mass) (hs : ∀ t u v, V3.dot u ((b t).I.mulVec v) = V3.dot ((b t).I.mulVec u) v)
    (hfa : ∀ t, (b t).forceAcc = 0) (hta : ∀ t, (b t).torqueAcc = 0)
    (M : ℝ → SMesh) (hM : ∀ s, Good (M s)) (h0 : ∀ s, AtSurface (M s)) (hw : ∀ s, Wetted (H.map (carry (seenFrom (b s).body))) (M s))
    (hne : ∀ s, (M s).nv ≠ 0) (hV : ∀ s, volInt (fun _ => 1) 0 (M s).closedUp ≠ 0)
    (f F : ℝ → Force) (hF : ∀ t, computePlaneForce j rho g (M t) (b t).body (f t) = some (F t))
    (hg : ∀ t, (b t).noGyro = false) (hgy : ∀ t, (b t).gyro = V3.cross (b t).wvelLoc ((b t).I.mulVec (b t).wvelLoc))
    (hL : ∀ t, (b t).mass • (b t).a.cogAccWorld .NWU = ((b t).fbLoadForces g [F t] 1 (0, 0)).1)
    (hT : ∀ t, (b t).I.mulVec ((b t).a.angAccBody .NWU) = ((b t).fbLoadForces g [F t] 1 (0, 0)).2) :
    ∀ t t', bodyEnergy g (b t) + displacedEnergy rho g (M t) = bodyEnergy g (b t') + displacedEnergy rho g (M t') := by
  have key : ∀ t, HasDerivAt (fun s => bodyEnergy g (b s) + displacedEnergy rho g (M s)) 0 t := by
    intro t
    obtain ⟨f', h1, h2⟩ := C191_power j rho g H (fun t => (b t).a) h M hM h0 hw (f t) t (hne t) (hV t)
    obtain rfl : F t = f' := Option.some.inj ((hF t).symm.trans h1)
    have k1 := bodyEnergy_deriv b h hI hm hs g (F t) t (hfa t) (hta t) (hg t) (hgy t) (hL t) (hT t)
    have k2 := h2 ((b t).body.getCOG .NWU)
    have hpl : ∀ s, Placed (b s).body := fun s => ⟨h.unit s, h.placed s⟩
    have ec : ∀ s, (b s).body.cogPositionInWorld .NWU = (b s).body.pointInWorld ((b s).body.getCOG .NWU) .NWU := fun s => (C50_points (b s).body (hpl s) 0 0 .NWU).2.2.2
    have ev : (b t).body.velWorldAtPointInBody ((b t).body.getCOG .NWU) .NWU = (b t).body.cogVelWorld .NWU := by
      obtain ⟨m1, -, m3, -⟩ := C160_motion (fun t => (b t).a) h ((b t).body.getCOG .NWU) (Node.new Body.new) t .NWU
      refine HasVel.unique m1 ?_
      have e : (fun s => (b s).a.body.pointInWorld ((b t).body.getCOG .NWU) .NWU) = fun s => (b s).a.body.cogPositionInWorld .NWU := by
        funext s
        have : (b t).body.getCOG .NWU = (b s).body.getCOG .NWU := h.cogFixed t s
        rw [this]
        exact (ec s).symm
      rw [e]
      exact m3
    have et : (F t).getTorqueInWorldAtPointInBody (b t).body ((b t).body.getCOG .NWU) .NWU = (F t).getTorqueInWorldAtCOG (b t).body .NWU := by
      unfold Force.getTorqueInWorldAtPointInBody
      rw [← ec]
      unfold Force.getTorqueInWorldAtPointInWorld
      ext <;> simp
    have k2' : HasDerivAt (fun s => displacedEnergy rho g (M s)) (-(V3.dot ((F t).getForceInWorld .NWU) ((b t).body.cogVelWorld .NWU) +
        V3.dot ((F t).getTorqueInWorldAtCOG (b t).body .NWU) ((b t).body.angVelWorld .NWU))) t := by
      rw [← ev, ← et]
      exact k2
    exact (k1.add k2').congr_deriv (by ring)
  intro t t'
  exact is_const_of_deriv_eq_zero (f := fun s => bodyEnergy g (b s) + displacedEnergy rho g (M s)) (fun s => (key s).differentiableAt) (fun s => (key s).deriv) t t'

end Frydom.Hydro
