import Verif.Hydro.LinearHydrostatics
import Verif.Hydro.Metacentre

/-!
# The linear hydrostatic load is tangent to the load of the sea (C185)

The linear load (C83) with the stiffness of the hydrostatics (C80) against the pressure of the sea at rest on the whole hull of the displaced body (specification of C183), about the centre of gravity, in the world.
-/

open Classical

noncomputable section

namespace Frydom.Hydro
open Frydom.Geom Frydom.Core Frydom.Env Frydom.Mesh Frydom.Mesh.Clip Frydom.Mesh.Surface
open Filter Topology

/-- The stiffness of `make_linear_hydrostatic_force` with a mesh (FrLinearHydrostaticForce.cpp:127-178): `M` is the clipped mesh, which is centred under the origin of the body `b`; no reduction point is given. -/
def stiffnessFromMesh (j : List V3 → Junk) (rho g : ℝ) (M : SMesh) (b : Body) (k0 : Stiffness) : Option Stiffness :=
  ((Props.new rho g (b.cogPositionInWorld .NWU) 0 .NWU).compute j M).map fun p => setStiffness k0 p.K

/-! ## Specification -/

/-- The hull `H`, given in the axes of the body, where the body is. -/
def hullInWorld (b : Body) (H : List Tri) : List Tri := H.map fun t => ⟨b.pointInWorld t.p .NWU, b.pointInWorld t.q .NWU, b.pointInWorld t.r .NWU⟩
/-- Force of the sea on it, and moment about `P`. -/
def seaForceOn (rho g : ℝ) (b : Body) (H : List Tri) : V3 := sumV ((hullInWorld b H).map (seaForce rho g))
def seaMomentOn (rho g : ℝ) (b : Body) (H : List Tri) (P : V3) : V3 := sumV ((hullInWorld b H).map (seaMoment rho g P))

/-- The hull raised by `z`. -/
def raised (z : ℝ) (H : List Tri) : List Tri := H.map fun t => ⟨t.p + ⟨0, 0, z⟩, t.q + ⟨0, 0, z⟩, t.r + ⟨0, 0, z⟩⟩

/-- The body is displaced from its equilibrium frame, which is level at the altitude `z` and follows the point `p` of the body, by the heave `h` and the angles of roll and pitch; and by any surge, sway and yaw. -/
structure MovedBy (b : Body) (e : EqFrame) (p : V3) (z h roll pitch : ℝ) : Prop where
  placed : Placed b
  node : Attached b e.node
  point : e.node.positionInBody b .NWU = p
  axes : ∀ v, (e.node.frameInBody b).rot.rotate v = v
  level : LevelFrame e.frame
  altitude : (e.positionInWorld .NWU).z = z
  displaced : ∃ x y yaw, InRange .NWU ⟨roll, pitch, yaw⟩ ∧ Displaced e ⟨x, y, h⟩ ⟨roll, pitch, yaw⟩

/-- Two vectors that depend on `s` are equal at `s = 0` and to first order. -/
def SameAtFirstOrder (u v : ℝ → V3) : Prop := u 0 = v 0 ∧ ∀ i, HasDerivAt (fun s => coord i (u s) - coord i (v s)) 0 0

/-! ## The sea is the same everywhere and in every direction -/

theorem strip_combine (a b c a1 b1 c1 a2 b2 c2 x y : ℝ) :
    stripInt a b c (x * a1 + y * a2) (x * b1 + y * b2) (x * c1 + y * c2) = x * stripInt a b c a1 b1 c1 + y * stripInt a b c a2 b2 c2 := by
  have ci : ∀ (a' b' c' : ℝ) (u : ℝ), Continuous fun v => aff a' b' c' u v * max (aff a b c u v) 0 := by intros; unfold aff; fun_prop
  have co : ∀ (a' b' c' : ℝ), Continuous fun u : ℝ => ∫ v in (0:ℝ)..(1 - u), aff a' b' c' u v * max (aff a b c u v) 0 := by
    intro a' b' c'
    exact intervalIntegral.continuous_parametric_intervalIntegral_of_continuous (f := fun u v => aff a' b' c' u v * max (aff a b c u v) 0)
      (s := fun u => 1 - u) (by unfold Function.uncurry aff; fun_prop) (by fun_prop)
  unfold stripInt
  rw [← intervalIntegral.integral_const_mul, ← intervalIntegral.integral_const_mul, ← intervalIntegral.integral_add]
  · refine intervalIntegral.integral_congr fun u _ => ?_
    show (∫ v in (0:ℝ)..(1 - u), _) = x * (∫ v in (0:ℝ)..(1 - u), _) + y * ∫ v in (0:ℝ)..(1 - u), _
    rw [← intervalIntegral.integral_const_mul, ← intervalIntegral.integral_const_mul, ← intervalIntegral.integral_add]
    · refine intervalIntegral.integral_congr fun v _ => ?_
      unfold aff
      ring
    · exact ((ci a1 b1 c1 u).const_mul x).intervalIntegrable _ _
    · exact ((ci a2 b2 c2 u).const_mul y).intervalIntegrable _ _
  · exact ((co a1 b1 c1).const_mul x).intervalIntegrable _ _
  · exact ((co a2 b2 c2).const_mul y).intervalIntegrable _ _

/-- Turned about the vertical. -/
structure LevelMat (Y : M3) : Prop where
  rot : Y.IsRot
  x2 : Y.a02 = 0
  y2 : Y.a12 = 0
  z2 : Y.a22 = 1
  z0 : Y.a20 = 0
  z1 : Y.a21 = 0

theorem level_of {Y : M3} (h : Y.IsRot) (h1 : Y.mulVec ⟨0, 0, 1⟩ = ⟨0, 0, 1⟩) : LevelMat Y := by
  have hx := congrArg V3.x h1
  have hy := congrArg V3.y h1
  have hz := congrArg V3.z h1
  simp only [M3.mulVec, mul_zero, mul_one, zero_add] at hx hy hz
  have o1 := h.o02
  have o2 := h.o12
  simp only [V3.dot, M3.c0, M3.c1, M3.c2, hx, hy, hz, mul_zero, zero_add, mul_one] at o1 o2
  exact ⟨h, hx, hy, hz, o1, o2⟩

theorem flux_weight (w : V3 → ℝ) (t : Tri) (hw : ∀ u v : ℝ, w (t.p + u • (t.q - t.p) + v • (t.r - t.p)) = aff (w t.p) (w t.q) (w t.r) u v) :
    simplex (fun v => w v * depth v) t = stripInt (-t.p.z) (-t.q.z) (-t.r.z) (w t.p) (w t.q) (w t.r) := by
  unfold simplex stripInt
  refine intervalIntegral.integral_congr fun u _ => intervalIntegral.integral_congr fun v _ => ?_
  show w _ * depth _ = _
  rw [hw]
  unfold depth aff
  congr 2
  simp only [V3.add_z, V3.smul_z, V3.sub_z]
  ring

theorem moved_normal {Y : M3} (hY : Y.IsRot) (c : V3) (t : Tri) : normalVec ⟨move Y c t.p, move Y c t.q, move Y c t.r⟩ = Y.mulVec (normalVec t) := by
  unfold normalVec
  simp only [move_sub]
  rw [hY.cross]

theorem sea_moved {Y : M3} (hY : LevelMat Y) {c : V3} (hc : c.z = 0) (rho g : ℝ) (P : V3) (t : Tri) :
    seaForce rho g ⟨move Y c t.p, move Y c t.q, move Y c t.r⟩ = Y.mulVec (seaForce rho g t) ∧
    seaMoment rho g (move Y c P) ⟨move Y c t.p, move Y c t.q, move Y c t.r⟩ = Y.mulVec (seaMoment rho g P t) := by
  have hz : ∀ v, (move Y c v).z = v.z := by
    intro v
    unfold move
    simp [M3.mulVec, hY.z0, hY.z1, hY.z2, hc]
  have hx : ∀ v, (move Y c v).x - (move Y c P).x = Y.a00 * (v.x - P.x) + Y.a01 * (v.y - P.y) := by
    intro v
    unfold move
    simp [M3.mulVec, hY.x2]
    ring
  have hy : ∀ v, (move Y c v).y - (move Y c P).y = Y.a10 * (v.x - P.x) + Y.a11 * (v.y - P.y) := by
    intro v
    unfold move
    simp [M3.mulVec, hY.y2]
    ring
  obtain ⟨t', ht'⟩ : ∃ t' : Tri, t' = ⟨move Y c t.p, move Y c t.q, move Y c t.r⟩ := ⟨_, rfl⟩
  have n' := moved_normal hY.rot c t
  rw [← ht'] at n' ⊢
  have ez1 : t'.p.z = t.p.z := by rw [ht']; exact hz _
  have ez2 : t'.q.z = t.q.z := by rw [ht']; exact hz _
  have ez3 : t'.r.z = t.r.z := by rw [ht']; exact hz _
  have s0 : ∀ t : Tri, simplex depth t = stripInt (-t.p.z) (-t.q.z) (-t.r.z) 1 1 1 := by
    intro t
    have := flux_weight (fun _ => 1) t (by intros; unfold aff; ring)
    simpa only [one_mul] using this
  have sx : ∀ (t : Tri) (q : ℝ), simplex (fun v => (v.x - q) * depth v) t = stripInt (-t.p.z) (-t.q.z) (-t.r.z) (t.p.x - q) (t.q.x - q) (t.r.x - q) := by
    intro t q
    exact flux_weight (fun v => v.x - q) t (by intros; unfold aff; simp; ring)
  have sy : ∀ (t : Tri) (q : ℝ), simplex (fun v => (v.y - q) * depth v) t = stripInt (-t.p.z) (-t.q.z) (-t.r.z) (t.p.y - q) (t.q.y - q) (t.r.y - q) := by
    intro t q
    exact flux_weight (fun v => v.y - q) t (by intros; unfold aff; simp; ring)
  have sz : ∀ (t : Tri) (q : ℝ), simplex (fun v => (v.z - q) * depth v) t = stripInt (-t.p.z) (-t.q.z) (-t.r.z) (t.p.z - q) (t.q.z - q) (t.r.z - q) := by
    intro t q
    exact flux_weight (fun v => v.z - q) t (by intros; unfold aff; simp; ring)
  have e0 : simplex depth t' = simplex depth t := by rw [s0, s0, ez1, ez2, ez3]
  have ex : simplex (fun v => (v.x - (move Y c P).x) * depth v) t' =
      Y.a00 * simplex (fun v => (v.x - P.x) * depth v) t + Y.a01 * simplex (fun v => (v.y - P.y) * depth v) t := by
    rw [sx, sx, sy, ez1, ez2, ez3, ← strip_combine, ht', hx, hx, hx]
  have ey : simplex (fun v => (v.y - (move Y c P).y) * depth v) t' =
      Y.a10 * simplex (fun v => (v.x - P.x) * depth v) t + Y.a11 * simplex (fun v => (v.y - P.y) * depth v) t := by
    rw [sy, sx, sy, ez1, ez2, ez3, ← strip_combine, ht', hy, hy, hy]
  have ez : simplex (fun v => (v.z - (move Y c P).z) * depth v) t' = simplex (fun v => (v.z - P.z) * depth v) t := by
    rw [sz, sz, ez1, ez2, ez3, hz]
  constructor
  · unfold seaForce flux
    rw [e0, n']
    ext <;> simp [M3.mulVec] <;> ring
  · unfold seaMoment flux
    simp only [ex, ey, ez, n']
    generalize simplex (fun v => (v.x - P.x) * depth v) t = A
    generalize simplex (fun v => (v.y - P.y) * depth v) t = B
    generalize simplex (fun v => (v.z - P.z) * depth v) t = C
    generalize normalVec t = n
    have hcr := hY.rot.cross ⟨A, B, C⟩ n
    have h1 := congrArg V3.x hcr
    have h2 := congrArg V3.y hcr
    have h3 := congrArg V3.z hcr
    simp only [V3.cross, M3.mulVec, hY.x2, hY.y2, hY.z2, hY.z0, hY.z1] at h1 h2 h3
    ext
    · simp only [V3.smul_x, V3.smul_y, V3.smul_z, M3.mulVec, hY.x2, hY.y2, hY.z2, hY.z0, hY.z1]
      linear_combination (-(rho * g)) * h1
    · simp only [V3.smul_x, V3.smul_y, V3.smul_z, M3.mulVec, hY.x2, hY.y2, hY.z2, hY.z0, hY.z1]
      linear_combination (-(rho * g)) * h2
    · simp only [V3.smul_x, V3.smul_y, V3.smul_z, M3.mulVec, hY.x2, hY.y2, hY.z2, hY.z0, hY.z1]
      linear_combination (-(rho * g)) * h3

theorem mulVec_sum (Y : M3) (l : List V3) : sumV (l.map Y.mulVec) = Y.mulVec (sumV l) := by
  induction l with
  | nil => ext <;> simp [sumV, M3.mulVec]
  | cons a l ih =>
    rw [List.map_cons]
    show Y.mulVec a + sumV _ = Y.mulVec (a + sumV l)
    rw [ih]
    ext <;> simp [M3.mulVec] <;> ring

/-! ## Load on the hull that heaves, rolls and pitches about the centre of gravity -/

/-- Depth at rest: on the wetted part, minus the altitude; nothing on the rest. -/
theorem rest_value {W D : List Tri} (hW : ∀ t ∈ W, Wet t) (hD : ∀ t ∈ D, Dry t) (w : V3 → ℝ) (m : Fin 3) :
    ((W ++ D).map fun t => coord m (flux (fun v => w v * depth v) t)).sum = -(W.map fun t => coord m (flux (fun v => w v * v.z) t)).sum := by
  have hw : ∀ t ∈ W, coord m (flux (fun v => w v * depth v) t) = -coord m (flux (fun v => w v * v.z) t) := by
    intro t ht
    obtain ⟨h1, h2, h3, -⟩ := hW t ht
    have : simplex (fun v => w v * depth v) t = -simplex (fun v => w v * v.z) t := by
      unfold simplex
      rw [← intervalIntegral.integral_neg]
      refine intervalIntegral.integral_congr fun u hu => ?_
      rw [Set.uIcc_of_le zero_le_one] at hu
      show _ = -(∫ v in (0:ℝ)..(1 - u), _)
      rw [← intervalIntegral.integral_neg]
      refine intervalIntegral.integral_congr fun v hv => ?_
      rw [Set.uIcc_of_le (by linarith [hu.2])] at hv
      have hz : (t.p + u • (t.q - t.p) + v • (t.r - t.p)).z ≤ 0 := by
        have : (t.p + u • (t.q - t.p) + v • (t.r - t.p)).z = (1 - u - v) * t.p.z + u * t.q.z + v * t.r.z := by simp; ring
        rw [this]
        have a1 := mul_nonneg_of_nonpos_of_nonpos (by linarith [hv.2] : -(1 - u - v) ≤ 0) h1
        have a2 := mul_nonpos_of_nonneg_of_nonpos hu.1 h2
        have a3 := mul_nonpos_of_nonneg_of_nonpos hv.1 h3
        linarith
      show w _ * depth _ = -(w _ * _)
      unfold depth
      rw [max_eq_left (by linarith)]
      ring
    unfold flux
    rw [coord_smul, coord_smul, this]
    ring
  have hd : ∀ t ∈ D, coord m (flux (fun v => w v * depth v) t) = 0 := by
    intro t ht
    obtain ⟨h1, h2, h3, -⟩ := hD t ht
    have : simplex (fun v => w v * depth v) t = 0 := by
      unfold simplex
      rw [intervalIntegral.integral_congr (g := fun _ => (0:ℝ))]
      · simp
      intro u hu
      rw [Set.uIcc_of_le zero_le_one] at hu
      show (∫ v in (0:ℝ)..(1 - u), _) = 0
      rw [intervalIntegral.integral_congr (g := fun _ => (0:ℝ))]
      · simp
      intro v hv
      rw [Set.uIcc_of_le (by linarith [hu.2])] at hv
      have hz : 0 ≤ (t.p + u • (t.q - t.p) + v • (t.r - t.p)).z := by
        have : (t.p + u • (t.q - t.p) + v • (t.r - t.p)).z = (1 - u - v) * t.p.z + u * t.q.z + v * t.r.z := by simp; ring
        rw [this]
        have a1 := mul_nonneg (by linarith [hv.2] : 0 ≤ 1 - u - v) h1
        have a2 := mul_nonneg hu.1 h2
        have a3 := mul_nonneg hv.1 h3
        linarith
      show w _ * depth _ = 0
      unfold depth
      rw [max_eq_right (by linarith), mul_zero]
    unfold flux
    rw [coord_smul, this, zero_mul]
  rw [List.map_append, List.sum_append, List.map_congr_left hw, List.map_congr_left hd, sum_const_zero, add_zero, sum_map_neg]

/-- The lids at rest. -/
theorem lids_rest {M : SMesh} (h0 : AtSurface M) (w : V3 → ℝ) (m : Fin 3) : ((M.rings.flatMap fan).map fun t => coord m (flux (fun v => w v * v.z) t)).sum = 0 := by
  have : ∀ t ∈ M.rings.flatMap fan, coord m (flux (fun v => w v * v.z) t) = 0 := by
    intro t ht
    obtain ⟨h1, h2, h3⟩ := lid_flat h0 ht
    have : simplex (fun v => w v * v.z) t = 0 := by
      unfold simplex
      rw [intervalIntegral.integral_congr (g := fun _ => (0:ℝ))]
      · simp
      intro u _
      show (∫ v in (0:ℝ)..(1 - u), _) = 0
      rw [intervalIntegral.integral_congr (g := fun _ => (0:ℝ))]
      · simp
      intro v _
      show w _ * _ = 0
      simp [h1, h2, h3]
    unfold flux
    rw [coord_smul, this, zero_mul]
  rw [List.map_congr_left this, sum_const_zero]

/-- Force of the sea at rest: Archimedes. -/
theorem force_rest {M : SMesh} (hM : M.IsBoundary) (h0 : AtSurface M) (hW : ∀ t ∈ M.tris, Wet t) {D : List Tri} (hD : ∀ t ∈ D, Dry t) (rho g V : ℝ)
    (hV : V = volInt (fun _ => 1) 0 M.closedUp) : sumV ((M.tris ++ D).map (seaForce rho g)) = ⟨0, 0, rho * g * V⟩ := by
  have key : ∀ m, coord m (sumV ((M.tris ++ D).map (seaForce rho g))) = rho * g * (if m = 2 then V else 0) := by
    intro m
    have h1 := rest_value hW hD (fun _ => 1) m
    have h2 := lids_rest h0 (fun _ => 1) m
    have h3 := closed1 M hM 0 m
    simp only [one_mul] at h1 h2
    unfold SMesh.closedUp at h3
    rw [List.map_append, List.sum_append, h2, add_zero] at h3
    rw [sumV_coord, List.map_map, hV]
    unfold SMesh.closedUp
    rw [← h3, show (coord m ∘ seaForce rho g) = fun t => -(rho * g) * coord m (flux depth t) from by funext t; exact coord_smul m _ _, sum_map_mul]
    show -(rho * g) * (List.map (fun t => coord m (flux depth t)) _).sum = _
    rw [h1]
    ring
  refine sumV_ext fun m => ?_
  rw [key m]
  fin_cases m <;> simp [coord]

/-- Moment at rest about a point on the vertical of the centre of buoyancy. -/
theorem moment_rest {M : SMesh} (hM : M.IsBoundary) (h0 : AtSurface M) (hW : ∀ t ∈ M.tris, Wet t) {D : List Tri} (hD : ∀ t ∈ D, Dry t) (rho g : ℝ) (r : V3)
    (hx : volInt (fun v => v.x) 0 M.closedUp = volInt (fun _ => 1) 0 M.closedUp * r.x) (hy : volInt (fun v => v.y) 0 M.closedUp = volInt (fun _ => 1) 0 M.closedUp * r.y) :
    sumV ((M.tris ++ D).map (seaMoment rho g r)) = 0 := by
  have key : ∀ i m, m ≠ i → ((M.tris ++ D).map fun t => coord m (flux (fun v => (coord i v - coord i r) * depth v) t)).sum = 0 := by
    intro i m him
    have h1 := rest_value hW hD (fun v => coord i v - coord i r) m
    have h2 := lids_rest h0 (fun v => coord i v - coord i r) m
    have h3 := closed2 M hM 0 i m (coord i r)
    rw [if_neg him, zero_add] at h3
    rw [h1, neg_eq_zero]
    have h4 : ((M.closedUp).map fun t => coord m (flux (fun v => (coord i v - coord i r) * v.z) t)).sum =
        (M.tris.map fun t => coord m (flux (fun v => (coord i v - coord i r) * v.z) t)).sum := by
      unfold SMesh.closedUp
      rw [List.map_append, List.sum_append, h2, add_zero]
    rw [← h4, h3]
    by_cases hm : m = 2
    · rw [if_pos hm]
      fin_cases i
      · show volInt (fun v => v.x) 0 M.closedUp - r.x * _ = 0
        rw [hx]; ring
      · show volInt (fun v => v.y) 0 M.closedUp - r.y * _ = 0
        rw [hy]; ring
      · exact absurd hm him
    · rw [if_neg hm]
  have comp : ∀ i m k l, m ≠ i → l ≠ k → ((M.tris ++ D).map fun t => -(rho * g) * (coord m (flux (fun v => (coord i v - coord i r) * depth v) t) -
      coord l (flux (fun v => (coord k v - coord k r) * depth v) t))).sum = 0 := by
    intro i m k l h1 h2
    rw [sum_map_mul, sum_map_sub, key i m h1, key k l h2]
    ring
  refine sumV_ext fun m => ?_
  rw [sumV_coord, List.map_map]
  fin_cases m
  · exact comp 1 2 2 1 (by decide) (by decide)
  · exact comp 2 0 0 2 (by decide) (by decide)
  · exact comp 0 1 1 0 (by decide) (by decide)

/-- Rate of the horizontal force. -/
theorem horizontal_deriv {h : ℝ → ℝ} {R : ℝ → M3} {h' a b : ℝ} (S : Starts h R h' a b) (rho g : ℝ) (r : V3) {M : SMesh} (hM : M.IsBoundary) (h0 : AtSurface M) (hW : ∀ t ∈ M.tris, Wet t)
    {D : List Tri} (hD : ∀ t ∈ D, Dry t) (m : Fin 3) (hm : m ≠ 2) :
    HasDerivAt (fun s => coord m (sumV (((M.tris ++ D).map (displacedTri r (h s) (R s))).map (seaForce rho g)))) 0 0 := by
  have hP : HasDerivAt (fun _ : ℝ => (-1 : ℝ)) 0 0 := hasDerivAt_const _ _
  have h1 := hull_deriv S r hW hD 0 0 m hP
  have h2 := lids_deriv S r h0 0 0 hP m
  rw [if_neg hm] at h2
  have w1 : weightAt 0 0 (-1) = fun _ => 1 := by funext v; unfold weightAt; ring
  rw [w1] at h1 h2
  simp only [one_mul] at h1 h2
  refine ((h1.add h2).const_mul (-(rho * g))).congr_deriv (by simp) |>.congr_of_eventuallyEq (Eventually.of_forall fun s => ?_)
  have hb : (M.moved (R s) (r + ⟨0, 0, h s⟩ - (R s).mulVec r)).IsBoundary := ⟨hM.closed, hM.paired⟩
  have h3 := closed1 _ hb 0 m
  rw [if_neg hm, moved_sum] at h3
  show coord m (sumV _) = -(rho * g) * (_ + _)
  rw [sumV_coord, List.map_map, List.map_map]
  have e : ((coord m ∘ seaForce rho g) ∘ displacedTri r (h s) (R s)) = fun t => -(rho * g) * coord m (flux depth (displacedTri r (h s) (R s) t)) := by
    funext t; exact coord_smul m _ _
  rw [e, sum_map_mul]
  simp only []
  linear_combination (rho * g) * h3

/-- Rate of the moment about the vertical. -/
theorem yaw_deriv {h : ℝ → ℝ} {R : ℝ → M3} {h' a b : ℝ} (S : Starts h R h' a b) (rho g : ℝ) (r : V3) {M : SMesh} (hM : M.IsBoundary) (h0 : AtSurface M) (hW : ∀ t ∈ M.tris, Wet t)
    {D : List Tri} (hD : ∀ t ∈ D, Dry t) :
    HasDerivAt (fun s => (sumV (((M.tris ++ D).map (displacedTri r (h s) (R s))).map (seaMoment rho g (displaced r (h s) (R s) r)))).z) 0 0 := by
  have s01 := momentSum_deriv S r hM h0 hW hD 0 0 1 (by decide)
  have s10 := momentSum_deriv S r hM h0 hW hD 0 1 0 (by decide)
  rw [if_neg (by decide)] at s01 s10
  refine ((s01.sub s10).const_mul (-(rho * g))).congr_deriv (by simp) |>.congr_of_eventuallyEq (Eventually.of_forall fun s => ?_)
  have e : ∀ i P, (fun v : V3 => weightAt 1 i P v * depth v) = fun v => (coord i v - P) * depth v := by
    intro i P
    funext v; unfold weightAt; ring
  show coord 2 (sumV _) = -(rho * g) * (momentSum r _ (h s) (R s) 0 1 - momentSum r _ (h s) (R s) 1 0)
  unfold momentSum
  rw [sumV_coord, List.map_map, List.map_map, e, e, ← sum_map_sub, ← sum_map_mul]
  rfl

/-! ## Where the body is -/

theorem cardan_split (a b y : ℝ) (v : V3) : (setCardan .NWU ⟨a, b, y⟩).rotate v = (yaw y).mulVec ((rollPitch a b).mulVec v) := by
  unfold Q.rotate rollPitch setCardan convAngles
  rw [eulerToQuat_toMat, eulerToQuat_toMat]
  unfold eulerToMat yaw
  ext <;> simp [M3.mulVec] <;> ring

/-- Every point of the body: heave, roll and pitch about the point `c`, then a turn and a shift that keep the altitudes. -/
theorem pose {b : Body} {e : EqFrame} {p : V3} {z h roll pitch : ℝ} (hm : MovedBy b e p z h roll pitch) (c : V3) (hx : p.x = c.x) (hy : p.y = c.y) :
    ∃ Y k, LevelMat Y ∧ V3.z k = 0 ∧ (∀ v, b.cog.rot.rotate v = Y.mulVec ((rollPitch roll pitch).mulVec v)) ∧
      ∀ v, b.pointInWorld v .NWU = move Y k (displaced (c + ⟨0, 0, z - p.z⟩) (h + (c.z - p.z) * (Real.cos pitch * Real.cos roll - 1)) (rollPitch roll pitch) (v + ⟨0, 0, z - p.z⟩)) := by
  obtain ⟨x, y, w, -, hd⟩ := hm.displaced
  have hu := hm.level.1
  have hb := hm.placed.unit
  have hl : e.frame.rot.toMat.mulVec ⟨0, 0, 1⟩ = ⟨0, 0, 1⟩ := hm.level.2
  have LE := level_of (Q.isRot hu) hl
  obtain ⟨Y, hY⟩ : ∃ Y, Y = e.frame.rot.toMat.mul (yaw w) := ⟨_, rfl⟩
  have hYr : Y.IsRot := by
    have hq : yaw w = (eulerToQuat 0 0 w).toMat := by
      rw [eulerToQuat_toMat]
      unfold eulerToMat yaw
      ext <;> simp
    rw [hY, hq, ← Q.toMat_mul hu (eulerToQuat_unit _ _ _)]
    exact Q.isRot (hu.mul (eulerToQuat_unit _ _ _))
  have LY : LevelMat Y := by
    refine level_of hYr ?_
    rw [hY, Q.mulVec_mul]
    have : (yaw w).mulVec ⟨0, 0, 1⟩ = ⟨0, 0, 1⟩ := by ext <;> simp [yaw, M3.mulVec]
    rw [this, hl]
  have hd' : e.node.abs = e.frame.mul ⟨⟨x, y, h⟩, setCardan .NWU ⟨roll, pitch, w⟩⟩ := hd
  rw [hm.node.abs] at hd'
  have hrot : b.cog.rot.mul e.node.rel.rot = e.frame.rot.mul (setCardan .NWU ⟨roll, pitch, w⟩) := congrArg Frame.rot hd'
  have hax : ∀ v, e.node.rel.rot.rotate v = v := hm.axes
  have hR : ∀ v, b.cog.rot.rotate v = Y.mulVec ((rollPitch roll pitch).mulVec v) := by
    intro v
    conv_lhs => rw [← hax v]
    rw [← Q.rotate_mul hb hm.node.unit, hrot, Q.rotate_mul hu (show (setCardan .NWU ⟨roll, pitch, w⟩).IsUnit from eulerToQuat_unit _ _ _), cardan_split, hY, Q.mulVec_mul]
    rfl
  have hp : e.node.positionInWorld .NWU = b.pointInWorld (e.node.positionInBody b .NWU) .NWU := (C54_attached b hm.placed e.node hm.node .NWU).2.1
  rw [hm.point] at hp
  have hpw : e.node.positionInWorld .NWU = e.frame.pos + e.frame.rot.rotate ⟨x, y, h⟩ := by
    show e.node.abs.pos = _
    rw [hm.node.abs, hd']
    rfl
  have halt : e.frame.pos.z = z := hm.altitude
  obtain ⟨c0, hc0⟩ : ∃ c0, c0 = c + ⟨0, 0, z - p.z⟩ := ⟨_, rfl⟩
  obtain ⟨h1, hh1⟩ : ∃ h1, h1 = h + (c.z - p.z) * (Real.cos pitch * Real.cos roll - 1) := ⟨_, rfl⟩
  rw [← hc0, ← hh1]
  have hw : ∀ v, b.pointInWorld v .NWU = b.pointInWorld p .NWU + Y.mulVec ((rollPitch roll pitch).mulVec (v - p)) := by
    intro v
    rw [← hR]
    show b.refPos + b.cog.rot.rotate v = b.refPos + b.cog.rot.rotate p + b.cog.rot.rotate (v - p)
    rw [Q.rotate_sub]
    ext <;> simp <;> ring
  refine ⟨Y, e.frame.pos + e.frame.rot.rotate ⟨x, y, h⟩ + Y.mulVec ((rollPitch roll pitch).mulVec (c - p)) - Y.mulVec (c0 + ⟨0, 0, h1⟩), LY, ?_, hR, ?_⟩
  · have e1 : (e.frame.rot.rotate ⟨x, y, h⟩).z = h := by
      unfold Q.rotate
      simp [M3.mulVec, LE.z0, LE.z1, LE.z2]
    have e2 : (Y.mulVec ((rollPitch roll pitch).mulVec (c - p))).z = Real.cos pitch * Real.cos roll * (c.z - p.z) := by
      rw [rollPitch_eq]
      simp [M3.mulVec, LY.z0, LY.z1, LY.z2, hx, hy]
    have e3 : (Y.mulVec (c0 + ⟨0, 0, h1⟩)).z = c0.z + h1 := by
      simp [M3.mulVec, LY.z0, LY.z1, LY.z2]
    simp only [V3.sub_z, V3.add_z, e1, e2, e3, halt]
    rw [hc0, hh1]
    simp
    ring
  · intro v
    rw [hw v, ← hp, hpw]
    have hv : v - p = (v + ⟨0, 0, z - p.z⟩ - c0) + (c - p) := by
      rw [hc0]
      ext <;> simp
    rw [hv]
    unfold move displaced
    generalize v + ⟨0, 0, z - p.z⟩ - c0 = d
    generalize c - p = d'
    ext <;> simp [M3.mulVec] <;> ring

/-! ## First order through a turn -/

theorem bounded_turn {y d : ℝ → ℝ} (hy : ∀ s, |y s| ≤ 1) (d0 : d 0 = 0) (hd : HasDerivAt d 0 0) : HasDerivAt (fun s => y s * d s) 0 0 := by
  rw [hasDerivAt_iff_isLittleO] at hd ⊢
  simp only [d0, mul_zero, smul_zero, sub_zero] at hd ⊢
  refine (Asymptotics.isBigO_of_le _ fun s => ?_).trans_isLittleO hd
  rw [norm_mul]
  exact mul_le_of_le_one_left (norm_nonneg _) (hy s)

theorem rot_entries {Y : M3} (h : Y.IsRot) : |Y.a00| ≤ 1 ∧ |Y.a01| ≤ 1 ∧ |Y.a02| ≤ 1 ∧ |Y.a10| ≤ 1 ∧ |Y.a11| ≤ 1 ∧ |Y.a12| ≤ 1 ∧ |Y.a20| ≤ 1 ∧ |Y.a21| ≤ 1 ∧ |Y.a22| ≤ 1 := by
  have u0 := h.u0
  have u1 := h.u1
  have u2 := h.u2
  simp only [V3.dot, M3.c0, M3.c1, M3.c2] at u0 u1 u2
  refine ⟨?_, ?_, ?_, ?_, ?_, ?_, ?_, ?_, ?_⟩ <;> refine abs_le_one_iff_mul_self_le_one.mpr ?_ <;> nlinarith [mul_self_nonneg Y.a00, mul_self_nonneg Y.a01, mul_self_nonneg Y.a02,
    mul_self_nonneg Y.a10, mul_self_nonneg Y.a11, mul_self_nonneg Y.a12, mul_self_nonneg Y.a20, mul_self_nonneg Y.a21, mul_self_nonneg Y.a22]

/-- Same at first order, then turned. -/
theorem same_turned {u v : ℝ → V3} (h : SameAtFirstOrder u v) (Y : ℝ → M3) (hY : ∀ s, (Y s).IsRot) :
    SameAtFirstOrder (fun s => (Y s).mulVec (u s)) fun s => (Y s).mulVec (v s) := by
  obtain ⟨h0, hd⟩ := h
  refine ⟨by simp only [h0], fun i => ?_⟩
  have z : ∀ i, coord i (u 0) - coord i (v 0) = 0 := fun i => by rw [h0, sub_self]
  have row : ∀ a b c : ℝ → ℝ, (∀ s, |a s| ≤ 1) → (∀ s, |b s| ≤ 1) → (∀ s, |c s| ≤ 1) →
      HasDerivAt (fun s => a s * ((u s).x - (v s).x) + b s * ((u s).y - (v s).y) + c s * ((u s).z - (v s).z)) 0 0 := by
    intro a b c ha hb hc
    have := ((bounded_turn ha (z 0) (hd 0)).add (bounded_turn hb (z 1) (hd 1))).add (bounded_turn hc (z 2) (hd 2))
    rw [add_zero, add_zero] at this
    exact this
  have e := fun s => rot_entries (hY s)
  fin_cases i
  · refine (row (fun s => (Y s).a00) (fun s => (Y s).a01) (fun s => (Y s).a02) (fun s => (e s).1) (fun s => (e s).2.1) fun s => (e s).2.2.1).congr_of_eventuallyEq
      (Eventually.of_forall fun s => ?_)
    show (Y s).a00 * _ + (Y s).a01 * _ + (Y s).a02 * _ - ((Y s).a00 * _ + (Y s).a01 * _ + (Y s).a02 * _) = _
    ring
  · refine (row (fun s => (Y s).a10) (fun s => (Y s).a11) (fun s => (Y s).a12) (fun s => (e s).2.2.2.1) (fun s => (e s).2.2.2.2.1) fun s => (e s).2.2.2.2.2.1).congr_of_eventuallyEq
      (Eventually.of_forall fun s => ?_)
    show (Y s).a10 * _ + (Y s).a11 * _ + (Y s).a12 * _ - ((Y s).a10 * _ + (Y s).a11 * _ + (Y s).a12 * _) = _
    ring
  · refine (row (fun s => (Y s).a20) (fun s => (Y s).a21) (fun s => (Y s).a22) (fun s => (e s).2.2.2.2.2.2.1) (fun s => (e s).2.2.2.2.2.2.2.1)
      fun s => (e s).2.2.2.2.2.2.2.2).congr_of_eventuallyEq (Eventually.of_forall fun s => ?_)
    show (Y s).a20 * _ + (Y s).a21 * _ + (Y s).a22 * _ - ((Y s).a20 * _ + (Y s).a21 * _ + (Y s).a22 * _) = _
    ring

/-! ## C185 -/

theorem computed_symmetric {j : List V3 → Junk} {M : SMesh} {q p : Props} (h : q.compute j M = some p) :
    p.K = ⟨p.K.getK33, p.K.getK34, p.K.getK35, p.K.getK34, p.K.getK44, p.K.getK45, p.K.getK35, p.K.getK45, p.K.getK55⟩ := by
  unfold Props.compute at h
  obtain ⟨cs, -, h⟩ := Option.bind_eq_some_iff.mp h
  obtain ⟨p', -, rfl⟩ := Option.map_eq_some_iff.mp h
  rfl

theorem raised_map (z : ℝ) (b : Body) (H : List Tri) (Y : M3) (k r : V3) (h : ℝ) (R : M3)
    (hv : ∀ v, b.pointInWorld v .NWU = move Y k (displaced r h R (v + ⟨0, 0, z⟩))) :
    hullInWorld b H = ((raised z H).map (displacedTri r h R)).map fun t => ⟨move Y k t.p, move Y k t.q, move Y k t.r⟩ := by
  unfold hullInWorld raised
  rw [List.map_map, List.map_map]
  refine List.map_congr_left fun t _ => ?_
  rw [hv, hv, hv]
  rfl

theorem sums_moved {Y : M3} (hY : LevelMat Y) {k : V3} (hk : k.z = 0) (rho g : ℝ) (P : V3) (T : List Tri) :
    sumV ((T.map fun t => (⟨move Y k t.p, move Y k t.q, move Y k t.r⟩ : Tri)).map (seaForce rho g)) = Y.mulVec (sumV (T.map (seaForce rho g))) ∧
    sumV ((T.map fun t => (⟨move Y k t.p, move Y k t.q, move Y k t.r⟩ : Tri)).map (seaMoment rho g (move Y k P))) = Y.mulVec (sumV (T.map (seaMoment rho g P))) := by
  constructor
  · rw [← mulVec_sum, List.map_map, List.map_map]
    congr 1
    exact List.map_congr_left fun t _ => (sea_moved hY hk rho g P t).1
  · rw [← mulVec_sum, List.map_map, List.map_map]
    congr 1
    exact List.map_congr_left fun t _ => (sea_moved hY hk rho g P t).2

set_option maxHeartbeats 1000000 in
/-- **C185.** A body of mass the one it displaces (`ρ V`), floating in equilibrium (centre of buoyancy on the vertical of the centre of gravity `c`), hull `H` in its axes, wetted part `M` at the equilibrium. The
equilibrium frame is level and follows a point `p` of the body on the vertical of `c`; the stiffness is computed with a reduction point `r` on the same vertical. For every motion of the body that starts from its
equilibrium, with any heave, roll and pitch, any yaw, surge and sway and any course of the equilibrium frame: the linear hydrostatic load is, to first order, the load of the sea on the whole hull: force and moment about the
centre of gravity, in the world, all components. -/
theorem C185_tangent (j : List V3 → Junk) (junk rho g : ℝ) (M : SMesh) (D : List Tri) (V : ℝ) (hf : Floating M D V) (H : List Tri) (p c r G : V3) (z : ℝ)
    (hH : raised (z - p.z) H = M.tris ++ D) (hp : p.x = c.x ∧ p.y = c.y) (hr : r.x = c.x ∧ r.y = c.y) (hG : G.z = c.z + (z - p.z))
    (hB : volInt (fun v => v.x) 0 M.closedUp = V * c.x ∧ volInt (fun v => v.y) 0 M.closedUp = V * c.y) :
    ∃ q, (Props.new rho g G r .NWU).compute j M = some q ∧
      ∀ (f : Force) (b : ℝ → MassBody) (e : ℝ → EqFrame) (heave roll pitch : ℝ → ℝ) (h' a' b' : ℝ), heave 0 = 0 → roll 0 = 0 → pitch 0 = 0 →
        HasDerivAt heave h' 0 → HasDerivAt roll a' 0 → HasDerivAt pitch b' 0 →
        (∀ s, MovedBy (b s).body (e s) p z (heave s) (roll s) (pitch s)) → (∀ s, (b s).getMass = rho * V) → (∀ s, (b s).body.getCOG .NWU = c) →
        ∃ F T : ℝ → V3, (∀ s, IsLoad (linearHydrostatic junk g q.K (e s) (b s) f) (b s).body .NWU (F s) (T s) ((b s).body.cogPositionInWorld .NWU)) ∧
          SameAtFirstOrder F (fun s => seaForceOn rho g (b s).body H) ∧
          SameAtFirstOrder T fun s => seaMomentOn rho g (b s).body H ((b s).body.cogPositionInWorld .NWU) := by
  have hh : AllHorizontal M := fun l hl => horizontal_of_level l (hf.surface l hl)
  have hV := hf.volume
  have hV0 : volInt (fun _ => 1) 0 M.closedUp ≠ 0 := hV ▸ hf.volume0
  obtain ⟨c0, hc0⟩ : ∃ c0, c0 = c + ⟨0, 0, z - p.z⟩ := ⟨_, rfl⟩
  have c0x : c0.x = c.x := by rw [hc0]; simp
  have c0y : c0.y = c.y := by rw [hc0]; simp
  have c0z : c0.z = G.z := by rw [hc0, hG]; simp
  obtain ⟨q, B, hq, hB1, hs⟩ := C80_properties_partial j rho g G r .NWU M hf.good hf.loops hh hf.outer 0 hV0
  obtain ⟨q', B', hq', hB2, hs'⟩ := C80_properties_partial j rho g c0 c0 .NWU M hf.good hf.loops hh hf.outer 0 hV0
  obtain ⟨q'', hq'', hd⟩ := C183_stiffness j rho g c0 c0 M hf.good hf.loops hf.surface hf.outer hf.wet D hf.dry 0 V hV hf.volume0
  obtain rfl : q' = q'' := Option.some.inj (hq'.symm.trans hq'')
  rw [← hV] at hB1 hB2 hs hs'
  have hBB : B.z = B'.z := by
    have h1 := congrArg V3.z hB1
    have h2 := congrArg V3.z hB2
    simp only [V3.smul_z] at h1 h2
    exact mul_left_cancel₀ hf.volume0 (h1.trans h2.symm)
  have cr : conv FC.NWU r = r := rfl
  have cG : conv FC.NWU G = G := rfl
  have cc : conv FC.NWU c0 = c0 := rfl
  have k33 : q.K.getK33 = q'.K.getK33 := by rw [hs.K33, hs'.K33]
  have k34 : q.K.getK34 = q'.K.getK34 := by rw [hs.K34, hs'.K34, cr, cc, hr.2, c0y]
  have k35 : q.K.getK35 = q'.K.getK35 := by rw [hs.K35, hs'.K35, cr, cc, hr.1, c0x]
  have k45 : q.K.getK45 = q'.K.getK45 := by rw [hs.K45, hs'.K45, cr, cc, hr.1, hr.2, c0x, c0y]
  have k44 : q.K.getK44 = q'.K.getK44 := by rw [hs.K44, hs'.K44, hs.heightT, hs'.heightT, hs.radiusT, hs'.radiusT, cr, cc, cG, hr.2, c0y, c0z, hBB]
  have k55 : q.K.getK55 = q'.K.getK55 := by rw [hs.K55, hs'.K55, hs.heightL, hs'.heightL, hs.radiusL, hs'.radiusL, cr, cc, cG, hr.1, c0x, c0z, hBB]
  have hsym := computed_symmetric hq
  refine ⟨q, hq, ?_⟩
  intro f b e heave roll pitch h' a' b' z1 z2 z3 d1 d2 d3 hm hmass hcog
  -- heave of the centre of gravity
  obtain ⟨hg, hhg⟩ : ∃ hg : ℝ → ℝ, hg = fun s => heave s + (c.z - p.z) * (Real.cos (pitch s) * Real.cos (roll s) - 1) := ⟨_, rfl⟩
  have hg0 : hg 0 = 0 := by rw [hhg]; simp [z1, z2, z3]
  have dg : HasDerivAt hg h' 0 := by
    rw [hhg]
    refine (d1.add (((d3.cos.mul d2.cos).sub_const 1).const_mul (c.z - p.z))).congr_deriv ?_
    simp [z2, z3]
  have S := starts_of hg0 z2 z3 dg d2 d3
  obtain ⟨l1, l2, l3⟩ := hd hg roll pitch h' a' b' hg0 z2 z3 dg d2 d3
  rw [← k33, ← k34, ← k35] at l1
  rw [← k34, ← k44, ← k45] at l2
  rw [← k35, ← k45, ← k55] at l3
  choose Y k LY hk hrot hpt using fun s => pose (hm s) c hp.1 hp.2
  -- the loads before the turn
  obtain ⟨U, hU⟩ : ∃ U : ℝ → V3, U = fun s => sumV (((M.tris ++ D).map (displacedTri c0 (hg s) (rollPitch (roll s) (pitch s)))).map (seaForce rho g)) := ⟨_, rfl⟩
  obtain ⟨W, hW⟩ : ∃ W : ℝ → V3, W = fun s => sumV (((M.tris ++ D).map (displacedTri c0 (hg s) (rollPitch (roll s) (pitch s)))).map
    (seaMoment rho g (displaced c0 (hg s) (rollPitch (roll s) (pitch s)) c0))) := ⟨_, rfl⟩
  have hw : ∀ s, hullInWorld (b s).body H = ((M.tris ++ D).map (displacedTri c0 (hg s) (rollPitch (roll s) (pitch s)))).map
      fun t => ⟨move (Y s) (k s) t.p, move (Y s) (k s) t.q, move (Y s) (k s) t.r⟩ := by
    intro s
    rw [← hH, hc0, hhg]
    exact raised_map _ _ _ _ _ _ _ _ (hpt s)
  have hcw : ∀ s, (b s).body.cogPositionInWorld .NWU = move (Y s) (k s) (displaced c0 (hg s) (rollPitch (roll s) (pitch s)) c0) := by
    intro s
    have e1 : (b s).body.cogPositionInWorld .NWU = (b s).body.pointInWorld c .NWU := by
      have h1 := (hm s).placed.cog
      have h2 : (b s).body.cogInRef = c := hcog s
      show (b s).body.cog.pos = (b s).body.refPos + (b s).body.cog.rot.rotate c
      rw [h1, h2]
    rw [e1, hpt s, hc0, hhg]
  have hF : ∀ s, seaForceOn rho g (b s).body H = (Y s).mulVec (U s) := by
    intro s
    unfold seaForceOn
    rw [hw s, hU]
    exact (sums_moved (LY s) (hk s) rho g 0 _).1
  have hT : ∀ s, seaMomentOn rho g (b s).body H ((b s).body.cogPositionInWorld .NWU) = (Y s).mulVec (W s) := by
    intro s
    unfold seaMomentOn
    rw [hw s, hcw s, hW]
    exact (sums_moved (LY s) (hk s) rho g _ _).2
  have id0 : ∀ t, displacedTri c0 (hg 0) (rollPitch (roll 0) (pitch 0)) t = t := fun t => S.tri0 c0 t
  have U0 : U 0 = ⟨0, 0, rho * g * V⟩ := by
    rw [hU]
    simp only [List.map_map]
    rw [show (seaForce rho g ∘ displacedTri c0 (hg 0) (rollPitch (roll 0) (pitch 0))) = seaForce rho g from by funext t; show seaForce rho g (displacedTri _ _ _ t) = _; rw [id0]]
    exact force_rest hf.good.boundary hf.surface hf.wet hf.dry rho g V hV
  have W0 : W 0 = 0 := by
    rw [hW]
    have e0 : displaced c0 (hg 0) (rollPitch (roll 0) (pitch 0)) c0 = c0 := S.at0 c0 c0
    simp only [List.map_map]
    rw [e0, show (seaMoment rho g c0 ∘ displacedTri c0 (hg 0) (rollPitch (roll 0) (pitch 0))) = seaMoment rho g c0 from by
      funext t; show seaMoment rho g c0 (displacedTri _ _ _ t) = _; rw [id0]]
    refine moment_rest hf.good.boundary hf.surface hf.wet hf.dry rho g c0 ?_ ?_
    · rw [← hV, c0x]; exact hB.1
    · rw [← hV, c0y]; exact hB.2
  have hmom : ∀ s, momentLoad rho g (rho * V) c0 c0 (M.tris ++ D) (hg s) (rollPitch (roll s) (pitch s)) = W s := by
    intro s
    rw [hW]
    unfold momentLoad
    ext <;> simp
  -- the linear load before the turn
  obtain ⟨L, hL⟩ : ∃ L : ℝ → V3, L = fun s => ⟨0, 0, rho * V * g - (q.K.getK33 * heave s + q.K.getK34 * roll s + q.K.getK35 * pitch s)⟩ := ⟨_, rfl⟩
  obtain ⟨N, hN⟩ : ∃ N : ℝ → V3, N = fun s => ⟨-(q.K.getK34 * heave s + q.K.getK44 * roll s + q.K.getK45 * pitch s),
    -(q.K.getK35 * heave s + q.K.getK45 * roll s + q.K.getK55 * pitch s), 0⟩ := ⟨_, rfl⟩
  have N0 : N 0 = 0 := by rw [hN]; ext <;> simp [z1, z2, z3]
  have dNx : HasDerivAt (fun s => (N s).x) (-(q.K.getK34 * h' + q.K.getK44 * a' + q.K.getK45 * b')) 0 := by
    rw [hN]
    exact (((d1.const_mul _).add (d2.const_mul _)).add (d3.const_mul _)).neg
  have dNy : HasDerivAt (fun s => (N s).y) (-(q.K.getK35 * h' + q.K.getK45 * a' + q.K.getK55 * b')) 0 := by
    rw [hN]
    exact (((d1.const_mul _).add (d2.const_mul _)).add (d3.const_mul _)).neg
  have dLz : HasDerivAt (fun s => (L s).z) (-(q.K.getK33 * h' + q.K.getK34 * a' + q.K.getK35 * b')) 0 := by
    rw [hL]
    exact ((((d1.const_mul _).add (d2.const_mul _)).add (d3.const_mul _)).const_sub (rho * V * g))
  have sameF : SameAtFirstOrder L U := by
    refine ⟨?_, fun i => ?_⟩
    · rw [U0, hL]
      ext <;> simp [z1, z2, z3]
      ring
    · fin_cases i
      · have := (horizontal_deriv S rho g c0 hf.good.boundary hf.surface hf.wet hf.dry 0 (by decide)).const_sub 0
        rw [neg_zero] at this
        rw [hU, hL]
        exact this
      · have := (horizontal_deriv S rho g c0 hf.good.boundary hf.surface hf.wet hf.dry 1 (by decide)).const_sub 0
        rw [neg_zero] at this
        rw [hU, hL]
        exact this
      · have h1 : HasDerivAt (fun s => (U s).z) (-(q.K.getK33 * h' + q.K.getK34 * a' + q.K.getK35 * b')) 0 := by
          refine (l1.add_const (rho * V * g)).congr_of_eventuallyEq (Eventually.of_forall fun s => ?_)
          rw [hU]
          show _ = verticalLoad _ _ _ _ _ _ _ + _
          unfold verticalLoad
          ring
        exact (dLz.sub h1).congr_deriv (by ring)
  -- the torque is given in the axes of the body
  have sameT : SameAtFirstOrder (fun s => (rollPitch (roll s) (pitch s)).mulVec (N s)) W := by
    refine ⟨?_, fun i => ?_⟩
    · simp only [W0, N0]
      ext <;> simp [M3.mulVec]
    · have hNz : ∀ s, (N s).z = 0 := fun s => by rw [hN]
      have nx0 : (N 0).x = 0 := by rw [N0]; rfl
      have ny0 : (N 0).y = 0 := by rw [N0]; rfl
      have dWx : HasDerivAt (fun s => (W s).x) (-(q.K.getK34 * h' + q.K.getK44 * a' + q.K.getK45 * b')) 0 := by
        refine l2.congr_of_eventuallyEq (Eventually.of_forall fun s => ?_)
        simp only [hmom]
      have dWy : HasDerivAt (fun s => (W s).y) (-(q.K.getK35 * h' + q.K.getK45 * a' + q.K.getK55 * b')) 0 := by
        refine l3.congr_of_eventuallyEq (Eventually.of_forall fun s => ?_)
        simp only [hmom]
      have dWz : HasDerivAt (fun s => (W s).z) 0 0 := by
        rw [hW]
        exact yaw_deriv S rho g c0 hf.good.boundary hf.surface hf.wet hf.dry
      have R00 : (rollPitch (roll 0) (pitch 0)) = ⟨1, 0, 0, 0, 1, 0, 0, 0, 1⟩ := by rw [rollPitch_eq, z2, z3]; simp
      fin_cases i
      · refine (((S.d00.mul dNx).add (S.d01.mul dNy)).sub dWx).congr_deriv ?_ |>.congr_of_eventuallyEq (Eventually.of_forall fun s => ?_)
        · simp only [R00, nx0, ny0]; ring
        · show _ * (N s).x + _ * (N s).y + _ * (N s).z - (W s).x = _ * (N s).x + _ * (N s).y - (W s).x
          rw [hNz]; ring
      · refine (((S.d10.mul dNx).add (S.d11.mul dNy)).sub dWy).congr_deriv ?_ |>.congr_of_eventuallyEq (Eventually.of_forall fun s => ?_)
        · simp only [R00, nx0, ny0]; ring
        · show _ * (N s).x + _ * (N s).y + _ * (N s).z - (W s).y = _ * (N s).x + _ * (N s).y - (W s).y
          rw [hNz]; ring
      · refine (((S.d20.mul dNx).add (S.d21.mul dNy)).sub dWz).congr_deriv ?_ |>.congr_of_eventuallyEq (Eventually.of_forall fun s => ?_)
        · simp only [R00, nx0, ny0]; ring
        · show _ * (N s).x + _ * (N s).y + _ * (N s).z - (W s).z = _ * (N s).x + _ * (N s).y - (W s).z
          rw [hNz]; ring
  have tF := same_turned sameF Y fun s => (LY s).rot
  have tT := same_turned sameT Y fun s => (LY s).rot
  refine ⟨L, fun s => (Y s).mulVec ((rollPitch (roll s) (pitch s)).mulVec (N s)), ?_, ?_, ?_⟩
  · intro s
    obtain ⟨x, y, w, hin, hdis⟩ := (hm s).displaced
    have key := C83_load_partial junk g q.K.getK33 q.K.getK34 q.K.getK35 q.K.getK44 q.K.getK45 q.K.getK55 q.K (e s) (hm s).level.1 (b s) (hm s).placed f _ _ hin hdis
    rw [show setStiffnessMatrix q.K ⟨q.K.getK33, q.K.getK34, q.K.getK35, q.K.getK34, q.K.getK44, q.K.getK45, q.K.getK35, q.K.getK45, q.K.getK55⟩ = q.K from by
      rw [← hsym]
      exact (C83_stiffness q.K q.K (by rw [hsym]; rfl)).2.1] at key
    rw [hmass s] at key
    have e2 : (Y s).mulVec ((rollPitch (roll s) (pitch s)).mulVec (N s)) = (b s).body.toWorld (N s) .NWU := (hrot s (N s)).symm
    simp only [e2]
    rw [hL, hN]
    exact key
  · refine ⟨?_, fun i => ?_⟩
    · show L 0 = seaForceOn rho g (b 0).body H
      have t0 := tF.1
      simp only [] at t0
      rw [hF, ← t0, hL]
      ext <;> simp [M3.mulVec, (LY 0).x2, (LY 0).y2, (LY 0).z2]
    · refine (tF.2 i).congr_of_eventuallyEq (Eventually.of_forall fun s => ?_)
      simp only [hF]
      congr 2
      rw [hL]
      ext <;> simp [M3.mulVec, (LY s).x2, (LY s).y2, (LY s).z2]
  · simp only [hT]
    exact tT

/-- **C185, stiffness from a mesh.** The maker with a mesh gives such a stiffness when the centre of gravity and the point followed by the equilibrium frame are on the vertical of the origin of the body, the body being made
in its equilibrium position `b0`. -/
theorem C185_from_mesh (j : List V3 → Junk) (junk rho g : ℝ) (M : SMesh) (D : List Tri) (V : ℝ) (hf : Floating M D V) (H : List Tri) (p c : V3) (z : ℝ) (b0 : Body) (k0 : Stiffness)
    (hb0 : (b0.cogPositionInWorld .NWU).z = c.z + (z - p.z)) (hH : raised (z - p.z) H = M.tris ++ D) (hp : p.x = 0 ∧ p.y = 0) (hc : c.x = 0 ∧ c.y = 0)
    (hB : volInt (fun v => v.x) 0 M.closedUp = 0 ∧ volInt (fun v => v.y) 0 M.closedUp = 0) :
    ∃ K, stiffnessFromMesh j rho g M b0 k0 = some K ∧
      ∀ (f : Force) (b : ℝ → MassBody) (e : ℝ → EqFrame) (heave roll pitch : ℝ → ℝ) (h' a' b' : ℝ), heave 0 = 0 → roll 0 = 0 → pitch 0 = 0 →
        HasDerivAt heave h' 0 → HasDerivAt roll a' 0 → HasDerivAt pitch b' 0 →
        (∀ s, MovedBy (b s).body (e s) p z (heave s) (roll s) (pitch s)) → (∀ s, (b s).getMass = rho * V) → (∀ s, (b s).body.getCOG .NWU = c) →
        ∃ F T : ℝ → V3, (∀ s, IsLoad (linearHydrostatic junk g K (e s) (b s) f) (b s).body .NWU (F s) (T s) ((b s).body.cogPositionInWorld .NWU)) ∧
          SameAtFirstOrder F (fun s => seaForceOn rho g (b s).body H) ∧
          SameAtFirstOrder T fun s => seaMomentOn rho g (b s).body H ((b s).body.cogPositionInWorld .NWU) := by
  obtain ⟨q, hq, h⟩ := C185_tangent j junk rho g M D V hf H p c 0 (b0.cogPositionInWorld .NWU) z hH ⟨hp.1.trans hc.1.symm, hp.2.trans hc.2.symm⟩ ⟨hc.1.symm, hc.2.symm⟩ hb0
    ⟨by rw [hB.1, hc.1, mul_zero], by rw [hB.2, hc.2, mul_zero]⟩
  refine ⟨q.K, ?_, h⟩
  unfold stiffnessFromMesh
  rw [hq]
  rfl

theorem load_unique {f : Force} {b : Body} {w t w' t' P : V3} (h : IsLoad f b .NWU w t P) (h' : IsLoad f b .NWU w' t' P) : t = t' := by
  have h1 := h.2 P
  have h2 := h'.2 P
  rw [h1] at h2
  have e : ∀ u v : V3, u + V3.cross (P - P) v = u := by intro u v; ext <;> simp
  rwa [e, e] at h2

/-- **C185, defect.** A body whose centre of gravity is not on the vertical of its origin: the load of the maker with a mesh is not tangent to the load of the sea. For every upright heave, whatever the point followed by the
equilibrium frame on the vertical of the centre of gravity, the moment is wrong at first order. -/
theorem C185_offset_wrong (j : List V3 → Junk) (junk rho g : ℝ) (M : SMesh) (D : List Tri) (V : ℝ) (hf : Floating M D V) (H : List Tri) (p c : V3) (z : ℝ) (b0 : Body) (k0 : Stiffness)
    (hb0 : (b0.cogPositionInWorld .NWU).z = c.z + (z - p.z)) (hH : raised (z - p.z) H = M.tris ++ D) (hp : p.x = c.x ∧ p.y = c.y)
    (hB : volInt (fun v => v.x) 0 M.closedUp = V * c.x ∧ volInt (fun v => v.y) 0 M.closedUp = V * c.y)
    (hA : rho * g * waterInt (fun _ => 1) M ≠ 0) (hc : c.x ≠ 0 ∨ c.y ≠ 0) :
    ∃ K, stiffnessFromMesh j rho g M b0 k0 = some K ∧
      ∀ (f : Force) (b : ℝ → MassBody) (e : ℝ → EqFrame), (∀ s, MovedBy (b s).body (e s) p z s 0 0) → (∀ s v, (b s).body.toWorld v .NWU = v) → (∀ s, (b s).getMass = rho * V) →
        (∀ s, (b s).body.getCOG .NWU = c) →
        ∀ F T : ℝ → V3, (∀ s, IsLoad (linearHydrostatic junk g K (e s) (b s) f) (b s).body .NWU (F s) (T s) ((b s).body.cogPositionInWorld .NWU)) →
          ¬ SameAtFirstOrder T fun s => seaMomentOn rho g (b s).body H ((b s).body.cogPositionInWorld .NWU) := by
  have hh : AllHorizontal M := fun l hl => horizontal_of_level l (hf.surface l hl)
  have hV := hf.volume
  have hV0 : volInt (fun _ => 1) 0 M.closedUp ≠ 0 := hV ▸ hf.volume0
  obtain ⟨G, hG⟩ : ∃ G, G = b0.cogPositionInWorld .NWU := ⟨_, rfl⟩
  rw [← hG] at hb0
  obtain ⟨q, B, hq, -, hs⟩ := C80_properties_partial j rho g G 0 .NWU M hf.good hf.loops hh hf.outer 0 hV0
  obtain ⟨q1, B1, hq1, -, hs1⟩ := C80_properties_partial j rho g G c .NWU M hf.good hf.loops hh hf.outer 0 hV0
  obtain ⟨q2, hq2, tan⟩ := C185_tangent j junk rho g M D V hf H p c c G z hH hp ⟨rfl, rfl⟩ hb0 hB
  obtain rfl : q1 = q2 := Option.some.inj (hq1.symm.trans hq2)
  obtain ⟨cs, L, -, -, h5, -, -⟩ := caps_ready j hf.good hf.loops hh
  obtain ⟨w1, -, -, w4, w5, -⟩ := waterInt_shift h5 hf.outer 0 0
  obtain ⟨-, -, -, v4, v5, -⟩ := waterInt_shift h5 hf.outer c.x c.y
  have c0 : conv FC.NWU (0 : V3) = 0 := rfl
  have cc : conv FC.NWU c = c := rfl
  have d34 : q.K.getK34 = q1.K.getK34 + rho * g * waterInt (fun _ => 1) M * c.y := by
    rw [hs.K34, hs1.K34, c0, cc, w1, v5]
    simp only [V3.zero_y]
    rw [w5]; ring
  have d35 : q.K.getK35 = q1.K.getK35 - rho * g * waterInt (fun _ => 1) M * c.x := by
    rw [hs.K35, hs1.K35, c0, cc, w1, v4]
    simp only [V3.zero_x]
    rw [w4]; ring
  have hsym := computed_symmetric hq
  have hsym1 := computed_symmetric hq1
  refine ⟨q.K, ?_, ?_⟩
  · unfold stiffnessFromMesh
    rw [← hG, hq]
    rfl
  intro f b e hm hup hmass hcog F T hload hsame
  obtain ⟨F1, T1, l1, -, s1⟩ := tan f b e id (fun _ => 0) (fun _ => 0) 1 0 0 rfl rfl rfl (hasDerivAt_id 0) (hasDerivAt_const 0 (0 : ℝ)) (hasDerivAt_const 0 (0 : ℝ)) hm hmass hcog
  have read : ∀ (K : Stiffness), K = ⟨K.getK33, K.getK34, K.getK35, K.getK34, K.getK44, K.getK45, K.getK35, K.getK45, K.getK55⟩ → ∀ (s : ℝ) (w t : V3),
      IsLoad (linearHydrostatic junk g K (e s) (b s) f) (b s).body .NWU w t ((b s).body.cogPositionInWorld .NWU) → t = ⟨-(K.getK34 * s), -(K.getK35 * s), 0⟩ := by
    intro K hK s w t ht
    obtain ⟨x, y, w', hin, hdis⟩ := (hm s).displaced
    have key := C83_load_partial junk g K.getK33 K.getK34 K.getK35 K.getK44 K.getK45 K.getK55 K (e s) (hm s).level.1 (b s) (hm s).placed f _ _ hin hdis
    rw [show setStiffnessMatrix K ⟨K.getK33, K.getK34, K.getK35, K.getK34, K.getK44, K.getK45, K.getK35, K.getK45, K.getK55⟩ = K from by
      rw [← hK]
      exact (C83_stiffness K K (by rw [hK]; rfl)).2.1, hup s] at key
    rw [load_unique ht key]
    ext <;> simp
  have eT : T = fun s => ⟨-(q.K.getK34 * s), -(q.K.getK35 * s), 0⟩ := funext fun s => read q.K hsym s _ _ (hload s)
  have eT1 : T1 = fun s => ⟨-(q1.K.getK34 * s), -(q1.K.getK35 * s), 0⟩ := funext fun s => read q1.K hsym1 s _ _ (l1 s)
  have dx := ((hsame.2 0).sub (s1.2 0)).congr_of_eventuallyEq (f₁ := fun s : ℝ => (q1.K.getK34 - q.K.getK34) * s) (Eventually.of_forall fun s => by
    rw [eT, eT1]
    show _ = (-(q.K.getK34 * s) - _) - (-(q1.K.getK34 * s) - _)
    ring)
  have dy := ((hsame.2 1).sub (s1.2 1)).congr_of_eventuallyEq (f₁ := fun s : ℝ => (q1.K.getK35 - q.K.getK35) * s) (Eventually.of_forall fun s => by
    rw [eT, eT1]
    show _ = (-(q.K.getK35 * s) - _) - (-(q1.K.getK35 * s) - _)
    ring)
  have ux := dx.unique ((hasDerivAt_id (0:ℝ)).const_mul (q1.K.getK34 - q.K.getK34))
  have uy := dy.unique ((hasDerivAt_id (0:ℝ)).const_mul (q1.K.getK35 - q.K.getK35))
  rcases hc with h | h
  · refine mul_ne_zero hA h ?_
    rw [d35] at uy
    linarith
  · refine mul_ne_zero hA h ?_
    rw [d34] at ux
    linarith

/-! ## The hypotheses are met -/

theorem hull_centre (first : Face → Fin 3) : volInt (fun v => v.x) 0 (hull first).closedUp = 1 / 6 * (1 / 4) ∧ volInt (fun v => v.y) 0 (hull first).closedUp = 1 / 6 * (1 / 4) := by
  have hc : (hull first).closedUp = (hull first).tris ++ [⟨⟨1, 0, 0⟩, ⟨0, 1, 0⟩, 0⟩, ⟨⟨1, 0, 0⟩, 0, ⟨1, 0, 0⟩⟩] := by
    unfold SMesh.closedUp SMesh.rings; rfl
  rw [hc]; unfold volInt SMesh.tris
  have ex : tetInt (fun v => v.x) 0 = fun t => tetInt (coord 0) 0 t := rfl
  have ey : tetInt (fun v => v.y) 0 = fun t => tetInt (coord 1) 0 t := rfl
  rw [ex, ey]
  simp only [tetInt_coord]
  simp only [hull, List.map_cons, List.map_nil, List.map_append, List.cons_append, List.nil_append, List.sum_cons, List.sum_nil]
  generalize first ⟨0, 2, 1⟩ = a
  generalize first ⟨0, 1, 3⟩ = b
  generalize first ⟨0, 3, 2⟩ = c
  constructor <;> fin_cases a <;> fin_cases b <;> fin_cases c <;> norm_num [Face.turned, triOf, det, V3.dot, V3.cross, coord]

/-- A body of 1/6 of a tonne with the hull of `Buoyancy` and a pointed deck, centre of gravity at (1/4, 1/4, 0), that heaves by `s` and rolls by `sin s`. -/
def bobbing (s : ℝ) : MassBody :=
  ⟨⟨⟨⟨1 / 4, 1 / 4, s⟩, setCardan .NWU ⟨Real.sin s, 0, 0⟩⟩, 0, ⟨0, 0, 0, 0⟩, ⟨1 / 4, 1 / 4, 0⟩, ⟨1 / 4, 1 / 4, s⟩ - (setCardan .NWU ⟨Real.sin s, 0, 0⟩).rotate ⟨1 / 4, 1 / 4, 0⟩, 0⟩, 1000 * (1 / 6), ⟨1, 0, 0, 0, 1, 0, 0, 0, 1⟩⟩
def bobbingFrame (s : ℝ) : EqFrame := ⟨⟨⟨1 / 4, 1 / 4, 0⟩, Q.one⟩, (Node.new (bobbing s).body), 0, 0, false, 0⟩

theorem bobbing_moved (s : ℝ) : MovedBy (bobbing s).body (bobbingFrame s) ⟨1 / 4, 1 / 4, 0⟩ 0 s (Real.sin s) 0 where
  placed := ⟨eulerToQuat_unit _ _ _, by
    show (⟨1 / 4, 1 / 4, s⟩ : V3) = ⟨1 / 4, 1 / 4, s⟩ - (setCardan .NWU ⟨Real.sin s, 0, 0⟩).rotate ⟨1 / 4, 1 / 4, 0⟩ + (setCardan .NWU ⟨Real.sin s, 0, 0⟩).rotate ⟨1 / 4, 1 / 4, 0⟩
    ext <;> simp⟩
  node := refresh_attached _ _ Q.isUnit_one
  point := by
    show (0 : V3) + ⟨1 / 4, 1 / 4, 0⟩ = _
    ext <;> simp
  axes := fun v => Q.rotate_one v
  level := ⟨Q.isUnit_one, Q.rotate_one _⟩
  altitude := rfl
  displaced := by
    refine ⟨0, 0, 0, ?_, ?_⟩
    · have := Real.pi_gt_three
      have h1 := Real.sin_le_one s
      have h2 := Real.neg_one_le_sin s
      refine ⟨?_, ?_, ?_, ?_, ?_, ?_⟩ <;> simp <;> linarith
    · unfold Displaced
      refine Frame.ext ?_ ?_
      · show (⟨1 / 4, 1 / 4, s⟩ : V3) + (setCardan .NWU ⟨Real.sin s, 0, 0⟩).rotate 0 = ⟨1 / 4, 1 / 4, 0⟩ + Q.one.rotate ⟨0, 0, s⟩
        rw [Q.rotate_one]
        ext <;> simp [Q.rotate, M3.mulVec]
      · show (setCardan .NWU ⟨Real.sin s, 0, 0⟩).mul Q.one = Q.one.mul (setCardan .NWU ⟨Real.sin s, 0, 0⟩)
        rw [Q.mul_one, Q.one_mul]

/-- The hypotheses of `C185_tangent` are met. -/
example (j : List V3 → Junk) (junk : ℝ) (first : Face → Fin 3) (f : Force) :
    let H := (hull first).tris ++ [⟨⟨1, 0, 0⟩, ⟨0, 1, 0⟩, ⟨0, 0, 1⟩⟩, ⟨⟨0, 1, 0⟩, 0, ⟨0, 0, 1⟩⟩, ⟨0, ⟨1, 0, 0⟩, ⟨0, 0, 1⟩⟩]
    ∃ q, (Props.new 1000 10 ⟨1 / 4, 1 / 4, 0⟩ ⟨1 / 4, 1 / 4, 0⟩ .NWU).compute j (hull first) = some q ∧ ∃ F T : ℝ → V3,
      (∀ s, IsLoad (linearHydrostatic junk 10 q.K (bobbingFrame s) (bobbing s) f) (bobbing s).body .NWU (F s) (T s) ((bobbing s).body.cogPositionInWorld .NWU)) ∧
      SameAtFirstOrder F (fun s => seaForceOn 1000 10 (bobbing s).body H) ∧
      SameAtFirstOrder T fun s => seaMomentOn 1000 10 (bobbing s).body H ((bobbing s).body.cogPositionInWorld .NWU) := by
  intro H
  have hH : raised ((0:ℝ) - (⟨1 / 4, 1 / 4, 0⟩ : V3).z) H = H := by
    unfold raised
    conv_rhs => rw [← List.map_id H]
    refine List.map_congr_left fun t _ => ?_
    have e : ∀ v : V3, v + ⟨0, 0, (0:ℝ) - (⟨1 / 4, 1 / 4, 0⟩ : V3).z⟩ = v := by intro v; ext <;> simp
    simp only [e]
    rfl
  obtain ⟨q, hq, h⟩ := C185_tangent j junk 1000 10 (hull first) _ (1 / 6) (hull_floats first) H ⟨1 / 4, 1 / 4, 0⟩ ⟨1 / 4, 1 / 4, 0⟩ ⟨1 / 4, 1 / 4, 0⟩ ⟨1 / 4, 1 / 4, 0⟩ 0 hH ⟨rfl, rfl⟩ ⟨rfl, rfl⟩
    (by simp) (hull_centre first)
  refine ⟨q, hq, ?_⟩
  exact h f bobbing bobbingFrame id Real.sin (fun _ => 0) 1 1 0 rfl Real.sin_zero rfl (hasDerivAt_id 0) (by simpa using Real.hasDerivAt_sin 0) (hasDerivAt_const 0 (0 : ℝ)) bobbing_moved
    (fun _ => rfl) fun _ => rfl

end Frydom.Hydro
