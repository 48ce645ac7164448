import Verif.Hydro.StiffnessDerivative
import Verif.Hydro.Buoyancy

/-!
# The metacentric heights of a body (C184)

`FrNonlinearHydrostaticForce::GetMetacentricHeight` asks the hydrostatics (C80) of the clipped mesh, which is centred under the origin of the body, without a reduction point. The specification is the righting
moment of the sea at rest and of the weight (C183) when the body heels about an axis of the water plane.
-/

noncomputable section

namespace Frydom.Hydro
open Frydom.Geom Frydom.Core Frydom.Mesh Frydom.Mesh.Surface Frydom.Mesh.Clip

/-- `GetMetacentricHeight` (FrNonlinearHydrostaticForce.cpp:177-191): `M` is the clipped mesh. -/
def metacentricHeight (j : List V3 → Junk) (rho g : ℝ) (M : SMesh) (b : Body) : Option V3 :=
  ((Props.new rho g (b.cogPositionInWorld .NWU) 0 .NWU).compute j M).map fun p => ⟨p.heightT, p.heightL, 0⟩

/-! ## Specification -/

/-- `F` is the centroid of the water plane (in its plane), in the axes of the clipped mesh: relative to the body horizontally. -/
def IsFlotation (M : SMesh) (F : V3) : Prop :=
  F.z = 0 ∧ waterInt (fun _ => 1) M * F.x = waterInt (fun v => v.x) M ∧ waterInt (fun _ => 1) M * F.y = waterInt (fun v => v.y) M

/-- `h` is the transverse metacentric height of the hull `T` of volume `V` and centre of gravity `G`, floating with its water plane centred at `F`: heeled by a small angle about the longitudinal axis through `F`, it is
righted by the moment `ρ g V h` per radian. -/
def IsTransverse (rho g V : ℝ) (G F : V3) (T : List Tri) (h : ℝ) : Prop :=
  HasDerivAt (fun a => (momentLoad rho g (rho * V) G F T 0 (rollPitch a 0)).x) (-(rho * g * V * h)) 0
/-- The longitudinal one: trimmed about the transverse axis through `F`. -/
def IsLongitudinal (rho g V : ℝ) (G F : V3) (T : List Tri) (h : ℝ) : Prop :=
  HasDerivAt (fun a => (momentLoad rho g (rho * V) G F T 0 (rollPitch 0 a)).y) (-(rho * g * V * h)) 0

/-! ## C184 -/

/-- What is given to the hydrostatics: the wetted part `M` of a hull with outer waterlines, the rest being the dry triangles `D`, floating with the volume `V`. -/
structure Floating (M : SMesh) (D : List Tri) (V : ℝ) : Prop where
  good : Good M
  loops : M.loops ≠ []
  surface : AtSurface M
  outer : AllOuter M
  wet : ∀ t ∈ M.tris, Wet t
  dry : ∀ t ∈ D, Dry t
  volume : V = volInt (fun _ => 1) 0 M.closedUp
  volume0 : V ≠ 0

/-- **C184, general formula.** The heights returned exceed the metacentric heights by `A y² / V` and `A x² / V`, where `A` is the area of the water plane and `(x, y)` its centroid seen from the body. -/
theorem C184_heights_partial (j : List V3 → Junk) (rho g : ℝ) (b : Body) (M : SMesh) (D : List Tri) (V : ℝ) (hf : Floating M D V) (F : V3) (hF : IsFlotation M F) :
    ∃ h, metacentricHeight j rho g M b = some h ∧
      IsTransverse rho g V (b.cogPositionInWorld .NWU - horizontal b) F (M.tris ++ D) (h.x - waterInt (fun _ => 1) M * F.y ^ 2 / V) ∧
      IsLongitudinal rho g V (b.cogPositionInWorld .NWU - horizontal b) F (M.tris ++ D) (h.y - waterInt (fun _ => 1) M * F.x ^ 2 / V) := by
  have hh : AllHorizontal M := fun l hl => horizontal_of_level l (hf.surface l hl)
  have hV := hf.volume
  have hV0 : volInt (fun _ => 1) 0 M.closedUp ≠ 0 := hV ▸ hf.volume0
  obtain ⟨W, hW⟩ : ∃ W, W = b.cogPositionInWorld .NWU := ⟨_, rfl⟩
  obtain ⟨G, hG⟩ : ∃ G, G = b.cogPositionInWorld .NWU - horizontal b := ⟨_, rfl⟩
  have hz : G.z = W.z := by rw [hG, hW]; simp [horizontal]
  obtain ⟨p, B, hp, hB, hs⟩ := C80_properties_partial j rho g W 0 .NWU M hf.good hf.loops hh hf.outer 0 hV0
  obtain ⟨p', B', hp', hB', hs'⟩ := C80_properties_partial j rho g G F .NWU M hf.good hf.loops hh hf.outer 0 hV0
  obtain ⟨p'', hp'', hd⟩ := C183_stiffness j rho g G F M hf.good hf.loops hf.surface hf.outer hf.wet D hf.dry 0 V hV hf.volume0
  obtain rfl : p' = p'' := Option.some.inj (hp'.symm.trans hp'')
  rw [← hV] at hB hB' hs hs'
  have hBB : B.z = B'.z := by
    have h1 := congrArg V3.z hB
    have h2 := congrArg V3.z hB'
    simp only [V3.smul_z] at h1 h2
    exact mul_left_cancel₀ hf.volume0 (h1.trans h2.symm)
  obtain ⟨cs, L, -, h2, h3, -⟩ := caps_ready j hf.good hf.loops hh
  obtain ⟨w1, w2, w3, -, -, -, w7, w8⟩ := waterInt_shift h3 hf.outer F.x F.y
  obtain ⟨-, -, -, -, -, -, z7, z8⟩ := waterInt_shift h3 hf.outer 0 0
  have cF : conv FC.NWU F = F := rfl
  have cG : conv FC.NWU G = G := rfl
  have cW : conv FC.NWU W = W := rfl
  have c0 : conv FC.NWU 0 = 0 := rfl
  obtain ⟨-, f1, f2⟩ := hF
  rw [w1, w2] at f1
  rw [w1, w3] at f2
  refine ⟨⟨p.heightT, p.heightL, 0⟩, ?_, ?_, ?_⟩
  · unfold metacentricHeight
    rw [← hW, hp]
    rfl
  · rw [← hG]
    unfold IsTransverse
    refine (hd (fun _ => 0) id (fun _ => 0) 0 1 0 rfl rfl rfl (hasDerivAt_const 0 (0 : ℝ)) (hasDerivAt_id 0) (hasDerivAt_const 0 (0 : ℝ))).2.1.congr_deriv ?_
    rw [hs'.K44, hs'.heightT, hs'.radiusT, cF, cG, hz, ← hBB]
    show _ = -(rho * g * V * (p.heightT - _))
    rw [hs.heightT, hs.radiusT, cW, c0]
    simp only [V3.zero_y]
    rw [w8, z8, w1, ← f2]
    ring
  · rw [← hG]
    unfold IsLongitudinal
    refine (hd (fun _ => 0) (fun _ => 0) id 0 0 1 rfl rfl rfl (hasDerivAt_const 0 (0 : ℝ)) (hasDerivAt_const 0 (0 : ℝ)) (hasDerivAt_id 0)).2.2.congr_deriv ?_
    rw [hs'.K55, hs'.heightL, hs'.radiusL, cF, cG, hz, ← hBB]
    show _ = -(rho * g * V * (p.heightL - _))
    rw [hs.heightL, hs.radiusL, cW, c0]
    simp only [V3.zero_x]
    rw [w7, z7, w1, ← f1]
    ring

/-- **C184, where it is right.** The height returned is the transverse metacentric height exactly when the centroid of the water plane is in the longitudinal plane of the body, and the longitudinal one
exactly when it is in the transverse plane. -/
theorem C184_when_centred (j : List V3 → Junk) (rho g : ℝ) (hrg : rho * g ≠ 0) (b : Body) (M : SMesh) (D : List Tri) (V : ℝ) (hf : Floating M D V) (F : V3) (hF : IsFlotation M F)
    (hA : waterInt (fun _ => 1) M ≠ 0) :
    ∃ h, metacentricHeight j rho g M b = some h ∧
      (IsTransverse rho g V (b.cogPositionInWorld .NWU - horizontal b) F (M.tris ++ D) h.x ↔ F.y = 0) ∧
      (IsLongitudinal rho g V (b.cogPositionInWorld .NWU - horizontal b) F (M.tris ++ D) h.y ↔ F.x = 0) := by
  obtain ⟨h, h1, h2, h3⟩ := C184_heights_partial j rho g b M D V hf F hF
  have key : ∀ (x y : ℝ), -(rho * g * V * (x - waterInt (fun _ => 1) M * y ^ 2 / V)) = -(rho * g * V * x) → y = 0 := by
    intro x y e
    have hV0 := hf.volume0
    have : rho * g * (waterInt (fun _ => 1) M * y ^ 2) = 0 := by
      field_simp at e
      linear_combination e
    rcases mul_eq_zero.mp this with h | h
    · exact absurd h hrg
    rcases mul_eq_zero.mp h with h | h
    · exact absurd h hA
    · exact pow_eq_zero_iff (two_ne_zero) |>.mp h
  refine ⟨h, h1, ⟨fun e => key _ _ (h2.unique e), fun e => ?_⟩, ⟨fun e => key _ _ (h3.unique e), fun e => ?_⟩⟩
  · rw [e] at h2
    simpa using h2
  · rw [e] at h3
    simpa using h3

/-! ## The heading -/

/-- Turn by the heading `a` about the vertical. -/
def yaw (a : ℝ) : M3 := ⟨Real.cos a, -Real.sin a, 0, Real.sin a, Real.cos a, 0, 0, 0, 1⟩

theorem yaw_isRot (a : ℝ) : (yaw a).IsRot := by
  have h := rollPitch_eq a 0
  have h2 := Real.sin_sq_add_cos_sq a
  have hq : yaw a = (eulerToQuat 0 0 a).toMat := by
    rw [eulerToQuat_toMat]
    unfold eulerToMat yaw
    ext <;> simp
  rw [hq]
  exact Q.isRot (eulerToQuat_unit _ _ _)

theorem yaw_apply (a : ℝ) (v : V3) : move (yaw a) 0 v = ⟨Real.cos a * v.x - Real.sin a * v.y, Real.sin a * v.x + Real.cos a * v.y, v.z⟩ := by
  unfold move yaw
  ext <;> simp [M3.mulVec] <;> ring

theorem waterInt_yaw (f : V3 → ℝ) (M : SMesh) (a : ℝ) : waterInt f (M.moved (yaw a) 0) = waterInt (fun v => f (move (yaw a) 0 v)) M := by
  have hr : (M.moved (yaw a) 0).rings = M.rings.map fun l => l.map (move (yaw a) 0) := by
    unfold SMesh.rings
    rw [List.map_map]
    apply List.map_congr_left
    intro l _
    simp only [Function.comp, List.map_map]
    rfl
  unfold waterInt
  rw [hr, List.map_map]
  congr 1
  apply List.map_congr_left
  intro l _
  show loopInt f (l.map _) = _
  unfold loopInt
  rw [fan_map, List.map_map]
  congr 1
  apply List.map_congr_left
  intro t _
  show (flux f _).z = _
  unfold flux
  have hn : (normalVec ⟨move (yaw a) 0 t.p, move (yaw a) 0 t.q, move (yaw a) 0 t.r⟩).z = (normalVec t).z := by
    unfold normalVec
    simp only [move_sub]
    rw [(yaw_isRot a).cross]
    simp [yaw, M3.mulVec]
  have hs : simplex f ⟨move (yaw a) 0 t.p, move (yaw a) 0 t.q, move (yaw a) 0 t.r⟩ = simplex (fun v => f (move (yaw a) 0 v)) t := by
    unfold simplex
    refine intervalIntegral.integral_congr fun u _ => intervalIntegral.integral_congr fun v _ => ?_
    show f _ = f _
    congr 1
    unfold move
    ext <;> simp <;> ring
  rw [V3.smul_z, V3.smul_z, hn, hs]

theorem waterInt_quad (M : SMesh) (c d : ℝ) : waterInt (fun v => (c * v.x + d * v.y) ^ 2) M = c ^ 2 * waterInt (fun v => (v.x - 0) ^ 2) M + d ^ 2 * waterInt (fun v => (v.y - 0) ^ 2) M +
    2 * c * d * waterInt (fun v => v.x * v.y) M := by
  unfold waterInt
  generalize M.rings = Ls
  induction Ls with
  | nil => simp
  | cons l Ls ih =>
    simp only [List.map_cons, List.sum_cons, ih]
    have : loopInt (fun v => (c * v.x + d * v.y) ^ 2) l = c ^ 2 * loopInt (fun v => (v.x - 0) ^ 2) l + d ^ 2 * loopInt (fun v => (v.y - 0) ^ 2) l + 2 * c * d * loopInt (fun v => v.x * v.y) l := by
      unfold loopInt
      generalize fan l = Ts
      induction Ts with
      | nil => simp
      | cons t Ts ih =>
        simp only [List.map_cons, List.sum_cons, ih]
        have : (flux (fun v => (c * v.x + d * v.y) ^ 2) t).z = c ^ 2 * (flux (fun v => (v.x - 0) ^ 2) t).z + d ^ 2 * (flux (fun v => (v.y - 0) ^ 2) t).z + 2 * c * d * (flux (fun v => v.x * v.y) t).z := by
          have e : (fun v : V3 => (c * v.x + d * v.y) ^ 2) = fun v => (c * v.x + d * v.y) * (c * v.x + d * v.y) := by funext v; ring
          unfold flux
          simp only [V3.smul_z]
          have e1 : simplex (fun v => (c * v.x + d * v.y) ^ 2) t = c ^ 2 * simplex (fun v => (v.x - 0) ^ 2) t + d ^ 2 * simplex (fun v => (v.y - 0) ^ 2) t + 2 * c * d * simplex (fun v => v.x * v.y) t := by
            unfold simplex
            simp only [← intervalIntegral.integral_const_mul]
            have hc : ∀ f : V3 → ℝ, Continuous (fun q : ℝ × ℝ => f (t.p + q.1 • (t.q - t.p) + q.2 • (t.r - t.p))) →
                Continuous fun u : ℝ => ∫ v in (0:ℝ)..(1 - u), f (t.p + u • (t.q - t.p) + v • (t.r - t.p)) := by
              intro f hf
              exact intervalIntegral.continuous_parametric_intervalIntegral_of_continuous (f := fun u v => f (t.p + u • (t.q - t.p) + v • (t.r - t.p)))
                (s := fun u => 1 - u) (by unfold Function.uncurry; exact hf) (by fun_prop)
            rw [← intervalIntegral.integral_add, ← intervalIntegral.integral_add]
            · refine intervalIntegral.integral_congr fun u _ => ?_
              show _ = ((∫ v in (0:ℝ)..(1 - u), _) + ∫ v in (0:ℝ)..(1 - u), _) + ∫ v in (0:ℝ)..(1 - u), _
              rw [← intervalIntegral.integral_add, ← intervalIntegral.integral_add]
              · exact intervalIntegral.integral_congr fun v _ => by ring
              all_goals
                apply Continuous.intervalIntegrable
                simp only [V3.add_x, V3.smul_x, V3.sub_x, V3.add_y, V3.smul_y, V3.sub_y]
                fun_prop
            all_goals apply Continuous.intervalIntegrable
            · exact (hc (fun w => c ^ 2 * (w.x - 0) ^ 2) (by simp only [V3.add_x, V3.smul_x, V3.sub_x]; fun_prop)).add
                (hc (fun w => d ^ 2 * (w.y - 0) ^ 2) (by simp only [V3.add_y, V3.smul_y, V3.sub_y]; fun_prop))
            · exact hc (fun w => 2 * c * d * (w.x * w.y)) (by simp only [V3.add_x, V3.smul_x, V3.sub_x, V3.add_y, V3.smul_y, V3.sub_y]; fun_prop)
            · exact hc (fun w => c ^ 2 * (w.x - 0) ^ 2) (by simp only [V3.add_x, V3.smul_x, V3.sub_x]; fun_prop)
            · exact hc (fun w => d ^ 2 * (w.y - 0) ^ 2) (by simp only [V3.add_y, V3.smul_y, V3.sub_y]; fun_prop)
          rw [e1]
          ring
        rw [this]
        ring
    rw [this]
    ring

/-- **C184, heading (defect).** The same body (`b'`) turned by the heading `a` about the vertical: the heights returned depend on the heading, because the axes are those of the world and not those of the body. -/
theorem C184_heading_wrong (j : List V3 → Junk) (rho g : ℝ) (b b' : Body) (hb : (b'.cogPositionInWorld .NWU).z = (b.cogPositionInWorld .NWU).z) (M : SMesh) (D : List Tri) (V : ℝ) (hf : Floating M D V)
    (a : ℝ) :
    ∃ h h', metacentricHeight j rho g M b = some h ∧ metacentricHeight j rho g (M.moved (yaw a) 0) b' = some h' ∧
      h'.x = Real.cos a ^ 2 * h.x + Real.sin a ^ 2 * h.y + 2 * Real.sin a * Real.cos a * waterInt (fun v => v.x * v.y) M / V ∧
      h'.y = Real.sin a ^ 2 * h.x + Real.cos a ^ 2 * h.y - 2 * Real.sin a * Real.cos a * waterInt (fun v => v.x * v.y) M / V := by
  have hh : AllHorizontal M := fun l hl => horizontal_of_level l (hf.surface l hl)
  have hV := hf.volume
  have hV0 : volInt (fun _ => 1) 0 M.closedUp ≠ 0 := hV ▸ hf.volume0
  have hm0 : move (yaw a) 0 0 = 0 := by rw [yaw_apply]; ext <;> simp
  have hvol : ∀ f, volInt f 0 (M.moved (yaw a) 0).closedUp = volInt (fun v => f (move (yaw a) 0 v)) 0 M.closedUp := by
    intro f
    have := volInt_moved (yaw_isRot a) 0 0 f M
    rwa [hm0] at this
  have hr : ∀ l ∈ (M.moved (yaw a) 0).rings, ∃ l' ∈ M.rings, l = l'.map (move (yaw a) 0) := by
    intro l hl
    obtain ⟨l', hl', rfl⟩ := List.mem_map.mp hl
    exact ⟨l'.map M.pos, List.mem_map.mpr ⟨l', hl', rfl⟩, by rw [List.map_map]; rfl⟩
  have hs' : AtSurface (M.moved (yaw a) 0) := by
    intro l hl v hv
    obtain ⟨l', hl', rfl⟩ := hr l hl
    obtain ⟨w, hw, rfl⟩ := List.mem_map.mp hv
    rw [yaw_apply]
    exact hf.surface l' hl' w hw
  have hc : ∀ l ∈ M.rings, Closed l := by
    intro l hl
    obtain ⟨l', hl', rfl⟩ := List.mem_map.mp hl
    exact (hf.good.boundary.closed l' hl').map M.pos
  have ho' : AllOuter (M.moved (yaw a) 0) := by
    intro l hl
    obtain ⟨l', hl', rfl⟩ := hr l hl
    have := hf.outer l' hl'
    unfold Outer at this ⊢
    rw [vectorArea_move (yaw_isRot a) 0 (hc l' hl')]
    simpa [yaw, M3.mulVec] using this
  obtain ⟨p, B, hp, hB, hs⟩ := C80_properties_partial j rho g (b.cogPositionInWorld .NWU) 0 .NWU M hf.good hf.loops hh hf.outer 0 hV0
  obtain ⟨p', B', hp', hB', ht⟩ := C80_properties_partial j rho g (b'.cogPositionInWorld .NWU) 0 .NWU (M.moved (yaw a) 0) (hf.good.moved (yaw_isRot a) 0) hf.loops
    (fun l hl => horizontal_of_level l (hs' l hl)) ho' 0 (by rw [hvol]; exact hV0)
  rw [hvol, ← hV] at hB' ht
  rw [← hV] at hB hs
  have hBB : B'.z = B.z := by
    have h1 := congrArg V3.z hB
    have h2 := congrArg V3.z hB'
    simp only [V3.smul_z, hvol, yaw_apply] at h1 h2
    exact mul_left_cancel₀ hf.volume0 (h2.trans h1.symm)
  obtain ⟨cs, L, -, h2, h3, -⟩ := caps_ready j hf.good hf.loops hh
  have quad := waterInt_quad M
  have cN : ∀ v, conv FC.NWU v = v := fun _ => rfl
  refine ⟨⟨p.heightT, p.heightL, 0⟩, ⟨p'.heightT, p'.heightL, 0⟩, ?_, ?_, ?_, ?_⟩
  · unfold metacentricHeight
    rw [hp]
    rfl
  · unfold metacentricHeight
    rw [hp']
    rfl
  all_goals
    simp only
    have hsc := Real.sin_sq_add_cos_sq a
    simp only [ht.heightT, ht.heightL, ht.radiusT, ht.radiusL, hs.heightT, hs.heightL, hs.radiusT, hs.radiusL, waterInt_yaw, cN, yaw_apply, V3.zero_x, V3.zero_y, hBB, hb]
    have q1 := quad (Real.sin a) (Real.cos a)
    have q2 := quad (Real.cos a) (-Real.sin a)
    have r1 : (fun v : V3 => (Real.sin a * v.x + Real.cos a * v.y - 0) ^ 2) = fun v => (Real.sin a * v.x + Real.cos a * v.y) ^ 2 := by funext v; ring
    have r2 : (fun v : V3 => (Real.cos a * v.x - Real.sin a * v.y - 0) ^ 2) = fun v => (Real.cos a * v.x + -Real.sin a * v.y) ^ 2 := by funext v; ring
    simp only [r1, r2, q1, q2]
    linear_combination (-(B.z - (b.cogPositionInWorld .NWU).z)) * hsc

/-- The hull of `Buoyancy` with a deck ending in a point floats. -/
theorem hull_floats (first : Face → Fin 3) :
    Floating (hull first) [⟨⟨1, 0, 0⟩, ⟨0, 1, 0⟩, ⟨0, 0, 1⟩⟩, ⟨⟨0, 1, 0⟩, 0, ⟨0, 0, 1⟩⟩, ⟨0, ⟨1, 0, 0⟩, ⟨0, 0, 1⟩⟩] (1 / 6) where
  good := hull_good first
  loops := by simp [hull]
  surface := hull_at first
  outer := fun l hl => by rw [Outer, hull_rings first l hl]; norm_num
  wet := by
    intro t ht
    unfold SMesh.tris at ht
    obtain ⟨f, hf, rfl⟩ := List.mem_map.mp ht
    generalize (hull first).first f = k
    simp only [hull, List.mem_cons, List.not_mem_nil, or_false] at hf
    rcases hf with rfl | rfl | rfl <;> fin_cases k <;> simp [Face.turned, triOf, hull, Wet]
  dry := by
    intro t ht
    simp only [List.mem_cons, List.not_mem_nil, or_false] at ht
    rcases ht with rfl | rfl | rfl <;> simp [Dry]
  volume := (hull_volume first).symm
  volume0 := by norm_num

theorem hull_flotation (first : Face → Fin 3) : waterInt (fun _ => 1) (hull first) = 1 / 2 ∧ IsFlotation (hull first) ⟨1 / 3, 1 / 3, 0⟩ := by
  have hr : (hull first).rings = [[(⟨1, 0, 0⟩ : V3), ⟨0, 1, 0⟩, 0, ⟨1, 0, 0⟩]] := by simp [SMesh.rings, hull]
  have h1 : waterInt (fun _ => 1) (hull first) = 1 / 2 := by
    unfold waterInt loopInt
    rw [hr]
    simp only [flux_one, fan, fan.go, List.map_cons, List.map_nil, List.sum_cons, List.sum_nil, normalVec]
    simp
  have hx : ∀ t, flux (fun v => v.x) t = flux (coord 0) t := fun _ => rfl
  have hy : ∀ t, flux (fun v => v.y) t = flux (coord 1) t := fun _ => rfl
  refine ⟨h1, rfl, ?_, ?_⟩
  · rw [h1]
    unfold waterInt loopInt
    rw [hr]
    simp only [hx, flux_coord, fan, fan.go, List.map_cons, List.map_nil, List.sum_cons, List.sum_nil, normalVec, coord, F1]
    norm_num
  · rw [h1]
    unfold waterInt loopInt
    rw [hr]
    simp only [hy, flux_coord, fan, fan.go, List.map_cons, List.map_nil, List.sum_cons, List.sum_nil, normalVec, coord, F1]
    norm_num

/-- **C184, defect.** A hull whose water plane is not centred under the origin of the body: neither height returned is a metacentric height (both are too high by a third). -/
theorem C184_wrong (j : List V3 → Junk) (first : Face → Fin 3) (b : Body) :
    ∃ (M : SMesh) (D : List Tri) (V : ℝ) (F h : V3), Floating M D V ∧ IsFlotation M F ∧ metacentricHeight j 1000 10 M b = some h ∧
      IsTransverse 1000 10 V (b.cogPositionInWorld .NWU - horizontal b) F (M.tris ++ D) (h.x - 1 / 3) ∧
      IsLongitudinal 1000 10 V (b.cogPositionInWorld .NWU - horizontal b) F (M.tris ++ D) (h.y - 1 / 3) := by
  obtain ⟨hA, hF⟩ := hull_flotation first
  obtain ⟨h, h1, h2, h3⟩ := C184_heights_partial j 1000 10 b (hull first) _ (1 / 6) (hull_floats first) ⟨1 / 3, 1 / 3, 0⟩ hF
  refine ⟨_, _, _, _, h, hull_floats first, hF, h1, ?_, ?_⟩
  · rw [hA] at h2
    have e : h.x - 1 / 3 = h.x - 1 / 2 * (1 / 3) ^ 2 / (1 / 6) := by norm_num
    rw [e]
    exact h2
  · rw [hA] at h3
    have e : h.y - 1 / 3 = h.y - 1 / 2 * (1 / 3) ^ 2 / (1 / 6) := by norm_num
    rw [e]
    exact h3

end Frydom.Hydro
