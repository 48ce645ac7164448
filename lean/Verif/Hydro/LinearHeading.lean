import Verif.Hydro.LinearTangent

/-!
# Linear hydrostatic force made with a mesh when the body has a heading (C185)

The stiffness is taken in the axes of the world (`FrHydroMesh::Compute` puts the clipped mesh in these axes, FrHydroMesh.cpp:99-131), but it is used in
those of the equilibrium frame and of the body (`src/frydom/hydrodynamics/hydrostatic/FrLinearHydrostaticForce.cpp:42-72`).
-/

open Classical

noncomputable section

namespace Frydom.Hydro
open Frydom.Geom Frydom.Core Frydom.Env Frydom.Mesh Frydom.Mesh.Clip Frydom.Mesh.Surface
open Filter Topology

/-- The clipped mesh turned by the heading `a` gives the properties of the turned water plane. -/
theorem turned_props (j : List V3 → Junk) (rho g : ℝ) (M : SMesh) (D : List Tri) (V : ℝ) (hf : Floating M D V) (a : ℝ) (G r : V3) :
    ∃ q q' B, (Props.new rho g G r .NWU).compute j M = some q ∧ (Props.new rho g G 0 .NWU).compute j (M.moved (yaw a) 0) = some q' ∧
      IsHydrostatic rho g M V B G r q ∧
      q'.K.getK44 = rho * g * (waterInt (fun v => (Real.sin a * v.x + Real.cos a * v.y) ^ 2) M + V * (B.z - G.z)) := by
  have hh : AllHorizontal M := fun l hl => horizontal_of_level l (hf.surface l hl)
  have hV := hf.volume
  have hV0 : volInt (fun _ => 1) 0 M.closedUp ≠ 0 := hV ▸ hf.volume0
  have hm0 : move (yaw a) 0 0 = 0 := by rw [yaw_apply]; ext <;> simp
  have hvol : ∀ f, volInt f 0 (M.moved (yaw a) 0).closedUp = volInt (fun v => f (move (yaw a) 0 v)) 0 M.closedUp := by
    intro f
    have := volInt_moved (yaw_isRot a) 0 0 f M
    rwa [hm0] at this
  have hr : ∀ l ∈ (M.moved (yaw a) 0).rings, ∃ l' ∈ M.rings, l = l'.map (move (yaw a) 0) := by
    intro l hl
    obtain ⟨l', hl', rfl⟩ := List.mem_map.mp hl
    exact ⟨l'.map M.pos, List.mem_map.mpr ⟨l', hl', rfl⟩, by rw [List.map_map]; rfl⟩
  have hs' : AtSurface (M.moved (yaw a) 0) := by
    intro l hl v hv
    obtain ⟨l', hl', rfl⟩ := hr l hl
    obtain ⟨w, hw, rfl⟩ := List.mem_map.mp hv
    rw [yaw_apply]
    exact hf.surface l' hl' w hw
  have hc : ∀ l ∈ M.rings, Closed l := by
    intro l hl
    obtain ⟨l', hl', rfl⟩ := List.mem_map.mp hl
    exact (hf.good.boundary.closed l' hl').map M.pos
  have ho' : AllOuter (M.moved (yaw a) 0) := by
    intro l hl
    obtain ⟨l', hl', rfl⟩ := hr l hl
    have := hf.outer l' hl'
    unfold Outer at this ⊢
    rw [vectorArea_move (yaw_isRot a) 0 (hc l' hl')]
    simpa [yaw, M3.mulVec] using this
  obtain ⟨p, B, hp, hB, hs⟩ := C80_properties_partial j rho g G r .NWU M hf.good hf.loops hh hf.outer 0 hV0
  obtain ⟨p', B', hp', hB', ht⟩ := C80_properties_partial j rho g G 0 .NWU (M.moved (yaw a) 0) (hf.good.moved (yaw_isRot a) 0) hf.loops
    (fun l hl => horizontal_of_level l (hs' l hl)) ho' 0 (by rw [hvol]; exact hV0)
  rw [hvol, ← hV] at hB' ht
  rw [← hV] at hB hs
  have hBB : B'.z = B.z := by
    have h1 := congrArg V3.z hB
    have h2 := congrArg V3.z hB'
    simp only [V3.smul_z, hvol, yaw_apply] at h1 h2
    exact mul_left_cancel₀ hf.volume0 (h2.trans h1.symm)
  have cN : ∀ v, conv FC.NWU v = v := fun _ => rfl
  rw [cN, cN] at hs ht
  refine ⟨p, p', B, hp, hp', hs, ?_⟩
  have hV00 := hf.volume0
  rw [ht.K44, ht.heightT, ht.radiusT, waterInt_yaw, hBB]
  have e : (fun v : V3 => ((move (yaw a) 0 v).y - (0 : V3).y) ^ 2) = fun v => (Real.sin a * v.x + Real.cos a * v.y) ^ 2 := by
    funext v
    rw [yaw_apply]
    simp
  rw [e]
  field_simp
  ring

/-- **C185, heading (defect).** The body has the heading `a` when the force is made with a mesh (the clipped mesh is that of the body of heading zero, turned by `a`): even with the centre of gravity and the point followed on the
vertical of the origin of the body, the roll moment of the load is wrong at first order for every rolling motion, unless the second moment of the water plane about the axis of the body is the one about the axis of the world. -/
theorem C185_heading_wrong (j : List V3 → Junk) (junk rho g : ℝ) (M : SMesh) (D : List Tri) (V : ℝ) (hf : Floating M D V) (H : List Tri) (p c : V3) (z a : ℝ) (b0 : Body) (k0 : Stiffness)
    (hb0 : (b0.cogPositionInWorld .NWU).z = c.z + (z - p.z)) (hH : raised (z - p.z) H = M.tris ++ D) (hp : p.x = 0 ∧ p.y = 0) (hc : c.x = 0 ∧ c.y = 0)
    (hB : volInt (fun v => v.x) 0 M.closedUp = 0 ∧ volInt (fun v => v.y) 0 M.closedUp = 0)
    (hrg : rho * g ≠ 0) (ha : waterInt (fun v => (Real.sin a * v.x + Real.cos a * v.y) ^ 2) M ≠ waterInt (fun v => v.y ^ 2) M) :
    ∃ K, stiffnessFromMesh j rho g (M.moved (yaw a) 0) b0 k0 = some K ∧
      ∀ (f : Force) (b : ℝ → MassBody) (e : ℝ → EqFrame) (roll : ℝ → ℝ) (a' : ℝ), roll 0 = 0 → HasDerivAt roll a' 0 → a' ≠ 0 →
        (∀ s, MovedBy (b s).body (e s) p z 0 (roll s) 0) → (∀ s x y, ((b s).body.toWorld ⟨x, y, 0⟩ .NWU).x = x) → (∀ s, (b s).getMass = rho * V) → (∀ s, (b s).body.getCOG .NWU = c) →
        ∀ F T : ℝ → V3, (∀ s, IsLoad (linearHydrostatic junk g K (e s) (b s) f) (b s).body .NWU (F s) (T s) ((b s).body.cogPositionInWorld .NWU)) →
          ¬ SameAtFirstOrder T fun s => seaMomentOn rho g (b s).body H ((b s).body.cogPositionInWorld .NWU) := by
  obtain ⟨q1, q, B, hq1, hq, hs1, k44⟩ := turned_props j rho g M D V hf a (b0.cogPositionInWorld .NWU) 0
  obtain ⟨q2, hq2, tan⟩ := C185_tangent j junk rho g M D V hf H p c 0 (b0.cogPositionInWorld .NWU) z hH ⟨hp.1.trans hc.1.symm, hp.2.trans hc.2.symm⟩ ⟨hc.1.symm, hc.2.symm⟩ hb0
    ⟨by rw [hB.1, hc.1, mul_zero], by rw [hB.2, hc.2, mul_zero]⟩
  obtain rfl : q1 = q2 := Option.some.inj (hq1.symm.trans hq2)
  have hsym := computed_symmetric hq
  have hsym1 := computed_symmetric hq1
  have hV0 := hf.volume0
  have d44 : q1.K.getK44 ≠ q.K.getK44 := by
    rw [k44, hs1.K44, hs1.heightT, hs1.radiusT]
    intro h
    refine ha ?_
    have e : (fun v : V3 => (v.y - (0 : V3).y) ^ 2) = fun v => v.y ^ 2 := by funext v; simp
    rw [e] at h
    have h' : rho * g * (waterInt (fun v => (Real.sin a * v.x + Real.cos a * v.y) ^ 2) M - waterInt (fun v => v.y ^ 2) M) = 0 := by
      have : rho * g * V * (waterInt (fun v => v.y ^ 2) M / V + B.z - (b0.cogPositionInWorld .NWU).z) =
          rho * g * (waterInt (fun v => v.y ^ 2) M + V * (B.z - (b0.cogPositionInWorld .NWU).z)) := by field_simp; ring
      rw [this] at h
      linarith
    have := (mul_eq_zero.mp h').resolve_left hrg
    linarith
  refine ⟨q.K, ?_, ?_⟩
  · unfold stiffnessFromMesh
    rw [hq]
    rfl
  intro f b e roll a' r0 hr ha' hm hup hmass hcog F T hload hsame
  obtain ⟨F1, T1, l1, -, s1⟩ := tan f b e (fun _ => 0) roll (fun _ => 0) 0 a' 0 rfl r0 rfl (hasDerivAt_const 0 (0 : ℝ)) hr (hasDerivAt_const 0 (0 : ℝ)) hm hmass hcog
  have read : ∀ (K : Stiffness), K = ⟨K.getK33, K.getK34, K.getK35, K.getK34, K.getK44, K.getK45, K.getK35, K.getK45, K.getK55⟩ → ∀ (s : ℝ) (w t : V3),
      IsLoad (linearHydrostatic junk g K (e s) (b s) f) (b s).body .NWU w t ((b s).body.cogPositionInWorld .NWU) → t.x = -(K.getK44 * roll s) := by
    intro K hK s w t ht
    obtain ⟨x, y, w', hin, hdis⟩ := (hm s).displaced
    have key := C83_load_partial junk g K.getK33 K.getK34 K.getK35 K.getK44 K.getK45 K.getK55 K (e s) (hm s).level.1 (b s) (hm s).placed f _ _ hin hdis
    rw [show setStiffnessMatrix K ⟨K.getK33, K.getK34, K.getK35, K.getK34, K.getK44, K.getK45, K.getK35, K.getK45, K.getK55⟩ = K from by
      rw [← hK]
      exact (C83_stiffness K K (by rw [hK]; rfl)).2.1] at key
    rw [load_unique ht key, hup s]
    simp
  have dx := ((hsame.2 0).sub (s1.2 0)).congr_of_eventuallyEq (f₁ := fun s : ℝ => (q1.K.getK44 - q.K.getK44) * roll s) (Eventually.of_forall fun s => by
    have h1 := read q.K hsym s _ _ (hload s)
    have h2 := read q1.K hsym1 s _ _ (l1 s)
    show _ = ((T s).x - _) - ((T1 s).x - _)
    rw [h1, h2]
    ring)
  have ux := dx.unique (hr.const_mul (q1.K.getK44 - q.K.getK44))
  rw [sub_zero] at ux
  rcases mul_eq_zero.mp ux.symm with h | h
  · exact d44 (sub_eq_zero.mp h)
  · exact ha' h

/-! ## The hypotheses are met -/

/-- The hull of `Buoyancy` with its centre of buoyancy on the vertical of the origin. -/
def centred (first : Face → Fin 3) : SMesh := (hull first).moved (yaw 0) ⟨-1 / 4, -1 / 4, 0⟩

theorem centred_pos (first : Face → Fin 3) : (centred first).pos 0 = ⟨-1 / 4, -1 / 4, -1⟩ ∧ (centred first).pos 1 = ⟨3 / 4, -1 / 4, 0⟩ ∧ (centred first).pos 2 = ⟨-1 / 4, 3 / 4, 0⟩ ∧
    (centred first).pos 3 = ⟨-1 / 4, -1 / 4, 0⟩ := by
  refine ⟨?_, ?_, ?_, ?_⟩ <;> ext <;> simp [centred, hull, SMesh.moved, move, yaw, M3.mulVec] <;> norm_num

theorem centred_rings (first : Face → Fin 3) : (centred first).rings = [[(⟨3 / 4, -1 / 4, 0⟩ : V3), ⟨-1 / 4, 3 / 4, 0⟩, ⟨-1 / 4, -1 / 4, 0⟩, ⟨3 / 4, -1 / 4, 0⟩]] := by
  obtain ⟨-, h1, h2, h3⟩ := centred_pos first
  show [[(centred first).pos 1, (centred first).pos 2, (centred first).pos 3, (centred first).pos 1]] = _
  rw [h1, h2, h3]

theorem centred_tris (first : Face → Fin 3) : (centred first).tris = [(Face.turned ⟨0, 2, 1⟩ (first ⟨0, 2, 1⟩)), (Face.turned ⟨0, 1, 3⟩ (first ⟨0, 1, 3⟩)), (Face.turned ⟨0, 3, 2⟩ (first ⟨0, 3, 2⟩))].map
    (triOf (centred first).pos) := rfl

theorem centred_up (first : Face → Fin 3) : (centred first).closedUp = (centred first).tris ++ [⟨⟨3 / 4, -1 / 4, 0⟩, ⟨-1 / 4, 3 / 4, 0⟩, ⟨-1 / 4, -1 / 4, 0⟩⟩, ⟨⟨3 / 4, -1 / 4, 0⟩, ⟨-1 / 4, -1 / 4, 0⟩, ⟨3 / 4, -1 / 4, 0⟩⟩] := by
  unfold SMesh.closedUp
  rw [centred_rings]
  rfl

theorem centred_volumes (first : Face → Fin 3) : volInt (fun _ => 1) 0 (centred first).closedUp = 1 / 6 ∧ volInt (fun v => v.x) 0 (centred first).closedUp = 0 ∧
    volInt (fun v => v.y) 0 (centred first).closedUp = 0 := by
  obtain ⟨h0, h1, h2, h3⟩ := centred_pos first
  have ex : tetInt (fun v => v.x) 0 = fun t => tetInt (coord 0) 0 t := rfl
  have ey : tetInt (fun v => v.y) 0 = fun t => tetInt (coord 1) 0 t := rfl
  have eo : tetInt (fun _ => 1) 0 = fun t => det 0 t / 6 := by funext t; rw [tetInt_one]
  rw [centred_up, centred_tris]
  unfold volInt
  rw [ex, ey, eo]
  simp only [tetInt_coord, List.map_cons, List.map_nil, List.map_append, List.cons_append, List.nil_append, List.sum_cons, List.sum_nil]
  obtain ⟨w, hw⟩ : ∃ w, w = (centred first).pos := ⟨_, rfl⟩
  rw [← hw] at h0 h1 h2 h3 ⊢
  have d0 : ∀ (F : Face) (k : Fin 3), det 0 (triOf w (F.turned k)) = det 0 (triOf w F) := by
    intro F k
    fin_cases k <;> simp [Face.turned, triOf, det, V3.dot, V3.cross] <;> ring
  have c0 : ∀ (F : Face) (k : Fin 3) (i : Fin 3) (x : ℝ), x + coord i (triOf w (F.turned k)).p + coord i (triOf w (F.turned k)).q + coord i (triOf w (F.turned k)).r =
      x + coord i (triOf w F).p + coord i (triOf w F).q + coord i (triOf w F).r := by
    intro F k i x
    fin_cases k <;> simp [Face.turned, triOf] <;> ring
  simp only [d0, c0]
  refine ⟨?_, ?_, ?_⟩ <;> norm_num [triOf, det, V3.dot, V3.cross, coord, h0, h1, h2, h3]

theorem centred_floats (first : Face → Fin 3) :
    Floating (centred first) [⟨⟨3 / 4, -1 / 4, 0⟩, ⟨-1 / 4, 3 / 4, 0⟩, ⟨-1 / 4, -1 / 4, 1⟩⟩] (1 / 6) where
  good := (hull_good first).moved (yaw_isRot 0) _
  loops := by simp [centred, hull, SMesh.moved]
  surface := by
    intro l hl v hv
    rw [centred_rings] at hl
    simp only [List.mem_cons, List.not_mem_nil, or_false] at hl
    subst hl
    simp only [List.mem_cons, List.not_mem_nil, or_false] at hv
    rcases hv with rfl | rfl | rfl | rfl <;> rfl
  outer := by
    intro l hl
    rw [centred_rings] at hl
    simp only [List.mem_cons, List.not_mem_nil, or_false] at hl
    subst hl
    unfold Outer
    simp [vectorArea]
    norm_num
  wet := by
    intro t ht
    obtain ⟨h0, h1, h2, h3⟩ := centred_pos first
    rw [centred_tris] at ht
    generalize first ⟨0, 2, 1⟩ = a at ht
    generalize first ⟨0, 1, 3⟩ = b at ht
    generalize first ⟨0, 3, 2⟩ = c at ht
    simp only [List.map_cons, List.map_nil, List.mem_cons, List.not_mem_nil, or_false] at ht
    rcases ht with rfl | rfl | rfl
    · fin_cases a <;> simp [Face.turned, triOf, h0, h1, h2, h3, Wet]
    · fin_cases b <;> simp [Face.turned, triOf, h0, h1, h2, h3, Wet]
    · fin_cases c <;> simp [Face.turned, triOf, h0, h1, h2, h3, Wet]
  dry := by
    intro t ht
    simp only [List.mem_cons, List.not_mem_nil, or_false] at ht
    subst ht
    simp [Dry]
  volume := (centred_volumes first).1.symm
  volume0 := by norm_num

theorem centred_moments (first : Face → Fin 3) : waterInt (fun v => v.y ^ 2) (centred first) = 1 / 32 ∧
    waterInt (fun v => (Real.sin (Real.pi / 4) * v.x + Real.cos (Real.pi / 4) * v.y) ^ 2) (centred first) = 1 / 48 := by
  have s0 := fun (i k : Fin 3) (t : Tri) => flux_shift i k 0 0 t
  have hxx : waterInt (fun v => (v.x - 0) ^ 2) (centred first) = 1 / 32 := by
    have e : (fun v : V3 => (v.x - 0) ^ 2) = fun v => (coord 0 v - 0) * (coord 0 v - 0) := by funext v; simp [coord]; ring
    unfold waterInt loopInt
    rw [centred_rings, e]
    simp only [s0, fan, fan.go, List.map_cons, List.map_nil, List.sum_cons, List.sum_nil]
    simp only [normalVec, coord, mul2]
    norm_num
  have hyy : waterInt (fun v => (v.y - 0) ^ 2) (centred first) = 1 / 32 := by
    have e : (fun v : V3 => (v.y - 0) ^ 2) = fun v => (coord 1 v - 0) * (coord 1 v - 0) := by funext v; simp [coord]; ring
    unfold waterInt loopInt
    rw [centred_rings, e]
    simp only [s0, fan, fan.go, List.map_cons, List.map_nil, List.sum_cons, List.sum_nil]
    simp only [normalVec, coord, mul2]
    norm_num
  have hxy : waterInt (fun v => v.x * v.y) (centred first) = -1 / 96 := by
    have e : (fun v : V3 => v.x * v.y) = fun v => (coord 0 v - 0) * (coord 1 v - 0) := by funext v; simp [coord]
    unfold waterInt loopInt
    rw [centred_rings, e]
    simp only [s0, fan, fan.go, List.map_cons, List.map_nil, List.sum_cons, List.sum_nil]
    simp only [normalVec, coord, mul2]
    norm_num
  constructor
  · rw [← hyy]
    congr 1
    funext v
    ring
  · rw [waterInt_quad, hxx, hyy, hxy, Real.cos_pi_div_four, Real.sin_pi_div_four]
    have h2 : Real.sqrt 2 ^ 2 = 2 := Real.sq_sqrt (by norm_num)
    linear_combination (1 / 96 : ℝ) * h2

/-- A body of 1/6 of a tonne with this hull and the deck above it, that rolls by `sin s` about the origin. -/
def rolling (s : ℝ) : MassBody :=
  ⟨⟨⟨0, setCardan .NWU ⟨Real.sin s, 0, 0⟩⟩, 0, ⟨0, 0, 0, 0⟩, 0, 0, 0⟩, 1000 * (1 / 6), ⟨1, 0, 0, 0, 1, 0, 0, 0, 1⟩⟩
def rollingFrame (s : ℝ) : EqFrame := ⟨⟨0, Q.one⟩, (Node.new (rolling s).body), 0, 0, false, 0⟩

theorem rolling_moved (s : ℝ) : MovedBy (rolling s).body (rollingFrame s) 0 0 0 (Real.sin s) 0 where
  placed := ⟨eulerToQuat_unit _ _ _, by
    show (0 : V3) = 0 + (setCardan .NWU ⟨Real.sin s, 0, 0⟩).rotate 0
    ext <;> simp [Q.rotate, M3.mulVec]⟩
  node := refresh_attached _ _ Q.isUnit_one
  point := by
    show (0 : V3) + 0 = _
    ext <;> simp
  axes := fun v => Q.rotate_one v
  level := ⟨Q.isUnit_one, Q.rotate_one _⟩
  altitude := rfl
  displaced := by
    refine ⟨0, 0, 0, ?_, ?_⟩
    · have := Real.pi_gt_three
      have h1 := Real.sin_le_one s
      have h2 := Real.neg_one_le_sin s
      refine ⟨?_, ?_, ?_, ?_, ?_, ?_⟩ <;> simp <;> linarith
    · unfold Displaced
      refine Frame.ext ?_ ?_
      · show (0 : V3) + (setCardan .NWU ⟨Real.sin s, 0, 0⟩).rotate 0 = 0 + Q.one.rotate ⟨0, 0, 0⟩
        rw [Q.rotate_one]
        ext <;> simp [Q.rotate, M3.mulVec]
      · show (setCardan .NWU ⟨Real.sin s, 0, 0⟩).mul Q.one = Q.one.mul (setCardan .NWU ⟨Real.sin s, 0, 0⟩)
        rw [Q.mul_one, Q.one_mul]

/-- The hypotheses of `C185_heading_wrong` are met, with a body heading north-west when the force is made. -/
example (j : List V3 → Junk) (junk : ℝ) (first : Face → Fin 3) (f : Force) (k0 : Stiffness) (b0 : Body) (hb0 : (b0.cogPositionInWorld .NWU).z = 0) :
    let H := (centred first).tris ++ [⟨⟨3 / 4, -1 / 4, 0⟩, ⟨-1 / 4, 3 / 4, 0⟩, ⟨-1 / 4, -1 / 4, 1⟩⟩]
    ∃ K, stiffnessFromMesh j 1000 10 ((centred first).moved (yaw (Real.pi / 4)) 0) b0 k0 = some K ∧
      ∀ F T : ℝ → V3, (∀ s, IsLoad (linearHydrostatic junk 10 K (rollingFrame s) (rolling s) f) (rolling s).body .NWU (F s) (T s) ((rolling s).body.cogPositionInWorld .NWU)) →
        ¬ SameAtFirstOrder T fun s => seaMomentOn 1000 10 (rolling s).body H ((rolling s).body.cogPositionInWorld .NWU) := by
  intro H
  have hH : raised ((0:ℝ) - (0 : V3).z) H = H := by
    unfold raised
    conv_rhs => rw [← List.map_id H]
    refine List.map_congr_left fun t _ => ?_
    have e : ∀ v : V3, v + ⟨0, 0, (0:ℝ) - (0 : V3).z⟩ = v := by intro v; ext <;> simp
    simp only [e]
    rfl
  obtain ⟨-, vx, vy⟩ := centred_volumes first
  obtain ⟨m1, m2⟩ := centred_moments first
  obtain ⟨K, hK, h⟩ := C185_heading_wrong j junk 1000 10 (centred first) _ (1 / 6) (centred_floats first) H 0 0 0 (Real.pi / 4) b0 k0 (by rw [hb0]; simp) hH ⟨rfl, rfl⟩ ⟨rfl, rfl⟩ ⟨vx, vy⟩
    (by norm_num) (by rw [m1, m2]; norm_num)
  refine ⟨K, hK, h f rolling rollingFrame Real.sin 1 Real.sin_zero (by simpa using Real.hasDerivAt_sin 0) one_ne_zero rolling_moved ?_ (fun _ => rfl) fun _ => rfl⟩
  intro s x y
  show ((setCardan .NWU ⟨Real.sin s, 0, 0⟩).rotate ⟨x, y, 0⟩).x = x
  refine (congrArg V3.x (cardan_split (Real.sin s) 0 0 ⟨x, y, 0⟩)).trans ?_
  rw [rollPitch_eq]
  simp [Hydro.yaw, M3.mulVec]

end Frydom.Hydro
