import Verif.Mesh.ClipIntegrals
import Verif.Hydro.HydrostaticEnergy

/-!
# The hydrostatic load on the mesh that the clipper gives (C192)

The nonlinear hydrostatic load (C78) is computed on the mesh that remains after the clipping of the hull by the sea (C66, C67). Here it is compared with the load of the sea on the original hull.
-/

open Classical

noncomputable section

namespace Frydom.Hydro
open Frydom.Geom Frydom.Core Frydom.Mesh Frydom.Mesh.Surface Frydom.Mesh.Clip
open Frydom.Link (HasVel)

/-! ## Specification -/

/-- The triangle read from another of its corners. -/
def Turned (a b : Tri) : Prop := a = b ∨ a = ⟨b.q, b.r, b.p⟩ ∨ a = ⟨b.r, b.p, b.q⟩

/-- The plane of the sea at rest. -/
structure IsSea (pl : Frydom.Mesh.Plane) : Prop where
  normal : pl.getNormal .NWU = V3.e3
  origin : (pl.getOrigin .NWU).z = 0

/-! ## Bounds of the integrals over a triangle -/

theorem Cont.times {f g : V3 → ℝ} (hf : Cont f) (hg : Cont g) : Cont fun v => f v * g v := Continuous.mul hf hg

theorem simplex_rot {g : V3 → ℝ} (hg : Cont g) (p q r : V3) : simplex g ⟨q, r, p⟩ = simplex g ⟨p, q, r⟩ := by
  rw [simplex_swap hg, simplex_turn, simplex_swap hg, simplex_turn]

theorem flux_turned {g : V3 → ℝ} (hg : Cont g) {a b : Tri} (h : Turned a b) : flux g a = flux g b := by
  obtain ⟨p, q, r⟩ := b
  rcases h with rfl | rfl | rfl
  · rfl
  · unfold flux
    rw [simplex_rot hg]
    congr 1
    unfold normalVec
    ext <;> simp <;> ring
  · unfold flux
    rw [← simplex_rot hg]
    congr 1
    unfold normalVec
    ext <;> simp <;> ring

theorem sum_turned {g : V3 → ℝ} (hg : Cont g) {T U : List Tri} (h : List.Forall₂ Turned T U) (i : Fin 3) :
    (T.map fun t => coord i (flux g t)).sum = (U.map fun t => coord i (flux g t)).sum := by
  induction h with
  | nil => rfl
  | cons h _ ih => rw [List.map_cons, List.map_cons, List.sum_cons, List.sum_cons, ih, flux_turned hg h]

theorem in_tri (t : Tri) {u v : ℝ} (hu : 0 ≤ u) (hv : 0 ≤ v) (h : u + v ≤ 1) : InTri t (t.p + u • (t.q - t.p) + v • (t.r - t.p)) :=
  ⟨1 - u - v, u, v, by linarith, hu, hv, by ring, by ext <;> simp <;> ring⟩

theorem simplex_le {f g : V3 → ℝ} (hf : Cont f) (hg : Cont g) {t : Tri} (h : ∀ x, InTri t x → f x ≤ g x) : simplex f t ≤ simplex g t := by
  unfold simplex
  refine intervalIntegral.integral_mono_on zero_le_one ?_ ?_ ?_
  · apply Continuous.intervalIntegrable
    exact intervalIntegral.continuous_parametric_intervalIntegral_of_continuous (s := fun u => 1 - u) (hf.pull t.p (t.q - t.p) (t.r - t.p)) (by fun_prop)
  · apply Continuous.intervalIntegrable
    exact intervalIntegral.continuous_parametric_intervalIntegral_of_continuous (s := fun u => 1 - u) (hg.pull t.p (t.q - t.p) (t.r - t.p)) (by fun_prop)
  · intro u hu
    refine intervalIntegral.integral_mono_on (by linarith [hu.2]) ?_ ?_ fun v hv => h _ (in_tri t hu.1 hv.1 (by linarith [hv.2]))
    · apply Continuous.intervalIntegrable
      exact (hf.pull t.p (t.q - t.p) (t.r - t.p)).comp (by fun_prop : Continuous fun v : ℝ => (u, v))
    · apply Continuous.intervalIntegrable
      exact (hg.pull t.p (t.q - t.p) (t.r - t.p)).comp (by fun_prop : Continuous fun v : ℝ => (u, v))

theorem simplex_const (c : ℝ) (t : Tri) : simplex (fun _ => c) t = c / 2 := by
  unfold simplex
  simp only [intervalIntegral.integral_const, smul_eq_mul, sub_zero]
  rw [intervalIntegral.integral_mul_const, intervalIntegral.integral_sub (by simp) (by simp)]
  simp
  norm_num
  ring

theorem flux_bound {f : V3 → ℝ} (hf : Cont f) {t : Tri} {c : ℝ} (h : ∀ x, InTri t x → |f x| ≤ c) (i : Fin 3) :
    |coord i (flux f t)| ≤ c * (V3.norm (areaVec t) / 2) := by
  unfold flux
  have k : Cont fun _ => c := continuous_const
  have k' : Cont fun _ => -c := continuous_const
  have h1 := simplex_le hf k (t := t) fun x hx => (abs_le.mp (h x hx)).2
  have h2 := simplex_le k' hf (t := t) fun x hx => (abs_le.mp (h x hx)).1
  rw [simplex_const] at h1 h2
  have hs : |simplex f t| ≤ c / 2 := abs_le.mpr ⟨by linarith, h1⟩
  rw [coord_smul, abs_mul]
  have hn : |coord i (normalVec t)| ≤ V3.norm (areaVec t) := abs_coord_le i (normalVec t)
  calc |simplex f t| * |coord i (normalVec t)| ≤ (c / 2) * V3.norm (areaVec t) := mul_le_mul hs hn (abs_nonneg _) ((abs_nonneg _).trans hs)
    _ = _ := by ring

theorem flux_sub {f g : V3 → ℝ} (hf : Cont f) (hg : Cont g) (t : Tri) (i : Fin 3) :
    coord i (flux f t) - coord i (flux g t) = coord i (flux (fun v => f v - g v) t) := by
  have := simplex_lc (hf.pull t.p (t.q - t.p) (t.r - t.p)) (hg.pull t.p (t.q - t.p) (t.r - t.p)) (hg.pull t.p (t.q - t.p) (t.r - t.p)) 1 (-1) 0
  unfold flux
  rw [coord_smul, coord_smul, coord_smul, ← sub_mul]
  congr 1
  unfold simplex
  have e : (∫ u in (0:ℝ)..1, ∫ v in (0:ℝ)..(1 - u), (f (t.p + u • (t.q - t.p) + v • (t.r - t.p)) - g (t.p + u • (t.q - t.p) + v • (t.r - t.p)))) =
      ∫ u in (0:ℝ)..1, ∫ v in (0:ℝ)..(1 - u), (1 * f (t.p + u • (t.q - t.p) + v • (t.r - t.p)) + -1 * g (t.p + u • (t.q - t.p) + v • (t.r - t.p)) +
        0 * g (t.p + u • (t.q - t.p) + v • (t.r - t.p))) := by
    refine intervalIntegral.integral_congr fun u _ => intervalIntegral.integral_congr fun v _ => ?_
    show _ - _ = _ + _ + _
    ring
  rw [e, this]
  ring

theorem sum_area (c : ℝ) (l : List Tri) : (l.map fun t => c * (V3.norm (areaVec t) / 2)).sum = c * area l := by
  unfold area
  exact sum_map_mul c _ l

theorem sea_dist {pl : Frydom.Mesh.Plane} (h : IsSea pl) (body p : V3) : (planeSurf pl body).dist p = p.z := by
  unfold planeSurf
  simp only [h.normal, V3.dot, V3.e3, V3.sub_z, V3.sub_x, V3.sub_y, h.origin, horiz]
  ring

theorem convex_lt {u v w a b c k : ℝ} (hu : 0 ≤ u) (hv : 0 ≤ v) (hw : 0 ≤ w) (hs : u + v + w = 1) (ha : a ≤ k) (hb : b ≤ k) (hc : c ≤ k) : u * a + v * b + w * c ≤ k := by
  have := mul_le_mul_of_nonneg_left ha hu
  have := mul_le_mul_of_nonneg_left hb hv
  have := mul_le_mul_of_nonneg_left hc hw
  have e : u * k + v * k + w * k = k := by rw [← add_mul, ← add_mul, hs, one_mul]
  linarith

/-- **C192, pressures.** Without projection, the hull being clipped by the sea at rest: for every continuous weight, bounded by `K` on the hull, the integral of weight times z (the pressure of the code) over the
mesh that remains differs from minus that of weight times depth of water over the whole original hull by at most `K` times the threshold times the area of the hull. -/
theorem C192_pressure (pl : Frydom.Mesh.Plane) (hs : IsSea pl) (body : V3) (P : Params) (ht : 1e-16 ≤ P.thr) (hr : P.ratio ≤ 0) (C : Choices) (hC : C.Fair) (M : Input) (hM : M.Ok) :
    ∃ out N, (∀ n, N ≤ n → apply (planeSurf pl body) P C n M = some out) ∧
      ∀ (h : V3 → ℝ) (K : ℝ), Cont h → (∀ x, OnSurface M.tris x → |h x| ≤ K) → ∀ i,
        |(out.map fun t => coord i (flux (fun v => h v * v.z) t)).sum + (M.tris.map fun t => coord i (flux (fun v => h v * depth v) t)).sum| ≤ K * P.thr * area M.tris := by
  have hn : V3.dot pl.normal pl.normal = 1 := by
    have : pl.normal = V3.e3 := hs.normal
    rw [this]
    simp [V3.dot, V3.e3]
  obtain ⟨out, N, dry, hrun, ho, hd, hio, hid, hA, hI⟩ := C192_integrals (planeSurf pl body) P _ (plane_good hn ht).1 (plane_good hn ht).2 hr C hC M hM (fun _ _ => trivial)
  refine ⟨out, N, hrun, fun h K hh hK i => ?_⟩
  have hthr : 0 ≤ P.thr := le_trans (by norm_num) ht
  have cz : Cont fun v => h v * v.z := Continuous.mul hh (by fun_prop)
  have cd : Cont fun v => h v * depth v := by
    refine Continuous.mul hh ?_
    show Continuous fun x : ℝ × ℝ × ℝ => max (-x.2.2) 0
    fun_prop
  have cnd : Cont fun v => -(h v * depth v) := Continuous.neg cd
  have hsum := congrArg (coord i) (hI _ cd).2
  have ca : ∀ a b : V3, coord i (a + b) = coord i a + coord i b := by intro a b; fin_cases i <;> rfl
  rw [ca, sumV_coord, sumV_coord, sumV_coord, List.map_map, List.map_map, List.map_map] at hsum
  have hsum' : (out.map fun t => coord i (flux (fun v => h v * depth v) t)).sum + (dry.map fun t => coord i (flux (fun v => h v * depth v) t)).sum =
      (M.tris.map fun t => coord i (flux (fun v => h v * depth v) t)).sum := hsum
  rw [← hsum', ← add_assoc, ← sum_map_add]
  have neg : ∀ t, coord i (flux (fun v => -(h v * depth v)) t) = -coord i (flux (fun v => h v * depth v) t) := by
    intro t
    unfold flux simplex
    simp only [intervalIntegral.integral_neg, coord_smul]
    ring
  have b1 : |(out.map fun t => coord i (flux (fun v => h v * v.z) t) + coord i (flux (fun v => h v * depth v) t)).sum| ≤ K * P.thr * area out := by
    rw [← sum_area]
    refine abs_sum_le _ _ _ fun t hto => ?_
    have e : coord i (flux (fun v => h v * v.z) t) + coord i (flux (fun v => h v * depth v) t) = coord i (flux (fun v => h v * v.z - -(h v * depth v)) t) := by
      rw [← flux_sub cz cnd, neg]
      ring
    rw [e]
    have cs : Cont fun v => h v * v.z - -(h v * depth v) := Continuous.sub cz cnd
    refine flux_bound cs (fun x hx => ?_) i
    have k := hK x (hio t hto x hx)
    obtain ⟨u, v, w, hu, hv, hw, h1, rfl⟩ := hx
    have z1 := ho t hto t.p (Or.inl rfl)
    have z2 := ho t hto t.q (Or.inr (Or.inl rfl))
    have z3 := ho t hto t.r (Or.inr (Or.inr rfl))
    rw [sea_dist hs] at z1 z2 z3
    have z := convex_lt hu hv hw h1 z1.le z2.le z3.le
    have ez : (u • t.p + v • t.q + w • t.r).z = u * t.p.z + v * t.q.z + w * t.r.z := rfl
    have e2 : h (u • t.p + v • t.q + w • t.r) * (u • t.p + v • t.q + w • t.r).z - -(h (u • t.p + v • t.q + w • t.r) * depth (u • t.p + v • t.q + w • t.r)) =
        h (u • t.p + v • t.q + w • t.r) * max (u • t.p + v • t.q + w • t.r).z 0 := by
      unfold depth
      rcases le_total (u • t.p + v • t.q + w • t.r).z 0 with q | q
      · rw [max_eq_right q, max_eq_left (by linarith)]; ring
      · rw [max_eq_left q, max_eq_right (by linarith)]; ring
    rw [e2, abs_mul, abs_of_nonneg (le_max_right _ (0:ℝ)), ez]
    exact mul_le_mul k (max_le z hthr) (le_max_right _ _) ((abs_nonneg _).trans k)
  have b2 : |(dry.map fun t => coord i (flux (fun v => h v * depth v) t)).sum| ≤ K * P.thr * area dry := by
    rw [← sum_area]
    refine abs_sum_le _ _ _ fun t htd => flux_bound cd (fun x hx => ?_) i
    have k := hK x (hid t htd x hx)
    obtain ⟨u, v, w, hu, hv, hw, h1, rfl⟩ := hx
    have z1 := hd t htd t.p (Or.inl rfl)
    have z2 := hd t htd t.q (Or.inr (Or.inl rfl))
    have z3 := hd t htd t.r (Or.inr (Or.inr rfl))
    rw [sea_dist hs] at z1 z2 z3
    have z := convex_lt (a := -t.p.z) (b := -t.q.z) (c := -t.r.z) (k := P.thr) hu hv hw h1 (by linarith) (by linarith) (by linarith)
    have ez : -(u • t.p + v • t.q + w • t.r).z = u * -t.p.z + v * -t.q.z + w * -t.r.z := by
      show -(u * t.p.z + v * t.q.z + w * t.r.z) = _
      ring
    unfold depth
    rw [abs_mul, abs_of_nonneg (le_max_right _ (0:ℝ)), ez]
    exact mul_le_mul k (max_le z hthr) (le_max_right _ _) ((abs_nonneg _).trans k)
  rw [← hA, mul_add]
  exact (abs_add_le _ _).trans (add_le_add b1 b2)

/-- **C192, force.** The hydrostatic force of the code on the mesh that remains after the clipping differs, on each axis, from the force of the sea on the whole original hull by at most ρ g times the threshold
times the area of the hull. -/
theorem C192_force (pl : Frydom.Mesh.Plane) (hs : IsSea pl) (body : V3) (P : Params) (ht : 1e-16 ≤ P.thr) (hr : P.ratio ≤ 0) (C : Choices) (hC : C.Fair) (M : Input) (hM : M.Ok) (rho g : ℝ) :
    ∃ out N, (∀ n, N ≤ n → apply (planeSurf pl body) P C n M = some out) ∧
      ∀ Q : SMesh, List.Forall₂ Turned Q.tris out → ∀ i,
        |coord i (hydrostaticForce rho g Q .NWU - sumV (M.tris.map (seaForce rho g)))| ≤ |rho * g| * P.thr * area M.tris := by
  obtain ⟨out, N, hrun, h⟩ := C192_pressure pl hs body P ht hr C hC M hM
  refine ⟨out, N, hrun, fun Q hQ i => ?_⟩
  have c1 : Cont fun _ : V3 => (1:ℝ) := continuous_const
  have cz : Cont fun v => 1 * v.z := Continuous.mul c1 (by fun_prop)
  have k := h (fun _ => 1) 1 c1 (fun _ _ => by simp) i
  rw [← sum_turned cz hQ] at k
  simp only [one_mul] at k
  have e : coord i (hydrostaticForce rho g Q .NWU - sumV (M.tris.map (seaForce rho g))) =
      rho * g * ((Q.tris.map fun t => coord i (flux (fun v => v.z) t)).sum + (M.tris.map fun t => coord i (flux (fun v => depth v) t)).sum) := by
    have cs : ∀ a b : V3, coord i (a - b) = coord i a - coord i b := by intro a b; fin_cases i <;> rfl
    have ec : hydrostaticForce rho g Q .NWU = sumV (Q.tris.map (pressureForce rho g)) := force_eq rho g Q .NWU
    rw [cs, ec, sumV_coord, sumV_coord, List.map_map, List.map_map]
    have e1 : coord i ∘ pressureForce rho g = fun t => rho * g * coord i (flux (fun v => v.z) t) := by
      funext t
      exact coord_smul i _ _
    have e2 : coord i ∘ seaForce rho g = fun t => (-(rho * g)) * coord i (flux (fun v => depth v) t) := by
      funext t
      exact coord_smul i _ _
    rw [e1, e2, sum_map_mul, sum_map_mul]
    ring
  rw [e, abs_mul, mul_assoc]
  exact mul_le_mul_of_nonneg_left k (abs_nonneg _)

/-- **C192, load.** When moreover the clipped mesh is closed by flat loops at the surface (hypotheses of C78), `Compute` succeeds; the force applied to the body and its torque about any point of the world
differ from those of the sea on the whole original hull by at most ρ g times the threshold times the area of the hull, times twice the size of the hull about the point for the torque. -/
theorem C192_load (pl : Frydom.Mesh.Plane) (hs : IsSea pl) (body : V3) (P : Params) (ht : 1e-16 ≤ P.thr) (hr : P.ratio ≤ 0) (C : Choices) (hC : C.Fair) (M : Input) (hM : M.Ok)
    (j : List V3 → Junk) (rho g : ℝ) (b : Body) (hb : Placed b) (f : Force) :
    ∃ out N, (∀ n, N ≤ n → apply (planeSurf pl body) P C n M = some out) ∧
      ∀ Q : SMesh, List.Forall₂ Turned Q.tris out → Surface.Good Q → AtSurface Q → Q.nv ≠ 0 → volInt (fun _ => 1) 0 Q.closedUp ≠ 0 →
        ∃ f', computePlaneForce j rho g Q b f = some f' ∧
          (∀ i, |coord i (f'.getForceInWorld .NWU - sumV (M.tris.map (seaForce rho g)))| ≤ |rho * g| * P.thr * area M.tris) ∧
          ∀ a R, (∀ x, OnSurface M.tris x → ∀ i, |coord i (x - (a - ⟨b.refPos.x, b.refPos.y, 0⟩))| ≤ R) →
            ∀ i, |coord i (f'.getTorqueInWorldAtPointInWorld b a .NWU - sumV (M.tris.map (seaMoment rho g (a - ⟨b.refPos.x, b.refPos.y, 0⟩))))| ≤
              2 * R * |rho * g| * P.thr * area M.tris := by
  obtain ⟨out, N, hrun, h⟩ := C192_pressure pl hs body P ht hr C hC M hM
  obtain ⟨out', N', hrun', hf⟩ := C192_force pl hs body P ht hr C hC M hM rho g
  obtain rfl : out' = out := by
    have h1 := hrun (max N N') (le_max_left _ _)
    have h2 := hrun' (max N N') (le_max_right _ _)
    rw [h1] at h2
    exact (Option.some.inj h2).symm
  refine ⟨out', N, hrun, fun Q hQ hG h0 hne hV => ?_⟩
  obtain ⟨f', h1, h2, -, h4⟩ := C78_archimedes_partial j rho g Q hG h0 hne 0 hV b hb f
  refine ⟨f', h1, fun i => ?_, fun a R hR => ?_⟩
  · rw [h2]
    have := hf Q hQ i
    have ec : hydrostaticForce rho g Q .NWU = sumV (Q.tris.map (pressureForce rho g)) := force_eq rho g Q .NWU
    rwa [ec] at this
  · rw [h4 a]
    generalize a - ⟨b.refPos.x, b.refPos.y, 0⟩ = A at hR ⊢
    have key : ∀ (m i : Fin 3), |(Q.tris.map fun t => coord i (flux (fun v => (coord m v - coord m A) * v.z) t)).sum +
        (M.tris.map fun t => coord i (flux (fun v => (coord m v - coord m A) * depth v) t)).sum| ≤ R * P.thr * area M.tris := by
      intro m i
      have cm : Cont fun v => coord m v - coord m A := by
        unfold Cont
        fin_cases m
        · show Continuous fun x : ℝ × ℝ × ℝ => x.1 - A.x
          fun_prop
        · show Continuous fun x : ℝ × ℝ × ℝ => x.2.1 - A.y
          fun_prop
        · show Continuous fun x : ℝ × ℝ × ℝ => x.2.2 - A.z
          fun_prop
      have cz : Cont fun v => (coord m v - coord m A) * v.z := Continuous.mul cm (by fun_prop)
      rw [sum_turned cz hQ]
      refine h _ R cm (fun x hx => ?_) i
      have := hR x hx m
      have cs : coord m (x - A) = coord m x - coord m A := by fin_cases m <;> rfl
      rwa [cs] at this
    have comb : ∀ (m i m' i' : Fin 3), |rho * g * (((Q.tris.map fun t => coord i (flux (fun v => (coord m v - coord m A) * v.z) t)).sum +
        (M.tris.map fun t => coord i (flux (fun v => (coord m v - coord m A) * depth v) t)).sum) -
        ((Q.tris.map fun t => coord i' (flux (fun v => (coord m' v - coord m' A) * v.z) t)).sum +
        (M.tris.map fun t => coord i' (flux (fun v => (coord m' v - coord m' A) * depth v) t)).sum))| ≤ 2 * R * |rho * g| * P.thr * area M.tris := by
      intro m i m' i'
      rw [abs_mul]
      have q := (abs_sub _ _).trans (add_le_add (key m i) (key m' i'))
      calc _ ≤ |rho * g| * (R * P.thr * area M.tris + R * P.thr * area M.tris) := mul_le_mul_of_nonneg_left q (abs_nonneg _)
        _ = _ := by ring
    have cs : ∀ (i : Fin 3) (a b : V3), coord i (a - b) = coord i a - coord i b := by intro i a b; fin_cases i <;> rfl
    intro i
    rw [cs, sumV_coord, sumV_coord, List.map_map, List.map_map]
    fin_cases i
    · have c := comb 1 2 2 1
      have e1 : coord 0 ∘ pressureMoment rho g A = fun t => rho * g * (coord 2 (flux (fun v => (coord 1 v - coord 1 A) * v.z) t) - coord 1 (flux (fun v => (coord 2 v - coord 2 A) * v.z) t)) := rfl
      have e2 : coord 0 ∘ seaMoment rho g A = fun t => (-(rho * g)) * (coord 2 (flux (fun v => (coord 1 v - coord 1 A) * depth v) t) - coord 1 (flux (fun v => (coord 2 v - coord 2 A) * depth v) t)) := rfl
      refine le_of_eq_of_le ?_ c
      show |(Q.tris.map (coord 0 ∘ pressureMoment rho g A)).sum - (M.tris.map (coord 0 ∘ seaMoment rho g A)).sum| = _
      rw [e1, e2, sum_map_mul, sum_map_mul, sum_map_sub, sum_map_sub]
      congr 1
      ring
    · have c := comb 2 0 0 2
      have e1 : coord 1 ∘ pressureMoment rho g A = fun t => rho * g * (coord 0 (flux (fun v => (coord 2 v - coord 2 A) * v.z) t) - coord 2 (flux (fun v => (coord 0 v - coord 0 A) * v.z) t)) := rfl
      have e2 : coord 1 ∘ seaMoment rho g A = fun t => (-(rho * g)) * (coord 0 (flux (fun v => (coord 2 v - coord 2 A) * depth v) t) - coord 2 (flux (fun v => (coord 0 v - coord 0 A) * depth v) t)) := rfl
      refine le_of_eq_of_le ?_ c
      show |(Q.tris.map (coord 1 ∘ pressureMoment rho g A)).sum - (M.tris.map (coord 1 ∘ seaMoment rho g A)).sum| = _
      rw [e1, e2, sum_map_mul, sum_map_mul, sum_map_sub, sum_map_sub]
      congr 1
      ring
    · have c := comb 0 1 1 0
      have e1 : coord 2 ∘ pressureMoment rho g A = fun t => rho * g * (coord 1 (flux (fun v => (coord 0 v - coord 0 A) * v.z) t) - coord 0 (flux (fun v => (coord 1 v - coord 1 A) * v.z) t)) := rfl
      have e2 : coord 2 ∘ seaMoment rho g A = fun t => (-(rho * g)) * (coord 1 (flux (fun v => (coord 0 v - coord 0 A) * depth v) t) - coord 0 (flux (fun v => (coord 1 v - coord 1 A) * depth v) t)) := rfl
      refine le_of_eq_of_le ?_ c
      show |(Q.tris.map (coord 2 ∘ pressureMoment rho g A)).sum - (M.tris.map (coord 2 ∘ seaMoment rho g A)).sum| = _
      rw [e1, e2, sum_map_mul, sum_map_mul, sum_map_sub, sum_map_sub]
      congr 1
      ring

/-- Potential energy of the water displaced by a hull floating at the surface: half of ρ g times the flux of the square of the depth (for a closed hull ρ g times the integral of the depth over the immersed
volume, `energy_eq`). -/
def seaEnergy (rho g : ℝ) (H : List Tri) : ℝ := -(rho * g / 2) * (H.map fun t => (flux (fun v => depth v ^ 2) t).z).sum

/-- **C192, power.** A hull `H` attached to a body that moves in any way. At any time `t` the hull is clipped by the sea and the load computed on the clipped mesh (closed by flat loops at the surface): for any point
of the body its power is minus the rate of the potential energy of the water displaced by the whole hull, within ρ g times the threshold times the area of the hull times the velocities. The code can only
create or lose energy by its clipping threshold. -/
theorem C192_power (pl : Frydom.Mesh.Plane) (hs : IsSea pl) (P : Params) (ht : 1e-16 ≤ P.thr) (hr : P.ratio ≤ 0) (C : Choices) (hC : C.Fair)
    (j : List V3 → Junk) (rho g : ℝ) (H : List Tri) (b : ℝ → ABody) (hb : Moving b) (t : ℝ) (M : Input) (hM : M.Ok) (hH : M.tris = H.map (carry (seenFrom (b t).body))) (body : V3) (f : Force) :
    ∃ out N, (∀ n, N ≤ n → apply (planeSurf pl body) P C n M = some out) ∧
      ∀ Q : SMesh, List.Forall₂ Turned Q.tris out → Surface.Good Q → AtSurface Q → Q.nv ≠ 0 → volInt (fun _ => 1) 0 Q.closedUp ≠ 0 →
        ∃ f', computePlaneForce j rho g Q (b t).body f = some f' ∧
          ∀ p R Z, (∀ x, OnSurface M.tris x → |x.x - (seenFrom (b t).body p).x| ≤ R ∧ |x.y - (seenFrom (b t).body p).y| ≤ R ∧ |x.z| ≤ Z) →
            ∃ rate, HasDerivAt (fun s => seaEnergy rho g (H.map (carry (seenFrom (b s).body)))) rate t ∧
              |V3.dot (f'.getForceInWorld .NWU) ((b t).body.velWorldAtPointInBody p .NWU) +
                V3.dot (f'.getTorqueInWorldAtPointInBody (b t).body p .NWU) ((b t).body.angVelWorld .NWU) + rate| ≤
              |rho * g| * P.thr * area M.tris * (|((b t).body.velWorldAtPointInBody p .NWU).z| +
                (|((b t).body.angVelWorld .NWU).x| + |((b t).body.angVelWorld .NWU).y|) * (R + Z / 2)) := by
  obtain ⟨out, N, hrun, h⟩ := C192_pressure pl hs body P ht hr C hC M hM
  refine ⟨out, N, hrun, fun Q hQ hG h0 hne hV => ?_⟩
  have hpl : Placed (b t).body := ⟨hb.unit t, hb.placed t⟩
  obtain ⟨f', h1, -, h3, h4⟩ := C78_archimedes_partial j rho g Q hG h0 hne 0 hV (b t).body hpl f
  refine ⟨f', h1, fun p R Z hR => ?_⟩
  have hrr := seen_rate hb t p
  have key := (sum_deriv (fun T s => coord 2 (flux (fun v => depth v ^ 2) (carry (seenFrom (b s).body) T))) _ t H fun T _ => carry_deriv hrr T).const_mul (-(rho * g / 2))
  have e : ∀ s, seaEnergy rho g (H.map (carry (seenFrom (b s).body))) = -(rho * g / 2) * (H.map fun T => coord 2 (flux (fun v => depth v ^ 2) (carry (seenFrom (b s).body) T))).sum := by
    intro s
    unfold seaEnergy
    rw [List.map_map]
    rfl
  simp only [e]
  refine ⟨_, key, ?_⟩
  have c1 : Cont fun _ : V3 => (1:ℝ) := continuous_const
  have cz : Cont fun v : V3 => v.z := by
    show Continuous fun x : ℝ × ℝ × ℝ => x.2.2
    fun_prop
  have cx : Cont fun v : V3 => v.x - (seenFrom (b t).body p).x := by
    show Continuous fun x : ℝ × ℝ × ℝ => x.1 - (seenFrom (b t).body p).x
    fun_prop
  have cy : Cont fun v : V3 => v.y - (seenFrom (b t).body p).y := by
    show Continuous fun x : ℝ × ℝ × ℝ => x.2.1 - (seenFrom (b t).body p).y
    fun_prop
  -- the loads on the clipped mesh against those on the hull
  have q0 := h (fun _ => 1) 1 c1 (fun _ _ => by simp) 2
  rw [← sum_turned (Cont.times c1 cz) hQ] at q0
  simp only [one_mul] at q0
  rw [faces1 hG.boundary h0 0 2, if_pos rfl] at q0
  have qs : ∀ i : Fin 3, i ≠ 2 → |(M.tris.map fun t => coord i (flux (fun v => depth v ^ 2) t)).sum| ≤ Z * P.thr * area M.tris := by
    intro i hi
    have k := h (fun v => v.z) Z cz (fun x hx => (hR x hx).2.2) i
    rw [← sum_turned (Cont.times cz cz) hQ] at k
    have k2 := faces2 hG.boundary h0 0 2 i 0
    have e1 : (fun v : V3 => (coord 2 v - 0) * v.z) = fun v => v.z * v.z := by
      funext v
      show (v.z - 0) * v.z = _
      ring
    rw [e1, if_neg hi, if_neg hi, add_zero] at k2
    rw [k2, zero_add] at k
    have e2 : (fun t => coord i (flux (fun v => v.z * depth v) t)) = fun t => (-1) * coord i (flux (fun v => depth v ^ 2) t) := by
      funext t
      have : (fun v : V3 => v.z * depth v) = fun v => -(depth v ^ 2) := by
        funext v
        unfold depth
        rcases le_total v.z 0 with q | q
        · rw [max_eq_left (by linarith)]; ring
        · rw [max_eq_right (by linarith)]; ring
      rw [this]
      unfold flux simplex
      simp only [intervalIntegral.integral_neg, coord_smul]
      ring
    rw [e2, sum_map_mul, abs_mul] at k
    simpa using k
  have qx := h _ R cx (fun x hx => (hR x hx).1) 2
  rw [← sum_turned (Cont.times cx cz) hQ] at qx
  have fx := faces2 hG.boundary h0 0 0 2 (seenFrom (b t).body p).x
  have ex1 : (fun v : V3 => (coord 0 v - (seenFrom (b t).body p).x) * v.z) = fun v => (v.x - (seenFrom (b t).body p).x) * v.z := rfl
  rw [ex1, if_neg (by decide), if_pos rfl, zero_add] at fx
  rw [fx] at qx
  have qy := h _ R cy (fun x hx => (hR x hx).2.1) 2
  rw [← sum_turned (Cont.times cy cz) hQ] at qy
  have fy := faces2 hG.boundary h0 0 1 2 (seenFrom (b t).body p).y
  have ey1 : (fun v : V3 => (coord 1 v - (seenFrom (b t).body p).y) * v.z) = fun v => (v.y - (seenFrom (b t).body p).y) * v.z := rfl
  rw [ey1, if_neg (by decide), if_pos rfl, zero_add] at fy
  rw [fy] at qy
  have s0 := qs 0 (by decide)
  have s1 := qs 1 (by decide)
  rw [hH, List.map_map] at s0 s1 q0 qx qy
  simp only [Function.comp_def] at s0 s1 q0 qx qy
  have ht4 := h4 ((b t).body.pointInWorld p .NWU)
  rw [pressure_moment_sum hG.boundary h0 rho g 0] at ht4
  unfold Force.getTorqueInWorldAtPointInBody
  rw [ht4, h3]
  rw [sum_map_sub, sum_map_sub, sum_map_mul, sum_map_mul, sum_map_mul, sum_map_sub, sum_map_add, sum_map_mul, sum_map_mul, sum_map_mul]
  have px : (seenFrom (b t).body p).x = ((b t).body.pointInWorld p .NWU - ⟨(b t).body.refPos.x, (b t).body.refPos.y, 0⟩).x := rfl
  have py : (seenFrom (b t).body p).y = ((b t).body.pointInWorld p .NWU - ⟨(b t).body.refPos.x, (b t).body.refPos.y, 0⟩).y := rfl
  have kx : (coord 0 : V3 → ℝ) = fun v => v.x := rfl
  have ky : (coord 1 : V3 → ℝ) = fun v => v.y := rfl
  rw [kx] at qx
  rw [ky] at qy
  rw [← px, ← py]
  obtain ⟨A, hA⟩ : ∃ A, A = area (H.map (carry (seenFrom (b t).body))) := ⟨_, rfl⟩
  rw [hH, ← hA]
  rw [← hA] at s0 s1 q0 qx qy
  generalize volInt (fun _ => 1) 0 Q.closedUp = V at *
  generalize volInt (fun v => v.x) 0 Q.closedUp = Vx at *
  generalize volInt (fun v => v.y) 0 Q.closedUp = Vy at *
  generalize (seenFrom (b t).body p).x = X at *
  generalize (seenFrom (b t).body p).y = Y at *
  generalize (H.map fun x => coord 0 (flux (fun v => depth v ^ 2) (carry (seenFrom (b t).body) x))).sum = S0 at *
  generalize (H.map fun x => coord 1 (flux (fun v => depth v ^ 2) (carry (seenFrom (b t).body) x))).sum = S1 at *
  generalize hD : (H.map fun x => coord 2 (flux (fun v => depth v) (carry (seenFrom (b t).body) x))).sum = D at *
  generalize (H.map fun x => coord 2 (flux (fun v => (v.x - X) * depth v) (carry (seenFrom (b t).body) x))).sum = Lx at *
  generalize (H.map fun x => coord 2 (flux (fun v => (v.y - Y) * depth v) (carry (seenFrom (b t).body) x))).sum = Ly at *
  generalize (b t).body.velWorldAtPointInBody p .NWU = v at *
  generalize (b t).body.angVelWorld .NWU = w at *
  have hz : (v - ⟨((b t).body.linVelWorld .NWU).x, ((b t).body.linVelWorld .NWU).y, 0⟩ : V3).z = v.z := by
    show v.z - 0 = v.z
    ring
  rw [hz]
  have target : V3.dot (⟨0, 0, rho * g * V⟩ : V3) v + V3.dot ((rho * g) • (⟨Vy - Y * V, -(Vx - X * V), 0⟩ : V3)) w +
      -(rho * g / 2) * (w.x * S1 - w.y * S0 - 2 * (v.z * D + w.x * Ly - w.y * Lx)) =
      rho * g * (v.z * (V + D) + w.x * (Vy - Y * V + Ly) - w.y * (Vx - X * V + Lx) + -(w.x * S1 / 2) + w.y * S0 / 2) := by
    unfold V3.dot
    simp only [V3.smul_x, V3.smul_y, V3.smul_z]
    ring
  rw [target, abs_mul]
  have b0 : |v.z * (V + D)| ≤ |v.z| * (P.thr * A) := by rw [abs_mul]; exact mul_le_mul_of_nonneg_left q0 (abs_nonneg _)
  have b1 : |w.x * (Vy - Y * V + Ly)| ≤ |w.x| * (R * P.thr * A) := by rw [abs_mul]; exact mul_le_mul_of_nonneg_left qy (abs_nonneg _)
  have b2 : |w.y * (Vx - X * V + Lx)| ≤ |w.y| * (R * P.thr * A) := by rw [abs_mul]; exact mul_le_mul_of_nonneg_left qx (abs_nonneg _)
  have b3 : |w.x * S1 / 2| ≤ |w.x| * (Z * P.thr * A) / 2 := by
    rw [abs_div, abs_mul, abs_two]
    exact div_le_div_of_nonneg_right (mul_le_mul_of_nonneg_left s1 (abs_nonneg _)) (by norm_num)
  have b4 : |w.y * S0 / 2| ≤ |w.y| * (Z * P.thr * A) / 2 := by
    rw [abs_div, abs_mul, abs_two]
    exact div_le_div_of_nonneg_right (mul_le_mul_of_nonneg_left s0 (abs_nonneg _)) (by norm_num)
  have tot : |v.z * (V + D) + w.x * (Vy - Y * V + Ly) - w.y * (Vx - X * V + Lx) + -(w.x * S1 / 2) + w.y * S0 / 2| ≤
      |v.z| * (P.thr * A) + |w.x| * (R * P.thr * A) + |w.y| * (R * P.thr * A) + |w.x| * (Z * P.thr * A) / 2 + |w.y| * (Z * P.thr * A) / 2 := by
    have a1 := abs_add_le (v.z * (V + D) + w.x * (Vy - Y * V + Ly) - w.y * (Vx - X * V + Lx) + -(w.x * S1 / 2)) (w.y * S0 / 2)
    have a2 := abs_add_le (v.z * (V + D) + w.x * (Vy - Y * V + Ly) - w.y * (Vx - X * V + Lx)) (-(w.x * S1 / 2))
    have a3 := abs_sub (v.z * (V + D) + w.x * (Vy - Y * V + Ly)) (w.y * (Vx - X * V + Lx))
    have a4 := abs_add_le (v.z * (V + D)) (w.x * (Vy - Y * V + Ly))
    rw [abs_neg] at a2
    linarith
  calc _ ≤ |rho * g| * (|v.z| * (P.thr * A) + |w.x| * (R * P.thr * A) + |w.y| * (R * P.thr * A) + |w.x| * (Z * P.thr * A) / 2 + |w.y| * (Z * P.thr * A) / 2) :=
        mul_le_mul_of_nonneg_left tot (abs_nonneg _)
    _ = _ := by ring

end Frydom.Hydro
