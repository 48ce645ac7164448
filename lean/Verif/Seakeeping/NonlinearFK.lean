import Verif.Hydro.Buoyancy

/-!
# Nonlinear Froude-Krylov loads (C121)

`src/frydom/hydrodynamics/seakeeping/linear/excitation/FrNonLinearFroudeKrylovForce.cpp`. The clipped mesh is a `SMesh` whose horizontal position is relative to the body; the pressure of the wave field
(`GetPressure(position, NWU)`) is a function of the position.
-/

open Classical

noncomputable section

namespace Frydom.Seakeeping
open Frydom.Geom Frydom.Core Frydom.Mesh Frydom.Mesh.Clip Frydom.Mesh.Surface Frydom.Hydro

/-- `Center()` (FrMeshTraits.h:131, FrMesh.cpp:455): `calc_face_centroid` (OpenMesh). -/
def faceCentre (t : Tri) : V3 := (1 / 3 : ℝ) • (t.p + t.q + t.r)

/-- `FKforce`, what one face adds (FrNonLinearFroudeKrylovForce.cpp:53-75). -/
def fkFaceForce (P : V3 → ℝ) (h : V3) (t : Tri) : V3 := (-(P (faceCentre t + h)) * faceIntegral t .one) • faceNormal t
/-- `FKtorque`, what one face adds (FrNonLinearFroudeKrylovForce.cpp:77-78). -/
def fkFaceTorque (P : V3 → ℝ) (h : V3) (t : Tri) : V3 := (-(P (faceCentre t + h)) * faceIntegral t .one) • V3.cross (faceCentre t) (faceNormal t)
/-- `Compute` (FrNonLinearFroudeKrylovForce.cpp:34-86). -/
def fkCompute (P : V3 → ℝ) (M : SMesh) (b : Body) (f : Force) : Force :=
  f.setForceTorqueInWorldAtPointInWorld b (sumV (M.tris.map (fkFaceForce P (horizontal b)))) (sumV (M.tris.map (fkFaceTorque P (horizontal b)))) (horizontal b) .NWU

/-! ## Specification -/

/-- A triangle of the mesh in the world. -/
def inWorld (b : Body) (t : Tri) : Tri := ⟨t.p + ⟨b.refPos.x, b.refPos.y, 0⟩, t.q + ⟨b.refPos.x, b.refPos.y, 0⟩, t.r + ⟨b.refPos.x, b.refPos.y, 0⟩⟩

/-- Force of the pressure on a triangle (in the world): minus the pressure at the centroid times the vector area. -/
def pushOn (P : V3 → ℝ) (t : Tri) : V3 := -(P (faceCentre t)) • ((1 / 2 : ℝ) • V3.cross (t.q - t.p) (t.r - t.p))

/-! ## Lemmas -/

theorem area_normal (t : Tri) : faceIntegral t .one • faceNormal t = (1 / 2 : ℝ) • V3.cross (t.q - t.p) (t.r - t.p) := by
  have h := normal_mul (normalVec t) (1 / 2)
  rw [← show (V3.norm (normalVec t) * (1 / 2)) = faceIntegral t .one by unfold faceIntegral normalVec; simp only []; ring] 
  exact h

theorem sumV_cross (f : Tri → V3) (c : V3) (l : List Tri) : V3.cross c (sumV (l.map f)) = sumV (l.map fun t => V3.cross c (f t)) := by
  induction l with
  | nil => simp only [List.map_nil, sumV]; ext <;> simp [V3.cross]
  | cons t l ih =>
    simp only [List.map_cons, sumV]
    rw [← ih]
    ext <;> simp [V3.cross] <;> ring

theorem fkFaceForce_eq (P : V3 → ℝ) (b : Body) (t : Tri) : fkFaceForce P (horizontal b) t = pushOn P (inWorld b t) := by
  have hc : faceCentre (inWorld b t) = faceCentre t + horizontal b := by
    unfold faceCentre inWorld
    show (1 / 3 : ℝ) • (t.p + horizontal b + (t.q + horizontal b) + (t.r + horizontal b)) = _
    ext <;> simp <;> ring
  have hn : V3.cross ((inWorld b t).q - (inWorld b t).p) ((inWorld b t).r - (inWorld b t).p) = V3.cross (t.q - t.p) (t.r - t.p) := by
    show V3.cross (t.q + horizontal b - (t.p + horizontal b)) (t.r + horizontal b - (t.p + horizontal b)) = _
    ext <;> simp [V3.cross]
  unfold fkFaceForce pushOn
  rw [hc, hn, ← area_normal]
  ext <;> simp <;> ring

theorem fkFaceTorque_eq (P : V3 → ℝ) (b : Body) (t : Tri) : fkFaceTorque P (horizontal b) t = V3.cross (faceCentre (inWorld b t) - horizontal b) (pushOn P (inWorld b t)) := by
  rw [← fkFaceForce_eq]
  have hc : faceCentre (inWorld b t) - horizontal b = faceCentre t := by
    unfold faceCentre inWorld
    show (1 / 3 : ℝ) • (t.p + horizontal b + (t.q + horizontal b) + (t.r + horizontal b)) - horizontal b = _
    ext <;> simp <;> ring
  rw [hc]
  unfold fkFaceTorque fkFaceForce
  ext <;> simp [V3.cross] <;> ring

/-! ## C121 -/

/-- **C121, load.** For any pressure field and mesh, the load is that of the pressure forces of the triangles (placed in the world), each applied at the centroid of its triangle: the force is their sum, and the torque about any
point of the world the sum of their moments. -/
theorem C121_load (P : V3 → ℝ) (M : SMesh) (b : Body) (hb : Placed b) (f : Force) :
    let T := M.tris.map (inWorld b)
    (fkCompute P M b f).getForceInWorld .NWU = sumV (T.map (pushOn P)) ∧
    ∀ a, (fkCompute P M b f).getTorqueInWorldAtPointInWorld b a .NWU = sumV (T.map fun t => V3.cross (faceCentre t - a) (pushOn P t)) := by
  intro T
  have hl := (C52_point_loads f b hb (sumV (M.tris.map (fkFaceForce P (horizontal b)))) (sumV (M.tris.map (fkFaceTorque P (horizontal b)))) (horizontal b) .NWU).2.1
  have hF : sumV (M.tris.map (fkFaceForce P (horizontal b))) = sumV (T.map (pushOn P)) := by
    congr 1
    rw [List.map_map]
    apply List.map_congr_left
    intro t _
    exact fkFaceForce_eq P b t
  have hT : sumV (M.tris.map (fkFaceTorque P (horizontal b))) = sumV (T.map fun t => V3.cross (faceCentre t - horizontal b) (pushOn P t)) := by
    congr 1
    rw [List.map_map]
    apply List.map_congr_left
    intro t _
    exact fkFaceTorque_eq P b t
  refine ⟨hl.1.trans hF, fun a => ?_⟩
  refine (hl.2 a).trans ?_
  rw [hF, hT, sumV_cross, ← sumV_add]
  congr 1
  apply List.map_congr_left
  intro t _
  ext <;> simp [V3.cross] <;> ring

/-- **C121, still water.** Without waves (null pressure) there is no load. -/
theorem C121_still (M : SMesh) (b : Body) (hb : Placed b) (f : Force) :
    IsLoad (fkCompute (fun _ => 0) M b f) b .NWU 0 0 0 := by
  have hz : ∀ (l : List Tri) (g : Tri → V3), (∀ t ∈ l, g t = 0) → sumV (l.map g) = 0 := by
    intro l g
    induction l with
    | nil => intro _; rfl
    | cons t l ih =>
      intro h
      simp only [List.map_cons, sumV]
      rw [h t (by simp), ih (fun s hs => h s (by simp [hs]))]
      ext <;> simp
  have hp : ∀ t, pushOn (fun _ => 0) t = 0 := by intro t; unfold pushOn; ext <;> simp
  obtain ⟨h1, h2⟩ := C121_load (fun _ => 0) M b hb f
  refine ⟨h1.trans (hz _ _ fun t _ => hp t), fun a => (h2 a).trans ?_⟩
  rw [hz _ _ fun t _ => by rw [hp]; ext <;> simp [V3.cross]]
  ext <;> simp [V3.cross]

theorem push_inWorld (P : V3 → ℝ) (b : Body) (t : Tri) : pushOn P (inWorld b t) = -(P (faceCentre t + horizontal b)) • ((1 / 2 : ℝ) • normalVec t) := by
  rw [← fkFaceForce_eq]
  unfold fkFaceForce
  rw [show (1 / 2 : ℝ) • normalVec t = faceIntegral t .one • faceNormal t from (area_normal t).symm]
  ext <;> simp <;> ring

/-- Edge functions of the vector area and of its first moment. -/
def edgeArea (i : Fin 3) (p q : V3) : ℝ := coord i (V3.cross p q) / 2
def edgeMoment (i : Fin 3) (p q : V3) : ℝ := -(coord i (q - p)) * (V3.dot p p + V3.dot p q + V3.dot q q) / 6

theorem edgeArea_anti (i : Fin 3) (p q : V3) : edgeArea i p q = -edgeArea i q p := by
  unfold edgeArea; fin_cases i <;> simp [coord, V3.cross] <;> ring
theorem edgeMoment_anti (i : Fin 3) (p q : V3) : edgeMoment i p q = -edgeMoment i q p := by
  unfold edgeMoment; fin_cases i <;> simp [coord, V3.dot] <;> ring
theorem area_cyc (i : Fin 3) (t : Tri) : coord i ((1 / 2 : ℝ) • normalVec t) = cyc (edgeArea i) t := by
  unfold cyc edgeArea normalVec; fin_cases i <;> simp [coord, V3.cross] <;> ring
theorem moment_cyc (i : Fin 3) (t : Tri) : coord i (V3.cross (faceCentre t) ((1 / 2 : ℝ) • normalVec t)) = cyc (edgeMoment i) t := by
  unfold cyc edgeMoment normalVec faceCentre; fin_cases i <;> simp [coord, V3.cross, V3.dot] <;> ring

theorem closed_tris (M : SMesh) (hl : M.loops = []) : M.closedUp = M.tris := by
  unfold SMesh.closedUp SMesh.rings; rw [hl]; simp

/-- Vector area of a closed surface and its moment. -/
theorem closed_area (M : SMesh) (hM : M.IsBoundary) (hl : M.loops = []) :
    sumV (M.tris.map fun t => (1 / 2 : ℝ) • normalVec t) = 0 ∧ sumV (M.tris.map fun t => V3.cross (faceCentre t) ((1 / 2 : ℝ) • normalVec t)) = 0 := by
  constructor
  · apply sumV_ext; intro i
    rw [sumV_coord, List.map_map]
    have h := closedUp_sum M hM (edgeArea i) (edgeArea_anti i)
    rw [closed_tris M hl] at h
    rw [show (coord i ∘ fun t => (1 / 2 : ℝ) • normalVec t) = cyc (edgeArea i) from funext fun t => area_cyc i t, h]
    fin_cases i <;> rfl
  · apply sumV_ext; intro i
    rw [sumV_coord, List.map_map]
    have h := closedUp_sum M hM (edgeMoment i) (edgeMoment_anti i)
    rw [closed_tris M hl] at h
    rw [show (coord i ∘ fun t => V3.cross (faceCentre t) ((1 / 2 : ℝ) • normalVec t)) = cyc (edgeMoment i) from funext fun t => moment_cyc i t, h]
    fin_cases i <;> rfl

/-- **C121, uniform pressure.** A uniform pressure on a closed (wholly immersed) mesh gives no load: neither force nor torque. -/
theorem C121_uniform (p0 : ℝ) (M : SMesh) (hM : M.IsBoundary) (hl : M.loops = []) (b : Body) (hb : Placed b) (f : Force) :
    IsLoad (fkCompute (fun _ => p0) M b f) b .NWU 0 0 0 := by
  obtain ⟨h1, h2⟩ := C121_load (fun _ => p0) M b hb f
  obtain ⟨c1, c2⟩ := closed_area M hM hl
  have e1 : sumV ((M.tris.map (inWorld b)).map (pushOn fun _ => p0)) = (-p0) • sumV (M.tris.map fun t => (1 / 2 : ℝ) • normalVec t) := by
    rw [← sumV_smul, List.map_map]
    congr 1
    apply List.map_congr_left; intro t _
    exact push_inWorld (fun _ => p0) b t
  have e2 : ∀ a, sumV ((M.tris.map (inWorld b)).map fun t => V3.cross (faceCentre t - a) (pushOn (fun _ => p0) t)) =
      (-p0) • sumV (M.tris.map fun t => V3.cross (faceCentre t) ((1 / 2 : ℝ) • normalVec t)) + V3.cross (horizontal b - a) ((-p0) • sumV (M.tris.map fun t => (1 / 2 : ℝ) • normalVec t)) := by
    intro a
    rw [← sumV_smul, ← sumV_smul, sumV_cross, ← sumV_add, List.map_map]
    congr 1
    apply List.map_congr_left; intro t _
    show V3.cross (faceCentre (inWorld b t) - a) (pushOn (fun _ => p0) (inWorld b t)) = _
    rw [push_inWorld]
    have hc : faceCentre (inWorld b t) = faceCentre t + horizontal b := by
      unfold faceCentre inWorld
      show (1 / 3 : ℝ) • (t.p + horizontal b + (t.q + horizontal b) + (t.r + horizontal b)) = _
      ext <;> simp <;> ring
    rw [hc]
    ext <;> simp [V3.cross] <;> ring
  refine ⟨h1.trans ?_, fun a => (h2 a).trans ?_⟩
  · rw [e1, c1]; ext <;> simp
  · rw [e2, c1, c2]; ext <;> simp [V3.cross]

/-- Flux from the apex for a coordinate. -/
def sideLin (i m : Fin 3) (O p q : V3) : ℝ := area2 m O p q * (coord i O + coord i p + coord i q) / 6
theorem sideLin_anti (i m : Fin 3) (O p q : V3) : sideLin i m O p q = -sideLin i m O q p := by
  unfold sideLin; rw [area2_anti]; ring
theorem gaussLin (i m : Fin 3) (O : V3) (t : Tri) :
    coord m ((coord i (faceCentre t)) • ((1 / 2 : ℝ) • normalVec t)) - (if m = i then tetInt (fun _ => 1) O t else 0) = cyc (sideLin i m O) t := by
  rw [tetInt_one]
  unfold cyc sideLin area2 det normalVec V3.dot faceCentre
  fin_cases m <;> fin_cases i <;> simp [coord, V3.cross] <;> ring

/-- **C121, long waves.** On a closed (wholly immersed) mesh, a pressure that varies linearly in space gives exactly minus the volume times the gradient (the force that the fluid it replaces would need to be accelerated with the fluid). -/
theorem C121_linear_pressure (p0 : ℝ) (G : V3) (M : SMesh) (hM : M.IsBoundary) (hl : M.loops = []) (O : V3) (b : Body) (hb : Placed b) (f : Force) :
    (fkCompute (fun x => p0 + V3.dot G x) M b f).getForceInWorld .NWU = (-(volInt (fun _ => 1) O M.tris)) • G := by
  obtain ⟨h1, -⟩ := C121_load (fun x => p0 + V3.dot G x) M b hb f
  refine h1.trans ?_
  obtain ⟨c1, -⟩ := closed_area M hM hl
  have hlin : ∀ i m, (M.tris.map fun t => coord m ((coord i (faceCentre t)) • ((1 / 2 : ℝ) • normalVec t))).sum = if m = i then volInt (fun _ => 1) O M.tris else 0 := by
    intro i m
    have h := closedUp_sum M hM (sideLin i m O) (sideLin_anti i m O)
    rw [closed_tris M hl] at h
    have e : (fun t => coord m ((coord i (faceCentre t)) • ((1 / 2 : ℝ) • normalVec t))) = fun t => (if m = i then tetInt (fun _ => 1) O t else 0) + cyc (sideLin i m O) t := by
      funext t; rw [← gaussLin i m O t]; ring
    rw [e, sum_map_add, sum_if, h, add_zero]
    rfl
  have c1' : ∀ m, (M.tris.map fun t => coord m ((1 / 2 : ℝ) • normalVec t)).sum = 0 := by
    intro m
    have := congrArg (coord m) c1
    rw [sumV_coord, List.map_map] at this
    refine Eq.trans this ?_
    fin_cases m <;> rfl
  apply sumV_ext; intro m
  rw [sumV_coord, List.map_map, List.map_map]
  have e : ((coord m ∘ pushOn fun x => p0 + V3.dot G x) ∘ inWorld b) = fun t =>
      ((-(p0 + V3.dot G (horizontal b))) * coord m ((1 / 2 : ℝ) • normalVec t) + (-G.x) * coord m ((coord 0 (faceCentre t)) • ((1 / 2 : ℝ) • normalVec t))) +
      ((-G.y) * coord m ((coord 1 (faceCentre t)) • ((1 / 2 : ℝ) • normalVec t)) + (-G.z) * coord m ((coord 2 (faceCentre t)) • ((1 / 2 : ℝ) • normalVec t))) := by
    funext t
    show coord m (pushOn _ (inWorld b t)) = _
    rw [push_inWorld]
    simp only [coord_smul]
    simp only [coord, V3.dot, V3.add_x, V3.add_y, V3.add_z]
    ring
  rw [e, sum_map_add, sum_map_add, sum_map_add, sum_map_mul, sum_map_mul, sum_map_mul, sum_map_mul, c1', hlin, hlin, hlin]
  fin_cases m <;> simp [coord] <;> ring

/-- A case: the immersed tetrahedron of `C79`, closed. -/
example : diver.IsBoundary ∧ diver.loops = [] := ⟨diver_good.boundary, rfl⟩

end Frydom.Seakeeping
