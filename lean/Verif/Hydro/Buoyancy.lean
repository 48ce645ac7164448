import Verif.Mesh.MassProps
import Verif.Core.Force

/-!
# Model of `FrNonlinearHydrostaticForce` (src/frydom/hydrodynamics/hydrostatic/FrNonlinearHydrostaticForce.cpp) (C78, C79)

The clipped mesh is a `SMesh` whose horizontal position is relative to the body.
-/

open Classical

noncomputable section

namespace Frydom.Hydro
open Frydom.Geom Frydom.Core Frydom.Mesh Frydom.Mesh.Clip Frydom.Mesh.Surface

/-- Horizontal part of the position of the body (FrNonlinearHydrostaticForce.cpp:67-68, 92-93). -/
def horizontal (b : Body) : V3 := ⟨(b.getPosition .NWU).x, (b.getPosition .NWU).y, 0⟩

/-- `GetHydrostaticForceInWorld` (FrNonlinearHydrostaticForce.cpp:105-136). -/
def hydrostaticForce (rho g : ℝ) (M : SMesh) (fc : FC) : V3 := conv fc ((g * rho) • meshedN M.tris .z)

/-- What a face adds to the torque (FrNonlinearHydrostaticForce.cpp:146-158). -/
def faceTorque (t : Tri) : V3 :=
  let n := faceNormal t
  let xz := faceIntegral t .xz
  let yz := faceIntegral t .yz
  let zz := faceIntegral t .z2
  ⟨yz * n.z - zz * n.y, zz * n.x - xz * n.z, xz * n.y - yz * n.x⟩
/-- `GetHydrostaticTorqueInWorld` (FrNonlinearHydrostaticForce.cpp:138-171). -/
def hydrostaticTorque (rho g : ℝ) (M : SMesh) (fc : FC) : V3 := conv fc ((g * rho) • sumV (M.tris.map faceTorque))

/-- `GetCenterOfBuoyancyInWorld` (FrNonlinearHydrostaticForce.cpp:84-99). -/
def centreOfBuoyancy (j : List V3 → Junk) (M : SMesh) (b : Body) (fc : FC) : Option V3 :=
  if M.nv = 0 then some 0 else (M.getCOG j).map fun G => conv fc (G + horizontal b)

/-- `Compute` with support PLANESURFACE (FrNonlinearHydrostaticForce.cpp:60-64). -/
def computePlaneForce (j : List V3 → Junk) (rho g : ℝ) (M : SMesh) (b : Body) (f : Force) : Option Force :=
  (centreOfBuoyancy j M b .NWU).map fun c => f.setForceInWorldAtPointInWorld b (hydrostaticForce rho g M .NWU) c .NWU
/-- `Compute` with support WAVESURFACE (FrNonlinearHydrostaticForce.cpp:61-70). -/
def computeWaveForce (rho g : ℝ) (M : SMesh) (b : Body) (f : Force) : Force :=
  f.setForceTorqueInWorldAtPointInWorld b (hydrostaticForce rho g M .NWU) (hydrostaticTorque rho g M .NWU) (horizontal b) .NWU

/-! ## Specification: the loads of the hydrostatic pressure -ρ g z on the faces -/

/-- Force on a face: integral of ρ g z n. -/
def pressureForce (rho g : ℝ) (t : Tri) : V3 := (rho * g) • flux (fun v => v.z) t
/-- Moment about `P`: integral of (x - P) × ρ g z n. -/
def pressureMoment (rho g : ℝ) (P : V3) (t : Tri) : V3 :=
  (rho * g) • ⟨(flux (fun v => (v.y - P.y) * v.z) t).z - (flux (fun v => (v.z - P.z) * v.z) t).y,
    (flux (fun v => (v.z - P.z) * v.z) t).x - (flux (fun v => (v.x - P.x) * v.z) t).z,
    (flux (fun v => (v.x - P.x) * v.z) t).y - (flux (fun v => (v.y - P.y) * v.z) t).x⟩

/-! ## Divergence theorem for z f -/

/-- Integral over the unit simplex of the product of two affine functions given at the corners. -/
def mul2 (a b c a' b' c' : ℝ) : ℝ := (a * a' + b * b' + c * c' + (a + b + c) * (a' + b' + c')) / 24

theorem flux_mul (i k : Fin 3) (s : ℝ) (t : Tri) :
    flux (fun v => (coord i v - s) * coord k v) t =
      mul2 (coord i t.p - s) (coord i t.q - s) (coord i t.r - s) (coord k t.p) (coord k t.q) (coord k t.r) • normalVec t := by
  unfold flux simplex mul2
  have : ∀ u v : ℝ, (coord i (t.p + u • (t.q - t.p) + v • (t.r - t.p)) - s) * coord k (t.p + u • (t.q - t.p) + v • (t.r - t.p)) =
      ((coord i t.p - s) + u * ((coord i t.q - s) - (coord i t.p - s)) + v * ((coord i t.r - s) - (coord i t.p - s))) *
      (coord k t.p + u * (coord k t.q - coord k t.p) + v * (coord k t.r - coord k t.p)) := by
    intro u v
    rw [coord_affine, coord_affine]
    ring
  simp only [this, simplex_mul]

/-- Flux through a face from the apex. -/
def side1 (m : Fin 3) (O p q : V3) : ℝ := area2 m O p q * (O.z + p.z + q.z) / 6
def side2 (i m : Fin 3) (s : ℝ) (O p q : V3) : ℝ :=
  area2 m O p q * mul2 (coord i O - s) (coord i p - s) (coord i q - s) O.z p.z q.z

theorem side1_anti (m : Fin 3) (O p q : V3) : side1 m O p q = -side1 m O q p := by
  unfold side1; rw [area2_anti]; ring
theorem side2_anti (i m : Fin 3) (s : ℝ) (O p q : V3) : side2 i m s O p q = -side2 i m s O q p := by
  unfold side2 mul2; rw [area2_anti]; ring

theorem gauss1 (m : Fin 3) (O : V3) (t : Tri) :
    coord m (flux (fun v => v.z) t) - (if m = 2 then tetInt (fun _ => 1) O t else 0) = cyc (side1 m O) t := by
  rw [show (fun v : V3 => v.z) = coord 2 from rfl, flux_coord, tetInt_one]
  unfold cyc side1 area2 det normalVec F1 V3.dot
  fin_cases m <;> simp [coord] <;> ring

theorem gauss2 (i m : Fin 3) (s : ℝ) (O : V3) (t : Tri) :
    coord m (flux (fun v => (coord i v - s) * v.z) t) - ((if m = i then tetInt (fun v => v.z) O t else 0) +
      (if m = 2 then tetInt (coord i) O t - s * tetInt (fun _ => 1) O t else 0)) = cyc (side2 i m s O) t := by
  have h := flux_mul i 2 s t
  rw [show (fun v : V3 => (coord i v - s) * v.z) = fun v => (coord i v - s) * coord 2 v from rfl, h,
    show (fun v : V3 => v.z) = coord 2 from rfl, tetInt_coord, tetInt_coord, tetInt_one]
  unfold cyc side2 mul2 area2 det normalVec V3.dot
  fin_cases m <;> fin_cases i <;> simp [coord] <;> ring

theorem sum_if {α : Type} (c : Prop) [Decidable c] (g : α → ℝ) (l : List α) :
    (l.map fun a => if c then g a else 0).sum = if c then (l.map g).sum else 0 := by
  by_cases h : c
  · simp [h]
  · simp [h]

/-- Σ over the closed surface of the flux of z. -/
theorem closed1 (M : SMesh) (hM : M.IsBoundary) (O : V3) (m : Fin 3) :
    (M.closedUp.map fun t => coord m (flux (fun v => v.z) t)).sum = if m = 2 then volInt (fun _ => 1) O M.closedUp else 0 := by
  have h := closedUp_sum M hM (side1 m O) (side1_anti m O)
  have e : (fun t => coord m (flux (fun v => v.z) t)) =
      fun t => (if m = 2 then tetInt (fun _ => 1) O t else 0) + cyc (side1 m O) t := by
    funext t; rw [← gauss1 m O t]; ring
  rw [e, sum_map_add, sum_if, h, add_zero]
  rfl

/-- Σ over the closed surface of the flux of (xᵢ - s) z. -/
theorem closed2 (M : SMesh) (hM : M.IsBoundary) (O : V3) (i m : Fin 3) (s : ℝ) :
    (M.closedUp.map fun t => coord m (flux (fun v => (coord i v - s) * v.z) t)).sum =
      (if m = i then volInt (fun v => v.z) O M.closedUp else 0) +
      (if m = 2 then volInt (coord i) O M.closedUp - s * volInt (fun _ => 1) O M.closedUp else 0) := by
  have h := closedUp_sum M hM (side2 i m s O) (side2_anti i m s O)
  have e : (fun t => coord m (flux (fun v => (coord i v - s) * v.z) t)) =
      fun t => ((if m = i then tetInt (fun v => v.z) O t else 0) +
      (if m = 2 then tetInt (coord i) O t - s * tetInt (fun _ => 1) O t else 0)) + cyc (side2 i m s O) t := by
    funext t; rw [← gauss2 i m s O t]; ring
  rw [e, sum_map_add, sum_map_add, sum_if, sum_if, h, add_zero, sum_map_sub, sum_map_mul]
  rfl

theorem fan_mem {l : List V3} {t : Tri} (h : t ∈ fan l) : t.p ∈ l ∧ t.q ∈ l ∧ t.r ∈ l := by
  have go : ∀ (o : V3) (l : List V3), t ∈ fan.go o l → t.p = o ∧ t.q ∈ l ∧ t.r ∈ l := by
    intro o l
    induction l with
    | nil => intro h; simp [fan.go] at h
    | cons p l ih => cases l with
      | nil => intro h; simp [fan.go] at h
      | cons q l =>
        intro h
        rw [fan.go, List.mem_cons] at h
        rcases h with rfl | h
        · exact ⟨rfl, by simp, by simp⟩
        · obtain ⟨a, b, c⟩ := ih h
          exact ⟨a, List.mem_cons_of_mem _ b, List.mem_cons_of_mem _ c⟩
  cases l with
  | nil => simp [fan] at h
  | cons o l =>
    obtain ⟨a, b, c⟩ := go o l h
    exact ⟨by rw [a]; simp, List.mem_cons_of_mem _ b, List.mem_cons_of_mem _ c⟩

/-- The boundary of the clipped mesh lies in the plane z = 0. -/
def AtSurface (M : SMesh) : Prop := ∀ l ∈ M.rings, ∀ v ∈ l, v.z = 0

theorem mem_fans {M : SMesh} {t : Tri} (h : t ∈ M.rings.flatMap fan) : ∃ l ∈ M.rings, t.p ∈ l ∧ t.q ∈ l ∧ t.r ∈ l := by
  obtain ⟨l, hl, ht⟩ := List.mem_flatMap.mp h
  exact ⟨l, hl, fan_mem ht⟩

theorem sum_zero_of {α : Type} (g : α → ℝ) (l : List α) (h : ∀ a ∈ l, g a = 0) : (l.map g).sum = 0 := by
  induction l with
  | nil => rfl
  | cons a l ih => rw [List.map_cons, List.sum_cons, h a (by simp), ih (fun a ha => h a (List.mem_cons_of_mem _ ha)), add_zero]

/-- The lids at z = 0 carry no pressure. -/
theorem faces1 {M : SMesh} (hM : M.IsBoundary) (h0 : AtSurface M) (O : V3) (m : Fin 3) :
    (M.tris.map fun t => coord m (flux (fun v => v.z) t)).sum = if m = 2 then volInt (fun _ => 1) O M.closedUp else 0 := by
  rw [← closed1 M hM O m]
  unfold SMesh.closedUp
  rw [List.map_append, List.sum_append, sum_zero_of _ (M.rings.flatMap fan), add_zero]
  intro t ht
  obtain ⟨l, hl, a, b, c⟩ := mem_fans ht
  rw [show (fun v : V3 => v.z) = coord 2 from rfl, flux_coord, coord_smul]
  show F1 t.p.z t.q.z t.r.z / 6 * _ = 0
  rw [h0 l hl _ a, h0 l hl _ b, h0 l hl _ c]
  unfold F1; ring

theorem faces2 {M : SMesh} (hM : M.IsBoundary) (h0 : AtSurface M) (O : V3) (i m : Fin 3) (s : ℝ) :
    (M.tris.map fun t => coord m (flux (fun v => (coord i v - s) * v.z) t)).sum =
      (if m = i then volInt (fun v => v.z) O M.closedUp else 0) +
      (if m = 2 then volInt (coord i) O M.closedUp - s * volInt (fun _ => 1) O M.closedUp else 0) := by
  rw [← closed2 M hM O i m s]
  unfold SMesh.closedUp
  rw [List.map_append, List.sum_append, sum_zero_of _ (M.rings.flatMap fan), add_zero]
  intro t ht
  obtain ⟨l, hl, a, b, c⟩ := mem_fans ht
  have h := flux_mul i 2 s t
  rw [show (fun v : V3 => (coord i v - s) * v.z) = fun v => (coord i v - s) * coord 2 v from rfl, h, coord_smul]
  show mul2 _ _ _ t.p.z t.q.z t.r.z * _ = 0
  rw [h0 l hl _ a, h0 l hl _ b, h0 l hl _ c]
  unfold mul2; ring

theorem sumV_ext {a b : V3} (h : ∀ i, coord i a = coord i b) : a = b := by
  ext
  · exact h 0
  · exact h 1
  · exact h 2

/-- The force is the sum of the pressure forces on the faces. -/
theorem force_eq (rho g : ℝ) (M : SMesh) (fc : FC) :
    hydrostaticForce rho g M fc = conv fc (sumV (M.tris.map (pressureForce rho g))) := by
  unfold hydrostaticForce
  congr 1
  apply sumV_ext
  intro i
  rw [coord_smul, meshedN_eq M.tris .z trivial i, sumV_coord, List.map_map, mul_comm g, ← sum_map_mul]
  congr 2
  funext t
  simp only [Function.comp, pressureForce, coord_smul]
  rfl

theorem pressure_force_sum {M : SMesh} (hM : M.IsBoundary) (h0 : AtSurface M) (rho g : ℝ) (O : V3) :
    sumV (M.tris.map (pressureForce rho g)) = ⟨0, 0, rho * g * volInt (fun _ => 1) O M.closedUp⟩ := by
  have key : ∀ i, coord i (sumV (M.tris.map (pressureForce rho g))) =
      rho * g * if i = 2 then volInt (fun _ => 1) O M.closedUp else 0 := by
    intro i
    rw [sumV_coord, List.map_map, ← faces1 hM h0 O i, ← sum_map_mul]
    congr 2
    funext t
    simp only [Function.comp, pressureForce, coord_smul]
  ext
  · have := key 0; simp at this; exact this
  · have := key 1; simp at this; exact this
  · have := key 2; simp at this; exact this

theorem pressure_moment_sum {M : SMesh} (hM : M.IsBoundary) (h0 : AtSurface M) (rho g : ℝ) (O P : V3) :
    sumV (M.tris.map (pressureMoment rho g P)) =
      (rho * g) • ⟨volInt (fun v => v.y) O M.closedUp - P.y * volInt (fun _ => 1) O M.closedUp,
        -(volInt (fun v => v.x) O M.closedUp - P.x * volInt (fun _ => 1) O M.closedUp), 0⟩ := by
  have k := fun i m s => faces2 hM h0 O i m s
  have e0 : ∀ s, (fun v : V3 => (v.x - s) * v.z) = fun v => (coord 0 v - s) * v.z := fun s => rfl
  have e1 : ∀ s, (fun v : V3 => (v.y - s) * v.z) = fun v => (coord 1 v - s) * v.z := fun s => rfl
  have e2 : ∀ s, (fun v : V3 => (v.z - s) * v.z) = fun v => (coord 2 v - s) * v.z := fun s => rfl
  have c0 : coord 0 = fun v : V3 => v.x := rfl
  have c1 : coord 1 = fun v : V3 => v.y := rfl
  have c2 : coord 2 = fun v : V3 => v.z := rfl
  apply sumV_ext
  intro i
  rw [sumV_coord, List.map_map, coord_smul]
  fin_cases i
  · have a := k 1 2 P.y
    have b := k 2 1 P.z
    simp at a b
    show (M.tris.map fun t => rho * g * ((flux (fun v => (v.y - P.y) * v.z) t).z - (flux (fun v => (v.z - P.z) * v.z) t).y)).sum = _
    rw [sum_map_mul, sum_map_sub]
    congr 1
    show _ = volInt (fun v => v.y) O M.closedUp - P.y * volInt (fun _ => 1) O M.closedUp
    rw [c1] at a
    rw [← a]
    have b' : (M.tris.map fun t => (flux (fun v => (v.z - P.z) * v.z) t).y).sum = 0 := b
    rw [b', sub_zero]
    rfl
  · have a := k 2 0 P.z
    have b := k 0 2 P.x
    simp at a b
    show (M.tris.map fun t => rho * g * ((flux (fun v => (v.z - P.z) * v.z) t).x - (flux (fun v => (v.x - P.x) * v.z) t).z)).sum = _
    rw [sum_map_mul, sum_map_sub]
    congr 1
    show _ = -(volInt (fun v => v.x) O M.closedUp - P.x * volInt (fun _ => 1) O M.closedUp)
    rw [c0] at b
    rw [← b]
    have a' : (M.tris.map fun t => (flux (fun v => (v.z - P.z) * v.z) t).x).sum = 0 := a
    rw [a', zero_sub]
    rfl
  · have a := k 0 1 P.x
    have b := k 1 0 P.y
    simp at a b
    show (M.tris.map fun t => rho * g * ((flux (fun v => (v.x - P.x) * v.z) t).y - (flux (fun v => (v.y - P.y) * v.z) t).x)).sum = _
    rw [sum_map_mul, sum_map_sub]
    congr 1
    have a' : (M.tris.map fun t => (flux (fun v => (v.x - P.x) * v.z) t).y).sum = 0 := a
    have b' : (M.tris.map fun t => (flux (fun v => (v.y - P.y) * v.z) t).x).sum = 0 := b
    rw [a', b', sub_zero]
    rfl

/-! ## C78 -/

/-- **C78, Archimedes.** For every clipped mesh whose boundary loops are flat and at z = 0 (or that has none: a body under water) and
that encloses a volume V, wherever the body is: `Compute` succeeds; the force is that of the hydrostatic pressure on the faces,
which is ρ g V upwards; and about every point of the world the torque is the moment of the pressure on the faces. -/
theorem C78_archimedes_partial (j : List V3 → Junk) (rho g : ℝ) (M : SMesh) (h : Good M) (h0 : AtSurface M) (hne : M.nv ≠ 0)
    (O : V3) (hV : volInt (fun _ => 1) O M.closedUp ≠ 0) (b : Body) (hb : Placed b) (f : Force) :
    ∃ f', computePlaneForce j rho g M b f = some f' ∧
      f'.getForceInWorld .NWU = sumV (M.tris.map (pressureForce rho g)) ∧
      f'.getForceInWorld .NWU = ⟨0, 0, rho * g * volInt (fun _ => 1) O M.closedUp⟩ ∧
      ∀ a, f'.getTorqueInWorldAtPointInWorld b a .NWU =
        sumV (M.tris.map (pressureMoment rho g (a - ⟨b.refPos.x, b.refPos.y, 0⟩))) := by
  obtain ⟨G, hG, hc⟩ := C72_centre M h j O hV
  refine ⟨f.setForceInWorldAtPointInWorld b (hydrostaticForce rho g M .NWU) (G + horizontal b) .NWU, ?_, ?_⟩
  · unfold computePlaneForce centreOfBuoyancy
    rw [if_neg hne, hG]
    rfl
  have hl := (C52_point_forces f b hb (hydrostaticForce rho g M .NWU) (G + horizontal b) .NWU).2.1
  have hF : hydrostaticForce rho g M .NWU = sumV (M.tris.map (pressureForce rho g)) := force_eq rho g M .NWU
  have hF2 := pressure_force_sum h.boundary h0 rho g O
  refine ⟨hl.1.trans hF, (hl.1.trans hF).trans hF2, ?_⟩
  intro a
  rw [hl.2 a, hF, hF2, pressure_moment_sum h.boundary h0 rho g O]
  have hx := congrArg V3.x hc
  have hy := congrArg V3.y hc
  simp only [V3.smul_x, V3.smul_y] at hx hy
  rw [← hx, ← hy]
  unfold horizontal Body.getPosition
  ext <;> simp [conv] <;> ring

/-- **C78, dry body.** With no vertex left by the clipping there is no load. -/
theorem C78_dry (j : List V3 → Junk) (rho g : ℝ) (M : SMesh) (h : M.nv = 0) (hf : M.faces = []) (b : Body) (hb : Placed b) (f : Force) :
    ∃ f', computePlaneForce j rho g M b f = some f' ∧ f'.getForceInWorld .NWU = 0 ∧
      ∀ a, f'.getTorqueInWorldAtPointInWorld b a .NWU = 0 := by
  refine ⟨f.setForceInWorldAtPointInWorld b (hydrostaticForce rho g M .NWU) 0 .NWU, ?_, ?_⟩
  · unfold computePlaneForce centreOfBuoyancy
    rw [if_pos h]
    rfl
  have hl := (C52_point_forces f b hb (hydrostaticForce rho g M .NWU) 0 .NWU).2.1
  have hF : hydrostaticForce rho g M .NWU = 0 := by
    rw [force_eq]
    unfold SMesh.tris
    rw [hf]
    rfl
  rw [hF] at hl
  refine ⟨?_, fun a => ?_⟩
  · rw [hF]; exact hl.1
  · rw [hF, hl.2 a]; ext <;> simp

theorem abs_coord_le (i : Fin 3) (v : V3) : |coord i v| ≤ V3.norm v := by
  have h := V3.norm_sq v
  have hn : 0 ≤ V3.norm v := Real.sqrt_nonneg _
  unfold V3.dot at h
  apply abs_le_of_sq_le_sq _ hn
  fin_cases i <;> simp only [coord] <;> nlinarith [sq_nonneg v.x, sq_nonneg v.y, sq_nonneg v.z]

theorem abs_sum_le {α : Type} (g k : α → ℝ) (l : List α) (h : ∀ a ∈ l, |g a| ≤ k a) : |(l.map g).sum| ≤ (l.map k).sum := by
  induction l with
  | nil => simp
  | cons a l ih =>
    rw [List.map_cons, List.map_cons, List.sum_cons, List.sum_cons]
    exact (abs_add_le _ _).trans (add_le_add (h a (by simp)) (ih fun a ha => h a (List.mem_cons_of_mem _ ha)))

/-- Area of the boundary polygons closed by triangles. -/
def lidArea (M : SMesh) : ℝ := ((M.rings.flatMap fan).map fun t => V3.norm (normalVec t) / 2).sum

/-- **C78, accuracy.** The clipper leaves the boundary within a threshold δ of the plane only. For any mesh whose boundary is within
δ of z = 0, flat or not: each component of the force is within ρ g δ A of that of ρ g V upwards, A the area of the lid. -/
theorem C78_threshold (rho g : ℝ) (hr : 0 ≤ rho * g) (M : SMesh) (hM : M.IsBoundary) (δ : ℝ)
    (hδ : ∀ l ∈ M.rings, ∀ v ∈ l, |v.z| ≤ δ) (O : V3) (i : Fin 3) :
    |coord i (hydrostaticForce rho g M .NWU) - coord i ⟨0, 0, rho * g * volInt (fun _ => 1) O M.closedUp⟩| ≤ rho * g * δ * lidArea M := by
  have e : coord i (hydrostaticForce rho g M .NWU) = rho * g * (M.tris.map fun t => coord i (flux (fun v => v.z) t)).sum := by
    rw [force_eq]
    show coord i (sumV _) = _
    rw [sumV_coord, List.map_map, ← sum_map_mul]
    congr 2
    funext t
    simp only [Function.comp, pressureForce, coord_smul]
  have hc := closed1 M hM O i
  unfold SMesh.closedUp at hc
  rw [List.map_append, List.sum_append] at hc
  have hsplit : (M.tris.map fun t => coord i (flux (fun v => v.z) t)).sum =
      (if i = 2 then volInt (fun _ => 1) O M.closedUp else 0) - ((M.rings.flatMap fan).map fun t => coord i (flux (fun v => v.z) t)).sum := by
    unfold SMesh.closedUp
    linarith
  have hw : coord i ⟨0, 0, rho * g * volInt (fun _ => 1) O M.closedUp⟩ = rho * g * if i = 2 then volInt (fun _ => 1) O M.closedUp else 0 := by
    fin_cases i <;> simp [coord]
  have hb : |((M.rings.flatMap fan).map fun t => coord i (flux (fun v => v.z) t)).sum| ≤ δ * lidArea M := by
    unfold lidArea
    rw [← sum_map_mul]
    refine abs_sum_le _ _ _ ?_
    intro t ht
    obtain ⟨l, hl, a, b, c⟩ := mem_fans ht
    rw [show (fun v : V3 => v.z) = coord 2 from rfl, flux_coord, coord_smul, abs_mul]
    have h1 := hδ l hl _ a
    have h2 := hδ l hl _ b
    have h3 := hδ l hl _ c
    have h4 := abs_coord_le i (normalVec t)
    have h5 : |F1 (coord 2 t.p) (coord 2 t.q) (coord 2 t.r) / 6| ≤ δ / 2 := by
      show |(t.p.z + t.q.z + t.r.z) / 6| ≤ δ / 2
      rw [abs_le] at *
      constructor <;> linarith [h1.1, h1.2, h2.1, h2.2, h3.1, h3.2]
    have h6 : 0 ≤ δ / 2 := le_trans (abs_nonneg _) h5
    calc _ ≤ δ / 2 * V3.norm (normalVec t) := mul_le_mul h5 h4 (abs_nonneg _) h6
      _ = _ := by ring
  rw [e, hsplit, hw, mul_sub, sub_sub_cancel_left, abs_neg, abs_mul, abs_of_nonneg hr, mul_assoc (rho * g) δ]
  exact mul_le_mul_of_nonneg_left hb hr

/-- **C78, tide (defect).** The pressure is counted from z = 0, not from the tide: when the boundary is in the plane z = h of the tide,
the vertical force is ρ g (V - h A), A the (signed) area of the lid, instead of ρ g V. -/
theorem C78_tide_wrong (rho g : ℝ) (M : SMesh) (hM : M.IsBoundary) (h : ℝ) (hh : ∀ l ∈ M.rings, ∀ v ∈ l, v.z = h) (O : V3) :
    (hydrostaticForce rho g M .NWU).z =
      rho * g * (volInt (fun _ => 1) O M.closedUp - h * ((M.rings.flatMap fan).map fun t => (normalVec t).z / 2).sum) := by
  have e : coord 2 (hydrostaticForce rho g M .NWU) = rho * g * (M.tris.map fun t => coord 2 (flux (fun v => v.z) t)).sum := by
    rw [force_eq]
    show coord 2 (sumV _) = _
    rw [sumV_coord, List.map_map, ← sum_map_mul]
    congr 2
  have hc := closed1 M hM O 2
  unfold SMesh.closedUp at hc
  rw [List.map_append, List.sum_append, if_pos rfl] at hc
  have hl : ((M.rings.flatMap fan).map fun t => coord 2 (flux (fun v => v.z) t)).sum =
      h * ((M.rings.flatMap fan).map fun t => (normalVec t).z / 2).sum := by
    rw [← sum_map_mul]
    congr 1
    refine List.map_congr_left ?_
    intro t ht
    obtain ⟨l, hl, a, b, c⟩ := mem_fans ht
    rw [show (fun v : V3 => v.z) = coord 2 from rfl, flux_coord, coord_smul]
    show F1 t.p.z t.q.z t.r.z / 6 * (normalVec t).z = _
    rw [hh l hl _ a, hh l hl _ b, hh l hl _ c]
    unfold F1; ring
  show coord 2 (hydrostaticForce rho g M .NWU) = _
  rw [e]
  unfold SMesh.closedUp
  congr 1
  linarith

/-- Force and centre of buoyancy read in either convention and in either axes are the same vectors. -/
theorem C78_conventions (j : List V3 → Junk) (rho g : ℝ) (M : SMesh) (b : Body) (hne : M.nv ≠ 0) :
    hydrostaticForce rho g M .NED = swap (hydrostaticForce rho g M .NWU) ∧
    hydrostaticTorque rho g M .NED = swap (hydrostaticTorque rho g M .NWU) ∧
    centreOfBuoyancy j M b .NED = (centreOfBuoyancy j M b .NWU).map swap := by
  refine ⟨rfl, rfl, ?_⟩
  unfold centreOfBuoyancy
  rw [if_neg hne, if_neg hne, Option.map_map]
  rfl

/-! ## C79: clipping by waves -/

/-- **C79, force.** With waves too the force is that of the pressure -ρ g z on the faces of the clipped mesh, for any mesh. -/
theorem C79_force_partial (rho g : ℝ) (M : SMesh) (b : Body) (hb : Placed b) (f : Force) :
    (computeWaveForce rho g M b f).getForceInWorld .NWU = sumV (M.tris.map (pressureForce rho g)) ∧
    ∀ a, (computeWaveForce rho g M b f).getTorqueInWorldAtPointInWorld b a .NWU =
      hydrostaticTorque rho g M .NWU + V3.cross (⟨b.refPos.x, b.refPos.y, 0⟩ - a) (sumV (M.tris.map (pressureForce rho g))) := by
  have hl := (C52_point_loads f b hb (hydrostaticForce rho g M .NWU) (hydrostaticTorque rho g M .NWU) (horizontal b) .NWU).2.1
  have hF : hydrostaticForce rho g M .NWU = sumV (M.tris.map (pressureForce rho g)) := force_eq rho g M .NWU
  refine ⟨hl.1.trans hF, fun a => ?_⟩
  have := hl.2 a
  rw [hF] at this
  unfold computeWaveForce
  rw [hF]
  exact this

/-- The error on the moment of a face, due to the wrong integrals of xz and yz. -/
def momentError (t : Tri) : V3 :=
  let n := normalVec t
  let p := t.q - t.p
  let q := t.r - t.p
  let exz := mixedError p.x p.z q.x q.z
  let eyz := mixedError p.y p.z q.y q.z
  ⟨eyz * n.z / 24, -(exz * n.z) / 24, (exz * n.y - eyz * n.x) / 24⟩

theorem faceIntegral_normal (t : Tri) (k : Poly) (f : V3 → ℝ) (e : ℝ)
    (h : faceIntegral t k - surfInt f t = V3.norm (normalVec t) / 24 * e) (i : Fin 3) :
    faceIntegral t k * coord i (faceNormal t) = coord i (flux f t) + e / 24 * coord i (normalVec t) := by
  have h1 : faceIntegral t k = V3.norm (normalVec t) * (simplex f t + e / 24) := by
    unfold surfInt at h; linarith
  have h2 := congrArg (coord i) (normal_mul (normalVec t) (simplex f t + e / 24))
  rw [coord_smul, coord_smul] at h2
  rw [h1]
  unfold flux
  rw [coord_smul, ← add_mul, ← h2]
  rfl

theorem faceTorque_eq (rho g : ℝ) (t : Tri) :
    (g * rho) • faceTorque t = pressureMoment rho g 0 t + (rho * g) • momentError t := by
  obtain ⟨hxz, hyz, -⟩ := C70_products_wrong t
  have hzz : faceIntegral t .z2 - surfInt (Poly.z2.eval) t = V3.norm (normalVec t) / 24 * 0 := by
    rw [C70_face_integrals_partial t .z2 trivial]; ring
  have a := fun i => faceIntegral_normal t .xz _ _ hxz i
  have b := fun i => faceIntegral_normal t .yz _ _ hyz i
  have c := fun i => faceIntegral_normal t .z2 _ _ hzz i
  have ex : (fun v : V3 => (v.x - (0:V3).x) * v.z) = Poly.xz.eval := by funext v; simp [Poly.eval]
  have ey : (fun v : V3 => (v.y - (0:V3).y) * v.z) = Poly.yz.eval := by funext v; simp [Poly.eval]
  have ez : (fun v : V3 => (v.z - (0:V3).z) * v.z) = Poly.z2.eval := by funext v; simp [Poly.eval, sq]
  have a1 := a 1; have a2 := a 2; have b0 := b 0; have b2 := b 2; have c0 := c 0; have c1 := c 1
  unfold pressureMoment
  rw [ex, ey, ez]
  simp only [coord] at a1 a2 b0 b2 c0 c1
  unfold faceTorque momentError
  ext
  · simp only [V3.smul_x, V3.add_x]; rw [b2, c1]; ring
  · simp only [V3.smul_y, V3.add_y]; rw [c0, a2]; ring
  · simp only [V3.smul_z, V3.add_z]; rw [a1, b0]; ring

theorem sumV_add (f g : Tri → V3) (l : List Tri) : sumV (l.map fun t => f t + g t) = sumV (l.map f) + sumV (l.map g) := by
  induction l with
  | nil => ext <;> simp [sumV]
  | cons t l ih => simp only [List.map_cons, sumV]; rw [ih]; ext <;> simp <;> ring
theorem sumV_smul (s : ℝ) (f : Tri → V3) (l : List Tri) : sumV (l.map fun t => s • f t) = s • sumV (l.map f) := by
  induction l with
  | nil => ext <;> simp [sumV]
  | cons t l ih => simp only [List.map_cons, sumV]; rw [ih]; ext <;> simp <;> ring

/-- **C79, torque (defect).** For every mesh the torque is the moment of the pressure about the origin plus an error given exactly: it
does not depend on where the mesh is but on its shape and on which vertex OpenMesh lists first in each face. -/
theorem C79_torque_wrong (rho g : ℝ) (M : SMesh) :
    hydrostaticTorque rho g M .NWU = sumV (M.tris.map (pressureMoment rho g 0)) + (rho * g) • sumV (M.tris.map momentError) := by
  unfold hydrostaticTorque
  show (g * rho) • _ = _
  rw [← sumV_smul, ← sumV_smul, ← sumV_add]
  congr 2
  funext t
  exact faceTorque_eq rho g t

/-- A tetrahedron two metres under water. -/
def diver : SMesh :=
  ⟨4, fun | 0 => ⟨0, 0, -2⟩ | 1 => ⟨1, 0, -2⟩ | 2 => ⟨0, 1, -2⟩ | 3 => ⟨0, 0, -1⟩ | _ => 0,
    [⟨0, 2, 1⟩, ⟨0, 1, 3⟩, ⟨0, 3, 2⟩, ⟨1, 2, 3⟩], fun _ => 0, []⟩

theorem diver_good : Good diver := by
  refine ⟨⟨?_, ?_⟩, ?_⟩
  · intro l hl; simp [diver] at hl
  · have hp : (diver.edges.map Prod.swap).Perm diver.edges := by
      show ((([⟨0, 2, 1⟩, ⟨0, 1, 3⟩, ⟨0, 3, 2⟩, ⟨1, 2, 3⟩] : List Face).flatMap faceEdges ++ [].flatMap loopEdges).map Prod.swap).Perm
        (([⟨0, 2, 1⟩, ⟨0, 1, 3⟩, ⟨0, 3, 2⟩, ⟨1, 2, 3⟩] : List Face).flatMap faceEdges ++ [].flatMap loopEdges)
      decide
    intro a b
    have h1 := hp.count_eq (b, a)
    have h2 := List.count_map_of_injective diver.edges Prod.swap Prod.swap_injective (a, b)
    simp only [Prod.swap_prod_mk] at h2
    rw [← h2, h1]
  · intro l hl; simp [SMesh.rings, diver] at hl

/-- **C79, example.** A tetrahedron under still water: no moment about the vertical, but the torque has one, of ρ g / 12. -/
theorem C79_spurious_yaw (rho g : ℝ) :
    (sumV (diver.tris.map (pressureMoment rho g 0))).z = 0 ∧ (hydrostaticTorque rho g diver .NWU).z = -(rho * g) / 12 := by
  have h0 : AtSurface diver := by intro l hl; simp [SMesh.rings, diver] at hl
  have h1 : (sumV (diver.tris.map (pressureMoment rho g 0))).z = 0 := by
    rw [pressure_moment_sum diver_good.boundary h0 rho g 0 0]; simp
  refine ⟨h1, ?_⟩
  rw [C79_torque_wrong, V3.add_z, h1]
  simp only [SMesh.tris, diver, List.map_cons, List.map_nil, sumV, Face.turned, triOf, momentError, mixedError, normalVec]
  simp
  ring

/-! ## Examples -/

/-- A hull: three faces meeting at a keel, open at the surface. -/
def hull (first : Face → Fin 3) : SMesh :=
  ⟨4, fun | 0 => ⟨0, 0, -1⟩ | 1 => ⟨1, 0, 0⟩ | 2 => ⟨0, 1, 0⟩ | 3 => 0 | _ => 0, [⟨0, 2, 1⟩, ⟨0, 1, 3⟩, ⟨0, 3, 2⟩], first, [[1, 2, 3, 1]]⟩

theorem hull_good (first : Face → Fin 3) : Good (hull first) := by
  have hva : vectorArea [(⟨1, 0, 0⟩ : V3), ⟨0, 1, 0⟩, 0, ⟨1, 0, 0⟩] = ⟨0, 0, 1 / 2⟩ := by
    simp only [vectorArea]
    ext <;> simp
  refine ⟨⟨?_, ?_⟩, ?_⟩
  · intro l hl
    simp only [hull, List.mem_singleton] at hl
    subst hl; rfl
  · have hp : ((hull first).edges.map Prod.swap).Perm (hull first).edges := by
      show ((([⟨0, 2, 1⟩, ⟨0, 1, 3⟩, ⟨0, 3, 2⟩] : List Face).flatMap faceEdges ++ [[1, 2, 3, 1]].flatMap loopEdges).map Prod.swap).Perm
        (([⟨0, 2, 1⟩, ⟨0, 1, 3⟩, ⟨0, 3, 2⟩] : List Face).flatMap faceEdges ++ [[1, 2, 3, 1]].flatMap loopEdges)
      decide
    intro a b
    have h1 := hp.count_eq (b, a)
    have h2 := List.count_map_of_injective (hull first).edges Prod.swap Prod.swap_injective (a, b)
    simp only [Prod.swap_prod_mk] at h2
    rw [← h2, h1]
  · intro l hl
    have : l = [(⟨1, 0, 0⟩ : V3), ⟨0, 1, 0⟩, 0, ⟨1, 0, 0⟩] := by
      simpa [SMesh.rings, hull] using hl
    subst this
    refine ⟨?_, ?_⟩
    · rw [hva]; intro h; have := congrArg V3.z h; norm_num at this
    · rw [hva]
      intro v hv
      unfold centroid
      simp only [sumPts, List.length_cons, List.length_nil]
      simp only [List.mem_cons, List.not_mem_nil, or_false] at hv
      rcases hv with rfl | rfl | rfl | rfl <;> simp [V3.dot]

theorem hull_at (first : Face → Fin 3) : AtSurface (hull first) := by
  intro l hl
  have : l = [(⟨1, 0, 0⟩ : V3), ⟨0, 1, 0⟩, 0, ⟨1, 0, 0⟩] := by
    simpa [SMesh.rings, hull] using hl
  subst this
  intro v hv
  simp only [List.mem_cons, List.not_mem_nil, or_false] at hv
  rcases hv with rfl | rfl | rfl | rfl <;> simp

theorem hull_volume (first : Face → Fin 3) : volInt (fun _ => 1) 0 (hull first).closedUp = 1 / 6 := by
  have hc : (hull first).closedUp = (hull first).tris ++ [⟨⟨1, 0, 0⟩, ⟨0, 1, 0⟩, 0⟩, ⟨⟨1, 0, 0⟩, 0, ⟨1, 0, 0⟩⟩] := by
    unfold SMesh.closedUp SMesh.rings; rfl
  rw [hc]; unfold volInt SMesh.tris
  have e : tetInt (fun _ => 1) 0 = fun t => det 0 t / 6 := by funext t; rw [tetInt_one]
  rw [e, List.map_append, List.sum_append, List.map_map]
  have ht : ((fun t => det 0 t / 6) ∘ fun f => triOf (hull first).pos (f.turned ((hull first).first f))) =
      fun f => det 0 (triOf (hull first).pos f) / 6 := by
    funext f
    simp only [Function.comp]
    generalize (hull first).first f = k
    congr 1
    unfold det triOf V3.dot
    fin_cases k <;> simp [Face.turned] <;> ring
  rw [ht]
  simp [hull, det, triOf, V3.dot]

/-- The hypotheses of C78 are met: the hull, on a body far from the origin, is lifted by ρ g / 6. -/
example (first : Face → Fin 3) (j : List V3 → Junk) (b : Body) (hb : Placed b) :
    ∃ f', computePlaneForce j 1000 10 (hull first) b {} = some f' ∧ f'.getForceInWorld .NWU = ⟨0, 0, 10000 / 6⟩ := by
  obtain ⟨f', h1, -, h3, -⟩ := C78_archimedes_partial j 1000 10 (hull first) (hull_good first) (hull_at first) (by simp [hull]) 0
    (by rw [hull_volume]; norm_num) b hb {}
  refine ⟨f', h1, ?_⟩
  rw [h3, hull_volume]
  norm_num

end Frydom.Hydro
