import Verif.Mesh.BoxProps

/-!
# Rigid motions of a mesh (C76)
-/

open Classical

noncomputable section

namespace Frydom.Mesh
open Geom Inertia

namespace Surface
open Clip

/-- A rigid motion. -/
def move (R : M3) (t v : V3) : V3 := R.mulVec v + t

theorem move_sub (R : M3) (t a b : V3) : move R t a - move R t b = R.mulVec (a - b) := by
  unfold move; ext <;> simp <;> ring

/-- The mesh with every vertex moved. -/
def SMesh.moved (M : SMesh) (R : M3) (t : V3) : SMesh := { M with pos := fun v => move R t (M.pos v) }

theorem vectorArea_shift (l : List V3) (p t : V3) :
    vectorArea ((p :: l).map fun v => v + t) = vectorArea (p :: l) +
      (1 / 2 : ℝ) • V3.cross t ((p :: l).getLast (by simp) - p) := by
  induction l generalizing p with
  | nil => ext <;> simp [vectorArea]
  | cons q l ih =>
    have := ih q
    simp only [List.map_cons] at this ⊢
    rw [vectorArea, vectorArea, this, List.getLast_cons (List.cons_ne_nil q l)]
    ext <;> simp <;> ring

theorem vectorArea_rot {R : M3} (hR : R.IsRot) (l : List V3) : vectorArea (l.map R.mulVec) = R.mulVec (vectorArea l) := by
  induction l with
  | nil => ext <;> simp [vectorArea]
  | cons p l ih => cases l with
    | nil => ext <;> simp [vectorArea]
    | cons q l =>
      simp only [List.map_cons] at ih ⊢
      rw [vectorArea, vectorArea, ih, hR.cross]
      ext <;> simp <;> ring

theorem vectorArea_move {R : M3} (hR : R.IsRot) (t : V3) {l : List V3} (hl : Closed l) :
    vectorArea (l.map (move R t)) = R.mulVec (vectorArea l) := by
  have e : l.map (move R t) = (l.map R.mulVec).map fun v => v + t := by rw [List.map_map]; rfl
  rw [e, ← vectorArea_rot hR]
  cases l with
  | nil => simp
  | cons p l =>
    have hlast := closed_last (hl.map R.mulVec)
    have h2 := vectorArea_shift (l.map R.mulVec) (R.mulVec p) t
    have h3 : (R.mulVec p :: l.map R.mulVec).getLast (by simp) = R.mulVec p := hlast
    rw [h3] at h2
    rw [List.map_cons, h2]
    ext <;> simp

theorem sumPts_move (R : M3) (t : V3) (l : List V3) : sumPts (l.map (move R t)) = R.mulVec (sumPts l) + (l.length : ℝ) • t := by
  induction l with
  | nil => ext <;> simp [sumPts]
  | cons p l ih =>
    rw [List.map_cons, sumPts, sumPts, ih]
    unfold move
    ext <;> simp <;> ring

theorem centroid_move (R : M3) (t : V3) {l : List V3} (hl : l ≠ []) : centroid (l.map (move R t)) = move R t (centroid l) := by
  have : (l.length : ℝ) ≠ 0 := by
    have := List.length_pos_iff.mpr hl
    positivity
  unfold centroid
  rw [sumPts_move, List.length_map]
  unfold move
  ext <;> simp <;> field_simp

theorem Flat.moved {R : M3} (hR : R.IsRot) (t : V3) {l : List V3} (hl : Closed l) (h : Flat l) : Flat (l.map (move R t)) := by
  have hne : l ≠ [] := by rintro rfl; exact h.area rfl
  refine ⟨?_, ?_⟩
  · rw [vectorArea_move hR t hl]
    intro h0
    have e := hR.dot (vectorArea l) (vectorArea l)
    rw [h0] at e
    have := V3.norm_pos h.area
    unfold V3.norm at this
    rw [← e] at this
    simp [V3.dot] at this
  · rw [vectorArea_move hR t hl, centroid_move R t hne]
    intro v hv
    obtain ⟨w, hw, rfl⟩ := List.mem_map.mp hv
    rw [move_sub, hR.dot]
    exact h.planar w hw

theorem Good.moved {M : SMesh} (h : Good M) {R : M3} (hR : R.IsRot) (t : V3) : Good (M.moved R t) := by
  refine ⟨⟨h.boundary.closed, h.boundary.paired⟩, ?_⟩
  intro l hl
  obtain ⟨l', hl', rfl⟩ := List.mem_map.mp hl
  have : l'.map (M.moved R t).pos = (l'.map M.pos).map (move R t) := by rw [List.map_map]; rfl
  rw [this]
  exact (h.flat _ (List.mem_map.mpr ⟨l', hl', rfl⟩)).moved hR t ((h.boundary.closed l' hl').map M.pos)

theorem det_move {R : M3} (hR : R.IsRot) (t O : V3) (T : Tri) :
    det (move R t O) ⟨move R t T.p, move R t T.q, move R t T.r⟩ = det O T := by
  unfold det
  simp only [move_sub]
  rw [hR.cross, hR.dot]

theorem tetInt_move {R : M3} (hR : R.IsRot) (t O : V3) (f : V3 → ℝ) (T : Tri) :
    tetInt f (move R t O) ⟨move R t T.p, move R t T.q, move R t T.r⟩ = tetInt (fun v => f (move R t v)) O T := by
  have h := det_move hR t O T
  unfold det at h
  unfold tetInt
  rw [h]
  have : ∀ a b c : ℝ, move R t O + a • (move R t T.p - move R t O) + b • (move R t T.q - move R t O) +
      c • (move R t T.r - move R t O) = move R t (O + a • (T.p - O) + b • (T.q - O) + c • (T.r - O)) := by
    intro a b c
    unfold move
    ext <;> simp <;> ring
  simp only [this]

theorem fan_map (g : V3 → V3) (l : List V3) : fan (l.map g) = (fan l).map fun T => ⟨g T.p, g T.q, g T.r⟩ := by
  have hgo : ∀ (o : V3) (l : List V3), fan.go (g o) (l.map g) = (fan.go o l).map fun T => ⟨g T.p, g T.q, g T.r⟩ := by
    intro o l
    induction l with
    | nil => rfl
    | cons p l ih => cases l with
      | nil => rfl
      | cons q l =>
        simp only [List.map_cons] at ih ⊢
        rw [fan.go, fan.go, ih]; rfl
  cases l with
  | nil => rfl
  | cons o l => exact hgo o l

theorem closedUp_moved (M : SMesh) (R : M3) (t : V3) :
    (M.moved R t).closedUp = M.closedUp.map fun T => ⟨move R t T.p, move R t T.q, move R t T.r⟩ := by
  unfold SMesh.closedUp
  rw [List.map_append]
  congr 1
  · unfold SMesh.tris; rw [List.map_map]; rfl
  · have : (M.moved R t).rings = M.rings.map fun l => l.map (move R t) := by
      unfold SMesh.rings; rw [List.map_map]
      apply List.map_congr_left
      intro l _
      simp only [Function.comp, List.map_map]
      rfl
    rw [this]
    generalize M.rings = L
    induction L with
    | nil => rfl
    | cons l L ih => simp only [List.map_cons, List.flatMap_cons, List.map_append, ih, fan_map]

theorem volInt_moved {R : M3} (hR : R.IsRot) (t O : V3) (f : V3 → ℝ) (M : SMesh) :
    volInt f (move R t O) (M.moved R t).closedUp = volInt (fun v => f (move R t v)) O M.closedUp := by
  rw [closedUp_moved]
  unfold volInt
  rw [List.map_map]
  congr 1
  apply List.map_congr_left
  intro T _
  exact tetInt_move hR t O f T

theorem tetInt_affine (a b c d : ℝ) (O : V3) (T : Tri) :
    tetInt (fun v => a * v.x + b * v.y + c * v.z + d) O T = a * tetInt (fun v => v.x) O T + b * tetInt (fun v => v.y) O T +
      c * tetInt (fun v => v.z) O T + d * tetInt (fun _ => 1) O T := by
  have h0 : tetInt (fun v => v.x) O T = _ := tetInt_coord 0 O T
  have h1 : tetInt (fun v => v.y) O T = _ := tetInt_coord 1 O T
  have h2 : tetInt (fun v => v.z) O T = _ := tetInt_coord 2 O T
  rw [h0, h1, h2, tetInt_one]
  unfold tetInt det coord
  rw [int_tetra (fun x y z => a * (O + x • (T.p - O) + y • (T.q - O) + z • (T.r - O)).x + b * (O + x • (T.p - O) + y • (T.q - O) +
    z • (T.r - O)).y + c * (O + x • (T.p - O) + y • (T.q - O) + z • (T.r - O)).z + d)
    (a * O.x + b * O.y + c * O.z + d) (a * (T.p.x - O.x) + b * (T.p.y - O.y) + c * (T.p.z - O.z))
    (a * (T.q.x - O.x) + b * (T.q.y - O.y) + c * (T.q.z - O.z)) (a * (T.r.x - O.x) + b * (T.r.y - O.y) + c * (T.r.z - O.z))
    0 0 0 0 0 0 (by intros; simp; ring)]
  simp only
  ring

theorem volInt_affine (a b c d : ℝ) (O : V3) (L : List Tri) :
    volInt (fun v => a * v.x + b * v.y + c * v.z + d) O L = a * volInt (fun v => v.x) O L + b * volInt (fun v => v.y) O L +
      c * volInt (fun v => v.z) O L + d * volInt (fun _ => 1) O L := by
  unfold volInt
  induction L with
  | nil => simp
  | cons T L ih => simp only [List.map_cons, List.sum_cons, ih, tetInt_affine]; ring

theorem C76_rigid_motion (M : SMesh) (h : Good M) (j : List V3 → Junk) (R : M3) (hR : R.IsRot) (t : V3) :
    Good (M.moved R t) ∧ (M.moved R t).getVolume j = M.getVolume j ∧
    ∀ V, M.getVolume j = some V → V ≠ 0 → ∃ G, M.getCOG j = some G ∧ (M.moved R t).getCOG j = some (move R t G) := by
  have hg := h.moved hR t
  have hv : (M.moved R t).getVolume j = M.getVolume j := by
    rw [C71_volume _ hg j (move R t 0), C71_volume _ h j 0, volInt_moved hR]
  refine ⟨hg, hv, ?_⟩
  intro V hV hV0
  rw [C71_volume _ h j 0] at hV
  injection hV with hV
  obtain ⟨G, g1, g2⟩ := C72_centre _ h j 0 (by rw [hV]; exact hV0)
  have e1 : volInt (fun _ => 1) (move R t 0) (M.moved R t).closedUp = V := by rw [volInt_moved hR, hV]
  obtain ⟨G', g1', g2'⟩ := C72_centre _ hg j (move R t 0) (by rw [e1]; exact hV0)
  refine ⟨G, g1, ?_⟩
  rw [g1']
  congr 1
  rw [e1] at g2'
  rw [hV] at g2
  have hx := volInt_affine R.a00 R.a01 R.a02 t.x 0 M.closedUp
  have hy := volInt_affine R.a10 R.a11 R.a12 t.y 0 M.closedUp
  have hz := volInt_affine R.a20 R.a21 R.a22 t.z 0 M.closedUp
  have mx : (fun v => (move R t v).x) = fun v => R.a00 * v.x + R.a01 * v.y + R.a02 * v.z + t.x := by
    funext v; simp [move, M3.mulVec]
  have my : (fun v => (move R t v).y) = fun v => R.a10 * v.x + R.a11 * v.y + R.a12 * v.z + t.y := by
    funext v; simp [move, M3.mulVec]
  have mz : (fun v => (move R t v).z) = fun v => R.a20 * v.x + R.a21 * v.y + R.a22 * v.z + t.z := by
    funext v; simp [move, M3.mulVec]
  rw [volInt_moved hR, volInt_moved hR, volInt_moved hR, mx, my, mz, hx, hy, hz, hV] at g2'
  have a0 := congrArg V3.x g2
  have a1 := congrArg V3.y g2
  have a2 := congrArg V3.z g2
  have b0 := congrArg V3.x g2'
  have b1 := congrArg V3.y g2'
  have b2 := congrArg V3.z g2'
  simp only [V3.smul_x, V3.smul_y, V3.smul_z] at a0 a1 a2 b0 b1 b2
  rw [← a0, ← a1, ← a2] at b0 b1 b2
  unfold move
  ext
  · apply mul_left_cancel₀ hV0; rw [b0]; simp [M3.mulVec]; ring
  · apply mul_left_cancel₀ hV0; rw [b1]; simp [M3.mulVec]; ring
  · apply mul_left_cancel₀ hV0; rw [b2]; simp [M3.mulVec]; ring

/-- **C76.** `Translate(t)` moves every vertex by t, keeps the volume and moves the centre by t. -/
theorem C76_translate (M : SMesh) (h : Good M) (j : List V3 → Junk) (t : V3) :
    (∀ v, (M.translate t).pos v = M.pos v + t) ∧ (M.translate t).getVolume j = M.getVolume j ∧
    ∀ V, M.getVolume j = some V → V ≠ 0 → ∃ G, M.getCOG j = some G ∧ (M.translate t).getCOG j = some (G + t) := by
  have hI : M3.IsRot ⟨1, 0, 0, 0, 1, 0, 0, 0, 1⟩ := by
    constructor <;> norm_num [V3.dot, M3.c0, M3.c1, M3.c2, M3.det]
  have e : M.translate t = M.moved ⟨1, 0, 0, 0, 1, 0, 0, 0, 1⟩ t := by
    unfold SMesh.translate SMesh.moved move
    congr 1; funext v; ext <;> simp [M3.mulVec]
  have e' : ∀ G, move ⟨1, 0, 0, 0, 1, 0, 0, 0, 1⟩ t G = G + t := by
    intro G; unfold move; ext <;> simp [M3.mulVec]
  have := C76_rigid_motion M h j _ hI t
  rw [← e] at this
  simp only [e'] at this
  exact ⟨fun _ => rfl, this.2⟩

/-- **C76.** `Rotate(phi, theta, psi)` turns every vertex about the origin of the mesh by the Cardan angles (as the rotation built
from them by the library), keeps the volume and turns the centre. -/
theorem C76_rotate (M : SMesh) (h : Good M) (j : List V3 → Junk) (phi theta psi : ℝ) :
    (∀ v, (M.rotateAngles phi theta psi).pos v = rotate (eulerToQuat phi theta psi) .NWU (M.pos v)) ∧
    (M.rotateAngles phi theta psi).getVolume j = M.getVolume j ∧
    ∀ V, M.getVolume j = some V → V ≠ 0 → ∃ G, M.getCOG j = some G ∧
      (M.rotateAngles phi theta psi).getCOG j = some (rotate (eulerToQuat phi theta psi) .NWU G) := by
  have hu := eulerToQuat_unit phi theta psi
  have hR := Q.isRot hu
  have em := eulerToQuat_toMat phi theta psi
  have e : M.rotateAngles phi theta psi = M.moved (eulerToQuat phi theta psi).toMat 0 := by
    rw [em]
    unfold SMesh.rotateAngles SMesh.rotate SMesh.moved move eulerToMat
    congr 1; funext v; ext <;> simp <;> ring
  have e' : ∀ G, move (eulerToQuat phi theta psi).toMat 0 G = rotate (eulerToQuat phi theta psi) .NWU G := by
    intro G; unfold move rotate Q.rotate; ext <;> simp [conv]
  have := C76_rigid_motion M h j _ hR 0
  rw [← e] at this
  simp only [e'] at this
  refine ⟨fun v => ?_, this.2⟩
  rw [e, ← e']; rfl

end Surface

end Frydom.Mesh
