import Verif.Mesh.InertiaProps
import Verif.Geom.Props2

/-!
# Shell inertia, boxes, bounding boxes and rigid motions of a mesh (C74-C76)
-/

open Classical

noncomputable section

namespace Frydom.Mesh
open Geom Inertia

namespace Surface
open Clip

/-! ## C74: shells -/

theorem surfInt_add (i k : Fin 3) (t : Tri) :
    surfInt (fun v => coord i v ^ 2 + coord k v ^ 2) t = surfInt (fun v => coord i v ^ 2) t + surfInt (fun v => coord k v ^ 2) t := by
  unfold surfInt
  rw [← mul_add]
  congr 1
  unfold simplex
  simp only [coord_affine]
  rw [simplex_sq, simplex_sq]
  generalize coord i t.p = a
  generalize coord i t.q = b
  generalize coord i t.r = c
  generalize coord k t.p = a'
  generalize coord k t.q = b'
  generalize coord k t.r = c'
  rw [int_simplex (fun u v => (a + u * (b - a) + v * (c - a)) ^ 2 + (a' + u * (b' - a') + v * (c' - a')) ^ 2) (a ^ 2 + a' ^ 2)
    (2 * a * (b - a) + 2 * a' * (b' - a')) (2 * a * (c - a) + 2 * a' * (c' - a')) ((b - a) ^ 2 + (b' - a') ^ 2)
    (2 * (b - a) * (c - a) + 2 * (b' - a') * (c' - a')) ((c - a) ^ 2 + (c' - a') ^ 2) 0 0 0 0 (by intros; ring)]
  unfold F2 F1; ring

/-- **C74 (part).** For a mesh without boundary, the moments of inertia of the shell at the origin are the density times the
thickness times the integrals over the surface of the squared distances to the axes. Missing: mass, centre and products, which are
wrong. -/
theorem C74_shell_moments_partial (M : SMesh) (hl : M.loops = []) (j : List V3 → Junk) (density thickness : ℝ) :
    ∃ I, M.getShellInertia j density thickness = some I ∧
      (I.coeffsAtFrame Frame.identity .NWU).Ixx = density * thickness * (M.tris.map (surfInt fun v => v.y ^ 2 + v.z ^ 2)).sum ∧
      (I.coeffsAtFrame Frame.identity .NWU).Iyy = density * thickness * (M.tris.map (surfInt fun v => v.x ^ 2 + v.z ^ 2)).sum ∧
      (I.coeffsAtFrame Frame.identity .NWU).Izz = density * thickness * (M.tris.map (surfInt fun v => v.y ^ 2 + v.x ^ 2)).sum := by
  have e1 : mkCaps j M.rings = some [] := by unfold SMesh.rings; rw [hl]; rfl
  have hr := (C20_frame_round_trip (density * volumeOf M.tris [])
    ⟨density * thickness * (meshed M.tris .y2 + meshed M.tris .z2), density * thickness * (meshed M.tris .x2 + meshed M.tris .z2),
      density * thickness * (meshed M.tris .y2 + meshed M.tris .x2), -density * thickness * meshed M.tris .xy,
      -density * thickness * meshed M.tris .xz, -density * thickness * meshed M.tris .yz⟩ Frame.identity
    identity_valid (cogOf M.tris []) .NWU).1
  refine ⟨shellInertia density thickness M.tris, by unfold SMesh.getShellInertia; rw [e1, Option.bind_some, if_pos rfl], ?_⟩
  unfold shellInertia
  rw [hr]
  have hm : ∀ k : Poly, k.Plain → meshed M.tris k = (M.tris.map (surfInt k.eval)).sum := by
    intro k hk
    unfold meshed
    congr 1
    exact List.map_congr_left fun t _ => C70_face_integrals_partial t k hk
  simp only [hm .x2 trivial, hm .y2 trivial, hm .z2 trivial]
  have ha : ∀ i k : Fin 3, (M.tris.map (surfInt fun v => coord i v ^ 2 + coord k v ^ 2)).sum =
      (M.tris.map (surfInt fun v => coord i v ^ 2)).sum + (M.tris.map (surfInt fun v => coord k v ^ 2)).sum := by
    intro i k
    rw [← sum_map_add]
    congr 1
    exact List.map_congr_left fun t _ => surfInt_add i k t
  exact ⟨congrArg (fun s => density * thickness * s) (ha 1 2).symm, congrArg (fun s => density * thickness * s) (ha 0 2).symm,
    congrArg (fun s => density * thickness * s) (ha 1 0).symm⟩

/-- **C74, defects.** The mass of the shell is that of the plain volume, whatever the thickness; its centre is the centre of the
plain volume; and its products of inertia are off by the errors of C70. -/
theorem C74_shell_wrong (M : SMesh) (hM : M.IsBoundary) (hl : M.loops = []) (j : List V3 → Junk) (density thickness : ℝ) (O : V3) :
    ∃ I, M.getShellInertia j density thickness = some I ∧
      I.mass = density * volInt (fun _ => 1) O M.closedUp ∧ M.getCOG j = some (I.getCOG .NWU) ∧
      (I.coeffsAtFrame Frame.identity .NWU).Ixy = -density * thickness * ((M.tris.map (surfInt fun v => v.x * v.y)).sum +
        (M.tris.map fun t => V3.norm (normalVec t) / 24 *
          mixedError (t.q - t.p).x (t.q - t.p).y (t.r - t.p).x (t.r - t.p).y).sum) := by
  have e1 : mkCaps j M.rings = some [] := by unfold SMesh.rings; rw [hl]; rfl
  have hg : Good M := ⟨hM, by unfold SMesh.rings; rw [hl]; simp⟩
  have hcs : CapsSpec [] M.rings := by unfold SMesh.rings; rw [hl]; exact List.Forall₂.nil
  have hr := C20_frame_round_trip (density * volumeOf M.tris [])
    ⟨density * thickness * (meshed M.tris .y2 + meshed M.tris .z2), density * thickness * (meshed M.tris .x2 + meshed M.tris .z2),
      density * thickness * (meshed M.tris .y2 + meshed M.tris .x2), -density * thickness * meshed M.tris .xy,
      -density * thickness * meshed M.tris .xz, -density * thickness * meshed M.tris .yz⟩ Frame.identity
    identity_valid (cogOf M.tris []) .NWU
  refine ⟨shellInertia density thickness M.tris, by unfold SMesh.getShellInertia; rw [e1, Option.bind_some, if_pos rfl], ?_, ?_, ?_⟩
  · rw [← volumeOf_eq hg hcs O]; rfl
  · unfold SMesh.getCOG; rw [e1, Option.map_some]; exact congrArg some hr.2.1.symm
  · unfold shellInertia
    rw [hr.1]
    simp only
    congr 1
    unfold meshed
    rw [← sum_map_add]
    congr 1
    apply List.map_congr_left
    intro t _
    have := (C70_products_wrong t).2.2
    have e : (fun v : V3 => v.x * v.y) = Poly.xy.eval := rfl
    rw [e]; linarith

/-- A mesh with a boundary is refused. -/
theorem C74_shell_open (M : SMesh) (h : Good M) (hl : M.loops ≠ []) (j : List V3 → Junk) (density thickness : ℝ) :
    M.getShellInertia j density thickness = none := by
  obtain ⟨cs, h1, h2⟩ := h.caps j
  unfold SMesh.getShellInertia
  rw [h1, Option.bind_some, if_neg]
  rintro rfl
  have := h2.length_eq
  unfold SMesh.rings at this
  simp only [List.length_nil, List.length_map] at this
  exact hl (List.length_eq_zero_iff.mp this.symm)

/-! ## C75: boxes -/

theorem det_turned (O : V3) (pos : ℕ → V3) (f : Face) (k : Fin 3) : det O (triOf pos (f.turned k)) = det O (triOf pos f) := by
  unfold det triOf V3.dot
  fin_cases k <;> simp [Face.turned] <;> ring

/-- The integrals do not depend on the first vertex of the faces. -/
theorem volInt_turned (M : SMesh) (hl : M.loops = []) (O : V3) (i k : Fin 3) :
    volInt (fun _ => 1) O M.closedUp = (M.faces.map fun f => det O (triOf M.pos f) / 6).sum ∧
    volInt (coord i) O M.closedUp = (M.faces.map fun f => det O (triOf M.pos f) * (coord i O + coord i (M.pos f.a) +
      coord i (M.pos f.b) + coord i (M.pos f.c)) / 24).sum ∧
    volInt (fun v => coord i v * coord k v) O M.closedUp = (M.faces.map fun f => det O (triOf M.pos f) *
      (coord i O * coord k O + coord i (M.pos f.a) * coord k (M.pos f.a) +
      coord i (M.pos f.b) * coord k (M.pos f.b) + coord i (M.pos f.c) * coord k (M.pos f.c) +
      (coord i O + coord i (M.pos f.a) + coord i (M.pos f.b) + coord i (M.pos f.c)) *
      (coord k O + coord k (M.pos f.a) + coord k (M.pos f.b) + coord k (M.pos f.c))) / 120).sum := by
  have hc : M.closedUp = M.tris := by unfold SMesh.closedUp SMesh.rings; rw [hl]; simp
  rw [hc]
  unfold volInt SMesh.tris
  simp only [List.map_map]
  refine ⟨?_, ?_, ?_⟩ <;> congr 1 <;> apply List.map_congr_left <;> intro f _ <;> simp only [Function.comp]
  · rw [tetInt_one, det_turned]
  · rw [tetInt_coord, det_turned]
    congr 2
    unfold triOf
    generalize M.first f = m
    fin_cases m <;> simp [Face.turned] <;> ring
  · rw [tetInt_mul, det_turned]
    congr 2
    unfold triOf
    generalize M.first f = m
    fin_cases m <;> simp [Face.turned] <;> ring

theorem box_boundary (first : Face → Fin 3) (lx ly lz : ℝ) : (box first lx ly lz).IsBoundary := by
  refine ⟨by intro l hl; simp [box] at hl, ?_⟩
  have hp : ((box first lx ly lz).edges.map Prod.swap).Perm (box first lx ly lz).edges := by
    show ((boxFaces.flatMap faceEdges ++ []).map Prod.swap).Perm (boxFaces.flatMap faceEdges ++ [])
    decide
  intro a b
  have h1 := hp.count_eq (b, a)
  have h2 := List.count_map_of_injective (box first lx ly lz).edges Prod.swap Prod.swap_injective (a, b)
  simp only [Prod.swap_prod_mk] at h2
  rw [← h2, h1]

theorem box_good (first : Face → Fin 3) (lx ly lz : ℝ) : Good (box first lx ly lz) :=
  ⟨box_boundary first lx ly lz, by intro l hl; simp [box, SMesh.rings] at hl⟩

/-- The integrals over a box. -/
theorem box_ints (first : Face → Fin 3) (lx ly lz : ℝ) :
    volInt (fun _ => 1) 0 (box first lx ly lz).closedUp = lx * ly * lz ∧
    (∀ i, volInt (coord i) 0 (box first lx ly lz).closedUp = 0) ∧
    volInt (fun v => v.x * v.x) 0 (box first lx ly lz).closedUp = lx * ly * lz * lx ^ 2 / 12 ∧
    volInt (fun v => v.y * v.y) 0 (box first lx ly lz).closedUp = lx * ly * lz * ly ^ 2 / 12 ∧
    volInt (fun v => v.z * v.z) 0 (box first lx ly lz).closedUp = lx * ly * lz * lz ^ 2 / 12 ∧
    volInt (fun v => v.x * v.y) 0 (box first lx ly lz).closedUp = 0 ∧
    volInt (fun v => v.z * v.x) 0 (box first lx ly lz).closedUp = 0 ∧
    volInt (fun v => v.y * v.z) 0 (box first lx ly lz).closedUp = 0 := by
  have h := fun i k => volInt_turned (box first lx ly lz) rfl 0 i k
  have c0 : coord 0 = fun v : V3 => v.x := rfl
  have c1 : coord 1 = fun v : V3 => v.y := rfl
  have c2 : coord 2 = fun v : V3 => v.z := rfl
  have h00 := (h 0 0).2.2
  have h11 := (h 1 1).2.2
  have h22 := (h 2 2).2.2
  have h01 := (h 0 1).2.2
  have h20 := (h 2 0).2.2
  have h12 := (h 1 2).2.2
  simp only [c0, c1, c2] at h00 h11 h22 h01 h20 h12
  refine ⟨?_, ?_, ?_, ?_, ?_, ?_, ?_, ?_⟩
  · rw [(h 0 0).1]
    simp [box, boxFaces, boxPos, det, triOf, V3.dot]; ring
  · intro i
    rw [(h i 0).2.1]
    fin_cases i <;> simp [box, boxFaces, boxPos, det, triOf, V3.dot, coord] <;> ring
  · rw [h00]; simp [box, boxFaces, boxPos, det, triOf, V3.dot]; ring
  · rw [h11]; simp [box, boxFaces, boxPos, det, triOf, V3.dot]; ring
  · rw [h22]; simp [box, boxFaces, boxPos, det, triOf, V3.dot]; ring
  · rw [h01]; simp [box, boxFaces, boxPos, det, triOf, V3.dot]; ring
  · rw [h20]; simp [box, boxFaces, boxPos, det, triOf, V3.dot]; ring
  · rw [h12]; simp [box, boxFaces, boxPos, det, triOf, V3.dot]; ring

/-- **C75.** `CreateBox` makes a closed box: volume Lx Ly Lz, centre at the origin and the moments of inertia m/12 (b² + c²) of a
cuboid, without products, for all dimensions of nonzero product and whichever first half-edges OpenMesh gives the faces. -/
theorem C75_box (first : Face → Fin 3) (lx ly lz density : ℝ) (h : lx * ly * lz ≠ 0) (j : List V3 → Junk) :
    (box first lx ly lz).getVolume j = some (lx * ly * lz) ∧
    (box first lx ly lz).getCOG j = some 0 ∧
    ∃ I, (box first lx ly lz).getPlainInertia j density = some I ∧ I.mass = density * (lx * ly * lz) ∧ I.cog = 0 ∧
      I.coeffsAtCOG .NWU = ⟨I.mass / 12 * (ly ^ 2 + lz ^ 2), I.mass / 12 * (lx ^ 2 + lz ^ 2), I.mass / 12 * (lx ^ 2 + ly ^ 2),
        0, 0, 0⟩ := by
  obtain ⟨b0, b1, b2, b3, b4, b5, b6, b7⟩ := box_ints first lx ly lz
  have hG := box_good first lx ly lz
  have hv := C71_volume _ hG j 0
  obtain ⟨G, hg1, hg2⟩ := C72_centre _ hG j 0 (by rw [b0]; exact h)
  have i0 : volInt (fun v => v.x) 0 (box first lx ly lz).closedUp = 0 := b1 0
  have i1 : volInt (fun v => v.y) 0 (box first lx ly lz).closedUp = 0 := b1 1
  have i2 : volInt (fun v => v.z) 0 (box first lx ly lz).closedUp = 0 := b1 2
  rw [b0, i0, i1, i2] at hg2
  have hG0 : G = 0 := by
    have e0 := congrArg V3.x hg2
    have e1 := congrArg V3.y hg2
    have e2 := congrArg V3.z hg2
    simp only [V3.smul_x, V3.smul_y, V3.smul_z] at e0 e1 e2
    ext
    · exact (mul_eq_zero.mp e0).resolve_left h
    · exact (mul_eq_zero.mp e1).resolve_left h
    · exact (mul_eq_zero.mp e2).resolve_left h
  subst hG0
  obtain ⟨I, hi1, hi2, hi3, hi4⟩ := C73_plain_inertia_partial _ hG (by intro l hl; simp [box, SMesh.rings] at hl) j density 0
  have hcog : I.cog = 0 := by
    rw [hg1] at hi3; injection hi3 with e; exact e.symm
  rw [b0] at hi2
  refine ⟨by rw [hv, b0], hg1, I, hi1, hi2, hcog, ?_⟩
  rw [b2, b3, b4, b5, b6, b7] at hi4
  have hfr : I.coeffsAtFrame Frame.identity .NWU = I.coeffsAtCOG .NWU := by
    unfold Tensor.coeffsAtFrame Tensor.coeffsAtCOG
    rw [hcog]
    have hR : invRotMat Frame.identity.rot = ⟨1, 0, 0, 0, 1, 0, 0, 0, 1⟩ := by
      unfold invRotMat Frame.identity Q.one
      ext <;> simp [Q.toMat, Q.normSq] <;> norm_num
    have hp : Frame.identity.getPosition .NWU = 0 := by
      unfold Frame.getPosition Frame.identity; rfl
    simp only [hR, hp]
    congr 1
    ext <;> simp [M3.mul, M3.transpose, coeffsOfMat, pointMass]
  rw [← hfr, hi4, hi2]
  ext <;> simp only [] <;> ring

/-- The bounding box contains every vertex and touches one on each side. -/
theorem bbox_fold (l : List V3) (b : BBox) :
    (∀ v ∈ l, (l.foldl BBox.step b).xmin ≤ v.x ∧ v.x ≤ (l.foldl BBox.step b).xmax ∧ (l.foldl BBox.step b).ymin ≤ v.y ∧
      v.y ≤ (l.foldl BBox.step b).ymax ∧ (l.foldl BBox.step b).zmin ≤ v.z ∧ v.z ≤ (l.foldl BBox.step b).zmax) ∧
    ((l.foldl BBox.step b).xmin ≤ b.xmin ∧ b.xmax ≤ (l.foldl BBox.step b).xmax ∧ (l.foldl BBox.step b).ymin ≤ b.ymin ∧
      b.ymax ≤ (l.foldl BBox.step b).ymax ∧ (l.foldl BBox.step b).zmin ≤ b.zmin ∧ b.zmax ≤ (l.foldl BBox.step b).zmax) ∧
    ((l.foldl BBox.step b).xmin = b.xmin ∨ ∃ v ∈ l, (l.foldl BBox.step b).xmin = v.x) ∧
    ((l.foldl BBox.step b).xmax = b.xmax ∨ ∃ v ∈ l, (l.foldl BBox.step b).xmax = v.x) ∧
    ((l.foldl BBox.step b).ymin = b.ymin ∨ ∃ v ∈ l, (l.foldl BBox.step b).ymin = v.y) ∧
    ((l.foldl BBox.step b).ymax = b.ymax ∨ ∃ v ∈ l, (l.foldl BBox.step b).ymax = v.y) ∧
    ((l.foldl BBox.step b).zmin = b.zmin ∨ ∃ v ∈ l, (l.foldl BBox.step b).zmin = v.z) ∧
    ((l.foldl BBox.step b).zmax = b.zmax ∨ ∃ v ∈ l, (l.foldl BBox.step b).zmax = v.z) := by
  induction l generalizing b with
  | nil => simp
  | cons p l ih =>
    rw [List.foldl_cons]
    obtain ⟨h1, ⟨a1, a2, a3, a4, a5, a6⟩, t1, t2, t3, t4, t5, t6⟩ := ih (b.step p)
    generalize l.foldl BBox.step (b.step p) = r at *
    unfold BBox.step at *
    simp only at *
    have m1 := min_le_left b.xmin p.x
    have m1' := min_le_right b.xmin p.x
    have m2 := le_max_left b.xmax p.x
    have m2' := le_max_right b.xmax p.x
    have m3 := min_le_left b.ymin p.y
    have m3' := min_le_right b.ymin p.y
    have m4 := le_max_left b.ymax p.y
    have m4' := le_max_right b.ymax p.y
    have m5 := min_le_left b.zmin p.z
    have m5' := min_le_right b.zmin p.z
    have m6 := le_max_left b.zmax p.z
    have m6' := le_max_right b.zmax p.z
    refine ⟨?_, ⟨by linarith, by linarith, by linarith, by linarith, by linarith, by linarith⟩, ?_, ?_, ?_, ?_, ?_, ?_⟩
    · intro v hv
      rcases List.mem_cons.mp hv with rfl | hv
      · exact ⟨by linarith, by linarith, by linarith, by linarith, by linarith, by linarith⟩
      · exact h1 v hv
    · rcases t1 with t | ⟨v, hv, t⟩
      · rcases min_choice b.xmin p.x with h | h
        · left; rw [t, h]
        · right; exact ⟨p, by simp, by rw [t, h]⟩
      · right; exact ⟨v, List.mem_cons_of_mem _ hv, t⟩
    · rcases t2 with t | ⟨v, hv, t⟩
      · rcases max_choice b.xmax p.x with h | h
        · left; rw [t, h]
        · right; exact ⟨p, by simp, by rw [t, h]⟩
      · right; exact ⟨v, List.mem_cons_of_mem _ hv, t⟩
    · rcases t3 with t | ⟨v, hv, t⟩
      · rcases min_choice b.ymin p.y with h | h
        · left; rw [t, h]
        · right; exact ⟨p, by simp, by rw [t, h]⟩
      · right; exact ⟨v, List.mem_cons_of_mem _ hv, t⟩
    · rcases t4 with t | ⟨v, hv, t⟩
      · rcases max_choice b.ymax p.y with h | h
        · left; rw [t, h]
        · right; exact ⟨p, by simp, by rw [t, h]⟩
      · right; exact ⟨v, List.mem_cons_of_mem _ hv, t⟩
    · rcases t5 with t | ⟨v, hv, t⟩
      · rcases min_choice b.zmin p.z with h | h
        · left; rw [t, h]
        · right; exact ⟨p, by simp, by rw [t, h]⟩
      · right; exact ⟨v, List.mem_cons_of_mem _ hv, t⟩
    · rcases t6 with t | ⟨v, hv, t⟩
      · rcases max_choice b.zmax p.z with h | h
        · left; rw [t, h]
        · right; exact ⟨p, by simp, by rw [t, h]⟩
      · right; exact ⟨v, List.mem_cons_of_mem _ hv, t⟩

/-- **C75, bounding box.** It contains every vertex and each of its six sides passes through one. -/
theorem C75_bounding_box (M : SMesh) (h : 0 < M.nv) :
    (∀ i < M.nv, M.boundingBox.xmin ≤ (M.pos i).x ∧ (M.pos i).x ≤ M.boundingBox.xmax ∧ M.boundingBox.ymin ≤ (M.pos i).y ∧
      (M.pos i).y ≤ M.boundingBox.ymax ∧ M.boundingBox.zmin ≤ (M.pos i).z ∧ (M.pos i).z ≤ M.boundingBox.zmax) ∧
    (∃ i < M.nv, M.boundingBox.xmin = (M.pos i).x) ∧ (∃ i < M.nv, M.boundingBox.xmax = (M.pos i).x) ∧
    (∃ i < M.nv, M.boundingBox.ymin = (M.pos i).y) ∧ (∃ i < M.nv, M.boundingBox.ymax = (M.pos i).y) ∧
    (∃ i < M.nv, M.boundingBox.zmin = (M.pos i).z) ∧ (∃ i < M.nv, M.boundingBox.zmax = (M.pos i).z) := by
  unfold SMesh.boundingBox
  rw [if_neg h.ne']
  obtain ⟨h1, -, t1, t2, t3, t4, t5, t6⟩ := bbox_fold ((List.range M.nv).map M.pos)
    ⟨(M.pos 0).x, (M.pos 0).x, (M.pos 0).y, (M.pos 0).y, (M.pos 0).z, (M.pos 0).z⟩
  generalize ((List.range M.nv).map M.pos).foldl BBox.step _ = r at *
  have key : ∀ (g : V3 → ℝ) (s : ℝ), (s = g (M.pos 0) ∨ ∃ v ∈ (List.range M.nv).map M.pos, s = g v) → ∃ i < M.nv, s = g (M.pos i) := by
    rintro g s (h0 | ⟨v, hv, h0⟩)
    · exact ⟨0, h, h0⟩
    · obtain ⟨i, hi, rfl⟩ := List.mem_map.mp hv
      exact ⟨i, List.mem_range.mp hi, h0⟩
  refine ⟨fun i hi => h1 _ (List.mem_map.mpr ⟨i, List.mem_range.mpr hi, rfl⟩), ?_⟩
  exact ⟨key V3.x _ t1, key V3.x _ t2, key V3.y _ t3, key V3.y _ t4, key V3.z _ t5, key V3.z _ t6⟩

/-! ## An open mesh -/

/-- The tetrahedron with three edges along the axes, without its oblique face. -/
def openTetra (first : Face → Fin 3) : SMesh :=
  ⟨4, fun | 0 => 0 | 1 => ⟨1, 0, 0⟩ | 2 => ⟨0, 1, 0⟩ | 3 => ⟨0, 0, 1⟩ | _ => 0, [⟨0, 2, 1⟩, ⟨0, 1, 3⟩, ⟨0, 3, 2⟩], first, [[1, 2, 3, 1]]⟩

theorem openTetra_good (first : Face → Fin 3) : Good (openTetra first) := by
  have hva : vectorArea [(⟨1, 0, 0⟩ : V3), ⟨0, 1, 0⟩, ⟨0, 0, 1⟩, ⟨1, 0, 0⟩] = ⟨1 / 2, 1 / 2, 1 / 2⟩ := by
    simp only [vectorArea]
    ext <;> simp
  refine ⟨⟨?_, ?_⟩, ?_⟩
  · intro l hl
    simp only [openTetra, List.mem_singleton] at hl
    subst hl; rfl
  · have hp : ((openTetra first).edges.map Prod.swap).Perm (openTetra first).edges := by
      show ((([⟨0, 2, 1⟩, ⟨0, 1, 3⟩, ⟨0, 3, 2⟩] : List Face).flatMap faceEdges ++ [[1, 2, 3, 1]].flatMap loopEdges).map Prod.swap).Perm
        (([⟨0, 2, 1⟩, ⟨0, 1, 3⟩, ⟨0, 3, 2⟩] : List Face).flatMap faceEdges ++ [[1, 2, 3, 1]].flatMap loopEdges)
      decide
    intro a b
    have h1 := hp.count_eq (b, a)
    have h2 := List.count_map_of_injective (openTetra first).edges Prod.swap Prod.swap_injective (a, b)
    simp only [Prod.swap_prod_mk] at h2
    rw [← h2, h1]
  · intro l hl
    have : l = [(⟨1, 0, 0⟩ : V3), ⟨0, 1, 0⟩, ⟨0, 0, 1⟩, ⟨1, 0, 0⟩] := by
      simpa [SMesh.rings, openTetra] using hl
    subst this
    refine ⟨?_, ?_⟩
    · rw [hva]; intro h; have := congrArg V3.x h; norm_num at this
    · rw [hva]
      intro v hv
      unfold centroid
      simp only [sumPts, List.length_cons, List.length_nil]
      simp only [List.mem_cons, List.not_mem_nil, or_false] at hv
      rcases hv with rfl | rfl | rfl | rfl <;> simp [V3.dot] <;> norm_num

/-- The hypotheses of C71 and C72 are met by an open mesh: the missing face is replaced by its polygon. -/
example (first : Face → Fin 3) (j : List V3 → Junk) : (openTetra first).getVolume j = some (1 / 6) ∧
    (openTetra first).getCOG j = some ⟨1 / 4, 1 / 4, 1 / 4⟩ := by
  have hg := openTetra_good first
  have hc : (openTetra first).closedUp = (openTetra first).tris ++ [⟨⟨1, 0, 0⟩, ⟨0, 1, 0⟩, ⟨0, 0, 1⟩⟩, ⟨⟨1, 0, 0⟩, ⟨0, 0, 1⟩, ⟨1, 0, 0⟩⟩] := by
    unfold SMesh.closedUp SMesh.rings; rfl
  have hdet : ∀ t ∈ (openTetra first).tris, det 0 t = 0 := by
    intro t ht
    obtain ⟨f, hf, rfl⟩ := List.mem_map.mp ht
    rw [det_turned]
    simp only [openTetra, List.mem_cons, List.not_mem_nil, or_false] at hf
    rcases hf with rfl | rfl | rfl <;> simp [det, triOf, openTetra, V3.dot]
  have hz : ∀ g : Tri → ℝ, ((openTetra first).tris.map fun t => det 0 t * g t).sum = 0 := by
    intro g
    rw [List.map_congr_left (g := fun _ => 0) (fun t ht => by rw [hdet t ht, zero_mul])]
    simp
  have h1 : volInt (fun _ => 1) 0 (openTetra first).closedUp = 1 / 6 := by
    rw [hc]; unfold volInt
    have e : tetInt (fun _ => 1) 0 = fun t => det 0 t * (1 / 6) := by funext t; rw [tetInt_one]; ring
    rw [e, List.map_append, List.sum_append, hz]
    simp [det, V3.dot]
  have h2 : ∀ i, volInt (coord i) 0 (openTetra first).closedUp = 1 / 24 := by
    intro i
    rw [hc]; unfold volInt
    have e : tetInt (coord i) 0 = fun t => det 0 t * ((coord i 0 + coord i t.p + coord i t.q + coord i t.r) / 24) := by
      funext t; rw [tetInt_coord]; ring
    rw [e, List.map_append, List.sum_append, hz]
    fin_cases i <;> simp [det, V3.dot, coord]
  refine ⟨by rw [C71_volume _ hg j 0, h1], ?_⟩
  obtain ⟨G, hG1, hG2⟩ := C72_centre _ hg j 0 (by rw [h1]; norm_num)
  rw [hG1]
  have i0 : volInt (fun v => v.x) 0 (openTetra first).closedUp = 1 / 24 := h2 0
  have i1 : volInt (fun v => v.y) 0 (openTetra first).closedUp = 1 / 24 := h2 1
  have i2 : volInt (fun v => v.z) 0 (openTetra first).closedUp = 1 / 24 := h2 2
  rw [h1, i0, i1, i2] at hG2
  congr 1
  have e0 := congrArg V3.x hG2
  have e1 := congrArg V3.y hG2
  have e2 := congrArg V3.z hG2
  simp only [V3.smul_x, V3.smul_y, V3.smul_z] at e0 e1 e2
  ext <;> simp only [] <;> linarith

/-- The hypotheses of the defect are met by the same mesh. -/
example (first : Face → Fin 3) (r : ℝ) : ∃ j I, (openTetra first).getPlainInertia j 1 = some I ∧
    (I.coeffsAtFrame Frame.identity .NWU).Iyy + (I.coeffsAtFrame Frame.identity .NWU).Izz -
      (I.coeffsAtFrame Frame.identity .NWU).Ixx = r := by
  refine C73_oblique_arbitrary _ (openTetra_good first) [⟨1, 0, 0⟩, ⟨0, 1, 0⟩, ⟨0, 0, 1⟩, ⟨1, 0, 0⟩] rfl ?_ ?_ 1 one_ne_zero r
  · simp [vectorArea]
  · left; simp [vectorArea]

end Surface

end Frydom.Mesh
