import Verif.Mesh.MassProps

/-!
# Inertia, area, boxes and rigid motions of a mesh (C70, C73-C76)
-/

open Classical

noncomputable section

namespace Frydom.Mesh
open Geom Inertia

namespace Surface
open Clip

/-! ## C70: areas -/

/-- **C70.** The meshed area is the sum of the areas of the faces; `GetArea` adds the areas of the boundary polygons. -/
theorem C70_area (M : SMesh) (h : Good M) (j : List V3 → Junk) :
    meshedArea M.tris = (M.tris.map (surfInt fun _ => 1)).sum ∧
    M.getArea j = some ((M.tris.map (surfInt fun _ => 1)).sum + (M.rings.map fun l => V3.norm (vectorArea l)).sum) := by
  have h0 : meshedArea M.tris = (M.tris.map (surfInt fun _ => 1)).sum := by
    unfold meshedArea meshed
    congr 1
    exact List.map_congr_left fun t _ => C70_face_integrals_partial t .one trivial
  refine ⟨h0, ?_⟩
  have key : ∀ ls : List (List V3), (∀ l ∈ ls, Closed l ∧ Flat l) → ∃ cs, mkCaps j ls = some cs ∧
      (cs.map fun c => c.poly.getArea).sum = (ls.map fun l => V3.norm (vectorArea l)).sum := by
    intro ls
    induction ls with
    | nil => intro _; exact ⟨[], rfl, rfl⟩
    | cons l ls ih =>
      intro h
      obtain ⟨cs, h1, h2⟩ := ih (fun l hl => h l (List.mem_cons_of_mem _ hl))
      obtain ⟨hc, hf⟩ := h l (by simp)
      obtain ⟨c, ex, ey, h3, -, -⟩ := cap_spec j hc hf
      refine ⟨c :: cs, by unfold mkCaps; rw [h3, h1]; rfl, ?_⟩
      simp only [List.map_cons, List.sum_cons, h2]
      congr 1
      unfold mkCap at h3
      have hpl : ∀ v ∈ l, V3.dot (v - centroid l) (V3.normalized (vectorArea l)) = 0 := by
        intro v hv
        have := hf.planar v hv
        unfold V3.normalized V3.dot at *
        simp only [V3.smul_x, V3.smul_y, V3.smul_z]
        linear_combination (V3.norm (vectorArea l))⁻¹ * this
      have hg : GoodInput l .NWU := by
        refine ⟨hc, by rw [map_nwu]; exact hf.area, ?_⟩
        rw [map_nwu]
        intro v hv
        rw [hpl v hv]; norm_num
      obtain ⟨p, hp, ha, -⟩ := C23_area (j l) l .NWU hg
      rw [hp, Option.bind_some] at h3
      obtain ⟨pl, -, h4⟩ := Option.map_eq_some_iff.mp h3
      rw [← h4, ha]
  obtain ⟨cs, h1, h2⟩ := key M.rings (fun l hl => by
    refine ⟨?_, h.flat l hl⟩
    obtain ⟨l', hl', rfl⟩ := List.mem_map.mp hl
    exact (h.boundary.closed l' hl').map M.pos)
  unfold SMesh.getArea areaOf
  rw [h1, Option.map_some, h2, h0]

/-! ## C73: inertia of the solid -/

/-- The loop lies in a plane normal to a coordinate axis. -/
def AxisLoop (l : List V3) : Prop := ∃ i : Fin 3, ∀ k, k ≠ i → coord k (vectorArea l) = 0

theorem CapsSpec.aligned {cs : List Cap} {ls : List (List V3)} (h : CapsSpec cs ls) (ha : ∀ l ∈ ls, AxisLoop l) :
    ∀ c ∈ cs, ∃ i, CapAligned c i := by
  induction h with
  | nil => simp
  | @cons c l cs ls hc _ ih =>
    intro c' hc'
    rcases List.mem_cons.mp hc' with rfl | hc'
    · obtain ⟨i, hi⟩ := ha l (by simp)
      refine ⟨i, fun k hk => ?_⟩
      rw [hc.2]
      unfold V3.normalized
      rw [coord_smul, hi k hk, mul_zero]
    · exact ih (fun l hl => ha l (List.mem_cons_of_mem _ hl)) c' hc'

/-- The square and product integrals computed from the faces and the aligned polygons. -/
theorem second_eq {M : SMesh} (h : Good M) {cs : List Cap} (hcs : CapsSpec cs M.rings) (ha : ∀ c ∈ cs, ∃ i, CapAligned c i) (O : V3) :
    (∀ (m : Fin 3) (A : Cap → ℝ), (∀ c l ex ey, CapSpec c l ex ey → A c = c.square (coord m c.n) (coord m ex) (coord m ey)) →
      1 / 3 * (M.tris.map fun t => coord m (flux (fun v => coord m v ^ 3) t)).sum + (cs.map A).sum =
        volInt (fun v => coord m v * coord m v) O M.closedUp) ∧
    (∀ (m k : Fin 3) (A : Cap → ℝ), m ≠ k →
      (∀ c l ex ey, CapSpec c l ex ey → A c =
        c.product (coord m c.n) (coord k c.n) (coord m ex) (coord m ey) (coord k ex) (coord k ey)) →
      (M.tris.map fun t => coord m (flux (fun v => coord m v ^ 2 * coord k v) t)).sum + (cs.map A).sum =
        2 * volInt (fun v => coord m v * coord k v) O M.closedUp) := by
  constructor
  · intro m A hA
    have h1 := (flux_volume M h.boundary O m).2.2.1
    have h2 := caps_sum hcs (fun c => 3 * A c) (fun t => coord m (flux (fun v => coord m v ^ 3) t)) _ ha
      (fun c l ex ey hc hs => by
        obtain ⟨i, hi⟩ := hc
        rw [hA c l ex ey hs]
        exact (hs.flux3 hi m m).1)
    unfold SMesh.closedUp at h1 ⊢
    rw [List.map_append, List.sum_append, h2, sum_map_mul] at h1
    linarith
  · intro m k A hmk hA
    have h1 := (flux_volume M h.boundary O m).2.2.2 k hmk
    have h2 := caps_sum hcs A (fun t => coord m (flux (fun v => coord m v ^ 2 * coord k v) t)) _ ha
      (fun c l ex ey hc hs => by
        obtain ⟨i, hi⟩ := hc
        rw [hA c l ex ey hs]
        exact (hs.flux3 hi m k).2)
    unfold SMesh.closedUp at h1 ⊢
    rw [List.map_append, List.sum_append, h2] at h1
    exact h1

theorem identity_valid : Frame.identity.Valid := by
  unfold Frame.Valid Frame.identity Q.IsUnit Q.normSq Q.one; norm_num

theorem plainCoeffs_eq {M : SMesh} (h : Good M) {cs : List Cap} (hcs : CapsSpec cs M.rings)
    (ha : ∀ c ∈ cs, ∃ i, CapAligned c i) (O : V3) (density : ℝ) :
    plainCoeffs density M.tris cs =
      ⟨density * (volInt (fun v => v.y * v.y) O M.closedUp + volInt (fun v => v.z * v.z) O M.closedUp),
        density * (volInt (fun v => v.x * v.x) O M.closedUp + volInt (fun v => v.z * v.z) O M.closedUp),
        density * (volInt (fun v => v.x * v.x) O M.closedUp + volInt (fun v => v.y * v.y) O M.closedUp),
        -(density * volInt (fun v => v.x * v.y) O M.closedUp), -(density * volInt (fun v => v.z * v.x) O M.closedUp),
        -(density * volInt (fun v => v.y * v.z) O M.closedUp)⟩ := by
  obtain ⟨hs, hp⟩ := second_eq h hcs ha O
  have ex2 := hs 0 (fun c => c.square c.n.x c.R.a00 c.R.a10) (fun c l ex ey hc => by
    obtain ⟨r0, r1, r2, r3, r4, r5⟩ := coord_R c hc; rw [r0, r3]; rfl)
  have ey2 := hs 1 (fun c => c.square c.n.y c.R.a01 c.R.a11) (fun c l ex ey hc => by
    obtain ⟨r0, r1, r2, r3, r4, r5⟩ := coord_R c hc; rw [r1, r4]; rfl)
  have ez2 := hs 2 (fun c => c.square c.n.z c.R.a02 c.R.a12) (fun c l ex ey hc => by
    obtain ⟨r0, r1, r2, r3, r4, r5⟩ := coord_R c hc; rw [r2, r5]; rfl)
  have exy := hp 0 1 (fun c => c.product c.n.x c.n.y c.R.a00 c.R.a10 c.R.a01 c.R.a11) (by decide) (fun c l ex ey hc => by
    obtain ⟨r0, r1, r2, r3, r4, r5⟩ := coord_R c hc; rw [r0, r3, r1, r4]; rfl)
  have eyz := hp 1 2 (fun c => c.product c.n.y c.n.z c.R.a01 c.R.a11 c.R.a02 c.R.a12) (by decide) (fun c l ex ey hc => by
    obtain ⟨r0, r1, r2, r3, r4, r5⟩ := coord_R c hc; rw [r1, r4, r2, r5]; rfl)
  have ezx := hp 2 0 (fun c => c.product c.n.z c.n.x c.R.a02 c.R.a12 c.R.a00 c.R.a10) (by decide) (fun c l ex ey hc => by
    obtain ⟨r0, r1, r2, r3, r4, r5⟩ := coord_R c hc; rw [r2, r5, r0, r3]; rfl)
  have mx3 : (meshedN M.tris .x3).x = _ := meshedN_eq M.tris .x3 trivial 0
  have my3 : (meshedN M.tris .y3).y = _ := meshedN_eq M.tris .y3 trivial 1
  have mz3 : (meshedN M.tris .z3).z = _ := meshedN_eq M.tris .z3 trivial 2
  have mxy : (meshedN M.tris .x2y).x = _ := meshedN_eq M.tris .x2y trivial 0
  have myz : (meshedN M.tris .y2z).y = _ := meshedN_eq M.tris .y2z trivial 1
  have mzx : (meshedN M.tris .z2x).z = _ := meshedN_eq M.tris .z2x trivial 2
  unfold plainCoeffs
  simp only [mx3, my3, mz3, mxy, myz, mzx]
  have c0 : ∀ v : V3, coord 0 v = v.x := fun _ => rfl
  have c1 : ∀ v : V3, coord 1 v = v.y := fun _ => rfl
  have c2 : ∀ v : V3, coord 2 v = v.z := fun _ => rfl
  simp only [c0, c1, c2] at ex2 ey2 ez2 exy eyz ezx
  simp only [c0, c1, c2]
  have p1 : Poly.x3.eval = fun v => v.x ^ 3 := rfl
  have p2 : Poly.y3.eval = fun v => v.y ^ 3 := rfl
  have p3 : Poly.z3.eval = fun v => v.z ^ 3 := rfl
  have p4 : Poly.x2y.eval = fun v => v.x ^ 2 * v.y := rfl
  have p5 : Poly.y2z.eval = fun v => v.y ^ 2 * v.z := rfl
  have p6 : Poly.z2x.eval = fun v => v.z ^ 2 * v.x := rfl
  rw [p1, p2, p3, p4, p5, p6, ex2, ey2, ez2, exy, eyz, ezx]
  ext <;> ring

/-- **C73 (part).** For every mesh whose boundary loops, if any, are flat and normal to a coordinate axis: the tensor built by
`GetPlainInertiaTensor` has for mass the density times the enclosed volume, for centre that of `GetCOG`, and at the origin of the
mesh the moments and products of inertia of the enclosed volume. Missing: loops in oblique planes, for which it is false. -/
theorem C73_plain_inertia_partial (M : SMesh) (h : Good M) (ha : ∀ l ∈ M.rings, AxisLoop l) (j : List V3 → Junk) (density : ℝ) (O : V3) :
    ∃ I, M.getPlainInertia j density = some I ∧ I.mass = density * volInt (fun _ => 1) O M.closedUp ∧
      M.getCOG j = some (I.getCOG .NWU) ∧
      I.coeffsAtFrame Frame.identity .NWU =
        ⟨density * (volInt (fun v => v.y * v.y) O M.closedUp + volInt (fun v => v.z * v.z) O M.closedUp),
          density * (volInt (fun v => v.x * v.x) O M.closedUp + volInt (fun v => v.z * v.z) O M.closedUp),
          density * (volInt (fun v => v.x * v.x) O M.closedUp + volInt (fun v => v.y * v.y) O M.closedUp),
          -(density * volInt (fun v => v.x * v.y) O M.closedUp), -(density * volInt (fun v => v.z * v.x) O M.closedUp),
          -(density * volInt (fun v => v.y * v.z) O M.closedUp)⟩ := by
  obtain ⟨cs, h1, h2⟩ := h.caps j
  have hal := h2.aligned ha
  have hr := C20_frame_round_trip (density * volumeOf M.tris cs) (plainCoeffs density M.tris cs) Frame.identity identity_valid
    (cogOf M.tris cs) .NWU
  refine ⟨plainInertia density M.tris cs, by unfold SMesh.getPlainInertia; rw [h1, Option.map_some], ?_, ?_, ?_⟩
  · rw [← volumeOf_eq h h2 O]; exact hr.2.2.1
  · unfold SMesh.getCOG; rw [h1, Option.map_some]; exact congrArg some hr.2.1.symm
  · rw [← plainCoeffs_eq h h2 hal O]; exact hr.1

theorem cap_junk {l : List V3} (hc : Closed l) (hf : Flat l) :
    ∃ (pl : Plane) (A : Integrand → ℝ), ∀ j : List V3 → Junk, ∃ p, mkCap j l = some ⟨p, pl⟩ ∧
      ∀ t, p.getSurfaceIntegral t = junkTerm (j l) t + A t := by
  have hpl : ∀ v ∈ l, V3.dot (v - centroid l) (V3.normalized (vectorArea l)) = 0 := by
    intro v hv
    have := hf.planar v hv
    unfold V3.normalized V3.dot at *
    simp only [V3.smul_x, V3.smul_y, V3.smul_z]
    linear_combination (V3.norm (vectorArea l))⁻¹ * this
  have hg : GoodInput l .NWU := by
    refine ⟨hc, by rw [map_nwu]; exact hf.area, ?_⟩
    rw [map_nwu]
    intro v hv
    rw [hpl v hv]; norm_num
  obtain ⟨pl, h1, -⟩ := planeOf_spec hc hf.area
  refine ⟨pl, fun t => pairSum (codeEdge t) (vertexInPlane pl l), fun j => ?_⟩
  obtain ⟨pl', p, h1', h2, hv, h3⟩ := Polygon.new_spec (j l) hg
  rw [map_nwu] at h1' hv h3
  obtain rfl : pl = pl' := by rw [h1] at h1'; injection h1'
  refine ⟨p, ?_, h3⟩
  unfold mkCap
  rw [h2]
  simp only [Option.bind_some]
  rw [hv, h1]
  rfl

/-- **C73, defect.** For a mesh with one flat boundary loop in a plane neither normal nor parallel to the x axis, the inertia is
whatever uninitialised memory makes of it: every value of Iyy + Izz - Ixx is returned for some content of that memory. -/
theorem C73_oblique_arbitrary (M : SMesh) (h : Good M) (l : List V3) (hl : M.rings = [l]) (hx : (vectorArea l).x ≠ 0)
    (hyz : (vectorArea l).y ≠ 0 ∨ (vectorArea l).z ≠ 0) (density : ℝ) (hd : density ≠ 0) (r : ℝ) :
    ∃ j I, M.getPlainInertia j density = some I ∧
      (I.coeffsAtFrame Frame.identity .NWU).Iyy + (I.coeffsAtFrame Frame.identity .NWU).Izz -
        (I.coeffsAtFrame Frame.identity .NWU).Ixx = r := by
  have hcl : Closed l := by
    have : l ∈ M.rings := by rw [hl]; simp
    obtain ⟨l', hl', rfl⟩ := List.mem_map.mp this
    exact (h.boundary.closed l' hl').map M.pos
  have hf : Flat l := h.flat l (by rw [hl]; simp)
  obtain ⟨pl, A, hA⟩ := cap_junk hcl hf
  obtain ⟨c, ex, ey, hc1, hc2, hc3⟩ := cap_spec (fun _ => ⟨0, 0, 0, 0⟩) hcl hf
  obtain ⟨p0, hp0, -⟩ := hA (fun _ => ⟨0, 0, 0, 0⟩)
  have hplane : c.plane = pl := by
    rw [hc1] at hp0; injection hp0 with e; rw [e]
  have hnx : c.n.x ≠ 0 := by
    rw [hc3]; unfold V3.normalized
    simp only [V3.smul_x]
    exact mul_ne_zero (inv_ne_zero (V3.norm_pos hf.area).ne') hx
  have hnyz : 0 < c.n.y ^ 2 + c.n.z ^ 2 := by
    have hi := inv_ne_zero (V3.norm_pos hf.area).ne'
    rw [hc3]; unfold V3.normalized
    simp only [V3.smul_y, V3.smul_z]
    rcases hyz with hy | hz
    · have := mul_ne_zero hi hy; positivity
    · have := mul_ne_zero hi hz; positivity
  have hsum : ex.x ^ 2 + ey.x ^ 2 ≠ 0 := by
    have h1 := congrArg V3.x (rightHanded_coords hc2.axes ⟨1, 0, 0⟩)
    have h2 := hc2.axes.2.2.1
    unfold V3.dot at h1 h2
    simp at h1
    intro h0
    nlinarith
  obtain ⟨r0, -, -, r3, -, -⟩ := coord_R c hc2
  -- the polygon built with memory content `j`
  have key : ∀ j : List V3 → Junk, ∃ I, M.getPlainInertia j density = some I ∧
      (I.coeffsAtFrame Frame.identity .NWU).Iyy + (I.coeffsAtFrame Frame.identity .NWU).Izz -
        (I.coeffsAtFrame Frame.identity .NWU).Ixx = 2 * density * (1 / 3 * (meshedN M.tris .x3).x +
        (c.n.x * (1 / 3) * (ex.x ^ 3 * (junkTerm (j l) .x3 + A .x3) + ey.x ^ 3 * (junkTerm (j l) .y3 + A .y3) +
            3 * ex.x ^ 2 * ey.x * (junkTerm (j l) .x2y + A .x2y) + 3 * ey.x ^ 2 * ex.x * (junkTerm (j l) .y2x + A .y2x))
          + c.e * c.n.x ^ 2 * (ex.x ^ 2 * A .x2 + ey.x ^ 2 * A .y2 + 2 * ex.x * ey.x * A .xy)
          + c.e * c.e * c.n.x ^ 3 * (ex.x * A .x + ey.x * A .y) + 1 / 3 * c.e * c.e * c.e * c.n.x ^ 4 * A .one)) := by
    intro j
    obtain ⟨p, hp, hi⟩ := hA j
    have e1 : mkCaps j M.rings = some [⟨p, pl⟩] := by
      rw [hl]; unfold mkCaps; rw [hp]; rfl
    have hr := C20_frame_round_trip (density * volumeOf M.tris [⟨p, pl⟩]) (plainCoeffs density M.tris [⟨p, pl⟩]) Frame.identity
      identity_valid (cogOf M.tris [⟨p, pl⟩]) .NWU
    refine ⟨plainInertia density M.tris [⟨p, pl⟩], by unfold SMesh.getPlainInertia; rw [e1, Option.map_some], ?_⟩
    have hco : (plainInertia density M.tris [⟨p, pl⟩]).coeffsAtFrame Frame.identity .NWU = plainCoeffs density M.tris [⟨p, pl⟩] := hr.1
    rw [hco]
    have en : (⟨p, pl⟩ : Cap).n = c.n := by unfold Cap.n; rw [hplane]
    have eR : (⟨p, pl⟩ : Cap).R = c.R := by unfold Cap.R; rw [hplane]
    have ee : (⟨p, pl⟩ : Cap).e = c.e := by unfold Cap.e; rw [hplane]
    have ei : ∀ t, (⟨p, pl⟩ : Cap).i t = junkTerm (j l) t + A t := hi
    unfold plainCoeffs
    simp only [List.map_cons, List.map_nil, List.sum_cons, List.sum_nil, en, eR]
    unfold Cap.square
    simp only [ee, ei, r0, r3]
    have z1 : junkTerm (j l) .one = 0 := rfl
    have z2 : junkTerm (j l) .x = 0 := rfl
    have z3 : junkTerm (j l) .y = 0 := rfl
    have z4 : junkTerm (j l) .x2 = 0 := rfl
    have z5 : junkTerm (j l) .y2 = 0 := rfl
    have z6 : junkTerm (j l) .xy = 0 := rfl
    rw [z1, z2, z3, z4, z5, z6]
    ring
  by_cases hex : ex.x = 0
  · have hey : ey.x ≠ 0 := by intro h0; rw [hex, h0] at hsum; norm_num at hsum
    obtain ⟨K, hK⟩ : ∃ K, K = 2 * density * (1 / 3 * (meshedN M.tris .x3).x +
        (c.n.x * (1 / 3) * (ex.x ^ 3 * A .x3 + ey.x ^ 3 * A .y3 + 3 * ex.x ^ 2 * ey.x * A .x2y + 3 * ey.x ^ 2 * ex.x * A .y2x)
          + c.e * c.n.x ^ 2 * (ex.x ^ 2 * A .x2 + ey.x ^ 2 * A .y2 + 2 * ex.x * ey.x * A .xy)
          + c.e * c.e * c.n.x ^ 3 * (ex.x * A .x + ey.x * A .y) + 1 / 3 * c.e * c.e * c.e * c.n.x ^ 4 * A .one)) := ⟨_, rfl⟩
    obtain ⟨I, hI1, hI2⟩ := key (fun _ => ⟨0, 0, 0, -20 * ((r - K) / (2 * density * c.n.x * (1 / 3) * ey.x ^ 3))⟩)
    refine ⟨_, I, hI1, ?_⟩
    rw [hI2]
    simp only [junkTerm]
    have : (r - K) / (2 * density * c.n.x * (1 / 3) * ey.x ^ 3) * (2 * density * c.n.x * (1 / 3) * ey.x ^ 3) = r - K := by
      field_simp
    rw [hK] at this ⊢
    linear_combination this
  · obtain ⟨K, hK⟩ : ∃ K, K = 2 * density * (1 / 3 * (meshedN M.tris .x3).x +
        (c.n.x * (1 / 3) * (ex.x ^ 3 * A .x3 + ey.x ^ 3 * A .y3 + 3 * ex.x ^ 2 * ey.x * A .x2y + 3 * ey.x ^ 2 * ex.x * A .y2x)
          + c.e * c.n.x ^ 2 * (ex.x ^ 2 * A .x2 + ey.x ^ 2 * A .y2 + 2 * ex.x * ey.x * A .xy)
          + c.e * c.e * c.n.x ^ 3 * (ex.x * A .x + ey.x * A .y) + 1 / 3 * c.e * c.e * c.e * c.n.x ^ 4 * A .one)) := ⟨_, rfl⟩
    obtain ⟨I, hI1, hI2⟩ := key (fun _ => ⟨0, 0, 20 * ((r - K) / (2 * density * c.n.x * (1 / 3) * ex.x ^ 3)), 0⟩)
    refine ⟨_, I, hI1, ?_⟩
    rw [hI2]
    simp only [junkTerm]
    have : (r - K) / (2 * density * c.n.x * (1 / 3) * ex.x ^ 3) * (2 * density * c.n.x * (1 / 3) * ex.x ^ 3) = r - K := by
      field_simp
    rw [hK] at this ⊢
    linear_combination this

end Surface

end Frydom.Mesh
