import Verif.Hydro.ClippedLoads
import Verif.Hydro.EnergyCases

/-!
# Meshes on which the hypotheses of C192 are met
-/

open Classical

noncomputable section

namespace Frydom.Hydro
open Frydom.Geom Frydom.Core Frydom.Mesh Frydom.Mesh.Surface Frydom.Mesh.Clip

/-- The plane of the sea exists. -/
theorem sea_exists : ∃ pl, Frydom.Mesh.Plane.new 0 ⟨0, 0, 1⟩ .NWU = some pl ∧ IsSea pl := by
  obtain ⟨pl, hp, ho, hn, -⟩ := C24_construction 0 ⟨0, 0, 1⟩ (by norm_num [V3.dot]) .NWU
  exact ⟨pl, hp, hn, by rw [ho]; rfl⟩

/-! ## A mesh under the sea remains whole -/

theorem nAbove_turned {m : TMesh} {f : Face} (h : nAbove m f = 0) (k : Fin 3) : nAbove m (f.turned k) = 0 := by
  rw [nAbove_eq_zero] at h ⊢
  intro v hv
  exact h v ((turned_has f k v).mp hv)

theorem process_under (S : Surf) (P : Params) (C : Choices) (n : ℕ) (m : TMesh) (h : ∀ f ∈ m.faces, nAbove m f = 0 ∧ nUnder m f ≠ 0) {i : ℕ} (hi : i < m.faces.length) :
    processFace S P C (n + 1) m i = some m := by
  unfold processFace
  rw [List.getElem?_eq_getElem hi]
  obtain ⟨h0, h1⟩ := h _ (List.getElem_mem hi)
  generalize m.faces[i] = f at *
  have a := nAbove_turned h0 (C.turn f)
  have b : nUnder m (f.turned (C.turn f)) ≠ 0 := by
    intro hz
    apply h1
    rw [nUnder_eq_zero] at hz ⊢
    exact fun v hv => hz v ((turned_has f _ v).mpr hv)
  simp only [Option.bind_some]
  unfold classifyFace
  rw [if_pos a, if_neg b]
  split_ifs <;> rfl

theorem loop_under (S : Surf) (P : Params) (C : Choices) (m : TMesh) (h : ∀ f ∈ m.faces, nAbove m f = 0 ∧ nUnder m f ≠ 0) :
    ∀ n i, m.faces.length ≤ i + n → clipLoop S P C (n + 1) m i = some m := by
  intro n
  induction n with
  | zero =>
    intro i hi
    rw [clipLoop, if_neg (by omega)]
  | succ n ih =>
    intro i hi
    rw [clipLoop]
    by_cases hl : i < m.faces.length
    · rw [if_pos hl, process_under S P C (n + 1) m h hl]
      exact ih (i + 1) (by omega)
    · rw [if_neg hl]

theorem apply_under (S : Surf) (P : Params) (C : Choices) (M : Input) (h : ∀ v, P.thr ≤ |S.dist (M.pos v)| ∧ S.dist (M.pos v) ≤ 0) {n : ℕ} (hn : M.faces.length + 1 ≤ n) :
    apply S P C n M = some M.tris := by
  obtain ⟨n, rfl⟩ : ∃ k, n = k + 1 := ⟨n - 1, by omega⟩
  have hf : ∀ v, classify S P (M.pos v) = .under := by
    intro v
    unfold classify
    rw [if_neg (not_lt.mpr (h v).1), if_neg (not_lt.mpr (h v).2)]
  unfold apply
  rw [loop_under S P C (start S P M) ?_ n 0 (by show M.faces.length ≤ _; omega)]
  · show some _ = some _
    congr 1
    unfold Input.tris
    show (remaining (start S P M)).map (triOf M.pos) = _
    congr 1
    unfold remaining start
    simp only [List.not_mem_nil, not_false_eq_true, decide_true, List.filter_true]
    exact range_filterMap _
  · intro f _
    have a : nAbove (start S P M) f = 0 := nAbove_eq_zero.mpr fun v _ => by
      show classify S P (M.pos v) ≠ .above
      rw [hf]
      simp
    refine ⟨a, fun hz => ?_⟩
    have := nUnder_eq_zero.mp hz f.a (Or.inl rfl)
    exact this (hf _)

/-! ## Power of the load on a sinking box -/

/-- The hull of the sinking box as it is given to the clipper. -/
def sunkInput (t : ℝ) : Input := ⟨(sunkMesh t).nv, (sunkMesh t).pos, (sunkMesh t).faces⟩

theorem sunk_first (t : ℝ) : (sunkMesh t).tris = (sunkInput t).tris := rfl

theorem turned_refl : ∀ T : List Tri, List.Forall₂ Turned T T
  | [] => .nil
  | _ :: T => .cons (Or.inl rfl) (turned_refl T)

theorem box_low (v : ℕ) : ((box (fun _ => 0) 1 1 1).pos v).z ≤ 1 := by
  simp only [box]
  unfold boxPos
  split <;> norm_num

/-- The hypotheses of `C192_power` and `C192_load` are met by the sinking box: the power is within the stated bound, for every choice of the mesh library. -/
example (C : Choices) (hC : C.Fair) (j : List V3 → Junk) (t : ℝ) : ∃ F, computePlaneForce j 1000 10 (sunkMesh t) (sinker t).body {} = some F ∧
    ∃ rate, HasDerivAt (fun s => seaEnergy 1000 10 ((box (fun _ => 0) 1 1 1).tris.map (carry (seenFrom (sinker s).body)))) rate t ∧
      |V3.dot (F.getForceInWorld .NWU) ((sinker t).body.velWorldAtPointInBody 0 .NWU) + V3.dot (F.getTorqueInWorldAtPointInBody (sinker t).body 0 .NWU) ((sinker t).body.angVelWorld .NWU) + rate| ≤
        10000 * 1e-4 * area (sunkInput t).tris * (|((sinker t).body.velWorldAtPointInBody 0 .NWU).z| +
          (|((sinker t).body.angVelWorld .NWU).x| + |((sinker t).body.angVelWorld .NWU).y|) * ((7 + 3 * t ^ 2) + (7 + 3 * t ^ 2) / 2)) := by
  obtain ⟨pl, -, hs⟩ := sea_exists
  have ok : (sunkInput t).Ok := by
    intro f hf
    have all : ∀ f ∈ boxFaces, f.a < 8 ∧ f.b < 8 ∧ f.c < 8 ∧ f.a ≠ f.b ∧ f.b ≠ f.c ∧ f.a ≠ f.c := by decide
    exact all f hf
  obtain ⟨out, N, hrun, h⟩ := C192_power pl hs ⟨1e-4, 0⟩ (by norm_num) le_rfl C hC j 1000 10 (box (fun _ => 0) 1 1 1).tris (fun t => (sinker t).a) sinker_moving t (sunkInput t) ok
    (sunk_tris t) 0 {}
  have ho : out = (sunkInput t).tris := by
    have h1 := hrun (max N ((sunkInput t).faces.length + 1)) (le_max_left _ _)
    rw [apply_under _ _ _ _ ?_ (le_max_right _ _)] at h1
    · exact (Option.some.inj h1).symm
    · intro v
      rw [sea_dist hs]
      have e : ((sunkInput t).pos v).z = ((box (fun _ => 0) 1 1 1).pos v).z + (-5 - 5 * t ^ 2 / 2) := rfl
      have := box_low v
      have := sq_nonneg t
      rw [e]
      refine ⟨?_, by linarith⟩
      rw [abs_of_neg (by linarith)]
      norm_num
      linarith
  obtain ⟨F, h1, h2⟩ := h (sunkMesh t) (by rw [ho]; exact turned_refl _) (sunk_good t) (sunk_at t) (by simp [sunkMesh, SMesh.translate, box]) (by rw [sunk_volume]; norm_num)
  refine ⟨F, h1, ?_⟩
  have k := h2 0 (7 + 3 * t ^ 2) (7 + 3 * t ^ 2) ?_
  · obtain ⟨r, k1, k2⟩ := k
    refine ⟨r, k1, ?_⟩
    have e : |(1000:ℝ) * 10| = 10000 := by norm_num
    rw [e] at k2
    exact k2
  · have hp : ∀ v, |((sunkInput t).pos v).x| ≤ 1 ∧ |((sunkInput t).pos v).y| ≤ 1 ∧ |((sunkInput t).pos v).z + 5 + 5 * t ^ 2 / 2| ≤ 1 := by
      intro v
      have e : (sunkInput t).pos v = (box (fun _ => 0) 1 1 1).pos v + ⟨0, 0, -5 - 5 * t ^ 2 / 2⟩ := rfl
      rw [e]
      simp only [box, V3.add_x, V3.add_y, V3.add_z]
      unfold boxPos
      split <;> norm_num <;> ring_nf <;> norm_num
    rintro x ⟨T, hT, u, v, w, hu, hv, hw, h1, rfl⟩
    obtain ⟨f, -, rfl⟩ := List.mem_map.mp hT
    obtain ⟨a1, a2, a3⟩ := hp f.a
    obtain ⟨b1, b2, b3⟩ := hp f.b
    obtain ⟨c1, c2, c3⟩ := hp f.c
    have es : seenFrom (sinker t).a.body 0 = ⟨0, 0, -5 - 5 * t ^ 2 / 2⟩ := by
      have := sunk_seen t 0
      refine Eq.trans this ?_
      ext <;> simp
    have key : ∀ a b c k : ℝ, |a| ≤ k → |b| ≤ k → |c| ≤ k → |u * a + v * b + w * c| ≤ k := by
      intro a b c k ha hb hc
      rw [abs_le] at *
      have l := convex_lt hu hv hw h1 ha.2 hb.2 hc.2
      have l' := convex_lt (a := -a) (b := -b) (c := -c) (k := k) hu hv hw h1 (by linarith) (by linarith) (by linarith)
      constructor <;> linarith
    have t2 := sq_nonneg t
    have kx := key _ _ _ _ a1 b1 c1
    have ky := key _ _ _ _ a2 b2 c2
    have kz := key _ _ _ _ a3 b3 c3
    rw [es]
    refine ⟨?_, ?_, ?_⟩
    · show |u * ((sunkInput t).pos f.a).x + v * ((sunkInput t).pos f.b).x + w * ((sunkInput t).pos f.c).x - 0| ≤ _
      rw [sub_zero]
      linarith
    · show |u * ((sunkInput t).pos f.a).y + v * ((sunkInput t).pos f.b).y + w * ((sunkInput t).pos f.c).y - 0| ≤ _
      rw [sub_zero]
      linarith
    · show |u * ((sunkInput t).pos f.a).z + v * ((sunkInput t).pos f.b).z + w * ((sunkInput t).pos f.c).z| ≤ _
      have e : u * (((sunkInput t).pos f.a).z + 5 + 5 * t ^ 2 / 2) + v * (((sunkInput t).pos f.b).z + 5 + 5 * t ^ 2 / 2) + w * (((sunkInput t).pos f.c).z + 5 + 5 * t ^ 2 / 2) =
          u * ((sunkInput t).pos f.a).z + v * ((sunkInput t).pos f.b).z + w * ((sunkInput t).pos f.c).z + (5 + 5 * t ^ 2 / 2) := by
        linear_combination (5 + 5 * t ^ 2 / 2) * h1
      rw [e, abs_le] at kz
      rw [abs_le]
      constructor <;> linarith [kz.1, kz.2]

/-! ## Force on a triangle that crosses the surface -/

/-- A mesh of separate triangles. -/
def soup (T : List Tri) : SMesh where
  nv := 3 * T.length
  pos k := match T[k / 3]? with
    | some t => if k % 3 = 0 then t.p else if k % 3 = 1 then t.q else t.r
    | none => 0
  faces := (List.range T.length).map fun i => ⟨3 * i, 3 * i + 1, 3 * i + 2⟩
  first _ := 0
  loops := []

theorem soup_tris (T : List Tri) : (soup T).tris = T := by
  refine List.ext_getElem (by simp [SMesh.tris, soup]) fun i h1 h2 => ?_
  simp only [SMesh.tris, soup, List.getElem_map, List.getElem_range, Face.turned, triOf]
  have e0 : 3 * i / 3 = i := by omega
  have e1 : (3 * i + 1) / 3 = i := by omega
  have e2 : (3 * i + 2) / 3 = i := by omega
  have m0 : 3 * i % 3 = 0 := by omega
  have m1 : (3 * i + 1) % 3 = 1 := by omega
  have m2 : (3 * i + 2) % 3 = 2 := by omega
  rw [e0, e1, e2, m0, m1, m2, List.getElem?_eq_getElem h2]
  rfl

/-- The hypotheses of `C192_force` are met by a triangle that crosses the surface, of which the clipper keeps a part (see the example of C66-C68): the force on that part is the one on the whole triangle within the
bound. -/
example (C : Choices) (hC : C.Fair) : ∃ pl, IsSea pl ∧ ∃ out N, (∀ n, N ≤ n → apply (planeSurf pl 0) ⟨1e-4, 0⟩ C n demo = some out) ∧
    ∀ i, |coord i (hydrostaticForce 1000 10 (soup out) .NWU - sumV (demo.tris.map (seaForce 1000 10)))| ≤ area demo.tris := by
  obtain ⟨pl, -, hs⟩ := sea_exists
  obtain ⟨out, N, hrun, h⟩ := C192_force pl hs 0 ⟨1e-4, 0⟩ (by norm_num) le_rfl C hC demo demo_ok 1000 10
  refine ⟨pl, hs, out, N, hrun, fun i => ?_⟩
  have k := h (soup out) (by rw [soup_tris]; exact turned_refl _) i
  have e : |(1000:ℝ) * 10| * 1e-4 = 1 := by norm_num
  have e2 : |(1000:ℝ) * 10| * (⟨1e-4, 0⟩ : Params).thr = 1 := e
  rwa [e2, one_mul] at k

end Frydom.Hydro
