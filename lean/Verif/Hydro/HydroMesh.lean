import Verif.Mesh.ClipperProps
import Verif.Core.Body

/-!
# Model of `FrHydroMesh` (src/frydom/mesh/FrHydroMesh.cpp) (C77)

The mesh in body axes, placed in the world and clipped by the free surface. The clipped mesh keeps the body at the horizontal origin.
-/

open Classical

noncomputable section

namespace Frydom.Hydro
open Frydom.Geom Frydom.Core Frydom.Mesh Frydom.Mesh.Clip

/-- `FrMesh::Translate`, `FrMesh::Rotate` (FrMesh.cpp:321-348) on the vertices. -/
def translated (t : V3) (M : Input) : Input := { M with pos := fun v => M.pos v + t }
def rotated (R : M3) (M : Input) : Input := { M with pos := fun v => R.mulVec (M.pos v) }

/-- `ImportMesh` (FrHydroMesh.cpp:133-140) of the mesh `M` of a file. -/
def importMesh (M : Input) (offset : Frame) : Input := rotated (rotMat offset.rot) (translated (offset.getPosition .NWU) M)

/-- The mesh before clipping (FrHydroMesh.cpp:101-113). -/
def placedMesh (b : Body) (M : Input) : Input :=
  translated ⟨0, 0, (b.getPosition .NWU).z⟩ (rotated (rotMat b.getQuaternion) M)

/-- The clipping plane at `Initialize` (FrHydroMesh.cpp:65-76), then at each `Compute` (FrHydroMesh.cpp:121-126): tides `t0`, `t`. -/
def clippingPlane (t0 t : ℝ) : Option Plane := (Plane.new ⟨0, 0, t0⟩ ⟨0, 0, 1⟩ .NWU).bind fun p => p.setOrigin ⟨0, 0, t⟩ .NWU

/-- `Compute` (FrHydroMesh.cpp:99-131) with support PLANESURFACE: the clipped mesh. -/
def computePlane (P : Params) (C : Choices) (n : ℕ) (t0 t : ℝ) (b : Body) (M : Input) : Option (List Tri) :=
  (clippingPlane t0 t).bind fun pl => apply (planeSurf pl (b.getPosition .NWU)) P C n (placedMesh b M)
/-- With support WAVESURFACE; `eta`: elevation of the free surface at the present time. -/
def computeWave (P : Params) (C : Choices) (n : ℕ) (eta : ℝ → ℝ → ℝ) (b : Body) (M : Input) : Option (List Tri) :=
  apply (waveSurf eta (b.getPosition .NWU)) P C n (placedMesh b M)

/-! ## Specification -/

/-- Where a point of the clipped mesh is in the world (as `StepFinalize` displays it, FrHydroMesh.cpp:158-162). -/
def inWorld (b : Body) (x : V3) : V3 := x + ⟨b.refPos.x, b.refPos.y, 0⟩

/-! ## Proofs -/

theorem placed_pos (b : Body) (M : Input) (v : ℕ) : inWorld b ((placedMesh b M).pos v) = b.pointInWorld (M.pos v) .NWU := by
  show _ = b.refPos + b.cog.rot.rotate (M.pos v)
  show b.cog.rot.rotate (M.pos v) + ⟨0, 0, b.refPos.z⟩ + ⟨b.refPos.x, b.refPos.y, 0⟩ = _
  ext <;> simp <;> ring

theorem clippingPlane_eq (t0 t : ℝ) : ∃ pl, clippingPlane t0 t = some pl ∧ pl.origin = ⟨0, 0, t⟩ ∧ pl.normal = ⟨0, 0, 1⟩ := by
  have h : V3.dot (⟨0, 0, 1⟩ : V3) ⟨0, 0, 1⟩ = 1 := by simp [V3.dot]
  obtain ⟨p, hp, -, hn, -⟩ := buildFrame_spec (o := ⟨0, 0, t0⟩) h
  obtain ⟨q, hq, ho, hn', -⟩ := buildFrame_spec (o := ⟨0, 0, t⟩) h
  refine ⟨q, ?_, ho, hn'⟩
  unfold clippingPlane Plane.new Plane.setOrigin
  rw [if_pos h]
  show (buildFrame ⟨0, 0, t0⟩ ⟨0, 0, 1⟩).bind _ = _
  rw [hp, Option.bind_some, hn]
  exact hq

theorem height_world {pl : Plane} {t : ℝ} (ho : pl.origin = ⟨0, 0, t⟩) (hn : pl.normal = ⟨0, 0, 1⟩) (b : Body) (x : V3) :
    height pl (b.getPosition .NWU) x = (inWorld b x).z - t := by
  unfold height Plane.signedDistance Plane.getOrigin Plane.getNormal inWorld
  rw [ho, hn]
  simp [V3.dot, conv]

/-- The rigid placement is affine. -/
theorem inTri_map (f : V3 → V3) (hf : ∀ (u v w : ℝ) (p q r : V3), u + v + w = 1 → f (u • p + v • q + w • r) = u • f p + v • f q + w • f r)
    (p q r x : V3) (hx : InTri ⟨p, q, r⟩ x) : InTri ⟨f p, f q, f r⟩ (f x) := by
  obtain ⟨u, v, w, h1, h2, h3, h4, rfl⟩ := hx
  exact ⟨u, v, w, h1, h2, h3, h4, hf u v w p q r h4⟩

/-- Where the mesh clipper sees a point of the body. -/
def seen (b : Body) (p : V3) : V3 := b.cog.rot.toMat.mulVec p + ⟨0, 0, b.refPos.z⟩

theorem seen_affine (b : Body) (u v w : ℝ) (p q r : V3) (h : u + v + w = 1) :
    seen b (u • p + v • q + w • r) = u • seen b p + v • seen b q + w • seen b r := by
  unfold seen
  have : (⟨0, 0, b.refPos.z⟩ : V3) = u • (⟨0, 0, b.refPos.z⟩ : V3) + v • (⟨0, 0, b.refPos.z⟩ : V3) + w • (⟨0, 0, b.refPos.z⟩ : V3) := by
    ext <;> simp
    rw [← add_mul, ← add_mul, h, one_mul]
  conv_lhs => rw [this]
  ext <;> simp <;> ring

theorem inWorld_seen (b : Body) (p : V3) : inWorld b (seen b p) = b.pointInWorld p .NWU := by
  show _ = b.refPos + b.cog.rot.rotate p
  unfold inWorld seen Q.rotate
  ext <;> simp <;> ring

theorem onSurface_placed (b : Body) (M : Input) (x : V3) :
    OnSurface (placedMesh b M).tris x ↔ ∃ p, OnSurface M.tris p ∧ x = seen b p := by
  constructor
  · rintro ⟨t, ht, u, v, w, h1, h2, h3, h4, rfl⟩
    obtain ⟨f, hf, rfl⟩ := List.mem_map.mp ht
    refine ⟨u • M.pos f.a + v • M.pos f.b + w • M.pos f.c, ⟨_, List.mem_map.mpr ⟨f, hf, rfl⟩, u, v, w, h1, h2, h3, h4, rfl⟩, ?_⟩
    rw [seen_affine b u v w _ _ _ h4]
    rfl
  · rintro ⟨p, ⟨t, ht, hx⟩, rfl⟩
    obtain ⟨f, hf, rfl⟩ := List.mem_map.mp ht
    exact ⟨_, List.mem_map.mpr ⟨f, hf, rfl⟩, inTri_map (seen b) (fun u v w p q r h => seen_affine b u v w p q r h) _ _ _ _ hx⟩

theorem placed_ok {b : Body} {M : Input} (h : M.Ok) : (placedMesh b M).Ok := h

/-- **C77, plane.** For every position and attitude of the body, every tide and every mesh: `Compute` ends without a failed assertion,
and no point of the clipped mesh, placed in the world, is a threshold above the tide. Without projection (ratio 0) the clipped mesh is
made of points of the surface of the body where the body is, and holds all of those at least a threshold below the tide. -/
theorem C77_plane (P : Params) (ht : 1e-16 ≤ P.thr) (C : Choices) (hC : C.Fair) (t0 t : ℝ) (b : Body) (M : Input) (hM : M.Ok) :
    ∃ out N, (∀ n, N ≤ n → computePlane P C n t0 t b M = some out) ∧
      (∀ x, OnSurface out x → (inWorld b x).z < t + P.thr) ∧
      (P.ratio ≤ 0 →
        (∀ x, OnSurface out x → ∃ p, OnSurface M.tris p ∧ inWorld b x = b.pointInWorld p .NWU) ∧
        ∀ p, OnSurface M.tris p → (b.pointInWorld p .NWU).z ≤ t - P.thr → ∃ x, OnSurface out x ∧ inWorld b x = b.pointInWorld p .NWU) := by
  obtain ⟨pl, hpl, ho, hn⟩ := clippingPlane_eq t0 t
  have hu : V3.dot pl.normal pl.normal = 1 := by rw [hn]; simp [V3.dot]
  obtain ⟨out, N, hrun, habove⟩ := C66_plane pl hu (b.getPosition .NWU) P ht C hC (placedMesh b M) (placed_ok hM)
  refine ⟨out, N, ?_, ?_, ?_⟩
  · intro n hn'
    unfold computePlane
    rw [hpl, Option.bind_some, hrun n hn']
  · intro x hx
    have := habove x hx
    rw [height_world ho hn] at this
    linarith
  · intro hr
    obtain ⟨out', N', hrun', h1, h2⟩ := C67_plane pl hu (b.getPosition .NWU) P ht hr C hC (placedMesh b M) (placed_ok hM)
    have he : out' = out := by
      have e1 := hrun (max N N') (le_max_left _ _)
      have e2 := hrun' (max N N') (le_max_right _ _)
      rw [e1] at e2
      injection e2 with e2
      exact e2.symm
    subst he
    constructor
    · intro x hx
      obtain ⟨p, hp, rfl⟩ := (onSurface_placed b M x).mp (h1 x hx).1
      exact ⟨p, hp, inWorld_seen b p⟩
    · intro p hp hz
      refine ⟨seen b p, h2 _ ((onSurface_placed b M _).mpr ⟨p, hp, rfl⟩) ?_, inWorld_seen b p⟩
      rw [height_world ho hn, inWorld_seen]
      linarith

/-- **C77, waves.** The same with waves of bounded slope, for the corners of the clipped mesh, and a threshold above 1e-4. -/
theorem C77_waves (eta : ℝ → ℝ → ℝ) (K R : ℝ) (hK : Slope eta K) (hR : (2 + 4 * K) * R ≤ 1e-4 * 2 ^ 1001) (P : Params)
    (ht : 1e-4 < P.thr) (C : Choices) (hC : C.Fair) (b : Body) (M : Input) (hM : M.Ok)
    (hD : ∀ v < M.nv, Box R ((placedMesh b M).pos v)) :
    ∃ out N, (∀ n, N ≤ n → computeWave P C n eta b M = some out) ∧
      (∀ T ∈ out, ∀ x, T.corner x → (inWorld b x).z < eta (inWorld b x).x (inWorld b x).y + P.thr) ∧
      (P.ratio ≤ 0 →
        (∀ x, OnSurface out x → ∃ p, OnSurface M.tris p ∧ inWorld b x = b.pointInWorld p .NWU) ∧
        ∀ p, OnSurface M.tris p → (∀ x, OnSurface out x → inWorld b x ≠ b.pointInWorld p .NWU) →
          ∃ T : Tri, InTri T (b.pointInWorld p .NWU) ∧ (∀ y, InTri T y → ∃ q, OnSurface M.tris q ∧ y = b.pointInWorld q .NWU) ∧
            ∀ c, T.corner c → eta c.x c.y - P.thr < c.z) := by
  obtain ⟨out, N, hrun, h⟩ := C66_nothing_above (waveSurf eta (b.getPosition .NWU)) P (Box R) (wave_good hK hR _ ht).1 C hC
    (placedMesh b M) (placed_ok hM) hD
  have hdist : ∀ x, (waveSurf eta (b.getPosition .NWU)).dist x = (inWorld b x).z - eta (inWorld b x).x (inWorld b x).y := fun x => rfl
  refine ⟨out, N, hrun, ?_, ?_⟩
  · intro T hT x hx
    have := h T hT x hx
    rw [hdist] at this
    linarith
  · intro hr
    obtain ⟨out', N', dry, hrun', hsurf, -, -, hdry, -⟩ := C67_partition (waveSurf eta (b.getPosition .NWU)) P (Box R)
      (wave_good hK hR _ ht).1 (wave_good hK hR _ ht).2 hr C hC (placedMesh b M) (placed_ok hM) hD
    have he : out' = out := by
      have e1 := hrun (max N N') (le_max_left _ _)
      have e2 := hrun' (max N N') (le_max_right _ _)
      rw [e1] at e2
      injection e2 with e2
      exact e2.symm
    subst he
    constructor
    · intro x hx
      obtain ⟨p, hp, rfl⟩ := (onSurface_placed b M x).mp ((hsurf x).mpr (Or.inl hx))
      exact ⟨p, hp, inWorld_seen b p⟩
    · intro p hp hno
      have hs := (hsurf (seen b p)).mp ((onSurface_placed b M _).mpr ⟨p, hp, rfl⟩)
      rcases hs with hs | ⟨T, hT, hx⟩
      · exact absurd (inWorld_seen b p) (hno _ hs)
      · have haff : ∀ (u v w : ℝ) (p q r : V3), u + v + w = 1 →
            inWorld b (u • p + v • q + w • r) = u • inWorld b p + v • inWorld b q + w • inWorld b r := by
          intro u v w p q r h
          unfold inWorld
          obtain rfl : w = 1 - u - v := by linarith
          ext <;> simp <;> ring
        refine ⟨⟨inWorld b T.p, inWorld b T.q, inWorld b T.r⟩, ?_, ?_, ?_⟩
        · rw [← inWorld_seen]
          exact inTri_map (inWorld b) haff _ _ _ _ hx
        · rintro y ⟨u, v, w, h1, h2, h3, h4, rfl⟩
          obtain ⟨q, hq, he⟩ := (onSurface_placed b M _).mp ((hsurf (u • T.p + v • T.q + w • T.r)).mpr
            (Or.inr ⟨T, hT, u, v, w, h1, h2, h3, h4, rfl⟩))
          refine ⟨q, hq, ?_⟩
          rw [← inWorld_seen, ← he, haff u v w _ _ _ h4]
        · intro c hc
          have : ∃ x, T.corner x ∧ c = inWorld b x := by
            rcases hc with rfl | rfl | rfl
            · exact ⟨_, Or.inl rfl, rfl⟩
            · exact ⟨_, Or.inr (Or.inl rfl), rfl⟩
            · exact ⟨_, Or.inr (Or.inr rfl), rfl⟩
          obtain ⟨x, hx, rfl⟩ := this
          have := hdry T hT x hx
          rw [hdist] at this
          linarith

/-! ## The offset of the mesh -/

/-- Where a vertex of the file should be in the body, the offset being the frame of the mesh in the body. -/
def expected (offset : Frame) (v : V3) : V3 := offset.pointInParent v .NWU

/-- **C77, offset (defect).** `ImportMesh` translates, then rotates: it places a vertex at R (v + t) instead of R v + t. All the
vertices are off by the same R t - t. -/
theorem C77_offset_wrong (M : Input) (offset : Frame) (v : ℕ) :
    (importMesh M offset).pos v - expected offset (M.pos v) = offset.rot.rotate offset.pos - offset.pos := by
  show offset.rot.toMat.mulVec (M.pos v + offset.pos) - (offset.pos + offset.rot.rotate (M.pos v)) = _
  unfold Q.rotate
  ext <;> simp <;> ring

/-- The offset is applied as described exactly when its rotation leaves its translation unchanged: in particular for a translation or
a rotation alone. -/
theorem C77_offset_partial (M : Input) (offset : Frame) :
    (∀ v, (importMesh M offset).pos v = expected offset (M.pos v)) ↔ offset.rot.rotate offset.pos = offset.pos := by
  have h := C77_offset_wrong M offset
  constructor
  · intro h1
    have := h 0
    rw [h1 0] at this
    ext
    · have := congrArg V3.x this; simp at this; linarith
    · have := congrArg V3.y this; simp at this; linarith
    · have := congrArg V3.z this; simp at this; linarith
  · intro h1 v
    have := h v
    rw [h1] at this
    ext
    · have := congrArg V3.x this; simp at this; linarith
    · have := congrArg V3.y this; simp at this; linarith
    · have := congrArg V3.z this; simp at this; linarith

theorem C77_offset_alone (M : Input) (offset : Frame) (h : offset.pos = 0 ∨ offset.rot = Q.one) (v : ℕ) :
    (importMesh M offset).pos v = expected offset (M.pos v) := by
  refine (C77_offset_partial M offset).mpr ?_ v
  rcases h with h | h
  · rw [h, rotate_zero]
  · rw [h]; ext <;> simp [Q.rotate, Q.toMat, Q.one] <;> ring

/-- A mesh one metre forward and turned by half a turn: placed at -x instead of +x. -/
example (M : Input) : (importMesh M ⟨⟨1, 0, 0⟩, ⟨0, 0, 0, 1⟩⟩).pos 0 - expected ⟨⟨1, 0, 0⟩, ⟨0, 0, 0, 1⟩⟩ (M.pos 0) = ⟨-2, 0, 0⟩ := by
  rw [C77_offset_wrong]
  ext <;> simp [Q.rotate, Q.toMat, M3.mulVec] <;> norm_num

/-- Non-vacuity: a triangle half in the water, on a body displaced and turned; the clipping keeps something. -/
def sail : Input := ⟨3, fun v => if v = 0 then ⟨0, 0, -1⟩ else if v = 1 then ⟨1, 0, 1⟩ else ⟨-1, 0, 1⟩, [⟨0, 1, 2⟩]⟩
theorem sail_ok : sail.Ok := by
  intro f hf
  simp [sail] at hf
  subst hf
  unfold Face.Ok
  simp [sail]

example (b : Body) (hb : b = Body.new.setPosition ⟨100, 50, 0⟩ .NWU) (C : Choices) (hC : C.Fair) :
    ∃ out N, (∀ n, N ≤ n → computePlane ⟨1e-4, 0⟩ C n 0 0 b sail = some out) ∧ ∃ x, OnSurface out x ∧ inWorld b x = ⟨100, 50, -1⟩ := by
  obtain ⟨out, N, h1, -, h3⟩ := C77_plane ⟨1e-4, 0⟩ (by norm_num) C hC 0 0 b sail sail_ok
  have hp : b.pointInWorld ⟨0, 0, -1⟩ .NWU = ⟨100, 50, -1⟩ := by
    subst hb
    show (Body.new.setPosition _ _).refPos + Q.one.rotate ⟨0, 0, -1⟩ = _
    rw [setPosition_eq, at_refPos]
    ext <;> simp [Q.rotate, Q.toMat, Q.one, conv]
    norm_num
  have hs : OnSurface sail.tris ⟨0, 0, -1⟩ :=
    ⟨_, List.mem_map.mpr ⟨⟨0, 1, 2⟩, by simp [sail], rfl⟩, 1, 0, 0, by norm_num, le_rfl, le_rfl, by norm_num,
      by ext <;> simp [triOf, sail]⟩
  obtain ⟨x, hx, he⟩ := (h3 le_rfl).2 _ hs (by rw [hp]; norm_num)
  exact ⟨out, N, h1, x, hx, he.trans hp⟩

end Frydom.Hydro
