import Verif.Mesh.IntegralsProps

/-!
# Area, volume, centre and inertia of a mesh (C71-C75)
-/

open Classical

noncomputable section

namespace Frydom.Mesh
open Geom Inertia

namespace Surface
open Clip

/-! ## Boundary polygons as fans of triangles -/

def jac (O P Q : ℝ × ℝ) : ℝ := (P.1 - O.1) * (Q.2 - O.2) - (P.2 - O.2) * (Q.1 - O.1)

theorem triInt_low (O P Q : ℝ × ℝ) :
    triInt Integrand.one.eval O P Q = jac O P Q / 2 ∧
    triInt Integrand.x.eval O P Q = jac O P Q * F1 O.1 P.1 Q.1 / 6 ∧
    triInt Integrand.y.eval O P Q = jac O P Q * F1 O.2 P.2 Q.2 / 6 ∧
    triInt Integrand.xy.eval O P Q =
      jac O P Q * (O.1 * O.2 + P.1 * P.2 + Q.1 * Q.2 + (O.1 + P.1 + Q.1) * (O.2 + P.2 + Q.2)) / 24 ∧
    triInt Integrand.x2.eval O P Q = jac O P Q * F2 O.1 P.1 Q.1 / 12 ∧
    triInt Integrand.y2.eval O P Q = jac O P Q * F2 O.2 P.2 Q.2 / 12 := by
  unfold triInt jac
  refine ⟨?_, ?_, ?_, ?_, ?_, ?_⟩ <;> simp only [Integrand.eval, simplex_lin, simplex_sq, simplex_mul]
  · rw [int_simplex (fun _ _ => (1:ℝ)) 1 0 0 0 0 0 0 0 0 0 (by intros; ring)]; ring
  all_goals ring

/-- A linear combination of the integrals of 1, x, y, xy, x², y². -/
structure Comb where
  c1 : ℝ
  cx : ℝ
  cy : ℝ
  cxy : ℝ
  cx2 : ℝ
  cy2 : ℝ
def Comb.of (k : Comb) (I : Integrand → ℝ) : ℝ :=
  k.c1 * I .one + k.cx * I .x + k.cy * I .y + k.cxy * I .xy + k.cx2 * I .x2 + k.cy2 * I .y2

theorem fan_go_comb (k : Comb) (Φ : Tri → ℝ) (c : V3 → ℝ × ℝ) (o p : V3) (l : List V3)
    (h : ∀ a ∈ p :: l, ∀ b ∈ p :: l, Φ ⟨o, a, b⟩ = k.of fun t => triInt t.eval (c o) (c a) (c b)) :
    ((fan.go o (p :: l)).map Φ).sum = k.of fun t => polyInt t.eval (c o) ((p :: l).map c) := by
  induction l generalizing p with
  | nil => simp [fan.go, polyInt, Comb.of]
  | cons q l ih =>
    rw [fan.go, List.map_cons, List.sum_cons, ih q (fun a ha b hb => h a (by simp at ha ⊢; tauto) b (by simp at hb ⊢; tauto)),
      h p (by simp) q (by simp)]
    simp only [List.map_cons, polyInt, Comb.of]
    ring

theorem triInt_same (f : ℝ → ℝ → ℝ) (O Q : ℝ × ℝ) : triInt f O O Q = 0 := by unfold triInt; simp

theorem fan_comb (k : Comb) (Φ : Tri → ℝ) (c : V3 → ℝ × ℝ) (l : List V3)
    (h : ∀ o ∈ l, ∀ a ∈ l, ∀ b ∈ l, Φ ⟨o, a, b⟩ = k.of fun t => triInt t.eval (c o) (c a) (c b)) (I : Integrand → ℝ)
    (hI : ∀ t : Integrand, t.Low → ∀ O : ℝ × ℝ, I t = polyInt t.eval O (l.map c)) :
    ((fan l).map Φ).sum = k.of I := by
  cases l with
  | nil =>
    have : ∀ t : Integrand, t.Low → I t = 0 := fun t ht => by rw [hI t ht 0]; rfl
    simp [fan, Comb.of, this .one trivial, this .x trivial, this .y trivial, this .xy trivial, this .x2 trivial, this .y2 trivial]
  | cons o l =>
    cases l with
    | nil =>
      have : ∀ t : Integrand, t.Low → I t = 0 := fun t ht => by rw [hI t ht 0]; rfl
      simp [fan, fan.go, Comb.of, this .one trivial, this .x trivial, this .y trivial, this .xy trivial, this .x2 trivial,
        this .y2 trivial]
    | cons p l =>
      rw [fan, fan_go_comb k Φ c o p l (fun a ha b hb => h o (by simp) a (List.mem_cons_of_mem _ ha) b (List.mem_cons_of_mem _ hb))]
      have e : ∀ t : Integrand, t.Low → polyInt t.eval (c o) ((p :: l).map c) = I t := by
        intro t ht
        rw [hI t ht (c o)]
        simp only [List.map_cons, polyInt, triInt_same, zero_add]
      unfold Comb.of
      beta_reduce
      rw [e .one trivial, e .x trivial, e .y trivial, e .xy trivial, e .x2 trivial, e .y2 trivial]

theorem CapSpec.normal {c : Cap} {l : List V3} {ex ey : V3} (h : CapSpec c l ex ey) {o p q : V3} (ho : o ∈ l) (hp : p ∈ l)
    (hq : q ∈ l) : normalVec ⟨o, p, q⟩ = jac (plan ex ey o) (plan ex ey p) (plan ex ey q) • c.n := by
  have e1 := h.points o ho
  have e2 := h.points p hp
  have e3 := h.points q hq
  have hx : V3.cross ex ey = c.n := h.axes.2.2.2.2.2.2
  unfold jac plan
  simp only
  generalize V3.dot o ex = a1 at *
  generalize V3.dot o ey = b1 at *
  generalize V3.dot p ex = a2 at *
  generalize V3.dot p ey = b2 at *
  generalize V3.dot q ex = a3 at *
  generalize V3.dot q ey = b3 at *
  unfold normalVec
  simp only
  rw [e1, e2, e3, ← hx]
  ext <;> simp <;> ring

theorem CapSpec.coord_eq {c : Cap} {l : List V3} {ex ey : V3} (h : CapSpec c l ex ey) {v : V3} (hv : v ∈ l) (i : Fin 3) :
    coord i v = c.e * coord i c.n + (plan ex ey v).1 * coord i ex + (plan ex ey v).2 * coord i ey := by
  have e := congrArg (coord i) (h.points v hv)
  unfold plan
  simp only
  generalize V3.dot v ex = a at *
  generalize V3.dot v ey = b at *
  rw [e]
  fin_cases i <;> simp [coord]

/-- Integral over the polygon of a coordinate times the normal. -/
theorem CapSpec.flux1 {c : Cap} {l : List V3} {ex ey : V3} (h : CapSpec c l ex ey) (i k : Fin 3) :
    ((fan l).map fun t => coord i (flux (coord k) t)).sum =
      coord i c.n * (c.e * coord k c.n * c.i .one + coord k ex * c.i .x + coord k ey * c.i .y) := by
  rw [fan_comb ⟨coord i c.n * (c.e * coord k c.n), coord i c.n * coord k ex, coord i c.n * coord k ey, 0, 0, 0⟩ _ (plan ex ey) l
    ?_ c.i h.ints]
  · unfold Comb.of; ring
  · intro o ho p hp q hq
    rw [flux_coord, h.normal ho hp hq]
    obtain ⟨h1, h2, h3, -⟩ := triInt_low (plan ex ey o) (plan ex ey p) (plan ex ey q)
    unfold Comb.of
    simp only [h1, h2, h3, h.coord_eq ho, h.coord_eq hp, h.coord_eq hq]
    unfold F1
    have : ∀ (s r : ℝ) (v : V3), coord i (s • r • v) = s * (r * coord i v) := by
      intro s r v; fin_cases i <;> rfl
    rw [this]
    ring

/-- Integral over the polygon of the square of a coordinate times the normal. -/
theorem CapSpec.flux2 {c : Cap} {l : List V3} {ex ey : V3} (h : CapSpec c l ex ey) (i k : Fin 3) :
    ((fan l).map fun t => coord i (flux (fun v => coord k v ^ 2) t)).sum =
      coord i c.n * (coord k ex ^ 2 * c.i .x2 + coord k ey ^ 2 * c.i .y2 + (c.e * coord k c.n) ^ 2 * c.i .one +
        2 * coord k ex * coord k ey * c.i .xy + 2 * c.e * coord k c.n * (coord k ex * c.i .x + coord k ey * c.i .y)) := by
  rw [fan_comb ⟨coord i c.n * (c.e * coord k c.n) ^ 2, coord i c.n * (2 * c.e * coord k c.n * coord k ex),
    coord i c.n * (2 * c.e * coord k c.n * coord k ey), coord i c.n * (2 * coord k ex * coord k ey),
    coord i c.n * coord k ex ^ 2, coord i c.n * coord k ey ^ 2⟩ _ (plan ex ey) l ?_ c.i h.ints]
  · unfold Comb.of; ring
  · intro o ho p hp q hq
    rw [flux_sq, h.normal ho hp hq]
    obtain ⟨h1, h2, h3, h4, h5, h6⟩ := triInt_low (plan ex ey o) (plan ex ey p) (plan ex ey q)
    unfold Comb.of
    simp only [h1, h2, h3, h4, h5, h6, h.coord_eq ho, h.coord_eq hp, h.coord_eq hq]
    unfold F2 F1
    have : ∀ (s r : ℝ) (v : V3), coord i (s • r • v) = s * (r * coord i v) := by
      intro s r v; fin_cases i <;> rfl
    rw [this]
    ring

/-- The plane of the polygon is normal to axis `i`. -/
def CapAligned (c : Cap) (i : Fin 3) : Prop := ∀ k, k ≠ i → coord k c.n = 0

theorem CapSpec.aligned_axes {c : Cap} {l : List V3} {ex ey : V3} (h : CapSpec c l ex ey) {i : Fin 3} (ha : CapAligned c i) :
    coord i ex = 0 ∧ coord i ey = 0 ∧ coord i c.n ≠ 0 := by
  obtain ⟨-, -, h3, -, h5, h6, -⟩ := h.axes
  unfold V3.dot at *
  have key : coord i ex * coord i c.n = 0 ∧ coord i ey * coord i c.n = 0 ∧ coord i c.n * coord i c.n = 1 := by
    fin_cases i
    · have a := ha 1 (by decide); have b := ha 2 (by decide)
      simp only [coord] at *; rw [a, b] at h3 h5 h6
      refine ⟨?_, ?_, ?_⟩ <;> show _ = _ <;> linarith
    · have a := ha 0 (by decide); have b := ha 2 (by decide)
      simp only [coord] at *; rw [a, b] at h3 h5 h6
      refine ⟨?_, ?_, ?_⟩ <;> show _ = _ <;> linarith
    · have a := ha 0 (by decide); have b := ha 1 (by decide)
      simp only [coord] at *; rw [a, b] at h3 h5 h6
      refine ⟨?_, ?_, ?_⟩ <;> show _ = _ <;> linarith
  have hn : coord i c.n ≠ 0 := by
    intro h0; rw [h0] at key; norm_num at key
  exact ⟨(mul_eq_zero.mp key.1).resolve_right hn, (mul_eq_zero.mp key.2.1).resolve_right hn, hn⟩

theorem coord_smul (i : Fin 3) (s : ℝ) (v : V3) : coord i (s • v) = s * coord i v := by fin_cases i <;> rfl

/-- The cubic integrals over a polygon normal to an axis. -/
theorem CapSpec.flux3 {c : Cap} {l : List V3} {ex ey : V3} (h : CapSpec c l ex ey) {i : Fin 3} (ha : CapAligned c i) (m k : Fin 3) :
    ((fan l).map fun t => coord m (flux (fun v => coord m v ^ 3) t)).sum =
      3 * c.square (coord m c.n) (coord m ex) (coord m ey) ∧
    ((fan l).map fun t => coord m (flux (fun v => coord m v ^ 2 * coord k v) t)).sum =
      c.product (coord m c.n) (coord k c.n) (coord m ex) (coord m ey) (coord k ex) (coord k ey) := by
  by_cases hm : m = i
  · subst hm
    obtain ⟨hx, hy, hn⟩ := h.aligned_axes ha
    constructor
    · rw [fan_comb ⟨coord m c.n * (c.e * coord m c.n) ^ 3, 0, 0, 0, 0, 0⟩ _ (plan ex ey) l ?_ c.i h.ints]
      · unfold Comb.of Cap.square; rw [hx, hy]; ring
      · intro o ho p hp q hq
        rw [flux_cube, h.normal ho hp hq]
        obtain ⟨h1, -⟩ := triInt_low (plan ex ey o) (plan ex ey p) (plan ex ey q)
        unfold Comb.of
        simp only [h1, h.coord_eq ho, h.coord_eq hp, h.coord_eq hq, hx, hy, coord_smul]
        unfold F3 F2 F1
        ring
    · by_cases hk : k = m
      · subst hk
        rw [fan_comb ⟨coord k c.n * (c.e * coord k c.n) ^ 3, 0, 0, 0, 0, 0⟩ _ (plan ex ey) l ?_ c.i h.ints]
        · unfold Comb.of Cap.product; rw [hx, hy]; ring
        · intro o ho p hp q hq
          rw [flux_sq_mul, h.normal ho hp hq]
          obtain ⟨h1, -⟩ := triInt_low (plan ex ey o) (plan ex ey p) (plan ex ey q)
          unfold Comb.of
          simp only [h1, h.coord_eq ho, h.coord_eq hp, h.coord_eq hq, hx, hy, coord_smul]
          unfold G0 G1 G2 F2 F1
          ring
      · have hk0 := ha k hk
        rw [fan_comb ⟨0, coord m c.n * (c.e * coord m c.n) ^ 2 * coord k ex, coord m c.n * (c.e * coord m c.n) ^ 2 * coord k ey,
          0, 0, 0⟩ _ (plan ex ey) l ?_ c.i h.ints]
        · unfold Comb.of Cap.product; rw [hx, hy, hk0]; ring
        · intro o ho p hp q hq
          rw [flux_sq_mul, h.normal ho hp hq]
          obtain ⟨h1, h2, h3, -⟩ := triInt_low (plan ex ey o) (plan ex ey p) (plan ex ey q)
          unfold Comb.of
          simp only [h1, h2, h3, h.coord_eq ho, h.coord_eq hp, h.coord_eq hq, hx, hy, hk0, coord_smul]
          unfold G0 G1 G2 F2 F1
          ring
  · have hm0 := ha m hm
    have hz : ∀ g : V3 → ℝ, ((fan l).map fun t => coord m (flux g t)).sum = 0 := by
      intro g
      rw [fan_comb ⟨0, 0, 0, 0, 0, 0⟩ _ (plan ex ey) l ?_ c.i h.ints]
      · unfold Comb.of; ring
      · intro o ho p hp q hq
        unfold flux
        rw [h.normal ho hp hq, coord_smul, coord_smul, hm0]
        unfold Comb.of; ring
    rw [hz, hz]
    unfold Cap.square Cap.product
    rw [hm0]
    constructor <;> ring

/-! ## All polygons of the mesh -/

/-- The polygons built for the loops. -/
def CapsSpec (cs : List Cap) (ls : List (List V3)) : Prop :=
  List.Forall₂ (fun c l => (∃ ex ey, CapSpec c l ex ey) ∧ c.n = V3.normalized (vectorArea l)) cs ls

theorem mkCaps_spec (j : List V3 → Junk) (ls : List (List V3)) (h : ∀ l ∈ ls, Closed l ∧ Flat l) :
    ∃ cs, mkCaps j ls = some cs ∧ CapsSpec cs ls := by
  induction ls with
  | nil => exact ⟨[], rfl, List.Forall₂.nil⟩
  | cons l ls ih =>
    obtain ⟨cs, h1, h2⟩ := ih (fun l hl => h l (List.mem_cons_of_mem _ hl))
    obtain ⟨c, ex, ey, h3, h4, h5⟩ := cap_spec j (h l (by simp)).1 (h l (by simp)).2
    refine ⟨c :: cs, ?_, List.Forall₂.cons ⟨⟨ex, ey, h4⟩, h5⟩ h2⟩
    unfold mkCaps
    rw [h3, h1]
    rfl

theorem caps_sum {cs : List Cap} {ls : List (List V3)} (h : CapsSpec cs ls) (A : Cap → ℝ) (Φ : Tri → ℝ)
    (P : Cap → Prop) (hP : ∀ c ∈ cs, P c)
    (hA : ∀ c l ex ey, P c → CapSpec c l ex ey → ((fan l).map Φ).sum = A c) :
    ((ls.flatMap fan).map Φ).sum = (cs.map A).sum := by
  induction h with
  | nil => rfl
  | @cons c l cs ls hc _ ih =>
    obtain ⟨⟨ex, ey, hs⟩, -⟩ := hc
    simp only [List.flatMap_cons, List.map_append, List.sum_append, List.map_cons, List.sum_cons]
    rw [hA c l ex ey (hP c (by simp)) hs, ih (fun c hc => hP c (List.mem_cons_of_mem _ hc))]

theorem coord_R (c : Cap) {l : List V3} {ex ey : V3} (h : CapSpec c l ex ey) :
    c.R.a00 = ex.x ∧ c.R.a01 = ex.y ∧ c.R.a02 = ex.z ∧ c.R.a10 = ey.x ∧ c.R.a11 = ey.y ∧ c.R.a12 = ey.z := by
  rw [h.rows]; exact ⟨rfl, rfl, rfl, rfl, rfl, rfl⟩

/-- The hypotheses on the boundary: as OpenMesh builds it, and every loop in a plane. -/
structure Good (M : SMesh) : Prop where
  boundary : M.IsBoundary
  flat : ∀ l ∈ M.rings, Flat l

theorem Good.caps {M : SMesh} (h : Good M) (j : List V3 → Junk) : ∃ cs, mkCaps j M.rings = some cs ∧ CapsSpec cs M.rings := by
  refine mkCaps_spec j M.rings ?_
  intro l hl
  refine ⟨?_, h.flat l hl⟩
  obtain ⟨l', hl', rfl⟩ := List.mem_map.mp hl
  exact (h.boundary.closed l' hl').map M.pos

theorem volumeOf_eq {M : SMesh} (h : Good M) {cs : List Cap} (hcs : CapsSpec cs M.rings) (O : V3) :
    volumeOf M.tris cs = volInt (fun _ => 1) O M.closedUp := by
  rw [← (flux_volume M h.boundary O 2).1]
  unfold volumeOf SMesh.closedUp
  rw [List.map_append, List.sum_append]
  have h1 := meshedN_eq M.tris .z trivial 2
  have h2 := caps_sum hcs Cap.volume (fun t => coord 2 (flux (coord 2) t)) (fun _ => True) (fun _ _ => trivial)
    (fun c l ex ey _ hc => by
      rw [hc.flux1]
      obtain ⟨-, -, r2, -, -, r5⟩ := coord_R c hc
      unfold Cap.volume
      rw [r2, r5]
      simp only [coord])
  rw [h2]
  congr 1

/-- **C71.** For every mesh whose boundary loops, if any, are flat: `GetVolume` succeeds and is the volume enclosed by the
mesh and its boundary polygons, computed from any point. -/
theorem C71_volume (M : SMesh) (h : Good M) (j : List V3 → Junk) (O : V3) :
    M.getVolume j = some (volInt (fun _ => 1) O M.closedUp) := by
  obtain ⟨cs, h1, h2⟩ := h.caps j
  unfold SMesh.getVolume
  rw [h1, Option.map_some, volumeOf_eq h h2 O]

theorem sumV_coord (i : Fin 3) (l : List V3) : coord i (sumV l) = (l.map (coord i)).sum := by
  induction l with
  | nil => fin_cases i <;> rfl
  | cons a l ih =>
    rw [List.map_cons, List.sum_cons, ← ih]
    fin_cases i <;> rfl

theorem cogOf_eq {M : SMesh} (h : Good M) {cs : List Cap} (hcs : CapsSpec cs M.rings) (O : V3) (i : Fin 3) :
    coord i (cogOf M.tris cs) = (0.5 / volumeOf M.tris cs) * (2 * volInt (coord i) O M.closedUp) := by
  rw [← (flux_volume M h.boundary O i).2.1]
  unfold SMesh.closedUp
  rw [List.map_append, List.sum_append]
  have h2 := caps_sum hcs (fun c => coord i c.moment) (fun t => coord i (flux (fun v => coord i v ^ 2) t)) (fun _ => True)
    (fun _ _ => trivial)
    (fun c l ex ey _ hc => by
      rw [hc.flux2]
      obtain ⟨r0, r1, r2, r3, r4, r5⟩ := coord_R c hc
      unfold Cap.moment
      simp only [r0, r1, r2, r3, r4, r5]
      fin_cases i <;> simp [coord] <;> ring)
  have hs : coord i (sumV (cs.map fun c => (0.5 / volumeOf M.tris cs) • c.moment)) =
      (0.5 / volumeOf M.tris cs) * (cs.map fun c => coord i c.moment).sum := by
    rw [sumV_coord, List.map_map, ← sum_map_mul]
    congr 2
    funext c
    simp [coord_smul]
  rw [h2]
  have hadd : ∀ a b : V3, coord i (a + b) = coord i a + coord i b := by intro a b; fin_cases i <;> rfl
  unfold cogOf
  simp only
  rw [hadd, hs, mul_add]
  congr 1
  have e0 := meshedN_eq M.tris .x2 trivial 0
  have e1 := meshedN_eq M.tris .y2 trivial 1
  have e2 := meshedN_eq M.tris .z2 trivial 2
  fin_cases i
  · show (meshedN M.tris .x2).x * _ = _
    rw [mul_comm]; congr 1
  · show (meshedN M.tris .y2).y * _ = _
    rw [mul_comm]; congr 1
  · show (meshedN M.tris .z2).z * _ = _
    rw [mul_comm]; congr 1

/-- **C72.** Under the same conditions, if the volume is not zero, `GetCOG` succeeds and is the barycentre of the enclosed
volume: the volume times its coordinates are the integrals of the coordinates. -/
theorem C72_centre (M : SMesh) (h : Good M) (j : List V3 → Junk) (O : V3) (hV : volInt (fun _ => 1) O M.closedUp ≠ 0) :
    ∃ G, M.getCOG j = some G ∧
      volInt (fun _ => 1) O M.closedUp • G = ⟨volInt (fun v => v.x) O M.closedUp, volInt (fun v => v.y) O M.closedUp,
        volInt (fun v => v.z) O M.closedUp⟩ := by
  obtain ⟨cs, h1, h2⟩ := h.caps j
  refine ⟨cogOf M.tris cs, by unfold SMesh.getCOG; rw [h1, Option.map_some], ?_⟩
  have hv := volumeOf_eq h h2 O
  have e := fun i => cogOf_eq h h2 O i
  rw [hv] at e
  have e0 : (cogOf M.tris cs).x = _ := e 0
  have e1 : (cogOf M.tris cs).y = _ := e 1
  have e2 : (cogOf M.tris cs).z = _ := e 2
  have c0 : coord 0 = fun v : V3 => v.x := rfl
  have c1 : coord 1 = fun v : V3 => v.y := rfl
  have c2 : coord 2 = fun v : V3 => v.z := rfl
  ext
  · simp only [V3.smul_x]; rw [e0, c0]; field_simp; norm_num
  · simp only [V3.smul_y]; rw [e1, c1]; field_simp; norm_num
  · simp only [V3.smul_z]; rw [e2, c2]; field_simp; norm_num

end Surface

end Frydom.Mesh
