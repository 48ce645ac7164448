import Verif.Mesh.InertiaProps
import Verif.Mesh.BoxProps
import Verif.Hydro.Buoyancy

/-!
# Model of `FrHydrostaticsProperties` (src/frydom/hydrodynamics/hydrostatic/FrHydrostaticsProperties.{h,cpp}) and
`FrLinearHydrostaticStiffnessMatrix` (C80)
-/

open Classical

noncomputable section

namespace Frydom.Hydro
open Frydom.Geom Frydom.Mesh Frydom.Mesh.Clip Frydom.Mesh.Surface

/-! ## The stiffness matrix (FrLinearHydrostaticStiffnessMatrix.cpp) -/

/-- `m_data`. -/
abbrev Stiffness := M3

namespace Stiffness
/-- Setters (FrLinearHydrostaticStiffnessMatrix.cpp:17-38). -/
def setK33 (k : Stiffness) (v : ℝ) : Stiffness := { k with a00 := v }
def setK44 (k : Stiffness) (v : ℝ) : Stiffness := { k with a11 := v }
def setK55 (k : Stiffness) (v : ℝ) : Stiffness := { k with a22 := v }
def setK34 (k : Stiffness) (v : ℝ) : Stiffness := { k with a01 := v, a10 := v }
def setK35 (k : Stiffness) (v : ℝ) : Stiffness := { k with a02 := v, a20 := v }
def setK45 (k : Stiffness) (v : ℝ) : Stiffness := { k with a12 := v, a21 := v }
/-- Getters (FrLinearHydrostaticStiffnessMatrix.cpp:40-50). -/
def getK33 (k : Stiffness) : ℝ := k.a00
def getK44 (k : Stiffness) : ℝ := k.a11
def getK55 (k : Stiffness) : ℝ := k.a22
def getK34 (k : Stiffness) : ℝ := k.a01
def getK35 (k : Stiffness) : ℝ := k.a02
def getK45 (k : Stiffness) : ℝ := k.a12
/-- `SetDiagonal`, `SetNonDiagonal` (FrLinearHydrostaticStiffnessMatrix.cpp:70-80). -/
def setDiagonal (k : Stiffness) (K33 K44 K55 : ℝ) : Stiffness := ((k.setK33 K33).setK44 K44).setK55 K55
def setNonDiagonal (k : Stiffness) (K34 K35 K45 : ℝ) : Stiffness := ((k.setK34 K34).setK35 K35).setK45 K45
/-- `GetMatrix` (FrLinearHydrostaticStiffnessMatrix.cpp:52-66). -/
def getMatrix (k : Stiffness) : M3 :=
  ⟨k.getK33, k.getK34, k.getK35, k.getK34, k.getK44, k.getK45, k.getK35, k.getK45, k.getK55⟩
/-- `SetData` (FrLinearHydrostaticStiffnessMatrix.cpp:92). -/
def setData (_ : Stiffness) (m : M3) : Stiffness := m
/-- `operator*` (FrLinearHydrostaticStiffnessMatrix.cpp:94-97). -/
def mul (k : Stiffness) (v : V3) : V3 := k.mulVec v
end Stiffness

/-! ## The properties -/

/-- The attributes (FrHydrostaticsProperties.h:85-117), the mesh apart. The last eleven are results. -/
structure Props where
  rho : ℝ
  g : ℝ
  cog : V3
  red : V3
  waterPlaneArea : ℝ := 0
  radiusT : ℝ := 0
  radiusL : ℝ := 0
  K : Stiffness := ⟨0, 0, 0, 0, 0, 0, 0, 0, 0⟩
  volume : ℝ := 0
  wetArea : ℝ := 0
  waterPlaneCentre : V3 := 0
  buoyancyCentre : V3 := 0
  draught : ℝ := 0
  lengthSubmerged : ℝ := 0
  breadthSubmerged : ℝ := 0
  lengthWaterline : ℝ := 0
  heightT : ℝ := 0
  heightL : ℝ := 0

/-- Constructors (FrHydrostaticsProperties.cpp:19-42); the first has reduction point 0. -/
def Props.new (rho g : ℝ) (cog red : V3) (fc : FC) : Props := { rho := rho, g := g, cog := conv fc cog, red := conv fc red }

/-- The bounding boxes of the boundary polygons. -/
def boxes : List Cap → Option (List AABB)
  | [] => some []
  | c :: cs => c.poly.boundingBox.bind fun b => (boxes cs).map fun bs => b :: bs

/-- The loop of FrHydrostaticsProperties.cpp:53-60. `none`: no polygon (the first one is read, undefined behaviour). -/
def lengthAtWaterline : List AABB → Option ℝ
  | [] => none
  | b0 :: bs =>
    let xMin := (b0 :: bs).foldl (fun m b => min m b.xmin) b0.xmin
    let xMax := (b0 :: bs).foldl (fun m b => max m b.xmax) b0.xmax
    some (xMax - xMin)

/-- `CalcGeometricProperties` (FrHydrostaticsProperties.cpp:49-67): the assignments, then with the length at the waterline. -/
def Props.setGeometry (p : Props) (M : SMesh) (L : ℝ) : Props :=
  { p with
    draught := |M.boundingBox.zmax - M.boundingBox.zmin|
    lengthSubmerged := M.boundingBox.xmax - M.boundingBox.xmin
    breadthSubmerged := M.boundingBox.ymax - M.boundingBox.ymin
    lengthWaterline := L }
def Props.geometric (p : Props) (M : SMesh) (cs : List Cap) : Option Props :=
  ((boxes cs).bind lengthAtWaterline).map fun L => p.setGeometry M L

/-- Sum over the boundary polygons (FrHydrostaticsProperties.cpp:80-99). -/
def polySum (cs : List Cap) (t : Integrand) : ℝ := (cs.map fun c => c.i t).sum

/-- `CalcHydrostaticProperties` (FrHydrostaticsProperties.cpp:69-141). -/
def Props.hydrostatic (p : Props) (M : SMesh) (cs : List Cap) : Props :=
  let V := volumeOf M.tris cs
  let B := cogOf M.tris cs
  let rg := p.rho * p.g
  let Poly1 := polySum cs .one
  let PolyX := polySum cs .x
  let PolyY := polySum cs .y
  let PolyXY := polySum cs .xy
  let PolyX2 := polySum cs .x2
  let PolyY2 := polySum cs .y2
  let K33 := rg * Poly1
  let K34 := rg * PolyY
  let K35 := -rg * PolyX
  let K45 := -rg * PolyXY
  let K34' := K34 + rg * (-p.red.y * Poly1)
  let K35' := K35 + -rg * (-p.red.x * Poly1)
  let K45' := K45 + -rg * (-p.red.y * PolyX - p.red.x * PolyY + p.red.x * p.red.y * Poly1)
  let rT := p.radiusT + (PolyY2 - 2 * p.red.y * PolyY + p.red.y * p.red.y * Poly1) / V
  let rL := p.radiusL + (PolyX2 - 2 * p.red.x * PolyX + p.red.x * p.red.x * Poly1) / V
  let zb_zg := B.z - p.cog.z
  { p with
    volume := V
    buoyancyCentre := B
    wetArea := areaOf M.tris cs - (cs.map fun c => c.poly.getArea).sum
    waterPlaneArea := p.waterPlaneArea + Poly1
    waterPlaneCentre := ⟨-K35 / K33, K34 / K33, M.boundingBox.zmax⟩
    radiusT := rT
    radiusL := rL
    heightT := rT + zb_zg
    heightL := rL + zb_zg
    K := Stiffness.setNonDiagonal (Stiffness.setDiagonal p.K K33 (rg * V * (rT + zb_zg)) (rg * V * (rL + zb_zg))) K34' K35' K45' }

/-- `ComputeProperties` (FrHydrostaticsProperties.cpp:44-47). -/
def Props.compute (j : List V3 → Junk) (M : SMesh) (p : Props) : Option Props :=
  (mkCaps j M.rings).bind fun cs => (p.geometric M cs).map fun p => p.hydrostatic M cs

/-! ## Specification -/

/-- Integral over the surface enclosed by a horizontal loop, counted negatively for an inner loop (turning clockwise seen from above). -/
def loopInt (f : V3 → ℝ) (l : List V3) : ℝ := ((fan l).map fun t => (flux f t).z).sum
/-- Integral over the water plane. -/
def waterInt (f : V3 → ℝ) (M : SMesh) : ℝ := (M.rings.map (loopInt f)).sum

/-- The loop is in a horizontal plane. -/
def Horizontal (l : List V3) : Prop := (vectorArea l).x = 0 ∧ (vectorArea l).y = 0
/-- An outer loop: the sea side is outside. -/
def Outer (l : List V3) : Prop := 0 < (vectorArea l).z

/-- `L` is the extent along `f` of the points `S`. -/
def Extent (f : V3 → ℝ) (S : V3 → Prop) (L : ℝ) : Prop :=
  (∀ u v, S u → S v → f v - f u ≤ L) ∧ ∃ u v, S u ∧ S v ∧ f v - f u = L
/-- The points of the mesh, of the waterline. -/
def IsVertex (M : SMesh) (v : V3) : Prop := ∃ i < M.nv, v = M.pos i
def OnWaterline (M : SMesh) (v : V3) : Prop := ∃ l ∈ M.rings, v ∈ l

/-- What the properties should be: `V` volume, `B` centre of buoyancy, `G` centre of gravity, `R` reduction point. -/
structure IsHydrostatic (rho g : ℝ) (M : SMesh) (V : ℝ) (B G R : V3) (p : Props) : Prop where
  volume : p.volume = V
  centre : p.buoyancyCentre = B
  wet : p.wetArea = (M.tris.map (surfInt fun _ => 1)).sum
  area : p.waterPlaneArea = waterInt (fun _ => 1) M
  plane : rho * g ≠ 0 → waterInt (fun _ => 1) M ≠ 0 → waterInt (fun _ => 1) M * p.waterPlaneCentre.x = waterInt (fun v => v.x) M ∧
    waterInt (fun _ => 1) M * p.waterPlaneCentre.y = waterInt (fun v => v.y) M ∧ p.waterPlaneCentre.z = M.boundingBox.zmax
  radiusT : p.radiusT = waterInt (fun v => (v.y - R.y) ^ 2) M / V
  radiusL : p.radiusL = waterInt (fun v => (v.x - R.x) ^ 2) M / V
  heightT : p.heightT = p.radiusT + B.z - G.z
  heightL : p.heightL = p.radiusL + B.z - G.z
  K33 : p.K.getK33 = rho * g * waterInt (fun _ => 1) M
  K34 : p.K.getK34 = rho * g * waterInt (fun v => v.y - R.y) M
  K35 : p.K.getK35 = -(rho * g) * waterInt (fun v => v.x - R.x) M
  K45 : p.K.getK45 = -(rho * g) * waterInt (fun v => (v.x - R.x) * (v.y - R.y)) M
  K44 : p.K.getK44 = rho * g * V * p.heightT
  K55 : p.K.getK55 = rho * g * V * p.heightL
  symm : p.K.transpose = p.K

/-! ## Integrals of a horizontal polygon -/

theorem flux_shift (i k : Fin 3) (s r : ℝ) (t : Tri) :
    flux (fun v => (coord i v - s) * (coord k v - r)) t =
      mul2 (coord i t.p - s) (coord i t.q - s) (coord i t.r - s) (coord k t.p - r) (coord k t.q - r) (coord k t.r - r) • normalVec t := by
  unfold flux simplex mul2
  have : ∀ u v : ℝ, (coord i (t.p + u • (t.q - t.p) + v • (t.r - t.p)) - s) * (coord k (t.p + u • (t.q - t.p) + v • (t.r - t.p)) - r) =
      ((coord i t.p - s) + u * ((coord i t.q - s) - (coord i t.p - s)) + v * ((coord i t.r - s) - (coord i t.p - s))) *
      ((coord k t.p - r) + u * ((coord k t.q - r) - (coord k t.p - r)) + v * ((coord k t.r - r) - (coord k t.p - r))) := by
    intro u v
    rw [coord_affine, coord_affine]
    ring
  simp only [this, simplex_mul]

theorem flux_shift1 (i : Fin 3) (s : ℝ) (t : Tri) :
    flux (fun v => coord i v - s) t = ((coord i t.p + coord i t.q + coord i t.r - 3 * s) / 6) • normalVec t := by
  unfold flux simplex
  have : ∀ u v : ℝ, coord i (t.p + u • (t.q - t.p) + v • (t.r - t.p)) - s =
      (coord i t.p - s) + u * ((coord i t.q - s) - (coord i t.p - s)) + v * ((coord i t.r - s) - (coord i t.p - s)) := by
    intro u v
    rw [coord_affine]
    ring
  simp only [this, simplex_lin]
  congr 1; unfold F1; ring

theorem flux_one (t : Tri) : flux (fun _ => 1) t = (1 / 2 : ℝ) • normalVec t := by
  unfold flux; rw [simplex_const]

theorem cap_int1 {c : Cap} {l : List V3} {ex ey : V3} (h : CapSpec c l ex ey) : loopInt (fun _ => 1) l = c.n.z * c.i .one := by
  unfold loopInt
  rw [fan_comb ⟨c.n.z, 0, 0, 0, 0, 0⟩ _ (plan ex ey) l ?_ c.i h.ints]
  · unfold Comb.of; ring
  · intro o ho p hp q hq
    rw [flux_one, h.normal ho hp hq]
    obtain ⟨h1, -⟩ := triInt_low (plan ex ey o) (plan ex ey p) (plan ex ey q)
    unfold Comb.of
    simp only [h1, V3.smul_z]
    ring

theorem cap_intx {c : Cap} {l : List V3} {ex ey : V3} (h : CapSpec c l ex ey) (i : Fin 3) (s : ℝ) :
    loopInt (fun v => coord i v - s) l =
      c.n.z * ((c.e * coord i c.n - s) * c.i .one + coord i ex * c.i .x + coord i ey * c.i .y) := by
  unfold loopInt
  rw [fan_comb ⟨c.n.z * (c.e * coord i c.n - s), c.n.z * coord i ex, c.n.z * coord i ey, 0, 0, 0⟩ _ (plan ex ey) l ?_ c.i h.ints]
  · unfold Comb.of; ring
  · intro o ho p hp q hq
    rw [flux_shift1, h.normal ho hp hq]
    obtain ⟨h1, h2, h3, -⟩ := triInt_low (plan ex ey o) (plan ex ey p) (plan ex ey q)
    unfold Comb.of
    simp only [h1, h2, h3, h.coord_eq ho, h.coord_eq hp, h.coord_eq hq, V3.smul_z]
    unfold F1
    ring

theorem cap_intxy {c : Cap} {l : List V3} {ex ey : V3} (h : CapSpec c l ex ey) (i k : Fin 3) (s r : ℝ) :
    loopInt (fun v => (coord i v - s) * (coord k v - r)) l =
      c.n.z * ((c.e * coord i c.n - s) * (c.e * coord k c.n - r) * c.i .one +
        ((c.e * coord i c.n - s) * coord k ex + (c.e * coord k c.n - r) * coord i ex) * c.i .x +
        ((c.e * coord i c.n - s) * coord k ey + (c.e * coord k c.n - r) * coord i ey) * c.i .y +
        (coord i ex * coord k ey + coord i ey * coord k ex) * c.i .xy + coord i ex * coord k ex * c.i .x2 + coord i ey * coord k ey * c.i .y2) := by
  unfold loopInt
  rw [fan_comb ⟨c.n.z * ((c.e * coord i c.n - s) * (c.e * coord k c.n - r)),
    c.n.z * ((c.e * coord i c.n - s) * coord k ex + (c.e * coord k c.n - r) * coord i ex),
    c.n.z * ((c.e * coord i c.n - s) * coord k ey + (c.e * coord k c.n - r) * coord i ey),
    c.n.z * (coord i ex * coord k ey + coord i ey * coord k ex), c.n.z * (coord i ex * coord k ex),
    c.n.z * (coord i ey * coord k ey)⟩ _ (plan ex ey) l ?_ c.i h.ints]
  · unfold Comb.of; ring
  · intro o ho p hp q hq
    rw [flux_shift, h.normal ho hp hq]
    obtain ⟨h1, h2, h3, h4, h5, h6⟩ := triInt_low (plan ex ey o) (plan ex ey p) (plan ex ey q)
    unfold Comb.of
    simp only [h1, h2, h3, h4, h5, h6, h.coord_eq ho, h.coord_eq hp, h.coord_eq hq, V3.smul_z]
    unfold mul2 F2 F1
    ring

theorem norm_z (a : ℝ) : V3.norm ⟨0, 0, a⟩ = |a| := by
  unfold V3.norm V3.dot
  simp only [mul_zero, zero_add, add_zero]
  exact Real.sqrt_mul_self_eq_abs a

theorem cap_normal {l : List V3} (hh : Horizontal l) (ha : vectorArea l ≠ 0) :
    V3.normalized (vectorArea l) = ⟨0, 0, SignType.sign (vectorArea l).z⟩ := by
  obtain ⟨hx, hy⟩ := hh
  have e : vectorArea l = ⟨0, 0, (vectorArea l).z⟩ := by ext <;> simp [hx, hy]
  have hz : (vectorArea l).z ≠ 0 := fun h => ha (by rw [e, h]; rfl)
  unfold V3.normalized
  generalize (vectorArea l).z = a at *
  rw [e, norm_z]
  ext <;> simp
  rcases lt_or_gt_of_ne hz with h | h
  · rw [sign_neg h, abs_of_neg h]
    simp
    field_simp
  · rw [sign_pos h, abs_of_pos h]
    simp
    field_simp

theorem frameX_z (s : ℝ) (hs : s = 1 ∨ s = -1) : frameX ⟨0, 0, s⟩ = ⟨s, 0, 0⟩ := by
  have hc : V3.cross ⟨0, 0, s⟩ ⟨0, -1, 0⟩ = ⟨s, 0, 0⟩ := by ext <;> simp
  have hn : V3.norm ⟨s, 0, 0⟩ = 1 := by
    unfold V3.norm V3.dot
    rcases hs with rfl | rfl <;> norm_num
  have hu : V3.normalized ⟨s, 0, 0⟩ = ⟨s, 0, 0⟩ := by
    unfold V3.normalized
    rw [hn]
    ext <;> simp
  unfold frameX
  simp only []
  rw [hc, hu, hn, if_neg (by norm_num)]

/-- A polygon in a horizontal plane: its frame has x reversed for an inner loop. -/
theorem level {c : Cap} {l : List V3} {ex ey : V3} (h : CapSpec c l ex ey) (hn : c.n = V3.normalized (vectorArea l)) (hh : Horizontal l)
    (ha : vectorArea l ≠ 0) :
    let s : ℝ := SignType.sign (vectorArea l).z
    (s = 1 ∨ s = -1) ∧ c.n = ⟨0, 0, s⟩ ∧ ex = ⟨s, 0, 0⟩ ∧ ey = ⟨0, 1, 0⟩ := by
  intro s
  have hn' := hn.trans (cap_normal hh ha)
  have hz : (vectorArea l).z ≠ 0 := by
    intro h0
    apply ha
    ext
    · exact hh.1
    · exact hh.2
    · exact h0
  have hs : s = 1 ∨ s = -1 := by
    rcases lt_or_gt_of_ne hz with h | h
    · right; show ((SignType.sign _ : SignType) : ℝ) = _; rw [sign_neg h]; simp
    · left; show ((SignType.sign _ : SignType) : ℝ) = _; rw [sign_pos h]; simp
  refine ⟨hs, hn', ?_, ?_⟩
  · rw [h.xaxis, hn']; exact frameX_z s hs
  · rw [h.yaxis, hn']
    show V3.cross ⟨0, 0, s⟩ (frameX ⟨0, 0, s⟩) = _
    rw [frameX_z s hs]
    have : s * s = 1 := by rcases hs with h | h <;> rw [h] <;> norm_num
    ext <;> simp [this]

/-- The integrals of a horizontal polygon. -/
structure Level (c : Cap) (l : List V3) (s : ℝ) : Prop where
  unit : s = 1 ∨ s = -1
  one : loopInt (fun _ => 1) l = s * c.i .one
  x : ∀ a, loopInt (fun v => v.x - a) l = c.i .x - s * a * c.i .one
  y : ∀ b, loopInt (fun v => v.y - b) l = s * (c.i .y - b * c.i .one)
  xy : ∀ a b, loopInt (fun v => (v.x - a) * (v.y - b)) l = c.i .xy - s * a * c.i .y - b * c.i .x + s * a * b * c.i .one
  x2 : ∀ a, loopInt (fun v => (v.x - a) ^ 2) l = s * (c.i .x2 + a ^ 2 * c.i .one) - 2 * a * c.i .x
  y2 : ∀ b, loopInt (fun v => (v.y - b) ^ 2) l = s * (c.i .y2 - 2 * b * c.i .y + b ^ 2 * c.i .one)

theorem level_ints {c : Cap} {l : List V3} {ex ey : V3} (h : CapSpec c l ex ey) (hn : c.n = V3.normalized (vectorArea l))
    (hh : Horizontal l) (ha : vectorArea l ≠ 0) : Level c l (SignType.sign (vectorArea l).z : ℝ) := by
  obtain ⟨hs, hn, hx, hy⟩ := level h hn hh ha
  generalize (SignType.sign (vectorArea l).z : ℝ) = s at *
  have hss : s * s = 1 := by rcases hs with h | h <;> rw [h] <;> norm_num
  have hX := cap_intx h 0
  have hY := cap_intx h 1
  have hXX := cap_intxy h 0 0
  have hYY := cap_intxy h 1 1
  have hXY := cap_intxy h 0 1
  simp only [coord, hx, hy, hn, mul_zero, zero_sub, mul_one, zero_mul, add_zero, zero_add, ← sq] at hX hY hXX hYY hXY
  refine ⟨hs, ?_, ?_, ?_, ?_, ?_, ?_⟩
  · rw [cap_int1 h, hn]
  · intro a; rw [hX]; linear_combination c.i .x * hss
  · intro b; rw [hY]; ring
  · intro a b; rw [hXY]; linear_combination (c.i .xy - b * c.i .x) * hss
  · intro a
    have := hXX a a
    simp only [← sq] at this
    rw [this]
    linear_combination (s * c.i .x2 - 2 * a * c.i .x) * hss
  · intro b
    have := hYY b b
    simp only [← sq] at this
    rw [this]
    ring

/-- Sum over the loops with the area of inner loops counted positively. -/
def absInt (f : V3 → ℝ) (M : SMesh) : ℝ := (M.rings.map fun l => SignType.sign (vectorArea l).z * loopInt f l).sum

/-- All loops horizontal. -/
def AllHorizontal (M : SMesh) : Prop := ∀ l ∈ M.rings, Horizontal l
def AllOuter (M : SMesh) : Prop := ∀ l ∈ M.rings, Outer l

theorem caps_level {cs : List Cap} {ls : List (List V3)} (h : CapsSpec cs ls) (hf : ∀ l ∈ ls, Flat l) (hh : ∀ l ∈ ls, Horizontal l) :
    List.Forall₂ (fun c l => Level c l (SignType.sign (vectorArea l).z : ℝ) ∧ c.poly.vertices = l) cs ls := by
  induction h with
  | nil => exact List.Forall₂.nil
  | @cons c l cs ls hc _ ih =>
    obtain ⟨⟨ex, ey, hs⟩, hn⟩ := hc
    exact List.Forall₂.cons ⟨level_ints hs hn (hh l (by simp)) (hf l (by simp)).area, hs.verts⟩
      (ih (fun l hl => hf l (List.mem_cons_of_mem _ hl)) (fun l hl => hh l (List.mem_cons_of_mem _ hl)))

theorem sum_forall₂ {α β : Type} {R : α → β → Prop} {as : List α} {bs : List β} (h : List.Forall₂ R as bs) (f : α → ℝ) (g : β → ℝ)
    (hfg : ∀ a b, R a b → f a = g b) : (as.map f).sum = (bs.map g).sum := by
  induction h with
  | nil => rfl
  | cons h _ ih => simp only [List.map_cons, List.sum_cons]; rw [hfg _ _ h, ih]

theorem polySum_eq {cs : List Cap} {M : SMesh}
    (h : List.Forall₂ (fun c l => Level c l (SignType.sign (vectorArea l).z : ℝ) ∧ c.poly.vertices = l) cs M.rings) :
    polySum cs .one = absInt (fun _ => 1) M ∧ polySum cs .x = waterInt (fun v => v.x) M ∧ polySum cs .y = absInt (fun v => v.y) M ∧
    polySum cs .xy = waterInt (fun v => v.x * v.y) M ∧ polySum cs .x2 = absInt (fun v => v.x ^ 2) M ∧
    polySum cs .y2 = absInt (fun v => v.y ^ 2) M := by
  have hss : ∀ {c : Cap} {l : List V3} {s : ℝ}, Level c l s → s * s = 1 := by
    intro c l s h; rcases h.unit with h | h <;> rw [h] <;> norm_num
  unfold polySum absInt waterInt
  refine ⟨?_, ?_, ?_, ?_, ?_, ?_⟩ <;> refine sum_forall₂ h _ _ ?_ <;> rintro c l ⟨hl, -⟩ <;> have hs := hss hl
  · rw [hl.one]; linear_combination -c.i .one * hs
  · have := hl.x 0; simp only [sub_zero] at this; rw [this]; ring
  · have := hl.y 0; simp only [sub_zero] at this; rw [this]; linear_combination -c.i .y * hs
  · have := hl.xy 0 0; simp only [sub_zero] at this; rw [this]; ring
  · have := hl.x2 0; simp only [sub_zero] at this; rw [this]; linear_combination -c.i .x2 * hs
  · have := hl.y2 0; simp only [sub_zero] at this; rw [this]; linear_combination -c.i .y2 * hs

theorem waterInt_shift {cs : List Cap} {M : SMesh}
    (h : List.Forall₂ (fun c l => Level c l (SignType.sign (vectorArea l).z : ℝ) ∧ c.poly.vertices = l) cs M.rings) (ho : AllOuter M) (a b : ℝ) :
    waterInt (fun _ => 1) M = polySum cs .one ∧
    waterInt (fun v => v.x) M = polySum cs .x ∧
    waterInt (fun v => v.y) M = polySum cs .y ∧
    waterInt (fun v => v.x - a) M = polySum cs .x - a * polySum cs .one ∧
    waterInt (fun v => v.y - b) M = polySum cs .y - b * polySum cs .one ∧
    waterInt (fun v => (v.x - a) * (v.y - b)) M = polySum cs .xy - a * polySum cs .y - b * polySum cs .x + a * b * polySum cs .one ∧
    waterInt (fun v => (v.x - a) ^ 2) M = polySum cs .x2 - 2 * a * polySum cs .x + a ^ 2 * polySum cs .one ∧
    waterInt (fun v => (v.y - b) ^ 2) M = polySum cs .y2 - 2 * b * polySum cs .y + b ^ 2 * polySum cs .one := by
  have h' : List.Forall₂ (fun c l => Level c l 1) cs M.rings := by
    have : ∀ ls : List (List V3), ∀ cs : List Cap, (∀ l ∈ ls, Outer l) →
        List.Forall₂ (fun c l => Level c l (SignType.sign (vectorArea l).z : ℝ) ∧ c.poly.vertices = l) cs ls →
        List.Forall₂ (fun c l => Level c l 1) cs ls := by
      intro ls cs ho h
      induction h with
      | nil => exact List.Forall₂.nil
      | @cons c l cs ls hc _ ih =>
        have h0 : 0 < (vectorArea l).z := ho l (by simp)
        have h1 := hc.1
        rw [sign_pos h0] at h1
        refine List.Forall₂.cons ?_ (ih fun l hl => ho l (List.mem_cons_of_mem _ hl))
        simpa using h1
    exact this _ _ ho h
  clear h ho
  unfold waterInt polySum
  generalize M.rings = R at *
  induction h' with
  | nil => simp
  | @cons c l cs ls hl _ ih =>
    obtain ⟨i1, i2, i3, i4, i5, i6, i7, i8⟩ := ih
    have hx := hl.x 0
    have hy := hl.y 0
    simp only [sub_zero] at hx hy
    simp only [List.map_cons, List.sum_cons, i1, i2, i3, i4, i5, i6, i7, i8, hl.one, hl.x a, hl.y b, hl.xy a b, hl.x2 a, hl.y2 b, hx, hy]
    refine ⟨?_, ?_, ?_, ?_, ?_, ?_, ?_, ?_⟩ <;> ring

/-! ## Lengths -/

theorem foldl_min {α : Type} (f : α → ℝ) (l : List α) (m : ℝ) :
    l.foldl (fun m b => min m (f b)) m ≤ m ∧ (∀ b ∈ l, l.foldl (fun m b => min m (f b)) m ≤ f b) ∧
    (l.foldl (fun m b => min m (f b)) m = m ∨ ∃ b ∈ l, l.foldl (fun m b => min m (f b)) m = f b) := by
  induction l generalizing m with
  | nil => simp
  | cons b l ih =>
    rw [List.foldl_cons]
    obtain ⟨h1, h2, h3⟩ := ih (min m (f b))
    refine ⟨h1.trans (min_le_left _ _), ?_, ?_⟩
    · intro b' hb'
      rcases List.mem_cons.mp hb' with rfl | hb'
      · exact h1.trans (min_le_right _ _)
      · exact h2 b' hb'
    · rcases h3 with h3 | ⟨b', hb', h3⟩
      · rcases min_choice m (f b) with h | h
        · left; rw [h3, h]
        · right; exact ⟨b, by simp, by rw [h3, h]⟩
      · right; exact ⟨b', List.mem_cons_of_mem _ hb', h3⟩
theorem foldl_max {α : Type} (f : α → ℝ) (l : List α) (m : ℝ) :
    m ≤ l.foldl (fun m b => max m (f b)) m ∧ (∀ b ∈ l, f b ≤ l.foldl (fun m b => max m (f b)) m) ∧
    (l.foldl (fun m b => max m (f b)) m = m ∨ ∃ b ∈ l, l.foldl (fun m b => max m (f b)) m = f b) := by
  induction l generalizing m with
  | nil => simp
  | cons b l ih =>
    rw [List.foldl_cons]
    obtain ⟨h1, h2, h3⟩ := ih (max m (f b))
    refine ⟨(le_max_left _ _).trans h1, ?_, ?_⟩
    · intro b' hb'
      rcases List.mem_cons.mp hb' with rfl | hb'
      · exact (le_max_right _ _).trans h1
      · exact h2 b' hb'
    · rcases h3 with h3 | ⟨b', hb', h3⟩
      · rcases max_choice m (f b) with h | h
        · left; rw [h3, h]
        · right; exact ⟨b, by simp, by rw [h3, h]⟩
      · right; exact ⟨b', List.mem_cons_of_mem _ hb', h3⟩

/-- The bounding box of a polygon along x. -/
def IsBox (b : AABB) (l : List V3) : Prop :=
  (∀ v ∈ l, b.xmin ≤ v.x ∧ v.x ≤ b.xmax) ∧ (∃ v ∈ l, v.x = b.xmin) ∧ ∃ v ∈ l, v.x = b.xmax

theorem box_of {p : Polygon} {l : List V3} (hv : p.vertices = l) (hl : l ≠ []) : ∃ b, p.boundingBox = some b ∧ IsBox b l := by
  unfold Polygon.boundingBox
  rw [hv]
  cases l with
  | nil => exact absurd rfl hl
  | cons v0 t =>
    obtain ⟨-, h5, h6, h7, -⟩ := foldl_box (v0 :: t) ⟨v0.x, v0.x, v0.y, v0.y⟩
    refine ⟨_, rfl, fun v hv => ⟨(h5 v hv).1, (h5 v hv).2.1⟩, ?_, ?_⟩
    · rcases h6 with h | ⟨v, hv, h⟩
      · exact ⟨v0, by simp, h.symm⟩
      · exact ⟨v, hv, h.symm⟩
    · rcases h7 with h | ⟨v, hv, h⟩
      · exact ⟨v0, by simp, h.symm⟩
      · exact ⟨v, hv, h.symm⟩

theorem boxes_of {cs : List Cap} {ls : List (List V3)} (h : List.Forall₂ (fun (c : Cap) l => c.poly.vertices = l) cs ls) (hl : ∀ l ∈ ls, l ≠ []) :
    ∃ bs, boxes cs = some bs ∧ List.Forall₂ IsBox bs ls := by
  induction h with
  | nil => exact ⟨[], rfl, List.Forall₂.nil⟩
  | @cons c l cs ls hc _ ih =>
    obtain ⟨bs, h1, h2⟩ := ih fun l h => hl l (List.mem_cons_of_mem _ h)
    obtain ⟨b, h3, h4⟩ := box_of hc (hl l (by simp))
    refine ⟨b :: bs, ?_, List.Forall₂.cons h4 h2⟩
    unfold boxes
    rw [h3, h1]
    rfl

theorem waterline_of {bs : List AABB} {ls : List (List V3)} (h : List.Forall₂ IsBox bs ls) (hne : ls ≠ []) :
    ∃ L, lengthAtWaterline bs = some L ∧ Extent (fun v => v.x) (fun v => ∃ l ∈ ls, v ∈ l) L := by
  cases h with
  | nil => exact absurd rfl hne
  | @cons b l bs ls hb hbs =>
    have h : List.Forall₂ IsBox (b :: bs) (l :: ls) := List.Forall₂.cons hb hbs
    have hlook : ∀ b' ∈ b :: bs, ∃ l' ∈ l :: ls, IsBox b' l' := by
      intro b' hb'
      obtain ⟨i, hi, rfl⟩ := List.getElem_of_mem hb'
      have hi' : i < (l :: ls).length := h.length_eq ▸ hi
      exact ⟨(l :: ls)[i], List.getElem_mem hi', h.get hi hi'⟩
    have hlook' : ∀ l' ∈ l :: ls, ∃ b' ∈ b :: bs, IsBox b' l' := by
      intro l' hl'
      obtain ⟨i, hi, rfl⟩ := List.getElem_of_mem hl'
      have hi' : i < (b :: bs).length := h.length_eq ▸ hi
      exact ⟨(b :: bs)[i], List.getElem_mem hi', h.get hi' hi⟩
    refine ⟨_, rfl, ?_, ?_⟩
    · rintro u v ⟨lu, hlu, hu⟩ ⟨lv, hlv, hv⟩
      obtain ⟨bu, hbu, h1⟩ := hlook' lu hlu
      obtain ⟨bv, hbv, h2⟩ := hlook' lv hlv
      have e1 := (foldl_min AABB.xmin (b :: bs) b.xmin).2.1 bu hbu
      have e2 := (foldl_max AABB.xmax (b :: bs) b.xmax).2.1 bv hbv
      have e3 := (h1.1 u hu).1
      have e4 := (h2.1 v hv).2
      simp only []
      linarith
    · have hmin : ∃ b' ∈ b :: bs, (b :: bs).foldl (fun m b => min m b.xmin) b.xmin = b'.xmin := by
        rcases (foldl_min AABB.xmin (b :: bs) b.xmin).2.2 with h | h
        · exact ⟨b, by simp, h⟩
        · exact h
      have hmax : ∃ b' ∈ b :: bs, (b :: bs).foldl (fun m b => max m b.xmax) b.xmax = b'.xmax := by
        rcases (foldl_max AABB.xmax (b :: bs) b.xmax).2.2 with h | h
        · exact ⟨b, by simp, h⟩
        · exact h
      obtain ⟨bu, hbu, e1⟩ := hmin
      obtain ⟨bv, hbv, e2⟩ := hmax
      obtain ⟨lu, hlu, h1⟩ := hlook bu hbu
      obtain ⟨lv, hlv, h2⟩ := hlook bv hbv
      obtain ⟨u, hu, e3⟩ := h1.2.1
      obtain ⟨v, hv, e4⟩ := h2.2.2
      exact ⟨u, v, ⟨lu, hlu, hu⟩, ⟨lv, hlv, hv⟩, by show v.x - u.x = _; rw [e1, e2, e3, e4]⟩

/-! ## C80 -/

theorem caps_ready (j : List V3 → Junk) {M : SMesh} (h : Good M) (hl : M.loops ≠ []) (hh : AllHorizontal M) :
    ∃ cs L, mkCaps j M.rings = some cs ∧ CapsSpec cs M.rings ∧
      List.Forall₂ (fun c l => Level c l (SignType.sign (vectorArea l).z : ℝ) ∧ c.poly.vertices = l) cs M.rings ∧
      (boxes cs).bind lengthAtWaterline = some L ∧ Extent (fun v => v.x) (OnWaterline M) L := by
  obtain ⟨cs, h1, h2⟩ := h.caps j
  have h3 := caps_level h2 h.flat hh
  have hv : List.Forall₂ (fun (c : Cap) l => c.poly.vertices = l) cs M.rings := h3.imp fun _ _ h => h.2
  obtain ⟨bs, h4, h5⟩ := boxes_of hv (fun l hl he => (h.flat l hl).area (by rw [he]; rfl))
  obtain ⟨L, h6, h7⟩ := waterline_of h5 (by unfold SMesh.rings; simpa using hl)
  exact ⟨cs, L, h1, h2, h3, by rw [h4]; exact h6, h7⟩

/-- **C80.** For every mesh clipped by a horizontal plane with outer loops only (any number of them) and every fresh object, in either
convention: the computation succeeds and the results are those of the definitions, at the reduction point. -/
theorem C80_properties_partial (j : List V3 → Junk) (rho g : ℝ) (cog red : V3) (fc : FC) (M : SMesh) (h : Good M) (hl : M.loops ≠ [])
    (hh : AllHorizontal M) (ho : AllOuter M) (O : V3) (hV : volInt (fun _ => 1) O M.closedUp ≠ 0) :
    ∃ p B, (Props.new rho g cog red fc).compute j M = some p ∧
      volInt (fun _ => 1) O M.closedUp • B = ⟨volInt (fun v => v.x) O M.closedUp, volInt (fun v => v.y) O M.closedUp,
        volInt (fun v => v.z) O M.closedUp⟩ ∧
      IsHydrostatic rho g M (volInt (fun _ => 1) O M.closedUp) B (conv fc cog) (conv fc red) p := by
  obtain ⟨cs, L, h1, h2, h3, h4, -⟩ := caps_ready j h hl hh
  refine ⟨((Props.new rho g cog red fc).setGeometry M L).hydrostatic M cs, cogOf M.tris cs, ?_, ?_, ?_⟩
  · unfold Props.compute Props.geometric
    rw [h1, Option.bind_some, h4]
    rfl
  · obtain ⟨G, hG, hG2⟩ := C72_centre M h j O hV
    unfold SMesh.getCOG at hG
    rw [h1, Option.map_some] at hG
    injection hG with hG
    rw [hG]; exact hG2
  have hv := volumeOf_eq h h2 O
  obtain ⟨w1, w2, w3, w4, w5, w6, w7, w8⟩ := waterInt_shift h3 ho (conv fc red).x (conv fc red).y
  have harea : areaOf M.tris cs - (cs.map fun c => c.poly.getArea).sum = (M.tris.map (surfInt fun _ => 1)).sum := by
    unfold areaOf
    rw [(C70_area M h j).1]; ring
  unfold Props.hydrostatic Props.setGeometry Props.new
  simp only [hv]
  generalize volInt (fun _ => 1) O M.closedUp = V at *
  have hstiff : ∀ (k : Stiffness) (a b c d e f : ℝ), (k.setDiagonal a b c).setNonDiagonal d e f = ⟨a, d, e, d, b, f, e, f, c⟩ := by
    intros; rfl
  constructor
  case symm => simp only [hstiff]; rfl
  all_goals try simp only [hstiff, Stiffness.getK33, Stiffness.getK34, Stiffness.getK35, Stiffness.getK45, Stiffness.getK44, Stiffness.getK55]
  · exact harea
  · rw [w1]; ring
  · intro hrg h1
    rw [w1] at h1
    obtain ⟨hr, hg⟩ := mul_ne_zero_iff.mp hrg
    rw [w1, w2, w3]
    refine ⟨?_, ?_, trivial⟩ <;> field_simp
  · rw [w8]; ring
  · rw [w7]; ring
  · ring
  · ring
  · rw [w1]
  · rw [w5]; ring
  · rw [w4]; ring
  · rw [w6]; ring

theorem hull_rings (first : Face → Fin 3) (l : List V3) (hl : l ∈ (hull first).rings) : vectorArea l = ⟨0, 0, 1 / 2⟩ := by
  have : l = [(⟨1, 0, 0⟩ : V3), ⟨0, 1, 0⟩, 0, ⟨1, 0, 0⟩] := by
    simpa [SMesh.rings, hull] using hl
  subst this
  simp only [vectorArea]
  ext <;> simp

/-- The hypotheses are met by the hull of `Buoyancy`: heave stiffness 1000 × 10 × 1/2. -/
example (j : List V3 → Junk) (first : Face → Fin 3) :
    ∃ p, (Props.new 1000 10 0 0 .NWU).compute j (hull first) = some p ∧ p.K.getK33 = 5000 := by
  obtain ⟨p, B, h1, -, h3⟩ := C80_properties_partial j 1000 10 0 0 .NWU (hull first) (hull_good first) (by simp [hull])
    (fun l hl => by rw [Horizontal, hull_rings first l hl]; simp) (fun l hl => by rw [Outer, hull_rings first l hl]; norm_num) 0
    (by rw [hull_volume]; norm_num)
  refine ⟨p, h1, ?_⟩
  have hw : waterInt (fun _ => 1) (hull first) = 1 / 2 := by
    have : (hull first).rings = [[(⟨1, 0, 0⟩ : V3), ⟨0, 1, 0⟩, 0, ⟨1, 0, 0⟩]] := by simp [SMesh.rings, hull]
    unfold waterInt loopInt
    rw [this]
    simp only [flux_one, fan, fan.go, List.map_cons, List.map_nil, List.sum_cons, List.sum_nil, normalVec]
    simp
  rw [h3.K33, hw]; norm_num

/-- **C80, lengths.** Draught, length and breadth of the submerged part are the extents of the mesh; the length at the waterline is
that of the boundary. -/
theorem C80_lengths (j : List V3 → Junk) (p0 : Props) (M : SMesh) (h : Good M) (hn : 0 < M.nv) (hl : M.loops ≠ []) (hh : AllHorizontal M) :
    ∃ p, p0.compute j M = some p ∧ Extent (fun v => v.z) (IsVertex M) p.draught ∧ Extent (fun v => v.x) (IsVertex M) p.lengthSubmerged ∧
      Extent (fun v => v.y) (IsVertex M) p.breadthSubmerged ∧ Extent (fun v => v.x) (OnWaterline M) p.lengthWaterline := by
  obtain ⟨cs, L, h1, h2, h3, h4, h5⟩ := caps_ready j h hl hh
  refine ⟨(p0.setGeometry M L).hydrostatic M cs, ?_, ?_, ?_, ?_, h5⟩
  · unfold Props.compute Props.geometric
    rw [h1, Option.bind_some, h4]
    rfl
  all_goals obtain ⟨hb, ⟨a1, b1, c1⟩, ⟨a2, b2, c2⟩, ⟨a3, b3, c3⟩, ⟨a4, b4, c4⟩, ⟨a5, b5, c5⟩, ⟨a6, b6, c6⟩⟩ := C75_bounding_box M hn
  · have hz : (0 : ℝ) ≤ M.boundingBox.zmax - M.boundingBox.zmin := by
      obtain ⟨-, -, -, -, x, y⟩ := hb 0 hn
      linarith
    show Extent _ _ |M.boundingBox.zmax - M.boundingBox.zmin|
    rw [abs_of_nonneg hz]
    refine ⟨?_, _, _, ⟨a5, b5, rfl⟩, ⟨a6, b6, rfl⟩, by simp only [c5, c6]⟩
    rintro u v ⟨i, hi, rfl⟩ ⟨k, hk, rfl⟩
    obtain ⟨-, -, -, -, x, -⟩ := hb i hi
    obtain ⟨-, -, -, -, -, y⟩ := hb k hk
    simp only []; linarith
  · refine ⟨?_, _, _, ⟨a1, b1, rfl⟩, ⟨a2, b2, rfl⟩, by show _ = M.boundingBox.xmax - M.boundingBox.xmin; rw [c1, c2]⟩
    rintro u v ⟨i, hi, rfl⟩ ⟨k, hk, rfl⟩
    obtain ⟨x, -⟩ := hb i hi
    obtain ⟨-, y, -⟩ := hb k hk
    show _ ≤ M.boundingBox.xmax - M.boundingBox.xmin
    linarith
  · refine ⟨?_, _, _, ⟨a3, b3, rfl⟩, ⟨a4, b4, rfl⟩, by show _ = M.boundingBox.ymax - M.boundingBox.ymin; rw [c3, c4]⟩
    rintro u v ⟨i, hi, rfl⟩ ⟨k, hk, rfl⟩
    obtain ⟨-, -, x, -⟩ := hb i hi
    obtain ⟨-, -, -, y, -⟩ := hb k hk
    show _ ≤ M.boundingBox.ymax - M.boundingBox.ymin
    linarith

/-- **C80, inner loops (defect).** An inner loop (moonpool) is added to the water plane instead of being removed: the area and the
heave stiffness are too large by twice its area, for every mesh clipped by a horizontal plane. -/
theorem C80_moonpool_wrong (j : List V3 → Junk) (rho g : ℝ) (cog red : V3) (fc : FC) (M : SMesh) (h : Good M) (hl : M.loops ≠ [])
    (hh : AllHorizontal M) :
    ∃ p, (Props.new rho g cog red fc).compute j M = some p ∧
      p.waterPlaneArea = waterInt (fun _ => 1) M + 2 * (M.rings.map fun l => if Outer l then 0 else |loopInt (fun _ => 1) l|).sum ∧
      p.K.getK33 = rho * g * p.waterPlaneArea := by
  obtain ⟨cs, L, h1, h2, h3, h4, -⟩ := caps_ready j h hl hh
  refine ⟨((Props.new rho g cog red fc).setGeometry M L).hydrostatic M cs, ?_, ?_, ?_⟩
  · unfold Props.compute Props.geometric
    rw [h1, Option.bind_some, h4]
    rfl
  · show 0 + polySum cs .one = _
    rw [zero_add]
    have ha : ∀ l ∈ M.rings, vectorArea l ≠ 0 := fun l hl => (h.flat l hl).area
    have hpos : ∀ c l, Level c l (SignType.sign (vectorArea l).z : ℝ) → c.i .one = V3.norm (vectorArea l) → Horizontal l → vectorArea l ≠ 0 →
        c.i .one = loopInt (fun _ => 1) l + 2 * (if Outer l then 0 else |loopInt (fun _ => 1) l|) := by
      intro c l hlev hn hhor ha
      have hz : (vectorArea l).z ≠ 0 := by
        intro h0; apply ha; ext
        · exact hhor.1
        · exact hhor.2
        · exact h0
      have h1 := hlev.one
      have h0 : 0 ≤ c.i .one := by rw [hn]; exact Real.sqrt_nonneg _
      by_cases ho : Outer l
      · have ho' : 0 < (vectorArea l).z := ho
        rw [if_pos ho, h1, sign_pos ho']; simp
      · have hneg : (vectorArea l).z < 0 := lt_of_le_of_ne (not_lt.mp ho) hz
        rw [if_neg ho, h1, sign_neg hneg]
        simp only [SignType.neg_eq_neg_one, SignType.coe_neg, SignType.coe_one, neg_mul, one_mul, abs_neg, abs_of_nonneg h0]
        ring
    have harea : ∀ (ls : List (List V3)) (cs : List Cap), mkCaps j ls = some cs → (∀ l ∈ ls, Closed l ∧ Flat l) →
        List.Forall₂ (fun c l => c.i .one = V3.norm (vectorArea l)) cs ls := by
      intro ls
      induction ls with
      | nil => intro cs hc _; simp [mkCaps] at hc; subst hc; exact List.Forall₂.nil
      | cons l ls ih =>
        intro cs hc hcf
        unfold mkCaps at hc
        obtain ⟨c, hc1, hc2⟩ := Option.bind_eq_some_iff.mp hc
        obtain ⟨cs', hc3, rfl⟩ := Option.map_eq_some_iff.mp hc2
        refine List.Forall₂.cons ?_ (ih cs' hc3 fun l hl => hcf l (List.mem_cons_of_mem _ hl))
        obtain ⟨hcl, hf⟩ := hcf l (by simp)
        unfold mkCap at hc1
        have hpl : ∀ v ∈ l, V3.dot (v - centroid l) (V3.normalized (vectorArea l)) = 0 := by
          intro v hv
          have := hf.planar v hv
          unfold V3.normalized V3.dot at *
          simp only [V3.smul_x, V3.smul_y, V3.smul_z]
          linear_combination (V3.norm (vectorArea l))⁻¹ * this
        have hg : GoodInput l .NWU := by
          refine ⟨hcl, by rw [map_nwu]; exact hf.area, ?_⟩
          rw [map_nwu]
          intro v hv
          rw [hpl v hv]; norm_num
        obtain ⟨p, hp, ha, -⟩ := C23_area (j l) l .NWU hg
        rw [hp, Option.bind_some] at hc1
        obtain ⟨pl, -, h4⟩ := Option.map_eq_some_iff.mp hc1
        rw [← h4]
        exact ha
    have hA := harea M.rings cs h1 (fun l hl => by
      refine ⟨?_, h.flat l hl⟩
      obtain ⟨l', hl', rfl⟩ := List.mem_map.mp hl
      exact (h.boundary.closed l' hl').map M.pos)
    clear harea h4 h2 h1
    unfold polySum waterInt
    have hhor : ∀ l ∈ M.rings, Horizontal l := hh
    clear hl hh h
    generalize M.rings = R at *
    induction h3 with
    | nil => simp
    | @cons c l cs ls hc _ ih =>
      cases hA with
      | cons hA1 hA2 =>
        simp only [List.map_cons, List.sum_cons]
        rw [ih (fun l hl => ha l (List.mem_cons_of_mem _ hl)) hA2 (fun l hl => hhor l (List.mem_cons_of_mem _ hl)),
          hpos c l hc.1 hA1 (hhor l (by simp)) (ha l (by simp))]
        ring
  · show rho * g * polySum cs .one = rho * g * (0 + polySum cs .one)
    rw [zero_add]

/-- A hull with a well: an outer loop of area 8 and an inner one of area 1/2. -/
def moonpool (first : Face → Fin 3) : SMesh :=
  ⟨8, fun | 0 => ⟨0, 0, -1⟩ | 1 => ⟨4, 0, 0⟩ | 2 => ⟨0, 4, 0⟩ | 3 => 0 | 4 => ⟨1, 1, -1/8⟩ | 5 => ⟨2, 1, 0⟩ | 6 => ⟨1, 2, 0⟩ | 7 => ⟨1, 1, 0⟩ | _ => 0,
    [⟨0, 2, 1⟩, ⟨0, 1, 3⟩, ⟨0, 3, 2⟩, ⟨4, 5, 6⟩, ⟨4, 7, 5⟩, ⟨4, 6, 7⟩], first, [[1, 2, 3, 1], [5, 7, 6, 5]]⟩

theorem moonpool_rings (first : Face → Fin 3) :
    (moonpool first).rings = [[(⟨4, 0, 0⟩ : V3), ⟨0, 4, 0⟩, 0, ⟨4, 0, 0⟩], [⟨2, 1, 0⟩, ⟨1, 1, 0⟩, ⟨1, 2, 0⟩, ⟨2, 1, 0⟩]] := by
  simp [SMesh.rings, moonpool]
theorem moonpool_area1 : vectorArea [(⟨4, 0, 0⟩ : V3), ⟨0, 4, 0⟩, 0, ⟨4, 0, 0⟩] = ⟨0, 0, 8⟩ := by
  simp only [vectorArea]
  ext <;> simp
  norm_num
theorem moonpool_area2 : vectorArea [(⟨2, 1, 0⟩ : V3), ⟨1, 1, 0⟩, ⟨1, 2, 0⟩, ⟨2, 1, 0⟩] = ⟨0, 0, -1 / 2⟩ := by
  simp only [vectorArea]
  ext <;> simp
  norm_num

theorem moonpool_good (first : Face → Fin 3) : Good (moonpool first) := by
  refine ⟨⟨?_, ?_⟩, ?_⟩
  · intro l hl
    simp only [moonpool, List.mem_cons, List.not_mem_nil, or_false] at hl
    rcases hl with rfl | rfl <;> rfl
  · have hp : ((moonpool first).edges.map Prod.swap).Perm (moonpool first).edges := by
      show ((([⟨0, 2, 1⟩, ⟨0, 1, 3⟩, ⟨0, 3, 2⟩, ⟨4, 5, 6⟩, ⟨4, 7, 5⟩, ⟨4, 6, 7⟩] : List Face).flatMap faceEdges ++
          [[1, 2, 3, 1], [5, 7, 6, 5]].flatMap loopEdges).map Prod.swap).Perm
        (([⟨0, 2, 1⟩, ⟨0, 1, 3⟩, ⟨0, 3, 2⟩, ⟨4, 5, 6⟩, ⟨4, 7, 5⟩, ⟨4, 6, 7⟩] : List Face).flatMap faceEdges ++
          [[1, 2, 3, 1], [5, 7, 6, 5]].flatMap loopEdges)
      decide
    intro a b
    have h1 := hp.count_eq (b, a)
    have h2 := List.count_map_of_injective (moonpool first).edges Prod.swap Prod.swap_injective (a, b)
    simp only [Prod.swap_prod_mk] at h2
    rw [← h2, h1]
  · intro l hl
    rw [moonpool_rings] at hl
    simp only [List.mem_cons, List.not_mem_nil, or_false] at hl
    rcases hl with rfl | rfl
    · refine ⟨?_, ?_⟩
      · rw [moonpool_area1]; intro h; have := congrArg V3.z h; norm_num at this
      · rw [moonpool_area1]
        intro v hv
        unfold centroid
        simp only [sumPts, List.length_cons, List.length_nil]
        simp only [List.mem_cons, List.not_mem_nil, or_false] at hv
        rcases hv with rfl | rfl | rfl | rfl <;> simp [V3.dot]
    · refine ⟨?_, ?_⟩
      · rw [moonpool_area2]; intro h; have := congrArg V3.z h; norm_num at this
      · rw [moonpool_area2]
        intro v hv
        unfold centroid
        simp only [sumPts, List.length_cons, List.length_nil]
        simp only [List.mem_cons, List.not_mem_nil, or_false] at hv
        rcases hv with rfl | rfl | rfl | rfl <;> simp [V3.dot]

/-- Heave stiffness for an area of 8.5 m² instead of 7.5 m². -/
example (j : List V3 → Junk) (first : Face → Fin 3) :
    waterInt (fun _ => 1) (moonpool first) = 7.5 ∧
    ∃ p, (Props.new 1000 10 0 0 .NWU).compute j (moonpool first) = some p ∧ p.K.getK33 = 10000 * 8.5 := by
  have h1 : loopInt (fun _ => 1) [(⟨4, 0, 0⟩ : V3), ⟨0, 4, 0⟩, 0, ⟨4, 0, 0⟩] = 8 := by
    unfold loopInt
    simp only [flux_one, fan, fan.go, List.map_cons, List.map_nil, List.sum_cons, List.sum_nil, normalVec]
    simp; norm_num
  have h2 : loopInt (fun _ => 1) [(⟨2, 1, 0⟩ : V3), ⟨1, 1, 0⟩, ⟨1, 2, 0⟩, ⟨2, 1, 0⟩] = -1 / 2 := by
    unfold loopInt
    simp only [flux_one, fan, fan.go, List.map_cons, List.map_nil, List.sum_cons, List.sum_nil, normalVec]
    simp; norm_num
  have hw : waterInt (fun _ => 1) (moonpool first) = 7.5 := by
    unfold waterInt
    rw [moonpool_rings]
    simp only [List.map_cons, List.map_nil, List.sum_cons, List.sum_nil, h1, h2]
    norm_num
  refine ⟨hw, ?_⟩
  obtain ⟨p, e1, e2, e3⟩ := C80_moonpool_wrong j 1000 10 0 0 .NWU (moonpool first) (moonpool_good first) (by simp [moonpool]) (by
    intro l hl
    rw [moonpool_rings] at hl
    simp only [List.mem_cons, List.not_mem_nil, or_false] at hl
    rcases hl with rfl | rfl
    · rw [Horizontal, moonpool_area1]; simp
    · rw [Horizontal, moonpool_area2]; simp)
  refine ⟨p, e1, ?_⟩
  rw [e3, e2, hw, moonpool_rings]
  have o1 : Outer [(⟨4, 0, 0⟩ : V3), ⟨0, 4, 0⟩, 0, ⟨4, 0, 0⟩] := by rw [Outer, moonpool_area1]; norm_num
  have o2 : ¬Outer [(⟨2, 1, 0⟩ : V3), ⟨1, 1, 0⟩, ⟨1, 2, 0⟩, ⟨2, 1, 0⟩] := by rw [Outer, moonpool_area2]; norm_num
  simp only [List.map_cons, List.map_nil, List.sum_cons, List.sum_nil, if_pos o1, if_neg o2, h2]
  norm_num [abs_of_neg]

/-- Repeating `ComputeProperties`. -/
def Props.computeTimes (j : List V3 → Junk) (M : SMesh) : ℕ → Props → Option Props
  | 0, p => some p
  | n + 1, p => (Props.computeTimes j M n p).bind (Props.compute j M)

/-- **C80, repeated computation (defect).** The area of the water plane and the metacentric radii are accumulated: after n calls they
are n times too large, hence the metacentric heights and K44, K55 are wrong from the second call on. -/
theorem C80_repeated_wrong (j : List V3 → Junk) (rho g : ℝ) (cog red : V3) (fc : FC) (M : SMesh) (h : Good M) (hl : M.loops ≠ [])
    (hh : AllHorizontal M) :
    ∃ p, (Props.new rho g cog red fc).compute j M = some p ∧
      ∀ n : ℕ, ∃ q, Props.computeTimes j M (n + 1) (Props.new rho g cog red fc) = some q ∧
        q.waterPlaneArea = (n + 1) * p.waterPlaneArea ∧ q.radiusT = (n + 1) * p.radiusT ∧ q.radiusL = (n + 1) * p.radiusL ∧
        q.heightT = p.heightT + n * p.radiusT ∧ q.K.getK44 = p.K.getK44 + n * (rho * g * p.volume * p.radiusT) ∧
        q.volume = p.volume ∧ q.K.getK33 = p.K.getK33 := by
  obtain ⟨cs, L, h1, h2, h3, h4, -⟩ := caps_ready j h hl hh
  have hc : ∀ q : Props, q.compute j M = some ((q.setGeometry M L).hydrostatic M cs) := by
    intro q
    unfold Props.compute Props.geometric
    rw [h1, Option.bind_some, h4]
    rfl
  refine ⟨_, hc _, ?_⟩
  set p := ((Props.new rho g cog red fc).setGeometry M L).hydrostatic M cs with hp
  have key : ∀ n : ℕ, ∃ q, Props.computeTimes j M (n + 1) (Props.new rho g cog red fc) = some q ∧
      q.waterPlaneArea = (n + 1) * p.waterPlaneArea ∧ q.radiusT = (n + 1) * p.radiusT ∧ q.radiusL = (n + 1) * p.radiusL ∧
      q.heightT = p.heightT + n * p.radiusT ∧ q.K.getK44 = p.K.getK44 + n * (rho * g * p.volume * p.radiusT) ∧
      q.volume = p.volume ∧ q.K.getK33 = p.K.getK33 ∧ q.rho = rho ∧ q.g = g ∧ q.cog = conv fc cog ∧ q.red = conv fc red := by
    intro n
    induction n with
    | zero =>
      refine ⟨p, ?_, ?_⟩
      · show (some _).bind _ = _
        rw [Option.bind_some, hc]
      · simp; exact ⟨rfl, rfl, rfl, rfl⟩
    | succ n ih =>
      obtain ⟨q, e, k1, k2, k3, k4, k5, k6, k7, k8, k9, k10, k11⟩ := ih
      refine ⟨(q.setGeometry M L).hydrostatic M cs, ?_, ?_⟩
      · show (Props.computeTimes j M (n + 1) _).bind _ = _
        rw [e, Option.bind_some, hc]
      have d1 : p.waterPlaneArea = polySum cs .one := by
        show (0 : ℝ) + _ = _; rw [zero_add]
      have d2 : p.radiusT = (polySum cs .y2 - 2 * (conv fc red).y * polySum cs .y + (conv fc red).y * (conv fc red).y * polySum cs .one) / volumeOf M.tris cs := by
        show (0 : ℝ) + _ = _; rw [zero_add]; rfl
      have d3 : p.radiusL = (polySum cs .x2 - 2 * (conv fc red).x * polySum cs .x + (conv fc red).x * (conv fc red).x * polySum cs .one) / volumeOf M.tris cs := by
        show (0 : ℝ) + _ = _; rw [zero_add]; rfl
      have d4 : p.heightT = p.radiusT + ((cogOf M.tris cs).z - (conv fc cog).z) := rfl
      have d5 : p.K.getK44 = rho * g * volumeOf M.tris cs * p.heightT := rfl
      have d6 : p.volume = volumeOf M.tris cs := rfl
      have r2 : ((q.setGeometry M L).hydrostatic M cs).radiusT = q.radiusT + p.radiusT := by
        rw [d2, ← k11]; rfl
      have r4 : ((q.setGeometry M L).hydrostatic M cs).heightT = ((q.setGeometry M L).hydrostatic M cs).radiusT + ((cogOf M.tris cs).z - (conv fc cog).z) := by
        rw [← k10]; rfl
      have r5 : ((q.setGeometry M L).hydrostatic M cs).K.getK44 = rho * g * volumeOf M.tris cs * ((q.setGeometry M L).hydrostatic M cs).heightT := by
        rw [← k8, ← k9]; rfl
      refine ⟨?_, ?_, ?_, ?_, ?_, rfl, ?_, k8, k9, k10, k11⟩
      · show q.waterPlaneArea + polySum cs .one = _
        rw [k1, d1]; push_cast; ring
      · rw [r2, k2]; push_cast; ring
      · have : ((q.setGeometry M L).hydrostatic M cs).radiusL = q.radiusL + p.radiusL := by
          rw [d3, ← k11]; rfl
        rw [this, k3]; push_cast; ring
      · rw [r4, r2, k2, d4]; push_cast; ring
      · rw [r5, r4, r2, k2, d5, d4, d6]; push_cast; ring
      · show q.rho * q.g * polySum cs .one = rho * g * polySum cs .one
        rw [k8, k9]
  intro n
  obtain ⟨q, e, k1, k2, k3, k4, k5, k6, k7, -⟩ := key n
  exact ⟨q, e, k1, k2, k3, k4, k5, k6, k7⟩

/-- **C80, no waterline (defect).** With a mesh without boundary (body fully immersed or dry) the computation reads a polygon that
does not exist. -/
theorem C80_immersed_wrong (j : List V3 → Junk) (p : Props) (M : SMesh) (hl : M.loops = []) : p.compute j M = none := by
  unfold Props.compute SMesh.rings
  rw [hl]
  rfl

end Frydom.Hydro
