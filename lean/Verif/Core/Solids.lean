import Verif.Core.MassBody
import Mathlib.Analysis.SpecialFunctions.PolarCoord
import Mathlib.MeasureTheory.Measure.Prod
import Mathlib.MeasureTheory.Integral.Prod
import Mathlib.Analysis.SpecialFunctions.Integrals.Basic
import Mathlib.MeasureTheory.Measure.Lebesgue.Integral

/-!
# Bodies made as boxes, cylinders and spheres (C127)

`src/frydom/core/body/FrBodyEasy.cpp`.
-/

open Classical MeasureTheory Set

noncomputable section

namespace Frydom.Core
open Frydom.Geom Frydom.Inertia

namespace Solids

/-- `makeItBox` (FrBodyEasy.cpp:20-48), its inertia tensor. Collision shapes and assets are not modelled. -/
def boxTensor (xSize ySize zSize mass : ℝ) : Tensor :=
  let xSize2 := xSize * xSize
  let ySize2 := ySize * ySize
  let zSize2 := zSize * zSize
  let Ixx := (1 / 12) * mass * (ySize2 + zSize2)
  let Iyy := (1 / 12) * mass * (xSize2 + zSize2)
  let Izz := (1 / 12) * mass * (xSize2 + ySize2)
  Tensor.ofCOG mass ⟨Ixx, Iyy, Izz, 0, 0, 0⟩ 0 .NWU
/-- `makeItCylinder` (FrBodyEasy.cpp:50-74), its inertia tensor. -/
def cylinderTensor (radius height mass : ℝ) : Tensor :=
  let r2 := radius * radius
  let h2 := height * height
  let Ixx := (1 / 12) * mass * (3 * r2 + h2)
  let Iyy := 0.5 * mass * r2
  let Izz := Ixx
  Tensor.ofCOG mass ⟨Ixx, Iyy, Izz, 0, 0, 0⟩ 0 .NWU
/-- `makeItSphere` (FrBodyEasy.cpp:76-96), its inertia tensor; also in the constructor of `FrMooringBuoy` (FrMooringBuoy.cpp:54-60). -/
def sphereTensor (radius mass : ℝ) : Tensor :=
  let inertia := (2.0 / 5.0) * mass * radius * radius
  Tensor.ofCOG mass ⟨inertia, inertia, inertia, 0, 0, 0⟩ 0 .NWU

/-- `make_BoxBody`, `make_CylinderBody`, `make_SphereBody` (FrBodyEasy.cpp:98-129): a new body given that tensor. -/
def makeBody (b : MassBody) (t : Tensor) : MassBody := b.setInertiaTensor t

/-! ## Specification: homogeneous solids -/

/-- The point with these coordinates. -/
def pt (p : ℝ × ℝ × ℝ) : V3 := ⟨p.1, p.2.1, p.2.2⟩
/-- Integral of a function over a solid (Lebesgue measure of space). -/
def over (S : Set V3) (f : V3 → ℝ) : ℝ := ∫ p : ℝ × ℝ × ℝ, S.indicator f (pt p)

/-- `t` is the tensor of the solid `S` filled with a homogeneous material: for some density, the mass is the integral of the density, the centre of gravity is the barycentre,
and the inertia about it is that of the matter. -/
structure Homogeneous (t : Tensor) (S : Set V3) (d : ℝ) : Prop where
  mass : t.mass = d * over S fun _ => 1
  cogx : t.mass * t.cog.x = d * over S fun p => p.x
  cogy : t.mass * t.cog.y = d * over S fun p => p.y
  cogz : t.mass * t.cog.z = d * over S fun p => p.z
  Ixx : t.I.a00 = d * over S fun p => (p.y - t.cog.y) ^ 2 + (p.z - t.cog.z) ^ 2
  Iyy : t.I.a11 = d * over S fun p => (p.x - t.cog.x) ^ 2 + (p.z - t.cog.z) ^ 2
  Izz : t.I.a22 = d * over S fun p => (p.x - t.cog.x) ^ 2 + (p.y - t.cog.y) ^ 2
  Ixy : t.I.a01 = -(d * over S fun p => (p.x - t.cog.x) * (p.y - t.cog.y)) ∧ t.I.a10 = t.I.a01
  Ixz : t.I.a02 = -(d * over S fun p => (p.x - t.cog.x) * (p.z - t.cog.z)) ∧ t.I.a20 = t.I.a02
  Iyz : t.I.a12 = -(d * over S fun p => (p.y - t.cog.y) * (p.z - t.cog.z)) ∧ t.I.a21 = t.I.a12

/-- A box centred at the origin. -/
def box (a b c : ℝ) : Set V3 := {p | |p.x| ≤ a / 2 ∧ |p.y| ≤ b / 2 ∧ |p.z| ≤ c / 2}
/-- A cylinder of axis `y` centred at the origin. -/
def cylinder (r h : ℝ) : Set V3 := {p | p.x ^ 2 + p.z ^ 2 ≤ r ^ 2 ∧ |p.y| ≤ h / 2}
/-- A ball centred at the origin. -/
def ball (r : ℝ) : Set V3 := {p | p.x ^ 2 + p.y ^ 2 + p.z ^ 2 ≤ r ^ 2}

/-! ## Symmetries -/

/-- Exchange of the first two coordinates. -/
theorem mp_swap12 : MeasurePreserving (fun p : ℝ × ℝ × ℝ => ((p.2.1, p.1, p.2.2) : ℝ × ℝ × ℝ)) := by
  have h1 : MeasurePreserving (MeasurableEquiv.prodAssoc : (ℝ × ℝ) × ℝ ≃ᵐ ℝ × ℝ × ℝ) := volume_preserving_prodAssoc
  have h2 : MeasurePreserving (Prod.map Prod.swap id : (ℝ × ℝ) × ℝ → (ℝ × ℝ) × ℝ) := (Measure.measurePreserving_swap).prod (MeasurePreserving.id _)
  exact h1.comp (h2.comp (h1.symm _))
/-- Exchange of the last two. -/
theorem mp_swap23 : MeasurePreserving (fun p : ℝ × ℝ × ℝ => ((p.1, p.2.2, p.2.1) : ℝ × ℝ × ℝ)) :=
  (MeasurePreserving.id _).prod Measure.measurePreserving_swap

theorem over_swap12 (S : Set V3) (f : V3 → ℝ) : over S f = ∫ p : ℝ × ℝ × ℝ, S.indicator f ⟨p.2.1, p.1, p.2.2⟩ := by
  let e : ℝ × ℝ × ℝ ≃ᵐ ℝ × ℝ × ℝ := ⟨⟨fun p => (p.2.1, p.1, p.2.2), fun p => (p.2.1, p.1, p.2.2), fun _ => rfl, fun _ => rfl⟩, mp_swap12.measurable, mp_swap12.measurable⟩
  have := (show MeasurePreserving e from mp_swap12).integral_comp' (g := fun p => S.indicator f (pt p))
  rw [over, ← this]; rfl
theorem over_swap23 (S : Set V3) (f : V3 → ℝ) : over S f = ∫ p : ℝ × ℝ × ℝ, S.indicator f ⟨p.1, p.2.2, p.2.1⟩ := by
  let e : ℝ × ℝ × ℝ ≃ᵐ ℝ × ℝ × ℝ := ⟨⟨fun p => (p.1, p.2.2, p.2.1), fun p => (p.1, p.2.2, p.2.1), fun _ => rfl, fun _ => rfl⟩, mp_swap23.measurable, mp_swap23.measurable⟩
  have := (show MeasurePreserving e from mp_swap23).integral_comp' (g := fun p => S.indicator f (pt p))
  rw [over, ← this]; rfl

/-- A solid unchanged by the exchange of `x` and `y`. -/
theorem over_sym12 (S : Set V3) (hS : ∀ x y z, (⟨x, y, z⟩ : V3) ∈ S ↔ (⟨y, x, z⟩ : V3) ∈ S) (f : V3 → ℝ) : over S f = over S fun p => f ⟨p.y, p.x, p.z⟩ := by
  rw [over_swap12, over]
  congr 1; funext p
  unfold pt Set.indicator
  simp only [hS p.2.1 p.1 p.2.2]
theorem over_sym23 (S : Set V3) (hS : ∀ x y z, (⟨x, y, z⟩ : V3) ∈ S ↔ (⟨x, z, y⟩ : V3) ∈ S) (f : V3 → ℝ) : over S f = over S fun p => f ⟨p.x, p.z, p.y⟩ := by
  rw [over_swap23, over]
  congr 1; funext p
  unfold pt Set.indicator
  simp only [hS p.1 p.2.2 p.2.1]

theorem mp_neg : MeasurePreserving (fun x : ℝ => -x) := Measure.measurePreserving_neg volume

/-- Reflections. -/
theorem over_odd_x (S : Set V3) (hS : ∀ x y z, (⟨x, y, z⟩ : V3) ∈ S ↔ (⟨-x, y, z⟩ : V3) ∈ S) (f : V3 → ℝ) (hf : ∀ x y z, f ⟨-x, y, z⟩ = -f ⟨x, y, z⟩) : over S f = 0 := by
  have hm : MeasurePreserving (fun p : ℝ × ℝ × ℝ => ((-p.1, p.2) : ℝ × ℝ × ℝ)) := mp_neg.prod (MeasurePreserving.id _)
  let e : ℝ × ℝ × ℝ ≃ᵐ ℝ × ℝ × ℝ := ⟨⟨fun p => (-p.1, p.2), fun p => (-p.1, p.2), fun _ => by simp, fun _ => by simp⟩, hm.measurable, hm.measurable⟩
  have := (show MeasurePreserving e from hm).integral_comp' (g := fun p => S.indicator f (pt p))
  have h2 : (∫ p : ℝ × ℝ × ℝ, S.indicator f (pt (e p))) = -over S f := by
    rw [over, ← integral_neg]
    congr 1; funext p
    show S.indicator f ⟨-p.1, p.2.1, p.2.2⟩ = -S.indicator f ⟨p.1, p.2.1, p.2.2⟩
    unfold Set.indicator
    by_cases hp : (⟨p.1, p.2.1, p.2.2⟩ : V3) ∈ S
    · rw [if_pos hp, if_pos ((hS _ _ _).mp hp), hf]
    · rw [if_neg hp, if_neg (fun h => hp ((hS _ _ _).mpr h)), neg_zero]
  have h3 : -over S f = over S f := by rw [← h2, this]; rfl
  linarith
theorem over_odd_y (S : Set V3) (hS : ∀ x y z, (⟨x, y, z⟩ : V3) ∈ S ↔ (⟨x, -y, z⟩ : V3) ∈ S) (f : V3 → ℝ) (hf : ∀ x y z, f ⟨x, -y, z⟩ = -f ⟨x, y, z⟩) : over S f = 0 := by
  have h := over_odd_x {p | (⟨p.y, p.x, p.z⟩ : V3) ∈ S} (fun x y z => hS y x z) (fun p => f ⟨p.y, p.x, p.z⟩) (fun x y z => hf y x z)
  rw [over_swap12, ← h]; rfl
theorem over_odd_z (S : Set V3) (hS : ∀ x y z, (⟨x, y, z⟩ : V3) ∈ S ↔ (⟨x, y, -z⟩ : V3) ∈ S) (f : V3 → ℝ) (hf : ∀ x y z, f ⟨x, y, -z⟩ = -f ⟨x, y, z⟩) : over S f = 0 := by
  have h := over_odd_y {p | (⟨p.x, p.z, p.y⟩ : V3) ∈ S} (fun x y z => hS x z y) (fun p => f ⟨p.x, p.z, p.y⟩) (fun x y z => hf x z y)
  rw [over_swap23, ← h]; rfl

/-! ## Discs -/

/-- Radial functions of the plane. -/
theorem radial (F : ℝ → ℝ) : (∫ q : ℝ × ℝ, F (q.1 ^ 2 + q.2 ^ 2)) = 2 * Real.pi * ∫ ρ in Ioi (0 : ℝ), ρ * F (ρ ^ 2) := by
  rw [← integral_comp_polarCoord_symm, polarCoord_target]
  have e : ∀ p : ℝ × ℝ, p.1 • F ((polarCoord.symm p).1 ^ 2 + (polarCoord.symm p).2 ^ 2) = (p.1 * F (p.1 ^ 2)) * (1 : ℝ) := by
    intro p
    rw [polarCoord_symm_apply, smul_eq_mul, mul_one]
    have : (p.1 * Real.cos p.2) ^ 2 + (p.1 * Real.sin p.2) ^ 2 = p.1 ^ 2 := by
      have := Real.sin_sq_add_cos_sq p.2
      linear_combination p.1 ^ 2 * this
    simp only [this]
  simp_rw [e]
  have := setIntegral_prod_mul (μ := (volume : Measure ℝ)) (ν := (volume : Measure ℝ)) (fun ρ : ℝ => ρ * F (ρ ^ 2)) (fun _ : ℝ => (1 : ℝ)) (Ioi 0) (Ioo (-Real.pi) Real.pi)
  rw [Measure.volume_eq_prod, this, setIntegral_const, Real.volume_real_Ioo_of_le (by linarith [Real.pi_pos])]
  simp only [smul_eq_mul, mul_one]; ring

theorem disc_power (s : ℝ) (n : ℕ) :
    (∫ q : ℝ × ℝ, if q.1 ^ 2 + q.2 ^ 2 ≤ s then (q.1 ^ 2 + q.2 ^ 2) ^ n else 0) = Real.pi * (max s 0) ^ (n + 1) / (n + 1) := by
  have h := radial fun u => if u ≤ s then u ^ n else 0
  rw [h]
  rcases le_or_gt s 0 with hs | hs
  · rw [max_eq_right hs]
    have : (∫ ρ in Ioi (0 : ℝ), ρ * (if ρ ^ 2 ≤ s then (ρ ^ 2) ^ n else 0)) = 0 := by
      apply setIntegral_eq_zero_of_forall_eq_zero
      intro ρ hρ
      rw [if_neg, mul_zero]
      have : 0 < ρ ^ 2 := pow_pos hρ 2
      linarith
    rw [this]; simp
  · rw [max_eq_left hs.le]
    have e : ∀ ρ ∈ Ioi (0 : ℝ), ρ * (if ρ ^ 2 ≤ s then (ρ ^ 2) ^ n else 0) = (Ioc 0 (Real.sqrt s)).indicator (fun ρ => ρ ^ (2 * n + 1)) ρ := by
      intro ρ hρ
      have hρ : 0 < ρ := hρ
      have : ρ ^ 2 ≤ s ↔ ρ ≤ Real.sqrt s := (Real.le_sqrt hρ.le hs.le).symm
      by_cases hc : ρ ^ 2 ≤ s
      · rw [if_pos hc, indicator_of_mem (mem_Ioc.mpr ⟨hρ, this.mp hc⟩)]; ring
      · rw [if_neg hc, indicator_of_notMem (fun h => hc (this.mpr h.2)), mul_zero]
    rw [setIntegral_congr_fun measurableSet_Ioi e, setIntegral_indicator measurableSet_Ioc, Set.inter_eq_self_of_subset_right (fun x hx => hx.1),
      ← intervalIntegral.integral_of_le (Real.sqrt_nonneg s), integral_pow]
    have : Real.sqrt s ^ (2 * n + 1 + 1) = s ^ (n + 1) := by
      rw [show 2 * n + 1 + 1 = 2 * (n + 1) by ring, pow_mul, Real.sq_sqrt hs.le]
    rw [this]
    have hn : ((n : ℝ) + 1) ≠ 0 := by positivity
    push_cast
    have : (2 * (n:ℝ) + 1 + 1) = 2 * (n + 1) := by ring
    rw [this]; simp; field_simp

/-! ## Slices -/

/-- A bounded closed solid may be integrated by slices. -/
theorem slices (K : Set (ℝ × ℝ × ℝ)) (hK : IsCompact K) (f : ℝ × ℝ × ℝ → ℝ) (hf : Continuous f) :
    (∫ p, K.indicator f p) = ∫ x, ∫ q : ℝ × ℝ, K.indicator f (x, q) := by
  have hi : Integrable (K.indicator f) := by
    rw [integrable_indicator_iff hK.measurableSet]
    exact hf.continuousOn.integrableOn_compact hK
  rw [Measure.volume_eq_prod] at hi ⊢
  exact integral_prod _ hi

/-! ## Integrals over the three solids -/

theorem continuous_max_sub (r : ℝ) (n : ℕ) : Continuous fun x : ℝ => (max (r ^ 2 - x ^ 2) 0) ^ n := by fun_prop

/-- The integral of `(r² - x²)₊ ^ n` up to a height. -/
theorem cap_integral (r h : ℝ) (n : ℕ) (hn : n ≠ 0) (h0 : 0 ≤ r) (h1 : -r ≤ h) (h2 : h ≤ r) :
    (∫ x, if x ≤ h then (max (r ^ 2 - x ^ 2) 0) ^ n else 0) = ∫ x in (-r)..h, (r ^ 2 - x ^ 2) ^ n := by
  rw [intervalIntegral.integral_of_le h1, ← integral_indicator measurableSet_Ioc]
  apply integral_congr_ae
  have hne : ∀ᵐ x : ℝ, x ≠ -r := by
    rw [ae_iff]; simp
  filter_upwards [hne] with x hx
  by_cases hc : x ≤ h
  · rw [if_pos hc]
    by_cases hr : -r < x
    · rw [indicator_of_mem (mem_Ioc.mpr ⟨hr, hc⟩), max_eq_left (by nlinarith)]
    · have : x < -r := lt_of_le_of_ne (not_lt.mp hr) hx
      rw [indicator_of_notMem (fun h => hr h.1), max_eq_right (by nlinarith), zero_pow hn]
  · rw [if_neg hc, indicator_of_notMem (fun h => hc h.2)]

/-- Slices of a ball cut at a height. -/
theorem over_cut_ball (r h : ℝ) (n : ℕ) (h0 : 0 ≤ r) (h1 : -r ≤ h) (h2 : h ≤ r) :
    (∫ p : ℝ × ℝ × ℝ, if p.1 ^ 2 + (p.2.1 ^ 2 + p.2.2 ^ 2) ≤ r ^ 2 ∧ p.1 ≤ h then (p.2.1 ^ 2 + p.2.2 ^ 2) ^ n else 0) =
      Real.pi / (n + 1) * ∫ x in (-r)..h, (r ^ 2 - x ^ 2) ^ (n + 1) := by
  let K : Set (ℝ × ℝ × ℝ) := {p | p.1 ^ 2 + (p.2.1 ^ 2 + p.2.2 ^ 2) ≤ r ^ 2 ∧ p.1 ≤ h}
  have hK : IsCompact K := by
    apply Metric.isCompact_of_isClosed_isBounded
    · apply IsClosed.inter
      · exact isClosed_le (f := fun p : ℝ × ℝ × ℝ => p.1 ^ 2 + (p.2.1 ^ 2 + p.2.2 ^ 2)) (by fun_prop) continuous_const
      · exact isClosed_le (f := fun p : ℝ × ℝ × ℝ => p.1) (by fun_prop) continuous_const
    · apply (Metric.isBounded_closedBall (x := (0 : ℝ × ℝ × ℝ)) (r := r)).subset
      rintro ⟨a, b, c⟩ ⟨hp, _⟩
      simp only at hp
      rw [mem_closedBall_zero_iff, Prod.norm_def, Prod.norm_def]
      simp only [Real.norm_eq_abs]
      refine max_le ?_ (max_le ?_ ?_) <;> apply abs_le_of_sq_le_sq _ h0 <;> nlinarith [sq_nonneg a, sq_nonneg b, sq_nonneg c]
  have e := slices K hK (fun p => (p.2.1 ^ 2 + p.2.2 ^ 2) ^ n) (by fun_prop)
  have e1 : (∫ p : ℝ × ℝ × ℝ, if p.1 ^ 2 + (p.2.1 ^ 2 + p.2.2 ^ 2) ≤ r ^ 2 ∧ p.1 ≤ h then (p.2.1 ^ 2 + p.2.2 ^ 2) ^ n else 0) = ∫ p, K.indicator (fun p => (p.2.1 ^ 2 + p.2.2 ^ 2) ^ n) p := by
    congr 1; funext p
    unfold Set.indicator
    congr 1
  rw [e1, e]
  have e2 : ∀ x : ℝ, (∫ q : ℝ × ℝ, K.indicator (fun p => (p.2.1 ^ 2 + p.2.2 ^ 2) ^ n) (x, q)) = Real.pi / (n + 1) * (if x ≤ h then (max (r ^ 2 - x ^ 2) 0) ^ (n + 1) else 0) := by
    intro x
    by_cases hc : x ≤ h
    · rw [if_pos hc]
      have : ∀ q : ℝ × ℝ, K.indicator (fun p => (p.2.1 ^ 2 + p.2.2 ^ 2) ^ n) (x, q) = if q.1 ^ 2 + q.2 ^ 2 ≤ r ^ 2 - x ^ 2 then (q.1 ^ 2 + q.2 ^ 2) ^ n else 0 := by
        intro q
        unfold Set.indicator
        have : (x, q) ∈ K ↔ q.1 ^ 2 + q.2 ^ 2 ≤ r ^ 2 - x ^ 2 := by
          constructor
          · rintro ⟨a, _⟩; simp only at a; linarith
          · intro a; exact ⟨by show x ^ 2 + (q.1 ^ 2 + q.2 ^ 2) ≤ r ^ 2; linarith, hc⟩
        simp only [this]
      simp_rw [this]
      rw [disc_power]; ring
    · rw [if_neg hc, mul_zero]
      have : ∀ q : ℝ × ℝ, K.indicator (fun p => (p.2.1 ^ 2 + p.2.2 ^ 2) ^ n) (x, q) = 0 := fun q => indicator_of_notMem (fun h => hc h.2) _
      simp_rw [this]; simp
  simp_rw [e2]
  rw [integral_const_mul, cap_integral r h (n + 1) (Nat.succ_ne_zero n) h0 h1 h2]

theorem ball_iff (r : ℝ) (h0 : 0 ≤ r) (x y z : ℝ) : (⟨x, y, z⟩ : V3) ∈ ball r ↔ (x ^ 2 + (y ^ 2 + z ^ 2) ≤ r ^ 2 ∧ x ≤ r) := by
  constructor
  · intro h
    have h : x ^ 2 + y ^ 2 + z ^ 2 ≤ r ^ 2 := h
    exact ⟨by linarith, by nlinarith [sq_nonneg y, sq_nonneg z]⟩
  · rintro ⟨h, _⟩
    show x ^ 2 + y ^ 2 + z ^ 2 ≤ r ^ 2
    linarith

theorem over_ball (r : ℝ) (n : ℕ) (h0 : 0 ≤ r) : over (ball r) (fun p => (p.y ^ 2 + p.z ^ 2) ^ n) = Real.pi / (n + 1) * ∫ x in (-r)..r, (r ^ 2 - x ^ 2) ^ (n + 1) := by
  rw [← over_cut_ball r r n h0 (by linarith) le_rfl, over]
  congr 1; funext p
  unfold Set.indicator pt
  simp only [ball_iff r h0]

theorem ball_volume (r : ℝ) (h0 : 0 ≤ r) : over (ball r) (fun _ => 1) = 4 / 3 * Real.pi * r ^ 3 := by
  have := over_ball r 0 h0
  simp only [pow_zero, zero_add, pow_one, Nat.cast_zero] at this
  rw [this, intervalIntegral.integral_sub (by simp) (by simp), intervalIntegral.integral_const, integral_pow]
  norm_num; ring
theorem ball_second (r : ℝ) (h0 : 0 ≤ r) : over (ball r) (fun p => p.y ^ 2 + p.z ^ 2) = 8 / 15 * Real.pi * r ^ 5 := by
  have := over_ball r 1 h0
  simp only [pow_one] at this
  rw [this]
  have e : ∀ x : ℝ, (r ^ 2 - x ^ 2) ^ (1 + 1) = r ^ 4 - 2 * r ^ 2 * x ^ 2 + x ^ 4 := by intro x; ring
  simp_rw [e]
  rw [intervalIntegral.integral_add (by apply Continuous.intervalIntegrable; fun_prop) (by simp), intervalIntegral.integral_sub (by simp) (by apply Continuous.intervalIntegrable; fun_prop),
    intervalIntegral.integral_const_mul, intervalIntegral.integral_const, integral_pow, integral_pow]
  norm_num; ring

/-- Integral over `[-a/2, a/2]` of an even power. -/
theorem seg (a : ℝ) (ha : 0 ≤ a) (n : ℕ) : (∫ x, if |x| ≤ a / 2 then x ^ n else 0) = ∫ x in (-(a / 2))..(a / 2), x ^ n := by
  rw [intervalIntegral.integral_of_le (by linarith), ← integral_Icc_eq_integral_Ioc, ← integral_indicator measurableSet_Icc]
  congr 1; funext x
  unfold Set.indicator
  simp only [abs_le, mem_Icc]

theorem box_power (a b c : ℝ) (ha : 0 ≤ a) (hb : 0 ≤ b) (hc : 0 ≤ c) (n : ℕ) :
    over (box a b c) (fun p => p.x ^ n) = (∫ x in (-(a / 2))..(a / 2), x ^ n) * (b * c) := by
  have e : ∀ p : ℝ × ℝ × ℝ, (box a b c).indicator (fun p => p.x ^ n) (pt p) = (if |p.1| ≤ a / 2 then p.1 ^ n else 0) * ((if |p.2.1| ≤ b / 2 then p.2.1 ^ 0 else 0) * (if |p.2.2| ≤ c / 2 then p.2.2 ^ 0 else 0)) := by
    intro p
    unfold Set.indicator pt box
    simp only [mem_setOf_eq]
    by_cases h1 : |p.1| ≤ a / 2 <;> by_cases h2 : |p.2.1| ≤ b / 2 <;> by_cases h3 : |p.2.2| ≤ c / 2 <;> simp [h1, h2, h3]
  unfold over
  simp_rw [e]
  have h1 := integral_prod_mul (μ := (volume : Measure ℝ)) (ν := (volume : Measure (ℝ × ℝ))) (fun x : ℝ => if |x| ≤ a / 2 then x ^ n else 0) (fun q : ℝ × ℝ => (if |q.1| ≤ b / 2 then q.1 ^ 0 else 0) * (if |q.2| ≤ c / 2 then q.2 ^ 0 else 0))
  have h2 := integral_prod_mul (μ := (volume : Measure ℝ)) (ν := (volume : Measure ℝ)) (fun x : ℝ => if |x| ≤ b / 2 then x ^ 0 else 0) (fun x : ℝ => if |x| ≤ c / 2 then x ^ 0 else 0)
  rw [Measure.volume_eq_prod, h1, Measure.volume_eq_prod, h2, seg a ha, seg b hb 0, seg c hc 0]
  congr 1
  simp only [pow_zero, intervalIntegral.integral_const, smul_eq_mul, mul_one]
  ring

theorem cylinder_power (r h : ℝ) (hr : 0 ≤ r) (hh : 0 ≤ h) (n m : ℕ) :
    over (cylinder r h) (fun p => p.y ^ n * (p.x ^ 2 + p.z ^ 2) ^ m) = (∫ x in (-(h / 2))..(h / 2), x ^ n) * (Real.pi * (r ^ 2) ^ (m + 1) / (m + 1)) := by
  rw [over_swap12]
  have e : ∀ p : ℝ × ℝ × ℝ, (cylinder r h).indicator (fun p => p.y ^ n * (p.x ^ 2 + p.z ^ 2) ^ m) ⟨p.2.1, p.1, p.2.2⟩ = (if |p.1| ≤ h / 2 then p.1 ^ n else 0) * (if p.2.1 ^ 2 + p.2.2 ^ 2 ≤ r ^ 2 then (p.2.1 ^ 2 + p.2.2 ^ 2) ^ m else 0) := by
    intro p
    unfold Set.indicator cylinder
    simp only [mem_setOf_eq]
    by_cases h1 : |p.1| ≤ h / 2 <;> by_cases h2 : p.2.1 ^ 2 + p.2.2 ^ 2 ≤ r ^ 2 <;> simp [h1, h2]
  simp_rw [e]
  have h1 := integral_prod_mul (μ := (volume : Measure ℝ)) (ν := (volume : Measure (ℝ × ℝ))) (fun x : ℝ => if |x| ≤ h / 2 then x ^ n else 0) (fun q : ℝ × ℝ => if q.1 ^ 2 + q.2 ^ 2 ≤ r ^ 2 then (q.1 ^ 2 + q.2 ^ 2) ^ m else 0)
  rw [Measure.volume_eq_prod, h1, seg h hh, disc_power, max_eq_left (sq_nonneg r)]

/-- Solids with the three planes of symmetry: the barycentre is the origin and the products of inertia are null. -/
theorem homogeneous_of (t : Tensor) (S : Set V3) (d : ℝ) (hx : ∀ x y z, (⟨x, y, z⟩ : V3) ∈ S ↔ (⟨-x, y, z⟩ : V3) ∈ S) (hy : ∀ x y z, (⟨x, y, z⟩ : V3) ∈ S ↔ (⟨x, -y, z⟩ : V3) ∈ S)
    (hz : ∀ x y z, (⟨x, y, z⟩ : V3) ∈ S ↔ (⟨x, y, -z⟩ : V3) ∈ S) (m Ixx Iyy Izz : ℝ) (ht : t = Tensor.ofCOG m ⟨Ixx, Iyy, Izz, 0, 0, 0⟩ 0 .NWU)
    (em : m = d * over S fun _ => 1) (ex : Ixx = d * over S fun p => p.y ^ 2 + p.z ^ 2) (ey : Iyy = d * over S fun p => p.x ^ 2 + p.z ^ 2) (ez : Izz = d * over S fun p => p.x ^ 2 + p.y ^ 2) :
    Homogeneous t S d := by
  subst ht
  constructor
  · exact em
  · rw [over_odd_x S hx _ (by intro x y z; ring)]; simp [Tensor.ofCOG, conv]
  · rw [over_odd_y S hy _ (by intro x y z; ring)]; simp [Tensor.ofCOG, conv]
  · rw [over_odd_z S hz _ (by intro x y z; ring)]; simp [Tensor.ofCOG, conv]
  · simpa [Tensor.ofCOG, conv, matOfCoeffs] using ex
  · simpa [Tensor.ofCOG, conv, matOfCoeffs] using ey
  · simpa [Tensor.ofCOG, conv, matOfCoeffs] using ez
  · rw [over_odd_x S hx _ (by intro x y z; simp [Tensor.ofCOG, conv])]; simp [Tensor.ofCOG, matOfCoeffs]
  · rw [over_odd_x S hx _ (by intro x y z; simp [Tensor.ofCOG, conv])]; simp [Tensor.ofCOG, matOfCoeffs]
  · rw [over_odd_y S hy _ (by intro x y z; simp [Tensor.ofCOG, conv])]; simp [Tensor.ofCOG, matOfCoeffs]

/-- Two integrals added (bounded measurable solids need not be mentioned when both are integrals of slices). -/
theorem over_add (S : Set V3) (f g : V3 → ℝ) (hf : Integrable fun p : ℝ × ℝ × ℝ => S.indicator f (pt p)) (hg : Integrable fun p : ℝ × ℝ × ℝ => S.indicator g (pt p)) :
    over S (fun p => f p + g p) = over S f + over S g := by
  unfold over
  rw [← integral_add hf hg]
  congr 1; funext p
  unfold Set.indicator
  split <;> simp

theorem integrable_solid (S : Set V3) (hS : IsCompact {p : ℝ × ℝ × ℝ | pt p ∈ S}) (f : V3 → ℝ) (hf : Continuous fun p : ℝ × ℝ × ℝ => f (pt p)) :
    Integrable fun p : ℝ × ℝ × ℝ => S.indicator f (pt p) := by
  have : (fun p : ℝ × ℝ × ℝ => S.indicator f (pt p)) = {p : ℝ × ℝ × ℝ | pt p ∈ S}.indicator fun p => f (pt p) := by
    funext p; unfold Set.indicator; rfl
  rw [this, integrable_indicator_iff hS.measurableSet]
  exact hf.continuousOn.integrableOn_compact hS

theorem compact_of (S : Set V3) (r : ℝ) (hc : IsClosed {p : ℝ × ℝ × ℝ | pt p ∈ S}) (hb : ∀ p ∈ S, |p.x| ≤ r ∧ |p.y| ≤ r ∧ |p.z| ≤ r) : IsCompact {p : ℝ × ℝ × ℝ | pt p ∈ S} := by
  apply Metric.isCompact_of_isClosed_isBounded hc
  apply (Metric.isBounded_closedBall (x := (0 : ℝ × ℝ × ℝ)) (r := r)).subset
  rintro ⟨a, b, c⟩ hp
  obtain ⟨h1, h2, h3⟩ := hb _ hp
  rw [mem_closedBall_zero_iff, Prod.norm_def, Prod.norm_def]
  exact max_le h1 (max_le h2 h3)

/-! ## C127 -/

/-- **C127, boxes.** The body made by the library as a box has the tensor of a homogeneous box of these dimensions and of this mass, centred at the origin of the body. -/
theorem C127_box (b : MassBody) (x y z mass : ℝ) (hx : 0 < x) (hy : 0 < y) (hz : 0 < z) :
    Homogeneous (makeBody b (boxTensor x y z mass)).getInertiaTensor (box x y z) (mass / (x * y * z)) := by
  have et : (makeBody b (boxTensor x y z mass)).getInertiaTensor = boxTensor x y z mass := (C56_set_get b (boxTensor x y z mass) _ rfl .NWU).1
  rw [et]
  have hcomp : ∀ x y z : ℝ, IsCompact {p : ℝ × ℝ × ℝ | pt p ∈ box x y z} := by
    intro x y z
    apply compact_of _ (max (x / 2) (max (y / 2) (z / 2)))
    · apply IsClosed.inter
      · exact isClosed_le (f := fun p : ℝ × ℝ × ℝ => |p.1|) (by fun_prop) continuous_const
      · apply IsClosed.inter
        · exact isClosed_le (f := fun p : ℝ × ℝ × ℝ => |p.2.1|) (by fun_prop) continuous_const
        · exact isClosed_le (f := fun p : ℝ × ℝ × ℝ => |p.2.2|) (by fun_prop) continuous_const
    · rintro p ⟨h1, h2, h3⟩
      exact ⟨h1.trans (le_max_left _ _), h2.trans ((le_max_left _ _).trans (le_max_right _ _)), h3.trans ((le_max_right _ _).trans (le_max_right _ _))⟩
  have second : ∀ a b c : ℝ, 0 < a → 0 < b → 0 < c → over (box a b c) (fun p => p.x ^ 2) = a ^ 3 / 12 * (b * c) := by
    intro a b c ha hb hc
    rw [box_power a b c ha.le hb.le hc.le 2, integral_pow]; push_cast; ring
  have vol : over (box x y z) (fun _ => 1) = x * y * z := by
    have := box_power x y z hx.le hy.le hz.le 0
    simp only [pow_zero] at this
    rw [this, intervalIntegral.integral_const]; norm_num; ring
  have sx := second x y z hx hy hz
  have sy : over (box x y z) (fun p => p.y ^ 2) = y ^ 3 / 12 * (x * z) := by
    rw [← second y x z hy hx hz, over_swap12, over]
    congr 1; funext p
    unfold Set.indicator pt box
    congr 1
    simp only [mem_setOf_eq, eq_iff_iff]; tauto
  have sz : over (box x y z) (fun p => p.z ^ 2) = z ^ 3 / 12 * (x * y) := by
    have e1 : over (box x y z) (fun p => p.z ^ 2) = over (box x z y) (fun p => p.y ^ 2) := by
      rw [over_swap23, over]
      congr 1; funext p
      unfold Set.indicator pt box
      congr 1
      simp only [mem_setOf_eq, eq_iff_iff]; tauto
    have e2 : over (box x z y) (fun p => p.y ^ 2) = over (box z x y) (fun p => p.x ^ 2) := by
      rw [over_swap12, over]
      congr 1; funext p
      unfold Set.indicator pt box
      congr 1
      simp only [mem_setOf_eq, eq_iff_iff]; tauto
    rw [e1, e2, second z x y hz hx hy]
  have ic := fun f hf => integrable_solid (box x y z) (hcomp x y z) f hf
  have ix := ic (fun p => p.x ^ 2) (by unfold pt; fun_prop)
  have iy := ic (fun p => p.y ^ 2) (by unfold pt; fun_prop)
  have iz := ic (fun p => p.z ^ 2) (by unfold pt; fun_prop)
  have hne : x ≠ 0 := hx.ne'
  have hne' : y ≠ 0 := hy.ne'
  have hne'' : z ≠ 0 := hz.ne'
  refine homogeneous_of _ _ _ ?_ ?_ ?_ mass _ _ _ rfl ?_ ?_ ?_ ?_
  · intro a b c; simp [box]
  · intro a b c; simp [box]
  · intro a b c; simp [box]
  · rw [vol]; field_simp
  · rw [over_add _ _ _ iy iz, sy, sz]; field_simp
  · rw [over_add _ _ _ ix iz, sx, sz]; field_simp
  · rw [over_add _ _ _ ix iy, sx, sy]; field_simp

/-- **C127, cylinders.** The body made as a cylinder has the tensor of a homogeneous cylinder of this radius and height, whose axis is the `y` axis of the body. -/
theorem C127_cylinder (b : MassBody) (r h mass : ℝ) (hr : 0 < r) (hh : 0 < h) :
    Homogeneous (makeBody b (cylinderTensor r h mass)).getInertiaTensor (cylinder r h) (mass / (Real.pi * r ^ 2 * h)) := by
  have et : (makeBody b (cylinderTensor r h mass)).getInertiaTensor = cylinderTensor r h mass := (C56_set_get b (cylinderTensor r h mass) _ rfl .NWU).1
  rw [et]
  have hcomp : IsCompact {p : ℝ × ℝ × ℝ | pt p ∈ cylinder r h} := by
    apply compact_of _ (max r (h / 2))
    · apply IsClosed.inter
      · exact isClosed_le (f := fun p : ℝ × ℝ × ℝ => p.1 ^ 2 + p.2.2 ^ 2) (by fun_prop) continuous_const
      · exact isClosed_le (f := fun p : ℝ × ℝ × ℝ => |p.2.1|) (by fun_prop) continuous_const
    · rintro p ⟨h1, h2⟩
      refine ⟨(abs_le_of_sq_le_sq (by nlinarith [sq_nonneg p.z]) hr.le).trans (le_max_left _ _), h2.trans (le_max_right _ _), (abs_le_of_sq_le_sq (by nlinarith [sq_nonneg p.x]) hr.le).trans (le_max_left _ _)⟩
  have vol : over (cylinder r h) (fun _ => 1) = Real.pi * r ^ 2 * h := by
    have := cylinder_power r h hr.le hh.le 0 0
    simp only [pow_zero, mul_one] at this
    rw [this, intervalIntegral.integral_const]; norm_num; ring
  have syy : over (cylinder r h) (fun p => p.y ^ 2) = h ^ 3 / 12 * (Real.pi * r ^ 2) := by
    have := cylinder_power r h hr.le hh.le 2 0
    simp only [pow_zero, mul_one] at this
    rw [this, integral_pow]; push_cast; ring
  have srr : over (cylinder r h) (fun p => p.x ^ 2 + p.z ^ 2) = Real.pi * r ^ 4 / 2 * h := by
    have := cylinder_power r h hr.le hh.le 0 1
    simp only [pow_zero, one_mul, pow_one] at this
    rw [this, intervalIntegral.integral_const]; norm_num; ring
  have ic := fun f hf => integrable_solid (cylinder r h) hcomp f hf
  have ix := ic (fun p => p.x ^ 2) (by unfold pt; fun_prop)
  have iy := ic (fun p => p.y ^ 2) (by unfold pt; fun_prop)
  have iz := ic (fun p => p.z ^ 2) (by unfold pt; fun_prop)
  have exz : over (cylinder r h) (fun p => p.x ^ 2) = over (cylinder r h) (fun p => p.z ^ 2) := by
    have e1 : over (cylinder r h) (fun p => p.x ^ 2) = ∫ p : ℝ × ℝ × ℝ, (cylinder r h).indicator (fun p => p.x ^ 2) ⟨p.2.1, p.1, p.2.2⟩ := over_swap12 _ _
    have e2 : over (cylinder r h) (fun p => p.z ^ 2) = ∫ p : ℝ × ℝ × ℝ, (cylinder r h).indicator (fun p => p.z ^ 2) ⟨p.2.1, p.1, p.2.2⟩ := over_swap12 _ _
    rw [e1, e2]
    let e : ℝ × ℝ × ℝ ≃ᵐ ℝ × ℝ × ℝ := ⟨⟨fun p => (p.1, p.2.2, p.2.1), fun p => (p.1, p.2.2, p.2.1), fun _ => rfl, fun _ => rfl⟩, mp_swap23.measurable, mp_swap23.measurable⟩
    have := (show MeasurePreserving e from mp_swap23).integral_comp' (g := fun p => (cylinder r h).indicator (fun p => p.z ^ 2) ⟨p.2.1, p.1, p.2.2⟩)
    rw [← this]
    congr 1; funext p
    show (cylinder r h).indicator (fun p => p.x ^ 2) ⟨p.2.1, p.1, p.2.2⟩ = (cylinder r h).indicator (fun p => p.z ^ 2) ⟨p.2.2, p.1, p.2.1⟩
    unfold Set.indicator cylinder
    congr 1
    simp only [mem_setOf_eq, eq_iff_iff, add_comm]
  have sxx : over (cylinder r h) (fun p => p.x ^ 2) = Real.pi * r ^ 4 / 4 * h := by
    have := over_add _ _ _ ix iz
    rw [srr] at this
    linarith
  have szz : over (cylinder r h) (fun p => p.z ^ 2) = Real.pi * r ^ 4 / 4 * h := by rw [← exz, sxx]
  have hne : r ≠ 0 := hr.ne'
  have hne' : h ≠ 0 := hh.ne'
  have hpi := Real.pi_ne_zero
  refine homogeneous_of _ _ _ ?_ ?_ ?_ mass _ _ _ rfl ?_ ?_ ?_ ?_
  · intro a b c; simp [cylinder]
  · intro a b c; simp [cylinder]
  · intro a b c; simp [cylinder]
  · rw [vol]; field_simp
  · rw [over_add _ _ _ iy iz, syy, szz]; field_simp; ring
  · rw [srr]; norm_num; field_simp
  · rw [over_add _ _ _ ix iy, sxx, syy]; field_simp; ring

/-- **C127, spheres.** The body made as a sphere, and a mooring buoy, have the tensor of a homogeneous ball. -/
theorem C127_sphere (b : MassBody) (r mass : ℝ) (hr : 0 < r) :
    Homogeneous (makeBody b (sphereTensor r mass)).getInertiaTensor (ball r) (mass / (4 / 3 * Real.pi * r ^ 3)) := by
  have et : (makeBody b (sphereTensor r mass)).getInertiaTensor = sphereTensor r mass := (C56_set_get b (sphereTensor r mass) _ rfl .NWU).1
  rw [et]
  have hne : r ≠ 0 := hr.ne'
  have hpi := Real.pi_ne_zero
  have h12 : ∀ x y z : ℝ, (⟨x, y, z⟩ : V3) ∈ ball r ↔ (⟨y, x, z⟩ : V3) ∈ ball r := by intro x y z; simp only [ball, mem_setOf_eq]; rw [add_comm (x ^ 2)]
  have h23 : ∀ x y z : ℝ, (⟨x, y, z⟩ : V3) ∈ ball r ↔ (⟨x, z, y⟩ : V3) ∈ ball r := by intro x y z; simp only [ball, mem_setOf_eq]; rw [add_assoc, add_comm (y ^ 2), ← add_assoc]
  have s1 := ball_second r hr.le
  have s2 : over (ball r) (fun p => p.x ^ 2 + p.z ^ 2) = 8 / 15 * Real.pi * r ^ 5 := by rw [over_sym12 _ h12]; exact s1
  have s3 : over (ball r) (fun p => p.x ^ 2 + p.y ^ 2) = 8 / 15 * Real.pi * r ^ 5 := by rw [over_sym23 _ h23]; exact s2
  refine homogeneous_of _ _ _ ?_ ?_ ?_ mass _ _ _ rfl ?_ ?_ ?_ ?_
  · intro a b c; simp [ball]
  · intro a b c; simp [ball]
  · intro a b c; simp [ball]
  · rw [ball_volume r hr.le]; field_simp
  · rw [s1]; norm_num; field_simp; ring
  · rw [s2]; norm_num; field_simp; ring
  · rw [s3]; norm_num; field_simp; ring

/-- A case: a box of steel of 1 m × 2 m × 3 m. -/
example : (boxTensor 1 2 3 46800).I.a00 = 50700 := by norm_num [boxTensor, Tensor.ofCOG, matOfCoeffs]

end Solids
end Frydom.Core
