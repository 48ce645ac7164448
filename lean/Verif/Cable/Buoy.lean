import Verif.Core.Solids
import Verif.Core.Force

/-!
# Mooring buoys (C128)

`src/frydom/cable/FrMooringBuoy.cpp`, `FrMooringBuoy.h`.
-/

open Classical MeasureTheory Set

noncomputable section

namespace Frydom.Cable.Buoys
open Frydom.Geom Frydom.Core Frydom.Core.Solids Frydom.Inertia

/-- `FrMooringBuoy` (FrMooringBuoy.h:46-51): radius, cached volume (uninitialised by the constructor), and the hydrostatic force; position of the body and elevation of the free surface above it are read from elsewhere. -/
structure Buoy where
  radius : ℝ
  volume : ℝ
  force : Force

/-- `computeDraft` (FrMooringBuoy.cpp:74-83): `z` the altitude of the body, `eta` the free surface at its place. -/
def draft (R z eta : ℝ) : ℝ :=
  let zh := z - eta
  if zh < -R then R else if zh > R then -R else -zh
/-- `computeVolume` (FrMooringBuoy.h:69-72). -/
def volumeOf (R z eta : ℝ) : ℝ :=
  let Zt := draft R z eta
  Real.pi / 3 * (Zt * (3 * R * R - Zt * Zt) + 2 * R ^ 3)
/-- `Update` (FrMooringBuoy.cpp:70-72). -/
def Buoy.update (b : Buoy) (z eta : ℝ) : Buoy := { b with volume := volumeOf b.radius z eta }
/-- `FrSphereNonLinearHydrostaticForce::Compute` (FrMooringBuoy.cpp:17-26): `g` the gravity acceleration, `rho` the density of water. -/
def Buoy.compute (b : Buoy) (g rho : ℝ) (f : Force) : Force := f.setForceInWorldAtCOG (-(b.volume * rho) • (⟨0, 0, -g⟩ : V3)) .NWU
/-- One update of the body by Chrono (`FrBodyBase::Update`, FrBody.cpp:53-56): `ChBodyAuxRef::Update` (external: it updates the forces of the body) and then `Update`. -/
def Buoy.chronoUpdate (b : Buoy) (body : Body) (g rho z eta : ℝ) : Buoy :=
  let b1 := { b with force := b.force.updateState (b.compute g rho) body }
  b1.update z eta

/-! ## Specification -/

/-- The part under the level `eta` of a ball of centre `c`. -/
def wetBall (R : ℝ) (c : V3) (eta : ℝ) : Set V3 := {p | (p.x - c.x) ^ 2 + (p.y - c.y) ^ 2 + (p.z - c.z) ^ 2 ≤ R ^ 2 ∧ p.z ≤ eta}

/-! ## Lemmas -/

theorem draft_range (R z eta : ℝ) (hR : 0 ≤ R) : -R ≤ draft R z eta ∧ draft R z eta ≤ R := by
  unfold draft
  simp only []
  split_ifs with h1 h2
  · constructor <;> linarith
  · constructor <;> linarith
  · push Not at h1 h2; constructor <;> linarith

/-- Volume of a cap as an integral of sections. -/
theorem cap (R h : ℝ) : (∫ x in (-R)..h, (R ^ 2 - x ^ 2)) = (h * (3 * R * R - h * h) + 2 * R ^ 3) / 3 := by
  rw [intervalIntegral.integral_sub (by simp) (by simp), intervalIntegral.integral_const, integral_pow]
  push_cast; simp only [smul_eq_mul]; ring

theorem over_shift (S : Set V3) (c : V3) (f : V3 → ℝ) : over S f = ∫ p : ℝ × ℝ × ℝ, S.indicator f ⟨p.1 + c.x, p.2.1 + c.y, p.2.2 + c.z⟩ := by
  haveI : (volume : Measure (ℝ × ℝ × ℝ)).IsAddRightInvariant := by
    have h2 : (volume : Measure (ℝ × ℝ)).IsAddRightInvariant := by rw [Measure.volume_eq_prod]; infer_instance
    rw [Measure.volume_eq_prod]; infer_instance
  have := integral_add_right_eq_self (μ := (volume : Measure (ℝ × ℝ × ℝ))) (fun p => S.indicator f (pt p)) (c.x, c.y, c.z)
  rw [over, ← this]; rfl

/-- The polynomial of the volume is strictly increasing in the draft. -/
theorem poly_mono (R a b : ℝ) (ha : -R ≤ a) (hab : a < b) (hb : b ≤ R) : a * (3 * R * R - a * a) < b * (3 * R * R - b * b) := by
  have hR : 0 < R := by linarith
  have h : b * (3 * R * R - b * b) - a * (3 * R * R - a * a) = (b - a) * (3 * R ^ 2 - (a ^ 2 + a * b + b ^ 2)) := by ring
  have : 0 < 3 * R ^ 2 - (a ^ 2 + a * b + b ^ 2) := by
    have h1 : a ^ 2 ≤ R ^ 2 := by nlinarith
    have h2 : b ^ 2 ≤ R ^ 2 := by nlinarith
    have h3 : 0 < (b - a) ^ 2 := by positivity
    nlinarith
  nlinarith [mul_pos (sub_pos.mpr hab) this]

/-! ## C128 -/

/-- **C128, volume.** After an update the volume of the buoy is the volume of the part of the ball that is below the level of the free surface at its centre. -/
theorem C128_volume (b : Buoy) (c : V3) (eta : ℝ) (hR : 0 ≤ b.radius) :
    (b.update c.z eta).volume = over (wetBall b.radius c eta) fun _ => 1 := by
  generalize hr : b.radius = R at hR
  show volumeOf b.radius c.z eta = _
  rw [hr, over_shift _ c]
  by_cases hout : c.z - eta > R
  · have e1 : volumeOf R c.z eta = 0 := by
      unfold volumeOf draft
      simp only []
      rw [if_neg (by linarith), if_pos hout]; ring
    have e2 : ∀ p : ℝ × ℝ × ℝ, (wetBall R c eta).indicator (fun _ => (1 : ℝ)) ⟨p.1 + c.x, p.2.1 + c.y, p.2.2 + c.z⟩ = 0 := by
      intro p
      apply indicator_of_notMem
      rintro ⟨h1, h2⟩
      simp only [add_sub_cancel_right] at h1 h2
      nlinarith [sq_nonneg p.1, sq_nonneg p.2.1]
    rw [e1]; simp_rw [e2]; simp
  obtain ⟨d1, d2⟩ := draft_range R c.z eta hR
  have key := over_cut_ball R (draft R c.z eta) 0 hR d1 d2
  simp only [pow_zero, zero_add, pow_one, Nat.cast_zero, div_one] at key
  rw [cap] at key
  have e : volumeOf R c.z eta = Real.pi * ((draft R c.z eta * (3 * R * R - draft R c.z eta * draft R c.z eta) + 2 * R ^ 3) / 3) := by
    unfold volumeOf; simp only []; ring
  rw [e, ← key]
  -- heights of points first
  have hswap : ∀ g : ℝ × ℝ × ℝ → ℝ, (∫ p : ℝ × ℝ × ℝ, g p) = ∫ p : ℝ × ℝ × ℝ, g (p.2.1, p.2.2, p.1) := by
    intro g
    have h1 := over_swap23 univ (fun v => g (v.x, v.y, v.z))
    have h2 := over_swap12 univ (fun v => g (v.x, v.z, v.y))
    simp only [over, pt, indicator_univ] at h1 h2
    rw [show (∫ p : ℝ × ℝ × ℝ, g p) = ∫ p : ℝ × ℝ × ℝ, g (p.1, p.2.1, p.2.2) from rfl, h1, h2]
  rw [hswap fun p => (wetBall R c eta).indicator (fun _ => (1 : ℝ)) ⟨p.1 + c.x, p.2.1 + c.y, p.2.2 + c.z⟩]
  congr 1; funext p
  unfold Set.indicator
  have : (⟨p.2.1 + c.x, p.2.2 + c.y, p.1 + c.z⟩ : V3) ∈ wetBall R c eta ↔ (p.1 ^ 2 + (p.2.1 ^ 2 + p.2.2 ^ 2) ≤ R ^ 2 ∧ p.1 ≤ draft R c.z eta) := by
    unfold wetBall
    simp only [mem_setOf_eq, add_sub_cancel_right]
    have hb : p.2.1 ^ 2 + p.2.2 ^ 2 + p.1 ^ 2 ≤ R ^ 2 ↔ p.1 ^ 2 + (p.2.1 ^ 2 + p.2.2 ^ 2) ≤ R ^ 2 := by constructor <;> intro h <;> linarith
    rw [hb]
    apply and_congr_right
    intro hp
    have hp1 : p.1 ≤ R := by nlinarith [sq_nonneg p.2.1, sq_nonneg p.2.2]
    have hp2 : -R ≤ p.1 := by nlinarith [sq_nonneg p.2.1, sq_nonneg p.2.2]
    unfold draft
    simp only []
    rw [if_neg hout]
    split_ifs with h1
    · constructor <;> intro h <;> linarith
    · constructor <;> intro h <;> linarith
  simp only [this]

theorem volumeOf_le (R z eta : ℝ) (hR : 0 < R) :
    (z - eta ≤ -R → volumeOf R z eta = 4 / 3 * Real.pi * R ^ 3) ∧ (R ≤ z - eta → volumeOf R z eta = 0) ∧
    0 ≤ volumeOf R z eta ∧ volumeOf R z eta ≤ 4 / 3 * Real.pi * R ^ 3 := by
  have hpi := Real.pi_pos
  have hlow : z - eta ≤ -R → draft R z eta = R := by
    intro h; unfold draft; simp only []
    by_cases h1 : z - eta < -R
    · rw [if_pos h1]
    · rw [if_neg h1, if_neg (by linarith)]; linarith
  have hup : R ≤ z - eta → draft R z eta = -R := by
    intro h; unfold draft; simp only []
    rw [if_neg (by linarith)]
    by_cases h1 : z - eta > R
    · rw [if_pos h1]
    · rw [if_neg h1]; linarith
  obtain ⟨d1, d2⟩ := draft_range R z eta hR.le
  have lo : -(2 * R ^ 3) ≤ draft R z eta * (3 * R * R - draft R z eta * draft R z eta) := by
    rcases eq_or_lt_of_le d1 with h | h
    · rw [← h]; nlinarith
    · have := poly_mono R (-R) (draft R z eta) le_rfl h d2; nlinarith
  have hi : draft R z eta * (3 * R * R - draft R z eta * draft R z eta) ≤ 2 * R ^ 3 := by
    rcases eq_or_lt_of_le d2 with h | h
    · rw [h]; nlinarith
    · have := poly_mono R (draft R z eta) R d1 h le_rfl; nlinarith
  refine ⟨fun h => ?_, fun h => ?_, ?_, ?_⟩
  · unfold volumeOf; simp only [hlow h]; ring
  · unfold volumeOf; simp only [hup h]; ring
  · unfold volumeOf; simp only []
    apply mul_nonneg (by positivity); linarith
  · unfold volumeOf; simp only []
    have : Real.pi / 3 * (draft R z eta * (3 * R * R - draft R z eta * draft R z eta) + 2 * R ^ 3) ≤ Real.pi / 3 * (4 * R ^ 3) := by
      apply mul_le_mul_of_nonneg_left _ (by positivity); linarith
    linarith

theorem volume_anti (R eta z z' : ℝ) (hR : 0 < R) (h : z ≤ z') :
    volumeOf R z' eta ≤ volumeOf R z eta ∧ (-R < z' - eta → z - eta < R → z < z' → volumeOf R z' eta < volumeOf R z eta) := by
  have hpi := Real.pi_pos
  obtain ⟨d1, d2⟩ := draft_range R z eta hR.le
  obtain ⟨d1', d2'⟩ := draft_range R z' eta hR.le
  have hd : draft R z' eta ≤ draft R z eta := by
    unfold draft; simp only []; split_ifs <;> linarith
  refine ⟨?_, ?_⟩
  · unfold volumeOf; simp only []
    apply mul_le_mul_of_nonneg_left _ (by positivity)
    rcases eq_or_lt_of_le hd with e | e
    · rw [e]
    · linarith [poly_mono R _ _ d1' e d2]
  · intro h1 h2 h3
    have hd' : draft R z' eta < draft R z eta := by
      unfold draft; simp only []
      rw [if_neg (show ¬ z' - eta < -R by linarith)]
      split_ifs <;> linarith
    unfold volumeOf; simp only []
    apply mul_lt_mul_of_pos_left _ (by positivity)
    linarith [poly_mono R _ _ d1' hd' d2]

/-- **C128, range.** The volume is between zero and that of the ball, reached out of the water and under water; it decreases with the altitude of the buoy, strictly while the buoy crosses the surface. -/
theorem C128_range (b : Buoy) (z eta : ℝ) (hR : 0 < b.radius) :
    (z - eta ≤ -b.radius → (b.update z eta).volume = over (ball b.radius) fun _ => 1) ∧ (b.radius ≤ z - eta → (b.update z eta).volume = 0) ∧
    0 ≤ (b.update z eta).volume ∧ (b.update z eta).volume ≤ over (ball b.radius) (fun _ => 1) ∧
    (∀ z', z ≤ z' → (b.update z' eta).volume ≤ (b.update z eta).volume) ∧
    (∀ z', -b.radius < z' - eta → z - eta < b.radius → z < z' → (b.update z' eta).volume < (b.update z eta).volume) := by
  rw [ball_volume _ hR.le]
  obtain ⟨h1, h2, h3, h4⟩ := volumeOf_le b.radius z eta hR
  exact ⟨h1, h2, h3, h4, fun z' h => (volume_anti b.radius eta z z' hR h).1, fun z' a c h => (volume_anti b.radius eta z z' hR h.le).2 a c h⟩

/-- **C128, load.** The load computed with a fresh volume is Archimedes' force: the weight of the water displaced, upwards, through the centre of the buoy (its centre of gravity), without torque, in both conventions. -/
theorem C128_load (b : Buoy) (body : Body) (g rho z eta : ℝ) (ht : b.force.torque = 0) (fc : FC) :
    let b' := b.update z eta
    IsLoad (b'.compute g rho b.force) body fc (conv fc ⟨0, 0, rho * g * b'.volume⟩) 0 (body.cogPositionInWorld fc) := by
  intro b'
  have e : (b'.compute g rho b.force).force = ⟨0, 0, rho * g * b'.volume⟩ := by
    show conv .NWU (-(b'.volume * rho) • (⟨0, 0, -g⟩ : V3)) = _
    ext <;> simp [conv] <;> ring
  refine ⟨?_, fun a => ?_⟩
  · show conv fc _ = _
    rw [e]
  · show body.toWorld (conv fc b.force.torque) fc + V3.cross (body.cogPositionInWorld fc - a) (conv fc (b'.compute g rho b.force).force) = _
    rw [e, ht]
    have : body.toWorld (conv fc 0) fc = 0 := by
      rw [conv_zero]
      show conv fc (body.cog.rot.rotate (conv fc 0)) = 0
      rw [conv_zero, rotate_zero, conv_zero]
    rw [this]

theorem draft_continuous (R eta : ℝ) (hR : 0 < R) : Continuous fun z => draft R z eta := by
  have : (fun z => draft R z eta) = fun z => max (-R) (min R (eta - z)) := by
    funext z
    unfold draft
    simp only []
    split_ifs with h1 h2
    · rw [min_eq_left (by linarith), max_eq_right (by linarith)]
    · rw [min_eq_right (by linarith), max_eq_left (by linarith)]
    · push Not at h1 h2
      rw [min_eq_right (by linarith), max_eq_right (by linarith)]; ring
  rw [this]; fun_prop

/-- **C128, flotation.** A buoy lighter than the water of its ball has, at each level of the free surface, exactly one altitude at which its weight equals the hydrostatic force; it is within a radius of the surface; above it the weight wins and below it the hydrostatic force wins
(the equilibrium is stable). A heavier buoy has none. -/
theorem C128_flotation (b : Buoy) (g rho mass eta : ℝ) (hR : 0 < b.radius) (hg : 0 < g) (hrho : 0 < rho) (hm : 0 < mass) :
    (mass < rho * over (ball b.radius) (fun _ => 1) → ∃ z, |z - eta| < b.radius ∧ rho * g * (b.update z eta).volume = mass * g ∧
      (∀ z', z < z' → rho * g * (b.update z' eta).volume < mass * g) ∧ (∀ z', z' < z → mass * g < rho * g * (b.update z' eta).volume)) ∧
    (rho * over (ball b.radius) (fun _ => 1) < mass → ∀ z, rho * g * (b.update z eta).volume < mass * g) := by
  rw [ball_volume _ hR.le]
  generalize hr : b.radius = R at hR
  have hv : ∀ z, (b.update z eta).volume = volumeOf R z eta := by intro z; show volumeOf b.radius z eta = _; rw [hr]
  simp only [hv]
  constructor
  · intro hlt
    have hc : Continuous fun z => volumeOf R z eta := by
      have := draft_continuous R eta hR
      unfold volumeOf; simp only []; fun_prop
    have hin : mass / rho ∈ Icc (volumeOf R (eta + R) eta) (volumeOf R (eta - R) eta) := by
      rw [(volumeOf_le R (eta + R) eta hR).2.1 (by linarith), (volumeOf_le R (eta - R) eta hR).1 (by linarith)]
      exact ⟨by positivity, by rw [div_le_iff₀ hrho]; linarith⟩
    obtain ⟨z, ⟨hz1, hz2⟩, hz⟩ := intermediate_value_Icc' (show eta - R ≤ eta + R by linarith) hc.continuousOn hin
    have hz : volumeOf R z eta = mass / rho := hz
    have hpos : 0 < mass / rho := by positivity
    have hne1 : z - eta < R := by
      by_contra hcon
      have := (volumeOf_le R z eta hR).2.1 (not_lt.mp hcon); linarith
    have hne2 : -R < z - eta := by
      by_contra hcon
      have h := (volumeOf_le R z eta hR).1 (not_lt.mp hcon)
      rw [hz, div_eq_iff hrho.ne'] at h; linarith
    have heq : rho * g * volumeOf R z eta = mass * g := by rw [hz]; field_simp
    refine ⟨z, abs_lt.mpr ⟨hne2, hne1⟩, heq, ?_, ?_⟩
    · intro z' h
      rw [← heq]
      exact mul_lt_mul_of_pos_left ((volume_anti R eta z z' hR h.le).2 (by linarith) hne1 h) (by positivity)
    · intro z' h
      rw [← heq]
      exact mul_lt_mul_of_pos_left ((volume_anti R eta z' z hR h.le).2 hne2 (by linarith) h) (by positivity)
  · intro hlt z
    have := (volumeOf_le R z eta hR).2.2.2
    calc rho * g * volumeOf R z eta ≤ rho * g * (4 / 3 * Real.pi * R ^ 3) := mul_le_mul_of_nonneg_left this (by positivity)
      _ = (rho * (4 / 3 * Real.pi * R ^ 3)) * g := by ring
      _ < mass * g := mul_lt_mul_of_pos_right hlt hg

/-- The force at the end of a sequence of updates at the altitudes `l` over the levels `l`. -/
def Buoy.run (b : Buoy) (body : Body) (g rho : ℝ) : List (ℝ × ℝ) → Buoy
  | [] => b
  | e :: l => (b.chronoUpdate body g rho e.1 e.2).run body g rho l

/-- **C128 (defect), delay.** In a sequence of updates the hydrostatic force is that of the previous position, not of the present one: after the last update of every sequence the force is the one of the volume at the update before; after the first it is that of
the content of the memory. -/
theorem C128_delay (b : Buoy) (body : Body) (g rho : ℝ) (hact : b.force.isActive = true) (hlim : b.force.limitForce = false) (l : List (ℝ × ℝ)) (e e' : ℝ × ℝ) :
    ((b.run body g rho [e]).force.force = ⟨0, 0, rho * g * b.volume⟩) ∧
    ((b.run body g rho (l ++ [e, e'])).force.force = ⟨0, 0, rho * g * volumeOf b.radius e.1 e.2⟩) := by
  have step : ∀ (c : Buoy) (e : ℝ × ℝ), c.force.isActive = true → c.force.limitForce = false →
      (c.chronoUpdate body g rho e.1 e.2).force.force = ⟨0, 0, rho * g * c.volume⟩ ∧ (c.chronoUpdate body g rho e.1 e.2).volume = volumeOf c.radius e.1 e.2 ∧
      (c.chronoUpdate body g rho e.1 e.2).radius = c.radius ∧ (c.chronoUpdate body g rho e.1 e.2).force.isActive = true ∧ (c.chronoUpdate body g rho e.1 e.2).force.limitForce = false := by
    intro c e h1 h2
    have hu : c.force.updateState (c.compute g rho) body = c.compute g rho c.force :=
      (C53_inactive (c.compute g rho) body c.force).2 h1 h2
    refine ⟨?_, rfl, rfl, ?_, ?_⟩
    · show (c.force.updateState (c.compute g rho) body).force = _
      rw [hu]
      show conv .NWU (-(c.volume * rho) • (⟨0, 0, -g⟩ : V3)) = _
      ext <;> simp [conv] <;> ring
    · show (c.force.updateState (c.compute g rho) body).isActive = true
      rw [hu]; exact h1
    · show (c.force.updateState (c.compute g rho) body).limitForce = false
      rw [hu]; exact h2
  refine ⟨(step b e hact hlim).1, ?_⟩
  induction l generalizing b with
  | nil =>
    obtain ⟨_, a2, a3, a4, a5⟩ := step b e hact hlim
    show ((b.chronoUpdate body g rho e.1 e.2).chronoUpdate body g rho e'.1 e'.2).force.force = _
    rw [(step _ e' a4 a5).1, a2]
  | cons x l ih =>
    obtain ⟨_, a2, a3, a4, a5⟩ := step b x hact hlim
    have := ih (b.chronoUpdate body g rho x.1 x.2) a4 a5
    rw [a3] at this
    exact this

/-- A case: a buoy of 1 m radius and 2 t floats in sea water. -/
example : (2000 : ℝ) < 1027 * over (ball 1) (fun _ => 1) := by
  rw [ball_volume 1 zero_le_one]
  nlinarith [Real.pi_gt_three]

end Frydom.Cable.Buoys
