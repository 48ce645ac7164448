import Verif.Geom.Props
import Mathlib.Analysis.SpecialFunctions.Trigonometric.Angle
import Mathlib.Analysis.SpecialFunctions.Trigonometric.Bounds
import Mathlib.Algebra.Order.ToIntervalMod
import Mathlib.Analysis.Real.Pi.Bounds

/-!
# The angle of a revolute link (C45, C46)

`src/frydom/core/link/links_lib/FrRevoluteLink.cpp`: multi-turn angle, number of turns, rest angle.
-/

open Classical

noncomputable section

namespace Frydom.Link
open Frydom.Geom Real

/-- Chrono's `Q_to_AngAxis`, used by `FrUnitQuaternion::Get(axis, angle, NWU)` (core/common/FrRotation.cpp:106-111). -/
def angAxis (q : Q) : V3 × ℝ :=
  if |q.e0| < 0.99999999 then
    let arg := arccos q.e0
    let invsine := 1 / sin arg
    (V3.normalized ⟨invsine * q.e1, invsine * q.e2, invsine * q.e3⟩, 2 * arg)
  else (⟨1, 0, 0⟩, 0)

/-- `FrRotation::GetRotationVector(NWU)` (FrRotation.cpp:277-282). -/
def rotationVector (q : Q) : V3 := (angAxis q).2 • (angAxis q).1

/-- `FrRotation::GetAngle()` (FrRotation.cpp:289-298). -/
def rotationAngle (q : Q) : ℝ := (angAxis q).2

/-- `mathutils::Normalize__PI_PI` (external): the representative in `]-π, π]`. -/
def normalizePi (a : ℝ) : ℝ := toIocMod two_pi_pos (-π) a

/-- C's `trunc`. -/
def truncZ (x : ℝ) : ℤ := if 0 ≤ x then ⌊x⌋ else ⌈x⌉

/-- C's `fmod`. -/
def fmod (x y : ℝ) : ℝ := x - y * truncZ (x / y)

/-- State of a `FrRevoluteLink` (FrRevoluteLink.h:33-42). -/
structure Revolute where
  stiffness : ℝ := 0
  damping : ℝ := 0
  restAngle : ℝ := 0
  totalLinkAngle : ℝ := 0
  angularVelocity : ℝ := 0
  /-- `m_frame2WRT1_reference.GetRotation()` -/
  reference : Q := Q.one
  /-- z component of the Chrono link torque `C_torque` -/
  cTorque : ℝ := 0

namespace Revolute

/-- `GetLinkAngle` (FrRevoluteLink.cpp:50-52). -/
def linkAngle (l : Revolute) : ℝ := l.totalLinkAngle - l.restAngle
/-- `GetRelativeLinkAngle` (FrRevoluteLink.cpp:54-56). -/
def relativeLinkAngle (l : Revolute) : ℝ := fmod l.totalLinkAngle (2 * π) - l.restAngle
/-- `GetNbTurns` (FrRevoluteLink.cpp:58-60). -/
def nbTurns (l : Revolute) : ℤ := truncZ ((l.linkAngle - l.relativeLinkAngle) / (2 * π))
/-- `GetRestAngle` (FrRevoluteLink.cpp:42-44). -/
def getRestAngle (l : Revolute) : ℝ := l.restAngle

/-- `GetUpdatedRelativeAngle` (FrRevoluteLink.cpp:138-141); `q`: orientation of node 2 relative to node 1. -/
def updatedRelativeAngle (q : Q) : ℝ := normalizePi (rotationVector q).z

/-- The angle increment of `Update` (FrRevoluteLink.cpp:98-113). -/
def increment (updated last : ℝ) : ℝ :=
  if |updated + 2 * π - last| < |updated - last| then updated + 2 * π - last
  else if |updated - 2 * π - last| < |updated - last| then updated - 2 * π - last
  else updated - last

/-- `UpdateForces` for a link without motor (FrRevoluteLink.cpp:118-130): the value given to Chrono is minus the spring-damper law
(`SetLinkForceTorqueOnBody2InFrame2AtOrigin2`, FrLink.cpp; no force, so no transport term). -/
def updateForces (l : Revolute) : Revolute :=
  { l with cTorque := -(l.stiffness * l.linkAngle + l.damping * l.angularVelocity) }

/-- `Update` (FrRevoluteLink.cpp:91-123) when node 2 has orientation `q` and angular velocity `w` (along z) relative to node 1. -/
def update (l : Revolute) (q : Q) (w : ℝ) : Revolute :=
  let last := l.relativeLinkAngle + l.restAngle
  let inc := increment (updatedRelativeAngle q) last
  updateForces { l with totalLinkAngle := l.totalLinkAngle + inc, angularVelocity := w }

/-- `UpdateCache` (FrRevoluteLink.cpp:143-149). -/
def updateCache (l : Revolute) : Revolute := { l with restAngle := normalizePi (rotationAngle l.reference) }

/-- `SetRestAngle` (FrRevoluteLink.cpp:37-40). -/
def setRestAngle (l : Revolute) (a : ℝ) : Revolute :=
  updateCache { l with reference := (Frame.identity.setRotZ a .NWU).rot }

/-- `SetThisConfigurationAsReference` (FrLink.cpp:334-337) in a configuration of relative orientation `q`. -/
def setThisConfigurationAsReference (l : Revolute) (q : Q) : Revolute := updateCache { l with reference := q }

/-- `GetLinkTorque` (FrRevoluteLink.cpp:70-72). -/
def linkTorque (l : Revolute) : ℝ := l.cTorque
/-- `GetLinkPower` (FrRevoluteLink.cpp:74-76). -/
def linkPower (l : Revolute) : ℝ := l.angularVelocity * l.linkTorque

end Revolute

/-! ## Specification -/

/-- `q` represents the rotation of angle `θ` about the axis z of node 1 (a quaternion and its opposite are the same rotation). -/
def IsRotZ (q : Q) (θ : ℝ) : Prop :=
  q = Q.ofAngAxis θ V3.e3 ∨ q = ⟨-cos (θ / 2), 0, 0, -sin (θ / 2)⟩

/-! ## Lemmas -/

theorem isRotZ_form {q : Q} {θ : ℝ} (h : IsRotZ q θ) :
    ∃ s : ℝ, (s = 1 ∨ s = -1) ∧ q = ⟨s * cos (θ / 2), 0, 0, s * sin (θ / 2)⟩ := by
  rcases h with h | h
  · exact ⟨1, Or.inl rfl, by rw [h]; simp [Q.ofAngAxis, V3.e3]⟩
  · exact ⟨-1, Or.inr rfl, by rw [h]; simp⟩

theorem modEq_of_cos_sin {a b : ℝ} (h1 : cos a = cos b) (h2 : sin a = sin b) : ∃ k : ℤ, a = b + k * (2 * π) := by
  have := Real.Angle.cos_sin_inj h1 h2
  obtain ⟨k, hk⟩ := Real.Angle.angle_eq_iff_two_pi_dvd_sub.mp this
  exact ⟨k, by linarith⟩

theorem sin_acos_pos {x : ℝ} (h : |x| < 1) : 0 < sin (arccos x) := by
  rw [sin_arccos]
  apply Real.sqrt_pos.mpr
  nlinarith [abs_lt.mp h, sq_abs x, abs_nonneg x]

theorem angAxis_rotZ {q : Q} {θ s : ℝ} (hs : s = 1 ∨ s = -1) (hq : q = ⟨s * cos (θ / 2), 0, 0, s * sin (θ / 2)⟩)
    (hb : |cos (θ / 2)| < 0.99999999) :
    rotationAngle q = 2 * arccos (s * cos (θ / 2)) ∧ sin (arccos (s * cos (θ / 2))) = |sin (θ / 2)| ∧
    (rotationVector q).z = 2 * arccos (s * cos (θ / 2)) * (s * sin (θ / 2) / |sin (θ / 2)|) := by
  have hs2 : s ^ 2 = 1 := by rcases hs with h | h <;> rw [h] <;> norm_num
  have habs : |s * cos (θ / 2)| = |cos (θ / 2)| := by
    rcases hs with h | h <;> rw [h] <;> simp
  have hsin : sin (arccos (s * cos (θ / 2))) = |sin (θ / 2)| := by
    rw [sin_arccos, ← Real.sqrt_sq_eq_abs]
    congr 1
    nlinarith [sin_sq_add_cos_sq (θ / 2)]
  have hne : |sin (θ / 2)| ≠ 0 := by
    intro h0
    have h1 : sin (θ / 2) = 0 := abs_eq_zero.mp h0
    have h2 := sin_sq_add_cos_sq (θ / 2)
    rw [h1] at h2
    have h3 : |cos (θ / 2)| ^ 2 = 1 := by rw [sq_abs]; linarith
    nlinarith [abs_nonneg (cos (θ / 2))]
  have e0 : q.e0 = s * cos (θ / 2) := by rw [hq]
  have e1 : q.e1 = 0 := by rw [hq]
  have e2 : q.e2 = 0 := by rw [hq]
  have e3 : q.e3 = s * sin (θ / 2) := by rw [hq]
  refine ⟨?_, hsin, ?_⟩
  · unfold rotationAngle angAxis
    rw [e0, habs, if_pos hb]
  · unfold rotationVector angAxis
    rw [e0, habs, if_pos hb, e1, e2, e3]
    simp only [V3.normalized, V3.norm, V3.dot, hsin]
    have hn : Real.sqrt (1 / |sin (θ / 2)| * 0 * (1 / |sin (θ / 2)| * 0) + 1 / |sin (θ / 2)| * 0 * (1 / |sin (θ / 2)| * 0) +
        1 / |sin (θ / 2)| * (s * sin (θ / 2)) * (1 / |sin (θ / 2)| * (s * sin (θ / 2)))) = 1 := by
      rw [show 1 / |sin (θ / 2)| * 0 * (1 / |sin (θ / 2)| * 0) + 1 / |sin (θ / 2)| * 0 * (1 / |sin (θ / 2)| * 0) +
        1 / |sin (θ / 2)| * (s * sin (θ / 2)) * (1 / |sin (θ / 2)| * (s * sin (θ / 2))) =
        (s ^ 2 * sin (θ / 2) ^ 2) / |sin (θ / 2)| ^ 2 by field_simp; ring]
      rw [hs2, sq_abs, one_mul, div_self, Real.sqrt_one]
      rw [← sq_abs]; positivity
    rw [hn]
    simp only [inv_one, one_smul, V3.smul_z]
    ring

/-- Outside the dead band the z component of the rotation vector is the angle modulo whole turns. -/
theorem rotVec_modEq {q : Q} {θ : ℝ} (h : IsRotZ q θ) (hb : |cos (θ / 2)| < 0.99999999) :
    ∃ k : ℤ, (rotationVector q).z = θ + k * (2 * π) := by
  obtain ⟨s, hs, hq⟩ := isRotZ_form h
  obtain ⟨-, hsin, hz⟩ := angAxis_rotZ hs hq hb
  have hs2 : s ^ 2 = 1 := by rcases hs with h | h <;> rw [h] <;> norm_num
  have habs : |s * cos (θ / 2)| = |cos (θ / 2)| := by rcases hs with h | h <;> rw [h] <;> simp
  have hle : |s * cos (θ / 2)| < 1 := by rw [habs]; exact lt_trans hb (by norm_num)
  have hcos : cos (arccos (s * cos (θ / 2))) = s * cos (θ / 2) :=
    cos_arccos (abs_le.mp hle.le).1 (abs_le.mp hle.le).2
  have hpos : 0 < |sin (θ / 2)| := by rw [← hsin]; exact sin_acos_pos hle
  have hθc : cos θ = 2 * cos (θ / 2) ^ 2 - 1 := by rw [← cos_two_mul]; congr 1; ring
  have hθs : sin θ = 2 * sin (θ / 2) * cos (θ / 2) := by rw [← sin_two_mul]; congr 1; ring
  rw [hz]
  set σ := s * sin (θ / 2) / |sin (θ / 2)| with hσ
  have hσs : σ * |sin (θ / 2)| = s * sin (θ / 2) := by rw [hσ]; exact div_mul_cancel₀ _ hpos.ne'
  have hσ2 : σ ^ 2 = 1 := by
    rw [hσ, div_pow, mul_pow, hs2, sq_abs, one_mul, div_self]
    rw [← sq_abs]; positivity
  have hσ1 : σ = 1 ∨ σ = -1 := by
    have h0 : (σ - 1) * (σ + 1) = 0 := by linear_combination hσ2
    rcases mul_eq_zero.mp h0 with h | h
    · exact Or.inl (by linarith)
    · exact Or.inr (by linarith)
  apply modEq_of_cos_sin
  · have : cos (2 * arccos (s * cos (θ / 2)) * σ) = cos (2 * arccos (s * cos (θ / 2))) := by
      rcases hσ1 with h | h <;> rw [h]
      · rw [mul_one]
      · rw [mul_neg_one, cos_neg]
    rw [this, cos_two_mul, hcos, hθc, mul_pow, hs2, one_mul]
  · have : sin (2 * arccos (s * cos (θ / 2)) * σ) = σ * sin (2 * arccos (s * cos (θ / 2))) := by
      rcases hσ1 with h | h <;> rw [h]
      · rw [mul_one, one_mul]
      · rw [mul_neg_one, sin_neg]; ring
    rw [this, sin_two_mul, hcos, hsin, hθs]
    linear_combination 2 * (s * cos (θ / 2)) * hσs + 2 * sin (θ / 2) * cos (θ / 2) * hs2

/-- In the dead band the rotation vector is zero and the angle is within 5e-4 of a whole number of turns. -/
theorem rotVec_dead {q : Q} {θ : ℝ} (h : IsRotZ q θ) (hb : ¬ |cos (θ / 2)| < 0.99999999) :
    (rotationVector q).z = 0 ∧ rotationAngle q = 0 ∧ ∃ k : ℤ, |θ - k * (2 * π)| ≤ 5e-4 := by
  obtain ⟨s, hs, hq⟩ := isRotZ_form h
  have habs : |s * cos (θ / 2)| = |cos (θ / 2)| := by rcases hs with h | h <;> rw [h] <;> simp
  have e0 : q.e0 = s * cos (θ / 2) := by rw [hq]
  refine ⟨?_, ?_, ⟨round (θ / (2 * π)), ?_⟩⟩
  · unfold rotationVector angAxis
    rw [e0, habs, if_neg hb]
    simp
  · unfold rotationAngle angAxis
    rw [e0, habs, if_neg hb]
  · set k := round (θ / (2 * π)) with hk
    have h2 := two_pi_pos
    have hr := abs_sub_round (θ / (2 * π))
    rw [← hk] at hr
    set x := θ / 2 - k * π with hx
    have hxle : |x| ≤ π / 2 := by
      have e : x = (θ / (2 * π) - k) * π := by rw [hx]; field_simp
      rw [e, abs_mul, abs_of_pos pi_pos]
      nlinarith [pi_pos]
    have hsx : |sin x| = |sin (θ / 2)| := by
      rw [hx, sin_sub_int_mul_pi, abs_mul, abs_zpow]
      simp
    have hj := mul_abs_le_abs_sin hxle
    rw [hsx] at hj
    have hsq : |sin (θ / 2)| ≤ 1.5e-4 := by
      have h1 := sin_sq_add_cos_sq (θ / 2)
      have h3 : (0.99999999:ℝ) ≤ |cos (θ / 2)| := not_lt.mp hb
      have h4 : (0.99999999:ℝ) ^ 2 ≤ cos (θ / 2) ^ 2 := by
        rw [← sq_abs (cos (θ / 2))]; exact pow_le_pow_left₀ (by norm_num) h3 2
      refine abs_le_of_sq_le_sq ?_ (by norm_num)
      norm_num at h4 ⊢
      linarith
    have e : θ - k * (2 * π) = 2 * x := by rw [hx]; ring
    rw [e, abs_mul, abs_of_pos (by norm_num : (0:ℝ) < 2)]
    have hpi := pi_lt_d2
    have : |x| ≤ π / 2 * 1.5e-4 := by
      have h5 : 2 / π * |x| ≤ 1.5e-4 := hj.trans hsq
      rw [div_mul_eq_mul_div, div_le_iff₀ pi_pos] at h5
      linarith
    nlinarith

theorem normalizePi_mem (a : ℝ) : -π < normalizePi a ∧ normalizePi a ≤ π := by
  have h := toIocMod_mem_Ioc two_pi_pos (-π) a
  rw [Set.mem_Ioc] at h
  unfold normalizePi
  exact ⟨h.1, by linarith [h.2]⟩

theorem normalizePi_modEq (a : ℝ) : ∃ k : ℤ, normalizePi a = a + k * (2 * π) := by
  refine ⟨-toIocDiv two_pi_pos (-π) a, ?_⟩
  have := toIocMod_add_toIocDiv_zsmul two_pi_pos (-π) a
  unfold normalizePi
  rw [zsmul_eq_mul] at this
  push_cast
  linarith

/-- What the link measures: the relative angle in `]-π, π]`, up to whole turns and a dead band of 5e-4 rad about whole turns. -/
theorem measured {q : Q} {θ : ℝ} (h : IsRotZ q θ) :
    ∃ (ε : ℝ) (k : ℤ), |ε| ≤ 5e-4 ∧ (|cos (θ / 2)| < 0.99999999 → ε = 0) ∧
      Revolute.updatedRelativeAngle q = θ + ε + k * (2 * π) := by
  unfold Revolute.updatedRelativeAngle
  by_cases hb : |cos (θ / 2)| < 0.99999999
  · obtain ⟨k, hk⟩ := rotVec_modEq h hb
    obtain ⟨k', hk'⟩ := normalizePi_modEq (rotationVector q).z
    refine ⟨0, k + k', by norm_num, fun _ => rfl, ?_⟩
    rw [hk', hk]; push_cast; ring
  · obtain ⟨hz, -, k, hk⟩ := rotVec_dead h hb
    obtain ⟨k', hk'⟩ := normalizePi_modEq (rotationVector q).z
    refine ⟨-(θ - k * (2 * π)), k' - k, by rw [abs_neg]; exact hk, fun h => absurd h hb, ?_⟩
    rw [hk', hz]; push_cast; ring

theorem fmod_spec (x : ℝ) : ∃ k : ℤ, fmod x (2 * π) = x + k * (2 * π) ∧ |fmod x (2 * π)| < 2 * π := by
  have h2 := two_pi_pos
  refine ⟨-truncZ (x / (2 * π)), by unfold fmod; push_cast; ring, ?_⟩
  have e : fmod x (2 * π) = (x / (2 * π) - truncZ (x / (2 * π))) * (2 * π) := by unfold fmod; field_simp
  rw [e, abs_mul, abs_of_pos h2]
  have : |x / (2 * π) - truncZ (x / (2 * π))| < 1 := by
    unfold truncZ
    split_ifs with h
    · have h1 := Int.floor_le (x / (2 * π))
      have h3 := Int.lt_floor_add_one (x / (2 * π))
      rw [abs_lt]; constructor <;> linarith
    · have h1 := Int.le_ceil (x / (2 * π))
      have h3 := Int.ceil_lt_add_one (x / (2 * π))
      rw [abs_lt]; constructor <;> linarith
  nlinarith

theorem increment_spec (u l : ℝ) (hu : |u| ≤ π) (hl : |l| < 2 * π) :
    |Revolute.increment u l| ≤ π ∧ ∃ k : ℤ, Revolute.increment u l = u - l + k * (2 * π) := by
  obtain ⟨u1, u2⟩ := abs_le.mp hu
  obtain ⟨l1, l2⟩ := abs_lt.mp hl
  have hp := pi_pos
  unfold Revolute.increment
  split_ifs with h1 h2
  · refine ⟨?_, 1, by push_cast; ring⟩
    have hlt : u - l < -π := by
      by_contra hc
      rw [not_lt] at hc
      have : |u - l| ≤ |u + 2 * π - l| := by
        rw [abs_of_nonneg (by linarith : 0 ≤ u + 2 * π - l), abs_le]
        constructor <;> linarith
      linarith
    rw [abs_le]; constructor <;> linarith
  · refine ⟨?_, -1, by push_cast; ring⟩
    have hlt : π < u - l := by
      by_contra hc
      rw [not_lt] at hc
      have : |u - l| ≤ |u - 2 * π - l| := by
        rw [abs_of_nonpos (by linarith : u - 2 * π - l ≤ 0), abs_le]
        constructor <;> linarith
      linarith
    rw [abs_le]; constructor <;> linarith
  · refine ⟨?_, 0, by push_cast; ring⟩
    rw [not_lt] at h1 h2
    rw [abs_le]
    constructor
    · by_contra hc
      rw [not_le] at hc
      have : |u + 2 * π - l| < |u - l| := by
        rw [abs_of_neg (by linarith : u - l < 0), abs_lt]
        constructor <;> linarith
      linarith
    · by_contra hc
      rw [not_le] at hc
      have : |u - 2 * π - l| < |u - l| := by
        rw [abs_of_pos (by linarith : 0 < u - l), abs_lt]
        constructor <;> linarith
      linarith

theorem eq_of_modEq {a b : ℝ} (h : ∃ k : ℤ, a = b + k * (2 * π)) (ha : |a| ≤ π) (hb : |b| < π) : a = b := by
  obtain ⟨k, hk⟩ := h
  obtain ⟨a1, a2⟩ := abs_le.mp ha
  obtain ⟨b1, b2⟩ := abs_lt.mp hb
  have hp := pi_pos
  have h1 : (k:ℝ) < 1 := by
    by_contra hc
    rw [not_lt] at hc
    nlinarith
  have h2 : (-1:ℝ) < k := by
    by_contra hc
    rw [not_lt] at hc
    nlinarith
  have h1' : k < 1 := by exact_mod_cast h1
  have h2' : -1 < k := by exact_mod_cast h2
  have : k = 0 := by omega
  rw [hk, this]; simp

/-! ## C45 -/

/-- The states of the link along a sequence of updates. -/
def Revolute.run (l : Revolute) (q : ℕ → Q) (w : ℕ → ℝ) : ℕ → Revolute
  | 0 => l
  | n + 1 => (Revolute.run l q w n).update (q (n + 1)) (w (n + 1))

/-- **C45.** Let the link turn about its axis through the angles `θ 0 = 0, θ 1, θ 2, …` (any number of turns, both senses), by less than half a turn (minus
0.002 rad) between two updates. After every update the link angle is the true angle minus the rest angle, exactly if the angle is farther than about 3e-4 rad
from a whole number of turns and within 5e-4 rad otherwise; errors do not accumulate. -/
theorem C45_multi_turn (l : Revolute) (h0 : l.totalLinkAngle = 0) (θ w : ℕ → ℝ) (q : ℕ → Q)
    (hθ : θ 0 = 0) (hq : ∀ n, IsRotZ (q (n + 1)) (θ (n + 1))) (hstep : ∀ n, |θ (n + 1) - θ n| ≤ π - 2e-3) (n : ℕ) :
    |(Revolute.run l q w n).linkAngle - (θ n - l.restAngle)| ≤ 5e-4 ∧
    (|cos (θ n / 2)| < 0.99999999 → (Revolute.run l q w n).linkAngle = θ n - l.restAngle) ∧
    (Revolute.run l q w n).restAngle = l.restAngle := by
  have key : ∀ n, (Revolute.run l q w n).restAngle = l.restAngle ∧ ∃ ε : ℝ, |ε| ≤ 5e-4 ∧
      (|cos (θ n / 2)| < 0.99999999 → ε = 0) ∧ (Revolute.run l q w n).totalLinkAngle = θ n + ε := by
    intro n
    induction n with
    | zero => exact ⟨rfl, 0, by norm_num, fun _ => rfl, by rw [hθ, add_zero]; exact h0⟩
    | succ n ih =>
      obtain ⟨hr, ε, e1, -, e3⟩ := ih
      obtain ⟨ε', k, m1, m2, m3⟩ := measured (hq n)
      refine ⟨hr, ε', m1, m2, ?_⟩
      have hT : (Revolute.run l q w (n + 1)).totalLinkAngle = (Revolute.run l q w n).totalLinkAngle +
          Revolute.increment (Revolute.updatedRelativeAngle (q (n + 1))) (fmod (Revolute.run l q w n).totalLinkAngle (2 * π)) := by
        show _ + Revolute.increment _ ((Revolute.run l q w n).relativeLinkAngle + _) = _
        unfold Revolute.relativeLinkAngle
        rw [sub_add_cancel]
      obtain ⟨kf, f1, f2⟩ := fmod_spec (Revolute.run l q w n).totalLinkAngle
      have hmem := normalizePi_mem (rotationVector (q (n + 1))).z
      obtain ⟨i1, ki, i2⟩ := increment_spec (Revolute.updatedRelativeAngle (q (n + 1))) _
        (abs_le.mpr ⟨hmem.1.le, hmem.2⟩) f2
      rw [hT, e3] at *
      have heq := eq_of_modEq (b := θ (n + 1) + ε' - (θ n + ε)) ⟨k - kf + ki, by rw [i2, m3, f1]; push_cast; ring⟩ i1 (by
        have h1 := abs_le.mp (hstep n)
        have h2 := abs_le.mp e1
        have h3 := abs_le.mp m1
        rw [abs_lt]
        constructor <;> linarith)
      rw [heq]; ring
  obtain ⟨hr, ε, e1, e2, e3⟩ := key n
  unfold Revolute.linkAngle
  rw [e3, hr]
  refine ⟨?_, fun h => by rw [e2 h]; ring, rfl⟩
  rw [show θ n + ε - l.restAngle - (θ n - l.restAngle) = ε by ring]
  exact e1

theorem truncZ_int (k : ℤ) : truncZ (k : ℝ) = k := by unfold truncZ; simp

/-- **C45, number of turns.** The number of turns is the whole number of turns in the total angle, counted from zero in either sense. -/
theorem C45_turns (l : Revolute) :
    l.nbTurns = truncZ (l.totalLinkAngle / (2 * π)) ∧
    (∀ k : ℤ, 0 ≤ k → k * (2 * π) ≤ l.totalLinkAngle → l.totalLinkAngle < (k + 1) * (2 * π) → l.nbTurns = k) ∧
    (∀ k : ℤ, 0 ≤ k → l.totalLinkAngle ≤ -(k * (2 * π)) → -((k + 1) * (2 * π)) < l.totalLinkAngle → l.nbTurns = -k) := by
  have h2 := two_pi_pos
  have e : l.nbTurns = truncZ (l.totalLinkAngle / (2 * π)) := by
    unfold Revolute.nbTurns Revolute.linkAngle Revolute.relativeLinkAngle fmod
    rw [show (l.totalLinkAngle - l.restAngle - (l.totalLinkAngle - 2 * π * (truncZ (l.totalLinkAngle / (2 * π))) - l.restAngle)) /
      (2 * π) = (truncZ (l.totalLinkAngle / (2 * π)) : ℝ) by field_simp; ring]
    exact truncZ_int _
  refine ⟨e, fun k hk ha hb => ?_, fun k hk ha hb => ?_⟩
  · rw [e]
    have hk' : (0:ℝ) ≤ k := by exact_mod_cast hk
    have h0 : 0 ≤ l.totalLinkAngle / (2 * π) := div_nonneg (le_trans (by positivity) ha) h2.le
    unfold truncZ
    rw [if_pos h0, Int.floor_eq_iff]
    exact ⟨(le_div_iff₀ h2).mpr ha, (div_lt_iff₀ h2).mpr hb⟩
  · rw [e]
    have hk' : (0:ℝ) ≤ k := by exact_mod_cast hk
    unfold truncZ
    split_ifs with h0
    · have h0' : 0 ≤ l.totalLinkAngle := by
        by_contra hc
        rw [not_le] at hc
        exact absurd h0 (not_le.mpr (div_neg_of_neg_of_pos hc h2))
      have hk0 : (k:ℝ) * (2 * π) = 0 := le_antisymm (by linarith) (by positivity)
      have hk1 : k = 0 := by
        have : (k:ℝ) = 0 := by rcases mul_eq_zero.mp hk0 with h | h; exact h; linarith
        exact_mod_cast this
      subst hk1
      have hz : l.totalLinkAngle = 0 := le_antisymm (by simpa using ha) h0'
      rw [hz]; simp
    · rw [Int.ceil_eq_iff]
      push_cast
      refine ⟨?_, ?_⟩
      · rw [lt_div_iff₀ h2]; linarith
      · rw [div_le_iff₀ h2]; linarith

/-- **C45, spring and damper.** After every update without motor the torque of the link is the restoring torque `-k (angle - rest) - c ω`; the damping part
never gives power and the elastic part is minus the derivative of `k angle²/2` with respect to the angle. -/
theorem C45_spring_damper (l : Revolute) (q : Q) (w : ℝ) :
    (l.update q w).linkTorque = -(l.stiffness * (l.update q w).linkAngle) - l.damping * w ∧
    (l.update q w).linkPower = (l.update q w).linkTorque * w ∧
    (0 ≤ l.damping → (l.update q w).linkPower ≤ -(l.stiffness * (l.update q w).linkAngle) * w) ∧
    (∀ a : ℝ, HasDerivAt (fun x => l.stiffness * x ^ 2 / 2) (l.stiffness * a) a) := by
  have h1 : (l.update q w).linkTorque = -(l.stiffness * (l.update q w).linkAngle) - l.damping * w := by
    show -(l.stiffness * _ + l.damping * w) = _
    show _ = -(l.stiffness * (Revolute.linkAngle _)) - _
    simp only [Revolute.update, Revolute.updateForces, Revolute.linkAngle]
    ring
  have h2 : (l.update q w).linkPower = (l.update q w).linkTorque * w := by
    show w * _ = _
    rw [mul_comm]
  refine ⟨h1, h2, fun hd => ?_, fun a => ?_⟩
  · rw [h2, h1]
    nlinarith [mul_nonneg hd (mul_self_nonneg w)]
  · have := ((hasDerivAt_pow 2 a).const_mul l.stiffness).div_const 2
    refine this.congr_deriv ?_
    norm_num
    ring

/-! ## C46 -/

theorem normalizePi_of_mem {a : ℝ} (h1 : -π < a) (h2 : a ≤ π) : normalizePi a = a := by
  unfold normalizePi
  rw [toIocMod_eq_self]
  exact ⟨h1, by linarith⟩

theorem setRotZ_rot (f : Frame) (a : ℝ) : (f.setRotZ a .NWU).rot = Q.ofAngAxis a V3.e3 := by
  unfold Frame.setRotZ Frame.rotZ
  simp [Frame.identity, Q.mul_one]

/-- The rest angle stored for a reference orientation of angle `θ` about the axis. -/
theorem restAngle_of {q : Q} {θ : ℝ} (h : q = Q.ofAngAxis θ V3.e3) (h1 : -π < θ) (h2 : θ ≤ π) :
    normalizePi (rotationAngle q) = if |cos (θ / 2)| < 0.99999999 then |θ| else 0 := by
  have hp := pi_pos
  split_ifs with hb
  · obtain ⟨e, -, -⟩ := angAxis_rotZ (s := 1) (Or.inl rfl) (θ := θ) (q := q) (by rw [h]; simp [Q.ofAngAxis, V3.e3]) hb
    rw [e, one_mul]
    have : arccos (cos (θ / 2)) = |θ / 2| := by
      rw [← cos_abs (θ / 2)]
      apply arccos_cos (abs_nonneg _)
      rw [abs_le]; constructor <;> linarith
    rw [this, abs_div, abs_of_pos (by norm_num : (0:ℝ) < 2)]
    rw [show 2 * (|θ| / 2) = |θ| by ring]
    apply normalizePi_of_mem
    · linarith [abs_nonneg θ]
    · rw [abs_le]; constructor <;> linarith
  · obtain ⟨-, e, -⟩ := rotVec_dead (Or.inl h) hb
    rw [e]
    exact normalizePi_of_mem (by linarith) hp.le

/-- **C46 (partial).** For a rest angle between 0 and π (outside the dead band) `GetRestAngle` returns the angle given to `SetRestAngle`, and taking the present
configuration as reference makes the link angle zero when the present angle is between 0 and π. (Missing: negative angles, for which it is false, see
`C46_rest_angle_counterexample`.) -/
theorem C46_rest_angle_partial (l : Revolute) (θ : ℝ) (h0 : 0 ≤ θ) (h1 : θ ≤ π) (hb : |cos (θ / 2)| < 0.99999999) :
    (l.setRestAngle θ).getRestAngle = θ ∧
    (l.totalLinkAngle = θ → (l.setThisConfigurationAsReference (Q.ofAngAxis θ V3.e3)).linkAngle = 0) := by
  have hp := pi_pos
  have e : normalizePi (rotationAngle (Q.ofAngAxis θ V3.e3)) = θ := by
    rw [restAngle_of rfl (by linarith) h1, if_pos hb, abs_of_nonneg h0]
  refine ⟨?_, fun ht => ?_⟩
  · show normalizePi (rotationAngle (Frame.identity.setRotZ θ .NWU).rot) = θ
    rw [setRotZ_rot, e]
  · show l.totalLinkAngle - normalizePi (rotationAngle (Q.ofAngAxis θ V3.e3)) = 0
    rw [e, ht, sub_self]

/-- **C46 fails for negative angles.** Setting a negative rest angle stores its opposite, and taking a configuration at a negative angle as reference makes the
link angle twice that angle instead of zero. -/
theorem C46_rest_angle_counterexample (l : Revolute) (θ : ℝ) (h0 : -π < θ) (h1 : θ < 0) (hb : |cos (θ / 2)| < 0.99999999) :
    (l.setRestAngle θ).getRestAngle = -θ ∧
    (l.totalLinkAngle = θ → (l.setThisConfigurationAsReference (Q.ofAngAxis θ V3.e3)).linkAngle = 2 * θ) := by
  have hp := pi_pos
  have e : normalizePi (rotationAngle (Q.ofAngAxis θ V3.e3)) = -θ := by
    rw [restAngle_of rfl h0 (by linarith), if_pos hb, abs_of_neg h1]
  refine ⟨?_, fun ht => ?_⟩
  · show normalizePi (rotationAngle (Frame.identity.setRotZ θ .NWU).rot) = -θ
    rw [setRotZ_rot, e]
  · show l.totalLinkAngle - normalizePi (rotationAngle (Q.ofAngAxis θ V3.e3)) = 2 * θ
    rw [e, ht]; ring

/-- A quarter turn per update: after five updates the link has made one whole turn and a quarter. -/
example : (Revolute.run {} (fun n => Q.ofAngAxis (n * (π / 2)) V3.e3) (fun _ => 1) 5).linkAngle = 5 * (π / 2) := by
  have hp := pi_gt_three
  have := (C45_multi_turn {} rfl (fun n => n * (π / 2)) (fun _ => 1) (fun n => Q.ofAngAxis (n * (π / 2)) V3.e3) (by simp)
    (fun n => Or.inl rfl) (fun n => by
      push_cast
      rw [show ((n:ℝ) + 1) * (π / 2) - n * (π / 2) = π / 2 by ring, abs_of_pos (by positivity)]
      linarith) 5).2.1
  refine (this ?_).trans (by simp)
  have e : ((5:ℕ):ℝ) * (π / 2) / 2 = π / 4 + π := by push_cast; ring
  simp only [e, cos_add_pi, abs_neg, cos_pi_div_four]
  rw [abs_of_pos (by positivity)]
  have : √2 < 1.5 := by rw [Real.sqrt_lt' (by norm_num)]; norm_num
  linarith

/-- The hypotheses of C46 are met by a right angle of either sign. -/
example (l : Revolute) : (l.setRestAngle (π / 2)).getRestAngle = π / 2 ∧ (l.setRestAngle (-(π / 2))).getRestAngle = π / 2 := by
  have hp := pi_pos
  have hs : √2 < 1.5 := by rw [Real.sqrt_lt' (by norm_num)]; norm_num
  have h1 : |cos (π / 2 / 2)| < 0.99999999 := by
    rw [show π / 2 / 2 = π / 4 by ring, cos_pi_div_four, abs_of_pos (by positivity)]
    linarith
  refine ⟨(C46_rest_angle_partial l (π / 2) (by positivity) (by linarith) h1).1, ?_⟩
  have := (C46_rest_angle_counterexample l (-(π / 2)) (by linarith) (by linarith) (by
    rw [neg_div, cos_neg]; exact h1)).1
  rw [this, neg_neg]

end Frydom.Link
