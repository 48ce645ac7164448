import Verif.Waves.IrregularDirs
import Mathlib.MeasureTheory.Integral.IntervalIntegral.FundThmCalculus

/-!
# Mean level and mean square of the elevation of an irregular sea (C187)

`FrAiryIrregularWaveField::GetElevation` (FrAiryIrregularWaveField.cpp:404-415) in the course of time, at a fixed point.
-/

open Classical Filter Topology MeasureTheory

noncomputable section

namespace Frydom.Waves
open Real Frydom.Geom

/-! ## Means in time -/

/-- The mean of `f` over `[0, T]` tends to `m` as `T` grows. -/
def TimeMean (f : ℝ → ℝ) (m : ℝ) : Prop := Tendsto (fun T => (∫ t in (0:ℝ)..T, f t) / T) atTop (𝓝 m)

/-- `f - m` has a bounded primitive. -/
def BoundedPrimitive (f : ℝ → ℝ) (m : ℝ) : Prop := ∃ F : ℝ → ℝ, ∃ C, (∀ t, HasDerivAt F (f t - m) t) ∧ ∀ t, |F t| ≤ C

theorem BoundedPrimitive.mean {f : ℝ → ℝ} {m : ℝ} (h : BoundedPrimitive f m) (hf : Continuous f) : TimeMean f m := by
  obtain ⟨F, C, hF, hC⟩ := h
  have key : ∀ T, 0 < T → (∫ t in (0:ℝ)..T, f t) / T = m + (F T - F 0) / T := by
    intro T hT
    have h1 : ∫ t in (0:ℝ)..T, (f t - m) = F T - F 0 :=
      intervalIntegral.integral_eq_sub_of_hasDerivAt (fun t _ => hF t) ((hf.sub continuous_const).intervalIntegrable _ _)
    rw [intervalIntegral.integral_sub (hf.intervalIntegrable _ _) intervalIntegrable_const] at h1
    rw [intervalIntegral.integral_const] at h1
    rw [show (∫ t in (0:ℝ)..T, f t) = (F T - F 0) + T * m by rw [← h1]; simp]
    field_simp
    ring
  have hlim : Tendsto (fun T => m + (F T - F 0) / T) atTop (𝓝 (m + 0)) := by
    refine tendsto_const_nhds.add ?_
    refine squeeze_zero_norm' (a := fun T => 2 * C / T) ?_ (tendsto_const_nhds.div_atTop tendsto_id)
    filter_upwards [eventually_gt_atTop 0] with T hT
    rw [Real.norm_eq_abs, abs_div, abs_of_pos hT]
    have := abs_sub (F T) (F 0)
    have := hC T
    have := hC 0
    gcongr
    linarith
  rw [add_zero] at hlim
  refine hlim.congr' ?_
  filter_upwards [eventually_gt_atTop 0] with T hT
  exact (key T hT).symm

theorem BoundedPrimitive.add {f g : ℝ → ℝ} {m n : ℝ} (h : BoundedPrimitive f m) (h' : BoundedPrimitive g n) : BoundedPrimitive (fun t => f t + g t) (m + n) := by
  obtain ⟨F, C, hF, hC⟩ := h
  obtain ⟨G, D, hG, hD⟩ := h'
  refine ⟨fun t => F t + G t, C + D, fun t => ((hF t).add (hG t)).congr_deriv (by ring), fun t => (abs_add_le _ _).trans (add_le_add (hC t) (hD t))⟩

theorem BoundedPrimitive.mul {f : ℝ → ℝ} {m : ℝ} (h : BoundedPrimitive f m) (c : ℝ) : BoundedPrimitive (fun t => c * f t) (c * m) := by
  obtain ⟨F, C, hF, hC⟩ := h
  refine ⟨fun t => c * F t, |c| * C, fun t => ((hF t).const_mul c).congr_deriv (by ring), fun t => ?_⟩
  rw [abs_mul]
  exact mul_le_mul_of_nonneg_left (hC t) (abs_nonneg c)

theorem BoundedPrimitive.const (c : ℝ) : BoundedPrimitive (fun _ => c) c :=
  ⟨fun _ => 0, 0, fun t => (hasDerivAt_const t (0:ℝ)).congr_deriv (by ring), fun _ => by simp⟩

theorem BoundedPrimitive.congr {f g : ℝ → ℝ} {m n : ℝ} (h : BoundedPrimitive f m) (e : ∀ t, f t = g t) (e' : m = n) : BoundedPrimitive g n := by
  obtain rfl : f = g := funext e
  exact e' ▸ h

theorem BoundedPrimitive.sum {ι : Type} {f : ι → ℝ → ℝ} {m : ι → ℝ} (s : Finset ι) (h : ∀ i ∈ s, BoundedPrimitive (f i) (m i)) :
    BoundedPrimitive (fun t => ∑ i ∈ s, f i t) (∑ i ∈ s, m i) := by
  induction s using Finset.induction_on with
  | empty => exact (BoundedPrimitive.const 0).congr (fun _ => by simp) (by simp)
  | insert a s ha ih =>
    have := (h a (by simp)).add (ih fun i hi => h i (by simp [hi]))
    exact this.congr (fun t => by rw [Finset.sum_insert ha]) (by rw [Finset.sum_insert ha])

/-- A sinusoid of non zero frequency has a null mean. -/
theorem mean_cos (w α : ℝ) (hw : w ≠ 0) : BoundedPrimitive (fun t => cos (α - w * t)) 0 := by
  refine ⟨fun t => -(sin (α - w * t) / w), 1 / |w|, fun t => ?_, fun t => ?_⟩
  · have h : HasDerivAt (fun t : ℝ => α - w * t) (-w) t := by
      have := ((hasDerivAt_id t).const_mul w).const_sub α
      exact this.congr_deriv (by simp)
    refine (h.sin.div_const w).neg.congr_deriv ?_
    field_simp
    ring
  · rw [abs_neg, abs_div]
    exact div_le_div_of_nonneg_right (abs_sin_le_one _) (abs_nonneg _)

theorem mean_sin (w α : ℝ) (hw : w ≠ 0) : BoundedPrimitive (fun t => sin (α - w * t)) 0 := by
  refine (mean_cos w (α - π / 2) hw).congr (fun t => ?_) rfl
  rw [show α - π / 2 - w * t = (α - w * t) - π / 2 by ring, cos_sub_pi_div_two]

/-- The product of two sinusoids. -/
theorem mean_sin_sin (w v α β : ℝ) (h : w + v ≠ 0) : BoundedPrimitive (fun t => sin (α - w * t) * sin (β - v * t)) (if w = v then cos (α - β) / 2 else 0) := by
  have h1 := (mean_cos (w + v) (α + β) h).mul (-(1 / 2))
  have e : ∀ t, sin (α - w * t) * sin (β - v * t) = 1 / 2 * cos ((α - β) - (w - v) * t) + -(1 / 2) * cos ((α + β) - (w + v) * t) := by
    intro t
    rw [show (α - β) - (w - v) * t = (α - w * t) - (β - v * t) by ring, show (α + β) - (w + v) * t = (α - w * t) + (β - v * t) by ring, cos_add, cos_sub]
    ring
  split_ifs with c
  · refine (((BoundedPrimitive.const (cos (α - β))).mul (1 / 2)).add h1).congr (fun t => ?_) (by ring)
    rw [e t, c]
    simp
  · refine (((mean_cos (w - v) (α - β) (sub_ne_zero.mpr c)).mul (1 / 2)).add h1).congr (fun t => (e t).symm) (by ring)

/-- A sum of sinusoids of positive frequencies. -/
theorem mean_square {ι : Type} (s : Finset ι) (a w α : ι → ℝ) (hw : ∀ i ∈ s, 0 < w i) :
    BoundedPrimitive (fun t => (∑ i ∈ s, a i * sin (α i - w i * t)) ^ 2) (∑ i ∈ s, ∑ j ∈ s, a i * a j * (if w i = w j then cos (α i - α j) / 2 else 0)) := by
  have : ∀ i ∈ s, BoundedPrimitive (fun t => ∑ j ∈ s, (a i * a j) * (sin (α i - w i * t) * sin (α j - w j * t))) (∑ j ∈ s, a i * a j * (if w i = w j then cos (α i - α j) / 2 else 0)) :=
    fun i hi => BoundedPrimitive.sum s fun j hj => (mean_sin_sin _ _ _ _ (by have := hw i hi; have := hw j hj; linarith)).mul (a i * a j)
  refine (BoundedPrimitive.sum s this).congr (fun t => ?_) rfl
  rw [sq, Finset.sum_mul_sum]
  exact Finset.sum_congr rfl fun i _ => Finset.sum_congr rfl fun j _ => by ring

/-- A change before some time does not change the mean. -/
theorem TimeMean.later {f g : ℝ → ℝ} {m t₁ : ℝ} (h : TimeMean f m) (hf : Continuous f) (hg : Continuous g) (e : ∀ t, t₁ ≤ t → f t = g t) : TimeMean g m := by
  have key : ∀ T, max t₁ 0 < T → (∫ t in (0:ℝ)..T, g t) / T = (∫ t in (0:ℝ)..T, f t) / T + (∫ t in (0:ℝ)..(max t₁ 0), (g t - f t)) / T := by
    intro T hT
    have h1 : ∫ t in (max t₁ 0)..T, (g t - f t) = 0 := by
      rw [intervalIntegral.integral_congr (g := fun _ => (0:ℝ)) (fun t ht => ?_)]
      · simp
      · rw [Set.uIcc_of_le hT.le] at ht
        have := e t ((le_max_left _ _).trans ht.1)
        simp only
        rw [this, sub_self]
    have h2 := intervalIntegral.integral_add_adjacent_intervals ((hg.sub hf).intervalIntegrable (μ := volume) 0 (max t₁ 0)) ((hg.sub hf).intervalIntegrable (max t₁ 0) T)
    simp only [Pi.sub_apply] at h2
    rw [h1, add_zero, intervalIntegral.integral_sub (hg.intervalIntegrable 0 T) (hf.intervalIntegrable 0 T)] at h2
    rw [h2]
    ring
  have hlim : Tendsto (fun T => (∫ t in (0:ℝ)..T, f t) / T + (∫ t in (0:ℝ)..(max t₁ 0), (g t - f t)) / T) atTop (𝓝 (m + 0)) :=
    Tendsto.add h (tendsto_const_nhds.div_atTop tendsto_id)
  rw [add_zero] at hlim
  refine hlim.congr' ?_
  filter_upwards [eventually_gt_atTop (max t₁ 0)] with T hT
  exact (key T hT).symm

theorem TimeMean.unique {f : ℝ → ℝ} {m n : ℝ} (h : TimeMean f m) (h' : TimeMean f n) : m = n := tendsto_nhds_unique h h'

/-! ## C187 -/

/-- The waves are not ramped (any more): no time ramp and a unit factor, or a continuous time ramp that is one from some instant. -/
def Settled (rampAt : Option (ℝ → ℝ)) (ramp : ℝ) : Prop := (rampAt = none ∧ ramp = 1) ∨ ∃ r t₁, rampAt = some r ∧ Continuous r ∧ ∀ t, t₁ ≤ t → r t = 1

/-- Phase of a component at a place, at time zero. -/
def phaseAt (f : Airy) (x y : ℝ) (i j : ℕ) : ℝ := f.k j * (x * cos (f.dir i) + y * sin (f.dir i)) + f.phase i j

/-- The elevation of the unramped field. -/
def fullElevation (f : Airy) (x y t : ℝ) : ℝ :=
  ∑ p ∈ Finset.range f.nbDir ×ˢ Finset.range f.nbFreq, f.amp p.1 p.2 * sin (phaseAt f x y p.1 p.2 - f.freq p.2 * t)

theorem fullElevation_cont (f : Airy) (x y : ℝ) : Continuous (fullElevation f x y) := by
  unfold fullElevation; fun_prop

theorem elevation_full (f : Airy) (r : Option (ℝ → ℝ)) (depth x y t : ℝ) (fc : FC) :
    (f.update r depth t).elevation x y fc = nwuSign fc * (f.update r depth t).ramp * fullElevation f x (nwuSign fc * y) t := by
  unfold Airy.elevation fullElevation
  rw [Finset.sum_product, Finset.mul_sum]
  refine Finset.sum_congr rfl fun i _ => ?_
  rw [Finset.mul_sum]
  refine Finset.sum_congr rfl fun j _ => ?_
  rw [Airy.ce_im]
  simp only [Airy.ph, Airy.update, phaseAt]
  rw [show ∀ a b c : ℝ, a - b + c = a + c - b from fun a b c => by ring]
  ring

theorem settled_mean {f : Airy} {r : Option (ℝ → ℝ)} (hr : Settled r f.ramp) (depth x y : ℝ) (fc : FC) (Φ : ℝ → ℝ) (hΦ : Continuous Φ) {m : ℝ}
    (h : TimeMean (fun t => Φ (nwuSign fc * fullElevation f x (nwuSign fc * y) t)) m) : TimeMean (fun t => Φ ((f.update r depth t).elevation x y fc)) m := by
  have c := fullElevation_cont f x (nwuSign fc * y)
  rcases hr with ⟨rfl, h1⟩ | ⟨q, t₁, rfl, hq, h1⟩
  · have e : ∀ t, (f.update none depth t).elevation x y fc = nwuSign fc * fullElevation f x (nwuSign fc * y) t := by
      intro t
      rw [elevation_full]
      simp only [Airy.update, h1, mul_one]
    simp only [e]
    exact h
  · have e : ∀ t, (f.update (some q) depth t).elevation x y fc = nwuSign fc * q t * fullElevation f x (nwuSign fc * y) t := by
      intro t
      rw [elevation_full]
      rfl
    simp only [e]
    refine h.later (t₁ := t₁) (by fun_prop) (by fun_prop) fun t ht => ?_
    rw [h1 t ht, mul_one]

/-- **C187, mean level.** At every point the elevation of an irregular sea has a null mean in the course of time. -/
theorem C187_mean_level (f : Airy) (hw : ∀ j < f.nbFreq, 0 < f.freq j) {r : Option (ℝ → ℝ)} (hr : Settled r f.ramp) (depth x y : ℝ) (fc : FC) :
    TimeMean (fun t => (f.update r depth t).elevation x y fc) 0 := by
  refine settled_mean hr depth x y fc id continuous_id ?_
  have c := fullElevation_cont f x (nwuSign fc * y)
  refine BoundedPrimitive.mean ?_ (by simp only [id]; fun_prop)
  have h : BoundedPrimitive (fullElevation f x (nwuSign fc * y)) (∑ p ∈ Finset.range f.nbDir ×ˢ Finset.range f.nbFreq, f.amp p.1 p.2 * 0) := by
    refine BoundedPrimitive.sum _ fun p hp => ?_
    simp only [Finset.mem_product, Finset.mem_range] at hp
    exact (mean_sin _ _ (hw _ hp.2).ne').mul _
  exact (h.mul (nwuSign fc)).congr (fun t => rfl) (by simp)

/-- **C187, mean square.** At every point the mean of the square of the elevation in the course of time is the sum over the (distinct) frequencies of half the square of the modulus of the sum over the
directions of the complex amplitudes at the point. -/
theorem C187_mean_square (f : Airy) (hw : ∀ j < f.nbFreq, 0 < f.freq j) (hd : ∀ i < f.nbFreq, ∀ j < f.nbFreq, f.freq i = f.freq j → i = j)
    {r : Option (ℝ → ℝ)} (hr : Settled r f.ramp) (depth x y : ℝ) :
    TimeMean (fun t => (f.update r depth t).elevation x y .NWU ^ 2)
      (∑ j ∈ Finset.range f.nbFreq, ((∑ i ∈ Finset.range f.nbDir, f.amp i j * cos (f.k j * (x * cos (f.dir i) + y * sin (f.dir i)) + f.phase i j)) ^ 2 +
        (∑ i ∈ Finset.range f.nbDir, f.amp i j * sin (f.k j * (x * cos (f.dir i) + y * sin (f.dir i)) + f.phase i j)) ^ 2) / 2) := by
  refine settled_mean hr depth x y .NWU (fun z => z ^ 2) (by fun_prop) ?_
  simp only [nwuSign, one_mul]
  have c := fullElevation_cont f x y
  refine BoundedPrimitive.mean ?_ (by fun_prop)
  have h := mean_square (Finset.range f.nbDir ×ˢ Finset.range f.nbFreq) (fun p => f.amp p.1 p.2) (fun p => f.freq p.2) (fun p => phaseAt f x y p.1 p.2)
    (fun p hp => hw _ (by simp only [Finset.mem_product, Finset.mem_range] at hp; exact hp.2))
  refine h.congr (fun t => rfl) ?_
  rw [Finset.sum_product_right]
  refine Finset.sum_congr rfl fun j hj => ?_
  simp only [Finset.mem_range] at hj
  have e : ∀ i ∈ Finset.range f.nbDir, (∑ q ∈ Finset.range f.nbDir ×ˢ Finset.range f.nbFreq, f.amp i j * f.amp q.1 q.2 * (if f.freq j = f.freq q.2 then cos (phaseAt f x y i j - phaseAt f x y q.1 q.2) / 2 else 0)) =
      ∑ l ∈ Finset.range f.nbDir, f.amp i j * f.amp l j * (cos (phaseAt f x y i j - phaseAt f x y l j) / 2) := by
    intro i _
    rw [Finset.sum_product]
    refine Finset.sum_congr rfl fun l _ => ?_
    rw [Finset.sum_eq_single j]
    · simp
    · intro b hb hne
      simp only [Finset.mem_range] at hb
      rw [if_neg (fun e => hne (hd j hj b hb e).symm), mul_zero]
    · intro h; exact absurd (Finset.mem_range.mpr hj) h
  rw [Finset.sum_congr rfl e]
  change _ = ((∑ i ∈ Finset.range f.nbDir, f.amp i j * cos (phaseAt f x y i j)) ^ 2 + (∑ i ∈ Finset.range f.nbDir, f.amp i j * sin (phaseAt f x y i j)) ^ 2) / 2
  rw [sq, sq, Finset.sum_mul_sum, Finset.sum_mul_sum, ← Finset.sum_add_distrib, Finset.sum_div]
  refine Finset.sum_congr rfl fun i _ => ?_
  rw [← Finset.sum_add_distrib, Finset.sum_div]
  refine Finset.sum_congr rfl fun l _ => ?_
  rw [cos_sub]
  ring

/-- **C187, one direction.** With one direction the mean of the square is half the sum of the squares of the amplitudes, at every point and in both conventions. -/
theorem C187_one_direction (f : Airy) (hn : f.nbDir = 1) (hw : ∀ j < f.nbFreq, 0 < f.freq j) (hd : ∀ i < f.nbFreq, ∀ j < f.nbFreq, f.freq i = f.freq j → i = j)
    {r : Option (ℝ → ℝ)} (hr : Settled r f.ramp) (depth x y : ℝ) (fc : FC) :
    TimeMean (fun t => (f.update r depth t).elevation x y fc ^ 2) (∑ j ∈ Finset.range f.nbFreq, f.amp 0 j ^ 2 / 2) := by
  have e : ∀ t, (f.update r depth t).elevation x y fc ^ 2 = (f.update r depth t).elevation x (nwuSign fc * y) .NWU ^ 2 := by
    intro t
    rw [elevation_full, elevation_full]
    cases fc <;> simp [nwuSign]
  simp only [e]
  have h := C187_mean_square f hw hd hr depth x (nwuSign fc * y)
  simp only [hn, Finset.range_one, Finset.sum_singleton] at h
  have e2 : ∀ a b : ℝ, ((a * cos b) ^ 2 + (a * sin b) ^ 2) / 2 = a ^ 2 / 2 := by
    intro a b
    linear_combination a ^ 2 / 2 * sin_sq_add_cos_sq b
  simp only [e2] at h
  exact h

/-- **C187, several directions (defect).** With two directions that are not parallel and at least one frequency in which both have waves, the mean square of the elevation is not the same everywhere: the sea is
higher, for ever, at some places than at others. -/
theorem C187_two_directions (f : Airy) (hn : f.nbDir = 2) (hw : ∀ j < f.nbFreq, 0 < f.freq j) (hd : ∀ i < f.nbFreq, ∀ j < f.nbFreq, f.freq i = f.freq j → i = j)
    (hk : ∀ j < f.nbFreq, 0 < f.k j) (hkd : ∀ i < f.nbFreq, ∀ j < f.nbFreq, f.k i = f.k j → i = j)
    (hdir : ¬ (cos (f.dir 0) = cos (f.dir 1) ∧ sin (f.dir 0) = sin (f.dir 1))) (ha : ∃ j < f.nbFreq, f.amp 0 j ≠ 0 ∧ f.amp 1 j ≠ 0)
    {r : Option (ℝ → ℝ)} (hr : Settled r f.ramp) (depth : ℝ) :
    ¬ ∃ m, ∀ x y, TimeMean (fun t => (f.update r depth t).elevation x y .NWU ^ 2) m := by
  rintro ⟨m, hm⟩
  obtain ⟨c, hc⟩ : ∃ c, c = cos (f.dir 0) - cos (f.dir 1) := ⟨_, rfl⟩
  obtain ⟨s, hs⟩ : ∃ s, s = sin (f.dir 0) - sin (f.dir 1) := ⟨_, rfl⟩
  have hpos : 0 < c ^ 2 + s ^ 2 := by
    rcases eq_or_ne c 0 with h0 | h0
    · rcases eq_or_ne s 0 with h1 | h1
      · exact absurd ⟨by linarith, by linarith⟩ hdir
      · positivity
    · positivity
  obtain ⟨A, hA⟩ : ∃ A : ℕ → ℝ, A = fun j => f.amp 0 j * f.amp 1 j := ⟨_, rfl⟩
  obtain ⟨E, hE⟩ : ∃ E, E = ∑ j ∈ Finset.range f.nbFreq, (f.amp 0 j ^ 2 + f.amp 1 j ^ 2) / 2 := ⟨_, rfl⟩
  -- the mean square along the line where the phases of the two directions part
  have line : ∀ u : ℝ, ∑ j ∈ Finset.range f.nbFreq, A j * sin ((f.phase 1 j - f.phase 0 j + π / 2) - f.k j * u) = m - E := by
    intro u
    have h := (C187_mean_square f hw hd hr depth (u * c / (c ^ 2 + s ^ 2)) (u * s / (c ^ 2 + s ^ 2))).unique (hm _ _)
    rw [← h, hE, ← Finset.sum_sub_distrib]
    refine Finset.sum_congr rfl fun j _ => ?_
    rw [hn, Finset.sum_range_succ, Finset.sum_range_one, Finset.sum_range_succ, Finset.sum_range_one]
    obtain ⟨a, ha⟩ : ∃ a, a = f.k j * (u * c / (c ^ 2 + s ^ 2) * cos (f.dir 0) + u * s / (c ^ 2 + s ^ 2) * sin (f.dir 0)) + f.phase 0 j := ⟨_, rfl⟩
    obtain ⟨b, hb⟩ : ∃ b, b = f.k j * (u * c / (c ^ 2 + s ^ 2) * cos (f.dir 1) + u * s / (c ^ 2 + s ^ 2) * sin (f.dir 1)) + f.phase 1 j := ⟨_, rfl⟩
    have hab : a - b = f.k j * u - (f.phase 1 j - f.phase 0 j) := by
      have e : u * c / (c ^ 2 + s ^ 2) * c + u * s / (c ^ 2 + s ^ 2) * s = u := by field_simp
      have : a - b = f.k j * (u * c / (c ^ 2 + s ^ 2) * c + u * s / (c ^ 2 + s ^ 2) * s) + f.phase 0 j - f.phase 1 j := by
        rw [ha, hb]
        linear_combination -(f.k j * (u * c / (c ^ 2 + s ^ 2))) * hc - f.k j * (u * s / (c ^ 2 + s ^ 2)) * hs
      rw [this, e]; ring
    rw [← ha, ← hb, hA, show f.phase 1 j - f.phase 0 j + π / 2 - f.k j * u = π / 2 - (a - b) by rw [hab]; ring, sin_pi_div_two_sub, cos_sub]
    linear_combination (-f.amp 0 j ^ 2 / 2) * sin_sq_add_cos_sq a - f.amp 1 j ^ 2 / 2 * sin_sq_add_cos_sq b
  have m1 : TimeMean (fun u => ∑ j ∈ Finset.range f.nbFreq, A j * sin ((f.phase 1 j - f.phase 0 j + π / 2) - f.k j * u)) 0 := by
    refine BoundedPrimitive.mean ?_ (by fun_prop)
    refine (BoundedPrimitive.sum _ fun j hj => (mean_sin _ _ (hk j (Finset.mem_range.mp hj)).ne').mul (A j)).congr (fun t => rfl) (by simp)
  have z : m - E = 0 := by
    simp only [line] at m1
    exact ((BoundedPrimitive.const (m - E)).mean continuous_const).unique m1
  have m2 : TimeMean (fun u => (∑ j ∈ Finset.range f.nbFreq, A j * sin ((f.phase 1 j - f.phase 0 j + π / 2) - f.k j * u)) ^ 2) (∑ j ∈ Finset.range f.nbFreq, A j ^ 2 / 2) := by
    refine BoundedPrimitive.mean ?_ (by fun_prop)
    refine (mean_square (Finset.range f.nbFreq) A f.k (fun j => f.phase 1 j - f.phase 0 j + π / 2) fun j hj => hk j (Finset.mem_range.mp hj)).congr (fun t => rfl) ?_
    refine Finset.sum_congr rfl fun i hi => ?_
    rw [Finset.sum_eq_single i]
    · simp; ring
    · intro b hb hne
      rw [if_neg (fun e => hne (hkd i (Finset.mem_range.mp hi) b (Finset.mem_range.mp hb) e).symm), mul_zero]
    · intro h; exact absurd hi h
  simp only [line, z] at m2
  have q := ((BoundedPrimitive.const ((0:ℝ) ^ 2)).mean continuous_const).unique m2
  obtain ⟨j, hj, h0, h1⟩ := ha
  have : 0 < ∑ j ∈ Finset.range f.nbFreq, A j ^ 2 / 2 := by
    refine Finset.sum_pos' (fun i _ => by positivity) ⟨j, Finset.mem_range.mpr hj, ?_⟩
    have : A j ≠ 0 := by rw [hA]; exact mul_ne_zero h0 h1
    positivity
  rw [← q] at this
  norm_num at this

/-! ## The hypotheses are met -/

/-- Waves of two directions at a right angle, of frequencies 1 and 2 rad/s, in deep water. -/
def crossedSea (nbDir : ℕ) : Airy :=
  { nbDir := nbDir, nbFreq := 2, dir := fun i => i * (π / 2), freq := fun j => j + 1, k := fun j => (j + 1) ^ 2 / 9.81, amp := fun i j => 1 / (i + j + 1), phase := fun i j => i + 2 * j
    time := 0, ramp := 1, depth := 0, density := 1025, gravity := 9.81, inf := true, infV := true, kind := .none }

/-- A ramp over ten seconds. -/
def tenSeconds (t : ℝ) : ℝ := max 0 (min 1 (t / 10))

theorem settled_tenSeconds (ramp : ℝ) : Settled (some tenSeconds) ramp := by
  refine Or.inr ⟨tenSeconds, 10, rfl, by unfold tenSeconds; fun_prop, fun t ht => ?_⟩
  unfold tenSeconds
  rw [min_eq_left (by rw [le_div_iff₀ (by norm_num)]; linarith), max_eq_right (by norm_num)]

/-- The hypotheses of `C187_mean_level`, `C187_mean_square`, `C187_one_direction` (with one direction) and `C187_two_directions` (with two) are met, with a ramp over ten seconds. -/
example (n : ℕ) : (∀ j < (crossedSea n).nbFreq, 0 < (crossedSea n).freq j) ∧ (∀ i < (crossedSea n).nbFreq, ∀ j < (crossedSea n).nbFreq, (crossedSea n).freq i = (crossedSea n).freq j → i = j) ∧
    Settled (some tenSeconds) (crossedSea n).ramp ∧ (∀ j < (crossedSea n).nbFreq, 0 < (crossedSea n).k j) ∧
    (∀ i < (crossedSea n).nbFreq, ∀ j < (crossedSea n).nbFreq, (crossedSea n).k i = (crossedSea n).k j → i = j) ∧
    ¬ (cos ((crossedSea n).dir 0) = cos ((crossedSea n).dir 1) ∧ sin ((crossedSea n).dir 0) = sin ((crossedSea n).dir 1)) ∧
    ∃ j < (crossedSea n).nbFreq, (crossedSea n).amp 0 j ≠ 0 ∧ (crossedSea n).amp 1 j ≠ 0 := by
  refine ⟨fun j _ => ?_, fun i _ j _ e => ?_, settled_tenSeconds _, fun j _ => ?_, fun i _ j _ e => ?_, fun ⟨e, _⟩ => ?_, 0, by norm_num [crossedSea], ?_, ?_⟩
  · simp only [crossedSea]; positivity
  · simp only [crossedSea] at e
    exact_mod_cast add_right_cancel e
  · simp only [crossedSea]; positivity
  · simp only [crossedSea] at e
    have h1 : ((i : ℝ) + 1) ^ 2 = ((j : ℝ) + 1) ^ 2 := by
      rw [div_eq_div_iff (by norm_num) (by norm_num)] at e
      linarith
    have h2 := (pow_left_inj₀ (by positivity) (by positivity) (by norm_num)).mp h1
    exact_mod_cast add_right_cancel h2
  · simp [crossedSea] at e
  · simp [crossedSea]
  · simp [crossedSea]

end Frydom.Waves
