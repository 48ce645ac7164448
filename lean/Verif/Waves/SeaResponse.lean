import Verif.Waves.SeaSpectrum

/-!
# Means in the course of time of the velocity and pressure under an irregular sea (C188)

`FrAiryIrregularWaveField::GetVelocity`, `GetPressure` (FrAiryIrregularWaveField.cpp:417-426, 460-501) at a fixed point, without stretching.
-/

open Classical Filter Topology MeasureTheory

noncomputable section

namespace Frydom.Waves
open Real Frydom.Geom Frydom.Seakeeping

variable {seeded : ℤ → ℕ → ℝ} {ops : List (Sea × SetOp)} {sea : Sea} {r : Option (ℝ → ℝ)} {draw : ℕ → ℝ} {f g : Irr}

/-! ## Lemmas -/

/-- The ramp at an instant: the value of the time ramp if there is one. -/
def rampNow (r : Option (ℝ → ℝ)) (c t : ℝ) : ℝ := r.elim c fun q => q t

/-- A function of the ramp times sinusoids. -/
theorem settled_generic {r : Option (ℝ → ℝ)} {c : ℝ} (hr : Settled r c) (u : ℝ → ℝ) (hu : Continuous u) (Φ : ℝ → ℝ) (hΦ : Continuous Φ) {m : ℝ} (h : TimeMean (fun t => Φ (u t)) m) :
    TimeMean (fun t => Φ (rampNow r c t * u t)) m := by
  rcases hr with ⟨rfl, h1⟩ | ⟨q, t₁, rfl, hq, h1⟩
  · simp only [rampNow, Option.elim_none, h1, one_mul]
    exact h
  · simp only [rampNow, Option.elim_some]
    refine h.later (t₁ := t₁) (by fun_prop) (by fun_prop) fun t ht => ?_
    simp only [h1 t ht, one_mul]

/-- Responses to components of distinct positive frequencies: null mean, half the sum of the squares. -/
theorem response_mean {r : Option (ℝ → ℝ)} {c : ℝ} (hr : Settled r c) (n : ℕ) (w B α : ℕ → ℝ) (hw : ∀ j < n, 0 < w j) (hd : ∀ i < n, ∀ j < n, w i = w j → i = j) :
    TimeMean (fun t => rampNow r c t * ∑ j ∈ Finset.range n, B j * sin (α j - w j * t)) 0 ∧
    TimeMean (fun t => (rampNow r c t * ∑ j ∈ Finset.range n, B j * sin (α j - w j * t)) ^ 2) (∑ j ∈ Finset.range n, B j ^ 2 / 2) := by
  have cont : Continuous fun t => ∑ j ∈ Finset.range n, B j * sin (α j - w j * t) := by fun_prop
  constructor
  · refine settled_generic hr _ cont id continuous_id (BoundedPrimitive.mean ?_ (by simpa using cont))
    exact (BoundedPrimitive.sum (Finset.range n) fun j hj => (mean_sin (w j) (α j) (hw j (Finset.mem_range.mp hj)).ne').mul (B j)).congr (fun _ => rfl) (by simp)
  · refine settled_generic hr _ cont (fun z => z ^ 2) (by fun_prop) (BoundedPrimitive.mean ?_ (by fun_prop))
    refine (mean_square (Finset.range n) B w α fun j hj => hw j (Finset.mem_range.mp hj)).congr (fun _ => rfl) ?_
    refine Finset.sum_congr rfl fun i hi => ?_
    rw [Finset.sum_eq_single i]
    · simp; ring
    · intro b hb hne
      rw [if_neg (fun e => hne (hd i (Finset.mem_range.mp hi) b (Finset.mem_range.mp hb) e).symm), mul_zero]
    · intro h; exact absurd hi h

theorem TimeMean.add {u v : ℝ → ℝ} {m n : ℝ} (h : TimeMean u m) (h' : TimeMean v n) (hu : Continuous u) (hv : Continuous v) : TimeMean (fun t => u t + v t) (m + n) := by
  refine (Tendsto.add h h').congr fun T => ?_
  rw [intervalIntegral.integral_add (hu.intervalIntegrable 0 T) (hv.intervalIntegrable 0 T), add_div]

/-! ## Specification -/

/-- How the horizontal velocity, the vertical velocity and the pressure of a wave of number `k` decay with depth in linear theory: water of infinite depth (`none`) or of depth `d`. -/
def decayH (d : Option ℝ) (k z : ℝ) : ℝ := d.elim (exp (k * z)) fun d => cosh (k * (z + d)) / sinh (k * d)
def decayV (d : Option ℝ) (k z : ℝ) : ℝ := d.elim (exp (k * z)) fun d => sinh (k * (z + d)) / sinh (k * d)
def decayP (d : Option ℝ) (k z : ℝ) : ℝ := d.elim (exp (k * z)) fun d => cosh (k * (z + d)) / cosh (k * d)

/-- The depth of the water seen by the field. -/
def waterDepth (f : Airy) (depth : ℝ) : Option ℝ := if f.inf then none else some depth

/-! ## C188 -/

theorem velocity_forms (f : Airy) (hk : f.kind = .none) (hinf : f.infV = f.inf) (hn : f.nbDir = 1) (hk0 : ∀ j < f.nbFreq, 0 < f.k j) (r : Option (ℝ → ℝ)) (depth t x y z : ℝ) :
    ((f.update r depth t).velocity x y z .NWU).x = rampNow r f.ramp t *
      ∑ j ∈ Finset.range f.nbFreq, (cos (f.dir 0) * (f.freq j * f.amp 0 j * decayH (waterDepth f depth) (f.k j) z)) * sin (phaseAt f x y 0 j - f.freq j * t) ∧
    ((f.update r depth t).velocity x y z .NWU).y = rampNow r f.ramp t *
      ∑ j ∈ Finset.range f.nbFreq, (sin (f.dir 0) * (f.freq j * f.amp 0 j * decayH (waterDepth f depth) (f.k j) z)) * sin (phaseAt f x y 0 j - f.freq j * t) ∧
    ((f.update r depth t).velocity x y z .NWU).z = rampNow r f.ramp t *
      ∑ j ∈ Finset.range f.nbFreq, (f.freq j * f.amp 0 j * decayV (waterDepth f depth) (f.k j) z) * sin (phaseAt f x y 0 j - π / 2 - f.freq j * t) := by
  have hk' : (f.update r depth t).kind = .none := hk
  have hRn : (f.update r depth t).ramp = rampNow r f.ramp t := by cases r <;> rfl
  have hE : ∀ j, Ez f.infV z (f.k j) (f.update r depth t).depth = decayH (waterDepth f depth) (f.k j) z := by
    intro j
    unfold Ez decayH waterDepth Airy.update
    rw [hinf]
    cases f.inf <;> simp
  have hD : ∀ j < f.nbFreq, (f.k j)⁻¹ * diffEz f.infV z (f.k j) (f.update r depth t).depth = decayV (waterDepth f depth) (f.k j) z := by
    intro j hj
    have := (hk0 j hj).ne'
    unfold diffEz decayV waterDepth Airy.update
    rw [hinf]
    cases f.inf <;> simp <;> field_simp
  refine ⟨?_, ?_, ?_⟩
  · rw [Airy.vx_eq, Finset.mul_sum]
    refine Finset.sum_congr rfl fun j hj => ?_
    rw [show (f.update r depth t).nbDir = 1 from hn, Finset.sum_range_one]
    simp only [Airy.ce_im, nwuSign, one_mul, mul_one, Airy.evalV_none hk']
    have := hE j
    change _ * _ * Ez f.infV z (f.k j) (f.update r depth t).depth * _ = _
    rw [this]
    rw [← hRn]
    generalize (f.update r depth t).ramp = R
    simp only [Airy.ph, Airy.update, phaseAt]
    rw [show ∀ a b c : ℝ, a - b + c = a + c - b from fun a b c => by ring]
    ring
  · rw [Airy.vy_eq, Finset.mul_sum]
    refine Finset.sum_congr rfl fun j hj => ?_
    rw [show (f.update r depth t).nbDir = 1 from hn, Finset.sum_range_one]
    simp only [Airy.ce_im, nwuSign, one_mul, mul_one, Airy.evalV_none hk']
    have := hE j
    change _ * _ * Ez f.infV z (f.k j) (f.update r depth t).depth * _ = _
    rw [this]
    rw [← hRn]
    generalize (f.update r depth t).ramp = R
    simp only [Airy.ph, Airy.update, phaseAt]
    rw [show ∀ a b c : ℝ, a - b + c = a + c - b from fun a b c => by ring]
    ring
  · rw [Airy.vz_eq, Finset.mul_sum]
    refine Finset.sum_congr rfl fun j hj => ?_
    rw [show (f.update r depth t).nbDir = 1 from hn, Finset.sum_range_one]
    simp only [Airy.ce_re, nwuSign, one_mul, mul_one, Airy.evalDZV_none hk']
    have := hD j (Finset.mem_range.mp hj)
    change -((f.k j)⁻¹ * f.freq j * diffEz f.infV z (f.k j) (f.update r depth t).depth) * _ = _
    rw [show (f.k j)⁻¹ * f.freq j * diffEz f.infV z (f.k j) (f.update r depth t).depth = f.freq j * ((f.k j)⁻¹ * diffEz f.infV z (f.k j) (f.update r depth t).depth) by ring, this]
    rw [show phaseAt f x y 0 j - π / 2 - f.freq j * t = (phaseAt f x y 0 j - f.freq j * t) - π / 2 by ring, sin_sub_pi_div_two]
    rw [← hRn]
    generalize (f.update r depth t).ramp = R
    simp only [Airy.ph, Airy.update, phaseAt]
    rw [show ∀ a b c : ℝ, a - b + c = a + c - b from fun a b c => by ring]
    ring

/-- **C188, velocity.** Under an irregular sea of one direction (distinct positive frequencies, positive wave numbers, no stretching), the velocity returned at a fixed point has a null mean in the course of time:
the waves carry no mean flow at a fixed point; and the means of the squares of the horizontal and vertical speeds are the sums of `(w a)²/2` times the squares of the decays with depth. -/
theorem C188_velocity (f : Airy) (hk : f.kind = .none) (hinf : f.infV = f.inf) (hn : f.nbDir = 1) (hk0 : ∀ j < f.nbFreq, 0 < f.k j) (hw : ∀ j < f.nbFreq, 0 < f.freq j)
    (hd : ∀ i < f.nbFreq, ∀ j < f.nbFreq, f.freq i = f.freq j → i = j) {r : Option (ℝ → ℝ)} (hr : Settled r f.ramp) (depth x y z : ℝ) :
    TimeMean (fun t => ((f.update r depth t).velocity x y z .NWU).x) 0 ∧ TimeMean (fun t => ((f.update r depth t).velocity x y z .NWU).y) 0 ∧
    TimeMean (fun t => ((f.update r depth t).velocity x y z .NWU).z) 0 ∧
    TimeMean (fun t => ((f.update r depth t).velocity x y z .NWU).x ^ 2 + ((f.update r depth t).velocity x y z .NWU).y ^ 2)
      (∑ j ∈ Finset.range f.nbFreq, (f.freq j * f.amp 0 j * decayH (waterDepth f depth) (f.k j) z) ^ 2 / 2) ∧
    TimeMean (fun t => ((f.update r depth t).velocity x y z .NWU).z ^ 2) (∑ j ∈ Finset.range f.nbFreq, (f.freq j * f.amp 0 j * decayV (waterDepth f depth) (f.k j) z) ^ 2 / 2) := by
  have F := fun t => velocity_forms f hk hinf hn hk0 r depth t x y z
  simp only [fun t => (F t).1, fun t => (F t).2.1, fun t => (F t).2.2]
  have X := response_mean hr f.nbFreq f.freq (fun j => cos (f.dir 0) * (f.freq j * f.amp 0 j * decayH (waterDepth f depth) (f.k j) z)) (phaseAt f x y 0) hw hd
  have Y := response_mean hr f.nbFreq f.freq (fun j => sin (f.dir 0) * (f.freq j * f.amp 0 j * decayH (waterDepth f depth) (f.k j) z)) (phaseAt f x y 0) hw hd
  have Z := response_mean hr f.nbFreq f.freq (fun j => f.freq j * f.amp 0 j * decayV (waterDepth f depth) (f.k j) z) (fun j => phaseAt f x y 0 j - π / 2) hw hd
  refine ⟨X.1, Y.1, Z.1, ?_, Z.2⟩
  have hc : Continuous (rampNow r f.ramp) := by
    rcases hr with ⟨rfl, -⟩ | ⟨q, t₁, rfl, hq, -⟩
    · exact continuous_const
    · exact hq
  have := X.2.add Y.2 (by fun_prop) (by fun_prop)
  convert this using 1
  rw [← Finset.sum_add_distrib]
  refine Finset.sum_congr rfl fun j _ => ?_
  obtain ⟨A, hA⟩ : ∃ A, A = f.freq j * f.amp 0 j * decayH (waterDepth f depth) (f.k j) z := ⟨_, rfl⟩
  rw [← hA]
  linear_combination -(A ^ 2 / 2) * sin_sq_add_cos_sq (f.dir 0)

/-- **C188, pressure.** Under the same sea the pressure returned at a fixed point (the dynamic pressure) has a null mean, and the mean of its square is the sum of `(ρ g a)²/2` times the square of its decay with depth. -/
theorem C188_pressure (f : Airy) (hk : f.kind = .none) (hinf : f.infV = f.inf) (hn : f.nbDir = 1) (hk0 : ∀ j < f.nbFreq, 0 < f.k j) (hw : ∀ j < f.nbFreq, 0 < f.freq j)
    (hd : ∀ i < f.nbFreq, ∀ j < f.nbFreq, f.freq i = f.freq j → i = j) {r : Option (ℝ → ℝ)} (hr : Settled r f.ramp) (depth x y z : ℝ) (hdep : f.inf = false → 0 < depth) :
    TimeMean (fun t => (f.update r depth t).pressure x y z .NWU) 0 ∧
    TimeMean (fun t => (f.update r depth t).pressure x y z .NWU ^ 2) (∑ j ∈ Finset.range f.nbFreq, (f.density * f.gravity * f.amp 0 j * decayP (waterDepth f depth) (f.k j) z) ^ 2 / 2) := by
  have F : ∀ t, (f.update r depth t).pressure x y z .NWU = rampNow r f.ramp t *
      ∑ j ∈ Finset.range f.nbFreq, (f.density * f.gravity * f.amp 0 j * decayP (waterDepth f depth) (f.k j) z) * sin (phaseAt f x y 0 j - f.freq j * t) := by
    intro t
    have hk' : (f.update r depth t).kind = .none := hk
    have hRn : (f.update r depth t).ramp = rampNow r f.ramp t := by cases r <;> rfl
    unfold Airy.pressure
    rw [Finset.sum_mul, Finset.sum_mul, Finset.mul_sum]
    refine Finset.sum_congr rfl fun j hj => ?_
    have hj := Finset.mem_range.mp hj
    rw [show (f.update r depth t).nbDir = 1 from hn, Finset.sum_range_one]
    simp only [Airy.ce_im, nwuSign, one_mul, mul_one, Airy.evalV_none hk']
    have e : Ez f.infV z (f.k j) (f.update r depth t).depth * (if f.inf then 1 else tanh (f.k j * (f.update r depth t).depth)) = decayP (waterDepth f depth) (f.k j) z := by
      unfold Ez decayP waterDepth Airy.update
      rw [hinf]
      cases hi : f.inf
      · have h1 : sinh (f.k j * depth) ≠ 0 := (sinh_pos_iff.mpr (mul_pos (hk0 j hj) (hdep hi))).ne'
        have h2 := (cosh_pos (f.k j * depth)).ne'
        simp only [Bool.false_eq_true, if_false, Option.elim_some, tanh_eq_sinh_div_cosh]
        field_simp
      · simp
    change Ez f.infV z (f.k j) (f.update r depth t).depth * (if f.inf then 1 else tanh (f.k j * (f.update r depth t).depth)) * _ * f.density * f.gravity = _
    rw [e]
    rw [← hRn]
    generalize (f.update r depth t).ramp = R
    simp only [Airy.ph, Airy.update, phaseAt]
    rw [show ∀ a b c : ℝ, a - b + c = a + c - b from fun a b c => by ring]
    ring
  simp only [F]
  exact response_mean hr f.nbFreq f.freq (fun j => f.density * f.gravity * f.amp 0 j * decayP (waterDepth f depth) (f.k j) z) (phaseAt f x y 0) hw hd

/-- What an initialised sea of one direction is. -/
theorem Ready.one (h : Ready seeded ops sea r draw f g) (hd : f.spectrum.dir = none) (hlt : g.view.freq 0 < g.view.freq (g.view.nbFreq - 1)) (hS : ∀ w, 0 < w → 0 ≤ f.spectrum.eval w) :
    g.view.nbDir = 1 ∧ (∀ j < g.view.nbFreq, 0 < g.view.freq j) ∧ (∀ i < g.view.nbFreq, ∀ j < g.view.nbFreq, g.view.freq i = g.view.freq j → i = j) ∧
    ∀ j < g.view.nbFreq, g.view.amp 0 j ^ 2 / 2 = f.spectrum.eval (g.view.freq j) * ((g.view.freq (g.view.nbFreq - 1) - g.view.freq 0) / (g.view.nbFreq - 1)) := by
  obtain ⟨-, min, max, θ₀, θ₁, hmin, hmm, -, hf, -, h1, ha⟩ := C165_components h
  have hn1 := h1 hd
  have h2 : 2 ≤ g.view.nbFreq := by
    by_contra hc
    have : g.view.nbFreq - 1 = 0 := by omega
    rw [this] at hlt
    exact lt_irrefl _ hlt
  obtain ⟨n, hn⟩ : ∃ n, g.view.nbFreq = n := ⟨_, rfl⟩
  rw [hn] at h2 hlt hf ha ⊢
  have hne : n ≠ 1 := by omega
  have hn0 : (0:ℝ) < (n:ℝ) - 1 := by
    have : (2:ℝ) ≤ n := by exact_mod_cast h2
    linarith
  obtain ⟨Δ, hΔ⟩ : ∃ Δ, Δ = (max - min) / ((n : ℝ) - 1) := ⟨_, rfl⟩
  have hfj : ∀ j < n, g.view.freq j = min + j * Δ := by
    intro j hj
    rw [hf j hj, spaced, if_neg hne, hΔ]
  have f0 : g.view.freq 0 = min := by rw [hfj 0 (by omega)]; simp
  have fl : g.view.freq (n - 1) = max := by
    rw [hfj (n - 1) (by omega), hΔ, Nat.cast_sub (by omega), Nat.cast_one]
    field_simp
    ring
  rw [f0, fl] at hlt ⊢
  have hΔ0 : 0 < Δ := by rw [hΔ]; exact div_pos (by linarith) hn0
  have hwpos : ∀ j < n, 0 < g.view.freq j := fun j hj => by rw [hfj j hj]; positivity
  refine ⟨hn1, hwpos, fun i hi j hj e => ?_, fun j hj => ?_⟩
  · rw [hfj i hi, hfj j hj] at e
    have : (i : ℝ) = j := mul_right_cancel₀ hΔ0.ne' (by linarith)
    exact_mod_cast this
  · rw [ha 0 (by omega) j hj, hd, hn1, ← hΔ]
    unfold spacing
    rw [if_pos rfl, if_neg hne, ← hΔ]
    simp only [Option.elim_none, mul_one]
    rw [Real.sq_sqrt (mul_nonneg (mul_nonneg (by norm_num) (hS _ (hwpos j hj))) hΔ0.le)]
    ring

/-- The hypotheses of `C188_velocity` and `C188_pressure` are met by two waves in deep water, with a ramp over ten seconds (the others are in SeaEnergy). -/
example : (crossedSea 1).kind = .none ∧ (crossedSea 1).infV = (crossedSea 1).inf ∧ (crossedSea 1).nbDir = 1 ∧ (∀ j < (crossedSea 1).nbFreq, 0 < (crossedSea 1).k j) ∧
    Settled (some tenSeconds) (crossedSea 1).ramp ∧ ((crossedSea 1).inf = false → (0 : ℝ) < 50) :=
  ⟨rfl, rfl, rfl, fun j _ => by simp only [crossedSea]; positivity, settled_tenSeconds _, fun _ => by norm_num⟩

end Frydom.Waves
