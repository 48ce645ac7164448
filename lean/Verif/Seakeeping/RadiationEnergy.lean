import Verif.Seakeeping.Radiation

/-!
# Energy given by the radiation memory (C190)

`src/frydom/hydrodynamics/seakeeping/linear/radiation/FrRadiationModel.cpp` (164-212), `FrRecorder.h` (159-230): the model of Radiation.lean, updated at each step of the recorder.
-/

open Classical

noncomputable section

namespace Frydom.Seakeeping
open Frydom.Geom Frydom.Core Frydom.Hydro Frydom.Recorder

/-! ## Specification -/

/-- The model after its `n` first updates, at `t0, t0 + h, …`; `e n` the equilibrium frames (with the motion of the bodies) at the update `n`, `sysTime n` the time of the system then. -/
def updates (m : RadModel) (sysTime : ℕ → ℝ) (sysStep t0 h : ℝ) (e : ℕ → ℕ → EqFrame) : ℕ → RadModel
  | 0 => m
  | n + 1 => (updates m sysTime sysStep t0 h e n).compute (sysTime n) sysStep (e n) (t0 + n * h)

/-- Power of a load (force, torque; world axes) on a motion about the equilibrium frame. -/
def power (F : V3 × V3) (e : EqFrame) : ℝ := V3.dot F.1 (e.perturbationVelocity .NWU) + V3.dot F.2 (e.perturbationAngularVelocity .NWU)

/-- Work of the radiation loads of all the bodies over the `N` first updates, each load acting on the velocities of its instant during one step. -/
def radiationWork (m : RadModel) (sysTime : ℕ → ℝ) (sysStep t0 h : ℝ) (e : ℕ → ℕ → EqFrame) (N : ℕ) : ℝ :=
  ∑ n ∈ Finset.range N, h * ∑ i ∈ Finset.range m.nb, power ((updates m sysTime sysStep t0 h e (n + 1)).force i) (e n i)

/-- The quadratic form of coefficients `B` (body, direction of the load, body in motion, motion). -/
def form (nb : ℕ) (B : ℕ → Fin 6 → ℕ → Fin 6 → ℝ) (x y : ℕ → Vec6) : ℝ :=
  ∑ i ∈ Finset.range nb, ∑ r : Fin 6, ∑ j ∈ Finset.range nb, ∑ d : Fin 6, x i r * B i r j d * y j d

/-- Damping coefficients of several bodies: symmetric, and dissipating energy for every motion of the bodies. -/
structure Dissipates (nb : ℕ) (B : ℕ → Fin 6 → ℕ → Fin 6 → ℝ) : Prop where
  symm : ∀ i r j d, B i r j d = B j d i r
  nonneg : ∀ x : ℕ → Vec6, 0 ≤ form nb B x x

/-! ## Lemmas -/

/-- Contents of a recorder that records `v 0, …, v n` exactly at each step. -/
structure Uniform (r : Rec Vec6) (t0 h : ℝ) (cap : ℕ) (v : ℕ → Vec6) (n : ℕ) : Prop where
  step : r.step = h
  size : r.cap = cap
  last : r.last = t0 + n * h
  prev : r.prev = t0 + n * h
  delta : 1 ≤ n → r.delta = 0
  data : r.data = (v n :: (List.range n).map fun k => v (n - k)).take cap

theorem Uniform.start (r : Rec Vec6) (t0 h : ℝ) (v : ℕ → Vec6) (h0 : r.data = []) (hs : r.step = h) : Uniform (r.record t0 (v 0)) t0 h r.cap v 0 := by
  have hrec : r.record t0 (v 0) = { r with data := pushFront r.cap (v 0) [], last := t0, prev := t0 } := by
    unfold Rec.record; rw [h0]
  rw [hrec]
  exact ⟨hs, rfl, by simp, by simp, by omega, by simp [pushFront]⟩

theorem Uniform.next {r : Rec Vec6} {t0 h : ℝ} {cap : ℕ} {v : ℕ → Vec6} {n : ℕ} (u : Uniform r t0 h cap v n) (hh : 0 < h) (hc : 1 ≤ cap) :
    Uniform (r.record (t0 + (n + 1 : ℕ) * h) (v (n + 1))) t0 h cap v (n + 1) := by
  obtain ⟨c, rfl⟩ : ∃ c, cap = c + 1 := ⟨cap - 1, by omega⟩
  have hd := u.data
  rw [List.take_succ_cons] at hd
  have hne : ¬ (t0 + (n + 1 : ℕ) * h = r.last) := by
    rw [u.last]; push_cast; intro e; nlinarith
  have hst : ¬ (t0 + (n + 1 : ℕ) * h - r.prev < r.step) := by
    rw [u.prev, u.step]; push_cast; intro e; nlinarith
  have hi : interpolate r.last (r.prev + r.step) (v n) (v (n + 1)) (t0 + (n + 1 : ℕ) * h) = v (n + 1) := by
    have e : r.prev + r.step = t0 + (n + 1 : ℕ) * h := by rw [u.prev, u.step]; push_cast; ring
    rw [e]
    rw [interpolate_eq (r.last, v n) (t0 + (n + 1 : ℕ) * h, v (n + 1)) _ (Ne.symm hne)]
    unfold line
    simp only []
    rw [div_self (sub_ne_zero.mpr hne), one_smul]; abel
  have hrec : r.record (t0 + (n + 1 : ℕ) * h) (v (n + 1)) = { r with data := pushFront r.cap (v (n + 1)) (setFront (v (n + 1)) r.data), prev := r.prev + r.step, last := t0 + (n + 1 : ℕ) * h, delta := t0 + (n + 1 : ℕ) * h - (r.prev + r.step) } := by
    unfold Rec.record
    rw [hd]
    simp only []
    rw [if_neg hne, if_neg hst, hi]
  rw [hrec]
  refine ⟨u.step, u.size, rfl, ?_, fun _ => ?_, ?_⟩
  · show r.prev + r.step = _
    rw [u.prev, u.step]; push_cast; ring
  · show _ - (r.prev + r.step) = 0
    rw [u.prev, u.step]; push_cast; ring
  · show pushFront r.cap (v (n + 1)) (setFront (v (n + 1)) r.data) = _
    rw [u.size, hd]
    simp only [setFront, pushFront, List.take_succ_cons]
    rw [List.range_succ_eq_map, List.map_cons, List.map_map]
    congr 1
    have : (List.range n).map ((fun k => v (n + 1 - k)) ∘ Nat.succ) = (List.range n).map fun k => v (n - k) := by
      apply List.map_congr_left
      intro k _
      simp only [Function.comp, Nat.succ_eq_add_one, Nat.add_sub_add_right]
    rw [this]
    cases c with
    | zero => simp
    | succ c => simp only [List.take_succ_cons, List.take_take, Nat.sub_zero]; congr 2; omega

/-- Convolution seen by such a recorder: the delays are those of the memory. -/
theorem Uniform.trapz_min {r : Rec Vec6} {t0 h : ℝ} {cap : ℕ} {v : ℕ → Vec6} {n : ℕ} (u : Uniform r t0 h cap v n) (hc : 1 ≤ cap) (K : ℝ → Vec6) (d : Fin 6) :
    trapzLoc r.getTime.length (fun it => r.getTime.getD it 0) (fun it => r.data.getD it 0 d • K (r.getTime.getD it 0)) =
      ∑ k ∈ Finset.range (min (n - 1) (cap - 2)), (h / 2) • (v (n - k) d • K (k * h) + v (n - (k + 1)) d • K ((k + 1 : ℕ) * h)) := by
  have hlen : r.data.length = min cap (n + 1) := by rw [u.data, List.length_take]; simp
  have hT : r.getTime.length = r.data.length := getTime_length r (by rw [hlen]; omega)
  rcases Nat.lt_or_ge (min cap (n + 1)) 2 with h1 | h2
  · have : trapzLoc r.getTime.length (fun it => r.getTime.getD it 0) (fun it => r.data.getD it 0 d • K (r.getTime.getD it 0)) = 0 :=
      (C104_linear _ _ _ (fun _ => (0 : Vec6)) 0 0).2.2 (by rw [hT, hlen]; omega)
    rw [this, show min (n - 1) (cap - 2) = 0 by omega]
    rfl
  · obtain ⟨l, hl⟩ : ∃ l, min cap (n + 1) = l + 2 := ⟨min cap (n + 1) - 2, by omega⟩
    have hL : r.getTime.length = l + 2 := by rw [hT, hlen, hl]
    have hn1 : 1 ≤ n := by omega
    have htime : ∀ k < l + 1, r.getTime.getD (k + 1) 0 = k * h := by
      intro k hk
      rw [getTime_getD r (k + 1) (by rw [hL]; omega), if_neg (by omega), u.delta hn1, u.step, zero_add]
      rfl
    have htime0 : r.getTime.getD 0 0 = 0 := by
      rw [getTime_getD r 0 (by rw [hL]; omega), if_pos rfl]
    have hval : ∀ k < l + 1, r.data.getD (k + 1) 0 = v (n - k) := by
      intro k hk
      have hk' : k + 1 < r.data.length := by rw [hlen, hl]; omega
      rw [getD_of_lt _ _ _ hk', List.getElem_of_eq u.data]
      simp
    rw [hL, trapz_closed, Finset.sum_range_succ']
    simp only [htime0, htime 0 (by omega)]
    have e0 : (((0 : ℕ) : ℝ) * h - 0) / 2 = 0 := by simp
    rw [e0, zero_smul, add_zero, show min (n - 1) (cap - 2) = l by omega]
    apply Finset.sum_congr rfl
    intro k hk
    rw [Finset.mem_range] at hk
    rw [htime k (by omega), htime (k + 1) (by omega), hval k (by omega), hval (k + 1) (by omega)]
    congr 1
    push_cast; ring

/-- Within the memory, or with a response null beyond it, all the delays since the second record. -/
theorem Uniform.trapz {r : Rec Vec6} {t0 h : ℝ} {cap : ℕ} {v : ℕ → Vec6} {n : ℕ} (u : Uniform r t0 h cap v n) (hc : 1 ≤ cap) (K : ℝ → Vec6) (d : Fin 6)
    (hK : n + 1 ≤ cap ∨ ∀ k : ℕ, cap ≤ k + 2 → K (k * h) = 0) :
    trapzLoc r.getTime.length (fun it => r.getTime.getD it 0) (fun it => r.data.getD it 0 d • K (r.getTime.getD it 0)) =
      ∑ k ∈ Finset.range (n - 1), (h / 2) • (v (n - k) d • K (k * h) + v (n - (k + 1)) d • K ((k + 1 : ℕ) * h)) := by
  rw [u.trapz_min hc K d]
  apply Finset.sum_subset (Finset.range_mono (by omega))
  intro k hk hk'
  rw [Finset.mem_range] at hk hk'
  rcases hK with hK | hK
  · omega
  · rw [hK k (by omega), hK (k + 1) (by omega)]; simp

/-- The trapezoidal rule on a unit step. -/
theorem trapz_unit (w : ℕ → ℝ) (p : ℕ) : ∑ k ∈ Finset.range (p + 1), (w k + w (k + 1)) / 2 = w 0 / 2 + ∑ k ∈ Finset.range p, w (k + 1) + w (p + 1) / 2 := by
  induction p with
  | zero => simp; ring
  | succ p ih => rw [Finset.sum_range_succ, ih, Finset.sum_range_succ _ p]; ring

/-- The recorded history: without its first sample, with half of the second one. -/
def kept (x : ℕ → ℕ → Vec6) (n : ℕ) : ℕ → Vec6 := if n = 0 then 0 else if n = 1 then (1 / 2 : ℝ) • x 1 else x n

theorem conv_kept (c : ℕ → (ℕ → Vec6) → (ℕ → Vec6) → ℝ) (h0 : ∀ k x, c k x 0 = 0) (hs : ∀ k (a : ℝ) x y, c k x (a • y) = a * c k x y) (hs' : ∀ k (a : ℝ) x y, c k (a • x) y = a * c k x y)
    (x : ℕ → ℕ → Vec6) (n : ℕ) :
    ∑ k ∈ Finset.range (n - 1), (c k (x n) (x (n - k)) + c (k + 1) (x n) (x (n - (k + 1)))) / 2 =
      c 0 (kept x n) (kept x n) / 2 + ∑ m ∈ Finset.range n, c (n - m) (kept x n) (kept x m) - if n = 1 then c 0 (x 1) (x 1) / 8 else 0 := by
  rcases n with _ | _ | n
  · simp [kept, h0]
  · simp [kept, h0, hs, hs']; ring
  · rw [show n + 1 + 1 - 1 = n + 1 by omega]
    rw [trapz_unit (fun k => c k (x (n + 2)) (x (n + 2 - k))) n]
    rw [Finset.sum_range_succ', Finset.sum_range_succ']
    rw [if_neg (by omega), sub_zero]
    have k2 : kept x (n + 2) = x (n + 2) := by simp [kept]
    have k0 : kept x 0 = 0 := by simp [kept]
    have k1 : kept x 1 = (1 / 2 : ℝ) • x 1 := by simp [kept]
    have hm : ∀ m, kept x (m + 1 + 1) = x (m + 2) := by intro m; simp [kept]
    simp only [hm, k0, h0]
    rw [show (0 : ℕ) + 1 = 1 from rfl, k1, hs, ← Finset.sum_range_reflect]
    have e : ∑ j ∈ Finset.range n, c (n - 1 - j + 1) (x (n + 2)) (x (n + 2 - (n - 1 - j + 1))) = ∑ m ∈ Finset.range n, c (n + 1 + 1 - (m + 1 + 1)) (x (n + 2)) (x (m + 2)) := by
      apply Finset.sum_congr rfl
      intro j hj
      rw [Finset.mem_range] at hj
      rw [show n - 1 - j + 1 = n + 1 + 1 - (j + 1 + 1) by omega, show n + 2 - (n + 1 + 1 - (j + 1 + 1)) = j + 2 by omega]
    simp only [e]
    rw [show n + 2 - (n + 1) = 1 by omega, show n + 1 + 1 - 1 = n + 1 by omega]
    simp only [Nat.sub_zero]
    ring

variable {nb : ℕ} {B : ℕ → Fin 6 → ℕ → Fin 6 → ℝ}

theorem form_add_right (x y z : ℕ → Vec6) : form nb B x (y + z) = form nb B x y + form nb B x z := by
  unfold form
  simp only [Pi.add_apply, mul_add, Finset.sum_add_distrib]

theorem form_smul_right (a : ℝ) (x y : ℕ → Vec6) : form nb B x (a • y) = a * form nb B x y := by
  unfold form
  simp only [Finset.mul_sum, Pi.smul_apply, smul_eq_mul]
  refine Finset.sum_congr rfl fun i _ => Finset.sum_congr rfl fun r _ => Finset.sum_congr rfl fun j _ => Finset.sum_congr rfl fun d _ => ?_
  ring

theorem form_smul_left (a : ℝ) (x y : ℕ → Vec6) : form nb B (a • x) y = a * form nb B x y := by
  unfold form
  simp only [Finset.mul_sum, Pi.smul_apply, smul_eq_mul]
  refine Finset.sum_congr rfl fun i _ => Finset.sum_congr rfl fun r _ => Finset.sum_congr rfl fun j _ => Finset.sum_congr rfl fun d _ => ?_
  ring

theorem form_symm (hB : ∀ i r j d, B i r j d = B j d i r) (x y : ℕ → Vec6) : form nb B x y = form nb B y x := by
  unfold form
  have e : ∀ x y : ℕ → Vec6, (∑ i ∈ Finset.range nb, ∑ r : Fin 6, ∑ j ∈ Finset.range nb, ∑ d : Fin 6, x i r * B i r j d * y j d) =
      ∑ p ∈ Finset.range nb ×ˢ (Finset.univ : Finset (Fin 6)), ∑ q ∈ Finset.range nb ×ˢ (Finset.univ : Finset (Fin 6)), x p.1 p.2 * B p.1 p.2 q.1 q.2 * y q.1 q.2 := by
    intro x y
    rw [Finset.sum_product]
    refine Finset.sum_congr rfl fun i _ => Finset.sum_congr rfl fun r _ => ?_
    rw [Finset.sum_product]
  rw [e, e, Finset.sum_comm]
  refine Finset.sum_congr rfl fun p _ => Finset.sum_congr rfl fun q _ => ?_
  rw [hB]; ring

/-- Causal sum of a cosine kernel: half of the squares of the Fourier sums. -/
theorem cosine_squares (hB : ∀ i r j d, B i r j d = B j d i r) (θ : ℝ) (u : ℕ → ℕ → Vec6) (N : ℕ) :
    ∑ n ∈ Finset.range N, (form nb B (u n) (u n) / 2 + ∑ m ∈ Finset.range n, Real.cos (θ * ((n - m : ℕ) : ℝ)) * form nb B (u n) (u m)) =
      (form nb B (∑ n ∈ Finset.range N, Real.cos (θ * n) • u n) (∑ n ∈ Finset.range N, Real.cos (θ * n) • u n) +
        form nb B (∑ n ∈ Finset.range N, Real.sin (θ * n) • u n) (∑ n ∈ Finset.range N, Real.sin (θ * n) • u n)) / 2 := by
  have hsum : ∀ (s : Finset ℕ) (a : ℕ → ℝ) (x : ℕ → Vec6), form nb B x (∑ n ∈ s, a n • u n) = ∑ n ∈ s, a n * form nb B x (u n) := by
    intro s a x
    induction s using Finset.induction_on with
    | empty =>
      have := form_smul_right (nb := nb) (B := B) 0 x 0
      simpa using this
    | insert n s hn ih => rw [Finset.sum_insert hn, form_add_right, form_smul_right, ih, Finset.sum_insert hn]
  have hsq : ∀ (a : ℝ) (x y : ℕ → Vec6), form nb B (y + a • x) (y + a • x) = form nb B y y + 2 * a * form nb B x y + a ^ 2 * form nb B x x := by
    intro a x y
    rw [form_add_right, form_smul_right, form_symm hB (y + a • x) y, form_symm hB (y + a • x) x, form_add_right, form_smul_right, form_add_right, form_smul_right, form_symm hB y x]
    ring
  induction N with
  | zero =>
    have := form_smul_right (nb := nb) (B := B) 0 0 0
    simp at this
    simp [this]
  | succ N ih =>
    rw [Finset.sum_range_succ, ih, Finset.sum_range_succ _ N, Finset.sum_range_succ _ N, hsq, hsq]
    have q1 := hsum (Finset.range N) (fun n : ℕ => Real.cos (θ * n)) (u N)
    have q2 := hsum (Finset.range N) (fun n : ℕ => Real.sin (θ * n)) (u N)
    have hcos : ∑ m ∈ Finset.range N, Real.cos (θ * ((N - m : ℕ) : ℝ)) * form nb B (u N) (u m) =
        Real.cos (θ * N) * ∑ m ∈ Finset.range N, Real.cos (θ * m) * form nb B (u N) (u m) +
        Real.sin (θ * N) * ∑ m ∈ Finset.range N, Real.sin (θ * m) * form nb B (u N) (u m) := by
      rw [Finset.mul_sum, Finset.mul_sum, ← Finset.sum_add_distrib]
      apply Finset.sum_congr rfl
      intro m hm
      rw [Finset.mem_range] at hm
      rw [Nat.cast_sub hm.le, mul_sub, Real.cos_sub]
      ring
    rw [hcos]
    have := Real.sin_sq_add_cos_sq (θ * N)
    linear_combination (-(1 / 2 : ℝ) * form nb B (u N) (u N)) * this - Real.cos (θ * N) * q1 - Real.sin (θ * N) * q2

theorem updates_same (m : RadModel) (sysTime : ℕ → ℝ) (sysStep t0 h : ℝ) (e : ℕ → ℕ → EqFrame) (n : ℕ) :
    ∃ recs force, updates m sysTime sysStep t0 h e n = { m with recs := recs, force := force } := by
  induction n with
  | zero => exact ⟨m.recs, m.force, rfl⟩
  | succ n ih =>
    obtain ⟨recs, force, hm⟩ := ih
    show ∃ recs force, (updates m sysTime sysStep t0 h e n).compute (sysTime n) sysStep (e n) (t0 + n * h) = _
    rw [hm]
    unfold RadModel.compute
    split_ifs
    · exact ⟨recs, force, rfl⟩
    · exact ⟨_, _, rfl⟩

theorem updates_step (m : RadModel) (sysTime : ℕ → ℝ) (sysStep t0 h : ℝ) (e : ℕ → ℕ → EqFrame) (n : ℕ) (hup : 0.1 * sysStep ≤ |t0 + n * h - sysTime n| ∨ t0 + n * h ≤ fltEps) (j : ℕ) (hj : j < m.nb) :
    (updates m sysTime sysStep t0 h e (n + 1)).recorder j = ((updates m sysTime sysStep t0 h e n).recorder j).record (t0 + n * h) (perturbationVelocity6 (e n j)) := by
  obtain ⟨recs, force, hm⟩ := updates_same m sysTime sysStep t0 h e n
  have hnot : ¬ (|t0 + n * h - sysTime n| < 0.1 * sysStep ∧ fltEps < t0 + n * h) := by
    rintro ⟨a, b⟩; rcases hup with c | c <;> linarith
  show ((updates m sysTime sysStep t0 h e n).compute (sysTime n) sysStep (e n) (t0 + n * h)).recorder j = _
  unfold RadModel.compute
  rw [if_neg hnot, hm]
  show ((if j < m.nb then _ else _ : Option (Rec Vec6))).getD _ = _
  rw [if_pos hj]
  rfl

theorem updates_uniform (m : RadModel) (sysTime : ℕ → ℝ) (sysStep t0 h : ℝ) (hh : 0 < h) (e : ℕ → ℕ → EqFrame) (hup : ∀ n : ℕ, 0.1 * sysStep ≤ |t0 + n * h - sysTime n| ∨ t0 + n * h ≤ fltEps)
    (cap : ℕ) (hc : 1 ≤ cap) (j : ℕ) (hj : j < m.nb) (h0 : (m.recorder j).data = []) (hs : (m.recorder j).step = h) (hcap : (m.recorder j).cap = cap) (n : ℕ) :
    Uniform ((updates m sysTime sysStep t0 h e (n + 1)).recorder j) t0 h cap (fun n => perturbationVelocity6 (e n j)) n := by
  induction n with
  | zero =>
    rw [updates_step m sysTime sysStep t0 h e 0 (hup 0) j hj]
    have := Uniform.start (m.recorder j) t0 h (fun n => perturbationVelocity6 (e n j)) h0 hs
    rw [hcap] at this
    simpa [updates] using this
  | succ n ih =>
    rw [updates_step m sysTime sysStep t0 h e (n + 1) (hup (n + 1)) j hj]
    exact ih.next hh hc

theorem power_eq (f : Frame) (hf : f.rot.IsUnit) (e : EqFrame) (he : e.frame = f) (G : Vec6) :
    power (-(f.projFrameInParent (genForce G) .NWU), -(f.projFrameInParent (genTorque G) .NWU)) e = -∑ r : Fin 6, perturbationVelocity6 e r * G r := by
  have key : ∀ a v : V3, V3.dot (-(f.rot.rotate a)) v = -V3.dot a (f.rot.conj.rotate v) := by
    intro a v
    have h1 := (Q.isRot hf).dot a (f.rot.conj.rotate v)
    have h2 : f.rot.toMat.mulVec (f.rot.conj.rotate v) = v := Q.rotate_conj' hf v
    rw [h2] at h1
    rw [← h1]
    show V3.dot (-(f.rot.toMat.mulVec a)) v = -V3.dot (f.rot.toMat.mulVec a) v
    simp [V3.dot]; ring
  unfold power
  show V3.dot (-(f.rot.rotate (genForce G))) _ + V3.dot (-(f.rot.rotate (genTorque G))) _ = _
  rw [key, key]
  have h1 : f.rot.conj.rotate (e.perturbationVelocity .NWU) = e.perturbationVelocityInFrame .NWU := by rw [← he]; rfl
  have h2 : f.rot.conj.rotate (e.perturbationAngularVelocity .NWU) = e.perturbationAngularVelocityInFrame .NWU := by rw [← he]; rfl
  rw [h1, h2]
  simp [V3.dot, genForce, genTorque, perturbationVelocity6, gen, Fin.sum_univ_succ]
  ring

theorem dof_sum {E : Type*} [AddCommMonoid E] (l : List (Fin 6)) (hl : l.Nodup) (f : Fin 6 → E) (hf : ∀ d, d ∉ l → f d = 0) : (l.map f).sum = ∑ d, f d := by
  rw [← List.sum_toFinset f hl]
  apply Finset.sum_subset (Finset.subset_univ _)
  intro d _ hd
  exact hf d (by simpa using hd)

theorem sum_out (nb p : ℕ) (f : ℕ → ℕ → Fin 6 → ℕ → Fin 6 → ℝ) :
    ∑ i ∈ Finset.range nb, ∑ r : Fin 6, ∑ j ∈ Finset.range nb, ∑ d : Fin 6, ∑ k ∈ Finset.range p, f k i r j d =
      ∑ k ∈ Finset.range p, ∑ i ∈ Finset.range nb, ∑ r : Fin 6, ∑ j ∈ Finset.range nb, ∑ d : Fin 6, f k i r j d := by
  symm
  rw [Finset.sum_comm]
  refine Finset.sum_congr rfl fun i _ => ?_
  rw [Finset.sum_comm]
  refine Finset.sum_congr rfl fun r _ => ?_
  rw [Finset.sum_comm]
  refine Finset.sum_congr rfl fun j _ => ?_
  rw [Finset.sum_comm]

/-- Loads after an update without mean speed. -/
theorem updates_force (m : RadModel) (sysTime : ℕ → ℝ) (sysStep t0 h : ℝ) (e : ℕ → ℕ → EqFrame) (n : ℕ) (hup : 0.1 * sysStep ≤ |t0 + n * h - sysTime n| ∨ t0 + n * h ≤ fltEps)
    (hU : ∀ i < m.nb, V3.dot ((e n i).velocityInFrame .NWU) ((e n i).velocityInFrame .NWU) ≤ fltEps) : ∀ i < m.nb, (updates m sysTime sysStep t0 h e (n + 1)).force i =
      (-((e n i).frame.projFrameInParent (genForce ((updates m sysTime sysStep t0 h e (n + 1)).memory i)) .NWU), -((e n i).frame.projFrameInParent (genTorque ((updates m sysTime sysStep t0 h e (n + 1)).memory i)) .NWU)) := by
  intro i hi
  obtain ⟨recs, force, hm⟩ := updates_same m sysTime sysStep t0 h e n
  have hnot : ¬ (|t0 + n * h - sysTime n| < 0.1 * sysStep ∧ fltEps < t0 + n * h) := by
    rintro ⟨a, b⟩; rcases hup with c | c <;> linarith
  have h1 : updates m sysTime sysStep t0 h e (n + 1) = (updates m sysTime sysStep t0 h e n).compute (sysTime n) sysStep (e n) (t0 + n * h) := rfl
  rw [h1]
  unfold RadModel.compute
  rw [if_neg hnot]
  have hi' : i < (updates m sysTime sysStep t0 h e n).nb := by rw [hm]; exact hi
  have htot : ((updates m sysTime sysStep t0 h e n).recordAll (t0 + n * h) (e n)).total (e n) i = ((updates m sysTime sysStep t0 h e n).recordAll (t0 + n * h) (e n)).memory i := by
    unfold RadModel.total
    simp only []
    rw [if_neg (not_lt.mpr (hU i hi))]
  simp only [hi', if_true]
  rw [htot]
  rfl

/-- Power of the loads at an update, by the recorded velocities and the kernels at the delays. -/
theorem update_power (m : RadModel) (sysTime : ℕ → ℝ) (sysStep t0 h : ℝ) (hh : 0 < h) (e : ℕ → ℕ → EqFrame) (hup : ∀ n : ℕ, 0.1 * sysStep ≤ |t0 + n * h - sysTime n| ∨ t0 + n * h ≤ fltEps)
    (hunit : ∀ n, ∀ i < m.nb, (e n i).frame.rot.IsUnit) (hU : ∀ n, ∀ i < m.nb, V3.dot ((e n i).velocityInFrame .NWU) ((e n i).velocityInFrame .NWU) ≤ fltEps)
    (cap : ℕ → ℕ) (hc : ∀ j < m.nb, 1 ≤ cap j) (hrec : ∀ j < m.nb, (m.recorder j).data = [] ∧ (m.recorder j).step = h ∧ (m.recorder j).cap = cap j)
    (hnod : ∀ j < m.nb, (m.dofs j).Nodup) (hlock : ∀ n, ∀ j < m.nb, ∀ d, d ∉ m.dofs j → perturbationVelocity6 (e n j) d = 0) (n : ℕ)
    (hmem : ∀ j < m.nb, n + 1 ≤ cap j ∨ ∀ i < m.nb, ∀ d, ∀ k : ℕ, cap j ≤ k + 2 → m.kernel i j d (k * h) = 0) :
    ∑ i ∈ Finset.range m.nb, power ((updates m sysTime sysStep t0 h e (n + 1)).force i) (e n i) =
      -(h * ∑ k ∈ Finset.range (n - 1), (form m.nb (fun i r j d => m.kernel i j d (k * h) r) (fun j => perturbationVelocity6 (e n j)) (fun j => perturbationVelocity6 (e (n - k) j)) +
        form m.nb (fun i r j d => m.kernel i j d ((k + 1 : ℕ) * h) r) (fun j => perturbationVelocity6 (e n j)) (fun j => perturbationVelocity6 (e (n - (k + 1)) j))) / 2) := by
  have hforce := updates_force m sysTime sysStep t0 h e n (hup n) (hU n)
  obtain ⟨recs, force, hm⟩ := updates_same m sysTime sysStep t0 h e (n + 1)
  have hmemory : ∀ i < m.nb, (updates m sysTime sysStep t0 h e (n + 1)).memory i = ∑ j ∈ Finset.range m.nb, ∑ d, ∑ k ∈ Finset.range (n - 1),
      (h / 2) • (perturbationVelocity6 (e (n - k) j) d • m.kernel i j d (k * h) + perturbationVelocity6 (e (n - (k + 1)) j) d • m.kernel i j d ((k + 1 : ℕ) * h)) := by
    intro i hi
    unfold RadModel.memory
    have hnb : (updates m sysTime sysStep t0 h e (n + 1)).nb = m.nb := by rw [hm]
    have hdofs : (updates m sysTime sysStep t0 h e (n + 1)).dofs = m.dofs := by rw [hm]
    have hker : ∀ j d, (updates m sysTime sysStep t0 h e (n + 1)).kernel i j d = m.kernel i j d := by intro j d; rw [hm]; rfl
    rw [hnb, hdofs]
    apply Finset.sum_congr rfl
    intro j hj
    rw [Finset.mem_range] at hj
    have hconv : ∀ d, (updates m sysTime sysStep t0 h e (n + 1)).convolve j ((updates m sysTime sysStep t0 h e (n + 1)).kernel i j d) d = ∑ k ∈ Finset.range (n - 1),
        (h / 2) • (perturbationVelocity6 (e (n - k) j) d • m.kernel i j d (k * h) + perturbationVelocity6 (e (n - (k + 1)) j) d • m.kernel i j d ((k + 1 : ℕ) * h)) := by
      intro d
      rw [hker]
      have hu := updates_uniform m sysTime sysStep t0 h hh e hup (cap j) (hc j hj) j hj (hrec j hj).1 (hrec j hj).2.1 (hrec j hj).2.2 n
      exact hu.trapz (hc j hj) (m.kernel i j d) d ((hmem j hj).imp id fun q => q i hi d)
    simp only [hconv]
    apply dof_sum _ (hnod j hj)
    intro d hd
    apply Finset.sum_eq_zero
    intro k _
    rw [hlock _ j hj d hd, hlock _ j hj d hd]
    simp
  have hpow : ∀ i ∈ Finset.range m.nb, power ((updates m sysTime sysStep t0 h e (n + 1)).force i) (e n i) = -∑ r : Fin 6, ∑ j ∈ Finset.range m.nb, ∑ d : Fin 6, ∑ k ∈ Finset.range (n - 1),
      perturbationVelocity6 (e n i) r * ((h / 2) * (perturbationVelocity6 (e (n - k) j) d * m.kernel i j d (k * h) r + perturbationVelocity6 (e (n - (k + 1)) j) d * m.kernel i j d ((k + 1 : ℕ) * h) r)) := by
    intro i hi
    rw [Finset.mem_range] at hi
    rw [hforce i hi, power_eq _ (hunit n i hi) _ rfl, hmemory i hi]
    congr 1
    refine Finset.sum_congr rfl fun r _ => ?_
    simp only [Finset.sum_apply, Finset.mul_sum, Pi.smul_apply, Pi.add_apply, smul_eq_mul]
  rw [Finset.sum_congr rfl hpow, Finset.sum_neg_distrib, sum_out m.nb (n - 1) (fun k i r j d => perturbationVelocity6 (e n i) r * ((h / 2) * (perturbationVelocity6 (e (n - k) j) d * m.kernel i j d (k * h) r + perturbationVelocity6 (e (n - (k + 1)) j) d * m.kernel i j d ((k + 1 : ℕ) * h) r)))]
  congr 1
  rw [Finset.mul_sum]
  refine Finset.sum_congr rfl fun k _ => ?_
  unfold form
  rw [← Finset.sum_add_distrib, Finset.sum_div, Finset.mul_sum]
  refine Finset.sum_congr rfl fun i _ => ?_
  rw [← Finset.sum_add_distrib, Finset.sum_div, Finset.mul_sum]
  refine Finset.sum_congr rfl fun r _ => ?_
  rw [← Finset.sum_add_distrib, Finset.sum_div, Finset.mul_sum]
  refine Finset.sum_congr rfl fun j _ => ?_
  rw [← Finset.sum_add_distrib, Finset.sum_div, Finset.mul_sum]
  refine Finset.sum_congr rfl fun d _ => ?_
  ring

/-! ## C190 -/

/-- **C190.** Any number of bodies, any motions of the bodies (and of their equilibrium frames, without mean speed), motions not active in the masks being locked. The memories are empty at first, with the step `h` of the updates. If the
impulse responses at the delays are cosine sums of damping coefficients that dissipate energy at each frequency, and the simulation is within the memory of each body (or the responses are null from the last delay of the memory on), then
after any number of updates the work of the radiation loads on all the bodies is at most `h²/8` times the response at zero delay on the velocities of the second update; in particular bodies that are
at rest at the second update never receive energy. -/
theorem C190_energy (m : RadModel) (sysTime : ℕ → ℝ) (sysStep t0 h : ℝ) (hh : 0 < h) (e : ℕ → ℕ → EqFrame) (hup : ∀ n : ℕ, 0.1 * sysStep ≤ |t0 + n * h - sysTime n| ∨ t0 + n * h ≤ fltEps)
    (hunit : ∀ n, ∀ i < m.nb, (e n i).frame.rot.IsUnit) (hU : ∀ n, ∀ i < m.nb, V3.dot ((e n i).velocityInFrame .NWU) ((e n i).velocityInFrame .NWU) ≤ fltEps)
    (cap : ℕ → ℕ) (hc : ∀ j < m.nb, 1 ≤ cap j) (hrec : ∀ j < m.nb, (m.recorder j).data = [] ∧ (m.recorder j).step = h ∧ (m.recorder j).cap = cap j)
    (hnod : ∀ j < m.nb, (m.dofs j).Nodup) (hlock : ∀ n, ∀ j < m.nb, ∀ d, d ∉ m.dofs j → perturbationVelocity6 (e n j) d = 0) (N : ℕ)
    (hmem : ∀ j < m.nb, N ≤ cap j ∨ ∀ i < m.nb, ∀ d, ∀ k : ℕ, cap j ≤ k + 2 → m.kernel i j d (k * h) = 0)
    (L : ℕ) (freq : ℕ → ℝ) (B : ℕ → ℕ → Fin 6 → ℕ → Fin 6 → ℝ) (hB : ∀ l < L, Dissipates m.nb (B l))
    (hK : ∀ i < m.nb, ∀ j < m.nb, ∀ r ∈ m.dofs i, ∀ d ∈ m.dofs j, ∀ k : ℕ, k < N → m.kernel i j d (k * h) r = ∑ l ∈ Finset.range L, B l i r j d * Real.cos (freq l * (k * h))) :
    let second : ℕ → Vec6 := fun j => perturbationVelocity6 (e 1 j)
    radiationWork m sysTime sysStep t0 h e N ≤ h ^ 2 / 8 * ∑ l ∈ Finset.range L, form m.nb (B l) second second ∧
    (second = 0 → radiationWork m sysTime sysStep t0 h e N ≤ 0) := by
  intro second
  obtain ⟨x, hx⟩ : ∃ x : ℕ → ℕ → Vec6, x = fun n j => perturbationVelocity6 (e n j) := ⟨_, rfl⟩
  obtain ⟨c, hcdef⟩ : ∃ c : ℕ → (ℕ → Vec6) → (ℕ → Vec6) → ℝ, c = fun (k : ℕ) a b => ∑ l ∈ Finset.range L, Real.cos (freq l * h * k) * form m.nb (B l) a b := ⟨_, rfl⟩
  have hc0 : ∀ k a, c k a 0 = 0 := by
    intro k a
    rw [hcdef]
    apply Finset.sum_eq_zero
    intro l _
    have := form_smul_right (nb := m.nb) (B := B l) 0 a 0
    rw [zero_smul, zero_mul] at this
    rw [this, mul_zero]
  have hcs : ∀ k (a : ℝ) y z, c k y (a • z) = a * c k y z := by
    intro k a y z
    rw [hcdef]
    simp only [form_smul_right, Finset.mul_sum]
    exact Finset.sum_congr rfl fun l _ => by ring
  have hcs' : ∀ k (a : ℝ) y z, c k (a • y) z = a * c k y z := by
    intro k a y z
    rw [hcdef]
    simp only [form_smul_left, Finset.mul_sum]
    exact Finset.sum_congr rfl fun l _ => by ring
  have hck : ∀ k < N, ∀ n n', form m.nb (fun i r j d => m.kernel i j d (k * h) r) (x n) (x n') = c k (x n) (x n') := by
    intro k hk n n'
    rw [hcdef]
    unfold form
    simp only [Finset.mul_sum]
    symm
    rw [Finset.sum_comm]
    refine Finset.sum_congr rfl fun i hi => ?_
    rw [Finset.sum_comm]
    refine Finset.sum_congr rfl fun r _ => ?_
    rw [Finset.sum_comm]
    refine Finset.sum_congr rfl fun j hj => ?_
    rw [Finset.sum_comm]
    refine Finset.sum_congr rfl fun d _ => ?_
    rw [Finset.mem_range] at hi hj
    by_cases hr : r ∈ m.dofs i
    · by_cases hd : d ∈ m.dofs j
      · rw [hK i hi j hj r hr d hd k hk, Finset.mul_sum, Finset.sum_mul]
        refine Finset.sum_congr rfl fun l _ => ?_
        rw [show freq l * (k * h) = freq l * h * k by ring]
        ring
      · have : x n' j d = 0 := by rw [hx]; exact hlock n' j hj d hd
        simp [this]
    · have : x n i r = 0 := by rw [hx]; exact hlock n i hi r hr
      simp [this]
  have hstep : ∀ n ∈ Finset.range N, h * ∑ i ∈ Finset.range m.nb, power ((updates m sysTime sysStep t0 h e (n + 1)).force i) (e n i) =
      -h ^ 2 * (c 0 (kept x n) (kept x n) / 2 + ∑ p ∈ Finset.range n, c (n - p) (kept x n) (kept x p)) + if n = 1 then h ^ 2 / 8 * c 0 (x 1) (x 1) else 0 := by
    intro n hn
    rw [Finset.mem_range] at hn
    rw [update_power m sysTime sysStep t0 h hh e hup hunit hU cap hc hrec hnod hlock n (fun j hj => (hmem j hj).imp (fun q => by omega) id)]
    have hk := conv_kept c hc0 hcs hcs' x n
    have hsum : ∑ k ∈ Finset.range (n - 1), (form m.nb (fun i r j d => m.kernel i j d (k * h) r) (fun j => perturbationVelocity6 (e n j)) (fun j => perturbationVelocity6 (e (n - k) j)) +
        form m.nb (fun i r j d => m.kernel i j d ((k + 1 : ℕ) * h) r) (fun j => perturbationVelocity6 (e n j)) (fun j => perturbationVelocity6 (e (n - (k + 1)) j))) / 2 =
        ∑ k ∈ Finset.range (n - 1), (c k (x n) (x (n - k)) + c (k + 1) (x n) (x (n - (k + 1)))) / 2 := by
      apply Finset.sum_congr rfl
      intro k hk
      rw [Finset.mem_range] at hk
      have e1 := hck k (by omega) n (n - k)
      have e2 := hck (k + 1) (by omega) n (n - (k + 1))
      rw [hx] at e1 e2 ⊢
      simp only [] at e1 e2 ⊢
      rw [e1, e2]
    rw [hsum, hk]
    split_ifs <;> ring
  have hpos : 0 ≤ ∑ n ∈ Finset.range N, (c 0 (kept x n) (kept x n) / 2 + ∑ p ∈ Finset.range n, c (n - p) (kept x n) (kept x p)) := by
    have : ∑ n ∈ Finset.range N, (c 0 (kept x n) (kept x n) / 2 + ∑ p ∈ Finset.range n, c (n - p) (kept x n) (kept x p)) =
        ∑ l ∈ Finset.range L, ∑ n ∈ Finset.range N, (form m.nb (B l) (kept x n) (kept x n) / 2 + ∑ p ∈ Finset.range n, Real.cos (freq l * h * ((n - p : ℕ) : ℝ)) * form m.nb (B l) (kept x n) (kept x p)) := by
      rw [Finset.sum_comm]
      refine Finset.sum_congr rfl fun n _ => ?_
      rw [hcdef, Finset.sum_add_distrib, Finset.sum_comm (s := Finset.range L)]
      simp [Finset.sum_div]
    rw [this]
    apply Finset.sum_nonneg
    intro l hl
    have hd := hB l (Finset.mem_range.mp hl)
    rw [cosine_squares hd.symm]
    have p1 := hd.nonneg (∑ n ∈ Finset.range N, Real.cos (freq l * h * n) • kept x n)
    have p2 := hd.nonneg (∑ n ∈ Finset.range N, Real.sin (freq l * h * n) • kept x n)
    linarith
  have hwork : radiationWork m sysTime sysStep t0 h e N = -h ^ 2 * (∑ n ∈ Finset.range N, (c 0 (kept x n) (kept x n) / 2 + ∑ p ∈ Finset.range n, c (n - p) (kept x n) (kept x p))) +
      if 1 < N then h ^ 2 / 8 * c 0 (x 1) (x 1) else 0 := by
    unfold radiationWork
    rw [Finset.sum_congr rfl hstep, Finset.sum_add_distrib, ← Finset.mul_sum]
    congr 1
    simp [Finset.mem_range]
  have hsec : second = x 1 := by rw [hx]
  have hc1 : c 0 (x 1) (x 1) = ∑ l ∈ Finset.range L, form m.nb (B l) second second := by
    rw [hcdef, hsec]
    simp
  have hc1pos : 0 ≤ ∑ l ∈ Finset.range L, form m.nb (B l) second second := Finset.sum_nonneg fun l hl => (hB l (Finset.mem_range.mp hl)).nonneg _
  have hmain : radiationWork m sysTime sysStep t0 h e N ≤ h ^ 2 / 8 * ∑ l ∈ Finset.range L, form m.nb (B l) second second := by
    rw [hwork, hc1]
    have h2 : 0 ≤ h ^ 2 * (∑ n ∈ Finset.range N, (c 0 (kept x n) (kept x n) / 2 + ∑ p ∈ Finset.range n, c (n - p) (kept x n) (kept x p))) := by positivity
    have h3 : 0 ≤ h ^ 2 / 8 * ∑ l ∈ Finset.range L, form m.nb (B l) second second := by positivity
    split_ifs <;> linarith
  refine ⟨hmain, fun hz => ?_⟩
  refine hmain.trans (le_of_eq ?_)
  rw [← hc1, ← hsec, hz, hc0, mul_zero]

/-! ### A heaving body whose impulse response is `cos(π t / 3)`, updates each second -/

/-- One body free in heave; table of the response at each second; memory of `cap` values. -/
def heaving (cap : ℕ) : RadModel where
  nb := 1
  dofs := fun _ => [2]
  nTime := 100
  time := fun k => k
  irf := fun _ _ d k r => if r = 2 ∧ d = 2 then Real.cos (Real.pi / 3 * k) else 0
  irfU := fun _ _ _ _ => 0
  ainf := fun _ _ => 0
  te := cap
  dt := 1
  recs := fun _ => some ⟨cap, 1, cap, 0, 0, 0, []⟩
  force := fun _ => (0, 0)

/-- From rest, then up and down at one metre per second. -/
def upDown (n : ℕ) : ℝ := if n < 2 then 0 else (-1) ^ n
/-- The motions of the body about a fixed frame. -/
def bobbing (n _ : ℕ) : EqFrame := ⟨Frame.identity, ⟨Frame.identity, Frame.identity, ⟨0, 0, upDown n⟩, 0⟩, 0, 0, false, 0⟩
/-- Unit damping in heave. -/
def heaveDamping (_ : ℕ) (r : Fin 6) (_ : ℕ) (d : Fin 6) : ℝ := if r = 2 ∧ d = 2 then 1 else 0

theorem bobbing_velocity (n j : ℕ) : perturbationVelocity6 (bobbing n j) = fun d => if d = 2 then upDown n else 0 := by
  funext d
  fin_cases d <;> simp [perturbationVelocity6, bobbing, gen, EqFrame.perturbationVelocityInFrame, EqFrame.perturbationAngularVelocityInFrame, EqFrame.perturbationVelocity,
    EqFrame.perturbationAngularVelocity, EqFrame.velocityInWorld, EqFrame.angularVelocity, Node.velocityInWorld, Node.angVelInWorld, Frame.projParentInFrame, rotate, quatInv, Frame.identity, conv, Q.rotate, Q.toMat, Q.conj, Q.one, M3.mulVec]
  ring

theorem heaving_kernel (cap i j : ℕ) (d : Fin 6) (k : ℕ) (hk : k < 100) :
    (heaving cap).kernel i j d (k * 1) = fun r => if r = 2 ∧ d = 2 then Real.cos (Real.pi / 3 * k) else 0 := by
  have hinc : Increasing 100 (fun k : ℕ => (k : ℝ)) := by
    refine ⟨by norm_num, fun i _ => ?_⟩
    show ((i : ℕ) : ℝ) < ((i + 1 : ℕ) : ℝ)
    exact_mod_cast Nat.lt_succ_self i
  rw [mul_one]
  exact interp_node (E := Vec6) hinc ((heaving cap).irf i j d) k hk

theorem heaving_form (x y : ℕ → Vec6) : form 1 heaveDamping x y = x 0 2 * y 0 2 := by
  unfold form heaveDamping
  simp [Fin.sum_univ_succ]

theorem heaving_dissipates : Dissipates 1 heaveDamping where
  symm := by
    intro i r j d
    unfold heaveDamping
    simp only [and_comm]
  nonneg := by
    intro x
    rw [heaving_form]
    exact mul_self_nonneg _

/-- The hypotheses of `C190_energy` on the model, the motions and the responses, but for the length of the memory. -/
theorem heaving_setup (cap : ℕ) (hc : 1 ≤ cap) :
    (∀ n : ℕ, 0.1 * (1 : ℝ) ≤ |0 + n * 1 - ((n : ℝ) - 1)| ∨ (0 : ℝ) + n * 1 ≤ fltEps) ∧
    (∀ n, ∀ i < (heaving cap).nb, (bobbing n i).frame.rot.IsUnit) ∧ (∀ n, ∀ i < (heaving cap).nb, V3.dot ((bobbing n i).velocityInFrame .NWU) ((bobbing n i).velocityInFrame .NWU) ≤ fltEps) ∧
    (∀ j < (heaving cap).nb, 1 ≤ cap) ∧ (∀ j < (heaving cap).nb, ((heaving cap).recorder j).data = [] ∧ ((heaving cap).recorder j).step = 1 ∧ ((heaving cap).recorder j).cap = cap) ∧
    (∀ j < (heaving cap).nb, ((heaving cap).dofs j).Nodup) ∧ (∀ n, ∀ j < (heaving cap).nb, ∀ d, d ∉ (heaving cap).dofs j → perturbationVelocity6 (bobbing n j) d = 0) ∧
    (∀ l < 1, Dissipates (heaving cap).nb (heaveDamping)) ∧
    ∀ i < (heaving cap).nb, ∀ j < (heaving cap).nb, ∀ r ∈ (heaving cap).dofs i, ∀ d ∈ (heaving cap).dofs j, ∀ k : ℕ, k < 100 →
      (heaving cap).kernel i j d (k * 1) r = ∑ l ∈ Finset.range 1, heaveDamping i r j d * Real.cos (Real.pi / 3 * (k * 1)) := by
  have hz : ∀ n i, (bobbing n i).velocityInFrame .NWU = 0 := by
    intro n i
    ext <;> simp [bobbing, EqFrame.velocityInFrame, Frame.projParentInFrame, rotate, quatInv, Frame.identity, conv, Q.rotate, Q.toMat, Q.conj, Q.one, M3.mulVec]
  refine ⟨fun n => Or.inl ?_, ?_, ?_, fun _ _ => hc, ?_, ?_, ?_, ?_, ?_⟩
  · rw [show (0 : ℝ) + n * 1 - ((n : ℝ) - 1) = 1 by ring]; norm_num
  · intro n i _
    simp [bobbing, Frame.identity, Q.IsUnit, Q.one, Q.normSq]
  · intro n i _
    rw [hz]
    simp [V3.dot, fltEps]
  · intro j _
    exact ⟨rfl, rfl, rfl⟩
  · intro j _
    simp [heaving]
  · intro n j _ d hd
    rw [bobbing_velocity]
    have : d ≠ 2 := by simpa [heaving] using hd
    simp [this]
  · intro _ _
    exact heaving_dissipates
  · intro i _ j _ r hr d hd k hk
    have h1 : r = 2 := by simpa [heaving] using hr
    have h2 : d = 2 := by simpa [heaving] using hd
    rw [heaving_kernel cap i j d k hk]
    simp [heaveDamping, h1, h2]

/-- A case of `C190_energy`: with a memory of 100 values, the heaving body never receives energy during 100 updates. -/
example (N : ℕ) (hN : N ≤ 100) : radiationWork (heaving 100) (fun n => n - 1) 1 0 1 bobbing N ≤ 0 := by
  obtain ⟨a, b, c, d, e, f, g, h, i⟩ := heaving_setup 100 (by norm_num)
  refine (C190_energy (heaving 100) (fun n => n - 1) 1 0 1 one_pos bobbing a b c (fun _ => 100) d e f g N (fun _ _ => Or.inl hN) 1 (fun _ => Real.pi / 3) (fun _ => heaveDamping) h
    (fun i1 h1 i2 h2 r hr q hq k hk => i i1 h1 i2 h2 r hr q hq k (by omega))).2 ?_
  funext j
  rw [bobbing_velocity]
  funext q
  simp [upDown]

/-- **C190, wrong beyond the memory (defect).** The response is cut at the last delay of the memory: the same body, with the same response, but with a memory of four values receives energy without limit, a quarter of a joule at each update of the simulation,
although its damping is nowhere negative. -/
theorem C190_truncated_wrong (N : ℕ) (hN : 4 ≤ N) : radiationWork (heaving 4) (fun n => n - 1) 1 0 1 bobbing N = N / 4 - 3 / 2 := by
  obtain ⟨hup, hunit, hU, _, hrec, _, _, _, _⟩ := heaving_setup 4 (by norm_num)
  have hpow : ∀ n, 1 * ∑ i ∈ Finset.range (heaving 4).nb, power ((updates (heaving 4) (fun n => n - 1) 1 0 1 bobbing (n + 1)).force i) (bobbing n i) =
      -∑ k ∈ Finset.range (min (n - 1) 2), upDown n * ((1 / 2) * (upDown (n - k) * Real.cos (Real.pi / 3 * k) + upDown (n - (k + 1)) * Real.cos (Real.pi / 3 * ((k + 1 : ℕ) : ℝ)))) := by
    intro n
    have hf := updates_force (heaving 4) (fun n => n - 1) 1 0 1 bobbing n (hup n) (hU n) 0 Nat.zero_lt_one
    rw [one_mul]
    show ∑ i ∈ Finset.range 1, _ = _
    rw [Finset.sum_range_one, hf, power_eq _ (hunit n 0 Nat.zero_lt_one) _ rfl]
    congr 1
    have hu := updates_uniform (heaving 4) (fun n => n - 1) 1 0 1 one_pos bobbing hup 4 (by norm_num) 0 Nat.zero_lt_one rfl rfl rfl n
    obtain ⟨recs, force, hm⟩ := updates_same (heaving 4) (fun n => n - 1) 1 0 1 bobbing (n + 1)
    have hmem : (updates (heaving 4) (fun n => n - 1) 1 0 1 bobbing (n + 1)).memory 0 = ∑ k ∈ Finset.range (min (n - 1) 2),
        ((1 : ℝ) / 2) • (perturbationVelocity6 (bobbing (n - k) 0) 2 • (heaving 4).kernel 0 0 2 (k * 1) + perturbationVelocity6 (bobbing (n - (k + 1)) 0) 2 • (heaving 4).kernel 0 0 2 ((k + 1 : ℕ) * 1)) := by
      have hconv := hu.trapz_min (by norm_num) ((heaving 4).kernel 0 0 2) 2
      have h1 : (updates (heaving 4) (fun n => n - 1) 1 0 1 bobbing (n + 1)).memory 0 =
          (updates (heaving 4) (fun n => n - 1) 1 0 1 bobbing (n + 1)).convolve 0 ((updates (heaving 4) (fun n => n - 1) 1 0 1 bobbing (n + 1)).kernel 0 0 2) 2 := by
        rw [hm]
        unfold RadModel.memory
        simp [heaving]
      have h2 : (updates (heaving 4) (fun n => n - 1) 1 0 1 bobbing (n + 1)).kernel 0 0 2 = (heaving 4).kernel 0 0 2 := by rw [hm]; rfl
      rw [h1, h2]
      exact hconv
    rw [hmem]
    rw [Finset.sum_eq_single (2 : Fin 6) (fun r _ hr => by rw [bobbing_velocity]; simp [hr]) (by simp)]
    rw [Finset.sum_apply, Finset.mul_sum]
    apply Finset.sum_congr rfl
    intro k hk
    rw [Finset.mem_range] at hk
    rw [heaving_kernel 4 0 0 2 k (by omega), heaving_kernel 4 0 0 2 (k + 1) (by omega)]
    simp only [bobbing_velocity, Pi.smul_apply, Pi.add_apply, smul_eq_mul]
    simp
  have c1 : Real.cos (Real.pi / 3 * ((1 : ℕ) : ℝ)) = 1 / 2 := by rw [Nat.cast_one, mul_one, Real.cos_pi_div_three]
  have c2 : Real.cos (Real.pi / 3 * ((2 : ℕ) : ℝ)) = -1 / 2 := by
    rw [show Real.pi / 3 * ((2 : ℕ) : ℝ) = 2 * (Real.pi / 3) by push_cast; ring, Real.cos_two_mul, Real.cos_pi_div_three]; norm_num
  have c0 : Real.cos (Real.pi / 3 * ((0 : ℕ) : ℝ)) = 1 := by simp
  have late : ∀ n, 4 ≤ n → 1 * ∑ i ∈ Finset.range (heaving 4).nb, power ((updates (heaving 4) (fun n => n - 1) 1 0 1 bobbing (n + 1)).force i) (bobbing n i) = 1 / 4 := by
    intro n hn
    rw [hpow n, show min (n - 1) 2 = 2 by omega, Finset.sum_range_succ, Finset.sum_range_one]
    simp only [zero_add]
    rw [show (1 : ℕ) + 1 = 2 from rfl, c0, c1, c2]
    obtain ⟨p, rfl⟩ : ∃ p, n = p + 2 := ⟨n - 2, by omega⟩
    have e0 : upDown (p + 2 - 0) = (-1) ^ p := by unfold upDown; rw [if_neg (by omega)]; simp [pow_succ]
    have e1 : upDown (p + 2 - 1) = -(-1) ^ p := by unfold upDown; rw [if_neg (by omega), show p + 2 - 1 = p + 1 by omega]; simp [pow_succ]
    have e2 : upDown (p + 2 - 2) = (-1) ^ p := by unfold upDown; rw [if_neg (by omega), show p + 2 - 2 = p by omega]
    rw [Nat.sub_zero] at e0
    rw [Nat.sub_zero, e0, e1, e2]
    have : ((-1 : ℝ) ^ p) ^ 2 = 1 := by rw [← pow_mul, mul_comm, pow_mul]; norm_num
    linear_combination (1 / 4 : ℝ) * this
  have early : ∑ n ∈ Finset.range 4, 1 * ∑ i ∈ Finset.range (heaving 4).nb, power ((updates (heaving 4) (fun n => n - 1) 1 0 1 bobbing (n + 1)).force i) (bobbing n i) = -1 / 2 := by
    simp only [hpow]
    simp only [Finset.sum_range_succ, Finset.sum_range_zero]
    norm_num [upDown, c1, c2]
    rw [Finset.sum_range_succ, Finset.sum_range_one]
    norm_num [Real.cos_pi_div_three]
  induction N, hN using Nat.le_induction with
  | base =>
    unfold radiationWork
    rw [early]; norm_num
  | succ N hN ih =>
    unfold radiationWork at ih ⊢
    rw [Finset.sum_range_succ, ih, late N hN]
    push_cast; ring

end Frydom.Seakeeping
