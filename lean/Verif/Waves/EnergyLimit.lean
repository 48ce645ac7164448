import Verif.Waves.AmplitudeRange
import Verif.Waves.Spectrum
import Verif.Waves.Spreading
import Mathlib.MeasureTheory.Integral.IntervalIntegral.Basic

/-!
# Energy of the discretised sea as the discretisation is refined (C193)
-/

open Classical MeasureTheory Finset Filter Topology

noncomputable section

namespace Frydom.Waves
open Real Frydom.Seakeeping

/-! ## Sums over cells and integrals -/

/-- The sum over the cells is that of the trapezoidal rule plus half a spacing at both ends. -/
theorem sum_cells (n : ℕ) (v f : ℕ → ℝ) :
    ∑ i ∈ range (n + 2), f i * cellWidth (n + 1) v i =
      ∑ i ∈ range (n + 1), (f i + f (i + 1)) / 2 * (v (i + 1) - v i) + (f 0 * (v 1 - v 0) + f (n + 1) * (v (n + 1) - v n)) / 2 := by
  have hin : ∀ i ∈ range n, f (i + 1) * cellWidth (n + 1) v (i + 1) = f (i + 1) * (v (i + 2) - v (i + 1)) / 2 + f (i + 1) * (v (i + 1) - v i) / 2 := by
    intro i hi
    have hi' := mem_range.mp hi
    unfold cellWidth
    rw [if_neg (by omega), if_neg (by omega), if_neg (by omega), show i + 1 - 1 = i by omega]
    ring
  have h0 : cellWidth (n + 1) v 0 = v 1 - v 0 := by simp [cellWidth]
  have h1 : cellWidth (n + 1) v (n + 1) = v (n + 1) - v n := by simp [cellWidth]
  have e : ∑ i ∈ range (n + 1), (f i + f (i + 1)) / 2 * (v (i + 1) - v i) =
      ∑ i ∈ range (n + 1), f i * (v (i + 1) - v i) / 2 + ∑ i ∈ range (n + 1), f (i + 1) * (v (i + 1) - v i) / 2 := by
    rw [← sum_add_distrib]
    exact sum_congr rfl fun i _ => by ring
  have e1 := sum_range_succ' (fun i => f i * (v (i + 1) - v i) / 2) n
  have e2 := sum_range_succ (fun i => f (i + 1) * (v (i + 1) - v i) / 2) n
  rw [sum_range_succ, sum_range_succ', sum_congr rfl hin, sum_add_distrib, h0, h1, e, e1, e2]
  simp only [zero_add]
  ring

/-- The trapezoidal rule against the integral. -/
theorem trap_int (n : ℕ) (v : ℕ → ℝ) (f : ℝ → ℝ) (δ η : ℝ) (hv : ∀ i < n, v i ≤ v (i + 1)) (hd : ∀ i < n, v (i + 1) - v i ≤ δ)
    (hc : ContinuousOn f (Set.Icc (v 0) (v n))) (hη : ∀ x ∈ Set.Icc (v 0) (v n), ∀ y ∈ Set.Icc (v 0) (v n), |x - y| ≤ δ → |f x - f y| ≤ η) :
    |∑ i ∈ range n, (f (v i) + f (v (i + 1))) / 2 * (v (i + 1) - v i) - ∫ x in (v 0)..(v n), f x| ≤ η * (v n - v 0) := by
  have up : ∀ j, j ≤ n → ∀ i, i ≤ j → v i ≤ v j := by
    intro j
    induction j with
    | zero => intro _ i hi; rw [Nat.le_zero.mp hi]
    | succ j ih =>
      intro hj i hi
      rcases Nat.lt_or_ge i (j + 1) with h | h
      · exact (ih (by omega) i (by omega)).trans (hv j (by omega))
      · rw [show i = j + 1 by omega]
  have cmem : ∀ i < n, Set.Icc (v i) (v (i + 1)) ⊆ Set.Icc (v 0) (v n) := fun i hi =>
    Set.Icc_subset_Icc (up i (by omega) 0 (by omega)) (up n le_rfl (i + 1) (by omega))
  have int : ∀ i < n, IntervalIntegrable f volume (v i) (v (i + 1)) := fun i hi =>
    (hc.mono (by rw [Set.uIcc_of_le (hv i hi)]; exact cmem i hi)).intervalIntegrable
  rw [← intervalIntegral.sum_integral_adjacent_intervals (f := f) (a := v) int, ← sum_sub_distrib, ← sum_range_sub v n, mul_sum]
  refine (abs_sum_le_sum_abs _ _).trans (sum_le_sum fun i hi => ?_)
  have hi := mem_range.mp hi
  have h0 := hv i hi
  have : (f (v i) + f (v (i + 1))) / 2 * (v (i + 1) - v i) - ∫ x in (v i)..(v (i + 1)), f x = ∫ x in (v i)..(v (i + 1)), ((f (v i) + f (v (i + 1))) / 2 - f x) := by
    rw [intervalIntegral.integral_sub intervalIntegrable_const (int i hi), intervalIntegral.integral_const, smul_eq_mul, mul_comm]
  rw [this]
  have b := intervalIntegral.norm_integral_le_of_norm_le_const (a := v i) (b := v (i + 1)) (C := η) (f := fun x => (f (v i) + f (v (i + 1))) / 2 - f x) (fun x hx => ?_)
  · rw [abs_of_nonneg (by linarith), Real.norm_eq_abs] at b
    exact b
  · rw [Set.uIoc_of_le h0] at hx
    have hx' : x ∈ Set.Icc (v i) (v (i + 1)) := ⟨hx.1.le, hx.2⟩
    have hs := hd i hi
    have a1 := hη (v i) (cmem i hi ⟨le_rfl, h0⟩) x (cmem i hi hx') (by rw [abs_le]; constructor <;> linarith [hx'.1, hx'.2])
    have a2 := hη (v (i + 1)) (cmem i hi ⟨h0, le_rfl⟩) x (cmem i hi hx') (by rw [abs_le]; constructor <;> linarith [hx'.1, hx'.2])
    rw [Real.norm_eq_abs]
    rw [abs_le] at a1 a2 ⊢
    constructor <;> linarith [a1.1, a1.2, a2.1, a2.2]

/-- A continuous function on a segment: the sums over cells whose ends are those of the segment tend to the integral with the largest spacing. -/
theorem cells_limit (f : ℝ → ℝ) (a b : ℝ) (hab : a < b) (hc : ContinuousOn f (Set.Icc a b)) {ε : ℝ} (hε : 0 < ε) :
    ∃ δ > 0, ∀ (n : ℕ) (v : ℕ → ℝ), v 0 = a → v (n + 1) = b → (∀ i < n + 1, v i ≤ v (i + 1)) → (∀ i < n + 1, v (i + 1) - v i ≤ δ) →
      |∑ i ∈ range (n + 2), f (v i) * cellWidth (n + 1) v i - ∫ x in a..b, f x| < ε := by
  have uc := isCompact_Icc.uniformContinuousOn_of_continuous hc
  rw [Metric.uniformContinuousOn_iff] at uc
  obtain ⟨δ₁, h1, hu⟩ := uc (ε / (4 * (b - a))) (by have : 0 < b - a := by linarith
                                                    positivity)
  refine ⟨min (δ₁ / 2) (ε / (4 * (|f a| + |f b| + 1))), by positivity, ?_⟩
  intro n v h0 hn hv hd
  have hd1 : ∀ i < n + 1, v (i + 1) - v i ≤ δ₁ / 2 := fun i hi => (hd i hi).trans (min_le_left _ _)
  have hd2 : ∀ i < n + 1, v (i + 1) - v i ≤ ε / (4 * (|f a| + |f b| + 1)) := fun i hi => (hd i hi).trans (min_le_right _ _)
  have k := trap_int (n + 1) v f (δ₁ / 2) (ε / (4 * (b - a))) hv hd1 (by rw [h0, hn]; exact hc) (fun x hx y hy hxy => by
    rw [h0, hn] at hx hy
    have := hu x hx y hy (by rw [Real.dist_eq]; linarith)
    rw [Real.dist_eq] at this
    exact this.le)
  rw [h0, hn] at k
  have e : ε / (4 * (b - a)) * (b - a) = ε / 4 := by
    have : b - a ≠ 0 := by linarith
    field_simp
  rw [e] at k
  rw [sum_cells n v fun i => f (v i)]
  have b0 : |f (v 0) * (v 1 - v 0)| ≤ ε / 4 ∧ |f (v (n + 1)) * (v (n + 1) - v n)| ≤ ε / 4 := by
    have key : ∀ x : ℝ, x ≤ |f a| + |f b| + 1 → 0 ≤ x → ∀ d : ℝ, 0 ≤ d → d ≤ ε / (4 * (|f a| + |f b| + 1)) → x * d ≤ ε / 4 := by
      intro x hx hx0 d hd0 hd
      have hp : 0 < |f a| + |f b| + 1 := by positivity
      calc x * d ≤ (|f a| + |f b| + 1) * (ε / (4 * (|f a| + |f b| + 1))) := mul_le_mul hx hd hd0 hp.le
        _ = ε / 4 := by field_simp
    rw [abs_mul, abs_mul, h0, hn, abs_of_nonneg (by linarith [hv 0 (by omega)] : 0 ≤ v 1 - a), abs_of_nonneg (by linarith [hv n (by omega)] : 0 ≤ b - v n)]
    refine ⟨key _ (by linarith [abs_nonneg (f b)]) (abs_nonneg _) _ (by have := hv 0 (by omega); rw [h0] at this; linarith) (by have := hd2 0 (by omega); rwa [h0] at this), ?_⟩
    exact key _ (by linarith [abs_nonneg (f a)]) (abs_nonneg _) _ (by have := hv n (by omega); rw [hn] at this; linarith) (by have := hd2 n (by omega); rwa [hn] at this)
  rw [abs_le] at k
  have b1 := abs_le.mp b0.1
  have b2 := abs_le.mp b0.2
  rw [abs_lt]
  constructor <;> linarith [k.1, k.2, b1.1, b1.2, b2.1, b2.2]

/-! ## Lists -/

/-- Total energy `Σ a²/2` of a list of amplitudes. -/
def energySum (amps : List ℝ) : ℝ := (amps.map fun a => a ^ 2 / 2).sum

/-- The frequencies (or directions) go up from `a` to `b` by steps of at most `δ`; there are not exactly three of them (C42). -/
structure Covers (a b δ : ℝ) (l : List ℝ) : Prop where
  first : l.head? = some a
  last : l.getLast? = some b
  up : l.Pairwise (· < ·)
  steps : ∀ i, i + 1 < l.length → l.getD (i + 1) 0 - l.getD i 0 ≤ δ
  notThree : l.length ≠ 3

theorem Covers.facts {a b δ : ℝ} {l : List ℝ} (h : Covers a b δ l) (hab : a < b) :
    l ≠ [] ∧ ∃ n, l.length = n + 2 ∧ l.getD 0 0 = a ∧ l.getD (n + 1) 0 = b ∧ (∀ i < n + 1, l.getD i 0 ≤ l.getD (i + 1) 0) ∧
      (∀ i < n + 1, l.getD (i + 1) 0 - l.getD i 0 ≤ δ) ∧ ∀ w ∈ l, w ∈ Set.Icc a b := by
  have hne : l ≠ [] := by rintro rfl; have := h.first; simp at this
  have hpos := List.length_pos_of_ne_nil hne
  have f0 : l.getD 0 0 = a := by
    have := h.first
    rw [List.head?_eq_getElem?] at this
    rw [List.getD_eq_getElem?_getD, this]; rfl
  have fl : l.getD (l.length - 1) 0 = b := by
    have := h.last
    rw [List.getLast?_eq_getElem?] at this
    rw [List.getD_eq_getElem?_getD, this]; rfl
  have hlen : l.length ≠ 1 := by
    intro e
    rw [e] at fl
    rw [f0] at fl
    linarith
  have hmono : ∀ i j, i < j → j < l.length → l.getD i 0 < l.getD j 0 := by
    intro i j hij hj
    rw [List.getD_eq_getElem _ _ (by omega), List.getD_eq_getElem _ _ hj]
    exact List.pairwise_iff_getElem.mp h.up i j (by omega) hj hij
  refine ⟨hne, l.length - 2, by omega, f0, by rw [show l.length - 2 + 1 = l.length - 1 by omega]; exact fl, fun i hi => (hmono i (i + 1) (by omega) (by omega)).le,
    fun i hi => h.steps i (by omega), ?_⟩
  intro w hw
  obtain ⟨i, hi, rfl⟩ := List.getElem_of_mem hw
  have e : l[i] = l.getD i 0 := (List.getD_eq_getElem _ _ hi).symm
  rw [e]
  constructor
  · rcases Nat.eq_zero_or_pos i with rfl | hp
    · exact f0.ge
    · exact f0.symm.le.trans (hmono 0 i hp hi).le
  · rcases Nat.lt_or_ge i (l.length - 1) with hlt | hge
    · exact (hmono i (l.length - 1) hlt (by omega)).le.trans fl.le
    · rw [show i = l.length - 1 by omega]; exact fl.le

theorem sum_getD {α : Type} (l : List α) (z : α) (f : α → ℝ) : (l.map f).sum = ∑ i ∈ range l.length, f (l.getD i z) := by
  induction l with
  | nil => simp
  | cons x l ih => simp [ih, sum_range_succ', add_comm]

/-! ## C193 -/

/-- **C193, a list of frequencies.** For a density continuous and nonnegative on a band, the energy of the amplitudes computed for frequencies going from one end of the band to the other is as close as wished to the integral of
the density over the band, as soon as the steps are small enough, however unequal they are. -/
theorem C193_frequencies (S : ℝ → ℝ) (a b : ℝ) (hab : a < b) (hc : ContinuousOn S (Set.Icc a b)) (hS : ∀ w ∈ Set.Icc a b, 0 ≤ S w) (ε : ℝ) (hε : 0 < ε) :
    ∃ δ > 0, ∀ ws, Covers a b δ ws → ∃ amps, getWaveAmplitudes S ws = some amps ∧ amps.length = ws.length ∧ |energySum amps - ∫ w in a..b, S w| < ε := by
  obtain ⟨δ, hδ, key⟩ := cells_limit S a b hab hc hε
  refine ⟨δ, hδ, fun ws h => ?_⟩
  obtain ⟨hne, n, hn, h0, hl, hv, hd, hmem⟩ := h.facts hab
  obtain ⟨amps, ha, hlen, he⟩ := C41_amplitudes S ws hne h.notThree h.up fun w hw => hS w (hmem w hw)
  refine ⟨amps, ha, hlen, ?_⟩
  have e : energySum amps = ∑ i ∈ range (n + 2), S (ws.getD i 0) * cellWidth (n + 1) (fun j => ws.getD j 0) i := by
    unfold energySum
    rw [sum_getD amps 0, hlen, hn]
    refine sum_congr rfl fun i hi => ?_
    have := (he i (by rw [hn]; exact mem_range.mp hi)).2
    rw [hn] at this
    exact this
  rw [e]
  exact key n (fun j => ws.getD j 0) h0 hl hv hd

/-- **C193, directions.** With a directional model the energy of all the components tends to the product of the integral of the density over the band and that of the spreading over the range of directions (centred on the middle of this
range, see C178). -/
theorem C193_directions (S : ℝ → ℝ) (D : ℝ → ℝ → ℝ) (a b t₀ t₁ : ℝ) (hab : a < b) (ht : t₀ < t₁) (hc : ContinuousOn S (Set.Icc a b)) (hS : ∀ w ∈ Set.Icc a b, 0 ≤ S w)
    (hcD : ContinuousOn (fun t => D t ((t₀ + t₁) / 2)) (Set.Icc t₀ t₁)) (hD : ∀ t ∈ Set.Icc t₀ t₁, 0 ≤ D t ((t₀ + t₁) / 2)) (ε : ℝ) (hε : 0 < ε) :
    ∃ δ > 0, ∀ ws thetas, Covers a b δ ws → Covers t₀ t₁ δ thetas → ∃ amps, getWaveAmplitudes2 S (some D) ws thetas = some amps ∧
      |(amps.map energySum).sum - (∫ w in a..b, S w) * ∫ t in t₀..t₁, D t ((t₀ + t₁) / 2)| < ε := by
  obtain ⟨I, hI⟩ : ∃ I, I = ∫ w in a..b, S w := ⟨_, rfl⟩
  obtain ⟨J, hJ⟩ : ∃ J, J = ∫ t in t₀..t₁, D t ((t₀ + t₁) / 2) := ⟨_, rfl⟩
  obtain ⟨η, hη, prod⟩ : ∃ η > 0, ∀ x y, |x - I| < η → |y - J| < η → |x * y - I * J| < ε := by
    have hcont : ContinuousAt (fun p : ℝ × ℝ => p.1 * p.2) (I, J) := by fun_prop
    rw [Metric.continuousAt_iff] at hcont
    obtain ⟨η, hη, h⟩ := hcont ε hε
    refine ⟨η, hη, fun x y hx hy => ?_⟩
    have := @h (x, y) (by rw [Prod.dist_eq]; exact max_lt (by rw [Real.dist_eq]; exact hx) (by rw [Real.dist_eq]; exact hy))
    rwa [Real.dist_eq] at this
  obtain ⟨δ₁, h1, k1⟩ := cells_limit S a b hab hc hη
  obtain ⟨δ₂, h2, k2⟩ := cells_limit (fun t => D t ((t₀ + t₁) / 2)) t₀ t₁ ht hcD hη
  refine ⟨min δ₁ δ₂, lt_min h1 h2, fun ws thetas hw hth => ?_⟩
  obtain ⟨hne, n, hn, h0, hl, hv, hd, hmem⟩ := hw.facts hab
  obtain ⟨hne', n', hn', h0', hl', hv', hd', hmem'⟩ := hth.facts ht
  have ml : thetas.getD (thetas.length - 1) 0 = t₁ := by rw [hn']; exact hl'
  obtain ⟨amps, ha, hlen, hent, hsum⟩ := C41_directional S D ws thetas hne hw.notThree hw.up hne' hth.notThree hth.up (fun w h => hS w (hmem w h))
    (fun t h => by rw [h0', ml]; exact hD t (hmem' t h))
  refine ⟨amps, ha, ?_⟩
  rw [ml, h0', hn, hn'] at hsum
  have rows : ∀ j < n' + 2, (amps.getD j []).length = n + 2 := by
    intro j hj
    have hj' : j < amps.length := by omega
    unfold getWaveAmplitudes2 at ha
    have len : ∀ (l : List ℕ) (f : ℕ → Option (List ℝ)) (r : List (List ℝ)), l.mapM f = some r → (∀ i x, f i = some x → x.length = n + 2) → ∀ x ∈ r, x.length = n + 2 := by
      intro l
      induction l with
      | nil => intro f r hr _ x hx; simp at hr; subst hr; simp at hx
      | cons i l ih =>
        intro f r hr hf x hx
        rw [List.mapM_cons] at hr
        cases hfi : f i with
        | none => rw [hfi] at hr; simp at hr
        | some y =>
          cases hrest : l.mapM f with
          | none => rw [hfi, hrest] at hr; simp at hr
          | some rest =>
            rw [hfi, hrest] at hr
            simp at hr
            subst hr
            rcases List.mem_cons.mp hx with rfl | hx
            · exact hf i _ hfi
            · exact ih f rest hrest hf x hx
    refine len _ _ _ ha (fun i x hx => ?_) _ (by rw [List.getD_eq_getElem _ _ hj']; exact List.getElem_mem hj')
    have flen : ∀ (l : List ℕ) (f : ℕ → Option ℝ) (r : List ℝ), l.mapM f = some r → r.length = l.length := by
      intro l
      induction l with
      | nil => intro f r hr; simp at hr; subst hr; rfl
      | cons i l ih =>
        intro f r hr
        rw [List.mapM_cons] at hr
        cases hfi : f i with
        | none => rw [hfi] at hr; simp at hr
        | some y =>
          cases hrest : l.mapM f with
          | none => rw [hfi, hrest] at hr; simp at hr
          | some rest =>
            rw [hfi, hrest] at hr
            simp at hr
            subst hr
            simp [ih f rest hrest]
    rw [flen _ _ _ hx, List.length_range, hn]
  have tot : (amps.map energySum).sum = ∑ j ∈ range (n' + 2), ∑ i ∈ range (n + 2), (amps.getD j []).getD i 0 ^ 2 / 2 := by
    rw [sum_getD amps [], hlen, hn']
    refine sum_congr rfl fun j hj => ?_
    unfold energySum
    rw [sum_getD _ 0, rows j (mem_range.mp hj)]
  rw [tot, hsum, ← hI, ← hJ]
  refine prod _ _ ?_ ?_
  · rw [hI]
    exact k1 n (fun j => ws.getD j 0) h0 hl hv fun i hi => (hd i hi).trans (min_le_left _ _)
  · rw [hJ]
    exact k2 n' (fun j => thetas.getD j 0) h0' hl' hv' fun i hi => (hd' i hi).trans (min_le_right _ _)

end Frydom.Waves
