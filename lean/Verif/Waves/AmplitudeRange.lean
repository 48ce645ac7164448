import Verif.Waves.IrregularProps

/-!
# Wave amplitudes over a range of frequencies (C178)

The overloads of `FrWaveSpectrum::GetWaveAmplitudes` given by numbers and bounds (`environment/ocean/freeSurface/waves/FrWaveSpectrum.cpp:258-280`).
-/

open Classical Finset

noncomputable section

namespace Frydom.Waves
open Frydom.Seakeeping

/-- `GetWaveAmplitudes(nb_waves, wmin, wmax)` (FrWaveSpectrum.cpp:258-270); `none`: `wVect[1]` or `wVect[0]` read beyond the end of the vector. -/
def getWaveAmplitudesRange (S : ℝ → ℝ) (n : ℕ) (wmin wmax : ℝ) : Option (List ℝ) :=
  let wVect := linspaceList wmin wmax n
  (wVect[1]?).bind fun w1 => (wVect[0]?).map fun w0 => wVect.map fun w => √(2 * S w * (w1 - w0))

/-- `GetWaveAmplitudes(nb_waves, wmin, wmax, nb_dir, theta_min, theta_max, theta_mean)` (FrWaveSpectrum.cpp:272-280): the mean direction is not used. -/
def getWaveAmplitudesRange2 (S : ℝ → ℝ) (D : Option (ℝ → ℝ → ℝ)) (n : ℕ) (wmin wmax : ℝ) (nd : ℕ) (tmin tmax _tmean : ℝ) : Option (List (List ℝ)) :=
  getWaveAmplitudes2 S D (linspaceList wmin wmax n) (linspaceList tmin tmax nd)

theorem linspace_get (a b : ℝ) (n j : ℕ) (h : j < n) : (linspaceList a b n)[j]? = some (a + j * ((b - a) / ((n : ℝ) - 1))) := by
  unfold linspaceList
  rw [List.getElem?_map, List.getElem?_range h]; rfl

theorem cellWidth_congr {n : ℕ} {v v' : ℕ → ℝ} (h : ∀ j ≤ n, v j = v' j) {i : ℕ} (hi : i ≤ n) : cellWidth n v i = cellWidth n v' i := by
  unfold cellWidth
  by_cases c0 : n = 0
  · rw [if_pos c0, if_pos c0]
  by_cases c1 : i = 0
  · rw [if_neg c0, if_neg c0, if_pos c1, if_pos c1, h 1 (by omega), h 0 (by omega)]
  by_cases c2 : i = n
  · rw [if_neg c0, if_neg c0, if_neg c1, if_neg c1, if_pos c2, if_pos c2, h n (by omega), h (n - 1) (by omega)]
  · rw [if_neg c0, if_neg c0, if_neg c1, if_neg c1, if_neg c2, if_neg c2, h (i + 1) (by omega), h (i - 1) (by omega)]

theorem cell_linspace (a b : ℝ) (n i : ℕ) (hi : i < n + 2) :
    cellWidth (n + 2 - 1) (fun j => (linspaceList a b (n + 2)).getD j 0) i = (b - a) / (((n + 2 : ℕ) : ℝ) - 1) := by
  rw [cellWidth_congr (v' := fun j : ℕ => a + j * ((b - a) / (((n + 2 : ℕ) : ℝ) - 1))) (fun j hj => linspace_getD a b (n + 2) j (by omega)) (by omega)]
  exact (C41_cells n _).2 a _ (fun _ => rfl) i (by omega)

theorem range_eq (S : ℝ → ℝ) (n : ℕ) (a b : ℝ) (hn : 2 ≤ n) :
    getWaveAmplitudesRange S n a b = some ((linspaceList a b n).map fun w => √(2 * S w * ((b - a) / ((n : ℝ) - 1)))) := by
  unfold getWaveAmplitudesRange
  simp only [linspace_get a b n 1 (by omega), linspace_get a b n 0 (by omega), Option.bind_some, Option.map_some]
  congr 2
  funext w
  congr 2
  push_cast; ring

/-- **C178, amplitudes over a range.** For two frequencies or more there is one amplitude per frequency of the range cut evenly, its energy `a²/2` is the density times the spacing, and the energy of the sea is that of the trapezoidal
rule over the range **plus half a spacing at both ends**. Where the overload for a list of frequencies works (not three frequencies, see C42) both give the same. -/
theorem C178_range (S : ℝ → ℝ) (n : ℕ) (a b : ℝ) (hab : a ≤ b) (hS : ∀ w, a ≤ w → w ≤ b → 0 ≤ S w) :
    ∃ amps h, getWaveAmplitudesRange S (n + 2) a b = some amps ∧ amps.length = n + 2 ∧ a + ((n + 1 : ℕ) : ℝ) * h = b ∧
      (∀ i < n + 2, 0 ≤ amps.getD i 0 ∧ amps.getD i 0 ^ 2 / 2 = S (a + i * h) * h) ∧
      ∑ i ∈ range (n + 2), amps.getD i 0 ^ 2 / 2 = (∑ i ∈ range (n + 1), (S (a + i * h) + S (a + (i + 1 : ℕ) * h)) / 2 * h) + (S a + S b) / 2 * h ∧
      (n ≠ 1 → getWaveAmplitudes S (linspaceList a b (n + 2)) = some amps) := by
  have hd : ((n + 2 : ℕ) : ℝ) - 1 = ((n + 1 : ℕ) : ℝ) := by push_cast; ring
  have hp : (0 : ℝ) < ((n + 1 : ℕ) : ℝ) := by positivity
  set h := (b - a) / (((n + 2 : ℕ) : ℝ) - 1) with hh
  have hb : a + ((n + 1 : ℕ) : ℝ) * h = b := by rw [hh, hd, mul_div_cancel₀ _ hp.ne']; ring
  have h0 : 0 ≤ h := by rw [hh, hd]; exact div_nonneg (by linarith) hp.le
  have hg : ∀ i < n + 2, ((linspaceList a b (n + 2)).map fun w => √(2 * S w * h)).getD i 0 = √(2 * S (a + i * h) * h) := by
    intro i hi
    rw [List.getD_eq_getElem?_getD, List.getElem?_map, linspace_get a b _ i hi]; rfl
  have hE : ∀ i < n + 2, 0 ≤ ((linspaceList a b (n + 2)).map fun w => √(2 * S w * h)).getD i 0 ∧
      ((linspaceList a b (n + 2)).map fun w => √(2 * S w * h)).getD i 0 ^ 2 / 2 = S (a + i * h) * h := by
    intro i hi
    rw [hg i hi]
    have hi2 : (i : ℝ) * h ≤ ((n + 1 : ℕ) : ℝ) * h := mul_le_mul_of_nonneg_right (by exact_mod_cast (by omega : i ≤ n + 1)) h0
    have hi3 : 0 ≤ (i : ℝ) * h := mul_nonneg (Nat.cast_nonneg i) h0
    have : 0 ≤ 2 * S (a + i * h) * h := mul_nonneg (mul_nonneg (by norm_num) (hS _ (by linarith) (by linarith))) h0
    exact ⟨Real.sqrt_nonneg _, by rw [Real.sq_sqrt this]; ring⟩
  refine ⟨_, h, range_eq S (n + 2) a b (by omega), by simp [linspace_length], hb, hE, ?_, fun h1 => ?_⟩
  · rw [Finset.sum_congr rfl fun i hi => (hE i (Finset.mem_range.mp hi)).2]
    have e1 := Finset.sum_range_succ (fun i : ℕ => S (a + i * h) * h) (n + 1)
    have e2 := Finset.sum_range_succ' (fun i : ℕ => S (a + i * h) * h) (n + 1)
    have e3 : ∑ i ∈ range (n + 1), (S (a + i * h) + S (a + (i + 1 : ℕ) * h)) / 2 * h =
        (∑ i ∈ range (n + 1), S (a + i * h) * h) / 2 + (∑ i ∈ range (n + 1), S (a + (i + 1 : ℕ) * h) * h) / 2 := by
      rw [Finset.sum_div, Finset.sum_div, ← Finset.sum_add_distrib]
      exact Finset.sum_congr rfl fun i _ => by ring
    rw [hb] at e1
    simp only [Nat.cast_zero, zero_mul, add_zero] at e2
    have e4 : n + 2 = n + 1 + 1 := rfl
    rw [e3, e4]
    linear_combination e1 / 2 + e2 / 2
  · have hl : (linspaceList a b (n + 2)).length = n + 2 := linspace_length _ _ _
    have hne : linspaceList a b (n + 2) ≠ [] := by intro e; rw [e] at hl; simp at hl
    obtain ⟨-, hw⟩ := discretization_get (linspaceList a b (n + 2)) hne (by rw [hl]; omega)
    rw [hl] at hw
    have hc : ∀ i < n + 2, cellWidth (n + 2 - 1) (fun j => (linspaceList a b (n + 2)).getD j 0) i = h := fun i hi => cell_linspace a b n i hi
    have hm := mapM_all (fun i => (vectorDiscretization (linspaceList a b (n + 2)))[i]?.map fun d => √(2 * S ((linspaceList a b (n + 2)).getD i 0) * d))
      (fun i : ℕ => √(2 * S (a + i * h) * h)) (List.range (n + 2))
      (fun i hi => by
        have hi := List.mem_range.mp hi
        rw [hw i hi, Option.map_some, hc i hi, linspace_getD _ _ _ _ hi])
    unfold getWaveAmplitudes
    simp only [hl]
    rw [hm]
    congr 1
    unfold linspaceList
    rw [List.map_map]
    rfl

/-- **C178, one frequency (defect).** With a single frequency (or none) the spacing is read beyond the end of the vector, whatever the spectrum and the bounds, while the overload for a list takes the spacing one. -/
theorem C178_one_wrong (S : ℝ → ℝ) (n : ℕ) (hn : n ≤ 1) (a b : ℝ) :
    getWaveAmplitudesRange S n a b = none ∧ getWaveAmplitudes S [a] = some [√(2 * S a * 1)] := by
  refine ⟨?_, ?_⟩
  · unfold getWaveAmplitudesRange
    have : (linspaceList a b n)[1]? = none := List.getElem?_eq_none (by rw [linspace_length]; omega)
    simp only [this, Option.bind_none]
  · rfl

/-- **C178, mean direction (defect).** The mean direction given is not used: the result is the same for all, and the spreading is centred on the middle of the range of directions. So for a cut of the directions that is not centred on the
mean direction the energies are not those of the spreading function asked for. -/
theorem C178_mean_direction_wrong (S : ℝ → ℝ) (D : Option (ℝ → ℝ → ℝ)) (n : ℕ) (wmin wmax : ℝ) (nd : ℕ) (tmin tmax : ℝ) :
    (∀ m m', getWaveAmplitudesRange2 S D n wmin wmax nd tmin tmax m = getWaveAmplitudesRange2 S D n wmin wmax nd tmin tmax m') ∧
    (∀ D', (∀ t, 0 ≤ D' t ((tmin + tmax) / 2)) → (∀ w, 0 ≤ S w) → wmin < wmax → tmin < tmax → 4 ≤ n → 4 ≤ nd → ∀ m, ∃ amps,
      getWaveAmplitudesRange2 S (some D') n wmin wmax nd tmin tmax m = some amps ∧ ∀ j < nd, ∀ i < n,
        (amps.getD j []).getD i 0 ^ 2 / 2 = S (wmin + i * ((wmax - wmin) / ((n : ℝ) - 1))) * ((wmax - wmin) / ((n : ℝ) - 1)) *
          (D' (tmin + j * ((tmax - tmin) / ((nd : ℝ) - 1))) ((tmin + tmax) / 2) * ((tmax - tmin) / ((nd : ℝ) - 1)))) := by
  refine ⟨fun _ _ => rfl, fun D' hD hS hw ht h4 h4' m => ?_⟩
  have inc : ∀ (a b : ℝ) (k : ℕ), a < b → 4 ≤ k → (linspaceList a b k).Pairwise (· < ·) ∧ linspaceList a b k ≠ [] ∧ (linspaceList a b k).length = k ∧
      (linspaceList a b k).getD 0 0 = a ∧ (linspaceList a b k).getD (k - 1) 0 = b ∧
      ∀ i < k, cellWidth (k - 1) (fun j => (linspaceList a b k).getD j 0) i = (b - a) / ((k : ℝ) - 1) := by
    intro a b k hab hk
    have hk1 : (0 : ℝ) < (k : ℝ) - 1 := by
      have : (4 : ℝ) ≤ k := by exact_mod_cast hk
      linarith
    have hs : 0 < (b - a) / ((k : ℝ) - 1) := div_pos (by linarith) hk1
    refine ⟨?_, ?_, linspace_length _ _ _, ?_, ?_, ?_⟩
    · rw [List.pairwise_iff_getElem]
      intro i j hi hj hij
      rw [linspace_length] at hi hj
      have e1 := linspace_getD a b k i hi
      have e2 := linspace_getD a b k j hj
      rw [List.getD_eq_getElem _ _ (by rw [linspace_length]; exact hi)] at e1
      rw [List.getD_eq_getElem _ _ (by rw [linspace_length]; exact hj)] at e2
      rw [e1, e2]
      have : (i : ℝ) < j := by exact_mod_cast hij
      nlinarith
    · intro e
      have := linspace_length a b k
      rw [e] at this; simp at this; omega
    · rw [linspace_getD _ _ _ _ (by omega)]; simp
    · rw [linspace_getD _ _ _ _ (by omega), Nat.cast_sub (by omega), Nat.cast_one, mul_div_cancel₀ _ hk1.ne']; ring
    · intro i hi
      obtain ⟨l, rfl⟩ : ∃ l, k = l + 2 := ⟨k - 2, by omega⟩
      exact cell_linspace a b l i hi
  obtain ⟨a1, a2, a3, a4, a5, a6⟩ := inc wmin wmax n hw h4
  obtain ⟨b1, b2, b3, b4, b5, b6⟩ := inc tmin tmax nd ht h4'
  have hmid : ((linspaceList tmin tmax nd).getD 0 0 + (linspaceList tmin tmax nd).getD ((linspaceList tmin tmax nd).length - 1) 0) / 2 = (tmin + tmax) / 2 := by
    rw [b3, b4, b5]
  obtain ⟨amps, h1, -, h2, -⟩ := C41_directional S D' (linspaceList wmin wmax n) (linspaceList tmin tmax nd) a2 (by omega) a1 b2 (by omega) b1 (fun w _ => hS w) (by rw [hmid]; exact fun t _ => hD t)
  refine ⟨amps, h1, fun j hj i hi => ?_⟩
  rw [(h2 j i (by omega) (by omega)).2, hmid, a3, b3, a6 i hi, b6 j hj, linspace_getD _ _ _ _ hi, linspace_getD _ _ _ _ hj]

/-- A case: three frequencies from 1 to 2 rad/s in a white sea; the list of the same frequencies is refused. -/
example : (∃ amps, getWaveAmplitudesRange (fun _ => 1) 3 1 2 = some amps ∧ amps.length = 3) ∧ getWaveAmplitudes (fun _ => 1) (linspaceList 1 2 3) = none := by
  refine ⟨?_, (C42_three _ _ (linspace_length _ _ _)).2⟩
  obtain ⟨amps, h, h1, h2, -⟩ := C178_range (fun _ => 1) 1 1 2 (by norm_num) (fun _ _ _ => zero_le_one)
  exact ⟨amps, h1, h2⟩

end Frydom.Waves
