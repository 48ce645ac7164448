import Verif.Waves.AirySetup
import Verif.Env.PolarTable
import Mathlib.Tactic

/-!
# Linear interpolation of the database coefficients (C109)

`mathutils::Interp1dLinear` (MathUtils, a primitive here) and `FrLinearHDBForce::GetHDBInterp`, `BuildHDBInterpolators`
(`src/frydom/hydrodynamics/seakeeping/linear/excitation/FrLinearHDBForce.cpp:48-137`).

Abscissae and ordinates are functions of the index with their size `n`.
-/

open Classical

noncomputable section

namespace Frydom.Seakeeping
open Frydom.Waves Frydom.Env

/-- `std::lower_bound(x.begin(), x.end(), s) - x.begin()`. -/
def lowerIdx (n : ℕ) (x : ℕ → ℝ) (s : ℝ) : ℕ := ((List.range n).takeWhile fun i => x i < s).length

/-- `Interp1dLinear::Eval` (MathUtils): straight line through the two samples around `s` (the first two when `s` is the first abscissa). -/
def interpAt {E : Type*} [AddCommGroup E] [Module ℝ E] (n : ℕ) (x : ℕ → ℝ) (y : ℕ → E) (s : ℝ) : E :=
  let i := max 1 (lowerIdx n x s)
  let a := (1 / (x i - x (i - 1))) • (y i - y (i - 1))
  let b := (1 / (x i - x (i - 1))) • (x i • y (i - 1) - x (i - 1) • y i)
  s • a + b

/-- The assertion of `Interp1dLinear::Eval`. -/
def InGrid (n : ℕ) (x : ℕ → ℝ) (s : ℝ) : Prop := x 0 ≤ s ∧ s ≤ x (n - 1)

/-- The grids of a database, increasing (linspace): directions in radians and frequencies (FrBEMBody::GetWaveDirections, GetFrequencies). -/
structure HdbGrid where
  nDir : ℕ
  dir : ℕ → ℝ
  nFreq : ℕ
  freq : ℕ → ℝ

/-- `m_waveDirInterpolators[imode][ifreq](direction)` (FrLinearHDBForce.cpp:98-137): `data iangle` is `GetHDBData(iangle)`. -/
def waveDirInterp (G : HdbGrid) (data : ℕ → Fin 6 → ℕ → ℂ) (imode : Fin 6) (ifreq : ℕ) (direction : ℝ) : ℂ :=
  interpAt G.nDir G.dir (fun iangle => data iangle imode ifreq) direction

/-- One entry of `GetHDBInterp` (FrLinearHDBForce.cpp:48-96): coefficient of a mode for a wave of this direction and frequency. -/
def hdbInterp (G : HdbGrid) (data : ℕ → Fin 6 → ℕ → ℂ) (imode : Fin 6) (direction freq : ℝ) : ℂ :=
  interpAt G.nFreq G.freq (fun ifreq => waveDirInterp G data imode ifreq (normalize2Pi direction)) freq

/-- The interpolation is made without failing an assertion. -/
def HdbInRange (G : HdbGrid) (direction freq : ℝ) : Prop := InGrid G.nDir G.dir (normalize2Pi direction) ∧ InGrid G.nFreq G.freq freq

/-! ## Specification -/

/-- At least two abscissae, increasing. -/
def Increasing (n : ℕ) (x : ℕ → ℝ) : Prop := 2 ≤ n ∧ ∀ i, i + 1 < n → x i < x (i + 1)

/-! ## Lemmas -/

theorem Increasing.lt {n : ℕ} {x : ℕ → ℝ} (h : Increasing n x) : ∀ i j, i < j → j < n → x i < x j := by
  intro i j hij hj
  induction j with
  | zero => omega
  | succ j ih =>
    rcases Nat.lt_succ_iff_lt_or_eq.mp hij with h1 | h1
    · exact (ih h1 (by omega)).trans (h.2 j hj)
    · subst h1; exact h.2 i hj

theorem takeWhile_range (n k : ℕ) (p : ℕ → Bool) (hk : k ≤ n) (h1 : ∀ i < k, p i = true) (h2 : k < n → p k = false) :
    ((List.range n).takeWhile p).length = k := by
  obtain ⟨m, rfl⟩ := Nat.exists_eq_add_of_le hk
  rw [List.range_add, List.takeWhile_append_of_pos (by simpa using h1)]
  cases m with
  | zero => simp
  | succ m =>
    rw [List.range_succ_eq_map]
    simp [h2 (by omega)]

theorem lowerIdx_of {n : ℕ} {x : ℕ → ℝ} (h : Increasing n x) (s : ℝ) (k : ℕ) (hk : k < n) (h1 : ∀ i < k, x i < s) (h2 : s ≤ x k) : lowerIdx n x s = k := by
  unfold lowerIdx
  apply takeWhile_range n k _ hk.le
  · intro i hi; simpa using h1 i hi
  · intro _; simpa using h2

section
variable {E : Type*} [AddCommGroup E] [Module ℝ E]

theorem line_combo (a b s : ℝ) (hab : a < b) (u v : E) (θ : ℝ) (hs : s = (1 - θ) * a + θ * b) :
    s • ((1 / (b - a)) • (v - u)) + (1 / (b - a)) • (b • u - a • v) = (1 - θ) • u + θ • v := by
  have hne : b - a ≠ 0 := (sub_pos.mpr hab).ne'
  subst hs
  have h1 : (1 - θ : ℝ) = (1 / (b - a)) * (b - ((1 - θ) * a + θ * b)) := by field_simp; ring
  have h2 : θ = (1 / (b - a)) * (((1 - θ) * a + θ * b) - a) := by field_simp; ring
  conv_rhs => rw [show (1 - θ) • u = ((1 / (b - a)) * (b - ((1 - θ) * a + θ * b))) • u from congrArg (· • u) h1,
    show θ • v = ((1 / (b - a)) * (((1 - θ) * a + θ * b) - a)) • v from congrArg (· • v) h2]
  module

/-- Between two successive abscissae, the interpolation is the straight line. -/
theorem interp_between {n : ℕ} {x : ℕ → ℝ} (h : Increasing n x) (y : ℕ → E) (k : ℕ) (hk : k + 1 < n) (θ : ℝ) (h0 : 0 ≤ θ) (h1 : θ ≤ 1) :
    interpAt n x y ((1 - θ) * x k + θ * x (k + 1)) = (1 - θ) • y k + θ • y (k + 1) := by
  have hlt := h.2 k hk
  rcases h0.eq_or_lt with rfl | hpos
  · rw [show (1 - 0) * x k + 0 * x (k + 1) = x k by ring]
    have hidx : lowerIdx n x (x k) = k := lowerIdx_of h _ k (by omega) (fun i hi => h.lt i k hi (by omega)) le_rfl
    unfold interpAt
    rw [hidx]
    rcases Nat.eq_zero_or_pos k with rfl | hkp
    · simp only [show max 1 0 = 1 from rfl, Nat.sub_self]
      exact line_combo (x 0) (x 1) (x 0) hlt (y 0) (y 1) 0 (by ring)
    · have hm : max 1 k = k := by omega
      simp only [hm]
      have hl : x (k - 1) < x k := h.lt _ _ (by omega) (by omega)
      rw [line_combo (x (k - 1)) (x k) (x k) hl (y (k - 1)) (y k) 1 (by ring)]
      module
  · set s := (1 - θ) * x k + θ * x (k + 1) with hs
    have hks : x k < s := by rw [hs]; nlinarith
    have hsk : s ≤ x (k + 1) := by rw [hs]; nlinarith
    have hidx : lowerIdx n x s = k + 1 := lowerIdx_of h _ (k + 1) hk (fun i hi => by
      rcases Nat.lt_succ_iff_lt_or_eq.mp hi with h3 | h3
      · exact (h.lt i k h3 (by omega)).trans hks
      · rw [h3]; exact hks) hsk
    unfold interpAt
    rw [hidx]
    simp only [show max 1 (k + 1) = k + 1 by omega, Nat.add_sub_cancel]
    exact line_combo _ _ _ hlt _ _ θ hs

theorem interp_node {n : ℕ} {x : ℕ → ℝ} (h : Increasing n x) (y : ℕ → E) (k : ℕ) (hk : k < n) : interpAt n x y (x k) = y k := by
  rcases Nat.lt_or_ge (k + 1) n with h1 | h1
  · have := interp_between h y k h1 0 le_rfl (by norm_num)
    simpa using this
  · have hk' : k = (k - 1) + 1 := by have := h.1; omega
    have := interp_between h y (k - 1) (by omega) 1 (by norm_num) le_rfl
    rw [← hk'] at this
    simpa using this

theorem interp_linear (n : ℕ) (x : ℕ → ℝ) (y z : ℕ → E) (a b s : ℝ) :
    interpAt n x (fun i => a • y i + b • z i) s = a • interpAt n x y s + b • interpAt n x z s := by
  unfold interpAt; simp only []; module

theorem interp_add (n : ℕ) (x : ℕ → ℝ) (y z : ℕ → E) (s : ℝ) :
    interpAt n x (fun i => y i + z i) s = interpAt n x y s + interpAt n x z s := by
  have := interp_linear n x y z 1 1 s; simpa using this

theorem interp_zero (n : ℕ) (x : ℕ → ℝ) (s : ℝ) : interpAt n x (fun _ => (0 : E)) s = 0 := by
  unfold interpAt; simp

/-- Every value of the range is in one of the intervals. -/
theorem locate {n : ℕ} {x : ℕ → ℝ} (h : Increasing n x) (s : ℝ) (hs : InGrid n x s) :
    ∃ k θ, k + 1 < n ∧ 0 ≤ θ ∧ θ ≤ 1 ∧ s = (1 - θ) * x k + θ * x (k + 1) := by
  obtain ⟨hn, hx⟩ := h
  have key : ∀ m, m + 1 < n → s ≤ x (m + 1) → ∃ k θ, k + 1 < n ∧ 0 ≤ θ ∧ θ ≤ 1 ∧ s = (1 - θ) * x k + θ * x (k + 1) := by
    intro m
    induction m with
    | zero =>
      intro hm hle
      have hd : 0 < x (0 + 1) - x 0 := sub_pos.mpr (hx 0 hm)
      refine ⟨0, (s - x 0) / (x (0 + 1) - x 0), hm, div_nonneg (by linarith [hs.1]) hd.le, by rw [div_le_one hd]; linarith, ?_⟩
      field_simp; ring
    | succ m ih =>
      intro hm hle
      by_cases hc : s ≤ x (m + 1)
      · exact ih (by omega) hc
      · have hd : 0 < x (m + 1 + 1) - x (m + 1) := sub_pos.mpr (hx _ hm)
        refine ⟨m + 1, (s - x (m + 1)) / (x (m + 1 + 1) - x (m + 1)), hm, div_nonneg (by linarith [not_le.mp hc]) hd.le, by rw [div_le_one hd]; linarith, ?_⟩
        field_simp; ring
  have := key (n - 2) (by omega) (by rw [show n - 2 + 1 = n - 1 by omega]; exact hs.2)
  exact this

end

/-! ## C109 -/

/-- **C109, interpolation.** For a wave whose direction (reduced to [0, 2π)) lies between two successive directions of the database and whose
frequency lies between two successive frequencies, the coefficient of every mode is the bilinear combination of the four coefficients around; in
particular at a node of the database it is the coefficient of the database. -/
theorem C109_bilinear (G : HdbGrid) (hd : Increasing G.nDir G.dir) (hf : Increasing G.nFreq G.freq) (data : ℕ → Fin 6 → ℕ → ℂ) (i : Fin 6) (direction freq : ℝ)
    (k l : ℕ) (hk : k + 1 < G.nDir) (hl : l + 1 < G.nFreq) (θ φ : ℝ) (h0 : 0 ≤ θ) (h1 : θ ≤ 1) (g0 : 0 ≤ φ) (g1 : φ ≤ 1)
    (hdir : normalize2Pi direction = (1 - θ) * G.dir k + θ * G.dir (k + 1)) (hfreq : freq = (1 - φ) * G.freq l + φ * G.freq (l + 1)) :
    hdbInterp G data i direction freq =
      (1 - φ) • ((1 - θ) • data k i l + θ • data (k + 1) i l) + φ • ((1 - θ) • data k i (l + 1) + θ • data (k + 1) i (l + 1)) := by
  unfold hdbInterp
  rw [hfreq, interp_between hf _ l hl φ g0 g1]
  unfold waveDirInterp
  rw [hdir, interp_between hd _ k hk θ h0 h1, interp_between hd _ k hk θ h0 h1]

theorem C109_node (G : HdbGrid) (hd : Increasing G.nDir G.dir) (hf : Increasing G.nFreq G.freq) (data : ℕ → Fin 6 → ℕ → ℂ) (i : Fin 6) (direction : ℝ)
    (k l : ℕ) (hk : k < G.nDir) (hl : l < G.nFreq) (hdir : normalize2Pi direction = G.dir k) :
    hdbInterp G data i direction (G.freq l) = data k i l := by
  unfold hdbInterp
  rw [interp_node hf _ l hl]
  unfold waveDirInterp
  rw [hdir, interp_node hd _ k hk]

/-- **C109, range.** Every wave whose interpolation passes the assertions is in one of the cells of the database (so `C109_bilinear` tells its coefficient), and the
coefficient is bounded by the largest coefficient of the mode in the database. -/
theorem C109_cells (G : HdbGrid) (hd : Increasing G.nDir G.dir) (hf : Increasing G.nFreq G.freq) (data : ℕ → Fin 6 → ℕ → ℂ) (i : Fin 6) (direction freq : ℝ)
    (hr : HdbInRange G direction freq) :
    (∃ k l θ φ, k + 1 < G.nDir ∧ l + 1 < G.nFreq ∧ 0 ≤ θ ∧ θ ≤ 1 ∧ 0 ≤ φ ∧ φ ≤ 1 ∧
      normalize2Pi direction = (1 - θ) * G.dir k + θ * G.dir (k + 1) ∧ freq = (1 - φ) * G.freq l + φ * G.freq (l + 1)) ∧
    (∀ M : ℝ, (∀ k < G.nDir, ∀ l < G.nFreq, ‖data k i l‖ ≤ M) → ‖hdbInterp G data i direction freq‖ ≤ M) := by
  obtain ⟨k, θ, hk, h0, h1, hdir⟩ := locate hd _ hr.1
  obtain ⟨l, φ, hl, g0, g1, hfreq⟩ := locate hf _ hr.2
  refine ⟨⟨k, l, θ, φ, hk, hl, h0, h1, g0, g1, hdir, hfreq⟩, ?_⟩
  intro M hM
  rw [C109_bilinear G hd hf data i direction freq k l hk hl θ φ h0 h1 g0 g1 hdir hfreq]
  have comb : ∀ (t : ℝ) (u v : ℂ), 0 ≤ t → t ≤ 1 → ‖u‖ ≤ M → ‖v‖ ≤ M → ‖(1 - t) • u + t • v‖ ≤ M := by
    intro t u v ht0 ht1 hu hv
    refine (norm_add_le _ _).trans ?_
    rw [norm_smul, norm_smul, Real.norm_of_nonneg (by linarith), Real.norm_of_nonneg ht0]
    nlinarith
  exact comb φ _ _ g0 g1 (comb θ _ _ h0 h1 (hM k (by omega) l (by omega)) (hM (k + 1) hk l (by omega)))
    (comb θ _ _ h0 h1 (hM k (by omega) (l + 1) hl) (hM (k + 1) hk (l + 1) hl))

/-- **C109, coverage.** Waves of every direction can be interpolated exactly when the directions of the database start at or below 0 and reach 2π: a database
stopping at 180 degrees, or at the last direction before 360, fails an assertion for some waves. The null wave field (one wave of frequency 0) can be
interpolated only if the frequencies of the database start at or below 0. -/
theorem C109_coverage (G : HdbGrid) :
    ((∀ direction, InGrid G.nDir G.dir (normalize2Pi direction)) ↔ G.dir 0 ≤ 0 ∧ 2 * Real.pi ≤ G.dir (G.nDir - 1)) ∧
    (∀ direction, HdbInRange G direction 0 → G.freq 0 ≤ 0) := by
  have hpi := Real.pi_pos
  have hid : ∀ a, 0 ≤ a → a < 2 * Real.pi → normalize2Pi a = a := by
    intro a h0 h1
    unfold normalize2Pi
    have : ⌊a / (2 * Real.pi)⌋ = 0 := by
      rw [Int.floor_eq_zero_iff]
      exact ⟨div_nonneg h0 (by linarith), by rw [div_lt_one (by linarith)]; exact h1⟩
    rw [this]; simp
  refine ⟨⟨?_, ?_⟩, fun direction h => h.2.1⟩
  · intro h
    refine ⟨?_, ?_⟩
    · have := (h 0).1
      rwa [hid 0 le_rfl (by linarith)] at this
    · by_contra hc
      push Not at hc
      have h0 := h 0
      rw [hid 0 le_rfl (by linarith)] at h0
      have hm : 0 ≤ (G.dir (G.nDir - 1) + 2 * Real.pi) / 2 := by linarith [h0.2]
      have := (h ((G.dir (G.nDir - 1) + 2 * Real.pi) / 2)).2
      rw [hid _ hm (by linarith)] at this
      linarith
  · rintro ⟨h0, h1⟩ direction
    obtain ⟨a, b⟩ := normalize2Pi_range direction
    exact ⟨by linarith, by linarith⟩

/-- A case: directions 0 and 2π, frequencies 1 and 2; the wave of direction π and frequency 3/2 is in the middle of the cell. -/
example : let G : HdbGrid := ⟨2, fun i => i * (2 * Real.pi), 2, fun i => 1 + i⟩
    Increasing G.nDir G.dir ∧ Increasing G.nFreq G.freq ∧ HdbInRange G Real.pi (3 / 2) := by
  have hpi := Real.pi_pos
  refine ⟨⟨le_rfl, ?_⟩, ⟨le_rfl, ?_⟩, ?_, ?_⟩
  · intro i hi
    have : i = 0 := by simp only [] at hi; omega
    subst this; simp; exact hpi
  · intro i hi; simp
  · obtain ⟨a, b⟩ := normalize2Pi_range Real.pi
    constructor
    · simpa using a
    · simp; exact b.le
  · constructor <;> norm_num

end Frydom.Seakeeping
