import Verif.Recorder.Model

/-! # Properties C21, C22: the time recorder -/

open Classical

noncomputable section

namespace Frydom.Recorder

variable {T : Type*} [AddCommGroup T] [Module ℝ T]

/-! ## Specification -/

/-- Value at `s` of the straight line through two samples. -/
def line (a b : ℝ × T) (s : ℝ) : T := a.2 + ((s - a.1) / (b.1 - a.1)) • (b.2 - a.2)

/-- Piecewise-linear interpolant of a list of samples, newest first. -/
def interp : List (ℝ × T) → ℝ → T
  | [], _ => 0
  | [a], _ => a.2
  | b :: a :: l, s => if s ≤ a.1 then interp (a :: l) s else line a b s

/-- The sequence of samples a user records, oldest first, turned into the list of distinct instants, newest first; a
second value recorded at the same instant is ignored. -/
def signal (acc : List (ℝ × T)) : List (ℝ × T) → List (ℝ × T)
  | [] => acc
  | x :: xs => match acc with
    | [] => signal [x] xs
    | y :: _ => if x.1 = y.1 then signal acc xs else signal (x :: acc) xs

/-- Recording a sequence of samples. -/
def Rec.run (r : Rec T) : List (ℝ × T) → Rec T
  | [] => r
  | x :: xs => (r.record x.1 x.2).run xs

/-- Successive instants do not decrease and increase by at most `step`, starting from `t`. -/
def Paced (step : ℝ) (t : ℝ) : List (ℝ × T) → Prop
  | [] => True
  | x :: xs => t ≤ x.1 ∧ x.1 ≤ t + step ∧ Paced step x.1 xs

/-! ## Lemmas -/

theorem interpolate_eq (a b : ℝ × T) (s : ℝ) (h : a.1 ≠ b.1) :
    interpolate a.1 s a.2 b.2 b.1 = line a b s := by
  have hne : b.1 - a.1 ≠ 0 := sub_ne_zero.mpr (Ne.symm h)
  unfold interpolate line
  simp only
  have h1 : a.2 = ((b.1 - a.1) / (b.1 - a.1)) • a.2 := by rw [div_self hne, one_smul]
  conv_rhs => rw [show a.2 + ((s - a.1) / (b.1 - a.1)) • (b.2 - a.2) =
    ((b.1 - a.1) / (b.1 - a.1)) • a.2 + ((s - a.1) / (b.1 - a.1)) • (b.2 - a.2) by rw [← h1]]
  simp only [div_eq_mul_inv]
  module

/-- Values at the grid instants `t0 + n step, …, t0 + step`. -/
def grid (t0 step : ℝ) (n : ℕ) (f : ℝ → T) : List T :=
  (List.range n).map fun k => f (t0 + ((n - k : ℕ) : ℝ) * step)

theorem grid_succ (t0 step : ℝ) (n : ℕ) (f : ℝ → T) :
    grid t0 step (n + 1) f = f (t0 + ((n + 1 : ℕ) : ℝ) * step) :: grid t0 step n f := by
  unfold grid
  rw [List.range_succ_eq_map, List.map_cons, List.map_map]
  congr 1
  apply List.map_congr_left
  intro k _
  simp only [Function.comp, Nat.succ_eq_add_one, Nat.add_sub_add_right]

theorem grid_congr (t0 step : ℝ) (n : ℕ) (f g : ℝ → T) (b : ℝ) (hs : 0 < step) (hb : t0 + n * step ≤ b)
    (h : ∀ s ≤ b, f s = g s) : grid t0 step n f = grid t0 step n g := by
  unfold grid
  apply List.map_congr_left
  intro k _
  apply h
  have : ((n - k : ℕ) : ℝ) ≤ n := by exact_mod_cast Nat.sub_le n k
  nlinarith

/-- Invariant. -/
structure Inv (r : Rec T) (t0 : ℝ) (n : ℕ) (sig : List (ℝ × T)) : Prop where
  last : ∃ y l, sig = y :: l ∧ r.last = y.1 ∧ interp sig y.1 = y.2 ∧
    r.data = (y.2 :: grid t0 r.step n (interp sig)).take r.cap
  prev : r.prev = t0 + n * r.step
  lo : r.prev ≤ r.last
  hi : r.last < r.prev + r.step
  delta : 1 < r.data.length → r.delta = r.last - r.prev

theorem Inv.step {r : Rec T} {t0 : ℝ} {n : ℕ} {sig : List (ℝ × T)} (h : Inv r t0 n sig) (hs : 0 < r.step)
    (hc : 1 ≤ r.cap) (x : ℝ × T) (h1 : r.last ≤ x.1) (h2 : x.1 ≤ r.last + r.step) :
    let r' := r.record x.1 x.2
    r'.step = r.step ∧ r'.cap = r.cap ∧ r'.last = x.1 ∧
    ∃ n', Inv r' t0 n' (match sig with | [] => [x] | y :: l => if x.1 = y.1 then y :: l else x :: y :: l) := by
  obtain ⟨⟨y, l, rfl, hl, htop, hd⟩, hp, hlo, hhi, hde⟩ := h
  obtain ⟨c, hcap⟩ : ∃ c, r.cap = c + 1 := ⟨r.cap - 1, by omega⟩
  rw [hcap, List.take_succ_cons] at hd
  unfold Rec.record
  simp only [hd]
  by_cases heq : x.1 = r.last
  · rw [if_pos heq]
    have : x.1 = y.1 := by rw [heq, hl]
    refine ⟨rfl, rfl, heq.symm, n, ?_⟩
    simp only [if_pos this]
    exact ⟨⟨y, l, rfl, hl, htop, by rw [hcap, List.take_succ_cons, hd]⟩, hp, hlo, hhi, hde⟩
  · have hne : x.1 ≠ y.1 := by rw [← hl]; exact heq
    have hlt : r.last < x.1 := lt_of_le_of_ne h1 (Ne.symm heq)
    rw [if_neg heq]
    simp only [if_neg hne]
    have hint : ∀ s ≤ y.1, interp (x :: y :: l) s = interp (y :: l) s := fun s hs => by
      simp only [interp, if_pos hs]
    have htop' : interp (x :: y :: l) x.1 = x.2 := by
      simp only [interp]
      rw [if_neg (by rw [← hl]; linarith)]
      unfold line
      rw [div_self (sub_ne_zero.mpr hne), one_smul]; abel
    by_cases hst : x.1 - r.prev < r.step
    · rw [if_pos hst]
      refine ⟨rfl, rfl, rfl, n, ⟨⟨x, y :: l, rfl, rfl, htop', ?_⟩, hp, by simp only; linarith, by simp only; linarith, ?_⟩⟩
      · simp only [setFront, hcap, List.take_succ_cons]
        rw [grid_congr t0 r.step n (interp (x :: y :: l)) (interp (y :: l)) y.1 hs (by rw [← hl]; linarith) hint]
      · intro _; rfl
    · rw [if_neg hst]
      refine ⟨rfl, rfl, rfl, n + 1, ⟨⟨x, y :: l, rfl, rfl, htop', ?_⟩, ?_, ?_, ?_, ?_⟩⟩
      · simp only [setFront, pushFront, hcap, List.take_succ_cons, grid_succ]
        rw [grid_congr t0 r.step n (interp (x :: y :: l)) (interp (y :: l)) y.1 hs (by rw [← hl]; linarith) hint]
        have e : t0 + ((n + 1 : ℕ) : ℝ) * r.step = r.prev + r.step := by rw [hp]; push_cast; ring
        have e2 : interp (x :: y :: l) (t0 + ((n + 1 : ℕ) : ℝ) * r.step) = interpolate r.last (r.prev + r.step) y.2 x.2 x.1 := by
          rw [e, hl]
          simp only [interp]
          rw [if_neg (by rw [← hl]; linarith), interpolate_eq y x _ (Ne.symm hne)]
        rw [e2]
        congr 1
        cases c with
        | zero => simp
        | succ c => simp only [List.take_succ_cons, List.take_take]; congr 2; omega
      · simp only; rw [hp]; push_cast; ring
      · simp only; linarith
      · simp only; linarith
      · intro _; rfl

theorem Inv.run {t0 : ℝ} (xs : List (ℝ × T)) : ∀ {r : Rec T} {n : ℕ} {sig : List (ℝ × T)}, Inv r t0 n sig →
    0 < r.step → 1 ≤ r.cap → Paced r.step r.last xs →
    (r.run xs).step = r.step ∧ (r.run xs).cap = r.cap ∧ ∃ n', Inv (r.run xs) t0 n' (signal sig xs) := by
  induction xs with
  | nil => intro r n sig h _ _ _; exact ⟨rfl, rfl, n, h⟩
  | cons x xs ih =>
    intro r n sig h hs hc hp
    obtain ⟨p1, p2, p3⟩ := hp
    obtain ⟨e1, e2, e3, n', h'⟩ := h.step hs hc x p1 p2
    have := ih h' (by rw [e1]; exact hs) (by rw [e2]; exact hc) (by rw [e1, e3]; exact p3)
    obtain ⟨f1, f2, m, h''⟩ := this
    refine ⟨f1.trans e1, f2.trans e2, m, ?_⟩
    obtain ⟨y, l, hsig, -, -, -⟩ := h.last
    subst hsig
    simp only [signal]
    split_ifs with hxy
    · simp only [if_pos hxy] at h''; exact h''
    · simp only [if_neg hxy] at h''; exact h''

theorem Inv.floor {r : Rec T} {t0 : ℝ} {n : ℕ} {sig : List (ℝ × T)} (h : Inv r t0 n sig) (hs : 0 < r.step) :
    n = ⌊(r.last - t0) / r.step⌋₊ := by
  symm
  rw [Nat.floor_eq_iff (by
    apply div_nonneg _ hs.le
    have := h.lo; rw [h.prev] at this
    have : (0:ℝ) ≤ n * r.step := by positivity
    linarith)]
  have h1 := h.lo; have h2 := h.hi; rw [h.prev] at h1 h2
  constructor
  · rw [le_div_iff₀ hs]; linarith
  · rw [div_lt_iff₀ hs]; linarith

theorem Inv.of_run (r : Rec T) (h0 : r.data = []) (hs : 0 < r.step) (hc : 1 ≤ r.cap) (x : ℝ × T) (xs : List (ℝ × T))
    (hp : Paced r.step x.1 xs) :
    (r.run (x :: xs)).step = r.step ∧ (r.run (x :: xs)).cap = r.cap ∧
    ∃ n, Inv (r.run (x :: xs)) x.1 n (signal [] (x :: xs)) := by
  have hrec : r.record x.1 x.2 = { r with data := pushFront r.cap x.2 [], last := x.1, prev := x.1 } := by
    unfold Rec.record; rw [h0]
  have hinv : Inv (r.record x.1 x.2) x.1 0 [x] := by
    rw [hrec]
    refine ⟨⟨x, [], rfl, rfl, rfl, by simp [pushFront, grid]⟩, by simp, le_rfl, by simp only; linarith, ?_⟩
    intro h; simp only [pushFront] at h
    have := List.length_take_le' r.cap [x.2]
    simp at this h
  have hrs : (r.record x.1 x.2).step = r.step := by rw [hrec]
  have hrc : (r.record x.1 x.2).cap = r.cap := by rw [hrec]
  have hrl : (r.record x.1 x.2).last = x.1 := by rw [hrec]
  obtain ⟨e1, e2, n, h⟩ := Inv.run xs hinv (by rw [hrs]; exact hs) (by rw [hrc]; exact hc) (by rw [hrs, hrl]; exact hp)
  exact ⟨e1.trans hrs, e2.trans hrc, n, h⟩

/-! ## C21 -/

/-- **C21, contents.** Start from an empty (initialised or cleared) recorder of positive step and capacity, record any
nonempty sequence of samples whose instants increase by at most the step. Then the buffer holds the newest value followed
by the values of the piecewise-linear interpolant of the recorded signal at the grid instants `t0 + n step, …, t0 + step`
(`t0` the first instant), newest first and limited to the capacity. -/
theorem C21_contents (r : Rec T) (h0 : r.data = []) (hs : 0 < r.step) (hc : 1 ≤ r.cap) (x : ℝ × T) (xs : List (ℝ × T))
    (hp : Paced r.step x.1 xs) :
    let sig := signal [] (x :: xs)
    let r' := r.run (x :: xs)
    ∃ newest older, sig = newest :: older ∧ r'.last = newest.1 ∧
      r'.data = (newest.2 :: (List.range ⌊(newest.1 - x.1) / r.step⌋₊).map fun k =>
        interp sig (x.1 + ((⌊(newest.1 - x.1) / r.step⌋₊ - k : ℕ) : ℝ) * r.step)).take r.cap := by
  intro sig r'
  obtain ⟨e1, e2, n, h⟩ := Inv.of_run r h0 hs hc x xs hp
  have hn := h.floor (by rw [e1]; exact hs)
  obtain ⟨y, l, hy, hl, htop, hd⟩ := h.last
  refine ⟨y, l, hy, hl, ?_⟩
  rw [hl, e1] at hn
  rw [hd, e2, e1, ← hn]
  rfl

/-- **C21, delays.** In the same situation `GetTime` lists one delay per stored value, and the value stored at each position
is the recorded signal at that delay before the last instant. -/
theorem C21_delays (r : Rec T) (h0 : r.data = []) (hs : 0 < r.step) (hc : 1 ≤ r.cap) (x : ℝ × T) (xs : List (ℝ × T))
    (hp : Paced r.step x.1 xs) :
    let sig := signal [] (x :: xs)
    let r' := r.run (x :: xs)
    r'.getTime.length = r'.data.length ∧
    ∀ k (hk : k < r'.data.length) (hk' : k < r'.getTime.length),
      r'.data[k] = interp sig (r'.last - r'.getTime[k]) := by
  intro sig r'
  obtain ⟨e1, e2, n, h⟩ := Inv.of_run r h0 hs hc x xs hp
  have hst : r'.step = r.step := e1
  obtain ⟨y, l, hy, hl, htop, hd⟩ := h.last
  have hpos : 1 ≤ r'.data.length := by
    rw [hd, e2, List.length_take]; simp; omega
  have hlen : r'.getTime.length = r'.data.length := by
    unfold Rec.getTime
    split_ifs with h1
    · simp; omega
    · simp; omega
  refine ⟨hlen, ?_⟩
  intro k hk hk'
  have hsig : sig = y :: l := hy
  cases k with
  | zero =>
    have ht : r'.getTime[0] = 0 := by
      by_cases h1 : 1 < r'.data.length
      · have hg : r'.getTime = 0 :: r'.delta :: (List.range (r'.data.length - 2)).map fun i => r'.delta + (i + 1 : ℕ) * r'.step := by
          unfold Rec.getTime; rw [if_pos h1]
        rw [List.getElem_of_eq hg]; rfl
      · have hg : r'.getTime = [0] := by unfold Rec.getTime; rw [if_neg h1]
        rw [List.getElem_of_eq hg]; rfl
    rw [ht, sub_zero, hl, htop, List.getElem_of_eq hd]
    simp
  | succ k =>
    have h1 : 1 < r'.data.length := by omega
    have hde := h.delta h1
    have hkn : k < n := by
      rw [hd] at hk; simp [grid] at hk; omega
    have hv : r'.data[k + 1] = interp sig (x.1 + ((n - k : ℕ) : ℝ) * r.step) := by
      rw [List.getElem_of_eq hd]
      simp only [List.getElem_take, List.getElem_cons_succ, grid, List.getElem_map, List.getElem_range, e1]
      rfl
    have ht : r'.getTime[k + 1] = r'.delta + k * r'.step := by
      have hg : r'.getTime = 0 :: r'.delta :: (List.range (r'.data.length - 2)).map fun i => r'.delta + (i + 1 : ℕ) * r'.step := by
        unfold Rec.getTime; rw [if_pos h1]
      rw [List.getElem_of_eq hg]
      cases k with
      | zero => simp
      | succ k => simp
    rw [hv, ht, hde]
    congr 1
    rw [Nat.cast_sub hkn.le, h.prev, hst]
    ring

/-- **C21, clearing.** After `Clear` (or on a fresh initialised recorder) the buffer is empty and its capacity is the
persistence divided by the step, rounded down; so the two theorems above apply. -/
theorem C21_clear (r : Rec T) : r.clear.data = [] ∧ r.clear.cap = ⌊r.persistence / r.step⌋₊ ∧ r.clear.step = r.step ∧
    (r.clear.run []).data = [] := by
  refine ⟨?_, rfl, rfl, ?_⟩ <;> simp [Rec.clear, Rec.init, Rec.run]

/-- **C21, from the constructor.** A recorder that was not initialised keeps nothing of what it is given; one that was initialised, or cleared, is in the situation of the theorems above as soon as the persistence reaches the step, and keeps at most
as many values as steps in the persistence. -/
theorem C21_life (persistence step : ℝ) (hs : 0 < step) (hp : step ≤ persistence) (xs : List (ℝ × T)) :
    ((Rec.new persistence step : Rec T).run xs).data = [] ∧
    (∀ r : Rec T, r = (Rec.new persistence step).init →
      r.data = [] ∧ 0 < r.step ∧ 1 ≤ r.cap ∧ r.step = step ∧ (r.cap : ℝ) * step ≤ persistence ∧ persistence < (r.cap + 1) * step) := by
  constructor
  · have : ∀ (xs : List (ℝ × T)) (r : Rec T), r.cap = 0 → r.data = [] → (r.run xs).data = [] := by
      intro xs
      induction xs with
      | nil => intro r _ h; simpa [Rec.run] using h
      | cons x xs ih =>
        intro r hc hd
        have e : r.run (x :: xs) = (r.record x.1 x.2).run xs := rfl
        rw [e]
        have : r.record x.1 x.2 = { r with data := pushFront r.cap x.2 [], last := x.1, prev := x.1 } := by
          unfold Rec.record; rw [hd]
        rw [this]
        exact ih _ hc (by simp [pushFront, hc])
    exact this xs _ rfl rfl
  · have hq : 0 ≤ persistence / step := div_nonneg (by linarith) hs.le
    rintro r rfl
    refine ⟨by simp [Rec.init, Rec.new], hs, ?_, rfl, ?_, ?_⟩
    · show 1 ≤ ⌊persistence / step⌋₊
      rw [Nat.one_le_floor_iff, le_div_iff₀ hs]; linarith
    · show (⌊persistence / step⌋₊ : ℝ) * step ≤ persistence
      exact (le_div_iff₀ hs).mp (Nat.floor_le hq)
    · show persistence < ((⌊persistence / step⌋₊ : ℝ) + 1) * step
      exact (div_lt_iff₀ hs).mp (Nat.lt_floor_add_one _)

theorem foldl_add_eq (l : List T) (a : T) : l.foldl (· + ·) a = a + l.sum := by
  induction l generalizing a with
  | nil => simp
  | cons x l ih => simp [ih, add_assoc]

/-- **C21, mean.** `GetMean` times the number of stored values is their sum. -/
theorem C21_mean (r : Rec T) (h : r.data ≠ []) : (r.data.length : ℝ) • r.mean = r.data.sum := by
  have hl : 0 < r.data.length := List.length_pos_of_ne_nil h
  unfold Rec.mean
  rw [if_pos hl, smul_smul, foldl_add_eq, zero_add, mul_one_div_cancel (by positivity), one_smul]

/-! ## C22 -/

theorem lowerBound_le (d : ℝ) (l : List ℝ) : lowerBound d l ≤ l.length := by
  induction l with
  | nil => simp [lowerBound]
  | cons y l ih => simp only [lowerBound]; split_ifs <;> simp; omega

theorem lowerBound_spec (d : ℝ) (l : List ℝ) (hl : l.Pairwise (· ≤ ·)) (i : ℕ) (hi : i + 1 < l.length)
    (h1 : l[i] < d) (h2 : d ≤ l[i + 1]) : lowerBound d l = i + 1 := by
  induction l generalizing i with
  | nil => simp at hi
  | cons y l ih =>
    have hyl := List.pairwise_cons.mp hl
    cases i with
    | zero =>
      simp only [List.getElem_cons_zero, List.getElem_cons_succ, Nat.zero_add] at h1 h2
      simp only [lowerBound, if_pos h1]
      cases l with
      | nil => simp at hi
      | cons z l =>
        simp only [List.getElem_cons_zero] at h2
        simp [lowerBound, not_lt.mpr h2]
    | succ i =>
      simp only [List.getElem_cons_succ] at h1 h2
      have hlen : i + 1 < l.length := by simpa using hi
      have hy : y < d := lt_of_le_of_lt (hyl.1 _ (List.getElem_mem _)) h1
      simp only [lowerBound, if_pos hy]
      rw [ih hyl.2 i hlen h1 h2]

/-- The delays are sorted when the last delay `delta` and the step are nonnegative. -/
theorem getTime_sorted (r : Rec T) (hs : 0 ≤ r.step) (hd : 0 ≤ r.delta) : r.getTime.Pairwise (· ≤ ·) := by
  unfold Rec.getTime
  split_ifs
  · rw [List.pairwise_cons, List.pairwise_cons]
    refine ⟨?_, ?_, ?_⟩
    · intro a ha
      simp only [List.mem_cons, List.mem_map, List.mem_range] at ha
      rcases ha with rfl | ⟨i, -, rfl⟩
      · exact hd
      · positivity
    · intro a ha
      simp only [List.mem_map, List.mem_range] at ha
      obtain ⟨i, -, rfl⟩ := ha
      have : (0:ℝ) ≤ ((i + 1 : ℕ) : ℝ) * r.step := by positivity
      linarith
    · rw [List.pairwise_map]
      apply List.Pairwise.imp _ List.pairwise_lt_range
      intro a b hab
      have : ((a + 1 : ℕ) : ℝ) ≤ ((b + 1 : ℕ) : ℝ) := by exact_mod_cast Nat.succ_le_succ hab.le
      nlinarith
  · simp

/-- **C22.** In any recorder state with sorted delays and one delay per value, a read at a delay `d` between two successive
distinct delays (right end included) is the linear interpolation of the two stored values, in particular a convex
combination of them, and exactly the stored value at the right end. -/
theorem C22_interpolated_read (r : Rec T) (hs : 0 ≤ r.step) (hd : 0 ≤ r.delta) (hlen : r.getTime.length = r.data.length)
    (i : ℕ) (hi : i + 1 < r.data.length) (d : ℝ) (h1 : r.getTime[i]'(by omega) < d)
    (h2 : d ≤ r.getTime[i + 1]'(by omega)) :
    r.getData d = some (line (r.getTime[i]'(by omega), r.data[i]) (r.getTime[i + 1]'(by omega), r.data[i + 1]) d) ∧
    (d = r.getTime[i + 1]'(by omega) → r.getData d = some r.data[i + 1]) ∧
    ∃ c : ℝ, 0 ≤ c ∧ c ≤ 1 ∧ r.getData d = some ((1 - c) • r.data[i] + c • r.data[i + 1]) := by
  have hlt : r.getTime[i]'(by omega) < r.getTime[i + 1]'(by omega) := lt_of_lt_of_le h1 h2
  have hne : r.getTime[i + 1]'(by omega) - r.getTime[i]'(by omega) ≠ 0 := (sub_pos.mpr hlt).ne'
  have hb := lowerBound_spec d r.getTime (getTime_sorted r hs hd) i (by omega) h1 h2
  have hval : r.getData d = some (((r.getTime[i + 1]'(by omega) - d) / (r.getTime[i + 1]'(by omega) - r.getTime[i]'(by omega))) • r.data[i] +
      ((d - r.getTime[i]'(by omega)) / (r.getTime[i + 1]'(by omega) - r.getTime[i]'(by omega))) • r.data[i + 1]) := by
    unfold Rec.getData
    simp only [hb]
    rw [List.getElem?_eq_getElem (show i < r.getTime.length by omega), List.getElem?_eq_getElem (show i + 1 < r.getTime.length by omega),
      List.getElem?_eq_getElem (show i < r.data.length by omega), List.getElem?_eq_getElem (show i + 1 < r.data.length by omega)]
    simp only [if_neg hne]
  generalize r.getTime[i]'(by omega) = t0 at *
  generalize r.getTime[i + 1]'(by omega) = t1 at *
  generalize r.data[i] = x0 at *
  generalize r.data[i + 1] = x1 at *
  have hc : (t1 - d) / (t1 - t0) = 1 - (d - t0) / (t1 - t0) := by field_simp; ring
  have hpos : 0 < t1 - t0 := sub_pos.mpr hlt
  refine ⟨?_, ?_, (d - t0) / (t1 - t0), ?_, ?_, ?_⟩
  · rw [hval, hc]
    unfold line
    simp only
    congr 1
    module
  · intro hd1
    rw [hval, hd1, div_self hne]; simp
  · exact div_nonneg (by linarith) hpos.le
  · rw [div_le_one hpos]; linarith
  · rw [hval, hc]

/-- **C22, end to end.** After recording any paced sequence of samples, a read at a delay `d` between the delays of two
successive stored values is the linear interpolation between the recorded signal (its piecewise-linear interpolant) at these
two delays. -/
theorem C22_after_recording (r : Rec T) (h0 : r.data = []) (hs : 0 < r.step) (hc : 1 ≤ r.cap) (x : ℝ × T)
    (xs : List (ℝ × T)) (hp : Paced r.step x.1 xs) (i : ℕ) (d t0 t1 : ℝ) :
    let sig := signal [] (x :: xs)
    let r' := r.run (x :: xs)
    r'.getTime[i]? = some t0 → r'.getTime[i + 1]? = some t1 → t0 < d → d ≤ t1 →
    r'.getData d = some (line (t0, interp sig (r'.last - t0)) (t1, interp sig (r'.last - t1)) d) := by
  intro sig r' ht0 ht1 hd0 hd1
  obtain ⟨hlen, hval⟩ := C21_delays r h0 hs hc x xs hp
  obtain ⟨e1, e2, n, h⟩ := Inv.of_run r h0 hs hc x xs hp
  obtain ⟨l0, g0⟩ := List.getElem?_eq_some_iff.mp ht0
  obtain ⟨l1, g1⟩ := List.getElem?_eq_some_iff.mp ht1
  have hl1 : i + 1 < r'.data.length := by rw [← hlen]; exact l1
  have hde : 0 ≤ r'.delta := by rw [h.delta (by show 1 < r'.data.length; omega)]; linarith [h.lo]
  have := (C22_interpolated_read r' (by show 0 ≤ (r.run (x :: xs)).step; rw [e1]; exact hs.le) hde hlen i hl1 d (by rw [g0]; exact hd0) (by rw [g1]; exact hd1)).1
  rw [this, g0, g1, hval i (by show i < r'.data.length; omega) l0, hval (i + 1) hl1 l1]
  rw [g0, g1]

theorem lowerBound_props (d : ℝ) (l : List ℝ) :
    (∀ j (h : j < l.length), j < lowerBound d l → l[j] < d) ∧
    (∀ h : lowerBound d l < l.length, d ≤ l[lowerBound d l]) := by
  induction l with
  | nil => exact ⟨fun j h => by simp at h, fun h => by simp at h⟩
  | cons y l ih =>
    by_cases hy : y < d
    · have e : lowerBound d (y :: l) = lowerBound d l + 1 := by simp [lowerBound, hy]
      constructor
      · intro j h hj
        cases j with
        | zero => exact hy
        | succ j => exact ih.1 j (by simpa using h) (by omega)
      · intro h
        have h' : lowerBound d l < l.length := by rw [e] at h; simpa using h
        have := ih.2 h'
        simp only [e, List.getElem_cons_succ]; exact this
    · have e : lowerBound d (y :: l) = 0 := by simp [lowerBound, hy]
      constructor
      · intro j h hj; omega
      · intro h; simp only [e, List.getElem_cons_zero]; exact not_lt.mp hy

/-- **C22, every delay in the window.** For every positive delay not exceeding the oldest stored one, the read is defined and
interpolates two neighbouring stored values. -/
theorem C22_window (r : Rec T) (hs : 0 ≤ r.step) (hd : 0 ≤ r.delta) (hlen : r.getTime.length = r.data.length) (d : ℝ)
    (h0 : 0 < d) (h1 : ∃ t ∈ r.getTime, d ≤ t) :
    ∃ i t0 t1 x0 x1, r.getTime[i]? = some t0 ∧ r.getTime[i + 1]? = some t1 ∧ r.data[i]? = some x0 ∧ r.data[i + 1]? = some x1 ∧
      t0 < d ∧ d ≤ t1 ∧ r.getData d = some (line (t0, x0) (t1, x1) d) := by
  obtain ⟨pl, pu⟩ := lowerBound_props d r.getTime
  obtain ⟨t, ht, hdt⟩ := h1
  obtain ⟨j, hj, rfl⟩ := List.mem_iff_getElem.mp ht
  have hlt : lowerBound d r.getTime < r.getTime.length := by
    by_contra hcon
    have := pl j hj (by omega)
    linarith
  have hz : ∃ l, r.getTime = 0 :: l := by unfold Rec.getTime; split_ifs <;> exact ⟨_, rfl⟩
  obtain ⟨l, hl⟩ := hz
  have hb : lowerBound d r.getTime ≠ 0 := by rw [hl]; simp [lowerBound, h0]
  obtain ⟨i, hi⟩ : ∃ i, lowerBound d r.getTime = i + 1 := ⟨lowerBound d r.getTime - 1, by omega⟩
  have hi1 : i + 1 < r.getTime.length := by rw [← hi]; exact hlt
  have hl0 := pl i (by omega) (by omega)
  have hu0 : d ≤ r.getTime[i + 1] := by have := pu hlt; simp only [hi] at this; exact this
  refine ⟨i, _, _, _, _, List.getElem?_eq_getElem (by omega), List.getElem?_eq_getElem hi1,
    List.getElem?_eq_getElem (by omega), List.getElem?_eq_getElem (by omega), hl0, hu0, ?_⟩
  exact (C22_interpolated_read r hs hd hlen i (by omega) d hl0 hu0).1

/-- A read at the newest value itself (delay 0) or beyond the oldest one is undefined behaviour (index out of range). -/
theorem C22_out_of_range (r : Rec T) (d : ℝ) :
    (d ≤ 0 → r.getData d = none) ∧ ((∀ t ∈ r.getTime, t < d) → r.getData d = none) := by
  constructor
  · intro h
    have hb : lowerBound d r.getTime = 0 := by
      unfold Rec.getTime
      split_ifs <;> simp [lowerBound, not_lt.mpr h]
    unfold Rec.getData
    simp only [hb]
  · intro h
    have hb : ∀ l : List ℝ, (∀ t ∈ l, t < d) → lowerBound d l = l.length := by
      intro l hl
      induction l with
      | nil => rfl
      | cons y l ih =>
        simp only [lowerBound, if_pos (hl y (by simp)), List.length_cons]
        rw [ih (fun t ht => hl t (by simp [ht]))]
    unfold Rec.getData
    simp only [hb _ h]
    have hpos : 0 < r.getTime.length := by unfold Rec.getTime; split_ifs <;> simp
    obtain ⟨m, hm⟩ : ∃ m, r.getTime.length = m + 1 := ⟨r.getTime.length - 1, by omega⟩
    simp only [hm]
    have : r.getTime[m + 1]? = none := by rw [List.getElem?_eq_none_iff]; omega
    rw [this]
    split
    · rename_i h _ _; simp at h
    · rfl

/-- Non-vacuity: three records, two grid steps. -/
example : Paced (T := ℝ) 1 0 [(0.5, 1), (1.25, 2), (2, 3)] := by
  refine ⟨?_, ?_, ?_, ?_, ?_, ?_, trivial⟩ <;> norm_num

end Frydom.Recorder
