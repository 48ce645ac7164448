import Verif.Cable.CatenaryLength
import Mathlib.Tactic.LinearCombination

/-!
# Drawing a catenary line (C138, C139)

Model of `src/frydom/asset/FrCatenaryLineAsset.cpp` and `.h`: the largest tension used as the top of the colour scale, and the segments that are drawn.

Simplifications: real numbers for `double` (the abscissas are accumulated with `s1 += ds` in the code, and so they are here, but without rounding); the colours, the Chrono
shapes and their index in the Chrono asset are left out.
-/

noncomputable section

namespace Frydom.Cable
open Frydom.Geom Frydom.Core

namespace Line

/-- The loop of `InitMaxTension` and `InitRangeTensionColor` (FrCatenaryLineAsset.cpp:26-34, 161-167): 1.25 times the largest of the tensions at the abscissas
`i * ds`, `i < n`. The end of the line is not one of them. -/
def sampledMax (l : Line) (n : ℕ) : ℝ :=
  (List.range (n - 1)).foldl
    (fun max i =>
      let loc := V3.norm (l.tension (((i + 1 : ℕ) : ℝ) * (l.len / n)) .NWU)
      if loc > max then loc else max)
    (V3.norm (l.tension 0 .NWU))

/-- `InitMaxTension` (FrCatenaryLineAsset.cpp:24-37): the value set by the user, if it is not zero. -/
def initMaxTension (l : Line) (n : ℕ) (user : ℝ) : ℝ := if user = 0 then 1.25 * l.sampledMax n else user

/-- `InitRangeTensionColor` (FrCatenaryLineAsset.cpp:156-170), after `InitMaxTension` gave `max`. -/
def colorRange (l : Line) (n : ℕ) (max : ℝ) : ℝ := if max > 0 then max else 1.25 * l.sampledMax n

end Line

/-- The `while` loop of `FrCatenaryLineAsset::Initialize` (FrCatenaryLineAsset.cpp:92-110): the pairs of abscissas pushed in `m_elements` (in reverse order), and the last `s0`.
`none` if the loop never ends (a step that is not positive). -/
def segLoop (L ds : ℝ) (s0 s1 : ℝ) (acc : List (ℝ × ℝ)) : Option (List (ℝ × ℝ) × ℝ) :=
  if _h : 0 < ds then
    if _h' : s1 ≤ L - ds then segLoop L ds s1 (s1 + ds) ((s0, s1) :: acc) else some (acc, s0)
  else if s1 ≤ L - ds then none else some (acc, s0)
termination_by ⌊(L - s1) / ds⌋₊
decreasing_by
  have e : (L - (s1 + ds)) / ds = (L - s1) / ds - 1 := by
    have := _h.ne'
    field_simp
    ring
  have h1 : 1 ≤ (L - s1) / ds := by
    rw [le_div_iff₀ _h]
    linarith
  rw [e, Nat.floor_sub_one]
  have : 1 ≤ ⌊(L - s1) / ds⌋₊ := Nat.le_floor (by exact_mod_cast h1)
  omega

/-- `FrCatenaryLineAsset::Initialize` (FrCatenaryLineAsset.cpp:74-125): the abscissas `m_elements` of the segments. `m_elements.back()` of an empty vector is undefined
behaviour: `none`. -/
def segments (L : ℝ) (n : ℕ) : Option (List (ℝ × ℝ)) :=
  match segLoop L (L / n) 0 (L / n) [] with
  | none => none
  | some (acc, s0) =>
    match acc with
    | [] => none
    | last :: rest => if last.2 < L then some ((last :: rest).reverse ++ [(s0, L)]) else some (last :: rest).reverse

/-- The shapes drawn at `StepFinalize` (FrCatenaryLineAsset.cpp:128-154): each segment goes from the end of the previous one (the starting point of the line for the first) to the point
of its second abscissa, on the line as it is now. -/
def draw (l : Line) : V3 → List (ℝ × ℝ) → List (V3 × V3)
  | _, [] => []
  | p0, e :: es => (p0, l.position e.2 .NWU) :: draw l (l.position e.2 .NWU) es

/-- `StepFinalize` (FrCatenaryLineAsset.cpp:128-154). -/
def stepFinalize (l : Line) (es : List (ℝ × ℝ)) : List (V3 × V3) := draw l (l.position 0 .NWU) es

/-! ## The colour scale (C138) -/

theorem foldl_max (f : ℕ → ℝ) (a : ℝ) (n : ℕ) :
    let m := (List.range n).foldl (fun max i => if f i > max then f i else max) a
    a ≤ m ∧ (∀ i < n, f i ≤ m) ∧ (m = a ∨ ∃ i < n, m = f i) := by
  induction n with
  | zero => exact ⟨le_refl _, fun i h => absurd h (Nat.not_lt_zero i), Or.inl rfl⟩
  | succ n ih =>
    simp only [List.range_succ, List.foldl_append, List.foldl_cons, List.foldl_nil]
    simp only [] at ih
    generalize (List.range n).foldl (fun max i => if f i > max then f i else max) a = m at ih ⊢
    obtain ⟨h1, h2, h3⟩ := ih
    by_cases hc : f n > m
    · rw [if_pos hc]
      refine ⟨by linarith, fun i hi => ?_, Or.inr ⟨n, by omega, rfl⟩⟩
      rcases Nat.lt_succ_iff_lt_or_eq.1 hi with h | h
      · have := h2 i h
        linarith
      · rw [h]
    · rw [if_neg hc]
      refine ⟨h1, fun i hi => ?_, ?_⟩
      · rcases Nat.lt_succ_iff_lt_or_eq.1 hi with h | h
        · exact h2 i h
        · rw [h]
          exact not_lt.1 hc
      · rcases h3 with h | ⟨i, hi, h⟩
        · exact Or.inl h
        · exact Or.inr ⟨i, by omega, h⟩

theorem tension_sub {l : Line} (h : Loaded l) (a b : ℝ) : l.tension b .NWU = l.tension a .NWU + ⟨0, 0, l.q * (b - a)⟩ := by
  rw [tension_eq h, tension_eq h]
  ext <;> simp
  ring

theorem norm_vertical (z : ℝ) : V3.norm ⟨0, 0, z⟩ = |z| := by
  unfold V3.norm V3.dot
  simp [Real.sqrt_mul_self_eq_abs]

theorem norm_tension_step {l : Line} (h : Loaded l) (a b : ℝ) : V3.norm (l.tension b .NWU) ≤ V3.norm (l.tension a .NWU) + |l.q * (b - a)| := by
  rw [tension_sub h a b, ← norm_vertical]
  exact norm_add_le _ _

/-- The tension along a line is the largest at one of its ends. -/
theorem norm_tension_le_ends {l : Line} (h : Loaded l) {s L : ℝ} (h0 : 0 ≤ s) (hs : s ≤ L) :
    V3.norm (l.tension s .NWU) ≤ max (V3.norm (l.tension 0 .NWU)) (V3.norm (l.tension L .NWU)) := by
  rcases eq_or_lt_of_le (h0.trans hs) with hL | hL
  · have : s = 0 := by linarith
    rw [this]
    exact le_max_left _ _
  · have e : l.tension s .NWU = ((L - s) / L) • l.tension 0 .NWU + (s / L) • l.tension L .NWU := by
      rw [tension_eq h, tension_eq h, tension_eq h]
      have := hL.ne'
      ext <;> simp <;> field_simp <;> ring
    have hn : ∀ (c : ℝ) (v : V3), 0 ≤ c → V3.norm (c • v) = c * V3.norm v := by
      intro c v hc
      unfold V3.norm
      have : V3.dot (c • v) (c • v) = c * c * V3.dot v v := by
        simp [V3.dot]
        ring
      rw [this, Real.sqrt_mul (mul_nonneg hc hc), Real.sqrt_mul_self hc]
    rw [e]
    refine (norm_add_le _ _).trans ?_
    have c1 : 0 ≤ (L - s) / L := div_nonneg (by linarith) hL.le
    have c2 : 0 ≤ s / L := div_nonneg h0 hL.le
    rw [hn _ _ c1, hn _ _ c2]
    have m1 := mul_le_mul_of_nonneg_left (le_max_left (V3.norm (l.tension 0 .NWU)) (V3.norm (l.tension L .NWU))) c1
    have m2 := mul_le_mul_of_nonneg_left (le_max_right (V3.norm (l.tension 0 .NWU)) (V3.norm (l.tension L .NWU))) c2
    have e2 : (L - s) / L + s / L = 1 := by
      have := hL.ne'
      field_simp
      ring
    calc _ ≤ ((L - s) / L + s / L) * max (V3.norm (l.tension 0 .NWU)) (V3.norm (l.tension L .NWU)) := by
          rw [add_mul]
          exact add_le_add m1 m2
      _ = _ := by rw [e2, one_mul]

theorem sampled_spec (l : Line) (n : ℕ) :
    V3.norm (l.tension 0 .NWU) ≤ l.sampledMax n ∧ (∀ i : ℕ, i < n → V3.norm (l.tension (i * (l.len / n)) .NWU) ≤ l.sampledMax n) ∧
    ∃ i : ℕ, i < max n 1 ∧ l.sampledMax n = V3.norm (l.tension (i * (l.len / n)) .NWU) := by
  obtain ⟨h1, h2, h3⟩ := foldl_max (fun i => V3.norm (l.tension (((i + 1 : ℕ) : ℝ) * (l.len / n)) .NWU)) (V3.norm (l.tension 0 .NWU)) (n - 1)
  have e0 : l.tension (((0 : ℕ) : ℝ) * (l.len / n)) .NWU = l.tension 0 .NWU := by rw [Nat.cast_zero, zero_mul]
  refine ⟨h1, fun i hi => ?_, ?_⟩
  · rcases Nat.eq_zero_or_pos i with h | h
    · subst h
      rw [e0]
      exact h1
    · have := h2 (i - 1) (by omega)
      have e : i - 1 + 1 = i := by omega
      simp only [e] at this
      exact this
  · rcases h3 with h | ⟨i, hi, h⟩
    · exact ⟨0, by omega, by rw [e0]; exact h⟩
    · exact ⟨i + 1, by omega, h⟩

/-- **C138, a useless scale is replaced.** With no scale or a negative one given by the user, the colours range up to the automatic scale, which is not negative; a positive scale is kept. -/
theorem C138_user_scale (l : Line) (n : ℕ) (user : ℝ) :
    (user ≤ 0 → l.colorRange n (l.initMaxTension n user) = l.initMaxTension n 0) ∧ 0 ≤ l.initMaxTension n 0 ∧
    (0 < user → l.colorRange n (l.initMaxTension n user) = user) := by
  have e : ∀ u : ℝ, l.initMaxTension n u = if u = 0 then 1.25 * l.sampledMax n else u := fun _ => rfl
  have c : ∀ m : ℝ, l.colorRange n m = if m > 0 then m else 1.25 * l.sampledMax n := fun _ => rfl
  refine ⟨fun h => ?_, ?_, fun h => ?_⟩
  · rw [c, e, e 0, if_pos rfl]
    by_cases h0 : user = 0
    · rw [if_pos h0]
      split <;> rfl
    · rw [if_neg h0, if_neg (not_lt.mpr h)]
  · rw [e, if_pos rfl]
    obtain ⟨h1, -⟩ := sampled_spec l n
    have := (V3.norm_nonneg _).trans h1
    positivity
  · rw [c, e, if_neg h.ne', if_pos h]

/-- **C138, the scale covers the line.** With at least nine drawn elements (forty by default) and no scale set by the user, the top of the colour scale is at least the tension at every point
of the line, the end included although it is not sampled, and at most 1.25 times the largest tension. -/
theorem C138_scale (l : Line) (h : Loaded l) (hL : 0 ≤ l.len) (n : ℕ) (hn : 9 ≤ n) :
    (∀ s, 0 ≤ s → s ≤ l.len → V3.norm (l.tension s .NWU) ≤ l.initMaxTension n 0) ∧
    (∃ s, 0 ≤ s ∧ s ≤ l.len ∧ l.initMaxTension n 0 = 1.25 * V3.norm (l.tension s .NWU)) ∧
    (l.initMaxTension n 0 > 0 → l.colorRange n (l.initMaxTension n 0) = l.initMaxTension n 0) := by
  have hm : l.initMaxTension n 0 = 1.25 * l.sampledMax n := if_pos rfl
  obtain ⟨h1, h2, i, hi, h3⟩ := sampled_spec l n
  have hn0 : (9 : ℝ) ≤ n := by exact_mod_cast hn
  refine ⟨fun s h0 hs => ?_, ⟨i * (l.len / n), by positivity, ?_, by rw [hm, h3]⟩, fun hp => if_pos hp⟩
  · rw [hm]
    have hS : 0 ≤ l.sampledMax n := (V3.norm_nonneg _).trans h1
    refine (norm_tension_le_ends h h0 hs).trans (max_le (by linarith) ?_)
    have hlast := h2 (n - 1) (by omega)
    have en : ((n - 1 : ℕ) : ℝ) = n - 1 := by
      rw [Nat.cast_sub (by omega)]
      simp
    have hstep := norm_tension_step h (((n - 1 : ℕ) : ℝ) * (l.len / n)) l.len
    have e1 : l.q * (l.len - ((n - 1 : ℕ) : ℝ) * (l.len / n)) = l.q * l.len / n := by
      rw [en]
      field_simp
      ring
    rw [e1] at hstep
    have hw : |l.q * l.len| ≤ V3.norm (l.tension 0 .NWU) + V3.norm (l.tension l.len .NWU) := by
      have e : (⟨0, 0, l.q * l.len⟩ : V3) = l.tension l.len .NWU + -(l.tension 0 .NWU) := by
        rw [tension_eq h, tension_eq h]
        ext <;> simp
      rw [← norm_vertical, e]
      refine (norm_add_le _ _).trans ?_
      rw [norm_neg]
      linarith
    have e2 : |l.q * l.len / n| = |l.q * l.len| / n := by rw [abs_div, abs_of_nonneg (by linarith : (0 : ℝ) ≤ n)]
    rw [e2] at hstep
    have h5 : |l.q * l.len| / n ≤ (l.sampledMax n + V3.norm (l.tension l.len .NWU)) / 9 := by
      refine div_le_div₀ (add_nonneg hS (V3.norm_nonneg _)) (by linarith) (by norm_num) hn0
    linarith
  · have hi' : (i : ℝ) ≤ n := by
      have : i ≤ n := by omega
      exact_mod_cast this
    have : (i : ℝ) * (l.len / n) ≤ n * (l.len / n) := mul_le_mul_of_nonneg_right hi' (by positivity)
    have e : (n : ℝ) * (l.len / n) = l.len := by field_simp
    linarith

/-- **C138, few elements.** With eight elements or fewer (two at least) the scale may be exceeded: on a vertical line, the tension at the end is over it. -/
theorem C138_few (n : ℕ) (h2 : 2 ≤ n) (h8 : n ≤ 8) (props : CableProps) (a b : Node) :
    ∃ l : Line, Loaded l ∧ l.len = 1 ∧ l.q = 1 ∧ l.initMaxTension n 0 < V3.norm (l.tension l.len .NWU) := by
  have hn2 : (2 : ℝ) ≤ n := by exact_mod_cast h2
  have hn8 : (n : ℝ) ≤ 8 := by exact_mod_cast h8
  refine ⟨{ ({ props := props, winch := Winch.new 1, start := a, stop := b, q := 1, qvec := u, umat := ⟨1 - u.x * u.x, 0 - u.x * u.y, 0 - u.x * u.z, 0 - u.y * u.x, 1 - u.y * u.y, 0 - u.y * u.z, 0 - u.z * u.x, 0 - u.z * u.y, 1 - u.z * u.z⟩ } : Line) with t0 := ⟨0, 0, -((1 - 1 / n) / 2)⟩ }, ?_, rfl, rfl, ?_⟩
  · constructor
    · ext <;> simp [u]
    · ext <;> simp [u]
  · generalize hl : ({ ({ props := props, winch := Winch.new 1, start := a, stop := b, q := 1, qvec := u, umat := ⟨1 - u.x * u.x, 0 - u.x * u.y, 0 - u.x * u.z, 0 - u.y * u.x, 1 - u.y * u.y, 0 - u.y * u.z, 0 - u.z * u.x, 0 - u.z * u.y, 1 - u.z * u.z⟩ } : Line) with t0 := ⟨0, 0, -((1 - 1 / n) / 2)⟩ } : Line) = l
    have hLo : Loaded l := by
      rw [← hl]
      constructor
      · ext <;> simp [u]
      · ext <;> simp [u]
    have ht : ∀ s, V3.norm (l.tension s .NWU) = |s - (1 - 1 / n) / 2| := by
      intro s
      rw [tension_eq hLo, ← hl]
      have : V3.norm ⟨0, 0, -((1 - 1 / (n : ℝ)) / 2) + 1 * s⟩ = |s - (1 - 1 / (n : ℝ)) / 2| := by
        rw [norm_vertical]
        congr 1
        ring
      exact this
    have hlen : l.len = 1 := by rw [← hl]; rfl
    have hm : l.initMaxTension n 0 = 1.25 * l.sampledMax n := if_pos rfl
    obtain ⟨_, _, i, hi, h3⟩ := sampled_spec l n
    have hi1 : (i : ℝ) ≤ n - 1 := by
      have h4 : i + 1 ≤ n := by omega
      have h5 : ((i + 1 : ℕ) : ℝ) ≤ n := by exact_mod_cast h4
      push_cast at h5
      linarith
    have hpos : (0 : ℝ) < n := by linarith
    have hinv : 1 / 8 ≤ 1 / (n : ℝ) := one_div_le_one_div_of_le hpos hn8
    have hinv2 : 1 / (n : ℝ) ≤ 1 / 2 := one_div_le_one_div_of_le (by norm_num) hn2
    rw [hm, h3, ht, ht, hlen]
    have hb : (i : ℝ) * (1 / n) ≤ 1 - 1 / n := by
      have := mul_le_mul_of_nonneg_right hi1 (by positivity : (0 : ℝ) ≤ 1 / n)
      have e : ((n : ℝ) - 1) * (1 / n) = 1 - 1 / n := by field_simp
      linarith
    have hb0 : 0 ≤ (i : ℝ) * (1 / n) := by positivity
    have h6 : |(i : ℝ) * (1 / n) - (1 - 1 / n) / 2| ≤ (1 - 1 / n) / 2 := by
      rw [abs_le]
      constructor <;> linarith
    have h7 : |1 - (1 - 1 / (n : ℝ)) / 2| = (1 + 1 / n) / 2 := by
      rw [abs_of_nonneg (by linarith)]
      ring
    rw [h7, show (1.25 : ℝ) = 5 / 4 by norm_num]
    linarith

/-! ## The segments (C139) -/

theorem segLoop_spec (L ds : ℝ) (hds : 0 < ds) (n : ℕ) (hL : L = n * ds) (k : ℕ) (hk : 1 ≤ k) (hkn : k ≤ n) (acc : List (ℝ × ℝ)) :
    segLoop L ds ((k - 1 : ℕ) * ds) (k * ds) acc =
      some (((List.range (n - k)).map fun i => (((k + i - 1 : ℕ) : ℝ) * ds, ((k + i : ℕ) : ℝ) * ds)).reverse ++ acc, ((n - 1 : ℕ) : ℝ) * ds) := by
  obtain ⟨m, hm⟩ : ∃ m, n - k = m := ⟨_, rfl⟩
  induction m generalizing k acc with
  | zero =>
    have hkn' : k = n := by omega
    subst hkn'
    rw [segLoop, dif_pos hds, dif_neg]
    · rw [hm]
      simp
    · rw [hL]
      linarith
  | succ m ih =>
    rw [segLoop, dif_pos hds, dif_pos]
    · have e1 : ((k : ℕ) : ℝ) * ds = ((k + 1 - 1 : ℕ) : ℝ) * ds := by rw [Nat.add_sub_cancel]
      have e2 : (k : ℝ) * ds + ds = ((k + 1 : ℕ) : ℝ) * ds := by
        push_cast
        ring
      have := ih (k + 1) (by omega) (by omega) ((((k - 1 : ℕ) : ℝ) * ds, (k : ℝ) * ds) :: acc) (by omega)
      rw [← e1, ← e2] at this
      rw [this]
      congr 2
      have e3 : n - k = n - (k + 1) + 1 := by omega
      rw [e3, List.range_succ_eq_map, List.map_cons, List.reverse_cons, List.append_assoc]
      congr 2
      rw [List.map_map]
      refine List.map_congr_left fun i _ => ?_
      have e4 : k + 1 + i - 1 = k + (i + 1) - 1 := by omega
      have e5 : k + 1 + i = k + (i + 1) := by omega
      simp only [Function.comp, Nat.succ_eq_add_one, e4, e5]
    · have h1 : k + 1 ≤ n := by omega
      have h2 : ((k + 1 : ℕ) : ℝ) ≤ n := by exact_mod_cast h1
      have h3 := mul_le_mul_of_nonneg_right h2 hds.le
      push_cast at h3
      rw [hL]
      linarith

theorem segments_eq (L : ℝ) (hL : 0 < L) (n : ℕ) (hn : 2 ≤ n) :
    segments L n = some ((List.range n).map fun (i : ℕ) => ((i : ℝ) * (L / n), ((i + 1 : ℕ) : ℝ) * (L / n))) := by
  have hpos : (0 : ℝ) < n := by exact_mod_cast (by omega : 0 < n)
  have hds : 0 < L / n := div_pos hL hpos
  have hLe : L = n * (L / n) := by field_simp
  have h := segLoop_spec L (L / n) hds n hLe 1 (le_refl _) (by omega) []
  have e0 : (((1 - 1 : ℕ) : ℝ)) * (L / n) = 0 := by simp
  have e1 : ((1 : ℕ) : ℝ) * (L / n) = L / n := by simp
  rw [e0, e1, List.append_nil] at h
  unfold segments
  rw [h]
  obtain ⟨m, rfl⟩ : ∃ m, n = m + 2 := ⟨n - 2, by omega⟩
  have e2 : m + 2 - 1 = m + 1 := by omega
  rw [e2, List.range_succ, List.map_append, List.map_cons, List.map_nil, List.reverse_append, List.reverse_cons, List.reverse_nil, List.nil_append, List.cons_append, List.nil_append]
  simp only []
  rw [if_pos]
  · congr 1
    rw [List.reverse_cons, List.reverse_reverse, List.range_succ (n := m + 1), List.map_append, List.range_succ, List.map_append, List.map_cons, List.map_nil, List.map_cons, List.map_nil]
    congr 1
    · congr 1
      · refine List.map_congr_left fun i _ => ?_
        have e3 : 1 + i - 1 = i := by omega
        have e4 : 1 + i = i + 1 := by omega
        rw [e3, e4]
      · have e3 : 1 + m - 1 = m := by omega
        have e4 : 1 + m = m + 1 := by omega
        rw [e3, e4]
    · congr 2
  · have e3 : L = ((m + 2 : ℕ) : ℝ) * (L / (m + 2 : ℕ)) := hLe
    push_cast at e3 hds ⊢
    have : (1 + (m : ℝ)) * (L / (m + 2)) < (m + 2) * (L / (m + 2)) := mul_lt_mul_of_pos_right (by linarith) hds
    linarith

/-- Specification: `es` cuts `[0, L]` in `n` abutting pieces of the same length. -/
structure Cuts (es : List (ℝ × ℝ)) (L : ℝ) (n : ℕ) : Prop where
  count : es.length = n
  first : ∀ e, es[0]? = some e → e.1 = 0
  next : ∀ (i : ℕ) (e e' : ℝ × ℝ), es[i]? = some e → es[i + 1]? = some e' → e'.1 = e.2
  last : ∀ e, es[n - 1]? = some e → e.2 = L
  equal : ∀ e ∈ es, e.2 - e.1 = L / n

/-- **C139, the segments.** With two elements or more, the segments drawn cut the line in that number of equal pieces, from its start to its end. -/
theorem C139_segments (L : ℝ) (hL : 0 < L) (n : ℕ) (hn : 2 ≤ n) : ∃ es, segments L n = some es ∧ Cuts es L n := by
  have hpos : (n : ℝ) ≠ 0 := by
    have : n ≠ 0 := by omega
    exact_mod_cast this
  refine ⟨_, segments_eq L hL n hn, ?_⟩
  have hget : ∀ (i : ℕ) (e : ℝ × ℝ), ((List.range n).map fun (i : ℕ) => ((i : ℝ) * (L / n), ((i + 1 : ℕ) : ℝ) * (L / n)))[i]? = some e →
      e = ((i : ℝ) * (L / n), ((i + 1 : ℕ) : ℝ) * (L / n)) := by
    intro i e he
    rw [List.getElem?_map] at he
    obtain ⟨j, hj, rfl⟩ := Option.map_eq_some_iff.1 he
    obtain ⟨_, rfl⟩ := List.getElem?_eq_some_iff.1 hj
    simp
  constructor
  · simp
  · intro e he
    rw [hget _ _ he]
    simp
  · intro i e e' h1 h2
    rw [hget _ _ h1, hget _ _ h2]
  · intro e he
    rw [hget _ _ he]
    have : n - 1 + 1 = n := by omega
    simp only [this]
    field_simp
  · intro e he
    obtain ⟨i, hi, rfl⟩ := List.mem_map.1 he
    push_cast
    ring

/-- **C139, one element.** With a single element, the initialization reads the last element of an empty vector. -/
theorem C139_single (L : ℝ) (hL : 0 < L) : segments L 1 = none := by
  have h : segLoop L (L / (1 : ℕ)) 0 (L / (1 : ℕ)) [] = some ([], 0) := by
    rw [Nat.cast_one, div_one, segLoop, dif_pos hL, dif_neg]
    linarith
  unfold segments
  rw [h]

/-- The polyline drawn: consecutive points joined. -/
def joined : V3 → List V3 → List (V3 × V3)
  | _, [] => []
  | p, q :: qs => (p, q) :: joined q qs

theorem draw_joined (l : Line) (p : V3) (es : List (ℝ × ℝ)) : draw l p es = joined p (es.map fun e => l.position e.2 .NWU) := by
  induction es generalizing p with
  | nil => rfl
  | cons e es ih => simp [draw, joined, ih]

/-- **C139, what is drawn.** At every step the drawing is the polyline through the starting point of the line as it is at that time, and its points of abscissas `L/n`, `2L/n`, ..., `L`, where `L` is the length
at the initialization. -/
theorem C139_drawn (l : Line) (L : ℝ) (hL : 0 < L) (n : ℕ) (hn : 2 ≤ n) :
    ∃ es, segments L n = some es ∧
      stepFinalize l es = joined (l.start.positionInWorld .NWU) ((List.range n).map fun (i : ℕ) => l.position (((i + 1 : ℕ) : ℝ) * (L / n)) .NWU) := by
  refine ⟨_, segments_eq L hL n hn, ?_⟩
  unfold stepFinalize
  rw [draw_joined, position_zero, List.map_map]
  rfl

theorem joined_last (p : V3) (qs : List V3) (q : V3) : (joined p (qs ++ [q])).getLast? = some ((qs.getLast?).getD p, q) := by
  induction qs generalizing p with
  | nil => rfl
  | cons a qs ih =>
    rw [List.cons_append, joined, List.getLast?_cons, ih]
    cases qs with
    | nil => simp
    | cons b qs => simp [List.getLast?_cons]

/-- **C139, after unrolling.** The last drawn point is the point of abscissa `L`, the length at the initialization: when the line was paid out or hauled in since (and the solver converged), the drawing stops short of
the ending node or goes past it. It is the end of the line if the length is still the same. -/
theorem C139_unrolled (l : Line) (L : ℝ) (hL : 0 < L) (n : ℕ) (hn : 2 ≤ n) :
    ∃ es p, segments L n = some es ∧ (stepFinalize l es).getLast? = some (p, l.position L .NWU) := by
  obtain ⟨es, h1, h2⟩ := C139_drawn l L hL n hn
  obtain ⟨m, rfl⟩ : ∃ m, n = m + 1 := ⟨n - 1, by omega⟩
  rw [List.range_succ, List.map_append, List.map_cons, List.map_nil] at h2
  have h3 := congrArg List.getLast? h2
  rw [joined_last] at h3
  have hpos : ((m + 1 : ℕ) : ℝ) ≠ 0 := by exact_mod_cast (by omega : m + 1 ≠ 0)
  have e : ((m + 1 : ℕ) : ℝ) * (L / ((m + 1 : ℕ) : ℝ)) = L := by field_simp
  rw [e] at h3
  exact ⟨es, _, h1, h3⟩

/-- Non-vacuity: the default number of elements on a 100 m line. -/
example : ∃ es, segments 100 40 = some es ∧ Cuts es 100 40 := C139_segments 100 (by norm_num) 40 (by norm_num)

/-- Non-vacuity of `C138_scale`: a line after the first part of its initialization. -/
example (props : CableProps) (a b : Node) (s : ℝ) (h0 : 0 ≤ s) (hs : s ≤ 100) :
    V3.norm ((((Line.new props true 100 a b).initLoad 1025 9.81).guessTension).tension s .NWU) ≤ (((Line.new props true 100 a b).initLoad 1025 9.81).guessTension).initMaxTension 40 0 := by
  have hl := initLoad_loaded (Line.new props true 100 a b) 1025 9.81
  refine (C138_scale (((Line.new props true 100 a b).initLoad 1025 9.81).guessTension) ⟨hl.1, hl.2⟩ ?_ 40 (by norm_num)).1 s h0 hs
  show (0 : ℝ) ≤ 100
  norm_num

end Frydom.Cable
