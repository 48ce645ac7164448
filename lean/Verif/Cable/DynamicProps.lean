import Verif.Cable.Dynamic

/-!
# Properties of the dynamic cables (C140 - C144)
-/

open Classical

noncomputable section

namespace Frydom.Cable
open Frydom.Geom Frydom.Core

namespace DynCable

/-! ## C140: point and tension at an abscissa -/

/-- Specification: the mesh is a chain of `n` elements between the nodes `P 0, ..., P n`. -/
structure Chain (m : FeMesh) (n : ℕ) (P : ℕ → Frame) : Prop where
  nodes : ∀ k, m.nodes[k]? = if k ≤ n then some (P k) else Option.none
  elems : ∀ k, m.elems[k]? = if k < n then some (k, k + 1) else Option.none

/-- **C140, location.** Every abscissa of the cable falls on an element that exists, at a local coordinate between -1 and 1, and it is the abscissa of that point of that element when the
elements have the same length. -/
theorem C140_location (c : DynCable) (hL : 0 < c.length) (hn : 1 ≤ c.nbElements) (s : ℝ) (h0 : 0 ≤ s) (hs : s ≤ c.length) :
    ∃ (i : ℕ) (eta : ℝ), locate c s = some ((i : ℤ), eta) ∧ i < c.nbElements ∧ -1 ≤ eta ∧ eta ≤ 1 ∧
      s = (i + (1 + eta) / 2) * (c.length / c.nbElements) := by
  have hpos : (0 : ℝ) < c.nbElements := by exact_mod_cast hn
  unfold locate
  rw [if_pos hs]
  by_cases hsL : s = c.length
  · refine ⟨c.nbElements - 1, 1, ?_, by omega, by norm_num, le_refl _, ?_⟩
    · rw [if_pos hsL, Nat.cast_sub hn]
      simp
    · rw [Nat.cast_sub hn]
      rw [hsL]
      push_cast
      field_simp
      ring
  · rw [if_neg hsL]
    have hds : 0 < c.length / c.nbElements := div_pos hL hpos
    have ha : 0 ≤ s / (c.length / c.nbElements) := div_nonneg h0 hds.le
    have hf0 : 0 ≤ ⌊s / (c.length / c.nbElements)⌋ := Int.floor_nonneg.2 ha
    have hlt : s / (c.length / c.nbElements) < c.nbElements := by
      rw [div_lt_iff₀ hds]
      have e : (c.nbElements : ℝ) * (c.length / c.nbElements) = c.length := by field_simp
      rw [e]
      exact lt_of_le_of_ne hs hsL
    have hfn : ⌊s / (c.length / c.nbElements)⌋ < (c.nbElements : ℤ) := Int.floor_lt.2 (by exact_mod_cast hlt)
    obtain ⟨i, hi⟩ := Int.eq_ofNat_of_zero_le hf0
    have h1 := Int.floor_le (s / (c.length / c.nbElements))
    have h2 := Int.lt_floor_add_one (s / (c.length / c.nbElements))
    rw [hi] at hfn h1 h2 ⊢
    refine ⟨i, _, rfl, by exact_mod_cast hfn, ?_, ?_, ?_⟩
    · linarith
    · linarith
    · push_cast
      field_simp
      ring

theorem element_chain {m : FeMesh} {n : ℕ} {P : ℕ → Frame} (h : Chain m n P) (i : ℕ) (hi : i < n) : element m i = some (P i, P (i + 1)) := by
  unfold element
  rw [if_neg (by omega), Int.toNat_natCast, h.elems, if_pos hi, Option.bind_some, h.nodes, if_pos hi.le, Option.bind_some, h.nodes, if_pos (by omega)]
  rfl

theorem element_none {m : FeMesh} {n : ℕ} {P : ℕ → Frame} (h : Chain m n P) (i : ℤ) (hi : i < 0 ∨ (n : ℤ) ≤ i) : element m i = Option.none := by
  unfold element
  by_cases h0 : i < 0
  · rw [if_pos h0]
  · rw [if_neg h0, h.elems, if_neg (by omega)]
    rfl

theorem locate_mid (c : DynCable) (hL : 0 < c.length) (hn : 1 ≤ c.nbElements) (k : ℕ) (hk : k < c.nbElements) (s : ℝ)
    (h0 : k * (c.length / c.nbElements) ≤ s) (h1 : s < ((k + 1 : ℕ) : ℝ) * (c.length / c.nbElements)) :
    locate c s = some ((k : ℤ), 2 * (s / (c.length / c.nbElements) - k) - 1) := by
  have hpos : (0 : ℝ) < c.nbElements := by exact_mod_cast hn
  have hds : 0 < c.length / c.nbElements := div_pos hL hpos
  have hk1 : ((k + 1 : ℕ) : ℝ) ≤ c.nbElements := by exact_mod_cast hk
  have hle : ((k + 1 : ℕ) : ℝ) * (c.length / c.nbElements) ≤ c.length := by
    refine (mul_le_mul_of_nonneg_right hk1 hds.le).trans (le_of_eq ?_)
    field_simp
  have hlt : s < c.length := lt_of_lt_of_le h1 hle
  have hf : ⌊s / (c.length / c.nbElements)⌋ = (k : ℤ) := by
    rw [Int.floor_eq_iff]
    constructor
    · rw [le_div_iff₀ hds]
      exact_mod_cast h0
    · rw [div_lt_iff₀ hds]
      push_cast at h1 ⊢
      exact h1
  unfold locate
  rw [if_pos hlt.le, if_neg hlt.ne, hf]
  norm_num

theorem locate_end (c : DynCable) (hn : 1 ≤ c.nbElements) : locate c c.length = some (((c.nbElements - 1 : ℕ) : ℤ), 1) := by
  unfold locate
  rw [if_pos (le_refl _), if_pos rfl, Nat.cast_sub hn]
  rfl

/-- **C140, position.** On a chain with as many elements as the cable says, the point at an abscissa of the `k`-th piece of the cable (ends included) is the point of the `k`-th element at the same
proportion: the points of abscissas `k L / n` are the nodes, and the curve has no gap at them. -/
theorem C140_position (interp : Frame → Frame → ℝ → V3) (he : ∀ a b, interp a b (-1) = a.pos ∧ interp a b 1 = b.pos)
    (c : DynCable) (hL : 0 < c.length) (hn : 1 ≤ c.nbElements) (m : FeMesh) (hm : c.mesh = some m) (P : ℕ → Frame) (hP : Chain m c.nbElements P) (fc : FC) :
    (∀ k < c.nbElements, ∀ s, k * (c.length / c.nbElements) ≤ s → s ≤ ((k + 1 : ℕ) : ℝ) * (c.length / c.nbElements) →
      positionAt interp c s fc = some (conv fc (interp (P k) (P (k + 1)) (2 * (s / (c.length / c.nbElements) - k) - 1)))) ∧
    (∀ k ≤ c.nbElements, positionAt interp c (k * (c.length / c.nbElements)) fc = some (conv fc (P k).pos)) := by
  have hpos : (0 : ℝ) < c.nbElements := by exact_mod_cast hn
  have hds : 0 < c.length / c.nbElements := div_pos hL hpos
  have hnode : ∀ k ≤ c.nbElements, positionAt interp c (k * (c.length / c.nbElements)) fc = some (conv fc (P k).pos) := by
    intro k hk
    unfold positionAt
    rcases eq_or_lt_of_le hk with h | h
    · subst h
      have e : (c.nbElements : ℝ) * (c.length / c.nbElements) = c.length := by field_simp
      rw [e, locate_end c hn, Option.bind_some, hm, Option.bind_some]
      simp only []
      rw [element_chain hP _ (by omega)]
      have e2 : c.nbElements - 1 + 1 = c.nbElements := by omega
      rw [e2, Option.map_some, (he _ _).2]
    · rw [locate_mid c hL hn k h _ (le_refl _) (mul_lt_mul_of_pos_right (by push_cast; linarith) hds), Option.bind_some, hm, Option.bind_some]
      simp only []
      rw [element_chain hP _ h, Option.map_some]
      have e : 2 * ((k : ℝ) * (c.length / c.nbElements) / (c.length / c.nbElements) - k) - 1 = -1 := by
        rw [mul_div_assoc, div_self hds.ne']
        ring
      simp only [e]
      rw [(he _ _).1]
  refine ⟨fun k hk s h0 h1 => ?_, hnode⟩
  rcases eq_or_lt_of_le h1 with h | h
  · rw [h, hnode (k + 1) hk]
    have e : 2 * (((k + 1 : ℕ) : ℝ) * (c.length / c.nbElements) / (c.length / c.nbElements) - k) - 1 = 1 := by
      rw [mul_div_assoc, div_self hds.ne']
      push_cast
      ring
    rw [e, (he _ _).2]
  · unfold positionAt
    rw [locate_mid c hL hn k hk s h0 h, Option.bind_some, hm, Option.bind_some]
    simp only []
    rw [element_chain hP _ hk]
    rfl

/-- **C140, tension.** The tension at an abscissa is along the straight line between the nodes of its element (the one after, at a node; the last one at the end), with the axial force at the
corresponding point; it has the intensity of that force, and the other convention gives the same vector. -/
theorem C140_tension (axial : Frame → Frame → ℝ → ℝ) (c : DynCable) (hL : 0 < c.length) (hn : 1 ≤ c.nbElements) (m : FeMesh) (hm : c.mesh = some m) (P : ℕ → Frame)
    (hP : Chain m c.nbElements P) (hd : ∀ k < c.nbElements, (P (k + 1)).pos ≠ (P k).pos) (k : ℕ) (hk : k < c.nbElements) (s : ℝ) (h0 : k * (c.length / c.nbElements) ≤ s)
    (h1 : s < ((k + 1 : ℕ) : ℝ) * (c.length / c.nbElements) ∨ s = c.length ∧ k + 1 = c.nbElements) :
    ∃ t : V3, (∀ fc, tensionAt axial c s fc = some (conv fc t)) ∧
      V3.norm ((P (k + 1)).pos - (P k).pos) • t = axial (P k) (P (k + 1)) (2 * (s / (c.length / c.nbElements) - k) - 1) • ((P (k + 1)).pos - (P k).pos) ∧
      V3.norm t = |axial (P k) (P (k + 1)) (2 * (s / (c.length / c.nbElements) - k) - 1)| := by
  have hpos : (0 : ℝ) < c.nbElements := by exact_mod_cast hn
  have hds : 0 < c.length / c.nbElements := div_pos hL hpos
  generalize hA : axial (P k) (P (k + 1)) (2 * (s / (c.length / c.nbElements) - k) - 1) = A
  have hloc : locate c s = some ((k : ℤ), 2 * (s / (c.length / c.nbElements) - k) - 1) := by
    rcases h1 with h | ⟨h, h'⟩
    · exact locate_mid c hL hn k hk s h0 h
    · rw [h, locate_end c hn]
      have e1 : c.nbElements - 1 = k := by omega
      have e2 : 2 * (c.length / (c.length / c.nbElements) - k) - 1 = 1 := by
        have e3 : c.length / (c.length / c.nbElements) = c.nbElements := by field_simp
        rw [e3, ← h']
        push_cast
        ring
      rw [e1, e2]
  have hdk : (P (k + 1)).pos - (P k).pos ≠ 0 := fun e => hd k hk (by
    have : (P (k + 1)).pos - (P k).pos + (P k).pos = 0 + (P k).pos := by rw [e]
    have e2 : (P (k + 1)).pos - (P k).pos + (P k).pos = (P (k + 1)).pos := by ext <;> simp
    have e3 : (0 : V3) + (P k).pos = (P k).pos := by ext <;> simp
    rw [e2, e3] at this
    exact this)
  have hnp := V3.norm_pos hdk
  have hu : chNormalize ((P (k + 1)).pos - (P k).pos) = ((P (k + 1)).pos - (P k).pos).normalized := if_neg hdk
  refine ⟨A • chNormalize ((P (k + 1)).pos - (P k).pos), fun fc => ?_, ?_, ?_⟩
  · unfold tensionAt
    rw [hloc, Option.bind_some, hm, Option.bind_some]
    simp only []
    rw [element_chain hP _ hk, Option.map_some]
    simp only [hA]
  · rw [hu]
    unfold V3.normalized
    generalize V3.norm ((P (k + 1)).pos - (P k).pos) = r at hnp
    have := hnp.ne'
    ext <;> simp <;> field_simp
  · rw [hu]
    unfold V3.normalized
    generalize hv : (P (k + 1)).pos - (P k).pos = v at hnp
    have e : V3.norm (A • (V3.norm v)⁻¹ • v) ^ 2 = A ^ 2 := by
      rw [V3.norm_sq]
      have h2 := V3.norm_sq v
      have h3 : V3.dot (A • (V3.norm v)⁻¹ • v) (A • (V3.norm v)⁻¹ • v) = A ^ 2 * (V3.norm v)⁻¹ ^ 2 * V3.dot v v := by
        simp [V3.dot]
        ring
      rw [h3, ← h2, mul_assoc, ← mul_pow, inv_mul_cancel₀ hnp.ne', one_pow, mul_one]
    have := (sq_eq_sq₀ (V3.norm_nonneg _) (abs_nonneg A)).1 (by rw [e, sq_abs])
    exact this

/-- **C140, out of the cable.** Beyond the end the assertion stops the program; before the start nothing does, and an element that does not exist is read. -/
theorem C140_outside (interp : Frame → Frame → ℝ → V3) (axial : Frame → Frame → ℝ → ℝ) (c : DynCable) (hL : 0 < c.length) (hn : 1 ≤ c.nbElements) (m : FeMesh) (hm : c.mesh = some m) (P : ℕ → Frame)
    (hP : Chain m c.nbElements P) (fc : FC) (s : ℝ) :
    (c.length < s → locate c s = Option.none) ∧
    (s < 0 → (∃ i eta, locate c s = some (i, eta) ∧ i < 0) ∧ positionAt interp c s fc = Option.none ∧ tensionAt axial c s fc = Option.none) := by
  have hpos : (0 : ℝ) < c.nbElements := by exact_mod_cast hn
  have hds : 0 < c.length / c.nbElements := div_pos hL hpos
  refine ⟨fun h => if_neg (not_le.2 h), fun h => ?_⟩
  have hi : ⌊s / (c.length / c.nbElements)⌋ < 0 := Int.floor_lt.2 (by
    rw [Int.cast_zero]
    exact div_neg_of_neg_of_pos h hds)
  have hl : locate c s = some (⌊s / (c.length / c.nbElements)⌋, 2 * (s / (c.length / c.nbElements) - ⌊s / (c.length / c.nbElements)⌋) - 1) := by
    unfold locate
    rw [if_pos (by linarith), if_neg (by linarith)]
  refine ⟨⟨_, _, hl, hi⟩, ?_, ?_⟩
  · unfold positionAt
    rw [hl, Option.bind_some, hm, Option.bind_some]
    simp only []
    rw [element_none hP _ (Or.inl hi)]
    rfl
  · unfold tensionAt
    rw [hl, Option.bind_some, hm, Option.bind_some]
    simp only []
    rw [element_none hP _ (Or.inl hi)]
    rfl

/-- **C140, changing the number of elements afterwards.** After the initialization, the number of elements may still be set but the mesh is kept: with more, the end of the cable is no more readable; with
fewer, the point given as the end of the cable is an inner node. -/
theorem C140_stale_number (interp : Frame → Frame → ℝ → V3) (he : ∀ a b, interp a b (-1) = a.pos ∧ interp a b 1 = b.pos)
    (c : DynCable) (m : FeMesh) (hm : c.mesh = some m) (P : ℕ → Frame) (hP : Chain m c.nbElements P) (fc : FC) (n : ℕ) (hn : 1 ≤ n) :
    (c.nbElements < n → positionAt interp (c.setNumberOfElements n) c.length fc = Option.none) ∧
    (n ≤ c.nbElements → positionAt interp (c.setNumberOfElements n) c.length fc = some (conv fc (P n).pos)) := by
  have hl : locate (c.setNumberOfElements n) c.length = some (((n - 1 : ℕ) : ℤ), 1) := locate_end (c.setNumberOfElements n) hn
  have hm' : (c.setNumberOfElements n).mesh = some m := hm
  constructor
  · intro h
    unfold positionAt
    rw [hl, Option.bind_some, hm', Option.bind_some]
    simp only []
    rw [element_none hP _ (Or.inr (by omega))]
    rfl
  · intro h
    unfold positionAt
    rw [hl, Option.bind_some, hm', Option.bind_some]
    simp only []
    rw [element_chain hP _ (by omega), Option.map_some, (he _ _).2]
    have e2 : n - 1 + 1 = n := by omega
    rw [e2]

/-! ## C141: target length of the elements -/

/-- **C141.** For a target length under the length of the cable, the cable gets at least one element, and its elements are at least as long as the target and less than twice as long; exactly
the target when it divides the length. Other targets are refused. -/
theorem C141_target (c : DynCable) (e : ℝ) :
    ((c.setTargetElementLength e).isSome ↔ 0 < e ∧ e < c.length) ∧
    (∀ c', c.setTargetElementLength e = some c' → 1 ≤ c'.nbElements ∧ e ≤ c'.length / c'.nbElements ∧ c'.length / c'.nbElements < 2 * e ∧ c'.length = c.length ∧
      ∀ k : ℕ, c.length = k * e → c'.nbElements = k ∧ c'.length / c'.nbElements = e) := by
  unfold setTargetElementLength
  refine ⟨?_, fun c' hc => ?_⟩
  · split_ifs with h
    · simp only [Option.isSome_some, true_iff]
      exact h
    · simp only [Option.isSome_none, Bool.false_eq_true, false_iff]
      exact h
  · split_ifs at hc with h
    obtain ⟨h0, h1⟩ := h
    have hc' := Option.some.inj hc
    subst hc'
    show 1 ≤ ⌊c.length / e⌋.toNat ∧ e ≤ c.length / (⌊c.length / e⌋.toNat : ℝ) ∧ c.length / (⌊c.length / e⌋.toNat : ℝ) < 2 * e ∧ c.length = c.length ∧
      ∀ k : ℕ, c.length = k * e → ⌊c.length / e⌋.toNat = k ∧ c.length / (⌊c.length / e⌋.toNat : ℝ) = e
    have hq : 1 < c.length / e := by
      rw [lt_div_iff₀ h0]
      linarith
    have hf : 1 ≤ ⌊c.length / e⌋ := Int.le_floor.2 (by exact_mod_cast hq.le)
    obtain ⟨n, hn⟩ := Int.eq_ofNat_of_zero_le (by omega : 0 ≤ ⌊c.length / e⌋)
    have hl := Int.floor_le (c.length / e)
    have hu := Int.lt_floor_add_one (c.length / e)
    rw [hn] at hf hl hu ⊢
    rw [Int.toNat_natCast]
    have hn1 : 1 ≤ n := by exact_mod_cast hf
    have hnr : (1 : ℝ) ≤ n := by exact_mod_cast hn1
    have hnp : (0 : ℝ) < n := by linarith
    rw [le_div_iff₀ h0] at hl
    rw [div_lt_iff₀ h0] at hu
    push_cast at hl hu
    refine ⟨hn1, ?_, ?_, rfl, fun k hk => ?_⟩
    · rw [le_div_iff₀ hnp]
      linarith
    · rw [div_lt_iff₀ hnp]
      nlinarith
    · have h3 : c.length / e = k := by rw [hk]; field_simp
      have h4 : ⌊c.length / e⌋ = (k : ℤ) := by rw [h3]; exact Int.floor_natCast k
      rw [hn] at h4
      have h5 : n = k := by exact_mod_cast h4
      subst h5
      refine ⟨rfl, ?_⟩
      rw [hk]
      field_simp

example (a b : Node) (p : CableProps) : ∃ c', (({ props := p, length := 10, start := a, stop := b, rayleigh := 0, nbElements := 5 } : DynCable).setTargetElementLength 3 = some c') ∧
    3 ≤ c'.length / c'.nbElements := by
  obtain ⟨c', h⟩ := Option.isSome_iff_exists.1 ((C141_target ({ props := p, length := 10, start := a, stop := b, rayleigh := 0, nbElements := 5 } : DynCable) 3).1.2 ⟨by norm_num, by norm_num⟩)
  exact ⟨c', h, ((C141_target _ 3).2 c' h).2.1⟩

end DynCable

end Frydom.Cable
