import Mathlib.Analysis.Calculus.Deriv.MeanValue
import Verif.Cable.Catenary

/-!
# Catenary line: lengths (C93)

`FrCable::GetStrainedLength` (`src/frydom/cable/FrCable.cpp:194-209`) on a `FrCatenaryLine`.
-/

open Classical

noncomputable section

namespace Frydom.Cable
open Frydom.Geom Frydom.Core

theorem dot_le_norm (a b : V3) : V3.dot a b ≤ V3.norm a * V3.norm b := by
  have h1 := V3.norm_sq a
  have h2 := V3.norm_sq b
  have h : V3.dot a b ^ 2 ≤ (V3.norm a * V3.norm b) ^ 2 := by
    rw [mul_pow, h1, h2]
    unfold V3.dot
    nlinarith [sq_nonneg (a.x * b.y - a.y * b.x), sq_nonneg (a.x * b.z - a.z * b.x), sq_nonneg (a.y * b.z - a.z * b.y)]
  exact (abs_le_of_sq_le_sq' h (mul_nonneg (V3.norm_nonneg a) (V3.norm_nonneg b))).2

theorem norm_add_le (a b : V3) : V3.norm (a + b) ≤ V3.norm a + V3.norm b := by
  refine abs_le_of_sq_le_sq' ?_ (add_nonneg (V3.norm_nonneg a) (V3.norm_nonneg b)) |>.2
  have h1 := V3.norm_sq a
  have h2 := V3.norm_sq b
  have h3 := V3.norm_sq (a + b)
  have h4 := dot_le_norm a b
  have e : V3.dot (a + b) (a + b) = V3.dot a a + V3.dot b b + 2 * V3.dot a b := by simp [V3.dot]; ring
  nlinarith

theorem norm_neg (a : V3) : V3.norm (-a) = V3.norm a := by
  unfold V3.norm V3.dot
  simp

theorem norm_zero : V3.norm 0 = 0 := by simp [V3.norm, V3.dot]

/-- A continuous function whose derivative is not positive, except perhaps at one point, does not increase. -/
theorem antitone_off {f f' : ℝ → ℝ} (s0 : ℝ) (hc : Continuous f) (hd : ∀ s, s ≠ s0 → HasDerivAt f (f' s) s) (hn : ∀ s, s ≠ s0 → f' s ≤ 0) : Antitone f := by
  refine AntitoneOn.Iic_union_Ici (a := s0) ?_ ?_
  · refine antitoneOn_of_deriv_nonpos (convex_Iic s0) hc.continuousOn ?_ ?_
    · intro s hs
      rw [interior_Iic] at hs
      exact (hd s (ne_of_lt hs)).differentiableAt.differentiableWithinAt
    · intro s hs
      rw [interior_Iic] at hs
      rw [(hd s (ne_of_lt hs)).deriv]
      exact hn s (ne_of_lt hs)
  · refine antitoneOn_of_deriv_nonpos (convex_Ici s0) hc.continuousOn ?_ ?_
    · intro s hs
      rw [interior_Ici] at hs
      exact (hd s (ne_of_gt hs)).differentiableAt.differentiableWithinAt
    · intro s hs
      rw [interior_Ici] at hs
      rw [(hd s (ne_of_gt hs)).deriv]
      exact hn s (ne_of_gt hs)

/-- The tension vanishes at one abscissa at most. -/
theorem tension_ne {l : Line} (h : Loaded l) (hq : l.q ≠ 0) (s : ℝ) (hs : s ≠ -l.t0.z / l.q) : l.tension s .NWU ≠ 0 := by
  intro h0
  rw [tension_eq h] at h0
  have hz : l.t0.z + l.q * s = 0 := congrArg V3.z h0
  apply hs
  field_simp
  linarith

theorem N_cont (l : Line) : Continuous (N l) := by unfold N; fun_prop

theorem pos_cont {l : Line} (h : Loaded l) (hq : l.q ≠ 0) :
    Continuous (fun s => (l.position s .NWU).x) ∧ Continuous (fun s => (l.position s .NWU).y) ∧ Continuous (fun s => (l.position s .NWU).z) := by
  have hz : Continuous (fun s => (l.position s .NWU).z) := by
    simp only [position_eq h hq]
    have := N_cont l
    fun_prop
  by_cases h0 : l.t0.x = 0 ∧ l.t0.y = 0
  · refine ⟨?_, ?_, hz⟩ <;> simp only [position_eq h hq, h0.1, h0.2, zero_div, mul_zero, zero_mul] <;> fun_prop
  · have hne : ∀ s, l.tension s .NWU ≠ 0 := by
      intro s h1
      rw [tension_eq h] at h1
      exact h0 ⟨congrArg V3.x h1, congrArg V3.y h1⟩
    have hC := C91_cable l h hq
    exact ⟨continuous_iff_continuousAt.2 fun s => (hC.tangent s (hne s)).1.continuousAt,
      continuous_iff_continuousAt.2 fun s => (hC.tangent s (hne s)).2.1.continuousAt, hz⟩

/-- Stretched length of the line between the starting node and an abscissa: each unit of unstrained length becomes `1 + k |t|` (specification). -/
def stretched (l : Line) (s : ℝ) : ℝ := ∫ x in (0)..s, (1 + compliance l * V3.norm (l.tension x .NWU))

theorem stretched_deriv {l : Line} (h : Loaded l) (s : ℝ) : HasDerivAt (stretched l) (1 + compliance l * N l s) s := by
  have e : stretched l = fun s => ∫ x in (0)..s, (1 + compliance l * N l x) := by
    funext s
    unfold stretched
    simp only [norm_tension h]
  rw [e]
  have hc : Continuous (fun x => 1 + compliance l * N l x) := by
    have := N_cont l
    fun_prop
  exact intervalIntegral.integral_hasDerivAt_right (hc.intervalIntegrable _ _) (hc.stronglyMeasurableAtFilter _ _) hc.continuousAt

/-- The distance between two points of the line is at most the stretched length between them. -/
theorem dist_le {l : Line} (h : Loaded l) (hq : l.q ≠ 0) (hk : 0 ≤ compliance l) {a b : ℝ} (hab : a ≤ b) :
    V3.norm (l.position b .NWU - l.position a .NWU) ≤ stretched l b - stretched l a := by
  have hC := C91_cable l h hq
  obtain ⟨cx, cy, cz⟩ := pos_cont h hq
  have hV : Continuous (stretched l) := continuous_iff_continuousAt.2 fun s => (stretched_deriv h s).continuousAt
  have hN : ∀ s, 0 ≤ 1 + compliance l * N l s := fun s => by
    have := mul_nonneg hk (N_nonneg l s)
    linarith
  have hmono : stretched l a ≤ stretched l b := by
    have := antitone_off (f := fun s => -stretched l s) 0 hV.neg (fun s _ => (stretched_deriv h s).neg) (fun s _ => by have := hN s; linarith)
    have := this hab
    simp only at this
    linarith
  generalize hd : l.position b .NWU - l.position a .NWU = d
  have hf := antitone_off (f := fun s => (d.x * (l.position s .NWU).x + d.y * (l.position s .NWU).y + d.z * (l.position s .NWU).z) - V3.norm d * stretched l s)
    (f' := fun s => (d.x * ((1 + compliance l * N l s) * ((N l s)⁻¹ * (l.tension s .NWU).x)) + d.y * ((1 + compliance l * N l s) * ((N l s)⁻¹ * (l.tension s .NWU).y)) +
      d.z * ((1 + compliance l * N l s) * ((N l s)⁻¹ * (l.tension s .NWU).z))) - V3.norm d * (1 + compliance l * N l s))
    (-l.t0.z / l.q) (by fun_prop) ?_ ?_
  · have := hf hab
    simp only at this
    have e : V3.norm d ^ 2 = d.x * ((l.position b .NWU).x - (l.position a .NWU).x) + d.y * ((l.position b .NWU).y - (l.position a .NWU).y) +
        d.z * ((l.position b .NWU).z - (l.position a .NWU).z) := by
      rw [V3.norm_sq, ← hd]
      simp [V3.dot]
    rcases (V3.norm_nonneg d).lt_or_eq with hp | hp
    · have : V3.norm d * V3.norm d ≤ V3.norm d * (stretched l b - stretched l a) := by nlinarith
      exact le_of_mul_le_mul_left this hp
    · rw [← hp]; linarith
  · intro s hs
    have ht := hC.tangent s (tension_ne h hq s hs)
    simp only [norm_tension h] at ht
    exact (((ht.1.const_mul d.x).add (ht.2.1.const_mul d.y)).add (ht.2.2.const_mul d.z)).sub ((stretched_deriv h s).const_mul (V3.norm d))
  · intro s hs
    have hp := N_pos h (tension_ne h hq s hs)
    have h1 := dot_le_norm d (l.tension s .NWU)
    rw [norm_tension h] at h1
    have h2 : V3.dot d (l.tension s .NWU) * (N l s)⁻¹ ≤ V3.norm d := by
      rw [← div_eq_mul_inv, div_le_iff₀ hp]
      exact h1
    have h3 := mul_le_mul_of_nonneg_left h2 (hN s)
    unfold V3.dot at h3
    nlinarith

/-- Length of the polygon through the points `P 0, ..., P n`. -/
def polygon (P : ℕ → V3) (n : ℕ) : ℝ := ∑ i ∈ Finset.range n, V3.norm (P (i + 1) - P i)

theorem fold_polygon (P : ℕ → V3) (n : ℕ) :
    (List.range (n + 1)).foldl (fun (acc : ℝ × V3) (i : ℕ) => (acc.1 + V3.norm (P i - acc.2), P i)) (0, P 0) = (polygon P n, P n) := by
  induction n with
  | zero =>
    have e : P 0 - P 0 = 0 := by ext <;> simp
    simp [polygon, e, norm_zero]
  | succ n ih =>
    rw [List.range_succ, List.foldl_append, ih]
    simp [polygon, Finset.sum_range_succ]

theorem strained_eq (l : Line) : l.strainedLength = polygon (fun i => l.position (i * (l.len / (1000 - 1))) .NWU) 999 := by
  have h := fold_polygon (fun i => l.position (i * (l.len / (1000 - 1))) .NWU) 999
  have e0 : l.position (((0 : ℕ) : ℝ) * (l.len / (1000 - 1))) .NWU = l.position 0 .NWU := by
    rw [Nat.cast_zero, zero_mul]
  simp only [e0] at h
  unfold Line.strainedLength
  simp only []
  rw [h]

theorem chord_le_polygon (P : ℕ → V3) (n : ℕ) : V3.norm (P n - P 0) ≤ polygon P n := by
  induction n with
  | zero =>
    have e : P 0 - P 0 = 0 := by ext <;> simp
    rw [e, norm_zero]
    simp [polygon]
  | succ n ih =>
    have e : P (n + 1) - P 0 = (P n - P 0) + (P (n + 1) - P n) := by ext <;> simp
    rw [e]
    refine (norm_add_le _ _).trans ?_
    unfold polygon at ih ⊢
    rw [Finset.sum_range_succ]
    linarith

/-- **C93, strained length.** The strained length given by a line (a polygon through 1000 points) is at least the distance between the ends of the line, and at most its
stretched length: it never overestimates. -/
theorem C93_strained_length (l : Line) (h : Loaded l) (hq : l.q ≠ 0) (hL : 0 ≤ l.len) (hEA : l.elastic = true → 0 < l.props.getEA) :
    V3.norm (l.position l.len .NWU - l.position 0 .NWU) ≤ l.strainedLength ∧
    l.strainedLength ≤ ∫ s in (0)..l.len, (1 + compliance l * V3.norm (l.tension s .NWU)) := by
  have hk : 0 ≤ compliance l := by
    unfold compliance
    split_ifs with he
    · exact (inv_pos.2 (hEA he)).le
    · exact le_rfl
  rw [strained_eq]
  constructor
  · have := chord_le_polygon (fun i => l.position (i * (l.len / (1000 - 1))) .NWU) 999
    have e1 : ((999 : ℕ) : ℝ) * (l.len / (1000 - 1)) = l.len := by
      push_cast
      ring
    have e2 : ((0 : ℕ) : ℝ) * (l.len / (1000 - 1)) = 0 := by norm_num
    rwa [e1, e2] at this
  · have key : ∀ n : ℕ, polygon (fun i => l.position (i * (l.len / (1000 - 1))) .NWU) n ≤ stretched l (n * (l.len / (1000 - 1))) := by
      intro n
      induction n with
      | zero => simp [polygon, stretched]
      | succ n ih =>
        unfold polygon at ih ⊢
        rw [Finset.sum_range_succ]
        have hab : (n : ℝ) * (l.len / (1000 - 1)) ≤ ((n + 1 : ℕ) : ℝ) * (l.len / (1000 - 1)) := by
          refine mul_le_mul_of_nonneg_right ?_ (div_nonneg hL (by norm_num))
          push_cast
          linarith
        have := dist_le h hq hk hab
        linarith
    have := key 999
    have e1 : ((999 : ℕ) : ℝ) * (l.len / (1000 - 1)) = l.len := by
      push_cast
      ring
    rw [e1] at this
    exact this

/-- **C93, not elastic.** The distance between the ends of a line that is not elastic, and its strained length, are at most its unstrained length. -/
theorem C93_not_elastic (l : Line) (h : Loaded l) (hq : l.q ≠ 0) (hL : 0 ≤ l.len) (he : l.elastic = false) :
    V3.norm (l.position l.len .NWU - l.start.positionInWorld .NWU) ≤ l.len ∧ l.strainedLength ≤ l.len := by
  have he' : ¬ l.elastic = true := by rw [he]; simp
  have h1 := C93_strained_length l h hq hL (fun h => absurd h he')
  have e : ∫ s in (0)..l.len, (1 + compliance l * V3.norm (l.tension s .NWU)) = l.len := by
    have hk : compliance l = 0 := if_neg he'
    simp [hk]
  rw [e, position_zero] at h1
  exact ⟨h1.1.trans h1.2, h1.2⟩

theorem norm_le_inf (v : V3) : V3.norm v ≤ Real.sqrt 3 * infNorm v := by
  have h0 : 0 ≤ infNorm v := le_trans (abs_nonneg v.x) (le_max_left _ _)
  have hx : |v.x| ≤ infNorm v := le_max_left _ _
  have hy : |v.y| ≤ infNorm v := le_trans (le_max_left _ _) (le_max_right _ _)
  have hz : |v.z| ≤ infNorm v := le_trans (le_max_right _ _) (le_max_right _ _)
  refine (abs_le_of_sq_le_sq' ?_ (mul_nonneg (Real.sqrt_nonneg _) h0)).2
  rw [V3.norm_sq, mul_pow, Real.sq_sqrt (by norm_num)]
  have sx := sq_le_sq' (by linarith [abs_nonneg v.x]) hx
  have sy := sq_le_sq' (by linarith [abs_nonneg v.y]) hy
  have sz := sq_le_sq' (by linarith [abs_nonneg v.z]) hz
  rw [sq_abs] at sx sy sz
  unfold V3.dot
  nlinarith

theorem inf_le_norm (v : V3) : infNorm v ≤ V3.norm v := by
  have h := V3.norm_sq v
  have h0 := V3.norm_nonneg v
  unfold V3.dot at h
  refine max_le ?_ (max_le ?_ ?_) <;> refine abs_le_of_sq_le_sq ?_ h0 <;>
    nlinarith [mul_self_nonneg v.x, mul_self_nonneg v.y, mul_self_nonneg v.z]

/-- **C93, too short.** If the nodes are further apart than the length of a line that is not elastic, no tension closes the line: every residual is at least the missing
length over the square root of 3. -/
theorem C93_too_short (l : Line) (h : Loaded l) (hq : l.q ≠ 0) (hL : 0 ≤ l.len) (he : l.elastic = false) :
    (V3.norm (l.stop.positionInWorld .NWU - l.start.positionInWorld .NWU) - l.len) / Real.sqrt 3 ≤ infNorm (l.residual .NWU) := by
  have h1 := (C93_not_elastic l h hq hL he).1
  have h2 := norm_le_inf (l.residual .NWU)
  have e : l.stop.positionInWorld .NWU - l.start.positionInWorld .NWU = (l.position l.len .NWU - l.start.positionInWorld .NWU) + -(l.residual .NWU) := by
    unfold Line.residual
    ext <;> simp
  have h3 := norm_add_le (l.position l.len .NWU - l.start.positionInWorld .NWU) (-(l.residual .NWU))
  rw [← e, norm_neg] at h3
  rw [div_le_iff₀ (Real.sqrt_pos.2 (by norm_num))]
  linarith

/-- Non-vacuity: a 100 m line that is not elastic, with ends 150 m apart. -/
example (a b : Node) (hab : V3.norm (b.positionInWorld .NWU - a.positionInWorld .NWU) = 150) (t0 : V3) :
    1 < infNorm (({ (Line.new {} false 100 a b).initLoad 1025 9.81 with t0 := t0 } : Line).residual .NWU) := by
  have hq : 0 < ({ (Line.new {} false 100 a b).initLoad 1025 9.81 with t0 := t0 } : Line).q := by
    show 0 < (616.538 - 0.05 * 1025) * (9.81 : ℝ)
    norm_num
  have hl := initLoad_loaded (Line.new {} false 100 a b) 1025 9.81
  have h1 := C93_too_short { (Line.new {} false 100 a b).initLoad 1025 9.81 with t0 := t0 } ⟨hl.1, hl.2⟩ hq.ne' (by show (0 : ℝ) ≤ 100; norm_num) rfl
  refine lt_of_lt_of_le ?_ h1
  show 1 < (V3.norm (b.positionInWorld .NWU - a.positionInWorld .NWU) - 100) / Real.sqrt 3
  rw [hab, lt_div_iff₀ (Real.sqrt_pos.2 (by norm_num)), one_mul, Real.sqrt_lt' (by norm_num)]
  norm_num

end Frydom.Cable
