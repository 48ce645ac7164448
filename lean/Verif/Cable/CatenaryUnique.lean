import Verif.Cable.CatenarySolve

/-!
# Catenary line: uniqueness and accuracy of the tension (C96), vertical lines (C97)
-/

open Classical

noncomputable section

namespace Frydom.Cable
open Frydom.Geom Frydom.Core

/-- A continuous function whose derivative is not negative, except perhaps at two points, does not decrease. -/
theorem monotone_off2 {f f' : ℝ → ℝ} (s1 s2 : ℝ) (hc : Continuous f) (hd : ∀ s, s ≠ s1 → s ≠ s2 → HasDerivAt f (f' s) s)
    (hn : ∀ s, s ≠ s1 → s ≠ s2 → 0 ≤ f' s) : Monotone f := by
  wlog h12 : s1 ≤ s2 generalizing s1 s2
  · exact this s2 s1 (fun s a b => hd s b a) (fun s a b => hn s b a) (le_of_not_ge h12)
  have piece : ∀ D : Set ℝ, Convex ℝ D → s1 ∉ interior D → s2 ∉ interior D → MonotoneOn f D := by
    intro D hD h1 h2
    refine monotoneOn_of_deriv_nonneg hD hc.continuousOn ?_ ?_
    · intro s hs
      exact (hd s (fun h => h1 (h ▸ hs)) (fun h => h2 (h ▸ hs))).differentiableAt.differentiableWithinAt
    · intro s hs
      rw [(hd s (fun h => h1 (h ▸ hs)) (fun h => h2 (h ▸ hs))).deriv]
      exact hn s (fun h => h1 (h ▸ hs)) (fun h => h2 (h ▸ hs))
  have a := piece (Set.Iic s1) (convex_Iic s1) (by simp) (by rw [interior_Iic]; simpa using h12)
  have b := piece (Set.Icc s1 s2) (convex_Icc s1 s2) (by simp) (by simp)
  have c := piece (Set.Ici s2) (convex_Ici s2) (by rw [interior_Ici]; simpa using h12) (by simp)
  refine MonotoneOn.Iic_union_Ici a ?_
  have := b.union_right c (isGreatest_Icc h12) isLeast_Ici
  rwa [Set.Icc_union_Ici_eq_Ici h12] at this

theorem dot_unit {a b : V3} (ha : a ≠ 0) (hb : b ≠ 0) :
    V3.dot (a - b) ((V3.norm a)⁻¹ • a - (V3.norm b)⁻¹ • b) = (V3.norm a + V3.norm b) * (1 - V3.dot a b / (V3.norm a * V3.norm b)) := by
  have pa := V3.norm_pos ha
  have pb := V3.norm_pos hb
  have sa := V3.norm_sq a
  have sb := V3.norm_sq b
  have e : V3.dot (a - b) ((V3.norm a)⁻¹ • a - (V3.norm b)⁻¹ • b) =
      V3.dot a a * (V3.norm a)⁻¹ + V3.dot b b * (V3.norm b)⁻¹ - V3.dot a b * (V3.norm a)⁻¹ - V3.dot a b * (V3.norm b)⁻¹ := by
    simp only [V3.dot, V3.sub_x, V3.sub_y, V3.sub_z, V3.smul_x, V3.smul_y, V3.smul_z]
    ring
  rw [e, ← sa, ← sb]
  field_simp
  ring

theorem dot_unit_nonneg {a b : V3} (ha : a ≠ 0) (hb : b ≠ 0) : 0 ≤ V3.dot (a - b) ((V3.norm a)⁻¹ • a - (V3.norm b)⁻¹ • b) := by
  have pa := V3.norm_pos ha
  have pb := V3.norm_pos hb
  rw [dot_unit ha hb]
  refine mul_nonneg (by positivity) ?_
  have : V3.dot a b / (V3.norm a * V3.norm b) ≤ 1 := by
    rw [div_le_one (by positivity)]
    exact dot_le_norm a b
  linarith

/-- If two tensions have null "unit difference" they are parallel. -/
theorem cross_of_dot_unit {a b : V3} (ha : a ≠ 0) (hb : b ≠ 0) (h : V3.dot (a - b) ((V3.norm a)⁻¹ • a - (V3.norm b)⁻¹ • b) = 0) : V3.cross a b = 0 := by
  have pa := V3.norm_pos ha
  have pb := V3.norm_pos hb
  have sa := V3.norm_sq a
  have sb := V3.norm_sq b
  rw [dot_unit ha hb] at h
  have h1 : V3.dot a b = V3.norm a * V3.norm b := by
    rcases mul_eq_zero.1 h with h | h
    · linarith
    · have : V3.dot a b / (V3.norm a * V3.norm b) = 1 := by linarith
      rwa [div_eq_one_iff_eq (by positivity)] at this
  apply V3.dot_self_eq_zero
  have e : V3.dot (V3.cross a b) (V3.cross a b) = V3.dot a a * V3.dot b b - V3.dot a b ^ 2 := by
    simp [V3.dot]
    ring
  rw [e, h1, ← sa, ← sb]
  ring

/-- The work of the difference of the tensions on the difference of the positions, less the elastic part: derivative. -/
theorem gap_deriv {l : Line} (h : Loaded l) (hq : l.q ≠ 0) (t : V3) (s : ℝ) (ha : l.tension s .NWU ≠ 0) (hb : (withT0 l t).tension s .NWU ≠ 0) :
    HasDerivAt (fun s => V3.dot (l.t0 - t) (l.position s .NWU - (withT0 l t).position s .NWU) - compliance l * V3.dot (l.t0 - t) (l.t0 - t) * s)
      (V3.dot (l.tension s .NWU - (withT0 l t).tension s .NWU)
        ((V3.norm (l.tension s .NWU))⁻¹ • l.tension s .NWU - (V3.norm ((withT0 l t).tension s .NWU))⁻¹ • (withT0 l t).tension s .NWU)) s := by
  have hA := (C91_cable l h hq).tangent s ha
  have hB := (C91_cable (withT0 l t) (withT0_loaded h t) hq).tangent s hb
  have hpa := V3.norm_pos ha
  have hpb := V3.norm_pos hb
  have hx := (hA.1.sub hB.1).const_mul (l.t0 - t).x
  have hy := (hA.2.1.sub hB.2.1).const_mul (l.t0 - t).y
  have hz := (hA.2.2.sub hB.2.2).const_mul (l.t0 - t).z
  have hw := (hasDerivAt_id s).const_mul (compliance l * V3.dot (l.t0 - t) (l.t0 - t))
  refine (((hx.add hy).add hz).sub hw).congr_deriv ?_
  have ec : compliance (withT0 l t) = compliance l := rfl
  have ed : l.t0 - t = l.tension s .NWU - (withT0 l t).tension s .NWU := by
    rw [tension_eq h, tension_eq (withT0_loaded h t)]
    ext <;> simp [withT0]
  rw [ec, ed]
  generalize l.tension s .NWU = A at *
  generalize (withT0 l t).tension s .NWU = B at *
  simp only [V3.dot, V3.sub_x, V3.sub_y, V3.sub_z, V3.smul_x, V3.smul_y, V3.smul_z]
  field_simp
  ring

theorem gap_monotone {l : Line} (h : Loaded l) (hq : l.q ≠ 0) (t : V3) :
    Monotone (fun s => V3.dot (l.t0 - t) (l.position s .NWU - (withT0 l t).position s .NWU) - compliance l * V3.dot (l.t0 - t) (l.t0 - t) * s) := by
  have hB := withT0_loaded h t
  obtain ⟨ax, ay, az⟩ := pos_cont h hq
  obtain ⟨bx, bY, bz⟩ := pos_cont hB (show (withT0 l t).q ≠ 0 from hq)
  refine monotone_off2 (-l.t0.z / l.q) (-t.z / l.q) ?_ (fun s h1 h2 => gap_deriv h hq t s (tension_ne h hq s h1) (tension_ne hB hq s h2))
    (fun s h1 h2 => dot_unit_nonneg (tension_ne h hq s h1) (tension_ne hB hq s h2))
  simp only [V3.dot, V3.sub_x, V3.sub_y, V3.sub_z]
  fun_prop

theorem gap_zero (l : Line) (t : V3) : l.position 0 .NWU - (withT0 l t).position 0 .NWU = 0 := by
  rw [position_zero, position_zero]
  ext <;> simp [withT0]

/-- **C96, monotone.** Between two tensions at the starting node of the same line, the end of the line moves with the tension: the work of the difference is at least
the elastic one. -/
theorem C96_monotone (l : Line) (h : Loaded l) (hq : l.q ≠ 0) (hL : 0 ≤ l.len) (t : V3) :
    compliance l * l.len * V3.dot (l.t0 - t) (l.t0 - t) ≤ V3.dot (l.t0 - t) (l.residual .NWU - (withT0 l t).residual .NWU) := by
  have hm := gap_monotone h hq t hL
  simp only [gap_zero] at hm
  have e : l.residual .NWU - (withT0 l t).residual .NWU = l.position l.len .NWU - (withT0 l t).position l.len .NWU := by
    have e1 : (withT0 l t).residual .NWU = (withT0 l t).position l.len .NWU - l.stop.positionInWorld .NWU := rfl
    rw [e1]
    unfold Line.residual
    ext <;> simp
  rw [e]
  have e0 : V3.dot (l.t0 - t) 0 = 0 := by simp [V3.dot]
  rw [e0] at hm
  linarith

/-- **C96, accuracy of an elastic line.** Two tensions differ by at most `EA / L` times the difference of their residuals. -/
theorem C96_accuracy (l : Line) (h : Loaded l) (hq : l.q ≠ 0) (hL : 0 < l.len) (he : l.elastic = true) (hEA : 0 < l.props.getEA) (t : V3) :
    V3.norm (l.t0 - t) ≤ l.props.getEA / l.len * V3.norm (l.residual .NWU - (withT0 l t).residual .NWU) := by
  have hm := C96_monotone l h hq hL.le t
  have hc : compliance l = (l.props.getEA)⁻¹ := if_pos he
  rw [hc, ← V3.norm_sq] at hm
  have h2 := dot_le_norm (l.t0 - t) (l.residual .NWU - (withT0 l t).residual .NWU)
  rcases (V3.norm_nonneg (l.t0 - t)).lt_or_eq with hp | hp
  · have h3 : (l.props.getEA)⁻¹ * l.len * V3.norm (l.t0 - t) ≤ V3.norm (l.residual .NWU - (withT0 l t).residual .NWU) := by
      have : V3.norm (l.t0 - t) * ((l.props.getEA)⁻¹ * l.len * V3.norm (l.t0 - t)) ≤ V3.norm (l.t0 - t) * V3.norm (l.residual .NWU - (withT0 l t).residual .NWU) := by
        refine le_trans (le_of_eq ?_) (hm.trans h2)
        ring
      exact le_of_mul_le_mul_left this hp
    rw [div_mul_eq_mul_div, le_div_iff₀ hL]
    have h4 := mul_le_mul_of_nonneg_left h3 hEA.le
    refine le_trans (le_of_eq ?_) h4
    field_simp
  · rw [← hp]
    exact mul_nonneg (div_nonneg hEA.le hL.le) (V3.norm_nonneg _)

/-- **C96, a converged solution.** When the solver reports success on an elastic line, the tension at the starting node, hence the tension everywhere in the line, is that
of the exact equilibrium up to `sqrt 3 * tol * EA / L`. -/
theorem C96_converged (inv : M3 → M3) (l l' : Line) (n : ℕ) (h : Loaded l) (hq : l.q ≠ 0) (hL : 0 < l.len) (he : l.elastic = true) (hEA : 0 < l.props.getEA)
    (hs : solve inv l = some (l', n)) (hn : n < max 1 l.itermax) (t : V3) (ht : (withT0 l t).residual .NWU = 0) (s : ℝ) :
    V3.norm (l'.tension s .NWU - (withT0 l t).tension s .NWU) ≤ Real.sqrt 3 * l.tol * l.props.getEA / l.len := by
  obtain ⟨⟨t', r, h1⟩, -, h3, -⟩ := C95_exit inv l l' n hs
  have hc : infNorm (l'.residual .NWU) ≤ l.tol := by
    rcases h3 with h3 | h3
    · exact h3.1
    · omega
  have hl' : Loaded l' := by rw [h1]; exact ⟨h.1, h.2⟩
  have ed : l'.tension s .NWU - (withT0 l t).tension s .NWU = l'.t0 - t := by
    rw [tension_eq hl', tension_eq (withT0_loaded h t)]
    have : l'.q = l.q := by rw [h1]
    rw [this]
    ext <;> simp [withT0]
  rw [ed]
  have ha := C96_accuracy l' hl' (by rw [h1]; exact hq) (by rw [h1]; exact hL) (by rw [h1]; exact he) (by rw [h1]; exact hEA) t
  have er : (withT0 l' t).residual .NWU = 0 := by
    rw [← ht, h1]
    rfl
  have e0 : l'.residual .NWU - 0 = l'.residual .NWU := by ext <;> simp
  rw [er, e0] at ha
  have el : l'.len = l.len := by rw [h1]; rfl
  have ep : l'.props = l.props := by rw [h1]
  rw [el, ep] at ha
  refine ha.trans ?_
  have h5 : V3.norm (l'.residual .NWU) ≤ Real.sqrt 3 * l.tol := (norm_le_inf _).trans (mul_le_mul_of_nonneg_left hc (Real.sqrt_nonneg _))
  have := mul_le_mul_of_nonneg_left h5 (div_nonneg hEA.le hL.le)
  refine this.trans (le_of_eq ?_)
  ring

/-- **C96, uniqueness.** For an elastic line, or for any line that is not vertical, at most one tension at the starting node joins the two nodes. -/
theorem C96_unique (l : Line) (h : Loaded l) (hq : l.q ≠ 0) (hL : 0 < l.len) (hEA : l.elastic = true → 0 < l.props.getEA)
    (hv : l.elastic = true ∨ l.t0.x ≠ 0 ∨ l.t0.y ≠ 0) (t : V3) (ha : l.residual .NWU = 0) (hb : (withT0 l t).residual .NWU = 0) : t = l.t0 := by
  have hd0 : l.t0 - t = 0 → t = l.t0 := by
    intro h0
    have hx := congrArg V3.x h0
    have hy := congrArg V3.y h0
    have hz := congrArg V3.z h0
    simp at hx hy hz
    ext <;> linarith
  rcases Bool.eq_false_or_eq_true l.elastic with he | he
  · have := C96_accuracy l h hq hL he (hEA he) t
    have e0 : (0 : V3) - 0 = 0 := by ext <;> simp
    rw [ha, hb, e0, norm_zero, mul_zero] at this
    apply hd0
    by_contra hne
    exact absurd (V3.norm_pos hne) (not_lt.2 this)
  · have hnv : l.t0.x ≠ 0 ∨ l.t0.y ≠ 0 := hv.resolve_left (by rw [he]; simp)
    have he' : ¬ l.elastic = true := by rw [he]; simp
    have hk : compliance l = 0 := if_neg he'
    have hB := withT0_loaded h t
    have hm := gap_monotone h hq t
    simp only [hk, zero_mul, sub_zero] at hm
    -- the gap is null all along the line
    have e1 : l.position l.len .NWU - (withT0 l t).position l.len .NWU = 0 := by
      have e1 : (withT0 l t).residual .NWU = (withT0 l t).position l.len .NWU - l.stop.positionInWorld .NWU := rfl
      have : l.position l.len .NWU - (withT0 l t).position l.len .NWU = l.residual .NWU - (withT0 l t).residual .NWU := by
        rw [e1]
        unfold Line.residual
        ext <;> simp
      rw [this, ha, hb]
      ext <;> simp
    have hzero : ∀ s, 0 ≤ s → s ≤ l.len → V3.dot (l.t0 - t) (l.position s .NWU - (withT0 l t).position s .NWU) = 0 := by
      intro s h1 h2
      have a1 := hm h1
      have a2 := hm h2
      simp only [gap_zero, e1] at a1 a2
      have e0 : V3.dot (l.t0 - t) 0 = 0 := by simp [V3.dot]
      rw [e0] at a1 a2
      linarith
    have hcross : ∀ s, 0 < s → s < l.len → s ≠ -t.z / l.q → V3.cross (l.tension s .NWU) ((withT0 l t).tension s .NWU) = 0 := by
      intro s h1 h2 h3
      have na : l.tension s .NWU ≠ 0 := by
        intro h0
        rw [tension_eq h] at h0
        rcases hnv with h4 | h4
        · exact h4 (congrArg V3.x h0)
        · exact h4 (congrArg V3.y h0)
      have nb := tension_ne hB hq s h3
      have d1 := gap_deriv h hq t s na nb
      simp only [hk, zero_mul, sub_zero] at d1
      have d2 : HasDerivAt (fun s => V3.dot (l.t0 - t) (l.position s .NWU - (withT0 l t).position s .NWU)) 0 s := by
        refine (hasDerivAt_const s (0 : ℝ)).congr_of_eventuallyEq ?_
        filter_upwards [Ioo_mem_nhds h1 h2] with x hx
        exact hzero x hx.1.le hx.2.le
      exact cross_of_dot_unit na nb (d1.unique d2)
    -- two abscissas where it holds
    have htwo : ∃ s s', s ≠ s' ∧ V3.cross (l.tension s .NWU) ((withT0 l t).tension s .NWU) = 0 ∧ V3.cross (l.tension s' .NWU) ((withT0 l t).tension s' .NWU) = 0 := by
      have q1 := hcross (l.len / 4) (by linarith) (by linarith)
      have q2 := hcross (l.len / 2) (by linarith) (by linarith)
      have q3 := hcross (3 * l.len / 4) (by linarith) (by linarith)
      by_cases c1 : l.len / 4 = -t.z / l.q
      · exact ⟨l.len / 2, 3 * l.len / 4, by linarith, q2 (by rw [← c1]; linarith), q3 (by rw [← c1]; linarith)⟩
      · by_cases c2 : l.len / 2 = -t.z / l.q
        · exact ⟨l.len / 4, 3 * l.len / 4, by linarith, q1 c1, q3 (by rw [← c2]; linarith)⟩
        · exact ⟨l.len / 4, l.len / 2, by linarith, q1 c1, q2 c2⟩
    obtain ⟨s, s', hss, c1, c2⟩ := htwo
    rw [tension_eq h, tension_eq hB] at c1 c2
    have x1 := congrArg V3.x c1
    have y1 := congrArg V3.y c1
    have x2 := congrArg V3.x c2
    have y2 := congrArg V3.y c2
    simp only [V3.cross_x, V3.cross_y, V3.zero_x, V3.zero_y, withT0] at x1 y1 x2 y2
    have hqs : l.q * (s - s') ≠ 0 := mul_ne_zero hq (sub_ne_zero.2 hss)
    have ey : l.t0.y = t.y := by
      have : l.q * (s - s') * (l.t0.y - t.y) = 0 := by linear_combination x1 - x2
      have := (mul_eq_zero.1 this).resolve_left hqs
      linarith
    have ex : l.t0.x = t.x := by
      have : l.q * (s - s') * (l.t0.x - t.x) = 0 := by linear_combination y2 - y1
      have := (mul_eq_zero.1 this).resolve_left hqs
      linarith
    have ez : l.t0.z = t.z := by
      rcases hnv with h4 | h4
      · have : l.t0.x * (l.t0.z - t.z) = 0 := by
          rw [← ex] at y1
          linear_combination y1
        have := (mul_eq_zero.1 this).resolve_left h4
        linarith
      · have : l.t0.y * (l.t0.z - t.z) = 0 := by
          rw [← ey] at x1
          linear_combination -x1
        have := (mul_eq_zero.1 this).resolve_left h4
        linarith
    ext
    exacts [ex.symm, ey.symm, ez.symm]

/-- Non-vacuity: for every tension there is an ending node that the line reaches exactly. -/
example (a b : Node) (t0 : V3) (elastic : Bool) : ∃ l : Line, Loaded l ∧ 0 < l.q ∧ 0 < l.len ∧ 0 < l.props.getEA ∧ l.elastic = elastic ∧ l.t0 = t0 ∧ l.residual .NWU = 0 := by
  let l0 : Line := { (Line.new {} elastic 100 a b).initLoad 1025 9.81 with t0 := t0 }
  let c : Node := ⟨Frame.identity, ⟨l0.position l0.len .NWU, Q.one⟩, 0, 0⟩
  have hl := initLoad_loaded (Line.new {} elastic 100 a b) 1025 9.81
  refine ⟨{ l0 with stop := c }, ⟨hl.1, hl.2⟩, ?_, ?_, ?_, rfl, rfl, ?_⟩
  · show 0 < (616.538 - 0.05 * 1025) * (9.81 : ℝ)
    norm_num
  · show (0 : ℝ) < 100
    norm_num
  · show (0 : ℝ) < 3.1416e10 * 0.05
    norm_num
  · show l0.position l0.len .NWU - l0.position l0.len .NWU = 0
    ext <;> simp

/-! ## C97 -/

/-- **C97 (defect), the guess.** For a line whose ending node hangs straight below its starting node, with some slack, the first guess of the tension is vertical, downwards. -/
theorem C97_guess_vertical (l : Line) (hq : 0 < l.q) (lz : ℝ) (hz : lz < 0) (hp : l.stop.positionInWorld .NWU - l.start.positionInWorld .NWU = ⟨0, 0, lz⟩) (hL : -lz < l.len) :
    l.guessTension.t0.x = 0 ∧ l.guessTension.t0.y = 0 ∧ l.guessTension.t0.z < 0 := by
  have hn : V3.norm (⟨0, 0, lz⟩ : V3) = -lz := by
    unfold V3.norm V3.dot
    have : (0 : ℝ) * 0 + 0 * 0 + lz * lz = (-lz) ^ 2 := by ring
    rw [this, Real.sqrt_sq (by linarith)]
  have hc : V3.norm (V3.cross u ⟨0, 0, lz⟩) = 0 := by simp [u, V3.norm, V3.dot]
  have hlam : (if l.len ≤ -lz then (0.2 : ℝ) else if V3.norm (V3.cross u ⟨0, 0, lz⟩) < 1e-4 then 1e6
      else Real.sqrt (3 * (l.len * l.len - lz * lz) / (0 * 0 + 0 * 0))) = 1e6 := by
    rw [if_neg (not_le.2 hL), if_pos]
    rw [hc]; norm_num
  have hv : V3.cross (V3.cross u ((-lz)⁻¹ • (⟨0, 0, lz⟩ : V3))) u = 0 := by ext <;> simp [u]
  have ht : 0 < Real.tanh 1e6 := by
    rw [Real.tanh_eq_sinh_div_cosh]
    exact div_pos (Real.sinh_pos_iff.2 (by norm_num)) (Real.cosh_pos _)
  have e : l.guessTension.t0 = ⟨0, 0, 0.5 * l.q * (lz / Real.tanh 1e6 - l.len)⟩ := by
    unfold Line.guessTension
    simp only [hp, hn, hv, hlam]
    ext
    · simp [u]
    · simp [u]
    · simp [u]
  rw [e]
  refine ⟨rfl, rfl, ?_⟩
  have h1 : lz / Real.tanh 1e6 < 0 := div_neg_of_neg_of_pos hz ht
  show 0.5 * l.q * (lz / Real.tanh 1e6 - l.len) < 0
  have h2 : lz / Real.tanh 1e6 - l.len < 0 := by linarith
  have h3 : 0 < 0.5 * l.q := by linarith
  exact mul_neg_of_pos_of_neg h3 h2

theorem vertical_rho {l : Line} (h : Loaded l) (hx : l.t0.x = 0) (hy : l.t0.y = 0) (hz : l.t0.z < 0) : l.rho 0 = 0 := by
  rw [rho_eq h]
  unfold N
  rw [hx, hy]
  have : (0 : ℝ) * 0 + 0 * 0 + (l.t0.z + l.q * 0) * (l.t0.z + l.q * 0) = (-l.t0.z) ^ 2 := by ring
  rw [this, Real.sqrt_sq (by linarith)]
  ring

/-- The matrix of a vertical line whose tension points down at its starting node. -/
theorem vertical_jac {l : Line} (h : Loaded l) (hx : l.t0.x = 0) (hy : l.t0.y = 0) (hz : l.t0.z < 0) :
    l.jacobian.a00 = compliance l * l.len ∧ l.jacobian.a01 = 0 ∧ l.jacobian.a02 = 0 ∧ l.jacobian.a11 = compliance l * l.len ∧ l.jacobian.a12 = 0 := by
  have h0 : ¬ l.rho 0 > 0 := by rw [vertical_rho h hx hy hz]; simp
  unfold Line.jacobian Line.jacEntry
  simp only [if_neg h0, elast_eq]
  refine ⟨?_, ?_, ?_, ?_, ?_⟩ <;> simp [comp, u]

/-- **C97 (defect), singular matrix.** On a vertical line that is not elastic, with a tension pointing down at the starting node, the matrix that the solver inverts is singular. -/
theorem C97_singular (l : Line) (h : Loaded l) (he : l.elastic = false) (hx : l.t0.x = 0) (hy : l.t0.y = 0) (hz : l.t0.z < 0) : l.jacobian.det = 0 := by
  obtain ⟨h1, h2, h3, -, -⟩ := vertical_jac h hx hy hz
  have he' : ¬ l.elastic = true := by rw [he]; simp
  have hk : compliance l = 0 := if_neg he'
  rw [hk, zero_mul] at h1
  unfold M3.det
  rw [h1, h2, h3]
  ring

/-- **C97 (defect), hanging line.** So the initialization of every line that is not elastic, heavier than the fluid, and that hangs with some slack straight below its starting
node, inverts a singular matrix at its first step. -/
theorem C97_hanging (l : Line) (rhoFluid g lz : ℝ) (hq : 0 < (l.props.getLinearDensity - l.props.getSectionArea * rhoFluid) * g) (he : l.elastic = false) (hz : lz < 0)
    (hp : l.stop.positionInWorld .NWU - l.start.positionInWorld .NWU = ⟨0, 0, lz⟩) (hL : -lz < l.len) : (l.initLoad rhoFluid g).guessTension.jacobian.det = 0 := by
  obtain ⟨h1, h2, h3⟩ := C97_guess_vertical (l.initLoad rhoFluid g) hq lz hz hp hL
  have hl := initLoad_loaded l rhoFluid g
  exact C97_singular (l.initLoad rhoFluid g).guessTension ⟨hl.1, hl.2⟩ he h1 h2 h3

/-- **C97 (defect), elastic line.** On a vertical elastic line that hangs (tension pointing down at both ends) the matrix is regular but wrong: the true derivative of the
horizontal residual has the pendulum term `log(|t0| / |tL|) / q`, that the matrix lacks. -/
theorem C97_elastic (l : Line) (h : Loaded l) (hq : 0 < l.q) (hL : 0 < l.len) (hx : l.t0.x = 0) (hy : l.t0.y = 0) (hz : l.t0.z + l.q * l.len < 0) :
    HasDerivAt (fun x : ℝ => ((withT0 l (l.t0 + x • V3.e1)).residual .NWU).x) (Real.log (l.t0.z / (l.t0.z + l.q * l.len)) / l.q + compliance l * l.len) 0 ∧
    l.jacobian.a00 = compliance l * l.len ∧ 0 < Real.log (l.t0.z / (l.t0.z + l.q * l.len)) / l.q := by
  have hz0 : l.t0.z < 0 := by nlinarith
  refine ⟨?_, (vertical_jac h hx hy hz0).1, ?_⟩
  · let F : ℝ → Line := fun x => withT0 l (l.t0 + x • V3.e1)
    have hN : ∀ s, l.t0.z + l.q * s < 0 → N l s = -(l.t0.z + l.q * s) := by
      intro s hs
      unfold N
      rw [hx, hy]
      have : (0 : ℝ) * 0 + 0 * 0 + (l.t0.z + l.q * s) * (l.t0.z + l.q * s) = (-(l.t0.z + l.q * s)) ^ 2 := by ring
      rw [this, Real.sqrt_sq (by linarith)]
    have hz0' : l.t0.z + l.q * 0 < 0 := by linarith
    have n0 := hN 0 hz0'
    have nL := hN l.len hz
    have d0 := (N_along l V3.e1 0 (by rw [n0]; linarith)).sub_const (l.t0.z + l.q * 0)
    have dL := (N_along l V3.e1 l.len (by rw [nL]; linarith)).sub_const (l.t0.z + l.q * l.len)
    have eF : F 0 = l := by
      have : l.t0 + (0 : ℝ) • V3.e1 = l.t0 := by ext <;> simp
      show withT0 l (l.t0 + (0 : ℝ) • V3.e1) = l
      rw [this]
      rfl
    have hFz : ∀ x, (F x).t0.z = l.t0.z := fun x => by
      show l.t0.z + x * 0 = l.t0.z
      ring
    have hFx : ∀ x, (F x).t0.x = x := fun x => by
      show l.t0.x + x * 1 = x
      rw [hx]; ring
    have hFy : ∀ x, (F x).t0.y = 0 := fun x => by
      show l.t0.y + x * 0 = 0
      rw [hy]; ring
    -- `rho` is the square of the horizontal tension over `|t| - t.z`
    have hrho : ∀ x s, l.t0.z + l.q * s < 0 → (F x).rho s = x ^ 2 / (N (F x) s - (l.t0.z + l.q * s)) := by
      intro x s hs
      rw [rho_eq (withT0_loaded h _)]
      have hq' : (withT0 l (l.t0 + x • V3.e1)).q = l.q := rfl
      have hz' : (withT0 l (l.t0 + x • V3.e1)).t0.z = l.t0.z := hFz x
      rw [hq', hz']
      have hsq := N_sq (F x) s
      rw [hFx, hFy, hFz] at hsq
      have hnn := N_nonneg (F x) s
      have hpos : N (F x) s - (l.t0.z + l.q * s) ≠ 0 := by
        have : 0 < N (F x) s - (l.t0.z + l.q * s) := by linarith
        exact this.ne'
      rw [eq_div_iff hpos]
      have hq2 : (F x).q = l.q := rfl
      rw [hq2] at hsq
      show (N (F x) s + (l.t0.z + l.q * s)) * (N (F x) s - (l.t0.z + l.q * s)) = x ^ 2
      linear_combination hsq
    have hg : ∀ x, Real.log ((F x).rho l.len / (F x).rho 0) * (x / l.q) =
        Real.log ((N (F x) 0 - (l.t0.z + l.q * 0)) / (N (F x) l.len - (l.t0.z + l.q * l.len))) * (x / l.q) := by
      intro x
      by_cases hx0 : x = 0
      · rw [hx0]; simp
      · have p1 : 0 < N (F x) l.len - (l.t0.z + l.q * l.len) := by have := N_nonneg (F x) l.len; linarith
        have p0 : 0 < N (F x) 0 - (l.t0.z + l.q * 0) := by have := N_nonneg (F x) 0; linarith
        rw [hrho x _ hz, hrho x 0 hz0']
        congr 2
        field_simp
    have er : ∀ x : ℝ, ((F x).residual .NWU).x = (l.start.positionInWorld .NWU).x +
        Real.log ((N (F x) 0 - (l.t0.z + l.q * 0)) / (N (F x) l.len - (l.t0.z + l.q * l.len))) * (x / l.q) + compliance l * (x * l.len) -
        (l.stop.positionInWorld .NWU).x := by
      intro x
      have e1 := position_eq (withT0_loaded h (l.t0 + x • V3.e1)) hq.ne' l.len
      have e2 : ((F x).residual .NWU).x = ((F x).position l.len .NWU).x - (l.stop.positionInWorld .NWU).x := rfl
      have e3 : ((F x).position l.len .NWU).x = (l.start.positionInWorld .NWU).x + Real.log ((F x).rho l.len / (F x).rho 0) * ((F x).t0.x / l.q) +
          compliance l * ((F x).t0.x * l.len) := congrArg V3.x e1
      rw [e2, e3, hFx, hg]
    have hfun : (fun x : ℝ => ((withT0 l (l.t0 + x • V3.e1)).residual .NWU).x) = fun x => (l.start.positionInWorld .NWU).x +
        Real.log ((N (F x) 0 - (l.t0.z + l.q * 0)) / (N (F x) l.len - (l.t0.z + l.q * l.len))) * (x / l.q) + compliance l * (x * l.len) -
        (l.stop.positionInWorld .NWU).x := funext er
    rw [hfun]
    have v0 : N (F 0) 0 = -(l.t0.z + l.q * 0) := by rw [eF, n0]
    have vL : N (F 0) l.len = -(l.t0.z + l.q * l.len) := by rw [eF, nL]
    have neL : N (F 0) l.len - (l.t0.z + l.q * l.len) ≠ 0 := by
      rw [vL]
      have : 0 < -(l.t0.z + l.q * l.len) - (l.t0.z + l.q * l.len) := by linarith
      exact this.ne'
    have ne0 : N (F 0) 0 - (l.t0.z + l.q * 0) ≠ 0 := by
      rw [v0]
      have : 0 < -(l.t0.z + l.q * 0) - (l.t0.z + l.q * 0) := by linarith
      exact this.ne'
    have dlog := (d0.div dL neL).log (div_ne_zero ne0 neL)
    have dprod := dlog.mul ((hasDerivAt_id (0 : ℝ)).div_const l.q)
    have dall := ((dprod.const_add (l.start.positionInWorld .NWU).x).add (((hasDerivAt_id (0 : ℝ)).mul_const l.len).const_mul (compliance l))).sub_const
      (l.stop.positionInWorld .NWU).x
    refine dall.congr_deriv ?_
    simp only [Pi.div_apply, id, zero_div, mul_zero, zero_add]
    have e0 : (withT0 l (l.t0 + (0 : ℝ) • V3.e1)) = l := eF
    rw [e0, n0, nL]
    have hratio : (-(l.t0.z + l.q * 0) - (l.t0.z + l.q * 0)) / (-(l.t0.z + l.q * l.len) - (l.t0.z + l.q * l.len)) = l.t0.z / (l.t0.z + l.q * l.len) := by
      have : l.t0.z + l.q * l.len ≠ 0 := hz.ne
      have h2 : -(l.t0.z + l.q * l.len) - (l.t0.z + l.q * l.len) = -2 * (l.t0.z + l.q * l.len) := by ring
      have h1 : -(l.t0.z + l.q * 0) - (l.t0.z + l.q * 0) = -2 * l.t0.z := by ring
      rw [h1, h2]
      field_simp
    rw [mul_zero l.q, add_zero] at hratio
    simp only [mul_zero, add_zero]
    rw [hratio]
    ring
  · refine div_pos (Real.log_pos ?_) hq
    rw [one_lt_div_of_neg hz]
    nlinarith

end Frydom.Cable
