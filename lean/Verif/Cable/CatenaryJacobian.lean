import Mathlib.LinearAlgebra.Matrix.ToLinearEquiv
import Verif.Cable.CatenaryLength

/-!
# Catenary line: the Jacobian matrix (C94)

`FrCatenaryLine::analytical_jacobian` (`src/frydom/cable/FrCatenaryLine.cpp:170-220`).
-/

open Classical

noncomputable section

namespace Frydom.Cable
open Frydom.Geom Frydom.Core

/-- `v[i]`. -/
def comp (v : V3) : Fin 3 → ℝ
  | 0 => v.x
  | 1 => v.y
  | 2 => v.z

/-- `M(i, 0), M(i, 1), M(i, 2)`. -/
def row (m : M3) : Fin 3 → V3
  | 0 => ⟨m.a00, m.a01, m.a02⟩
  | 1 => ⟨m.a10, m.a11, m.a12⟩
  | 2 => ⟨m.a20, m.a21, m.a22⟩

namespace Line

/-- `jac_ij` in the loops of `analytical_jacobian` (FrCatenaryLine.cpp:171-217). -/
def jacEntry (l : Line) (i j : Fin 3) : ℝ :=
  let t0n := V3.norm l.t0
  let tL := l.t0 - l.len • l.qvec
  let tLn := V3.norm tL
  let base := -(comp tL j / tLn - comp l.t0 j / t0n) * comp u i / l.q
  let ln_q := Real.log (l.rho l.len / l.rho 0) / l.q
  let diff_ln := (comp tL j / tLn - comp u j) / l.rho l.len - (comp l.t0 j / t0n - comp u j) / l.rho 0
  let Uit0 := V3.dot (row l.umat i) l.t0 / l.q
  let withLog := if l.rho 0 > 0 then base + comp (row l.umat i) j * ln_q + Uit0 * diff_ln else base
  if i = j then withLog + (if l.elastic then l.len / l.props.getEA else 0) else withLog

/-- `analytical_jacobian` (FrCatenaryLine.cpp:170-220): the upper part is computed and copied in the lower one. -/
def jacobian (l : Line) : M3 :=
  ⟨l.jacEntry 0 0, l.jacEntry 0 1, l.jacEntry 0 2, l.jacEntry 0 1, l.jacEntry 1 1, l.jacEntry 1 2, l.jacEntry 0 2, l.jacEntry 1 2, l.jacEntry 2 2⟩

end Line

/-- The same line with another tension at the starting node. -/
def withT0 (l : Line) (t : V3) : Line := { l with t0 := t }

theorem withT0_loaded {l : Line} (h : Loaded l) (t : V3) : Loaded (withT0 l t) := ⟨h.1, h.2⟩

theorem elast_eq (l : Line) : (if l.elastic then l.len / l.props.getEA else 0) = compliance l * l.len := by
  unfold compliance
  split_ifs
  · rw [div_eq_inv_mul]
  · simp

theorem z_rho {l : Line} (h : Loaded l) {s : ℝ} (hN : 0 < N l s) (hr : 0 < l.rho s) :
    ((l.t0.z + l.q * s) / N l s + 1) / l.rho s = 1 / N l s := by
  rw [rho_eq h] at hr ⊢
  field_simp
  ring

/-- The entries, when the logarithm is there. -/
theorem jac_eq {l : Line} (h : Loaded l) (h0 : 0 < l.rho 0) (hL : 0 < l.rho l.len) (hN0 : 0 < N l 0) (hNL : 0 < N l l.len) :
    l.jacobian =
      (let a := (1 / (N l l.len * l.rho l.len) - 1 / (N l 0 * l.rho 0)) / l.q
       let b := (1 / N l l.len - 1 / N l 0) / l.q
       let c := Real.log (l.rho l.len / l.rho 0) / l.q
       let k := compliance l * l.len
       ⟨l.t0.x * l.t0.x * a + c + k, l.t0.x * l.t0.y * a, l.t0.x * b,
        l.t0.x * l.t0.y * a, l.t0.y * l.t0.y * a + c + k, l.t0.y * b,
        l.t0.x * b, l.t0.y * b, ((l.t0.z + l.q * l.len) / N l l.len - l.t0.z / N l 0) / l.q + k⟩) := by
  have et : l.t0 - l.len • l.qvec = ⟨l.t0.x, l.t0.y, l.t0.z + l.q * l.len⟩ := by
    rw [h.qvec]
    ext <;> simp
    ring
  have en : V3.norm (⟨l.t0.x, l.t0.y, l.t0.z + l.q * l.len⟩ : V3) = N l l.len := rfl
  have k1 := z_rho h hNL hL
  have k0 := z_rho h hN0 h0
  rw [mul_zero, add_zero] at k0
  have nN := hNL.ne'
  have nN0 := hN0.ne'
  have nr := hL.ne'
  have nr0 := h0.ne'
  unfold Line.jacobian Line.jacEntry
  simp only [et, en, norm_t0, if_pos h0, elast_eq]
  rw [h.umat]
  generalize Real.log (l.rho l.len / l.rho 0) = lg
  ext
  · simp [comp, row, u, V3.dot]
    field_simp
    ring
  · simp [comp, row, u, V3.dot]
    field_simp
  · simp [comp, row, u, V3.dot]
    rw [k1, k0]
    ring
  · simp [comp, row, u, V3.dot]
    field_simp
  · simp [comp, row, u, V3.dot]
    field_simp
    ring
  · simp [comp, row, u, V3.dot]
    rw [k1, k0]
    ring
  · simp [comp, row, u, V3.dot]
    rw [k1, k0]
    ring
  · simp [comp, row, u, V3.dot]
    rw [k1, k0]
    ring
  · simp [comp, row, u, V3.dot]

theorem lin_deriv (a b : ℝ) : HasDerivAt (fun x : ℝ => a + x * b) b 0 := by
  have := ((hasDerivAt_id (0 : ℝ)).mul_const b).const_add a
  simpa using this

theorem N_along (l : Line) (d : V3) (s : ℝ) (hN : 0 < N l s) :
    HasDerivAt (fun x : ℝ => N (withT0 l (l.t0 + x • d)) s) ((l.t0.x * d.x + l.t0.y * d.y + (l.t0.z + l.q * s) * d.z) / N l s) 0 := by
  have hx := lin_deriv l.t0.x d.x
  have hy := lin_deriv l.t0.y d.y
  have hz := (lin_deriv l.t0.z d.z).add_const (l.q * s)
  have h2 := ((hx.mul hx).add (hy.mul hy)).add (hz.mul hz)
  have hne : (l.t0.x + 0 * d.x) * (l.t0.x + 0 * d.x) + (l.t0.y + 0 * d.y) * (l.t0.y + 0 * d.y) + (l.t0.z + 0 * d.z + l.q * s) * (l.t0.z + 0 * d.z + l.q * s) = N l s ^ 2 := by
    rw [N_sq]; ring
  have h3 := h2.sqrt (by
    simp only [Pi.add_apply, Pi.mul_apply]
    rw [hne]; positivity)
  simp only [Pi.add_apply, Pi.mul_apply] at h3
  rw [hne, Real.sqrt_sq hN.le] at h3
  refine h3.congr_deriv ?_
  field_simp
  ring

theorem rho_along {l : Line} (h : Loaded l) (d : V3) (s : ℝ) (hN : 0 < N l s) :
    HasDerivAt (fun x : ℝ => (withT0 l (l.t0 + x • d)).rho s) ((l.t0.x * d.x + l.t0.y * d.y + (l.t0.z + l.q * s) * d.z) / N l s + d.z) 0 := by
  have e : (fun x : ℝ => (withT0 l (l.t0 + x • d)).rho s) = fun x : ℝ => N (withT0 l (l.t0 + x • d)) s + (l.t0.z + x * d.z + l.q * s) := by
    funext x
    rw [rho_eq (withT0_loaded h _)]
    rfl
  rw [e]
  exact (N_along l d s hN).add ((lin_deriv l.t0.z d.z).add_const (l.q * s))

theorem log_along {l : Line} (h : Loaded l) (d : V3) (h0 : 0 < l.rho 0) (hL : 0 < l.rho l.len) (hN0 : 0 < N l 0) (hNL : 0 < N l l.len) :
    HasDerivAt (fun x : ℝ => Real.log ((withT0 l (l.t0 + x • d)).rho l.len / (withT0 l (l.t0 + x • d)).rho 0))
      (((l.t0.x * d.x + l.t0.y * d.y + (l.t0.z + l.q * l.len) * d.z) / N l l.len + d.z) / l.rho l.len -
       ((l.t0.x * d.x + l.t0.y * d.y + (l.t0.z + l.q * 0) * d.z) / N l 0 + d.z) / l.rho 0) 0 := by
  have e0 : withT0 l (l.t0 + (0 : ℝ) • d) = l := by
    have : l.t0 + (0 : ℝ) • d = l.t0 := by ext <;> simp
    rw [this]
    rfl
  have hdL := rho_along h d l.len hNL
  have hd0 := rho_along h d 0 hN0
  have h1 := (hdL.div hd0 (by rw [e0]; exact h0.ne')).log (by
    simp only [Pi.div_apply]
    rw [e0]; positivity)
  simp only [Pi.div_apply] at h1
  rw [e0] at h1
  refine h1.congr_deriv ?_
  field_simp

/-- **C94, the Jacobian.** Unless the tension points straight down at one end, the matrix given to the Newton solver is the derivative of the residual with respect to the
tension at the starting node, in every direction. -/
theorem C94_derivative (l : Line) (h : Loaded l) (hq : l.q ≠ 0) (ht : l.t0.x ≠ 0 ∨ l.t0.y ≠ 0 ∨ (0 < l.t0.z ∧ 0 < l.t0.z + l.q * l.len)) (d : V3) :
    HasDeriv3 (fun x : ℝ => (withT0 l (l.t0 + x • d)).residual .NWU) (l.jacobian.mulVec d) 0 := by
  have hr : ∀ s, (0 < l.t0.z + l.q * s ∨ l.t0.x ≠ 0 ∨ l.t0.y ≠ 0) → 0 < l.rho s := by
    intro s hs
    by_contra hc
    have hz := horiz_zero h s hc
    rcases hs with hs | hs | hs
    · have := N_nonneg l s
      rw [rho_eq h] at hc
      exact hc (by linarith)
    · exact hs hz.1
    · exact hs hz.2
  have h0 : 0 < l.rho 0 := hr 0 (by rw [mul_zero, add_zero]; tauto)
  have hL : 0 < l.rho l.len := hr l.len (by tauto)
  have hn : ∀ s, 0 < l.rho s → 0 < N l s := by
    intro s hs
    rcases (N_nonneg l s).lt_or_eq with h1 | h1
    · exact h1
    · exfalso
      rw [rho_eq h, ← h1] at hs
      have := N_sq l s
      rw [← h1] at this
      nlinarith [mul_self_nonneg l.t0.x, mul_self_nonneg l.t0.y]
  have hN0 := hn 0 h0
  have hNL := hn _ hL
  have hlog := log_along h d h0 hL hN0 hNL
  have e0 : withT0 l (l.t0 + (0 : ℝ) • d) = l := by
    have : l.t0 + (0 : ℝ) • d = l.t0 := by ext <;> simp
    rw [this]
    rfl
  have er : ∀ x : ℝ, (withT0 l (l.t0 + x • d)).residual .NWU = (withT0 l (l.t0 + x • d)).position l.len .NWU - l.stop.positionInWorld .NWU := fun x => rfl
  have ep : ∀ x : ℝ, (withT0 l (l.t0 + x • d)).position l.len .NWU =
      ⟨(l.start.positionInWorld .NWU).x + Real.log ((withT0 l (l.t0 + x • d)).rho l.len / (withT0 l (l.t0 + x • d)).rho 0) * ((l.t0.x + x * d.x) / l.q) +
         compliance l * ((l.t0.x + x * d.x) * l.len),
       (l.start.positionInWorld .NWU).y + Real.log ((withT0 l (l.t0 + x • d)).rho l.len / (withT0 l (l.t0 + x • d)).rho 0) * ((l.t0.y + x * d.y) / l.q) +
         compliance l * ((l.t0.y + x * d.y) * l.len),
       (l.start.positionInWorld .NWU).z + (N (withT0 l (l.t0 + x • d)) l.len - N (withT0 l (l.t0 + x • d)) 0) / l.q +
         compliance l * ((l.t0.z + x * d.z) * l.len + l.q * l.len ^ 2 / 2)⟩ :=
    fun x => position_eq (withT0_loaded h (l.t0 + x • d)) hq l.len
  have k1 := z_rho h hNL hL
  have k0 := z_rho h hN0 h0
  unfold HasDeriv3
  simp only [er, ep, V3.sub_x, V3.sub_y, V3.sub_z]
  rw [jac_eq h h0 hL hN0 hNL]
  have nN := hNL.ne'
  have nN0 := hN0.ne'
  have nr := hL.ne'
  have nr0 := h0.ne'
  have key : ∀ s, 0 < N l s → 0 < l.rho s → ((l.t0.x * d.x + l.t0.y * d.y + (l.t0.z + l.q * s) * d.z) / N l s + d.z) / l.rho s =
      (l.t0.x * d.x + l.t0.y * d.y) / (N l s * l.rho s) + d.z / N l s := by
    intro s h1 h2
    have := z_rho h h1 h2
    have e : ((l.t0.x * d.x + l.t0.y * d.y + (l.t0.z + l.q * s) * d.z) / N l s + d.z) / l.rho s =
      (l.t0.x * d.x + l.t0.y * d.y) / (N l s * l.rho s) + d.z * (((l.t0.z + l.q * s) / N l s + 1) / l.rho s) := by
      field_simp
      ring
    rw [e, this]
    ring
  rw [key _ hNL hL, key 0 hN0 h0] at hlog
  refine ⟨?_, ?_, ?_⟩
  · have h1 := (((hlog.mul ((lin_deriv l.t0.x d.x).div_const l.q)).const_add (l.start.positionInWorld .NWU).x).add
      (((lin_deriv l.t0.x d.x).mul_const l.len).const_mul (compliance l))).sub_const (l.stop.positionInWorld .NWU).x
    refine h1.congr_deriv ?_
    rw [e0]
    generalize Real.log (l.rho l.len / l.rho 0) = lg
    simp only [M3.mulVec_x]
    ring
  · have h1 := (((hlog.mul ((lin_deriv l.t0.y d.y).div_const l.q)).const_add (l.start.positionInWorld .NWU).y).add
      (((lin_deriv l.t0.y d.y).mul_const l.len).const_mul (compliance l))).sub_const (l.stop.positionInWorld .NWU).y
    refine h1.congr_deriv ?_
    rw [e0]
    generalize Real.log (l.rho l.len / l.rho 0) = lg
    simp only [M3.mulVec_y]
    ring
  · have h1 := (((((N_along l d l.len hNL).sub (N_along l d 0 hN0)).div_const l.q).const_add (l.start.positionInWorld .NWU).z).add
      ((((lin_deriv l.t0.z d.z).mul_const l.len).add_const (l.q * l.len ^ 2 / 2)).const_mul (compliance l))).sub_const (l.stop.positionInWorld .NWU).z
    refine h1.congr_deriv ?_
    simp only [M3.mulVec_z]
    ring

/-- A continuous function with a positive derivative, except perhaps at one point, increases strictly. -/
theorem strictMono_off {f f' : ℝ → ℝ} (s0 : ℝ) (hd : ∀ s, HasDerivAt f (f' s) s) (hn : ∀ s, s ≠ s0 → 0 < f' s) : StrictMono f := by
  have hc : Continuous f := continuous_iff_continuousAt.2 fun s => (hd s).continuousAt
  refine StrictMonoOn.Iic_union_Ici (a := s0) ?_ ?_
  · refine strictMonoOn_of_deriv_pos (convex_Iic s0) hc.continuousOn ?_
    intro s hs
    rw [interior_Iic] at hs
    rw [(hd s).deriv]
    exact hn s (ne_of_lt hs)
  · refine strictMonoOn_of_deriv_pos (convex_Ici s0) hc.continuousOn ?_
    intro s hs
    rw [interior_Ici] at hs
    rw [(hd s).deriv]
    exact hn s (ne_of_gt hs)

theorem det_ne_zero_of_pos (m : M3) (hp : ∀ d : V3, d ≠ 0 → 0 < V3.dot d (m.mulVec d)) : m.det ≠ 0 := by
  intro h0
  let M : Matrix (Fin 3) (Fin 3) ℝ := !![m.a00, m.a01, m.a02; m.a10, m.a11, m.a12; m.a20, m.a21, m.a22]
  have hM : M.det = 0 := by
    rw [← h0, Matrix.det_fin_three]
    simp [M, M3.det]
    ring
  obtain ⟨v, hv, hv0⟩ := Matrix.exists_mulVec_eq_zero_iff.2 hM
  have c0 := congrFun hv0 0
  have c1 := congrFun hv0 1
  have c2 := congrFun hv0 2
  simp [M, Matrix.mulVec, dotProduct, Fin.sum_univ_three] at c0 c1 c2
  have hd : (⟨v 0, v 1, v 2⟩ : V3) ≠ 0 := by
    intro h
    apply hv
    funext i
    fin_cases i
    · exact congrArg V3.x h
    · exact congrArg V3.y h
    · exact congrArg V3.z h
  have := hp _ hd
  have e : m.mulVec ⟨v 0, v 1, v 2⟩ = 0 := by
    ext
    · exact c0
    · exact c1
    · exact c2
  rw [e] at this
  simp [V3.dot] at this

/-- **C94, positive.** Whenever the line is not vertical, the matrix is symmetric and positive definite, hence it can be inverted: the Newton step exists. -/
theorem C94_positive (l : Line) (h : Loaded l) (hq : l.q ≠ 0) (hL : 0 < l.len) (hEA : l.elastic = true → 0 < l.props.getEA) (ht : l.t0.x ≠ 0 ∨ l.t0.y ≠ 0) :
    l.jacobian.transpose = l.jacobian ∧ (∀ d : V3, d ≠ 0 → 0 < V3.dot d (l.jacobian.mulVec d)) ∧ l.jacobian.det ≠ 0 := by
  have hk : 0 ≤ compliance l := by
    unfold compliance
    split_ifs with he
    · exact (inv_pos.2 (hEA he)).le
    · exact le_rfl
  have hr : ∀ s, 0 < l.rho s := by
    intro s
    by_contra hc
    have hz := horiz_zero h s hc
    rcases ht with hs | hs
    · exact hs hz.1
    · exact hs hz.2
  have hn : ∀ s, 0 < N l s := by
    intro s
    have hs := hr s
    rcases (N_nonneg l s).lt_or_eq with h1 | h1
    · exact h1
    · exfalso
      rw [rho_eq h, ← h1] at hs
      have := N_sq l s
      rw [← h1] at this
      nlinarith [mul_self_nonneg l.t0.x, mul_self_nonneg l.t0.y]
  have hpos : ∀ d : V3, d ≠ 0 → 0 < V3.dot d (l.jacobian.mulVec d) := by
    intro d hd
    rw [jac_eq h (hr 0) (hr _) (hn 0) (hn _)]
    -- the quadratic form for the part of the line up to `s`
    let hx := l.t0.x * d.x + l.t0.y * d.y
    let f : ℝ → ℝ := fun s => hx ^ 2 * ((1 / (N l s * l.rho s) - 1 / (N l 0 * l.rho 0)) / l.q) + 2 * hx * d.z * ((1 / N l s - 1 / N l 0) / l.q) +
      (d.x ^ 2 + d.y ^ 2) * (Real.log (l.rho s / l.rho 0) / l.q) + d.z ^ 2 * (((l.t0.z + l.q * s) / N l s - l.t0.z / N l 0) / l.q) +
      compliance l * s * (d.x ^ 2 + d.y ^ 2 + d.z ^ 2)
    let f' : ℝ → ℝ := fun s => ((l.t0.y * d.z - (l.t0.z + l.q * s) * d.y) ^ 2 + ((l.t0.z + l.q * s) * d.x - l.t0.x * d.z) ^ 2 +
      (l.t0.x * d.y - l.t0.y * d.x) ^ 2) / N l s ^ 3 + compliance l * (d.x ^ 2 + d.y ^ 2 + d.z ^ 2)
    have hf : ∀ s, HasDerivAt f (f' s) s := by
      intro s
      have n1 := (hn s).ne'
      have r1 := (hr s).ne'
      have dN := N_deriv (hn s)
      have dr := rho_deriv h (hn s)
      have dz := z_deriv l s
      have a1 : HasDerivAt (fun s => 1 / (N l s * l.rho s)) (-l.q / N l s ^ 3) s := by
        have := (dN.mul dr).inv (mul_ne_zero n1 r1)
        simp only [one_div]
        refine this.congr_deriv ?_
        simp only [Pi.mul_apply]
        have e : l.t0.z + l.q * s = l.rho s - N l s := by rw [rho_eq h]; ring
        rw [e]
        field_simp
        ring
      have a2 : HasDerivAt (fun s => 1 / N l s) (-(l.q * (l.t0.z + l.q * s)) / N l s ^ 3) s := by
        have := dN.inv n1
        simp only [one_div]
        refine this.congr_deriv ?_
        field_simp
      have a3 := log_deriv h (hn s) (hr 0) (hr s)
      have a4 : HasDerivAt (fun s => (l.t0.z + l.q * s) / N l s) (l.q * (l.t0.x * l.t0.x + l.t0.y * l.t0.y) / N l s ^ 3) s := by
        have := dz.div dN n1
        refine this.congr_deriv ?_
        have e := N_sq l s
        field_simp
        rw [e]
        ring
      have b1 := ((a1.sub_const (1 / (N l 0 * l.rho 0))).div_const l.q).const_mul (hx ^ 2)
      have b2 := ((a2.sub_const (1 / N l 0)).div_const l.q).const_mul (2 * hx * d.z)
      have b3 := (a3.div_const l.q).const_mul (d.x ^ 2 + d.y ^ 2)
      have b4 := ((a4.sub_const (l.t0.z / N l 0)).div_const l.q).const_mul (d.z ^ 2)
      have b5 := (((hasDerivAt_id s).const_mul (compliance l)).mul_const (d.x ^ 2 + d.y ^ 2 + d.z ^ 2))
      refine ((((b1.add b2).add b3).add b4).add b5).congr_deriv ?_
      have e := N_sq l s
      have e3 : (d.x ^ 2 + d.y ^ 2) * (l.q / N l s / l.q) = (d.x ^ 2 + d.y ^ 2) *
          (l.t0.x * l.t0.x + l.t0.y * l.t0.y + (l.t0.z + l.q * s) * (l.t0.z + l.q * s)) / N l s ^ 3 := by
        rw [← e]
        field_simp
      rw [e3]
      simp only [f', hx]
      field_simp
      ring
    have hx1 : ∃ s1, ∀ s, s ≠ s1 → 0 < f' s := by
      have hnn : ∀ s, 0 ≤ (l.t0.y * d.z - (l.t0.z + l.q * s) * d.y) ^ 2 + ((l.t0.z + l.q * s) * d.x - l.t0.x * d.z) ^ 2 + (l.t0.x * d.y - l.t0.y * d.x) ^ 2 :=
        fun s => by positivity
      have hkd : 0 ≤ compliance l * (d.x ^ 2 + d.y ^ 2 + d.z ^ 2) := mul_nonneg hk (by positivity)
      have hz : ∀ s, ¬ 0 < f' s → l.t0.y * d.z - (l.t0.z + l.q * s) * d.y = 0 ∧ (l.t0.z + l.q * s) * d.x - l.t0.x * d.z = 0 := by
        intro s hs
        have hp : 0 < N l s ^ 3 := pow_pos (hn s) 3
        have h0 : (l.t0.y * d.z - (l.t0.z + l.q * s) * d.y) ^ 2 + ((l.t0.z + l.q * s) * d.x - l.t0.x * d.z) ^ 2 + (l.t0.x * d.y - l.t0.y * d.x) ^ 2 = 0 := by
          by_contra hne
          have := div_pos (lt_of_le_of_ne (hnn s) (Ne.symm hne)) hp
          exact hs (by simp only [f']; linarith)
        constructor <;> nlinarith [sq_nonneg (l.t0.y * d.z - (l.t0.z + l.q * s) * d.y), sq_nonneg ((l.t0.z + l.q * s) * d.x - l.t0.x * d.z),
          sq_nonneg (l.t0.x * d.y - l.t0.y * d.x)]
      by_contra hno
      push Not at hno
      obtain ⟨a, -, ha⟩ := hno 0
      obtain ⟨b, hab, hb⟩ := hno a
      obtain ⟨a1, a2⟩ := hz a (not_lt.2 ha)
      obtain ⟨b1, b2⟩ := hz b (not_lt.2 hb)
      have hqab : l.q * (b - a) ≠ 0 := mul_ne_zero hq (sub_ne_zero.2 hab)
      have dy0 : d.y = 0 := by
        have : l.q * (b - a) * d.y = 0 := by linear_combination a1 - b1
        exact (mul_eq_zero.1 this).resolve_left hqab
      have dx0 : d.x = 0 := by
        have : l.q * (b - a) * d.x = 0 := by linear_combination b2 - a2
        exact (mul_eq_zero.1 this).resolve_left hqab
      rw [dy0, mul_zero, sub_zero] at a1
      rw [dx0, mul_zero, zero_sub, neg_eq_zero] at a2
      apply hd
      ext
      · exact dx0
      · exact dy0
      · rcases ht with h1 | h1
        · exact (mul_eq_zero.1 a2).resolve_left h1
        · exact (mul_eq_zero.1 a1).resolve_left h1
    obtain ⟨s1, hs1⟩ := hx1
    have hmono := strictMono_off s1 hf hs1 hL
    have hf0 : f 0 = 0 := by
      simp only [f]
      rw [div_self (hr 0).ne', Real.log_one, mul_zero l.q, add_zero]
      ring
    rw [hf0] at hmono
    refine lt_of_lt_of_eq hmono ?_
    simp only [f, hx, V3.dot, M3.mulVec_x, M3.mulVec_y, M3.mulVec_z]
    ring
  refine ⟨?_, hpos, det_ne_zero_of_pos _ hpos⟩
  rfl

/-- Non-vacuity: the Jacobian of a 100 m line that is not elastic, with an oblique tension, can be inverted and is the derivative of the residual. -/
example (a b : Node) : ∃ l : Line, l.elastic = false ∧ l.jacobian.det ≠ 0 ∧ ∀ d, HasDeriv3 (fun x : ℝ => (withT0 l (l.t0 + x • d)).residual .NWU) (l.jacobian.mulVec d) 0 := by
  have hq : 0 < ({ (Line.new {} false 100 a b).initLoad 1025 9.81 with t0 := ⟨1000, 0, -5000⟩ } : Line).q := by
    show 0 < (616.538 - 0.05 * 1025) * (9.81 : ℝ)
    norm_num
  have hl := initLoad_loaded (Line.new {} false 100 a b) 1025 9.81
  refine ⟨{ (Line.new {} false 100 a b).initLoad 1025 9.81 with t0 := ⟨1000, 0, -5000⟩ }, rfl, ?_, ?_⟩
  · exact (C94_positive { (Line.new {} false 100 a b).initLoad 1025 9.81 with t0 := ⟨1000, 0, -5000⟩ } ⟨hl.1, hl.2⟩ hq.ne' (by show (0 : ℝ) < 100; norm_num) (fun h => absurd (show false = true from h) Bool.false_ne_true) (Or.inl (show (1000 : ℝ) ≠ 0 by norm_num))).2.2
  · exact C94_derivative { (Line.new {} false 100 a b).initLoad 1025 9.81 with t0 := ⟨1000, 0, -5000⟩ } ⟨hl.1, hl.2⟩ hq.ne' (Or.inl (show (1000 : ℝ) ≠ 0 by norm_num))

end Frydom.Cable
