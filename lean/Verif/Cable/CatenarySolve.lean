import Verif.Cable.CatenaryJacobian

/-!
# Catenary line: the Newton solver (C95), uniqueness and accuracy of the tension (C96), vertical lines (C97)

`FrCatenaryLine::solve`, `Initialize`, `Compute` (`src/frydom/cable/FrCatenaryLine.cpp:222-311`).
-/

open Classical

noncomputable section

namespace Frydom.Cable
open Frydom.Geom Frydom.Core

/-- `jac.Inverse(); jac * (-res)` (FrCatenaryLine.cpp:227-228, 243-244). -/
def newtonStep (inv : M3 → M3) (l : Line) : V3 := (inv l.jacobian).mulVec (-(l.residual .NWU))

/-- The inner loop (FrCatenaryLine.cpp:246-251): the factor is halved until `relax * dt <= d`; `none` if it never stops. The message on the console is left out. -/
def halve (d dt relax : ℝ) : Option ℝ :=
  if h : ∃ k : ℕ, ¬ d < relax * 0.5 ^ k * dt then some (relax * 0.5 ^ Nat.find h) else none

/-- The loop of `solve` (FrCatenaryLine.cpp:236-259), with the number of Newton steps made; `none` if the inner loop never stops. -/
def solveLoop (inv : M3 → M3) (l : Line) (delta : V3) (iter : ℕ) : Option (Line × ℕ) :=
  if _h : infNorm (l.residual .NWU) > l.tol ∧ iter < l.itermax then
    match halve (infNorm delta) (infNorm (newtonStep inv l)) l.relax with
    | none => none
    | some r => solveLoop inv { l with t0 := l.t0 + r • newtonStep inv l, relax := min 1 (r * 2) } (newtonStep inv l) (iter + 1)
  else some (l, iter)
termination_by l.itermax - iter
decreasing_by
  show l.itermax - (iter + 1) < l.itermax - iter
  omega

/-- `solve` (FrCatenaryLine.cpp:222-261). -/
def solve (inv : M3 → M3) (l : Line) : Option (Line × ℕ) :=
  solveLoop inv { l with t0 := l.t0 + l.relax • newtonStep inv l } (newtonStep inv l) 1

/-- `Initialize` (FrCatenaryLine.cpp:263-299), without the creation of the forces and assets. -/
def initialize' (inv : M3 → M3) (l : Line) (rhoFluid g : ℝ) : Option Line := (solve inv (l.initLoad rhoFluid g).guessTension).map (·.1)

/-- `Compute` (FrCatenaryLine.cpp:301-311). -/
def compute (inv : M3 → M3) (l : Line) (t : ℝ) : Option Line := (solve inv { l with winch := l.winch.compute t }).map (·.1)

/-! ## C95 -/

/-- Specification: only the tension and the relaxation factor differ. -/
def SameLine (l l' : Line) : Prop := ∃ t r, l' = { l with t0 := t, relax := r }

theorem loop_spec (inv : M3 → M3) (m : ℕ) : ∀ (l : Line) (delta : V3) (iter : ℕ) (l' : Line) (n : ℕ), l.itermax - iter = m → solveLoop inv l delta iter = some (l', n) →
    SameLine l l' ∧ iter ≤ n ∧ (infNorm (l'.residual .NWU) ≤ l.tol ∧ n ≤ max iter l.itermax ∨ l.tol < infNorm (l'.residual .NWU) ∧ n = max iter l.itermax) ∧
    (0 < l.relax ∧ l.relax ≤ 1 → 0 < l'.relax ∧ l'.relax ≤ 1) := by
  induction m using Nat.strong_induction_on with
  | _ m ih =>
    intro l delta iter l' n hm hs
    rw [solveLoop] at hs
    by_cases hc : infNorm (l.residual .NWU) > l.tol ∧ iter < l.itermax
    · rw [dif_pos hc] at hs
      cases hh : halve (infNorm delta) (infNorm (newtonStep inv l)) l.relax with
      | none => rw [hh] at hs; exact absurd hs (by simp)
      | some r =>
        rw [hh] at hs
        simp only at hs
        obtain ⟨⟨t, r', h1⟩, h2, h3, h4⟩ := ih (l.itermax - (iter + 1)) (by omega)
          { l with t0 := l.t0 + r • newtonStep inv l, relax := min 1 (r * 2) } (newtonStep inv l) (iter + 1) l' n rfl hs
        refine ⟨⟨t, r', h1⟩, by omega, ?_, ?_⟩
        · have e : max (iter + 1) l.itermax = max iter l.itermax := by omega
          have h3' : infNorm (l'.residual .NWU) ≤ l.tol ∧ n ≤ max (iter + 1) l.itermax ∨ l.tol < infNorm (l'.residual .NWU) ∧ n = max (iter + 1) l.itermax := h3
          rwa [e] at h3'
        · intro hr
          have hrpos : 0 < r := by
            unfold halve at hh
            split_ifs at hh with hk
            have := Option.some.inj hh
            rw [← this]
            exact mul_pos hr.1 (by positivity)
          exact h4 ⟨lt_min one_pos (by linarith), min_le_left _ _⟩
    · rw [dif_neg hc] at hs
      have e := Option.some.inj hs
      have e1 : l = l' := congrArg Prod.fst e
      have e2 : iter = n := congrArg Prod.snd e
      subst e1; subst e2
      refine ⟨⟨l.t0, l.relax, rfl⟩, le_refl _, ?_, id⟩
      by_cases hlt : infNorm (l.residual .NWU) > l.tol
      · right
        refine ⟨hlt, ?_⟩
        have : ¬ iter < l.itermax := fun h => hc ⟨hlt, h⟩
        omega
      · left
        exact ⟨not_lt.1 hlt, le_max_left _ _⟩

/-- **C95, what the solver returns.** The solver changes the tension and the relaxation factor only. It makes at least one Newton step, and either the residual is
within the tolerance, or the maximum number of steps was made and the residual is over the tolerance. The relaxation factor stays between 0 and 1. -/
theorem C95_exit (inv : M3 → M3) (l l' : Line) (n : ℕ) (hs : solve inv l = some (l', n)) :
    SameLine l l' ∧ 1 ≤ n ∧ (infNorm (l'.residual .NWU) ≤ l.tol ∧ n ≤ max 1 l.itermax ∨ l.tol < infNorm (l'.residual .NWU) ∧ n = max 1 l.itermax) ∧
    (0 < l.relax ∧ l.relax ≤ 1 → 0 < l'.relax ∧ l'.relax ≤ 1) := by
  obtain ⟨⟨t, r, h1⟩, h2, h3, h4⟩ := loop_spec inv _ _ _ _ _ _ rfl hs
  exact ⟨⟨t, r, h1⟩, h2, h3, h4⟩

theorem infNorm_pos {v : V3} (h : v ≠ 0) : 0 < infNorm v := by
  by_contra hc
  apply h
  have hx : |v.x| ≤ infNorm v := le_max_left _ _
  have hy : |v.y| ≤ infNorm v := le_trans (le_max_left _ _) (le_max_right _ _)
  have hz : |v.z| ≤ infNorm v := le_trans (le_max_right _ _) (le_max_right _ _)
  have := not_lt.1 hc
  ext
  · exact abs_nonpos_iff.1 (hx.trans this)
  · exact abs_nonpos_iff.1 (hy.trans this)
  · exact abs_nonpos_iff.1 (hz.trans this)

theorem infNorm_zero : infNorm 0 = 0 := by simp [infNorm]

/-- **C95, at rest.** A line whose tension is the solution is left as it is (with the number of steps 1), for every `inv`. -/
theorem C95_stationary (inv : M3 → M3) (l : Line) (htol : 0 ≤ l.tol) (h : l.residual .NWU = 0) : solve inv l = some (l, 1) := by
  have e : newtonStep inv l = 0 := by
    unfold newtonStep
    rw [h]
    ext <;> simp
  have e2 : ({ l with t0 := l.t0 + l.relax • newtonStep inv l } : Line) = l := by
    have : l.t0 + l.relax • newtonStep inv l = l.t0 := by
      rw [e]
      ext <;> simp
    rw [this]
  unfold solve
  rw [e2, solveLoop, dif_neg]
  rw [h, infNorm_zero]
  exact fun h => absurd h.1 (not_lt.2 htol)

theorem halve_some (d dt relax : ℝ) (hd : 0 < d) (hr : 0 < relax) (hdt : 0 ≤ dt) : ∃ r, halve d dt relax = some r ∧ 0 < r ∧ r * dt ≤ d := by
  have hk : ∃ k : ℕ, ¬ d < relax * 0.5 ^ k * dt := by
    have hp : 0 < d / (relax * (dt + 1)) := by positivity
    obtain ⟨k, hk⟩ := exists_pow_lt_of_lt_one hp (show (0.5 : ℝ) < 1 by norm_num)
    refine ⟨k, not_lt.2 ?_⟩
    rw [lt_div_iff₀ (by positivity)] at hk
    have : (0 : ℝ) < 0.5 ^ k := by positivity
    nlinarith
  refine ⟨relax * 0.5 ^ Nat.find hk, ?_, by positivity, not_lt.1 (Nat.find_spec hk)⟩
  unfold halve
  rw [dif_pos hk]

theorem loop_terminates (inv : M3 → M3) (m : ℕ) : ∀ (l : Line) (delta : V3) (iter : ℕ), l.itermax - iter = m → 0 ≤ l.tol → 0 < l.relax →
    (∀ t v, (inv (withT0 l t).jacobian).mulVec v = 0 → v = 0) → (delta ≠ 0 ∨ infNorm (l.residual .NWU) ≤ l.tol) → ∃ r, solveLoop inv l delta iter = some r := by
  induction m using Nat.strong_induction_on with
  | _ m ih =>
    intro l delta iter hm htol hr hinv hd
    rw [solveLoop]
    by_cases hc : infNorm (l.residual .NWU) > l.tol ∧ iter < l.itermax
    · rw [dif_pos hc]
      have hd0 : delta ≠ 0 := hd.resolve_right (not_le.2 hc.1)
      have hres : l.residual .NWU ≠ 0 := by
        intro h0
        rw [h0, infNorm_zero] at hc
        exact absurd hc.1 (not_lt.2 htol)
      have hd1 : newtonStep inv l ≠ 0 := by
        intro h0
        have := hinv l.t0 _ h0
        apply hres
        have hx := congrArg V3.x this
        have hy := congrArg V3.y this
        have hz := congrArg V3.z this
        simp at hx hy hz
        ext
        exacts [hx, hy, hz]
      obtain ⟨r, h1, h2, -⟩ := halve_some (infNorm delta) (infNorm (newtonStep inv l)) l.relax (infNorm_pos hd0) hr (infNorm_pos hd1).le
      rw [h1]
      simp only
      exact ih (l.itermax - (iter + 1)) (by omega) { l with t0 := l.t0 + r • newtonStep inv l, relax := min 1 (r * 2) } _ _ rfl htol (lt_min one_pos (by linarith)) hinv (Or.inl hd1)
    · rw [dif_neg hc]
      exact ⟨_, rfl⟩

/-- **C95, the solver returns.** If the inverse matrices the solver uses are one-to-one (on every Jacobian matrix of the line), with a
tolerance that is not negative and a positive relaxation factor, the solver returns: the inner loop always stops. -/
theorem C95_returns (inv : M3 → M3) (l : Line) (htol : 0 ≤ l.tol) (hr : 0 < l.relax) (hinv : ∀ t v, (inv (withT0 l t).jacobian).mulVec v = 0 → v = 0) :
    ∃ r, solve inv l = some r := by
  unfold solve
  refine loop_terminates inv _ _ _ _ rfl htol hr hinv ?_
  by_cases h0 : newtonStep inv l = 0
  · right
    have hres : l.residual .NWU = 0 := by
      have := hinv l.t0 _ h0
      have hx := congrArg V3.x this
      have hy := congrArg V3.y this
      have hz := congrArg V3.z this
      simp at hx hy hz
      ext
      exacts [hx, hy, hz]
    have : ({ l with t0 := l.t0 + l.relax • newtonStep inv l } : Line) = l := by
      have : l.t0 + l.relax • newtonStep inv l = l.t0 := by
        rw [h0]
        ext <;> simp
      rw [this]
    rw [this, hres, infNorm_zero]
    exact htol
  · exact Or.inl h0

/-- Non-vacuity: with an inversion that gives the identity the solver returns, from any state. -/
example (l : Line) (htol : l.tol = 1e-6) (hr : l.relax = 0.1) : ∃ r, solve (fun _ => M3.one) l = some r := by
  refine C95_returns _ l (by rw [htol]; norm_num) (by rw [hr]; norm_num) fun t v h => ?_
  have e : M3.one.mulVec v = v := by ext <;> simp [M3.one]
  rw [← e]
  exact h

/-- **C95, the Newton step.** With a true inverse, the step solves the linearized problem: the Jacobian matrix times the step is minus the residual. -/
theorem C95_newton (inv : M3 → M3) (l : Line) (hinv : l.jacobian.mul (inv l.jacobian) = M3.one) : l.jacobian.mulVec (newtonStep inv l) = -(l.residual .NWU) := by
  unfold newtonStep
  rw [← Q.mulVec_mul, hinv]
  ext <;> simp [M3.one]

/-- **C95, silent failure.** For a line that is not elastic and whose nodes are too far apart, whatever the inversion, the solver makes all its steps and returns a tension with
which the line does not reach its ending node; nothing is returned to the caller. -/
theorem C95_too_short (inv : M3 → M3) (l l' : Line) (n : ℕ) (h : Loaded l) (hq : l.q ≠ 0) (hL : 0 ≤ l.len) (he : l.elastic = false)
    (hd : l.tol < (V3.norm (l.stop.positionInWorld .NWU - l.start.positionInWorld .NWU) - l.len) / Real.sqrt 3) (hs : solve inv l = some (l', n)) :
    n = max 1 l.itermax ∧ l.tol < infNorm (l'.residual .NWU) := by
  obtain ⟨⟨t, r, h1⟩, -, h3, -⟩ := C95_exit inv l l' n hs
  have hres : l.tol < infNorm (l'.residual .NWU) := by
    refine lt_of_lt_of_le hd ?_
    rw [h1]
    exact C93_too_short { l with t0 := t, relax := r } ⟨h.1, h.2⟩ hq hL he
  rcases h3 with h3 | h3
  · exact absurd h3.1 (not_le.2 hres)
  · exact ⟨h3.2, hres⟩

/-- What happens to a line after its initialization: the simulation computes it, its nodes are carried by their bodies, the user changes the speed, the length, the properties. -/
inductive LineOp
  | compute (t : ℝ)
  | nodes (a b : Node)
  | speed (v : ℝ)
  | length (L : ℝ)
  | props (p : CableProps)

/-- One of them. -/
def LineOp.run (inv : M3 → M3) (l : Line) : LineOp → Option Line
  | .compute t => Cable.compute inv l t
  | .nodes a b => some { l with start := a, stop := b }
  | .speed v => some { l with winch := l.winch.setSpeed v }
  | .length L => some { l with winch := l.winch.setLength L }
  | .props p => some { l with props := p }

theorem sameLine_loaded {l l' : Line} (h : Loaded l) (hs : SameLine l l') : Loaded l' ∧ l'.q = l.q := by
  obtain ⟨t, r, rfl⟩ := hs
  exact ⟨⟨h.1, h.2⟩, rfl⟩

theorem run_loaded (inv : M3 → M3) (o : LineOp) (l l' : Line) (h : Loaded l) (hr : o.run inv l = some l') : Loaded l' ∧ l'.q = l.q := by
  cases o with
  | compute t =>
    have hr : Cable.compute inv l t = some l' := hr
    unfold Cable.compute at hr
    cases hs : solve inv { l with winch := l.winch.compute t } with
    | none => rw [hs] at hr; exact absurd hr (by simp)
    | some r =>
      rw [hs] at hr
      have e : r.1 = l' := by simpa using hr
      have := (C95_exit inv { l with winch := l.winch.compute t } r.1 r.2 hs).1
      rw [e] at this
      exact sameLine_loaded (l := { l with winch := l.winch.compute t }) ⟨h.1, h.2⟩ this
  | nodes a b =>
    have e := Option.some.inj hr
    rw [← e]
    exact ⟨⟨h.1, h.2⟩, rfl⟩
  | speed v =>
    have e := Option.some.inj hr
    rw [← e]
    exact ⟨⟨h.1, h.2⟩, rfl⟩
  | length L =>
    have e := Option.some.inj hr
    rw [← e]
    exact ⟨⟨h.1, h.2⟩, rfl⟩
  | props p =>
    have e := Option.some.inj hr
    rw [← e]
    exact ⟨⟨h.1, h.2⟩, rfl⟩

/-- **C91, C92, histories.** From its initialization on, through any sequence of computations, motions of the nodes and changes by the user, whether or not the solver has
converged, the line is an elastic cable in equilibrium under the load of the time of initialization (later changes of the linear density or of the section do not change it, a
later change of `EA` does), and its two pulls carry that weight. -/
theorem C91_history (inv : M3 → M3) (l l1 l' : Line) (rhoFluid g : ℝ) (ops : List LineOp) (hi : initialize' inv l rhoFluid g = some l1)
    (hr : ops.foldlM (fun l o => o.run inv l) l1 = some l') (hq : (l.props.getLinearDensity - l.props.getSectionArea * rhoFluid) * g ≠ 0) :
    IsCable (fun s => l'.position s .NWU) (fun s => l'.tension s .NWU) (l'.start.positionInWorld .NWU)
      ⟨0, 0, -((l.props.getLinearDensity - l.props.getSectionArea * rhoFluid) * g)⟩ (compliance l') ∧
    l'.startTension .NWU + l'.endTension .NWU = ⟨0, 0, -((l.props.getLinearDensity - l.props.getSectionArea * rhoFluid) * g * l'.len)⟩ := by
  have h1 : Loaded l1 ∧ l1.q = (l.props.getLinearDensity - l.props.getSectionArea * rhoFluid) * g := by
    unfold initialize' at hi
    cases hs : solve inv (l.initLoad rhoFluid g).guessTension with
    | none => rw [hs] at hi; exact absurd hi (by simp)
    | some r =>
      rw [hs] at hi
      have e : r.1 = l1 := by simpa using hi
      have := (C95_exit inv (l.initLoad rhoFluid g).guessTension r.1 r.2 hs).1
      rw [e] at this
      have hl := initLoad_loaded l rhoFluid g
      exact sameLine_loaded (l := (l.initLoad rhoFluid g).guessTension) ⟨hl.1, hl.2⟩ this
  have key : ∀ (ops : List LineOp) (l1 l' : Line), Loaded l1 → ops.foldlM (fun l o => o.run inv l) l1 = some l' → Loaded l' ∧ l'.q = l1.q := by
    intro ops
    induction ops with
    | nil =>
      intro l1 l' hl hr
      have e : l1 = l' := by simpa using hr
      rw [← e]
      exact ⟨hl, rfl⟩
    | cons o os ih =>
      intro l1 l' hl hr
      rw [List.foldlM_cons] at hr
      cases ho : o.run inv l1 with
      | none => rw [ho] at hr; exact absurd hr (by simp)
      | some l2 =>
        rw [ho] at hr
        have h2 := run_loaded inv o l1 l2 hl ho
        have h3 := ih l2 l' h2.1 hr
        exact ⟨h3.1, h3.2.trans h2.2⟩
  obtain ⟨h2, h3⟩ := key ops l1 l' h1.1 hr
  rw [h1.2] at h3
  rw [← h3] at hq ⊢
  exact ⟨C91_cable l' h2 hq, C92_weight l' h2⟩

end Frydom.Cable
