import Verif.Func.Spec
import Mathlib.Analysis.SpecialFunctions.Pow.Deriv
import Mathlib.Analysis.SpecialFunctions.Trigonometric.Deriv
import Mathlib.Analysis.SpecialFunctions.Trigonometric.ArctanDeriv
import Mathlib.Analysis.SpecialFunctions.Trigonometric.InverseDeriv
import Mathlib.Analysis.SpecialFunctions.Sqrt

/-!
# Mathematical meaning of expressions (specification for C02, C03, C05, C06)

`sem s` is the real function an expression denotes in calculus; `Dom s x` says its value is defined at `x`;
`Reg s x` says it is a point of smoothness. None of this mentions the model's derivative formulas.
-/

open Classical

noncomputable section

namespace Frydom.Func

/-- The elementary real functions. -/
def semU : UKind → ℝ → ℝ
  | .plus, u => u
  | .neg, u => -u
  | .cos, u => Real.cos u
  | .sin, u => Real.sin u
  | .tan, u => Real.tan u
  | .acos, u => Real.arccos u
  | .asin, u => Real.arcsin u
  | .atan, u => Real.arctan u
  | .cosh, u => Real.cosh u
  | .sinh, u => Real.sinh u
  | .tanh, u => Real.tanh u
  | .acosh, u => Real.arcosh u
  | .asinh, u => Real.arsinh u
  | .atanh, u => Real.artanh u
  | .sqrt, u => Real.sqrt u
  | .abs, u => |u|
  | .pow p, u => u ^ p
  | .clampAfter _, u => u
  | .clampBefore _, u => u
  | .linear _ _, u => u
  | .poly, u => u
  | .linRamp, u => u
  | .cosRamp, u => u

/-- The real function denoted by an expression. -/
def sem : Sh → ℝ → ℝ
  | .var, x => x
  | .const v, _ => v
  | .un k f, x =>
    match k with
    | .clampAfter c => if c ≤ x then sem f c else sem f x
    | .clampBefore c => if x ≤ c then sem f c else sem f x
    | k => semU k (sem f x)
  | .bin op f g, x =>
    match op with
    | .add => sem f x + sem g x
    | .sub => sem f x - sem g x
    | .mul => sem f x * sem g x
    | .div => sem f x / sem g x
    | .comp => sem f (sem g x)

/-- Domain of definition of the elementary functions. -/
def domU : UKind → ℝ → Prop
  | .tan, u => Real.cos u ≠ 0
  | .acos, u => -1 ≤ u ∧ u ≤ 1
  | .asin, u => -1 ≤ u ∧ u ≤ 1
  | .acosh, u => 1 ≤ u
  | .atanh, u => -1 < u ∧ u < 1
  | .sqrt, u => 0 ≤ u
  | .pow p, u => 0 < u ∨ (u = 0 ∧ 0 ≤ p) ∨ (u < 0 ∧ ∃ n : ℤ, p = n)
  | _, _ => True

/-- Points where the elementary functions are twice differentiable (for powers at 0: natural exponent ≥ 2; the code
divides by zero for exponents 0 and 1 there). -/
def regU : UKind → ℝ → Prop
  | .tan, u => Real.cos u ≠ 0
  | .acos, u => -1 < u ∧ u < 1
  | .asin, u => -1 < u ∧ u < 1
  | .acosh, u => 1 < u
  | .atanh, u => -1 < u ∧ u < 1
  | .sqrt, u => 0 < u
  | .abs, u => u ≠ 0
  | .pow p, u => 0 < u ∨ (u = 0 ∧ ∃ n : ℕ, 2 ≤ n ∧ p = n) ∨ (u < 0 ∧ ∃ n : ℤ, p = n)
  | _, _ => True

/-- The value of the expression is defined at `x`. -/
def Dom : Sh → ℝ → Prop
  | .var, _ => True
  | .const _, _ => True
  | .un k f, x =>
    match k with
    | .clampAfter c => if c ≤ x then Dom f c else Dom f x
    | .clampBefore c => if x ≤ c then Dom f c else Dom f x
    | k => Dom f x ∧ domU k (sem f x)
  | .bin op f g, x =>
    match op with
    | .div => Dom f x ∧ Dom g x ∧ sem g x ≠ 0
    | .comp => Dom g x ∧ Dom f (sem g x)
    | _ => Dom f x ∧ Dom g x

/-- `x` is a point of smoothness of the expression. -/
def Reg : Sh → ℝ → Prop
  | .var, _ => True
  | .const _, _ => True
  | .un k f, x =>
    match k with
    | .clampAfter c => (x < c ∧ Reg f x) ∨ (c < x ∧ Dom f c)
    | .clampBefore c => (c < x ∧ Reg f x) ∨ (x < c ∧ Dom f c)
    | k => Reg f x ∧ regU k (sem f x)
  | .bin op f g, x =>
    match op with
    | .div => Reg f x ∧ Reg g x ∧ sem g x ≠ 0
    | .comp => Reg g x ∧ Reg f (sem g x)
    | _ => Reg f x ∧ Reg g x

/-- The expression does not use `asinh` (whose implementation is wrong, see `C02_asinh_counterexample`). -/
def noAsinh : Sh → Prop
  | .var => True
  | .const _ => True
  | .un k f => k ≠ .asinh ∧ noAsinh f
  | .bin _ f g => noAsinh f ∧ noAsinh g

end Frydom.Func
