import Mathlib.Analysis.SpecialFunctions.Pow.Real
import Mathlib.Analysis.SpecialFunctions.Trigonometric.Inverse
import Mathlib.Analysis.SpecialFunctions.Trigonometric.Arctan
import Mathlib.Analysis.SpecialFunctions.Arsinh
import Mathlib.Analysis.SpecialFunctions.Arcosh
import Mathlib.Analysis.SpecialFunctions.Artanh

/-!
# Model of FRyDoM's function objects

Models `src/frydom/core/math/functions` (all paths below are relative to that directory).

* A C++ `double` is an `FV = Option ℝ`: `some r` is a finite number (rounding not modelled), `none` is any
  non-finite value (NaN, ±Inf) *or* a value this model declines to specify.
* A function object is a pair: its immutable tree shape `Sh` (classes of the nodes and their parameters) and its
  mutable state `St s` (x-offset and cache of every node, see `FrFunctionBase.h:66-76`).
-/

open Classical

noncomputable section

namespace Frydom.Func

/-- A C++ `double`: finite, or `none` for NaN/Inf/unspecified. -/
abbrev FV := Option ℝ

/-- IEEE binary operation, finite on finite arguments (overflow not modelled). -/
def lift2 (f : ℝ → ℝ → ℝ) : FV → FV → FV
  | some a, some b => some (f a b)
  | _, _ => none

/-- IEEE unary operation, finite on finite arguments. -/
def lift1 (f : ℝ → ℝ) : FV → FV
  | some a => some (f a)
  | none => none

/-- A partial `<cmath>` function with domain `D`. -/
def partial1 (D : ℝ → Prop) (f : ℝ → ℝ) : FV → FV
  | some a => if D a then some (f a) else none
  | none => none

/-- IEEE addition. -/
def fadd : FV → FV → FV := lift2 (· + ·)
/-- IEEE subtraction. -/
def fsub : FV → FV → FV := lift2 (· - ·)
/-- IEEE product. -/
def fmul : FV → FV → FV := lift2 (· * ·)
/-- IEEE negation. -/
def fneg : FV → FV := lift1 (fun a => -a)
/-- IEEE division: a zero divisor gives Inf or NaN. -/
def fdiv : FV → FV → FV
  | some a, some b => if b = 0 then none else some (a / b)
  | _, _ => none

@[inherit_doc] scoped infixl:65 " +ₒ " => fadd
@[inherit_doc] scoped infixl:65 " -ₒ " => fsub
@[inherit_doc] scoped infixl:70 " *ₒ " => fmul
@[inherit_doc] scoped infixl:70 " /ₒ " => fdiv

/-- `std::pow(u, p)`: for `u > 0` the real power; `pow(0,p)` is 1, 0 or Inf; for `u < 0` finite only for integer `p`
(Mathlib's `rpow` agrees with the integer power there). -/
def rpowC (u p : ℝ) : FV :=
  if 0 < u then some (u ^ p)
  else if u = 0 then (if p = 0 then some 1 else if 0 < p then some 0 else none)
  else if ∃ n : ℤ, p = (n : ℝ) then some (u ^ p) else none

/-- `std::pow` lifted to possibly non-finite arguments. (Simplification: `pow(NaN,0) = 1` is not modelled.) -/
def fpow (u : FV) (p : ℝ) : FV :=
  match u with
  | some a => rpowC a p
  | none => none

def fsqrt : FV → FV := partial1 (fun a => 0 ≤ a) Real.sqrt
def facos : FV → FV := partial1 (fun a => -1 ≤ a ∧ a ≤ 1) Real.arccos
def fasin : FV → FV := partial1 (fun a => -1 ≤ a ∧ a ≤ 1) Real.arcsin
/-- `std::tan`, in exact arithmetic infinite at the zeros of the cosine. -/
def ftan : FV → FV := partial1 (fun a => Real.cos a ≠ 0) Real.tan
def facosh : FV → FV := partial1 (fun a => 1 ≤ a) Real.arcosh
def fatanh : FV → FV := partial1 (fun a => -1 < a ∧ a < 1) Real.artanh
/-- `std::copysign(1., u)`; the sign of a zero is not modelled (`+0`). -/
def fsign : FV → FV := lift1 (fun a => if 0 ≤ a then 1 else -1)

/-- The three cached results `c_y, c_y_dx, c_y_dxdx` (FrFunctionBase.h:74-76). -/
structure Jet where
  y : FV
  dy : FV
  ddy : FV

/-- Unspecified results. -/
def Jet.bad : Jet := ⟨none, none, none⟩

/-- Node kinds with one operand `m_function`.
`plus`/`neg`: FrUnaryOpFunction (FrFunctionBase.cpp:347-378); `cos` … `atan`: lib/FrTrigonometricFunctions.cpp;
`cosh` … `atanh`: lib/FrHyperbolicTrigonometricFunctions.cpp; `sqrt`, `abs`: lib/FrMiscFunctions.cpp;
`pow`: lib/FrPowFunction.cpp; `clampAfter`/`clampBefore`: lib/FrClampFunction.cpp;
`linear intercept slope`: lib/FrLinearFunction.cpp; `poly`: lib/FrPolynomialFunction.cpp;
`linRamp`/`cosRamp`: ramp/FrLinearRampFunction.cpp, ramp/FrCosRampFunction.cpp. -/
inductive UKind where
  | plus | neg
  | cos | sin | tan | acos | asin | atan
  | cosh | sinh | tanh | acosh | asinh | atanh
  | sqrt | abs
  | pow (p : ℝ)
  | clampAfter (c : ℝ)
  | clampBefore (c : ℝ)
  | linear (intercept slope : ℝ)
  | poly | linRamp | cosRamp

/-- Node kinds with two operands: FrAddFunction … FrCompFunction (FrFunctionBase.cpp:381-516). -/
inductive BKind where
  | add | sub | mul | div | comp

/-- Shape of a function object: classes and parameters of its nodes. -/
inductive Sh where
  | var
  | const (v : ℝ)
  | un (k : UKind) (f : Sh)
  | bin (op : BKind) (f g : Sh)

/-- The part of the `Eval` bodies that computes the new cache from the operand's results
`u = (y, dy, ddy)`; line by line after the cited functions. The clamp kinds appear here only for their
unclamped branch. -/
def uJet (k : UKind) (u : Jet) : Jet :=
  match k with
  -- FrFunctionBase.cpp:374-376, FrLinearFunction.cpp:54-61, FrPolynomialFunction.cpp:32-39,
  -- FrLinearRampFunction.cpp:66-75, FrCosRampFunction.cpp:75-84, FrClampFunction.cpp:51-54,85-88
  | .plus | .linear _ _ | .poly | .linRamp | .cosRamp | .clampAfter _ | .clampBefore _ => u
  -- FrFunctionBase.cpp:370-372
  | .neg => ⟨fneg u.y, fneg u.dy, fneg u.ddy⟩
  -- FrTrigonometricFunctions.cpp:39-43
  | .cos =>
      let Su := lift1 Real.sin u.y
      let y := lift1 Real.cos u.y
      ⟨y, fneg u.dy *ₒ Su, fneg u.ddy *ₒ Su -ₒ u.dy *ₒ u.dy *ₒ y⟩
  -- FrTrigonometricFunctions.cpp:81-85
  | .sin =>
      let Cu := lift1 Real.cos u.y
      let y := lift1 Real.sin u.y
      ⟨y, u.dy *ₒ Cu, u.ddy *ₒ Cu -ₒ u.dy *ₒ u.dy *ₒ y⟩
  -- FrTrigonometricFunctions.cpp:123-128
  | .tan =>
      let tanu := ftan u.y
      let tmp := some 1 +ₒ tanu *ₒ tanu
      let dy := u.dy *ₒ tmp
      ⟨tanu, dy, u.ddy *ₒ tmp +ₒ some 2 *ₒ u.dy *ₒ tanu *ₒ dy⟩
  -- FrTrigonometricFunctions.cpp:166-171
  | .acos =>
      let tmp := some 1 -ₒ u.y *ₒ u.y
      let stmp := fsqrt tmp
      ⟨facos u.y, fneg u.dy /ₒ stmp, fneg u.ddy /ₒ stmp -ₒ u.y *ₒ u.dy *ₒ u.dy /ₒ fpow tmp 1.5⟩
  -- FrTrigonometricFunctions.cpp:209-214
  | .asin =>
      let tmp := some 1 -ₒ u.y *ₒ u.y
      let stmp := fsqrt tmp
      ⟨fasin u.y, u.dy /ₒ stmp, u.ddy /ₒ stmp +ₒ u.y *ₒ u.dy *ₒ u.dy /ₒ fpow tmp 1.5⟩
  -- FrTrigonometricFunctions.cpp:252-256
  | .atan =>
      let tmp := some 1 +ₒ u.y *ₒ u.y
      ⟨lift1 Real.arctan u.y, u.dy /ₒ tmp,
        u.ddy /ₒ tmp -ₒ some 2 *ₒ u.dy *ₒ u.dy *ₒ u.y /ₒ (tmp *ₒ tmp)⟩
  -- FrHyperbolicTrigonometricFunctions.cpp:40-45
  | .cosh =>
      let ch := lift1 Real.cosh u.y
      let sh := lift1 Real.sinh u.y
      ⟨ch, u.dy *ₒ sh, u.ddy *ₒ sh +ₒ u.dy *ₒ u.dy *ₒ ch⟩
  -- FrHyperbolicTrigonometricFunctions.cpp:83-88
  | .sinh =>
      let ch := lift1 Real.cosh u.y
      let sh := lift1 Real.sinh u.y
      ⟨sh, u.dy *ₒ ch, u.ddy *ₒ ch +ₒ u.dy *ₒ u.dy *ₒ sh⟩
  -- FrHyperbolicTrigonometricFunctions.cpp:128-133
  | .tanh =>
      let th := lift1 Real.tanh u.y
      let tmp := some 1 -ₒ th *ₒ th
      let dy := u.dy *ₒ tmp
      ⟨th, dy, u.ddy *ₒ tmp -ₒ some 2 *ₒ u.dy *ₒ th *ₒ dy⟩
  -- FrHyperbolicTrigonometricFunctions.cpp:171-176
  | .acosh =>
      let tmp := u.y *ₒ u.y -ₒ some 1
      let stmp := fsqrt tmp
      ⟨facosh u.y, u.dy /ₒ stmp, u.ddy /ₒ stmp -ₒ u.dy *ₒ u.dy *ₒ u.y /ₒ fpow tmp 1.5⟩
  -- FrHyperbolicTrigonometricFunctions.cpp:214-219 (line 217 really calls std::acosh)
  | .asinh =>
      let tmp := u.y *ₒ u.y +ₒ some 1
      let stmp := fsqrt tmp
      ⟨facosh u.y, u.dy /ₒ stmp, u.ddy /ₒ stmp -ₒ u.dy *ₒ u.dy *ₒ u.y /ₒ fpow tmp 1.5⟩
  -- FrHyperbolicTrigonometricFunctions.cpp:257-261
  | .atanh =>
      let tmp := some 1 -ₒ u.y *ₒ u.y
      ⟨fatanh u.y, u.dy /ₒ tmp,
        u.ddy /ₒ tmp +ₒ some 2 *ₒ u.dy *ₒ u.dy *ₒ u.y /ₒ (tmp *ₒ tmp)⟩
  -- FrMiscFunctions.cpp:41-45
  | .sqrt =>
      let sq := fsqrt u.y
      ⟨sq, some 0.5 *ₒ u.dy /ₒ sq,
        some 0.5 *ₒ u.ddy /ₒ sq -ₒ some 0.25 *ₒ u.dy *ₒ u.dy /ₒ fpow u.y 1.5⟩
  -- FrMiscFunctions.cpp:83-87
  | .abs =>
      let s := fsign u.y
      ⟨lift1 (fun a => |a|) u.y, u.dy *ₒ s, u.ddy *ₒ s⟩
  -- FrPowFunction.cpp:43-48
  | .pow p =>
      let p1 := p - 1
      let upow := fpow u.y p1
      ⟨fpow u.y p, some p *ₒ u.dy *ₒ upow,
        some p *ₒ (u.ddy *ₒ upow +ₒ some p1 *ₒ u.dy *ₒ u.dy *ₒ fpow u.y (p - 2))⟩

/-- The part of the binary `Eval` bodies that computes the new cache from both operands' results
(for `comp`: `u` is `m_function` evaluated at `v.y`). -/
def bJet (op : BKind) (u v : Jet) : Jet :=
  match op with
  -- FrFunctionBase.cpp:416-418
  | .add => ⟨u.y +ₒ v.y, u.dy +ₒ v.dy, u.ddy +ₒ v.ddy⟩
  -- FrFunctionBase.cpp:438-440
  | .sub => ⟨u.y -ₒ v.y, u.dy -ₒ v.dy, u.ddy -ₒ v.ddy⟩
  -- FrFunctionBase.cpp:462-464
  | .mul => ⟨u.y *ₒ v.y, u.dy *ₒ v.y +ₒ v.dy *ₒ u.y,
      u.ddy *ₒ v.y +ₒ some 2 *ₒ u.dy *ₒ v.dy +ₒ v.ddy *ₒ u.y⟩
  -- FrFunctionBase.cpp:486-488
  | .div =>
      let y := u.y /ₒ v.y
      let dy := (u.dy *ₒ v.y -ₒ v.dy *ₒ u.y) /ₒ (v.y *ₒ v.y)
      ⟨y, dy, (u.ddy -ₒ some 2 *ₒ dy *ₒ v.dy -ₒ y *ₒ v.ddy) /ₒ v.y⟩
  -- FrFunctionBase.cpp:513-515
  | .comp => ⟨u.y, v.dy *ₒ u.dy, v.ddy *ₒ u.dy +ₒ v.dy *ₒ v.dy *ₒ u.ddy⟩

/-! ## Mutable state -/

/-- Data members of `FrFunctionBase` (FrFunctionBase.h:70-76): x-offset, cached abscissa (initially `INFINITY`,
modelled by `none`), cached results. `m_isActive` is never read by any function. -/
structure Base where
  off : ℝ
  cx : FV
  jet : Jet

/-- State of a function object: one `Base` per node. Children are owned clones (no sharing). -/
def St : Sh → Type
  | .var => Base
  | .const _ => Base
  | .un _ f => Base × St f
  | .bin _ f g => Base × St f × St g

/-- The root's data members. -/
def base : (s : Sh) → St s → Base
  | .var, b => b
  | .const _, b => b
  | .un _ _, st => st.1
  | .bin _ _ _, st => st.1

/-- Replace the root's data members. -/
def setBase : (s : Sh) → St s → Base → St s
  | .var, _, b => b
  | .const _, _, b => b
  | .un _ _, st, b => (b, st.2)
  | .bin _ _ _, st, b => (b, st.2)

/-- Three successive calls `Get_y(x)`, `Get_y_dx(x)`, `Get_y_dxdx(x)` on an object whose `Eval` is `ev`
(FrFunctionBase.cpp:88-101); each evaluates at `x - m_xOffset` and then reads the cache. -/
def get3 (s : Sh) (ev : St s → FV → St s) (st : St s) (x : FV) : St s × Jet :=
  let s1 := ev st (x -ₒ some (base s st).off)
  let y := (base s s1).jet.y
  let s2 := ev s1 (x -ₒ some (base s s1).off)
  let dy := (base s s2).jet.dy
  let s3 := ev s2 (x -ₒ some (base s s2).off)
  (s3, ⟨y, dy, (base s s3).jet.ddy⟩)

/-- One call `Get_y(x)`. -/
def get1 (s : Sh) (ev : St s → FV → St s) (st : St s) (x : FV) : St s × FV :=
  let s1 := ev st (x -ₒ some (base s st).off)
  (s1, (base s s1).jet.y)

/-- The branch shared by all unary `Eval`s: `if (IsEval(x)) return; c_x = x; …` (e.g. FrFunctionBase.cpp:366-378).
At a non-finite abscissa the results are left unspecified (a fresh object compares `INFINITY == INFINITY` and would
return uninitialised memory). -/
def evalUn (k : UKind) (f : Sh) (ev : St f → FV → St f) (st : Base × St f) (x : FV) : Base × St f :=
  match x with
  | none => ({ st.1 with cx := none, jet := Jet.bad }, st.2)
  | some a =>
    if st.1.cx = some a then st
    else
      let r := get3 f ev st.2 (some a)
      ({ st.1 with cx := some a, jet := uJet k r.2 }, r.1)

/-- The clamped branch (FrClampFunction.cpp:41-46, 75-80). -/
def evalClamped (c : ℝ) (f : Sh) (ev : St f → FV → St f) (st : Base × St f) : Base × St f :=
  if st.1.cx = some c then st
  else
    let r := get1 f ev st.2 (some c)
    ({ st.1 with cx := some c, jet := ⟨r.2, some 0, some 0⟩ }, r.1)

/-- `Eval(x)` of the one-operand classes, given the operand's `Eval`. -/
def evalU (k : UKind) (f : Sh) (ev : St f → FV → St f) (st : Base × St f) (x : FV) : Base × St f :=
  match x with
  | none => evalUn k f ev st none
  | some a =>
    match k with
    -- FrClampFunction.cpp:38-56
    | .clampAfter c => if c ≤ a then evalClamped c f ev st else evalUn k f ev st (some a)
    -- FrClampFunction.cpp:72-90
    | .clampBefore c => if a ≤ c then evalClamped c f ev st else evalUn k f ev st (some a)
    | _ => evalUn k f ev st (some a)

/-- `Eval(x)` of the two-operand classes, given the operands' `Eval`s. Sub-objects are disjoint, so the interleaving
of the calls on the two operands (FrFunctionBase.h:345-354) does not matter and is not modelled. -/
def evalB (op : BKind) (f g : Sh) (evf : St f → FV → St f) (evg : St g → FV → St g)
    (st : Base × St f × St g) (x : FV) : Base × St f × St g :=
  match x with
  | none => ({ st.1 with cx := none, jet := Jet.bad }, st.2)
  | some a =>
    if st.1.cx = some a then st
    else
      match op with
      -- FrFunctionBase.cpp:496-516
      | .comp =>
        let rv := get3 g evg st.2.2 (some a)
        let ru := get3 f evf st.2.1 rv.2.y
        ({ st.1 with cx := some a, jet := bJet .comp ru.2 rv.2 }, ru.1, rv.1)
      -- FrFunctionBase.cpp:403-488
      | op =>
        let ru := get3 f evf st.2.1 (some a)
        let rv := get3 g evg st.2.2 (some a)
        ({ st.1 with cx := some a, jet := bJet op ru.2 rv.2 }, ru.1, rv.1)

/-- The virtual method `Eval(x)` of every class. -/
def eval : (s : Sh) → St s → FV → St s
  -- FrFunctionBase.cpp:287-292
  | .var, b, x => { (show Base from b) with cx := x, jet := ⟨x, some 1, some 0⟩ }
  -- FrFunctionBase.cpp:340
  | .const _, b, _ => b
  | .un k f, st, x => evalU k f (eval f) st x
  | .bin op f g, st, x => evalB op f g (eval f) (eval g) st x

/-- Which of the three results is asked for. -/
inductive Which where
  | y | dy | ddy

/-- Read one result. -/
def Jet.get (j : Jet) : Which → FV
  | .y => j.y
  | .dy => j.dy
  | .ddy => j.ddy

/-- `Get_y(x)`, `Get_y_dx(x)`, `Get_y_dxdx(x)` called by a user (FrFunctionBase.cpp:88-101). -/
def query (s : Sh) (st : St s) (w : Which) (x : ℝ) : St s × FV :=
  let s1 := eval s st (some (x - (base s st).off))
  (s1, (base s s1).jet.get w)

/-! ## Construction and copy -/

/-- The copy constructor chain behind `Clone()` (FrFunctionBase.cpp:58-70, 395-397 and the derived copy
constructors): operands are cloned, the cache is copied, `m_xOffset` keeps its default 0. -/
def clone : (s : Sh) → St s → St s
  | .var, b => { (show Base from b) with off := 0 }
  | .const _, b => { (show Base from b) with off := 0 }
  | .un _ f, st => ({ st.1 with off := 0 }, clone f st.2)
  | .bin _ f g, st => ({ st.1 with off := 0 }, clone f st.2.1, clone g st.2.2)

/-- A freshly constructed `FrFunctionBase` part: `c_x = INFINITY`, results uninitialised (`junk` is arbitrary). -/
def fresh (junk : Jet) : Base := ⟨0, none, junk⟩

/-- `FrVarXFunction()` (FrFunctionBase.cpp:269-271). -/
def mkVar (junk : Jet) : St .var := fresh junk

/-- `FrConstantFunction(v)` (FrFunctionBase.cpp:307-312). -/
def mkConst (v : ℝ) : St (.const v) := ⟨0, none, ⟨some v, some 0, some 0⟩⟩

/-- Constructor of a unary node from an operand, e.g. `FrUnaryOpFunction(f,negate)` (FrFunctionBase.cpp:347-350),
`FrPowFunction(f,p)` (lib/FrPowFunction.cpp:13-15): a fresh node owning a clone of the operand. -/
def mkUn (junk : Jet) (k : UKind) (f : Sh) (sf : St f) : St (.un k f) := (fresh junk, clone f sf)

/-- Constructor of a clamp (lib/FrClampFunction.cpp:11-14): the base part is copy-constructed from the *operand*,
so the clamp starts with the operand's cache. -/
def mkClamp (k : UKind) (f : Sh) (sf : St f) : St (.un k f) :=
  ({ base f sf with off := 0 }, clone f sf)

/-- Constructor of a binary node (FrFunctionBase.cpp:381-384). -/
def mkBin (junk : Jet) (op : BKind) (f g : Sh) (sf : St f) (sg : St g) : St (.bin op f g) :=
  (fresh junk, clone f sf, clone g sg)

/-- A function object: shape and state. -/
abbrev Obj := Σ s : Sh, St s

/-- `SetXOffset` (FrFunctionBase.cpp:80-82). The cache is left alone. -/
def Obj.setOff (o : Obj) (d : ℝ) : Obj := ⟨o.1, setBase o.1 o.2 { base o.1 o.2 with off := d }⟩

def Obj.clone (o : Obj) : Obj := ⟨o.1, Func.clone o.1 o.2⟩
def Obj.un (junk : Jet) (k : UKind) (o : Obj) : Obj := ⟨.un k o.1, mkUn junk k o.1 o.2⟩
def Obj.clampd (k : UKind) (o : Obj) : Obj := ⟨.un k o.1, mkClamp k o.1 o.2⟩
def Obj.bin (junk : Jet) (op : BKind) (o p : Obj) : Obj := ⟨.bin op o.1 p.1, mkBin junk op o.1 p.1 o.2 p.2⟩
def Obj.var (junk : Jet) : Obj := ⟨.var, mkVar junk⟩
def Obj.const (v : ℝ) : Obj := ⟨.const v, mkConst v⟩
def Obj.query (o : Obj) (w : Which) (x : ℝ) : Obj × FV :=
  let r := Func.query o.1 o.2 w x
  (⟨o.1, r.1⟩, r.2)

/-- `FrLinearFunction(intercept, slope)` (lib/FrLinearFunction.cpp:11-13). -/
def Obj.linear (junk : Jet) (intercept slope : ℝ) : Obj :=
  .un junk (.linear intercept slope)
    (.bin junk .add (.bin junk .mul (.const slope) (.var junk)) (.const intercept))

/-- `FrPolynomialFunction(constant)` (lib/FrPolynomialFunction.cpp:13-15). -/
def Obj.poly (junk : Jet) (c : ℝ) : Obj := .un junk .poly (.const c)

/-- The operand built by `FrLinearRampFunction::SetByTwoPoints` (ramp/FrLinearRampFunction.cpp:42-44). -/
def linRampBody (junk : Jet) (x0 y0 x1 y1 : ℝ) : Obj :=
  let slope := (y1 - y0) / (x1 - x0)
  let intercept := y0 - slope * x0
  .clampd (.clampAfter x1) (.clampd (.clampBefore x0)
    (.bin junk .add (.bin junk .mul (.const slope) (.var junk)) (.const intercept)))

/-- `FrLinearRampFunction(x0,y0,x1,y1)` (ramp/FrLinearRampFunction.cpp:22-24, 33-45). -/
def Obj.linRamp (junk : Jet) (x0 y0 x1 y1 : ℝ) : Obj := .un junk .linRamp (linRampBody junk x0 y0 x1 y1)

/-- The operand built by `FrCosRampFunction::SetByTwoPoints` (ramp/FrCosRampFunction.cpp:47-51). -/
def cosRampBody (junk : Jet) (x0 y0 x1 y1 : ℝ) : Obj :=
  let amplitude := 0.5 * (y1 - y0)
  let circularFreq := Real.pi / (x1 - x0)
  .clampd (.clampAfter x1) (.clampd (.clampBefore x0)
    (.bin junk .add (.const y0)
      (.bin junk .mul (.const amplitude)
        (.bin junk .sub (.const 1)
          (.un junk .cos
            (.bin junk .mul (.const circularFreq) (.bin junk .sub (.var junk) (.const x0))))))))

/-- `FrCosRampFunction(x0,y0,x1,y1)` (ramp/FrCosRampFunction.cpp:28-30, 38-52). -/
def Obj.cosRamp (junk : Jet) (x0 y0 x1 y1 : ℝ) : Obj := .un junk .cosRamp (cosRampBody junk x0 y0 x1 y1)

/-! ## Setters -/

/-- `FrPowFunction::Set` (lib/FrPowFunction.cpp:25-27), `FrClampFunction::Set` (lib/FrClampFunction.cpp:20-22),
`FrLinearFunction::Set/SetSlope/SetIntercept/SetByTwoPoints` (lib/FrLinearFunction.cpp:24-48): only the parameter of
the root changes; operand and cache stay. -/
def Obj.setKind (k' : UKind) : Obj → Obj
  | ⟨.un _ f, st⟩ => ⟨.un k' f, st⟩
  | o => o

/-- `SetByTwoPoints` of the ramps called on an existing object (ramp/FrLinearRampFunction.cpp:33-45,
ramp/FrCosRampFunction.cpp:38-52): `m_function` is replaced by a clone of `g` (the old one leaks); cache and offset
stay. -/
def Obj.replaceOperand (g : Obj) : Obj → Obj
  | ⟨.un k f, st⟩ =>
    let st' : Base × St f := st
    ⟨.un k g.1, (st'.1, Func.clone g.1 g.2)⟩
  | o => o

/-- `FrConstantFunction::Set` (FrFunctionBase.cpp:320-322). -/
def Obj.setConst (v : ℝ) : Obj → Obj
  | ⟨.const _, b⟩ =>
    let b' : Base := b
    ⟨.const v, ({ b' with jet := { b'.jet with y := some v } } : Base)⟩
  | o => o

/-- In-place operators `+=`, `-=`, `*=`, `/=` (FrFunctionBase.cpp:205-235): `m_function` (the operand!) of the root is
replaced by `FrXxxFunction(*m_function, other)`; the root's cache stays. On an object without operand (variable,
constant) the code dereferences a null pointer: `none`. (For a binary root only the left operand is replaced.) -/
def Obj.inplace (junk : Jet) (op : BKind) (other : Obj) : Obj → Option Obj
  | ⟨.un k f, st⟩ =>
    let st' : Base × St f := st
    some ⟨.un k (.bin op f other.1), (st'.1, Func.clone _ (mkBin junk op f other.1 st'.2 other.2))⟩
  | ⟨.bin b f g, st⟩ =>
    let st' : Base × St f × St g := st
    some ⟨.bin b (.bin op f other.1) g,
      (st'.1, Func.clone _ (mkBin junk op f other.1 st'.2.1 other.2), st'.2.2)⟩
  | _ => none

/-- `FrPolynomialFunction::Add` (lib/FrPolynomialFunction.cpp:23-26). -/
def Obj.polyAdd (junk : Jet) (val : ℝ) (power : ℕ) (o : Obj) : Option Obj :=
  Obj.inplace junk .add (.bin junk .mul (.const val) (.un junk (.pow power) (.var junk))) o

end Frydom.Func
