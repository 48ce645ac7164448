import Verif.Func.Props
import Mathlib.Data.EReal.Basic

/-! # Model of the saturation and of the tanh ramp
`lib/FrSaturateFunction.{h,cpp}` and `ramp/FrTanhRampFunction.{h,cpp}` (relative to `src/frydom/core/math/functions`). -/

open Classical

noncomputable section

namespace Frydom.Func

/-! ## FrSaturateFunction -/

/-- A saturation object: operand, bounds `m_ymin`, `m_ymax` and x-offset (FrSaturateFunction.h:17-19). The cached results
are recomputed by every `Eval` (no `IsEval` test), so they need not be kept. -/
structure Sat where
  op : Obj
  lo : EReal
  hi : EReal
  off : ℝ

/-- `FrSaturateFunction(function)` (FrSaturateFunction.cpp:11-13) with the member initialisers of
FrSaturateFunction.h:18-19: `m_ymin = INFINITY`, `m_ymax = -INFINITY`. -/
def Sat.new (f : Obj) : Sat := ⟨f.clone, ⊤, ⊥, 0⟩

/-- `SetYMin` (FrSaturateFunction.cpp:24-26). -/
def Sat.setYMin (s : Sat) (v : ℝ) : Sat := { s with lo := v }
/-- `SetYMax` (FrSaturateFunction.cpp:28-30). -/
def Sat.setYMax (s : Sat) (v : ℝ) : Sat := { s with hi := v }

/-- `saturate_high` (FrSaturateFunction.cpp:60-64); the return is assumed elided (a real copy would leave the operand
pointer uninitialised, lines 15-18). -/
def saturateHigh (f : Obj) (ymax : ℝ) : Sat := (Sat.new f).setYMax ymax
/-- `saturate_low` (FrSaturateFunction.cpp:66-70). -/
def saturateLow (f : Obj) (ymin : ℝ) : Sat := (Sat.new f).setYMin ymin
/-- `saturate_both` (FrSaturateFunction.cpp:72-77). -/
def saturateBoth (f : Obj) (ymin ymax : ℝ) : Sat := ((Sat.new f).setYMin ymin).setYMax ymax

/-- Results of `Eval`: the value may be infinite (a bound), the derivatives may be NaN. -/
structure SatOut where
  y : EReal
  dy : FV
  ddy : FV

/-- The clipping part of `Eval` (FrSaturateFunction.cpp:46-56) on a finite operand value. -/
def satClip (lo hi : EReal) (y : ℝ) (dy ddy : FV) : SatOut :=
  let r : SatOut := if (y : EReal) ≤ lo then ⟨lo, some 0, some 0⟩ else ⟨y, dy, ddy⟩
  if hi ≤ r.y then ⟨hi, some 0, some 0⟩ else r

/-- `Eval(x - m_xOffset)` (FrSaturateFunction.cpp:38-58 and FrFunctionBase.cpp:88-101): three queries on the operand, then
clipping. A non-finite operand value gives an unspecified result. -/
def Sat.query (s : Sat) (x : ℝ) : Sat × Option SatOut :=
  let a := x - s.off
  let r1 := s.op.query .y a
  let r2 := r1.1.query .dy a
  let r3 := r2.1.query .ddy a
  ({ s with op := r3.1 }, r1.2.map fun y => satClip s.lo s.hi y r2.2 r3.2)

/-- The object after queries at the abscissae `l`. -/
def Sat.hist (s : Sat) (l : List ℝ) : Sat := l.foldl (fun s x => (s.query x).1) s

/-! ## FrTanhRampFunction -/

/-- State of a tanh ramp (FrTanhRampFunction.h:16-22 and the cache of FrFunctionBase.h:71-76). `cx = none`: never set. -/
structure Tanh where
  tol : ℝ := 1e-3
  width : ℝ := 1
  height : ℝ := 1
  yOff : ℝ := 0
  xOff : ℝ := 0
  a : ℝ
  cx : Option ℝ := none
  y : ℝ
  dy : ℝ

/-- `ComputeA` (FrTanhRampFunction.cpp:50-52). -/
def tanhA (tol : ℝ) : ℝ := 0.5 * Real.log ((1 - tol) / tol)

/-- Default constructor (FrTanhRampFunction.cpp:11-13); `y0`, `dy0` are the uninitialised cache contents. -/
def Tanh.new (y0 dy0 : ℝ) : Tanh := { a := tanhA 1e-3, y := y0, dy := dy0 }

/-- `SetTolerance` (FrTanhRampFunction.cpp:26-29). -/
def Tanh.setTolerance (s : Tanh) (t : ℝ) : Tanh := { s with tol := t, a := tanhA t }
/-- `SetWidth` (FrTanhRampFunction.cpp:31-33). -/
def Tanh.setWidth (s : Tanh) (w : ℝ) : Tanh := { s with width := w }
/-- `SetHeight` (FrTanhRampFunction.cpp:35-37). -/
def Tanh.setHeight (s : Tanh) (h : ℝ) : Tanh := { s with height := h }
/-- `SetYOffset` (FrTanhRampFunction.cpp:39-41). -/
def Tanh.setYOffset (s : Tanh) (y : ℝ) : Tanh := { s with yOff := y }
/-- `SetByTwoPoints` (FrTanhRampFunction.cpp:43-48). -/
def Tanh.setByTwoPoints (s : Tanh) (x0 y0 x1 y1 : ℝ) : Tanh :=
  { s with xOff := x0, width := x1 - x0, height := y1 - y0, yOff := y0 }

/-- `Eval` (FrTanhRampFunction.cpp:58-87). The second derivative is always 0 and is left out. -/
def Tanh.eval (s : Tanh) (x : ℝ) : Tanh :=
  if x ≤ s.xOff then { s with y := s.yOff, dy := 0 }
  else if s.xOff + s.width ≤ x then { s with y := s.yOff + s.height, dy := 0 }
  else if s.cx = some x then s
  else
    let alpha := 2 * s.a * x / s.width - s.a
    { s with
      cx := some x
      y := 0.5 * s.height * (1 + Real.tanh alpha) + s.yOff
      dy := (s.height * s.a / s.width) / (Real.cosh alpha * Real.cosh alpha) }

/-- `Get_y` / `Get_y_dx` (FrFunctionBase.cpp:88-96). -/
def Tanh.query (s : Tanh) (x : ℝ) : Tanh := s.eval (x - s.xOff)

def Tanh.hist (s : Tanh) (l : List ℝ) : Tanh := l.foldl (fun s x => s.query x) s

end Frydom.Func
