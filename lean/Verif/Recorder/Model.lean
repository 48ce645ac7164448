import Mathlib.Data.Real.Basic
import Mathlib.Algebra.Module.Basic
import Mathlib.Algebra.Order.Floor.Ring
import Mathlib.Data.Real.Archimedean
import Mathlib.Tactic

/-!
# Model of `FrTimeRecorder<T>` (src/frydom/utils/FrRecorder.h)

`T` is any real vector space. `boost::circular_buffer` is a list, front first, with a capacity: `push_front` on a full
buffer drops the back element, on a buffer of capacity 0 it does nothing; `set_capacity` keeps the front elements.
-/

open Classical

noncomputable section

namespace Frydom.Recorder

variable {T : Type*} [AddCommGroup T] [Module ℝ T]

/-- Fields of the class (FrRecorder.h:32-41) and the capacity of the buffer. -/
structure Rec (T : Type*) where
  persistence : ℝ
  step : ℝ
  cap : ℕ
  last : ℝ
  prev : ℝ
  delta : ℝ
  data : List T

/-- Constructor (FrRecorder.h:56-57): boost's buffer has capacity 0 until `Initialize`. -/
def Rec.new (persistence step : ℝ) : Rec T := ⟨persistence, step, 0, 0, 0, 0, []⟩
/-- `Initialize` (FrRecorder.h:147-151); `int(..)` truncates a positive ratio. -/
def Rec.init (r : Rec T) : Rec T :=
  let n := ⌊r.persistence / r.step⌋₊
  { r with cap := n, data := r.data.take n }
/-- `Clear` (FrRecorder.h:153-157). -/
def Rec.clear (r : Rec T) : Rec T := Rec.init { r with data := [] }

/-- `boost::circular_buffer::push_front`. -/
def pushFront (cap : ℕ) (x : T) (l : List T) : List T := (x :: l).take cap

/-- `m_data.front() = x` on a nonempty buffer. -/
def setFront (x : T) : List T → List T
  | [] => []
  | _ :: l => x :: l

/-- `Interpolate(intTime, data, time)` (FrRecorder.h:197-205), `front` being `m_data.front()`. -/
def interpolate (last intTime : ℝ) (front data : T) (time : ℝ) : T :=
  let a := (1 / (time - last)) • (data - front)
  let b := (1 / (time - last)) • (time • front - last • data)
  intTime • a + b

/-- `Record(time, data)` (FrRecorder.h:159-183). -/
def Rec.record (r : Rec T) (time : ℝ) (v : T) : Rec T :=
  match r.data with
  | [] => { r with data := pushFront r.cap v [], last := time, prev := time }
  | front :: _ =>
    if time = r.last then r
    else
      let delta := time - r.prev
      if delta < r.step then { r with delta := delta, data := setFront v r.data, last := time }
      else
        let w := interpolate r.last (r.prev + r.step) front v time
        let prev := r.prev + r.step
        { r with data := pushFront r.cap v (setFront w r.data), prev := prev, last := time, delta := time - prev }

/-- `GetTime` (FrRecorder.h:211-230). -/
def Rec.getTime (r : Rec T) : List ℝ :=
  if 1 < r.data.length then
    0 :: r.delta :: (List.range (r.data.length - 2)).map fun i => r.delta + (i + 1 : ℕ) * r.step
  else [0]

/-- `std::lower_bound(v.begin(), v.end(), x) - v.begin()`: number of leading elements less than `x` (for a sorted vector). -/
def lowerBound (x : ℝ) : List ℝ → ℕ
  | [] => 0
  | y :: l => if y < x then lowerBound x l + 1 else 0

/-- `GetData(time)` (FrRecorder.h:186-195). `none`: an index is out of range (undefined behaviour), or the interpolation
divides by zero. -/
def Rec.getData (r : Rec T) (d : ℝ) : Option T :=
  let vt := r.getTime
  match lowerBound d vt with
  | 0 => none
  | it + 1 =>
    match vt[it]?, vt[it + 1]?, r.data[it]?, r.data[it + 1]? with
    | some t0, some t1, some x0, some x1 =>
      if t1 - t0 = 0 then none
      else some (((t1 - d) / (t1 - t0)) • x0 + ((d - t0) / (t1 - t0)) • x1)
    | _, _, _, _ => none

/-- `GetMean` (FrRecorder.h:236-247). -/
def Rec.mean (r : Rec T) : T :=
  if 0 < r.data.length then (1 / (r.data.length : ℝ)) • (r.data.foldl (· + ·) 0) else r.data.foldl (· + ·) 0

end Frydom.Recorder
