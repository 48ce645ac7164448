import Verif.Func.Model

/-!
# Specification side of the function objects

`den s x` is the triple (value, first, second derivative) *prescribed by the expression alone*: no caches, no state.
`SpecObj`/`specRun` is the abstract machine a user has in mind: an object is an expression with an x-offset, a query
is a pure lookup. `Cmd`/`run` is the concrete machine, a heap of stateful objects.
-/

open Classical

noncomputable section

namespace Frydom.Func

/-- Pure meaning of an expression: results at abscissa `x`, as a function of the expression and `x` only. -/
def den : Sh → FV → Jet
  | .var, x => ⟨x, some 1, some 0⟩
  | .const v, _ => ⟨some v, some 0, some 0⟩
  | .un _ _, none => Jet.bad
  | .un k f, some a =>
    match k with
    | .clampAfter c => if c ≤ a then ⟨(den f (some c)).y, some 0, some 0⟩ else den f (some a)
    | .clampBefore c => if a ≤ c then ⟨(den f (some c)).y, some 0, some 0⟩ else den f (some a)
    | k => uJet k (den f (some a))
  | .bin _ _ _, none => Jet.bad
  | .bin op f g, some a =>
    match op with
    | .comp => bJet .comp (den f (den g (some a)).y) (den g (some a))
    | op => bJet op (den f (some a)) (den g (some a))

/-- Not one of the clamp classes. -/
def UKind.plain : UKind → Prop
  | .clampAfter _ => False
  | .clampBefore _ => False
  | _ => True

/-- The clamp classes, with their abscissa. -/
def UKind.clampAt : UKind → Option ℝ
  | .clampAfter c => some c
  | .clampBefore c => some c
  | _ => none

/-- User programs over function objects; objects are numbered in order of creation. `junk` is the arbitrary content of
uninitialised memory in freshly created objects. -/
inductive Cmd where
  | var (junk : Jet)
  | const (v : ℝ)
  | linear (junk : Jet) (intercept slope : ℝ)
  | linRamp (junk : Jet) (x0 y0 x1 y1 : ℝ)
  | cosRamp (junk : Jet) (x0 y0 x1 y1 : ℝ)
  /-- unary operators, elementary functions, powers -/
  | un (junk : Jet) (k : UKind) (i : ℕ)
  /-- `clamp_after`, `clamp_before` -/
  | clamp (k : UKind) (i : ℕ)
  | bin (junk : Jet) (op : BKind) (i j : ℕ)
  /-- `f op alpha` (FrFunctionBase.cpp:189-203) -/
  | binR (junk : Jet) (op : BKind) (i : ℕ) (alpha : ℝ)
  /-- `alpha op f` (FrFunctionBase.cpp:237-251) -/
  | binL (junk : Jet) (op : BKind) (alpha : ℝ) (i : ℕ)
  | clone (i : ℕ)
  | setOff (i : ℕ) (d : ℝ)
  | setConst (i : ℕ) (v : ℝ)
  | query (i : ℕ) (w : Which) (x : ℝ)

/-- Concrete step: new heap and the answer of a query. Unknown object numbers make the program ill-formed (`none`). -/
def step (h : List Obj) : Cmd → Option (List Obj × List FV)
  | .var junk => some (h ++ [.var junk], [])
  | .const v => some (h ++ [.const v], [])
  | .linear junk a b => some (h ++ [.linear junk a b], [])
  | .linRamp junk x0 y0 x1 y1 => some (h ++ [.linRamp junk x0 y0 x1 y1], [])
  | .cosRamp junk x0 y0 x1 y1 => some (h ++ [.cosRamp junk x0 y0 x1 y1], [])
  | .un junk k i => h[i]?.map fun o => (h ++ [.un junk k o], [])
  | .clamp k i => h[i]?.map fun o => (h ++ [.clampd k o], [])
  | .bin junk op i j => h[i]?.bind fun o => h[j]?.map fun p => (h ++ [.bin junk op o p], [])
  | .binR junk op i a => h[i]?.map fun o => (h ++ [.bin junk op o (.const a)], [])
  | .binL junk op a i => h[i]?.map fun o => (h ++ [.bin junk op (.const a) o], [])
  | .clone i => h[i]?.map fun o => (h ++ [o.clone], [])
  | .setOff i d => h[i]?.map fun o => (h.set i (o.setOff d), [])
  | .setConst i v => h[i]?.map fun o => (h.set i (o.setConst v), [])
  | .query i w x => h[i]?.map fun o => (h.set i (o.query w x).1, [(o.query w x).2])

/-- Concrete execution: all query answers, in order. -/
def run (h : List Obj) : List Cmd → Option (List Obj × List FV)
  | [] => some (h, [])
  | c :: cs => (step h c).bind fun r => (run r.1 cs).map fun r' => (r'.1, r.2 ++ r'.2)

/-- What the user believes an object is: an expression and an offset. `last` records at which abscissa (offset
removed) it was last evaluated; it never influences an answer, it only serves to forbid one pattern (see `specStep`). -/
structure SpecObj where
  sh : Sh
  off : ℝ
  last : Option ℝ

/-- Abscissa at which the object is considered evaluated after a query at `a`. -/
def touch : Sh → Option ℝ → ℝ → Option ℝ
  | .const _, l, _ => l
  | .un (.clampAfter c) _, _, a => some (if c ≤ a then c else a)
  | .un (.clampBefore c) _, _, a => some (if a ≤ c then c else a)
  | _, _, a => some a

/-- Does a clamp of kind `k` ever consult a cached result for abscissa `a`? (Only on its unclamped side, ends included.) -/
def UKind.consults : UKind → ℝ → Prop
  | .clampAfter c, a => a ≤ c
  | .clampBefore c, a => c ≤ a
  | _, _ => True

/-- An object last evaluated at `a` holds results for `a` unless it is a clamp that was built after its operand had
been evaluated on the clamped side. -/
def Sh.holds : Sh → ℝ → Prop
  | .un k _, a => k.consults a
  | _, _ => True

/-- Clamping (kind `k`, abscissa `c`) an operand of shape `s` last evaluated at `l` is harmless: the clamp starts life
with a copy of the operand's cache, so that cache must not be for `c` itself nor be one the operand no longer honours. -/
def clampSafe (k : UKind) (c : ℝ) (s : Sh) (l : Option ℝ) : Prop :=
  ∀ a, l = some a → a ≠ c ∧ (k.consults a → s.holds a)

/-- Expression of a linear function `intercept + slope x`. -/
def shAffine (slope intercept : ℝ) : Sh := .bin .add (.bin .mul (.const slope) .var) (.const intercept)

/-- Expression behind the linear ramp. -/
def shLinRamp (x0 y0 x1 y1 : ℝ) : Sh :=
  .un .linRamp (.un (.clampAfter x1) (.un (.clampBefore x0)
    (shAffine ((y1 - y0) / (x1 - x0)) (y0 - (y1 - y0) / (x1 - x0) * x0))))

/-- Expression behind the cosine ramp. -/
def shCosRamp (x0 y0 x1 y1 : ℝ) : Sh :=
  .un .cosRamp (.un (.clampAfter x1) (.un (.clampBefore x0)
    (.bin .add (.const y0) (.bin .mul (.const (0.5 * (y1 - y0)))
      (.bin .sub (.const 1) (.un .cos (.bin .mul (.const (Real.pi / (x1 - x0)))
        (.bin .sub .var (.const x0)))))))))

/-- Set the value of a constant. -/
def Sh.setConst (v : ℝ) : Sh → Sh
  | .const _ => .const v
  | s => s

/-- Abstract step. A query is a pure lookup in the expression. `none` = the program is outside the specification:
unknown object, `un` used with a clamp class, or an unsafe clamp (the copied-cache defects, see
`C05_clamp_history_counterexample` and `C05_nested_clamp_counterexample`). -/
def specStep (h : List SpecObj) : Cmd → Option (List SpecObj × List FV)
  | .var _ => some (h ++ [⟨.var, 0, none⟩], [])
  | .const v => some (h ++ [⟨.const v, 0, none⟩], [])
  | .linear _ a b => some (h ++ [⟨.un (.linear a b) (shAffine b a), 0, none⟩], [])
  | .linRamp _ x0 y0 x1 y1 => some (h ++ [⟨shLinRamp x0 y0 x1 y1, 0, none⟩], [])
  | .cosRamp _ x0 y0 x1 y1 => some (h ++ [⟨shCosRamp x0 y0 x1 y1, 0, none⟩], [])
  | .un _ k i => if k.plain then h[i]?.map fun o => (h ++ [⟨.un k o.sh, 0, none⟩], []) else none
  | .clamp k i =>
    h[i]?.bind fun o =>
      match k.clampAt with
      | none => none
      | some c => if clampSafe k c o.sh o.last then some (h ++ [⟨.un k o.sh, 0, o.last⟩], []) else none
  | .bin _ op i j => h[i]?.bind fun o => h[j]?.map fun p => (h ++ [⟨.bin op o.sh p.sh, 0, none⟩], [])
  | .binR _ op i a => h[i]?.map fun o => (h ++ [⟨.bin op o.sh (.const a), 0, none⟩], [])
  | .binL _ op a i => h[i]?.map fun o => (h ++ [⟨.bin op (.const a) o.sh, 0, none⟩], [])
  | .clone i => h[i]?.map fun o => (h ++ [⟨o.sh, 0, o.last⟩], [])
  | .setOff i d => h[i]?.map fun o => (h.set i { o with off := d }, [])
  | .setConst i v => h[i]?.map fun o => (h.set i { o with sh := o.sh.setConst v }, [])
  | .query i w x =>
    h[i]?.map fun o =>
      (h.set i { o with last := touch o.sh o.last (x - o.off) }, [(den o.sh (some (x - o.off))).get w])

/-- Abstract execution. -/
def specRun (h : List SpecObj) : List Cmd → Option (List SpecObj × List FV)
  | [] => some (h, [])
  | c :: cs => (specStep h c).bind fun r => (specRun r.1 cs).map fun r' => (r'.1, r.2 ++ r'.2)

end Frydom.Func
