import Verif.Env.PolarTable

/-!
# Files of polar coefficients (C173)

`LoadFlowPolarCoeffFromJson` (src/frydom/IO/FrLoader.cpp 25-161) and its use by `FrFlowForce::ReadTable` (src/frydom/environment/flow/FrFlowForce.cpp 36-116, see `PolarTable`).
External: the JSON parser and its conversions, `mathutils::STRING2ANGLE` (taken to know exactly the names `DEG` and `RAD`).
-/

open Classical

noncomputable section

namespace Frydom.Env.PolarFile
open Frydom.Geom Frydom.Waves Frydom.Env

/-! ## JSON -/

/-- A parsed value. -/
inductive Json
  | null
  | bool (b : Bool)
  | num (x : ℝ)
  | str (s : String)
  | arr (l : List Json)
  | obj (fields : List (String × Json))

/-- The exceptions that matter: those of the parser, those of the conversions of a value (`json::type_error`), those thrown by FRyDoM (`FrException`). -/
inductive Exc
  | parse
  | type
  | frydom

/-- `operator[]` with a key, on a non-constant value: null becomes an object, an absent key is null, any other value throws a type error. -/
def Json.index : Json → String → Except Exc Json
  | .null, _ => .ok .null
  | .obj l, k => .ok ((l.lookup k).getD .null)
  | _, _ => .error .type

/-- `get<std::string>()`. -/
def Json.getString : Json → Except Exc String
  | .str s => .ok s
  | _ => .error .type

/-- `get<double>()`: only numbers convert. -/
def Json.getDouble : Json → Except Exc ℝ
  | .num x => .ok x
  | _ => .error .type

/-- The conversion of the elements of an array, in order. -/
def getDoubles : List Json → Except Exc (List ℝ)
  | [] => .ok []
  | j :: js => do
    let x ← j.getDouble
    let xs ← getDoubles js
    pure (x :: xs)

/-- `get<std::vector<double>>()`. -/
def Json.getVector : Json → Except Exc (List ℝ)
  | .arr l => getDoubles l
  | _ => .error .type

/-- A file: `json::parse` of its stream succeeds or throws (a file that does not exist does not parse). -/
inductive File
  | invalid
  | valid (j : Json)

/-! ## The loader -/

/-- `STRING2FRAME` (src/frydom/core/common/FrConvention.h:38-48). -/
def string2Frame (s : String) : Except Exc FC :=
  if s = "NED" then .ok .NED else if s = "NWU" then .ok .NWU else .error .frydom
/-- `STRING2DIRECTION` (src/frydom/core/common/FrConvention.h:65-74). -/
def string2Direction (s : String) : Except Exc DC :=
  if s = "GOTO" then .ok .goto else if s = "COMEFROM" then .ok .comefrom else .error .frydom
/-- `mathutils::STRING2ANGLE` (external). -/
def string2Angle (s : String) : Except Exc AngleUnit :=
  if s = "DEG" then .ok .deg else if s = "RAD" then .ok .rad else .error .frydom

/-- How a call of the loader ends: an exception that leaves it, the error message followed by `exit`, a failed assertion, a read outside of a vector, or a value. -/
inductive Outcome (α : Type)
  | throws (e : Exc)
  | exits
  | aborts
  | undefined
  | returns (a : α)

/-- Sequence of two statements. -/
def Outcome.bind {α β : Type} : Outcome α → (α → Outcome β) → Outcome β
  | .throws e, _ => .throws e
  | .exits, _ => .exits
  | .aborts, _ => .aborts
  | .undefined, _ => .undefined
  | .returns a, f => f a

/-- `try { … } catch (json::parse_error &err) { event_logger::error(…); exit(EXIT_FAILURE); }` (FrLoader.cpp:45-119). -/
def guarded {α : Type} : Except Exc α → Outcome α
  | .ok a => .returns a
  | .error .parse => .exits
  | .error e => .throws e

/-- The content returned by the first loader. -/
structure Content where
  unit : AngleUnit
  fc : FC
  dc : DC
  frontal : ℝ
  lateral : ℝ
  length : ℝ
  angles : List ℝ
  cx : List ℝ
  cy : List ℝ
  cn : List ℝ

/-- `LoadFlowPolarCoeffFromJson`, separate columns (FrLoader.cpp:25-122). -/
def loadColumns (f : File) : Outcome Content :=
  match f with
  | .invalid => .throws .parse
  | .valid j =>
    match j.index "PolarFlowCoeffs" with
    | .error e => .throws e
    | .ok node =>
      (guarded (((node.index "unit").bind Json.getString).bind string2Angle)).bind fun unit =>
      (guarded (((node.index "FRAME_CONVENTION").bind Json.getString).bind string2Frame)).bind fun fc =>
      (guarded (((node.index "DIRECTION_CONVENTION").bind Json.getString).bind string2Direction)).bind fun dc =>
      (guarded ((node.index "frontal_area").bind Json.getDouble)).bind fun frontal =>
      (guarded ((node.index "lateral_area").bind Json.getDouble)).bind fun lateral =>
      (guarded ((node.index "length").bind Json.getDouble)).bind fun length =>
      (guarded ((node.index "angles").bind Json.getVector)).bind fun angles =>
      (guarded ((node.index "cx").bind Json.getVector)).bind fun cx =>
      (guarded ((node.index "cy").bind Json.getVector)).bind fun cy =>
      (guarded ((node.index "cn").bind Json.getVector)).bind fun cn =>
      .returns ⟨unit, fc, dc, frontal, lateral, length, angles, cx, cy, cn⟩

/-- The loop of `push_back` (FrLoader.cpp:155-158), from the index `i`, over the angles left; `none`: `cx[i]`, `cy[i]` or `cn[i]` is outside of its vector. -/
def rows (cx cy cn : List ℝ) : ℕ → List ℝ → Option (List Entry)
  | _, [] => some []
  | i, a :: as =>
    match cx[i]?, cy[i]?, cn[i]? with
    | some x, some y, some n => (rows cx cy cn (i + 1) as).map fun r => (a, ⟨x, y, n⟩) :: r
    | _, _, _ => none

/-- A table and what goes with it. -/
structure Table where
  rows : List Entry
  unit : AngleUnit
  fc : FC
  dc : DC
  frontal : ℝ
  lateral : ℝ
  length : ℝ

/-- `LoadFlowPolarCoeffFromJson`, rows (FrLoader.cpp:124-161), appending to `polar`; `debug`: the assertions on the sizes are compiled. -/
def loadRows (debug : Bool) (f : File) (polar : List Entry) : Outcome Table :=
  (loadColumns f).bind fun c =>
    if debug = true ∧ ¬ (c.cx.length = c.angles.length ∧ c.cy.length = c.angles.length ∧ c.cn.length = c.angles.length) then .aborts
    else match rows c.cx c.cy c.cn 0 c.angles with
      | none => .undefined
      | some r => .returns ⟨polar ++ r, c.unit, c.fc, c.dc, c.frontal, c.lateral, c.length⟩

/-- `FrFlowForce(jsonFile)` (FrFlowForce.cpp:26-34, 36-116): the rows `out` given to the lookup table, with the areas and the length kept by the force. -/
def Reads (debug : Bool) (f : File) (out : List Entry) (frontal lateral length : ℝ) : Prop :=
  ∃ t, loadRows debug f [] = .returns t ∧ ReadTable t.unit t.fc t.dc t.rows out ∧ t.frontal = frontal ∧ t.lateral = lateral ∧ t.length = length

/-! ## Specification -/

/-- The file is an object whose `PolarFlowCoeffs` is an object, whose `key` is `v`. -/
def Declares (f : File) (key : String) (v : Json) : Prop :=
  ∃ l k, f = .valid (.obj l) ∧ l.lookup "PolarFlowCoeffs" = some (.obj k) ∧ k.lookup key = some v

/-- The file is what the documentation of the loader asks for: three names among those known, three numbers, four lists of numbers. -/
structure Describes (f : File) (c : Content) : Prop where
  unit : ∃ s, Declares f "unit" (.str s) ∧ (s = "DEG" ∧ c.unit = .deg ∨ s = "RAD" ∧ c.unit = .rad)
  fc : ∃ s, Declares f "FRAME_CONVENTION" (.str s) ∧ (s = "NED" ∧ c.fc = .NED ∨ s = "NWU" ∧ c.fc = .NWU)
  dc : ∃ s, Declares f "DIRECTION_CONVENTION" (.str s) ∧ (s = "GOTO" ∧ c.dc = .goto ∨ s = "COMEFROM" ∧ c.dc = .comefrom)
  frontal : Declares f "frontal_area" (.num c.frontal)
  lateral : Declares f "lateral_area" (.num c.lateral)
  length : Declares f "length" (.num c.length)
  angles : Declares f "angles" (.arr (c.angles.map .num))
  cx : Declares f "cx" (.arr (c.cx.map .num))
  cy : Declares f "cy" (.arr (c.cy.map .num))
  cn : Declares f "cn" (.arr (c.cn.map .num))

/-- The columns have the same length as the angles. -/
def Content.Square (c : Content) : Prop := c.cx.length = c.angles.length ∧ c.cy.length = c.angles.length ∧ c.cn.length = c.angles.length

/-! ## C173 -/

theorem bind_returns {α β : Type} {o : Outcome α} {f : α → Outcome β} {b : β} : o.bind f = .returns b ↔ ∃ a, o = .returns a ∧ f a = .returns b := by
  cases o <;> simp [Outcome.bind]

theorem guarded_returns {α : Type} {e : Except Exc α} {a : α} : guarded e = .returns a ↔ e = .ok a := by
  cases e with
  | ok x => simp [guarded]
  | error x => cases x <;> simp [guarded]

theorem except_bind_ok {α β : Type} {e : Except Exc α} {f : α → Except Exc β} {b : β} : e.bind f = .ok b ↔ ∃ a, e = .ok a ∧ f a = .ok b := by
  cases e <;> simp [Except.bind]

theorem getString_ok {j : Json} {s : String} : j.getString = .ok s ↔ j = .str s := by
  cases j <;> simp [Json.getString]

theorem getDouble_ok {j : Json} {x : ℝ} : j.getDouble = .ok x ↔ j = .num x := by
  cases j <;> simp [Json.getDouble]

theorem getDoubles_ok (l : List Json) : ∀ xs : List ℝ, getDoubles l = .ok xs ↔ l = xs.map .num := by
  induction l with
  | nil => intro xs; cases xs <;> simp [getDoubles]
  | cons j js ih =>
    intro xs
    constructor
    · intro h
      simp only [getDoubles] at h
      obtain ⟨x, hx, h⟩ := except_bind_ok.1 h
      obtain ⟨ys, hy, h⟩ := except_bind_ok.1 h
      cases h
      rw [getDouble_ok.1 hx, (ih ys).1 hy]
      rfl
    · intro h
      cases xs with
      | nil => simp at h
      | cons x xs =>
        simp only [List.map_cons, List.cons.injEq] at h
        obtain ⟨rfl, h⟩ := h
        simp only [getDoubles]
        exact except_bind_ok.2 ⟨x, rfl, except_bind_ok.2 ⟨xs, (ih xs).2 h, rfl⟩⟩

theorem getVector_ok {j : Json} {xs : List ℝ} : j.getVector = .ok xs ↔ j = .arr (xs.map .num) := by
  cases j <;> simp [Json.getVector, getDoubles_ok]

theorem declares_iff {j node : Json} (hn : j.index "PolarFlowCoeffs" = .ok node) (key : String) (v : Json) (hv : v ≠ .null) :
    node.index key = .ok v ↔ Declares (.valid j) key v := by
  constructor
  · intro h
    cases j with
    | null =>
      simp only [Json.index, Except.ok.injEq] at hn
      subst hn
      simp only [Json.index, Except.ok.injEq] at h
      exact absurd h.symm hv
    | obj l =>
      simp only [Json.index, Except.ok.injEq] at hn
      cases hl : l.lookup "PolarFlowCoeffs" with
      | none =>
        rw [hl] at hn
        have : node = .null := hn.symm
        subst this
        simp only [Json.index, Except.ok.injEq] at h
        exact absurd h.symm hv
      | some n =>
        rw [hl] at hn
        have : node = n := hn.symm
        subst this
        cases node with
        | obj k =>
          refine ⟨l, k, rfl, hl, ?_⟩
          simp only [Json.index, Except.ok.injEq] at h
          cases hk : k.lookup key with
          | none => rw [hk] at h; exact absurd h.symm hv
          | some w => rw [hk] at h; exact congrArg some h
        | null =>
          simp only [Json.index, Except.ok.injEq] at h
          exact absurd h.symm hv
        | _ => simp [Json.index] at h
    | _ => simp [Json.index] at hn
  · rintro ⟨l, k, e, h1, h2⟩
    cases e
    simp only [Json.index, h1, Except.ok.injEq] at hn
    have : node = .obj k := hn.symm
    subst this
    simp [Json.index, h2]

/-- **C173, the loader accepts exactly the files it documents.** It returns a content if and only if the file describes it, field by field. -/
theorem C173_columns (f : File) (c : Content) : loadColumns f = .returns c ↔ Describes f c := by
  constructor
  · intro h
    cases f with
    | invalid => simp [loadColumns] at h
    | valid j =>
      simp only [loadColumns] at h
      cases hn : j.index "PolarFlowCoeffs" with
      | error e => rw [hn] at h; cases h
      | ok node =>
        rw [hn] at h
        obtain ⟨unit, h1, h⟩ := bind_returns.1 h
        obtain ⟨fc, h2, h⟩ := bind_returns.1 h
        obtain ⟨dc, h3, h⟩ := bind_returns.1 h
        obtain ⟨frontal, h4, h⟩ := bind_returns.1 h
        obtain ⟨lateral, h5, h⟩ := bind_returns.1 h
        obtain ⟨length, h6, h⟩ := bind_returns.1 h
        obtain ⟨angles, h7, h⟩ := bind_returns.1 h
        obtain ⟨cx, h8, h⟩ := bind_returns.1 h
        obtain ⟨cy, h9, h⟩ := bind_returns.1 h
        obtain ⟨cn, h10, h⟩ := bind_returns.1 h
        cases h
        have str : ∀ {α : Type} {g : String → Except Exc α} {key : String} {a : α}, guarded (((node.index key).bind Json.getString).bind g) = .returns a →
            ∃ s, Declares (.valid j) key (.str s) ∧ g s = .ok a := by
          intro α g key a h
          obtain ⟨s, hs, hg⟩ := except_bind_ok.1 (guarded_returns.1 h)
          obtain ⟨v, hv, hs⟩ := except_bind_ok.1 hs
          rw [getString_ok] at hs
          subst hs
          exact ⟨s, (declares_iff hn key _ (by simp)).1 hv, hg⟩
        have dbl : ∀ {key : String} {a : ℝ}, guarded ((node.index key).bind Json.getDouble) = .returns a → Declares (.valid j) key (.num a) := by
          intro key a h
          obtain ⟨v, hv, hs⟩ := except_bind_ok.1 (guarded_returns.1 h)
          rw [getDouble_ok] at hs
          subst hs
          exact (declares_iff hn key _ (by simp)).1 hv
        have vec : ∀ {key : String} {a : List ℝ}, guarded ((node.index key).bind Json.getVector) = .returns a → Declares (.valid j) key (.arr (a.map .num)) := by
          intro key a h
          obtain ⟨v, hv, hs⟩ := except_bind_ok.1 (guarded_returns.1 h)
          rw [getVector_ok] at hs
          subst hs
          exact (declares_iff hn key _ (by simp)).1 hv
        obtain ⟨s1, d1, g1⟩ := str h1
        obtain ⟨s2, d2, g2⟩ := str h2
        obtain ⟨s3, d3, g3⟩ := str h3
        refine ⟨⟨s1, d1, ?_⟩, ⟨s2, d2, ?_⟩, ⟨s3, d3, ?_⟩, dbl h4, dbl h5, dbl h6, vec h7, vec h8, vec h9, vec h10⟩
        · unfold string2Angle at g1
          split_ifs at g1 with e1 e2
          · cases g1; exact Or.inl ⟨e1, rfl⟩
          · cases g1; exact Or.inr ⟨e2, rfl⟩
        · unfold string2Frame at g2
          split_ifs at g2 with e1 e2
          · cases g2; exact Or.inl ⟨e1, rfl⟩
          · cases g2; exact Or.inr ⟨e2, rfl⟩
        · unfold string2Direction at g3
          split_ifs at g3 with e1 e2
          · cases g3; exact Or.inl ⟨e1, rfl⟩
          · cases g3; exact Or.inr ⟨e2, rfl⟩
  · rintro ⟨⟨s1, d1, g1⟩, ⟨s2, d2, g2⟩, ⟨s3, d3, g3⟩, h4, h5, h6, h7, h8, h9, h10⟩
    obtain ⟨l, k, rfl, hl, hk⟩ := h4
    have hn : (Json.obj l).index "PolarFlowCoeffs" = .ok (.obj k) := by simp [Json.index, hl]
    have str : ∀ {α : Type} {g : String → Except Exc α} {key s : String} {a : α}, Declares (.valid (.obj l)) key (.str s) → g s = .ok a →
        guarded ((((Json.obj k).index key).bind Json.getString).bind g) = .returns a := by
      intro α g key s a hd hg
      refine guarded_returns.2 (except_bind_ok.2 ⟨s, except_bind_ok.2 ⟨_, (declares_iff hn key _ (by simp)).2 hd, rfl⟩, hg⟩)
    have dbl : ∀ {key : String} {a : ℝ}, Declares (.valid (.obj l)) key (.num a) → guarded (((Json.obj k).index key).bind Json.getDouble) = .returns a := fun {key a} hd =>
      guarded_returns.2 (except_bind_ok.2 ⟨_, (declares_iff hn key _ (by simp)).2 hd, rfl⟩)
    have vec : ∀ {key : String} {a : List ℝ}, Declares (.valid (.obj l)) key (.arr (a.map .num)) → guarded (((Json.obj k).index key).bind Json.getVector) = .returns a :=
      fun {key a} hd => guarded_returns.2 (except_bind_ok.2 ⟨_, (declares_iff hn key _ (by simp)).2 hd, getVector_ok.2 rfl⟩)
    have e1 : string2Angle s1 = .ok c.unit := by
      rcases g1 with ⟨rfl, g⟩ | ⟨rfl, g⟩ <;> rw [g] <;> rfl
    have e2 : string2Frame s2 = .ok c.fc := by
      rcases g2 with ⟨rfl, g⟩ | ⟨rfl, g⟩ <;> rw [g] <;> rfl
    have e3 : string2Direction s3 = .ok c.dc := by
      rcases g3 with ⟨rfl, g⟩ | ⟨rfl, g⟩ <;> rw [g] <;> rfl
    simp only [loadColumns, hn]
    refine bind_returns.2 ⟨_, str d1 e1, bind_returns.2 ⟨_, str d2 e2, bind_returns.2 ⟨_, str d3 e3, bind_returns.2 ⟨_, dbl ⟨l, k, rfl, hl, hk⟩,
      bind_returns.2 ⟨_, dbl h5, bind_returns.2 ⟨_, dbl h6, bind_returns.2 ⟨_, vec h7, bind_returns.2 ⟨_, vec h8, bind_returns.2 ⟨_, vec h9,
      bind_returns.2 ⟨_, vec h10, rfl⟩⟩⟩⟩⟩⟩⟩⟩⟩⟩

theorem guarded_exits {α : Type} {e : Except Exc α} (h : e ≠ .error .parse) : guarded e ≠ .exits := by
  cases e with
  | ok x => simp [guarded]
  | error x => cases x <;> simp [guarded] at h ⊢

theorem index_parse (j : Json) (k : String) : j.index k ≠ .error .parse := by cases j <;> simp [Json.index]

/-- The conversions never throw the exception that is caught. -/
theorem getDoubles_parse (l : List Json) : getDoubles l ≠ .error .parse := by
  induction l with
  | nil => simp [getDoubles]
  | cons j js ih =>
    simp only [getDoubles]
    cases hj : j.getDouble with
    | error e =>
      have : e = .type := by cases j <;> simp [Json.getDouble] at hj <;> exact hj.symm
      subst this
      simp [bind, Except.bind]
    | ok x =>
      cases hs : getDoubles js with
      | error e =>
        have : e ≠ .parse := by rintro rfl; exact ih hs
        simpa [bind, Except.bind] using this
      | ok xs => simp [bind, Except.bind, pure, Except.pure]

/-- **C173, refused files (defect).** The error messages of the loader are never issued: whatever the file, the call does not end by the message and the exit written for each field. A file that
does not parse, a missing field, a field of another type or an unknown name end by an exception that leaves the loader, other than the ones caught. -/
theorem C173_refused_wrong (f : File) (h : ∀ c, ¬ Describes f c) : loadColumns f ≠ .exits ∧ ∃ e, loadColumns f = .throws e := by
  have step : ∀ {α β : Type} (e : Except Exc α) (g : α → Outcome β), e ≠ .error .parse → (∀ a, g a ≠ .exits ∧ ((∃ x, g a = .throws x) ∨ ∃ b, g a = .returns b)) →
      (guarded e).bind g ≠ .exits ∧ ((∃ x, (guarded e).bind g = .throws x) ∨ ∃ b, (guarded e).bind g = .returns b) := by
    intro α β e g he hg
    cases e with
    | ok a => exact hg a
    | error x =>
      cases x with
      | parse => exact absurd rfl he
      | type => exact ⟨by simp [guarded, Outcome.bind], Or.inl ⟨_, rfl⟩⟩
      | frydom => exact ⟨by simp [guarded, Outcome.bind], Or.inl ⟨_, rfl⟩⟩
  have bnd : ∀ {α β : Type} (e : Except Exc α) (g : α → Except Exc β), e ≠ .error .parse → (∀ a, g a ≠ .error .parse) → e.bind g ≠ .error .parse := by
    intro α β e g he hg
    cases e with
    | ok a => exact hg a
    | error x => intro h; simp only [Except.bind, Except.error.injEq] at h; exact he (by rw [h])
  have gs : ∀ j : Json, j.getString ≠ .error .parse := fun j => by cases j <;> simp [Json.getString]
  have gd : ∀ j : Json, j.getDouble ≠ .error .parse := fun j => by cases j <;> simp [Json.getDouble]
  have gv : ∀ j : Json, j.getVector ≠ .error .parse := fun j => by cases j <;> simp [Json.getVector, getDoubles_parse]
  have s1 : ∀ s, string2Angle s ≠ .error .parse := fun s => by unfold string2Angle; split_ifs <;> simp
  have s2 : ∀ s, string2Frame s ≠ .error .parse := fun s => by unfold string2Frame; split_ifs <;> simp
  have s3 : ∀ s, string2Direction s ≠ .error .parse := fun s => by unfold string2Direction; split_ifs <;> simp
  have key : loadColumns f ≠ .exits ∧ ((∃ e, loadColumns f = .throws e) ∨ ∃ c, loadColumns f = .returns c) := by
    cases f with
    | invalid => exact ⟨by simp [loadColumns], Or.inl ⟨_, rfl⟩⟩
    | valid j =>
      cases hn : j.index "PolarFlowCoeffs" with
      | error e => simp only [loadColumns, hn]; exact ⟨by simp, Or.inl ⟨_, rfl⟩⟩
      | ok node =>
        simp only [loadColumns, hn]
        refine step _ _ (bnd _ _ (bnd _ _ (index_parse _ _) gs) s1) fun _ => ?_
        refine step _ _ (bnd _ _ (bnd _ _ (index_parse _ _) gs) s2) fun _ => ?_
        refine step _ _ (bnd _ _ (bnd _ _ (index_parse _ _) gs) s3) fun _ => ?_
        refine step _ _ (bnd _ _ (index_parse _ _) gd) fun _ => ?_
        refine step _ _ (bnd _ _ (index_parse _ _) gd) fun _ => ?_
        refine step _ _ (bnd _ _ (index_parse _ _) gd) fun _ => ?_
        refine step _ _ (bnd _ _ (index_parse _ _) gv) fun _ => ?_
        refine step _ _ (bnd _ _ (index_parse _ _) gv) fun _ => ?_
        refine step _ _ (bnd _ _ (index_parse _ _) gv) fun _ => ?_
        refine step _ _ (bnd _ _ (index_parse _ _) gv) fun _ => ?_
        exact ⟨by simp, Or.inr ⟨_, rfl⟩⟩
  refine ⟨key.1, key.2.resolve_right ?_⟩
  rintro ⟨c, hc⟩
  exact h c ((C173_columns f c).1 hc)

theorem rows_eq (cx cy cn : List ℝ) : ∀ (as : List ℝ) (i : ℕ) (r : List Entry),
    rows cx cy cn i as = some r ↔ r.length = as.length ∧ ∀ n (h : n < r.length), as[n]? = some (r[n].1) ∧ cx[i + n]? = some r[n].2.x ∧ cy[i + n]? = some r[n].2.y ∧ cn[i + n]? = some r[n].2.z := by
  intro as
  induction as with
  | nil =>
    intro i r
    simp only [rows, Option.some.injEq, List.length_nil]
    constructor
    · rintro rfl; exact ⟨rfl, fun n h => absurd h (by simp)⟩
    · rintro ⟨h, -⟩; exact (List.length_eq_zero_iff.1 h).symm
  | cons a as ih =>
    intro i r
    constructor
    · intro h
      simp only [rows] at h
      split at h
      · rename_i x y z hx hy hz
        cases hr : rows cx cy cn (i + 1) as with
        | none => rw [hr] at h; simp at h
        | some r' =>
          rw [hr] at h
          simp only [Option.map_some, Option.some.injEq] at h
          subst h
          obtain ⟨h1, h2⟩ := (ih (i + 1) r').1 hr
          refine ⟨by simp [h1], fun n hn => ?_⟩
          cases n with
          | zero => exact ⟨rfl, hx, hy, hz⟩
          | succ n =>
            have := h2 n (by simpa using hn)
            simpa [Nat.add_comm, Nat.add_left_comm, Nat.add_assoc] using this
      · exact absurd h (by simp)
    · rintro ⟨h1, h2⟩
      cases r with
      | nil => simp at h1
      | cons e r =>
        have h0 := h2 0 (by simp)
        simp only [List.getElem_cons_zero, Nat.add_zero, List.getElem?_cons_zero, Option.some.injEq] at h0
        obtain ⟨ha, hx, hy, hz⟩ := h0
        have hr : rows cx cy cn (i + 1) as = some r := by
          refine (ih (i + 1) r).2 ⟨by simpa using h1, fun n hn => ?_⟩
          have := h2 (n + 1) (by simpa using hn)
          simpa [Nat.add_comm, Nat.add_left_comm, Nat.add_assoc] using this
        simp only [rows, hx, hy, hz, hr, Option.map_some, ha]

/-- **C173, rows.** With columns of the length of the angles, the table returned is the one given followed by one row per angle, in the order of the file, with the three coefficients of that rank;
the areas, the length, the unit and the conventions are those of the file. -/
theorem C173_rows (debug : Bool) (f : File) (c : Content) (hd : Describes f c) (hs : c.Square) (polar : List Entry) :
    ∃ r, loadRows debug f polar = .returns ⟨polar ++ r, c.unit, c.fc, c.dc, c.frontal, c.lateral, c.length⟩ ∧
      r.map Prod.fst = c.angles ∧ (r.map fun e => e.2.x) = c.cx ∧ (r.map fun e => e.2.y) = c.cy ∧ (r.map fun e => e.2.z) = c.cn := by
  have hc := (C173_columns f c).2 hd
  obtain ⟨h1, h2, h3⟩ := hs
  let r : List Entry := List.ofFn fun i : Fin c.angles.length => (c.angles[i], (⟨c.cx[i], c.cy[i], c.cn[i]⟩ : V3))
  have hr : rows c.cx c.cy c.cn 0 c.angles = some r := by
    refine (rows_eq _ _ _ _ _ _).2 ⟨by simp [r], fun n hn => ?_⟩
    have hn' : n < c.angles.length := by simpa [r] using hn
    simp [r, hn', h1, h2, h3]
  refine ⟨r, ?_, ?_, ?_, ?_, ?_⟩
  · have hb : loadRows debug f polar = (fun c : Content => if debug = true ∧ ¬ (c.cx.length = c.angles.length ∧ c.cy.length = c.angles.length ∧ c.cn.length = c.angles.length) then Outcome.aborts
        else match rows c.cx c.cy c.cn 0 c.angles with
          | none => .undefined
          | some r => .returns ⟨polar ++ r, c.unit, c.fc, c.dc, c.frontal, c.lateral, c.length⟩) c := by
      unfold loadRows
      rw [hc]
      rfl
    rw [hb]
    simp only [h1, h2, h3, and_self, not_true_eq_false, and_false, if_false, hr]
  all_goals
    refine List.ext_getElem (by simp [r, h1, h2, h3]) fun n _ _ => ?_
    simp [r]

/-- **C173, columns of other lengths (defect).** With the assertions compiled the program is stopped; without them a column shorter than the angles is read beyond its end, and the end of longer
columns is dropped without a word. -/
theorem C173_lengths (f : File) (c : Content) (hd : Describes f c) (hs : ¬ c.Square) (polar : List Entry) :
    loadRows true f polar = .aborts ∧
    (c.cx.length < c.angles.length ∨ c.cy.length < c.angles.length ∨ c.cn.length < c.angles.length → loadRows false f polar = .undefined) ∧
    (c.angles.length ≤ c.cx.length → c.angles.length ≤ c.cy.length → c.angles.length ≤ c.cn.length →
      ∃ r, loadRows false f polar = .returns ⟨polar ++ r, c.unit, c.fc, c.dc, c.frontal, c.lateral, c.length⟩ ∧
        r.map Prod.fst = c.angles ∧ (r.map fun e => e.2.x) = c.cx.take c.angles.length ∧ (r.map fun e => e.2.y) = c.cy.take c.angles.length ∧
        (r.map fun e => e.2.z) = c.cn.take c.angles.length) := by
  have hc := (C173_columns f c).2 hd
  have hb : ∀ debug, loadRows debug f polar = (fun c : Content => if debug = true ∧ ¬ (c.cx.length = c.angles.length ∧ c.cy.length = c.angles.length ∧ c.cn.length = c.angles.length) then Outcome.aborts
      else match rows c.cx c.cy c.cn 0 c.angles with
        | none => .undefined
        | some r => .returns ⟨polar ++ r, c.unit, c.fc, c.dc, c.frontal, c.lateral, c.length⟩) c := by
    intro debug
    unfold loadRows
    rw [hc]
    rfl
  have hf : (false = true) = False := by simp
  refine ⟨?_, fun h => ?_, fun h1 h2 h3 => ?_⟩
  · rw [hb true]
    exact if_pos ⟨rfl, hs⟩
  · rw [hb false]
    simp only [hf, false_and, if_false]
    cases hr : rows c.cx c.cy c.cn 0 c.angles with
    | none => rfl
    | some r =>
      exfalso
      obtain ⟨hl, hall⟩ := (rows_eq _ _ _ _ _ _).1 hr
      have hne : c.angles.length - 1 < r.length := by omega
      obtain ⟨-, k1, k2, k3⟩ := hall (c.angles.length - 1) hne
      obtain ⟨g1, -⟩ := List.getElem?_eq_some_iff.1 k1
      obtain ⟨g2, -⟩ := List.getElem?_eq_some_iff.1 k2
      obtain ⟨g3, -⟩ := List.getElem?_eq_some_iff.1 k3
      omega
  · let r : List Entry := List.ofFn fun i : Fin c.angles.length => (c.angles[i], (⟨c.cx[i], c.cy[i], c.cn[i]⟩ : V3))
    have hr : rows c.cx c.cy c.cn 0 c.angles = some r := by
      refine (rows_eq _ _ _ _ _ _).2 ⟨by simp [r], fun n hn => ?_⟩
      have hn' : n < c.angles.length := by simpa [r] using hn
      have k1 : n < c.cx.length := by omega
      have k2 : n < c.cy.length := by omega
      have k3 : n < c.cn.length := by omega
      simp [r, hn', k1, k2, k3]
    refine ⟨r, ?_, ?_, ?_, ?_, ?_⟩
    · rw [hb false]
      simp only [hf, false_and, if_false, hr]
    all_goals
      refine List.ext_getElem (by simp [r]; try omega) fun n _ _ => ?_
      simp [r]

/-- **C173, from the file to the lookup table.** A file that describes a table over a whole turn (neither completed by symmetry nor closed) gives a force whose lookup rows say what the rows of the
file say, with the areas and length of the file. -/
theorem C173_table (debug : Bool) (f : File) (c : Content) (hd : Describes f c) (hs : c.Square) (out : List Entry) (frontal lateral length : ℝ) (hr : Reads debug f out frontal lateral length) :
    frontal = c.frontal ∧ lateral = c.lateral ∧ length = c.length ∧
    ∃ t : List Entry, t.map Prod.fst = c.angles ∧ (t.map fun e => e.2.x) = c.cx ∧ (t.map fun e => e.2.y) = c.cy ∧ (t.map fun e => e.2.z) = c.cn ∧ ReadTable c.unit c.fc c.dc t out ∧
      ∀ a b mid, t = a :: mid ++ [b] → (∀ start, ¬ HalfTable c.unit start a b) → (∀ start, ¬ TurnTable c.unit start a b) →
        (out.dropLast.map lookupMeaning).Perm (t.map (meaning c.unit c.fc c.dc)) := by
  obtain ⟨t, h1, h2, h3, h4, h5⟩ := hr
  obtain ⟨r, k1, k2, k3, k4, k5⟩ := C173_rows debug f c hd hs []
  rw [k1] at h1
  cases h1
  rw [List.nil_append] at h2
  refine ⟨h3.symm, h4.symm, h5.symm, r, k2, k3, k4, k5, h2, ?_⟩
  rintro a b mid rfl g1 g2
  exact C32_whole _ _ _ a b mid out h2 g1 g2

/-- A file of three rows. -/
def exampleFile : File := .valid (.obj [("PolarFlowCoeffs", .obj [("unit", .str "DEG"), ("FRAME_CONVENTION", .str "NED"), ("DIRECTION_CONVENTION", .str "COMEFROM"),
  ("frontal_area", .num 10), ("lateral_area", .num 40), ("length", .num 25), ("angles", .arr [.num 0, .num 120, .num 240]), ("cx", .arr [.num 1, .num 0.5, .num 0.5]),
  ("cy", .arr [.num 0, .num 0.7, .num (-0.7)]), ("cn", .arr [.num 0, .num 0.1, .num (-0.1)])])])

example : ∃ c : Content, Describes exampleFile c ∧ c.Square ∧ c.angles = [0, 120, 240] := by
  refine ⟨⟨.deg, .NED, .comefrom, 10, 40, 25, [0, 120, 240], [1, 0.5, 0.5], [0, 0.7, -0.7], [0, 0.1, -0.1]⟩, ?_, ⟨rfl, rfl, rfl⟩, rfl⟩
  have d : ∀ key v, (List.lookup key [("unit", Json.str "DEG"), ("FRAME_CONVENTION", .str "NED"), ("DIRECTION_CONVENTION", .str "COMEFROM"),
      ("frontal_area", .num 10), ("lateral_area", .num 40), ("length", .num 25), ("angles", .arr [.num 0, .num 120, .num 240]), ("cx", .arr [.num 1, .num 0.5, .num 0.5]),
      ("cy", .arr [.num 0, .num 0.7, .num (-0.7)]), ("cn", .arr [.num 0, .num 0.1, .num (-0.1)])]) = some v → Declares exampleFile key v :=
    fun key v h => ⟨_, _, rfl, rfl, h⟩
  exact ⟨⟨_, d _ _ rfl, Or.inl ⟨rfl, rfl⟩⟩, ⟨_, d _ _ rfl, Or.inl ⟨rfl, rfl⟩⟩, ⟨_, d _ _ rfl, Or.inr ⟨rfl, rfl⟩⟩, d _ _ rfl, d _ _ rfl, d _ _ rfl, d _ _ rfl, d _ _ rfl, d _ _ rfl, d _ _ rfl⟩

/-- A file without the length, and a file that is not an object, are refused. -/
example : (∀ c, ¬ Describes (.valid (.obj [("PolarFlowCoeffs", .obj [("unit", .str "DEG")])])) c) ∧ ∀ c, ¬ Describes (.valid (.num 3)) c := by
  constructor
  · intro c h
    obtain ⟨l, k, e, h1, h2⟩ := h.length
    cases e
    cases h1
    cases h2
  · intro c h
    obtain ⟨l, k, e, -, -⟩ := h.length
    cases e

end Frydom.Env.PolarFile
