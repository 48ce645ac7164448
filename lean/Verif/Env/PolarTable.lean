import Verif.Env.Flow
import Mathlib.Data.List.Sort
import Mathlib.Analysis.Real.Pi.Bounds

/-!
# Tables of polar coefficients (C32)

`FrFlowForce::ReadTable` (`src/frydom/environment/flow/FrFlowForce.cpp`).
-/

open Classical

noncomputable section

namespace Frydom.Env
open Frydom.Geom Frydom.Waves

/-- A row of the table: angle and the three coefficients (surge, sway, yaw). -/
abbrev Entry := ℝ × V3

/-- The tolerance `10e-2` (FrFlowForce.cpp:57-74). -/
def tol : ℝ := 1 / 10

/-- `{c[0], -c[1], -c[2]}` (FrFlowForce.cpp:60, 66, 82). -/
def flip (c : V3) : V3 := ⟨c.x, -c.y, -c.z⟩

/-- `unsigned int i = polar.size() - 2` (FrFlowForce.cpp:58, 64), 32 bits. -/
def loopStart (n : ℕ) : ℕ := (n + (2 ^ 32 - 2)) % 2 ^ 32

/-- `for (…; i >= 1; i--) { … polar[i] …; polar.push_back(new_element); }` (FrFlowForce.cpp:58-62, 64-68); `none`: reading out of the vector. -/
def mirrorLoop (m : Entry → Entry) : ℕ → List Entry → Option (List Entry)
  | 0, l => some l
  | i + 1, l => match l[i + 1]? with
    | none => none
    | some e => mirrorLoop m i (l ++ [m e])

/-- Completion by symmetry (FrFlowForce.cpp:53-69) of a table whose first and last rows are `a` and `b`. -/
def complete (a b : Entry) (l : List Entry) : Option (List Entry) :=
  if |a.1| < tol ∧ |b.1 - Real.pi| < tol then mirrorLoop (fun e => (2 * Real.pi - e.1, flip e.2)) (loopStart l.length) l
  else if |a.1 + Real.pi| < tol ∧ |b.1| < tol then mirrorLoop (fun e => (-e.1, flip e.2)) (loopStart l.length) l
  else some l

/-- Removal of the double row (FrFlowForce.cpp:71-76). -/
def dropDouble (a b : Entry) (l : List Entry) : List Entry :=
  if (|a.1| < tol ∧ |b.1 - 2 * Real.pi| < tol) ∨ (|a.1 + Real.pi| < tol ∧ |b.1 - Real.pi| < tol) then l.dropLast else l

/-- Conversion of a row to NWU, GOTO, `[0, 2π)` (FrFlowForce.cpp:78-92). -/
def toNwuGoto (fc : FC) (dc : DC) (e : Entry) : Entry :=
  (normalize2Pi (applyDCPlus dc (applyFC fc e.1)), match fc with | .NED => flip e.2 | .NWU => e.2)

/-- `ReadTable` up to the sort (FrFlowForce.cpp:49-92); `none`: undefined behaviour (empty table, or reading out of the vector). -/
def prepare (unit : AngleUnit) (fc : FC) (dc : DC) (t : List Entry) : Option (List Entry) :=
  let l := t.map fun e => (toRad unit e.1, e.2)
  match l.head?, l.getLast? with
  | some a, some b =>
    match complete a b l with
    | some l2 =>
      match l2.head?, l2.getLast? with
      | some a2, some b2 => some ((dropDouble a2 b2 l2).map (toNwuGoto fc dc))
      | _, _ => none
    | none => none
  | _, _ => none

/-- `ReadTable` (FrFlowForce.cpp:36-116): the rows `out` given to the lookup table. `std::sort` may give any sorted rearrangement (it is not stable). -/
def ReadTable (unit : AngleUnit) (fc : FC) (dc : DC) (t out : List Entry) : Prop :=
  ∃ l s h, prepare unit fc dc t = some l ∧ s.Perm l ∧ s.Pairwise (fun e e' => e.1 ≤ e'.1) ∧ s.head? = some h ∧ out = s ++ [(2 * Real.pi, h.2)]

/-! ## Specification -/

/-- What a row of the file says: for a flow going in this direction (seen from the body, NWU axes), these coefficients in NWU axes. -/
def meaning (unit : AngleUnit) (fc : FC) (dc : DC) (e : Entry) : V3 × V3 := (applyDir dc (conv fc (heading (toRad unit e.1))), conv fc e.2)

/-- What a row of the lookup table says: angle in radians of the direction in which the flow goes, NWU. -/
def lookupMeaning (e : Entry) : V3 × V3 := (heading e.1, e.2)

/-- Port and starboard exchanged: the flow from the other side gives the opposite sway and yaw. -/
def mirrored (m : V3 × V3) : V3 × V3 := (⟨m.1.x, -m.1.y, m.1.z⟩, ⟨m.2.x, -m.2.y, -m.2.z⟩)

/-! ## C32 -/

theorem normalize2Pi_range (a : ℝ) : 0 ≤ normalize2Pi a ∧ normalize2Pi a < 2 * Real.pi := by
  have hp : 0 < 2 * Real.pi := by positivity
  unfold normalize2Pi
  have h1 := Int.floor_le (a / (2 * Real.pi))
  have h2 := Int.lt_floor_add_one (a / (2 * Real.pi))
  rw [le_div_iff₀ hp] at h1
  rw [div_lt_iff₀ hp] at h2
  constructor <;> linarith

theorem heading_normalize (a : ℝ) : heading (normalize2Pi a) = heading a := by
  unfold normalize2Pi heading
  have e : a - 2 * Real.pi * ⌊a / (2 * Real.pi)⌋ = a - (⌊a / (2 * Real.pi)⌋ : ℤ) * (2 * Real.pi) := by ring
  rw [e, Real.cos_sub_int_mul_two_pi, Real.sin_sub_int_mul_two_pi]

theorem flip_eq (fc : FC) (c : V3) : conv fc (flip c) = flip (conv fc c) := by
  cases fc
  · rfl
  · ext <;> simp [conv, swap, flip]

/-- Meaning of a row after the conversions. -/
theorem toNwuGoto_meaning (fc : FC) (dc : DC) (e : Entry) :
    lookupMeaning (toNwuGoto fc dc e) = meaning .rad fc dc e := by
  have h1 : heading (applyDCPlus dc (applyFC fc e.1)) = applyDir dc (conv fc (heading e.1)) := by
    cases dc <;> cases fc <;> ext <;> simp [heading, applyDCPlus, applyFC, applyDir, conv, swap, Real.cos_add_pi, Real.sin_add_pi]
  have h2 : (toNwuGoto fc dc e).2 = conv fc e.2 := by
    cases fc <;> rfl
  show (heading (normalize2Pi _), (toNwuGoto fc dc e).2) = (applyDir dc (conv fc (heading e.1)), conv fc e.2)
  rw [heading_normalize, h1, h2]

theorem mirrorLoop_eq (m : Entry → Entry) (a : Entry) (mid : List Entry) : ∀ rest,
    mirrorLoop m mid.length (a :: mid ++ rest) = some (a :: mid ++ rest ++ mid.reverse.map m) := by
  induction mid using List.reverseRecOn with
  | nil => intro rest; simp [mirrorLoop]
  | append_singleton mid x ih =>
    intro rest
    have hl : (mid ++ [x]).length = mid.length + 1 := by simp
    have hx : (a :: (mid ++ [x]) ++ rest)[mid.length + 1]? = some x := by simp
    rw [hl]
    show (match (a :: (mid ++ [x]) ++ rest)[mid.length + 1]? with
      | none => none
      | some e => mirrorLoop m mid.length (a :: (mid ++ [x]) ++ rest ++ [m e])) = _
    rw [hx]
    simp only []
    have := ih ([x] ++ rest ++ [m x])
    have e : a :: (mid ++ [x]) ++ rest ++ [m x] = a :: mid ++ ([x] ++ rest ++ [m x]) := by simp
    rw [e, this]
    simp

theorem loopStart_eq (n : ℕ) (h : n + 2 < 2 ^ 32) : loopStart (n + 2) = n := by
  unfold loopStart
  have : n + 2 + (2 ^ 32 - 2) = n + 2 ^ 32 := by omega
  rw [this, Nat.add_mod_right, Nat.mod_eq_of_lt (by omega)]

theorem mirror_all (m : Entry → Entry) (a b : Entry) (mid : List Entry) (h : mid.length + 2 < 2 ^ 32) :
    mirrorLoop m (loopStart (a :: mid ++ [b]).length) (a :: mid ++ [b]) = some (a :: mid ++ [b] ++ mid.reverse.map m) := by
  have : (a :: mid ++ [b]).length = mid.length + 2 := by simp
  rw [this, loopStart_eq _ h]
  exact mirrorLoop_eq m a mid [b]

/-- Radians. -/
def rad (unit : AngleUnit) (e : Entry) : Entry := (toRad unit e.1, e.2)

theorem meaning_rad (unit : AngleUnit) (fc : FC) (dc : DC) (e : Entry) : meaning .rad fc dc (rad unit e) = meaning unit fc dc e := rfl

theorem out_meaning {unit : AngleUnit} {fc : FC} {dc : DC} {t out : List Entry} (h : ReadTable unit fc dc t out) (l : List Entry)
    (hl : prepare unit fc dc t = some (l.map (toNwuGoto fc dc))) : (out.dropLast.map lookupMeaning).Perm (l.map (meaning .rad fc dc)) := by
  obtain ⟨l', s, h0, hp, hperm, -, -, rfl⟩ := h
  rw [hl] at hp
  obtain rfl := Option.some.inj hp
  rw [List.dropLast_concat]
  refine (hperm.map _).trans ?_
  rw [List.map_map]
  refine List.Perm.of_eq (List.map_congr_left fun e _ => ?_)
  exact toNwuGoto_meaning fc dc e

theorem pi_vals : 3 < Real.pi ∧ Real.pi < 3.15 := ⟨Real.pi_gt_three, Real.pi_lt_d2⟩

theorem ends (f : Entry → Entry) (a b : Entry) (mid : List Entry) :
    ((a :: mid ++ [b]).map f).head? = some (f a) ∧ ((a :: mid ++ [b]).map f).getLast? = some (f b) := by
  constructor
  · rfl
  · rw [List.map_append]
    exact List.getLast?_concat

theorem prepare_of (unit : AngleUnit) (fc : FC) (dc : DC) (a b a2 b2 : Entry) (mid l2 : List Entry)
    (hc : complete (rad unit a) (rad unit b) ((a :: mid ++ [b]).map (rad unit)) = some l2) (h1 : l2.head? = some a2) (h2 : l2.getLast? = some b2) :
    prepare unit fc dc (a :: mid ++ [b]) = some ((dropDouble a2 b2 l2).map (toNwuGoto fc dc)) := by
  have e1 : (List.map (fun e : Entry => (toRad unit e.1, e.2)) (a :: mid ++ [b])) = (a :: mid ++ [b]).map (rad unit) := rfl
  unfold prepare
  simp only []
  rw [e1, (ends (rad unit) a b mid).1, (ends (rad unit) a b mid).2]
  simp only []
  rw [hc]
  simp only []
  rw [h1, h2]

/-- A table over half a turn from `start`, its ends within the tolerance. -/
def HalfTable (unit : AngleUnit) (start : ℝ) (a b : Entry) : Prop :=
  (start = 0 ∨ start = -Real.pi) ∧ |toRad unit a.1 - start| < tol ∧ |toRad unit b.1 - (start + Real.pi)| < tol

/-- A table over a whole turn from `start`, its ends within the tolerance. -/
def TurnTable (unit : AngleUnit) (start : ℝ) (a b : Entry) : Prop :=
  (start = 0 ∨ start = -Real.pi) ∧ |toRad unit a.1 - start| < tol ∧ |toRad unit b.1 - (start + 2 * Real.pi)| < tol

/-- The mirror image of a row in the code. -/
def image (start : ℝ) (e : Entry) : Entry := if start = 0 then (2 * Real.pi - e.1, flip e.2) else (-e.1, flip e.2)

theorem image_meaning (start : ℝ) (fc : FC) (dc : DC) (e : Entry) : meaning .rad fc dc (image start e) = mirrored (meaning .rad fc dc e) := by
  have h1 : heading (2 * Real.pi - e.1) = ⟨(heading e.1).x, -(heading e.1).y, (heading e.1).z⟩ := by
    ext <;> simp [heading, Real.cos_two_pi_sub, Real.sin_two_pi_sub]
  have h2 : heading (-e.1) = ⟨(heading e.1).x, -(heading e.1).y, (heading e.1).z⟩ := by
    ext <;> simp [heading]
  have h3 : conv fc (flip e.2) = ⟨(conv fc e.2).x, -(conv fc e.2).y, -(conv fc e.2).z⟩ := flip_eq fc e.2
  have h4 : ∀ d : V3, applyDir dc (conv fc ⟨d.x, -d.y, d.z⟩) = ⟨(applyDir dc (conv fc d)).x, -(applyDir dc (conv fc d)).y, (applyDir dc (conv fc d)).z⟩ := by
    intro d
    cases dc <;> cases fc <;> ext <;> simp [applyDir, conv, swap]
  unfold image
  split_ifs
  · show (applyDir dc (conv fc (heading (2 * Real.pi - e.1))), conv fc (flip e.2)) = _
    rw [h1, h3, h4]; rfl
  · show (applyDir dc (conv fc (heading (-e.1))), conv fc (flip e.2)) = _
    rw [h2, h3, h4]; rfl

theorem complete_half (unit : AngleUnit) (start : ℝ) (a b : Entry) (mid : List Entry) (h : HalfTable unit start a b) (hn : mid.length + 2 < 2 ^ 32) :
    complete (rad unit a) (rad unit b) ((a :: mid ++ [b]).map (rad unit)) =
      some ((a :: mid ++ [b]).map (rad unit) ++ (mid.map (rad unit)).reverse.map (image start)) := by
  have ⟨p1, p2⟩ := pi_vals
  obtain ⟨hs, h1, h2⟩ := h
  have e : (a :: mid ++ [b]).map (rad unit) = rad unit a :: mid.map (rad unit) ++ [rad unit b] := by simp
  have hn' : (mid.map (rad unit)).length + 2 < 2 ^ 32 := by simpa using hn
  unfold complete
  rcases hs with rfl | rfl
  · have c : |(rad unit a).1| < tol ∧ |(rad unit b).1 - Real.pi| < tol := by
      simp only [sub_zero, zero_add] at h1 h2
      exact ⟨h1, h2⟩
    rw [if_pos c, e, mirror_all _ _ _ _ hn']
    have : (fun e : Entry => (2 * Real.pi - e.1, flip e.2)) = image 0 := by
      funext e; unfold image; rw [if_pos rfl]
    rw [this]
  · have c1 : ¬ (|(rad unit a).1| < tol ∧ |(rad unit b).1 - Real.pi| < tol) := by
      simp only [tol, abs_lt] at *
      intro hh
      have := h1.2
      have h3 : -(1 / 10 : ℝ) < toRad unit a.1 := hh.1.1
      linarith
    have c2 : |(rad unit a).1 + Real.pi| < tol ∧ |(rad unit b).1| < tol := by
      simp only [sub_neg_eq_add, neg_add_cancel, sub_zero] at h1 h2
      exact ⟨h1, h2⟩
    rw [if_neg c1, if_pos c2, e, mirror_all _ _ _ _ hn']
    have : (fun e : Entry => (-e.1, flip e.2)) = image (-Real.pi) := by
      funext e; unfold image; rw [if_neg (by linarith)]
    rw [this]

/-- The row `x` is within the tolerance of the start. -/
def Near (unit : AngleUnit) (start : ℝ) (x : Entry) : Prop := |toRad unit x.1 - start| < tol

/-- Whether the double-row test fires on a completed half table. -/
theorem double_half (unit : AngleUnit) (start : ℝ) (a b : Entry) (mid : List Entry) (h : HalfTable unit start a b) (hn : mid.length + 2 < 2 ^ 32) (fc : FC) (dc : DC) :
    prepare unit fc dc (a :: mid ++ [b]) =
      some (((a :: mid ++ [b]).map (rad unit) ++ ((match mid with | [] => [] | x :: rest => if Near unit start x then rest else x :: rest).map
        (rad unit)).reverse.map (image start)).map (toNwuGoto fc dc)) := by
  have ⟨p1, p2⟩ := pi_vals
  have hc := complete_half unit start a b mid h hn
  obtain ⟨hs, h1, h2⟩ := h
  cases mid with
  | nil =>
    have := prepare_of unit fc dc a b (rad unit a) (rad unit b) [] _ hc rfl (by simp)
    rw [this]
    congr 2
    unfold dropDouble
    rw [if_neg ?_]
    · simp only [tol, abs_lt, rad] at *
      rcases hs with rfl | rfl <;> rintro (⟨h3, h4⟩ | ⟨h3, h4⟩) <;> linarith [h1.1, h1.2, h2.1, h2.2, h3.1, h3.2, h4.1, h4.2]
  | cons x rest =>
    have hlast : ((a :: (x :: rest) ++ [b]).map (rad unit) ++ ((x :: rest).map (rad unit)).reverse.map (image start)).getLast? = some (image start (rad unit x)) := by
      rw [List.map_cons (l := rest), List.reverse_cons, List.map_append (f := image start), ← List.append_assoc]
      exact List.getLast?_concat
    have := prepare_of unit fc dc a b (rad unit a) (image start (rad unit x)) (x :: rest) _ hc rfl hlast
    rw [this]
    congr 2
    unfold dropDouble
    simp only []
    have iff : ((|(rad unit a).1| < tol ∧ |(image start (rad unit x)).1 - 2 * Real.pi| < tol) ∨
        (|(rad unit a).1 + Real.pi| < tol ∧ |(image start (rad unit x)).1 - Real.pi| < tol)) ↔ Near unit start x := by
      unfold Near image
      rcases hs with rfl | rfl
      · rw [if_pos rfl]
        have e : ∀ y : ℝ, |2 * Real.pi - y - 2 * Real.pi| = |y| := fun y => by rw [show 2 * Real.pi - y - 2 * Real.pi = -y by ring, abs_neg]
        show (|toRad unit a.1| < tol ∧ |2 * Real.pi - toRad unit x.1 - 2 * Real.pi| < tol) ∨ (|toRad unit a.1 + Real.pi| < tol ∧ _) ↔ _
        rw [e, sub_zero]
        rw [sub_zero] at h1
        constructor
        · rintro (⟨-, h4⟩ | ⟨h3, -⟩)
          · exact h4
          · simp only [tol, abs_lt] at *
            linarith [h1.1, h3.2]
        · intro h4; exact Or.inl ⟨h1, h4⟩
      · rw [if_neg (by linarith : ¬ -Real.pi = 0)]
        have e : ∀ y : ℝ, |-y - Real.pi| = |y - -Real.pi| := fun y => by rw [show -y - Real.pi = -(y - -Real.pi) by ring, abs_neg]
        show (|toRad unit a.1| < tol ∧ _) ∨ (|toRad unit a.1 + Real.pi| < tol ∧ |-toRad unit x.1 - Real.pi| < tol) ↔ _
        rw [e]
        constructor
        · rintro (⟨h3, -⟩ | ⟨-, h4⟩)
          · simp only [tol, abs_lt] at *
            linarith [h1.2, h3.1]
          · exact h4
        · intro h4; exact Or.inr ⟨by rw [sub_neg_eq_add] at h1; exact h1, h4⟩
    by_cases hx : Near unit start x
    · rw [if_pos (iff.mpr hx), if_pos hx, List.map_cons (l := rest), List.reverse_cons, List.map_append (f := image start), ← List.append_assoc, List.map_singleton,
        List.dropLast_concat]
    · rw [if_neg (fun hh => hx (iff.mp hh)), if_neg hx]

/-- **C32, shape.** Whatever the table, the angles are sorted, all in `[0, 2π)` but the last one, which is `2π` with the coefficients of the first. -/
theorem C32_sorted (unit : AngleUnit) (fc : FC) (dc : DC) (t out : List Entry) (h : ReadTable unit fc dc t out) :
    ∃ first rest, out = first :: rest ++ [(2 * Real.pi, first.2)] ∧ out.Pairwise (fun e e' => e.1 ≤ e'.1) ∧ ∀ e ∈ first :: rest, 0 ≤ e.1 ∧ e.1 < 2 * Real.pi := by
  obtain ⟨l, s, h0, hp, hperm, hs, hh, rfl⟩ := h
  cases s with
  | nil => simp at hh
  | cons x s =>
    obtain rfl : x = h0 := by simpa using hh
    have hr : ∀ e ∈ x :: s, 0 ≤ e.1 ∧ e.1 < 2 * Real.pi := by
      intro e he
      have hm := hperm.mem_iff.mp he
      have key : ∃ l' : List Entry, l = l'.map (toNwuGoto fc dc) := by
        unfold prepare at hp
        simp only [] at hp
        split at hp
        · split at hp
          · split at hp
            · exact ⟨_, (Option.some.inj hp).symm⟩
            · simp at hp
          · simp at hp
        · simp at hp
      obtain ⟨l', rfl⟩ := key
      obtain ⟨e', -, rfl⟩ := List.mem_map.mp hm
      exact normalize2Pi_range _
    refine ⟨x, s, rfl, ?_, hr⟩
    rw [List.pairwise_append]
    refine ⟨hs, by simp, ?_⟩
    intro e he e' he'
    obtain rfl : e' = (2 * Real.pi, x.2) := by simpa using he'
    exact (hr e he).2.le

/-- **C32, whole tables.** A table that is neither over half a turn nor closed (last row one turn after the first) is kept row by row, with the same meaning whatever the unit and the
conventions of the file. -/
theorem C32_whole (unit : AngleUnit) (fc : FC) (dc : DC) (a b : Entry) (mid out : List Entry) (h : ReadTable unit fc dc (a :: mid ++ [b]) out)
    (h1 : ∀ start, ¬ HalfTable unit start a b) (h2 : ∀ start, ¬ TurnTable unit start a b) :
    (out.dropLast.map lookupMeaning).Perm ((a :: mid ++ [b]).map (meaning unit fc dc)) := by
  have c : complete (rad unit a) (rad unit b) ((a :: mid ++ [b]).map (rad unit)) = some ((a :: mid ++ [b]).map (rad unit)) := by
    unfold complete
    rw [if_neg, if_neg]
    · intro hh
      refine h1 (-Real.pi) ⟨Or.inr rfl, ?_, ?_⟩
      · rw [sub_neg_eq_add]; exact hh.1
      · rw [neg_add_cancel, sub_zero]; exact hh.2
    · intro hh
      refine h1 0 ⟨Or.inl rfl, ?_, ?_⟩
      · rw [sub_zero]; exact hh.1
      · rw [zero_add]; exact hh.2
  have p := prepare_of unit fc dc a b _ _ mid _ c (ends (rad unit) a b mid).1 (ends (rad unit) a b mid).2
  have d : dropDouble (rad unit a) (rad unit b) ((a :: mid ++ [b]).map (rad unit)) = (a :: mid ++ [b]).map (rad unit) := by
    unfold dropDouble
    rw [if_neg]
    rintro (hh | hh)
    · refine h2 0 ⟨Or.inl rfl, ?_, ?_⟩
      · rw [sub_zero]; exact hh.1
      · rw [zero_add]; exact hh.2
    · refine h2 (-Real.pi) ⟨Or.inr rfl, ?_, ?_⟩
      · rw [sub_neg_eq_add]; exact hh.1
      · rw [show -Real.pi + 2 * Real.pi = Real.pi by ring]; exact hh.2
  rw [d] at p
  have := out_meaning h _ p
  rw [List.map_map] at this
  exact this

/-- **C32, closed tables.** A table over a whole turn is kept but for its last row. -/
theorem C32_closed (unit : AngleUnit) (fc : FC) (dc : DC) (start : ℝ) (a b : Entry) (mid out : List Entry) (h : ReadTable unit fc dc (a :: mid ++ [b]) out)
    (ht : TurnTable unit start a b) :
    (out.dropLast.map lookupMeaning).Perm ((a :: mid).map (meaning unit fc dc)) := by
  have ⟨p1, p2⟩ := pi_vals
  obtain ⟨hs, h1, h2⟩ := ht
  have c : complete (rad unit a) (rad unit b) ((a :: mid ++ [b]).map (rad unit)) = some ((a :: mid ++ [b]).map (rad unit)) := by
    unfold complete
    have e1 : (rad unit a).1 = toRad unit a.1 := rfl
    have e2 : (rad unit b).1 = toRad unit b.1 := rfl
    rw [e1, e2]
    simp only [tol, abs_lt] at h1 h2
    rw [if_neg, if_neg]
    · intro hh
      simp only [tol, abs_lt] at hh
      rcases hs with rfl | rfl <;> linarith [h1.1, h1.2, h2.1, h2.2, hh.1.1, hh.1.2, hh.2.1, hh.2.2]
    · intro hh
      simp only [tol, abs_lt] at hh
      rcases hs with rfl | rfl <;> linarith [h1.1, h1.2, h2.1, h2.2, hh.1.1, hh.1.2, hh.2.1, hh.2.2]
  have p := prepare_of unit fc dc a b _ _ mid _ c (ends (rad unit) a b mid).1 (ends (rad unit) a b mid).2
  have d : dropDouble (rad unit a) (rad unit b) ((a :: mid ++ [b]).map (rad unit)) = (a :: mid).map (rad unit) := by
    unfold dropDouble
    rw [if_pos, List.map_append]
    · exact List.dropLast_concat
    · rcases hs with rfl | rfl
      · rw [sub_zero] at h1
        rw [zero_add] at h2
        exact Or.inl ⟨h1, h2⟩
      · rw [sub_neg_eq_add] at h1
        rw [show -Real.pi + 2 * Real.pi = Real.pi by ring] at h2
        exact Or.inr ⟨h1, h2⟩
  rw [d] at p
  have := out_meaning h _ p
  rw [List.map_map] at this
  exact this

/-- **C32 (partial), half tables.** A table over half a turn whose second row is not within the tolerance (0.1 rad) of the start is completed with the mirror image, port for starboard,
of every row but the two ends; if the second row is within the tolerance its mirror image, and that one only, is missing. -/
theorem C32_half_partial (unit : AngleUnit) (fc : FC) (dc : DC) (start : ℝ) (a b : Entry) (mid out : List Entry) (h : ReadTable unit fc dc (a :: mid ++ [b]) out)
    (hh : HalfTable unit start a b) (hn : mid.length + 2 < 2 ^ 32) :
    ((∀ x ∈ mid.head?, ¬ Near unit start x) →
      (out.dropLast.map lookupMeaning).Perm ((a :: mid ++ [b]).map (meaning unit fc dc) ++ mid.map (fun e => mirrored (meaning unit fc dc e)))) ∧
    (∀ x rest, mid = x :: rest → Near unit start x →
      (out.dropLast.map lookupMeaning).Perm ((a :: mid ++ [b]).map (meaning unit fc dc) ++ rest.map (fun e => mirrored (meaning unit fc dc e)))) := by
  have hp := out_meaning h _ (double_half unit start a b mid hh hn fc dc)
  have key : ∀ l : List Entry, (((a :: mid ++ [b]).map (rad unit) ++ (l.map (rad unit)).reverse.map (image start)).map (meaning .rad fc dc)).Perm
      ((a :: mid ++ [b]).map (meaning unit fc dc) ++ l.map (fun e => mirrored (meaning unit fc dc e))) := by
    intro l
    rw [List.map_append, List.map_map]
    refine List.Perm.append (List.Perm.of_eq rfl) ?_
    refine ((List.reverse_perm _).map _).map _ |>.trans ?_
    rw [List.map_map, List.map_map]
    refine List.Perm.of_eq (List.map_congr_left fun e _ => ?_)
    exact image_meaning start fc dc (rad unit e)
  constructor
  · intro hx
    refine hp.trans ?_
    cases mid with
    | nil => exact key []
    | cons x rest =>
      have : ¬ Near unit start x := hx x rfl
      simp only [if_neg this]
      exact key (x :: rest)
  · rintro x rest rfl hx
    refine hp.trans ?_
    simp only [if_pos hx]
    exact key rest

/-- Every non-empty table of less than 2³² rows is read. -/
theorem C32_reads (unit : AngleUnit) (fc : FC) (dc : DC) (a b : Entry) (mid : List Entry) (hn : mid.length + 2 < 2 ^ 32) :
    ∃ out, ReadTable unit fc dc (a :: mid ++ [b]) out := by
  have key : ∃ l, l ≠ [] ∧ prepare unit fc dc (a :: mid ++ [b]) = some l := by
    by_cases hh : ∃ start, HalfTable unit start a b
    · obtain ⟨start, hh⟩ := hh
      exact ⟨_, by simp, double_half unit start a b mid hh hn fc dc⟩
    · have h1 : ∀ start, ¬ HalfTable unit start a b := fun s hs => hh ⟨s, hs⟩
      have c : complete (rad unit a) (rad unit b) ((a :: mid ++ [b]).map (rad unit)) = some ((a :: mid ++ [b]).map (rad unit)) := by
        unfold complete
        rw [if_neg, if_neg]
        · intro hh
          refine h1 (-Real.pi) ⟨Or.inr rfl, ?_, ?_⟩
          · rw [sub_neg_eq_add]; exact hh.1
          · rw [neg_add_cancel, sub_zero]; exact hh.2
        · intro hh
          refine h1 0 ⟨Or.inl rfl, ?_, ?_⟩
          · rw [sub_zero]; exact hh.1
          · rw [zero_add]; exact hh.2
      refine ⟨_, ?_, prepare_of unit fc dc a b _ _ mid _ c (ends (rad unit) a b mid).1 (ends (rad unit) a b mid).2⟩
      unfold dropDouble
      split_ifs
      · rw [List.map_append, show List.map (rad unit) [b] = [rad unit b] from rfl, List.dropLast_concat]; simp
      · simp
  obtain ⟨l, hl, hp⟩ := key
  let r : Entry → Entry → Prop := fun e e' => e.1 ≤ e'.1
  have : IsTotal Entry r := ⟨fun x y => le_total x.1 y.1⟩
  have : IsTrans Entry r := ⟨fun x y z h1 h2 => le_trans (α := ℝ) h1 h2⟩
  have hperm := List.perm_insertionSort r l
  have hs := List.pairwise_insertionSort r l
  cases hl' : List.insertionSort r l with
  | nil => rw [hl'] at hperm; exact absurd hperm.symm.eq_nil hl
  | cons x s => exact ⟨_, l, _, x, hp, hl' ▸ hperm, hl' ▸ hs, rfl, rfl⟩

theorem heading_inj {x y : ℝ} (hx : 0 ≤ x ∧ x < 2 * Real.pi) (hy : 0 ≤ y ∧ y < 2 * Real.pi) (h : heading x = heading y) : x = y := by
  have hc : Real.cos x = Real.cos y := congrArg V3.x h
  have hs : Real.sin x = Real.sin y := congrArg V3.y h
  have := Real.Angle.cos_sin_inj hc hs
  obtain ⟨k, hk⟩ := Real.Angle.angle_eq_iff_two_pi_dvd_sub.mp this
  have hp := Real.pi_pos
  have h1 : (k : ℝ) < 1 := by
    by_contra hh
    push Not at hh
    nlinarith [mul_le_mul_of_nonneg_left hh (by positivity : 0 ≤ 2 * Real.pi)]
  have h2 : (-1 : ℝ) < k := by
    by_contra hh
    push Not at hh
    nlinarith [mul_le_mul_of_nonneg_left hh (by positivity : 0 ≤ 2 * Real.pi)]
  have : k = 0 := by
    have a1 : k < 1 := by exact_mod_cast h1
    have a2 : -1 < k := by exact_mod_cast h2
    omega
  rw [this] at hk
  simp at hk
  linarith

/-- **C32, false: rows lost.** (1) A table from 0 to less than a turn, with no double row, whose last row is within 0.1 rad of the turn (any regular table by steps of 5 degrees) loses its
last row: no row of the lookup table has its direction. (2) A half table from 0 to π whose second row is within 0.1 rad of 0 is not completed on that side. -/
theorem C32_lost_counterexample (a b : Entry) (mid out : List Entry) (h : ReadTable .rad .NWU .goto (a :: mid ++ [b]) out) (ha : a.1 = 0)
    (hinc : (a :: mid ++ [b]).Pairwise (fun e e' => e.1 < e'.1)) (hn : mid.length + 2 < 2 ^ 32) :
    (b.1 < 2 * Real.pi → 2 * Real.pi - b.1 < tol → ∀ e ∈ out.dropLast, heading e.1 ≠ heading b.1) ∧
    (b.1 = Real.pi → ∀ x rest, mid = x :: rest → x.1 < tol → ∀ e ∈ out.dropLast, heading e.1 ≠ heading (-x.1)) := by
  have hp := pi_vals
  have hab : ∀ e ∈ a :: mid, e.1 < b.1 := fun e he => (List.pairwise_append.mp hinc).2.2 e he b (by simp)
  have ha0 : ∀ e ∈ mid ++ [b], 0 < e.1 := fun e he => by
    have := (List.pairwise_cons.mp hinc).1 e he
    rwa [ha] at this
  have hpos : ∀ e ∈ a :: mid, 0 ≤ e.1 := fun e he => by
    rcases List.mem_cons.mp he with rfl | he
    · exact ha.ge
    · exact (ha0 e (List.mem_append_left _ he)).le
  constructor
  · intro h1 h2 e he heq
    have ht : TurnTable .rad 0 a b := by
      refine ⟨Or.inl rfl, ?_, ?_⟩
      · show |a.1 - 0| < tol
        rw [ha, sub_zero, abs_zero]; norm_num [tol]
      · show |b.1 - (0 + 2 * Real.pi)| < tol
        rw [zero_add, abs_lt]
        constructor
        · linarith
        · have : (0:ℝ) < tol := by norm_num [tol]
          linarith
    have hm := (C32_closed .rad .NWU .goto 0 a b mid out h ht).mem_iff.mp (List.mem_map_of_mem he)
    obtain ⟨e', he', heq'⟩ := List.mem_map.mp hm
    have k : heading e'.1 = heading b.1 := by
      have := congrArg Prod.fst heq'
      have h3 : heading e'.1 = heading e.1 := this
      rw [h3, heq]
    have := heading_inj ⟨hpos e' he', (hab e' he').trans h1⟩ ⟨(ha0 b (by simp)).le, h1⟩ k
    exact absurd this (hab e' he').ne
  · rintro hb x rest rfl hx e he heq
    have hx0 := ha0 x (by simp)
    have hh : HalfTable .rad 0 a b := by
      refine ⟨Or.inl rfl, ?_, ?_⟩
      · show |a.1 - 0| < tol
        rw [ha, sub_zero, abs_zero]; norm_num [tol]
      · show |b.1 - (0 + Real.pi)| < tol
        rw [zero_add, hb, sub_self, abs_zero]; norm_num [tol]
    have hnear : Near .rad 0 x := by
      show |x.1 - 0| < tol
      rw [sub_zero, abs_of_pos hx0]; exact hx
    have hm := ((C32_half_partial .rad .NWU .goto 0 a b (x :: rest) out h hh hn).2 x rest rfl hnear).mem_iff.mp (List.mem_map_of_mem he)
    have hxpi : x.1 < Real.pi := hb ▸ hab x (by simp)
    rcases List.mem_append.mp hm with hm | hm
    · obtain ⟨e', he', heq'⟩ := List.mem_map.mp hm
      have h3 : heading e'.1 = heading e.1 := congrArg Prod.fst heq'
      have h4 : Real.sin e'.1 = Real.sin (-x.1) := congrArg V3.y (h3.trans heq)
      have r : 0 ≤ e'.1 ∧ e'.1 ≤ Real.pi := by
        rcases List.mem_append.mp he' with he' | he'
        · exact ⟨hpos e' he', hb ▸ (hab e' he').le⟩
        · obtain rfl : e' = b := by simpa using he'
          rw [hb]; exact ⟨by linarith, le_refl _⟩
      have h5 := Real.sin_nonneg_of_nonneg_of_le_pi r.1 r.2
      have h6 := Real.sin_pos_of_pos_of_lt_pi hx0 hxpi
      rw [Real.sin_neg] at h4
      linarith
    · obtain ⟨e', he', heq'⟩ := List.mem_map.mp hm
      have h3 : (mirrored (meaning .rad .NWU .goto e')).1 = heading e.1 := congrArg Prod.fst heq'
      have h4 : Real.cos e'.1 = Real.cos (-x.1) := congrArg V3.x (h3.trans heq)
      rw [Real.cos_neg] at h4
      have hxe : x.1 < e'.1 := by
        have := (List.pairwise_cons.mp (List.pairwise_cons.mp hinc).2).1 e' (List.mem_append_left _ he')
        exact this
      have := Real.injOn_cos ⟨hx0.le.trans hxe.le, hb ▸ (hab e' (by simp [he'])).le⟩ ⟨hx0.le, hxpi.le⟩ h4
      exact absurd this hxe.ne'

/-- A case: the table 0°, 90°, 180° of a file in NED, COMEFROM is read, is a half table, and its second row is far from the start. -/
example : (∃ out, ReadTable .deg .NED .comefrom ((0, ⟨1, 0, 0⟩) :: [(90, ⟨0, 1, 0⟩)] ++ [(180, ⟨-1, 0, 0⟩)]) out) ∧
    HalfTable .deg 0 (0, ⟨1, 0, 0⟩) (180, ⟨-1, 0, 0⟩) ∧ ¬ Near .deg 0 (90, ⟨0, 1, 0⟩) := by
  have hp := pi_vals
  refine ⟨C32_reads _ _ _ _ _ _ (by simp), ⟨Or.inl rfl, ?_, ?_⟩, ?_⟩
  · norm_num [toRad, tol]
  · have : (180 : ℝ) * (Real.pi / 180) - (0 + Real.pi) = 0 := by ring
    show |(180 : ℝ) * (Real.pi / 180) - (0 + Real.pi)| < tol
    rw [this, abs_zero]; norm_num [tol]
  · show ¬ |(90 : ℝ) * (Real.pi / 180) - 0| < tol
    rw [abs_of_pos (by linarith)]
    norm_num [tol]
    linarith

/-- Cases of the two defects. -/
example : (∃ out, ReadTable .rad .NWU .goto ((0, 0) :: [(3, ⟨1, 1, 1⟩)] ++ [(6.2, ⟨2, 2, 2⟩)]) out) ∧
    ((0, 0) :: [(3, ⟨1, 1, 1⟩)] ++ [((6.2 : ℝ), (⟨2, 2, 2⟩ : V3))] : List Entry).Pairwise (fun e e' => e.1 < e'.1) ∧ (6.2 : ℝ) < 2 * Real.pi ∧ 2 * Real.pi - 6.2 < tol := by
  have hp := Real.pi_gt_d2
  have hq := Real.pi_lt_d2
  refine ⟨C32_reads _ _ _ _ _ _ (by simp), ?_, by linarith, ?_⟩
  · simp; norm_num
  · simp only [tol]; linarith

/-- **C32, headings below the first row (defect).** The only row added at the ends is the one at `2π`, with the coefficients of the first row whatever its angle. When no row of the file is for
a flow going straight ahead, the first row is at a positive angle, every direction between 0 and that angle is below all the rows of the lookup table (outside of its range), and the row at `2π`, which
is the direction straight ahead too, has the coefficients of that first angle. -/
theorem C32_gap_counterexample (unit : AngleUnit) (fc : FC) (dc : DC) (a b : Entry) (mid out : List Entry) (h : ReadTable unit fc dc (a :: mid ++ [b]) out)
    (h1 : ∀ start, ¬ HalfTable unit start a b) (h2 : ∀ start, ¬ TurnTable unit start a b) (hno : ∀ e ∈ a :: mid ++ [b], (meaning unit fc dc e).1 ≠ ⟨1, 0, 0⟩) :
    ∃ first, out.head? = some first ∧ 0 < first.1 ∧ (∀ x, 0 ≤ x → x < first.1 → ∀ e ∈ out, x < e.1) ∧
      out.getLast? = some (2 * Real.pi, first.2) ∧ heading (2 * Real.pi) = ⟨1, 0, 0⟩ ∧ heading first.1 ≠ ⟨1, 0, 0⟩ := by
  obtain ⟨first, rest, ho, hp, hr⟩ := C32_sorted unit fc dc _ out h
  have hw := C32_whole unit fc dc a b mid out h h1 h2
  have hne : heading first.1 ≠ ⟨1, 0, 0⟩ := by
    intro hf
    have hm : lookupMeaning first ∈ out.dropLast.map lookupMeaning := by
      rw [ho, List.dropLast_concat]
      exact List.mem_map_of_mem (by simp)
    obtain ⟨e, he, hee⟩ := List.mem_map.1 (hw.mem_iff.1 hm)
    refine hno e he ?_
    rw [hee]; exact hf
  have h0 : 0 < first.1 := by
    refine lt_of_le_of_ne (hr first (by simp)).1 fun he => hne ?_
    rw [← he]
    simp [heading]
  refine ⟨first, by rw [ho]; rfl, h0, fun x hx hlt e he => ?_, by rw [ho]; exact List.getLast?_concat .., by simp [heading], hne⟩
  rw [ho] at hp he
  rw [List.cons_append] at hp he
  rcases List.mem_cons.1 he with rfl | he
  · exact hlt
  · exact hlt.trans_le ((List.pairwise_cons.1 hp).1 e he)

/-- A case: rows at 30°, 150° and 270°. -/
example : ∀ start, ¬ HalfTable .deg start (30, ⟨1, 0, 0⟩) (270, ⟨0, 1, 0⟩) ∧ ¬ TurnTable .deg start (30, ⟨1, 0, 0⟩) (270, ⟨0, 1, 0⟩) := by
  have hp := pi_vals
  intro start
  constructor
  · rintro ⟨rfl | rfl, h1, -⟩
    · have h1 : |(30 : ℝ) * (Real.pi / 180) - 0| < tol := h1
      rw [abs_of_pos (by linarith)] at h1
      norm_num [tol] at h1
      linarith
    · have h1 : |(30 : ℝ) * (Real.pi / 180) - -Real.pi| < tol := h1
      rw [abs_of_pos (by linarith)] at h1
      norm_num [tol] at h1
      linarith
  · rintro ⟨rfl | rfl, h1, -⟩
    · have h1 : |(30 : ℝ) * (Real.pi / 180) - 0| < tol := h1
      rw [abs_of_pos (by linarith)] at h1
      norm_num [tol] at h1
      linarith
    · have h1 : |(30 : ℝ) * (Real.pi / 180) - -Real.pi| < tol := h1
      rw [abs_of_pos (by linarith)] at h1
      norm_num [tol] at h1
      linarith

end Frydom.Env
