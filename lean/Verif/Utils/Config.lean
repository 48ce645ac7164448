import Mathlib.Data.List.Basic
import Mathlib.Data.List.Infix
import Mathlib.Logic.Function.Basic
import Mathlib.Tactic.Ring

/-!
# Configuration file, creation of folders, log folder (C158, C159)

`FrConfig` (src/frydom/utils/FrConfig.cpp 17-77), `FrFileSystem::mkdir` (src/frydom/utils/FrFileSystem.cpp 81-100), the log folder of
`FrLogManager` (src/frydom/logging/FrLogManager.cpp 30, 37-50, 178-193).
External: the JSON parser, POSIX `stat`/`mkdir`, `strftime`.
-/

namespace Frydom.Utils.Config

/-! ## Configuration -/

/-- A JSON value: only null, strings and objects matter here; `other` stands for numbers, booleans and arrays. -/
inductive Json
  | null
  | str (s : String)
  | obj (fields : List (String × Json))
  | other

/-- `json::operator[](key)` on a mutable value: null becomes an object, a missing key gives null, anything else throws (`none`). -/
def Json.index : Json → String → Option Json
  | .null, _ => some .null
  | .obj l, k => some ((l.lookup k).getD .null)
  | .str _, _ => none
  | .other, _ => none

/-- Conversion to `std::string`: throws (`none`) unless it is a string. -/
def Json.asString : Json → Option String
  | .str s => some s
  | _ => none

/-- The content of a configuration file: `parse` gives a value or throws. A file that cannot be read does not parse. -/
inductive File
  | invalid
  | valid (j : Json)

/-- Outcome of the constructor: an exception, or the two folders. -/
inductive Outcome
  | throws
  | folders (log data : String)
  deriving DecidableEq

/-- Reading of one folder (FrConfig.cpp 32-39, 41-46): any exception is caught, the folder is then left as it was. -/
def readFolder (j : Json) (key : String) (before : String) : String :=
  match (j.index "frydom_config").bind fun r => (r.index key).bind Json.asString with
  | some s => s
  | none => before

/-- `LookForConfigFile` (FrConfig.cpp 53-74) and the constructor (17-53): `here` and `home` are the files in the current directory and in the home directory,
if they exist. With no file the stream of an empty name fails and `json::parse` throws, outside of the try blocks. The members are first empty. -/
def config (cwd : String) (here home : Option File) : Outcome :=
  let file := match here with
    | some f => some f
    | none => home
  let log := match file with
    | none => cwd
    | some _ => ""
  let data := match file with
    | none => cwd
    | some _ => ""
  match file with
  | none => .throws
  | some .invalid => .throws
  | some (.valid j) => .folders (readFolder j "log_folder" log) (readFolder j "data_folder" data)

/-! Specification -/

/-- The file says that `key` is the folder `s`. -/
def Declares (j : Json) (key s : String) : Prop :=
  ∃ l k, j = .obj l ∧ l.lookup "frydom_config" = some (.obj k) ∧ k.lookup key = some (.str s)

theorem readFolder_declared {j : Json} {key s : String} (h : Declares j key s) (b : String) : readFolder j key b = s := by
  obtain ⟨l, k, rfl, h1, h2⟩ := h
  simp [readFolder, Json.index, h1, h2, Json.asString]

theorem readFolder_missing {j : Json} {key : String} (h : ∀ s, ¬ Declares j key s) (b : String) : readFolder j key b = b := by
  unfold readFolder
  split
  · rename_i s hs
    exfalso
    refine h s ?_
    cases j with
    | null => simp [Json.index, Json.asString] at hs
    | str _ => simp [Json.index] at hs
    | other => simp [Json.index] at hs
    | obj l =>
      cases h1 : l.lookup "frydom_config" with
      | none => simp [Json.index, h1, Json.asString] at hs
      | some r =>
        cases r with
        | null => simp [Json.index, h1, Json.asString] at hs
        | str _ => simp [Json.index, h1] at hs
        | other => simp [Json.index, h1] at hs
        | obj k =>
          refine ⟨l, k, rfl, h1, ?_⟩
          cases h2 : k.lookup key with
          | none => simp [Json.index, h1, h2, Json.asString] at hs
          | some v => cases v <;> simp_all [Json.index, Json.asString]
  · rfl

/-- **C158 (declared folders)**: the file of the current directory is used, that of the home directory only if there is none; each folder it declares is
the one read. -/
theorem C158_folders (cwd : String) (here home : Option File) (j : Json) (hf : here = some (.valid j) ∨ (here = none ∧ home = some (.valid j)))
    (log data : String) (hl : Declares j "log_folder" log) (hd : Declares j "data_folder" data) :
    config cwd here home = .folders log data := by
  rcases hf with rfl | ⟨rfl, rfl⟩ <;> simp [config, readFolder_declared hl, readFolder_declared hd]

/-- **C158 (defect)**: a folder that the file does not declare, or not as a string, is empty, whatever the current directory, and the other one is still read. -/
theorem C158_undeclared (cwd : String) (here home : Option File) (j : Json) (hf : here = some (.valid j) ∨ (here = none ∧ home = some (.valid j))) :
    ∃ log data, config cwd here home = .folders log data ∧
      (∀ s, Declares j "log_folder" s → log = s) ∧ ((∀ s, ¬ Declares j "log_folder" s) → log = "") ∧
      (∀ s, Declares j "data_folder" s → data = s) ∧ ((∀ s, ¬ Declares j "data_folder" s) → data = "") := by
  refine ⟨readFolder j "log_folder" "", readFolder j "data_folder" "", ?_, fun s h => readFolder_declared h _, fun h => readFolder_missing h _,
    fun s h => readFolder_declared h _, fun h => readFolder_missing h _⟩
  rcases hf with rfl | ⟨rfl, rfl⟩ <;> rfl

/-- **C158 (failure, defect)**: the creation of a system throws exactly when the file used does not parse or there is no file at all: the fallback to the current
directory written for the latter case is never observed. -/
theorem C158_throws (cwd : String) (here home : Option File) :
    config cwd here home = .throws ↔
      here = some .invalid ∨ (here = none ∧ home = some .invalid) ∨ (here = none ∧ home = none) := by
  cases here with
  | none => cases home with
    | none => simp [config]
    | some f => cases f <;> simp [config]
  | some f => cases f <;> simp [config]

/-- A file that declares both folders, one that declares none, and their outcomes. -/
def exampleJson : Json := .obj [("frydom_config", .obj [("log_folder", .str "/tmp/log"), ("data_folder", .str "/tmp/data")])]

example : config "/home/me" none (some (.valid exampleJson)) = .folders "/tmp/log" "/tmp/data" ∧
    config "/home/me" (some (.valid (.obj []))) (some (.valid exampleJson)) = .folders "" "" ∧ config "/home/me" none none = .throws :=
  ⟨by decide, by decide, by decide⟩

/-! ## Folders -/

/-- What an absolute path is. -/
inductive Node | absent | file | dir
  deriving DecidableEq

/-- An absolute path, last component first; the root is the empty list. -/
abbrev Path := List String

/-- A file system: what each path is and whether folders can be created in it. -/
structure FS where
  node : Path → Node
  writable : Path → Bool

/-- `cppfs::createDirectory`: POSIX `mkdir` (external): the parent must be a writable directory. A folder created is writable. -/
def FS.create (s : FS) (x : String) (p : Path) : Option FS :=
  if s.node p = .dir ∧ s.writable p = true ∧ s.node (x :: p) = .absent then
    some { node := Function.update s.node (x :: p) .dir, writable := Function.update s.writable (x :: p) true }
  else none

/-- `FrFileSystem::mkdir` (FrFileSystem.cpp 89-102): the result, or `none` when the program exits. -/
def FS.mkdir (s : FS) : Path → Option (FS × Bool)
  | [] => some (s, true)
  | x :: p =>
    if s.node (x :: p) ≠ .absent then some (s, true)
    else
      match s.mkdir p with
      | none => none
      | some (s', true) => (s'.create x p).map fun t => (t, true)
      | some (s', false) => some (s', false)

/-! Specification -/

/-- The root is a folder, what is under something that is not a folder is absent. -/
structure FS.WF (s : FS) : Prop where
  root : s.node [] = .dir
  parent : ∀ x p, s.node (x :: p) ≠ .absent → s.node p = .dir

/-- `a` is the deepest path that exists among `p` and the folders above it. -/
def Nearest (s : FS) (p a : Path) : Prop := a <:+ p ∧ s.node a ≠ .absent ∧ ∀ b, b <:+ p → s.node b ≠ .absent → b <:+ a

theorem nearest_cons {s : FS} {x : String} {p : Path} (h : s.node (x :: p) = .absent) (a : Path) : Nearest s (x :: p) a ↔ Nearest s p a := by
  constructor
  · rintro ⟨h1, h2, h3⟩
    rcases List.suffix_cons_iff.mp h1 with rfl | h1
    · exact absurd h h2
    · exact ⟨h1, h2, fun b hb => h3 b (hb.trans (List.suffix_cons x p))⟩
  · rintro ⟨h1, h2, h3⟩
    refine ⟨h1.trans (List.suffix_cons x p), h2, fun b hb hb2 => ?_⟩
    rcases List.suffix_cons_iff.mp hb with rfl | hb
    · exact absurd h hb2
    · exact h3 b hb hb2

theorem nearest_self {s : FS} {p a : Path} (h : s.node p ≠ .absent) : Nearest s p a ↔ a = p := by
  constructor
  · rintro ⟨h1, h2, h3⟩
    exact h1.eq_of_length_le (h3 p (List.suffix_refl p) h).length_le
  · rintro rfl
    exact ⟨List.suffix_refl _, h, fun b hb _ => hb⟩

theorem nearest_exists (s : FS) (hs : s.WF) (p : Path) : ∃ a, Nearest s p a := by
  induction p with
  | nil => exact ⟨[], (nearest_self (by rw [hs.root]; decide)).mpr rfl⟩
  | cons x p ih =>
    by_cases h : s.node (x :: p) = .absent
    · obtain ⟨a, ha⟩ := ih
      exact ⟨a, (nearest_cons h a).mpr ha⟩
    · exact ⟨x :: p, (nearest_self h).mpr rfl⟩

theorem absent_above {s : FS} (hs : s.WF) {x : String} {p : Path} (h : s.node p = .absent) : s.node (x :: p) = .absent := by
  by_contra hc
  have := hs.parent x p hc
  rw [h] at this; cases this

theorem cons_not_suffix {x : String} {p : Path} : ¬ (x :: p) <:+ p := by
  intro h
  have := h.length_le
  simp at this

theorem mkdir_spec (s : FS) (hs : s.WF) (p a : Path) (ha : Nearest s p a) :
    (s.mkdir p = none ↔ a ≠ p ∧ ¬ (s.node a = .dir ∧ s.writable a = true)) ∧
    ∀ s' b, s.mkdir p = some (s', b) → b = true ∧
      (∀ q, s'.node q = if q <:+ p ∧ s.node q = .absent then .dir else s.node q) ∧
      (∀ q, s'.writable q = if q <:+ p ∧ s.node q = .absent then true else s.writable q) := by
  induction p with
  | nil =>
    have hr : s.node [] ≠ .absent := by rw [hs.root]; decide
    have := (nearest_self hr).mp ha
    subst this
    refine ⟨by simp [FS.mkdir], ?_⟩
    intro s' b h
    simp only [FS.mkdir, Option.some.injEq, Prod.mk.injEq] at h
    obtain ⟨rfl, rfl⟩ := h
    refine ⟨rfl, fun q => ?_, fun q => ?_⟩ <;>
    · rw [if_neg]
      rintro ⟨h1, h2⟩
      rw [List.suffix_nil.mp h1] at h2
      exact hr h2
  | cons x p ih =>
    by_cases h : s.node (x :: p) = .absent
    · have ha' := (nearest_cons h a).mp ha
      obtain ⟨ih1, ih2⟩ := ih ha'
      have hane : a ≠ x :: p := fun he => ha.2.1 (he ▸ h)
      cases hm : s.mkdir p with
      | none =>
        have h1 := ih1.mp hm
        have : s.mkdir (x :: p) = none := by simp [FS.mkdir, h, hm]
        rw [this]
        refine ⟨⟨fun _ => ⟨hane, h1.2⟩, fun _ => rfl⟩, ?_⟩
        intro s' b hc; cases hc
      | some r =>
        obtain ⟨s', b⟩ := r
        obtain ⟨rfl, n1, w1⟩ := ih2 s' b hm
        have hok : ¬ (a ≠ p ∧ ¬ (s.node a = .dir ∧ s.writable a = true)) := fun hc => by rw [ih1.mpr hc] at hm; cases hm
        have hx : s'.node (x :: p) = .absent := by
          rw [n1, if_neg (fun hc => cons_not_suffix hc.1), h]
        have hcr : s.mkdir (x :: p) = (s'.create x p).map fun t => (t, true) := by simp [FS.mkdir, h, hm]
        -- the parent after its creation
        have hpar : (s'.node p = .dir ∧ s'.writable p = true) ↔ (s.node a = .dir ∧ s.writable a = true) := by
          by_cases hp : s.node p = .absent
          · have hap : a ≠ p := fun he => ha.2.1 (he ▸ hp)
            have hgood : s.node a = .dir ∧ s.writable a = true := by
              by_contra hc; exact hok ⟨hap, hc⟩
            rw [n1, w1, if_pos ⟨List.suffix_refl p, hp⟩, if_pos ⟨List.suffix_refl p, hp⟩]
            exact ⟨fun _ => hgood, fun _ => ⟨rfl, rfl⟩⟩
          · have : a = p := (nearest_self hp).mp ha'
            subst this
            rw [n1, w1, if_neg (fun hc => hp hc.2), if_neg (fun hc => hp hc.2)]
        rw [hcr]
        unfold FS.create
        by_cases hg : s.node a = .dir ∧ s.writable a = true
        · have hp' := hpar.mpr hg
          rw [if_pos ⟨hp'.1, hp'.2, hx⟩]
          refine ⟨⟨fun hc => by simp at hc, fun hc => absurd hg hc.2⟩, ?_⟩
          intro t b ht
          simp only [Option.map_some, Option.some.injEq, Prod.mk.injEq] at ht
          obtain ⟨rfl, rfl⟩ := ht
          have key : ∀ q, (q <:+ x :: p ∧ s.node q = .absent) ↔ q = x :: p ∨ (q <:+ p ∧ s.node q = .absent) := by
            intro q
            rw [List.suffix_cons_iff]
            constructor
            · rintro ⟨rfl | h1, h2⟩
              · exact Or.inl rfl
              · exact Or.inr ⟨h1, h2⟩
            · rintro (rfl | ⟨h1, h2⟩)
              · exact ⟨Or.inl rfl, h⟩
              · exact ⟨Or.inr h1, h2⟩
          refine ⟨rfl, fun q => ?_, fun q => ?_⟩
          · by_cases hq : q = x :: p
            · subst hq
              rw [if_pos ((key _).mpr (Or.inl rfl))]
              exact Function.update_self ..
            · refine (Function.update_of_ne hq _ _).trans ?_
              rw [n1]
              exact if_congr (by rw [key]; simp [hq]) rfl rfl
          · by_cases hq : q = x :: p
            · subst hq
              rw [if_pos ((key _).mpr (Or.inl rfl))]
              exact Function.update_self ..
            · refine (Function.update_of_ne hq _ _).trans ?_
              rw [w1]
              exact if_congr (by rw [key]; simp [hq]) rfl rfl
        · rw [if_neg (fun hc => hg (hpar.mp ⟨hc.1, hc.2.1⟩))]
          refine ⟨⟨fun _ => ⟨hane, hg⟩, fun _ => rfl⟩, ?_⟩
          intro t b ht; simp at ht
    · have := (nearest_self h).mp ha
      subst this
      have hm : s.mkdir (x :: p) = some (s, true) := by simp [FS.mkdir, h]
      rw [hm]
      refine ⟨by simp, ?_⟩
      intro s' b hs'
      simp only [Option.some.injEq, Prod.mk.injEq] at hs'
      obtain ⟨rfl, rfl⟩ := hs'
      have hno : ∀ q, ¬ (q <:+ x :: p ∧ s.node q = .absent) := by
        rintro q ⟨⟨t, ht⟩, h2⟩
        rw [← ht] at h
        apply h
        clear ht h ha hm ih
        induction t with
        | nil => exact h2
        | cons y t ih => exact absent_above hs ih
      exact ⟨rfl, fun q => by rw [if_neg (hno q)], fun q => by rw [if_neg (hno q)]⟩

/-- **C159 (folders created)**: on any file system, asked for a folder, the program either exits, exactly when the deepest existing path above it is a file or
a folder where nothing can be created, or answers true with exactly the missing folders of the path created and nothing else changed. -/
theorem C159_mkdir (s : FS) (hs : s.WF) (p : Path) :
    ∃ a, Nearest s p a ∧ (s.mkdir p = none ↔ a ≠ p ∧ ¬ (s.node a = .dir ∧ s.writable a = true)) ∧
      ∀ s' b, s.mkdir p = some (s', b) → b = true ∧ s'.node p ≠ .absent ∧ s'.WF ∧
        (∀ q, ¬ q <:+ p → s'.node q = s.node q) ∧ (∀ q, s.node q ≠ .absent → s'.node q = s.node q) ∧
        (∀ q, q <:+ p → s.node q = .absent → s'.node q = .dir) := by
  obtain ⟨a, ha⟩ := nearest_exists s hs p
  obtain ⟨h1, h2⟩ := mkdir_spec s hs p a ha
  refine ⟨a, ha, h1, ?_⟩
  intro s' b h
  obtain ⟨rfl, hn, -⟩ := h2 s' b h
  have hex : ∀ q, q <:+ p → s'.node q ≠ .absent := by
    intro q hq
    rw [hn]
    split
    · decide
    · rename_i hc; exact fun he => hc ⟨hq, he⟩
  refine ⟨rfl, hex p (List.suffix_refl p), ⟨?_, ?_⟩, ?_, ?_, ?_⟩
  · rw [hn, hs.root]; simp
  · intro x q hq
    rw [hn] at hq ⊢
    split at hq
    · rename_i hc
      by_cases hqa : s.node q = .absent
      · rw [if_pos ⟨(List.suffix_cons x q).trans hc.1, hqa⟩]
      · rw [if_neg (fun h => hqa h.2)]
        -- the existing parent is a folder, else the program would have exited
        have hsuf : q <:+ p := (List.suffix_cons x q).trans hc.1
        have hqa' : q <:+ a := ha.2.2 q hsuf hqa
        rcases List.suffix_or_suffix_of_suffix hc.1 ha.1 with h5 | h5
        · -- x :: q above a: absent above an existing path
          exfalso
          obtain ⟨t, ht⟩ := h5
          apply ha.2.1
          rw [← ht]
          clear ht
          induction t with
          | nil => exact hc.2
          | cons y t ih => exact absent_above hs ih
        · rcases List.suffix_cons_iff.mp h5 with rfl | h6
          · exact absurd hc.2 ha.2.1
          · have hqe : q = a := hqa'.eq_of_length_le h6.length_le
            subst hqe
            by_contra hnd
            have hne : q ≠ p := by
              rintro rfl
              exact cons_not_suffix hc.1
            rw [h1.mpr ⟨hne, fun hh => hnd hh.1⟩] at h
            cases h
    · have hd := hs.parent x q hq
      rw [if_neg (fun hc => by rw [hd] at hc; exact absurd hc.2 (by decide))]
      exact hd
  · intro q hq; rw [hn, if_neg (fun hc => hq hc.1)]
  · intro q hq; rw [hn, if_neg (fun hc => hq hc.2)]
  · intro q hq hq2; rw [hn, if_pos ⟨hq, hq2⟩]

/-- **C159 (defect)**: asked for a path that is a file, the answer is true although there is no folder. -/
theorem C159_mkdir_file (s : FS) (x : String) (p : Path) (h : s.node (x :: p) = .file) : s.mkdir (x :: p) = some (s, true) := by
  simp [FS.mkdir, h]

/-- A file system with `/tmp` only, where `/tmp/a/b` can be created. -/
def exampleFS : FS where
  node p := if p = [] ∨ p = ["tmp"] then .dir else .absent
  writable _ := true

example : exampleFS.WF ∧ Nearest exampleFS ["b", "a", "tmp"] ["tmp"] := by
  have hn : ∀ p, exampleFS.node p = if p = [] ∨ p = ["tmp"] then .dir else .absent := fun _ => rfl
  constructor
  · refine ⟨by rw [hn]; simp, ?_⟩
    intro x p h
    rw [hn] at h ⊢
    by_cases hc : x :: p = [] ∨ x :: p = ["tmp"]
    · simp only [reduceCtorEq, List.cons.injEq, false_or] at hc
      simp [hc.2]
    · exact absurd (if_neg hc) h
  · refine ⟨⟨["b", "a"], rfl⟩, by rw [hn]; simp, ?_⟩
    intro b hb h
    rw [hn] at h
    by_cases hc : b = [] ∨ b = ["tmp"]
    · rcases hc with rfl | rfl
      · exact List.nil_suffix
      · exact List.suffix_refl _
    · exact absurd (if_neg hc) h

/-! ## Log folder -/

/-- A local date, to the second. -/
structure Date where
  year : ℕ
  month : ℕ
  day : ℕ
  hour : ℕ
  minute : ℕ
  second : ℕ
  deriving DecidableEq

/-- A date `strftime` writes with fixed widths. -/
structure Date.OK (d : Date) : Prop where
  year : d.year < 10000
  month : d.month < 100
  day : d.day < 100
  hour : d.hour < 100
  minute : d.minute < 100
  second : d.second < 100

/-- One decimal digit. -/
def digit (n : ℕ) : Char := Char.ofNat (48 + n % 10)

def pad2 (n : ℕ) : List Char := [digit (n / 10), digit n]
def pad4 (n : ℕ) : List Char := [digit (n / 1000), digit (n / 100), digit (n / 10), digit n]

/-- `GetDateFolder` (FrLogManager.cpp 30, 176-190): `%Y-%m-%d_%Hh%Mm%Ss`. -/
def Date.folder (d : Date) : List Char :=
  pad4 d.year ++ ['-'] ++ pad2 d.month ++ ['-'] ++ pad2 d.day ++ ['_'] ++ pad2 d.hour ++ ['h'] ++ pad2 d.minute ++ ['m'] ++ pad2 d.second ++ ['s']

theorem digit_inj {a b : ℕ} (h : digit a = digit b) : a % 10 = b % 10 := by
  have ha : a % 10 < 10 := Nat.mod_lt _ (by decide)
  have hb : b % 10 < 10 := Nat.mod_lt _ (by decide)
  have key : ∀ i < 10, ∀ j < 10, Char.ofNat (48 + i) = Char.ofNat (48 + j) → i = j := by decide
  exact key _ ha _ hb h

theorem pad2_inj {a b : ℕ} (ha : a < 100) (hb : b < 100) (h : pad2 a = pad2 b) : a = b := by
  simp only [pad2, List.cons.injEq, and_true] at h
  have h1 := digit_inj h.1
  have h2 := digit_inj h.2
  omega

theorem pad4_inj {a b : ℕ} (ha : a < 10000) (hb : b < 10000) (h : pad4 a = pad4 b) : a = b := by
  simp only [pad4, List.cons.injEq, and_true] at h
  have h1 := digit_inj h.1
  have h2 := digit_inj h.2.1
  have h3 := digit_inj h.2.2.1
  have h4 := digit_inj h.2.2.2
  omega

/-- **C159 (log folder)**: two systems with the same configuration log into the same folder exactly when they are created at the same local second: in
particular (defect) two systems created within one second, or an hour apart when the clock goes back, share their folder and events file. -/
theorem C159_log_folder (d e : Date) (hd : d.OK) (he : e.OK) : d.folder = e.folder ↔ d = e := by
  refine ⟨fun h => ?_, fun h => by rw [h]⟩
  have h' := h
  simp only [Date.folder, pad4, pad2, List.cons_append, List.nil_append, List.cons.injEq, and_true, true_and] at h'
  obtain ⟨y1, y2, y3, y4, m1, m2, d1, d2, h1, h2, n1, n2, s1, s2⟩ := h'
  have hy : d.year = e.year := pad4_inj hd.year he.year (by simp only [pad4, y1, y2, y3, y4])
  have hm : d.month = e.month := pad2_inj hd.month he.month (by simp only [pad2, m1, m2])
  have hdd : d.day = e.day := pad2_inj hd.day he.day (by simp only [pad2, d1, d2])
  have hh : d.hour = e.hour := pad2_inj hd.hour he.hour (by simp only [pad2, h1, h2])
  have hn : d.minute = e.minute := pad2_inj hd.minute he.minute (by simp only [pad2, n1, n2])
  have hs : d.second = e.second := pad2_inj hd.second he.second (by simp only [pad2, s1, s2])
  cases d; cases e
  simp_all

example : (⟨2019, 11, 19, 8, 5, 30⟩ : Date).OK ∧ String.ofList (⟨2019, 11, 19, 8, 5, 30⟩ : Date).folder = "2019-11-19_08h05m30s" :=
  ⟨⟨by decide, by decide, by decide, by decide, by decide, by decide⟩, by decide⟩

end Frydom.Utils.Config
