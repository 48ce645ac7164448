import Verif.Core.MassBody
import Verif.Geom.Props3

/-!
# Assemblies of bodies (C129)

`src/frydom/core/body/FrAssembly.cpp`.
-/

open Classical

noncomputable section

namespace Frydom.Core
open Frydom.Geom Frydom.Inertia

/-- `FrAssembly` (FrAssembly.h:25-29): the master body (`none`: null pointer) and the others. Bodies are numbered; their states are read when needed. -/
structure Assembly where
  master : Option ℕ
  list : List ℕ

namespace Assembly

/-- `FrAssembly(masterBody)`, `make_assembly(masterBody)` (FrAssembly.cpp:11, 77-79). -/
def new (m : Option ℕ) : Assembly := ⟨m, []⟩
/-- `AddToAssembly(body)` (FrAssembly.cpp:13-15). -/
def addBody (a : Assembly) (i : ℕ) : Assembly := { a with list := a.list ++ [i] }
/-- `AddToAssembly(bodyList)` (FrAssembly.cpp:17-21). -/
def addBodies (a : Assembly) (l : List ℕ) : Assembly := l.foldl addBody a
/-- `make_assembly(masterBody, bodyList)` (FrAssembly.cpp:81-86). -/
def make (m : Option ℕ) (l : List ℕ) : Assembly := (new m).addBodies l
/-- `RemoveFromAssembly(body)` (FrAssembly.cpp:23-31): the first occurrence is erased; `none`: assertion, or `erase(end())`. -/
def removeBody (a : Assembly) (i : ℕ) : Option Assembly := if i ∈ a.list then some { a with list := a.list.erase i } else none
/-- `Clear` (FrAssembly.h:39-41). -/
def clear (a : Assembly) : Assembly := { a with list := [] }
/-- `GetInertiaTensor` (FrAssembly.cpp:33-53); `none`: throws, there is no master body. -/
def getInertiaTensor (a : Assembly) (σ : ℕ → MassBody) : Option Tensor :=
  a.master.map fun m => a.list.foldl (fun t i => t.add (σ i).getInertiaTensor (Frame.otherWrtThis (σ m).body.getFrame (σ i).body.getFrame)) (σ m).getInertiaTensor
/-- `DoAssembly` (FrAssembly.cpp:55-63): whether the master body is fixed while the system is assembled, and after. The positions found by Chrono are not modelled. -/
def doAssembly (_fixedBefore : Bool) : Bool × Bool := (true, false)

/-! ## Specification -/

/-- The masses `L` of the body, at their places in the world. -/
def inWorld (b : Body) (L : List Pt) : List Pt := L.map fun a => ⟨a.m, b.pointInWorld a.p .NWU⟩
/-- A history of additions and removals. -/
inductive Change where
  | add (i : ℕ)
  | addMany (l : List ℕ)
  | remove (i : ℕ)
  | clear
/-- One operation. -/
def step (a : Assembly) : Change → Option Assembly
  | .add i => some (a.addBody i)
  | .addMany l => some (a.addBodies l)
  | .remove i => a.removeBody i
  | .clear => some a.clear
/-- A history. -/
def run (a : Assembly) : List Change → Option Assembly
  | [] => some a
  | o :: l => (a.step o).bind fun a' => a'.run l
/-- How many times a body is in after an operation, from before. -/
def countAfter (i : ℕ) (n : ℕ) : Change → ℕ
  | .add j => if i = j then n + 1 else n
  | .addMany l => n + l.count i
  | .remove j => if i = j then n - 1 else n
  | .clear => 0

end Assembly

open Assembly

/-! ## C129 -/

theorem addBodies_list (a : Assembly) (l : List ℕ) : (a.addBodies l).list = a.list ++ l ∧ (a.addBodies l).master = a.master := by
  unfold addBodies
  induction l generalizing a with
  | nil => simp
  | cons i l ih =>
    obtain ⟨h1, h2⟩ := ih (a.addBody i)
    simp only [List.foldl_cons]
    rw [h1, h2]
    exact ⟨by simp [addBody], rfl⟩

/-- **C129, contents.** In every history of additions and removals the number of times a body is counted follows the operations: added bodies are in once more, a removal takes one occurrence of that body only, clearing removes all; removing a body that is not in is refused;
the master never changes. -/
theorem C129_contents (a : Assembly) (l : List Change) (a' : Assembly) (h : a.run l = some a') :
    (∀ i, a'.list.count i = l.foldl (countAfter i) (a.list.count i)) ∧ a'.master = a.master := by
  induction l generalizing a with
  | nil => rw [Option.some.inj h]; exact ⟨fun _ => rfl, rfl⟩
  | cons o l ih =>
    rw [run] at h
    cases hs : a.step o with
    | none => rw [hs] at h; cases h
    | some a1 =>
      rw [hs] at h
      obtain ⟨h1, h2⟩ := ih a1 h
      have key : (∀ i, a1.list.count i = countAfter i (a.list.count i) o) ∧ a1.master = a.master := by
        cases o with
        | add j =>
          rw [← Option.some.inj hs]
          refine ⟨fun i => ?_, rfl⟩
          simp only [addBody, countAfter, List.count_append, List.count_singleton]
          by_cases e : i = j
          · subst e; simp
          · have : ¬ (j == i) = true := by simpa using fun h => e h.symm
            simp [e, this]
        | addMany m =>
          rw [← Option.some.inj hs]
          obtain ⟨e1, e2⟩ := addBodies_list a m
          refine ⟨fun i => ?_, e2⟩
          rw [e1, List.count_append]; rfl
        | remove j =>
          unfold step removeBody at hs
          simp only [] at hs
          by_cases hj : j ∈ a.list
          · rw [if_pos hj] at hs
            rw [← Option.some.inj hs]
            refine ⟨fun i => ?_, rfl⟩
            simp only [countAfter, List.count_erase]
            by_cases e : i = j
            · subst e; simp
            · have : ¬ (j == i) = true := by simpa using fun h => e h.symm
              simp [e, this]
          · rw [if_neg hj] at hs; cases hs
        | clear =>
          rw [← Option.some.inj hs]
          exact ⟨fun i => rfl, rfl⟩
      refine ⟨fun i => ?_, h2.trans key.2⟩
      rw [h1 i, key.1 i]; rfl

/-- **C129, refused.** A removal is accepted exactly when the body is in. -/
theorem C129_refused (a : Assembly) (i : ℕ) : (a.run [.remove i]).isSome ↔ 0 < a.list.count i := by
  rw [List.count_pos_iff]
  by_cases h : i ∈ a.list <;> simp [run, step, removeBody, h]

theorem otherWrt_point (F G : Frame) (hF : F.Valid) (hG : G.Valid) (p : V3) : (Frame.otherWrtThis F G).pointInParent p .NWU = F.pointInFrame (G.pointInParent p .NWU) .NWU := by
  simp only [Frame.pointInParent, Frame.pointInFrame, Frame.otherWrtThis, Frame.inv, Frame.mul, Frame.projFrameInParent, Frame.projParentInFrame, rotate, conv, Frame.getPosition, quatInv,
    Q.rotate_mul (Q.IsUnit.conj hF) hG, Q.rotate_sub, Q.rotate_add]
  ext <;> simp <;> ring

theorem seenFrom_append (F : Frame) (fc : FC) (L M : List Pt) : seenFrom F fc (L ++ M) = seenFrom F fc L ++ seenFrom F fc M := List.map_append

theorem moved_eq (F : Frame) (hF : F.Valid) (b : Body) (hb : b.cog.rot.IsUnit) (L : List Pt) : moved (Frame.otherWrtThis F b.getFrame) L = seenFrom F .NWU (inWorld b L) := by
  unfold moved seenFrom inWorld
  rw [List.map_map]
  apply List.map_congr_left
  intro a _
  show (⟨a.m, (Frame.otherWrtThis F b.getFrame).pointInParent a.p .NWU⟩ : Pt) = ⟨a.m, F.pointInFrame (conv .NWU (b.pointInWorld a.p .NWU)) .NWU⟩
  rw [otherWrt_point F b.getFrame hF hb]; rfl

theorem seenFrom_self (b : Body) (hb : b.cog.rot.IsUnit) (L : List Pt) : seenFrom b.getFrame .NWU (inWorld b L) = L := by
  unfold seenFrom inWorld
  rw [List.map_map]
  conv_rhs => rw [← List.map_id L]
  apply List.map_congr_left
  intro a _
  show (⟨a.m, b.getFrame.pointInFrame (Geom.conv .NWU (b.pointInWorld a.p .NWU)) .NWU⟩ : Pt) = a
  have : b.getFrame.pointInFrame (Geom.conv .NWU (b.pointInWorld a.p .NWU)) .NWU = a.p := by
    simp only [Frame.pointInFrame, Frame.projParentInFrame, Body.getFrame, Body.pointInWorld, Body.toWorld, Body.getPosition, Body.getQuaternion, rotate, Geom.conv, Frame.getPosition, quatInv]
    rw [show b.refPos + b.cog.rot.rotate a.p - b.refPos = b.cog.rot.rotate a.p by ext <;> simp, Q.rotate_conj hb]
  rw [this]

theorem massOf_seen (F : Frame) (fc : FC) (b : Body) (L : List Pt) : massOf (seenFrom F fc (inWorld b L)) = massOf L := by
  unfold seenFrom inWorld
  rw [massOf_map (fun p => F.pointInFrame (Geom.conv fc p) fc), massOf_map (fun p => b.pointInWorld p .NWU)]

/-- **C129, inertia.** For every assembly, the tensor is that of all the masses of all its bodies at the places the bodies are in the world, seen from the reference frame of the master: total mass, barycentre and inertia. -/
theorem C129_inertia (a : Assembly) (σ : ℕ → MassBody) (m : ℕ) (hm : a.master = some m) (L : ℕ → List Pt) (hd : ∀ i, i = m ∨ i ∈ a.list → Describes (σ i).getInertiaTensor (L i))
    (hu : ∀ i, i = m ∨ i ∈ a.list → (σ i).body.cog.rot.IsUnit) (hpos : ∀ i, i = m ∨ i ∈ a.list → 0 < massOf (L i)) :
    ∃ t, a.getInertiaTensor σ = some t ∧
      Describes t (seenFrom (σ m).body.getFrame .NWU ((m :: a.list).flatMap fun i => inWorld (σ i).body (L i))) := by
  unfold getInertiaTensor
  rw [hm]
  refine ⟨_, rfl, ?_⟩
  have hF : (σ m).body.getFrame.Valid := hu m (Or.inl rfl)
  have main : ∀ (l : List ℕ) (t : Tensor) (M : List Pt), (∀ i ∈ l, i ∈ a.list) → Describes t M → 0 < massOf M →
      Describes (l.foldl (fun t i => t.add (σ i).getInertiaTensor (Frame.otherWrtThis (σ m).body.getFrame (σ i).body.getFrame)) t)
        (M ++ seenFrom (σ m).body.getFrame .NWU (l.flatMap fun i => inWorld (σ i).body (L i))) := by
    intro l
    induction l with
    | nil => intro t M _ h _; simpa [seenFrom] using h
    | cons i l ih =>
      intro t M hl h hp
      have hi := hl i (List.mem_cons_self ..)
      have h1 := C19_add t (σ i).getInertiaTensor M (L i) (Frame.otherWrtThis (σ m).body.getFrame (σ i).body.getFrame)
        (Q.IsUnit.mul (Q.IsUnit.conj hF) (hu i (Or.inr hi))) h (hd i (Or.inr hi)) (by have := hpos i (Or.inr hi); linarith)
      rw [moved_eq _ hF _ (hu i (Or.inr hi))] at h1
      have h2 := ih _ _ (fun j hj => hl j (List.mem_cons_of_mem _ hj)) h1 (by rw [massOf_append, massOf_seen]; have := hpos i (Or.inr hi); linarith)
      rw [List.foldl_cons, List.flatMap_cons, seenFrom_append, ← List.append_assoc]
      exact h2
  have := main a.list (σ m).getInertiaTensor (L m) (fun _ h => h) (hd m (Or.inl rfl)) (hpos m (Or.inl rfl))
  rw [List.flatMap_cons, seenFrom_append, seenFrom_self _ (hu m (Or.inl rfl))]
  exact this

theorem massOf_perm {L M : List Pt} (h : L.Perm M) : massOf L = massOf M := by
  induction h with
  | nil => rfl
  | cons x _ ih => simp only [massOf, ih]
  | swap x y l => simp only [massOf]; ring
  | trans _ _ h1 h2 => rw [h1, h2]
theorem momentOf_perm {L M : List Pt} (h : L.Perm M) : momentOf L = momentOf M := by
  induction h with
  | nil => rfl
  | cons x _ ih => simp only [momentOf, ih]
  | swap x y l => simp only [momentOf]; ext <;> simp <;> ring
  | trans _ _ h1 h2 => rw [h1, h2]
theorem inertiaOf_perm {L M : List Pt} (h : L.Perm M) : inertiaOf L = inertiaOf M := by
  induction h with
  | nil => rfl
  | cons x _ ih => simp only [inertiaOf, ih]
  | swap x y l => simp only [inertiaOf]; ext <;> simp [Coeffs.add] <;> ring
  | trans _ _ h1 h2 => rw [h1, h2]

theorem describes_unique {t u : Tensor} {L M : List Pt} (h : Describes t L) (h' : Describes u M) (hp : L.Perm M) (hm : massOf L ≠ 0) : t = u := by
  have em : t.mass = u.mass := by rw [h.mass, h'.mass, massOf_perm hp]
  have ec : t.cog = u.cog := by
    have e : t.mass • t.cog = t.mass • u.cog := by rw [h.cog, em, h'.cog, momentOf_perm hp]
    have hne : t.mass ≠ 0 := by rw [h.mass]; exact hm
    have ex := congrArg V3.x e
    have ey := congrArg V3.y e
    have ez := congrArg V3.z e
    simp only [V3.smul_x, V3.smul_y, V3.smul_z] at ex ey ez
    ext
    · exact mul_left_cancel₀ hne ex
    · exact mul_left_cancel₀ hne ey
    · exact mul_left_cancel₀ hne ez
  refine Tensor.ext em ec ?_
  rw [h.inertia, h'.inertia, ec]
  congr 1
  exact inertiaOf_perm (hp.map _)

/-- **C129, order.** The tensor does not depend on the order in which the bodies were added. -/
theorem C129_order (a a' : Assembly) (σ : ℕ → MassBody) (m : ℕ) (hm : a.master = some m) (hm' : a'.master = some m) (hp : a.list.Perm a'.list) (L : ℕ → List Pt)
    (hd : ∀ i, i = m ∨ i ∈ a.list → Describes (σ i).getInertiaTensor (L i)) (hu : ∀ i, i = m ∨ i ∈ a.list → (σ i).body.cog.rot.IsUnit) (hpos : ∀ i, i = m ∨ i ∈ a.list → 0 < massOf (L i)) :
    a.getInertiaTensor σ = a'.getInertiaTensor σ := by
  obtain ⟨t, e, h⟩ := C129_inertia a σ m hm L hd hu hpos
  obtain ⟨u, e', h'⟩ := C129_inertia a' σ m hm' L (fun i hi => hd i (hi.imp_right hp.mem_iff.mpr)) (fun i hi => hu i (hi.imp_right hp.mem_iff.mpr)) (fun i hi => hpos i (hi.imp_right hp.mem_iff.mpr))
  rw [e, e']
  congr 1
  apply describes_unique h h'
  · apply List.Perm.map
    exact (hp.cons m).flatMap_right _
  · rw [List.flatMap_cons, seenFrom_append, massOf_append, massOf_seen]
    have h1 := hpos m (Or.inl rfl)
    have h2 : ∀ l : List ℕ, (∀ i ∈ l, i ∈ a.list) → 0 ≤ massOf (seenFrom (σ m).body.getFrame .NWU (l.flatMap fun i => inWorld (σ i).body (L i))) := by
      intro l
      induction l with
      | nil => intro _; simp [seenFrom, massOf]
      | cons i l ih =>
        intro hl
        rw [List.flatMap_cons, seenFrom_append, massOf_append, massOf_seen]
        have := hpos i (Or.inr (hl i (List.mem_cons_self ..)))
        have := ih (fun j hj => hl j (List.mem_cons_of_mem _ hj))
        linarith
    have := h2 a.list (fun _ h => h)
    linarith

/-- **C129 (defect), twice.** A body added twice, or the master added as a body, is counted twice: the mass of the assembly exceeds that of the bodies by its mass. -/
theorem C129_twice (σ : ℕ → MassBody) (m i : ℕ) (l : List ℕ) :
    ∃ t u, (make (some m) l).getInertiaTensor σ = some t ∧ ((make (some m) l).addBody i).getInertiaTensor σ = some u ∧ u.mass = t.mass + (σ i).mass := by
  have hm : (make (some m) l).master = some m := (addBodies_list (new (some m)) l).2
  have hm' : ((make (some m) l).addBody i).master = some m := hm
  have hl : ((make (some m) l).addBody i).list = (make (some m) l).list ++ [i] := rfl
  unfold getInertiaTensor
  rw [hm, hm', hl]
  refine ⟨_, _, rfl, rfl, ?_⟩
  beta_reduce
  rw [List.foldl_append]
  rfl

/-- **C129 (defect), fixed master.** The master body is fixed while the system is assembled and free after `DoAssembly`, even when it was fixed before; and without a master there is no tensor. -/
theorem C129_fixed (fixedBefore : Bool) (l : List ℕ) (σ : ℕ → MassBody) : (doAssembly fixedBefore).1 = true ∧ (doAssembly fixedBefore).2 = false ∧ (make none l).getInertiaTensor σ = none := by
  refine ⟨rfl, rfl, ?_⟩
  unfold getInertiaTensor
  rw [show (make none l).master = none from (addBodies_list (new none) l).2]; rfl

/-- A case: two equal masses one metre apart. -/
example : Describes (Tensor.ofCOG 2 ⟨0, 0.5, 0.5, 0, 0, 0⟩ ⟨0.5, 0, 0⟩ .NWU) [⟨1, ⟨0, 0, 0⟩⟩, ⟨1, ⟨1, 0, 0⟩⟩] := by
  constructor
  · norm_num [Tensor.ofCOG, massOf]
  · ext <;> norm_num [Tensor.ofCOG, momentOf, Geom.conv]
  · ext <;> norm_num [Tensor.ofCOG, matOfCoeffs, inertiaOf, about, ptInertia, Coeffs.add, Geom.conv]

end Frydom.Core
