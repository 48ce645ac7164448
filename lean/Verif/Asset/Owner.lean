import Mathlib.Data.Real.Basic
import Mathlib.Data.List.Basic
import Mathlib.Data.List.Nodup
import Mathlib.Tactic.Ring
import Mathlib.Tactic.Linarith
import Mathlib.Tactic.NormNum
import Mathlib.Algebra.Order.Group.Unbundled.Abs
import Mathlib.Algebra.Order.Ring.Abs

/-!
# What is drawn with a body: shapes, assets, colours, assets of forces (C153)

`FrAssetOwner` (src/frydom/asset/FrAssetOwner.cpp), the shapes of src/frydom/asset/shape, `FrForce::ShowAsset`, `FrForce::Initialize`
(src/frydom/core/force/FrForce.cpp 84-93, 131-137) and `FrBody::RemoveExternalForce` (src/frydom/core/body/FrBody.cpp 507-538).
-/

noncomputable section

namespace Frydom.Asset

/-- Identity (pointer) of an asset: made by the user, or by a force: the k-th one made by force f (`ShowAsset` makes a new one, FrForce.cpp 135). -/
inductive Ptr where
  | user (n : ℕ)
  | ofForce (f k : ℕ)
  deriving DecidableEq

/-- What the Chrono list of assets of the item contains. Cylinders are kept as Chrono does, by the ordinates of their two ends, on the y axis of the body. -/
inductive Item where
  | asset (p : Ptr)
  | box (x y z : ℝ)
  | cylinder (y1 y2 radius : ℝ)
  | sphere (radius : ℝ)
  | mesh (m : ℕ)
  | color (r g b : ℝ)

/-- The asset an item is, if any. -/
def Item.asset? : Item → Option Ptr
  | .asset p => some p
  | _ => none

/-- State of the asset of a force: `m_showAsset`, `m_asset`, and the number of assets it made. -/
structure ForceShow where
  visible : Bool := false
  asset : Option Ptr := none
  made : ℕ := 0

/-- `FrAssetOwner` (FrAssetOwner.h 50-66): `assets` is m_assets, `drawn` the assets of the Chrono item, then the shapes; `forces` the display states of the
forces of the body. A cylinder is kept as its ends and radius (FrCylinderShape.cpp 6-11), a box as its lengths (FrBoxShape.cpp 7-9). -/
structure Owner where
  assets : List Ptr := []
  drawn : List Item := []
  boxes : List (ℝ × ℝ × ℝ) := []
  cylinders : List (ℝ × ℝ × ℝ) := []
  spheres : List ℝ := []
  meshes : List ℕ := []
  forces : ℕ → ForceShow := fun _ => {}

/-- Removal of the first item that is the asset p: `std::find` and `erase` (FrAssetOwner.cpp 83-94, FrBody.cpp 84-95); `none` if there is none
(assertion, or `erase(end)`, undefined). -/
def eraseItem (p : Ptr) : List Item → Option (List Item)
  | [] => none
  | i :: l => if i.asset? = some p then some l else (eraseItem p l).map (i :: ·)

/-- The loop of `FrBody::RemoveExternalForce` (FrBody.cpp 521-526): after an erasure the next element is skipped. -/
def eraseLoop (p : Ptr) : List Ptr → List Ptr
  | [] => []
  | a :: l => if a = p then (match l with | [] => [] | b :: l' => b :: eraseLoop p l') else a :: eraseLoop p l

/-- The calls. -/
inductive AssetCall where
  | addBox (x y z : ℝ)
  | addCylinder (radius height : ℝ)
  | addSphere (radius : ℝ)
  | addMesh (m : ℕ)
  | addAsset (p : Ptr)
  | removeAssets
  | removeAsset (p : Ptr)
  | setColor (r g b : ℝ)
  /-- `force f -> ShowAsset(v)` -/
  | showForce (f : ℕ) (v : Bool)
  /-- `force f -> Initialize()` -/
  | initForce (f : ℕ)
  /-- `RemoveExternalForce(force f)` -/
  | removeForce (f : ℕ)

/-- The display state of one force is changed. -/
def Owner.setForce (o : Owner) (f : ℕ) (s : ForceShow) : Owner := { o with forces := fun g => if g = f then s else o.forces g }

/-- Effect of a call: `none` if an assertion fails, a null pointer is used or the behaviour is undefined. Cited lines: FrAssetOwner.cpp 36-96, 130-138 for the owner;
FrForce.cpp 131-137 for `showForce`, 84-93 for `initForce`; FrBody.cpp 517-531 for `removeForce` (the rest of `RemoveExternalForce` is in C57). -/
def Owner.call (o : Owner) : AssetCall → Option Owner
  | .addBox x y z => some { o with boxes := o.boxes ++ [(x, y, z)], drawn := o.drawn ++ [.box x y z] }
  | .addCylinder r h => some { o with cylinders := o.cylinders ++ [(-h * 0.5, h * 0.5, r)], drawn := o.drawn ++ [.cylinder (-h * 0.5) (h * 0.5) r] }
  | .addSphere r => some { o with spheres := o.spheres ++ [r], drawn := o.drawn ++ [.sphere r] }
  | .addMesh m => some { o with meshes := o.meshes ++ [m], drawn := o.drawn ++ [.mesh m] }
  | .addAsset p => some { o with assets := o.assets ++ [p], drawn := o.drawn ++ [.asset p] }
  | .removeAssets => some { o with assets := [], drawn := [] }
  | .removeAsset p => if p ∈ o.assets then (eraseItem p o.drawn).map fun d => { o with assets := o.assets.erase p, drawn := d } else none
  | .setColor r g b => some { o with drawn := o.drawn ++ [.color r g b] }
  | .showForce f v =>
    let s := o.forces f
    if v then
      match s.asset with
      | some _ => none
      | none => some (o.setForce f ⟨true, some (.ofForce f s.made), s.made + 1⟩)
    else some (o.setForce f { s with visible := false })
  | .initForce f =>
    let s := o.forces f
    if s.visible then
      match s.asset with
      | none => none
      | some p => some { o with assets := o.assets ++ [p], drawn := o.drawn ++ [.asset p] }
    else some o
  | .removeForce f =>
    let s := o.forces f
    match s.asset with
    | none => some o
    | some p =>
      (eraseItem p o.drawn).bind fun d =>
        if p ∈ o.assets then some (({ o with drawn := d, assets := eraseLoop p o.assets } : Owner).setForce f { s with asset := none }) else none

/-- Calls in order. -/
def Owner.run (o : Owner) : List AssetCall → Option Owner
  | [] => some o
  | c :: l => (o.call c).bind fun o => o.run l

/-! ## What the user reads -/

/-- `FrBoxShape::xSize, ySize, zSize` of `GetBoxShapes()` (FrBoxShape.cpp 11-21, FrAssetOwner.cpp 98-104). -/
def Owner.getBoxes (o : Owner) : List (ℝ × ℝ × ℝ) := o.boxes
/-- `FrCylinderShape::radius, height` of `GetCylinderShapes()` (FrCylinderShape.cpp 13-19, FrAssetOwner.cpp 106-112). -/
def Owner.getCylinders (o : Owner) : List (ℝ × ℝ) := o.cylinders.map fun c => (c.2.2, |c.2.1 - c.1|)
/-- `FrSphereShape::radius` of `GetSphereShapes()` (FrSphereShape.cpp 11-13, FrAssetOwner.cpp 114-120). -/
def Owner.getSpheres (o : Owner) : List ℝ := o.spheres
/-- `GetMeshAssets()` (FrAssetOwner.cpp 122-128). -/
def Owner.getMeshes (o : Owner) : List ℕ := o.meshes
/-- The assets whose `StepFinalize` is called at each step, in order: `UpdateAsset` (FrAssetOwner.cpp 140-146). -/
def Owner.refreshed (o : Owner) : List Ptr := o.assets
/-- The assets that are drawn. -/
def Owner.shownAssets (o : Owner) : List Ptr := o.drawn.filterMap Item.asset?

/-! ## Specification: shapes asked for by a list of calls -/

/-- The boxes asked for. -/
def askedBoxes (l : List AssetCall) : List (ℝ × ℝ × ℝ) := l.filterMap fun | .addBox x y z => some (x, y, z) | _ => none
/-- The cylinders asked for: radius and height. -/
def askedCylinders (l : List AssetCall) : List (ℝ × ℝ) := l.filterMap fun | .addCylinder r h => some (r, h) | _ => none
/-- The spheres asked for. -/
def askedSpheres (l : List AssetCall) : List ℝ := l.filterMap fun | .addSphere r => some r | _ => none
/-- The meshes asked for. -/
def askedMeshes (l : List AssetCall) : List ℕ := l.filterMap fun | .addMesh m => some m | _ => none
/-- The boxes drawn. -/
def Owner.drawnBoxes (o : Owner) : List (ℝ × ℝ × ℝ) := o.drawn.filterMap fun | .box x y z => some (x, y, z) | _ => none
/-- The cylinders drawn: radius and length. -/
def Owner.drawnCylinders (o : Owner) : List (ℝ × ℝ) := o.drawn.filterMap fun | .cylinder y1 y2 r => some (r, y2 - y1) | _ => none
/-- The spheres drawn. -/
def Owner.drawnSpheres (o : Owner) : List ℝ := o.drawn.filterMap fun | .sphere r => some r | _ => none
/-- The meshes drawn. -/
def Owner.drawnMeshes (o : Owner) : List ℕ := o.drawn.filterMap fun | .mesh m => some m | _ => none

/-! ## Lemmas -/

theorem run_append (o : Owner) (l l' : List AssetCall) : o.run (l ++ l') = (o.run l).bind fun o => o.run l' := by
  induction l generalizing o with
  | nil => rfl
  | cons c l ih =>
    simp only [List.cons_append, Owner.run]
    cases o.call c with
    | none => rfl
    | some o' => exact ih o'

/-- Erasing an asset does not change what a filter blind to assets sees. -/
theorem eraseItem_blind {α : Type} (g : Item → Option α) (hg : ∀ p, g (.asset p) = none) (p : Ptr) (l d : List Item) (h : eraseItem p l = some d) :
    d.filterMap g = l.filterMap g := by
  induction l generalizing d with
  | nil => simp [eraseItem] at h
  | cons i l ih =>
    unfold eraseItem at h
    by_cases hi : i.asset? = some p
    · rw [if_pos hi] at h
      obtain rfl := Option.some.inj h
      cases i <;> simp [Item.asset?] at hi
      simp [hg]
    · rw [if_neg hi] at h
      obtain ⟨d', hd', rfl⟩ := Option.map_eq_some_iff.mp h
      rw [List.filterMap_cons, List.filterMap_cons, ih d' hd']

theorem eraseItem_assets (p : Ptr) (l : List Item) : (eraseItem p l).map (List.filterMap Item.asset?)
    = if p ∈ l.filterMap Item.asset? then some ((l.filterMap Item.asset?).erase p) else none := by
  induction l with
  | nil => simp [eraseItem]
  | cons i l ih =>
    unfold eraseItem
    by_cases hi : i.asset? = some p
    · rw [if_pos hi, List.filterMap_cons, hi]
      simp
    · rw [if_neg hi, Option.map_map]
      have e : (List.filterMap Item.asset? ∘ fun x => i :: x) = (fun x : List Ptr => (match i.asset? with | some q => q :: x | none => x)) ∘ List.filterMap Item.asset? := by
        funext x
        simp only [Function.comp, List.filterMap_cons]
        cases i.asset? <;> rfl
      rw [e, ← Option.map_map, ih, List.filterMap_cons]
      cases hq : i.asset? with
      | none => split_ifs <;> simp
      | some q =>
        have hne : q ≠ p := fun h => hi (by rw [hq, h])
        simp only [List.mem_cons, Ne.symm hne, false_or]
        split_ifs
        · simp [hne]
        · simp

theorem eraseLoop_eq (p : Ptr) (l : List Ptr) (h : l.count p ≤ 1) : eraseLoop p l = l.erase p := by
  induction l with
  | nil => rfl
  | cons a l ih =>
    unfold eraseLoop
    by_cases ha : a = p
    · subst ha
      rw [if_pos rfl, List.erase_cons_head]
      have h0 : a ∉ l := by
        rw [List.count_cons_self] at h
        exact List.count_eq_zero.mp (by omega)
      have : ∀ m : List Ptr, a ∉ m → eraseLoop a m = m := by
        intro m
        induction m with
        | nil => intro _; rfl
        | cons b m ihm =>
          intro hb
          unfold eraseLoop
          have hba : b ≠ a := fun h => hb (by simp [h])
          rw [if_neg hba, ihm (fun h => hb (by simp [h]))]
      cases l with
      | nil => rfl
      | cons b l' => simp only [this l' (fun h => h0 (by simp [h]))]
    · have hb : (a == p) = false := by simpa using ha
      rw [if_neg ha, List.erase_cons, hb]
      rw [List.count_cons, hb] at h
      rw [ih (by simpa using h)]
      rfl

/-! ## C153 -/

/-- A call that initialises a force whose asset is already in the list of assets (a second `Initialize`), or adds an asset twice. -/
def Twice (o : Owner) : AssetCall → Prop
  | .initForce f => (o.forces f).visible = true ∧ ∃ p, (o.forces f).asset = some p ∧ p ∈ o.assets
  | .addAsset p => p ∈ o.assets
  | _ => False

/-- A history of calls that all return, none of which adds an asset that is already there. -/
inductive History : List AssetCall → Owner → Prop
  | nil : History [] {}
  | snoc {l o o'} (c : AssetCall) : History l o → ¬ Twice o c → o.call c = some o' → History (l ++ [c]) o'

structure OwnerInv (o : Owner) : Prop where
  same : o.shownAssets = o.assets
  once : o.assets.Nodup

theorem append_once {l : List Ptr} {p : Ptr} (h : l.Nodup) (hp : p ∉ l) : (l ++ [p]).Nodup := by
  rw [List.nodup_append]
  refine ⟨h, by simp, ?_⟩
  intro a ha b hb
  rw [List.mem_singleton] at hb
  subst hb
  exact fun e => hp (e ▸ ha)

theorem shown_append (o : Owner) (d : List Item) : ({ o with drawn := o.drawn ++ d } : Owner).shownAssets = o.shownAssets ++ d.filterMap Item.asset? := by
  simp [Owner.shownAssets]

theorem call_inv {o o' : Owner} {c : AssetCall} (hi : OwnerInv o) (ht : ¬ Twice o c) (h : o.call c = some o') : OwnerInv o' := by
  have hs := hi.same
  unfold Owner.shownAssets at hs
  cases c with
  | addBox x y z => obtain rfl := Option.some.inj h; exact ⟨by simp [Owner.shownAssets, hs, Item.asset?], hi.once⟩
  | addCylinder r h' => obtain rfl := Option.some.inj h; exact ⟨by simp [Owner.shownAssets, hs, Item.asset?], hi.once⟩
  | addSphere r => obtain rfl := Option.some.inj h; exact ⟨by simp [Owner.shownAssets, hs, Item.asset?], hi.once⟩
  | addMesh m => obtain rfl := Option.some.inj h; exact ⟨by simp [Owner.shownAssets, hs, Item.asset?], hi.once⟩
  | addAsset p => obtain rfl := Option.some.inj h; exact ⟨by simp [Owner.shownAssets, hs, Item.asset?], append_once hi.once ht⟩
  | removeAssets => obtain rfl := Option.some.inj h; exact ⟨rfl, List.nodup_nil⟩
  | setColor r g b => obtain rfl := Option.some.inj h; exact ⟨by simp [Owner.shownAssets, hs, Item.asset?], hi.once⟩
  | removeAsset p =>
    simp only [Owner.call] at h
    split_ifs at h with hp
    obtain ⟨d, hd, rfl⟩ := Option.map_eq_some_iff.mp h
    have := eraseItem_assets p o.drawn
    rw [hd, hs, if_pos hp] at this
    exact ⟨Option.some.inj this, hi.once.erase p⟩
  | showForce f v =>
    simp only [Owner.call] at h
    split_ifs at h
    · split at h
      · exact absurd h (by simp)
      · obtain rfl := Option.some.inj h; exact ⟨hi.same, hi.once⟩
    · obtain rfl := Option.some.inj h; exact ⟨hi.same, hi.once⟩
  | initForce f =>
    simp only [Owner.call] at h
    split_ifs at h with hv
    · split at h
      · exact absurd h (by simp)
      · rename_i p hp
        obtain rfl := Option.some.inj h
        refine ⟨by simp [Owner.shownAssets, hs, Item.asset?], append_once hi.once fun hm => ht ⟨hv, p, hp, hm⟩⟩
    · obtain rfl := Option.some.inj h; exact hi
  | removeForce f =>
    simp only [Owner.call] at h
    split at h
    · obtain rfl := Option.some.inj h; exact hi
    · rename_i p hp
      obtain ⟨d, hd, h⟩ := Option.bind_eq_some_iff.mp h
      split_ifs at h with hm
      obtain rfl := Option.some.inj h
      have he := eraseItem_assets p o.drawn
      rw [hd, hs, if_pos hm] at he
      have hl := eraseLoop_eq p o.assets (List.nodup_iff_count_le_one.mp hi.once p)
      refine ⟨?_, ?_⟩
      · show d.filterMap Item.asset? = eraseLoop p o.assets
        rw [hl]; exact Option.some.inj he
      · show (eraseLoop p o.assets).Nodup
        rw [hl]; exact hi.once.erase p

theorem history_inv {l : List AssetCall} {o : Owner} (h : History l o) : OwnerInv o := by
  induction h with
  | nil => exact ⟨rfl, List.nodup_nil⟩
  | snoc c _ ht hc ih => exact call_inv ih ht hc

/-- **C153 (assets)**: after any history of calls (none of which adds an asset already there), the assets refreshed at each step are exactly the assets drawn, in
order and once each. -/
theorem C153_refreshed_are_drawn {l : List AssetCall} {o : Owner} (h : History l o) : o.refreshed = o.shownAssets ∧ o.refreshed.Nodup :=
  ⟨(history_inv h).same.symm, (history_inv h).once⟩

/-- **C153 (one asset)**: after any such history, an asset not there can be added, and removing it then gives back the same assets; removing it changes no other
asset; removing an asset that is not there fails. -/
theorem C153_add_remove {l : List AssetCall} {o : Owner} (h : History l o) (p : Ptr) :
    (p ∉ o.shownAssets → ∃ o', o.run [.addAsset p, .removeAsset p] = some o' ∧ o'.refreshed = o.refreshed ∧ o'.shownAssets = o.shownAssets) ∧
    (p ∈ o.shownAssets → ∃ o', o.call (.removeAsset p) = some o' ∧ p ∉ o'.shownAssets ∧ p ∉ o'.refreshed ∧ ∀ q, q ≠ p → (q ∈ o'.shownAssets ↔ q ∈ o.shownAssets)) ∧
    (p ∉ o.shownAssets → o.call (.removeAsset p) = none) := by
  have hi := history_inv h
  have hs := hi.same
  rw [hs]
  have herase : p ∈ o.assets → ∃ d, eraseItem p o.drawn = some d ∧ d.filterMap Item.asset? = o.assets.erase p := by
    intro hp
    have := eraseItem_assets p o.drawn
    have hs' : o.drawn.filterMap Item.asset? = o.assets := hs
    rw [hs', if_pos hp] at this
    exact Option.map_eq_some_iff.mp this
  refine ⟨fun hp => ?_, fun hp => ?_, fun hp => ?_⟩
  · have hi' : OwnerInv { o with assets := o.assets ++ [p], drawn := o.drawn ++ [.asset p] } := call_inv hi (c := .addAsset p) hp rfl
    have hm : p ∈ ({ o with assets := o.assets ++ [p], drawn := o.drawn ++ [.asset p] } : Owner).assets := by simp
    have he := eraseItem_assets p (o.drawn ++ [.asset p])
    have hs' : (o.drawn ++ [Item.asset p]).filterMap Item.asset? = o.assets ++ [p] := hi'.same
    rw [hs', if_pos hm] at he
    obtain ⟨d, hd, hd'⟩ := Option.map_eq_some_iff.mp he
    have hee : (o.assets ++ [p]).erase p = o.assets := by
      rw [List.erase_append_right _ hp]; simp
    refine ⟨{ o with assets := (o.assets ++ [p]).erase p, drawn := d }, ?_, hee, hd'.trans hee⟩
    have hc : o.run [.addAsset p, .removeAsset p]
        = ((if p ∈ o.assets ++ [p] then (eraseItem p (o.drawn ++ [.asset p])).map fun d => ({ o with assets := (o.assets ++ [p]).erase p, drawn := d } : Owner) else none) : Option Owner).bind fun o => some o := rfl
    rw [hc, if_pos (by simp), hd]
    rfl
  · obtain ⟨d, hd, hd'⟩ := herase hp
    have hn : p ∉ o.assets.erase p := fun hm => (List.Nodup.mem_erase_iff hi.once).mp hm |>.1 rfl
    refine ⟨{ o with assets := o.assets.erase p, drawn := d }, ?_, ?_, hn, fun q hq => ?_⟩
    · simp only [Owner.call]
      rw [if_pos hp, hd]; rfl
    · show p ∉ d.filterMap Item.asset?
      rw [hd']; exact hn
    · show q ∈ d.filterMap Item.asset? ↔ _
      rw [hd', List.mem_erase_of_ne hq]
  · simp only [Owner.call]
    rw [if_neg hp]

/-- What a call does to the shapes read. -/
theorem call_shapes {o o' : Owner} {c : AssetCall} (h : o.call c = some o') :
    o'.boxes = o.boxes ++ askedBoxes [c] ∧ o'.getCylinders = o.getCylinders ++ (askedCylinders [c]).map (fun x => (x.1, |x.2|)) ∧
    o'.spheres = o.spheres ++ askedSpheres [c] ∧ o'.meshes = o.meshes ++ askedMeshes [c] := by
  cases c with
  | addCylinder r h' =>
    obtain rfl := Option.some.inj h
    have : (h' * 0.5 - -h' * 0.5) = h' := by ring
    simp [askedBoxes, askedCylinders, askedSpheres, askedMeshes, Owner.getCylinders]
    congr 1
    norm_num
    ring
  | removeAsset p =>
    simp only [Owner.call] at h
    split_ifs at h with hp
    obtain ⟨d, hd, rfl⟩ := Option.map_eq_some_iff.mp h
    simp [askedBoxes, askedCylinders, askedSpheres, askedMeshes, Owner.getCylinders]
  | showForce f v =>
    simp only [Owner.call] at h
    split_ifs at h
    · split at h
      · exact absurd h (by simp)
      · obtain rfl := Option.some.inj h; simp [askedBoxes, askedCylinders, askedSpheres, askedMeshes, Owner.getCylinders, Owner.setForce]
    · obtain rfl := Option.some.inj h; simp [askedBoxes, askedCylinders, askedSpheres, askedMeshes, Owner.getCylinders, Owner.setForce]
  | initForce f =>
    simp only [Owner.call] at h
    split_ifs at h with hv
    · split at h
      · exact absurd h (by simp)
      · obtain rfl := Option.some.inj h; simp [askedBoxes, askedCylinders, askedSpheres, askedMeshes, Owner.getCylinders]
    · obtain rfl := Option.some.inj h; simp [askedBoxes, askedCylinders, askedSpheres, askedMeshes, Owner.getCylinders]
  | removeForce f =>
    simp only [Owner.call] at h
    split at h
    · obtain rfl := Option.some.inj h; simp [askedBoxes, askedCylinders, askedSpheres, askedMeshes, Owner.getCylinders]
    · rename_i p hp
      obtain ⟨d, hd, h⟩ := Option.bind_eq_some_iff.mp h
      split_ifs at h with hm
      obtain rfl := Option.some.inj h
      simp [askedBoxes, askedCylinders, askedSpheres, askedMeshes, Owner.getCylinders, Owner.setForce]
  | _ => obtain rfl := Option.some.inj h; simp [askedBoxes, askedCylinders, askedSpheres, askedMeshes, Owner.getCylinders]

/-- What a call other than `RemoveAssets` does to the shapes drawn. -/
theorem call_drawn {o o' : Owner} {c : AssetCall} (h : o.call c = some o') (hc : c ≠ .removeAssets) :
    o'.drawnBoxes = o.drawnBoxes ++ askedBoxes [c] ∧ o'.drawnCylinders = o.drawnCylinders ++ askedCylinders [c] ∧
    o'.drawnSpheres = o.drawnSpheres ++ askedSpheres [c] ∧ o'.drawnMeshes = o.drawnMeshes ++ askedMeshes [c] := by
  cases c with
  | removeAssets => exact absurd rfl hc
  | addCylinder r h' =>
    obtain rfl := Option.some.inj h
    simp [askedBoxes, askedCylinders, askedSpheres, askedMeshes, Owner.drawnBoxes, Owner.drawnCylinders, Owner.drawnSpheres, Owner.drawnMeshes]
    norm_num
    ring
  | removeAsset p =>
    simp only [Owner.call] at h
    split_ifs at h with hp
    obtain ⟨d, hd, rfl⟩ := Option.map_eq_some_iff.mp h
    simp only [askedBoxes, askedCylinders, askedSpheres, askedMeshes, Owner.drawnBoxes, Owner.drawnCylinders, Owner.drawnSpheres, Owner.drawnMeshes,
      List.filterMap_cons, List.filterMap_nil, List.append_nil]
    exact ⟨eraseItem_blind _ (fun _ => rfl) p _ _ hd, eraseItem_blind _ (fun _ => rfl) p _ _ hd, eraseItem_blind _ (fun _ => rfl) p _ _ hd,
      eraseItem_blind _ (fun _ => rfl) p _ _ hd⟩
  | showForce f v =>
    simp only [Owner.call] at h
    split_ifs at h
    · split at h
      · exact absurd h (by simp)
      · obtain rfl := Option.some.inj h
        simp [askedBoxes, askedCylinders, askedSpheres, askedMeshes, Owner.drawnBoxes, Owner.drawnCylinders, Owner.drawnSpheres, Owner.drawnMeshes, Owner.setForce]
    · obtain rfl := Option.some.inj h
      simp [askedBoxes, askedCylinders, askedSpheres, askedMeshes, Owner.drawnBoxes, Owner.drawnCylinders, Owner.drawnSpheres, Owner.drawnMeshes, Owner.setForce]
  | initForce f =>
    simp only [Owner.call] at h
    split_ifs at h with hv
    · split at h
      · exact absurd h (by simp)
      · obtain rfl := Option.some.inj h
        simp [askedBoxes, askedCylinders, askedSpheres, askedMeshes, Owner.drawnBoxes, Owner.drawnCylinders, Owner.drawnSpheres, Owner.drawnMeshes]
    · obtain rfl := Option.some.inj h
      simp [askedBoxes, askedCylinders, askedSpheres, askedMeshes, Owner.drawnBoxes, Owner.drawnCylinders, Owner.drawnSpheres, Owner.drawnMeshes]
  | removeForce f =>
    simp only [Owner.call] at h
    split at h
    · obtain rfl := Option.some.inj h
      simp [askedBoxes, askedCylinders, askedSpheres, askedMeshes, Owner.drawnBoxes, Owner.drawnCylinders, Owner.drawnSpheres, Owner.drawnMeshes]
    · rename_i p hp
      obtain ⟨d, hd, h⟩ := Option.bind_eq_some_iff.mp h
      split_ifs at h with hm
      obtain rfl := Option.some.inj h
      simp only [askedBoxes, askedCylinders, askedSpheres, askedMeshes, Owner.drawnBoxes, Owner.drawnCylinders, Owner.drawnSpheres, Owner.drawnMeshes,
        List.filterMap_cons, List.filterMap_nil, List.append_nil, Owner.setForce]
      exact ⟨eraseItem_blind _ (fun _ => rfl) p _ _ hd, eraseItem_blind _ (fun _ => rfl) p _ _ hd, eraseItem_blind _ (fun _ => rfl) p _ _ hd,
        eraseItem_blind _ (fun _ => rfl) p _ _ hd⟩
  | _ =>
    obtain rfl := Option.some.inj h
    simp [askedBoxes, askedCylinders, askedSpheres, askedMeshes, Owner.drawnBoxes, Owner.drawnCylinders, Owner.drawnSpheres, Owner.drawnMeshes]

/-- **C153 (shapes read)**: after any calls, the boxes, spheres and meshes read are all those ever asked for, with their sizes, in order; for the cylinders
the radius, and the height without its sign. -/
theorem C153_shapes_read {l : List AssetCall} {o : Owner} (h : ({} : Owner).run l = some o) :
    o.getBoxes = askedBoxes l ∧ o.getCylinders = (askedCylinders l).map (fun x => (x.1, |x.2|)) ∧ o.getSpheres = askedSpheres l ∧ o.getMeshes = askedMeshes l := by
  have key : ∀ (l : List AssetCall) (o o' : Owner), o.run l = some o' →
      o'.boxes = o.boxes ++ askedBoxes l ∧ o'.getCylinders = o.getCylinders ++ (askedCylinders l).map (fun x => (x.1, |x.2|)) ∧
      o'.spheres = o.spheres ++ askedSpheres l ∧ o'.meshes = o.meshes ++ askedMeshes l := by
    intro l
    induction l with
    | nil => intro o o' h; obtain rfl := Option.some.inj h; simp [askedBoxes, askedCylinders, askedSpheres, askedMeshes]
    | cons c l ih =>
      intro o o' h
      obtain ⟨o1, h1, h2⟩ := Option.bind_eq_some_iff.mp h
      obtain ⟨a1, a2, a3, a4⟩ := call_shapes h1
      obtain ⟨b1, b2, b3, b4⟩ := ih o1 o' h2
      have e : c :: l = [c] ++ l := rfl
      rw [e]
      simp only [askedBoxes, askedCylinders, askedSpheres, askedMeshes, List.filterMap_append, List.map_append] at *
      exact ⟨by rw [b1, a1, List.append_assoc], by rw [b2, a2, List.append_assoc], by rw [b3, a3, List.append_assoc], by rw [b4, a4, List.append_assoc]⟩
  have := key l {} o h
  simpa [Owner.getCylinders, Owner.getBoxes, Owner.getSpheres, Owner.getMeshes] using this

/-- **C153 (shapes drawn)**: the shapes drawn are those asked for since the last `RemoveAssets()`. -/
theorem C153_shapes_drawn {l l' : List AssetCall} {o : Owner} (hl : l = [] ∨ ∃ k, l = k ++ [.removeAssets]) (hl' : .removeAssets ∉ l')
    (h : ({} : Owner).run (l ++ l') = some o) :
    o.drawnBoxes = askedBoxes l' ∧ o.drawnCylinders = askedCylinders l' ∧ o.drawnSpheres = askedSpheres l' ∧ o.drawnMeshes = askedMeshes l' := by
  have key : ∀ (l : List AssetCall) (o o' : Owner), .removeAssets ∉ l → o.run l = some o' →
      o'.drawnBoxes = o.drawnBoxes ++ askedBoxes l ∧ o'.drawnCylinders = o.drawnCylinders ++ askedCylinders l ∧
      o'.drawnSpheres = o.drawnSpheres ++ askedSpheres l ∧ o'.drawnMeshes = o.drawnMeshes ++ askedMeshes l := by
    intro l
    induction l with
    | nil => intro o o' _ h; obtain rfl := Option.some.inj h; simp [askedBoxes, askedCylinders, askedSpheres, askedMeshes]
    | cons c l ih =>
      intro o o' hn h
      obtain ⟨o1, h1, h2⟩ := Option.bind_eq_some_iff.mp h
      obtain ⟨a1, a2, a3, a4⟩ := call_drawn h1 (fun e => hn (by simp [e]))
      obtain ⟨b1, b2, b3, b4⟩ := ih o1 o' (fun e => hn (by simp [e])) h2
      have e : c :: l = [c] ++ l := rfl
      rw [e]
      simp only [askedBoxes, askedCylinders, askedSpheres, askedMeshes, List.filterMap_append] at *
      exact ⟨by rw [b1, a1, List.append_assoc], by rw [b2, a2, List.append_assoc], by rw [b3, a3, List.append_assoc], by rw [b4, a4, List.append_assoc]⟩
  rw [run_append] at h
  obtain ⟨o1, h1, h2⟩ := Option.bind_eq_some_iff.mp h
  have h0 : o1.drawn = [] := by
    rcases hl with rfl | ⟨k, rfl⟩
    · obtain rfl := Option.some.inj h1; rfl
    · rw [run_append] at h1
      obtain ⟨o2, -, h3⟩ := Option.bind_eq_some_iff.mp h1
      obtain rfl := Option.some.inj h3
      rfl
  have := key l' o1 o hl' h2
  simpa [Owner.drawnBoxes, Owner.drawnCylinders, Owner.drawnSpheres, Owner.drawnMeshes, h0] using this

/-- **C153 (defect)**: after `RemoveAssets()` nothing is drawn but the shapes removed are still read. -/
theorem C153_removed_still_read {l : List AssetCall} {o : Owner} (h : ({} : Owner).run l = some o) :
    ∃ o', o.call .removeAssets = some o' ∧ o'.drawn = [] ∧ o'.refreshed = [] ∧ o'.getBoxes = askedBoxes l ∧ o'.getSpheres = askedSpheres l ∧ o'.getMeshes = askedMeshes l := by
  obtain ⟨h1, -, h3, h4⟩ := C153_shapes_read h
  exact ⟨_, rfl, rfl, rfl, h1, h3, h4⟩

/-- **C153 (force shown)**: after any such history, a force that never made an asset, shown, initialised and then removed: while it is there its asset is drawn and
refreshed, and after its removal the assets are those of before. -/
theorem C153_force_shown {l : List AssetCall} {o : Owner} (h : History l o) (f : ℕ) (hf : (o.forces f).asset = none)
    (hnew : Ptr.ofForce f (o.forces f).made ∉ o.assets) :
    ∃ o1 o2, o.run [.showForce f true, .initForce f] = some o1 ∧ o1.shownAssets = o.shownAssets ++ [.ofForce f (o.forces f).made] ∧
      o1.refreshed = o1.shownAssets ∧ o1.call (.removeForce f) = some o2 ∧ o2.shownAssets = o.shownAssets ∧ o2.refreshed = o.refreshed := by
  have hi := history_inv h
  set p := Ptr.ofForce f (o.forces f).made with hp
  let o1 : Owner := { (o.setForce f ⟨true, some p, (o.forces f).made + 1⟩) with assets := o.assets ++ [p], drawn := o.drawn ++ [.asset p] }
  have e1 : o.run [.showForce f true, .initForce f] = some o1 := by
    simp [Owner.run, Owner.call, hf, Owner.setForce, o1, hp]
  have hs : o.drawn.filterMap Item.asset? = o.assets := hi.same
  have s1 : o1.shownAssets = o.assets ++ [p] := by
    show (o.drawn ++ [Item.asset p]).filterMap Item.asset? = _
    simp [hs, Item.asset?]
  have he := eraseItem_assets p (o.drawn ++ [.asset p])
  have hs' : (o.drawn ++ [Item.asset p]).filterMap Item.asset? = o.assets ++ [p] := s1
  rw [hs', if_pos (by simp)] at he
  obtain ⟨d, hd, hd'⟩ := Option.map_eq_some_iff.mp he
  have hee : (o.assets ++ [p]).erase p = o.assets := by
    rw [List.erase_append_right _ hnew]; simp
  have hfo : (o1.forces f).asset = some p := by simp [o1, Owner.setForce]
  have hle : eraseLoop p (o.assets ++ [p]) = o.assets := by
    rw [eraseLoop_eq p _ (List.nodup_iff_count_le_one.mp (append_once hi.once hnew) p), hee]
  refine ⟨o1, ({ o1 with drawn := d, assets := eraseLoop p o1.assets } : Owner).setForce f { o1.forces f with asset := none }, e1, ?_, ?_, ?_, ?_, ?_⟩
  · rw [s1, hi.same]
  · rw [s1]; rfl
  · simp only [Owner.call, hfo]
    have : eraseItem p o1.drawn = some d := hd
    rw [this]
    have hm : p ∈ o1.assets := by simp [o1]
    simp only [Option.bind_some, if_pos hm]
  · show d.filterMap Item.asset? = _
    rw [hd', hee, hi.same]
  · show eraseLoop p (o.assets ++ [p]) = o.assets
    exact hle

/-- **C153 (force, defects)**: a force shown but not initialised cannot be removed (undefined behaviour), and a force shown, initialised and removed cannot be initialised
again (null pointer). -/
theorem C153_force_defects {l : List AssetCall} {o : Owner} (h : History l o) (f : ℕ) (hf : (o.forces f).asset = none)
    (hnew : Ptr.ofForce f (o.forces f).made ∉ o.assets) :
    o.run [.showForce f true, .removeForce f] = none ∧ o.run [.showForce f true, .initForce f, .removeForce f, .initForce f] = none := by
  have hi := history_inv h
  have hs : o.drawn.filterMap Item.asset? = o.assets := hi.same
  constructor
  · have he := eraseItem_assets (.ofForce f (o.forces f).made) o.drawn
    rw [hs, if_neg hnew, Option.map_eq_none_iff] at he
    simp [Owner.run, Owner.call, hf, Owner.setForce, he]
  · obtain ⟨o1, o2, e1, -, -, e2, -⟩ := C153_force_shown h f hf hnew
    have : [AssetCall.showForce f true, .initForce f, .removeForce f, .initForce f] = [.showForce f true, .initForce f] ++ [.removeForce f, .initForce f] := rfl
    rw [this, run_append, e1]
    simp only [Option.bind_some, Owner.run, e2]
    have hv : (o1.forces f).visible = true := by
      have : o.run [.showForce f true, .initForce f] = some { (o.setForce f ⟨true, some (.ofForce f (o.forces f).made), (o.forces f).made + 1⟩) with
          assets := o.assets ++ [.ofForce f (o.forces f).made], drawn := o.drawn ++ [.asset (.ofForce f (o.forces f).made)] } := by
        simp [Owner.run, Owner.call, hf, Owner.setForce]
      rw [this] at e1
      obtain rfl := Option.some.inj e1
      simp [Owner.setForce]
    have h2 : (o2.forces f).asset = none ∧ (o2.forces f).visible = true := by
      simp only [Owner.call] at e2
      split at e2
      · rename_i hn
        obtain rfl := Option.some.inj e2
        exact ⟨hn, hv⟩
      · obtain ⟨d, -, e2⟩ := Option.bind_eq_some_iff.mp e2
        split_ifs at e2
        obtain rfl := Option.some.inj e2
        simp [Owner.setForce, hv]
    simp [Owner.call, h2.1, h2.2]

/-- A history: a box, a user asset, a force shown and initialised. -/
example : ∃ o, History [.addBox 1 2 3, .addAsset (.user 0), .showForce 4 true, .initForce 4] o ∧ o.shownAssets = [.user 0, .ofForce 4 0] := by
  refine ⟨_, .snoc (l := [.addBox 1 2 3, .addAsset (.user 0), .showForce 4 true]) _ (.snoc (l := [.addBox 1 2 3, .addAsset (.user 0)]) _
    (.snoc (l := [.addBox 1 2 3]) _ (.snoc (l := []) _ .nil id rfl) (by simp [Twice]) rfl) id rfl) (by simp [Twice, Owner.setForce]) rfl, rfl⟩

/-- Its hypothesis on forces holds for force 5, which made no asset. -/
example : ∃ o, History [.addBox 1 2 3] o ∧ (o.forces 5).asset = none ∧ Ptr.ofForce 5 (o.forces 5).made ∉ o.assets :=
  ⟨_, .snoc (l := []) _ .nil id rfl, rfl, by simp⟩

end Frydom.Asset
