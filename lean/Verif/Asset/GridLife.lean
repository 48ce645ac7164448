import Verif.Asset.PolarGridProps

/-!
# Life of the free surface grid: settings, building, redrawing (C152)

`FrGridAsset` (src/frydom/asset/FrGridAsset.cpp 28-66, 190-236) and `FrFreeSurfaceGridAsset::StepFinalize`
(src/frydom/asset/FrFreeSurfaceGridAsset.cpp 28-39). Colours are left out.
-/

noncomputable section

namespace Frydom.Asset
open Frydom.Geom

/-- `FrGridAsset::GRID_TYPE` with the parameters of each grid (FrGridAsset.h 36-69). -/
inductive GridKind where
  | none
  | cartesian (xmin xmax dx ymin ymax dy : ℝ)
  | polar (xc yc diameter : ℝ) (nbR nbTheta : ℕ)

/-- A free surface grid asset (FrGridAsset.h 44-69). `drawn` are the meshes of the Chrono asset, in order. The parameters of the type that is not selected are
left out: `SetGrid` always sets them with the type. -/
structure Grid where
  kind : GridKind
  height : ℝ
  updateStep : ℤ
  currentStep : ℤ
  drawn : List TriMesh

/-- Default settings, FrGridAsset.h 44-69: the tide is null, so the height is 0 (FrFreeSurfaceGridAsset.cpp 22-26). -/
def Grid.default : Grid := ⟨.cartesian (-50) 50 1 (-50) 50 1, 0, 0, 0, []⟩

/-- The settings a user calls. -/
inductive Setting where
  /-- `SetNoGrid()` -/
  | noGrid
  /-- `SetGrid(xmin, xmax, dx, ymin, ymax, dy)` -/
  | cartesian (xmin xmax dx ymin ymax dy : ℝ)
  /-- `SetGrid(lmin, lmax, dl)` -/
  | square (lmin lmax dl : ℝ)
  /-- `SetGrid(xc0, yc0, diameter, nbR, nbTheta)` -/
  | polar (xc yc diameter : ℝ) (nbR nbTheta : ℕ)
  /-- `SetGridHeight(h)` -/
  | height (h : ℝ)
  /-- `UpdateAssetON()` -/
  | updateOn
  /-- `UpdateAssetOFF()` -/
  | updateOff
  /-- `SetUpdateStep(n)` -/
  | updateEvery (n : ℤ)

/-- The settings (FrGridAsset.cpp 30-69, 220-234); `none`: the assertion of `UpdateAssetON` fails (lines 63-67). -/
def Grid.set (g : Grid) : Setting → Option Grid
  | .noGrid => some { g with kind := .none, updateStep := 0 }
  | .cartesian xmin xmax dx ymin ymax dy => some { g with kind := .cartesian xmin xmax dx ymin ymax dy }
  | .square lmin lmax dl => some { g with kind := .cartesian lmin lmax dl lmin lmax dl }
  | .polar xc yc d nbR nbTheta => some { g with kind := .polar xc yc d nbR nbTheta }
  | .height h => some { g with height := h }
  | .updateOn =>
    match g.kind with
    | .none => none
    | _ => some (if g.updateStep = 0 then { g with updateStep := 1 } else g)
  | .updateOff => some { g with updateStep := 0 }
  | .updateEvery n => some { g with updateStep := n }

/-- `FrGridAsset::Initialize`, FrGridAsset.cpp 193-218. -/
def Grid.init (g : Grid) : Grid :=
  match g.kind with
  | .cartesian xmin xmax dx ymin ymax dy => { g with drawn := g.drawn ++ [rectangular g.height xmin xmax dx ymin ymax dy] }
  | .polar xc yc d nbR nbTheta => { g with drawn := g.drawn ++ [polar g.height xc yc d nbR nbTheta] }
  | .none => g

/-- `fmod(a, n) == 0` on two integers: false for n = 0 (not a number). -/
def fmodZero (a n : ℤ) : Bool := n ≠ 0 && a % n = 0

/-- Redrawing of a mesh (FrFreeSurfaceGridAsset.cpp 33-37): `η x y` is `GetPosition(x, y, NWU)`. -/
def TriMesh.redraw (M : TriMesh) (η : ℝ → ℝ → ℝ) : TriMesh :=
  { M with verts := M.verts.map fun v => ⟨v.x, v.y, η v.x v.y⟩ }

/-- `FrFreeSurfaceGridAsset::StepFinalize`, FrFreeSurfaceGridAsset.cpp 28-39: `none` when the mesh does not exist (null pointer). -/
def Grid.step (g : Grid) (η : ℝ → ℝ → ℝ) : Option Grid :=
  let g := { g with currentStep := g.currentStep + 1 }
  if fmodZero g.currentStep g.updateStep then
    match g.drawn with
    | [] => none
    | M :: rest => some { g with drawn := M.redraw η :: rest }
  else some g

/-- A run of k steps, the surface after step i + 1 being `η (i + 1)`. -/
def Grid.run (η : ℕ → ℝ → ℝ → ℝ) (g : Grid) : ℕ → Option Grid
  | 0 => some g
  | k + 1 => (g.run η k).bind fun g => g.step (η (k + 1))

/-- A sequence of settings. -/
def Grid.settings (g : Grid) : List Setting → Option Grid
  | [] => some g
  | s :: l => (g.set s).bind fun g => g.settings l

/-! ## Specification -/

/-- What is drawn: the mesh M with the heights given by `z` at its nodes. -/
def TriMesh.At (M M' : TriMesh) (z : ℝ → ℝ → ℝ) : Prop :=
  M'.faces = M.faces ∧ M'.verts = M.verts.map fun v => (⟨v.x, v.y, z v.x v.y⟩ : V3)

/-! ## C152 -/

theorem redraw_redraw (M : TriMesh) (η η' : ℝ → ℝ → ℝ) : (M.redraw η).redraw η' = M.redraw η' := by
  unfold TriMesh.redraw
  simp only [List.map_map]
  rfl

theorem fmodZero_iff (a n : ℤ) : fmodZero a n = true ↔ n ≠ 0 ∧ n ∣ a := by
  unfold fmodZero
  simp only [ne_eq, decide_not, Bool.and_eq_true, Bool.not_eq_true', decide_eq_false_iff_not, decide_eq_true_eq]
  rw [Int.dvd_iff_emod_eq_zero]

/-- The last step, not after k, at which a grid redrawn every n steps is redrawn (0: none). -/
def lastRefresh (n k : ℕ) : ℕ := n * (k / n)

theorem lastRefresh_spec (n k : ℕ) (hn : n ≠ 0) : n ∣ lastRefresh n k ∧ lastRefresh n k ≤ k ∧ ∀ m, n ∣ m → m ≤ k → m ≤ lastRefresh n k := by
  unfold lastRefresh
  refine ⟨⟨_, rfl⟩, Nat.mul_div_le k n, ?_⟩
  rintro m ⟨q, rfl⟩ hm
  apply Nat.mul_le_mul_left
  rw [Nat.le_div_iff_mul_le (by omega)]
  rw [Nat.mul_comm]; exact hm

theorem run_drawn (η : ℕ → ℝ → ℝ → ℝ) (kind : GridKind) (h : ℝ) (n : ℤ) (M : TriMesh) (rest : List TriMesh) (k : ℕ) :
    Grid.run η ⟨kind, h, n, 0, M :: rest⟩ k = some ⟨kind, h, n, k,
      (if n = 0 ∨ k < n.natAbs then M else M.redraw (η (lastRefresh n.natAbs k))) :: rest⟩ := by
  induction k with
  | zero =>
    have : n = 0 ∨ 0 < n.natAbs := by omega
    rw [if_pos this]
    rfl
  | succ k ih =>
    rw [Grid.run, ih]
    simp only [Option.bind_some, Grid.step]
    by_cases hr : fmodZero ((k : ℤ) + 1) n = true
    · obtain ⟨hn, hd⟩ := (fmodZero_iff _ _).mp hr
      have hd' : n.natAbs ∣ k + 1 := by
        have := Int.natAbs_dvd_natAbs.mpr hd
        rwa [show ((k : ℤ) + 1).natAbs = k + 1 by omega] at this
      have hle : n.natAbs ≤ k + 1 := Nat.le_of_dvd (by omega) hd'
      have hlast : lastRefresh n.natAbs (k + 1) = k + 1 := Nat.mul_div_cancel' hd'
      rw [if_pos hr, if_neg (show ¬ (n = 0 ∨ k + 1 < n.natAbs) by omega), hlast]
      have : ((k + 1 : ℕ) : ℤ) = (k : ℤ) + 1 := by push_cast; rfl
      rw [this]
      split_ifs
      · rfl
      · rw [redraw_redraw]
    · rw [if_neg hr]
      have : ((k + 1 : ℕ) : ℤ) = (k : ℤ) + 1 := by push_cast; rfl
      rw [this]
      by_cases hn : n = 0
      · rw [if_pos (Or.inl hn), if_pos (Or.inl hn)]
      · have hd' : ¬ n.natAbs ∣ k + 1 := by
          intro hd
          apply hr
          rw [fmodZero_iff]
          refine ⟨hn, ?_⟩
          rw [← Int.natAbs_dvd_natAbs, show ((k : ℤ) + 1).natAbs = k + 1 by omega]
          exact hd
        have hdiv : (k + 1) / n.natAbs = k / n.natAbs := by
          rw [Nat.succ_div, if_neg hd', Nat.add_zero]
        have hlast : lastRefresh n.natAbs (k + 1) = lastRefresh n.natAbs k := by
          unfold lastRefresh; rw [hdiv]
        rw [hlast]
        by_cases hk : k < n.natAbs
        · have : k + 1 < n.natAbs := by
            rcases Nat.lt_or_eq_of_le (Nat.succ_le_of_lt hk) with h1 | h1
            · exact h1
            · exfalso; apply hd'; rw [show k + 1 = n.natAbs from h1]
          rw [if_pos (Or.inr hk), if_pos (Or.inr this)]
        · rw [if_neg (by omega), if_neg (by omega)]

/-- **C152 (redrawing)**: a grid that is redrawn every n steps (n ≠ 0; the sign does not matter) shows after k steps its own faces and nodes, seen from above, at the
heights of the free surface at the last multiple of n not after k; before step n, and for ever if n is 0, it stays as it was built. -/
theorem C152_redrawn (η : ℕ → ℝ → ℝ → ℝ) (g : Grid) (M : TriMesh) (hM : g.drawn = [M]) (h0 : g.currentStep = 0) (k : ℕ) :
    ∃ M', (g.run η k).map Grid.drawn = some [M'] ∧
      (g.updateStep = 0 ∨ k < g.updateStep.natAbs → M' = M) ∧
      (∀ m, g.updateStep ≠ 0 → 1 ≤ m → g.updateStep.natAbs ∣ m → m ≤ k → (∀ m', g.updateStep.natAbs ∣ m' → m' ≤ k → m' ≤ m) → M.At M' (η m)) := by
  obtain ⟨kind, h, n, c, d⟩ := g
  simp only at hM h0
  subst hM h0
  rw [run_drawn]
  refine ⟨_, rfl, fun hc => if_pos hc, ?_⟩
  intro m hn h1 hd hmk hmax
  simp only at hn hd hmax
  have hn' : n.natAbs ≠ 0 := by omega
  obtain ⟨l1, l2, l3⟩ := lastRefresh_spec n.natAbs k hn'
  have hlast : lastRefresh n.natAbs k = m := le_antisymm (hmax _ l1 l2) (l3 m hd hmk)
  have hle : n.natAbs ≤ m := Nat.le_of_dvd h1 hd
  rw [if_neg (by omega), hlast]
  exact ⟨rfl, rfl⟩

/-- **C152 (settings)**: whatever the settings before it, a grid set and then `UpdateAssetON()` is redrawn at every step if it was not redrawn, else at the rate set before. -/
theorem C152_update_on (l : List Setting) (g g' : Grid) (hl : g.settings l = some g') (xmin xmax dx ymin ymax dy : ℝ) :
    ∃ g'', g'.settings [.cartesian xmin xmax dx ymin ymax dy, .updateOn] = some g'' ∧
      g''.kind = .cartesian xmin xmax dx ymin ymax dy ∧ g''.updateStep ≠ 0 ∧ (g'.updateStep = 0 → g''.updateStep = 1) ∧ (g'.updateStep ≠ 0 → g''.updateStep = g'.updateStep) ∧
      g''.height = g'.height := by
  by_cases h : g'.updateStep = 0
  · exact ⟨{ g' with kind := .cartesian xmin xmax dx ymin ymax dy, updateStep := 1 }, by simp [Grid.settings, Grid.set, h], rfl, by simp, fun _ => rfl, fun h' => absurd h h', rfl⟩
  · exact ⟨{ g' with kind := .cartesian xmin xmax dx ymin ymax dy }, by simp [Grid.settings, Grid.set, h], rfl, h, fun h' => absurd h' h, fun _ => rfl, rfl⟩

/-- **C152 (no grid)**: with `SetNoGrid()` as the last setting, nothing is built, no step fails and nothing is ever drawn. -/
theorem C152_no_grid (η : ℕ → ℝ → ℝ → ℝ) (g : Grid) (hg : g.drawn = []) (h0 : g.currentStep = 0) (k : ℕ) :
    ∃ g' gk, g.set .noGrid = some g' ∧ g'.init.run η k = some gk ∧ gk.drawn = [] := by
  obtain ⟨kind, h, n, c, d⟩ := g
  simp only at hg h0
  subst hg h0
  have : ∀ k : ℕ, Grid.run η ⟨.none, h, 0, 0, []⟩ k = some ⟨.none, h, 0, k, []⟩ := by
    intro k
    induction k with
    | zero => rfl
    | succ k ih =>
      rw [Grid.run, ih]
      have hf : fmodZero ((k : ℤ) + 1) 0 = false := rfl
      simp only [Option.bind_some, Grid.step, hf]
      push_cast
      rfl
  exact ⟨_, _, rfl, this k, rfl⟩

/-- **C152 (no grid, defect)**: `SetNoGrid()` followed by `SetUpdateStep(n)`, n > 0: the simulation fails at step n, before which nothing fails. -/
theorem C152_no_grid_then_update (η : ℕ → ℝ → ℝ → ℝ) (g : Grid) (hg : g.drawn = []) (h0 : g.currentStep = 0) (n : ℕ) (hn : 0 < n) :
    ∃ g', g.settings [.noGrid, .updateEvery n] = some g' ∧ (∀ k < n, g'.init.run η k ≠ none) ∧ g'.init.run η n = none := by
  obtain ⟨kind, h, m, c, d⟩ := g
  simp only at hg h0
  subst hg h0
  have run_ok : ∀ k : ℕ, k < n → Grid.run η ⟨.none, h, n, 0, []⟩ k = some ⟨.none, h, n, k, []⟩ := by
    intro k
    induction k with
    | zero => intro _; rfl
    | succ k ih =>
      intro hk
      rw [Grid.run, ih (by omega)]
      have hf : ¬ fmodZero ((k : ℤ) + 1) n = true := by
        rw [fmodZero_iff]
        rintro ⟨-, hd⟩
        have hd' : n ∣ k + 1 := by exact_mod_cast hd
        have := Nat.le_of_dvd (by omega) hd'
        omega
      simp only [Option.bind_some, Grid.step]
      rw [if_neg hf]
      push_cast
      rfl
  refine ⟨⟨.none, h, n, 0, []⟩, rfl, fun k hk => ?_, ?_⟩
  · show Grid.run η ⟨.none, h, n, 0, []⟩ k ≠ none
    rw [run_ok k hk]; simp
  · show Grid.run η ⟨.none, h, n, 0, []⟩ n = none
    obtain ⟨m', rfl⟩ : ∃ m', n = m' + 1 := ⟨n - 1, by omega⟩
    rw [Grid.run, run_ok m' (by omega)]
    have hf : fmodZero ((m' : ℤ) + 1) ((m' + 1 : ℕ) : ℤ) = true := by
      rw [fmodZero_iff]
      push_cast
      exact ⟨by omega, dvd_refl _⟩
    simp only [Option.bind_some, Grid.step]
    rw [if_pos hf]

/-- **C152 (building)**: a grid set to Cartesian, or to polar, and not built yet is built as one mesh with these parameters at its height (see C150 and C151). -/
theorem C152_built (g : Grid) (hg : g.drawn = []) :
    (∀ xmin xmax dx ymin ymax dy, (g.settings [.cartesian xmin xmax dx ymin ymax dy]).map (fun g => g.init.drawn)
      = some [rectangular g.height xmin xmax dx ymin ymax dy]) ∧
    (∀ lmin lmax dl, (g.settings [.square lmin lmax dl]).map (fun g => g.init.drawn) = some [rectangular g.height lmin lmax dl lmin lmax dl]) ∧
    (∀ xc yc d nbR nbTheta, (g.settings [.polar xc yc d nbR nbTheta]).map (fun g => g.init.drawn) = some [polar g.height xc yc d nbR nbTheta]) := by
  refine ⟨?_, ?_, ?_⟩ <;> intros <;> simp [Grid.settings, Grid.set, Grid.init, hg]

/-- The default grid, updated every 3 steps: after 7 steps it shows the surface of step 6. -/
example (η : ℕ → ℝ → ℝ → ℝ) : ∃ M', (({ Grid.default with updateStep := 3 } : Grid).init.run η 7).map Grid.drawn = some [M'] ∧
    (rectangular 0 (-50) 50 1 (-50) 50 1).At M' (η 6) := by
  obtain ⟨M', h1, -, h3⟩ := C152_redrawn η ({ Grid.default with updateStep := 3 } : Grid).init (rectangular 0 (-50) 50 1 (-50) 50 1) rfl rfl 7
  refine ⟨M', h1, h3 6 (by simp [Grid.init, Grid.default]) (by norm_num) ?_ (by norm_num) ?_⟩
  · show (3 : ℕ) ∣ 6; norm_num
  · intro m' hd hm
    have : (3 : ℕ) ∣ m' := hd
    omega

end Frydom.Asset
