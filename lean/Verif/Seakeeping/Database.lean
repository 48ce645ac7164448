import Verif.Seakeeping.Mask
import Mathlib.Data.Complex.Basic
import Mathlib.Analysis.Real.Pi.Bounds
import Mathlib.Algebra.Order.Floor.Semiring

/-!
# The hydrodynamic database: what the readers load (C106), its grids (C107), the mapping to the bodies (C108)

`src/frydom/hydrodynamics/seakeeping/linear/hdb/FrHydroDB.cpp`, `FrHydroDB.h`, `FrHydroMapper.cpp`.

The HDF5 file is a record of the arrays found under the group of a body. Arrays are functions of their indices; their sizes are those the
masks announce (the product of matrices of other sizes is an assertion of Eigen).
-/

open Classical

noncomputable section

namespace Frydom.Seakeeping

/-! ## Readers -/

/-- What the file holds for one body (the paths read in FrHydroDB.cpp:232-236, 306-343, 345-412): the masks, the excitation coefficients of each
angle (row, frequency), and for each body in motion the added mass (row, column) and the impulse responses of each recorded motion (row,
time); the forward-speed ones may be absent. -/
structure BodyFile where
  forceMask : Fin 6 → ℤ
  motionMask : Fin 6 → ℤ
  diffractionRe : ℕ → ℕ → ℕ → ℝ
  diffractionIm : ℕ → ℕ → ℕ → ℝ
  froudeKrylovRe : ℕ → ℕ → ℕ → ℝ
  froudeKrylovIm : ℕ → ℕ → ℕ → ℝ
  addedMass : ℕ → ℕ → ℕ → ℝ
  irfK : ℕ → ℕ → ℕ → ℕ → ℝ
  irfKU : ℕ → Option (ℕ → ℕ → ℕ → ℝ)

/-- `MaskReader` (FrHydroDB.cpp:232-236) on a new body. -/
def readMask (mask : Fin 6 → ℤ) (m : DofMask) : DofMask := m.setMask mask

/-- `forceMaskMatrix * mat`: row `i`, column `c`. -/
def maskMul (F : DofMask) (mat : ℕ → ℕ → ℝ) (i : Fin 6) (c : ℕ) : ℝ := ∑ r ∈ Finset.range F.nb, F.matrix i r * mat r c
/-- `forceMaskMatrix * mat` for a complex matrix. -/
def maskMulC (F : DofMask) (mat : ℕ → ℕ → ℂ) (i : Fin 6) (c : ℕ) : ℂ := ∑ r ∈ Finset.range F.nb, (F.matrix i r : ℂ) * mat r c

/-- `re + MU_JJ * im` (FrHydroDB.cpp:327, 336). -/
def complexCoeffs (re im : ℕ → ℕ → ℝ) (r c : ℕ) : ℂ := (re r c : ℂ) + Complex.I * (im r c : ℂ)

/-- Diffraction coefficients of an angle, `m_diffraction[iangle]` (FrHydroDB.cpp:319-328). -/
def readDiffraction (B : BodyFile) (F : DofMask) (iangle : ℕ) (i : Fin 6) (ifreq : ℕ) : ℂ :=
  maskMulC F (complexCoeffs (B.diffractionRe iangle) (B.diffractionIm iangle)) i ifreq
/-- Froude-Krylov coefficients of an angle, `m_froudeKrylov[iangle]` (FrHydroDB.cpp:330-337). -/
def readFroudeKrylov (B : BodyFile) (F : DofMask) (iangle : ℕ) (i : Fin 6) (ifreq : ℕ) : ℂ :=
  maskMulC F (complexCoeffs (B.froudeKrylovRe iangle) (B.froudeKrylovIm iangle)) i ifreq
/-- `ComputeExcitation` (FrBEMBody.cpp:237-244). -/
def computeExcitation (diffraction froudeKrylov : ℕ → Fin 6 → ℕ → ℂ) (iangle : ℕ) (i : Fin 6) (ifreq : ℕ) : ℂ :=
  diffraction iangle i ifreq + froudeKrylov iangle i ifreq

/-- Infinite added mass (FrHydroDB.cpp:366-369): `forceMaskMatrix * infiniteAddedMassHDB * motionMaskMatrix.transpose()`. -/
def readAddedMass (B : BodyFile) (F M : DofMask) (ibody : ℕ) (i j : Fin 6) : ℝ :=
  ∑ c ∈ Finset.range M.nb, maskMul F (B.addedMass ibody) i c * M.matrix j c

/-- The loop over the motions (FrHydroDB.cpp:374-387, 395-409): the list of the impulse responses (one matrix for each motion) and the counter
`idof` of the recorded ones. -/
def irfStep (F M : DofMask) (file : ℕ → ℕ → ℕ → ℝ) (s : List (Fin 6 → ℕ → ℝ) × ℕ) (imotion : Fin 6) : List (Fin 6 → ℕ → ℝ) × ℕ :=
  if M.mask imotion then (s.1 ++ [maskMul F (file s.2)], s.2 + 1) else (s.1 ++ [fun _ _ => 0], s.2)
/-- `impulseResponseFunctionsK` (FrHydroDB.cpp:374-387). -/
def readIRF (F M : DofMask) (file : ℕ → ℕ → ℕ → ℝ) : List (Fin 6 → ℕ → ℝ) := ((List.finRange 6).foldl (irfStep F M file) ([], 0)).1

/-- `HydrostaticReader`, `SetStiffnessMatrix(Matrix66)` (FrHydroDB.cpp:452-458, FrBEMBody.cpp:292-294): the block of rows and columns 2 to 4. -/
def readStiffness (K : Fin 6 → Fin 6 → ℝ) (i j : Fin 3) : ℝ := K ⟨2 + i.1, by omega⟩ ⟨2 + j.1, by omega⟩

/-- `ModeReader` (FrHydroDB.cpp:238-304): how many modes of forces and of motions the body ends up with, from the two numbers of the file. -/
def readModeCounts (nbForceModes _nbMotionModes : ℕ) : ℕ × ℕ := (nbForceModes, nbForceModes)

/-! ### Lemmas -/

theorem maskMul_eq (m : DofMask) (mask : Fin 6 → ℤ) (hv : ValidMask mask) (mat : ℕ → ℕ → ℝ) (i : Fin 6) (c : ℕ) :
    maskMul (m.setMask mask) mat i c = if mask i = 1 then mat (rank mask i) c else 0 := by
  unfold maskMul
  rw [setMask_nb m mask hv]
  simp only [setMask_matrix m mask hv]
  by_cases hi : mask i = 1
  · simp only [hi, true_and, if_true]
    rw [Finset.sum_eq_single (rank mask i)]
    · simp
    · intro b _ hb; simp [hb]
    · intro hb; exact absurd (Finset.mem_range.mpr (rank_lt mask i hi)) hb
  · simp [hi]

theorem maskMulC_eq (m : DofMask) (mask : Fin 6 → ℤ) (hv : ValidMask mask) (mat : ℕ → ℕ → ℂ) (i : Fin 6) (c : ℕ) :
    maskMulC (m.setMask mask) mat i c = if mask i = 1 then mat (rank mask i) c else 0 := by
  unfold maskMulC
  rw [setMask_nb m mask hv]
  simp only [setMask_matrix m mask hv]
  by_cases hi : mask i = 1
  · simp only [hi, true_and, if_true]
    rw [Finset.sum_eq_single (rank mask i)]
    · simp
    · intro b _ hb; simp [hb]
    · intro hb; exact absurd (Finset.mem_range.mpr (rank_lt mask i hi)) hb
  · simp [hi]

theorem setMask_flag (m : DofMask) (mask : Fin 6 → ℤ) (i : Fin 6) : (m.setMask mask).mask i = decide (mask i = 1) := by
  show ((List.finRange 6).foldl (maskFlags mask) m).mask i = _
  rw [(flags_fold mask (List.finRange 6) m).2 i]; simp

theorem irf_fold (F M : DofMask) (file : ℕ → ℕ → ℕ → ℝ) (l : List (Fin 6)) (s : List (Fin 6 → ℕ → ℝ) × ℕ) :
    let s' := l.foldl (irfStep F M file) s
    s'.1.length = s.1.length + l.length ∧ (∀ k (hk : k < s.1.length), s'.1[k]? = s.1[k]?) ∧
    ∀ k (hk : k < l.length), s'.1[s.1.length + k]? =
      some (if M.mask l[k] then maskMul F (file (s.2 + ((l.take k).filter fun i => M.mask i).length)) else fun _ _ => 0) := by
  induction l generalizing s with
  | nil => simp
  | cons a l ih =>
    simp only [List.foldl_cons]
    obtain ⟨h1, h2, h3⟩ := ih (irfStep F M file s a)
    have hlen : (irfStep F M file s a).1.length = s.1.length + 1 := by unfold irfStep; split_ifs <;> simp
    have hpre : ∀ k (_ : k < s.1.length), (irfStep F M file s a).1[k]? = s.1[k]? := by
      intro k hk; unfold irfStep; split_ifs <;> simp [List.getElem?_append_left hk]
    have hat : (irfStep F M file s a).1[s.1.length]? = some (if M.mask a then maskMul F (file s.2) else fun _ _ => 0) := by
      unfold irfStep; split_ifs <;> simp
    refine ⟨?_, ?_, ?_⟩
    · rw [h1, hlen]; simp; omega
    · intro k hk
      rw [h2 k (by omega), hpre k hk]
    · intro k hk
      cases k with
      | zero =>
        rw [Nat.add_zero, h2 s.1.length (by omega), hat]
        simp
      | succ k =>
        have := h3 k (by simpa using hk)
        rw [hlen, show s.1.length + 1 + k = s.1.length + (k + 1) by omega] at this
        rw [this]
        simp only [List.getElem_cons_succ, List.take_succ_cons]
        congr 2
        have hcount : (irfStep F M file s a).2 + ((l.take k).filter fun i => M.mask i).length =
            s.2 + ((a :: l.take k).filter fun i => M.mask i).length := by
          unfold irfStep
          by_cases ha : M.mask a
          · simp [ha]; omega
          · simp [ha]
        rw [hcount]

theorem take_rank (mask : Fin 6 → ℤ) (j : Fin 6) :
    (((List.finRange 6).take j).filter fun i => decide (mask i = 1)).length = rank mask j := by
  unfold rank
  rw [← List.toFinset_card_of_nodup (((List.nodup_finRange 6).sublist (List.take_sublist _ _)).filter _)]
  congr 1
  ext k
  have : k ∈ (List.finRange 6).take j ↔ k < j := by
    fin_cases j <;> fin_cases k <;> simp [List.finRange_succ, List.take]
  simp [this]

/-! ## C106 -/

/-- **C106, excitation.** With the force mask of the file, the diffraction, Froude-Krylov and total coefficients that the body ends up with on a
degree of freedom are those of the file at its place among the active ones, and zero on an inactive one; the total is the sum of the two. -/
theorem C106_excitation (B : BodyFile) (m : DofMask) (hv : ValidMask B.forceMask) (iangle ifreq : ℕ) (i : Fin 6) :
    let F := readMask B.forceMask m
    readDiffraction B F iangle i ifreq =
      (if B.forceMask i = 1 then ⟨B.diffractionRe iangle (rank B.forceMask i) ifreq, B.diffractionIm iangle (rank B.forceMask i) ifreq⟩ else 0) ∧
    readFroudeKrylov B F iangle i ifreq =
      (if B.forceMask i = 1 then ⟨B.froudeKrylovRe iangle (rank B.forceMask i) ifreq, B.froudeKrylovIm iangle (rank B.forceMask i) ifreq⟩ else 0) ∧
    computeExcitation (readDiffraction B F) (readFroudeKrylov B F) iangle i ifreq = readDiffraction B F iangle i ifreq + readFroudeKrylov B F iangle i ifreq := by
  intro F
  have hc : ∀ (re im : ℕ → ℕ → ℝ) (r c : ℕ), complexCoeffs re im r c = ⟨re r c, im r c⟩ := by
    intro re im r c; apply Complex.ext <;> simp [complexCoeffs]
  refine ⟨?_, ?_, rfl⟩
  · show maskMulC (m.setMask B.forceMask) _ i ifreq = _
    rw [maskMulC_eq m B.forceMask hv, hc]
  · show maskMulC (m.setMask B.forceMask) _ i ifreq = _
    rw [maskMulC_eq m B.forceMask hv, hc]

/-- **C106, radiation.** With the force mask of the body and the motion mask of the body in motion, the coefficient (added mass, impulse response
with and without forward speed) on force `i` due to motion `j` is that of the file at the two places among the active ones, and zero if one of
the two is inactive. There are always six impulse responses, one for each motion. -/
theorem C106_radiation (B : BodyFile) (Bm : BodyFile) (m m' : DofMask) (hv : ValidMask B.forceMask) (hv' : ValidMask Bm.motionMask) (ibody : ℕ)
    (i j : Fin 6) (file : ℕ → ℕ → ℕ → ℝ) (itime : ℕ) :
    let F := readMask B.forceMask m
    let M := readMask Bm.motionMask m'
    readAddedMass B F M ibody i j =
      (if B.forceMask i = 1 ∧ Bm.motionMask j = 1 then B.addedMass ibody (rank B.forceMask i) (rank Bm.motionMask j) else 0) ∧
    (readIRF F M file).length = 6 ∧
    ∃ K, (readIRF F M file)[j.1]? = some K ∧
      K i itime = if B.forceMask i = 1 ∧ Bm.motionMask j = 1 then file (rank Bm.motionMask j) (rank B.forceMask i) itime else 0 := by
  intro F M
  refine ⟨?_, ?_, ?_⟩
  · show ∑ c ∈ Finset.range (m'.setMask Bm.motionMask).nb, maskMul (m.setMask B.forceMask) (B.addedMass ibody) i c * (m'.setMask Bm.motionMask).matrix j c = _
    simp only [maskMul_eq m B.forceMask hv, setMask_matrix m' Bm.motionMask hv', setMask_nb m' Bm.motionMask hv']
    by_cases hj : Bm.motionMask j = 1
    · rw [Finset.sum_eq_single (rank Bm.motionMask j)]
      · simp [hj]
      · intro b _ hb; simp [hb]
      · intro hb; exact absurd (Finset.mem_range.mpr (rank_lt _ j hj)) hb
    · simp [hj]
  · unfold readIRF
    rw [(irf_fold F M file (List.finRange 6) ([], 0)).1]; simp
  · have h := (irf_fold F M file (List.finRange 6) ([], 0)).2.2 j.1 (by simp)
    unfold readIRF
    simp only [List.length_nil, zero_add] at h
    rw [h]
    refine ⟨_, rfl, ?_⟩
    have hget : (List.finRange 6)[j.1]'(by simp) = j := by simp
    rw [hget]
    have hM : ∀ i, M.mask i = decide (Bm.motionMask i = 1) := setMask_flag m' Bm.motionMask
    simp only [hM, take_rank]
    by_cases hj : Bm.motionMask j = 1
    · simp only [hj, decide_true, if_true, and_true]
      rw [show F = m.setMask B.forceMask from rfl, maskMul_eq m B.forceMask hv]
    · simp [hj]

/-- **C106, hydrostatics.** The stiffness kept is that of heave, roll and pitch. -/
theorem C106_hydrostatics (K : Fin 6 → Fin 6 → ℝ) (i j : Fin 3) : readStiffness K i j = K (![2, 3, 4] i) (![2, 3, 4] j) := by
  fin_cases i <;> fin_cases j <;> rfl

/-- **C106, defect.** The number of motion modes loaded is the number of *force* modes of the file, so it is wrong whenever the two differ. -/
theorem C106_motion_modes (nf nm : ℕ) : (readModeCounts nf nm).1 = nf ∧ ((readModeCounts nf nm).2 = nm ↔ nf = nm) := by
  simp [readModeCounts]

/-! ## Grids -/

/-- `FrDiscretization1D` (FrHydroDB.h:44-48). -/
structure Grid where
  xmin : ℝ
  xmax : ℝ
  nx : ℕ

/-- `mathutils::linspace(a, b, n)`. -/
def linspaceList (a b : ℝ) (n : ℕ) : List ℝ := (List.range n).map fun i : ℕ => a + i * ((b - a) / ((n : ℝ) - 1))

/-- `GetVector` (FrHydroDB.cpp:32-34). -/
def Grid.vector (g : Grid) : List ℝ := linspaceList g.xmin g.xmax g.nx
/-- `SetStep` (FrHydroDB.cpp:36-38); the conversion to `unsigned int` of a non-negative number below 2³² is its integer part. -/
def Grid.setStep (g : Grid) (delta : ℝ) : Grid := { g with nx := 1 + ⌊(g.xmax - g.xmin) / delta⌋₊ }
/-- `GetStep` (FrHydroDB.cpp:40-42), for at least one sample; for exactly one the division is by zero (`none`). -/
def Grid.step (g : Grid) : Option ℝ := if g.nx = 1 then none else some ((g.xmax - g.xmin) / ((g.nx : ℝ) - 1))

/-- `DEG2RAD`. -/
def degToRad : ℝ := Real.pi / 180

/-- `GetWaveDirections(angleUnit, fc)` (FrHydroDB.cpp:68-81): `rad` and `ned` tell the arguments. -/
def Grid.waveDirections (g : Grid) (rad ned : Bool) : List ℝ :=
  let v := g.vector
  let v := if rad then v.map (· * degToRad) else v
  if ned then v.map (fun a => -a) else v

/-- **C107, grid.** A grid of at least two samples has as many values as announced, the first is the minimum, the last the maximum, and each
value exceeds the preceding one by the announced step. -/
theorem C107_grid (g : Grid) (h : 2 ≤ g.nx) :
    g.vector.length = g.nx ∧ g.vector.head? = some g.xmin ∧ g.vector.getLast? = some g.xmax ∧
    ∃ d, g.step = some d ∧ d * ((g.nx : ℝ) - 1) = g.xmax - g.xmin ∧
      ∀ k a b, g.vector[k]? = some a → g.vector[k + 1]? = some b → b = a + d := by
  have hne : (g.nx : ℝ) - 1 ≠ 0 := by
    have : (2 : ℝ) ≤ g.nx := by exact_mod_cast h
    linarith
  obtain ⟨n, hn⟩ : ∃ n, g.nx = n + 1 := ⟨g.nx - 1, by omega⟩
  refine ⟨by simp [Grid.vector, linspaceList], ?_, ?_, (g.xmax - g.xmin) / ((g.nx : ℝ) - 1), ?_, ?_, ?_⟩
  · unfold Grid.vector linspaceList
    rw [hn, List.range_succ_eq_map]; simp
  · unfold Grid.vector linspaceList
    rw [hn, List.range_succ, List.map_append]
    simp only [List.map_cons, List.map_nil, List.getLast?_append, List.getLast?_singleton]
    rw [hn] at hne
    push_cast at hne ⊢
    simp only [add_sub_cancel_right] at hne ⊢
    simp; field_simp; ring
  · unfold Grid.step; rw [if_neg (by omega)]
  · field_simp
  · intro k a b ha hb
    unfold Grid.vector linspaceList at ha hb
    simp only [List.getElem?_map, Option.map_eq_some_iff] at ha hb
    obtain ⟨x, hx, rfl⟩ := ha
    obtain ⟨y, hy, rfl⟩ := hb
    have hx' := (List.getElem?_eq_some_iff.mp hx)
    have hy' := (List.getElem?_eq_some_iff.mp hy)
    obtain ⟨_, hx'⟩ := hx'
    obtain ⟨_, hy'⟩ := hy'
    rw [List.getElem_range] at hx' hy'
    rw [← hx', ← hy']; push_cast; ring

/-- **C107, step.** `SetStep(delta)` with `0 < delta` no larger than the range gives a step between `delta` (included) and `2 delta`; it is `delta` exactly
when `delta` divides the range. With a larger `delta` there is one sample, and `GetStep` divides by zero. -/
theorem C107_set_step (g : Grid) (delta : ℝ) (hd : 0 < delta) (hr : g.xmin < g.xmax) :
    (delta ≤ g.xmax - g.xmin → ∃ s, (g.setStep delta).step = some s ∧ delta ≤ s ∧ s < 2 * delta ∧
      (s = delta ↔ ∃ n : ℕ, (n : ℝ) * delta = g.xmax - g.xmin)) ∧
    (g.xmax - g.xmin < delta → (g.setStep delta).nx = 1 ∧ (g.setStep delta).step = none) := by
  have hR : 0 < g.xmax - g.xmin := sub_pos.mpr hr
  have hst : (g.setStep delta).step = if (1 + ⌊(g.xmax - g.xmin) / delta⌋₊ = 1) then none
      else some ((g.xmax - g.xmin) / (((1 + ⌊(g.xmax - g.xmin) / delta⌋₊ : ℕ) : ℝ) - 1)) := rfl
  have hnx : (g.setStep delta).nx = 1 + ⌊(g.xmax - g.xmin) / delta⌋₊ := rfl
  rw [hst, hnx]
  generalize g.xmax - g.xmin = R at *
  refine ⟨?_, ?_⟩
  · intro hle
    have h1 : 1 ≤ R / delta := by rw [le_div_iff₀ hd]; linarith
    have hf : 1 ≤ ⌊R / delta⌋₊ := by rw [Nat.one_le_floor_iff]; exact h1
    have hlo := Nat.floor_le (div_pos hR hd).le
    have hhi := Nat.lt_floor_add_one (R / delta)
    have hf' : (1 : ℝ) ≤ (⌊R / delta⌋₊ : ℝ) := by exact_mod_cast hf
    rw [le_div_iff₀ hd] at hlo
    rw [div_lt_iff₀ hd] at hhi
    rw [if_neg (by omega)]
    have hden : (((1 + ⌊R / delta⌋₊ : ℕ) : ℝ) - 1) = (⌊R / delta⌋₊ : ℝ) := by push_cast; ring
    rw [hden]
    have hpos : (0 : ℝ) < (⌊R / delta⌋₊ : ℝ) := by linarith
    refine ⟨_, rfl, ?_, ?_, ?_⟩
    · rw [le_div_iff₀ hpos]; linarith
    · rw [div_lt_iff₀ hpos]; nlinarith
    · rw [div_eq_iff hpos.ne']
      constructor
      · intro h; exact ⟨⌊R / delta⌋₊, by linarith⟩
      · rintro ⟨n, hn⟩
        have : R / delta = n := by rw [← hn]; field_simp
        rw [this, Nat.floor_natCast, ← hn]; ring
  · intro hlt
    have : R / delta < 1 := by rw [div_lt_one hd]; exact hlt
    have hf : ⌊R / delta⌋₊ = 0 := Nat.floor_eq_zero.mpr this
    rw [hf]; simp

/-- **C107, wave directions.** In radians each direction is π/180 times the one in degrees, and in NED it is the opposite of the one in NWU. -/
theorem C107_wave_directions (g : Grid) (ned rad : Bool) :
    g.waveDirections true ned = (g.waveDirections false ned).map (· * (Real.pi / 180)) ∧
    g.waveDirections rad true = (g.waveDirections rad false).map (fun a => -a) ∧
    g.waveDirections false false = g.vector := by
  unfold Grid.waveDirections degToRad
  cases ned <;> cases rad <;> simp [List.map_map, Function.comp_def]

/-- A case: directions from 0 to 360 degrees every 45. -/
example : (Grid.setStep ⟨0, 360, 0⟩ 45).nx = 9 := by
  have : ⌊((360:ℝ) - 0) / 45⌋₊ = 8 := by rw [show ((360:ℝ) - 0) / 45 = ((8 : ℕ) : ℝ) by norm_num]; exact Nat.floor_natCast 8
  show 1 + ⌊((360:ℝ) - 0) / 45⌋₊ = 9
  rw [this]

/-! ## Mapping between the database and the bodies -/

/-- The three maps of `FrHydroMapper` (FrHydroMapper.h:39-41), from database bodies `D`, bodies `B`, frames `Fr`; `none` is an absent key. -/
structure Mapper (D B Fr : Type) where
  toBody : D → Option B
  toBEM : B → Option D
  eqFrame : D → Option Fr

namespace Mapper
variable {D B Fr : Type}

/-- A new mapper. -/
def empty : Mapper D B Fr := ⟨fun _ => none, fun _ => none, fun _ => none⟩
/-- `Map` (FrHydroMapper.cpp:19-23). -/
def map (m : Mapper D B Fr) (d : D) (b : B) (f : Fr) : Mapper D B Fr :=
  ⟨Function.update m.toBody d (some b), Function.update m.toBEM b (some d), Function.update m.eqFrame d (some f)⟩
/-- `GetEquilibriumFrame(body)`, `GetSharedEquilibriumFrame(body)` (FrHydroMapper.cpp:46-53); `none` stands for `std::out_of_range`. -/
def eqFrameOfBody (m : Mapper D B Fr) (b : B) : Option Fr := (m.toBEM b).bind m.eqFrame
/-- A sequence of `Map` calls on a new mapper. -/
def run (l : List (D × B × Fr)) : Mapper D B Fr := l.foldl (fun m x => m.map x.1 x.2.1 x.2.2) empty

end Mapper

theorem run_snoc {D B Fr : Type} (l : List (D × B × Fr)) (x : D × B × Fr) :
    Mapper.run (l ++ [x]) = (Mapper.run l).map x.1 x.2.1 x.2.2 := by simp [Mapper.run]

theorem run_mem {D B Fr : Type} (l : List (D × B × Fr)) :
    (∀ d b, (Mapper.run l).toBody d = some b → ∃ f, (d, b, f) ∈ l) ∧ (∀ d b, (Mapper.run l).toBEM b = some d → ∃ f, (d, b, f) ∈ l) ∧
    (∀ d f, (Mapper.run l).eqFrame d = some f → ∃ b, (d, b, f) ∈ l) := by
  induction l using List.reverseRecOn with
  | nil => simp [Mapper.run, Mapper.empty]
  | append_singleton l x ih =>
    obtain ⟨h1, h2, h3⟩ := ih
    rw [run_snoc]
    refine ⟨?_, ?_, ?_⟩
    · intro d b h
      by_cases hd : d = x.1
      · subst hd
        simp only [Mapper.map, Function.update_self, Option.some.injEq] at h
        exact ⟨x.2.2, by subst h; simp⟩
      · simp only [Mapper.map, Function.update_of_ne hd] at h
        obtain ⟨f, hf⟩ := h1 d b h
        exact ⟨f, List.mem_append_left _ hf⟩
    · intro d b h
      by_cases hd : b = x.2.1
      · subst hd
        simp only [Mapper.map, Function.update_self, Option.some.injEq] at h
        exact ⟨x.2.2, by subst h; simp⟩
      · simp only [Mapper.map, Function.update_of_ne hd] at h
        obtain ⟨f, hf⟩ := h2 d b h
        exact ⟨f, List.mem_append_left _ hf⟩
    · intro d f h
      by_cases hd : d = x.1
      · subst hd
        simp only [Mapper.map, Function.update_self, Option.some.injEq] at h
        exact ⟨x.2.1, by subst h; simp⟩
      · simp only [Mapper.map, Function.update_of_ne hd] at h
        obtain ⟨b, hf⟩ := h3 d f h
        exact ⟨b, List.mem_append_left _ hf⟩

theorem run_complete {D B Fr : Type} (l : List (D × B × Fr)) (hd : (l.map (·.1)).Nodup) (hb : (l.map (·.2.1)).Nodup) (x : D × B × Fr) (hx : x ∈ l) :
    (Mapper.run l).toBody x.1 = some x.2.1 ∧ (Mapper.run l).toBEM x.2.1 = some x.1 ∧ (Mapper.run l).eqFrame x.1 = some x.2.2 := by
  induction l using List.reverseRecOn with
  | nil => simp at hx
  | append_singleton l y ih =>
    rw [List.map_append, List.nodup_append] at hd hb
    rw [run_snoc]
    rcases List.mem_append.mp hx with h | h
    · have h1 : x.1 ≠ y.1 := hd.2.2 x.1 (List.mem_map_of_mem h) y.1 (by simp)
      have h2 : x.2.1 ≠ y.2.1 := hb.2.2 x.2.1 (List.mem_map_of_mem (f := fun z : D × B × Fr => z.2.1) h) y.2.1 (by simp)
      obtain ⟨e1, e2, e3⟩ := ih hd.1 hb.1 h
      simp only [Mapper.map, Function.update_of_ne h1, Function.update_of_ne h2]
      exact ⟨e1, e2, e3⟩
    · rw [List.mem_singleton] at h
      subst h
      simp [Mapper.map]

/-- **C108, mapping.** After any sequence of `Map` calls that maps no database body and no body twice, for every call: the two directions of the
mapping are inverse of each other, the equilibrium frame is the one given, by database body or by body, and nothing else is mapped. -/
theorem C108_mapping {D B Fr : Type} (l : List (D × B × Fr)) (hd : (l.map (·.1)).Nodup) (hb : (l.map (·.2.1)).Nodup) :
    (∀ d b f, (d, b, f) ∈ l → (Mapper.run l).toBody d = some b ∧ (Mapper.run l).toBEM b = some d ∧ (Mapper.run l).eqFrame d = some f ∧
      (Mapper.run l).eqFrameOfBody b = some f) ∧
    (∀ d b, (Mapper.run l).toBody d = some b ↔ (Mapper.run l).toBEM b = some d) ∧
    (∀ d, d ∉ l.map (·.1) → (Mapper.run l).toBody d = none) ∧ (∀ b, b ∉ l.map (·.2.1) → (Mapper.run l).toBEM b = none) := by
  obtain ⟨m1, m2, m3⟩ := run_mem l
  refine ⟨?_, ?_, ?_, ?_⟩
  · intro d b f h
    obtain ⟨e1, e2, e3⟩ := run_complete l hd hb _ h
    simp only at e1 e2 e3
    exact ⟨e1, e2, e3, by simp [Mapper.eqFrameOfBody, e2, e3]⟩
  · intro d b
    constructor
    · intro h; obtain ⟨f, hf⟩ := m1 d b h; exact (run_complete l hd hb _ hf).2.1
    · intro h; obtain ⟨f, hf⟩ := m2 d b h; exact (run_complete l hd hb _ hf).1
  · intro d h
    by_contra hc
    obtain ⟨b, hb'⟩ := Option.ne_none_iff_exists'.mp hc
    obtain ⟨f, hf⟩ := m1 d b hb'
    exact h (List.mem_map.mpr ⟨_, hf, rfl⟩)
  · intro b h
    by_contra hc
    obtain ⟨d, hb'⟩ := Option.ne_none_iff_exists'.mp hc
    obtain ⟨f, hf⟩ := m2 d b hb'
    exact h (List.mem_map.mpr ⟨_, hf, rfl⟩)

/-- **C108, defect.** Mapping a database body to a second body does not forget the first one: the first still answers with the database body,
which answers with the second, so the two directions no longer agree; the first body is given the equilibrium frame of the second. -/
theorem C108_remap {D B Fr : Type} (m : Mapper D B Fr) (d : D) (b b' : B) (f f' : Fr) (hne : b ≠ b') :
    let m' := (m.map d b f).map d b' f'
    m'.toBEM b = some d ∧ m'.toBody d = some b' ∧ m'.eqFrameOfBody b = some f' := by
  intro m'
  have h1 : m'.toBEM b = some d := by simp [m', Mapper.map, Function.update_of_ne hne]
  refine ⟨h1, by simp [m', Mapper.map], ?_⟩
  unfold Mapper.eqFrameOfBody
  rw [h1]; simp [m', Mapper.map]

end Frydom.Seakeeping
