import Verif.Hydro.LinearTangent
import Verif.Seakeeping.Database

/-!
# Linear hydrostatic load with the stiffness of a database (C189)

`make_linear_hydrostatic_force` with a database (`src/frydom/hydrodynamics/hydrostatic/FrLinearHydrostaticForce.cpp:111-125`).
-/

open Classical

noncomputable section

namespace Frydom.Hydro
open Frydom.Geom Frydom.Core Frydom.Seakeeping

/-- `GetHydrostaticStiffnessMatrix` passed as a matrix (FrBEMBody.cpp:292-298, FrLinearHydrostaticForce.cpp:122). -/
def blockMatrix (K : Fin 3 → Fin 3 → ℝ) : M3 := ⟨K 0 0, K 0 1, K 0 2, K 1 0, K 1 1, K 1 2, K 2 0, K 2 1, K 2 2⟩

/-- The stiffness of the force made with a database whose matrix of the body is `K` (FrLinearHydrostaticForce.cpp:111-125, FrHydroDB.cpp:452-458). The
entries not set are those of the null matrix of a new force (`k0`). -/
def databaseStiffness (k0 : Stiffness) (K : Fin 6 → Fin 6 → ℝ) : Stiffness := setStiffnessMatrix k0 (blockMatrix (readStiffness K))

/-! ## Specification -/

/-- The six displacements: surge, sway, heave, roll, pitch, yaw. -/
def displacements (d : V3) (a : Cardan) : Fin 6 → ℝ := ![d.x, d.y, d.z, a.roll, a.pitch, a.yaw]

/-- The restoring load `- K x`. -/
def restoring (K : Fin 6 → Fin 6 → ℝ) (x : Fin 6 → ℝ) (i : Fin 6) : ℝ := -∑ j, K i j * x j

/-- The rows and columns of surge, sway and yaw are null. -/
def OnlyHydrostatic (K : Fin 6 → Fin 6 → ℝ) : Prop := ∀ i : Fin 6, (i = 0 ∨ i = 1 ∨ i = 5) → ∀ j, K i j = 0 ∧ K j i = 0

/-- What the force applies at the centre of gravity, besides the force opposite to the weight: the force `F` in the axes of the world, the moment `M` in the axes of the body. -/
def Restores (e : EqFrame) (m : MassBody) (f : Force) (junk g : ℝ) (k : Stiffness) (F M : V3) : Prop :=
  IsLoad (linearHydrostatic junk g k e m f) m.body .NWU (F + ⟨0, 0, m.getMass * g⟩) (m.body.toWorld M .NWU) (m.body.cogPositionInWorld .NWU)

/-! ## C189 -/

/-- Any matrix is used as the symmetric matrix of its upper triangle. -/
theorem setStiffness_upper (k0 : Stiffness) (m : M3) :
    setStiffnessMatrix k0 m = setStiffnessMatrix k0 ⟨m.a00, m.a01, m.a02, m.a01, m.a11, m.a12, m.a02, m.a12, m.a22⟩ := rfl

theorem restores_upper (junk g : ℝ) (k0 : Stiffness) (K : Fin 6 → Fin 6 → ℝ) (e : EqFrame) (hu : e.frame.rot.IsUnit) (m : MassBody) (h : Placed m.body) (f : Force)
    (d : V3) (a : Cardan) (ha : InRange .NWU a) (hd : Displaced e d a) :
    Restores e m f junk g (databaseStiffness k0 K) ⟨0, 0, -(K 2 2 * d.z + K 2 3 * a.roll + K 2 4 * a.pitch)⟩
      ⟨-(K 2 3 * d.z + K 3 3 * a.roll + K 3 4 * a.pitch), -(K 2 4 * d.z + K 3 4 * a.roll + K 4 4 * a.pitch), 0⟩ := by
  have key := C83_load_partial junk g (K 2 2) (K 2 3) (K 2 4) (K 3 3) (K 3 4) (K 4 4) k0 e hu m h f d a ha hd
  unfold Restores
  have e1 : ((⟨0, 0, -(K 2 2 * d.z + K 2 3 * a.roll + K 2 4 * a.pitch)⟩ : V3) + ⟨0, 0, m.getMass * g⟩) = ⟨0, 0, m.getMass * g - (K 2 2 * d.z + K 2 3 * a.roll + K 2 4 * a.pitch)⟩ := by
    ext <;> simp <;> ring
  rw [e1]
  exact key

/-- **C189, load.** The force made with a database whose stiffness matrix is symmetric and has no surge, sway and yaw terms: for every displacement of the body from its
equilibrium frame (the three angles in the range of the Cardan angles), what is applied at the centre of gravity besides the force opposite to the weight is `- K x`, the force along the
axes of the world and the moments about the axes of the body. -/
theorem C189_load_partial (junk g : ℝ) (k0 : Stiffness) (K : Fin 6 → Fin 6 → ℝ) (hs : ∀ i j, K i j = K j i) (hK : OnlyHydrostatic K) (e : EqFrame) (hu : e.frame.rot.IsUnit)
    (m : MassBody) (h : Placed m.body) (f : Force) (d : V3) (a : Cardan) (ha : InRange .NWU a) (hd : Displaced e d a) :
    Restores e m f junk g (databaseStiffness k0 K)
      ⟨restoring K (displacements d a) 0, restoring K (displacements d a) 1, restoring K (displacements d a) 2⟩
      ⟨restoring K (displacements d a) 3, restoring K (displacements d a) 4, restoring K (displacements d a) 5⟩ := by
  have key := restores_upper junk g k0 K e hu m h f d a ha hd
  have z0 := fun j => hK 0 (by simp) j
  have z1 := fun j => hK 1 (by simp) j
  have z5 := fun j => hK 5 (by simp) j
  have e1 : (⟨restoring K (displacements d a) 0, restoring K (displacements d a) 1, restoring K (displacements d a) 2⟩ : V3) =
      ⟨0, 0, -(K 2 2 * d.z + K 2 3 * a.roll + K 2 4 * a.pitch)⟩ := by
    ext <;> simp [restoring, displacements, Fin.sum_univ_succ, (z0 _).1, (z0 _).2, (z1 _).1, (z1 _).2, (z5 _).1, (z5 _).2]
    ring
  have e2 : (⟨restoring K (displacements d a) 3, restoring K (displacements d a) 4, restoring K (displacements d a) 5⟩ : V3) =
      ⟨-(K 2 3 * d.z + K 3 3 * a.roll + K 3 4 * a.pitch), -(K 2 4 * d.z + K 3 4 * a.roll + K 4 4 * a.pitch), 0⟩ := by
    rw [hs 2 3, hs 2 4, hs 3 4]
    have q := hs 3 4
    ext <;> simp [restoring, displacements, Fin.sum_univ_succ, (z0 _).1, (z0 _).2, (z1 _).1, (z1 _).2, (z5 _).1, (z5 _).2]
    · rw [← q]; ring
    · ring
  rw [e1, e2]
  exact key

theorem restores_unique {e : EqFrame} {m : MassBody} (h : Placed m.body) {f : Force} {junk g : ℝ} {k : Stiffness} {F M F' M' : V3} (h1 : Restores e m f junk g k F M)
    (h2 : Restores e m f junk g k F' M') : M = M' := by
  have key : m.body.cog.rot.rotate M = m.body.cog.rot.rotate M' := load_unique h1 h2
  have := congrArg m.body.cog.rot.conj.rotate key
  rwa [Q.rotate_conj h.1, Q.rotate_conj h.1] at this

/-- **C189, matrices that are not symmetric (defect).** Only the upper triangle of the matrix of the file is used, silently: the load is `- K x` for all displacements only if the matrix is symmetric. -/
theorem C189_asymmetric_wrong (K : Fin 6 → Fin 6 → ℝ) (hK : OnlyHydrostatic K) (hs : ¬ ∀ i j, K i j = K j i) :
    ∃ d a, InRange .NWU a ∧ ∀ (junk g : ℝ) (k0 : Stiffness) (e : EqFrame), e.frame.rot.IsUnit → ∀ m : MassBody, Placed m.body → ∀ f : Force, Displaced e d a →
      ¬ Restores e m f junk g (databaseStiffness k0 K)
        ⟨restoring K (displacements d a) 0, restoring K (displacements d a) 1, restoring K (displacements d a) 2⟩
        ⟨restoring K (displacements d a) 3, restoring K (displacements d a) 4, restoring K (displacements d a) 5⟩ := by
  have hpi := Real.pi_gt_three
  have z0 := fun j => hK 0 (by simp) j
  have z1 := fun j => hK 1 (by simp) j
  have z5 := fun j => hK 5 (by simp) j
  by_cases h23 : K 2 3 = K 3 2 ∧ K 2 4 = K 4 2
  · have h34 : K 3 4 ≠ K 4 3 := by
      intro h34
      refine hs fun i j => ?_
      fin_cases i <;> fin_cases j <;>
        simp only [Fin.isValue, Fin.zero_eta, Fin.mk_one, Fin.reduceFinMk, (z0 _).1, (z0 _).2, (z1 _).1, (z1 _).2, (z5 _).1, (z5 _).2, h23.1, h23.2, h34]
    refine ⟨0, ⟨1, 0, 0⟩, ⟨by norm_num; linarith, by norm_num; linarith, by simp; linarith, by simp; linarith, by simp; linarith, by simp; linarith⟩, ?_⟩
    intro junk g k0 e hu m hp f hd hr
    have key := restores_unique hp hr (restores_upper junk g k0 K e hu m hp f 0 ⟨1, 0, 0⟩ ⟨by norm_num; linarith, by norm_num; linarith, by simp; linarith, by simp; linarith, by simp; linarith, by simp; linarith⟩ hd)
    have hy := congrArg V3.y key
    simp [restoring, displacements, Fin.sum_univ_succ] at hy
    exact h34 hy.symm
  · refine ⟨⟨0, 0, 1⟩, ⟨0, 0, 0⟩, ⟨by simp; linarith, by simp; linarith, by simp; linarith, by simp; linarith, by simp; linarith, by simp; linarith⟩, ?_⟩
    intro junk g k0 e hu m hp f hd hr
    have key := restores_unique hp hr (restores_upper junk g k0 K e hu m hp f ⟨0, 0, 1⟩ ⟨0, 0, 0⟩ ⟨by simp; linarith, by simp; linarith, by simp; linarith, by simp; linarith, by simp; linarith, by simp; linarith⟩ hd)
    have hx := congrArg V3.x key
    have hy := congrArg V3.y key
    simp [restoring, displacements, Fin.sum_univ_succ] at hx hy
    exact h23 ⟨hx.symm, hy.symm⟩

/-- The stiffness of a box: the hypotheses are met, and those of the defect by the same matrix with a term on one side only. -/
def boxStiffness (c : ℝ) : Fin 6 → Fin 6 → ℝ := fun i j => if i = j ∧ (i = 2 ∨ i = 3 ∨ i = 4) then 1000 else if i = 2 ∧ j = 4 then c else if i = 4 ∧ j = 2 then 7 else 0

example : (∀ i j, boxStiffness 7 i j = boxStiffness 7 j i) ∧ OnlyHydrostatic (boxStiffness 7) ∧ OnlyHydrostatic (boxStiffness 0) ∧ ¬ ∀ i j, boxStiffness 0 i j = boxStiffness 0 j i := by
  refine ⟨?_, ?_, ?_, ?_⟩
  · intro i j
    fin_cases i <;> fin_cases j <;> simp [boxStiffness]
  · intro i hi j
    rcases hi with rfl | rfl | rfl <;> fin_cases j <;> simp [boxStiffness]
  · intro i hi j
    rcases hi with rfl | rfl | rfl <;> fin_cases j <;> simp [boxStiffness]
  · intro h
    have := h 2 4
    simp [boxStiffness] at this

end Frydom.Hydro
