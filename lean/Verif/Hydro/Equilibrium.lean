import Verif.Hydro.Hydrostatics
import Verif.Hydro.HydroMesh

/-!
# Hydrostatic equilibrium solver (C86, C87)

`src/frydom/hydrodynamics/hydrostatic/FrHydroStaticEquilibrium.{h,cpp}`.

The clipped mesh is a parameter `clip`: as `FrHydroMesh::Compute` makes it (`placedMesh` of C77) it depends on the rotation and on the altitude of the body only.
The solution of the 3 x 3 linear system (Eigen) is a parameter `lu`. `abs` is taken as the absolute value of real numbers.
-/

open Classical

noncomputable section

namespace Frydom.Hydro
open Frydom.Geom Frydom.Core Frydom.Mesh Frydom.Mesh.Surface

/-- What the solver reads from outside. -/
structure Sea where
  rho : ℝ
  g : ℝ
  clip : Q → ℝ → SMesh
  lu : M3 → V3 → V3
  j : List V3 → Junk

/-- The attributes of `FrHydroStaticEquilibrium` (FrHydroStaticEquilibrium.h:132-150), with their initial values; `m_residual` is only displayed. -/
structure Solver where
  body : Body
  mass : ℝ
  cog : V3
  iter : ℕ := 0
  maxIter : ℕ := 100
  tol : ℝ := 1e-2
  relax : V3 := ⟨0.1, 2 * (Real.pi / 180), 2 * (Real.pi / 180)⟩

/-- Second constructor (FrHydroStaticEquilibrium.cpp:24-40). The first one (lines 25-39) is with the mass and the centre of gravity of the body. -/
def Solver.new (b : Body) (mass : ℝ) (cog : V3) (fc : FC) : Solver := { body := b, mass := mass, cog := conv fc cog }

/-- The mesh in the present position (`m_hydroMesh->Update`, `GetClippedMesh`). -/
def Sea.mesh (E : Sea) (b : Body) : SMesh := E.clip b.getQuaternion (b.getPosition .NWU).z

/-- `std::copysign`. -/
def copysign (r x : ℝ) : ℝ := if x < 0 then -|r| else |r|
/-- Relaxation (FrHydroStaticEquilibrium.cpp:144-147, 253-257). -/
def relaxed (r x : ℝ) : ℝ := if r < |x| then copysign r x else x
/-- `solution = residual / K33`, relaxed (FrHydroStaticEquilibrium.cpp:137-147). For `K33 = 0` the quotient is infinite, with the sign of the residual. -/
def heaveStep (r residual K33 : ℝ) : ℝ := if K33 = 0 then copysign r residual else relaxed r (residual / K33)

/-- The loop of `SolveDisplacement` (FrHydroStaticEquilibrium.cpp:87-153). `none`: the boundary polygons cannot be made. -/
def Solver.displacementLoop (E : Sea) (s : Solver) (solution : ℝ) : Option (Solver × Bool) :=
  let b := s.body.translateInWorld ⟨0, 0, solution⟩ .NWU
  match mkCaps E.j (E.mesh b).rings with
  | none => none
  | some cs =>
    let V := volumeOf (E.mesh b).tris cs
    if V ≤ 1e-6 then some ({ s with body := b }, false)
    else
      let mg := s.mass * E.g
      let residual := E.rho * E.g * V - mg
      if h : s.iter > s.maxIter then some ({ s with body := b }, false)
      else if |residual / mg| < s.tol then some ({ s with body := b }, true)
      else Solver.displacementLoop E { s with body := b, iter := s.iter + 1 } (heaveStep s.relax.x residual (cs.map fun c => E.rho * E.g * c.i .one).sum)
termination_by s.maxIter + 1 - s.iter
decreasing_by omega

/-- `SolveDisplacement` (FrHydroStaticEquilibrium.cpp:95-172): `mem` is the content of memory at the local variable `solution`. -/
def Solver.solveDisplacement (E : Sea) (mem : ℝ) (s : Solver) : Option (Solver × Bool) := s.displacementLoop E mem

/-- The residual and its scale (FrHydroStaticEquilibrium.cpp:200-208). -/
def residualOf (E : Sea) (mg : ℝ) (V : ℝ) (p : Props) (cog : V3) : V3 :=
  let rhogv := E.rho * E.g * V
  ⟨rhogv - mg, rhogv * p.buoyancyCentre.y - mg * cog.y, -rhogv * p.buoyancyCentre.x + mg * cog.x⟩
def scaleOf (mg : ℝ) (p : Props) : V3 := ⟨mg, mg * p.breadthSubmerged, mg * p.lengthSubmerged⟩

/-- The body at the beginning of an iteration (FrHydroStaticEquilibrium.cpp:175-177). -/
def Solver.move (s : Solver) (sol : V3) : Body :=
  (s.body.translateInWorld ⟨0, 0, sol.x⟩ .NWU).rotateBy (setCardan .NWU ⟨sol.y, sol.z, 0⟩)

/-- The loop of `SolveEquilibrium` (FrHydroStaticEquilibrium.cpp:171-261). `none`: undefined behaviour in the computation of the properties.
The two branches of lines 238-254 (stable, unstable) do the same. -/
def Solver.equilibriumLoop (E : Sea) (s : Solver) (sol : V3) : Option (Solver × Bool) :=
  let b := s.move sol
  let cog := b.pointInWorld s.cog .NWU
  match mkCaps E.j (E.mesh b).rings with
  | none => none
  | some cs =>
    let V := volumeOf (E.mesh b).tris cs
    if V ≤ 1e-6 then some ({ s with body := b }, false)
    else
      match (Props.new E.rho E.g cog 0 .NWU).compute E.j (E.mesh b) with
      | none => none
      | some p =>
        let mg := s.mass * E.g
        let res := residualOf E mg V p cog
        let sc := scaleOf mg p
        if h : s.iter > s.maxIter then some ({ s with body := b }, false)
        else if |res.x / sc.x| < s.tol ∧ |res.y / sc.y| < s.tol ∧ |res.z / sc.z| < s.tol then some ({ s with body := b }, true)
        else
          let d := E.lu p.K.getMatrix res
          Solver.equilibriumLoop E { s with body := b, iter := s.iter + 1 } ⟨relaxed s.relax.x d.x, relaxed s.relax.y d.y, relaxed s.relax.z d.z⟩
termination_by s.maxIter + 1 - s.iter
decreasing_by omega

/-- `SolveEquilibrium` (FrHydroStaticEquilibrium.cpp:157-264). -/
def Solver.solveEquilibrium (E : Sea) (mem : ℝ) (s : Solver) : Option (Solver × Bool) :=
  match s.solveDisplacement E mem with
  | none => none
  | some (s, _) => s.equilibriumLoop E 0

/-- `GetHydrostaticMatrix` with a reduction point (FrHydroStaticEquilibrium.cpp:305-316). -/
def Solver.matrixAt (E : Sea) (s : Solver) (red : V3) (fc : FC) : Option M3 :=
  ((Props.new E.rho E.g (s.body.pointInWorld s.cog .NWU) red fc).compute E.j (E.mesh s.body)).map fun p => p.K.getMatrix
/-- `GetHydrostaticMatrix` (FrHydroStaticEquilibrium.cpp:297-303). -/
def Solver.matrix (E : Sea) (s : Solver) : Option M3 := s.matrixAt E (s.body.pointInWorld s.cog .NWU) .NWU

/-! ## Specification -/

/-- The clipped meshes are boundaries of the immersed part of the hull (closed by flat polygons). -/
def Sea.Ready (E : Sea) : Prop := ∀ q z, Good (E.clip q z)
/-- Volume enclosed by the clipped mesh and the water plane. -/
def wetVolume (M : SMesh) : ℝ := volInt (fun _ => 1) 0 M.closedUp
/-- First moments of this volume. -/
def wetMoment (M : SMesh) : V3 := ⟨volInt (fun v => v.x) 0 M.closedUp, volInt (fun v => v.y) 0 M.closedUp, volInt (fun v => v.z) 0 M.closedUp⟩

/-- `b'` is the body `b` raised by `d`. -/
structure Raised (b b' : Body) (d : ℝ) : Prop where
  rot : b'.getQuaternion = b.getQuaternion
  pos : b'.getPosition .NWU = b.getPosition .NWU + ⟨0, 0, d⟩

/-- Buoyancy balances the weight up to the tolerance. -/
def Afloat (E : Sea) (s : Solver) : Prop :=
  1e-6 < wetVolume (E.mesh s.body) ∧ |E.rho * E.g * wetVolume (E.mesh s.body) - s.mass * E.g| < s.tol * |s.mass * E.g|

/-- The settings are the same. -/
structure SameSettings (s s' : Solver) : Prop where
  mass : s'.mass = s.mass
  cog : s'.cog = s.cog
  maxIter : s'.maxIter = s.maxIter
  tol : s'.tol = s.tol
  relax : s'.relax = s.relax

/-! ## Proofs -/

theorem raised_translate (b : Body) (d : ℝ) : Raised b (b.translateInWorld ⟨0, 0, d⟩ .NWU) d := by
  rw [translateInWorld_eq]
  refine ⟨rfl, ?_⟩
  show (Body.at _ _).refPos = _
  rw [at_refPos]; rfl

theorem Raised.trans {b b' b'' : Body} {d d' : ℝ} (h : Raised b b' d) (h' : Raised b' b'' d') : Raised b b'' (d + d') := by
  refine ⟨h'.rot.trans h.rot, ?_⟩
  rw [h'.pos, h.pos]; ext <;> simp <;> ring

theorem abs_copysign (r x : ℝ) : |copysign r x| = |r| := by
  unfold copysign; split_ifs <;> simp
theorem abs_relaxed (r x : ℝ) : |relaxed r x| ≤ |r| := by
  unfold relaxed
  split_ifs with h
  · rw [abs_copysign]
  · exact (not_lt.mp h).trans (le_abs_self r)
theorem abs_heaveStep (r a k : ℝ) : |heaveStep r a k| ≤ |r| := by
  unfold heaveStep
  split_ifs
  · rw [abs_copysign]
  · exact abs_relaxed _ _

theorem loop_eq {E : Sea} (hE : E.Ready) (s : Solver) (sol : ℝ) :
    ∃ cs, mkCaps E.j (E.mesh (s.body.translateInWorld ⟨0, 0, sol⟩ .NWU)).rings = some cs ∧
      CapsSpec cs (E.mesh (s.body.translateInWorld ⟨0, 0, sol⟩ .NWU)).rings ∧
      s.displacementLoop E sol =
        if wetVolume (E.mesh (s.body.translateInWorld ⟨0, 0, sol⟩ .NWU)) ≤ 1e-6 then some ({ s with body := s.body.translateInWorld ⟨0, 0, sol⟩ .NWU }, false)
        else if s.iter > s.maxIter then some ({ s with body := s.body.translateInWorld ⟨0, 0, sol⟩ .NWU }, false)
        else if |(E.rho * E.g * wetVolume (E.mesh (s.body.translateInWorld ⟨0, 0, sol⟩ .NWU)) - s.mass * E.g) / (s.mass * E.g)| < s.tol then
          some ({ s with body := s.body.translateInWorld ⟨0, 0, sol⟩ .NWU }, true)
        else Solver.displacementLoop E { s with body := s.body.translateInWorld ⟨0, 0, sol⟩ .NWU, iter := s.iter + 1 }
          (heaveStep s.relax.x (E.rho * E.g * wetVolume (E.mesh (s.body.translateInWorld ⟨0, 0, sol⟩ .NWU)) - s.mass * E.g)
            (cs.map fun c => E.rho * E.g * c.i .one).sum) := by
  have hg : Good (E.mesh (s.body.translateInWorld ⟨0, 0, sol⟩ .NWU)) := hE _ _
  obtain ⟨cs, h1, h2⟩ := hg.caps E.j
  refine ⟨cs, h1, h2, ?_⟩
  have hv := volumeOf_eq hg h2 0
  rw [Solver.displacementLoop]
  simp only [h1, hv]
  rfl

structure DispSpec (E : Sea) (s : Solver) (sol : ℝ) (s' : Solver) (ok : Bool) : Prop where
  same : SameSettings s s'
  iter : s.iter ≤ s'.iter ∧ s'.iter ≤ max s.iter (s.maxIter + 1)
  moved : ∃ d, Raised s.body s'.body d ∧ |d - sol| ≤ (s'.iter - s.iter : ℝ) * |s.relax.x|
  yes : ok = true → s'.iter ≤ s.maxIter ∧ (s.mass * E.g ≠ 0 → Afloat E s')
  no : ok = false → wetVolume (E.mesh s'.body) ≤ 1e-6 ∨ s.maxIter < s'.iter

theorem disp_spec {E : Sea} (hE : E.Ready) (k : ℕ) : ∀ (s : Solver) (sol : ℝ), s.maxIter + 1 - s.iter = k →
    ∃ s' ok, s.displacementLoop E sol = some (s', ok) ∧ DispSpec E s sol s' ok := by
  induction k with
  | zero =>
    intro s sol hk
    obtain ⟨cs, -, -, e⟩ := loop_eq hE s sol
    have h2 : s.iter > s.maxIter := by omega
    refine ⟨{ s with body := s.body.translateInWorld ⟨0, 0, sol⟩ .NWU }, false, ?_, ⟨⟨rfl, rfl, rfl, rfl, rfl⟩, ⟨le_refl _, le_max_left _ _⟩,
      ⟨sol, raised_translate _ _, by simp⟩, by simp, fun _ => Or.inr h2⟩⟩
    rw [e, if_pos h2, ite_self]
  | succ k ih =>
    intro s sol hk
    obtain ⟨cs, -, -, e⟩ := loop_eq hE s sol
    have h2 : ¬ s.iter > s.maxIter := by omega
    rw [if_neg h2] at e
    by_cases h1 : wetVolume (E.mesh (s.body.translateInWorld ⟨0, 0, sol⟩ .NWU)) ≤ 1e-6
    · rw [if_pos h1] at e
      exact ⟨_, _, e, ⟨⟨rfl, rfl, rfl, rfl, rfl⟩, ⟨le_refl _, le_max_left _ _⟩, ⟨sol, raised_translate _ _, by simp⟩, by simp, fun _ => Or.inl h1⟩⟩
    rw [if_neg h1] at e
    by_cases h3 : |(E.rho * E.g * wetVolume (E.mesh (s.body.translateInWorld ⟨0, 0, sol⟩ .NWU)) - s.mass * E.g) / (s.mass * E.g)| < s.tol
    · rw [if_pos h3] at e
      refine ⟨_, _, e, ⟨⟨rfl, rfl, rfl, rfl, rfl⟩, ⟨le_refl _, le_max_left _ _⟩, ⟨sol, raised_translate _ _, by simp⟩, fun _ => ⟨not_lt.mp h2, fun hm => ⟨not_le.mp h1, ?_⟩⟩, by simp⟩⟩
      rw [abs_div, div_lt_iff₀ (abs_pos.mpr hm)] at h3
      exact h3
    · rw [if_neg h3] at e
      obtain ⟨s', ok, e', hs⟩ := ih { s with body := s.body.translateInWorld ⟨0, 0, sol⟩ .NWU, iter := s.iter + 1 }
        (heaveStep s.relax.x (E.rho * E.g * wetVolume (E.mesh (s.body.translateInWorld ⟨0, 0, sol⟩ .NWU)) - s.mass * E.g)
            (cs.map fun c => E.rho * E.g * c.i .one).sum) (by show s.maxIter + 1 - (s.iter + 1) = k; omega)
      rw [← e] at e'
      refine ⟨s', ok, e', ⟨⟨hs.same.mass, hs.same.cog, hs.same.maxIter, hs.same.tol, hs.same.relax⟩, ?_, ?_, hs.yes, hs.no⟩⟩
      · have h4 := hs.iter
        simp only [] at h4
        omega
      · obtain ⟨d, hd, hb⟩ := hs.moved
        refine ⟨sol + d, (raised_translate s.body sol).trans hd, ?_⟩
        have hst := abs_heaveStep s.relax.x (E.rho * E.g * wetVolume (E.mesh (s.body.translateInWorld ⟨0, 0, sol⟩ .NWU)) - s.mass * E.g)
            (cs.map fun c => E.rho * E.g * c.i .one).sum
        simp only [Nat.cast_add, Nat.cast_one] at hb
        generalize heaveStep _ _ _ = x at *
        have h5 : |d| ≤ |d - x| + |x| := by
          have := abs_add_le (d - x) x
          rwa [sub_add_cancel] at this
        rw [add_sub_cancel_left]
        linarith

/-- **C86, construction.** A new solver works with the body, the mass and the centre of gravity it was given, in either convention: the point of the body it takes for the centre of gravity is where the body itself places that point, and it has its hundred
iterations, a tolerance of one percent and relaxations of 0.1 m and 2 degrees. -/
theorem C86_construction (b : Body) (mass : ℝ) (cog : V3) (fc : FC) :
    let s := Solver.new b mass cog fc
    s.body = b ∧ s.mass = mass ∧ conv fc (s.body.pointInWorld s.cog .NWU) = b.pointInWorld cog fc ∧
    s.iter = 0 ∧ s.maxIter = 100 ∧ s.tol = 1 / 100 ∧ s.relax.x = 1 / 10 ∧ s.relax.y * 90 = Real.pi ∧ s.relax.z * 90 = Real.pi := by
  intro s
  refine ⟨rfl, rfl, ?_, rfl, rfl, by norm_num [s, Solver.new], by norm_num [s, Solver.new], by simp only [s, Solver.new]; ring, by simp only [s, Solver.new]; ring⟩
  have h := pointInWorld_conv b fc (conv fc cog)
  have h' := pointInWorld_conv b .NWU (conv fc cog)
  rw [conv_conv] at h
  rw [h]
  exact congrArg (conv fc) h'

/-- **C86, displacement.** Whatever the body, the mesh, the settings and the content of memory, `SolveDisplacement` answers, after at most `maxIter + 1` iterations. The attitude and
the horizontal position are kept, and apart from the initial jump (see `C86_uninitialised_wrong`) each iteration moves the body by at most the linear relaxation.
When the answer is yes, buoyancy balances the weight within the tolerance. -/
theorem C86_displacement (E : Sea) (hE : E.Ready) (mem : ℝ) (s : Solver) :
    ∃ s' ok, s.solveDisplacement E mem = some (s', ok) ∧ SameSettings s s' ∧
      s.iter ≤ s'.iter ∧ s'.iter ≤ max s.iter (s.maxIter + 1) ∧
      (∃ d, Raised s.body s'.body d ∧ |d - mem| ≤ (s'.iter - s.iter : ℝ) * |s.relax.x|) ∧
      (ok = true → s.mass * E.g ≠ 0 → Afloat E s') := by
  obtain ⟨s', ok, e, h⟩ := disp_spec hE _ s mem rfl
  exact ⟨s', ok, e, h.same, h.iter.1, h.iter.2, h.moved, fun hk => (h.yes hk).2⟩

/-- **C86, wall-sided hulls.** When the sides are vertical in the range of altitudes considered (the water plane has the constant area `A` and the volume is `V0 - A z`), the
displacement is found, in a number of iterations given by the distance to the equilibrium altitude `Z` and the relaxation. (`mem = 0`: the body starts where the user put it.) -/
theorem C86_wall_sided (E : Sea) (hE : E.Ready) (s : Solver) (hrg : 0 < E.rho * E.g) (hm : 0 < s.mass * E.g) (ht : 0 < s.tol) (hr : 0 < s.relax.x)
    (V0 A Z lo hi : ℝ) (hA : 0 < A) (hZ : E.rho * (V0 - A * Z) = s.mass) (hloZ : lo ≤ Z) (hZhi : Z ≤ hi)
    (hz : lo ≤ (s.body.getPosition .NWU).z ∧ (s.body.getPosition .NWU).z ≤ hi)
    (hw : ∀ z, lo ≤ z → z ≤ hi → AllHorizontal (E.clip s.body.getQuaternion z) ∧ AllOuter (E.clip s.body.getQuaternion z) ∧
      waterInt (fun _ => 1) (E.clip s.body.getQuaternion z) = A ∧ wetVolume (E.clip s.body.getQuaternion z) = V0 - A * z ∧ 1e-6 < V0 - A * z)
    (n : ℕ) (hn : |Z - (s.body.getPosition .NWU).z| ≤ n * s.relax.x) (hit : s.iter + n ≤ s.maxIter) :
    ∃ s', s.solveDisplacement E 0 = some (s', true) ∧ s'.iter ≤ s.iter + n ∧ Afloat E s' := by
  have hg : E.g ≠ 0 := by rintro h; rw [h, mul_zero] at hrg; exact lt_irrefl _ hrg
  have key : ∀ (n : ℕ) (b1 : Body) (i1 : ℕ) (sol : ℝ), b1.getQuaternion = s.body.getQuaternion →
      lo ≤ (b1.getPosition .NWU).z + sol → (b1.getPosition .NWU).z + sol ≤ hi → |Z - ((b1.getPosition .NWU).z + sol)| ≤ n * s.relax.x →
      i1 + n ≤ s.maxIter → ∃ s', Solver.displacementLoop E { s with body := b1, iter := i1 } sol = some (s', true) ∧ s'.iter ≤ i1 + n := by
    intro n
    induction n with
    | zero =>
      intro b1 i1 sol hq hl hh hd hii
      obtain ⟨cs, -, -, e⟩ := loop_eq hE { s with body := b1, iter := i1 } sol
      have hrt := raised_translate b1 sol
      have hmesh : E.mesh (b1.translateInWorld ⟨0, 0, sol⟩ .NWU) = E.clip s.body.getQuaternion ((b1.getPosition .NWU).z + sol) := by
        unfold Sea.mesh; rw [hrt.rot, hrt.pos, hq]; rfl
      obtain ⟨w1, w2, w3, w4, w5⟩ := hw _ hl hh
      simp only [] at e
      rw [hmesh, w4, if_neg (not_le.mpr w5), if_neg (by omega : ¬ i1 > s.maxIter)] at e
      have hz0 : (b1.getPosition .NWU).z + sol = Z := by
        have : |Z - ((b1.getPosition .NWU).z + sol)| ≤ 0 := by simpa using hd
        have := abs_nonpos_iff.mp this
        linarith
      rw [hz0, if_pos] at e
      · exact ⟨_, e, by simp⟩
      · rw [show E.rho * E.g * (V0 - A * Z) - s.mass * E.g = 0 by rw [← hZ]; ring, zero_div, abs_zero]; exact ht
    | succ n ih =>
      intro b1 i1 sol hq hl hh hd hii
      obtain ⟨cs, -, hcs, e⟩ := loop_eq hE { s with body := b1, iter := i1 } sol
      have hrt := raised_translate b1 sol
      have hmesh : E.mesh (b1.translateInWorld ⟨0, 0, sol⟩ .NWU) = E.clip s.body.getQuaternion ((b1.getPosition .NWU).z + sol) := by
        unfold Sea.mesh; rw [hrt.rot, hrt.pos, hq]; rfl
      obtain ⟨w1, w2, w3, w4, w5⟩ := hw _ hl hh
      simp only [] at e hcs
      rw [hmesh] at e hcs
      rw [w4, if_neg (not_le.mpr w5), if_neg (by omega : ¬ i1 > s.maxIter)] at e
      split_ifs at e with h1
      · exact ⟨_, e, by simp⟩
      · have hk : (cs.map fun c => E.rho * E.g * c.i .one).sum = E.rho * E.g * A := by
          rw [List.sum_map_mul_left]
          congr 1
          have h3 := caps_level hcs (hE s.body.getQuaternion _).flat w1
          have h4 := (waterInt_shift h3 w2 0 0).1
          rw [w3] at h4
          exact h4.symm
        have hres : E.rho * E.g * (V0 - A * ((b1.getPosition .NWU).z + sol)) - s.mass * E.g = E.rho * E.g * A * (Z - ((b1.getPosition .NWU).z + sol)) := by
          rw [← hZ]; ring
        have hkne : E.rho * E.g * A ≠ 0 := (mul_pos hrg hA).ne'
        rw [hk, hres] at e
        unfold heaveStep at e
        rw [if_neg hkne, mul_div_cancel_left₀ _ hkne] at e
        have hpos : ((b1.translateInWorld ⟨0, 0, sol⟩ .NWU).getPosition .NWU).z = (b1.getPosition .NWU).z + sol := by rw [hrt.pos]; rfl
        generalize hzz : (b1.getPosition .NWU).z + sol = z at *
        have hx : lo ≤ z + relaxed s.relax.x (Z - z) ∧ z + relaxed s.relax.x (Z - z) ≤ hi ∧ |Z - (z + relaxed s.relax.x (Z - z))| ≤ n * s.relax.x := by
          unfold relaxed copysign
          rw [abs_of_pos hr]
          push_cast at hd
          rw [add_mul, one_mul] at hd
          have hnn : 0 ≤ (n : ℝ) * s.relax.x := by positivity
          split_ifs with g1 g2
          · rw [abs_of_neg g2] at g1 hd
            refine ⟨by linarith, by linarith, ?_⟩
            rw [abs_of_nonpos (by linarith)]; linarith
          · rw [abs_of_nonneg (not_lt.mp g2)] at g1 hd
            refine ⟨by linarith, by linarith, ?_⟩
            rw [abs_of_nonneg (by linarith)]; linarith
          · refine ⟨by linarith, by linarith, ?_⟩
            rw [show Z - (z + (Z - z)) = 0 by ring, abs_zero]; exact hnn
        obtain ⟨s', e', h'⟩ := ih (b1.translateInWorld ⟨0, 0, sol⟩ .NWU) (i1 + 1) (relaxed s.relax.x (Z - z))
          (hrt.rot.trans hq) (by rw [hpos]; exact hx.1) (by rw [hpos]; exact hx.2.1) (by rw [hpos]; exact hx.2.2)
          (by show i1 + 1 + n ≤ _; omega)
        refine ⟨s', e.trans e', ?_⟩
        omega
  obtain ⟨s', e, hi'⟩ := key n s.body s.iter 0 rfl (by simpa using hz.1) (by simpa using hz.2) (by simpa using hn) hit
  refine ⟨s', e, hi', ?_⟩
  obtain ⟨s2, ok, e2, h⟩ := disp_spec hE _ s 0 rfl
  rw [e] at e2
  injection e2 with e2
  injection e2 with e3 e4
  subst e3
  exact (h.yes e4.symm).2 hm.ne'

/-- **C86, the starting point (defect).** The first move is by an uninitialised variable. A body at the exact displacement (any mesh out of the water from the altitude `H` on) may be put out of
the water, and the answer is then no; every altitude may be the one where the search begins. -/
theorem C86_uninitialised_wrong (E : Sea) (hE : E.Ready) (s : Solver) (H : ℝ) (hH : ∀ z, H ≤ z → wetVolume (E.clip s.body.getQuaternion z) ≤ 1e-6) (z : ℝ) (hz : H ≤ z) :
    ∃ mem s', s.solveDisplacement E mem = some (s', false) ∧ (s'.body.getPosition .NWU).z = z := by
  refine ⟨z - (s.body.getPosition .NWU).z, { s with body := s.body.translateInWorld ⟨0, 0, z - (s.body.getPosition .NWU).z⟩ .NWU }, ?_, ?_⟩
  all_goals have hr := raised_translate s.body (z - (s.body.getPosition .NWU).z)
  all_goals have hz' : ((s.body.translateInWorld ⟨0, 0, z - (s.body.getPosition .NWU).z⟩ .NWU).getPosition .NWU).z = z := by rw [hr.pos]; simp
  · obtain ⟨cs, -, -, e⟩ := loop_eq hE s (z - (s.body.getPosition .NWU).z)
    unfold Solver.solveDisplacement
    rw [e, if_pos]
    unfold Sea.mesh
    rw [hr.rot, hz']
    exact hH z hz
  · exact hz'

/-- **C86, solving again (defect).** The count of iterations is not reset: once a search has ended without convergence (for a body in the water), no later call on the same object says
yes, wherever the user puts the body. -/
theorem C86_second_solve_wrong (E : Sea) (hE : E.Ready) (mem mem' : ℝ) (s s' : Solver) (h : s.solveDisplacement E mem = some (s', false)) (hw : 1e-6 < wetVolume (E.mesh s'.body)) (b : Body) :
    ∃ s2, Solver.solveDisplacement E mem' { s' with body := b } = some (s2, false) := by
  obtain ⟨s1, ok, e, hs⟩ := disp_spec hE _ s mem rfl
  rw [show s.displacementLoop E mem = s.solveDisplacement E mem from rfl, h] at e
  injection e with e
  injection e with e1 e2
  subst e1
  have hi : s'.maxIter < s'.iter := by
    rcases hs.no e2.symm with h1 | h1
    · exact absurd hw (not_lt.mpr h1)
    · rw [hs.same.maxIter]; exact h1
  obtain ⟨cs, -, -, e⟩ := loop_eq hE { s' with body := b } mem'
  refine ⟨{ s' with body := b.translateInWorld ⟨0, 0, mem'⟩ .NWU }, ?_⟩
  unfold Solver.solveDisplacement
  rw [e]
  simp only [gt_iff_lt, if_pos hi, ite_self]

/-! ## The equilibrium -/

/-- The vertices of faces and loops are vertices of the mesh. -/
structure Indexed (M : SMesh) : Prop where
  faces : ∀ f ∈ M.faces, f.a < M.nv ∧ f.b < M.nv ∧ f.c < M.nv
  loops : ∀ l ∈ M.loops, ∀ v ∈ l, v < M.nv

/-- Centre of buoyancy, in the world. -/
def buoyancyCentre (E : Sea) (b : Body) : V3 := inWorld b ((wetVolume (E.mesh b))⁻¹ • wetMoment (E.mesh b))
/-- Moment about the origin of the world of the weight and of the buoyancy. -/
def netMoment (E : Sea) (s : Solver) : V3 :=
  V3.cross (buoyancyCentre E s.body) ⟨0, 0, E.rho * E.g * wetVolume (E.mesh s.body)⟩ + V3.cross (s.body.pointInWorld s.cog .NWU) ⟨0, 0, -(s.mass * E.g)⟩

theorem flat_volume (j : List V3 → Junk) {M : SMesh} (hG : Good M) (hI : Indexed M) (n : Fin 3) (c : ℝ) (h : ∀ i < M.nv, coord n (M.pos i) = c) : wetVolume M = 0 := by
  obtain ⟨cs, h1, h2⟩ := hG.caps j
  have hv : wetVolume M = volInt (fun _ => 1) ⟨c, c, c⟩ M.closedUp := by
    unfold wetVolume
    rw [← volumeOf_eq hG h2 0, ← volumeOf_eq hG h2 ⟨c, c, c⟩]
  rw [hv]
  unfold volInt
  refine sum_zero_of _ _ fun t ht => ?_
  have hc : coord n t.p = c ∧ coord n t.q = c ∧ coord n t.r = c := by
    unfold SMesh.closedUp at ht
    rcases List.mem_append.mp ht with ht | ht
    · obtain ⟨f, hf, rfl⟩ := List.mem_map.mp ht
      obtain ⟨a1, a2, a3⟩ := hI.faces f hf
      generalize M.first f = k
      fin_cases k <;> simp [Clip.Face.turned, Clip.triOf, h _ a1, h _ a2, h _ a3]
    · obtain ⟨l, hl, b1, b2, b3⟩ := mem_fans ht
      obtain ⟨l', hl', rfl⟩ := List.mem_map.mp hl
      have key : ∀ v ∈ l'.map M.pos, coord n v = c := by
        intro v hv
        obtain ⟨i, hi, rfl⟩ := List.mem_map.mp hv
        exact h i (hI.loops l' hl' i hi)
      exact ⟨key _ b1, key _ b2, key _ b3⟩
  unfold tetInt
  obtain ⟨c1, c2, c3⟩ := hc
  refine mul_eq_zero_of_left ?_ _
  fin_cases n <;> simp only [coord] at c1 c2 c3 <;> simp [V3.dot, c1, c2, c3]

theorem extents_pos (j : List V3 → Junk) {M : SMesh} (hG : Good M) (hI : Indexed M) (hV : 1e-6 < wetVolume M) :
    0 < M.nv ∧ 0 < M.boundingBox.xmax - M.boundingBox.xmin ∧ 0 < M.boundingBox.ymax - M.boundingBox.ymin := by
  have hv : wetVolume M ≠ 0 := by intro h; rw [h] at hV; norm_num at hV
  have hn : 0 < M.nv := by
    rcases Nat.eq_zero_or_pos M.nv with h | h
    · exact absurd (flat_volume j hG hI 0 0 (by rw [h]; intro i hi; omega)) hv
    · exact h
  obtain ⟨hb, -⟩ := C75_bounding_box M hn
  refine ⟨hn, ?_, ?_⟩
  all_goals by_contra hneg
  · refine hv (flat_volume j hG hI 0 M.boundingBox.xmin fun i hi => ?_)
    obtain ⟨a, b, -⟩ := hb i hi
    show (M.pos i).x = _
    linarith
  · refine hv (flat_volume j hG hI 1 M.boundingBox.ymin fun i hi => ?_)
    obtain ⟨-, -, a, b, -⟩ := hb i hi
    show (M.pos i).y = _
    linarith

theorem compute_some {j : List V3 → Junk} {p0 p : Props} {M : SMesh} (h : p0.compute j M = some p) :
    ∃ cs, mkCaps j M.rings = some cs ∧ p.buoyancyCentre = cogOf M.tris cs ∧ p.breadthSubmerged = M.boundingBox.ymax - M.boundingBox.ymin ∧
      p.lengthSubmerged = M.boundingBox.xmax - M.boundingBox.xmin := by
  unfold Props.compute Props.geometric at h
  cases h1 : mkCaps j M.rings with
  | none => rw [h1] at h; simp at h
  | some cs =>
    rw [h1, Option.bind_some] at h
    cases h2 : (boxes cs).bind lengthAtWaterline with
    | none => rw [h2] at h; simp at h
    | some L =>
      rw [h2, Option.map_some, Option.map_some] at h
      injection h with h
      subst h
      exact ⟨cs, rfl, rfl, rfl, rfl⟩

/-- The residual of the code and the moment. -/
theorem residual_moment {E : Sea} {b : Body} (hG : Good (E.mesh b)) {p0 p : Props} (h : p0.compute E.j (E.mesh b) = some p) (hV : wetVolume (E.mesh b) ≠ 0) :
    p.buoyancyCentre = (wetVolume (E.mesh b))⁻¹ • wetMoment (E.mesh b) := by
  obtain ⟨cs, h1, h2, -⟩ := compute_some h
  obtain ⟨cs', h3, h4⟩ := hG.caps E.j
  rw [h1] at h3; injection h3 with h3; subst h3
  rw [h2]
  have hv := volumeOf_eq hG h4 0
  have hc := cogOf_eq hG h4 0
  rw [hv] at hc
  change ∀ i, _ = 0.5 / wetVolume (E.mesh b) * _ at hc
  ext
  · refine (hc 0).trans ?_
    show 0.5 / wetVolume (E.mesh b) * (2 * volInt (fun v : V3 => v.x) 0 _) = (wetVolume (E.mesh b))⁻¹ * volInt (fun v => v.x) 0 _
    norm_num; ring
  · refine (hc 1).trans ?_
    show 0.5 / wetVolume (E.mesh b) * (2 * volInt (fun v : V3 => v.y) 0 _) = (wetVolume (E.mesh b))⁻¹ * volInt (fun v => v.y) 0 _
    norm_num; ring
  · refine (hc 2).trans ?_
    show 0.5 / wetVolume (E.mesh b) * (2 * volInt (fun v : V3 => v.z) 0 _) = (wetVolume (E.mesh b))⁻¹ * volInt (fun v => v.z) 0 _
    norm_num; ring

theorem move_same (s : Solver) (sol : V3) : (s.move sol).refPos = s.body.refPos + ⟨0, 0, sol.x⟩ := by
  unfold Solver.move Body.rotateBy
  rw [setRotation_eq, at_refPos]
  show (s.body.translateInWorld _ _).refPos = _
  rw [translateInWorld_eq, at_refPos]; rfl

/-- What convergence means for the code: its residual is under the tolerance. -/
structure Converged (E : Sea) (s : Solver) : Prop where
  wet : 1e-6 < wetVolume (E.mesh s.body)
  heave : |E.rho * E.g * wetVolume (E.mesh s.body) - s.mass * E.g| < s.tol * (s.mass * E.g)
  roll : ∀ B, Extent (fun v => v.y) (IsVertex (E.mesh s.body)) B →
    |(netMoment E s).x - E.rho * E.g * wetVolume (E.mesh s.body) * s.body.refPos.y| < s.tol * (s.mass * E.g * B)
  pitch : ∀ L, Extent (fun v => v.x) (IsVertex (E.mesh s.body)) L →
    |(netMoment E s).y + E.rho * E.g * wetVolume (E.mesh s.body) * s.body.refPos.x| < s.tol * (s.mass * E.g * L)

theorem extent_unique {f : V3 → ℝ} {S : V3 → Prop} {L L' : ℝ} (h : Extent f S L) (h' : Extent f S L') : L = L' := by
  obtain ⟨a, u, v, hu, hv, e⟩ := h
  obtain ⟨a', u', v', hu', hv', e'⟩ := h'
  exact le_antisymm (e ▸ a' u v hu hv) (e' ▸ a u' v' hu' hv')

theorem box_extents {M : SMesh} (hn : 0 < M.nv) :
    Extent (fun v => v.x) (IsVertex M) (M.boundingBox.xmax - M.boundingBox.xmin) ∧ Extent (fun v => v.y) (IsVertex M) (M.boundingBox.ymax - M.boundingBox.ymin) := by
  obtain ⟨hb, ⟨a1, b1, c1⟩, ⟨a2, b2, c2⟩, ⟨a3, b3, c3⟩, ⟨a4, b4, c4⟩, -⟩ := C75_bounding_box M hn
  constructor
  · refine ⟨?_, _, _, ⟨a1, b1, rfl⟩, ⟨a2, b2, rfl⟩, by rw [c1, c2]⟩
    rintro u v ⟨i, hi, rfl⟩ ⟨k, hk, rfl⟩
    obtain ⟨x, -⟩ := hb i hi
    obtain ⟨-, y, -⟩ := hb k hk
    linarith
  · refine ⟨?_, _, _, ⟨a3, b3, rfl⟩, ⟨a4, b4, rfl⟩, by rw [c3, c4]⟩
    rintro u v ⟨i, hi, rfl⟩ ⟨k, hk, rfl⟩
    obtain ⟨-, -, x, -⟩ := hb i hi
    obtain ⟨-, -, -, y, -⟩ := hb k hk
    linarith

theorem converged_of {E : Sea} {s : Solver} (hG : Good (E.mesh s.body)) (hI : Indexed (E.mesh s.body)) (hm : 0 < s.mass * E.g)
    (hV : 1e-6 < wetVolume (E.mesh s.body)) {p0 p : Props} (hp : p0.compute E.j (E.mesh s.body) = some p)
    (h : let res := residualOf E (s.mass * E.g) (wetVolume (E.mesh s.body)) p (s.body.pointInWorld s.cog .NWU)
      let sc := scaleOf (s.mass * E.g) p
      |res.x / sc.x| < s.tol ∧ |res.y / sc.y| < s.tol ∧ |res.z / sc.z| < s.tol) : Converged E s := by
  have hv : wetVolume (E.mesh s.body) ≠ 0 := by intro h; rw [h] at hV; norm_num at hV
  have hB := residual_moment hG hp hv
  obtain ⟨cs, -, -, h2, h3⟩ := compute_some hp
  obtain ⟨hn, hx, hy⟩ := extents_pos E.j hG hI hV
  obtain ⟨ex, ey⟩ := box_extents hn
  rw [← h3] at hx ex
  rw [← h2] at hy ey
  obtain ⟨r1, r2, r3⟩ := h
  simp only [residualOf, scaleOf, hB] at r1 r2 r3
  rw [abs_div, abs_of_pos hm, div_lt_iff₀ hm] at r1
  rw [abs_div, abs_of_pos (mul_pos hm hy), div_lt_iff₀ (mul_pos hm hy)] at r2
  rw [abs_div, abs_of_pos (mul_pos hm hx), div_lt_iff₀ (mul_pos hm hx)] at r3
  refine ⟨hV, r1, fun B hB => ?_, fun L hL => ?_⟩
  · rw [extent_unique hB ey]
    refine lt_of_eq_of_lt ?_ r2
    congr 1
    unfold netMoment buoyancyCentre inWorld
    simp
    ring
  · rw [extent_unique hL ex]
    refine lt_of_eq_of_lt ?_ r3
    congr 1
    unfold netMoment buoyancyCentre inWorld
    simp
    ring

structure EqSpec (E : Sea) (s s' : Solver) (ok : Bool) : Prop where
  same : SameSettings s s'
  iter : s.iter ≤ s'.iter ∧ s'.iter ≤ max s.iter (s.maxIter + 1)
  still : s'.body.refPos.x = s.body.refPos.x ∧ s'.body.refPos.y = s.body.refPos.y
  yes : ok = true → s'.iter ≤ s.maxIter ∧ (0 < s.mass * E.g → Converged E s')

theorem eq_spec {E : Sea} (hE : E.Ready) (hI : ∀ q z, Indexed (E.clip q z)) (k : ℕ) : ∀ (s : Solver) (sol : V3) (s' : Solver) (ok : Bool), s.maxIter + 1 - s.iter = k →
    s.equilibriumLoop E sol = some (s', ok) → EqSpec E s s' ok := by
  induction k with
  | zero =>
    intro s sol s' ok hk he
    rw [Solver.equilibriumLoop] at he
    have hi : s.iter > s.maxIter := by omega
    have hpos := move_same s sol
    have hG : Good (E.mesh (s.move sol)) := hE _ _
    obtain ⟨cs, h1, h2⟩ := hG.caps E.j
    simp only [h1, volumeOf_eq hG h2 0, dif_pos hi] at he
    have fin : ∀ s2 : Solver, s2 = { s with body := s.move sol } → EqSpec E s s2 false := by
      rintro s2 rfl
      exact ⟨⟨rfl, rfl, rfl, rfl, rfl⟩, ⟨le_refl _, le_max_left _ _⟩, by rw [hpos]; simp, by simp⟩
    split_ifs at he with h3
    · injection he with he; injection he with e1 e2; subst e2; exact fin _ e1.symm
    · split at he
      · exact absurd he (by simp)
      · injection he with he; injection he with e1 e2; subst e2; exact fin _ e1.symm
  | succ k ih =>
    intro s sol s' ok hk he
    rw [Solver.equilibriumLoop] at he
    have hi : ¬ s.iter > s.maxIter := by omega
    have hpos := move_same s sol
    have hG : Good (E.mesh (s.move sol)) := hE _ _
    obtain ⟨cs, h1, h2⟩ := hG.caps E.j
    simp only [h1, volumeOf_eq hG h2 0, dif_neg hi] at he
    split_ifs at he with h3
    · injection he with he; injection he with e1 e2; subst e2 e1
      exact ⟨⟨rfl, rfl, rfl, rfl, rfl⟩, ⟨le_refl _, le_max_left _ _⟩, by rw [hpos]; simp, by simp⟩
    · split at he
      · exact absurd he (by simp)
      · rename_i p hp
        split_ifs at he with h4
        · injection he with he; injection he with e1 e2; subst e2 e1
          refine ⟨⟨rfl, rfl, rfl, rfl, rfl⟩, ⟨le_refl _, le_max_left _ _⟩, by rw [hpos]; simp, fun _ => ⟨not_lt.mp hi, fun hm => ?_⟩⟩
          exact converged_of (s := { s with body := s.move sol }) hG (hI _ _) hm (not_le.mp h3) hp h4
        · have h5 := ih _ _ _ _ (by show s.maxIter + 1 - (s.iter + 1) = k; omega) he
          refine ⟨⟨h5.same.mass, h5.same.cog, h5.same.maxIter, h5.same.tol, h5.same.relax⟩, ?_, ?_, h5.yes⟩
          · have h6 := h5.iter
            simp only [] at h6
            omega
          · have h6 := h5.still
            simp only [hpos] at h6
            simpa using h6

/-- **C86, equilibrium.** For a body above the origin of the world (its reference point on the vertical axis), whatever the settings and the content of memory: the answer yes of
`SolveEquilibrium` means that buoyancy balances the weight within the tolerance, and their moment about the horizontal axes vanishes within the tolerance (relative to the weight times the
breadth or the length of the immersed part). The body has not moved horizontally. -/
theorem C86_equilibrium_partial (E : Sea) (hE : E.Ready) (hI : ∀ q z, Indexed (E.clip q z)) (mem : ℝ) (s s' : Solver) (hm : 0 < s.mass * E.g)
    (h0 : s.body.refPos.x = 0 ∧ s.body.refPos.y = 0) (h : s.solveEquilibrium E mem = some (s', true)) :
    Afloat E s' ∧ s'.body.refPos.x = 0 ∧ s'.body.refPos.y = 0 ∧
    (∀ B, Extent (fun v => v.y) (IsVertex (E.mesh s'.body)) B → |(netMoment E s').x| < s.tol * (s.mass * E.g * B)) ∧
    (∀ L, Extent (fun v => v.x) (IsVertex (E.mesh s'.body)) L → |(netMoment E s').y| < s.tol * (s.mass * E.g * L)) := by
  obtain ⟨s1, ok1, e1, d1⟩ := disp_spec hE _ s mem rfl
  unfold Solver.solveEquilibrium Solver.solveDisplacement at h
  rw [e1] at h
  have hs := eq_spec hE hI _ s1 0 s' true rfl h
  obtain ⟨d, hd, -⟩ := d1.moved
  have hp : s1.body.refPos = s.body.refPos + ⟨0, 0, d⟩ := hd.pos
  have hx : s'.body.refPos.x = 0 := by rw [hs.still.1, hp]; simp [h0.1]
  have hy : s'.body.refPos.y = 0 := by rw [hs.still.2, hp]; simp [h0.2]
  have hc := (hs.yes rfl).2 (by rw [d1.same.mass]; exact hm)
  have em : s'.mass = s.mass := hs.same.mass.trans d1.same.mass
  have et : s'.tol = s.tol := hs.same.tol.trans d1.same.tol
  refine ⟨⟨hc.wet, ?_⟩, hx, hy, fun B hB => ?_, fun L hL => ?_⟩
  · rw [abs_of_pos (show 0 < s'.mass * E.g by rw [em]; exact hm)]; exact hc.heave
  · have := hc.roll B hB
    rwa [hy, mul_zero, sub_zero, em, et] at this
  · have := hc.pitch L hL
    rwa [hx, mul_zero, add_zero, em, et] at this

/-- **C86, away from the origin (defect).** The centre of buoyancy is taken from the mesh, which follows the body vertically only, the centre of gravity from the world. For a body at the
transverse position `Y`, the answer yes means that the moment is near `rho g V Y`: beyond the tolerance the body found is not at equilibrium. -/
theorem C86_away_from_origin_wrong (E : Sea) (hE : E.Ready) (hI : ∀ q z, Indexed (E.clip q z)) (mem : ℝ) (s s' : Solver) (hm : 0 < s.mass * E.g)
    (h : s.solveEquilibrium E mem = some (s', true)) (B : ℝ) (hB : Extent (fun v => v.y) (IsVertex (E.mesh s'.body)) B) :
    |(netMoment E s').x - E.rho * E.g * wetVolume (E.mesh s'.body) * s.body.refPos.y| < s.tol * (s.mass * E.g * B) ∧
    (s.tol * B ≤ (1 - s.tol) * |s.body.refPos.y| → (netMoment E s').x ≠ 0) := by
  obtain ⟨s1, ok1, e1, d1⟩ := disp_spec hE _ s mem rfl
  unfold Solver.solveEquilibrium Solver.solveDisplacement at h
  rw [e1] at h
  have hs := eq_spec hE hI _ s1 0 s' true rfl h
  obtain ⟨d, hd, -⟩ := d1.moved
  have hp : s1.body.refPos = s.body.refPos + ⟨0, 0, d⟩ := hd.pos
  have hy : s'.body.refPos.y = s.body.refPos.y := by rw [hs.still.2, hp]; simp
  have hc := (hs.yes rfl).2 (by rw [d1.same.mass]; exact hm)
  have em : s'.mass = s.mass := hs.same.mass.trans d1.same.mass
  have et : s'.tol = s.tol := hs.same.tol.trans d1.same.tol
  have h1 := hc.roll B hB
  have h2 := hc.heave
  rw [em, et] at h1 h2
  rw [hy] at h1
  refine ⟨h1, fun hY h0 => ?_⟩
  rw [h0, zero_sub, abs_neg, abs_mul] at h1
  generalize E.rho * E.g * wetVolume (E.mesh s'.body) = F at *
  generalize s.mass * E.g = W at *
  have hY0 := abs_nonneg s.body.refPos.y
  generalize |s.body.refPos.y| = Y at *
  have h3 : (1 - s.tol) * W < |F| := by
    have := (abs_lt.mp h2).1
    have := le_abs_self F
    linarith
  nlinarith

/-- **C86, immersed bodies (defect).** When the mesh is wholly under water after the displacement (no boundary), the equilibrium reads an element that does not exist, whatever the rest. -/
theorem C86_immersed_wrong (E : Sea) (hE : E.Ready) (mem : ℝ) (s s1 : Solver) (ok : Bool) (h : s.solveDisplacement E mem = some (s1, ok))
    (hw : ∀ q, (E.clip q (s1.body.getPosition .NWU).z).loops = [] ∧ 1e-6 < wetVolume (E.clip q (s1.body.getPosition .NWU).z)) :
    s.solveEquilibrium E mem = none := by
  unfold Solver.solveEquilibrium
  rw [h]
  simp only []
  rw [Solver.equilibriumLoop]
  have hG : Good (E.mesh (s1.move 0)) := hE _ _
  obtain ⟨cs, h1, h2⟩ := hG.caps E.j
  have hz : ((s1.move 0).getPosition .NWU).z = (s1.body.getPosition .NWU).z := by
    show (s1.move 0).refPos.z = s1.body.refPos.z
    rw [move_same]; simp
  obtain ⟨w1, w2⟩ := hw (s1.move 0).getQuaternion
  rw [← hz] at w1 w2
  simp only [h1, volumeOf_eq hG h2 0]
  have w2' : ¬ volInt (fun _ => 1) 0 (E.mesh (s1.move 0)).closedUp ≤ 1e-6 := not_le.mpr w2
  rw [if_neg w2', C80_immersed_wrong E.j _ (E.mesh (s1.move 0)) w1]

/-! ## An example: a wall-sided hull -/

/-- The immersed part of a prism of draught `d`. -/
def prism (d : ℝ) : SMesh :=
  ⟨6, fun | 0 => ⟨1, 0, 0⟩ | 1 => ⟨0, 1, 0⟩ | 2 => 0 | 3 => ⟨1, 0, -d⟩ | 4 => ⟨0, 1, -d⟩ | 5 => ⟨0, 0, -d⟩ | _ => 0,
    [⟨1, 0, 3⟩, ⟨1, 3, 4⟩, ⟨2, 1, 4⟩, ⟨2, 4, 5⟩, ⟨0, 2, 5⟩, ⟨0, 5, 3⟩, ⟨4, 3, 5⟩], fun _ => 0, [[0, 1, 2, 0]]⟩
def emptyMesh : SMesh := ⟨0, fun _ => 0, [], fun _ => 0, []⟩
/-- The prism, its reference point 5 above its bottom, its attitude ignored; out of the water from the altitude 4.9 on. -/
def prismSea (j : List V3 → Junk) : Sea := ⟨1000, 10, fun _ z => if z < 4.9 then prism (5 - z) else emptyMesh, fun _ _ => 0, j⟩

theorem prism_rings (d : ℝ) (l : List V3) (hl : l ∈ (prism d).rings) : l = [(⟨1, 0, 0⟩ : V3), ⟨0, 1, 0⟩, 0, ⟨1, 0, 0⟩] := by
  simpa [SMesh.rings, prism] using hl
theorem prism_area (d : ℝ) (l : List V3) (hl : l ∈ (prism d).rings) : vectorArea l = ⟨0, 0, 1 / 2⟩ := by
  rw [prism_rings d l hl]
  simp only [vectorArea]
  ext <;> simp
theorem prism_good (d : ℝ) : Good (prism d) := by
  refine ⟨⟨?_, ?_⟩, ?_⟩
  · intro l hl
    simp only [prism, List.mem_singleton] at hl
    subst hl; rfl
  · have hp : ((prism d).edges.map Prod.swap).Perm (prism d).edges := by
      show ((([⟨1, 0, 3⟩, ⟨1, 3, 4⟩, ⟨2, 1, 4⟩, ⟨2, 4, 5⟩, ⟨0, 2, 5⟩, ⟨0, 5, 3⟩, ⟨4, 3, 5⟩] : List Clip.Face).flatMap faceEdges ++ [[0, 1, 2, 0]].flatMap loopEdges).map Prod.swap).Perm
        (([⟨1, 0, 3⟩, ⟨1, 3, 4⟩, ⟨2, 1, 4⟩, ⟨2, 4, 5⟩, ⟨0, 2, 5⟩, ⟨0, 5, 3⟩, ⟨4, 3, 5⟩] : List Clip.Face).flatMap faceEdges ++ [[0, 1, 2, 0]].flatMap loopEdges)
      decide
    intro a b
    have h1 := hp.count_eq (b, a)
    have h2 := List.count_map_of_injective (prism d).edges Prod.swap Prod.swap_injective (a, b)
    simp only [Prod.swap_prod_mk] at h2
    rw [← h2, h1]
  · intro l hl
    have hva := prism_area d l hl
    have := prism_rings d l hl
    subst this
    refine ⟨?_, ?_⟩
    · rw [hva]; intro h; have := congrArg V3.z h; norm_num at this
    · rw [hva]
      intro v hv
      unfold centroid
      simp only [sumPts, List.length_cons, List.length_nil]
      simp only [List.mem_cons, List.not_mem_nil, or_false] at hv
      rcases hv with rfl | rfl | rfl | rfl <;> simp [V3.dot]
theorem empty_good : Good emptyMesh := ⟨⟨by simp [emptyMesh], by simp [SMesh.edges, emptyMesh]⟩, by simp [SMesh.rings, emptyMesh]⟩
theorem prism_volume (d : ℝ) : wetVolume (prism d) = d / 2 := by
  unfold wetVolume
  have hc : (prism d).closedUp = (prism d).tris ++ [⟨⟨1, 0, 0⟩, ⟨0, 1, 0⟩, 0⟩, ⟨⟨1, 0, 0⟩, 0, ⟨1, 0, 0⟩⟩] := by
    unfold SMesh.closedUp SMesh.rings; rfl
  rw [hc]; unfold volInt SMesh.tris
  have e : tetInt (fun _ => 1) 0 = fun t => det 0 t / 6 := by funext t; rw [tetInt_one]
  rw [e, List.map_append, List.sum_append, List.map_map]
  simp [prism, det, Clip.triOf, V3.dot, Function.comp, Clip.Face.turned]
  ring
theorem prism_water (d : ℝ) : waterInt (fun _ => 1) (prism d) = 1 / 2 := by
  have : (prism d).rings = [[(⟨1, 0, 0⟩ : V3), ⟨0, 1, 0⟩, 0, ⟨1, 0, 0⟩]] := by simp [SMesh.rings, prism]
  unfold waterInt loopInt
  rw [this]
  simp only [flux_one, fan, fan.go, List.map_cons, List.map_nil, List.sum_cons, List.sum_nil, normalVec]
  simp
theorem prism_ready (j : List V3 → Junk) : (prismSea j).Ready := by
  intro q z
  show Good (if z < 4.9 then prism (5 - z) else emptyMesh)
  split_ifs
  · exact prism_good _
  · exact empty_good
theorem prism_indexed (j : List V3 → Junk) (q : Q) (z : ℝ) : Indexed ((prismSea j).clip q z) := by
  show Indexed (if z < 4.9 then prism (5 - z) else emptyMesh)
  split_ifs
  · refine ⟨fun f hf => ?_, fun l hl v hv => ?_⟩
    · simp only [prism, List.mem_cons, List.not_mem_nil, or_false] at hf
      rcases hf with rfl | rfl | rfl | rfl | rfl | rfl | rfl <;> simp [prism]
    · simp only [prism, List.mem_singleton] at hl
      subst hl
      simp only [List.mem_cons, List.not_mem_nil, or_false] at hv
      rcases hv with rfl | rfl | rfl | rfl <;> simp [prism]
  · exact ⟨by simp [emptyMesh], by simp [emptyMesh]⟩

/-- The hypotheses of C86 are met: the prism, of mass 1000, dropped at the altitude 4 (draught 1), is found to float at a draught near 2: ten steps of 0.1. -/
example (j : List V3 → Junk) :
    ∃ s', Solver.solveDisplacement (prismSea j) 0 { body := Body.new.setPosition ⟨0, 0, 4⟩ .NWU, mass := 1000, cog := 0 } = some (s', true) ∧ Afloat (prismSea j) s' := by
  have hz : ((Body.new.setPosition ⟨0, 0, 4⟩ .NWU).getPosition .NWU).z = 4 := by
    rw [setPosition_eq]
    show (Body.at _ _).refPos.z = 4
    rw [at_refPos]; rfl
  obtain ⟨s', h1, -, h2⟩ := C86_wall_sided (prismSea j) (prism_ready j) { body := Body.new.setPosition ⟨0, 0, 4⟩ .NWU, mass := 1000, cog := 0 }
    (by norm_num [prismSea]) (by norm_num [prismSea]) (by norm_num) (by norm_num) (5 / 2) (1 / 2) 3 2 4.5 (by norm_num) (by norm_num [prismSea]) (by norm_num) (by norm_num)
    (by simp only [hz]; norm_num)
    (by
      intro z h1 h2
      have e : (prismSea j).clip (Body.new.setPosition ⟨0, 0, 4⟩ .NWU).getQuaternion z = prism (5 - z) := if_pos (by linarith)
      simp only [e]
      refine ⟨fun l hl => ?_, fun l hl => ?_, prism_water _, ?_, by linarith⟩
      · unfold Horizontal; rw [prism_area _ l hl]; simp
      · unfold Outer; rw [prism_area _ l hl]; norm_num
      · rw [prism_volume]; ring)
    10 (by simp only [hz]; norm_num [abs_le]) (by norm_num)
  exact ⟨s', h1, h2⟩

/-! ## C87, the matrix -/

/-- **C87.** For a body whose reference point is on the vertical axis of the world, hull with outer loops only: the stiffness matrix given by the solver, at any reduction point given in NWU,
is that of the definitions (rows heave, roll, pitch), with the centre of gravity of the solver. -/
theorem C87_matrix_partial (E : Sea) (s : Solver) (hG : Good (E.mesh s.body)) (hl : (E.mesh s.body).loops ≠ []) (hh : AllHorizontal (E.mesh s.body)) (ho : AllOuter (E.mesh s.body))
    (hV : wetVolume (E.mesh s.body) ≠ 0) (h0 : s.body.refPos.x = 0 ∧ s.body.refPos.y = 0) (red : V3) :
    ∃ m, s.matrixAt E red .NWU = some m ∧ m.a01 = m.a10 ∧ m.a02 = m.a20 ∧ m.a12 = m.a21 ∧
      m.a00 = E.rho * E.g * waterInt (fun _ => 1) (E.mesh s.body) ∧
      m.a01 = E.rho * E.g * waterInt (fun v => (inWorld s.body v).y - red.y) (E.mesh s.body) ∧
      m.a02 = -(E.rho * E.g) * waterInt (fun v => (inWorld s.body v).x - red.x) (E.mesh s.body) ∧
      m.a12 = -(E.rho * E.g) * waterInt (fun v => ((inWorld s.body v).x - red.x) * ((inWorld s.body v).y - red.y)) (E.mesh s.body) ∧
      m.a11 = E.rho * E.g * (waterInt (fun v => ((inWorld s.body v).y - red.y) ^ 2) (E.mesh s.body) +
        wetVolume (E.mesh s.body) * ((buoyancyCentre E s.body).z - (s.body.pointInWorld s.cog .NWU).z)) ∧
      m.a22 = E.rho * E.g * (waterInt (fun v => ((inWorld s.body v).x - red.x) ^ 2) (E.mesh s.body) +
        wetVolume (E.mesh s.body) * ((buoyancyCentre E s.body).z - (s.body.pointInWorld s.cog .NWU).z)) := by
  obtain ⟨p, B, h1, h2, h3⟩ := C80_properties_partial E.j E.rho E.g (s.body.pointInWorld s.cog .NWU) red .NWU (E.mesh s.body) hG hl hh ho 0 hV
  have hB : B = (wetVolume (E.mesh s.body))⁻¹ • wetMoment (E.mesh s.body) := by
    rw [← h3.centre]; exact residual_moment hG h1 hV
  have hBz : (buoyancyCentre E s.body).z = B.z := by
    unfold buoyancyCentre inWorld; rw [hB]; simp
  have hx : ∀ v, (inWorld s.body v).x = v.x := by intro v; unfold inWorld; simp [h0.1]
  have hy : ∀ v, (inWorld s.body v).y = v.y := by intro v; unfold inWorld; simp [h0.2]
  have hs := h3.symm
  have hV' : wetVolume (E.mesh s.body) = volInt (fun _ => 1) 0 (E.mesh s.body).closedUp := rfl
  refine ⟨p.K.getMatrix, by unfold Solver.matrixAt; rw [h1]; rfl, ?_⟩
  rw [hBz]
  simp only [hx, hy, hV']
  rw [hV'] at hV
  have k44 := h3.K44
  have k55 := h3.K55
  rw [h3.heightT, h3.radiusT] at k44
  rw [h3.heightL, h3.radiusL] at k55
  refine ⟨rfl, rfl, rfl, h3.K33, h3.K34, h3.K35, h3.K45, k44.trans ?_, k55.trans ?_⟩
  all_goals
    generalize volInt (fun _ => 1) 0 (E.mesh s.body).closedUp = V at *
    simp only [conv]
    field_simp
    ring

/-- **C87, no reduction point.** Without reduction point the matrix is that about the centre of gravity `G` of the solver: with the waterplane of area `A`, the roll stiffness is `rho g (∫ (y - yG)² + V (zB - zG))`, the
pitch stiffness the same with `x`, and the couplings are the moments of the waterplane about `G`. -/
theorem C87_default_partial (E : Sea) (s : Solver) (hG : Good (E.mesh s.body)) (hl : (E.mesh s.body).loops ≠ []) (hh : AllHorizontal (E.mesh s.body)) (ho : AllOuter (E.mesh s.body))
    (hV : wetVolume (E.mesh s.body) ≠ 0) (h0 : s.body.refPos.x = 0 ∧ s.body.refPos.y = 0) (G : V3) (hGw : G = s.body.refPos + s.body.cog.rot.rotate s.cog) :
    ∃ m, s.matrix E = some m ∧ m.a01 = m.a10 ∧ m.a02 = m.a20 ∧ m.a12 = m.a21 ∧
      m.a00 = E.rho * E.g * waterInt (fun _ => 1) (E.mesh s.body) ∧
      m.a01 = E.rho * E.g * waterInt (fun v => (inWorld s.body v).y - G.y) (E.mesh s.body) ∧
      m.a02 = -(E.rho * E.g) * waterInt (fun v => (inWorld s.body v).x - G.x) (E.mesh s.body) ∧
      m.a12 = -(E.rho * E.g) * waterInt (fun v => ((inWorld s.body v).x - G.x) * ((inWorld s.body v).y - G.y)) (E.mesh s.body) ∧
      m.a11 = E.rho * E.g * (waterInt (fun v => ((inWorld s.body v).y - G.y) ^ 2) (E.mesh s.body) + wetVolume (E.mesh s.body) * ((buoyancyCentre E s.body).z - G.z)) ∧
      m.a22 = E.rho * E.g * (waterInt (fun v => ((inWorld s.body v).x - G.x) ^ 2) (E.mesh s.body) + wetVolume (E.mesh s.body) * ((buoyancyCentre E s.body).z - G.z)) := by
  have hp : G = s.body.pointInWorld s.cog .NWU := by rw [hGw]; rfl
  rw [hp]
  exact C87_matrix_partial E s hG hl hh ho hV h0 _

/-- **C87, away from the axis (defect).** With the reference point of the body at `(X, Y)` the waterplane is still taken about the axis: `K34` is off by `-rho g A Y`, `K35` by `rho g A X`. -/
theorem C87_away_from_origin_wrong (E : Sea) (s : Solver) (hG : Good (E.mesh s.body)) (hl : (E.mesh s.body).loops ≠ []) (hh : AllHorizontal (E.mesh s.body)) (ho : AllOuter (E.mesh s.body))
    (hV : wetVolume (E.mesh s.body) ≠ 0) (red : V3) :
    ∃ m, s.matrixAt E red .NWU = some m ∧
      m.a01 = E.rho * E.g * (waterInt (fun v => (inWorld s.body v).y - red.y) (E.mesh s.body) - s.body.refPos.y * waterInt (fun _ => 1) (E.mesh s.body)) ∧
      m.a02 = -(E.rho * E.g) * (waterInt (fun v => (inWorld s.body v).x - red.x) (E.mesh s.body) - s.body.refPos.x * waterInt (fun _ => 1) (E.mesh s.body)) := by
  obtain ⟨p, B, h1, h2, h3⟩ := C80_properties_partial E.j E.rho E.g (s.body.pointInWorld s.cog .NWU) red .NWU (E.mesh s.body) hG hl hh ho 0 hV
  obtain ⟨cs, L, k1, k2, k3, k4, -⟩ := caps_ready E.j hG hl hh
  refine ⟨p.K.getMatrix, by unfold Solver.matrixAt; rw [h1]; rfl, h3.K34.trans ?_, h3.K35.trans ?_⟩
  · obtain ⟨w1, w2, w3, w4, w5, -⟩ := waterInt_shift k3 ho red.x red.y
    obtain ⟨-, -, -, -, w5', -⟩ := waterInt_shift k3 ho red.x (red.y - s.body.refPos.y)
    have : (fun v : V3 => (inWorld s.body v).y - red.y) = fun v => v.y - (red.y - s.body.refPos.y) := by
      funext v; unfold inWorld; simp; ring
    rw [this, w5', w1]
    show _ * waterInt (fun v => v.y - red.y) _ = _
    rw [w5]; ring
  · obtain ⟨w1, w2, w3, w4, w5, -⟩ := waterInt_shift k3 ho red.x red.y
    obtain ⟨-, -, -, w4', -⟩ := waterInt_shift k3 ho (red.x - s.body.refPos.x) red.y
    have : (fun v : V3 => (inWorld s.body v).x - red.x) = fun v => v.x - (red.x - s.body.refPos.x) := by
      funext v; unfold inWorld; simp; ring
    rw [this, w4', w1]
    show _ * waterInt (fun v => v.x - red.x) _ = _
    rw [w4]; ring

/-- **C87, reduction point in NED (defect).** The centre of gravity, in NWU, is converted with the reduction point: the same point given in NED gives matrices whose roll and pitch stiffnesses
differ by `2 rho g V zG`. -/
theorem C87_ned_wrong (E : Sea) (s : Solver) (hG : Good (E.mesh s.body)) (hl : (E.mesh s.body).loops ≠ []) (hh : AllHorizontal (E.mesh s.body)) (ho : AllOuter (E.mesh s.body))
    (hV : wetVolume (E.mesh s.body) ≠ 0) (red : V3) :
    ∃ m m', s.matrixAt E red .NWU = some m ∧ s.matrixAt E (conv .NED red) .NED = some m' ∧
      m'.a11 - m.a11 = 2 * E.rho * E.g * wetVolume (E.mesh s.body) * (s.body.pointInWorld s.cog .NWU).z ∧
      m'.a22 - m.a22 = 2 * E.rho * E.g * wetVolume (E.mesh s.body) * (s.body.pointInWorld s.cog .NWU).z := by
  obtain ⟨p, B, h1, h2, h3⟩ := C80_properties_partial E.j E.rho E.g (s.body.pointInWorld s.cog .NWU) red .NWU (E.mesh s.body) hG hl hh ho 0 hV
  obtain ⟨p', B', h1', h2', h3'⟩ := C80_properties_partial E.j E.rho E.g (s.body.pointInWorld s.cog .NWU) (conv .NED red) .NED (E.mesh s.body) hG hl hh ho 0 hV
  refine ⟨p.K.getMatrix, p'.K.getMatrix, by unfold Solver.matrixAt; rw [h1]; rfl, by unfold Solver.matrixAt; rw [h1']; rfl, ?_, ?_⟩
  all_goals rw [conv_conv] at h3'
  all_goals have hBB : B' = B := by rw [← h3.centre, ← h3'.centre, residual_moment hG h1 hV, residual_moment hG h1' hV]
  · have e1 : p.K.getMatrix.a11 = _ := h3.K44
    have e2 : p'.K.getMatrix.a11 = _ := h3'.K44
    rw [e1, e2, h3.heightT, h3'.heightT, h3.radiusT, h3'.radiusT, hBB]
    show _ = 2 * E.rho * E.g * volInt (fun _ => 1) 0 (E.mesh s.body).closedUp * _
    simp only [conv, swap]
    ring
  · have e1 : p.K.getMatrix.a22 = _ := h3.K55
    have e2 : p'.K.getMatrix.a22 = _ := h3'.K55
    rw [e1, e2, h3.heightL, h3'.heightL, h3.radiusL, h3'.radiusL, hBB]
    show _ = 2 * E.rho * E.g * volInt (fun _ => 1) 0 (E.mesh s.body).closedUp * _
    simp only [conv, swap]
    ring

end Frydom.Hydro
