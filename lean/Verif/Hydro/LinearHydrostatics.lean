import Verif.Hydro.EqFrame
import Verif.Hydro.Hydrostatics
import Verif.Core.MassBody

/-!
# Linear hydrostatic force (C83)

`src/frydom/hydrodynamics/hydrostatic/FrLinearHydrostaticForce.cpp`.
-/

open Classical

noncomputable section

namespace Frydom.Hydro
open Frydom.Geom Frydom.Core Frydom.Env Frydom.Mesh Frydom.Mesh.Clip Frydom.Mesh.Surface

/-- `FrLinearHydrostaticForce::Compute` (FrLinearHydrostaticForce.cpp:42-72). -/
def linearHydrostatic (junk g : ℝ) (K : Stiffness) (e : EqFrame) (m : MassBody) (f : Force) : Force :=
  let d := e.perturbation
  let a := getCardan junk .NWU d.rot
  let s : V3 := ⟨(d.getPosition .NWU).z, a.roll, a.pitch⟩
  let q := -(K.mul s)
  let f := f.setForceInWorldAtCOG ⟨0, 0, q.x + g * m.getMass⟩ .NWU
  f.setTorqueInBodyAtCOG ⟨q.y, q.z, 0⟩ .NWU

/-- `SetStiffnessMatrix(FrLinearHydrostaticStiffnessMatrix)` (FrLinearHydrostaticForce.cpp:78-83), `GetStiffnessMatrix` (76-78). -/
def setStiffness (_ : Stiffness) (k : Stiffness) : Stiffness := k
/-- `SetStiffnessMatrix(MatrixMN)` (FrLinearHydrostaticForce.cpp:85-95). -/
def setStiffnessMatrix (k : Stiffness) (m : M3) : Stiffness :=
  (((((k.setK33 m.a00).setK44 m.a11).setK55 m.a22).setK34 m.a01).setK35 m.a02).setK45 m.a12

/-! ## Specification -/

/-- The body is displaced from the equilibrium frame: by `d` (axes of the frame), then turned by yaw, pitch and roll (`a`, NWU). -/
def Displaced (e : EqFrame) (d : V3) (a : Cardan) : Prop := e.node.frameInWorld = e.getFrame.mul ⟨d, setCardan .NWU a⟩

/-! ## C83 -/

theorem perturbation_of (e : EqFrame) (hu : e.frame.rot.IsUnit) (d : V3) (a : Cardan) (h : Displaced e d a) :
    e.perturbation = ⟨d, setCardan .NWU a⟩ := by
  unfold EqFrame.perturbation
  rw [h]
  refine Frame.ext ?_ ?_
  · show -(e.frame.rot.conj.rotate e.frame.pos) + e.frame.rot.conj.rotate (e.frame.pos + e.frame.rot.rotate d) = d
    rw [Q.rotate_add, Q.rotate_conj hu]
    ext <;> simp
  · show e.frame.rot.conj.mul (e.frame.rot.mul (setCardan .NWU a)) = _
    rw [← Q.mul_assoc, Q.conj_mul hu, Q.one_mul]

theorem load_at_cog (f : Force) (b : Body) (h : Placed b) (w t : V3) :
    IsLoad ((f.setForceInWorldAtCOG w .NWU).setTorqueInBodyAtCOG t .NWU) b .NWU w (b.toWorld t .NWU) (b.cogPositionInWorld .NWU) := by
  have _ := h
  exact ⟨rfl, fun a => rfl⟩

/-- **C83, load.** For every displacement of a body from its equilibrium frame (heave `d.z`, roll and pitch `a` within the range of the Cardan
angles, any surge, sway and yaw), stiffness, mass and previous load: the load is, at the centre of gravity, the vertical force balancing the weight plus
the heave row of minus the stiffness times (heave, roll, pitch), and the couple of the two other rows about the roll and pitch axes of the body. -/
theorem C83_load_partial (junk g K33 K34 K35 K44 K45 K55 : ℝ) (k0 : Stiffness) (e : EqFrame) (hu : e.frame.rot.IsUnit) (m : MassBody) (h : Placed m.body) (f : Force)
    (d : V3) (a : Cardan) (ha : InRange .NWU a) (hd : Displaced e d a) :
    IsLoad (linearHydrostatic junk g (setStiffnessMatrix k0 ⟨K33, K34, K35, K34, K44, K45, K35, K45, K55⟩) e m f) m.body .NWU
      ⟨0, 0, m.getMass * g - (K33 * d.z + K34 * a.roll + K35 * a.pitch)⟩
      (m.body.toWorld ⟨-(K34 * d.z + K44 * a.roll + K45 * a.pitch), -(K35 * d.z + K45 * a.roll + K55 * a.pitch), 0⟩ .NWU)
      (m.body.cogPositionInWorld .NWU) := by
  have hp := perturbation_of e hu d a hd
  have hc := (C13_round_trip_angles junk .NWU a ha).2
  unfold linearHydrostatic
  simp only []
  rw [hp]
  simp only [hc]
  have key : IsLoad ((f.setForceInWorldAtCOG ⟨0, 0, m.getMass * g - (K33 * d.z + K34 * a.roll + K35 * a.pitch)⟩ .NWU).setTorqueInBodyAtCOG
      ⟨-(K34 * d.z + K44 * a.roll + K45 * a.pitch), -(K35 * d.z + K45 * a.roll + K55 * a.pitch), 0⟩ .NWU) m.body .NWU
      ⟨0, 0, m.getMass * g - (K33 * d.z + K34 * a.roll + K35 * a.pitch)⟩
      (m.body.toWorld ⟨-(K34 * d.z + K44 * a.roll + K45 * a.pitch), -(K35 * d.z + K45 * a.roll + K55 * a.pitch), 0⟩ .NWU)
      (m.body.cogPositionInWorld .NWU) := load_at_cog f m.body h _ _
  have hq : -((setStiffnessMatrix k0 ⟨K33, K34, K35, K34, K44, K45, K35, K45, K55⟩).mul ⟨((⟨d, setCardan .NWU a⟩ : Frame).getPosition .NWU).z, a.roll, a.pitch⟩) =
      ⟨-(K33 * d.z + K34 * a.roll + K35 * a.pitch), -(K34 * d.z + K44 * a.roll + K45 * a.pitch), -(K35 * d.z + K45 * a.roll + K55 * a.pitch)⟩ := by
    ext <;> simp [Stiffness.mul, setStiffnessMatrix, Stiffness.setK33, Stiffness.setK44, Stiffness.setK55, Stiffness.setK34, Stiffness.setK35,
      Stiffness.setK45, M3.mulVec, Frame.getPosition, conv] <;> ring
  rw [hq]
  simp only []
  rw [show -(K33 * d.z + K34 * a.roll + K35 * a.pitch) + g * m.getMass = m.getMass * g - (K33 * d.z + K34 * a.roll + K35 * a.pitch) by ring]
  exact key

theorem setCardan_zero : setCardan .NWU ⟨0, 0, 0⟩ = Q.one := by
  ext <;> simp [setCardan, convAngles, eulerToQuat, Q.one]

/-- **C83, equilibrium.** For a body where its equilibrium frame was made, the load balances the weight exactly: opposite force at the
centre of gravity, no moment, whatever the stiffness and the heel of the body. -/
theorem C83_equilibrium (junk junk' g : ℝ) (K : M3) (k0 : Stiffness) (hK : K.transpose = K) (m : MassBody) (h : Placed m.body) (hh : HasHeading m.body)
    (p : V3) (rot : ℝ) (fc : FC) (f : Force) :
    IsLoad (linearHydrostatic junk g (setStiffnessMatrix k0 K) (EqFrame.new junk' m.body p rot fc) m f) m.body .NWU ⟨0, 0, m.getMass * g⟩ 0
      (m.body.cogPositionInWorld .NWU) := by
  obtain ⟨hp, hl, -, hn, hat, -⟩ := C81_construction junk' m.body h hh p rot fc
  have hd : Displaced (EqFrame.new junk' m.body p rot fc) 0 ⟨0, 0, 0⟩ := by
    generalize EqFrame.new junk' m.body p rot fc = e at *
    have hn' : e.frame.inv.mul e.node.frameInWorld = Frame.identity := hn
    unfold Displaced
    rw [setCardan_zero]
    have h1 := congrArg Frame.pos hn'
    have h2 := congrArg Frame.rot hn'
    have h1' : -(e.frame.rot.conj.rotate e.frame.pos) + e.frame.rot.conj.rotate e.node.frameInWorld.pos = 0 := h1
    have h2' : e.frame.rot.conj.mul e.node.frameInWorld.rot = Q.one := h2
    have hu : e.frame.rot.IsUnit := hl.1
    refine Frame.ext ?_ ?_
    · have h3 : e.frame.rot.rotate (e.frame.rot.conj.rotate e.node.frameInWorld.pos) = e.frame.rot.rotate (e.frame.rot.conj.rotate e.frame.pos) := by
        congr 1
        have hx := congrArg V3.x h1'
        have hy := congrArg V3.y h1'
        have hz := congrArg V3.z h1'
        simp only [V3.add_x, V3.add_y, V3.add_z, V3.neg_x, V3.neg_y, V3.neg_z, V3.zero_x, V3.zero_y, V3.zero_z] at hx hy hz
        ext <;> linarith
      rw [Q.rotate_conj' hu, Q.rotate_conj' hu] at h3
      rw [h3]
      show e.frame.pos = e.frame.pos + e.frame.rot.rotate 0
      ext <;> simp [Q.rotate, M3.mulVec]
    · have h4 : e.frame.rot.mul (e.frame.rot.conj.mul e.node.frameInWorld.rot) = e.frame.rot.mul Q.one := by rw [h2']
      rw [← Q.mul_assoc, Q.mul_conj hu, Q.one_mul] at h4
      exact h4
  have hpi := Real.pi_pos
  have hr : InRange .NWU ⟨0, 0, 0⟩ := ⟨by simp [hpi], by simp [hpi.le], by simp [hpi], by simp [hpi], ⟨by simp [hpi], by simp [hpi.le]⟩⟩
  obtain ⟨k00, k01, k02, k10, k11, k12, k20, k21, k22⟩ := K
  simp only [M3.transpose, M3.mk.injEq] at hK
  obtain ⟨-, e1, e2, -, -, e3, -, -, -⟩ := hK
  subst e1 e2 e3
  have key := C83_load_partial junk g k00 k10 k20 k11 k21 k22 k0 (EqFrame.new junk' m.body p rot fc) hl.1 m h f 0 ⟨0, 0, 0⟩ hr hd
  have e1 : (⟨0, 0, m.getMass * g - (k00 * (0 : V3).z + k10 * 0 + k20 * 0)⟩ : V3) = ⟨0, 0, m.getMass * g⟩ := by
    ext <;> simp
  have e2 : m.body.toWorld ⟨-(k10 * (0 : V3).z + k11 * 0 + k21 * 0), -(k20 * (0 : V3).z + k21 * 0 + k22 * 0), 0⟩ .NWU = 0 := by
    show conv .NWU (m.body.cog.rot.rotate (conv .NWU _)) = 0
    ext <;> simp [conv, Q.rotate, M3.mulVec]
  rw [e1, e2] at key
  exact key

/-- **C83, stiffness.** A symmetric matrix given is the matrix read; the matrix of the entries is always symmetric; entries are those set. -/
theorem C83_stiffness (k : Stiffness) (m : M3) (hm : m.transpose = m) :
    (setStiffnessMatrix k m).getMatrix = m ∧ (setStiffnessMatrix k m) = m ∧
    ∀ (k : Stiffness) (a b c d e f : ℝ), ((k.setDiagonal a b c).setNonDiagonal d e f).getMatrix = ⟨a, d, e, d, b, f, e, f, c⟩ ∧
      k.getMatrix.transpose = k.getMatrix := by
  obtain ⟨k00, k01, k02, k10, k11, k12, k20, k21, k22⟩ := m
  simp only [M3.transpose, M3.mk.injEq] at hm
  obtain ⟨-, e1, e2, -, -, e3, -, -, -⟩ := hm
  subst e1 e2 e3
  exact ⟨rfl, rfl, fun _ _ _ _ _ _ _ => ⟨rfl, rfl⟩⟩

/-- **C83, other setters.** A stiffness given as an object is the one used. Defect: `SetData` keeps an asymmetric matrix as it is: the load uses it while the matrix and the coefficients read back are the symmetric ones of its upper triangle; they are the same
matrix exactly when it was symmetric. -/
theorem C83_data (k0 k : Stiffness) (m : M3) (v : V3) :
    setStiffness k0 k = k ∧ (k.setData m).mul v = m.mulVec v ∧ (k.setData m).getMatrix.transpose = (k.setData m).getMatrix ∧
    ((k.setData m).getMatrix = m ↔ m.transpose = m) ∧
    ((∀ u, (k.setData m).mul u = (k.setData m).getMatrix.mulVec u) ↔ m.transpose = m) := by
  have e : (k.setData m).getMatrix = m ↔ m.transpose = m := by
    obtain ⟨k00, k01, k02, k10, k11, k12, k20, k21, k22⟩ := m
    simp only [Stiffness.setData, Stiffness.getMatrix, Stiffness.getK33, Stiffness.getK34, Stiffness.getK35, Stiffness.getK44, Stiffness.getK45, Stiffness.getK55, M3.transpose, M3.mk.injEq, true_and, and_true]
    constructor
    · rintro ⟨h1, h2, h3⟩; simp [h1, h2, h3]
    · rintro ⟨h1, h2, h3, h4, -⟩; exact ⟨h3, by simp_all, by simp_all⟩
  refine ⟨rfl, rfl, rfl, e, ?_⟩
  rw [← e]
  constructor
  · intro h
    have h1 := h ⟨1, 0, 0⟩
    have h2 := h ⟨0, 1, 0⟩
    have h3 := h ⟨0, 0, 1⟩
    change m.mulVec _ = _ at h1
    change m.mulVec _ = _ at h2
    change m.mulVec _ = _ at h3
    generalize (k.setData m).getMatrix = B at *
    simp [M3.mulVec] at h1 h2 h3
    cases m; cases B
    simp_all
  · intro h u
    rw [h]; rfl

/-- A heaving and rolling body: 1 m up and 0.1 rad of roll. -/
example (b : Body) (junk : ℝ) (h : Placed b) (hh : HasHeading b) : ∃ (b' : Body) (e : EqFrame), Placed b' ∧ e.frame.rot.IsUnit ∧ Attached b' e.node ∧
    Displaced e ⟨0, 0, 1⟩ ⟨0.1, 0, 0⟩ ∧ InRange .NWU ⟨0.1, 0, 0⟩ := by
  have hl := (C81_construction junk b h hh 0 0 .NWU).level
  set e0 := EqFrame.new junk b 0 0 .NWU
  refine ⟨b, { e0 with node := e0.node.setFrameInWorld b (e0.frame.mul ⟨⟨0, 0, 1⟩, setCardan .NWU ⟨0.1, 0, 0⟩⟩) }, h, hl.1, ?_, ?_, ?_⟩
  · exact setFrameInWorld_attached _ b h _ (hl.1.mul (eulerToQuat_unit _ _ _))
  · exact setFrameInWorld_abs _ b h _
  · have := Real.pi_gt_three
    exact ⟨by norm_num; linarith, by norm_num; linarith, by simp; linarith, by simp; linarith, by simp; linarith, by simp; linarith⟩

/-- **C83, stiffness from a mesh (defect).** The maker with a mesh takes the stiffness at the origin of the body (reduction point 0) but the load is
applied at the centre of gravity `G`: the heave-roll and heave-pitch terms are off by the water plane area times the position of `G`. -/
theorem C83_reduction_wrong (j : List V3 → Junk) (rho g : ℝ) (cog : V3) (M : SMesh) (h : Good M) (hl : M.loops ≠ []) (hh : AllHorizontal M)
    (ho : AllOuter M) (O : V3) (hV : volInt (fun _ => 1) O M.closedUp ≠ 0) :
    ∃ p q, (Props.new rho g cog 0 .NWU).compute j M = some p ∧ (Props.new rho g cog cog .NWU).compute j M = some q ∧
      p.K.getK34 = q.K.getK34 + rho * g * waterInt (fun _ => 1) M * cog.y ∧
      p.K.getK35 = q.K.getK35 - rho * g * waterInt (fun _ => 1) M * cog.x := by
  obtain ⟨p, B, h1, -, h2⟩ := C80_properties_partial j rho g cog 0 .NWU M h hl hh ho O hV
  obtain ⟨q, B', h3, -, h4⟩ := C80_properties_partial j rho g cog cog .NWU M h hl hh ho O hV
  obtain ⟨cs, L, -, -, h5, -, -⟩ := caps_ready j h hl hh
  obtain ⟨w1, -, -, w4, w5, -⟩ := waterInt_shift h5 ho 0 0
  obtain ⟨-, -, -, v4, v5, -⟩ := waterInt_shift h5 ho cog.x cog.y
  have z : (conv FC.NWU (0 : V3)) = 0 := rfl
  have c : conv FC.NWU cog = cog := rfl
  refine ⟨p, q, h1, h3, ?_, ?_⟩
  · rw [h2.K34, h4.K34, z, c, w1, v5]
    simp only [V3.zero_y]
    rw [w5]; ring
  · rw [h2.K35, h4.K35, z, c, w1, v4]
    simp only [V3.zero_x]
    rw [w4]; ring

end Frydom.Hydro
