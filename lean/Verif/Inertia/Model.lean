import Verif.Geom.Props

/-!
# Model of `FrInertiaTensor` (core/body/FrInertiaTensor.{h,cpp})

Paths relative to `src/frydom/core/body`.
-/

noncomputable section

namespace Frydom.Inertia
open Geom

instance : Add M3 := ⟨fun m n => ⟨m.a00 + n.a00, m.a01 + n.a01, m.a02 + n.a02, m.a10 + n.a10, m.a11 + n.a11, m.a12 + n.a12,
  m.a20 + n.a20, m.a21 + n.a21, m.a22 + n.a22⟩⟩
instance : Sub M3 := ⟨fun m n => ⟨m.a00 - n.a00, m.a01 - n.a01, m.a02 - n.a02, m.a10 - n.a10, m.a11 - n.a11, m.a12 - n.a12,
  m.a20 - n.a20, m.a21 - n.a21, m.a22 - n.a22⟩⟩
instance : Zero M3 := ⟨⟨0, 0, 0, 0, 0, 0, 0, 0, 0⟩⟩

/-- The six coefficients passed to and read from the class. -/
@[ext] structure Coeffs where
  Ixx : ℝ
  Iyy : ℝ
  Izz : ℝ
  Ixy : ℝ
  Ixz : ℝ
  Iyz : ℝ

/-- `FrInertiaTensor` (FrInertiaTensor.h, fields m_mass, m_cogPosition, m_inertiaAtCOG; NWU). -/
@[ext] structure Tensor where
  mass : ℝ
  cog : V3
  I : M3

/-- `internal::SwapInertiaFrameConvention` on coefficients (FrInertiaTensor.h:118-122). -/
def swapCoeffs (c : Coeffs) : Coeffs := { c with Ixy := -c.Ixy, Ixz := -c.Ixz }
def convCoeffs (fc : FC) (c : Coeffs) : Coeffs := match fc with | .NWU => c | .NED => swapCoeffs c
/-- `internal::SwapInertiaFrameConvention` on matrices (FrInertiaTensor.h:125-132). -/
def swapMat (m : M3) : M3 := { m with a01 := -m.a01, a02 := -m.a02, a10 := -m.a10, a20 := -m.a20 }
def convMat (fc : FC) (m : M3) : M3 := match fc with | .NWU => m | .NED => swapMat m

/-- `m << Ixx, Ixy, Ixz, Ixy, Iyy, Iyz, Ixz, Iyz, Izz` (FrInertiaTensor.cpp:37-39, 52-54, 236-238). -/
def matOfCoeffs (c : Coeffs) : M3 := ⟨c.Ixx, c.Ixy, c.Ixz, c.Ixy, c.Iyy, c.Iyz, c.Ixz, c.Iyz, c.Izz⟩
/-- `SplitMatrix33IntoCoeffs(m, Ixx, Ixy, Ixz, Ixy, Iyy, Iyz, Ixz, Iyz, Izz)` (math/FrMatrix.cpp:19-31): each off-diagonal
reference is written twice, the lower-triangle write comes last. -/
def coeffsOfMat (m : M3) : Coeffs := ⟨m.a00, m.a11, m.a22, m.a10, m.a20, m.a21⟩

/-- `GetPointMassInertiaMatrix` (FrInertiaTensor.cpp:108-127). -/
def pointMass (mass : ℝ) (p : V3) : M3 :=
  ⟨(p.y * p.y + p.z * p.z) * mass, -(p.x * p.y) * mass, -(p.x * p.z) * mass,
   -(p.x * p.y) * mass, (p.x * p.x + p.z * p.z) * mass, -(p.y * p.z) * mass,
   -(p.x * p.z) * mass, -(p.y * p.z) * mass, (p.x * p.x + p.y * p.y) * mass⟩

namespace Tensor

/-- Constructor from coefficients at a frame (FrInertiaTensor.cpp:22-47). -/
def ofFrame (mass : ℝ) (c : Coeffs) (frame : Frame) (cog : V3) (fc : FC) : Tensor :=
  let cog' := conv fc cog
  let R := rotMat frame.rot
  let PG := cog' - frame.getPosition .NWU
  ⟨mass, cog', (R.mul (matOfCoeffs (convCoeffs fc c))).mul R.transpose - pointMass mass PG⟩

/-- Constructor from coefficients at COG (FrInertiaTensor.cpp:49-61): only the position is converted. -/
def ofCOG (mass : ℝ) (c : Coeffs) (cog : V3) (fc : FC) : Tensor := ⟨mass, conv fc cog, matOfCoeffs c⟩

/-- `GetCOGPosition` (FrInertiaTensor.cpp:73-77). -/
def getCOG (t : Tensor) (fc : FC) : V3 := conv fc t.cog
/-- `GetInertiaCoeffsAtCOG` (FrInertiaTensor.cpp:79-85). -/
def coeffsAtCOG (t : Tensor) (fc : FC) : Coeffs := convCoeffs fc (coeffsOfMat t.I)
/-- `GetInertiaCoeffsAtFrame` (FrInertiaTensor.cpp:87-106). -/
def coeffsAtFrame (t : Tensor) (frame : Frame) (fc : FC) : Coeffs :=
  let R := invRotMat frame.rot
  let PG := t.cog - frame.getPosition .NWU
  convCoeffs fc (coeffsOfMat ((R.mul (t.I + pointMass t.mass PG)).mul R.transpose))
/-- `GetInertiaMatrixAtFrame` (FrInertiaTensor.cpp:229-241). -/
def matAtFrame (t : Tensor) (frame : Frame) (fc : FC) : M3 := matOfCoeffs (t.coeffsAtFrame frame fc)
/-- `GetInertiaMatrixAtCOG` (FrInertiaTensor.cpp:243-249). -/
def matAtCOG (t : Tensor) (fc : FC) : M3 := convMat fc t.I
/-- `SetInertiaTensorAtCOG` (FrInertiaTensor.cpp:251-258): `fc` is ignored. -/
def setAtCOG (mass : ℝ) (m : M3) (cog : V3) (_ : FC) : Tensor := ⟨mass, cog, m⟩
/-- `SetInertiaTensorAtFrame` (FrInertiaTensor.cpp:260-282). -/
def setAtFrame (mass : ℝ) (m : M3) (frame : Frame) (cog : V3) (fc : FC) : Tensor :=
  let cog' := conv fc cog
  let R := rotMat frame.rot
  ⟨mass, cog', (R.mul (convMat fc m)).mul R.transpose - pointMass mass (cog' - frame.getPosition .NWU)⟩

/-- `Add(tensor, frame2Toframe1)` (FrInertiaTensor.cpp:189-227); the const overload (164-187) copies first. -/
def add (t1 t2 : Tensor) (F : Frame) : Tensor :=
  let newMass := t1.mass + t2.mass
  let newCOG := (1 / newMass) • (t1.mass • t1.cog + t2.mass • F.pointInParent t2.cog .NWU)
  let tmp := F.inv.translateInFrame newCOG .NWU
  let m2 := t2.matAtFrame tmp .NWU
  let tmp' := tmp.setNoRotation.setPosition newCOG .NWU
  let m := m2 + t1.matAtFrame tmp' .NWU
  setAtCOG newMass m newCOG .NWU

end Tensor

end Frydom.Inertia
