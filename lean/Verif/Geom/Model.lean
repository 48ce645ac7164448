import Verif.Geom.Basic

/-!
# Model of FRyDoM's rotations, frames and torsors

Paths are relative to `src/frydom/core`. Internally everything is stored in NWU; the `FRAME_CONVENTION` argument says in
which convention the caller's vectors are given or expected.
-/

open Classical

noncomputable section

namespace Frydom.Geom

/-- `FRAME_CONVENTION` (common/FrConvention.h:23-26). -/
inductive FC where
  | NWU
  | NED
  deriving DecidableEq

/-- `internal::SwapFrameConvention` (math/FrVector.h:700-713), `SwapCoordinateConvention` (math/FrVector.h:726-729). -/
def swap (v : V3) : V3 := ⟨v.x, -v.y, -v.z⟩

/-- The pervasive `if (IsNED(fc)) internal::SwapFrameConvention(v)`. -/
def conv (fc : FC) (v : V3) : V3 :=
  match fc with
  | .NWU => v
  | .NED => swap v

/-- `internal::SwapChQuaternionFrameConvention`, `SwapQuaternionElementsFrameConvention` (common/FrRotation.h:639-655). -/
def swapQ (q : Q) : Q := ⟨q.e0, q.e1, -q.e2, -q.e3⟩

/-- `if (IsNED(fc)) SwapQuaternion…`. -/
def convQ (fc : FC) (q : Q) : Q :=
  match fc with
  | .NWU => q
  | .NED => swapQ q

/-! ## FrUnitQuaternion / FrRotation -/

/-- `FrUnitQuaternion(q0,q1,q2,q3,fc)` (common/FrRotation.cpp:44-57, `non_normalized = false`): asserts that the norm is
1 (exactly, here); `none` is the failed assertion. -/
def quatSet (q : Q) (fc : FC) : Option Q := if (convQ fc q).IsUnit then some (convQ fc q) else none

/-- `FrUnitQuaternion::Get(q0,q1,q2,q3,fc)` (common/FrRotation.cpp:96-104). -/
def quatGet (q : Q) (fc : FC) : Q := convQ fc q

/-- `FrUnitQuaternion::Set(axis, angle, fc)` (common/FrRotation.cpp:64-70), `FrRotation(axis, angle, fc)`
(common/FrRotation.cpp:246-247). -/
def quatOfAxisAngle (axis : V3) (angle : ℝ) (fc : FC) : Q := Q.ofAngAxis angle (conv fc axis)

/-- `Rotate<Vector>(vector, fc)` (common/FrRotation.h:199-213, 569-574). -/
def rotate (q : Q) (fc : FC) (v : V3) : V3 := conv fc (q.rotate (conv fc v))

/-- `operator*` (common/FrRotation.cpp:139-151, 400-402). -/
def quatMul (p q : Q) : Q := p.mul q

/-- `Inverse`/`GetInverse` (common/FrRotation.cpp:171-180). -/
def quatInv (q : Q) : Q := q.conj

/-- `GetXAxis`, `GetYAxis`, `GetZAxis` (common/FrRotation.cpp:113-132, 478-488). -/
def getXAxis (q : Q) (fc : FC) : V3 := (convQ fc q).xAxis
def getYAxis (q : Q) (fc : FC) : V3 := (convQ fc q).yAxis
def getZAxis (q : Q) (fc : FC) : V3 := (convQ fc q).zAxis

/-- `GetRotationMatrix` (common/FrRotation.cpp:198-202), NWU. -/
def rotMat (q : Q) : M3 := q.toMat
/-- `GetInverseRotationMatrix` (common/FrRotation.cpp:204-208); `ChQuaternion::GetInverse` is conjugate over squared
norm. -/
def invRotMat (q : Q) : M3 :=
  (⟨q.e0 / q.normSq, -q.e1 / q.normSq, -q.e2 / q.normSq, -q.e3 / q.normSq⟩ : Q).toMat

/-- `ChMatrix33::Get_A_quaternion` (external, formulas of Chrono). -/
def matToQuat (m : M3) : Q :=
  let tr := m.a00 + m.a11 + m.a22
  if 0 ≤ tr then
    let r := Real.sqrt (tr + 1)
    let s := 0.5 / r
    ⟨0.5 * r, (m.a21 - m.a12) * s, (m.a02 - m.a20) * s, (m.a10 - m.a01) * s⟩
  else if (if m.a00 < m.a11 then m.a11 else m.a00) < m.a22 then
    let r := Real.sqrt (m.a22 - m.a00 - m.a11 + 1)
    let s := 0.5 / r
    ⟨(m.a10 - m.a01) * s, (m.a20 + m.a02) * s, (m.a12 + m.a21) * s, 0.5 * r⟩
  else if m.a00 < m.a11 then
    let r := Real.sqrt (m.a11 - m.a22 - m.a00 + 1)
    let s := 0.5 / r
    ⟨(m.a02 - m.a20) * s, (m.a01 + m.a10) * s, 0.5 * r, (m.a12 + m.a21) * s⟩
  else
    let r := Real.sqrt (m.a00 - m.a11 - m.a22 + 1)
    let s := 0.5 / r
    ⟨(m.a21 - m.a12) * s, 0.5 * r, (m.a01 + m.a10) * s, (m.a20 + m.a02) * s⟩

/-- `FrUnitQuaternion::Set(matrix, fc)` (common/FrRotation.cpp:72-77). -/
def quatOfMat (m : M3) (fc : FC) : Q := convQ fc (matToQuat m)

/-- `FrRotation::Set(xaxis, yaxis, zaxis, fc)` (common/FrRotation.cpp:308-325); `none` is a failed assertion
(orthogonality and unit length taken exactly; the C++ has a small tolerance). -/
def rotOfAxes (x y z : V3) (fc : FC) : Option Q :=
  if V3.dot x y = 0 ∧ V3.dot x z = 0 ∧ V3.dot y z = 0 ∧ V3.dot x x = 1 ∧ V3.dot y y = 1 ∧ V3.dot z z = 1 then
    some (quatOfMat (M3.ofCols x y z) fc)
  else none

/-- `internal::euler_to_quat` with `eul2quat_xyz` (math/FrEulerAngles.inl:213-296), radians, CARDAN/XYZ. -/
def eulerToQuat (phi theta psi : ℝ) : Q :=
  let cf := Real.cos (phi * 0.5)
  let sf := Real.sin (phi * 0.5)
  let ct := Real.cos (theta * 0.5)
  let st := Real.sin (theta * 0.5)
  let cp := Real.cos (psi * 0.5)
  let sp := Real.sin (psi * 0.5)
  ⟨cf * ct * cp + sf * st * sp, -cf * st * sp + ct * cp * sf, cf * cp * st + sf * ct * sp, cf * ct * sp - sf * cp * st⟩

/-- `internal::euler_to_mat` with `eul2mat_xyz` (math/FrEulerAngles.inl:195-209). -/
def eulerToMat (phi theta psi : ℝ) : M3 :=
  let cf := Real.cos phi
  let sf := Real.sin phi
  let ct := Real.cos theta
  let st := Real.sin theta
  let cp := Real.cos psi
  let sp := Real.sin psi
  ⟨ct * cp, sf * st * cp - cf * sp, cf * st * cp + sf * sp,
   ct * sp, sf * st * sp + cf * cp, cf * st * sp - sf * cp,
   -st, ct * sf, ct * cf⟩

/-- C's `atan2(y, x)`, values in (-π, π]. -/
def atan2 (y x : ℝ) : ℝ := Complex.arg ⟨x, y⟩

/-- Three angles. -/
@[ext] structure Cardan where
  roll : ℝ
  pitch : ℝ
  yaw : ℝ

/-- `mat2eul_xyz` (math/FrEulerAngles.inl:364-390). In the branch `r20 ≥ 1` the roll is an uninitialised variable: its
value is the parameter `junk`. -/
def matToEuler (junk : ℝ) (m : M3) : Cardan :=
  if m.a20 < 1 then
    if -1 < m.a20 then ⟨atan2 m.a21 m.a22, Real.arcsin (-m.a20), atan2 m.a10 m.a00⟩
    else ⟨0, Real.pi / 2, -atan2 (-m.a12) m.a11⟩
  else ⟨junk, -(Real.pi / 2), 0⟩

/-- `if (IsNED(fc)) { theta = -theta; psi = -psi; }` (common/FrRotation.cpp:331-335, 364-368). -/
def convAngles (fc : FC) (a : Cardan) : Cardan :=
  match fc with
  | .NWU => a
  | .NED => ⟨a.roll, -a.pitch, -a.yaw⟩

/-- `SetEulerAngles_RADIANS` / `SetCardanAngles_RADIANS` (common/FrRotation.cpp:327-339, 346-348). -/
def setCardan (fc : FC) (a : Cardan) : Q :=
  let b := convAngles fc a
  eulerToQuat b.roll b.pitch b.yaw

/-- `DEG2RAD` (MathUtils). -/
def deg2rad : ℝ := Real.pi / 180

/-- `SetEulerAngles_DEGREES` (common/FrRotation.cpp:341-344). -/
def setCardanDeg (fc : FC) (a : Cardan) : Q :=
  setCardan fc ⟨a.roll * deg2rad, a.pitch * deg2rad, a.yaw * deg2rad⟩

/-- `GetEulerAngles_RADIANS` / `GetCardanAngles_RADIANS` (common/FrRotation.cpp:354-369, 379-381) with `quat_to_euler`
(math/FrEulerAngles.inl:112-118). -/
def getCardan (junk : ℝ) (fc : FC) (q : Q) : Cardan := convAngles fc (matToEuler junk q.toMat)

/-- `FrRotation::RotAxisAngle_RADIANS` (common/FrRotation.cpp:429-432); `RotX/Y/Z_RADIANS` (438-456) are this with a
coordinate axis. -/
def rotAxisAngle (q : Q) (axis : V3) (angle : ℝ) (fc : FC) : Q := q.mul (quatOfAxisAngle axis angle fc)

/-! ## FrFrame -/

/-- `FrFrame` around `chrono::ChFrame` (common/FrFrame.h): NWU position and rotation of the frame in its parent. -/
@[ext] structure Frame where
  pos : V3
  rot : Q

namespace Frame

/-- `FrFrame()` (common/FrFrame.cpp:22). -/
def identity : Frame := ⟨0, Q.one⟩
/-- `FrFrame(pos, rotation, fc)` (common/FrFrame.cpp:24-32). -/
def new (p : V3) (q : Q) (fc : FC) : Frame := ⟨conv fc p, q⟩
/-- `SetPosition` (common/FrFrame.cpp:38-48). -/
def setPosition (f : Frame) (p : V3) (fc : FC) : Frame := { f with pos := conv fc p }
/-- `GetPosition` (common/FrFrame.cpp:50-67). -/
def getPosition (f : Frame) (fc : FC) : V3 := conv fc f.pos
/-- `SetX` (common/FrFrame.cpp:69-71). -/
def setX (f : Frame) (v : ℝ) (_ : FC) : Frame := { f with pos := { f.pos with x := v } }
/-- `SetY` (common/FrFrame.cpp:73-76). -/
def setY (f : Frame) (v : ℝ) (fc : FC) : Frame := { f with pos := { f.pos with y := if fc = .NED then -v else v } }
/-- `SetZ` (common/FrFrame.cpp:78-81). -/
def setZ (f : Frame) (v : ℝ) (fc : FC) : Frame := { f with pos := { f.pos with z := if fc = .NED then -v else v } }
/-- `GetX`, `GetY`, `GetZ` (common/FrFrame.cpp:83-97). -/
def getX (f : Frame) (_ : FC) : ℝ := f.pos.x
def getY (f : Frame) (fc : FC) : ℝ := if fc = .NED then -f.pos.y else f.pos.y
def getZ (f : Frame) (fc : FC) : ℝ := if fc = .NED then -f.pos.z else f.pos.z
/-- `Set(pos, e1, e2, e3, fc)` (common/FrFrame.cpp:99-108): the axes are used as given, whatever `fc`. -/
def setAxes (_ : Frame) (p a b c : V3) (fc : FC) : Frame := ⟨conv fc p, matToQuat (M3.ofCols a b c)⟩
/-- `SetRotation` (common/FrFrame.cpp:110-116). -/
def setRotation (f : Frame) (q : Q) : Frame := { f with rot := q }
/-- `SetNoRotation` (common/FrFrame.cpp:118-122). -/
def setNoRotation (f : Frame) : Frame := { identity with pos := f.pos }
/-- `SetNoTranslation` (common/FrFrame.cpp:124-126). -/
def setNoTranslation (f : Frame) : Frame := { f with pos := 0 }

/-- `operator*` (common/FrFrame.cpp:140-144), i.e. `ChFrame::operator*`. -/
def mul (a b : Frame) : Frame := ⟨a.pos + a.rot.rotate b.pos, a.rot.mul b.rot⟩
/-- `operator*=` (common/FrFrame.cpp:146-148): calls `m_chronoFrame >>= other`, whose meaning in Chrono is
`this = this >> other = other * this`. -/
def mulAssign (a b : Frame) : Frame := mul b a
/-- `Inverse`, `GetInverse` (common/FrFrame.cpp:345-352), i.e. `ChFrame::Invert`. -/
def inv (a : Frame) : Frame := ⟨-(a.rot.conj.rotate a.pos), a.rot.conj⟩
/-- `GetOtherFrameRelativeTransform_WRT_ThisFrame` (common/FrFrame.cpp:167-169). -/
def otherWrtThis (this other : Frame) : Frame := this.inv.mul other
/-- `GetThisFrameRelativeTransform_WRT_OtherFrame` (common/FrFrame.cpp:171-173). -/
def thisWrtOther (this other : Frame) : Frame := (otherWrtThis this other).inv

/-- `RotateInFrame(quaternion)` (common/FrFrame.cpp:199-205). -/
def rotateInFrame (f : Frame) (q : Q) : Frame := { f with rot := f.rot.mul q }
/-- `RotateInParent(quaternion)` (common/FrFrame.cpp:217-223). -/
def rotateInParent (f : Frame) (q : Q) : Frame := { f with rot := q.mul f.rot }
/-- `RotateInFrame(direction, angleRad, fc)` (common/FrFrame.cpp:207-209). -/
def rotateInFrameAA (f : Frame) (axis : V3) (angle : ℝ) (fc : FC) : Frame := f.rotateInFrame (quatOfAxisAngle axis angle fc)
/-- `RotateInParent(direction, angleRad, fc)` (common/FrFrame.cpp:225-227). -/
def rotateInParentAA (f : Frame) (axis : V3) (angle : ℝ) (fc : FC) : Frame := f.rotateInParent (quatOfAxisAngle axis angle fc)
/-- `RotateInFrame(phiRad, thetaRad, psiRad, seq, fc)` (common/FrFrame.cpp:211-215): hands its radians to
`SetEulerAngles_DEGREES`. -/
def rotateInFrameEuler (f : Frame) (a : Cardan) (fc : FC) : Frame := f.rotateInFrame (setCardanDeg fc a)
/-- `RotateInParent(phiRad, thetaRad, psiRad, seq, fc)` (common/FrFrame.cpp:229-233). -/
def rotateInParentEuler (f : Frame) (a : Cardan) (fc : FC) : Frame := f.rotateInParent (setCardanDeg fc a)

/-- `ProjectVectorParentInFrame` (common/FrFrame.h:363-367). -/
def projParentInFrame (f : Frame) (v : V3) (fc : FC) : V3 := rotate (quatInv f.rot) fc v
/-- `ProjectVectorFrameInParent` (common/FrFrame.h:371-375). -/
def projFrameInParent (f : Frame) (v : V3) (fc : FC) : V3 := rotate f.rot fc v
/-- `TranslateInParent` (common/FrFrame.cpp:248-261), `ChFrame::Move`. -/
def translateInParent (f : Frame) (t : V3) (fc : FC) : Frame := { f with pos := f.pos + conv fc t }
/-- `TranslateInFrame` (common/FrFrame.cpp:235-246). -/
def translateInFrame (f : Frame) (t : V3) (fc : FC) : Frame := f.translateInParent (f.projFrameInParent t fc) fc
/-- `GetPointPositionInParent` (common/FrFrame.cpp:382-386). -/
def pointInParent (f : Frame) (p : V3) (fc : FC) : V3 := f.getPosition fc + f.projFrameInParent p fc
/-- `GetPointPositionInFrame` (common/FrFrame.cpp:388-391). -/
def pointInFrame (f : Frame) (p : V3) (fc : FC) : V3 := f.projParentInFrame (p - f.getPosition fc) fc

/-- `RotX_RADIANS(angle, fc, localAxis)` (common/FrFrame.cpp:266-275). -/
def rotX (f : Frame) (angle : ℝ) (_ : FC) (localAxis : Bool) : Frame :=
  { f with rot := (Q.ofAngAxis angle (if localAxis then f.rot.xAxis else V3.e1)).mul f.rot }
/-- `RotY_RADIANS` (common/FrFrame.cpp:281-292). -/
def rotY (f : Frame) (angle : ℝ) (fc : FC) (localAxis : Bool) : Frame :=
  let axis := if localAxis then f.rot.yAxis else V3.e2
  let angle := if fc = .NED then -angle else angle
  { f with rot := (Q.ofAngAxis angle axis).mul f.rot }
/-- `RotZ_RADIANS` (common/FrFrame.cpp:298-309). -/
def rotZ (f : Frame) (angle : ℝ) (fc : FC) (localAxis : Bool) : Frame :=
  let axis := if localAxis then f.rot.zAxis else V3.e3
  let angle := if fc = .NED then -angle else angle
  { f with rot := (Q.ofAngAxis angle axis).mul f.rot }
/-- `SetRotX_RADIANS`, … (common/FrFrame.cpp:315-343). -/
def setRotX (_ : Frame) (angle : ℝ) (fc : FC) : Frame := identity.rotX angle fc false
def setRotY (_ : Frame) (angle : ℝ) (fc : FC) : Frame := identity.rotY angle fc false
def setRotZ (_ : Frame) (angle : ℝ) (fc : FC) : Frame := identity.rotZ angle fc false

/-- `ProjectToXYPlane(fc)` (common/FrFrame.cpp:354-368); `none`: an assertion of `FrRotation::Set` fails. -/
def projectToXYPlane (f : Frame) (fc : FC) : Option Frame :=
  let x := V3.normalized { getXAxis f.rot fc with z := 0 }
  let y := V3.normalized { getYAxis f.rot fc with z := 0 }
  (rotOfAxes x y V3.e3 fc).map fun q => new (f.getPosition fc) q fc

end Frame

/-! ## Torsor -/

/-- `Torsor` (math/Torsor.h): resultant, moment and reduction point, in NWU. -/
@[ext] structure Torsor where
  res : V3
  mom : V3
  pt : V3

/-- `Torsor::Set` (math/Torsor.cpp:15-25). -/
def Torsor.set (r m p : V3) (fc : FC) : Torsor := ⟨conv fc r, conv fc m, conv fc p⟩
/-- `TransportMomentAtPoint` (math/Torsor.cpp:27-34). -/
def Torsor.momentAt (t : Torsor) (p : V3) (fc : FC) : V3 :=
  conv fc (t.mom + V3.cross (t.pt - conv fc p) t.res)
/-- `GetPoint` (math/Torsor.cpp:36-40). -/
def Torsor.getPoint (t : Torsor) (fc : FC) : V3 := conv fc t.pt

end Frydom.Geom
