import Verif.Core.LogColumns
import Verif.Link.Constraint
import Verif.Cable.CatenaryLength
import Verif.Cable.DynamicProps

/-!
# What the columns of the logs of constraints and cables hold (C180)

The `DefineLogMessages` of constraints (`src/frydom/core/link/constraint/FrConstraint.cpp:88-128`), catenary lines (`cable/FrCatenaryLine.cpp:43-64`) and dynamic cables (`cable/FrDynamicCable.cpp:332-351`), the drawing
settings of the latter (`FrDynamicCable.cpp:360-374`).
-/

open Real

noncomputable section

namespace Frydom.Core.LogColumns
open Frydom.Geom Frydom.Core Frydom.Link Frydom.Cable Frydom.Cable.DynCable

/-! ## The messages -/

/-- What the log of a constraint reads: the constraint and the COG frames in the world of its two bodies. -/
structure ConstraintRow where
  time : ℝ
  c : Link.Constraint
  b1 : Frame
  b2 : Frame

/-- `GetCardanAngles_DEGREES` (FrRotation.cpp:371-377, 383-385) in a `Position` (FrConstraint.cpp:104-108). -/
def anglesDeg (junk : ℝ) (q : Q) (fc : FC) : V3 := (180 / π) • angles junk q fc

/-- `FrConstraint::DefineLogMessages` (FrConstraint.cpp:88-128). -/
def constraintFields (junk : ℝ) : List (Field ConstraintRow) :=
  [⟨"time", "s", fun s _ => .num s.time⟩,
   ⟨"ConstraintPositionInWorld", "m", fun s fc => .vec ((s.c.frameInWorld s.b1 s.b2).getPosition fc)⟩,
   ⟨"ConstraintOrientationInWorld", "deg", fun s fc => .vec (anglesDeg junk (s.c.frameInWorld s.b1 s.b2).rot fc)⟩,
   ⟨"GetForceInWorld", "N", fun s fc => .vec (s.c.forceInWorld s.b1 s.b2 fc)⟩,
   ⟨"GetTorqueInWorldAtConstraint", "Nm", fun s fc => .vec (s.c.torqueInWorldAtConstraint s.b1 s.b2 fc)⟩,
   ⟨"GetForceInBody1", "N", fun s fc => .vec (s.c.forceInBody1 fc)⟩,
   ⟨"GetTorqueInBody1AtCOG", "Nm", fun s fc => .vec (s.c.torqueInBody1AtCOG fc)⟩]

/-- What the log of a catenary line reads. -/
structure LineRow where
  time : ℝ
  line : Line

/-- `FrCatenaryLine::DefineLogMessages` (FrCatenaryLine.cpp:43-64). -/
def lineFields : List (Field LineRow) :=
  [⟨"time", "s", fun s _ => .num s.time⟩,
   ⟨"StrainedLength", "m", fun s _ => .num s.line.strainedLength⟩,
   ⟨"StartingNodeTension", "N", fun s fc => .vec (s.line.startTension fc)⟩,
   ⟨"EndingNodeTension", "N", fun s fc => .vec (s.line.endTension fc)⟩]

/-- What the log of a dynamic cable reads. -/
structure CableRow where
  time : ℝ
  cable : DynCable

/-- The value of a field that may stop the program or read outside a vector (then it is `bad`, unknown). -/
def orBad (bad : V3) (v : Option V3) : V3 := v.getD bad

/-- `FrCable::GetStrainedLength` (FrCable.cpp:194-209) of a dynamic cable. -/
def dynStrainedLength (bad : V3) (interp : Frame → Frame → ℝ → V3) (c : DynCable) : ℝ :=
  let ds := c.length / (1000 - 1)
  ((List.range 1000).foldl (fun (acc : ℝ × V3) (i : ℕ) =>
    let pos := orBad bad (c.positionAt interp (i * ds) .NWU)
    (acc.1 + V3.norm (pos - acc.2), pos)) (0, orBad bad (c.positionAt interp 0 .NWU))).1

/-- `FrDynamicCable::DefineLogMessages` (FrDynamicCable.cpp:332-351). `interp`, `axial`: see `Cable.Dynamic`. -/
def cableFields (bad : V3) (interp : Frame → Frame → ℝ → V3) (axial : Frame → Frame → ℝ → ℝ) : List (Field CableRow) :=
  [⟨"time", "s", fun s _ => .num s.time⟩,
   ⟨"StrainedLength", "m", fun s _ => .num (dynStrainedLength bad interp s.cable)⟩,
   ⟨"StartingNodeTension", "N", fun s fc => .vec (orBad bad (s.cable.tensionAt axial 0 fc))⟩,
   ⟨"EndingNodeTension", "N", fun s fc => .vec (-orBad bad (s.cable.tensionAt axial s.cable.length fc))⟩]

/-- The sizes used to draw a dynamic cable (FrDynamicCable.h:130-131). -/
structure DrawSizes where
  elementRadius : ℝ
  nodeSize : ℝ
/-- `SetDrawElementRadius`, `SetDrawNodeSize` (FrDynamicCable.cpp:360-362, 368-370). -/
def DrawSizes.setElementRadius (d : DrawSizes) (r : ℝ) : DrawSizes := { d with elementRadius := r }
def DrawSizes.setNodeSize (d : DrawSizes) (s : ℝ) : DrawSizes := { d with nodeSize := s }
/-- `GetDrawElementRadius` (FrDynamicCable.cpp:364-366). -/
def DrawSizes.getElementRadius (d : DrawSizes) : ℝ := d.elementRadius
/-- `GetDrawNodeSize` (FrDynamicCable.cpp:372-374), which draws the nodes (117): it returns the radius of the elements. -/
def DrawSizes.getNodeSize (d : DrawSizes) : ℝ := d.elementRadius

/-! ## C180 -/


/-- **C180, constraints.** Position and angles (in degrees) are those of the reference frame of the constraint in the world; force and torque in the world are the reaction at its origin; the columns of body 1, taken at the centre of gravity of the body whose axes they are in, are the
same reaction. That body is body 1 except for the two distances, where it is body 2 (C131). -/
theorem C180_constraint (junk : ℝ) : ∃ X A F T : ConstraintRow → FC → V3, ∃ F1 T1 : Link.Constraint → FC → V3,
    (Shows (constraintFields junk) "time" "s" (fun s _ => .num s.time) ∧ Shows (constraintFields junk) "ConstraintPositionInWorld" "m" (fun s fc => .vec (X s fc)) ∧
      Shows (constraintFields junk) "ConstraintOrientationInWorld" "deg" (fun s fc => .vec (A s fc)) ∧ Shows (constraintFields junk) "GetForceInWorld" "N" (fun s fc => .vec (F s fc)) ∧
      Shows (constraintFields junk) "GetTorqueInWorldAtConstraint" "Nm" (fun s fc => .vec (T s fc)) ∧ Shows (constraintFields junk) "GetForceInBody1" "N" (fun s fc => .vec (F1 s.c fc)) ∧
      Shows (constraintFields junk) "GetTorqueInBody1AtCOG" "Nm" (fun s fc => .vec (T1 s.c fc))) ∧
    ∀ (s : ConstraintRow) (fc : FC), s.b1.Valid → s.b2.Valid → s.c.rel.Valid →
      X s fc = (s.c.frameInWorld s.b1 s.b2).getPosition fc ∧
      ((s.c.frameInWorld s.b1 s.b2).rot.toMat.a20 < 1 → AreAngles ((π / 180) • A s fc) (s.c.frameInWorld s.b1 s.b2).rot fc) ∧
      F s fc = (s.c.frameInWorld s.b1 s.b2).projFrameInParent (s.c.forceInConstraint fc) fc ∧ T s fc = (s.c.frameInWorld s.b1 s.b2).projFrameInParent (s.c.torqueInConstraint fc) fc ∧
      (s.c.kind ≠ .distanceToAxis ∧ s.c.kind ≠ .distanceBetweenPoints → (Wrench.ofBody s.b1 (F1 s.c fc) (T1 s.c fc) fc).Same ⟨F s fc, X s fc, T s fc⟩) ∧
      (s.c.kind = .distanceToAxis ∨ s.c.kind = .distanceBetweenPoints → (Wrench.ofBody s.b2 (F1 s.c fc) (T1 s.c fc) fc).Same ⟨F s fc, X s fc, T s fc⟩) := by
  refine ⟨fun s fc => (s.c.frameInWorld s.b1 s.b2).getPosition fc, fun s fc => anglesDeg junk (s.c.frameInWorld s.b1 s.b2).rot fc, fun s fc => s.c.forceInWorld s.b1 s.b2 fc,
    fun s fc => s.c.torqueInWorldAtConstraint s.b1 s.b2 fc, fun c fc => c.forceInBody1 fc, fun c fc => c.torqueInBody1AtCOG fc,
    ⟨rfl, rfl, rfl, rfl, rfl, rfl, rfl⟩, fun s fc h1 h2 k => ⟨rfl, fun h v => ?_, rfl, rfl, fun hk => C131_body1 s.c hk s.b1 s.b2 h1 k fc, fun hk => C131_distance s.c hk s.b1 s.b2 h2 k fc⟩⟩
  have hm : (s.c.master s.b1 s.b2).rot.IsUnit := by
    unfold Constraint.master
    split
    · exact h2
    · exact h2
    · exact h1
  have hu : (s.c.frameInWorld s.b1 s.b2).rot.IsUnit := hm.mul k
  have e : (π / 180) • anglesDeg junk (s.c.frameInWorld s.b1 s.b2).rot fc = angles junk (s.c.frameInWorld s.b1 s.b2).rot fc := by
    unfold anglesDeg
    have := Real.pi_ne_zero
    ext <;> simp <;> field_simp
  show rotate (setCardan fc ⟨((π / 180) • anglesDeg junk (s.c.frameInWorld s.b1 s.b2).rot fc).x, _, _⟩) fc v = _
  rw [e]
  exact C13_round_trip_rotation_partial junk fc _ hu h fc v

/-- **C180, constraints (defect).** For the distance between points the column named after body 1 does not hold the reaction in the axes of body 1. -/
theorem C180_constraint_wrong (junk : ℝ) : ∃ F : ConstraintRow → FC → V3, ∃ F1 : Link.Constraint → FC → V3,
    (Shows (constraintFields junk) "GetForceInWorld" "N" (fun s fc => .vec (F s fc)) ∧ Shows (constraintFields junk) "GetForceInBody1" "N" (fun s fc => .vec (F1 s.c fc))) ∧
    ∃ s : ConstraintRow, s.b1.Valid ∧ s.b2.Valid ∧ s.c.rel.Valid ∧ s.c.kind = .distanceBetweenPoints ∧ s.b1.projFrameInParent (F1 s.c .NWU) .NWU ≠ F s .NWU := by
  obtain ⟨⟨c, b1, b2, h, h1, h2, k, hne⟩, -⟩ := C131_distance_counterexample
  exact ⟨fun s fc => s.c.forceInWorld s.b1 s.b2 fc, fun c fc => c.forceInBody1 fc, ⟨rfl, rfl⟩, ⟨0, c, b1, b2⟩, h1, h2, k, h, hne⟩

/-- **C180, catenary lines.** The tension columns are the pulls of the line on the two bodies, at its nodes, in the convention of the log; their sum is the weight of the line in the fluid; the length column is between the distance of its ends and its stretched length. -/
theorem C180_line : ∃ S E : Line → FC → V3, ∃ L : Line → ℝ,
    (Shows lineFields "time" "s" (fun s _ => .num s.time) ∧ Shows lineFields "StartingNodeTension" "N" (fun s fc => .vec (S s.line fc)) ∧
      Shows lineFields "EndingNodeTension" "N" (fun s fc => .vec (E s.line fc)) ∧ Shows lineFields "StrainedLength" "m" (fun s _ => .num (L s.line))) ∧
    ∀ l : Line, Loaded l →
      (∀ (f f' : Force) (b b' : Body) (fc : FC), Placed b → Placed b' → Attached b l.start → Attached b' l.stop →
        IsLoad (startForce l f b) b fc (S l fc) 0 (l.start.positionInWorld fc) ∧ IsLoad (endForce l f' b') b' fc (E l fc) 0 (l.stop.positionInWorld fc)) ∧
      (∀ fc, S l fc + E l fc = conv fc ⟨0, 0, -(l.q * l.len)⟩) ∧
      (l.q ≠ 0 → 0 ≤ l.len → (l.elastic = true → 0 < l.props.getEA) → V3.norm (l.position l.len .NWU - l.position 0 .NWU) ≤ L l ∧
        L l ≤ ∫ s in (0)..l.len, (1 + compliance l * V3.norm (l.tension s .NWU))) := by
  refine ⟨fun l fc => l.startTension fc, fun l fc => l.endTension fc, fun l => l.strainedLength, ⟨rfl, rfl, rfl, rfl⟩, fun l h => ⟨fun f f' b b' fc hb hb' ha ha' => C92_loads l f f' b b' hb hb' ha ha' fc, fun fc => ?_,
    fun hq hL hEA => C93_strained_length l h hq hL hEA⟩⟩
  obtain ⟨-, -, h3, h4⟩ := C92_conventions l fc
  show l.startTension fc + l.endTension fc = _
  rw [h3, h4, ← conv_add, C92_weight l h]

/-- **C180, dynamic cables.** When the elements are the ones of the mesh, the tension columns are along the first and the last element, with the intensity of the axial force at the first and the last node: a cable in tension pulls its first node towards the second and its
last node towards the one before. The length column is at least the distance between the two ends of the mesh. -/
theorem C180_cable (bad : V3) (interp : Frame → Frame → ℝ → V3) (he : ∀ a b, interp a b (-1) = a.pos ∧ interp a b 1 = b.pos) (axial : Frame → Frame → ℝ → ℝ) : ∃ S E : DynCable → FC → V3, ∃ L : DynCable → ℝ,
    (Shows (cableFields bad interp axial) "time" "s" (fun s _ => .num s.time) ∧ Shows (cableFields bad interp axial) "StartingNodeTension" "N" (fun s fc => .vec (S s.cable fc)) ∧
      Shows (cableFields bad interp axial) "EndingNodeTension" "N" (fun s fc => .vec (E s.cable fc)) ∧ Shows (cableFields bad interp axial) "StrainedLength" "m" (fun s _ => .num (L s.cable))) ∧
    ∀ (c : DynCable) (m : FeMesh) (P : ℕ → Frame) (n : ℕ), 0 < c.length → c.nbElements = n + 1 → c.mesh = some m → Chain m (n + 1) P → (∀ k < n + 1, (P (k + 1)).pos ≠ (P k).pos) →
      (∃ t t' : V3, (∀ fc, S c fc = conv fc t) ∧ (∀ fc, E c fc = conv fc t') ∧
        V3.norm ((P 1).pos - (P 0).pos) • t = axial (P 0) (P 1) (-1) • ((P 1).pos - (P 0).pos) ∧ V3.norm t = |axial (P 0) (P 1) (-1)| ∧
        V3.norm ((P (n + 1)).pos - (P n).pos) • t' = axial (P n) (P (n + 1)) 1 • ((P n).pos - (P (n + 1)).pos) ∧ V3.norm t' = |axial (P n) (P (n + 1)) 1|) ∧
      V3.norm ((P (n + 1)).pos - (P 0).pos) ≤ L c := by
  refine ⟨fun c fc => orBad bad (c.tensionAt axial 0 fc), fun c fc => -orBad bad (c.tensionAt axial c.length fc), fun c => dynStrainedLength bad interp c, ⟨rfl, rfl, rfl, rfl⟩,
    fun c m P n hL hn hm hP hd => ⟨?_, ?_⟩⟩
  · rw [← hn] at hP hd
    have hn1 : 1 ≤ c.nbElements := by omega
    have hpos : (0 : ℝ) < c.nbElements := by exact_mod_cast hn1
    have hds : 0 < c.length / c.nbElements := div_pos hL hpos
    obtain ⟨t, h1, h2, h3⟩ := C140_tension axial c hL hn1 m hm P hP hd 0 (by omega) 0 (by simp) (Or.inl (by simpa using hds))
    obtain ⟨u, g1, g2, g3⟩ := C140_tension axial c hL hn1 m hm P hP hd n (by omega) c.length (by
      rw [hn, ← mul_div_assoc, div_le_iff₀ (by positivity)]
      push_cast
      nlinarith) (Or.inr ⟨rfl, hn.symm⟩)
    have e0 : 2 * ((0 : ℝ) / (c.length / c.nbElements) - ((0 : ℕ) : ℝ)) - 1 = -1 := by simp
    have e1 : 2 * (c.length / (c.length / c.nbElements) - (n : ℝ)) - 1 = 1 := by
      have e3 : c.length / (c.length / c.nbElements) = c.nbElements := by field_simp
      rw [e3, hn]; push_cast; ring
    rw [e0] at h2 h3
    rw [e1] at g2 g3
    refine ⟨t, -u, fun fc => ?_, fun fc => ?_, h2, h3, ?_, ?_⟩
    · show orBad bad (c.tensionAt axial 0 fc) = _
      rw [h1]; rfl
    · show -orBad bad (c.tensionAt axial c.length fc) = _
      rw [g1, conv_neg]; rfl
    · have := g2
      generalize axial (P n) (P (n + 1)) 1 = a at this
      rw [V3.ext_iff] at this ⊢
      obtain ⟨x, y, z⟩ := this
      simp at x y z ⊢
      exact ⟨by linarith, by linarith, by linarith⟩
    · rw [← g3]
      unfold V3.norm
      congr 1
      simp [V3.dot]
  · rw [← hn] at hP
    have hn1 : 1 ≤ c.nbElements := by omega
    have hpos : (0 : ℝ) < c.nbElements := by exact_mod_cast hn1
    have hN := (C140_position interp he c hL hn1 m hm P hP .NWU).2
    have p0 : orBad bad (c.positionAt interp 0 .NWU) = (P 0).pos := by
      have := hN 0 (by omega)
      simp only [Nat.cast_zero, zero_mul] at this
      rw [this]; rfl
    have p1 : orBad bad (c.positionAt interp c.length .NWU) = (P (n + 1)).pos := by
      have := hN (n + 1) (by omega)
      rw [← hn, mul_div_cancel₀ _ hpos.ne'] at this
      rw [this, hn]; rfl
    have e : dynStrainedLength bad interp c = polygon (fun i => orBad bad (c.positionAt interp (i * (c.length / (1000 - 1))) .NWU)) 999 := by
      have h := fold_polygon (fun i => orBad bad (c.positionAt interp (i * (c.length / (1000 - 1))) .NWU)) 999
      have e0 : c.positionAt interp (((0 : ℕ) : ℝ) * (c.length / (1000 - 1))) .NWU = c.positionAt interp 0 .NWU := by
        rw [Nat.cast_zero, zero_mul]
      simp only [e0] at h
      unfold dynStrainedLength
      simp only []
      rw [h]
    show _ ≤ dynStrainedLength bad interp c
    rw [e]
    have := chord_le_polygon (fun i => orBad bad (c.positionAt interp (i * (c.length / (1000 - 1))) .NWU)) 999
    have e1 : ((999 : ℕ) : ℝ) * (c.length / (1000 - 1)) = c.length := by
      push_cast
      ring
    have e2 : ((0 : ℕ) : ℝ) * (c.length / (1000 - 1)) = 0 := by norm_num
    rw [e1, e2, p0, p1] at this
    exact this

/-- **C180, sizes drawn (defect).** The radius of the elements is read back as it was set, whatever is set next to it; the size of the nodes is not: setting it changes nothing that is read or drawn, and what is read is the radius of the elements. -/
theorem C180_drawing_wrong (d : DrawSizes) (r s : ℝ) :
    ((d.setElementRadius r).setNodeSize s).getElementRadius = r ∧ (d.setElementRadius r).getElementRadius = r ∧
    (d.setNodeSize s).getNodeSize = d.getNodeSize ∧ ((d.setElementRadius r).setNodeSize s).getNodeSize = r ∧ ∃ d' : DrawSizes, ∀ s, s ≠ 1 → (d'.setNodeSize s).getNodeSize ≠ s :=
  ⟨rfl, rfl, rfl, rfl, ⟨1, 0⟩, fun _ h e => h e.symm⟩

/-- The hypotheses are met: a constraint between two bodies at the origin. -/
example : ∃ s : ConstraintRow, s.b1.Valid ∧ s.b2.Valid ∧ s.c.rel.Valid ∧ (s.c.kind ≠ .distanceToAxis ∧ s.c.kind ≠ .distanceBetweenPoints) ∧ (s.c.frameInWorld s.b1 s.b2).rot.toMat.a20 < 1 :=
  ⟨⟨0, ⟨.pointOnLine, Frame.identity, V3.e1, 0⟩, Frame.identity, Frame.identity⟩, Q.isUnit_one, Q.isUnit_one, Q.isUnit_one, ⟨by decide, by decide⟩, by
    show ((Q.one.mul Q.one).toMat).a20 < 1
    simp [Q.toMat, Q.mul, Q.one]⟩

/-- The hypotheses are met: a cable of two elements along an axis. -/
example (p : CableProps) (a b : Node) : ∃ (c : DynCable) (m : FeMesh) (P : ℕ → Frame), 0 < c.length ∧ c.nbElements = 1 + 1 ∧ c.mesh = some m ∧ Chain m (1 + 1) P ∧ ∀ k < 1 + 1, (P (k + 1)).pos ≠ (P k).pos := by
  refine ⟨{ props := p, length := 2, start := a, stop := b, rayleigh := 0, nbElements := 2, mesh := some ⟨[⟨⟨0, 0, 0⟩, Q.one⟩, ⟨⟨1, 0, 0⟩, Q.one⟩, ⟨⟨2, 0, 0⟩, Q.one⟩], [(0, 1), (1, 2)]⟩ }, _, fun k => ⟨⟨k, 0, 0⟩, Q.one⟩, by norm_num, rfl, rfl, ⟨?_, ?_⟩, ?_⟩
  · intro k
    match k with
    | 0 => simp
    | 1 => simp
    | 2 => simp
    | n + 3 => simp
  · intro k
    match k with
    | 0 => simp
    | 1 => simp
    | n + 2 => simp
  · intro k hk h
    have := congrArg V3.x h
    simp at this

end Frydom.Core.LogColumns
