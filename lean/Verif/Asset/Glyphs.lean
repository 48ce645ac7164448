import Verif.Core.Force
import Verif.Core.Node

/-!
# The arrow of a force and the axes of a node (C154)

`FrForceAsset` (src/frydom/asset/FrForceAsset.cpp), `FrNodeAsset` (src/frydom/asset/FrNodeAsset.cpp) and the application points of
`FrForce` (src/frydom/core/force/FrForce.cpp 170-176).

Chrono draws the glyphs of a body in the frame of its reference point (`GetAssetsFrame` of a `ChBodyAuxRef`): modelled by `pointInWorld` and `toWorld`.
-/

noncomputable section

namespace Frydom.Asset
open Frydom.Geom Frydom.Core

/-- A force and the two application points of its `chrono::ChForce`, `vpoint` (world) and `vrelpoint` (body). Chrono creates them at zero and they are written
only by the setters of `ChForce` (never called in FRyDoM) and by `ChForce::UpdateState`, which `FrForceBase::UpdateState` overrides (FrForce.cpp 26-46) without writing them. -/
structure DrawnForce where
  load : Force := {}
  vpoint : V3 := 0
  vrelpoint : V3 := 0

/-- What can be called on a force (FrForce.cpp 340-440): a force and a torque set at the centre of gravity, a force and a torque set at a point of the body or of the world, in
world or body axes, and the update at each step (with the model `compute` of the force). -/
inductive ForceCall where
  | forceAtCOG (w : V3) (fc : FC)
  | torqueAtCOG (t : V3) (fc : FC)
  | forceAtPointInBody (b : Body) (w p : V3) (fc : FC)
  | loadInWorldAtPointInBody (b : Body) (w t p : V3) (fc : FC)
  | loadInWorldAtPointInWorld (b : Body) (w t p : V3) (fc : FC)
  | loadInBodyAtPointInBody (b : Body) (w t p : V3) (fc : FC)
  | loadInBodyAtPointInWorld (b : Body) (w t p : V3) (fc : FC)
  | update (compute : Force → Force) (b : Body)

/-- Calls on a force: they all write the force and the torque of `FrForceBase` only (FrForce.cpp 24-66, 340-440). -/
def DrawnForce.call (f : DrawnForce) : ForceCall → DrawnForce
  | .forceAtCOG w fc => { f with load := f.load.setForceInWorldAtCOG w fc }
  | .torqueAtCOG t fc => { f with load := f.load.setTorqueInBodyAtCOG t fc }
  | .forceAtPointInBody b w p fc => { f with load := f.load.setForceInWorldAtPointInBody b w p fc }
  | .loadInWorldAtPointInBody b w t p fc => { f with load := f.load.setForceTorqueInWorldAtPointInBody b w t p fc }
  | .loadInWorldAtPointInWorld b w t p fc => { f with load := f.load.setForceTorqueInWorldAtPointInWorld b w t p fc }
  | .loadInBodyAtPointInBody b w t p fc => { f with load := f.load.setForceTorqueInBodyAtPointInBody b w t p fc }
  | .loadInBodyAtPointInWorld b w t p fc => { f with load := f.load.setForceTorqueInBodyAtPointInWorld b w t p fc }
  | .update compute b => { f with load := f.load.updateState compute b }

/-- Calls in order. -/
def DrawnForce.run (f : DrawnForce) (l : List ForceCall) : DrawnForce := l.foldl DrawnForce.call f

/-- `GetForceApplicationPointInWorld` (FrForce.cpp 170-172): the convention is ignored. -/
def DrawnForce.pointInWorld (f : DrawnForce) (_fc : FC) : V3 := f.vpoint
/-- `GetForceApplicationPointInBody` (FrForce.cpp 174-176): the convention is ignored. -/
def DrawnForce.pointInBody (f : DrawnForce) (_fc : FC) : V3 := f.vrelpoint

/-- The glyph drawn by `Initialize` and at each `StepFinalize` (FrForceAsset.cpp 27-51): start and vector, body axes, NWU. `size` is m_CharacteristicLength, 0.005 by default. -/
def DrawnForce.glyph (f : DrawnForce) (b : Body) (size : ℝ) : V3 × V3 := (f.pointInBody .NWU, size • f.load.getForceInBody b .NWU)

/-- The arrow seen in the world: start, vector. -/
def DrawnForce.arrow (f : DrawnForce) (b : Body) (size : ℝ) : V3 × V3 :=
  (b.pointInWorld (f.glyph b size).1 .NWU, b.toWorld (f.glyph b size).2 .NWU)

/-- The glyph of a node (FrNodeAsset.cpp 17-45): its frame in the body. -/
def nodeGlyph (n : Node) (b : Body) : Frame := n.frameInBody b

/-- The axes seen in the world. -/
def nodeAxes (n : Node) (b : Body) : Frame := b.getFrame.mul (nodeGlyph n b)

theorem run_points (f : DrawnForce) (l : List ForceCall) : (f.run l).vpoint = f.vpoint ∧ (f.run l).vrelpoint = f.vrelpoint := by
  induction l generalizing f with
  | nil => exact ⟨rfl, rfl⟩
  | cons c l ih => cases c <;> exact ih _

theorem toWorld_smul (b : Body) (s : ℝ) (v : V3) (fc : FC) : b.toWorld (s • v) fc = s • b.toWorld v fc := by
  obtain ⟨v', rfl⟩ := exists_conv fc v
  have : s • conv fc v' = conv fc (s • v') := by cases fc <;> ext <;> simp [conv, swap]
  rw [this, toWorld_conv, toWorld_conv, Q.rotate_smul]
  cases fc <;> ext <;> simp [conv, swap]

theorem toWorld_zero (b : Body) (fc : FC) : b.toWorld 0 fc = 0 := by
  have := toWorld_smul b 0 0 fc
  have h0 : ∀ v : V3, (0 : ℝ) • v = 0 := by intro v; ext <;> simp
  rw [h0, h0] at this
  exact this

/-- **C154 (arrow)**: whatever happened to a force before, its arrow has the direction of the force in the world and its length times the size. -/
theorem C154_arrow_partial (l : List ForceCall) (b : Body) (hb : Placed b) (size : ℝ) :
    (({} : DrawnForce).run l |>.arrow b size).2 = size • (({} : DrawnForce).run l).load.getForceInWorld .NWU := by
  show b.toWorld (size • Force.getForceInBody _ b .NWU) .NWU = _
  rw [toWorld_smul]
  unfold Force.getForceInBody
  rw [toWorld_toBody hb]

/-- **C154 (start of the arrow, defect)**: whatever happened to a force before, and in particular wherever it is applied, its arrow starts at the reference point of the body, and its
application points are read as the origin of the world and the reference point. -/
theorem C154_start (l : List ForceCall) (b : Body) (size : ℝ) (fc : FC) :
    (({} : DrawnForce).run l |>.arrow b size).1 = b.getPosition .NWU ∧
    (({} : DrawnForce).run l).pointInWorld fc = 0 ∧ (({} : DrawnForce).run l).pointInBody fc = 0 := by
  obtain ⟨h1, h2⟩ := run_points {} l
  refine ⟨?_, h1, h2⟩
  show b.pointInWorld ((({} : DrawnForce).run l).vrelpoint) .NWU = _
  rw [h2]
  unfold Body.pointInWorld
  have : b.toWorld ({} : DrawnForce).vrelpoint .NWU = 0 := toWorld_zero b .NWU
  rw [this]
  ext <;> simp

/-- **C154 (start of the arrow, counterexample to the documentation)**: a force set at the point (1, 0, 0) of a body at the origin of the world is the load of that
force at that point, but is drawn and read elsewhere. -/
theorem C154_start_counterexample :
    let f : DrawnForce := ({} : DrawnForce).run [.forceAtPointInBody Body.new ⟨0, 0, 1⟩ ⟨1, 0, 0⟩ .NWU]
    IsLoad f.load Body.new .NWU ⟨0, 0, 1⟩ 0 (Body.new.pointInWorld ⟨1, 0, 0⟩ .NWU) ∧
    (f.arrow Body.new 0.005).1 ≠ Body.new.pointInWorld ⟨1, 0, 0⟩ .NWU ∧
    f.pointInWorld .NWU ≠ Body.new.pointInWorld ⟨1, 0, 0⟩ .NWU ∧ f.pointInBody .NWU ≠ ⟨1, 0, 0⟩ := by
  intro f
  have hp : Placed Body.new := by
    refine ⟨Q.isUnit_one, ?_⟩
    ext <;> simp [Body.new, Frame.identity, Q.rotate]
  have hs := C154_start [.forceAtPointInBody Body.new ⟨0, 0, 1⟩ ⟨1, 0, 0⟩ .NWU] Body.new 0.005 .NWU
  have h1 : Body.new.pointInWorld ⟨1, 0, 0⟩ .NWU = ⟨1, 0, 0⟩ := by
    ext <;> simp [Body.pointInWorld, Body.getPosition, Body.toWorld, Body.new, rotate, conv, Q.rotate, Q.toMat, M3.mulVec, Frame.identity, Q.one]
    norm_num
  refine ⟨(C52_point_forces {} Body.new hp ⟨0, 0, 1⟩ ⟨1, 0, 0⟩ .NWU).1, ?_, ?_, ?_⟩
  · rw [hs.1, h1]
    intro he
    have := congrArg V3.x he
    simp [Body.getPosition, Body.new, conv] at this
  · rw [hs.2.1, h1]
    intro he
    have := congrArg V3.x he
    simp at this
  · rw [hs.2.2]
    intro he
    have := congrArg V3.x he
    simp at this

/-- **C154 (node)**: after any history of calls on a body and one of its nodes, the axes drawn for the node are the frame of the node in the world. -/
theorem C154_node (calls : List Call) (hv : ∀ c ∈ calls, c.Valid) :
    let s := calls.foldl (fun s c => c.run s) (Body.new, Node.new Body.new)
    nodeAxes s.2 s.1 = s.2.frameInWorld := by
  intro s
  obtain ⟨h1, h2, -⟩ := C54_history calls hv .NWU
  exact (C54_attached s.1 h1 s.2 h2 .NWU).1.symm

/-- A body moved to (1, 2, 3): the node drawn at its reference point is there. -/
example : ∃ calls : List Call, (∀ c ∈ calls, c.Valid) ∧ calls ≠ [] :=
  ⟨[.body (.setPosition ⟨1, 2, 3⟩ .NWU)], by simp [Call.Valid, Op.Valid], by simp⟩

/-- A placed body, as the theorem on the arrow needs. -/
example : Placed Body.new := by
  refine ⟨Q.isUnit_one, ?_⟩
  ext <;> simp [Body.new, Frame.identity, Q.rotate]

end Frydom.Asset
