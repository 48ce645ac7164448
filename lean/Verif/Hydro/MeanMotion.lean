import Verif.Hydro.EqFrameVariants

/-!
# Equilibrium frame with the mean motion of the body (C85)

`src/frydom/hydrodynamics/FrEquilibriumFrame.{h,cpp}`, class `FrEqFrameMeanMotion`.
-/

open Classical

noncomputable section

namespace Frydom.Hydro
open Frydom.Geom Frydom.Core Frydom.Env Frydom.Recorder

/-- The optional correction (FrEquilibriumFrame.h:251-255). -/
structure Correction where
  posRec : Rec V3
  angRec : Rec ℝ
  posCoeff : ℝ
  angCoeff : ℝ

/-- `FrEqFrameMeanMotion` (FrEquilibriumFrame.h:249-255). `prevTime` has no initial value. -/
structure MeanFrame where
  base : EqFrame
  speed : Rec V3
  rate : Rec ℝ
  corr : Option Correction
  prevTime : ℝ

/-- Constructor and `SetRecorders` (FrEquilibriumFrame.cpp:349-358, 405-410); `mem` is the content of memory at `m_prevTime`. -/
def MeanFrame.new (mem : ℝ) (e : EqFrame) (persistence step : ℝ) : MeanFrame :=
  ⟨e, (Rec.new persistence step).init, (Rec.new persistence step).init, none, mem⟩
/-- `SetPositionCorrection` (FrEquilibriumFrame.cpp:360-368). -/
def MeanFrame.setCorrection (m : MeanFrame) (persistence step posCoeff angCoeff : ℝ) : MeanFrame :=
  { m with corr := some ⟨(Rec.new persistence step).init, (Rec.new persistence step).init, posCoeff, angCoeff⟩ }

/-- `FrEqFrameMeanMotion::Compute` (FrEquilibriumFrame.cpp:370-403). -/
def MeanFrame.compute (junk junk' : ℝ) (m : MeanFrame) (time : ℝ) : MeanFrame :=
  if |time - m.prevTime| < fltEps then m
  else
    let e := m.base
    let dt := time - m.prevTime
    let speed := m.speed.record time (e.node.velocityInWorld .NWU)
    let rate := m.rate.record time (e.node.angVelInWorld .NWU).z
    let vel := speed.mean
    let w := rate.mean
    let position := e.frame.getPosition .NWU + dt • vel
    let angle := w * dt
    let (corr, position, angle) : Option Correction × V3 × ℝ := match m.corr with
      | none => (none, position, angle)
      | some c =>
        let pr := c.posRec.record time (e.node.positionInWorld .NWU - e.frame.getPosition .NWU)
        let bodyAngle := (getCardan junk' .NWU e.node.frameInWorld.rot).yaw
        let frameAngle := (getCardan junk .NWU e.frame.rot).yaw
        let ar := c.angRec.record time (bodyAngle - frameAngle)
        (some { c with posRec := pr, angRec := ar }, position + c.posCoeff • pr.mean, angle + ar.mean * c.angCoeff)
    let f := (e.frame.setPosition position .NWU).setRotation (rotAxisAngle e.frame.rot ⟨0, 0, 1⟩ angle .NWU)
    ⟨{ e with vel := vel, w := w, frame := f }, speed, rate, corr, time⟩

/-- A step of the simulation: the body has moved, then `Compute`. -/
def MeanFrame.step (junk junk' : ℝ) (m : MeanFrame) (x : Node × ℝ) : MeanFrame :=
  MeanFrame.compute junk junk' { m with base := { m.base with node := x.1 } } x.2
def MeanFrame.run (junk junk' : ℝ) (m : MeanFrame) (xs : List (Node × ℝ)) : MeanFrame := xs.foldl (MeanFrame.step junk junk') m

/-! ## Recorders of a constant -/

/-- All that is stored is `v`. -/
def Const {T : Type*} (r : Rec T) (v : T) : Prop := ∀ x ∈ r.data, x = v

section
variable {T : Type*} [AddCommGroup T] [Module ℝ T]

theorem interpolate_const (last i t : ℝ) (v : T) (h : t ≠ last) : interpolate last i v v t = v := by
  unfold interpolate
  simp only []
  rw [sub_self, smul_zero, smul_zero, zero_add, ← sub_smul, smul_smul, one_div, inv_mul_cancel₀ (sub_ne_zero.mpr h), one_smul]

theorem mem_setFront {x y : T} {l : List T} (h : y ∈ setFront x l) : y = x ∨ y ∈ l := by
  cases l with
  | nil => simp [setFront] at h
  | cons a l =>
    simp only [setFront, List.mem_cons] at h
    rcases h with h | h
    · exact Or.inl h
    · exact Or.inr (List.mem_cons_of_mem _ h)

theorem record_const (r : Rec T) (hc : 1 ≤ r.cap) (v : T) (h : Const r v) (t : ℝ) :
    Const (r.record t v) v ∧ (r.record t v).data ≠ [] ∧ (r.record t v).cap = r.cap := by
  unfold Rec.record
  cases hd : r.data with
  | nil =>
    refine ⟨fun x hx => ?_, ?_, rfl⟩
    · have := List.mem_of_mem_take hx
      simpa using this
    · show pushFront r.cap v [] ≠ []
      unfold pushFront
      obtain ⟨k, hk⟩ : ∃ k, r.cap = k + 1 := ⟨r.cap - 1, by omega⟩
      rw [hk]; simp
  | cons a l =>
    have ha : a = v := h a (by rw [hd]; simp)
    simp only []
    by_cases h1 : t = r.last
    · rw [if_pos h1]
      exact ⟨h, by rw [hd]; simp, rfl⟩
    · rw [if_neg h1]
      by_cases h2 : t - r.prev < r.step
      · rw [if_pos h2]
        refine ⟨fun x hx => ?_, ?_, rfl⟩
        · have hx' : x ∈ setFront v (a :: l) := hx
          rcases mem_setFront hx' with h3 | h3
          · exact h3
          · exact h x (by rw [hd]; exact h3)
        · show setFront v (a :: l) ≠ []
          simp [setFront]
      · rw [if_neg h2]
        refine ⟨fun x hx => ?_, ?_, rfl⟩
        · have hx' := List.mem_of_mem_take hx
          rcases List.mem_cons.mp hx' with h3 | h3
          · exact h3
          · rcases mem_setFront h3 with h4 | h4
            · rw [h4, ha]; exact interpolate_const _ _ _ _ h1
            · exact h x (by rw [hd]; exact h4)
        · obtain ⟨k, hk⟩ : ∃ k, r.cap = k + 1 := ⟨r.cap - 1, by omega⟩
          show pushFront r.cap v _ ≠ []
          unfold pushFront
          rw [hk]; simp

theorem mean_const (r : Rec T) (v : T) (h : Const r v) (hn : r.data ≠ []) : r.mean = v := by
  have h1 := C21_mean r hn
  have h2 : r.data.sum = (r.data.length : ℝ) • v := by
    have : ∀ l : List T, (∀ x ∈ l, x = v) → l.sum = (l.length : ℝ) • v := by
      intro l hl
      induction l with
      | nil => simp
      | cons a l ih =>
        rw [List.sum_cons, ih fun x hx => hl x (List.mem_cons_of_mem _ hx), hl a (by simp)]
        simp [add_smul, add_comm]
    exact this _ h
  rw [h2] at h1
  have hl : (r.data.length : ℝ) ≠ 0 := by
    have := List.length_pos_of_ne_nil hn
    positivity
  exact smul_right_injective T hl h1
end

/-! ## C85 -/

/-- The recorders have seen nothing else than the velocity `V` and the rate `W`. -/
structure Seen (m : MeanFrame) (V : V3) (W : ℝ) : Prop where
  cap : 1 ≤ m.speed.cap ∧ 1 ≤ m.rate.cap
  speed : Const m.speed V
  rate : Const m.rate W
  noCorr : m.corr = none

/-- The node of a body in uniform motion. -/
def UniformNode (V : V3) (W : ℝ) (n : Node) : Prop := n.velocityInWorld .NWU = V ∧ (n.angVelInWorld .NWU).z = W

theorem right_turn {q : Q} (hq : q.IsUnit) (hz : q.rotate ⟨0, 0, 1⟩ = ⟨0, 0, 1⟩) (a : ℝ) (x : V3) :
    q.rotate (turned a x) = turned a (q.rotate x) := by
  -- a level rotation commutes with turning: both are rotations about the vertical
  have h1 : ∀ v : V3, q.rotate v = v.x • q.rotate ⟨1, 0, 0⟩ + v.y • q.rotate ⟨0, 1, 0⟩ + v.z • (⟨0, 0, 1⟩ : V3) := by
    intro v
    rw [← hz, ← Q.rotate_smul, ← Q.rotate_smul, ← Q.rotate_smul, ← Q.rotate_add, ← Q.rotate_add]
    congr 1
    ext <;> simp
  have hc := (Q.isRot hq).cross ⟨0, 0, 1⟩ ⟨1, 0, 0⟩
  have e1 : V3.cross (⟨0, 0, 1⟩ : V3) ⟨1, 0, 0⟩ = ⟨0, 1, 0⟩ := by ext <;> simp
  rw [e1] at hc
  have hc' : V3.cross (q.rotate ⟨0, 0, 1⟩) (q.rotate ⟨1, 0, 0⟩) = q.rotate ⟨0, 1, 0⟩ := hc
  rw [hz] at hc'
  have hd := (Q.isRot hq).dot ⟨1, 0, 0⟩ ⟨0, 0, 1⟩
  have hd' : V3.dot (q.rotate ⟨1, 0, 0⟩) (q.rotate ⟨0, 0, 1⟩) = 0 := by
    refine hd.trans ?_
    simp [V3.dot]
  rw [hz] at hd'
  rw [h1 (turned a x), h1 x]
  rw [← hc']
  generalize q.rotate ⟨1, 0, 0⟩ = u at *
  have hu : u.z = 0 := by simpa [V3.dot] using hd'
  unfold turned
  ext
  · simp [hu]; ring
  · simp [hu]; ring
  · simp [hu]

theorem mean_step (junk junk' : ℝ) (m : MeanFrame) (V : V3) (W : ℝ) (hs : Seen m V W) (hl : LevelFrame m.base.frame) (n : Node) (hn : UniformNode V W n) (t : ℝ) :
    Seen (m.step junk junk' (n, t)) V W ∧ LevelFrame (m.step junk junk' (n, t)).base.frame ∧
    MovedFor m.base.frame (m.step junk junk' (n, t)).base.frame V W ((m.step junk junk' (n, t)).prevTime - m.prevTime) ∧
    |t - (m.step junk junk' (n, t)).prevTime| < fltEps ∧
    (fltEps ≤ |t - m.prevTime| → (m.step junk junk' (n, t)).prevTime = t ∧ (m.step junk junk' (n, t)).base.vel = V ∧ (m.step junk junk' (n, t)).base.w = W) ∧
    (m.base.vel = V ∧ m.base.w = W → (m.step junk junk' (n, t)).base.vel = V ∧ (m.step junk junk' (n, t)).base.w = W) := by
  by_cases h : |t - m.prevTime| < fltEps
  · have e : m.step junk junk' (n, t) = { m with base := { m.base with node := n } } := by
      unfold MeanFrame.step MeanFrame.compute
      simp only []
      rw [if_pos h]
    rw [e]
    refine ⟨⟨hs.cap, hs.speed, hs.rate, hs.noCorr⟩, hl, ⟨?_, fun x => ?_⟩, h, fun h' => absurd h (not_lt.mpr h'), id⟩
    · show m.base.frame.getPosition .NWU = m.base.frame.getPosition .NWU + (m.prevTime - m.prevTime) • V
      rw [sub_self]; ext <;> simp
    · show axesOf m.base.frame x = turned (W * (m.prevTime - m.prevTime)) _
      rw [sub_self, mul_zero, turned_zero]
  · obtain ⟨s1, s2, s3⟩ := record_const m.speed hs.cap.1 V hs.speed t
    obtain ⟨r1, r2, r3⟩ := record_const m.rate hs.cap.2 W hs.rate t
    have hv := mean_const _ V s1 s2
    have hw := mean_const _ W r1 r2
    have e : m.step junk junk' (n, t) = ⟨{ m.base with node := n, vel := V, w := W, frame := ((m.base.frame.setPosition (m.base.frame.getPosition .NWU + (t - m.prevTime) • V) .NWU).setRotation (rotAxisAngle m.base.frame.rot ⟨0, 0, 1⟩ (W * (t - m.prevTime)) .NWU)) }, m.speed.record t V, m.rate.record t W, none, t⟩ := by
      unfold MeanFrame.step MeanFrame.compute
      simp only []
      rw [if_neg h, hs.noCorr, hn.1, hn.2]
      simp only [hv, hw]
    rw [e]
    have hq : ∀ a : ℝ, quatOfAxisAngle ⟨0, 0, 1⟩ a .NWU = Q.ofAngAxis a V3.e3 := fun a => rfl
    have hr : ∀ a : ℝ, ∀ x, (rotAxisAngle m.base.frame.rot ⟨0, 0, 1⟩ a .NWU).rotate x = turned a (m.base.frame.rot.rotate x) := by
      intro a x
      unfold rotAxisAngle
      rw [hq, Q.rotate_mul hl.1 (yawQ_unit _), yawQ_rotate]
      exact right_turn hl.1 hl.2 a x
    refine ⟨⟨⟨by rw [s3]; exact hs.cap.1, by rw [r3]; exact hs.cap.2⟩, s1, r1, rfl⟩, ⟨?_, ?_⟩, ⟨rfl, fun x => ?_⟩, ?_, fun _ => ⟨rfl, rfl, rfl⟩, fun _ => ⟨rfl, rfl⟩⟩
    · show (m.base.frame.rot.mul (quatOfAxisAngle ⟨0, 0, 1⟩ _ .NWU)).IsUnit
      rw [hq]; exact hl.1.mul (yawQ_unit _)
    · refine (hr _ _).trans ?_
      have h2 : m.base.frame.rot.rotate ⟨0, 0, 1⟩ = ⟨0, 0, 1⟩ := hl.2
      show turned _ (m.base.frame.rot.rotate ⟨0, 0, 1⟩) = _
      rw [h2]
      ext <;> simp [turned]
    · exact hr _ _
    · show |t - t| < fltEps
      rw [sub_self, abs_zero]; exact fltEps_pos

/-- **C85, uniform motion.** For a body at constant velocity and rate of turn, whatever the persistence and sampling step (at least one sample), and whatever the times of the
simulation: from the first computation on, the velocities of the frame are those of the body, and between the first and the last computations the frame has
moved with the body. (What happens at the first computation is the subject of `C85_first_step_wrong`.) -/
theorem C85_uniform_partial (mem junk junk' : ℝ) (e : EqFrame) (hl : LevelFrame e.frame) (persistence step : ℝ) (hs : 0 < step) (hp : step ≤ persistence)
    (V : V3) (W : ℝ) (n1 : Node) (t1 : ℝ) (h1 : UniformNode V W n1) (hm : fltEps ≤ |t1 - mem|) (xs : List (Node × ℝ)) (hx : ∀ x ∈ xs, UniformNode V W x.1) :
    let m1 := (MeanFrame.new mem e persistence step).step junk junk' (n1, t1)
    let m := m1.run junk junk' xs
    m.base.velocityInWorld .NWU = V ∧ (m.base.angularVelocity .NWU).z = W ∧ LevelFrame m.base.getFrame ∧
    ∃ T, |((xs.map Prod.snd).getLastD t1) - T| < fltEps ∧ MovedFor m1.base.getFrame m.base.getFrame V W (T - t1) := by
  intro m1 m
  have hcap : 1 ≤ ⌊persistence / step⌋₊ := by
    rw [Nat.one_le_floor_iff, one_le_div hs]; exact hp
  have seen0 : Seen (MeanFrame.new mem e persistence step) V W := by
    refine ⟨⟨hcap, hcap⟩, ?_, ?_, rfl⟩ <;> intro x hx <;> simp [MeanFrame.new, Rec.init, Rec.new] at hx
  obtain ⟨a1, a2, -, -, a5, -⟩ := mean_step junk junk' _ V W seen0 hl n1 h1 t1
  obtain ⟨b1, b2, b3⟩ := a5 hm
  have key : ∀ xs : List (Node × ℝ), (∀ x ∈ xs, UniformNode V W x.1) →
      Seen (m1.run junk junk' xs) V W ∧ LevelFrame (m1.run junk junk' xs).base.frame ∧ (m1.run junk junk' xs).base.vel = V ∧ (m1.run junk junk' xs).base.w = W ∧
      |((xs.map Prod.snd).getLastD t1) - (m1.run junk junk' xs).prevTime| < fltEps ∧
      MovedFor m1.base.frame (m1.run junk junk' xs).base.frame V W ((m1.run junk junk' xs).prevTime - t1) := by
    intro xs
    induction xs using List.reverseRecOn with
    | nil =>
      intro _
      refine ⟨a1, a2, b2, b3, ?_, ?_, fun x => ?_⟩
      · show |t1 - m1.prevTime| < _
        rw [b1, sub_self, abs_zero]; exact fltEps_pos
      · show m1.base.frame.getPosition .NWU = m1.base.frame.getPosition .NWU + (m1.prevTime - t1) • V
        rw [b1, sub_self]; ext <;> simp
      · show axesOf m1.base.frame x = turned (W * (m1.prevTime - t1)) _
        rw [b1, sub_self, mul_zero, turned_zero]
    | append_singleton xs x ih =>
      intro hx
      obtain ⟨i1, i2, i3, i4, i5, i6, i7⟩ := ih fun y hy => hx y (by simp [hy])
      have hr : m1.run junk junk' (xs ++ [x]) = (m1.run junk junk' xs).step junk junk' x := by simp [MeanFrame.run]
      rw [hr]
      generalize m1.run junk junk' xs = m2 at *
      obtain ⟨c1, c2, ⟨c3, c3'⟩, c4, c5, c6⟩ := mean_step junk junk' m2 V W i1 i2 x.1 (hx x (by simp)) x.2
      have c7 := c6 ⟨i3, i4⟩
      refine ⟨c1, c2, c7.1, c7.2, ?_, ?_, fun y => ?_⟩
      · simp only [List.map_append, List.map_cons, List.map_nil]
        rw [List.getLastD_concat]
        exact c4
      · rw [show m2.step junk junk' x = m2.step junk junk' (x.1, x.2) from rfl, c3, i6]; ext <;> simp <;> ring
      · rw [show m2.step junk junk' x = m2.step junk junk' (x.1, x.2) from rfl, c3', i7, turned_add]; congr 1; ring
  obtain ⟨k1, k2, k3, k4, k5, k6⟩ := key xs hx
  exact ⟨k3, k4, k2, _, k5, k6⟩

/-- The hypotheses are met: 10 s of persistence, samples every 0.1 s. -/
example : UniformNode ⟨1, 0, 0⟩ 0.1 ⟨Frame.identity, Frame.identity, ⟨1, 0, 0⟩, ⟨0, 0, 0.1⟩⟩ ∧ LevelFrame Frame.identity := ⟨⟨rfl, rfl⟩, identity_level⟩

/-- **C85, first computation (defect).** The previous time is not initialised: for a body moving along x at the speed `V.x ≠ 0`, every displacement of the frame along x (beyond the
threshold) is obtained at the first computation for some content of memory. -/
theorem C85_first_step_wrong (junk junk' : ℝ) (e : EqFrame) (hl : LevelFrame e.frame) (persistence step : ℝ) (hs : 0 < step) (hp : step ≤ persistence)
    (V : V3) (W : ℝ) (n1 : Node) (t1 : ℝ) (h1 : UniformNode V W n1) (hV : V.x ≠ 0) (D : ℝ) (hD : fltEps * |V.x| ≤ |D|) :
    ∃ mem, (((MeanFrame.new mem e persistence step).step junk junk' (n1, t1)).base.positionInWorld .NWU).x = (e.positionInWorld .NWU).x + D := by
  have hcap : 1 ≤ ⌊persistence / step⌋₊ := by
    rw [Nat.one_le_floor_iff, one_le_div hs]; exact hp
  refine ⟨t1 - D / V.x, ?_⟩
  have seen0 : Seen (MeanFrame.new (t1 - D / V.x) e persistence step) V W := by
    refine ⟨⟨hcap, hcap⟩, ?_, ?_, rfl⟩ <;> intro x hx <;> simp [MeanFrame.new, Rec.init, Rec.new] at hx
  obtain ⟨-, -, ⟨a3, -⟩, -, a5, -⟩ := mean_step junk junk' _ V W seen0 hl n1 h1 t1
  have hV' : 0 < |V.x| := abs_pos.mpr hV
  have hm : fltEps ≤ |t1 - (t1 - D / V.x)| := by
    rw [sub_sub_cancel, abs_div, le_div_iff₀ hV']; exact hD
  have hpt := (a5 hm).1
  rw [hpt] at a3
  show ((MeanFrame.step junk junk' _ (n1, t1)).base.frame.getPosition .NWU).x = _
  rw [a3]
  show (e.frame.getPosition .NWU).x + (t1 - (t1 - D / V.x)) * V.x = _
  rw [sub_sub_cancel, div_mul_cancel₀ D hV]
  rfl

/-! ## The correction -/

/-- A recorder that keeps one value. -/
def One {T : Type*} (r : Rec T) (t : ℝ) : Prop := r.cap = 1 ∧ r.data.length ≤ 1 ∧ (r.data = [] ∨ r.last = t)

theorem record_one {T : Type*} [AddCommGroup T] [Module ℝ T] (r : Rec T) (t0 t : ℝ) (h : One r t0) (ht : t ≠ t0) (v : T) :
    One (r.record t v) t ∧ (r.record t v).mean = v := by
  obtain ⟨hc, hl, h0⟩ := h
  have key : (r.record t v).data = [v] ∧ (r.record t v).cap = 1 ∧ (r.record t v).last = t := by
    unfold Rec.record
    cases hd : r.data with
    | nil => simp [pushFront, hc]
    | cons a l =>
      have h1 : ¬ t = r.last := by
        rcases h0 with h | h
        · rw [hd] at h; cases h
        · rw [h]; exact ht
      simp only []
      rw [if_neg h1]
      have hl' : l = [] := by
        rw [hd] at hl
        exact List.eq_nil_of_length_eq_zero (by simpa using hl)
      split_ifs
      · exact ⟨by rw [hl']; rfl, hc, rfl⟩
      · simp [pushFront, hc]
  refine ⟨⟨key.2.1, by rw [key.1]; simp, Or.inr key.2.2⟩, ?_⟩
  unfold Rec.mean
  rw [key.1]; simp

/-- The recorders of velocities have seen nothing else than `V` and `W`, and a correction with a memory of one value is on, with coefficients `cp` and `ca`. -/
structure Corrected (m : MeanFrame) (V : V3) (W cp ca : ℝ) : Prop where
  cap : 1 ≤ m.speed.cap ∧ 1 ≤ m.rate.cap
  speed : Const m.speed V
  rate : Const m.rate W
  on : ∃ c, m.corr = some c ∧ c.posCoeff = cp ∧ c.angCoeff = ca ∧ One c.posRec m.prevTime ∧ One c.angRec m.prevTime

theorem corrected_step (junk junk' : ℝ) (m : MeanFrame) (V : V3) (W cp ca : ℝ) (hs : Corrected m V W cp ca) (n : Node) (hn : UniformNode V W n) (t : ℝ) (ht : fltEps ≤ |t - m.prevTime|) :
    let m' := m.step junk junk' (n, t)
    Corrected m' V W cp ca ∧ m'.prevTime = t ∧
    m'.base.frame.getPosition .NWU = m.base.frame.getPosition .NWU + (t - m.prevTime) • V + cp • (n.positionInWorld .NWU - m.base.frame.getPosition .NWU) ∧
    m'.base.frame.rot = rotAxisAngle m.base.frame.rot ⟨0, 0, 1⟩
      (W * (t - m.prevTime) + ((getCardan junk' .NWU n.frameInWorld.rot).yaw - (getCardan junk .NWU m.base.frame.rot).yaw) * ca) .NWU := by
  obtain ⟨c, e1, e2, e3, o1, o2⟩ := hs.on
  have hne : t ≠ m.prevTime := by
    intro e
    rw [e, sub_self, abs_zero] at ht
    exact absurd ht (not_le.mpr fltEps_pos)
  obtain ⟨s1, s2, s3⟩ := record_const m.speed hs.cap.1 V hs.speed t
  obtain ⟨r1, r2, r3⟩ := record_const m.rate hs.cap.2 W hs.rate t
  have hv := mean_const _ V s1 s2
  have hw := mean_const _ W r1 r2
  obtain ⟨p1, p2⟩ := record_one c.posRec m.prevTime t o1 hne (n.positionInWorld .NWU - m.base.frame.getPosition .NWU)
  obtain ⟨a1, a2⟩ := record_one c.angRec m.prevTime t o2 hne ((getCardan junk' .NWU n.frameInWorld.rot).yaw - (getCardan junk .NWU m.base.frame.rot).yaw)
  have e : m.step junk junk' (n, t) =
      ⟨{ m.base with
          node := n
          vel := V
          w := W
          frame := ((m.base.frame.setPosition (m.base.frame.getPosition .NWU + (t - m.prevTime) • V + cp • (n.positionInWorld .NWU - m.base.frame.getPosition .NWU)) .NWU).setRotation
            (rotAxisAngle m.base.frame.rot ⟨0, 0, 1⟩
              (W * (t - m.prevTime) + ((getCardan junk' .NWU n.frameInWorld.rot).yaw - (getCardan junk .NWU m.base.frame.rot).yaw) * ca) .NWU)) },
        m.speed.record t V, m.rate.record t W,
        some { c with
          posRec := c.posRec.record t (n.positionInWorld .NWU - m.base.frame.getPosition .NWU)
          angRec := c.angRec.record t ((getCardan junk' .NWU n.frameInWorld.rot).yaw - (getCardan junk .NWU m.base.frame.rot).yaw) }, t⟩ := by
    unfold MeanFrame.step MeanFrame.compute
    simp only []
    rw [if_neg (not_lt.mpr ht), e1, hn.1, hn.2]
    simp only [hv, hw, p2, a2, e2, e3]
  intro m'
  have em : m' = m.step junk junk' (n, t) := rfl
  rw [em, e]
  exact ⟨⟨⟨by rw [s3]; exact hs.cap.1, by rw [r3]; exact hs.cap.2⟩, s1, r1, _, rfl, e2, e3, p1, a1⟩, rfl, rfl, rfl⟩

/-- **C85, correction (defect).** The position error is measured between the body after the step and the frame before it. For a body in uniform motion at the velocity `V`, with a correction keeping one value and a constant time step `dt`, the distance from the body to
the frame after `k` steps, plus `dt V`, is multiplied by `1 - c` at every step: for `0 < c < 2` the frame does not settle on the body but one step ahead of it, even when it starts on the body. -/
theorem C85_correction_wrong (junk junk' : ℝ) (m : MeanFrame) (V : V3) (W cp ca : ℝ) (hs : Corrected m V W cp ca) (dt : ℝ) (hdt : fltEps ≤ dt) (p0 : V3)
    (node : ℕ → Node) (hn : ∀ k, UniformNode V W (node k) ∧ (node k).positionInWorld .NWU = p0 + ((k + 1 : ℝ) * dt) • V) :
    let frameAt : ℕ → V3 := fun k => (m.run junk junk' ((List.range k).map fun i => (node i, m.prevTime + (i + 1 : ℝ) * dt))).base.positionInWorld .NWU
    let error : ℕ → V3 := fun k => p0 + ((k : ℝ) * dt) • V - frameAt k
    (∀ k, error k + dt • V = (1 - cp) ^ k • (p0 - m.base.positionInWorld .NWU + dt • V)) ∧
    (0 < cp → cp < 2 → Filter.Tendsto (fun k => (error k).x) Filter.atTop (nhds (-(dt * V.x))) ∧ Filter.Tendsto (fun k => (error k).y) Filter.atTop (nhds (-(dt * V.y))) ∧
      Filter.Tendsto (fun k => (error k).z) Filter.atTop (nhds (-(dt * V.z)))) := by
  intro frameAt error
  have h0 : 0 < dt := fltEps_pos.trans_le hdt
  have key : ∀ k, Corrected (m.run junk junk' ((List.range k).map fun i => (node i, m.prevTime + (i + 1 : ℝ) * dt))) V W cp ca ∧
      (m.run junk junk' ((List.range k).map fun i => (node i, m.prevTime + (i + 1 : ℝ) * dt))).prevTime = m.prevTime + (k : ℝ) * dt ∧
      error k + dt • V = (1 - cp) ^ k • (p0 - m.base.positionInWorld .NWU + dt • V) := by
    intro k
    induction k with
    | zero =>
      refine ⟨hs, ?_, ?_⟩
      · show m.prevTime = _; simp
      · show p0 + (((0 : ℕ) : ℝ) * dt) • V - m.base.positionInWorld .NWU + dt • V = _
        ext <;> simp
    | succ k ih =>
      obtain ⟨i1, i2, i3⟩ := ih
      have hr : m.run junk junk' ((List.range (k + 1)).map fun i => (node i, m.prevTime + (i + 1 : ℝ) * dt)) =
          (m.run junk junk' ((List.range k).map fun i => (node i, m.prevTime + (i + 1 : ℝ) * dt))).step junk junk' (node k, m.prevTime + (k + 1 : ℝ) * dt) := by
        rw [List.range_succ]; simp [MeanFrame.run]
      have hf : error (k + 1) = p0 + (((k + 1 : ℕ) : ℝ) * dt) • V -
          ((m.run junk junk' ((List.range k).map fun i => (node i, m.prevTime + (i + 1 : ℝ) * dt))).step junk junk' (node k, m.prevTime + (k + 1 : ℝ) * dt)).base.frame.getPosition .NWU := by
        rw [← hr]; rfl
      have he : error k = p0 + ((k : ℝ) * dt) • V - (m.run junk junk' ((List.range k).map fun i => (node i, m.prevTime + (i + 1 : ℝ) * dt))).base.frame.getPosition .NWU := rfl
      rw [hr, hf]
      rw [he] at i3
      generalize m.run junk junk' ((List.range k).map fun i => (node i, m.prevTime + (i + 1 : ℝ) * dt)) = M at *
      have hd : m.prevTime + (k + 1 : ℝ) * dt - M.prevTime = dt := by rw [i2]; ring
      obtain ⟨c1, c2, c3, -⟩ := corrected_step junk junk' M V W cp ca i1 (node k) (hn k).1 (m.prevTime + (k + 1 : ℝ) * dt) (by rw [hd, abs_of_pos h0]; exact hdt)
      refine ⟨c1, by rw [c2]; push_cast; ring, ?_⟩
      rw [c3, hd, (hn k).2, pow_succ]
      generalize M.base.frame.getPosition .NWU = F at *
      have ix := congrArg V3.x i3
      have iy := congrArg V3.y i3
      have iz := congrArg V3.z i3
      simp only [V3.add_x, V3.add_y, V3.add_z, V3.sub_x, V3.sub_y, V3.sub_z, V3.smul_x, V3.smul_y, V3.smul_z] at ix iy iz
      ext
      · simp only [V3.add_x, V3.sub_x, V3.smul_x]; push_cast; linear_combination (1 - cp) * ix
      · simp only [V3.add_y, V3.sub_y, V3.smul_y]; push_cast; linear_combination (1 - cp) * iy
      · simp only [V3.add_z, V3.sub_z, V3.smul_z]; push_cast; linear_combination (1 - cp) * iz
  refine ⟨fun k => (key k).2.2, ?_⟩
  intro hc0 hc2
  have ha : |1 - cp| < 1 := by rw [abs_lt]; constructor <;> linarith
  have lim : ∀ (f : ℕ → ℝ) (a b : ℝ), (∀ k, f k + b = (1 - cp) ^ k * a) → Filter.Tendsto f Filter.atTop (nhds (-b)) := by
    intro f a b hf
    have := ((tendsto_pow_atTop_nhds_zero_of_abs_lt_one ha).mul_const a).add_const (-b)
    rw [zero_mul, zero_add] at this
    exact this.congr fun k => by rw [← hf k]; ring
  exact ⟨lim _ _ _ fun k => congrArg V3.x (key k).2.2, lim _ _ _ fun k => congrArg V3.y (key k).2.2, lim _ _ _ fun k => congrArg V3.z (key k).2.2⟩

/-- **C85, correction across south (defect).** Frame and body at rest, level, headings `π - d` and `π + d`: the frame should turn by `2d c` to the left; it is turned by `(2π - 2d) c` to the right. -/
theorem C85_correction_heading_wrong (junk junk' : ℝ) (m : MeanFrame) (cp ca : ℝ) (hs : Corrected m 0 0 cp ca) (d t : ℝ) (hd : 0 < d) (hd' : d < Real.pi) (ht : fltEps ≤ |t - m.prevTime|)
    (n : Node) (hn : UniformNode 0 0 n) (hb : n.frameInWorld.rot = Q.ofAngAxis (Real.pi + d) V3.e3) (hf : m.base.frame.rot = Q.ofAngAxis (Real.pi - d) V3.e3) (x : V3) :
    axesOf n.frameInWorld x = turned (2 * d) (axesOf m.base.getFrame x) ∧
    axesOf (m.step junk junk' (n, t)).base.getFrame x = turned (-((2 * Real.pi - 2 * d) * ca)) (axesOf m.base.getFrame x) := by
  constructor
  · show n.frameInWorld.rot.rotate x = turned _ (m.base.frame.rot.rotate x)
    rw [hb, hf, yawQ_rotate, yawQ_rotate, turned_add]
    congr 1; ring
  · obtain ⟨-, -, -, h⟩ := corrected_step junk junk' m 0 0 cp ca hs n hn t ht
    show (MeanFrame.step junk junk' m (n, t)).base.frame.rot.rotate x = turned _ (m.base.frame.rot.rotate x)
    rw [h, hb, hf, yaw_across junk' d hd hd', yaw_of_yawQ junk _ (by linarith) (by linarith)]
    unfold rotAxisAngle
    rw [show quatOfAxisAngle ⟨0, 0, 1⟩ _ .NWU = Q.ofAngAxis _ V3.e3 from rfl, Q.rotate_mul (yawQ_unit _) (yawQ_unit _), yawQ_rotate, yawQ_rotate, yawQ_rotate, turned_add, turned_add]
    congr 1; ring

/-- **C85, setting the correction.** On a new frame, a correction asked for with a persistence of one recorder step is the one of the two theorems above, with the coefficient of the positions and the
coefficient of the angle in the order in which they are passed; the frame itself is not moved by the call. -/
theorem C85_correction_set (mem : ℝ) (e : EqFrame) (persistence step : ℝ) (hs : 0 < step) (hp : step ≤ persistence) (persistence' : ℝ) (hp' : 0 < persistence') (cp ca : ℝ) (V : V3) (W : ℝ) :
    Corrected ((MeanFrame.new mem e persistence step).setCorrection persistence' persistence' cp ca) V W cp ca ∧
    ((MeanFrame.new mem e persistence step).setCorrection persistence' persistence' cp ca).base = e := by
  have h1 : ⌊persistence' / persistence'⌋₊ = 1 := by rw [div_self hp'.ne']; exact Nat.floor_one
  have h2 : 1 ≤ ⌊persistence / step⌋₊ := by rw [Nat.one_le_floor_iff, one_le_div hs]; exact hp
  refine ⟨⟨⟨h2, h2⟩, ?_, ?_, _, rfl, rfl, rfl, ⟨h1, ?_, Or.inl ?_⟩, ⟨h1, ?_, Or.inl ?_⟩⟩, rfl⟩
  · intro x hx; simp [MeanFrame.setCorrection, MeanFrame.new, Rec.init, Rec.new] at hx
  · intro x hx; simp [MeanFrame.setCorrection, MeanFrame.new, Rec.init, Rec.new] at hx
  all_goals simp [Rec.init, Rec.new]

/-- A concrete correction. -/
example (mem : ℝ) (e : EqFrame) (V : V3) (W : ℝ) : Corrected ((MeanFrame.new mem e 10 0.1).setCorrection 1 1 0.5 0.25) V W 0.5 0.25 :=
  (C85_correction_set mem e 10 0.1 (by norm_num) (by norm_num) 1 one_pos 0.5 0.25 V W).1

end Frydom.Hydro
