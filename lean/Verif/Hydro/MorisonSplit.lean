import Verif.Hydro.MorisonGeometry

/-!
# Morison elements: discretisation (C99), attitudes (C100), flags (C101)
-/

open Classical

noncomputable section

namespace Frydom.Hydro.Morison
open Frydom.Geom Frydom.Core Frydom.Hydro

/-! ## C99: discretisation -/

theorem axes_congr {A B A' B' vect : V3} (h : V3.normalized (B' - A') = V3.normalized (B - A)) : axes A' B' vect = axes A B vect := by
  unfold axes; rw [h]

/-- The i-th piece of a segment cut in n. -/
def pieceStart (A B : V3) (n i : ℕ) : V3 := A + (i : ℝ) • ((1 / (n : ℝ)) • (B - A))

/-- The explicit form of the element between two points. -/
def explicit (mem : Bool) (b : Body) (A B : V3) (q : Q) (D L : ℝ) (ca cd : Coeff) (cf : ℝ) : Single :=
  Single.setVolume ⟨(Node.new b).setFrameInBody b ⟨(0.5 : ℝ) • (A + B), q⟩, ⟨cd, ca, cf, D, L, 0⟩, mem, false, 0, 0⟩

theorem newSingle_explicit (mem : Bool) (b : Body) (A B : V3) (D : ℝ) (ca cd : Coeff) (cf : ℝ) (perp : V3) (q : Q)
    (hq : rotOfAxes (axes A B perp).1 (axes A B perp).2.1 (axes A B perp).2.2 .NWU = some q) :
    newSingle mem b A B D ca cd cf perp = some (explicit mem b A B q D (V3.norm (B - A)) ca cd cf) := by
  unfold newSingle makeNode explicit; simp only []; rw [hq]; rfl

theorem split_explicit (mem : Bool) (b : Body) (A B : V3) (D : ℝ) (ca cd : Coeff) (cf : ℝ) (perp : V3) (q : Q) (n : ℕ) (hn : 0 < n)
    (hq : rotOfAxes (axes A B perp).1 (axes A B perp).2.1 (axes A B perp).2.2 .NWU = some q) :
    split mem b A B D ca cd cf n perp = (List.range n).map fun i =>
      some (explicit mem b (pieceStart A B n i) (pieceStart A B n i + (1 / (n : ℝ)) • (B - A)) q D (1 / (n : ℝ) * V3.norm (B - A)) ca cd cf) := by
  have hn' : (0 : ℝ) < 1 / (n : ℝ) := by positivity
  unfold split
  refine List.map_congr_left fun i _ => ?_
  simp only []
  have e : (pieceStart A B n i + (1 / (n : ℝ)) • (B - A)) - pieceStart A B n i = (1 / (n : ℝ)) • (B - A) := by
    ext <;> simp
  have ha : axes (pieceStart A B n i) (pieceStart A B n i + (1 / (n : ℝ)) • (B - A)) perp = axes A B perp :=
    axes_congr (by rw [e]; exact normalized_smul hn' _)
  have hq' := hq
  rw [← ha] at hq'
  have := newSingle_explicit mem b (pieceStart A B n i) (pieceStart A B n i + (1 / (n : ℝ)) • (B - A)) D ca cd cf perp q hq'
  rw [e, norm_smul, abs_of_pos hn'] at this
  exact this

/-- A body at rest. -/
def AtRest (b : Body) : Prop := b.posDt = 0 ∧ b.rotDt = ⟨0, 0, 0, 0⟩

/-- A flow that is the same everywhere. -/
def Uniform (S : Sea) : Prop := ∃ u a c : V3, ∀ p, S.waveVel p = u ∧ S.waveAcc p = a ∧ S.current p = c

theorem explicit_vel (mem : Bool) {b : Body} (hr : AtRest b) (A B : V3) (q : Q) (D L : ℝ) (ca cd : Coeff) (cf : ℝ) :
    (explicit mem b A B q D L ca cd cf).node.velocityInWorld .NWU = 0 := by
  show b.posDt + (2:ℝ) • qvec ((b.rotDt.mul (qpure _)).mul b.cog.rot.conj) = 0
  rw [hr.1, hr.2]
  ext <;> simp [qvec, Q.mul]

theorem explicit_force (x mem : Bool) (S : Sea) (hS : Uniform S) {b : Body} (hr : AtRest b) (A B A' B' : V3) (q : Q) (D L : ℝ) (k : ℝ)
    (ca cd : Coeff) (cf : ℝ) :
    forceOf S (fun _ => 0) b { explicit mem b A' B' q D (k * L) ca cd cf with extended := x } =
      k • forceOf S (fun _ => 0) b { explicit mem b A B q D L ca cd cf with extended := x } := by
  obtain ⟨u, a, c, hS⟩ := hS
  have hv : ∀ (A B : V3) (L : ℝ), Single.flowVelocity S b { explicit mem b A B q D L ca cd cf with extended := x } =
      (b.cog.rot.mul q).conj.rotate (b.cog.rot.conj.rotate (u + if mem then c else 0)) := by
    intro A B L
    rw [flow_eq]
    congr 2
    have h0 := explicit_vel mem hr A B q D L ca cd cf
    unfold relFlow
    rw [(hS _).1, (hS _).2.2]
    show u + (if mem then c else 0) - (explicit mem b A B q D L ca cd cf).node.velocityInWorld .NWU = _
    rw [h0]
    ext <;> simp
  have hA : ∀ (A B : V3) (L : ℝ), Single.flowAcceleration S (fun _ => 0) b { explicit mem b A B q D L ca cd cf with extended := x } =
      (b.cog.rot.mul q).conj.rotate (b.cog.rot.conj.rotate (a - 0)) := by
    intro A B L
    rw [accel_eq, (hS _).2.1]
    rfl
  have hl : Single.localForce S (fun _ => 0) b { explicit mem b A' B' q D (k * L) ca cd cf with extended := x } =
      k • Single.localForce S (fun _ => 0) b { explicit mem b A B q D L ca cd cf with extended := x } := by
    unfold Single.localForce
    rw [hv, hv, hA, hA]
    generalize (b.cog.rot.mul q).conj.rotate (b.cog.rot.conj.rotate (u + if mem then c else 0)) = v
    generalize (b.cog.rot.mul q).conj.rotate (b.cog.rot.conj.rotate (a - 0)) = g
    have e1 : (explicit mem b A' B' q D (k * L) ca cd cf).props = ⟨cd, ca, cf, D, k * L, Real.pi / 4 * D * D * (k * L)⟩ := rfl
    have e2 : (explicit mem b A B q D L ca cd cf).props = ⟨cd, ca, cf, D, L, Real.pi / 4 * D * D * L⟩ := rfl
    simp only [e1, e2]
    rcases Bool.eq_false_or_eq_true x with h | h <;> rw [h] <;> simp only [if_true, if_false, Bool.false_eq_true]
    · ext
      · simp only [V3.smul_x]; ring
      · simp only [V3.smul_y]; ring
      · simp only [V3.smul_z]; ring
    · ext
      · simp only [V3.smul_x]; ring
      · simp only [V3.smul_y]; ring
      · simp only [V3.smul_z]; ring
  rw [force_eq, force_eq, hl]
  show b.cog.rot.rotate ((b.cog.rot.mul q).rotate (k • _)) = k • b.cog.rot.rotate ((b.cog.rot.mul q).rotate _)
  rw [Q.rotate_smul, Q.rotate_smul]

theorem explicit_centre (x mem : Bool) {b : Body} (hb : Placed b) (A B : V3) (q : Q) (D L : ℝ) (ca cd : Coeff) (cf : ℝ) :
    centre { explicit mem b A B q D L ca cd cf with extended := x } = b.refPos + b.cog.rot.rotate ((1 / 2 : ℝ) • (A + B)) := by
  show b.cog.pos + b.cog.rot.rotate ((0.5 : ℝ) • (A + B) - b.cogInRef) = _
  rw [hb.cog, Q.rotate_sub, Q.rotate_smul, Q.rotate_smul]
  ext
  · simp only [V3.sub_x, V3.add_x, V3.smul_x]; ring
  · simp only [V3.sub_y, V3.add_y, V3.smul_y]; ring
  · simp only [V3.sub_z, V3.add_z, V3.smul_z]; ring

theorem sum_const (n : ℕ) (F : V3) : ((List.range n).map fun _ => F).sum = (n : ℝ) • F := by
  induction n with
  | zero => ext <;> simp
  | succ n ih =>
    rw [List.range_succ, List.map_append, List.sum_append, ih]
    ext <;> simp <;> ring

theorem sum_cross (n : ℕ) (c d F : V3) :
    ((List.range n).map fun (i : ℕ) => V3.cross (c + (i : ℝ) • d) F).sum = V3.cross ((n : ℝ) • c + ((n : ℝ) * (n - 1) / 2) • d) F := by
  induction n with
  | zero => ext <;> simp
  | succ n ih =>
    rw [List.range_succ, List.map_append, List.sum_append, ih]
    ext
    · simp only [List.map_cons, List.map_nil, List.sum_cons, List.sum_nil, add_zero, V3.add_x, V3.cross_x, V3.add_y, V3.add_z, V3.smul_y, V3.smul_z]
      push_cast; ring
    · simp only [List.map_cons, List.map_nil, List.sum_cons, List.sum_nil, add_zero, V3.add_y, V3.cross_y, V3.add_x, V3.add_z, V3.smul_x, V3.smul_z]
      push_cast; ring
    · simp only [List.map_cons, List.map_nil, List.sum_cons, List.sum_nil, add_zero, V3.add_z, V3.cross_z, V3.add_x, V3.add_y, V3.smul_x, V3.smul_y]
      push_cast; ring

/-- **C99, discretisation.** Adding the segment between two points as n ≥ 1 elements gives n attached elements, whose lengths and volumes add up to those of the segment; and
on a body at rest in a uniform flow the load of the n elements (drag, and inertia if used) is the load of the single element between the same points: same force and same moment about every
point. -/
theorem C99_split (x mem : Bool) (S : Sea) (hS : Uniform S) (b : Body) (hb : Placed b) (hr : AtRest b) (A B : V3) (D : ℝ) (ca cd : Coeff) (cf : ℝ) (perp : V3)
    (h : Usable A B perp) (n : ℕ) (hn : 0 < n) :
    ∃ (s : Single) (l : List Single), newSingle mem b A B D ca cd cf perp = some s ∧ split mem b A B D ca cd cf n perp = l.map some ∧ l.length = n ∧
      (∀ t ∈ l, Attached b t.node) ∧
      (l.map fun t => t.props.length).sum = s.props.length ∧ (l.map fun t => t.props.volume).sum = s.props.volume ∧
      (l.map fun t => forceOf S (fun _ => 0) b { t with extended := x }).sum = forceOf S (fun _ => 0) b { s with extended := x } ∧
      ∀ a : V3, (l.map fun t => V3.cross (centre t - a) (forceOf S (fun _ => 0) b { t with extended := x })).sum =
        V3.cross (centre s - a) (forceOf S (fun _ => 0) b { s with extended := x }) := by
  obtain ⟨q, hq, hu, -⟩ := makeNode_spec h b
  have hn' : (n : ℝ) ≠ 0 := by positivity
  refine ⟨explicit mem b A B q D (V3.norm (B - A)) ca cd cf, (List.range n).map fun i =>
      explicit mem b (pieceStart A B n i) (pieceStart A B n i + (1 / (n : ℝ)) • (B - A)) q D (1 / (n : ℝ) * V3.norm (B - A)) ca cd cf,
    newSingle_explicit mem b A B D ca cd cf perp q hq, ?_, by simp, ?_, ?_, ?_, ?_, fun a => ?_⟩
  · rw [split_explicit mem b A B D ca cd cf perp q n hn hq, List.map_map]; rfl
  · intro t ht
    obtain ⟨i, -, rfl⟩ := List.mem_map.mp ht
    exact setFrameInBody_attached _ _ _ hu
  · rw [List.map_map]
    show ((List.range n).map fun _ => 1 / (n : ℝ) * V3.norm (B - A)).sum = V3.norm (B - A)
    simp only [List.map_const', List.sum_replicate, List.length_range, nsmul_eq_mul]
    field_simp
  · rw [List.map_map]
    show ((List.range n).map fun _ => Real.pi / 4 * D * D * (1 / (n : ℝ) * V3.norm (B - A))).sum = Real.pi / 4 * D * D * V3.norm (B - A)
    simp only [List.map_const', List.sum_replicate, List.length_range, nsmul_eq_mul]
    field_simp
  · rw [List.map_map]
    have e : ∀ i : ℕ, forceOf S (fun _ => 0) b { explicit mem b (pieceStart A B n i) (pieceStart A B n i + (1 / (n : ℝ)) • (B - A)) q D (1 / (n : ℝ) * V3.norm (B - A)) ca cd cf with extended := x } =
        (1 / (n : ℝ)) • forceOf S (fun _ => 0) b { explicit mem b A B q D (V3.norm (B - A)) ca cd cf with extended := x } :=
      fun i => explicit_force x mem S hS hr A B _ _ q D _ _ ca cd cf
    simp only [Function.comp_def]
    simp only [e]
    rw [sum_const]
    generalize forceOf S (fun _ => 0) b _ = F
    ext
    · simp only [V3.smul_x]; field_simp
    · simp only [V3.smul_y]; field_simp
    · simp only [V3.smul_z]; field_simp
  · rw [List.map_map]
    have e : ∀ i : ℕ, forceOf S (fun _ => 0) b { explicit mem b (pieceStart A B n i) (pieceStart A B n i + (1 / (n : ℝ)) • (B - A)) q D (1 / (n : ℝ) * V3.norm (B - A)) ca cd cf with extended := x } =
        (1 / (n : ℝ)) • forceOf S (fun _ => 0) b { explicit mem b A B q D (V3.norm (B - A)) ca cd cf with extended := x } :=
      fun i => explicit_force x mem S hS hr A B _ _ q D _ _ ca cd cf
    have e2 : ∀ i : ℕ, centre (explicit mem b (pieceStart A B n i) (pieceStart A B n i + (1 / (n : ℝ)) • (B - A)) q D (1 / (n : ℝ) * V3.norm (B - A)) ca cd cf) - a =
        (b.refPos + b.cog.rot.rotate A + (1 / (2 * n : ℝ)) • b.cog.rot.rotate (B - A) - a) + (i : ℝ) • ((1 / (n : ℝ)) • b.cog.rot.rotate (B - A)) := by
      intro i
      have := explicit_centre false mem hb (pieceStart A B n i) (pieceStart A B n i + (1 / (n : ℝ)) • (B - A)) q D (1 / (n : ℝ) * V3.norm (B - A)) ca cd cf
      rw [show centre (explicit mem b (pieceStart A B n i) (pieceStart A B n i + (1 / (n : ℝ)) • (B - A)) q D (1 / (n : ℝ) * V3.norm (B - A)) ca cd cf) = _ from this]
      unfold pieceStart
      simp only [Q.rotate_add, Q.rotate_smul]
      generalize b.cog.rot.rotate A = a'
      generalize b.cog.rot.rotate (B - A) = d'
      ext
      · simp only [V3.sub_x, V3.add_x, V3.smul_x]; field_simp; ring
      · simp only [V3.sub_y, V3.add_y, V3.smul_y]; field_simp; ring
      · simp only [V3.sub_z, V3.add_z, V3.smul_z]; field_simp; ring
    have e3 : centre (explicit mem b A B q D (V3.norm (B - A)) ca cd cf) - a = b.refPos + b.cog.rot.rotate A + (1 / 2 : ℝ) • b.cog.rot.rotate (B - A) - a := by
      have := explicit_centre false mem hb A B q D (V3.norm (B - A)) ca cd cf
      rw [show centre (explicit mem b A B q D (V3.norm (B - A)) ca cd cf) = _ from this, Q.rotate_smul, Q.rotate_add, Q.rotate_sub]
      ext
      · simp only [V3.sub_x, V3.add_x, V3.smul_x]; ring
      · simp only [V3.sub_y, V3.add_y, V3.smul_y]; ring
      · simp only [V3.sub_z, V3.add_z, V3.smul_z]; ring
    simp only [Function.comp_def]
    simp only [e, e2, e3]
    rw [sum_cross]
    generalize forceOf S (fun _ => 0) b _ = F
    generalize b.refPos + b.cog.rot.rotate A = a'
    generalize b.cog.rot.rotate (B - A) = d'
    ext
    · simp only [V3.cross_x, V3.sub_y, V3.add_y, V3.smul_y, V3.sub_z, V3.add_z, V3.smul_z]; field_simp; ring
    · simp only [V3.cross_y, V3.sub_x, V3.add_x, V3.smul_x, V3.sub_z, V3.add_z, V3.smul_z]; field_simp; ring
    · simp only [V3.cross_z, V3.sub_x, V3.add_x, V3.smul_x, V3.sub_y, V3.add_y, V3.smul_y]; field_simp; ring

end Frydom.Hydro.Morison
