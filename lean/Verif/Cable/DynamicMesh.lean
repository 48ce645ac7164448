import Verif.Cable.DynamicProps
import Verif.Cable.CatenaryUnique

/-!
# Initial mesh, hinges and section of the dynamic cables (C142 - C144)
-/

open Classical

noncomputable section

namespace Frydom.Cable
open Frydom.Geom Frydom.Core

namespace DynCable

/-! ## C142: initial mesh -/

/-- The frames of the successive nodes. -/
def frameAt (next : ℝ → Frame → Frame) (ds : ℝ) (first : Frame) : ℕ → Frame
  | 0 => first
  | k + 1 => next (((k + 1 : ℕ) : ℝ) * ds) (frameAt next ds first k)

theorem addElements_eq (next : ℝ → Frame → Frame) (ds : ℝ) (first : Frame) (n : ℕ) :
    addElements next ds n ⟨0, first, ⟨[first], []⟩⟩ =
      ⟨n * ds, frameAt next ds first n, ⟨(List.range (n + 1)).map (frameAt next ds first), (List.range n).map fun k => (k, k + 1)⟩⟩ := by
  induction n with
  | zero => simp [addElements, frameAt]
  | succ n ih =>
    rw [addElements, ih, addElement]
    have e : (n : ℝ) * ds + ds = ((n + 1 : ℕ) : ℝ) * ds := by
      push_cast
      ring
    simp only [e]
    rw [Build.mk.injEq, FeMesh.mk.injEq]
    refine ⟨rfl, rfl, ?_, ?_⟩
    · rw [List.range_succ (n := n + 1), List.map_append]
      rfl
    · rw [List.range_succ (n := n), List.map_append]
      simp

theorem addElements_chain (next : ℝ → Frame → Frame) (ds : ℝ) (first : Frame) (n : ℕ) :
    Chain (addElements next ds n ⟨0, first, ⟨[first], []⟩⟩).mesh n (frameAt next ds first) := by
  rw [addElements_eq]
  constructor
  · intro k
    show ((List.range (n + 1)).map (frameAt next ds first))[k]? = _
    rw [List.getElem?_map]
    by_cases h : k ≤ n
    · rw [if_pos h, List.getElem?_range (by omega)]
      rfl
    · rw [if_neg h, List.getElem?_eq_none (by simp; omega)]
      rfl
  · intro k
    show ((List.range n).map fun k => (k, k + 1))[k]? = _
    rw [List.getElem?_map]
    by_cases h : k < n
    · rw [if_pos h, List.getElem?_range h]
      rfl
    · rw [if_neg h, List.getElem?_eq_none (by simp; omega)]
      rfl

theorem norm_unit {v : V3} (h : v ≠ 0) : V3.dot (chNormalize v) (chNormalize v) = 1 := by
  unfold chNormalize
  rw [if_neg h]
  have hp := (V3.norm_pos h).ne'
  have e : V3.dot v.normalized v.normalized = (V3.norm v)⁻¹ ^ 2 * V3.dot v v := by
    simp [V3.normalized, V3.dot]
    ring
  rw [e, ← V3.norm_sq, ← mul_pow, inv_mul_cancel₀ hp, one_pow]

theorem norm_smul_nonneg (c : ℝ) (v : V3) (hc : 0 ≤ c) : V3.norm (c • v) = c * V3.norm v := by
  unfold V3.norm
  have : V3.dot (c • v) (c • v) = c * c * V3.dot v v := by
    simp [V3.dot]
    ring
  rw [this, Real.sqrt_mul (mul_nonneg hc hc), Real.sqrt_mul_self hc]

theorem chNormalize_smul {v : V3} (h : v ≠ 0) : v = V3.norm v • chNormalize v := by
  unfold chNormalize
  rw [if_neg h]
  have hp := (V3.norm_pos h).ne'
  unfold V3.normalized
  generalize V3.norm v = r at hp
  ext <;> simp <;> field_simp

theorem taut_frame (ds : ℝ) (ab : V3) (first : Frame) (k : ℕ) :
    frameAt (fun _ f => { f with pos := f.pos + ds • ab }) ds first k = ⟨first.pos + ((k : ℝ) * ds) • ab, first.rot⟩ := by
  induction k with
  | zero =>
    refine Frame.ext ?_ rfl
    show first.pos = _
    ext <;> simp
  | succ k ih =>
    rw [frameAt, ih]
    refine Frame.ext ?_ rfl
    show first.pos + ((k : ℝ) * ds) • ab + ds • ab = first.pos + (((k + 1 : ℕ) : ℝ) * ds) • ab
    push_cast
    ext <;> simp <;> ring

/-- **C142, taut cable.** When the ends are at the unstrained length or further apart, the initial mesh is straight: the nodes are on the segment between the two ends, every `L/n` from the starting
node, with the orientation of the starting node. The last one is short of the ending node by the distance between the ends minus the length. The default top of the tension scale is 1.2 times the
tension of that elongation. -/
theorem C142_taut (inv : M3 → M3) (rhoAir g : ℝ) (c : DynCable) (hm : c.mesh = Option.none) (hL : 0 < c.length) (hn : 1 ≤ c.nbElements) (ht : c.taut) :
    ∃ (c' : DynCable) (m : FeMesh) (P : ℕ → Frame), setUp inv rhoAir g c = some c' ∧ c'.mesh = some m ∧ Chain m c.nbElements P ∧
      (∃ dir : V3, V3.norm dir = 1 ∧
        c.stop.positionInWorld .NWU - c.start.positionInWorld .NWU = V3.norm (c.stop.positionInWorld .NWU - c.start.positionInWorld .NWU) • dir ∧
        ∀ k, P k = ⟨c.start.positionInWorld .NWU + (k * (c.length / c.nbElements)) • dir, c.start.frameInWorld.rot⟩) ∧
      V3.norm (c.stop.positionInWorld .NWU - (P c.nbElements).pos) = V3.norm (c.stop.positionInWorld .NWU - c.start.positionInWorld .NWU) - c.length ∧
      (c.maxTension = 0 → c'.maxTension = 1.2 * (c.props.getEA * ((V3.norm (c.stop.positionInWorld .NWU - c.start.positionInWorld .NWU) - c.length) / c.length))) ∧
      (c.maxTension ≠ 0 → c'.maxTension = c.maxTension) := by
  have hpos : (0 : ℝ) < c.nbElements := by exact_mod_cast hn
  generalize hd : c.stop.positionInWorld .NWU - c.start.positionInWorld .NWU = d
  have htn : c.length ≤ V3.norm d := by
    rw [← hd]
    exact ht
  have hd0 : d ≠ 0 := by
    intro h
    rw [h, norm_zero] at htn
    linarith
  have hset : setUp inv rhoAir g c = some { c with
        mesh := some (addElements (fun _ f => { f with pos := f.pos + (c.length / c.nbElements) • chNormalize d }) (c.length / c.nbElements) c.nbElements ⟨0, c.start.frameInWorld, ⟨[c.start.frameInWorld], []⟩⟩).mesh
        maxTension := if c.maxTension = 0 then 1.2 * ((V3.norm d - c.length) * c.props.getEA / c.length) else c.maxTension } := by
    unfold setUp
    rw [hm]
    simp only []
    rw [if_pos ht, hd]
  have hu : V3.norm (chNormalize d) = 1 := by
    unfold V3.norm
    rw [norm_unit hd0, Real.sqrt_one]
  have hPk : ∀ k : ℕ, frameAt (fun _ f => { f with pos := f.pos + (c.length / c.nbElements) • chNormalize d }) (c.length / c.nbElements) c.start.frameInWorld k =
      ⟨c.start.positionInWorld .NWU + (k * (c.length / c.nbElements)) • chNormalize d, c.start.frameInWorld.rot⟩ := fun k => taut_frame _ _ _ k
  refine ⟨_, _, frameAt (fun _ f => { f with pos := f.pos + (c.length / c.nbElements) • chNormalize d }) (c.length / c.nbElements) c.start.frameInWorld, hset, rfl, addElements_chain _ _ _ _,
    ⟨chNormalize d, hu, chNormalize_smul hd0, hPk⟩, ?_, fun h => ?_, fun h => if_neg h⟩
  · rw [hPk]
    have e1 : (c.nbElements : ℝ) * (c.length / c.nbElements) = c.length := by field_simp
    have e2 : c.stop.positionInWorld .NWU - (c.start.positionInWorld .NWU + c.length • chNormalize d) = (V3.norm d - c.length) • chNormalize d := by
      have e3 : c.stop.positionInWorld .NWU - (c.start.positionInWorld .NWU + c.length • chNormalize d) = d - c.length • chNormalize d := by
        rw [← hd]
        ext <;> simp <;> ring
      have e4 := chNormalize_smul hd0
      rw [e3]
      generalize chNormalize d = w at e4 ⊢
      generalize V3.norm d = r at e4 ⊢
      rw [e4]
      ext <;> simp <;> ring
    show V3.norm (c.stop.positionInWorld .NWU - (c.start.positionInWorld .NWU + ((c.nbElements : ℝ) * (c.length / c.nbElements)) • chNormalize d)) = _
    rw [e1, e2, norm_smul_nonneg _ _ (by linarith), hu, mul_one]
  · show (if c.maxTension = 0 then _ else _) = _
    rw [if_pos h]
    ring

/-! ### The plane of the line -/

/-- The tension stays in the vertical plane of the two ends: `n` is horizontal and normal to the chord. -/
def InPlane (n : V3) (l : Line) : Prop := V3.dot n l.t0 = 0

theorem guess_plane (l : Line) (n : V3) (hz : n.z = 0) (hn : V3.dot n (l.stop.positionInWorld .NWU - l.start.positionInWorld .NWU) = 0) : InPlane n l.guessTension := by
  unfold InPlane Line.guessTension
  generalize l.stop.positionInWorld .NWU - l.start.positionInWorld .NWU = p at hn ⊢
  simp only [V3.dot, V3.add_x, V3.add_y, V3.add_z, V3.smul_x, V3.smul_y, V3.smul_z, V3.cross_x, V3.cross_y, V3.cross_z, u] at hn ⊢
  rw [hz] at hn ⊢
  generalize (0.5 * l.q * Real.sqrt (p.x * p.x + p.y * p.y) / _ : ℝ) = fv
  generalize (V3.norm p)⁻¹ = r
  linear_combination (fv * r) * hn

theorem residual_plane {l : Line} (h : Loaded l) (hq : l.q ≠ 0) (n : V3) (hz : n.z = 0) (hn : V3.dot n (l.stop.positionInWorld .NWU - l.start.positionInWorld .NWU) = 0) (hp : InPlane n l) :
    V3.dot n (l.residual .NWU) = 0 := by
  unfold Line.residual
  rw [position_eq h hq]
  unfold InPlane at hp
  simp only [V3.dot, V3.sub_x, V3.sub_y, V3.sub_z, V3.add_x, V3.add_y, V3.add_z, hz] at hn hp ⊢
  linear_combination (Real.log (l.rho l.len / l.rho 0) / l.q + compliance l * l.len) * hp - hn

/-- The inversion respects the plane: from a tension in the plane, the step for a residual in the plane is in the plane. -/
def KeepsPlane (inv : M3 → M3) (l : Line) (n : V3) : Prop :=
  ∀ t v : V3, V3.dot n t = 0 → V3.dot n v = 0 → V3.dot n ((inv (withT0 l t).jacobian).mulVec v) = 0

theorem solve_plane (inv : M3 → M3) (n : V3) (hz : n.z = 0) (m : ℕ) : ∀ (l : Line) (delta : V3) (iter : ℕ) (l' : Line) (k : ℕ), l.itermax - iter = m → Loaded l → l.q ≠ 0 →
    V3.dot n (l.stop.positionInWorld .NWU - l.start.positionInWorld .NWU) = 0 → KeepsPlane inv l n → InPlane n l → solveLoop inv l delta iter = some (l', k) → InPlane n l' := by
  induction m using Nat.strong_induction_on with
  | _ m ih =>
    intro l delta iter l' k hm hl hq hn hk hp hs
    rw [solveLoop] at hs
    by_cases hc : infNorm (l.residual .NWU) > l.tol ∧ iter < l.itermax
    · rw [dif_pos hc] at hs
      cases hh : halve (infNorm delta) (infNorm (newtonStep inv l)) l.relax with
      | none => rw [hh] at hs; exact absurd hs (by simp)
      | some r =>
        rw [hh] at hs
        simp only at hs
        refine ih (l.itermax - (iter + 1)) (by omega) { l with t0 := l.t0 + r • newtonStep inv l, relax := min 1 (r * 2) } (newtonStep inv l) (iter + 1) l' k rfl ⟨hl.1, hl.2⟩ hq hn hk ?_ hs
        have h1 : V3.dot n (-(l.residual .NWU)) = 0 := by
          have := residual_plane hl hq n hz hn hp
          simp only [V3.dot, V3.neg_x, V3.neg_y, V3.neg_z] at this ⊢
          linear_combination -this
        have h2 := hk l.t0 _ hp h1
        have h3 : V3.dot n (newtonStep inv l) = 0 := h2
        show V3.dot n (l.t0 + r • newtonStep inv l) = 0
        unfold InPlane at hp
        simp only [V3.dot, V3.add_x, V3.add_y, V3.add_z, V3.smul_x, V3.smul_y, V3.smul_z] at hp h3 ⊢
        linear_combination hp + r * h3
    · rw [dif_neg hc] at hs
      have e := Option.some.inj hs
      have e1 : l = l' := congrArg Prod.fst e
      rw [← e1]
      exact hp

/-- **C142, the plane of the line.** Whatever the number of steps and whether the solver converges or not, the tension of the temporary line stays in the vertical plane of the two ends. -/
theorem C142_plane (inv : M3 → M3) (l l' : Line) (rhoFluid g : ℝ) (hq : (l.props.getLinearDensity - l.props.getSectionArea * rhoFluid) * g ≠ 0) (n : V3) (hz : n.z = 0)
    (hn : V3.dot n (l.stop.positionInWorld .NWU - l.start.positionInWorld .NWU) = 0) (hk : KeepsPlane inv (l.initLoad rhoFluid g) n) (hi : initialize' inv l rhoFluid g = some l') (s : ℝ) :
    V3.dot n (l'.tension s .NWU) = 0 := by
  unfold initialize' at hi
  obtain ⟨⟨l1, k⟩, hs, he⟩ := Option.map_eq_some_iff.1 hi
  have he' : l1 = l' := he
  subst he'
  have hl := initLoad_loaded l rhoFluid g
  have hlg : Loaded (l.initLoad rhoFluid g).guessTension := ⟨hl.1, hl.2⟩
  have hg : InPlane n (l.initLoad rhoFluid g).guessTension := guess_plane _ n hz hn
  have hkg : KeepsPlane inv (l.initLoad rhoFluid g).guessTension n := hk
  have hqg : (l.initLoad rhoFluid g).guessTension.q ≠ 0 := hq
  have hng : V3.dot n ((l.initLoad rhoFluid g).guessTension.stop.positionInWorld .NWU - (l.initLoad rhoFluid g).guessTension.start.positionInWorld .NWU) = 0 := hn
  generalize (l.initLoad rhoFluid g).guessTension = l0 at *
  have hsp := (C95_exit inv l0 l1 k hs).1
  obtain ⟨hld, hqe⟩ := sameLine_loaded hlg hsp
  have hin : InPlane n l1 := by
    unfold solve at hs
    refine solve_plane inv n hz _ _ _ _ l1 k rfl (⟨hlg.1, hlg.2⟩ : Loaded { l0 with t0 := l0.t0 + l0.relax • newtonStep inv l0 }) hqg hng hkg ?_ hs
    have h1 : V3.dot n (-(l0.residual .NWU)) = 0 := by
      have := residual_plane hlg hqg n hz hng hg
      simp only [V3.dot, V3.neg_x, V3.neg_y, V3.neg_z] at this ⊢
      linear_combination -this
    have h3 : V3.dot n (newtonStep inv l0) = 0 := hkg l0.t0 _ hg h1
    show V3.dot n (l0.t0 + l0.relax • newtonStep inv l0) = 0
    unfold InPlane at hg
    simp only [V3.dot, V3.add_x, V3.add_y, V3.add_z, V3.smul_x, V3.smul_y, V3.smul_z] at hg h3 ⊢
    linear_combination hg + l0.relax * h3
  rw [tension_eq hld]
  unfold InPlane at hin
  simp only [V3.dot, hz] at hin ⊢
  linear_combination hin

theorem jac_plane {l : Line} (h : Loaded l) (n d : V3) (hz : n.z = 0) (hp : V3.dot n l.t0 = 0) (h0 : 0 < l.rho 0) (hL : 0 < l.rho l.len) (hN0 : 0 < N l 0) (hNL : 0 < N l l.len) :
    V3.dot n (l.jacobian.mulVec d) = (Real.log (l.rho l.len / l.rho 0) / l.q + compliance l * l.len) * V3.dot n d := by
  rw [jac_eq h h0 hL hN0 hNL]
  simp only [V3.dot, M3.mulVec_x, M3.mulVec_y, M3.mulVec_z, hz] at hp ⊢
  generalize (1 / (N l l.len * l.rho l.len) - 1 / (N l 0 * l.rho 0)) / l.q = a
  generalize (1 / N l l.len - 1 / N l 0) / l.q = b
  linear_combination (a * (l.t0.x * d.x + l.t0.y * d.y) + b * d.z) * hp

/-- **C142, a true inverse respects the plane.** Wherever the tension is not vertical, the matrix can be inverted and its inverse takes residuals of the plane to steps of the plane. -/
theorem C142_inverse (inv : M3 → M3) (hinv : ∀ m : M3, m.det ≠ 0 → m.mul (inv m) = M3.one) (l : Line) (h : Loaded l) (hq : l.q ≠ 0) (hL : 0 < l.len)
    (hEA : l.elastic = true → 0 < l.props.getEA) (n t v : V3) (hn0 : n ≠ 0) (hz : n.z = 0) (ht : V3.dot n t = 0) (hv : V3.dot n v = 0) (hnv : t.x ≠ 0 ∨ t.y ≠ 0) :
    V3.dot n ((inv (withT0 l t).jacobian).mulVec v) = 0 := by
  have hl := withT0_loaded h t
  obtain ⟨_, hpd, hdet⟩ := C94_positive (withT0 l t) hl hq hL hEA hnv
  have hr : ∀ s, 0 < (withT0 l t).rho s := by
    intro s
    by_contra hc
    have := horiz_zero hl s hc
    rcases hnv with h | h
    · exact h this.1
    · exact h this.2
  have hN : ∀ s, 0 < N (withT0 l t) s := by
    intro s
    refine N_pos hl fun e => ?_
    rw [tension_eq hl] at e
    rcases hnv with h | h
    · exact h (congrArg V3.x e)
    · exact h (congrArg V3.y e)
  have hj := fun d => jac_plane hl n d hz ht (hr 0) (hr _) (hN 0) (hN _)
  generalize (Real.log ((withT0 l t).rho (withT0 l t).len / (withT0 l t).rho 0) / (withT0 l t).q + compliance (withT0 l t) * (withT0 l t).len) = k at hj
  have hk : k ≠ 0 := by
    intro e
    have h1 := hpd n hn0
    rw [hj n, e, zero_mul] at h1
    exact lt_irrefl _ h1
  have h2 := hj ((inv (withT0 l t).jacobian).mulVec v)
  rw [← Q.mulVec_mul, hinv _ hdet] at h2
  have e : M3.one.mulVec v = v := by ext <;> simp [M3.one]
  rw [e, hv] at h2
  rcases mul_eq_zero.1 h2.symm with h3 | h3
  · exact absurd h3 hk
  · exact h3

/-! ### Axes -/

theorem axes_spec (t e3 : V3) (ht : t ≠ 0) (h3 : V3.dot e3 e3 = 1) (h13 : V3.dot e3 t = 0) :
    (axes t e3).IsUnit ∧ t = V3.norm t • (axes t e3).rotate ⟨1, 0, 0⟩ ∧ (axes t e3).rotate ⟨0, 0, 1⟩ = e3 := by
  have h1 := norm_unit ht
  have hsm := chNormalize_smul ht
  have h13' : V3.dot e3 (chNormalize t) = 0 := by
    have e1 : chNormalize t = (V3.norm t)⁻¹ • t := if_neg ht
    rw [e1]
    simp only [V3.dot, V3.smul_x, V3.smul_y, V3.smul_z] at h13 ⊢
    linear_combination (V3.norm t)⁻¹ * h13
  unfold axes
  simp only []
  generalize chNormalize t = e1 at *
  have hd2 : V3.dot (V3.cross e3 e1) (V3.cross e3 e1) = 1 := by
    have : V3.dot (V3.cross e3 e1) (V3.cross e3 e1) = V3.dot e3 e3 * V3.dot e1 e1 - V3.dot e3 e1 ^ 2 := by
      simp [V3.dot]
      ring
    rw [this, h3, h1, h13']
    norm_num
  have h2 : chNormalize (V3.cross e3 e1) = V3.cross e3 e1 := by
    have hne : V3.cross e3 e1 ≠ 0 := by
      intro e
      rw [e] at hd2
      simp [V3.dot] at hd2
    unfold chNormalize V3.normalized V3.norm
    rw [if_neg hne, hd2]
    ext <;> simp
  rw [h2]
  have hrh : RightHanded e1 (V3.cross e3 e1) e3 := by
    have d12 : V3.dot e1 (V3.cross e3 e1) = 0 := by simp [V3.dot]; ring
    have d23 : V3.dot (V3.cross e3 e1) e3 = 0 := by simp [V3.dot]; ring
    have d13 : V3.dot e1 e3 = 0 := by rw [← h13']; simp [V3.dot]; ring
    refine ⟨h1, hd2, h3, d12, d13, d23, ?_⟩
    have : V3.cross e1 (V3.cross e3 e1) = V3.dot e1 e1 • e3 - V3.dot e1 e3 • e1 := by
      ext <;> simp [V3.dot] <;> ring
    rw [this, h1, d13]
    ext <;> simp
  obtain ⟨hu, hm⟩ := matToQuat_spec hrh.isRot
  refine ⟨hu, ?_, ?_⟩
  · have : (matToQuat (M3.ofCols e1 (V3.cross e3 e1) e3)).rotate ⟨1, 0, 0⟩ = e1 := by
      unfold Q.rotate
      rw [hm]
      ext <;> simp [M3.ofCols]
    rw [this]
    exact hsm
  · unfold Q.rotate
    rw [hm]
    ext <;> simp [M3.ofCols]

/-- **C142, axes.** When the tension at the start is not along the chord and the tension at an abscissa is not zero, the frame given to the node is a rotation: its x axis is along the tension there and its z axis is normal to the
vertical plane of the two ends. -/
theorem C142_axes (l : Line) (h : Loaded l) (ab : V3) (n : V3) (hz : n.z = 0) (hn0 : n ≠ 0) (hn : V3.dot n ab = 0) (hp : V3.dot n l.t0 = 0) (hx : V3.cross l.t0 ab ≠ 0) (s : ℝ) (hs : l.tension s .NWU ≠ 0) :
    (axes (l.tension s .NWU) (planeNormal l ab)).IsUnit ∧
    l.tension s .NWU = V3.norm (l.tension s .NWU) • (axes (l.tension s .NWU) (planeNormal l ab)).rotate ⟨1, 0, 0⟩ ∧
    (axes (l.tension s .NWU) (planeNormal l ab)).rotate ⟨0, 0, 1⟩ = planeNormal l ab ∧
    V3.dot (planeNormal l ab) (planeNormal l ab) = 1 ∧ V3.cross n (planeNormal l ab) = 0 := by
  have et0 : l.tension 0 .NWU = l.t0 := by
    rw [tension_eq h]
    ext <;> simp
  have ht0 : l.t0 ≠ 0 := by
    intro e
    apply hx
    rw [e]
    ext <;> simp
  have hc : V3.cross (chNormalize l.t0) ab ≠ 0 := by
    intro e
    apply hx
    have h1 := chNormalize_smul ht0
    have h2 : V3.cross (V3.norm l.t0 • chNormalize l.t0) ab = V3.norm l.t0 • V3.cross (chNormalize l.t0) ab := by
      ext <;> simp <;> ring
    rw [h1, h2, e]
    ext <;> simp
  have h3 : V3.dot (planeNormal l ab) (planeNormal l ab) = 1 := by
    unfold planeNormal
    rw [et0]
    exact norm_unit hc
  -- the normal is parallel to `n`
  have hcross : V3.cross n (planeNormal l ab) = 0 := by
    unfold planeNormal
    rw [et0]
    have h5 : V3.cross n (V3.cross l.t0 ab) = 0 := by
      have : V3.cross n (V3.cross l.t0 ab) = V3.dot n ab • l.t0 - V3.dot n l.t0 • ab := by
        ext <;> simp [V3.dot] <;> ring
      rw [this, hn, hp]
      ext <;> simp
    have e1 : chNormalize l.t0 = (V3.norm l.t0)⁻¹ • l.t0 := if_neg ht0
    have e2 : chNormalize (V3.cross (chNormalize l.t0) ab) = (V3.norm (V3.cross (chNormalize l.t0) ab))⁻¹ • V3.cross (chNormalize l.t0) ab := if_neg hc
    rw [e2, e1]
    have e3 : ∀ a b : ℝ, V3.cross n (a • V3.cross (b • l.t0) ab) = (a * b) • V3.cross n (V3.cross l.t0 ab) := by
      intro a b
      ext <;> simp <;> ring
    rw [e3, h5]
    ext <;> simp
  have hnz : (planeNormal l ab).z = 0 ∧ V3.dot (planeNormal l ab) l.t0 = 0 := by
    generalize planeNormal l ab = e3 at h3 hcross
    have c1 := congrArg V3.x hcross
    have c2 := congrArg V3.y hcross
    have c3 := congrArg V3.z hcross
    simp only [V3.cross_x, V3.cross_y, V3.cross_z, hz] at c1 c2 c3
    simp only [V3.zero_x, V3.zero_y, V3.zero_z] at c1 c2 c3
    have hxy : n.x ≠ 0 ∨ n.y ≠ 0 := by
      by_contra hcon
      push Not at hcon
      exact hn0 (by ext <;> simp [hcon.1, hcon.2, hz])
    unfold V3.dot at hp ⊢
    rw [hz] at hp
    rcases hxy with hh | hh
    · have hz3 : e3.z = 0 := by
        have : n.x * e3.z = 0 := by linear_combination -c2
        exact (mul_eq_zero.1 this).resolve_left hh
      refine ⟨hz3, ?_⟩
      have : n.x * (e3.x * l.t0.x + e3.y * l.t0.y + e3.z * l.t0.z) = 0 := by
        rw [hz3]
        linear_combination e3.x * hp + l.t0.y * c3
      exact (mul_eq_zero.1 this).resolve_left hh
    · have hz3 : e3.z = 0 := by
        have : n.y * e3.z = 0 := by linear_combination c1
        exact (mul_eq_zero.1 this).resolve_left hh
      refine ⟨hz3, ?_⟩
      have : n.y * (e3.x * l.t0.x + e3.y * l.t0.y + e3.z * l.t0.z) = 0 := by
        rw [hz3]
        linear_combination e3.y * hp - l.t0.x * c3
      exact (mul_eq_zero.1 this).resolve_left hh
  have h13 : V3.dot (planeNormal l ab) (l.tension s .NWU) = 0 := by
    rw [tension_eq h]
    obtain ⟨ha, hb⟩ := hnz
    simp only [V3.dot, ha] at hb ⊢
    linear_combination hb
  obtain ⟨a1, a2, a3⟩ := axes_spec (l.tension s .NWU) (planeNormal l ab) hs h3 h13
  exact ⟨a1, a2, a3, h3, hcross⟩

/-- **C142, vertical line.** When the tension at the start and the chord are both vertical, the z axis of the nodes is the x axis of the world, and the frames are still rotations with their x axis along the tension. -/
theorem C142_vertical (l : Line) (h : Loaded l) (ab : V3) (hab : ab.x = 0 ∧ ab.y = 0) (ht : l.t0.x = 0 ∧ l.t0.y = 0) (h0 : l.t0 ≠ 0) (s : ℝ) (hs : l.tension s .NWU ≠ 0) :
    (axes (l.tension s .NWU) (planeNormal l ab)).IsUnit ∧
    l.tension s .NWU = V3.norm (l.tension s .NWU) • (axes (l.tension s .NWU) (planeNormal l ab)).rotate ⟨1, 0, 0⟩ ∧
    (axes (l.tension s .NWU) (planeNormal l ab)).rotate ⟨0, 0, 1⟩ = ⟨1, 0, 0⟩ := by
  have et0 : l.tension 0 .NWU = l.t0 := by
    rw [tension_eq h]
    ext <;> simp
  have hp : planeNormal l ab = ⟨1, 0, 0⟩ := by
    unfold planeNormal
    rw [et0]
    have e1 : chNormalize l.t0 = (V3.norm l.t0)⁻¹ • l.t0 := if_neg h0
    refine if_pos ?_
    rw [e1]
    ext <;> simp [hab.1, hab.2, ht.1, ht.2]
  rw [hp]
  refine axes_spec _ _ hs (by simp [V3.dot]) ?_
  rw [tension_eq h]
  simp [V3.dot, ht.1]

/-- **C142, slack cable.** When the ends are nearer than the unstrained length, the nodes of the initial mesh are the points of abscissas `k L / n` of the catenary line of the same length and weight
between the same ends. The first one is at the starting node; the last one is within 1e-6 of the ending node in each coordinate, unless the solver gave up. -/
theorem C142_slack (inv : M3 → M3) (rhoAir g : ℝ) (c c' : DynCable) (hm : c.mesh = Option.none) (hn : 1 ≤ c.nbElements) (ht : ¬ c.taut) (hi : setUp inv rhoAir g c = some c') :
    ∃ (l : Line) (m : FeMesh) (P : ℕ → Frame), initialize' inv (Line.new c.props false c.length c.start c.stop) rhoAir g = some l ∧ c'.mesh = some m ∧ Chain m c.nbElements P ∧
      (∀ k : ℕ, (P k).pos = l.position (k * (c.length / c.nbElements)) .NWU ∧
        (P k).rot = axes (l.tension (k * (c.length / c.nbElements)) .NWU) (planeNormal l (chNormalize (c.stop.positionInWorld .NWU - c.start.positionInWorld .NWU)))) ∧
      (P 0).pos = c.start.positionInWorld .NWU ∧
      (infNorm ((P c.nbElements).pos - c.stop.positionInWorld .NWU) = infNorm (l.residual .NWU)) ∧
      (infNorm (l.residual .NWU) ≤ 1e-6 ∨ solve inv ((Line.new c.props false c.length c.start c.stop).initLoad rhoAir g).guessTension = some (l, 100)) ∧
      (c.maxTension = 0 → c'.maxTension = 1.2 * l.initMaxTension 40 0) ∧ (c.maxTension ≠ 0 → c'.maxTension = c.maxTension) := by
  have hpos : (0 : ℝ) < c.nbElements := by exact_mod_cast hn
  unfold setUp at hi
  rw [hm] at hi
  simp only [] at hi
  rw [if_neg ht] at hi
  obtain ⟨l, hl, he⟩ := Option.map_eq_some_iff.1 hi
  generalize hd : c.stop.positionInWorld .NWU - c.start.positionInWorld .NWU = d at *
  generalize hds : c.length / c.nbElements = ds at *
  have hl' := hl
  unfold initialize' at hl'
  obtain ⟨⟨l1, k1⟩, hs, he1⟩ := Option.map_eq_some_iff.1 hl'
  have he2 : l1 = l := he1
  subst he2
  obtain ⟨⟨t, r, hsame⟩, _, hres, _⟩ := C95_exit inv _ l1 k1 hs
  have hstart : l1.start = c.start := by rw [hsame]; rfl
  have hstop : l1.stop = c.stop := by rw [hsame]; rfl
  have hlen : l1.len = c.length := by rw [hsame]; rfl
  have hfr : ∀ k : ℕ, frameAt (lineFrame l1 (planeNormal l1 (chNormalize d))) ds ⟨c.start.positionInWorld .NWU, axes (l1.tension 0 .NWU) (planeNormal l1 (chNormalize d))⟩ k =
      ⟨l1.position (k * ds) .NWU, axes (l1.tension (k * ds) .NWU) (planeNormal l1 (chNormalize d))⟩ := by
    intro k
    cases k with
    | zero =>
      rw [frameAt, Nat.cast_zero, zero_mul, position_zero, hstart]
    | succ k => rfl
  refine ⟨l1, _, frameAt (lineFrame l1 (planeNormal l1 (chNormalize d))) ds ⟨c.start.positionInWorld .NWU, axes (l1.tension 0 .NWU) (planeNormal l1 (chNormalize d))⟩, hl, ?_, addElements_chain _ _ _ _,
    fun k => ?_, rfl, ?_, ?_, fun h => ?_, fun h => ?_⟩
  · rw [← he]
  · rw [hfr k]
    exact ⟨rfl, rfl⟩
  · rw [hfr]
    have e1 : (c.nbElements : ℝ) * ds = l1.len := by
      rw [← hds, hlen]
      field_simp
    rw [e1]
    unfold Line.residual
    rw [hstop]
  · rcases hres with h | h
    · exact Or.inl h.1
    · refine Or.inr ?_
      rw [hs, h.2]
      rfl
  · rw [← he]
    exact if_pos h
  · rw [← he]
    exact if_neg h

/-- The distances between the nodes along the chain: what Chrono takes as the rest lengths of the elements (`SetupInitial`, external). -/
def restLength (P : ℕ → Frame) (k : ℕ) : ℝ := V3.norm ((P (k + 1)).pos - (P k).pos)

/-- **C142, rest lengths, slack cable.** The elements of a slack cable are given the straight distances between their nodes as rest lengths: none is over `L/n`, and their sum is at most the unstrained length (and at least the
distance between the first and last nodes). The cable that is simulated is never longer than the one asked for. -/
theorem C142_rest_slack (l : Line) (h : Loaded l) (hq : l.q ≠ 0) (he : l.elastic = false) (hL : 0 < l.len) (n : ℕ) (hn : 1 ≤ n) (P : ℕ → Frame)
    (hP : ∀ k : ℕ, (P k).pos = l.position (k * (l.len / n)) .NWU) :
    (∀ k, restLength P k ≤ l.len / n) ∧ ∑ k ∈ Finset.range n, restLength P k ≤ l.len ∧ V3.norm ((P n).pos - (P 0).pos) ≤ ∑ k ∈ Finset.range n, restLength P k := by
  have hpos : (0 : ℝ) < n := by exact_mod_cast hn
  have hk : compliance l = 0 := if_neg (by rw [he]; simp)
  have h1 : ∀ k, restLength P k ≤ l.len / n := by
    intro k
    unfold restLength
    rw [hP, hP]
    have hab : (k : ℝ) * (l.len / n) ≤ ((k + 1 : ℕ) : ℝ) * (l.len / n) := mul_le_mul_of_nonneg_right (by push_cast; linarith) (by positivity)
    refine (dist_le h hq hk.ge hab).trans (le_of_eq ?_)
    have hst : ∀ s, stretched l s = s := by
      intro s
      unfold stretched
      simp [hk]
    rw [hst, hst]
    push_cast
    ring
  refine ⟨h1, ?_, ?_⟩
  · calc ∑ k ∈ Finset.range n, restLength P k ≤ ∑ _k ∈ Finset.range n, l.len / n := Finset.sum_le_sum fun k _ => h1 k
      _ = l.len := by
        rw [Finset.sum_const, Finset.card_range, nsmul_eq_mul]
        field_simp
  · exact chord_le_polygon (fun k => (P k).pos) n

/-- **C142, second initialization.** Once the mesh is there, initializing again leaves the cable as it is. -/
theorem C142_again (inv : M3 → M3) (rhoAir g : ℝ) (c c' : DynCable) (h : setUp inv rhoAir g c = some c') (inv' : M3 → M3) (rhoAir' g' : ℝ) : setUp inv' rhoAir' g' c' = some c' := by
  have hm : ∃ m, c'.mesh = some m := by
    unfold setUp at h
    cases hc : c.mesh with
    | some m =>
      rw [hc] at h
      have := Option.some.inj h
      subst this
      exact ⟨m, hc⟩
    | none =>
      rw [hc] at h
      simp only [] at h
      by_cases ht : c.taut
      · rw [if_pos ht] at h
        have := Option.some.inj h
        subst this
        exact ⟨_, rfl⟩
      · rw [if_neg ht] at h
        obtain ⟨l, _, he⟩ := Option.map_eq_some_iff.1 h
        subst he
        exact ⟨_, rfl⟩
  obtain ⟨m, hm⟩ := hm
  unfold setUp
  rw [hm]

/-! ## C143: hinges -/

theorem mate_pos (h : Hinge) (hs : (mask h).1 = true) (f f1 bf f2 : Frame) (hu : (bf.mul f2).rot.IsUnit) (hm : mateHolds h f f1 bf f2) : (f.mul f1).pos = (bf.mul f2).pos := by
  have h1 := hm.1 hs
  have e : ((bf.mul f2).otherWrtThis (f.mul f1)).pos = (bf.mul f2).rot.conj.rotate ((f.mul f1).pos - (bf.mul f2).pos) := by
    show -((bf.mul f2).rot.conj.rotate (bf.mul f2).pos) + (bf.mul f2).rot.conj.rotate (f.mul f1).pos = _
    have e' : (f.mul f1).pos - (bf.mul f2).pos = (f.mul f1).pos + -(bf.mul f2).pos := by ext <;> simp [sub_eq_add_neg]
    rw [e', Q.rotate_add, Q.rotate_neg]
    ext <;> simp <;> ring
  rw [e] at h1
  have h2 := congrArg (bf.mul f2).rot.rotate h1
  rw [Q.rotate_conj' hu, rotate_zero] at h2
  have cx := congrArg V3.x h2
  have cy := congrArg V3.y h2
  have cz := congrArg V3.z h2
  simp only [V3.sub_x, V3.sub_y, V3.sub_z, V3.zero_x, V3.zero_y, V3.zero_z] at cx cy cz
  ext <;> linarith

theorem hinge_point (b : Body) (n : Node) (ha : Attached b n) : (b.cog.mul (n.frameInBody b)).pos = n.positionInWorld .NWU + b.cog.rot.rotate b.cogInRef := by
  rw [frameInBody_eq]
  show b.cog.pos + b.cog.rot.rotate (n.rel.pos + b.cogInRef) = n.abs.pos + _
  rw [ha.abs, Q.rotate_add]
  show _ = b.cog.pos + b.cog.rot.rotate n.rel.pos + _
  ext <;> simp <;> ring

/-- **C143, hinge with a position constraint.** With a spherical or rigid hinge, the constraint asks for the end of the cable to be at the point of the body obtained from the node by adding the centre of gravity of the body (from its
reference point) once more: it is the node if and only if the centre of gravity is at the reference point of the body. -/
theorem C143_position_partial (c : DynCable) (fea : Frame) (b : Body) (h : Placed b) :
    (Attached b c.start → c.startHinge ≠ .none → startHingeHolds c fea b → fea.pos = c.start.positionInWorld .NWU + b.cog.rot.rotate b.cogInRef) ∧
    (Attached b c.stop → c.endHinge ≠ .none → endHingeHolds c fea b → fea.pos = c.stop.positionInWorld .NWU + b.cog.rot.rotate b.cogInRef) ∧
    (∀ p : V3, p + b.cog.rot.rotate b.cogInRef = p ↔ b.cogInRef = 0) := by
  have hmask : ∀ t : Hinge, t ≠ .none → (mask t).1 = true := by
    intro t ht
    cases t
    · rfl
    · rfl
    · exact absurd rfl ht
  have hz : ∀ q : Q, (fea.mul ⟨0, q⟩).pos = fea.pos := by
    intro q
    show fea.pos + fea.rot.rotate 0 = fea.pos
    rw [rotate_zero]
    ext <;> simp
  refine ⟨fun ha ht hh => ?_, fun ha ht hh => ?_, fun p => ⟨fun e => ?_, fun e => ?_⟩⟩
  · have := mate_pos c.startHinge (hmask _ ht) fea Frame.identity b.cog (c.start.frameInBody b) (Q.IsUnit.mul h.unit ha.unit) hh
    rw [hinge_point b _ ha] at this
    rw [← this]
    exact (hz _).symm
  · have := mate_pos c.endHinge (hmask _ ht) fea (Frame.identity.rotZ Real.pi .NWU false) b.cog (c.stop.frameInBody b) (Q.IsUnit.mul h.unit ha.unit) hh
    rw [hinge_point b _ ha] at this
    rw [← this]
    exact (hz _).symm
  · have e1 : b.cog.rot.rotate b.cogInRef = 0 := by
      have : p + b.cog.rot.rotate b.cogInRef = p + 0 := by rw [e]; ext <;> simp
      have cx := congrArg V3.x this
      have cy := congrArg V3.y this
      have cz := congrArg V3.z this
      simp only [V3.add_x, V3.add_y, V3.add_z, V3.zero_x, V3.zero_y, V3.zero_z] at cx cy cz
      ext
      · simp only [V3.zero_x]; linarith
      · simp only [V3.zero_y]; linarith
      · simp only [V3.zero_z]; linarith
    have := congrArg b.cog.rot.conj.rotate e1
    rwa [Q.rotate_conj h.unit, rotate_zero] at this
  · rw [e, rotate_zero]
    ext <;> simp

theorem unit_vec_zero {q : Q} (h : q.IsUnit) (h1 : q.e1 = 0) (h2 : q.e2 = 0) (h3 : q.e3 = 0) (v : V3) : q.rotate v = v := by
  have h0 : q.e0 * q.e0 = 1 := by
    have : q.normSq = 1 := h
    unfold Q.normSq at this
    rw [h1, h2, h3] at this
    linarith
  have h0' : q.e0 ^ 2 = 1 := by rw [sq]; exact h0
  ext <;> simp [Q.rotate, Q.toMat, h1, h2, h3, h0, h0'] <;> ring_nf

theorem mate_rot (h : Hinge) (hs : (mask h).2 = true) (f f1 bf f2 : Frame) (hu : (bf.mul f2).rot.IsUnit) (hu' : (f.mul f1).rot.IsUnit) (hm : mateHolds h f f1 bf f2) (v : V3) :
    (f.mul f1).rot.rotate v = (bf.mul f2).rot.rotate v := by
  obtain ⟨h1, h2, h3⟩ := hm.2 hs
  have hr : ((bf.mul f2).otherWrtThis (f.mul f1)).rot = (bf.mul f2).rot.conj.mul (f.mul f1).rot := rfl
  have := unit_vec_zero (q := ((bf.mul f2).otherWrtThis (f.mul f1)).rot) (by rw [hr]; exact Q.IsUnit.mul hu.conj hu') h1 h2 h3 v
  rw [hr, Q.rotate_mul hu.conj hu'] at this
  have h4 := congrArg (bf.mul f2).rot.rotate this
  rwa [Q.rotate_conj' hu] at h4

theorem halfTurn_unit : (Frame.identity.rotZ Real.pi .NWU false).rot.IsUnit := by
  simp [Frame.rotZ, Frame.identity, Q.one, Q.ofAngAxis, Q.IsUnit, Q.normSq, V3.e3, Q.mul]

theorem halfTurn (v : V3) : (Frame.identity.rotZ Real.pi .NWU false).rot.rotate v = ⟨-v.x, -v.y, v.z⟩ := by
  ext <;> simp [Frame.rotZ, Frame.identity, Q.one, Q.ofAngAxis, Q.rotate, Q.toMat, V3.e3, Q.mul]
  ring

/-- **C143, rigid hinge.** A rigid hinge moreover aligns axes: at the start those of the end of the cable with those of the node; at the end the x and y axes of the cable are opposite to those of the node: the x axis of a node points into the
cable at both ends. -/
theorem C143_orientation (c : DynCable) (fea : Frame) (hf : fea.rot.IsUnit) (b : Body) (h : Placed b) :
    (Attached b c.start → c.startHinge = .constrained → startHingeHolds c fea b → ∀ v, fea.rot.rotate v = c.start.frameInWorld.rot.rotate v) ∧
    (Attached b c.stop → c.endHinge = .constrained → endHingeHolds c fea b → ∀ v : V3, fea.rot.rotate ⟨-v.x, -v.y, v.z⟩ = c.stop.frameInWorld.rot.rotate v) := by
  refine ⟨fun ha ht hh v => ?_, fun ha ht hh v => ?_⟩
  · have hu : Q.one.IsUnit := by simp [Q.IsUnit, Q.normSq, Q.one]
    have h1 := mate_rot c.startHinge (by rw [ht]; rfl) fea Frame.identity b.cog (c.start.frameInBody b) (Q.IsUnit.mul h.unit ha.unit) (Q.IsUnit.mul hf hu) hh v
    have e1 : (fea.mul Frame.identity).rot = fea.rot := by
      show fea.rot.mul Q.one = _
      ext <;> simp [Q.mul, Q.one]
    have e2 : (b.cog.mul (c.start.frameInBody b)).rot = c.start.frameInWorld.rot := by
      show b.cog.rot.mul c.start.rel.rot = c.start.abs.rot
      rw [ha.abs]
      rfl
    rwa [e1, e2] at h1
  · have h1 := mate_rot c.endHinge (by rw [ht]; rfl) fea (Frame.identity.rotZ Real.pi .NWU false) b.cog (c.stop.frameInBody b) (Q.IsUnit.mul h.unit ha.unit) (Q.IsUnit.mul hf halfTurn_unit) hh v
    have e1 : (fea.mul (Frame.identity.rotZ Real.pi .NWU false)).rot.rotate v = fea.rot.rotate ⟨-v.x, -v.y, v.z⟩ := by
      show (fea.rot.mul _).rotate v = _
      rw [Q.rotate_mul hf halfTurn_unit, halfTurn]
    have e2 : (b.cog.mul (c.stop.frameInBody b)).rot = c.stop.frameInWorld.rot := by
      show b.cog.rot.mul c.stop.rel.rot = c.stop.abs.rot
      rw [ha.abs]
      rfl
    rwa [e1, e2] at h1

/-- **C143, converse for the positions.** A spherical hinge asks for nothing else; without hinge nothing is asked. -/
theorem C143_spherical (c : DynCable) (fea : Frame) (b : Body) :
    (Attached b c.start → c.startHinge = .spherical → fea.pos = c.start.positionInWorld .NWU + b.cog.rot.rotate b.cogInRef → startHingeHolds c fea b) ∧
    (Attached b c.stop → c.endHinge = .spherical → fea.pos = c.stop.positionInWorld .NWU + b.cog.rot.rotate b.cogInRef → endHingeHolds c fea b) ∧
    (c.startHinge = .none → startHingeHolds c fea b) ∧ (c.endHinge = .none → endHingeHolds c fea b) := by
  have hz : ∀ q : Q, (fea.mul ⟨0, q⟩).pos = fea.pos := by
    intro q
    show fea.pos + fea.rot.rotate 0 = fea.pos
    rw [rotate_zero]
    ext <;> simp
  have key : ∀ (t : Hinge) (q : Q) (f2 : Frame), t = .spherical → fea.pos = (b.cog.mul f2).pos → mateHolds t fea ⟨0, q⟩ b.cog f2 := by
    intro t q f2 ht hp
    subst ht
    refine ⟨fun _ => ?_, fun h => absurd h (by simp [mask])⟩
    show -((b.cog.mul f2).rot.conj.rotate (b.cog.mul f2).pos) + (b.cog.mul f2).rot.conj.rotate (fea.mul ⟨0, q⟩).pos = 0
    rw [hz, hp]
    ext <;> simp
  refine ⟨fun ha ht hp => key _ _ _ ht (by rw [hp, hinge_point b _ ha]), fun ha ht hp => key _ _ _ ht (by rw [hp, hinge_point b _ ha]), fun ht => ?_, fun ht => ?_⟩
  · unfold startHingeHolds mateHolds
    rw [ht]
    exact ⟨fun h => absurd h (by simp [mask]), fun h => absurd h (by simp [mask])⟩
  · unfold endHingeHolds mateHolds
    rw [ht]
    exact ⟨fun h => absurd h (by simp [mask]), fun h => absurd h (by simp [mask])⟩

/-- **C143, at the initialization.** The starting hinge of a cable just initialized (spherical, the default) holds if and only if the centre of gravity of the body is at its reference point. -/
theorem C143_initial (inv : M3 → M3) (rhoAir g : ℝ) (c c' : DynCable) (hm : c.mesh = Option.none) (hL : 0 < c.length) (hn : 1 ≤ c.nbElements) (hi : setUp inv rhoAir g c = some c') (b : Body) (h : Placed b)
    (ha : Attached b c.start) (hs : c.startHinge = .spherical) :
    ∃ (m : FeMesh) (first : Frame), c'.mesh = some m ∧ m.nodes[0]? = some first ∧ (startHingeHolds c first b ↔ b.cogInRef = 0) := by
  have hfirst : ∃ (m : FeMesh) (first : Frame), c'.mesh = some m ∧ m.nodes[0]? = some first ∧ first.pos = c.start.positionInWorld .NWU := by
    by_cases ht : c.taut
    · obtain ⟨c1, m, P, h1, h2, h3, ⟨dir, _, _, hP⟩, _⟩ := C142_taut inv rhoAir g c hm hL hn ht
      rw [hi] at h1
      have := Option.some.inj h1
      subst this
      refine ⟨m, P 0, h2, by rw [h3.nodes, if_pos (Nat.zero_le _)], ?_⟩
      rw [hP 0]
      ext <;> simp
    · obtain ⟨l, m, P, _, h2, h3, _, h4, _⟩ := C142_slack inv rhoAir g c c' hm hn ht hi
      exact ⟨m, P 0, h2, by rw [h3.nodes, if_pos (Nat.zero_le _)], h4⟩
  obtain ⟨m, first, h1, h2, h3⟩ := hfirst
  refine ⟨m, first, h1, h2, fun hh => ?_, fun hh => ?_⟩
  · obtain ⟨p1, _, p3⟩ := C143_position_partial c first b h
    have := p1 ha (by rw [hs]; simp) hh
    rw [h3] at this
    exact (p3 _).1 this.symm
  · refine (C143_spherical c first b).1 ha hs ?_
    rw [h3, hh, rotate_zero]
    ext <;> simp

/-! ## C144: section, statics -/

/-- **C144, section.** For a cable of cross section `A`, Young modulus `E` and mass per metre `lam`, the section of the beam elements has the area of the cable, hence its axial stiffness `E A` and its mass per metre; its bending stiffness is the one of a solid round bar,
`E A² / (4 π)`, the same about both axes; the damping is the one given. -/
theorem C144_section (c : DynCable) (A E lam : ℝ) (h : Describes c.props A E lam) :
    (feSection c).area = A ∧ (feSection c).young * (feSection c).area = c.props.getEA ∧ (feSection c).density * (feSection c).area = lam ∧
    (feSection c).young * (feSection c).iyy = E * A ^ 2 / (4 * Real.pi) ∧ (feSection c).izz = (feSection c).iyy ∧ (feSection c).damping = c.rayleigh := by
  have hp := Real.pi_pos
  have ha : (feSection c).area = A := by
    rw [← h.diameter.2]
    show Real.pi * (c.props.getDiameter / 2) ^ 2 = _
    ring
  refine ⟨ha, ?_, ?_, ?_, rfl, rfl⟩
  · rw [ha, h.ea]
    show c.props.getYoungModulus * A = _
    rw [h.young]
  · rw [ha]
    exact h.density
  · show c.props.getYoungModulus * (Real.pi / 4 * (c.props.getDiameter / 2) ^ 4) = _
    rw [h.young, ← h.diameter.2]
    field_simp
    ring

theorem staticResidual_eq (vel : List V3) : staticResidual vel = (vel.map V3.norm).sum := by
  unfold staticResidual
  have : ∀ (a : ℝ) (l : List V3), l.foldl (fun r v => r + V3.norm v) a = a + (l.map V3.norm).sum := by
    intro a l
    induction l generalizing a with
    | nil => simp
    | cons v l ih =>
      rw [List.foldl_cons, ih, List.map_cons, List.sum_cons]
      ring
  rw [this, zero_add]

/-- **C144, statics.** The static residual of the cable is not negative, is zero exactly when all its nodes are at rest, and is zero after a relaxation, which keeps the nodes. -/
theorem C144_relax (vel : List V3) :
    0 ≤ staticResidual vel ∧ (staticResidual vel = 0 ↔ ∀ v ∈ vel, v = 0) ∧ staticResidual (relax vel) = 0 ∧ (relax vel).length = vel.length := by
  have key : ∀ l : List V3, 0 ≤ staticResidual l ∧ (staticResidual l = 0 ↔ ∀ v ∈ l, v = 0) := by
    intro l
    rw [staticResidual_eq]
    induction l with
    | nil => simp
    | cons v l ih =>
      rw [List.map_cons, List.sum_cons]
      obtain ⟨h1, h2⟩ := ih
      have h3 := V3.norm_nonneg v
      refine ⟨by linarith, fun h => ?_, fun h => ?_⟩
      · have hv : V3.norm v = 0 := by linarith
        have hl : (l.map V3.norm).sum = 0 := by linarith
        intro w hw
        rcases List.mem_cons.1 hw with e | e
        · rw [e]
          by_contra hne
          have := V3.norm_pos hne
          linarith
        · exact h2.1 hl w e
      · have hv := h v List.mem_cons_self
        rw [hv, norm_zero, zero_add]
        exact h2.2 fun w hw => h w (List.mem_cons_of_mem _ hw)
  refine ⟨(key vel).1, (key vel).2, ((key (relax vel)).2).2 fun v hv => ?_, by simp [relax]⟩
  obtain ⟨_, _, e⟩ := List.mem_map.1 hv
  exact e.symm

/-! ## Non-vacuity -/

/-- A taut cable between two points 12 m apart. -/
example (p : CableProps) (inv : M3 → M3) : ∃ (c' : DynCable) (m : FeMesh) (P : ℕ → Frame),
    setUp inv 1.2 9.81 { props := p, length := 10, start := ⟨Frame.identity, Frame.identity, 0, 0⟩, stop := ⟨Frame.identity, ⟨⟨12, 0, 0⟩, Q.one⟩, 0, 0⟩, rayleigh := 0, nbElements := 5 } = some c' ∧
    c'.mesh = some m ∧ Chain m 5 P := by
  have hn : V3.norm (⟨12, 0, 0⟩ - 0 : V3) = 12 := by
    have e : (12 * 12 : ℝ) = 12 ^ 2 := by norm_num
    simp [V3.norm, V3.dot]
  obtain ⟨c', m, P, h1, h2, h3, _⟩ := C142_taut inv 1.2 9.81 { props := p, length := 10, start := ⟨Frame.identity, Frame.identity, 0, 0⟩, stop := ⟨Frame.identity, ⟨⟨12, 0, 0⟩, Q.one⟩, 0, 0⟩, rayleigh := 0, nbElements := 5 }
    rfl (by norm_num) (by norm_num) (by
      show V3.norm (⟨12, 0, 0⟩ - 0 : V3) ≥ 10
      rw [hn]
      norm_num)
  exact ⟨c', m, P, h1, h2, h3⟩

/-- A slack cable: the solver always returns with a relaxed inversion, and the frames of a line that is not along its chord are rotations. -/
example (l : Line) (h : Loaded l) (hq : l.q = 1) (ht : l.t0 = ⟨1, 0, -2⟩) (s : ℝ) :
    (axes (l.tension s .NWU) (planeNormal l ⟨1, 0, 0⟩)).IsUnit := by
  have ne : ∀ {v : V3}, v.x ≠ 0 → v ≠ 0 := fun hv e => hv (by rw [e]; rfl)
  have ne' : ∀ {v : V3}, v.y ≠ 0 → v ≠ 0 := fun hv e => hv (by rw [e]; rfl)
  refine (C142_axes l h ⟨1, 0, 0⟩ ⟨0, 1, 0⟩ rfl (ne' (by simp)) (by simp [V3.dot]) (by rw [ht]; simp [V3.dot]) (ne' ?_) s (ne ?_)).1
  · rw [ht]
    simp
  · rw [tension_eq h, ht]
    simp

end DynCable

end Frydom.Cable
