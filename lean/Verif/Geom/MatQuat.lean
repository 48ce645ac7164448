import Verif.Geom.Props2

/-! # Helper lemmas: conversion of a rotation matrix to a quaternion, and projection on the horizontal plane -/

open Classical

noncomputable section

namespace Frydom.Geom

theorem M3.IsRot.transpose {m : M3} (hm : m.IsRot) : m.transpose.IsRot := by
  have hx := congrArg V3.x hm.cross01
  have hy := congrArg V3.y hm.cross01
  have hz := congrArg V3.z hm.cross01
  have kx := congrArg V3.x hm.cross12
  have ky := congrArg V3.y hm.cross12
  have kz := congrArg V3.z hm.cross12
  have lx := congrArg V3.x hm.cross20
  have ly := congrArg V3.y hm.cross20
  have lz := congrArg V3.z hm.cross20
  obtain ⟨-, -, -, -, -, -, hd⟩ := hm
  constructor <;>
    simp only [M3.c0, M3.c1, M3.c2, V3.dot, V3.cross_x, V3.cross_y, V3.cross_z, M3.det, M3.transpose] at *
  · linear_combination (-m.a00) * kx - m.a01 * lx - m.a02 * hx + hd
  · linear_combination (-m.a10) * ky - m.a11 * ly - m.a12 * hy + hd
  · linear_combination (-m.a20) * kz - m.a21 * lz - m.a22 * hz + hd
  · linear_combination (-m.a00) * ky - m.a01 * ly - m.a02 * hy
  · linear_combination (-m.a00) * kz - m.a01 * lz - m.a02 * hz
  · linear_combination (-m.a10) * kz - m.a11 * lz - m.a12 * hz
  · linear_combination hd

/-- The outer products `4 q_i q_j` expressed with the entries of the matrix form a rank-one matrix. -/
structure RankOne (k00 k11 k22 k33 k01 k02 k03 k12 k13 k23 : ℝ) : Prop where
  tr : k00 + k11 + k22 + k33 = 4
  a1 : k00 * k11 = k01 * k01
  a2 : k00 * k22 = k02 * k02
  a3 : k00 * k33 = k03 * k03
  a4 : k00 * k12 = k01 * k02
  a5 : k00 * k13 = k01 * k03
  a6 : k00 * k23 = k02 * k03

theorem RankOne.quat {k00 k11 k22 k33 k01 k02 k03 k12 k13 k23 : ℝ}
    (h : RankOne k00 k11 k22 k33 k01 k02 k03 k12 k13 k23) (h0 : 0 < k00) :
    let r := Real.sqrt k00
    let q0 := 0.5 * r; let q1 := k01 * (0.5 / r); let q2 := k02 * (0.5 / r); let q3 := k03 * (0.5 / r)
    q0 * q0 = k00 / 4 ∧ q1 * q1 = k11 / 4 ∧ q2 * q2 = k22 / 4 ∧ q3 * q3 = k33 / 4 ∧ q0 * q1 = k01 / 4 ∧
    q0 * q2 = k02 / 4 ∧ q0 * q3 = k03 / 4 ∧ q1 * q2 = k12 / 4 ∧ q1 * q3 = k13 / 4 ∧ q2 * q3 = k23 / 4 := by
  intro r q0 q1 q2 q3
  have hr : 0 < r := Real.sqrt_pos.mpr h0
  have hr2 : r ^ 2 = k00 := Real.sq_sqrt h0.le
  obtain ⟨-, a1, a2, a3, a4, a5, a6⟩ := h
  have hne : k00 ≠ 0 := h0.ne'
  have hrne : r ≠ 0 := hr.ne'
  have g : ∀ x y z : ℝ, k00 * x = y * z → y * (0.5 / r) * (z * (0.5 / r)) = x / 4 := by
    intro x y z hxy
    have : y * (0.5 / r) * (z * (0.5 / r)) = (y * z) / (4 * r ^ 2) := by field_simp; ring
    rw [this, hr2, ← hxy]; field_simp
  have f : ∀ y : ℝ, 0.5 * r * (y * (0.5 / r)) = y / 4 := by intro y; field_simp; ring
  refine ⟨?_, g _ _ _ a1, g _ _ _ a2, g _ _ _ a3, f _, f _, f _, g _ _ _ a4, g _ _ _ a5, g _ _ _ a6⟩
  show 0.5 * r * (0.5 * r) = k00 / 4
  rw [← hr2]; ring

theorem toMat_of_products {q : Q} {m : M3}
    (h00 : q.e0 * q.e0 = (1 + m.a00 + m.a11 + m.a22) / 4) (h11 : q.e1 * q.e1 = (1 + m.a00 - m.a11 - m.a22) / 4)
    (h22 : q.e2 * q.e2 = (1 - m.a00 + m.a11 - m.a22) / 4) (h33 : q.e3 * q.e3 = (1 - m.a00 - m.a11 + m.a22) / 4)
    (h01 : q.e0 * q.e1 = (m.a21 - m.a12) / 4) (h02 : q.e0 * q.e2 = (m.a02 - m.a20) / 4)
    (h03 : q.e0 * q.e3 = (m.a10 - m.a01) / 4) (h12 : q.e1 * q.e2 = (m.a01 + m.a10) / 4)
    (h13 : q.e1 * q.e3 = (m.a02 + m.a20) / 4) (h23 : q.e2 * q.e3 = (m.a12 + m.a21) / 4) :
    q.IsUnit ∧ q.toMat = m := by
  constructor
  · simp only [Q.IsUnit, Q.normSq]; nlinarith
  · ext <;> simp only [Q.toMat] <;> linarith

set_option maxHeartbeats 2000000 in
/-- On rotation matrices, Chrono's matrix→quaternion conversion is right: it returns a unit quaternion with that matrix. -/
theorem matToQuat_spec {m : M3} (hm : m.IsRot) : (matToQuat m).IsUnit ∧ (matToQuat m).toMat = m := by
  have x2x := congrArg V3.x hm.cross01
  have x2y := congrArg V3.y hm.cross01
  have x2z := congrArg V3.z hm.cross01
  have x0x := congrArg V3.x hm.cross12
  have x0y := congrArg V3.y hm.cross12
  have x0z := congrArg V3.z hm.cross12
  have x1x := congrArg V3.x hm.cross20
  have x1y := congrArg V3.y hm.cross20
  have x1z := congrArg V3.z hm.cross20
  obtain ⟨r00, r11, r22, r01, r02, r12, -⟩ := hm.transpose
  obtain ⟨c00, c11, c22, c01, c02, c12, hd⟩ := hm
  simp only [M3.c0, M3.c1, M3.c2, V3.dot, V3.cross_x, V3.cross_y, V3.cross_z, M3.transpose] at *
  have R0 : RankOne (m.a00 + m.a11 + m.a22 + 1) (1 + m.a00 - m.a11 - m.a22) (1 - m.a00 + m.a11 - m.a22)
      (1 - m.a00 - m.a11 + m.a22) (m.a21 - m.a12) (m.a02 - m.a20) (m.a10 - m.a01) (m.a01 + m.a10) (m.a02 + m.a20)
      (m.a12 + m.a21) := by
    constructor
    · ring
    · linear_combination r00 - c11 - c22 - 2 * x0x
    · linear_combination r11 - c00 - c22 - 2 * x1y
    · linear_combination -r00 - r11 + c22 - 2 * x2z
    · linear_combination c01 + r01 - x0y - x1x
    · linear_combination c02 + r02 - x2x - x0z
    · linear_combination c12 + r12 - x2y - x1z
  have R1 : RankOne (m.a00 - m.a11 - m.a22 + 1) (1 + m.a00 + m.a11 + m.a22) (1 - m.a00 + m.a11 - m.a22)
      (1 - m.a00 - m.a11 + m.a22) (m.a21 - m.a12) (m.a01 + m.a10) (m.a20 + m.a02) (m.a02 - m.a20) (m.a10 - m.a01)
      (m.a12 + m.a21) := by
    constructor
    · ring
    · linear_combination r00 - c11 - c22 - 2 * x0x
    · linear_combination -r00 - r11 + c22 + 2 * x2z
    · linear_combination -c00 + r11 - c22 + 2 * x1y
    · linear_combination c02 - r02 - x2x + x0z
    · linear_combination -c01 + r01 - x0y + x1x
    · linear_combination -c12 - r12 - x2y - x1z
  have R2 : RankOne (m.a11 - m.a22 - m.a00 + 1) (1 + m.a00 + m.a11 + m.a22) (1 + m.a00 - m.a11 - m.a22)
      (1 - m.a00 - m.a11 + m.a22) (m.a02 - m.a20) (m.a01 + m.a10) (m.a12 + m.a21) (m.a21 - m.a12) (m.a10 - m.a01)
      (m.a20 + m.a02) := by
    constructor
    · ring
    · linear_combination r11 - c00 - c22 - 2 * x1y
    · linear_combination -r00 - r11 + c22 + 2 * x2z
    · linear_combination r00 - c11 - c22 + 2 * x0x
    · linear_combination -c12 + r12 + x2y - x1z
    · linear_combination c01 - r01 - x0y + x1x
    · linear_combination -c02 - r02 - x2x - x0z
  have R3 : RankOne (m.a22 - m.a00 - m.a11 + 1) (1 + m.a00 + m.a11 + m.a22) (1 + m.a00 - m.a11 - m.a22)
      (1 - m.a00 + m.a11 - m.a22) (m.a10 - m.a01) (m.a20 + m.a02) (m.a12 + m.a21) (m.a21 - m.a12) (m.a02 - m.a20)
      (m.a01 + m.a10) := by
    constructor
    · ring
    · linear_combination -r00 - r11 + c22 - 2 * x2z
    · linear_combination -c00 + r11 - c22 + 2 * x1y
    · linear_combination r00 - c11 - c22 + 2 * x0x
    · linear_combination c12 - r12 + x2y - x1z
    · linear_combination -c02 + r02 - x2x + x0z
    · linear_combination -c01 - r01 - x0y - x1x
  clear x2x x2y x2z x0x x0y x0z x1x x1y x1z r00 r11 r22 r01 r02 r12 c00 c11 c22 c01 c02 c12 hd
  unfold matToQuat
  simp only
  split_ifs with h0 h1 h2 h3 h4
  · obtain ⟨p00, p11, p22, p33, p01, p02, p03, p12, p13, p23⟩ := R0.quat (by linarith)
    exact toMat_of_products (by linear_combination p00) (by linear_combination p11) (by linear_combination p22) (by linear_combination p33) (by linear_combination p01) (by linear_combination p02) (by linear_combination p03) (by linear_combination p12) (by linear_combination p13) (by linear_combination p23)
  · obtain ⟨p00, p11, p22, p33, p01, p02, p03, p12, p13, p23⟩ := R3.quat (by linarith)
    exact toMat_of_products (by linear_combination p11) (by linear_combination p22) (by linear_combination p33) (by linear_combination p00) (by linear_combination p12) (by linear_combination p13) (by linear_combination p01) (by linear_combination p23) (by linear_combination p02) (by linear_combination p03)
  · obtain ⟨p00, p11, p22, p33, p01, p02, p03, p12, p13, p23⟩ := R2.quat (by linarith)
    exact toMat_of_products (by linear_combination p11) (by linear_combination p22) (by linear_combination p00) (by linear_combination p33) (by linear_combination p12) (by linear_combination p01) (by linear_combination p13) (by linear_combination p02) (by linear_combination p23) (by linear_combination p03)
  · obtain ⟨p00, p11, p22, p33, p01, p02, p03, p12, p13, p23⟩ := R3.quat (by linarith)
    exact toMat_of_products (by linear_combination p11) (by linear_combination p22) (by linear_combination p33) (by linear_combination p00) (by linear_combination p12) (by linear_combination p13) (by linear_combination p01) (by linear_combination p23) (by linear_combination p02) (by linear_combination p03)
  · obtain ⟨p00, p11, p22, p33, p01, p02, p03, p12, p13, p23⟩ := R1.quat (by linarith)
    exact toMat_of_products (by linear_combination p11) (by linear_combination p00) (by linear_combination p22) (by linear_combination p33) (by linear_combination p01) (by linear_combination p12) (by linear_combination p13) (by linear_combination p02) (by linear_combination p03) (by linear_combination p23)

end Frydom.Geom
