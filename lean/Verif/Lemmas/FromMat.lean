import Verif.Lemmas.Rot
import Verif.Model.RealFns
import Verif.Spec.Pose
import Mathlib.LinearAlgebra.Matrix.NonsingularInverse
import Mathlib.Tactic.LinearCombination
import Mathlib.Tactic.FieldSimp
import Mathlib.Tactic.Positivity

/-! `SO3.from_matrix` of a rotation matrix is a unit quaternion that rotates as the matrix does. -/

namespace Mjinx
open Spec Real
open scoped Quaternion Matrix

/-- A quaternion whose pairwise products are the entries of the matrix linear in `R` below. -/
theorem rot_of_products {q : ℍ[ℝ]} {R : M3 ℝ}
    (h00 : q.re * q.re = (1 + R 0 0 + R 1 1 + R 2 2) / 4)
    (h01 : q.re * q.imI = (R 2 1 - R 1 2) / 4)
    (h02 : q.re * q.imJ = (R 0 2 - R 2 0) / 4)
    (h03 : q.re * q.imK = (R 1 0 - R 0 1) / 4)
    (h11 : q.imI * q.imI = (1 + R 0 0 - R 1 1 - R 2 2) / 4)
    (h12 : q.imI * q.imJ = (R 1 0 + R 0 1) / 4)
    (h13 : q.imI * q.imK = (R 0 2 + R 2 0) / 4)
    (h22 : q.imJ * q.imJ = (1 - R 0 0 + R 1 1 - R 2 2) / 4)
    (h23 : q.imJ * q.imK = (R 2 1 + R 1 2) / 4)
    (h33 : q.imK * q.imK = (1 - R 0 0 - R 1 1 + R 2 2) / 4)
    : Quaternion.normSq q = 1 ∧ ∀ v, rotate q v = R.mulVec v := by
  constructor
  · rw [Quaternion.normSq_def']
    linear_combination h00 + h11 + h22 + h33
  · intro v
    funext x
    fin_cases x
    · show rotate q v 0 = R.mulVec v 0
      rw [rotate_apply0]
      simp only [Matrix.mulVec, dotProduct, Fin.sum_univ_three]
      linear_combination (h00 + h11 - h22 - h33) * v 0 + 2 * (h12 - h03) * v 1 + 2 * (h13 + h02) * v 2
    · show rotate q v 1 = R.mulVec v 1
      rw [rotate_apply1]
      simp only [Matrix.mulVec, dotProduct, Fin.sum_univ_three]
      linear_combination 2 * (h12 + h03) * v 0 + (h00 - h11 + h22 - h33) * v 1 + 2 * (h23 - h01) * v 2
    · show rotate q v 2 = R.mulVec v 2
      rw [rotate_apply2]
      simp only [Matrix.mulVec, dotProduct, Fin.sum_univ_three]
      linear_combination 2 * (h13 - h02) * v 0 + 2 * (h23 + h01) * v 1 + (h00 - h11 - h22 + h33) * v 2

/-- The equations between the entries of a rotation matrix. -/
theorem rotation_entries {R : M3 ℝ} (hR : IsRotation R) :
    (∀ i j, ∑ k, R i k * R j k = if i = j then 1 else 0) ∧ (∀ i j, ∑ k, R k i * R k j = if i = j then 1 else 0) ∧
      R.adjugate = Rᵀ := by
  obtain ⟨h1, h2⟩ := hR
  have h3 : Rᵀ * R = 1 := mul_eq_one_comm.1 h1
  refine ⟨fun i j => ?_, fun i j => ?_, ?_⟩
  · have := congrFun (congrFun h1 i) j
    rwa [Matrix.mul_apply, Matrix.one_apply] at this
  · have := congrFun (congrFun h3 i) j
    rwa [Matrix.mul_apply, Matrix.one_apply] at this
  · calc R.adjugate = R.adjugate * (R * Rᵀ) := by rw [h1, mul_one]
      _ = Rᵀ := by rw [← mul_assoc, Matrix.adjugate_mul, h2, one_smul, one_mul]

theorem rotOfMatR_spec {R : M3 ℝ} (hR : IsRotation R) :
    Quaternion.normSq (rotOfMatR R) = 1 ∧ ∀ v, rotate (rotOfMatR R) v = R.mulVec v := by
  obtain ⟨hr, hc, hk⟩ := rotation_entries hR
  rw [Matrix.adjugate_fin_three] at hk

  have r00 := hr 0 0
  have r01 := hr 0 1
  have r02 := hr 0 2
  have r11 := hr 1 1
  have r12 := hr 1 2
  have r22 := hr 2 2
  have c00 := hc 0 0
  have c01 := hc 0 1
  have c02 := hc 0 2
  have c11 := hc 1 1
  have c12 := hc 1 2
  have c22 := hc 2 2
  have k00 : R 1 1 * R 2 2 - R 1 2 * R 2 1 = R 0 0 := by
    have e := congrFun (congrFun hk 0) 0
    simp at e
    linarith
  have k01 : R 1 2 * R 2 0 - R 1 0 * R 2 2 = R 0 1 := by
    have e := congrFun (congrFun hk 1) 0
    simp at e
    linarith
  have k02 : R 1 0 * R 2 1 - R 1 1 * R 2 0 = R 0 2 := by
    have e := congrFun (congrFun hk 2) 0
    simp at e
    linarith
  have k10 : R 2 1 * R 0 2 - R 2 2 * R 0 1 = R 1 0 := by
    have e := congrFun (congrFun hk 0) 1
    simp at e
    linarith
  have k11 : R 2 2 * R 0 0 - R 2 0 * R 0 2 = R 1 1 := by
    have e := congrFun (congrFun hk 1) 1
    simp at e
    linarith
  have k12 : R 2 0 * R 0 1 - R 2 1 * R 0 0 = R 1 2 := by
    have e := congrFun (congrFun hk 2) 1
    simp at e
    linarith
  have k20 : R 0 1 * R 1 2 - R 0 2 * R 1 1 = R 2 0 := by
    have e := congrFun (congrFun hk 0) 2
    simp at e
    linarith
  have k21 : R 0 2 * R 1 0 - R 0 0 * R 1 2 = R 2 1 := by
    have e := congrFun (congrFun hk 1) 2
    simp at e
    linarith
  have k22 : R 0 0 * R 1 1 - R 0 1 * R 1 0 = R 2 2 := by
    have e := congrFun (congrFun hk 2) 2
    simp at e
    linarith
  simp only [Fin.sum_univ_three, if_true, Fin.isValue, zero_ne_one, if_false, show (0 : Fin 3) ≠ 2 from by decide,
    show (1 : Fin 3) ≠ 2 from by decide] at r00 r01 r02 r11 r12 r22 c00 c01 c02 c11 c12 c22
  have p011 : (R 2 1 - R 1 2) * (R 2 1 - R 1 2) = (1 + R 0 0 + R 1 1 + R 2 2) * (1 + R 0 0 - R 1 1 - R 2 2) := by linear_combination (1) * r11 + (1) * r22 + (-1) * c00 + (2) * k00
  have p012 : (R 2 1 - R 1 2) * (R 0 2 - R 2 0) = (1 + R 0 0 + R 1 1 + R 2 2) * (R 1 0 + R 0 1) := by linear_combination (-1) * r01 + (-1) * c01 + (1) * k01 + (1) * k10
  have p013 : (R 2 1 - R 1 2) * (R 1 0 - R 0 1) = (1 + R 0 0 + R 1 1 + R 2 2) * (R 0 2 + R 2 0) := by linear_combination (-1) * r02 + (-1) * c02 + (1) * k02 + (1) * k20
  have p022 : (R 0 2 - R 2 0) * (R 0 2 - R 2 0) = (1 + R 0 0 + R 1 1 + R 2 2) * (1 - R 0 0 + R 1 1 - R 2 2) := by linear_combination (1) * r00 + (1) * r22 + (-1) * c11 + (2) * k11
  have p023 : (R 0 2 - R 2 0) * (R 1 0 - R 0 1) = (1 + R 0 0 + R 1 1 + R 2 2) * (R 2 1 + R 1 2) := by linear_combination (-1) * r12 + (-1) * c12 + (1) * k12 + (1) * k21
  have p033 : (R 1 0 - R 0 1) * (R 1 0 - R 0 1) = (1 + R 0 0 + R 1 1 + R 2 2) * (1 - R 0 0 - R 1 1 + R 2 2) := by linear_combination (-1) * r22 + (1) * c00 + (1) * c11 + (2) * k22
  have p100 : (R 2 1 - R 1 2) * (R 2 1 - R 1 2) = (1 + R 0 0 - R 1 1 - R 2 2) * (1 + R 0 0 + R 1 1 + R 2 2) := by linear_combination (1) * r11 + (1) * r22 + (-1) * c00 + (2) * k00
  have p102 : (R 2 1 - R 1 2) * (R 1 0 + R 0 1) = (1 + R 0 0 - R 1 1 - R 2 2) * (R 0 2 - R 2 0) := by linear_combination (1) * r02 + (-1) * c02 + (1) * k02 + (-1) * k20
  have p103 : (R 2 1 - R 1 2) * (R 0 2 + R 2 0) = (1 + R 0 0 - R 1 1 - R 2 2) * (R 1 0 - R 0 1) := by linear_combination (-1) * r01 + (1) * c01 + (-1) * k01 + (1) * k10
  have p122 : (R 1 0 + R 0 1) * (R 1 0 + R 0 1) = (1 + R 0 0 - R 1 1 - R 2 2) * (1 - R 0 0 + R 1 1 - R 2 2) := by linear_combination (-1) * r22 + (1) * c00 + (1) * c11 + (-2) * k22
  have p123 : (R 1 0 + R 0 1) * (R 0 2 + R 2 0) = (1 + R 0 0 - R 1 1 - R 2 2) * (R 2 1 + R 1 2) := by linear_combination (1) * r12 + (1) * c12 + (1) * k12 + (1) * k21
  have p133 : (R 0 2 + R 2 0) * (R 0 2 + R 2 0) = (1 + R 0 0 - R 1 1 - R 2 2) * (1 - R 0 0 - R 1 1 + R 2 2) := by linear_combination (1) * r00 + (1) * r22 + (-1) * c11 + (-2) * k11
  have p200 : (R 0 2 - R 2 0) * (R 0 2 - R 2 0) = (1 - R 0 0 + R 1 1 - R 2 2) * (1 + R 0 0 + R 1 1 + R 2 2) := by linear_combination (1) * r00 + (1) * r22 + (-1) * c11 + (2) * k11
  have p201 : (R 0 2 - R 2 0) * (R 1 0 + R 0 1) = (1 - R 0 0 + R 1 1 - R 2 2) * (R 2 1 - R 1 2) := by linear_combination (-1) * r12 + (1) * c12 + (-1) * k12 + (1) * k21
  have p203 : (R 0 2 - R 2 0) * (R 2 1 + R 1 2) = (1 - R 0 0 + R 1 1 - R 2 2) * (R 1 0 - R 0 1) := by linear_combination (1) * r01 + (-1) * c01 + (-1) * k01 + (1) * k10
  have p211 : (R 1 0 + R 0 1) * (R 1 0 + R 0 1) = (1 - R 0 0 + R 1 1 - R 2 2) * (1 + R 0 0 - R 1 1 - R 2 2) := by linear_combination (-1) * r22 + (1) * c00 + (1) * c11 + (-2) * k22
  have p213 : (R 1 0 + R 0 1) * (R 2 1 + R 1 2) = (1 - R 0 0 + R 1 1 - R 2 2) * (R 0 2 + R 2 0) := by linear_combination (1) * r02 + (1) * c02 + (1) * k02 + (1) * k20
  have p233 : (R 2 1 + R 1 2) * (R 2 1 + R 1 2) = (1 - R 0 0 + R 1 1 - R 2 2) * (1 - R 0 0 - R 1 1 + R 2 2) := by linear_combination (1) * r11 + (1) * r22 + (-1) * c00 + (-2) * k00
  have p300 : (R 1 0 - R 0 1) * (R 1 0 - R 0 1) = (1 - R 0 0 - R 1 1 + R 2 2) * (1 + R 0 0 + R 1 1 + R 2 2) := by linear_combination (-1) * r22 + (1) * c00 + (1) * c11 + (2) * k22
  have p301 : (R 1 0 - R 0 1) * (R 0 2 + R 2 0) = (1 - R 0 0 - R 1 1 + R 2 2) * (R 2 1 - R 1 2) := by linear_combination (1) * r12 + (-1) * c12 + (-1) * k12 + (1) * k21
  have p302 : (R 1 0 - R 0 1) * (R 2 1 + R 1 2) = (1 - R 0 0 - R 1 1 + R 2 2) * (R 0 2 - R 2 0) := by linear_combination (-1) * r02 + (1) * c02 + (1) * k02 + (-1) * k20
  have p311 : (R 0 2 + R 2 0) * (R 0 2 + R 2 0) = (1 - R 0 0 - R 1 1 + R 2 2) * (1 + R 0 0 - R 1 1 - R 2 2) := by linear_combination (1) * r00 + (1) * r22 + (-1) * c11 + (-2) * k11
  have p312 : (R 0 2 + R 2 0) * (R 2 1 + R 1 2) = (1 - R 0 0 - R 1 1 + R 2 2) * (R 1 0 + R 0 1) := by linear_combination (1) * r01 + (1) * c01 + (1) * k01 + (1) * k10
  have p322 : (R 2 1 + R 1 2) * (R 2 1 + R 1 2) = (1 - R 0 0 - R 1 1 + R 2 2) * (1 - R 0 0 + R 1 1 - R 2 2) := by linear_combination (1) * r11 + (1) * r22 + (-1) * c00 + (-2) * k00
  have key : ∀ {t x : ℝ}, 0 < t → x = 1 / 2 / √t → x * x * t = 1 / 4 := by
    rintro t x ht rfl
    have : √t * √t = t := mul_self_sqrt ht.le
    have h0 : √t ≠ 0 := (sqrt_pos.2 ht).ne'
    field_simp
    linarith
  by_cases g1 : R 2 2 < 0
  · by_cases g2 : R 0 0 > R 1 1
    · have ht : 0 < 1 + R 0 0 - R 1 1 - R 2 2 := by linarith
      have hx := key ht rfl
      have hc : fromMatrixCase R = (1 + R 0 0 - R 1 1 - R 2 2, ⟨R 2 1 - R 1 2, 1 + R 0 0 - R 1 1 - R 2 2, R 1 0 + R 0 1, R 0 2 + R 2 0⟩) := by unfold fromMatrixCase; simp only [if_pos g1, if_pos g2]
      set x := (1 / 2 : ℝ) / √(1 + R 0 0 - R 1 1 - R 2 2) with hxd
      have e0 : (rotOfMatR R).re = x * (R 2 1 - R 1 2) := by rw [rotOfMatR, hc]; rfl
      have e1 : (rotOfMatR R).imI = x * (1 + R 0 0 - R 1 1 - R 2 2) := by rw [rotOfMatR, hc]; rfl
      have e2 : (rotOfMatR R).imJ = x * (R 1 0 + R 0 1) := by rw [rotOfMatR, hc]; rfl
      have e3 : (rotOfMatR R).imK = x * (R 0 2 + R 2 0) := by rw [rotOfMatR, hc]; rfl
      apply rot_of_products <;> simp only [e0, e1, e2, e3]
      · linear_combination x * x * p100 + (1 + R 0 0 + R 1 1 + R 2 2) * hx
      · linear_combination (R 2 1 - R 1 2) * hx
      · linear_combination x * x * p102 + (R 0 2 - R 2 0) * hx
      · linear_combination x * x * p103 + (R 1 0 - R 0 1) * hx
      · linear_combination (1 + R 0 0 - R 1 1 - R 2 2) * hx
      · linear_combination (R 1 0 + R 0 1) * hx
      · linear_combination (R 0 2 + R 2 0) * hx
      · linear_combination x * x * p122 + (1 - R 0 0 + R 1 1 - R 2 2) * hx
      · linear_combination x * x * p123 + (R 2 1 + R 1 2) * hx
      · linear_combination x * x * p133 + (1 - R 0 0 - R 1 1 + R 2 2) * hx
    · have ht : 0 < 1 - R 0 0 + R 1 1 - R 2 2 := by linarith
      have hx := key ht rfl
      have hc : fromMatrixCase R = (1 - R 0 0 + R 1 1 - R 2 2, ⟨R 0 2 - R 2 0, R 1 0 + R 0 1, 1 - R 0 0 + R 1 1 - R 2 2, R 2 1 + R 1 2⟩) := by unfold fromMatrixCase; simp only [if_pos g1, if_neg g2]
      set x := (1 / 2 : ℝ) / √(1 - R 0 0 + R 1 1 - R 2 2) with hxd
      have e0 : (rotOfMatR R).re = x * (R 0 2 - R 2 0) := by rw [rotOfMatR, hc]; rfl
      have e1 : (rotOfMatR R).imI = x * (R 1 0 + R 0 1) := by rw [rotOfMatR, hc]; rfl
      have e2 : (rotOfMatR R).imJ = x * (1 - R 0 0 + R 1 1 - R 2 2) := by rw [rotOfMatR, hc]; rfl
      have e3 : (rotOfMatR R).imK = x * (R 2 1 + R 1 2) := by rw [rotOfMatR, hc]; rfl
      apply rot_of_products <;> simp only [e0, e1, e2, e3]
      · linear_combination x * x * p200 + (1 + R 0 0 + R 1 1 + R 2 2) * hx
      · linear_combination x * x * p201 + (R 2 1 - R 1 2) * hx
      · linear_combination (R 0 2 - R 2 0) * hx
      · linear_combination x * x * p203 + (R 1 0 - R 0 1) * hx
      · linear_combination x * x * p211 + (1 + R 0 0 - R 1 1 - R 2 2) * hx
      · linear_combination (R 1 0 + R 0 1) * hx
      · linear_combination x * x * p213 + (R 0 2 + R 2 0) * hx
      · linear_combination (1 - R 0 0 + R 1 1 - R 2 2) * hx
      · linear_combination (R 2 1 + R 1 2) * hx
      · linear_combination x * x * p233 + (1 - R 0 0 - R 1 1 + R 2 2) * hx
  · by_cases g2 : R 0 0 < - R 1 1
    · have ht : 0 < 1 - R 0 0 - R 1 1 + R 2 2 := by linarith
      have hx := key ht rfl
      have hc : fromMatrixCase R = (1 - R 0 0 - R 1 1 + R 2 2, ⟨R 1 0 - R 0 1, R 0 2 + R 2 0, R 2 1 + R 1 2, 1 - R 0 0 - R 1 1 + R 2 2⟩) := by unfold fromMatrixCase; simp only [if_neg g1, if_pos g2]
      set x := (1 / 2 : ℝ) / √(1 - R 0 0 - R 1 1 + R 2 2) with hxd
      have e0 : (rotOfMatR R).re = x * (R 1 0 - R 0 1) := by rw [rotOfMatR, hc]; rfl
      have e1 : (rotOfMatR R).imI = x * (R 0 2 + R 2 0) := by rw [rotOfMatR, hc]; rfl
      have e2 : (rotOfMatR R).imJ = x * (R 2 1 + R 1 2) := by rw [rotOfMatR, hc]; rfl
      have e3 : (rotOfMatR R).imK = x * (1 - R 0 0 - R 1 1 + R 2 2) := by rw [rotOfMatR, hc]; rfl
      apply rot_of_products <;> simp only [e0, e1, e2, e3]
      · linear_combination x * x * p300 + (1 + R 0 0 + R 1 1 + R 2 2) * hx
      · linear_combination x * x * p301 + (R 2 1 - R 1 2) * hx
      · linear_combination x * x * p302 + (R 0 2 - R 2 0) * hx
      · linear_combination (R 1 0 - R 0 1) * hx
      · linear_combination x * x * p311 + (1 + R 0 0 - R 1 1 - R 2 2) * hx
      · linear_combination x * x * p312 + (R 1 0 + R 0 1) * hx
      · linear_combination (R 0 2 + R 2 0) * hx
      · linear_combination x * x * p322 + (1 - R 0 0 + R 1 1 - R 2 2) * hx
      · linear_combination (R 2 1 + R 1 2) * hx
      · linear_combination (1 - R 0 0 - R 1 1 + R 2 2) * hx
    · have ht : 0 < 1 + R 0 0 + R 1 1 + R 2 2 := by linarith
      have hx := key ht rfl
      have hc : fromMatrixCase R = (1 + R 0 0 + R 1 1 + R 2 2, ⟨1 + R 0 0 + R 1 1 + R 2 2, R 2 1 - R 1 2, R 0 2 - R 2 0, R 1 0 - R 0 1⟩) := by unfold fromMatrixCase; simp only [if_neg g1, if_neg g2]
      set x := (1 / 2 : ℝ) / √(1 + R 0 0 + R 1 1 + R 2 2) with hxd
      have e0 : (rotOfMatR R).re = x * (1 + R 0 0 + R 1 1 + R 2 2) := by rw [rotOfMatR, hc]; rfl
      have e1 : (rotOfMatR R).imI = x * (R 2 1 - R 1 2) := by rw [rotOfMatR, hc]; rfl
      have e2 : (rotOfMatR R).imJ = x * (R 0 2 - R 2 0) := by rw [rotOfMatR, hc]; rfl
      have e3 : (rotOfMatR R).imK = x * (R 1 0 - R 0 1) := by rw [rotOfMatR, hc]; rfl
      apply rot_of_products <;> simp only [e0, e1, e2, e3]
      · linear_combination (1 + R 0 0 + R 1 1 + R 2 2) * hx
      · linear_combination (R 2 1 - R 1 2) * hx
      · linear_combination (R 0 2 - R 2 0) * hx
      · linear_combination (R 1 0 - R 0 1) * hx
      · linear_combination x * x * p011 + (1 + R 0 0 - R 1 1 - R 2 2) * hx
      · linear_combination x * x * p012 + (R 1 0 + R 0 1) * hx
      · linear_combination x * x * p013 + (R 0 2 + R 2 0) * hx
      · linear_combination x * x * p022 + (1 - R 0 0 + R 1 1 - R 2 2) * hx
      · linear_combination x * x * p023 + (R 2 1 + R 1 2) * hx
      · linear_combination x * x * p033 + (1 - R 0 0 - R 1 1 + R 2 2) * hx

end Mjinx
