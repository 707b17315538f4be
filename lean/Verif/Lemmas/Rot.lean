import Verif.Model.Lie
import Mathlib.Tactic.Ring
import Mathlib.Tactic.Abel

/-! Rotations by quaternions and poses. -/

namespace Mjinx
open scoped Quaternion Matrix
variable {K : Type} [Field K]

theorem pureQuat_re (v : V3 K) : (pureQuat v).re = 0 := rfl
theorem pureQuat_imI (v : V3 K) : (pureQuat v).imI = v 0 := rfl
theorem pureQuat_imJ (v : V3 K) : (pureQuat v).imJ = v 1 := rfl
theorem pureQuat_imK (v : V3 K) : (pureQuat v).imK = v 2 := rfl

theorem rotate_mul (a b : ℍ[K]) (v : V3 K) : rotate (a * b) v = rotate a (rotate b v) := by
  have h : pureQuat (imVec (b * pureQuat v * star b)) = b * pureQuat v * star b := by
    ext
    · show (0 : K) = (b * pureQuat v * star b).re
      simp only [Quaternion.re_mul, Quaternion.imI_mul, Quaternion.imJ_mul, Quaternion.imK_mul, Quaternion.re_star,
        Quaternion.imI_star, Quaternion.imJ_star, Quaternion.imK_star, pureQuat_re, pureQuat_imI, pureQuat_imJ,
        pureQuat_imK]
      ring
    · rfl
    · rfl
    · rfl
  simp only [rotate, quatInv, h, star_mul]
  congr 1
  simp only [mul_assoc]

theorem rotate_add (a : ℍ[K]) (v w : V3 K) : rotate a (v + w) = rotate a v + rotate a w := by
  have h : pureQuat (v + w) = pureQuat v + pureQuat w := by
    ext <;> simp [pureQuat_re, pureQuat_imI, pureQuat_imJ, pureQuat_imK]
  have h' : ∀ x y : ℍ[K], imVec (x + y) = imVec x + imVec y := by
    intro x y; funext i; fin_cases i <;> simp [imVec]
  simp only [rotate, h, mul_add, add_mul, h']

theorem rotate_one (v : V3 K) : rotate (1 : ℍ[K]) v = v := by
  simp only [rotate, quatInv, star_one, one_mul, mul_one]
  funext i; fin_cases i <;> rfl

theorem rotate_neg_vec (a : ℍ[K]) (v : V3 K) : rotate a (-v) = - rotate a v := by
  have h := rotate_add a v (-v)
  have h0 : rotate a (0 : V3 K) = 0 := by
    have := rotate_add a (0 : V3 K) 0
    simpa using this
  rw [add_neg_cancel, h0] at h
  exact (neg_eq_of_add_eq_zero_right h.symm).symm

theorem rotate_inv {q : ℍ[K]} (h : Quaternion.normSq q = 1) (v : V3 K) : rotate q (rotate (quatInv q) v) = v := by
  rw [← rotate_mul, quatInv, Quaternion.self_mul_star, h]
  exact rotate_one v

theorem rotate_apply0 (q : ℍ[K]) (v : V3 K) : rotate q v 0 =
    (q.re ^ 2 + q.imI ^ 2 - q.imJ ^ 2 - q.imK ^ 2) * v 0 + 2 * (q.imI * q.imJ - q.re * q.imK) * v 1 +
      2 * (q.imI * q.imK + q.re * q.imJ) * v 2 := by
  show (q * pureQuat v * star q).imI = _
  simp only [Quaternion.re_mul, Quaternion.imI_mul, Quaternion.imJ_mul, Quaternion.imK_mul, Quaternion.re_star,
    Quaternion.imI_star, Quaternion.imJ_star, Quaternion.imK_star, pureQuat_re, pureQuat_imI, pureQuat_imJ, pureQuat_imK]
  ring

theorem rotate_apply1 (q : ℍ[K]) (v : V3 K) : rotate q v 1 =
    2 * (q.imI * q.imJ + q.re * q.imK) * v 0 + (q.re ^ 2 - q.imI ^ 2 + q.imJ ^ 2 - q.imK ^ 2) * v 1 +
      2 * (q.imJ * q.imK - q.re * q.imI) * v 2 := by
  show (q * pureQuat v * star q).imJ = _
  simp only [Quaternion.re_mul, Quaternion.imI_mul, Quaternion.imJ_mul, Quaternion.imK_mul, Quaternion.re_star,
    Quaternion.imI_star, Quaternion.imJ_star, Quaternion.imK_star, pureQuat_re, pureQuat_imI, pureQuat_imJ, pureQuat_imK]
  ring

theorem rotate_apply2 (q : ℍ[K]) (v : V3 K) : rotate q v 2 =
    2 * (q.imI * q.imK - q.re * q.imJ) * v 0 + 2 * (q.imJ * q.imK + q.re * q.imI) * v 1 +
      (q.re ^ 2 - q.imI ^ 2 - q.imJ ^ 2 + q.imK ^ 2) * v 2 := by
  show (q * pureQuat v * star q).imK = _
  simp only [Quaternion.re_mul, Quaternion.imI_mul, Quaternion.imJ_mul, Quaternion.imK_mul, Quaternion.re_star,
    Quaternion.imI_star, Quaternion.imJ_star, Quaternion.imK_star, pureQuat_re, pureQuat_imI, pureQuat_imJ, pureQuat_imK]
  ring

theorem SE3.mul_apply (A B : SE3 K) (p : V3 K) : (A.mul B).apply p = A.apply (B.apply p) := by
  simp only [SE3.apply, SE3.mul, rotate_mul, rotate_add, add_assoc]

theorem SE3.apply_inv {A : SE3 K} (h : Quaternion.normSq A.rot = 1) (p : V3 K) : A.apply (A.inv.apply p) = p := by
  simp only [SE3.apply, SE3.inv, rotate_add, rotate_neg_vec, rotate_inv h]
  abel

end Mjinx
