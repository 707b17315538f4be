import Verif.Lemmas.Twist
import Mathlib.Analysis.Quaternion
import Mathlib.Analysis.Calculus.Deriv.Mul
import Mathlib.Analysis.Calculus.MeanValue

/-!
# Rates of unit quaternions
-/

namespace Mjinx
open Real Props
open scoped Quaternion Matrix


/-- Quaternions change by their four entries. -/
theorem hasDerivAt_quat {f : ℝ → ℍ[ℝ]} {f' : ℍ[ℝ]} {s : ℝ} : HasDerivAt f f' s ↔ HasDerivAt (fun t => (f t).re) f'.re s ∧ HasDerivAt (fun t => (f t).imI) f'.imI s ∧
    HasDerivAt (fun t => (f t).imJ) f'.imJ s ∧ HasDerivAt (fun t => (f t).imK) f'.imK s := by
  constructor
  · intro h
    have e : ∀ L : ℍ[ℝ] →L[ℝ] ℝ, HasDerivAt (fun t => L (f t)) (L f') s := fun L => L.hasFDerivAt.comp_hasDerivAt s h
    exact ⟨e ⟨QuaternionAlgebra.reₗ _ _ _, Quaternion.continuous_re⟩, e ⟨QuaternionAlgebra.imIₗ _ _ _, Quaternion.continuous_imI⟩,
      e ⟨QuaternionAlgebra.imJₗ _ _ _, Quaternion.continuous_imJ⟩, e ⟨QuaternionAlgebra.imKₗ _ _ _, Quaternion.continuous_imK⟩⟩
  · rintro ⟨h0, h1, h2, h3⟩
    have e : ∀ q : ℍ[ℝ], q = q.re • (1 : ℍ[ℝ]) + q.imI • (pureQuat ![1, 0, 0] : ℍ[ℝ]) + q.imJ • (pureQuat ![0, 1, 0] : ℍ[ℝ]) + q.imK • (pureQuat ![0, 0, 1] : ℍ[ℝ]) := by
      intro q
      ext <;> simp [pureQuat_re, pureQuat_imI, pureQuat_imJ, pureQuat_imK]
    have hd := (((h0.smul_const (1 : ℍ[ℝ])).add (h1.smul_const (pureQuat ![1, 0, 0] : ℍ[ℝ]))).add (h2.smul_const (pureQuat ![0, 1, 0] : ℍ[ℝ]))).add
      (h3.smul_const (pureQuat ![0, 0, 1] : ℍ[ℝ]))
    rw [← e] at hd
    refine hd.congr_of_eventuallyEq (Filter.Eventually.of_forall fun t => ?_)
    exact e (f t)

theorem hasDerivAt_star {f : ℝ → ℍ[ℝ]} {f' : ℍ[ℝ]} {s : ℝ} (h : HasDerivAt f f' s) : HasDerivAt (fun t => star (f t)) (star f') s := by
  obtain ⟨h0, h1, h2, h3⟩ := hasDerivAt_quat.1 h
  refine hasDerivAt_quat.2 ⟨?_, ?_, ?_, ?_⟩
  · simpa using h0
  · simp only [Quaternion.imI_star]; exact h1.neg
  · simp only [Quaternion.imJ_star]; exact h2.neg
  · simp only [Quaternion.imK_star]; exact h3.neg

theorem star_pureQuat (w : V3 ℝ) : star (pureQuat w) = - pureQuat w := by
  ext <;> simp [pureQuat_re]

theorem hasDerivAt_imVec {f : ℝ → ℍ[ℝ]} {f' : ℍ[ℝ]} {s : ℝ} (h : HasDerivAt f f' s) (a : Fin 3) : HasDerivAt (fun t => imVec (f t) a) (imVec f' a) s := by
  obtain ⟨-, h1, h2, h3⟩ := hasDerivAt_quat.1 h
  fin_cases a
  · exact h1
  · exact h2
  · exact h3

/-- The angular velocity of a unit quaternion, seen by its rotation matrix. -/
theorem quat_turn {r : ℝ → ℍ[ℝ]} {r' : ℍ[ℝ]} {om : V3 ℝ} (hr : HasDerivAt r r' 0) (hu : ∀ t, Quaternion.normSq (r t) = 1)
    (hM : ∀ a j, HasDerivAt (fun t => quatMat (r t) a j) ((skewSymmetric om * quatMat (r 0)) a j) 0) : r' = (1 / 2 : ℝ) • (pureQuat om * r 0) := by
  obtain ⟨h0, h1, h2, h3⟩ := hasDerivAt_quat.1 hr
  have hn : r'.re * (r 0).re + r'.imI * (r 0).imI + r'.imJ * (r 0).imJ + r'.imK * (r 0).imK = 0 := by
    have hd := (((h0.mul h0).add (h1.mul h1)).add (h2.mul h2)).add (h3.mul h3)
    have hc : HasDerivAt (fun _ : ℝ => (1 : ℝ)) 0 0 := hasDerivAt_const _ _
    have := hd.unique (hc.congr_of_eventuallyEq (Filter.Eventually.of_forall fun t => by
      have := hu t
      rw [Quaternion.normSq_def'] at this
      simp only [Pi.add_apply, Pi.mul_apply]
      linarith))
    linarith
  have h1' := hu 0
  rw [Quaternion.normSq_def'] at h1'
  -- the angular velocity of the quaternion
  obtain ⟨w, hw⟩ : ∃ w : V3 ℝ, r' = (1 / 2 : ℝ) • (pureQuat w * r 0) := by
    refine ⟨(2 : ℝ) • imVec (r' * star (r 0)), ?_⟩
    have e0 : (r' * star (r 0)).re = 0 := by
      simp only [Quaternion.re_mul, Quaternion.re_star, Quaternion.imI_star, Quaternion.imJ_star, Quaternion.imK_star]
      linarith
    have e1 : pureQuat ((2 : ℝ) • imVec (r' * star (r 0))) = (2 : ℝ) • (r' * star (r 0)) := by
      ext
      · simp only [pureQuat, Quaternion.re_smul, e0, smul_zero]
      · rfl
      · rfl
      · rfl
    rw [e1, smul_mul_assoc, mul_assoc, Quaternion.star_mul_self, hu 0, smul_smul]
    simp
  -- the matrix turns with the same angular velocity
  have hM' : ∀ a j, HasDerivAt (fun t => quatMat (r t) a j) ((skewSymmetric w * quatMat (r 0)) a j) 0 := by
    have key : ∀ v : V3 ℝ, ∀ a, HasDerivAt (fun t => rotate (r t) v a) (crossProduct w (rotate (r 0) v) a) 0 := by
      intro v a
      have hd := (hr.mul_const (pureQuat v)).mul (hasDerivAt_star hr)
      have := hasDerivAt_imVec hd a
      refine this.congr_deriv (congrFun ?_ a)
      rw [hw]
      have e1 : star ((1 / 2 : ℝ) • (pureQuat w * r 0)) = (1 / 2 : ℝ) • (star (r 0) * (- pureQuat w)) := by
        rw [Quaternion.star_smul, star_mul, star_pureQuat]
      rw [e1]
      have e2 : (1 / 2 : ℝ) • (pureQuat w * r 0) * pureQuat v * star (r 0) + r 0 * pureQuat v * (1 / 2 : ℝ) • (star (r 0) * -pureQuat w) =
          (1 / 2 : ℝ) • (pureQuat w * (r 0 * pureQuat v * star (r 0)) - (r 0 * pureQuat v * star (r 0)) * pureQuat w) := by
        rw [smul_mul_assoc, smul_mul_assoc, mul_smul_comm, ← smul_add]
        congr 1
        noncomm_ring
      rw [e2]
      show _ = crossProduct w (imVec (r 0 * pureQuat v * star (r 0)))
      generalize r 0 * pureQuat v * star (r 0) = x
      funext a
      fin_cases a <;> simp [imVec, pureQuat_re, pureQuat_imI, pureQuat_imJ, pureQuat_imK, cross_apply] <;> ring
    intro a j
    refine (key (Pi.single j 1) a).congr_deriv ?_
    rw [← quatMat_mulVec, ← C42_cross, Matrix.mulVec_mulVec, Matrix.mulVec_single_one]
    rfl
  have hs : skewSymmetric w = skewSymmetric om := by
    have e : skewSymmetric w * quatMat (r 0) = skewSymmetric om * quatMat (r 0) := by
      ext a j
      exact (hM' a j).unique (hM a j)
    have := congrArg (· * (quatMat (r 0))ᵀ) e
    simp only [Matrix.mul_assoc, (quatMat_rotation (hu 0)).1, Matrix.mul_one] at this
    exact this
  have : w = om := by
    have e := fun a j => congrFun (congrFun hs a) j
    have e0 := e 2 1
    have e1 := e 0 2
    have e2 := e 1 0
    simp [skewSymmetric] at e0 e1 e2
    funext a
    fin_cases a
    · exact e0
    · exact e1
    · exact e2
  rw [hw, this]

end Mjinx
