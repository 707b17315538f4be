import Verif.Model.RealFns
import Verif.Spec.Sim
import Verif.Spec.Examples
import Verif.Lemmas.JointEval
import Verif.Lemmas.Rot
import Mathlib.Analysis.SpecialFunctions.Trigonometric.Deriv

/-!
# C42–C46: vectors, quaternions and joint coordinates
-/

namespace Mjinx.Props
open Spec Finset
open scoped Quaternion Matrix
set_option linter.unusedSectionVars false

section
variable {K : Type} [Field K]

/-- C42: `skew_symmetric(v) @ w` is the cross product. -/
theorem C42_cross (v w : V3 K) : (skewSymmetric v).mulVec w = crossProduct v w := by
  funext i
  fin_cases i <;> simp [skewSymmetric, crossProduct, Matrix.mulVec, dotProduct, Fin.sum_univ_three] <;> ring

/-- C42: the matrix is antisymmetric. -/
theorem C42_antisymmetric (v : V3 K) : (skewSymmetric v)ᵀ = - skewSymmetric v := by
  ext i j
  fin_cases i <;> fin_cases j <;> simp [skewSymmetric]

example : crossProduct (![1, 2, 3] : V3 ℚ) ![0, 1, 0] = ![-3, 0, 1] := by
  funext i; fin_cases i <;> simp [crossProduct]

/-- A quaternion as a vector `(w, x, y, z)`. -/
def quatVec (q : ℍ[K]) : Fin 4 → K := ![q.re, q.imI, q.imJ, q.imK]


theorem attitude_eq (q : ℍ[K]) : attitudeJacobian q = !![-q.imI, -q.imJ, -q.imK; q.re, -q.imK, q.imJ;
    q.imK, q.re, -q.imI; -q.imJ, q.imI, q.re] := by
  ext i j
  have h0 : ∀ f : Fin 3 → Fin 3 → K, ∀ g : Fin 3 → K, (Fin.cons g f : Fin 4 → Fin 3 → K) 1 = f 0 := fun _ _ => rfl
  have h1 : ∀ f : Fin 3 → Fin 3 → K, ∀ g : Fin 3 → K, (Fin.cons g f : Fin 4 → Fin 3 → K) 2 = f 1 := fun _ _ => rfl
  have h2 : ∀ f : Fin 3 → Fin 3 → K, ∀ g : Fin 3 → K, (Fin.cons g f : Fin 4 → Fin 3 → K) 3 = f 2 := fun _ _ => rfl
  fin_cases i <;> fin_cases j <;> simp [attitudeJacobian, skewSymmetric, imVec, h0, h1, h2]

/-- C43: `attitude_jacobian(q) @ ω` is the quaternion product of `q` and `(0, ω)`. -/
theorem C43_product (q : ℍ[K]) (om : V3 K) :
    (attitudeJacobian q).mulVec om = quatVec (q * pureQuat om) := by
  rw [attitude_eq]
  funext i
  fin_cases i <;>
    simp [quatVec, pureQuat_re, pureQuat_imI, pureQuat_imJ, pureQuat_imK, Matrix.mulVec, dotProduct, Fin.sum_univ_three, Quaternion.re_mul, Quaternion.imI_mul,
      Quaternion.imJ_mul, Quaternion.imK_mul] <;> ring

/-- C43: for a unit quaternion the columns are orthonormal. -/
theorem C43_orthonormal (q : ℍ[K]) (h : Quaternion.normSq q = 1) :
    (attitudeJacobian q)ᵀ * attitudeJacobian q = 1 := by
  rw [Quaternion.normSq_def'] at h
  rw [attitude_eq]
  ext i j
  fin_cases i <;> fin_cases j <;>
    simp [Matrix.mul_apply, Fin.sum_univ_four] <;>
    first | linear_combination h | ring

/-- C43: the columns are orthogonal to the quaternion. -/
theorem C43_orthogonal (q : ℍ[K]) : Matrix.vecMul (quatVec q) (attitudeJacobian q) = 0 := by
  rw [attitude_eq]
  funext j
  fin_cases j <;>
    simp [quatVec, Matrix.vecMul, dotProduct, Fin.sum_univ_four] <;> ring

/-- A unit quaternion. -/
def exQ : ℍ[ℚ] := ⟨3/5, 0, 4/5, 0⟩
example : Quaternion.normSq exQ = 1 := by
  rw [Quaternion.normSq_def']
  show (3/5 : ℚ) ^ 2 + 0 ^ 2 + (4/5) ^ 2 + 0 ^ 2 = 1
  norm_num

end

/-! ### Rotations over the real numbers -/

section
open Real

theorem axisQuat_normSq (v : V3 ℝ) (t : ℝ) : Quaternion.normSq (axisQuat v t) = 1 := by
  have hs : 0 ≤ sq3 v := by unfold sq3; positivity
  rw [Quaternion.normSq_def']
  show cos (t * √(sq3 v) / 2) ^ 2 + (sin (t * √(sq3 v) / 2) / √(sq3 v) * v 0) ^ 2 +
    (sin (t * √(sq3 v) / 2) / √(sq3 v) * v 1) ^ 2 + (sin (t * √(sq3 v) / 2) / √(sq3 v) * v 2) ^ 2 = 1
  by_cases h : sq3 v = 0
  · simp [h]
  · have hn : √(sq3 v) ≠ 0 := by rw [Real.sqrt_ne_zero hs]; exact h
    have h2 : √(sq3 v) ^ 2 = sq3 v := Real.sq_sqrt hs
    have h3 : v 0 ^ 2 + v 1 ^ 2 + v 2 ^ 2 = √(sq3 v) ^ 2 := by rw [h2]; rfl
    have : cos (t * √(sq3 v) / 2) ^ 2 + sin (t * √(sq3 v) / 2) ^ 2 = 1 := Real.cos_sq_add_sin_sq _
    field_simp
    linear_combination (√(sq3 v) ^ 2) * this + (sin (t * √(sq3 v) / 2) ^ 2) * h3

theorem quatIntegrateR_unit {q : ℍ[ℝ]} (h : Quaternion.normSq q = 1) (v : V3 ℝ) (t : ℝ) :
    quatIntegrateR q v t = q * axisQuat v t := by
  unfold quatIntegrateR
  simp only [map_mul, h, axisQuat_normSq, mul_one, Real.sqrt_one, inv_one, one_smul]

/-- The components of the rotation by `v` for time `t` have derivative `(0, v/2)` at `t = 0`. -/
theorem axisQuat_deriv (v : V3 ℝ) :
    HasDerivAt (fun t => (axisQuat v t).re) 0 0 ∧ HasDerivAt (fun t => (axisQuat v t).imI) (v 0 / 2) 0 ∧
    HasDerivAt (fun t => (axisQuat v t).imJ) (v 1 / 2) 0 ∧ HasDerivAt (fun t => (axisQuat v t).imK) (v 2 / 2) 0 := by
  have hs : 0 ≤ sq3 v := by unfold sq3; positivity
  have hlin : HasDerivAt (fun t : ℝ => t * √(sq3 v) / 2) (√(sq3 v) / 2) 0 := by
    simpa using ((hasDerivAt_id (0 : ℝ)).mul_const (√(sq3 v))).div_const 2
  have hcos := hlin.cos
  have hsin := hlin.sin
  simp only [zero_mul, zero_div, Real.sin_zero, Real.cos_zero, neg_zero, one_mul] at hcos hsin
  have him : ∀ i, HasDerivAt (fun t => sin (t * √(sq3 v) / 2) / √(sq3 v) * v i) (v i / 2) 0 := by
    intro i
    have := (hsin.div_const (√(sq3 v))).mul_const (v i)
    have e : √(sq3 v) / 2 / √(sq3 v) * v i = v i / 2 := by
      by_cases h : sq3 v = 0
      · have : v i = 0 := by
          have h' : v 0 ^ 2 + v 1 ^ 2 + v 2 ^ 2 = 0 := h
          fin_cases i
          · show v 0 = 0; nlinarith [sq_nonneg (v 0), sq_nonneg (v 1), sq_nonneg (v 2)]
          · show v 1 = 0; nlinarith [sq_nonneg (v 0), sq_nonneg (v 1), sq_nonneg (v 2)]
          · show v 2 = 0; nlinarith [sq_nonneg (v 0), sq_nonneg (v 1), sq_nonneg (v 2)]
        rw [this]; simp
      · have hn : √(sq3 v) ≠ 0 := by rw [Real.sqrt_ne_zero hs]; exact h
        field_simp
    rw [e] at this
    exact this
  exact ⟨hcos, him 0, him 1, him 2⟩

theorem quatMul_deriv (q : ℍ[ℝ]) (v : V3 ℝ) (i : Fin 4) :
    HasDerivAt (fun t => quatVec (q * axisQuat v t) i) (1 / 2 * quatVec (q * pureQuat v) i) 0 := by
  obtain ⟨h0, h1, h2, h3⟩ := axisQuat_deriv v
  fin_cases i
  · show HasDerivAt (fun t => (q * axisQuat v t).re) (1 / 2 * (q * pureQuat v).re) 0
    simp only [Quaternion.re_mul, pureQuat_re, pureQuat_imI, pureQuat_imJ, pureQuat_imK]
    have := (((h0.const_mul q.re).sub (h1.const_mul q.imI)).sub (h2.const_mul q.imJ)).sub (h3.const_mul q.imK)
    refine this.congr_deriv ?_; ring
  · show HasDerivAt (fun t => (q * axisQuat v t).imI) (1 / 2 * (q * pureQuat v).imI) 0
    simp only [Quaternion.imI_mul, pureQuat_re, pureQuat_imI, pureQuat_imJ, pureQuat_imK]
    have := (((h1.const_mul q.re).add (h0.const_mul q.imI)).add (h3.const_mul q.imJ)).sub (h2.const_mul q.imK)
    refine this.congr_deriv ?_; ring
  · show HasDerivAt (fun t => (q * axisQuat v t).imJ) (1 / 2 * (q * pureQuat v).imJ) 0
    simp only [Quaternion.imJ_mul, pureQuat_re, pureQuat_imI, pureQuat_imJ, pureQuat_imK]
    have := (((h2.const_mul q.re).sub (h3.const_mul q.imI)).add (h0.const_mul q.imJ)).add (h1.const_mul q.imK)
    refine this.congr_deriv ?_; ring
  · show HasDerivAt (fun t => (q * axisQuat v t).imK) (1 / 2 * (q * pureQuat v).imK) 0
    simp only [Quaternion.imK_mul, pureQuat_re, pureQuat_imI, pureQuat_imJ, pureQuat_imK]
    have := (((h3.const_mul q.re).add (h2.const_mul q.imI)).sub (h1.const_mul q.imJ)).add (h0.const_mul q.imK)
    refine this.congr_deriv ?_; ring

/-- C43: for a unit quaternion, half of `attitude_jacobian(q) @ ω` is the derivative at time zero of the
quaternion rotating with body angular velocity `ω`. -/
theorem C43_derivative {q : ℍ[ℝ]} (h : Quaternion.normSq q = 1) (om : V3 ℝ) (i : Fin 4) :
    HasDerivAt (fun t => quatVec (quatIntegrateR q om t) i) (1 / 2 * (attitudeJacobian q).mulVec om i) 0 := by
  rw [C43_product]
  simp only [quatIntegrateR_unit h]
  exact quatMul_deriv q om i

example : ∃ q : ℍ[ℝ], Quaternion.normSq q = 1 ∧ q ≠ 1 := by
  refine ⟨axisQuat ![1, 2, 3] 1, axisQuat_normSq _ _, ?_⟩
  intro h
  have h0 : (axisQuat ![1, 2, 3] 1).imI = (1 : ℍ[ℝ]).imI := by rw [h]
  have h1 : (axisQuat ![1, 2, 3] 1).imI = sin (1 * √(sq3 ![1, 2, 3]) / 2) / √(sq3 ![1, 2, 3]) * 1 := rfl
  have h2 : (sq3 ![1, 2, 3] : ℝ) = 14 := by simp [sq3]; norm_num
  rw [h1, h2] at h0
  have hp : (0 : ℝ) < √14 := by positivity
  have hlt : √14 < (4 : ℝ) := by
    rw [Real.sqrt_lt' (by norm_num)]; norm_num
  have : 0 < sin (1 * √14 / 2) := Real.sin_pos_of_pos_of_lt_pi (by positivity) (by linarith [Real.two_le_pi])
  have h3 : sin (1 * √14 / 2) / √14 * 1 = 0 := h0
  have : 0 < sin (1 * √14 / 2) / √14 * 1 := by positivity
  linarith

end

/-! ### C44 -/

section
variable {K : Type} [Field K]

/-- What `jac_dq2v(q) @ v` is, joint by joint. -/
def dqList (q v : Nat → K) : List JntType → Nat → Nat → List K
  | [], _, _ => []
  | .free :: ts, qi, vi =>
    vec3List (vec3At v vi) ++ quatList (quatAt q (qi + 3) * pureQuat (vec3At v (vi + 3))) ++
      dqList q v ts (qi + 7) (vi + 6)
  | .ball :: ts, qi, vi =>
    quatList (quatAt q qi * pureQuat (vec3At v vi)) ++ dqList q v ts (qi + 4) (vi + 3)
  | .hinge :: ts, qi, vi => v vi :: dqList q v ts (qi + 1) (vi + 1)
  | .slide :: ts, qi, vi => v vi :: dqList q v ts (qi + 1) (vi + 1)

/-- A row that is zero except for `w` entries starting in column `c`. -/
theorem rowDot_window {A : Mat K} {i c w : Nat} {b : Nat → K} (hc : c + w ≤ A.cols)
    (h : ∀ j, A.get i j = if c ≤ j ∧ j < c + w then b (j - c) else 0) (v : Nat → K) :
    rowDot A i v = ∑ k ∈ range w, b k * v (c + k) := by
  unfold rowDot
  simp only [h, ite_mul, zero_mul]
  rw [← Finset.sum_filter]
  refine (Finset.sum_bij (fun k _ => c + k) ?_ ?_ ?_ ?_).symm
  · intro k hk; simp only [mem_range] at hk; simp only [mem_filter, mem_range]; omega
  · intro a _ b _ h; omega
  · intro j hj; simp only [mem_filter, mem_range] at hj
    exact ⟨j - c, by simp only [mem_range]; omega, by omega⟩
  · intro k _; simp

/-- Rows of a freshly set block. -/
theorem rowDot_setBlock {A : Mat K} {r c h w i : Nat} {B : Nat → Nat → K} (hz : ∀ j, A.get i j = 0)
    (hi : r ≤ i ∧ i < r + h) (hc : c + w ≤ A.cols) (v : Nat → K) :
    rowDot (setBlock A r c h w B) i v = ∑ k ∈ range w, B (i - r) k * v (c + k) := by
  refine rowDot_window (A := setBlock A r c h w B) (i := i) (b := B (i - r)) hc ?_ v
  intro j
  unfold setBlock
  dsimp only
  by_cases hj : c ≤ j ∧ j < c + w
  · rw [if_pos ⟨hi.1, hi.2, hj.1, hj.2⟩, if_pos hj]
  · rw [if_neg (fun h => hj ⟨h.2.2.1, h.2.2.2⟩), if_neg hj]; exact hz j

theorem setBlock_row {A : Mat K} {r c h w i : Nat} {B : Nat → Nat → K} (hi : ¬ (r ≤ i ∧ i < r + h)) (j : Nat) :
    (setBlock A r c h w B).get i j = A.get i j := by
  unfold setBlock
  dsimp only
  rw [if_neg (fun h => hi ⟨h.1, h.2.1⟩)]

theorem rowDot_congr {A B : Mat K} {i : Nat} (hc : A.cols = B.cols) (h : ∀ j, A.get i j = B.get i j)
    (v : Nat → K) : rowDot A i v = rowDot B i v := by
  unfold rowDot; rw [hc]; exact sum_congr rfl fun j _ => by rw [h]

theorem att_row (q : ℍ[K]) (i : Nat) (hi : i < 4) (v : Nat → K) (c : Nat) :
    ∑ k ∈ range 3, attEntry q i k * v (c + k) = (quatList (q * pureQuat (vec3At v c))).getD i 0 := by
  have h := C43_product q (vec3At v c)
  have h' := congrFun h ⟨i, hi⟩
  have e : quatVec (q * pureQuat (vec3At v c)) ⟨i, hi⟩ = (quatList (q * pureQuat (vec3At v c))).getD i 0 := by
    obtain rfl | rfl | rfl | rfl : i = 0 ∨ i = 1 ∨ i = 2 ∨ i = 3 := by omega
    all_goals rfl
  rw [← e, ← h']
  simp only [Matrix.mulVec, dotProduct, Fin.sum_univ_three, sum_range_succ, range_zero, sum_empty, zero_add]
  have e2 : ∀ k, (hk : k < 3) → attEntry q i k = attitudeJacobian q ⟨i, hi⟩ ⟨k, hk⟩ := by
    intro k hk; unfold attEntry; rw [dif_pos ⟨hi, hk⟩]
  rw [e2 0 (by norm_num), e2 1 (by norm_num), e2 2 (by norm_num)]
  rfl

theorem jacLoop_spec {nq nv : Nat} (q v : Nat → K) : ∀ {a b : Nat} {ts : List JntType} {as bs : List Nat} (A : Mat K),
    Consecutive nq nv a b ts as bs → A.cols = nv → (∀ i, a ≤ i → ∀ j, A.get i j = 0) →
    (jacDq2vLoop q (ts.zip as) a b A).cols = nv ∧ ∀ i,
      rowDot (jacDq2vLoop q (ts.zip as) a b A) i v =
        if i < a then rowDot A i v else (dqList q v ts a b).getD (i - a) 0
  | a, b, [], [], [], A, _, hA, hz => by
    refine ⟨hA, fun i => ?_⟩
    show rowDot A i v = _
    split
    · rfl
    · rename_i h
      simp only [dqList, List.getD_nil]
      unfold rowDot
      exact sum_eq_zero fun j _ => by rw [hz i (by omega)]; ring
  | a, b, t :: ts, a' :: as, b' :: bs, A, h, hA, hz => by
    obtain ⟨rfl, rfl, h3⟩ := h
    have hvle : b' + t.nv ≤ nv := by
      have := (consecutive_layout h3).2.2.2; omega
    cases t with
    | free =>
      have hvle : b' + 6 ≤ nv := hvle
      show (jacDq2vLoop q (ts.zip as) (a' + 7) (b' + 6) _).cols = nv ∧ _
      set A2 := setBlock (setBlock A a' b' 3 3 (fun i j => if i = j then 1 else 0)) (a' + 3) (b' + 3) 4 3
        (attEntry (quatAt q (a' + 3))) with hA2
      obtain ⟨c1, c2⟩ := jacLoop_spec q v (a := a' + 7) (b := b' + 6) A2 h3 hA (by
        intro i hi j
        rw [hA2, setBlock_row (by omega), setBlock_row (by omega)]; exact hz i (by omega) j)
      refine ⟨c1, fun i => ?_⟩
      show rowDot (jacDq2vLoop q (ts.zip as) (a' + 7) (b' + 6) A2) i v = _
      rw [c2 i]
      simp only [dqList]
      by_cases h1 : i < a'
      · rw [if_pos (by omega), if_pos h1]
        refine rowDot_congr (A := A2) (B := A) (i := i) rfl (fun j => ?_) v
        rw [hA2, setBlock_row (by omega), setBlock_row (by omega)]
      · rw [if_neg h1]
        by_cases h2 : i < a' + 7
        · rw [if_pos h2, List.getD_append _ _ _ _ (by simp [vec3List, quatList]; omega)]
          by_cases h4 : i < a' + 3
          · rw [List.getD_append _ _ _ _ (by simp [vec3List]; omega)]
            have : rowDot A2 i v = rowDot (setBlock A a' b' 3 3 (fun i j => if i = j then 1 else 0)) i v :=
              rowDot_congr (A := A2) (B := setBlock A a' b' 3 3 _) (i := i) rfl (fun j => by rw [hA2, setBlock_row (by omega)]) v
            rw [this, rowDot_setBlock (hz i (by omega)) (by omega) (by rw [hA]; omega)]
            obtain ⟨k, rfl⟩ : ∃ k, i = a' + k := ⟨i - a', by omega⟩
            simp only [Nat.add_sub_cancel_left]
            obtain rfl | rfl | rfl : k = 0 ∨ k = 1 ∨ k = 2 := by omega
            all_goals simp [vec3List, vec3At]
          · rw [List.getD_append_right _ _ _ _ (by simp [vec3List]; omega)]
            rw [hA2, rowDot_setBlock (fun j => by rw [setBlock_row (by omega)]; exact hz i (by omega) j) (by omega)
              (by show b' + 3 + 3 ≤ A.cols; rw [hA]; omega)]
            rw [att_row _ _ (by omega)]
            congr 1
        · rw [if_neg h2, List.getD_append_right _ _ _ _ (by simp [vec3List, quatList]; omega)]
          congr 1
    | ball =>
      have hvle : b' + 3 ≤ nv := hvle
      show (jacDq2vLoop q (ts.zip as) (a' + 4) (b' + 3) _).cols = nv ∧ _
      set A2 := setBlock A a' b' 4 3 (attEntry (quatAt q a')) with hA2
      obtain ⟨c1, c2⟩ := jacLoop_spec q v (a := a' + 4) (b := b' + 3) A2 h3 hA (by
        intro i hi j
        rw [hA2, setBlock_row (by omega)]; exact hz i (by omega) j)
      refine ⟨c1, fun i => ?_⟩
      show rowDot (jacDq2vLoop q (ts.zip as) (a' + 4) (b' + 3) A2) i v = _
      rw [c2 i]
      simp only [dqList]
      by_cases h1 : i < a'
      · rw [if_pos (by omega), if_pos h1]
        exact rowDot_congr (A := A2) (B := A) (i := i) rfl (fun j => by rw [hA2, setBlock_row (by omega)]) v
      · rw [if_neg h1]
        by_cases h2 : i < a' + 4
        · rw [if_pos h2, List.getD_append _ _ _ _ (by simp [quatList]; omega)]
          rw [hA2, rowDot_setBlock (hz i (by omega)) (by omega) (by rw [hA]; omega), att_row _ _ (by omega)]
        · rw [if_neg h2, List.getD_append_right _ _ _ _ (by simp [quatList]; omega)]
          congr 1
    | hinge =>
      have hvle : b' + 1 ≤ nv := hvle
      show (jacDq2vLoop q (ts.zip as) (a' + 1) (b' + 1) _).cols = nv ∧ _
      set A2 := setBlock A a' b' 1 1 (fun _ _ => (1 : K)) with hA2
      obtain ⟨c1, c2⟩ := jacLoop_spec q v (a := a' + 1) (b := b' + 1) A2 h3 hA (by
        intro i hi j
        rw [hA2, setBlock_row (by omega)]; exact hz i (by omega) j)
      refine ⟨c1, fun i => ?_⟩
      show rowDot (jacDq2vLoop q (ts.zip as) (a' + 1) (b' + 1) A2) i v = _
      rw [c2 i]
      simp only [dqList]
      by_cases h1 : i < a'
      · rw [if_pos (by omega), if_pos h1]
        exact rowDot_congr (A := A2) (B := A) (i := i) rfl (fun j => by rw [hA2, setBlock_row (by omega)]) v
      · rw [if_neg h1]
        by_cases h2 : i < a' + 1
        · obtain rfl : i = a' := by omega
          rw [if_pos h2, hA2, rowDot_setBlock (hz i (by omega)) (by omega) (by rw [hA]; omega)]
          simp
        · obtain ⟨k, rfl⟩ : ∃ k, i = a' + 1 + k := ⟨i - a' - 1, by omega⟩
          rw [if_neg h2, show a' + 1 + k - a' = k + 1 by omega, List.getD_cons_succ]
          congr 1; omega
    | slide =>
      have hvle : b' + 1 ≤ nv := hvle
      show (jacDq2vLoop q (ts.zip as) (a' + 1) (b' + 1) _).cols = nv ∧ _
      set A2 := setBlock A a' b' 1 1 (fun _ _ => (1 : K)) with hA2
      obtain ⟨c1, c2⟩ := jacLoop_spec q v (a := a' + 1) (b := b' + 1) A2 h3 hA (by
        intro i hi j
        rw [hA2, setBlock_row (by omega)]; exact hz i (by omega) j)
      refine ⟨c1, fun i => ?_⟩
      show rowDot (jacDq2vLoop q (ts.zip as) (a' + 1) (b' + 1) A2) i v = _
      rw [c2 i]
      simp only [dqList]
      by_cases h1 : i < a'
      · rw [if_pos (by omega), if_pos h1]
        exact rowDot_congr (A := A2) (B := A) (i := i) rfl (fun j => by rw [hA2, setBlock_row (by omega)]) v
      · rw [if_neg h1]
        by_cases h2 : i < a' + 1
        · obtain rfl : i = a' := by omega
          rw [if_pos h2, hA2, rowDot_setBlock (hz i (by omega)) (by omega) (by rw [hA]; omega)]
          simp
        · obtain ⟨k, rfl⟩ : ∃ k, i = a' + 1 + k := ⟨i - a' - 1, by omega⟩
          rw [if_neg h2, show a' + 1 + k - a' = k + 1 by omega, List.getD_cons_succ]
          congr 1; omega
  | _, _, [], [], _ :: _, _, h, _, _ => by simp [Consecutive] at h
  | _, _, [], _ :: _, _, _, h, _, _ => by simp [Consecutive] at h
  | _, _, _ :: _, [], _, _, h, _, _ => by simp [Consecutive] at h
  | _, _, _ :: _, _ :: _, [], _, h, _, _ => by simp [Consecutive] at h

theorem jacDq2v_row {m : MjModel K} (hw : JointsWF m) (q v : Nat → K) (i : Nat) :
    rowDot (jacDq2v m q) i v = (dqList q v m.jntType 0 0).getD i 0 := by
  have := (jacLoop_spec q v (Mat.zero m.nq m.nv) hw.addr rfl (fun _ _ _ => rfl)).2 i
  simpa [jacDq2v] using this

end

section
open Real

theorem vec3_deriv (x v : V3 ℝ) (i : Nat) :
    HasDerivAt (fun t : ℝ => (vec3List (x + t • v)).getD i 0) ((vec3List v).getD i 0) 0 := by
  have key : ∀ k, HasDerivAt (fun t : ℝ => (x + t • v) k) (v k) 0 := by
    intro k
    simp only [Pi.add_apply, Pi.smul_apply, smul_eq_mul]
    simpa using ((hasDerivAt_id (0 : ℝ)).mul_const (v k)).const_add (x k)
  match i with
  | 0 => exact key 0
  | 1 => exact key 1
  | 2 => exact key 2
  | n + 3 => simpa [vec3List] using hasDerivAt_const (0 : ℝ) (0 : ℝ)

theorem quat_deriv {q : ℍ[ℝ]} (h : Quaternion.normSq q = 1) (v : V3 ℝ) (i : Nat) :
    HasDerivAt (fun t : ℝ => (quatList (quatIntegrateR q v t)).getD i 0)
      (1 / 2 * (quatList (q * pureQuat v)).getD i 0) 0 := by
  have key : ∀ k, HasDerivAt (fun t : ℝ => quatVec (quatIntegrateR q v t) k) (1 / 2 * quatVec (q * pureQuat v) k) 0 := by
    intro k
    simp only [quatIntegrateR_unit h]
    exact quatMul_deriv q v k
  match i with
  | 0 => exact key 0
  | 1 => exact key 1
  | 2 => exact key 2
  | 3 => exact key 3
  | n + 4 => simpa [quatList] using hasDerivAt_const (0 : ℝ) (0 : ℝ)

theorem scalar_deriv (x v : ℝ) : HasDerivAt (fun t : ℝ => x + t * v) v 0 := by
  simpa using ((hasDerivAt_id (0 : ℝ)).mul_const v).const_add x

theorem getD_append_deriv {n : Nat} {f g : ℝ → List ℝ} {f' g' : List ℝ} {fc gc : List Bool} {i : Nat}
    (hn : ∀ t, (f t).length = n) (hf' : f'.length = n) (hfc : fc.length = n)
    (hf : ∀ i < n, HasDerivAt (fun t => (f t).getD i 0) ((if fc.getD i false then 1 / 2 else 1) * f'.getD i 0) 0)
    (hg : ∀ i, HasDerivAt (fun t => (g t).getD i 0) ((if gc.getD i false then 1 / 2 else 1) * g'.getD i 0) 0) :
    HasDerivAt (fun t => (f t ++ g t).getD i 0)
      ((if (fc ++ gc).getD i false then 1 / 2 else 1) * (f' ++ g').getD i 0) 0 := by
  by_cases h : i < n
  · have e : ∀ t, (f t ++ g t).getD i 0 = (f t).getD i 0 := fun t => List.getD_append _ _ _ _ (by rw [hn]; exact h)
    simp only [e]
    rw [List.getD_append fc _ _ _ (by rw [hfc]; exact h), List.getD_append f' _ _ _ (by rw [hf']; exact h)]
    exact hf i h
  · have e : ∀ t, (f t ++ g t).getD i 0 = (g t).getD (i - n) 0 := fun t => by
      rw [List.getD_append_right _ _ _ _ (by rw [hn]; omega), hn]
    simp only [e]
    rw [List.getD_append_right fc _ _ _ (by rw [hfc]; omega), List.getD_append_right f' _ _ _ (by rw [hf']; omega), hf', hfc]
    exact hg _

theorem integrateLoop_deriv {nq nv : Nat} (q v : Nat → ℝ) : ∀ {a b : Nat} {ts : List JntType} {as bs : List Nat},
    Consecutive nq nv a b ts as bs → (∀ k, ∀ adr, quatAdr (ts.getD k .hinge) (as.getD k 0) = some adr →
      Quaternion.normSq (quatAt q adr) = 1) → ∀ i,
    HasDerivAt (fun t => (integrateLoop quatIntegrateR q v t ts a b).getD i 0)
      ((if (ts.flatMap coordKinds).getD i false then 1 / 2 else 1) * (dqList q v ts a b).getD i 0) 0
  | a, b, [], [], [], _, _, i => by simpa [integrateLoop, dqList] using hasDerivAt_const (0 : ℝ) (0 : ℝ)
  | a, b, t :: ts, a' :: as, b' :: bs, h, hu, i => by
    obtain ⟨rfl, rfl, h3⟩ := h
    have ih := integrateLoop_deriv q v h3 (fun k adr hk => hu (k + 1) adr (by simpa using hk))
    have hu0 := hu 0
    simp only [List.getD_cons_zero] at hu0
    rw [List.flatMap_cons]
    cases t with
    | free =>
      simp only [integrateLoop, dqList]
      refine getD_append_deriv (n := 7) (fun t => rfl) rfl rfl (fun i hi => ?_) ih
      have : coordKinds .free = [false, false, false] ++ [true, true, true, true] := rfl
      rw [this]
      refine getD_append_deriv (n := 3) (fun t => rfl) rfl rfl (fun i hi => ?_) (fun i => ?_)
      · have e : ([false, false, false] : List Bool).getD i false = false := by
          obtain rfl | rfl | rfl : i = 0 ∨ i = 1 ∨ i = 2 := by omega
          all_goals rfl
        rw [e]
        simpa using vec3_deriv (vec3At q a') (vec3At v b') i
      · by_cases hi : i < 4
        · have e : ([true, true, true, true] : List Bool).getD i false = true := by
            obtain rfl | rfl | rfl | rfl : i = 0 ∨ i = 1 ∨ i = 2 ∨ i = 3 := by omega
            all_goals rfl
          rw [e, if_pos rfl]
          exact quat_deriv (hu0 _ rfl) (vec3At v (b' + 3)) i
        · obtain ⟨k, rfl⟩ : ∃ k, i = k + 4 := ⟨i - 4, by omega⟩
          simpa [quatList] using hasDerivAt_const (0 : ℝ) (0 : ℝ)
    | ball =>
      simp only [integrateLoop, dqList]
      refine getD_append_deriv (n := 4) (fun t => rfl) rfl rfl (fun i hi => ?_) ih
      have e : (coordKinds .ball).getD i false = true := by
        obtain rfl | rfl | rfl | rfl : i = 0 ∨ i = 1 ∨ i = 2 ∨ i = 3 := by omega
        all_goals rfl
      rw [e, if_pos rfl]
      exact quat_deriv (hu0 _ rfl) (vec3At v b') i
    | hinge =>
      simp only [integrateLoop, dqList]
      refine getD_append_deriv (n := 1) (f := fun t => [q a' + t * v b']) (f' := [v b']) (fun t => rfl) rfl rfl
        (fun i hi => ?_) ih
      obtain rfl : i = 0 := by omega
      simpa [coordKinds] using scalar_deriv (q a') (v b')
    | slide =>
      simp only [integrateLoop, dqList]
      refine getD_append_deriv (n := 1) (f := fun t => [q a' + t * v b']) (f' := [v b']) (fun t => rfl) rfl rfl
        (fun i hi => ?_) ih
      obtain rfl : i = 0 := by omega
      simpa [coordKinds] using scalar_deriv (q a') (v b')
  | _, _, [], [], _ :: _, h, _, _ => by simp [Consecutive] at h
  | _, _, [], _ :: _, _, h, _, _ => by simp [Consecutive] at h
  | _, _, _ :: _, [], _, h, _, _ => by simp [Consecutive] at h
  | _, _, _ :: _, _ :: _, [], h, _, _ => by simp [Consecutive] at h

/-- C44, what holds: the derivative of integration is `jac_dq2v(q) @ v` for translations, hinges and slides,
and *half* of it for the entries of quaternions.  Missing: the factor ½ in the code. -/
theorem C44_derivative_partial {env : Env ℝ} (he : env.quatIntegrate = quatIntegrateR) {m : MjModel ℝ}
    (hw : JointsWF m) {q : Vec ℝ} (hu : UnitQuats m q) (v : Vec ℝ) (i : Nat) :
    HasDerivAt (fun dt => (integrate env m q v dt).get i)
      ((if quatCoord m i then 1 / 2 else 1) * rowDot (jacDq2v m q.get) i v.get) 0 := by
  rw [jacDq2v_row hw]
  simp only [integrate, he]
  exact integrateLoop_deriv q.get v.get hw.addr hu i

/-- C44 is false: the entries of a quaternion change at half the rate that `jac_dq2v` gives, so it is the
derivative only where it is zero. -/
theorem C44_quaternion_rate_wrong {env : Env ℝ} (he : env.quatIntegrate = quatIntegrateR) {m : MjModel ℝ}
    (hw : JointsWF m) {q : Vec ℝ} (hu : UnitQuats m q) (v : Vec ℝ) (i : Nat) (hi : quatCoord m i = true) :
    HasDerivAt (fun dt => (integrate env m q v dt).get i) (rowDot (jacDq2v m q.get) i v.get) 0 ↔
      rowDot (jacDq2v m q.get) i v.get = 0 := by
  have h := C44_derivative_partial he hw hu v i
  rw [if_pos hi] at h
  constructor
  · intro h'
    have := h'.unique h
    linarith
  · intro h0
    rw [h0, mul_zero] at h
    rw [h0]; exact h

end

/-! ## C45 joint zero, C46 joint difference -/

section
variable {K : Type} [Field K]

theorem flatMap_coordKinds_length {nq nv : Nat} {β : Type} (f : JntType → List β)
    (hf : ∀ t, (f t).length = t.nq) : ∀ {a b : Nat} {ts : List JntType} {as bs : List Nat},
    Consecutive nq nv a b ts as bs → a + (ts.flatMap f).length = nq
  | _, _, [], [], [], h => by simpa using h.1
  | a, b, t :: ts, _ :: as, _ :: bs, h => by
    have := flatMap_coordKinds_length f hf h.2.2
    rw [List.flatMap_cons, List.length_append, hf]; omega
  | _, _, [], [], _ :: _, h => by simp [Consecutive] at h
  | _, _, [], _ :: _, _, h => by simp [Consecutive] at h
  | _, _, _ :: _, [], _, h => by simp [Consecutive] at h
  | _, _, _ :: _, _ :: _, [], h => by simp [Consecutive] at h

/-- The entries of joint `k` in an array with one block of `nq` entries per joint. -/
theorem qBlock_get {β : Type} {nq nv : Nat} (z : β) {L : List JntType → Nat → Nat → List β}
    {B : JntType → Nat → Nat → List β} (hL : ∀ t ts a b, L (t :: ts) a b = B t a b ++ L ts (a + t.nq) (b + t.nv))
    (hB : ∀ t a b, (B t a b).length = t.nq) : ∀ {a b : Nat} {ts : List JntType} {as bs : List Nat},
    Consecutive nq nv a b ts as bs → ∀ k < ts.length, ∀ j < (ts.getD k .hinge).nq,
      a ≤ as.getD k 0 ∧ (L ts a b).getD (as.getD k 0 - a + j) z =
        (B (ts.getD k .hinge) (as.getD k 0) (bs.getD k 0)).getD j z
  | a, b, t :: ts, _ :: as, _ :: bs, h, 0, _, j, hj => by
    obtain ⟨rfl, rfl, h⟩ := h
    simp only [List.getD_cons_zero] at hj ⊢
    refine ⟨le_refl _, ?_⟩
    rw [hL, Nat.sub_self, Nat.zero_add, List.getD_append _ _ _ _ (by rw [hB]; exact hj)]
  | a, b, t :: ts, _ :: as, _ :: bs, h, k + 1, hk, j, hj => by
    obtain ⟨rfl, rfl, h⟩ := h
    simp only [List.getD_cons_succ] at hj ⊢
    obtain ⟨h1, h2⟩ := qBlock_get z hL hB h k (by simpa using hk) j hj
    refine ⟨by omega, ?_⟩
    rw [hL, List.getD_append_right _ _ _ _ (by rw [hB]; omega), hB, ← h2]
    congr 1; omega
  | _, _, [], [], _, h, k, hk, _, _ => by simp at hk
  | _, _, [], _ :: _, _, h, k, hk, _, _ => by simp at hk
  | _, _, _ :: _, [], _, h, _, _, _, _ => by simp [Consecutive] at h
  | _, _, _ :: _, _ :: _, [], h, _, _, _, _ => by simp [Consecutive] at h

/-- The entries of joint `k` in an array with one block of `nv` entries per joint. -/
theorem vBlock_get {β : Type} {nq nv : Nat} (z : β) {L : List JntType → Nat → Nat → List β}
    {B : JntType → Nat → Nat → List β} (hL : ∀ t ts a b, L (t :: ts) a b = B t a b ++ L ts (a + t.nq) (b + t.nv))
    (hB : ∀ t a b, (B t a b).length = t.nv) : ∀ {a b : Nat} {ts : List JntType} {as bs : List Nat},
    Consecutive nq nv a b ts as bs → ∀ k < ts.length, ∀ j < (ts.getD k .hinge).nv,
      b ≤ bs.getD k 0 ∧ (L ts a b).getD (bs.getD k 0 - b + j) z =
        (B (ts.getD k .hinge) (as.getD k 0) (bs.getD k 0)).getD j z
  | a, b, t :: ts, _ :: as, _ :: bs, h, 0, _, j, hj => by
    obtain ⟨rfl, rfl, h⟩ := h
    simp only [List.getD_cons_zero] at hj ⊢
    refine ⟨le_refl _, ?_⟩
    rw [hL, Nat.sub_self, Nat.zero_add, List.getD_append _ _ _ _ (by rw [hB]; exact hj)]
  | a, b, t :: ts, _ :: as, _ :: bs, h, k + 1, hk, j, hj => by
    obtain ⟨rfl, rfl, h⟩ := h
    simp only [List.getD_cons_succ] at hj ⊢
    obtain ⟨h1, h2⟩ := vBlock_get z hL hB h k (by simpa using hk) j hj
    refine ⟨by omega, ?_⟩
    rw [hL, List.getD_append_right _ _ _ _ (by rw [hB]; omega), hB, ← h2]
    congr 1; omega
  | _, _, [], [], _, h, k, hk, _, _ => by simp at hk
  | _, _, [], _ :: _, _, h, k, hk, _, _ => by simp at hk
  | _, _, _ :: _, [], _, h, _, _, _, _ => by simp [Consecutive] at h
  | _, _, _ :: _, _ :: _, [], h, _, _, _, _ => by simp [Consecutive] at h

theorem jointZero1_length (t : JntType) : (jointZero1 (K := K) t).length = t.nq := by cases t <;> rfl

/-- C45: the zero configuration exists for every model with a joint and has `nq` entries. -/
theorem C45_size {m : MjModel K} (hw : JointsWF m) (hj : m.jntType ≠ []) :
    ∃ l, getJointZero m = .ok l ∧ l.length = m.nq := by
  refine ⟨m.jntType.flatMap jointZero1, ?_, ?_⟩
  · rw [getJointZero, if_neg (by simpa using hj)]
  · have := flatMap_coordKinds_length (jointZero1 (K := K)) jointZero1_length hw.addr
    omega

theorem getJointZero_ok {m : MjModel K} {l : List K} (h : getJointZero m = .ok l) :
    l = m.jntType.flatMap jointZero1 := by
  rw [getJointZero] at h
  split at h
  · cases h
  · injection h with h; exact h.symm

theorem flatMap_zero (ts : List JntType) (i : Nat) (h : (ts.flatMap coordKinds).getD i false = false) :
    (ts.flatMap (jointZero1 (K := K))).getD i 0 = 0 := by
  induction ts generalizing i with
  | nil => rfl
  | cons t ts ih =>
    rw [List.flatMap_cons] at h ⊢
    have hl : (coordKinds t).length = (jointZero1 (K := K) t).length := by cases t <;> rfl
    by_cases hi : i < (coordKinds t).length
    · rw [List.getD_append _ _ _ _ hi] at h
      rw [List.getD_append _ _ _ _ (by rw [← hl]; exact hi)]
      cases t with
      | free =>
        have hi' : i < 7 := hi
        obtain rfl | rfl | rfl | rfl | rfl | rfl | rfl :
          i = 0 ∨ i = 1 ∨ i = 2 ∨ i = 3 ∨ i = 4 ∨ i = 5 ∨ i = 6 := by omega
        all_goals first | rfl | cases h
      | ball =>
        have hi' : i < 4 := hi
        obtain rfl | rfl | rfl | rfl : i = 0 ∨ i = 1 ∨ i = 2 ∨ i = 3 := by omega
        all_goals first | rfl | cases h
      | hinge =>
        have hi' : i < 1 := hi
        obtain rfl : i = 0 := by omega
        rfl
      | slide =>
        have hi' : i < 1 := hi
        obtain rfl : i = 0 := by omega
        rfl
    · rw [List.getD_append_right _ _ _ _ (by omega)] at h
      rw [List.getD_append_right _ _ _ _ (by omega), ← hl]
      exact ih _ h

/-- C45: entries that do not belong to a quaternion are zero. -/
theorem C45_zero_coordinates {m : MjModel K} {l : List K} (h : getJointZero m = .ok l) (i : Nat)
    (hi : quatCoord m i = false) : l.getD i 0 = 0 := by
  rw [getJointZero_ok h]
  exact flatMap_zero _ _ hi

/-- C45: every quaternion in it is the identity rotation, in particular of norm one. -/
theorem C45_identity_quaternions {m : MjModel K} (hw : JointsWF m) {l : List K} (h : getJointZero m = .ok l)
    (k adr : Nat) (hk : quatAdr (m.jntType.getD k .hinge) (m.jntQposadr.getD k 0) = some adr) :
    quatAt (fun i => l.getD i 0) adr = 1 ∧ Quaternion.normSq (quatAt (fun i => l.getD i 0) adr) = 1 := by
  have hkl : k < m.jntType.length := by
    by_contra hc
    rw [List.getD_eq_default _ _ (by omega)] at hk
    cases hk
  have key : quatAt (fun i => l.getD i 0) adr = 1 := by
    rw [getJointZero_ok h]
    have hb := qBlock_get (nq := m.nq) (nv := m.nv) (0 : K) (L := fun ts _ _ => ts.flatMap jointZero1)
      (B := fun t _ _ => jointZero1 t) (fun _ _ _ _ => List.flatMap_cons) (fun t _ _ => jointZero1_length t)
      hw.addr k hkl
    simp only [Nat.sub_zero] at hb
    cases ht : m.jntType.getD k .hinge with
    | free =>
      rw [ht] at hk hb
      injection hk with hk
      subst hk
      have h3 := (hb 3 (by decide)).2
      have h4 := (hb 4 (by decide)).2
      have h5 := (hb 5 (by decide)).2
      have h6 := (hb 6 (by decide)).2
      simp only [quatAt, Nat.add_assoc, Nat.reduceAdd, h3, h4, h5, h6]
      rfl
    | ball =>
      rw [ht] at hk hb
      injection hk with hk
      subst hk
      have h3 := (hb 0 (by decide)).2
      have h4 := (hb 1 (by decide)).2
      have h5 := (hb 2 (by decide)).2
      have h6 := (hb 3 (by decide)).2
      simp only [Nat.add_zero] at h3
      simp only [quatAt, h3, h4, h5, h6]
      rfl
    | hinge => rw [ht] at hk; cases hk
    | slide => rw [ht] at hk; cases hk
  rw [key]
  exact ⟨rfl, by simp⟩

/-- C45: a model without joints is refused. -/
theorem C45_no_joints {m : MjModel K} (h : m.jntType = []) : getJointZero m = .error .valueError := by
  simp [getJointZero, h]

example : getJointZero Ex.model = .ok [0, 0, 0, 1, 0, 0, 0, 0, 1, 0, 0, 0, 0] := rfl
example : quatAdr (Ex.model.jntType.getD 2 .hinge) (Ex.model.jntQposadr.getD 2 0) = some 8 := rfl
example : quatCoord Ex.model 7 = false ∧ quatCoord Ex.model 8 = true := ⟨rfl, rfl⟩

/-- The entries of one joint in the joint difference. -/
def diffBlock (env : Env K) (q1 q2 : Nat → K) : JntType → Nat → List K
  | .free, i =>
    let t := env.se3Log ((⟨quatAt q1 (i + 3), vec3At q1 i⟩ : SE3 K).inv.mul ⟨quatAt q2 (i + 3), vec3At q2 i⟩)
    vec3List t.1 ++ vec3List t.2
  | .ball, i => vec3List (env.so3Log (quatInv (quatAt q1 i) * quatAt q2 i))
  | .hinge, i => [q1 i - q2 i]
  | .slide, i => [q1 i - q2 i]

theorem diff_cons (env : Env K) (q1 q2 : Nat → K) (t : JntType) (ts : List JntType) (a : Nat) :
    jointDifferenceLoop env q1 q2 (t :: ts) a = diffBlock env q1 q2 t a ++ jointDifferenceLoop env q1 q2 ts (a + t.nq) := by
  cases t <;> rfl

theorem diffBlock_length (env : Env K) (q1 q2 : Nat → K) (t : JntType) (a : Nat) :
    (diffBlock env q1 q2 t a).length = t.nv := by cases t <;> rfl

theorem diff_length (env : Env K) (q1 q2 : Nat → K) {nq nv : Nat} : ∀ {a b : Nat} {ts : List JntType} {as bs : List Nat},
    Consecutive nq nv a b ts as bs → b + (jointDifferenceLoop env q1 q2 ts a).length = nv
  | _, _, [], [], [], h => by simpa [jointDifferenceLoop] using h.2
  | a, b, t :: ts, _ :: as, _ :: bs, h => by
    have := diff_length env q1 q2 h.2.2
    rw [diff_cons, List.length_append, diffBlock_length]; omega
  | _, _, [], [], _ :: _, h => by simp [Consecutive] at h
  | _, _, [], _ :: _, _, h => by simp [Consecutive] at h
  | _, _, _ :: _, [], _, h => by simp [Consecutive] at h
  | _, _, _ :: _, _ :: _, [], h => by simp [Consecutive] at h

/-- C46: the difference exists for every model with a joint and has `nv` entries. -/
theorem C46_size (env : Env K) {m : MjModel K} (hw : JointsWF m) (hj : m.jntType ≠ []) (q1 q2 : Vec K) :
    ∃ l, jointDifference env m q1 q2 = .ok l ∧ l.length = m.nv := by
  refine ⟨jointDifferenceLoop env q1.get q2.get m.jntType 0, ?_, ?_⟩
  · rw [jointDifference, if_neg (by simpa using hj)]
  · have := diff_length env q1.get q2.get hw.addr
    omega

theorem jointDifference_ok {env : Env K} {m : MjModel K} {q1 q2 : Vec K} {l : List K}
    (h : jointDifference env m q1 q2 = .ok l) : l = jointDifferenceLoop env q1.get q2.get m.jntType 0 := by
  rw [jointDifference] at h
  split at h
  · cases h
  · injection h with h; exact h.symm

/-- The entries of joint `k` in the difference. -/
theorem diff_get (env : Env K) {m : MjModel K} (hw : JointsWF m) {q1 q2 : Vec K} {l : List K}
    (h : jointDifference env m q1 q2 = .ok l) (k : Nat) (hk : k < m.jntType.length) (j : Nat)
    (hj : j < (m.jntType.getD k .hinge).nv) :
    l.getD (dofOf m k + j) 0 = (diffBlock env q1.get q2.get (m.jntType.getD k .hinge) (qposOf m k)).getD j 0 := by
  rw [jointDifference_ok h]
  have := (vBlock_get (nq := m.nq) (nv := m.nv) (0 : K) (L := fun ts a _ => jointDifferenceLoop env q1.get q2.get ts a)
    (B := fun t a _ => diffBlock env q1.get q2.get t a) (fun t ts a b => diff_cons env _ _ t ts a)
    (fun t a b => diffBlock_length env _ _ t a) hw.addr k hk j hj).2
  rw [Nat.sub_zero] at this
  exact this

theorem se3_inv_mul_self {A : SE3 K} (h : Quaternion.normSq A.rot = 1) : A.inv.mul A = SE3.one := by
  have h1 : star A.rot * A.rot = 1 := by rw [Quaternion.star_mul_self, h]; rfl
  simp only [SE3.mul, SE3.inv, SE3.one, quatInv, SE3.mk.injEq]
  refine ⟨h1, by simp⟩

end

section
variable {K : Type} [Field K]

theorem diff_same {env : Env K} (h3 : env.so3Log 1 = 0) (h6 : env.se3Log SE3.one = (0, 0)) (q : Nat → K) {nq nv : Nat} :
    ∀ {a b : Nat} {ts : List JntType} {as bs : List Nat}, Consecutive nq nv a b ts as bs →
    (∀ k, ∀ adr, quatAdr (ts.getD k .hinge) (as.getD k 0) = some adr → Quaternion.normSq (quatAt q adr) = 1) →
    jointDifferenceLoop env q q ts a = List.replicate (nv - b) 0
  | a, b, [], [], [], h, _ => by simp [jointDifferenceLoop, h.2]
  | a, b, t :: ts, _ :: as, _ :: bs, h, hu => by
    have hl := diff_length env q q h
    obtain ⟨rfl, rfl, h⟩ := h
    rename_i a b
    have ih := diff_same h3 h6 q h (fun k adr hk => hu (k + 1) adr (by simpa using hk))
    have hu0 := hu 0
    simp only [List.getD_cons_zero] at hu0
    have hb : diffBlock env q q t a = List.replicate t.nv 0 := by
      cases t with
      | free =>
        simp only [diffBlock]
        rw [se3_inv_mul_self (hu0 _ rfl), h6]
        rfl
      | ball =>
        simp only [diffBlock, quatInv]
        rw [Quaternion.star_mul_self, hu0 _ rfl]
        erw [h3]
        rfl
      | hinge => simp only [diffBlock, sub_self]; rfl
      | slide => simp only [diffBlock, sub_self]; rfl
    rw [diff_cons, List.length_append, diffBlock_length, ih, List.length_replicate] at hl
    rw [diff_cons, hb, ih, List.replicate_append_replicate]
    congr 1
    omega
  | _, _, [], [], _ :: _, h, _ => by simp [Consecutive] at h
  | _, _, [], _ :: _, _, h, _ => by simp [Consecutive] at h
  | _, _, _ :: _, [], _, h, _ => by simp [Consecutive] at h
  | _, _, _ :: _, _ :: _, [], h, _ => by simp [Consecutive] at h

/-- C46: the difference of a configuration with itself is zero. -/
theorem C46_vanishes {env : Env K} (h3 : env.so3Log 1 = 0) (h6 : env.se3Log SE3.one = (0, 0)) {m : MjModel K}
    (hw : JointsWF m) {q : Vec K} (hu : UnitQuats m q) {l : List K} (h : jointDifference env m q q = .ok l) :
    l = List.replicate m.nv 0 := by
  rw [jointDifference_ok h]
  simpa using diff_same h3 h6 q.get hw.addr hu

/-- C46, scalar joints: the difference is the first minus the second coordinate. -/
theorem C46_scalar [LinearOrder K] {env : Env K} {m : MjModel K} (hw : JointsWF m) {q1 q2 : Vec K} {l : List K}
    (h : jointDifference env m q1 q2 = .ok l) {k : Nat} (hk : k ∈ scalarJoints m) :
    l.getD (dofOf m k) 0 = q1.get (qposOf m k) - q2.get (qposOf m k) := by
  obtain ⟨hk, hs⟩ := mem_scalarJoints.1 hk
  have e : m.jntType.getD k .free = m.jntType.getD k .hinge := by
    rw [List.getD_eq_getElem _ _ hk, List.getD_eq_getElem _ _ hk]
  rw [e] at hs
  have hg := diff_get env hw h k hk 0
  cases ht : m.jntType.getD k .hinge with
  | free => rw [ht] at hs; cases hs
  | ball => rw [ht] at hs; cases hs
  | hinge => rw [ht] at hg; simpa [diffBlock] using hg (by decide)
  | slide => rw [ht] at hg; simpa [diffBlock] using hg (by decide)

/-- The entries of one joint after integration. -/
def intBlock (quatInt : ℍ[K] → V3 K → K → ℍ[K]) (q v : Nat → K) (dt : K) : JntType → Nat → Nat → List K
  | .free, a, b => vec3List (vec3At q a + dt • vec3At v b) ++ quatList (quatInt (quatAt q (a + 3)) (vec3At v (b + 3)) dt)
  | .ball, a, b => quatList (quatInt (quatAt q a) (vec3At v b) dt)
  | .hinge, a, b => [q a + dt * v b]
  | .slide, a, b => [q a + dt * v b]

theorem integrate_get (env : Env K) {m : MjModel K} (hw : JointsWF m) (q v : Vec K) (dt : K)
    (k : Nat) (hk : k < m.jntType.length) (j : Nat) (hj : j < (m.jntType.getD k .hinge).nq) :
    (integrate env m q v dt).get (qposOf m k + j) =
      (intBlock env.quatIntegrate q.get v.get dt (m.jntType.getD k .hinge) (qposOf m k) (dofOf m k)).getD j 0 := by
  have := (qBlock_get (nq := m.nq) (nv := m.nv) (0 : K)
    (L := fun ts a b => integrateLoop env.quatIntegrate q.get v.get dt ts a b)
    (B := fun t a b => intBlock env.quatIntegrate q.get v.get dt t a b) (fun t ts a b => by cases t <;> rfl)
    (fun t a b => by cases t <;> rfl) hw.addr k hk j hj).2
  rw [Nat.sub_zero] at this
  exact this

end

section
open Real

theorem sq3_nonneg (v : V3 ℝ) : 0 ≤ sq3 v := by unfold sq3; positivity

theorem sq3_smul (s : ℝ) (v : V3 ℝ) : sq3 (s • v) = s ^ 2 * sq3 v := by
  simp only [sq3, Pi.smul_apply, smul_eq_mul]; ring

theorem imVec_axisQuat (v : V3 ℝ) (dt : ℝ) :
    imVec (axisQuat v dt) = (sin (dt * √(sq3 v) / 2) / √(sq3 v)) • v := by
  funext i
  fin_cases i <;> rfl

/-- The logarithm of a rotation by less than half a turn about `v` is a positive multiple of `v`, and exactly
`dt • v` outside of the two approximated ranges. -/
theorem log_axisQuat {eps : ℝ} (he' : eps ≤ 1 / 2) {v : V3 ℝ} {dt : ℝ} (hdt : 0 < dt) (hv : 0 < sq3 v)
    (hpi : dt * √(sq3 v) < π) :
    (∃ c : ℝ, 0 < c ∧ so3LogR eps (axisQuat v dt) = c • v) ∧
    (eps ≤ sin (dt * √(sq3 v) / 2) ^ 2 → eps ≤ cos (dt * √(sq3 v) / 2) → so3LogR eps (axisQuat v dt) = dt • v) := by
  set n := √(sq3 v) with hn
  have hn0 : 0 < n := by rw [hn]; exact Real.sqrt_pos.2 hv
  have hn2 : n ^ 2 = sq3 v := Real.sq_sqrt hv.le
  set th := dt * n / 2 with hth
  have hth0 : 0 < th := by rw [hth]; positivity
  have hthpi : th < π / 2 := by rw [hth]; linarith
  have hs : 0 < sin th := Real.sin_pos_of_pos_of_lt_pi hth0 (by linarith [Real.pi_pos])
  have hc : 0 < cos th := Real.cos_pos_of_mem_Ioo ⟨by linarith, hthpi⟩
  have hsq : sq3 (imVec (axisQuat v dt)) = sin th ^ 2 := by
    rw [imVec_axisQuat, sq3_smul, ← hn, ← hth, div_pow, ← hn2]
    field_simp
  have hsqrt : √(sin th ^ 2) = sin th := Real.sqrt_sq hs.le
  have hre : (axisQuat v dt).re = cos th := rfl
  have hlog : so3LogR eps (axisQuat v dt) = (so3LogFactor eps (cos th) (sin th ^ 2) * (sin th / n)) • v := by
    rw [so3LogR, hsq, hre, imVec_axisQuat, smul_smul]
  have hcs := Real.sin_sq_add_cos_sq th
  constructor
  · refine ⟨_, ?_, hlog⟩
    refine mul_pos ?_ (div_pos hs hn0)
    rw [so3LogFactor]
    split_ifs with h1 h2 h3
    · have : 2 / cos th - 2 / 3 * sin th ^ 2 / cos th ^ 3 = (2 * cos th ^ 2 - 2 / 3 * sin th ^ 2) / cos th ^ 3 := by
        field_simp
      rw [this]
      apply div_pos _ (by positivity)
      nlinarith
    · rw [hsqrt]; exact div_pos (by linarith [Real.pi_pos]) hs
    · exact absurd hc (by linarith)
    · rw [hsqrt, abs_of_pos hc]
      have : 0 < arctan (sin th / cos th) := by
        rw [← Real.arctan_zero]; exact Real.arctan_strictMono (div_pos hs hc)
      positivity
  · intro h1 h2
    rw [hlog, so3LogFactor, if_neg (by linarith), abs_of_pos hc, if_neg (by linarith), if_neg (by linarith), hsqrt,
      ← Real.tan_eq_sin_div_cos, Real.arctan_tan (by linarith) hthpi]
    congr 1
    have h2th : 2 * th = dt * n := by rw [hth]; ring
    rw [h2th]
    field_simp

theorem quatInv_mul_integrate {q : ℍ[ℝ]} (h : Quaternion.normSq q = 1) (v : V3 ℝ) (dt : ℝ) :
    quatInv q * quatIntegrateR q v dt = axisQuat v dt := by
  rw [quatIntegrateR_unit h, quatInv, ← mul_assoc, Quaternion.star_mul_self, h]
  simp

/-- C46 is false: displace a configuration by velocity `v` for time `dt`.  On hinges and slides the difference
points *against* `v`, on the rotations of ball joints it points *along* `v`. -/
theorem C46_directions_disagree {env : Env ℝ} {eps : ℝ} (hlog : env.so3Log = so3LogR eps)
    (hint : env.quatIntegrate = quatIntegrateR) (he' : eps ≤ 1 / 2) {m : MjModel ℝ} (hw : JointsWF m)
    {q v : Vec ℝ} (hu : UnitQuats m q) {dt : ℝ} (hdt : 0 < dt) {l : List ℝ}
    (h : jointDifference env m q (integrate env m q v dt) = .ok l) :
    (∀ k ∈ scalarJoints m, l.getD (dofOf m k) 0 = - dt * v.get (dofOf m k)) ∧
    ∀ k < m.jntType.length, m.jntType.getD k .hinge = .ball → 0 < sq3 (vec3At v.get (dofOf m k)) →
      dt * √(sq3 (vec3At v.get (dofOf m k))) < π →
      ∃ c : ℝ, 0 < c ∧ ∀ j < 3, l.getD (dofOf m k + j) 0 = c * v.get (dofOf m k + j) := by
  constructor
  · intro k hk
    rw [C46_scalar hw h hk, ((integrate_scalar env hw q v dt).2 k hk).2.2]
    ring
  · intro k hk hb hv hpi
    have hq : Quaternion.normSq (quatAt q.get (qposOf m k)) = 1 := hu k _ (by rw [hb]; rfl)
    have hi := integrate_get env hw q v dt k hk
    rw [hb, hint] at hi
    have h0 := hi 0 (by decide)
    have h1 := hi 1 (by decide)
    have h2 := hi 2 (by decide)
    have h3 := hi 3 (by decide)
    have hquat : quatAt (integrate env m q v dt).get (qposOf m k) =
        quatIntegrateR (quatAt q.get (qposOf m k)) (vec3At v.get (dofOf m k)) dt := by
      rw [Nat.add_zero] at h0
      simp only [quatAt, h0, h1, h2, h3]
      rfl
    obtain ⟨c, hc, hl⟩ := (log_axisQuat he' hdt hv hpi).1
    refine ⟨c, hc, fun j hj => ?_⟩
    have hd := diff_get env hw h k hk j
    rw [hb] at hd
    rw [hd hj]
    simp only [diffBlock]
    rw [hquat, quatInv_mul_integrate hq, hlog, hl]
    obtain rfl | rfl | rfl : j = 0 ∨ j = 1 ∨ j = 2 := by omega
    all_goals rfl

theorem so3LogR_one (eps : ℝ) : so3LogR eps 1 = 0 := by
  have : imVec (1 : ℍ[ℝ]) = 0 := by funext i; fin_cases i <;> rfl
  rw [so3LogR, this, smul_zero]

theorem se3LogR_one (eps : ℝ) : se3LogR eps SE3.one = (0, 0) := by
  simp [se3LogR, SE3.one, so3LogR_one]

end

/-! ### A concrete real model: a ball joint and a hinge -/

namespace LEx

noncomputable def env : Env ℝ where
  kinematics := fun _ q => ⟨q, [], [], [], [], [], [], [], [], [], [], [], [], []⟩
  comPos := fun _ d => d
  makeConstraint := fun _ d => d
  collide := fun _ _ => { known := fun _ _ => true, ncon := fun _ _ => 1, contact := fun _ _ _ => ⟨0, 0, 0⟩ }
  jacrev := fun f q => Mat.zero (f q).len q.len
  jacZero := fun _ => 0
  rotOfMat := fun _ => 1
  so3Log := so3LogR (1 / 100000)
  se3Log := se3LogR (1 / 100000)
  se3Exp := fun _ => SE3.one
  quatIntegrate := quatIntegrateR

noncomputable def model : MjModel ℝ :=
  { MjModel.empty with
    nq := 5, nv := 4, jntType := [.ball, .hinge], jntQposadr := [0, 4], jntDofadr := [0, 3],
    jntRange := [(0, 0), (-1, 1)] }

theorem model_wf : JointsWF model := ⟨by repeat' constructor, rfl⟩

def q : Vec ℝ := ⟨5, fun i => if i = 0 then 1 else if i = 4 then 2 else 0⟩
def v : Vec ℝ := ⟨4, fun i => if i = 0 then 1 else if i = 3 then 1 else 0⟩

theorem unit : UnitQuats model q := by
  intro k adr h
  match k with
  | 0 => cases h; rw [Quaternion.normSq_def']; simp [quatAt, q, model]
  | 1 => cases h
  | k + 2 =>
    have e : (model.jntType.getD (k + 2) .hinge) = .hinge := rfl
    rw [e] at h
    cases h

/-- The hypotheses of C44 and C46 hold for it; entry 1 (`x` of the quaternion) has the wrong rate: `jac_dq2v`
gives 1, the derivative is ½. -/
example : rowDot (jacDq2v model q.get) 1 v.get = 1 ∧ quatCoord model 1 = true ∧
    HasDerivAt (fun dt => (integrate env model q v dt).get 1) (1 / 2) 0 := by
  have h1 : rowDot (jacDq2v model q.get) 1 v.get = 1 := by
    rw [jacDq2v_row model_wf]
    show (quatAt q.get 0 * pureQuat (vec3At v.get 0)).imI = 1
    rw [Quaternion.imI_mul]
    simp [quatAt, pureQuat, vec3At, v, q]
  refine ⟨h1, rfl, ?_⟩
  have := C44_derivative_partial (env := env) rfl model_wf unit v 1
  rw [h1, if_pos (show quatCoord model 1 = true from rfl), mul_one] at this
  exact this

example : 0 ∈ List.range model.jntType.length ∧ 1 ∈ scalarJoints model ∧ 0 < sq3 (vec3At v.get (dofOf model 0)) ∧
    1 * √(sq3 (vec3At v.get (dofOf model 0))) < Real.pi ∧
    ∃ l, jointDifference env model q (integrate env model q v 1) = .ok l := by
  have h : sq3 (vec3At v.get (dofOf model 0)) = 1 := by simp [sq3, vec3At, v, dofOf, model]
  refine ⟨by decide, by decide, by rw [h]; norm_num, ?_, _, rfl⟩
  rw [h, Real.sqrt_one]
  linarith [Real.two_le_pi]

example : env.so3Log 1 = 0 ∧ env.se3Log SE3.one = (0, 0) := ⟨so3LogR_one _, se3LogR_one _⟩

end LEx

end Mjinx.Props
