import Verif.Spec.Motion
import Verif.Props.FrameTask
import Verif.Props.Integrate
import Mathlib.Analysis.SpecialFunctions.Trigonometric.Bounds

/-! Screw motions: closed formula, derivative and the logarithm. -/

namespace Mjinx
open Real Props
open scoped Quaternion Matrix

theorem rotate_neg_quat {K : Type} [Field K] (q : ℍ[K]) (v : V3 K) : rotate (-q) v = rotate q v := by
  funext i
  fin_cases i
  · show rotate (-q) v 0 = rotate q v 0
    rw [rotate_apply0, rotate_apply0]; simp
  · show rotate (-q) v 1 = rotate q v 1
    rw [rotate_apply1, rotate_apply1]; simp
  · show rotate (-q) v 2 = rotate q v 2
    rw [rotate_apply2, rotate_apply2]; simp

theorem quatMat_mulVec (q : ℍ[ℝ]) (v : V3 ℝ) : (quatMat q).mulVec v = rotate q v := by
  funext i
  rw [Matrix.mulVec, dotProduct, Fin.sum_univ_three]
  simp only [quatMat, Matrix.of_apply]
  fin_cases i
  · show rotate q (Pi.single 0 1) 0 * _ + rotate q (Pi.single 1 1) 0 * _ + rotate q (Pi.single 2 1) 0 * _ = rotate q v 0
    simp only [rotate_apply0]; simp
  · show rotate q (Pi.single 0 1) 1 * _ + rotate q (Pi.single 1 1) 1 * _ + rotate q (Pi.single 2 1) 1 * _ = rotate q v 1
    simp only [rotate_apply1]; simp
  · show rotate q (Pi.single 0 1) 2 * _ + rotate q (Pi.single 1 1) 2 * _ + rotate q (Pi.single 2 1) 2 * _ = rotate q v 2
    simp only [rotate_apply2]; simp

theorem quatMat_entries (q : ℍ[ℝ]) : quatMat q =
    !![q.re ^ 2 + q.imI ^ 2 - q.imJ ^ 2 - q.imK ^ 2, 2 * (q.imI * q.imJ - q.re * q.imK), 2 * (q.imI * q.imK + q.re * q.imJ);
      2 * (q.imI * q.imJ + q.re * q.imK), q.re ^ 2 - q.imI ^ 2 + q.imJ ^ 2 - q.imK ^ 2, 2 * (q.imJ * q.imK - q.re * q.imI);
      2 * (q.imI * q.imK - q.re * q.imJ), 2 * (q.imJ * q.imK + q.re * q.imI), q.re ^ 2 - q.imI ^ 2 - q.imJ ^ 2 + q.imK ^ 2] := by
  ext i j
  simp only [quatMat, Matrix.of_apply]
  fin_cases i
  · show rotate q _ 0 = _
    rw [rotate_apply0]
    fin_cases j <;> simp
  · show rotate q _ 1 = _
    rw [rotate_apply1]
    fin_cases j <;> simp
  · show rotate q _ 2 = _
    rw [rotate_apply2]
    fin_cases j <;> simp

theorem quatMat_rotation {q : ℍ[ℝ]} (h : Quaternion.normSq q = 1) : quatMat q * (quatMat q)ᵀ = 1 ∧ (quatMat q).det = 1 := by
  rw [Quaternion.normSq_def'] at h
  rw [quatMat_entries]
  constructor
  · ext i j
    have h2 : (q.re ^ 2 + q.imI ^ 2 + q.imJ ^ 2 + q.imK ^ 2) ^ 2 = 1 := by rw [h]; norm_num
    fin_cases i <;> fin_cases j <;> simp [Matrix.mul_apply, Fin.sum_univ_three] <;> first | (ring; done) | linear_combination h2
  · rw [Matrix.det_fin_three]
    have h3 : (q.re ^ 2 + q.imI ^ 2 + q.imJ ^ 2 + q.imK ^ 2) ^ 3 = 1 := by rw [h]; norm_num
    simp
    linear_combination h3

theorem quatMat_trace {q : ℍ[ℝ]} (h : Quaternion.normSq q = 1) : (quatMat q).trace = 4 * q.re ^ 2 - 1 := by
  rw [Quaternion.normSq_def'] at h
  rw [quatMat_entries, Matrix.trace_fin_three]
  simp
  linear_combination -h

theorem quatMat_mul (p q : ℍ[ℝ]) : quatMat (p * q) = quatMat p * quatMat q := by
  apply Matrix.ext_of_mulVec_single
  intro j
  rw [← Matrix.mulVec_mulVec, quatMat_mulVec, quatMat_mulVec, quatMat_mulVec, rotate_mul]

theorem mat_eq_quatMat {R : M3 ℝ} {q : ℍ[ℝ]} (h : ∀ v, rotate q v = R.mulVec v) : R = quatMat q := by
  apply Matrix.ext_of_mulVec_single
  intro j
  rw [quatMat_mulVec, h]

theorem quatMat_inv {q : ℍ[ℝ]} : quatMat (quatInv q) = (quatMat q)ᵀ := by
  rw [quatMat_entries, quatMat_entries]
  ext i j
  fin_cases i <;> fin_cases j <;> simp [quatInv] <;> ring

/-! ### The closed formula -/

/-- The translation of a screw motion, as a matrix that is applied to the linear velocity. -/
noncomputable def screwV (om : V3 ℝ) (t : ℝ) : M3 ℝ :=
  let n := √(sq3 om)
  t • (1 : M3 ℝ) + ((1 - cos (t * n)) / n ^ 2) • skewSymmetric om + ((t * n - sin (t * n)) / n ^ 3) • (skewSymmetric om * skewSymmetric om)

/-- The screw motion with linear velocity `v` and angular velocity `om` in the moving frame. -/
noncomputable def screw (v om : V3 ℝ) (t : ℝ) : SE3 ℝ := ⟨axisQuat om t, (screwV om t).mulVec v⟩

theorem sqrt_sq3 (om : V3 ℝ) : √(sq3 om) ^ 2 = om 0 ^ 2 + om 1 ^ 2 + om 2 ^ 2 := Real.sq_sqrt (sq3_nonneg om)

theorem sq3_eq_zero {om : V3 ℝ} (h : √(sq3 om) = 0) : om = 0 := by
  have h1 := sqrt_sq3 om
  rw [h] at h1
  funext i
  fin_cases i
  · show om 0 = 0
    nlinarith [sq_nonneg (om 0), sq_nonneg (om 1), sq_nonneg (om 2)]
  · show om 1 = 0
    nlinarith [sq_nonneg (om 0), sq_nonneg (om 1), sq_nonneg (om 2)]
  · show om 2 = 0
    nlinarith [sq_nonneg (om 0), sq_nonneg (om 1), sq_nonneg (om 2)]

/-- Rodrigues' formula. -/
theorem quatMat_axisQuat (om : V3 ℝ) (t : ℝ) : quatMat (axisQuat om t) =
    1 + (sin (t * √(sq3 om)) / √(sq3 om)) • skewSymmetric om +
      ((1 - cos (t * √(sq3 om))) / √(sq3 om) ^ 2) • (skewSymmetric om * skewSymmetric om) := by
  by_cases hn : √(sq3 om) = 0
  · rw [sq3_eq_zero hn, axisQuat_zero_vel, quatMat_entries]
    ext i j
    fin_cases i <;> fin_cases j <;> simp [sq3]
  · have hs := sqrt_sq3 om
    have e : t * √(sq3 om) = 2 * (t * √(sq3 om) / 2) := by ring
    have h1 : sin (t * √(sq3 om)) = 2 * sin (t * √(sq3 om) / 2) * cos (t * √(sq3 om) / 2) := by
      conv_lhs => rw [e]
      exact sin_two_mul _
    have h2 : 1 - cos (t * √(sq3 om)) = 2 * sin (t * √(sq3 om) / 2) ^ 2 := by
      conv_lhs => rw [e]
      rw [cos_two_mul, sin_sq]; ring
    have h3 := sin_sq_add_cos_sq (t * √(sq3 om) / 2)
    rw [quatMat_entries, h1, h2]
    have c0 : (axisQuat om t).re = cos (t * √(sq3 om) / 2) := rfl
    have c1 : (axisQuat om t).imI = sin (t * √(sq3 om) / 2) / √(sq3 om) * om 0 := rfl
    have c2 : (axisQuat om t).imJ = sin (t * √(sq3 om) / 2) / √(sq3 om) * om 1 := rfl
    have c3 : (axisQuat om t).imK = sin (t * √(sq3 om) / 2) / √(sq3 om) * om 2 := rfl
    rw [c0, c1, c2, c3]
    generalize sin (t * √(sq3 om) / 2) = s at *
    generalize cos (t * √(sq3 om) / 2) = c at *
    generalize √(sq3 om) = n at *
    ext i j
    fin_cases i <;> fin_cases j <;> simp [skewSymmetric] <;> field_simp
    all_goals first | (ring; done) | linear_combination (n ^ 2) * h3 - (s ^ 2) * hs

theorem skew_cube (om : V3 ℝ) : skewSymmetric om * skewSymmetric om * skewSymmetric om = -(√(sq3 om) ^ 2) • skewSymmetric om := by
  rw [sqrt_sq3]
  ext i j
  fin_cases i <;> fin_cases j <;> simp [skewSymmetric] <;> ring

private theorem lin_deriv (n t : ℝ) : HasDerivAt (fun s : ℝ => s * n) n t := by
  simpa using (hasDerivAt_id t).mul_const n

/-- The rotation of a screw motion turns with the angular velocity. -/
theorem quatMat_deriv (om : V3 ℝ) (t : ℝ) (i j : Fin 3) :
    HasDerivAt (fun s => quatMat (axisQuat om s) i j) ((quatMat (axisQuat om t) * skewSymmetric om) i j) t := by
  simp only [quatMat_axisQuat]
  by_cases hn : √(sq3 om) = 0
  · have h0 := sq3_eq_zero hn
    have hS : skewSymmetric om = 0 := by
      rw [h0]; ext i j; fin_cases i <;> fin_cases j <;> simp [skewSymmetric]
    simp only [hS, smul_zero, mul_zero, add_zero]
    exact hasDerivAt_const t _
  · generalize hS : skewSymmetric om = S
    have h3 := skew_cube om
    rw [hS] at h3
    have e : (1 + (sin (t * √(sq3 om)) / √(sq3 om)) • S + ((1 - cos (t * √(sq3 om))) / √(sq3 om) ^ 2) • (S * S)) * S =
        (cos (t * √(sq3 om))) • S + (sin (t * √(sq3 om)) / √(sq3 om)) • (S * S) := by
      rw [add_mul, add_mul, one_mul, smul_mul_assoc, smul_mul_assoc, h3, smul_smul]
      have : (1 - cos (t * √(sq3 om))) / √(sq3 om) ^ 2 * -√(sq3 om) ^ 2 = cos (t * √(sq3 om)) - 1 := by
        field_simp; ring
      rw [this, sub_smul, one_smul]
      abel
    rw [e]
    simp only [Matrix.add_apply, Matrix.smul_apply, smul_eq_mul]
    have d1 := (((lin_deriv (√(sq3 om)) t).sin.div_const (√(sq3 om))).mul_const (S i j)).const_add ((1 : M3 ℝ) i j)
    have d2 := (((lin_deriv (√(sq3 om)) t).cos.const_sub 1).div_const (√(sq3 om) ^ 2)).mul_const ((S * S) i j)
    refine (d1.add d2).congr_deriv ?_
    field_simp

theorem screwV_deriv (om : V3 ℝ) (t : ℝ) (i j : Fin 3) : HasDerivAt (fun s => screwV om s i j) (quatMat (axisQuat om t) i j) t := by
  rw [quatMat_axisQuat]
  simp only [screwV]
  by_cases hn : √(sq3 om) = 0
  · have h0 := sq3_eq_zero hn
    have hS : skewSymmetric om = 0 := by
      rw [h0]; ext i j; fin_cases i <;> fin_cases j <;> simp [skewSymmetric]
    simp only [hS, smul_zero, mul_zero, add_zero, Matrix.smul_apply, smul_eq_mul]
    simpa using (hasDerivAt_id t).mul_const ((1 : M3 ℝ) i j)
  · generalize skewSymmetric om = S
    simp only [Matrix.add_apply, Matrix.smul_apply, smul_eq_mul]
    have d0 : HasDerivAt (fun s : ℝ => s * (1 : M3 ℝ) i j) ((1 : M3 ℝ) i j) t := by
      simpa using (hasDerivAt_id t).mul_const ((1 : M3 ℝ) i j)
    have d1 := (((lin_deriv (√(sq3 om)) t).cos.const_sub 1).div_const (√(sq3 om) ^ 2)).mul_const (S i j)
    have d2 := (((lin_deriv (√(sq3 om)) t).sub (lin_deriv (√(sq3 om)) t).sin).div_const (√(sq3 om) ^ 3)).mul_const ((S * S) i j)
    refine ((d0.add d1).add d2).congr_deriv ?_
    field_simp

theorem screw_apply (v om : V3 ℝ) (t : ℝ) (p : V3 ℝ) :
    (screw v om t).apply p = (quatMat (axisQuat om t)).mulVec p + (screwV om t).mulVec v := by
  rw [SE3.apply, quatMat_mulVec]; rfl

/-- A screw motion after a fixed pose moves with constant velocity in its own frame. -/
theorem screw_constantVelocity {F : SE3 ℝ} (hF : Quaternion.normSq F.rot = 1) (v om : V3 ℝ) :
    Spec.ConstantVelocity (fun t p => F.apply ((screw v om t).apply p)) v om := by
  intro t
  refine ⟨quatMat (F.rot * axisQuat om t), F.apply ((screwV om t).mulVec v), ?_, ?_, fun p => ⟨?_, fun i => ?_⟩⟩
  · exact (quatMat_rotation (by rw [map_mul, hF, axisQuat_normSq, one_mul])).1
  · exact (quatMat_rotation (by rw [map_mul, hF, axisQuat_normSq, one_mul])).2
  · show F.apply ((screw v om t).apply p) = _
    rw [quatMat_mulVec, rotate_mul, screw_apply, quatMat_mulVec, SE3.apply, SE3.apply, rotate_add]
    abel
  · have hd : ∀ j, HasDerivAt (fun s => (screw v om s).apply p j)
        ((quatMat (axisQuat om t)).mulVec (v + crossProduct om p) j) t := by
      intro j
      have e : (fun s => (screw v om s).apply p j) =
          fun s => ∑ k, quatMat (axisQuat om s) j k * p k + ∑ k, screwV om s j k * v k := by
        funext s
        rw [screw_apply]; rfl
      rw [e]
      refine ((HasDerivAt.fun_sum fun k _ => (quatMat_deriv om t j k).mul_const (p k)).add
        (HasDerivAt.fun_sum fun k _ => (screwV_deriv om t j k).mul_const (v k))).congr_deriv ?_
      rw [← C42_cross, Matrix.mulVec_add, Matrix.mulVec_mulVec, add_comm]
      rfl
    have e : (fun s => F.apply ((screw v om s).apply p) i) = fun s => ∑ k, quatMat F.rot i k * (screw v om s).apply p k + F.trans i := by
      funext s
      rw [SE3.apply, ← quatMat_mulVec]; rfl
    rw [e]
    refine ((HasDerivAt.fun_sum fun k _ => (hd k).const_mul (quatMat F.rot i k)).add_const (F.trans i)).congr_deriv ?_
    rw [quatMat_mul, ← Matrix.mulVec_mulVec]
    rfl

/-! ### The logarithm -/

/-- Where jaxlie's logarithm of a rotation is exact. -/
def ExactLog (eps : ℝ) (q : ℍ[ℝ]) : Prop := imVec q = 0 ∨ eps ≤ sq3 (imVec q) ∧ (q.re = 0 ∨ eps ≤ |q.re|)

theorem normSq_parts (q : ℍ[ℝ]) : Quaternion.normSq q = q.re ^ 2 + sq3 (imVec q) := by
  rw [Quaternion.normSq_def']
  simp [sq3, imVec]
  ring

/-- The factor of the logarithm: angle over the length of the imaginary part, with the sign of the real part. -/
theorem logFactor_exact {eps : ℝ} (h0 : 0 < eps) {q : ℍ[ℝ]} (hu : Quaternion.normSq q = 1) (h1 : eps ≤ sq3 (imVec q))
    (h2 : q.re = 0 ∨ eps ≤ |q.re|) : ∃ (th s : ℝ), 0 < th ∧ th ≤ π ∧ s ^ 2 = 1 ∧ eps ≤ th ^ 2 ∧ cos (th / 2) = s * q.re ∧
      sin (th / 2) = √(sq3 (imVec q)) ∧ so3LogFactor eps q.re (sq3 (imVec q)) = s * th / √(sq3 (imVec q)) := by
  rw [normSq_parts] at hu
  have hp : 0 < sq3 (imVec q) := lt_of_lt_of_le h0 h1
  have hn : 0 < √(sq3 (imVec q)) := Real.sqrt_pos.2 hp
  have hn2 : √(sq3 (imVec q)) ^ 2 = sq3 (imVec q) := Real.sq_sqrt hp.le
  have angle : ∀ th : ℝ, 0 < th → sin (th / 2) = √(sq3 (imVec q)) → eps ≤ th ^ 2 := by
    intro th ht hs
    have : sin (th / 2) < th / 2 := Real.sin_lt (by linarith)
    rw [hs] at this
    nlinarith
  unfold so3LogFactor
  rw [if_neg (not_lt.2 h1)]
  by_cases hw : q.re = 0
  · have e : √(sq3 (imVec q)) = 1 := by
      rw [Real.sqrt_eq_one]
      rw [hw] at hu
      linarith
    have hs : sin (π / 2) = √(sq3 (imVec q)) := by rw [e, sin_pi_div_two]
    refine ⟨π, -1, pi_pos, le_rfl, by norm_num, angle π pi_pos hs, by rw [hw, cos_pi_div_two, mul_zero], hs, ?_⟩
    rw [hw, abs_zero, if_pos h0, if_neg (lt_irrefl _)]
  · have h3 : eps ≤ |q.re| := h2.resolve_left hw
    have hwp : 0 < |q.re| := abs_pos.2 hw
    rw [if_neg (not_lt.2 h3)]
    have hx : √(1 + (√(sq3 (imVec q)) / |q.re|) ^ 2) = 1 / |q.re| := by
      have : 1 + (√(sq3 (imVec q)) / |q.re|) ^ 2 = (1 / |q.re|) ^ 2 := by
        rw [div_pow, hn2, div_pow, one_pow, sq_abs]
        field_simp
        linarith
      rw [this, Real.sqrt_sq (by positivity)]
    have hc : cos (arctan (√(sq3 (imVec q)) / |q.re|)) = |q.re| := by
      rw [cos_arctan, hx]; field_simp
    have hs : sin (arctan (√(sq3 (imVec q)) / |q.re|)) = √(sq3 (imVec q)) := by
      rw [sin_arctan, hx]; field_simp
    have hpos : 0 < arctan (√(sq3 (imVec q)) / |q.re|) := Real.arctan_pos.2 (by positivity)
    have hpi := (Real.arctan_lt_pi_div_two (√(sq3 (imVec q)) / |q.re|)).le
    have eh : 2 * arctan (√(sq3 (imVec q)) / |q.re|) / 2 = arctan (√(sq3 (imVec q)) / |q.re|) := by ring
    refine ⟨2 * arctan (√(sq3 (imVec q)) / |q.re|), if q.re < 0 then -1 else 1, by linarith, by linarith, by split <;> norm_num,
      angle _ (by linarith) (by rw [eh, hs]), ?_, by rw [eh, hs], ?_⟩
    · rw [eh, hc]
      split
      · rename_i h; rw [abs_of_neg h]; ring
      · rename_i h; rw [abs_of_nonneg (not_lt.1 h)]; ring
    · split
      · rw [neg_div, arctan_neg]; ring
      · ring

theorem so3Log_zero {eps : ℝ} {q : ℍ[ℝ]} (h : imVec q = 0) : so3LogR eps q = 0 := by
  rw [so3LogR, h, smul_zero]

theorem sq3_smul (a : ℝ) (v : V3 ℝ) : sq3 (a • v) = a ^ 2 * sq3 v := by
  simp [sq3]; ring

/-- Turning with the logarithm for unit time is the rotation. -/
theorem axisQuat_log {eps : ℝ} (h0 : 0 < eps) {q : ℍ[ℝ]} (hu : Quaternion.normSq q = 1) (h : ExactLog eps q) :
    (axisQuat (so3LogR eps q) 1 = q ∨ axisQuat (so3LogR eps q) 1 = -q) ∧ sq3 (so3LogR eps q) ≤ π ^ 2 ∧
      (so3LogR eps q = 0 ∨ eps ≤ sq3 (so3LogR eps q)) := by
  rcases h with h | ⟨h1, h2⟩
  · rw [so3Log_zero h, axisQuat_zero_vel]
    refine ⟨?_, by simp [sq3]; positivity, .inl rfl⟩
    rw [normSq_parts, h] at hu
    have e : (q.re - 1) * (q.re + 1) = 0 := by simp [sq3] at hu; rcases hu with hu | hu <;> rw [hu] <;> norm_num
    have hi := congrFun h 0
    have hj := congrFun h 1
    have hk := congrFun h 2
    simp [imVec] at hi hj hk
    rcases mul_eq_zero.1 e with e | e
    · left; ext <;> simp [hi, hj, hk]; linarith
    · right; ext <;> simp [hi, hj, hk]; linarith
  · obtain ⟨th, s, t0, t1, hs, t2, hc, hsin, hf⟩ := logFactor_exact h0 hu h1 h2
    have hp : 0 < sq3 (imVec q) := lt_of_lt_of_le h0 h1
    have hn : 0 < √(sq3 (imVec q)) := Real.sqrt_pos.2 hp
    have hn2 : √(sq3 (imVec q)) ^ 2 = sq3 (imVec q) := Real.sq_sqrt hp.le
    have hlog : so3LogR eps q = (s * th / √(sq3 (imVec q))) • imVec q := by rw [so3LogR, hf]
    have hsq : sq3 (so3LogR eps q) = th ^ 2 := by
      rw [hlog, sq3_smul, div_pow, hn2, mul_pow, hs]
      field_simp
    have hsqrt : √(sq3 (so3LogR eps q)) = th := by rw [hsq, Real.sqrt_sq t0.le]
    refine ⟨?_, by rw [hsq]; nlinarith, .inr (by rw [hsq]; exact t2)⟩
    have c0 : (axisQuat (so3LogR eps q) 1).re = s * q.re := by
      show cos (1 * √(sq3 (so3LogR eps q)) / 2) = _
      rw [hsqrt, one_mul, hc]
    have ci : ∀ i, sin (1 * √(sq3 (so3LogR eps q)) / 2) / √(sq3 (so3LogR eps q)) * so3LogR eps q i = s * imVec q i := by
      intro i
      rw [hsqrt, one_mul, hsin, hlog]
      simp only [Pi.smul_apply, smul_eq_mul]
      field_simp
    have hs' : s = 1 ∨ s = -1 := by
      have : (s - 1) * (s + 1) = 0 := by linarith
      rcases mul_eq_zero.1 this with h | h
      · left; linarith
      · right; linarith
    rcases hs' with rfl | rfl
    · left
      ext
      · rw [c0, one_mul]
      · exact (ci 0).trans (one_mul _)
      · exact (ci 1).trans (one_mul _)
      · exact (ci 2).trans (one_mul _)
    · right
      ext
      · rw [c0]; simp
      · exact (ci 0).trans (by simp [imVec])
      · exact (ci 1).trans (by simp [imVec])
      · exact (ci 2).trans (by simp [imVec])

/-- jaxlie's `V_inv` is the inverse of the translation matrix. -/
theorem screwV_inv {eps : ℝ} (h0 : 0 < eps) {om : V3 ℝ} (h : om = 0 ∨ eps ≤ sq3 om) (hp : sq3 om ≤ π ^ 2) :
    screwV om 1 * se3LogVinv eps om = 1 := by
  rcases h with rfl | h
  · have hS : skewSymmetric (0 : V3 ℝ) = 0 := by
      ext i j; fin_cases i <;> fin_cases j <;> simp [skewSymmetric]
    simp [screwV, se3LogVinv, hS, sq3, h0]
  · have hpos : 0 < sq3 om := lt_of_lt_of_le h0 h
    have hn : 0 < √(sq3 om) := Real.sqrt_pos.2 hpos
    have hpi : √(sq3 om) ≤ π := by
      rw [← Real.sqrt_sq pi_pos.le]; exact Real.sqrt_le_sqrt hp
    have hsin : 0 < sin (√(sq3 om) / 2) := Real.sin_pos_of_pos_of_lt_pi (by linarith) (by linarith [pi_pos])
    have hs := sqrt_sq3 om
    have hsq : sq3 om = √(sq3 om) ^ 2 := (Real.sq_sqrt hpos.le).symm
    have e : √(sq3 om) = 2 * (√(sq3 om) / 2) := by ring
    have h1 : sin (√(sq3 om)) = 2 * sin (√(sq3 om) / 2) * cos (√(sq3 om) / 2) := by
      conv_lhs => rw [e]
      exact sin_two_mul _
    have h2 : cos (√(sq3 om)) = 1 - 2 * sin (√(sq3 om) / 2) ^ 2 := by
      conv_lhs => rw [e]
      rw [cos_two_mul, sin_sq]; ring
    have h3 := sin_sq_add_cos_sq (√(sq3 om) / 2)
    rw [screwV, se3LogVinv, if_neg (not_lt.2 h)]
    simp only [one_mul, one_smul]
    rw [h1, h2]
    rw [show (1 - √(sq3 om) * cos (√(sq3 om) / 2) / (2 * sin (√(sq3 om) / 2))) / sq3 om =
      (1 - √(sq3 om) * cos (√(sq3 om) / 2) / (2 * sin (√(sq3 om) / 2))) / √(sq3 om) ^ 2 by rw [← hsq]]
    have h4 := skew_cube om
    generalize skewSymmetric om = S at *
    generalize sin (√(sq3 om) / 2) = s at *
    generalize cos (√(sq3 om) / 2) = c at *
    generalize √(sq3 om) = n at *
    have h5 : S * S * S * S = -(n ^ 2) • (S * S) := by rw [h4, smul_mul_assoc]
    generalize ha : (1 - (1 - 2 * s ^ 2)) / n ^ 2 = a
    generalize hb : (n - 2 * s * c) / n ^ 3 = b
    generalize hcc : (1 - n * c / (2 * s)) / n ^ 2 = k
    have E1 : a - 1 / 2 - n ^ 2 * (a * k - b / 2) = 0 := by
      rw [← ha, ← hb, ← hcc]
      field_simp
      ring
    have E2 : b + k - a / 2 - n ^ 2 * (b * k) = 0 := by
      rw [← ha, ← hb, ← hcc]
      field_simp
      linear_combination (-2 * s * n) * h3
    have expand : (1 + a • S + b • (S * S)) * (1 - (1 / 2 : ℝ) • S + k • (S * S)) =
        1 + (a - 1 / 2) • S + (b + k - a / 2) • (S * S) + (a * k - b / 2) • (S * S * S) + (b * k) • (S * S * S * S) := by
      simp only [mul_add, add_mul, mul_sub, one_mul, mul_one, smul_mul_assoc, mul_smul_comm, mul_assoc]
      module
    rw [expand, h5, h4, smul_smul, smul_smul]
    have : (1 : M3 ℝ) + (a - 1 / 2) • S + (b + k - a / 2) • (S * S) + ((a * k - b / 2) * -n ^ 2) • S + (b * k * -n ^ 2) • (S * S) =
        1 + (a - 1 / 2 - n ^ 2 * (a * k - b / 2)) • S + (b + k - a / 2 - n ^ 2 * (b * k)) • (S * S) := by module
    rw [this, E1, E2]
    simp

/-- Moving with the logarithm for unit time is the pose. -/
theorem screw_log {eps : ℝ} (h0 : 0 < eps) {T : SE3 ℝ} (hu : Quaternion.normSq T.rot = 1) (h : ExactLog eps T.rot) (p : V3 ℝ) :
    (screw (se3LogR eps T).1 (se3LogR eps T).2 1).apply p = T.apply p := by
  obtain ⟨h1, h2, h3⟩ := axisQuat_log h0 hu h
  have e1 : (se3LogR eps T).2 = so3LogR eps T.rot := rfl
  have e2 : (se3LogR eps T).1 = (se3LogVinv eps (so3LogR eps T.rot)).mulVec T.trans := rfl
  rw [e1, e2, SE3.apply, SE3.apply, screw, Matrix.mulVec_mulVec, screwV_inv h0 h3 h2, Matrix.one_mulVec]
  rcases h1 with h1 | h1
  · rw [h1]
  · rw [h1, rotate_neg_quat]

theorem screw_zero (v om p : V3 ℝ) : (screw v om 0).apply p = p := by
  rw [screw, SE3.apply, axisQuat_zero_time, rotate_one]
  have : screwV om 0 = 0 := by simp [screwV]
  rw [this, Matrix.zero_mulVec, add_zero]

end Mjinx
