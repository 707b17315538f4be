import Verif.Lemmas.Screw
import Verif.Model.Simulator

/-!
# Velocities of moving frames

A twist `(angular, linear)` is the velocity field `x ↦ linear + angular × x`.
-/

namespace Mjinx
open Real Props
open scoped Quaternion Matrix

theorem rotate_cross {q : ℍ[ℝ]} (h : Quaternion.normSq q = 1) (u w : V3 ℝ) :
    rotate q (crossProduct u w) = crossProduct (rotate q u) (rotate q w) := by
  have key : Quaternion.normSq q • rotate q (crossProduct u w) = crossProduct (rotate q u) (rotate q w) := by
    rw [Quaternion.normSq_def']
    funext i
    fin_cases i
    · show _ * rotate q (crossProduct u w) 0 = crossProduct (rotate q u) (rotate q w) 0
      simp only [cross_apply, Matrix.cons_val_zero, rotate_apply0, rotate_apply1, rotate_apply2, Matrix.cons_val_one, Matrix.cons_val]
      ring
    · show _ * rotate q (crossProduct u w) 1 = crossProduct (rotate q u) (rotate q w) 1
      simp only [cross_apply, Matrix.cons_val_zero, rotate_apply0, rotate_apply1, rotate_apply2, Matrix.cons_val_one, Matrix.cons_val]
      ring
    · show _ * rotate q (crossProduct u w) 2 = crossProduct (rotate q u) (rotate q w) 2
      simp only [cross_apply, Matrix.cons_val_zero, rotate_apply0, rotate_apply1, rotate_apply2, Matrix.cons_val_one, Matrix.cons_val]
      ring
  rw [← key, h, one_smul]

theorem rotate_smul (q : ℍ[ℝ]) (c : ℝ) (v : V3 ℝ) : rotate q (c • v) = c • rotate q v := by
  rw [← quatMat_mulVec, ← quatMat_mulVec, Matrix.mulVec_smul]

theorem rotate_sub (q : ℍ[ℝ]) (v w : V3 ℝ) : rotate q (v - w) = rotate q v - rotate q w := by
  rw [← quatMat_mulVec, ← quatMat_mulVec, ← quatMat_mulVec, Matrix.mulVec_sub]

theorem rotate_zero (q : ℍ[ℝ]) : rotate q (0 : V3 ℝ) = 0 := by
  rw [← quatMat_mulVec, Matrix.mulVec_zero]

/-- The frame `T` moves, at time zero, with the velocity field of `τ`. -/
def HasTwist (T : ℝ → SE3 ℝ) (τ : V3 ℝ × V3 ℝ) : Prop :=
  ∀ p a, HasDerivAt (fun t => (T t).apply p a) (pointVel ((T 0).apply p) τ a) 0

theorem pointVel_zero (x : V3 ℝ) : pointVel x 0 = 0 := by simp [pointVel]

theorem pointVel_add (x : V3 ℝ) (a b : V3 ℝ × V3 ℝ) : pointVel x (a + b) = pointVel x a + pointVel x b := by
  simp only [pointVel, Prod.fst_add, Prod.snd_add, map_add, LinearMap.add_apply]; abel

theorem pointVel_smul (x : V3 ℝ) (c : ℝ) (a : V3 ℝ × V3 ℝ) : pointVel x (c • a) = c • pointVel x a := by
  simp only [pointVel, Prod.smul_fst, Prod.smul_snd, map_smul, LinearMap.smul_apply, smul_add]

theorem hasTwist_const (T : SE3 ℝ) : HasTwist (fun _ => T) 0 := fun p a => by
  rw [pointVel_zero]; exact hasDerivAt_const 0 _

theorem apply_basis (T : SE3 ℝ) (a j : Fin 3) : quatMat T.rot a j = T.apply (Pi.single j 1) a - T.apply 0 a := by
  simp [SE3.apply, quatMat, rotate_zero]

/-- The rotation matrix of a moving frame. -/
theorem HasTwist.rot {T : ℝ → SE3 ℝ} {τ : V3 ℝ × V3 ℝ} (h : HasTwist T τ) (a j : Fin 3) :
    HasDerivAt (fun t => quatMat (T t).rot a j) ((skewSymmetric τ.1 * quatMat (T 0).rot) a j) 0 := by
  simp only [apply_basis]
  refine ((h (Pi.single j 1) a).sub (h 0 a)).congr_deriv ?_
  have e : (skewSymmetric τ.1 * quatMat (T 0).rot) a j = crossProduct τ.1 ((quatMat (T 0).rot).mulVec (Pi.single j 1)) a := by
    rw [← C42_cross, Matrix.mulVec_mulVec, Matrix.mulVec_single_one]; rfl
  rw [e, quatMat_mulVec, ← Pi.sub_apply]
  simp only [pointVel, SE3.apply, rotate_zero, map_add, map_zero, Pi.add_apply, Pi.sub_apply, Pi.zero_apply]
  ring

theorem HasTwist.trans {T : ℝ → SE3 ℝ} {τ : V3 ℝ × V3 ℝ} (h : HasTwist T τ) (a : Fin 3) :
    HasDerivAt (fun t => (T t).trans a) (pointVel (T 0).trans τ a) 0 := by
  have := h 0 a
  simpa [SE3.apply, rotate_zero] using this

/-- A twist seen from another frame. -/
noncomputable def adjoint (A : SE3 ℝ) (σ : V3 ℝ × V3 ℝ) : V3 ℝ × V3 ℝ :=
  (rotate A.rot σ.1, rotate A.rot σ.2 - crossProduct (rotate A.rot σ.1) A.trans)

theorem pointVel_adjoint {A : SE3 ℝ} (hA : Quaternion.normSq A.rot = 1) (σ : V3 ℝ × V3 ℝ) (x : V3 ℝ) :
    pointVel (A.apply x) (adjoint A σ) = rotate A.rot (pointVel x σ) := by
  simp only [pointVel, adjoint, SE3.apply, rotate_add, rotate_cross hA, map_add]
  abel

/-- A frame that moves relative to a moving frame. -/
theorem HasTwist.mul {A B : ℝ → SE3 ℝ} {τ σ : V3 ℝ × V3 ℝ} (hA : HasTwist A τ) (hB : HasTwist B σ)
    (hu : Quaternion.normSq (A 0).rot = 1) : HasTwist (fun t => (A t).mul (B t)) (τ + adjoint (A 0) σ) := by
  intro p a
  have e : (fun t => ((A t).mul (B t)).apply p a) = fun t => ∑ j, quatMat (A t).rot a j * (B t).apply p j + (A t).trans a := by
    funext t
    rw [SE3.mul_apply, SE3.apply, ← quatMat_mulVec]; rfl
  rw [e]
  refine ((HasDerivAt.fun_sum fun j _ => (hA.rot a j).mul (hB p j)).add (hA.trans a)).congr_deriv ?_
  rw [pointVel_add, SE3.mul_apply, pointVel_adjoint hu]
  rw [Finset.sum_add_distrib]
  have h1 : ∑ j, (skewSymmetric τ.1 * quatMat (A 0).rot) a j * (B 0).apply p j = crossProduct τ.1 (rotate (A 0).rot ((B 0).apply p)) a := by
    rw [← quatMat_mulVec, ← C42_cross, Matrix.mulVec_mulVec]; rfl
  have h2 : ∑ j, quatMat (A 0).rot a j * pointVel ((B 0).apply p) σ j = rotate (A 0).rot (pointVel ((B 0).apply p) σ) a := by
    rw [← quatMat_mulVec]; rfl
  rw [h1, h2, Pi.add_apply]
  have h3 : pointVel ((A 0).apply ((B 0).apply p)) τ a = crossProduct τ.1 (rotate (A 0).rot ((B 0).apply p)) a + pointVel (A 0).trans τ a := by
    simp only [pointVel, SE3.apply, map_add, Pi.add_apply]
    ring
  rw [h3]
  ring

/-! ### The motions of the joints -/

/-- A rotation about the point `c`. -/
noncomputable def pivot (r : ℍ[ℝ]) (c : V3 ℝ) : SE3 ℝ := ⟨r, c - rotate r c⟩

theorem pivot_apply (r : ℍ[ℝ]) (c p : V3 ℝ) : (pivot r c).apply p = rotate r (p - c) + c := by
  rw [pivot, SE3.apply, rotate_sub]; module

theorem mul_pivot (T : SE3 ℝ) (r : ℍ[ℝ]) (c : V3 ℝ) : T.mul (pivot r c) = ⟨T.rot * r, T.apply c - rotate (T.rot * r) c⟩ := by
  rw [SE3.mul, pivot, SE3.mk.injEq]
  refine ⟨rfl, ?_⟩
  rw [SE3.apply, rotate_sub, rotate_mul]; abel

/-- A unit quaternion that turns with the body rate `om`. -/
theorem rotate_deriv {q : ℍ[ℝ]} (hq : Quaternion.normSq q = 1) (om p : V3 ℝ) (a : Fin 3) :
    HasDerivAt (fun t => rotate (q * axisQuat om t) p a) (crossProduct (rotate q om) (rotate q p) a) 0 := by
  have e : (fun t => rotate (q * axisQuat om t) p a) = fun t => ∑ k, quatMat q a k * ∑ j, quatMat (axisQuat om t) k j * p j := by
    funext t
    rw [← quatMat_mulVec, quatMat_mul, ← Matrix.mulVec_mulVec]; rfl
  rw [e]
  refine (HasDerivAt.fun_sum fun k _ => (HasDerivAt.fun_sum fun j _ => (quatMat_deriv om 0 k j).mul_const (p j)).const_mul _).congr_deriv ?_
  rw [axisQuat_zero_time]
  have h1 : quatMat 1 = 1 := by
    symm; exact mat_eq_quatMat fun v => by rw [rotate_one, Matrix.one_mulVec]
  rw [h1, one_mul, ← rotate_cross hq, ← quatMat_mulVec, ← C42_cross]
  rfl

theorem pivot_twist {q : ℍ[ℝ]} (hq : Quaternion.normSq q = 1) (om c : V3 ℝ) :
    HasTwist (fun t => pivot (q * axisQuat om t) c) (rotate q om, - crossProduct (rotate q om) c) := by
  intro p a
  simp only [pivot_apply]
  refine ((rotate_deriv hq om (p - c) a).add_const (c a)).congr_deriv ?_
  rw [axisQuat_zero_time, mul_one]
  simp only [pointVel, map_add, map_sub, rotate_sub, Pi.add_apply, Pi.sub_apply, Pi.neg_apply]
  ring

theorem slide_twist (s r : ℝ) (ax : V3 ℝ) : HasTwist (fun t => ⟨1, (s + t * r) • ax⟩) (0, r • ax) := by
  intro p a
  have e : (fun t : ℝ => (⟨1, (s + t * r) • ax⟩ : SE3 ℝ).apply p a) = fun t => p a + (s + t * r) * ax a := by
    funext t
    simp [SE3.apply, rotate_one]
  rw [e]
  refine ((((hasDerivAt_id (0 : ℝ)).mul_const r).const_add s).mul_const (ax a) |>.const_add (p a)).congr_deriv ?_
  simp [pointVel]

theorem free_twist {q : ℍ[ℝ]} (hq : Quaternion.normSq q = 1) (om c v : V3 ℝ) :
    HasTwist (fun t => ⟨q * axisQuat om t, c + t • v⟩) (rotate q om, v - crossProduct (rotate q om) c) := by
  intro p a
  have e : (fun t : ℝ => (⟨q * axisQuat om t, c + t • v⟩ : SE3 ℝ).apply p a) = fun t => rotate (q * axisQuat om t) p a + (c a + t * v a) := by
    funext t
    simp [SE3.apply]
  rw [e]
  refine ((rotate_deriv hq om p a).add (((hasDerivAt_id (0 : ℝ)).mul_const (v a)).const_add (c a))).congr_deriv ?_
  simp only [axisQuat_zero_time, mul_one, pointVel, SE3.apply, map_add, zero_smul, add_zero, Pi.add_apply, Pi.sub_apply]
  ring

end Mjinx
