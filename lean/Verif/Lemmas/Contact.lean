import Verif.Lemmas.SimData
import Verif.Spec.Collision
import Verif.Props.Kinematics
import Mathlib.Analysis.SpecialFunctions.Sqrt
import Mathlib.Analysis.InnerProductSpace.PiL2

/-!
# Rates of distances between moving planes and spheres
-/

namespace Mjinx
open Finset Props Spec
open scoped Quaternion Matrix

/-! ### Vectors -/

theorem dot3 (u w : V3 ℝ) : u ⬝ᵥ w = u 0 * w 0 + u 1 * w 1 + u 2 * w 2 := by
  simp [dotProduct, Fin.sum_univ_three]

/-- Moving the point along the normal does not change the normal velocity. -/
theorem normal_slide (n x : V3 ℝ) (c : ℝ) (τ : V3 ℝ × V3 ℝ) : n ⬝ᵥ pointVel (x + c • n) τ = n ⬝ᵥ pointVel x τ := by
  simp only [dot3, pointVel, cross_apply, Pi.add_apply, Pi.smul_apply, smul_eq_mul, Matrix.cons_val_zero, Matrix.cons_val_one, Matrix.cons_val]
  ring

theorem sq3_nonneg (u : V3 ℝ) : 0 ≤ sq3 u := by unfold sq3; positivity

theorem sq3_null {u : V3 ℝ} (h : sq3 u = 0) : u = 0 := by
  unfold sq3 at h
  have h0 : u 0 = 0 := by nlinarith [sq_nonneg (u 0), sq_nonneg (u 1), sq_nonneg (u 2)]
  have h1 : u 1 = 0 := by nlinarith [sq_nonneg (u 0), sq_nonneg (u 1), sq_nonneg (u 2)]
  have h2 : u 2 = 0 := by nlinarith [sq_nonneg (u 0), sq_nonneg (u 1), sq_nonneg (u 2)]
  funext a
  fin_cases a
  · exact h0
  · exact h1
  · exact h2

theorem sq3_pos {u w : V3 ℝ} (h : u ≠ w) : 0 < sq3 (w - u) :=
  lt_of_le_of_ne (sq3_nonneg _) fun h0 => h (sub_eq_zero.1 (sq3_null h0.symm)).symm

/-- The distance of two moving points changes with the difference of their velocities along the line between them. -/
theorem gap_rate {X1 X2 : ℝ → V3 ℝ} {u1 u2 : V3 ℝ} (h1 : ∀ a, HasDerivAt (fun s => X1 s a) (u1 a) 0) (h2 : ∀ a, HasDerivAt (fun s => X2 s a) (u2 a) 0)
    (hne : X1 0 ≠ X2 0) :
    HasDerivAt (fun s => √(sq3 (X2 s - X1 s))) (((√(sq3 (X2 0 - X1 0)))⁻¹ • (X2 0 - X1 0)) ⬝ᵥ (u2 - u1)) 0 := by
  have hd : ∀ a, HasDerivAt (fun s => X2 s a - X1 s a) (u2 a - u1 a) 0 := fun a => (h2 a).sub (h1 a)
  have hsq : HasDerivAt (fun s => sq3 (X2 s - X1 s))
      (2 * (X2 0 0 - X1 0 0) * (u2 0 - u1 0) + 2 * (X2 0 1 - X1 0 1) * (u2 1 - u1 1) + 2 * (X2 0 2 - X1 0 2) * (u2 2 - u1 2)) 0 := by
    have := (((hd 0).pow 2).add ((hd 1).pow 2)).add ((hd 2).pow 2)
    refine (this.congr_deriv ?_)
    simp only [Nat.cast_ofNat, Nat.add_one_sub_one, pow_one]
  have hp := sq3_pos hne
  refine (hsq.sqrt hp.ne').congr_deriv ?_
  rw [dot3]
  simp only [Pi.smul_apply, Pi.sub_apply, smul_eq_mul]
  have := (Real.sqrt_pos.2 hp).ne'
  field_simp

/-- The height of a moving point above a moving plane. -/
theorem height_rate {T : ℝ → SE3 ℝ} {τ : V3 ℝ × V3 ℝ} (hT : HasTwist T τ) (o e : V3 ℝ) {X : ℝ → V3 ℝ} {u : V3 ℝ}
    (hX : ∀ a, HasDerivAt (fun s => X s a) (u a) 0) :
    HasDerivAt (fun s => (X s - (T s).apply o) ⬝ᵥ rotate (T s).rot e)
      (rotate (T 0).rot e ⬝ᵥ (u - pointVel (X 0) τ)) 0 := by
  have hn : ∀ a, HasDerivAt (fun s => rotate (T s).rot e a) (crossProduct τ.1 (rotate (T 0).rot e) a) 0 := by
    intro a
    have h := (hT e a).sub (hT 0 a)
    have e1 : (fun s => rotate (T s).rot e a) = fun s => (T s).apply e a - (T s).apply 0 a := by
      funext s; simp [SE3.apply, rotate_zero]
    rw [e1]
    refine h.congr_deriv ?_
    rw [← Pi.sub_apply]
    simp only [pointVel, SE3.apply, rotate_zero, map_add, map_zero, Pi.add_apply, Pi.sub_apply, Pi.zero_apply]
    ring
  have hd : ∀ a, HasDerivAt (fun s => X s a - (T s).apply o a) (u a - pointVel ((T 0).apply o) τ a) 0 := fun a => (hX a).sub (hT o a)
  have e2 : (fun s => (X s - (T s).apply o) ⬝ᵥ rotate (T s).rot e) = fun s => (X s 0 - (T s).apply o 0) * rotate (T s).rot e 0 +
      (X s 1 - (T s).apply o 1) * rotate (T s).rot e 1 + (X s 2 - (T s).apply o 2) * rotate (T s).rot e 2 := by
    funext s; rw [dot3]; rfl
  rw [e2]
  refine ((((hd 0).mul (hn 0)).add ((hd 1).mul (hn 1))).add ((hd 2).mul (hn 2))).congr_deriv ?_
  generalize rotate (T 0).rot e = n
  generalize (T 0).apply o = p
  simp only [dot3, pointVel, cross_apply, Pi.add_apply, Pi.sub_apply, Matrix.cons_val_zero, Matrix.cons_val_one, Matrix.cons_val]
  ring

/-! ### Distances -/

theorem gap_norm (x y : V3 ℝ) : gap x y = ‖(WithLp.toLp 2 y : EuclideanSpace ℝ (Fin 3)) - WithLp.toLp 2 x‖ := by
  rw [EuclideanSpace.norm_eq, gap, sq3, Fin.sum_univ_three]
  simp

theorem gap_triangle (x y z : V3 ℝ) : gap x z ≤ gap x y + gap y z := by
  simp only [gap_norm]
  rw [add_comm]
  exact norm_sub_le_norm_sub_add_norm_sub _ _ _

theorem gap_comm (x y : V3 ℝ) : gap x y = gap y x := by
  simp only [gap_norm]; exact norm_sub_rev _ _

theorem gap_nonneg (x y : V3 ℝ) : 0 ≤ gap x y := Real.sqrt_nonneg _

theorem gap_shift (x u : V3 ℝ) (c : ℝ) (hu : sq3 u = 1) : gap x (x + c • u) = |c| := by
  have : sq3 (x + c • u - x) = c ^ 2 * sq3 u := by simp [sq3]; ring
  rw [gap, this, hu, mul_one, Real.sqrt_sq_eq_abs]

/-- Two balls and the distances of their points. -/
theorem balls_apart {x1 x2 : V3 ℝ} {r1 r2 c : ℝ} (h1 : 0 ≤ r1) (h2 : 0 ≤ r2) (hc : 0 < c) :
    c ≤ gap x1 x2 - (r1 + r2) ↔ ∀ y1 y2, gap x1 y1 ≤ r1 → gap x2 y2 ≤ r2 → c ≤ gap y1 y2 := by
  constructor
  · intro h y1 y2 e1 e2
    have t1 := gap_triangle x1 y1 x2
    have t2 := gap_triangle y1 y2 x2
    rw [gap_comm y2 x2] at t2
    linarith
  · intro h
    by_cases h0 : gap x1 x2 = 0
    · have := h x1 x2 (by rw [gap, sub_self]; simpa [sq3] using h1) (by rw [gap, sub_self]; simpa [sq3] using h2)
      rw [h0] at this; linarith
    have hpos : 0 < gap x1 x2 := lt_of_le_of_ne (gap_nonneg _ _) (Ne.symm h0)
    set u := (gap x1 x2)⁻¹ • (x2 - x1) with hu
    have hsq : gap x1 x2 ^ 2 = sq3 (x2 - x1) := Real.sq_sqrt (sq3_nonneg _)
    have hu1 : sq3 u = 1 := by
      have : sq3 u = ((gap x1 x2)⁻¹) ^ 2 * sq3 (x2 - x1) := by rw [hu]; simp [sq3]; ring
      rw [this, ← hsq, inv_pow]
      exact inv_mul_cancel₀ (by positivity)
    have hx2 : x2 = x1 + gap x1 x2 • u := by
      rw [hu, smul_smul, mul_inv_cancel₀ h0]; module
    by_cases hr : gap x1 x2 ≤ r1 + r2
    · -- a common point
      have hm : gap x1 (x1 + min r1 (gap x1 x2) • u) ≤ r1 := by
        rw [gap_shift _ _ _ hu1, abs_of_nonneg (le_min h1 hpos.le)]
        exact min_le_left _ _
      have hm2 : gap x2 (x1 + min r1 (gap x1 x2) • u) ≤ r2 := by
        have e : x1 + min r1 (gap x1 x2) • u = x2 + (min r1 (gap x1 x2) - gap x1 x2) • u := by
          clear hsq hpos h0 hr hm hu hu1
          clear_value u
          generalize gap x1 x2 = d at *
          rw [hx2]; module
        rw [e, gap_shift _ _ _ hu1, abs_of_nonpos (by linarith [min_le_right r1 (gap x1 x2)])]
        rcases min_cases r1 (gap x1 x2) with ⟨e, -⟩ | ⟨e, -⟩ <;> rw [e] <;> linarith
      have := h _ _ hm hm2
      rw [gap, sub_self] at this
      simp [sq3] at this
      linarith
    · push Not at hr
      have e1 : gap x1 (x1 + r1 • u) ≤ r1 := by rw [gap_shift _ _ _ hu1, abs_of_nonneg h1]
      have e2 : gap x2 (x2 + (-r2) • u) ≤ r2 := by rw [gap_shift _ _ _ hu1, abs_neg, abs_of_nonneg h2]
      have := h _ _ e1 e2
      have e3 : x2 + (-r2) • u = (x1 + r1 • u) + (gap x1 x2 - r1 - r2) • u := by
        clear hsq hpos h0 hr hu hu1 this e2
        clear_value u
        generalize gap x1 x2 = d at *
        rw [hx2]; module
      rw [e3, gap_shift _ _ _ hu1, abs_of_pos (by linarith)] at this
      linarith

/-! ### Jacobian rows -/

section
variable {env : Env ℝ} {G : Geometry} {m : MjModel ℝ} {q : Vec ℝ}

open Classical in
/-- The twist of body `b` when the robot moves from `q` with joint velocity `v`. -/
noncomputable def bodyTwist (G : Geometry) (m : MjModel ℝ) (q v : Nat → ℝ) (b : Nat) : V3 ℝ × V3 ℝ :=
  ∑ j ∈ range m.jntType.length, if Anc m.bodyParentid (G.jntBodyid.getD j 0) b then jointTwist G m q v j else 0

/-- The Jacobian of a point of a body. -/
theorem pointJacobian_twist (hs : Simulates env G m) (hw : RobotWF G m) (hu : UnitQuats m q) {b : Nat} (hb : b < m.nbody) (pos : V3 ℝ) :
    ∃ rows, pointJacobian m (update env m q) pos b = .ok rows ∧ rows.length ≤ (update env m q).cdof.length ∧
      ∀ v, (objVelocity rows v).1 = pointVel pos (bodyTwist G m q.get v b) := by
  have hv := fun v : Nat → ℝ => rows_velocity hs hw hu v hb pos
  obtain ⟨root, com, h1, h2, -⟩ := hv 0
  refine ⟨((update env m q).cdof.zip (dofMask m b)).map (fun y => maskRow y.2 (pointVel (pos - com) y.1, y.1.1)), ?_, ?_, ?_⟩
  · rw [pointJacobian]
    simp only [bind, Except.bind, h1, h2]
    rfl
  · rw [List.length_map, List.length_zip]; exact min_le_left _ _
  · intro v
    obtain ⟨root', com', k1, k2, hvel⟩ := hv v
    rw [h1] at k1; cases k1
    rw [h2] at k2; cases k2
    rw [hvel]; rfl

theorem objVelocity_extend (rows : List (V3 ℝ × V3 ℝ)) (v : Nat → ℝ) {N : Nat} (h : rows.length ≤ N) :
    objVelocity rows v = ∑ k ∈ range N, v k • rows.getD k (0, 0) := by
  unfold objVelocity
  refine Finset.sum_subset (Finset.range_subset_range.2 h) fun k _ hk => ?_
  rw [List.getD_eq_default _ _ (by simpa using hk)]
  ext <;> simp

/-- What the collision Jacobian computes for a contact: the relative velocity of the two contact points along the normal. -/
theorem distanceRow_twist (hs : Simulates env G m) (hw : RobotWF G m) (hu : UnitQuats m q) {b1 b2 : Nat} (hb1 : b1 < m.nbody) (hb2 : b2 < m.nbody)
    {c : ContactVal ℝ} {row : Nat → ℝ} (h : DistanceRow m (update env m q) c b1 b2 row) (v : Nat → ℝ) :
    ∑ k ∈ range (update env m q).cdof.length, row k * v k =
      c.normal ⬝ᵥ (pointVel c.pos (bodyTwist G m q.get v b2) - pointVel c.pos (bodyTwist G m q.get v b1)) := by
  obtain ⟨r1, r2, e1, e2, hr⟩ := h
  obtain ⟨r1', e1', l1, t1⟩ := pointJacobian_twist hs hw hu hb1 (c.pos - (c.dist / 2) • c.normal)
  obtain ⟨r2', e2', l2, t2⟩ := pointJacobian_twist hs hw hu hb2 (c.pos + (c.dist / 2) • c.normal)
  rw [e1] at e1'; cases e1'
  rw [e2] at e2'; cases e2'
  have s1 := normal_slide c.normal c.pos (-(c.dist / 2)) (bodyTwist G m q.get v b1)
  rw [neg_smul, ← sub_eq_add_neg, ← t1] at s1
  have s2 := normal_slide c.normal c.pos (c.dist / 2) (bodyTwist G m q.get v b2)
  rw [← t2] at s2
  rw [dotProduct_sub, ← s1, ← s2, objVelocity_extend r1 v l1, objVelocity_extend r2 v l2, Prod.fst_sum, Prod.fst_sum, dotProduct_sum, dotProduct_sum,
    ← Finset.sum_sub_distrib]
  refine Finset.sum_congr rfl fun k _ => ?_
  rw [hr, ← dotProduct_sub]
  simp only [dotProduct, Prod.smul_fst, Pi.sub_apply, Pi.smul_apply, smul_eq_mul, Finset.sum_mul]
  refine Finset.sum_congr rfl fun a _ => ?_
  ring

end
end Mjinx
