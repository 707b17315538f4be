import Verif.Props.Lie

/-!
# Integration of velocities (C71)
-/

namespace Mjinx.Props
open Spec Real
open scoped Quaternion
set_option linter.unusedSectionVars false

/-! ### Quaternions -/

theorem axisQuat_zero_time (v : V3 ℝ) : axisQuat v 0 = 1 := by
  ext <;> simp [axisQuat]

theorem axisQuat_zero_vel (t : ℝ) : axisQuat 0 t = 1 := by
  ext <;> simp [axisQuat, sq3]

theorem axisQuat_add (v : V3 ℝ) (s t : ℝ) : axisQuat v s * axisQuat v t = axisQuat v (s + t) := by
  by_cases hn : √(sq3 v) = 0
  · have h1 : ∀ r, axisQuat v r = 1 := by
      intro r; ext <;> simp [axisQuat, hn]
    rw [h1, h1, h1, mul_one]
  · have hn2 : √(sq3 v) ^ 2 = sq3 v := Real.sq_sqrt (sq3_nonneg v)
    have e : (s + t) * √(sq3 v) / 2 = s * √(sq3 v) / 2 + t * √(sq3 v) / 2 := by ring
    have hv : sq3 v = v 0 ^ 2 + v 1 ^ 2 + v 2 ^ 2 := rfl
    have c0 : ∀ r, (axisQuat v r).re = cos (r * √(sq3 v) / 2) := fun _ => rfl
    have c1 : ∀ r, (axisQuat v r).imI = sin (r * √(sq3 v) / 2) / √(sq3 v) * v 0 := fun _ => rfl
    have c2 : ∀ r, (axisQuat v r).imJ = sin (r * √(sq3 v) / 2) / √(sq3 v) * v 1 := fun _ => rfl
    have c3 : ∀ r, (axisQuat v r).imK = sin (r * √(sq3 v) / 2) / √(sq3 v) * v 2 := fun _ => rfl
    ext
    · rw [Quaternion.re_mul, c0, c0, c0, c1, c1, c2, c2, c3, c3, e, cos_add]
      have : sin (s * √(sq3 v) / 2) * sin (t * √(sq3 v) / 2) =
          sin (s * √(sq3 v) / 2) * sin (t * √(sq3 v) / 2) / √(sq3 v) ^ 2 * (v 0 ^ 2 + v 1 ^ 2 + v 2 ^ 2) := by
        rw [← hv, hn2, div_mul_cancel₀]
        rw [← hn2]; exact pow_ne_zero 2 hn
      rw [this]; field_simp; ring
    · rw [Quaternion.imI_mul, c0, c0, c1, c1, c1, c2, c2, c3, c3, e, sin_add]
      field_simp; ring
    · rw [Quaternion.imJ_mul, c0, c0, c1, c1, c2, c2, c2, c3, c3, e, sin_add]
      field_simp; ring
    · rw [Quaternion.imK_mul, c0, c0, c1, c1, c2, c2, c3, c3, c3, e, sin_add]
      field_simp; ring

theorem quatIntegrateR_normSq {q : ℍ[ℝ]} (h : q ≠ 0) (v : V3 ℝ) (t : ℝ) : Quaternion.normSq (quatIntegrateR q v t) = 1 := by
  have hr : Quaternion.normSq (q * axisQuat v t) = Quaternion.normSq q := by rw [map_mul, axisQuat_normSq, mul_one]
  have hp : 0 < Quaternion.normSq q := lt_of_le_of_ne Quaternion.normSq_nonneg (Ne.symm (Quaternion.normSq_ne_zero.2 h))
  show Quaternion.normSq ((√(Quaternion.normSq (q * axisQuat v t)))⁻¹ • (q * axisQuat v t)) = 1
  rw [Quaternion.normSq_smul, hr, inv_pow, Real.sq_sqrt hp.le]
  field_simp

/-! ### Coordinates of the joints -/

/-- Every configuration entry belongs to a joint. -/
theorem coord_cover {nq nv : Nat} : ∀ {a b : Nat} {ts : List JntType} {as bs : List Nat}, Consecutive nq nv a b ts as bs →
    ∀ i, a ≤ i → i < nq → ∃ k < ts.length, ∃ j < (ts.getD k .hinge).nq, i = as.getD k 0 + j
  | a, _, [], [], [], h, i, h1, h2 => by have := h.1; omega
  | a, b, t :: ts, _ :: as, _ :: bs, h, i, h1, h2 => by
    obtain ⟨rfl, rfl, h⟩ := h
    rename_i x y
    by_cases hi : i < x + t.nq
    · exact ⟨0, by simp, i - x, by simp; omega, by simp; omega⟩
    · obtain ⟨k, hk, j, hj, e⟩ := coord_cover h i (by omega) h2
      exact ⟨k + 1, by simpa using hk, j, by simpa using hj, by simpa using e⟩
  | _, _, [], [], _ :: _, h, _, _, _ => by simp [Consecutive] at h
  | _, _, [], _ :: _, _, h, _, _, _ => by simp [Consecutive] at h
  | _, _, _ :: _, [], _, h, _, _, _ => by simp [Consecutive] at h
  | _, _, _ :: _, _ :: _, [], h, _, _, _ => by simp [Consecutive] at h

section
variable {env : Env ℝ} {m : MjModel ℝ}

/-- The quaternion of a joint after integration. -/
theorem integrate_quat (he : env.quatIntegrate = quatIntegrateR) (hw : JointsWF m) (q v : Vec ℝ) (dt : ℝ) {k adr : Nat} (hk : k < m.jntType.length)
    (ha : quatAdr (m.jntType.getD k .hinge) (m.jntQposadr.getD k 0) = some adr) :
    ∃ b, quatAt (integrate env m q v dt).get adr = quatIntegrateR (quatAt q.get adr) (vec3At v.get b) dt := by
  have hi := integrate_get env hw q v dt k hk
  rw [he] at hi
  cases ht : m.jntType.getD k .hinge with
  | hinge => rw [ht] at ha; cases ha
  | slide => rw [ht] at ha; cases ha
  | ball =>
    rw [ht] at ha hi; cases ha
    refine ⟨dofOf m k, ?_⟩
    have h0 := hi 0 (by decide)
    have h1 := hi 1 (by decide)
    have h2 := hi 2 (by decide)
    have h3 := hi 3 (by decide)
    rw [Nat.add_zero] at h0
    show quatAt (integrate env m q v dt).get (qposOf m k) = _
    simp only [quatAt, h0, h1, h2, h3]
    rfl
  | free =>
    rw [ht] at ha hi; cases ha
    refine ⟨dofOf m k + 3, ?_⟩
    have h0 := hi 3 (by decide)
    have h1 := hi 4 (by decide)
    have h2 := hi 5 (by decide)
    have h3 := hi 6 (by decide)
    show quatAt (integrate env m q v dt).get (qposOf m k + 3) = _
    simp only [quatAt, Nat.add_assoc, h0, h1, h2, h3]
    rfl

/-- **C71** (size). -/
theorem C71_size (hw : JointsWF m) (q v : Vec ℝ) (dt : ℝ) : (integrate env m q v dt).len = m.nq := (integrate_scalar env hw q v dt).1

/-- **C71** (unit quaternions): whatever the velocity and the time, the quaternions of the result are unit quaternions, as soon as those
of the start are not zero. -/
theorem C71_unit (he : env.quatIntegrate = quatIntegrateR) (hw : JointsWF m) {q : Vec ℝ}
    (hq : ∀ k adr, quatAdr (m.jntType.getD k .hinge) (m.jntQposadr.getD k 0) = some adr → quatAt q.get adr ≠ 0) (v : Vec ℝ) (dt : ℝ) :
    UnitQuats m (integrate env m q v dt) := by
  intro k adr ha
  by_cases hk : k < m.jntType.length
  · obtain ⟨b, hb⟩ := integrate_quat he hw q v dt hk ha
    rw [hb]
    exact quatIntegrateR_normSq (hq k adr ha) _ _
  · rw [List.getD_eq_default _ _ (by omega)] at ha
    cases ha

theorem UnitQuats.ne_zero {q : Vec ℝ} (h : UnitQuats m q) (k adr : Nat)
    (ha : quatAdr (m.jntType.getD k .hinge) (m.jntQposadr.getD k 0) = some adr) : quatAt q.get adr ≠ 0 := by
  intro hz
  have := h k adr ha
  rw [hz] at this
  simp at this

/-- **C71** (no time or no velocity): the configuration is not changed. -/
theorem C71_rest (he : env.quatIntegrate = quatIntegrateR) (hw : JointsWF m) {q : Vec ℝ} (hu : UnitQuats m q) (v : Vec ℝ) (dt : ℝ)
    (h0 : dt = 0 ∨ ∀ i, v.get i = 0) : ∀ i < m.nq, (integrate env m q v dt).get i = q.get i := by
  intro i hi
  obtain ⟨k, hk, j, hj, e⟩ := coord_cover hw.addr i (Nat.zero_le _) hi
  have hget := integrate_get env hw q v dt k hk j hj
  have e' : i = qposOf m k + j := e
  rw [← e', he] at hget
  rw [hget]
  have hq : ∀ adr b, quatAdr (m.jntType.getD k .hinge) (m.jntQposadr.getD k 0) = some adr →
      quatIntegrateR (quatAt q.get adr) (vec3At v.get b) dt = quatAt q.get adr := by
    intro adr b ha
    rw [quatIntegrateR_unit (hu k adr ha)]
    rcases h0 with rfl | h0
    · rw [axisQuat_zero_time, mul_one]
    · have : vec3At v.get b = 0 := by funext a; fin_cases a <;> simp [vec3At, h0]
      rw [this, axisQuat_zero_vel, mul_one]
  have hl : ∀ a b, q.get a + dt * v.get b = q.get a := by
    intro a b
    rcases h0 with rfl | h0
    · ring
    · rw [h0]; ring
  cases ht : m.jntType.getD k .hinge with
  | hinge =>
    rw [ht] at hj
    obtain rfl : j = 0 := by simp only [JntType.nq] at hj; omega
    rw [e', Nat.add_zero]
    exact hl _ _
  | slide =>
    rw [ht] at hj
    obtain rfl : j = 0 := by simp only [JntType.nq] at hj; omega
    rw [e', Nat.add_zero]
    exact hl _ _
  | ball =>
    rw [ht] at hj hq
    have := hq (qposOf m k) (dofOf m k) rfl
    simp only [intBlock]
    rw [this, e']
    have hj' : j < 4 := hj
    obtain rfl | rfl | rfl | rfl : j = 0 ∨ j = 1 ∨ j = 2 ∨ j = 3 := by omega
    all_goals rfl
  | free =>
    rw [ht] at hj hq
    have := hq (qposOf m k + 3) (dofOf m k + 3) rfl
    simp only [intBlock]
    rw [this, e']
    have hj' : j < 7 := hj
    obtain rfl | rfl | rfl | rfl | rfl | rfl | rfl : j = 0 ∨ j = 1 ∨ j = 2 ∨ j = 3 ∨ j = 4 ∨ j = 5 ∨ j = 6 := by omega
    · exact hl _ _
    · exact hl _ _
    · exact hl _ _
    all_goals rfl

/-- **C71** (two steps): integrating the same velocity for `s` and then for `t` is integrating it for `s + t`. -/
theorem C71_two_steps (he : env.quatIntegrate = quatIntegrateR) (hw : JointsWF m) {q : Vec ℝ} (hu : UnitQuats m q) (v : Vec ℝ) (s t : ℝ) :
    ∀ i < m.nq, (integrate env m (integrate env m q v s) v t).get i = (integrate env m q v (s + t)).get i := by
  intro i hi
  obtain ⟨k, hk, j, hj, e⟩ := coord_cover hw.addr i (Nat.zero_le _) hi
  have g1 := integrate_get env hw (integrate env m q v s) v t k hk j hj
  have g2 := integrate_get env hw q v (s + t) k hk j hj
  have g3 := integrate_get env hw q v s k hk
  have e' : i = qposOf m k + j := e
  rw [← e', he] at g1 g2
  rw [g1, g2]
  rw [he] at g3
  have hq2 : ∀ (a b : Nat), Quaternion.normSq (quatAt q.get a) = 1 → quatIntegrateR (quatIntegrateR (quatAt q.get a) (vec3At v.get b) s) (vec3At v.get b) t =
      quatIntegrateR (quatAt q.get a) (vec3At v.get b) (s + t) := by
    intro a b ha
    have h1 : Quaternion.normSq (quatIntegrateR (quatAt q.get a) (vec3At v.get b) s) = 1 := by
      apply quatIntegrateR_normSq
      intro hz; rw [hz] at ha; simp at ha
    rw [quatIntegrateR_unit h1, quatIntegrateR_unit ha, quatIntegrateR_unit ha, mul_assoc, axisQuat_add]
  cases ht : m.jntType.getD k .hinge with
  | hinge =>
    rw [ht] at hj g3
    obtain rfl : j = 0 := by simp only [JntType.nq] at hj; omega
    have := g3 0 (by decide)
    simp only [intBlock, List.getD_cons_zero, Nat.add_zero] at this ⊢
    rw [this]; ring
  | slide =>
    rw [ht] at hj g3
    obtain rfl : j = 0 := by simp only [JntType.nq] at hj; omega
    have := g3 0 (by decide)
    simp only [intBlock, List.getD_cons_zero, Nat.add_zero] at this ⊢
    rw [this]; ring
  | ball =>
    rw [ht] at hj g3
    have hn := hu k (qposOf m k) (by rw [ht]; rfl)
    have hquat : quatAt (integrate env m q v s).get (qposOf m k) = quatIntegrateR (quatAt q.get (qposOf m k)) (vec3At v.get (dofOf m k)) s := by
      have h0 := g3 0 (by decide)
      have h1 := g3 1 (by decide)
      have h2 := g3 2 (by decide)
      have h3 := g3 3 (by decide)
      rw [Nat.add_zero] at h0
      simp only [quatAt, h0, h1, h2, h3]
      rfl
    simp only [intBlock]
    rw [hquat, hq2 _ _ hn]
  | free =>
    rw [ht] at hj g3
    have hn := hu k (qposOf m k + 3) (by rw [ht]; rfl)
    have hquat : quatAt (integrate env m q v s).get (qposOf m k + 3) =
        quatIntegrateR (quatAt q.get (qposOf m k + 3)) (vec3At v.get (dofOf m k + 3)) s := by
      have h0 := g3 3 (by decide)
      have h1 := g3 4 (by decide)
      have h2 := g3 5 (by decide)
      have h3 := g3 6 (by decide)
      simp only [quatAt, Nat.add_assoc, h0, h1, h2, h3]
      rfl
    have hvec : vec3At (integrate env m q v s).get (qposOf m k) = vec3At q.get (qposOf m k) + s • vec3At v.get (dofOf m k) := by
      have h0 := g3 0 (by decide)
      have h1 := g3 1 (by decide)
      have h2 := g3 2 (by decide)
      rw [Nat.add_zero] at h0
      funext a
      fin_cases a
      · exact h0
      · exact h1
      · exact h2
    simp only [intBlock]
    rw [hquat, hq2 _ _ hn, hvec, add_smul, add_assoc]

end

/-- A ball joint and a hinge, at rest at the identity. -/
example : JointsWF LEx.model ∧ UnitQuats LEx.model LEx.q ∧ LEx.env.quatIntegrate = quatIntegrateR ∧ 0 < LEx.model.nq :=
  ⟨LEx.model_wf, LEx.unit, rfl, by decide⟩

end Mjinx.Props
