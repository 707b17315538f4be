import Verif.Lemmas.Twist
import Verif.Spec.Simulator
import Verif.Spec.Sim
import Verif.Props.Integrate

/-!
# The motion of the bodies
-/

namespace Mjinx
open Real Props Spec Finset
open scoped Quaternion Matrix

theorem normalizeQuat_unit {q : ℍ[ℝ]} (h : Quaternion.normSq q = 1) : normalizeQuat q = q := by
  rw [normalizeQuat, h, Real.sqrt_one, inv_one, one_smul]

theorem axisAngleQuat_eq {ax : V3 ℝ} (h : sq3 ax = 1) (θ : ℝ) : axisAngleQuat ax θ = axisQuat ax θ := by
  unfold axisAngleQuat axisQuat
  simp only [h, Real.sqrt_one, mul_one, div_one]
  rfl

/-- Turning `t` seconds at `r` radians per second. -/
theorem axisQuat_rate {ax : V3 ℝ} (h : sq3 ax = 1) (r t : ℝ) : axisQuat ax (t * r) = axisQuat (r • ax) t := by
  have h2 : √(sq3 (r • ax)) = |r| := by
    rw [Props.sq3_smul, h, mul_one, Real.sqrt_sq_eq_abs]
  unfold axisQuat
  simp only [h, h2, Real.sqrt_one, mul_one, div_one, Pi.smul_apply, smul_eq_mul]
  rcases abs_choice r with e | e
  · rw [e]
    by_cases hr : r = 0
    · simp [hr]; rfl
    · have : ∀ x, sin (t * r / 2) / r * (r * x) = sin (t * r / 2) * x := fun x => by field_simp
      simp only [this]; rfl
  · rw [e]
    have h1 : t * -r / 2 = -(t * r / 2) := by ring
    rw [h1, cos_neg, sin_neg]
    by_cases hr : r = 0
    · simp [hr]; rfl
    · have : ∀ x, -sin (t * r / 2) / -r * (r * x) = sin (t * r / 2) * x := fun x => by field_simp
      simp only [this]; rfl

/-- A rotation does not move its axis. -/
theorem rotate_axis (om : V3 ℝ) (s : ℝ) : rotate (axisQuat om s) om = om := by
  obtain ⟨c, e1, e2, e3⟩ : ∃ c, (axisQuat om s).imI = c * om 0 ∧ (axisQuat om s).imJ = c * om 1 ∧ (axisQuat om s).imK = c * om 2 :=
    ⟨sin (s * √(sq3 om) / 2) / √(sq3 om), rfl, rfl, rfl⟩
  have hn := axisQuat_normSq om s
  rw [Quaternion.normSq_def', e1, e2, e3] at hn
  funext i
  fin_cases i
  · show rotate _ om 0 = om 0
    rw [rotate_apply0, e1, e2, e3]; linear_combination (om 0) * hn
  · show rotate _ om 1 = om 1
    rw [rotate_apply1, e1, e2, e3]; linear_combination (om 1) * hn
  · show rotate _ om 2 = om 2
    rw [rotate_apply2, e1, e2, e3]; linear_combination (om 2) * hn

/-- A configuration that moves with the joint velocity `v`. -/
structure Moves (m : MjModel ℝ) (q v : Nat → ℝ) (Q : ℝ → Nat → ℝ) : Prop where
  hinge : ∀ j < m.jntType.length, m.jntType.getD j .hinge = .hinge → ∀ t, Q t (qposOf m j) = q (qposOf m j) + t * v (dofOf m j)
  slide : ∀ j < m.jntType.length, m.jntType.getD j .hinge = .slide → ∀ t, Q t (qposOf m j) = q (qposOf m j) + t * v (dofOf m j)
  ball : ∀ j < m.jntType.length, m.jntType.getD j .hinge = .ball → ∀ t,
    quatAt (Q t) (qposOf m j) = quatAt q (qposOf m j) * axisQuat (vec3At v (dofOf m j)) t
  pos : ∀ j < m.jntType.length, m.jntType.getD j .hinge = .free → ∀ t,
    vec3At (Q t) (qposOf m j) = vec3At q (qposOf m j) + t • vec3At v (dofOf m j)
  free : ∀ j < m.jntType.length, m.jntType.getD j .hinge = .free → ∀ t,
    quatAt (Q t) (qposOf m j + 3) = quatAt q (qposOf m j + 3) * axisQuat (vec3At v (dofOf m j + 3)) t

theorem integrate_moves {env : Env ℝ} {m : MjModel ℝ} (he : env.quatIntegrate = quatIntegrateR) (hw : JointsWF m) {q : Vec ℝ} (hu : UnitQuats m q)
    (v : Vec ℝ) : Moves m q.get v.get (fun t => (integrate env m q v t).get) := by
  have key : ∀ j < m.jntType.length, ∀ t, ∀ i < (m.jntType.getD j .hinge).nq, (integrate env m q v t).get (qposOf m j + i) =
      (intBlock quatIntegrateR q.get v.get t (m.jntType.getD j .hinge) (qposOf m j) (dofOf m j)).getD i 0 := by
    intro j hj t i hi
    have := integrate_get env hw q v t j hj i hi
    rwa [he] at this
  constructor
  · intro j hj ht t
    have := key j hj t 0 (by rw [ht]; decide)
    rw [ht] at this; exact this
  · intro j hj ht t
    have := key j hj t 0 (by rw [ht]; decide)
    rw [ht] at this; exact this
  · intro j hj ht t
    have hk := key j hj t
    rw [ht] at hk
    have h0 := hk 0 (by decide)
    have h1 := hk 1 (by decide)
    have h2 := hk 2 (by decide)
    have h3 := hk 3 (by decide)
    rw [Nat.add_zero] at h0
    rw [← quatIntegrateR_unit (hu j (qposOf m j) (by rw [ht]; rfl))]
    simp only [quatAt, h0, h1, h2, h3]
    rfl
  · intro j hj ht t
    have hk := key j hj t
    rw [ht] at hk
    have h0 := hk 0 (by decide)
    have h1 := hk 1 (by decide)
    have h2 := hk 2 (by decide)
    rw [Nat.add_zero] at h0
    simp only [vec3At, h0, h1, h2]
    funext a
    fin_cases a <;> rfl
  · intro j hj ht t
    have hk := key j hj t
    rw [ht] at hk
    have h0 := hk 3 (by decide)
    have h1 := hk 4 (by decide)
    have h2 := hk 5 (by decide)
    have h3 := hk 6 (by decide)
    rw [← quatIntegrateR_unit (hu j (qposOf m j + 3) (by rw [ht]; rfl))]
    simp only [quatAt, Nat.add_assoc, h0, h1, h2, h3]
    rfl

/-- The velocity that joint `j` adds to a body in pose `T`. -/
noncomputable def moveTwist (G : Geometry) (m : MjModel ℝ) (q v : Nat → ℝ) (T : SE3 ℝ) (j : Nat) : V3 ℝ × V3 ℝ :=
  let ax := rotate T.rot (G.jntAxis.getD j 0)
  let c := T.apply (G.jntPos.getD j 0)
  match m.jntType.getD j .hinge with
  | .hinge => v (dofOf m j) • (ax, -crossProduct ax c)
  | .slide => v (dofOf m j) • (0, ax)
  | .ball =>
    let w := rotate (T.rot * quatAt q (qposOf m j)) (vec3At v (dofOf m j))
    (w, -crossProduct w c)
  | .free =>
    let w := rotate (quatAt q (qposOf m j + 3)) (vec3At v (dofOf m j + 3))
    (w, vec3At v (dofOf m j) - crossProduct w (vec3At q (qposOf m j)))

section
variable {G : Geometry} {m : MjModel ℝ} {q v : Nat → ℝ} {Q : ℝ → Nat → ℝ}

theorem adjoint_pivot {T : SE3 ℝ} (hT : Quaternion.normSq T.rot = 1) (w c : V3 ℝ) :
    adjoint T (w, -crossProduct w c) = (rotate T.rot w, -crossProduct (rotate T.rot w) (T.apply c)) := by
  simp only [adjoint, SE3.apply, Prod.mk.injEq, true_and, map_add, rotate_neg_vec, rotate_cross hT]
  abel

theorem jointMove_twist (hm : Moves m q v Q) (hu : ∀ k adr, quatAdr (m.jntType.getD k .hinge) (m.jntQposadr.getD k 0) = some adr →
      Quaternion.normSq (quatAt q adr) = 1)
    {j : Nat} (hj : j < m.jntType.length) (hax : m.jntType.getD j .hinge = .hinge → sq3 (G.jntAxis.getD j 0) = 1)
    {T : ℝ → SE3 ℝ} {τ : V3 ℝ × V3 ℝ} (hT : HasTwist T τ) (h1 : Quaternion.normSq (T 0).rot = 1)
    (hf : m.jntType.getD j .hinge = .free → τ = 0) :
    HasTwist (fun t => jointMove G m (Q t) (T t) j) (τ + moveTwist G m q v (T 0) j) ∧
      ∀ t, Quaternion.normSq (T t).rot = 1 → Quaternion.normSq (jointMove G m (Q t) (T t) j).rot = 1 := by
  unfold jointMove moveTwist
  dsimp only
  have e1 : m.jntQposadr.getD j 0 = qposOf m j := rfl
  rw [e1]
  cases ht : m.jntType.getD j .hinge with
  | hinge =>
    have ha := hax ht
    dsimp only
    have e : ∀ t, axisAngleQuat (G.jntAxis.getD j 0) (Q t (qposOf m j) - G.qpos0 (qposOf m j)) =
        axisQuat (G.jntAxis.getD j 0) (q (qposOf m j) - G.qpos0 (qposOf m j)) * axisQuat (v (dofOf m j) • G.jntAxis.getD j 0) t := by
      intro t
      rw [axisAngleQuat_eq ha, hm.hinge j hj ht, ← axisQuat_rate ha, axisQuat_add]
      congr 1; ring
    simp only [e, ← mul_pivot]
    constructor
    · have := hT.mul (pivot_twist (axisQuat_normSq (G.jntAxis.getD j 0) (q (qposOf m j) - G.qpos0 (qposOf m j)))
        (v (dofOf m j) • G.jntAxis.getD j 0) (G.jntPos.getD j 0)) h1
      rw [adjoint_pivot h1, rotate_smul, rotate_axis, rotate_smul] at this
      simpa only [Prod.smul_mk, smul_neg, map_smul, LinearMap.smul_apply] using this
    · intro t h
      simp [h, axisQuat_normSq]
  | slide =>
    dsimp only
    have e : ∀ t, (⟨(T t).rot, (T t).trans + (Q t (qposOf m j) - G.qpos0 (qposOf m j)) • rotate (T t).rot (G.jntAxis.getD j 0)⟩ : SE3 ℝ) =
        (T t).mul ⟨1, ((q (qposOf m j) - G.qpos0 (qposOf m j)) + t * v (dofOf m j)) • G.jntAxis.getD j 0⟩ := by
      intro t
      rw [SE3.mul, hm.slide j hj ht, rotate_smul, mul_one, add_comm]
      congr 3; ring
    simp only [e]
    constructor
    · have := hT.mul (slide_twist (q (qposOf m j) - G.qpos0 (qposOf m j)) (v (dofOf m j)) (G.jntAxis.getD j 0)) h1
      simpa [adjoint, rotate_zero, rotate_smul, Prod.smul_mk] using this
    · intro t h
      simp [h]
  | ball =>
    dsimp only
    have hq := hu j (qposOf m j) (by rw [ht]; rfl)
    have e : ∀ t, normalizeQuat (quatAt (Q t) (qposOf m j)) = quatAt q (qposOf m j) * axisQuat (vec3At v (dofOf m j)) t := by
      intro t
      rw [hm.ball j hj ht, normalizeQuat_unit]
      rw [map_mul, hq, axisQuat_normSq, one_mul]
    simp only [e, ← mul_pivot]
    constructor
    · have := hT.mul (pivot_twist hq (vec3At v (dofOf m j)) (G.jntPos.getD j 0)) h1
      rwa [adjoint_pivot h1, ← rotate_mul] at this
    · intro t h
      simp [h, axisQuat_normSq, hq]
  | free =>
    dsimp only
    have hq := hu j (qposOf m j + 3) (by rw [ht]; rfl)
    have e : ∀ t, normalizeQuat (quatAt (Q t) (qposOf m j + 3)) = quatAt q (qposOf m j + 3) * axisQuat (vec3At v (dofOf m j + 3)) t := by
      intro t
      rw [hm.free j hj ht, normalizeQuat_unit]
      rw [map_mul, hq, axisQuat_normSq, one_mul]
    simp only [e, hm.pos j hj ht, hf ht, zero_add]
    refine ⟨free_twist hq _ _ _, ?_⟩
    intro t h
    simp [axisQuat_normSq, hq]

/-! ### Bodies -/

/-- The pose of body `b` after those of its joints that come before joint `n`. -/
noncomputable def stage (G : Geometry) (m : MjModel ℝ) (q : Nat → ℝ) (b n : Nat) : SE3 ℝ :=
  ((List.range n).filter (fun j => G.jntBodyid.getD j 0 = b)).foldl (jointMove G m q)
    ((bodyPose G m q (m.bodyParentid.getD b 0)).mul ⟨G.bodyQuat.getD b 1, G.bodyPos.getD b 0⟩)

theorem stage_zero (q : Nat → ℝ) (b : Nat) : stage G m q b 0 =
    (bodyPose G m q (m.bodyParentid.getD b 0)).mul ⟨G.bodyQuat.getD b 1, G.bodyPos.getD b 0⟩ := rfl

theorem stage_succ (q : Nat → ℝ) (b n : Nat) : stage G m q b (n + 1) =
    if G.jntBodyid.getD n 0 = b then jointMove G m q (stage G m q b n) n else stage G m q b n := by
  unfold stage
  rw [List.range_succ, List.filter_append, List.foldl_append]
  split <;> rename_i h
  · rw [List.filter_singleton, decide_eq_true h]; rfl
  · rw [List.filter_singleton, decide_eq_false h]; rfl

theorem bodyPose_zero (q : Nat → ℝ) : bodyPose G m q 0 = SE3.one := by rw [bodyPose]; rfl

theorem bodyPose_stage (hw : TreeWF m) (q : Nat → ℝ) {b : Nat} (h0 : 0 < b) (hb : b < m.nbody) :
    bodyPose G m q b = stage G m q b m.jntType.length := by
  rw [bodyPose, if_neg (by omega)]
  simp only [dif_pos (hw.parent b h0 hb)]
  rfl

theorem filter_range_lt (P : Nat → Bool) {j n : Nat} (h : j ≤ n) : ((List.range n).filter P).filter (· < j) = (List.range j).filter P := by
  induction n with
  | zero => obtain rfl : j = 0 := by omega
            rfl
  | succ n ih =>
    by_cases hj : j = n + 1
    · subst hj
      rw [List.filter_eq_self]
      intro a ha
      simpa using (List.mem_range.1 (List.mem_filter.1 ha).1)
    · rw [List.range_succ, List.filter_append, List.filter_append, ih (by omega)]
      have : (List.filter P [n]).filter (· < j) = [] := by
        rw [List.filter_eq_nil_iff]
        intro a ha
        obtain rfl := List.mem_singleton.1 (List.mem_filter.1 ha).1
        simp; omega
      rw [this, List.append_nil]

theorem poseBefore_stage (q : Nat → ℝ) {j : Nat} (hj : j < m.jntType.length) : poseBefore G m q j = stage G m q (G.jntBodyid.getD j 0) j := by
  unfold poseBefore stage jointsOfBody
  dsimp only
  rw [filter_range_lt _ hj.le]

/-- Configurations that put all joints in the same place. -/
def SameJoints (G : Geometry) (m : MjModel ℝ) (q q' : Nat → ℝ) : Prop :=
  ∀ j < m.jntType.length, ∀ T, jointMove G m q T j = jointMove G m q' T j

theorem bodyPose_congr (hw : TreeWF m) {q' : Nat → ℝ} (h : SameJoints G m q q') : ∀ b < m.nbody, bodyPose G m q b = bodyPose G m q' b := by
  intro b
  induction b using Nat.strong_induction_on with
  | _ b ih =>
    intro hb
    by_cases h0 : b = 0
    · subst h0; rw [bodyPose_zero, bodyPose_zero]
    · have hp := hw.parent b (by omega) hb
      rw [bodyPose_stage hw _ (by omega) hb, bodyPose_stage hw _ (by omega) hb]
      have key : ∀ n ≤ m.jntType.length, stage G m q b n = stage G m q' b n := by
        intro n
        induction n with
        | zero => intro _; rw [stage_zero, stage_zero, ih _ hp (by omega)]
        | succ n ihn =>
          intro hn
          rw [stage_succ, stage_succ, ihn (by omega), h n (by omega)]
      exact key _ le_rfl

theorem stage_congr (hw : TreeWF m) {q' : Nat → ℝ} (h : SameJoints G m q q') {b : Nat} (h0 : 0 < b) (hb : b < m.nbody) :
    ∀ n ≤ m.jntType.length, stage G m q b n = stage G m q' b n := by
  have hp := hw.parent b h0 hb
  intro n
  induction n with
  | zero => intro _; rw [stage_zero, stage_zero, bodyPose_congr hw h _ (by omega)]
  | succ n ihn =>
    intro hn
    rw [stage_succ, stage_succ, ihn (by omega), h n (by omega)]

theorem Moves.start (hm : Moves m q v Q) : SameJoints G m (Q 0) q := by
  intro j hj T
  unfold jointMove
  have e1 : m.jntQposadr.getD j 0 = qposOf m j := rfl
  rw [e1]
  cases ht : m.jntType.getD j .hinge with
  | hinge => simp only [hm.hinge j hj ht, zero_mul, add_zero]
  | slide => simp only [hm.slide j hj ht, zero_mul, add_zero]
  | ball => simp only [hm.ball j hj ht, axisQuat_zero_time, mul_one]
  | free => simp only [hm.free j hj ht, hm.pos j hj ht, axisQuat_zero_time, mul_one, zero_smul, add_zero]

/-- The velocity that joint `j` gives to the bodies behind it. -/
noncomputable def jointTwist (G : Geometry) (m : MjModel ℝ) (q v : Nat → ℝ) (j : Nat) : V3 ℝ × V3 ℝ := moveTwist G m q v (poseBefore G m q j) j

theorem anc_world {parent : List Nat} {a : Nat} (h : Anc parent a 0) : a = 0 := by
  cases h with
  | self => rfl
  | step h _ => exact absurd rfl h

theorem anc_step {parent : List Nat} {a b : Nat} (h0 : b ≠ 0) : Anc parent a b ↔ a = b ∨ Anc parent a (parent.getD b 0) := by
  constructor
  · intro h
    cases h with
    | self => exact .inl rfl
    | step _ h => exact .inr h
  · rintro (rfl | h)
    · exact .self
    · exact .step h0 h

theorem anc_le {m : MjModel ℝ} (hw : TreeWF m) {a b : Nat} (h : Anc m.bodyParentid a b) : b < m.nbody → a ≤ b := by
  induction h with
  | self => intro _; exact le_rfl
  | step h0 _ ih =>
    intro hb
    have := hw.parent _ (Nat.pos_of_ne_zero h0) hb
    have := ih (by omega)
    omega

open Classical in
/-- The bodies move with the sum of what their joints and those of their ancestors give them. -/
theorem body_twist (hw : RobotWF G m) (hm : Moves m q v Q) (hu : ∀ k adr, quatAdr (m.jntType.getD k .hinge) (m.jntQposadr.getD k 0) = some adr →
      Quaternion.normSq (quatAt q adr) = 1) : ∀ b < m.nbody,
    HasTwist (fun t => bodyPose G m (Q t) b)
      (∑ j ∈ range m.jntType.length, if Anc m.bodyParentid (G.jntBodyid.getD j 0) b then jointTwist G m q v j else 0) ∧
    ∀ t, Quaternion.normSq (bodyPose G m (Q t) b).rot = 1 := by
  intro b
  induction b using Nat.strong_induction_on with
  | _ b ih =>
    intro hb
    by_cases h0 : b = 0
    · subst h0
      simp only [bodyPose_zero]
      refine ⟨?_, fun t => by simp [SE3.one]⟩
      rw [sum_eq_zero]
      · exact hasTwist_const _
      · intro j hj
        rw [if_neg]
        intro h
        have := hw.joints j (mem_range.1 hj)
        rw [anc_world h] at this
        omega
    · have h0' : 0 < b := by omega
      have hp := hw.tree.parent b h0' hb
      obtain ⟨i1, i2⟩ := ih _ hp (by omega)
      have hs : SameJoints G m (Q 0) q := hm.start
      have key : ∀ n ≤ m.jntType.length, HasTwist (fun t => stage G m (Q t) b n)
          ((∑ j ∈ range m.jntType.length, if Anc m.bodyParentid (G.jntBodyid.getD j 0) (m.bodyParentid.getD b 0) then jointTwist G m q v j else 0) +
            ∑ j ∈ range n, if G.jntBodyid.getD j 0 = b then jointTwist G m q v j else 0) ∧
          ∀ t, Quaternion.normSq (stage G m (Q t) b n).rot = 1 := by
        intro n
        induction n with
        | zero =>
          intro _
          simp only [stage_zero, range_zero, sum_empty, add_zero]
          constructor
          · have := i1.mul (hasTwist_const ⟨G.bodyQuat.getD b 1, G.bodyPos.getD b 0⟩) (i2 0)
            have e : adjoint (bodyPose G m (Q 0) (m.bodyParentid.getD b 0)) 0 = 0 := by simp [adjoint, rotate_zero]
            rwa [e, add_zero] at this
          · intro t
            rw [SE3.mul, map_mul, i2 t, hw.quat b, one_mul]
        | succ n ihn =>
          intro hn
          obtain ⟨k1, k2⟩ := ihn (by omega)
          simp only [stage_succ]
          rw [sum_range_succ]
          by_cases hbn : G.jntBodyid.getD n 0 = b
          · simp only [if_pos hbn]
            have hf : m.jntType.getD n .hinge = .free →
                ((∑ j ∈ range m.jntType.length, if Anc m.bodyParentid (G.jntBodyid.getD j 0) (m.bodyParentid.getD b 0) then jointTwist G m q v j else 0) +
                  ∑ j ∈ range n, if G.jntBodyid.getD j 0 = b then jointTwist G m q v j else 0) = 0 := by
              intro ht
              obtain ⟨f1, f2⟩ := hw.free n (by omega) ht
              rw [hbn] at f1 f2
              rw [sum_eq_zero, sum_eq_zero, add_zero]
              · intro j hj
                rw [mem_range] at hj
                rw [if_neg]
                intro h
                have := f2 j (by omega) h
                omega
              · intro j hj
                rw [mem_range] at hj
                rw [if_neg, ]
                intro h
                rw [f1] at h
                have := hw.joints j hj
                rw [anc_world h] at this
                omega
            have := jointMove_twist hm hu (show n < m.jntType.length by omega) (hw.axis n (by omega)) k1 (k2 0) hf
            refine ⟨?_, fun t => this.2 t (k2 t)⟩
            have h1 := this.1
            rw [← add_assoc]
            have e : jointTwist G m q v n = moveTwist G m q v (stage G m (Q 0) b n) n := by
              rw [jointTwist, poseBefore_stage q (by omega), hbn, stage_congr hw.tree hs h0' hb n (by omega)]
            rw [e]
            exact h1
          · simp only [if_neg hbn, add_zero]
            exact ⟨k1, k2⟩
      obtain ⟨k1, k2⟩ := key _ le_rfl
      have e : ∀ t, bodyPose G m (Q t) b = stage G m (Q t) b m.jntType.length := fun t => bodyPose_stage hw.tree _ h0' hb
      simp only [e]
      refine ⟨?_, k2⟩
      rw [← sum_add_distrib] at k1
      convert k1 using 1
      apply sum_congr rfl
      intro j hj
      by_cases hj1 : G.jntBodyid.getD j 0 = b
      · have : ¬ Anc m.bodyParentid (G.jntBodyid.getD j 0) (m.bodyParentid.getD b 0) := by
          intro h
          have := anc_le hw.tree h (by omega)
          omega
        rw [if_neg this, if_pos hj1, if_pos (by rw [hj1]; exact .self), zero_add]
      · rw [if_neg hj1, add_zero]
        have e := anc_step (parent := m.bodyParentid) (a := G.jntBodyid.getD j 0) h0
        by_cases ha : Anc m.bodyParentid (G.jntBodyid.getD j 0) (m.bodyParentid.getD b 0)
        · rw [if_pos ha, if_pos (e.2 (.inr ha))]
        · rw [if_neg ha, if_neg (fun h => (e.1 h).elim hj1 ha)]

end
end Mjinx
