import Verif.Lemmas.Screw
import Verif.Props.Measure

/-!
# The frame task error as a motion

Property C104.
-/

namespace Mjinx.Props
open Spec Real
open scoped Quaternion Matrix

theorem exactLog_of_thresholds {eps : ℝ} (h0 : 0 < eps) {q : ℍ[ℝ]} (hu : Quaternion.normSq q = 1) (h : OutsideThresholds eps (quatMat q)) :
    ExactLog eps q := by
  rcases h with h | ⟨h1, h2⟩
  · left
    refine (rotate_id hu).1 fun v => ?_
    rw [← quatMat_mulVec, h, Matrix.one_mulVec]
  · rw [quatMat_trace hu] at h1 h2
    rw [normSq_parts] at hu
    refine .inr ⟨by linarith, ?_⟩
    rcases h2 with h2 | h2
    · left
      have : q.re ^ 2 = 0 := by linarith
      exact pow_eq_zero_iff (two_ne_zero) |>.1 this
    · right
      have : eps ^ 2 ≤ q.re ^ 2 := by linarith
      have h3 := sq_le_sq.1 this
      rwa [abs_of_pos h0] at h3

/-- **C104**: a frame task on a body, geometry or site (with a mask of length six or none), after any history whose most recent model change was
accepted.  The error lists the selected coordinates of a constant velocity (linear, then angular, in the frame of the object of that name) with which
the object moves from where it is exactly onto the target in unit time, turning by at most half a turn. -/
theorem C104_motion {a : TaskArgs ℝ} {on : String} {ot : ObjType} {c0 c : Comp ℝ}
    (h0 : newFrameTask a on ot = .ok c0) (hmask : FullMask 6 a.mask) (hr : CleanRun c0 c) {j : JaxComp ℝ}
    (hj : (jaxComponent c).1 = .ok j) {x : Arr ℝ} (hx : targetFrame c = some x) (hx1 : x.shape = [7])
    (hu : x.get [0] ^ 2 + x.get [1] ^ 2 + x.get [2] ^ 2 + x.get [3] ^ 2 = 1)
    {env : Env ℝ} {eps : ℝ} (hlog : env.se3Log = se3LogR eps) (hrot : env.rotOfMat = rotOfMatR) (e0 : 0 < eps) :
    ∃ k : Nat, (j.model.names ot)[k]? = some on ∧ ∀ (d : MjData ℝ) (p : V3 ℝ) (R Q : M3 ℝ), PlacedAt d ot k p →
      OrientedAs d ot k R → IsRotation R → (∀ v, (targetPose x).apply v = Q.mulVec v + (targetPose x).trans) → OutsideThresholds eps (Rᵀ * Q) →
      ∃ (e : Vec ℝ) (lin ang : V3 ℝ) (X : Motion), evalValue env j d = .ok e ∧ e.len = (axesOf 6 a.mask).length ∧
        (∀ r i, (axesOf 6 a.mask)[r]? = some i →
          (∀ h : i < 3, e.get r = lin ⟨i, h⟩) ∧ (∀ h : i - 3 < 3, 3 ≤ i → e.get r = ang ⟨i - 3, h⟩)) ∧
        ConstantVelocity X lin ang ∧ (∀ v, X 0 v = R.mulVec v + p) ∧ (∀ v, X 1 v = (targetPose x).apply v) ∧
        ang 0 ^ 2 + ang 1 ^ 2 + ang 2 ^ 2 ≤ π ^ 2 := by
  obtain ⟨k, hk, hv⟩ := C90_frame_task_partial h0 hmask hr hj hx hx1
  refine ⟨k, hk, fun d p R Q hp hR hrt hQ hth => ?_⟩
  obtain ⟨e, he, hlen, hget⟩ := hv env d p R hp hR
  obtain ⟨u1, u2⟩ := rotOfMatR_spec hrt
  rw [hlog, hrot] at hget
  have hTu : Quaternion.normSq (targetPose x).rot = 1 := by rw [Quaternion.normSq_def']; exact hu
  have hru : Quaternion.normSq ((SE3.inv ⟨rotOfMatR R, p⟩).mul (targetPose x)).rot = 1 := by
    show Quaternion.normSq (quatInv (rotOfMatR R) * (targetPose x).rot) = 1
    rw [map_mul, normSq_quatInv, u1, hTu, one_mul]
  have hmat : quatMat ((SE3.inv ⟨rotOfMatR R, p⟩).mul (targetPose x)).rot = Rᵀ * Q := by
    show quatMat (quatInv (rotOfMatR R) * (targetPose x).rot) = _
    rw [quatMat_mul, quatMat_inv, ← mat_eq_quatMat u2, ← mat_eq_quatMat (fun v => ?_)]
    have := hQ v
    rw [SE3.apply] at this
    exact add_right_cancel this
  have hex : ExactLog eps ((SE3.inv ⟨rotOfMatR R, p⟩).mul (targetPose x)).rot := exactLog_of_thresholds e0 hru (by rw [hmat]; exact hth)
  have hF : ∀ v, (⟨rotOfMatR R, p⟩ : SE3 ℝ).apply v = R.mulVec v + p := fun v => by rw [SE3.apply, u2]
  refine ⟨e, _, _, fun t v => (⟨rotOfMatR R, p⟩ : SE3 ℝ).apply ((screw _ _ t).apply v), he, hlen, hget,
    screw_constantVelocity u1 _ _, fun v => ?_, fun v => ?_, (axisQuat_log e0 hru hex).2.1⟩
  · show (⟨rotOfMatR R, p⟩ : SE3 ℝ).apply ((screw _ _ 0).apply v) = _
    rw [screw_zero, hF]
  · show (⟨rotOfMatR R, p⟩ : SE3 ℝ).apply ((screw _ _ 1).apply v) = _
    rw [screw_log e0 hru hex, SE3.mul_apply, SE3.apply_inv u1]

/-! ### Differences of configurations -/

private theorem exactLog_of_far {eps : ℝ} {p q : ℍ[ℝ]} (hp : Quaternion.normSq p = 1) (hq : Quaternion.normSq q = 1)
    (h : FarEnough eps (p.re * q.re + p.imI * q.imI + p.imJ * q.imJ + p.imK * q.imK)) : ExactLog eps (quatInv p * q) := by
  have hu : Quaternion.normSq (quatInv p * q) = 1 := by rw [map_mul, normSq_quatInv, hp, hq, one_mul]
  have hre : (quatInv p * q).re = p.re * q.re + p.imI * q.imI + p.imJ * q.imJ + p.imK * q.imK := by
    simp [quatInv, Quaternion.re_mul]
  rw [← hre] at h
  rw [normSq_parts] at hu
  rcases h with h | ⟨h1, h2⟩
  · left
    have : √(sq3 (imVec (quatInv p * q))) = 0 := by
      rw [show sq3 (imVec (quatInv p * q)) = 0 by linarith, Real.sqrt_zero]
    exact sq3_eq_zero this
  · exact .inr ⟨by linarith, h2⟩

/-- **C46** (ball joints): moving the first configuration with the difference for unit time turns every ball joint to where it is in the second. -/
theorem C46_ball_partial {env : Env ℝ} {eps : ℝ} (e0 : 0 < eps) (hlog : env.so3Log = so3LogR eps) (hint : env.quatIntegrate = quatIntegrateR)
    {m : MjModel ℝ} (hw : JointsWF m) {q1 q2 : Vec ℝ} (h1 : UnitQuats m q1) (h2 : UnitQuats m q2) {l : List ℝ}
    (h : jointDifference env m q1 q2 = .ok l) {k : Nat} (hk : k < m.jntType.length) (hb : m.jntType.getD k .hinge = .ball)
    (hfar : FarEnough eps (quatDot q1 q2 (qposOf m k))) (p : V3 ℝ) :
    rotate (quatAt (integrate env m q1 ⟨m.nv, fun i => l.getD i 0⟩ 1).get (qposOf m k)) p = rotate (quatAt q2.get (qposOf m k)) p := by
  have u1 : Quaternion.normSq (quatAt q1.get (qposOf m k)) = 1 := h1 k _ (by rw [hb]; rfl)
  have u2 : Quaternion.normSq (quatAt q2.get (qposOf m k)) = 1 := h2 k _ (by rw [hb]; rfl)
  have hex := exactLog_of_far (eps := eps) u1 u2 hfar
  have hd := diff_get env hw h k hk
  have hi := integrate_get env hw q1 ⟨m.nv, fun i => l.getD i 0⟩ 1 k hk
  rw [hb] at hd
  simp only [diffBlock, hlog] at hd
  rw [hb, hint] at hi
  have d0 := hd 0 (by decide)
  have d1 := hd 1 (by decide)
  have d2 := hd 2 (by decide)
  have i0 := hi 0 (by decide)
  have i1 := hi 1 (by decide)
  have i2 := hi 2 (by decide)
  have i3 := hi 3 (by decide)
  have hv : vec3At (fun i => l.getD i 0) (dofOf m k) = so3LogR eps (quatInv (quatAt q1.get (qposOf m k)) * quatAt q2.get (qposOf m k)) := by
    funext i
    fin_cases i
    · exact d0
    · exact d1
    · exact d2
  have hquat : quatAt (integrate env m q1 ⟨m.nv, fun i => l.getD i 0⟩ 1).get (qposOf m k) =
      quatIntegrateR (quatAt q1.get (qposOf m k)) (vec3At (fun i => l.getD i 0) (dofOf m k)) 1 := by
    rw [Nat.add_zero] at i0
    simp only [quatAt, i0, i1, i2, i3]
    rfl
  have hu : Quaternion.normSq (quatInv (quatAt q1.get (qposOf m k)) * quatAt q2.get (qposOf m k)) = 1 := by
    rw [map_mul, normSq_quatInv, u1, u2, one_mul]
  have hprod : ∀ p, rotate (quatAt q1.get (qposOf m k)) (rotate (quatInv (quatAt q1.get (qposOf m k)) * quatAt q2.get (qposOf m k)) p) =
      rotate (quatAt q2.get (qposOf m k)) p := by
    intro p
    rw [rotate_mul, rotate_inv u1]
  rw [hquat, hv, quatIntegrateR_unit u1, rotate_mul]
  rcases (axisQuat_log e0 hu hex).1 with e | e
  · rw [e, hprod]
  · rw [e, rotate_neg_quat, hprod]

/-- **C46** (free joints): the six entries of a free joint are a constant velocity, in the frame of the moving body, that carries the body from its pose
in the first configuration to its pose in the second in unit time. -/
theorem C46_free_partial {env : Env ℝ} {eps : ℝ} (e0 : 0 < eps) (hlog : env.se3Log = se3LogR eps)
    {m : MjModel ℝ} (hw : JointsWF m) {q1 q2 : Vec ℝ} (h1 : UnitQuats m q1) (h2 : UnitQuats m q2) {l : List ℝ}
    (h : jointDifference env m q1 q2 = .ok l) {k : Nat} (hk : k < m.jntType.length) (hb : m.jntType.getD k .hinge = .free)
    (hfar : FarEnough eps (quatDot q1 q2 (qposOf m k + 3))) :
    ∃ X : Motion, ConstantVelocity X (fun i => l.getD (dofOf m k + i) 0) (fun i => l.getD (dofOf m k + 3 + i) 0) ∧
      (∀ p, X 0 p = rotate (quatAt q1.get (qposOf m k + 3)) p + vec3At q1.get (qposOf m k)) ∧
      (∀ p, X 1 p = rotate (quatAt q2.get (qposOf m k + 3)) p + vec3At q2.get (qposOf m k)) := by
  have u1 : Quaternion.normSq (quatAt q1.get (qposOf m k + 3)) = 1 := h1 k _ (by rw [hb]; rfl)
  have u2 : Quaternion.normSq (quatAt q2.get (qposOf m k + 3)) = 1 := h2 k _ (by rw [hb]; rfl)
  have hex := exactLog_of_far (eps := eps) u1 u2 hfar
  have hd := diff_get env hw h k hk
  rw [hb] at hd
  simp only [diffBlock, hlog] at hd
  have d0 := hd 0 (by decide)
  have d1 := hd 1 (by decide)
  have d2 := hd 2 (by decide)
  have d3 := hd 3 (by decide)
  have d4 := hd 4 (by decide)
  have d5 := hd 5 (by decide)
  have hu : Quaternion.normSq ((⟨quatAt q1.get (qposOf m k + 3), vec3At q1.get (qposOf m k)⟩ : SE3 ℝ).inv.mul
      ⟨quatAt q2.get (qposOf m k + 3), vec3At q2.get (qposOf m k)⟩).rot = 1 := by
    show Quaternion.normSq (quatInv (quatAt q1.get (qposOf m k + 3)) * quatAt q2.get (qposOf m k + 3)) = 1
    rw [map_mul, normSq_quatInv, u1, u2, one_mul]
  have hv1 : (fun i : Fin 3 => l.getD (dofOf m k + i) 0) = (se3LogR eps ((⟨quatAt q1.get (qposOf m k + 3), vec3At q1.get (qposOf m k)⟩ : SE3 ℝ).inv.mul
      ⟨quatAt q2.get (qposOf m k + 3), vec3At q2.get (qposOf m k)⟩)).1 := by
    funext i
    fin_cases i
    · exact d0
    · exact d1
    · exact d2
  have hv2 : (fun i : Fin 3 => l.getD (dofOf m k + 3 + i) 0) = (se3LogR eps ((⟨quatAt q1.get (qposOf m k + 3), vec3At q1.get (qposOf m k)⟩ : SE3 ℝ).inv.mul
      ⟨quatAt q2.get (qposOf m k + 3), vec3At q2.get (qposOf m k)⟩)).2 := by
    funext i
    fin_cases i
    · exact d3
    · exact d4
    · exact d5
  rw [hv1, hv2]
  refine ⟨fun t p => (⟨quatAt q1.get (qposOf m k + 3), vec3At q1.get (qposOf m k)⟩ : SE3 ℝ).apply ((screw _ _ t).apply p),
    screw_constantVelocity u1 _ _, fun p => ?_, fun p => ?_⟩
  · show (⟨quatAt q1.get (qposOf m k + 3), vec3At q1.get (qposOf m k)⟩ : SE3 ℝ).apply ((screw _ _ 0).apply p) = _
    rw [screw_zero]; rfl
  · show (⟨quatAt q1.get (qposOf m k + 3), vec3At q1.get (qposOf m k)⟩ : SE3 ℝ).apply ((screw _ _ 1).apply p) = _
    rw [screw_log e0 hu hex, SE3.mul_apply, SE3.apply_inv u1]; rfl

/-! ### Instances -/

/-- The arm at a right angle and the identity as target: the frame error carries the arm to the target. -/
example : ∃ (c : Comp ℝ) (j : JaxComp ℝ) (e : Vec ℝ) (lin ang : V3 ℝ) (X : Motion), Reachable c ∧ (jaxComponent c).1 = .ok j ∧
    evalValue (Arm.env (1 / 100000) 1) j (Arm.data 1 (π / 2)) = .ok e ∧ ConstantVelocity X lin ang ∧
    (∀ v, X 0 v = (Arm.rz (π / 2)).mulVec v + ![1 * cos (π / 2), 1 * sin (π / 2), 0]) ∧ ∀ v, X 1 v = v := by
  have h : newFrameTask armArgs "arm" .body = .ok armComp := by
    unfold newFrameTask
    have : initTaskA armArgs.cost armArgs.lm = .ok ⟨Arr.scalar 1, 0⟩ := by
      rw [initTaskA, if_neg (by simp [armArgs])]; rfl
    rw [this]
    rfl
  have hone : (targetPose se3Identity : SE3 ℝ) = ⟨1, 0⟩ := by
    have e1 : (⟨(1 : ℝ), 0, 0, 0⟩ : ℍ[ℝ]) = 1 := by ext <;> simp
    have e2 : (![0, 0, 0] : V3 ℝ) = 0 := by funext i; fin_cases i <;> rfl
    show (⟨⟨1, 0, 0, 0⟩, ![0, 0, 0]⟩ : SE3 ℝ) = _
    rw [e1, e2]
    rfl
  have hid : ∀ v, (targetPose se3Identity : SE3 ℝ).apply v = v := fun v => by rw [hone, SE3.apply, rotate_one, add_zero]
  obtain ⟨k, hk, hm⟩ := C104_motion (env := Arm.env (1 / 100000) 1) (eps := 1 / 100000) (x := se3Identity)
    (c := runOps armComp [.updateModel Arm.model]) h (by rintro m ⟨⟩)
    (.step (.updateModel Arm.model) .refl (by rintro m ⟨⟩; rfl)) rfl rfl rfl
    (by show (1 : ℝ) ^ 2 + 0 ^ 2 + 0 ^ 2 + 0 ^ 2 = 1; norm_num) rfl rfl (by norm_num)
  have hk1 : k = 1 := by
    have hk' : ["world", "arm"][k]? = some "arm" := hk
    match k, hk' with
    | 1, _ => rfl
    | 0, h => exact absurd h (by decide)
    | n + 2, h => cases h
  subst hk1
  obtain ⟨e, lin, ang, X, h1, -, -, h2, h3, h4, -⟩ := hm (Arm.data 1 (π / 2)) _ (Arm.rz (π / 2)) 1 rfl rfl (Arm.rz_rotation _)
    (fun v => by rw [hid, hone, Matrix.one_mulVec, add_zero]) (by
      rw [mul_one]
      have ht : (Arm.rz (π / 2))ᵀ.trace = 1 := by rw [Matrix.trace_fin_three]; simp [Arm.rz]
      right
      rw [ht]
      constructor
      · norm_num
      · right; norm_num)
  exact ⟨runOps armComp [.updateModel Arm.model], _, e, lin, ang, X, ⟨.frameTask armArgs "arm" .body, armComp, _, h, rfl⟩, rfl, h1, h2, h3, fun v => by rw [h4, hid]⟩

/-- A ball joint is half a turn away from the second configuration. -/
example : ∃ l, jointDifference LEx.env LEx.model LEx.q ⟨5, fun i => if i = 2 then 1 else 7⟩ = .ok l ∧ FarEnough (1 / 100000) 0 ∧
    quatDot LEx.q ⟨5, fun i => if i = 2 then 1 else 0⟩ (qposOf LEx.model 0) = 0 ∧
    UnitQuats LEx.model ⟨5, fun i => if i = 2 then 1 else 0⟩ := by
  refine ⟨_, rfl, .inr ⟨by norm_num, .inl rfl⟩, by simp [quatDot, LEx.q, qposOf, LEx.model], ?_⟩
  intro k adr h
  match k with
  | 0 => cases h; rw [Quaternion.normSq_def']; simp [quatAt, LEx.model]
  | 1 => cases h
  | k + 2 =>
    have e : (LEx.model.jntType.getD (k + 2) .hinge) = .hinge := rfl
    rw [e] at h
    cases h

/-! ### The exponential of the library model -/

/-- Outside the Taylor branch, the pose `SE3.exp τ` of jaxlie, as modelled, is where a body ends that starts at the origin and moves
for unit time with the constant velocity `τ` in its own frame.  (A check of the library model: mjinx itself only differentiates it at zero.) -/
theorem C60_library_exp {eps : ℝ} (h0 : 0 < eps) (τ : Twist ℝ) (h : eps ≤ sq3 τ.2) :
    ∃ X : ℝ → V3 ℝ → V3 ℝ, Spec.ConstantVelocity X τ.1 τ.2 ∧ (∀ p, X 0 p = p) ∧ ∀ p, X 1 p = (se3ExpR eps τ).apply p := by
  have hone : ∀ p : V3 ℝ, (SE3.one : SE3 ℝ).apply p = p := fun p => by simp [SE3.one, SE3.apply, rotate_one]
  refine ⟨fun t p => (SE3.one : SE3 ℝ).apply ((screw τ.1 τ.2 t).apply p), screw_constantVelocity (by simp [SE3.one]) _ _, fun p => ?_, fun p => ?_⟩
  · show SE3.one.apply _ = p
    rw [hone, screw_zero]
  · have hn : ¬ sq3 τ.2 < eps := not_lt.2 h
    have hp : 0 < sq3 τ.2 := lt_of_lt_of_le h0 h
    have hs : √(sq3 τ.2) ^ 2 = sq3 τ.2 := Real.sq_sqrt hp.le
    have hc : √(sq3 τ.2) ^ 3 = √(sq3 τ.2) * sq3 τ.2 := by rw [pow_succ, hs, mul_comm]
    have e : screw τ.1 τ.2 1 = se3ExpR eps τ := by
      simp only [screw, se3ExpR, so3ExpR, so3ExpRe, so3ExpFactor, axisQuat, screwV, if_neg hn, one_mul, one_smul, hs, hc]
    show SE3.one.apply _ = _
    rw [hone, e]

/-- A turn about the vertical axis by 2 (well outside the Taylor branch) while moving forward. -/
example : ∃ X : ℝ → V3 ℝ → V3 ℝ, Spec.ConstantVelocity X ![1, 0, 0] ![0, 0, 2] ∧ (∀ p, X 0 p = p) ∧
    ∀ p, X 1 p = (se3ExpR (1 / 100000) (![1, 0, 0], ![0, 0, 2])).apply p :=
  C60_library_exp (by norm_num) (![1, 0, 0], ![0, 0, 2]) (by simp [sq3]; norm_num)

end Mjinx.Props
