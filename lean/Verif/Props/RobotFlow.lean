import Verif.Props.Flow
import Verif.Props.RobotJacobian
import Verif.Props.Spheres

/-!
# C88: continuous control of robots
-/

set_option linter.unusedSectionVars false

namespace Mjinx.Props
open Spec Finset
open scoped Quaternion Matrix

section
variable {env : Env ℝ} {G : Geometry} {m : MjModel ℝ} {T : ℝ}

theorem vecOf_get_continuous {n : Nat} (i : Nat) : Continuous fun y : Fin n → ℝ => (vecOf y).get i := by
  by_cases h : i < n
  · have e : (fun y : Fin n → ℝ => (vecOf y).get i) = fun y => y ⟨i, h⟩ := by
      funext y; exact dif_pos h
    rw [e]; exact continuous_apply _
  · have e : (fun y : Fin n → ℝ => (vecOf y).get i) = fun _ => 0 := by
      funext y; exact dif_neg h
    rw [e]; exact continuous_const

/-- The quaternions have length one up to the end of the motion. -/
theorem unit_closed {x : ℝ → Fin m.nq → ℝ} {v : ℝ → Vec ℝ} (hT : 0 < T) (hm : MovesWith env m T x v) : ∀ t ∈ Set.Icc 0 T, UnitQuats m (vecOf (x t)) := by
  intro t ht k adr hk
  have hc : ContinuousOn (fun s => Quaternion.normSq (quatAt (vecOf (x s)).get adr)) (Set.Icc 0 T) := by
    have h1 : Continuous fun y : Fin m.nq → ℝ => Quaternion.normSq (quatAt (vecOf y).get adr) := by
      have e : (fun y : Fin m.nq → ℝ => Quaternion.normSq (quatAt (vecOf y).get adr)) = fun y =>
          (vecOf y).get adr ^ 2 + (vecOf y).get (adr + 1) ^ 2 + (vecOf y).get (adr + 2) ^ 2 + (vecOf y).get (adr + 3) ^ 2 := by
        funext y
        rw [Quaternion.normSq_def']
        rfl
      rw [e]
      exact ((((vecOf_get_continuous _).pow 2).add ((vecOf_get_continuous _).pow 2)).add ((vecOf_get_continuous _).pow 2)).add
        ((vecOf_get_continuous _).pow 2)
    exact h1.comp_continuousOn hm.cont
  have he : Set.EqOn (fun s => Quaternion.normSq (quatAt (vecOf (x s)).get adr)) (fun _ => 1) (Set.Ico 0 T) := fun s hs => hm.unit s hs k adr hk
  exact he.of_subset_closure hc continuousOn_const Set.Ico_subset_Icc_self (by rw [closure_Ico hT.ne]) ht

end

section
variable {env : Env ℝ} {G : Geometry} {j : JaxComp ℝ} {T : ℝ} {x : ℝ → Fin j.model.nq → ℝ} {v : ℝ → Vec ℝ}

private theorem at_start {P : ℝ → Prop} (hT : ¬ 0 < T) (h : P 0) : ∀ t ∈ Set.Icc 0 T, P t := by
  intro t ht
  have : t = 0 := le_antisymm (by have := ht.2; linarith) ht.1
  rw [this]; exact h

/-- **C88** (position barriers on robots): if at every moment the robot moves with a velocity that satisfies the constraints of a problem containing a
position barrier, and the value of the barrier is nonnegative at the start, it stays nonnegative.  The gain has to be nonnegative, and
`gain_fn` must not be positive on violations.  Missing: velocities with rotations of free and ball joints, where it is false
(`C88_wrong`). -/
theorem C88_robot_safe_partial (hs : Simulates env G j.model) (hw : RobotWF G j.model) (hj : JacrevExact env) (hd : Differentiated j) (hb : CompiledBarrier j)
    (hφ : ∀ y < 0, j.gainFn y ≤ 0) {ps : ℝ → JaxProblem ℝ} (hl : FeasibleFlow env j.model ps T x v)
    (hin : ∀ t ∈ Set.Ico 0 T, ∃ name, (name, j) ∈ (ps t).comps)
    (hv : ∀ t ∈ Set.Ico 0 T, ∀ k < j.model.nv, angularDof j.model k = true → (v t).get k = 0)
    {V0 : Vec ℝ} (h0 : evalValue env j (update env j.model (vecOf (x 0))) = .ok V0) (hgain : ∀ i < V0.len, 0 ≤ j.vectorGain.get [i])
    (hstart : ∀ i < V0.len, 0 ≤ V0.get i) :
    ∀ t ∈ Set.Icc 0 T, ∃ V, evalValue env j (update env j.model (vecOf (x t))) = .ok V ∧ V.len = V0.len ∧ ∀ i < V.len, 0 ≤ V.get i := by
  by_cases hT : 0 < T
  · obtain ⟨f, hf1, hf2, hf3⟩ := value_smooth hs hw hd h0
    have hu := unit_closed hT hl.toMovesWith
    have e0 : f (vecOf (x 0)) = V0 := Except.ok.inj ((hf1 _).symm.trans h0)
    have h := C88_safe_partial hs.quat hj hw.addr (sim_kept hs) (fun t ht => sim_qpos hs hw.addr (hl.unit t ht)) hd hb hf1 hf2
      (fun t ht => hf3 (x t) (unit_nonzero (hu t ht))) hgain hφ hl hin hv (by rw [e0]; exact hstart)
    exact fun t ht => ⟨_, hf1 _, hf2 _, fun i hi => h t ht i (by rw [← hf2 (vecOf (x t))]; exact hi)⟩
  · exact at_start hT ⟨V0, h0, rfl, hstart⟩

/-- **C88** (position barriers on robots, rate): with the default `gain_fn` a barrier value shrinks at most exponentially, with its gain. -/
theorem C88_robot_rate_partial (hs : Simulates env G j.model) (hw : RobotWF G j.model) (hj : JacrevExact env) (hd : Differentiated j) (hb : CompiledBarrier j)
    (hid : j.gainFn = id) {ps : ℝ → JaxProblem ℝ} (hl : FeasibleFlow env j.model ps T x v)
    (hin : ∀ t ∈ Set.Ico 0 T, ∃ name, (name, j) ∈ (ps t).comps)
    (hv : ∀ t ∈ Set.Ico 0 T, ∀ k < j.model.nv, angularDof j.model k = true → (v t).get k = 0)
    {V0 : Vec ℝ} (h0 : evalValue env j (update env j.model (vecOf (x 0))) = .ok V0) :
    ∀ t ∈ Set.Icc 0 T, ∃ V, evalValue env j (update env j.model (vecOf (x t))) = .ok V ∧ V.len = V0.len ∧
      ∀ i < V.len, Real.exp (- (j.vectorGain.get [i] * t)) * V0.get i ≤ V.get i := by
  by_cases hT : 0 < T
  · obtain ⟨f, hf1, hf2, hf3⟩ := value_smooth hs hw hd h0
    have hu := unit_closed hT hl.toMovesWith
    have e0 : f (vecOf (x 0)) = V0 := Except.ok.inj ((hf1 _).symm.trans h0)
    have h := C88_rate_partial hs.quat hj hw.addr (sim_kept hs) (fun t ht => sim_qpos hs hw.addr (hl.unit t ht)) hd hb hf1 hf2
      (fun t ht => hf3 (x t) (unit_nonzero (hu t ht))) hid hl hin hv
    rw [e0] at h
    exact fun t ht => ⟨_, hf1 _, hf2 _, fun i hi => h t ht i (by rw [← hf2 (vecOf (x t))]; exact hi)⟩
  · exact at_start hT ⟨V0, h0, rfl, fun i _ => by simp⟩

/-- **C88** (position and centre-of-mass tasks on robots): if at every moment the velocity meets the task, and `gain_fn` is the default, the error decays
exponentially with the gain of its row.  Missing: velocities with rotations of free and ball joints. -/
theorem C88_robot_task_partial (hs : Simulates env G j.model) (hw : RobotWF G j.model) (hj : JacrevExact env) (hd : Differentiated j)
    (hid : j.gainFn = id) (hl : MovesWith env j.model T x v) {V0 : Vec ℝ} (h0 : evalValue env j (update env j.model (vecOf (x 0))) = .ok V0)
    (hmeet : ∀ t ∈ Set.Ico 0 T, ∃ e, evaluate env j (update env j.model (vecOf (x t))) = .ok e ∧
      ∀ i < V0.len, rowDot e.jac i (v t).get + gained e i = 0)
    (hv : ∀ t ∈ Set.Ico 0 T, ∀ k < j.model.nv, angularDof j.model k = true → (v t).get k = 0) :
    ∀ t ∈ Set.Icc 0 T, ∃ V, evalValue env j (update env j.model (vecOf (x t))) = .ok V ∧ V.len = V0.len ∧
      ∀ i < V.len, V.get i = Real.exp (- (j.vectorGain.get [i] * t)) * V0.get i := by
  by_cases hT : 0 < T
  · obtain ⟨f, hf1, hf2, hf3⟩ := value_smooth hs hw hd h0
    have hu := unit_closed hT hl
    have e0 : f (vecOf (x 0)) = V0 := Except.ok.inj ((hf1 _).symm.trans h0)
    have h := C88_task_partial hs.quat hj hw.addr (sim_kept hs) (fun t ht => sim_qpos hs hw.addr (hl.unit t ht)) hd hf1 hf2
      (fun t ht => hf3 (x t) (unit_nonzero (hu t ht))) hid hl hmeet hv
    rw [e0] at h
    exact fun t ht => ⟨_, hf1 _, hf2 _, fun i hi => h t ht i (by rw [← hf2 (vecOf (x t))]; exact hi)⟩
  · exact at_start hT ⟨V0, h0, rfl, fun i _ => by simp⟩

end

namespace Beads

theorem slider_pose (g : Nat → ℝ) : bodyPose geometry model g 1 = ⟨1, ![g 0, 0, 1]⟩ := by
  have hj : jointsOfBody geometry model 1 = [0] := rfl
  rw [bodyPose, if_neg (by decide), hj]
  have hp : model.bodyParentid.getD 1 0 = 0 := rfl
  simp only [hp, dif_pos (show 0 < 1 by decide), bodyPose_zero, List.foldl_cons, List.foldl_nil]
  have e : jointMove geometry model g ((SE3.one : SE3 ℝ).mul ⟨geometry.bodyQuat.getD 1 1, geometry.bodyPos.getD 1 0⟩) 0 =
      ⟨1 * 1, (rotate 1 ![0, 0, 1] + 0) + (g 0 - 0) • rotate (1 * 1) ![1, 0, 0]⟩ := rfl
  rw [e, one_mul, rotate_one, rotate_one, SE3.mk.injEq]
  refine ⟨rfl, ?_⟩
  funext a
  fin_cases a <;> simp

theorem slider_pos (q : Vec ℝ) : objPos (update env model q) .body 1 = .ok ![q.get 0, 0, 1] := by
  have h := (update_object simulates q (t := .body) (i := 1) (b := 1) rfl).1
  rw [slider_pose] at h
  refine h.trans ?_
  congr 1
  show rotate 1 0 + ![q.get 0, 0, 1] = _
  rw [rotate_one, zero_add]

theorem noAngular : ∀ k < model.nv, angularDof model k = false := by decide

/-- The slider must stay on the right of the origin. -/
noncomputable def right : JaxComp ℝ := (lowerLimit model "slider" [1, 0, 0] 0).getD barrier
theorem right_made : lowerLimit model "slider" [1, 0, 0] 0 = some right := rfl

theorem right_value (q : Vec ℝ) : ∃ V, evalValue env right (update env model q) = .ok V ∧ V.len = 1 ∧ V.get 0 = q.get 0 := by
  refine ⟨_, rfl, rfl, ?_⟩
  show (bodyPose geometry model q.get 1).trans 0 - 0 = _
  rw [slider_pose, sub_zero]
  rfl

noncomputable def path (t : ℝ) : Fin model.nq → ℝ := ![Real.exp (-t), 0]
noncomputable def vel (t : ℝ) : Vec ℝ := ⟨2, fun k => if k = 0 then - Real.exp (-t) else 0⟩

theorem moves (T : ℝ) : MovesWith env model T path vel where
  cont := by
    refine Continuous.continuousOn (continuous_pi fun (k : Fin 2) => ?_)
    match k with
    | 0 => exact Real.continuous_exp.comp continuous_neg
    | 1 => exact continuous_const
  unit := fun t _ => unit _
  rate := by
    rintro t _ ⟨k, hk⟩
    match k, hk with
    | 0, _ =>
      have e : (fun s => (integrate env model (vecOf (path t)) (vel t) s).get 0) = fun s => Real.exp (-t) + s * - Real.exp (-t) := rfl
      show HasDerivWithinAt (fun s => Real.exp (-s)) (deriv (fun s => (integrate env model (vecOf (path t)) (vel t) s).get 0) 0) _ _
      rw [e]
      have h1 := ((hasDerivAt_id (0 : ℝ)).mul_const (- Real.exp (-t))).const_add (Real.exp (-t))
      have h2 := ((hasDerivAt_id t).neg).exp
      rw [show deriv (fun s => Real.exp (-t) + s * - Real.exp (-t)) 0 = 1 * - Real.exp (-t) from h1.deriv]
      refine h2.hasDerivWithinAt.congr_deriv ?_
      show Real.exp (-t) * -1 = _
      ring
    | 1, _ =>
      have e : (fun s => (integrate env model (vecOf (path t)) (vel t) s).get 1) = fun s => (0 : ℝ) + s * 0 := rfl
      show HasDerivWithinAt (fun _ => (0 : ℝ)) (deriv (fun s => (integrate env model (vecOf (path t)) (vel t) s).get 1) 0) _ _
      rw [e]
      simp only [mul_zero, add_zero, deriv_const]
      exact hasDerivWithinAt_const _ _ _

theorem right_rate (t : ℝ) : ∃ J, evalJacobian env right (update env model (vecOf (path t))) = .ok J ∧ J.rows = 1 ∧ J.cols = 2 ∧
    rowDot J 0 (vel t).get = - Real.exp (-t) := by
  obtain ⟨V0, a1, a2, a3⟩ := right_value (vecOf (path t))
  obtain ⟨J, hJ, h⟩ := C78_robot_partial (j := right) simulates robot (jacrevR_exact rfl) trivial (x := path t) (unit _) a1
  refine ⟨J, hJ, ?_, ?_, ?_⟩
  · cases hJ; rfl
  · cases hJ; rfl
  · obtain ⟨V, v1, v2⟩ := h (vel t) (fun k hk h => (Bool.false_ne_true ((noAngular k hk).symm.trans h)).elim)
    have h1 := v2 0 (by omega)
    have e : (fun s => (V s).get 0) = fun s => Real.exp (-t) + s * - Real.exp (-t) := by
      funext s
      obtain ⟨W, w1, -, w3⟩ := right_value (integrate env model (vecOf (path t)) (vel t) s)
      rw [show V s = W from Except.ok.inj ((v1 s).symm.trans w1), w3]
      rfl
    rw [e] at h1
    have h2 := ((hasDerivAt_id (0 : ℝ)).mul_const (- Real.exp (-t))).const_add (Real.exp (-t))
    have h3 := h1.unique h2
    rw [one_mul] at h3
    exact h3

/-- The problem with that barrier and speed limit 1. -/
noncomputable def prob : JaxProblem ℝ := ⟨model, ⟨[2], fun _ => -1⟩, ⟨[2], fun _ => 1⟩, [("b", right)]⟩

theorem flow (T : ℝ) : FeasibleFlow env model (fun _ => prob) T path vel := by
  have key : ∀ t ∈ Set.Ico 0 T, WellSized env prob (update env model (vecOf (path t))) ∧
      ∃ qp, problemQP env model prob (update env model (vecOf (path t))) = .ok qp ∧ Feasible qp (vel t).get := by
    intro t ht
    obtain ⟨J, h1, h2, h3, h4⟩ := right_rate t
    obtain ⟨V0, a1, a2, a3⟩ := right_value (vecOf (path t))
    have hpos := Real.exp_pos (-t)
    have hle : Real.exp (-t) ≤ 1 := Real.exp_le_one_iff.2 (by have := ht.1; linarith)
    refine single_barrier (j := right) trivial h1 a1 (by rw [a2]; rfl) (by rw [h2, a2]) h3 ?_ ?_ ?_
    · intro hz
      have : rowDot J 0 (vel t).get = 0 := by
        unfold rowDot
        exact sum_eq_zero fun k hk => by rw [hz 0 (by omega) k (mem_range.1 hk), zero_mul]
      linarith
    · intro i _
      show -1 ≤ (if i = 0 then - Real.exp (-t) else 0) ∧ (if i = 0 then - Real.exp (-t) else 0) ≤ 1
      split <;> constructor <;> linarith
    · intro i hi
      obtain rfl : i = 0 := by omega
      rw [h4, a3]
      show - ((1 : ℝ) * 1 * Real.exp (-t)) ≤ _
      linarith
  exact ⟨moves T, fun _ _ => rfl, fun t ht => (key t ht).1, fun t ht => (key t ht).2⟩

/-- All hypotheses of `C88_robot_safe_partial` hold for this motion. -/
example (T : ℝ) : ∀ t ∈ Set.Icc 0 T, ∃ V, evalValue env right (update env model (vecOf (path t))) = .ok V ∧ V.len = 1 ∧ ∀ i < V.len, 0 ≤ V.get i := by
  obtain ⟨V0, a1, a2, a3⟩ := right_value (vecOf (path 0))
  have h := C88_robot_safe_partial (j := right) simulates robot (jacrevR_exact rfl) trivial trivial (fun y hy => hy.le) (flow T)
    (fun _ _ => ⟨"b", List.mem_singleton.2 rfl⟩) (fun _ _ k hk h => (Bool.false_ne_true ((noAngular k hk).symm.trans h)).elim) a1
    (fun i hi => by
      obtain rfl : i = 0 := by omega
      show (0 : ℝ) ≤ 1 * 1
      norm_num)
    (fun i hi => by
      obtain rfl : i = 0 := by omega
      rw [a3]
      exact (Real.exp_pos _).le)
  rw [a2] at h
  exact h

/-- So do those of `C88_robot_rate_partial`. -/
example (T : ℝ) : ∀ t ∈ Set.Icc 0 T, ∃ V, evalValue env right (update env model (vecOf (path t))) = .ok V ∧ V.len = 1 := by
  obtain ⟨V0, a1, a2, a3⟩ := right_value (vecOf (path 0))
  intro t ht
  obtain ⟨V, h1, h2, -⟩ := C88_robot_rate_partial (j := right) simulates robot (jacrevR_exact rfl) trivial trivial rfl (flow T)
    (fun _ _ => ⟨"b", List.mem_singleton.2 rfl⟩) (fun _ _ k hk h => (Bool.false_ne_true ((noAngular k hk).symm.trans h)).elim) a1 t ht
  exact ⟨V, h1, by rw [h2, a2]⟩

/-- Bring the slider to the origin. -/
noncomputable def centre : JaxComp ℝ where
  model := model
  dim := 1
  vectorGain := ⟨[1], fun _ => 1⟩
  gainFn := id
  maskIdxs := [0]
  kind := .positionTask (Arr.scalar 1) 0 1 .body (Arr.zeros 1)

theorem centre_value (q : Vec ℝ) : ∃ V, evalValue env centre (update env model q) = .ok V ∧ V.len = 1 ∧ V.get 0 = q.get 0 := by
  refine ⟨_, rfl, rfl, ?_⟩
  show (bodyPose geometry model q.get 1).trans 0 - 0 = _
  rw [slider_pose, sub_zero]
  rfl

/-- All hypotheses of `C88_robot_task_partial` hold for this motion. -/
example (T : ℝ) : ∀ t ∈ Set.Icc 0 T, ∃ V, evalValue env centre (update env model (vecOf (path t))) = .ok V ∧ V.len = 1 ∧
    ∀ i < V.len, V.get i = Real.exp (- (1 * t)) * Real.exp (-0) := by
  obtain ⟨V0, a1, a2, a3⟩ := centre_value (vecOf (path 0))
  have h := C88_robot_task_partial (j := centre) simulates robot (jacrevR_exact rfl) trivial rfl (moves T) a1 (fun t _ => by
    obtain ⟨V1, b1, b2, b3⟩ := centre_value (vecOf (path t))
    obtain ⟨J, hJ, h⟩ := C78_robot_partial (j := centre) simulates robot (jacrevR_exact rfl) trivial (x := path t) (unit _) b1
    refine ⟨⟨J, V1, ⟨1, fun _ => 1⟩, id⟩, ?_, ?_⟩
    · show evaluate env centre (update env model (vecOf (path t))) = _
      have hJ' : evalJacobian env centre (update env model (vecOf (path t))) = .ok J := hJ
      unfold evaluate
      simp only [bind, Except.bind, hJ', b1]
      rfl
    · intro i hi
      obtain rfl : i = 0 := by omega
      obtain ⟨V, v1, v2⟩ := h (vel t) (fun k hk h => (Bool.false_ne_true ((noAngular k hk).symm.trans h)).elim)
      have h1 := v2 0 (by omega)
      have e : (fun s => (V s).get 0) = fun s => Real.exp (-t) + s * - Real.exp (-t) := by
        funext s
        obtain ⟨W, w1, -, w3⟩ := centre_value (integrate env model (vecOf (path t)) (vel t) s)
        rw [show V s = W from Except.ok.inj ((v1 s).symm.trans w1), w3]
        rfl
      rw [e] at h1
      have h2 := ((hasDerivAt_id (0 : ℝ)).mul_const (- Real.exp (-t))).const_add (Real.exp (-t))
      have h3 := h1.unique h2
      show rowDot J 0 (vel t).get + 1 * V1.get 0 = 0
      rw [h3, b3]
      show 1 * - Real.exp (-t) + 1 * Real.exp (-t) = 0
      ring) (fun _ _ k hk h => (Bool.false_ne_true ((noAngular k hk).symm.trans h)).elim)
  intro t ht
  obtain ⟨V, h1, h2, h3⟩ := h t ht
  refine ⟨V, h1, h2.trans a2, fun i hi => ?_⟩
  have h4 := h3 i hi
  obtain rfl : i = 0 := by omega
  rw [a3] at h4
  exact h4

/-- All hypotheses of `C78_robot` hold. -/
example (t : ℝ) : ∃ J, evalJacobian env centre (update env model (vecOf (path t))) = .ok J := by
  obtain ⟨V0, a1, -⟩ := centre_value (vecOf (path t))
  obtain ⟨J, h, -⟩ := C78_robot (j := centre) simulates robot (jacrevR_exact rfl) trivial (x := path t) (unit _) a1
  exact ⟨J, h⟩

/-- … and of `C110_position_partial`. -/
example (t : ℝ) : ∃ J rows, evalJacobian env centre (update env model (vecOf (path t))) = .ok J ∧
    frameJacobianWorld model (update env model (vecOf (path t))) 1 .body = .ok rows ∧ ∀ k < 2, J.get 0 k = (rows.getD k (0, 0)).1 0 := by
  obtain ⟨J, h, rows, h1, -, h2⟩ := C110_position_partial (j := centre) simulates robot (jacrevR_exact rfl) (i := 1) rfl (b := 1) rfl (by decide)
    (.inr (.inr rfl)) noAngular (x := path t) (unit _)
  obtain ⟨h3, h4⟩ := h2 0 (by decide)
  exact ⟨J, rows, h, h1, h4⟩

end Beads

end Mjinx.Props
