import Verif.Props.EnergyFlow
import Verif.Props.RunningRobotEx

/-!
# C119 on the rail of C108
-/

namespace Mjinx.Props
open Spec Finset

namespace Railcar

/-- Bring both joints to zero, damped with `L`, and the slider to the origin. -/
noncomputable def posture (L : ℝ) : NewComp ℝ := .jointTask ⟨"posture", Arr.scalar 1, Arr.scalar 1, none, L, none⟩ none
noncomputable def home (L : ℝ) : NewComp ℝ := .positionTask ⟨"home", Arr.scalar 1, Arr.scalar 1, none, L, some ⟨[3], fun i => if i = [0] then 1 else 0⟩⟩ "slider" .body

noncomputable def rest : List (Op ℝ) :=
  [.newProblem Beads.model (Arr.scalar (-2)) (Arr.scalar 2), .add 0 0, .add 0 1, .comp 0 (.updateTarget ⟨[2], fun _ => 0⟩)]

noncomputable def setup (L : ℝ) : List (Op ℝ) := .newComp (posture L) :: .newComp (home L) :: rest

noncomputable def first (L : ℝ) : Comp ℝ := Comp.fresh ⟨"posture", none, Arr.scalar 1, id, -1, none, [], .jointTask ⟨Arr.scalar 1, L⟩ none none none⟩
noncomputable def second (L : ℝ) : Comp ℝ := Comp.fresh ⟨"home", none, Arr.scalar 1, id, 1, some [1, 0, 0], [0], .positionTask ⟨Arr.scalar 1, L⟩ ⟨"slider", .body, -1⟩ (Arr.zeros 1)⟩

theorem args_ok {L : ℝ} (h : 0 ≤ L) : initTaskA (Arr.scalar 1 : Arr ℝ) L = .ok ⟨Arr.scalar 1, L⟩ := by
  rw [initTaskA, if_neg (not_lt.2 h)]; rfl

theorem posture_ok {L : ℝ} (h : 0 ≤ L) : (posture L).run = .ok (first L) := by
  show newJointTask _ _ = _
  simp only [newJointTask, bind, Except.bind, args_ok h]
  rfl

theorem home_ok {L : ℝ} (h : 0 ≤ L) : (home L).run = .ok (second L) := by
  show newPositionTask _ _ _ = _
  simp only [newPositionTask, bind, Except.bind, args_ok h]
  rfl

noncomputable def start (L : ℝ) : World ℝ := ⟨[first L, second L], []⟩

theorem run_setup {L : ℝ} (h : 0 ≤ L) : run World.init (setup L) = run (start L) rest := by
  have h1 : (step World.init (.newComp (posture L))).2 = ⟨[first L], []⟩ := by simp only [step, posture_ok h]; rfl
  have h2 : (step (⟨[first L], []⟩ : World ℝ) (.newComp (home L))).2 = start L := by simp only [step, home_ok h]; rfl
  show run (step (step World.init (.newComp (posture L))).2 (.newComp (home L))).2 rest = _
  rw [h1, h2]

theorem clean {L : ℝ} (h : 0 ≤ L) : CleanProgram World.init (setup L) := by
  have h1 : (step World.init (.newComp (posture L))).2 = ⟨[first L], []⟩ := by simp only [step, posture_ok h]; rfl
  have h2 : (step (⟨[first L], []⟩ : World ℝ) (.newComp (home L))).2 = start L := by simp only [step, home_ok h]; rfl
  refine ⟨trivial, ?_⟩
  rw [h1]
  refine ⟨trivial, ?_⟩
  rw [h2]
  refine ⟨trivial, ?_, ?_, trivial, trivial⟩
  all_goals intro e h; cases h

/-- The compiled tasks. -/
noncomputable def first' (L : ℝ) : JaxComp ℝ where
  model := Beads.model
  dim := 2
  vectorGain := Arr.onesMul 2 (Arr.scalar 1)
  gainFn := id
  maskIdxs := [0, 1]
  kind := .jointTask (Arr.eyeMul 2 (Arr.scalar 1)) L ⟨[2], fun _ => 0⟩ [0, 1]

noncomputable def second' (L : ℝ) : JaxComp ℝ where
  model := Beads.model
  dim := 1
  vectorGain := Arr.onesMul 1 (Arr.scalar 1)
  gainFn := id
  maskIdxs := [0]
  kind := .positionTask (Arr.eyeMul 1 (Arr.scalar 1)) L 1 .body (Arr.zeros 1)

/-- The compiled problem. -/
noncomputable def prob (L : ℝ) : JaxProblem ℝ :=
  ⟨Beads.model, Arr.onesMul 2 (Arr.scalar (-2)), Arr.onesMul 2 (Arr.scalar 2), [("posture", first' L), ("home", second' L)]⟩

theorem compiled {L : ℝ} (h : 0 ≤ L) : (step (run World.init (setup L)) (.compile 0)).1 = .ok (.compiled (prob L)) := by
  rw [run_setup h]
  rfl

theorem first_value (L : ℝ) (x : Fin 2 → ℝ) : ∃ V, evalValue Beads.env (first' L) (update Beads.env Beads.model (vecOf x)) = .ok V ∧ V.len = 2 ∧
    ∀ i < 2, V.get i = (vecOf x).get i := by
  have hq := sim_qpos Beads.simulates Beads.robot.addr (x := x) (Beads.unit _)
  refine ⟨⟨2, fun i => ((vecOf x).gather [0, 1]).get i - 0⟩, ?_, rfl, ?_⟩
  · unfold evalValue
    exact (congrArg (fun z : Vec ℝ => subVec (z.gather [0, 1]) ⟨2, fun _ => 0⟩) hq).trans rfl
  · intro i hi
    interval_cases i <;> (show _ - (0 : ℝ) = _; rw [sub_zero]; rfl)

theorem first_jacobian (L : ℝ) (d : MjData ℝ) : ∃ J, evalJacobian Beads.env (first' L) d = .ok J ∧ J.rows = 2 ∧ J.cols = 2 ∧ ∀ v : Nat → ℝ, ∀ i < 2, rowDot J i v = v i := by
  refine ⟨_, rfl, rfl, rfl, ?_⟩
  intro v i hi
  show ∑ k ∈ range 2, _ = _
  rw [sum_range_succ, sum_range_one]
  interval_cases i
  · show (1 : ℝ) * v 0 + 0 * v 1 = v 0; ring
  · show (0 : ℝ) * v 0 + 1 * v 1 = v 1; ring

theorem second_value (L : ℝ) (q : Vec ℝ) : ∃ V, evalValue Beads.env (second' L) (update Beads.env Beads.model q) = .ok V ∧ V.len = 1 ∧ V.get 0 = q.get 0 := by
  refine ⟨_, rfl, rfl, ?_⟩
  show (bodyPose Beads.geometry Beads.model q.get 1).trans 0 - 0 = _
  rw [Beads.slider_pose, sub_zero]
  rfl

theorem second_jacobian (L : ℝ) (x : Fin 2 → ℝ) : ∃ J, evalJacobian Beads.env (second' L) (update Beads.env Beads.model (vecOf x)) = .ok J ∧ J.rows = 1 ∧ J.cols = 2 ∧
    ∀ v : Vec ℝ, rowDot J 0 v.get = v.get 0 := by
  obtain ⟨V0, a1, a2, a3⟩ := second_value L (vecOf x)
  obtain ⟨J, hJ, h⟩ := C78_robot_partial (j := second' L) Beads.simulates Beads.robot (jacrevR_exact rfl) trivial (x := x) (Beads.unit _) a1
  refine ⟨J, hJ, ?_, ?_, fun v => ?_⟩
  · cases hJ; rfl
  · cases hJ; rfl
  · obtain ⟨V, v1, v2⟩ := h v (fun k hk h => (Bool.false_ne_true ((Beads.noAngular k hk).symm.trans h)).elim)
    have h1 := v2 0 (by omega)
    have e : (fun s => (V s).get 0) = fun s => (vecOf x).get 0 + s * v.get 0 := by
      funext s
      obtain ⟨W, w1, -, w3⟩ := second_value L (integrate Beads.env Beads.model (vecOf x) v s)
      rw [show V s = W from Except.ok.inj ((v1 s).symm.trans w1), w3]
      rfl
    rw [e] at h1
    have h2 := ((hasDerivAt_id (0 : ℝ)).mul_const (v.get 0)).const_add ((vecOf x).get 0)
    have h3 := h1.unique h2
    rw [one_mul] at h3
    exact h3

/-- What the solver sees. -/
theorem seen (L : ℝ) (x : Fin 2 → ℝ) : ∃ e1 e2 W1 W2, ((prob L).comps.map Prod.snd).mapM (solverComp Beads.env (update Beads.env Beads.model (vecOf x))) =
      .ok [.task e1 W1 L, .task e2 W2 L] ∧ CompShaped 2 (.task e1 W1 L) ∧ CompShaped 2 (.task e2 W2 L) ∧ e1.jac.rows = 2 ∧ e2.jac.rows = 1 ∧
      (∀ v : Vec ℝ, (∀ r < 2, residual W1 e1 v.get r = v.get r + (vecOf x).get r) ∧ residual W2 e2 v.get 0 = v.get 0 + (vecOf x).get 0) := by
  obtain ⟨V1, a1, a2, a3⟩ := first_value L x
  obtain ⟨J1, b1, b2, b3, b4⟩ := first_jacobian L (update Beads.env Beads.model (vecOf x))
  obtain ⟨V2, c1, c2, c3⟩ := second_value L (vecOf x)
  obtain ⟨J2, d1, d2, d3, d4⟩ := second_jacobian L x
  have k1 : solverComp Beads.env (update Beads.env Beads.model (vecOf x)) (first' L) =
      .ok (.task ⟨J1, V1, ⟨2, fun _ => 1 * 1⟩, id⟩ ⟨2, 2, fun i k => (if i = k then 1 else 0) * 1⟩ L) := by
    unfold solverComp evaluate
    simp only [bind, Except.bind, a1, b1]
    rfl
  have k2 : solverComp Beads.env (update Beads.env Beads.model (vecOf x)) (second' L) =
      .ok (.task ⟨J2, V2, ⟨1, fun _ => 1 * 1⟩, id⟩ ⟨1, 1, fun i k => (if i = k then 1 else 0) * 1⟩ L) := by
    unfold solverComp evaluate
    simp only [bind, Except.bind, c1, d1]
    rfl
  refine ⟨⟨J1, V1, ⟨2, fun _ => 1 * 1⟩, id⟩, ⟨J2, V2, ⟨1, fun _ => 1 * 1⟩, id⟩, ⟨2, 2, fun i k => (if i = k then 1 else 0) * 1⟩, ⟨1, 1, fun i k => (if i = k then 1 else 0) * 1⟩,
    ?_, ⟨⟨b3, a2.trans b2.symm, b2.symm⟩, b2.symm, b2.symm⟩, ⟨⟨d3, c2.trans d2.symm, d2.symm⟩, d2.symm, d2.symm⟩, b2, d2, ?_⟩
  · show [first' L, second' L].mapM _ = _
    simp only [List.mapM_cons, List.mapM_nil, bind, Except.bind, k1, k2]
    rfl
  · intro v
    constructor
    · intro r hr
      unfold Spec.residual gained
      dsimp only
      rw [b2]
      simp only [mul_one, ite_mul, one_mul, zero_mul, Finset.sum_ite_eq, mem_range, hr, if_true, b4 v.get r hr, id, a3 r hr]
    · unfold Spec.residual gained
      dsimp only
      rw [d2, sum_range_one, d4 v, c3]
      simp

theorem sized (L : ℝ) (x : Fin 2 → ℝ) : WellSized Beads.env (prob L) (update Beads.env Beads.model (vecOf x)) := by
  intro vMin vMax cs h1 h2 h3
  obtain ⟨e1, e2, W1, W2, k1, k2, k3, -⟩ := seen L x
  obtain rfl := Except.ok.inj (k1.symm.trans h3)
  cases h1; cases h2
  refine ⟨rfl, rfl, fun c hc => ?_⟩
  rcases List.mem_cons.1 hc with rfl | hc
  · exact k2
  · obtain rfl := List.mem_singleton.1 hc
    exact k3

/-- The quadratic program can be assembled, standing still is feasible, and for `L = 0` moving with minus the joint positions is optimal. -/
theorem solved (L : ℝ) (x : Fin 2 → ℝ) (hx : ∀ i < 2, |(vecOf x).get i| ≤ 2) : ∃ qp, problemQP Beads.env Beads.model (prob L) (update Beads.env Beads.model (vecOf x)) = .ok qp ∧
    Feasible qp (fun _ => 0) ∧ (L = 0 → Optimal qp fun i => - (vecOf x).get i) := by
  obtain ⟨e1, e2, W1, W2, k1, k2, k3, k4, k5, k6⟩ := seen L x
  have hs := sized L x ⟨2, fun _ => 1 * -2⟩ ⟨2, fun _ => 1 * 2⟩ _ rfl rfl k1
  obtain ⟨qp, hqp⟩ := (C31_finite_partial hs).1.2 (by
    intro e s d hc
    simp at hc)
  have hq : problemQP Beads.env Beads.model (prob L) (update Beads.env Beads.model (vecOf x)) = .ok qp := by
    unfold problemQP
    simp only [bind, Except.bind, k1]
    exact hqp
  have hf := feasible_iff hs (form_of_ok hs hqp)
  have hr : ∀ v : Nat → ℝ, ∀ c ∈ [SolverComp.task e1 W1 L, .task e2 W2 L], Respects v c := by
    intro v c hc
    fin_cases hc <;> trivial
  refine ⟨qp, hq, (hf _).2 ⟨fun i _ => ?_, hr _⟩, fun h0 => ⟨(hf _).2 ⟨fun i hi => ?_, hr _⟩, fun u _ => ?_⟩⟩
  · show - (1 * 2 : ℝ) ≤ 0 ∧ (0 : ℝ) ≤ - (1 * -2)
    norm_num
  · have := abs_le.1 (hx i hi)
    show - (1 * 2 : ℝ) ≤ - (vecOf x).get i ∧ - (vecOf x).get i ≤ - (1 * -2)
    constructor <;> linarith
  · rw [C25_objective hs hqp, C25_objective hs hqp]
    subst h0
    obtain ⟨m1, m2⟩ := k6 ⟨2, fun i => - (vecOf x).get i⟩
    have z : (([SolverComp.task e1 W1 0, .task e2 W2 0] : List (SolverComp ℝ)).map (cost 2 fun i => - (vecOf x).get i)).sum = 0 := by
      simp only [List.map_cons, List.map_nil, List.sum_cons, List.sum_nil, cost, zero_mul, zero_div, add_zero]
      unfold sqNorm
      rw [k4, k5, sum_range_succ, sum_range_one, sum_range_one]
      have n1 := m1 0 (by norm_num)
      have n2 := m1 1 (by norm_num)
      dsimp only at n1 n2 m2
      rw [n1, n2, m2]
      ring
    have nn : 0 ≤ (([SolverComp.task e1 W1 0, .task e2 W2 0] : List (SolverComp ℝ)).map (cost 2 u)).sum := by
      simp only [List.map_cons, List.map_nil, List.sum_cons, List.sum_nil, cost, zero_mul, zero_div, add_zero]
      have := sqNorm_nn e1.jac.rows (Spec.residual W1 e1 u)
      have := sqNorm_nn e2.jac.rows (Spec.residual W2 e2 u)
      positivity
    have nv : Beads.model.nv = 2 := rfl
    show _ - _ ≤ _ - _
    refine sub_le_sub_right ?_ _
    exact z.le.trans nn

theorem path_le {t : ℝ} (ht : 0 ≤ t) : ∀ i < 2, |(vecOf (Beads.path t)).get i| ≤ 2 := by
  intro i hi
  have hpos := Real.exp_pos (-t)
  have hle : Real.exp (-t) ≤ 1 := Real.exp_le_one_iff.2 (by linarith)
  interval_cases i
  · show |Real.exp (-t)| ≤ 2
    rw [abs_of_pos hpos]; linarith
  · show |(0 : ℝ)| ≤ 2
    simp

theorem vecOf_out {n : Nat} (x : Fin n → ℝ) {i : Nat} (h : n ≤ i) : (vecOf x).get i = 0 := dif_neg (Nat.not_lt.2 h)

theorem path_vel (t : ℝ) : (fun i => - (vecOf (Beads.path t)).get i) = (Beads.vel t).get := by
  funext i
  match i with
  | 0 => rfl
  | 1 => show - (0 : ℝ) = 0; simp
  | i + 2 =>
    have h : (vecOf (Beads.path t)).get (i + 2) = 0 := vecOf_out (Beads.path t) (Nat.le_add_left 2 i)
    rw [h]
    show - (0 : ℝ) = 0
    simp

theorem flow (T : ℝ) : OptimalFlow Beads.env Beads.model (prob 0) T Beads.path Beads.vel where
  toMovesWith := Beads.moves T
  model := fun _ _ => rfl
  sized := fun t _ => sized 0 (Beads.path t)
  feasible := fun t ht => by
    obtain ⟨qp, h1, -, h3⟩ := solved 0 (Beads.path t) (path_le ht.1)
    have : Optimal _ (fun i => - (vecOf (n := Beads.model.nq) (Beads.path t)).get i) := h3 rfl
    rw [path_vel] at this
    exact ⟨qp, h1, this.1⟩
  optimal := fun t ht qp hqp => by
    obtain ⟨qp', h1, -, h3⟩ := solved 0 (Beads.path t) (path_le ht.1)
    obtain rfl := Except.ok.inj (h1.symm.trans hqp)
    have : Optimal _ (fun i => - (vecOf (n := Beads.model.nq) (Beads.path t)).get i) := h3 rfl
    rw [path_vel] at this
    exact this
  still := fun t ht qp hqp => by
    obtain ⟨qp', h1, h2, -⟩ := solved 0 (Beads.path t) (path_le ht.1)
    obtain rfl := Except.ok.inj (h1.symm.trans hqp)
    exact h2

end Railcar

open Railcar in
/-- All hypotheses of `C119_solution` hold, and its conclusions apply: with damping `L` the solver's velocity has at most the speed `1 / (2 √L)` wherever a joint is
not at zero. -/
example {L : ℝ} (hL : 0 ≤ L) {osqp : QPSolver ℝ Unit} (ho : Exact osqp) (x : Fin 2 → ℝ) (hx : (vecOf x).get 0 ≠ 0) {s s' : LocalIKData ℝ} {sol : LocalIKSolution ℝ Unit}
    (h : localSolve Beads.env osqp Beads.model ⟨[2], fun i => (vecOf x).get (i.headD 0)⟩ s (prob L) = .ok (sol, s')) :
    4 * (L * (sol.vOpt.get 0 ^ 2 + sol.vOpt.get 1 ^ 2)) ≤ 1 := by
  obtain ⟨P, ts, hP, hts, hd⟩ := C119_solution (setup L) (compiled hL) ho (q := ⟨[2], fun i => (vecOf x).get (i.headD 0)⟩) (sized L x) h
  have hts' := hts
  rw [run_setup hL] at hP hts
  cases hP
  cases hts with
  | @cons _ t1 _ ts h1 hts =>
  cases hts with
  | @cons _ t2 _ ts h2 hts =>
  cases hts
  obtain ⟨c1, a1, a2, j1, a3, a4, a5⟩ := h1
  obtain ⟨c2, b1, b2, j2, b3, b4, b5⟩ := h2
  cases a1; cases b1
  have ej1 : j1 = first' L := by
    rcases List.mem_cons.1 a3 with e | e
    · exact (Prod.mk.inj e).2
    · have := (Prod.mk.inj (List.mem_singleton.1 e)).1
      exact absurd (show ("posture" : String) = "home" from this) (by decide)
  subst ej1
  have hk1 : ∃ fm tq qi, t1.attrs.kind = .jointTask ⟨Arr.scalar 1, L⟩ fm tq qi := ⟨_, _, _, by rw [a2]; rfl⟩
  have hg1 : t1.attrs.gain = Arr.scalar 1 ∧ t1.attrs.gainFn = id := by rw [a2]; exact ⟨rfl, rfl⟩
  have hk2 : ∃ o tp, t2.attrs.kind = .positionTask ⟨Arr.scalar 1, L⟩ o tp := ⟨_, _, by rw [b2]; rfl⟩
  obtain ⟨fm, tq, qi, hk1⟩ := hk1
  obtain ⟨o, tp, hk2⟩ := hk2
  obtain ⟨V1, e1, e2, e3⟩ := first_value L x
  obtain ⟨J1, f1, f2, f3, f4⟩ := first_jacobian L (update Beads.env Beads.model (vecOf x))
  have eV : t1.value = V1 := Except.ok.inj (a5.symm.trans e1)
  have eJ : t1.jac = J1 := Except.ok.inj (a4.symm.trans f1)
  have h0 := (hd ⟨fun i _ => by
      show - (1 * 2 : ℝ) ≤ 0 ∧ (0 : ℝ) ≤ - (1 * -2)
      norm_num, fun t ht => by
      fin_cases ht
      · show t1.Allows _; unfold Term.Allows; rw [hk1]; trivial
      · show t2.Allows _; unfold Term.Allows; rw [hk2]; trivial⟩).1 L (fun t ht => by
      fin_cases ht
      · show t1.DampedBy L; unfold Term.DampedBy; rw [hk1]
      · show t2.DampedBy L; unfold Term.DampedBy; rw [hk2]) ⟨t1, by simp, by
      unfold Term.Unmet; rw [hk1]
      refine ⟨0, by rw [eJ, f2]; norm_num, ?_⟩
      unfold Term.misfit Term.rate
      rw [eJ, eV, f2, hg1.1, hg1.2, sum_range_succ, sum_range_one, f4 _ 0 (by norm_num), f4 _ 1 (by norm_num), e3 0 (by norm_num), e3 1 (by norm_num)]
      show (1 : ℝ) * (0 + 1 * (vecOf x).get 0) + 0 * (0 + 1 * (vecOf x).get 1) ≠ 0
      simpa using hx⟩
  have e : sqNorm Beads.model.nv sol.vOpt.get = sol.vOpt.get 0 ^ 2 + sol.vOpt.get 1 ^ 2 := by
    show ∑ i ∈ range 2, _ = _
    rw [sum_range_succ, sum_range_one]
  rw [← e]
  exact h0

open Railcar in
/-- All hypotheses of `C119_energy` hold for this motion. -/
example (T : ℝ) : AntitoneOn (fun t => energy Beads.env (prob 0) (vecOf (Beads.path t))) (Set.Icc 0 T) := by
  refine C119_energy (clean le_rfl) (compiled le_rfl) Beads.simulates Beads.robot (jacrevR_exact rfl) ?_ ?_ (flow T)
    (fun _ _ k hk h => (Bool.false_ne_true ((Beads.noAngular k hk).symm.trans h)).elim)
  · intro nj h
    fin_cases h <;> rfl
  · intro nj h
    fin_cases h <;> exact ⟨le_rfl, rfl, fun _ _ _ _ => rfl⟩

end Mjinx.Props
