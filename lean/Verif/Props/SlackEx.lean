import Verif.Props.Slack
import Verif.Props.TeamsEx

/-!
# C126 on the carts of C123, with a joint barrier far away
-/

namespace Mjinx.Props
open Spec Finset

namespace Yard
open Carts

/-- Keep both carts within 10 of the origin. -/
noncomputable def fence : NewComp ℝ := .jointBarrier ⟨"fence", Arr.scalar 1, none, 0⟩ (some (Arr.onesMul 2 (Arr.scalar (-10)))) (some (Arr.onesMul 2 (Arr.scalar 10))) none

/-- The first problem has both tasks, the second one also the barrier and wider velocity limits. -/
noncomputable def rest : List (Op ℝ) :=
  [.newComp fence, .newProblem model (Arr.scalar (-2)) (Arr.scalar 2), .newProblem model (Arr.scalar (-3)) (Arr.scalar 3), .add 0 0, .add 0 1, .add 1 0, .add 1 1, .add 1 2]

noncomputable def setup : List (Op ℝ) := .newComp right :: .newComp (left 0) :: rest

theorem run_setup : run World.init setup = run ⟨[first 0 "right" [0, 1], first 0 "left" [1, 0]], []⟩ rest := by
  have h1 : (step World.init (.newComp right)).2 = ⟨[first 0 "right" [0, 1]], []⟩ := by simp only [step, right_ok]; rfl
  have h2 : (step (⟨[first 0 "right" [0, 1]], []⟩ : World ℝ) (.newComp (left 0))).2 = ⟨[first 0 "right" [0, 1], first 0 "left" [1, 0]], []⟩ := by
    simp only [step, left_ok le_rfl]; rfl
  show run (step (step World.init (.newComp right)).2 (.newComp (left 0))).2 rest = _
  rw [h1, h2]

/-- The compiled barrier. -/
noncomputable def guard : JaxComp ℝ where
  model := model
  dim := 4
  vectorGain := Arr.onesMul 4 (Arr.scalar 1)
  gainFn := id
  maskIdxs := [0, 1]
  kind := .jointBarrier 0 (Arr.onesMul 2 (Arr.scalar (-10))) (Arr.onesMul 2 (Arr.scalar 10)) [0, 1]

noncomputable def wide : JaxProblem ℝ :=
  ⟨model, Arr.onesMul 2 (Arr.scalar (-3)), Arr.onesMul 2 (Arr.scalar 3), [("right", task 0 1), ("left", task 0 0), ("fence", guard)]⟩

theorem compiled : (step (run World.init setup) (.compile 0)).1 = .ok (.compiled (prob [("right", task 0 1), ("left", task 0 0)])) := by
  rw [run_setup]; rfl

theorem compiled_wide : (step (run World.init setup) (.compile 1)).1 = .ok (.compiled wide) := by
  rw [run_setup]; rfl

theorem value (x : Fin 2 → ℝ) : ∃ V, evalValue env guard (update env model (vecOf x)) = .ok V ∧ V.len = 4 ∧
    V.get 0 = x 0 + 10 ∧ V.get 1 = x 1 + 10 ∧ V.get 2 = 10 - x 0 ∧ V.get 3 = 10 - x 1 := by
  have hq := sim_qpos simulates robot.addr (x := x) (unit _)
  have e : evalValue env guard (update env model (vecOf x)) =
      boundsValue ((vecOf x).gather [0, 1]) ⟨2, fun _ => 1 * -10⟩ ⟨2, fun _ => 1 * 10⟩ :=
    congrArg (fun z : Vec ℝ => boundsValue (z.gather [0, 1]) ⟨2, fun _ => 1 * -10⟩ ⟨2, fun _ => 1 * 10⟩) hq
  refine ⟨_, e.trans rfl, rfl, ?_, ?_, ?_, ?_⟩
  · show x 0 - 1 * -10 = _; ring
  · show x 1 - 1 * -10 = _; ring
  · show 1 * 10 - x 0 = _; ring
  · show 1 * 10 - x 1 = _; ring

theorem jacobian (d : MjData ℝ) : ∃ J, evalJacobian env guard d = .ok J ∧ J.rows = 4 ∧ J.cols = 2 ∧
    ∀ v : Nat → ℝ, rowDot J 0 v = v 0 ∧ rowDot J 1 v = v 1 ∧ rowDot J 2 v = - v 0 ∧ rowDot J 3 v = - v 1 := by
  refine ⟨_, rfl, rfl, rfl, fun v => ⟨?_, ?_, ?_, ?_⟩⟩
  all_goals
    show ∑ k ∈ range 2, _ = _
    rw [sum_range_succ, sum_range_one]
  · show (1 : ℝ) * v 0 + 0 * v 1 = v 0; ring
  · show (0 : ℝ) * v 0 + 1 * v 1 = v 1; ring
  · show -(1 : ℝ) * v 0 + -0 * v 1 = - v 0; ring
  · show -(0 : ℝ) * v 0 + -1 * v 1 = - v 1; ring

theorem sized_wide (x : Fin 2 → ℝ) : WellSized env wide (update env model (vecOf x)) := by
  intro vMin vMax ss h1 h2 h3
  cases h1; cases h2
  refine ⟨rfl, rfl, fun c hc => ?_⟩
  obtain ⟨j, hj, hs⟩ := (mapM_mem h3).2.1 c hc
  have hj : j ∈ [task 0 1, task 0 0, guard] := hj
  rcases List.mem_cons.1 hj with rfl | hj
  · exact seen 0 x (by norm_num) hs
  rcases List.mem_cons.1 hj with rfl | hj
  · exact seen 0 x (by norm_num) hs
  obtain rfl := List.mem_singleton.1 hj
  obtain ⟨V, a1, a2, -⟩ := value x
  obtain ⟨J, b1, b2, b3, -⟩ := jacobian (update env model (vecOf x))
  have k : solverComp env (update env model (vecOf x)) guard = .ok (.barrier ⟨J, V, ⟨4, fun _ => 1 * 1⟩, id⟩ 0 (Vec.zero 2)) := by
    unfold solverComp evaluate
    simp only [bind, Except.bind, a1, b1]
    rfl
  obtain rfl := Except.ok.inj (k.symm.trans hs)
  exact ⟨⟨b3, a2.trans b2.symm, b2.symm⟩, rfl⟩

/-- What the barrier asks of a velocity. -/
noncomputable def wall (J : Mat ℝ) (V : Vec ℝ) : Term ℝ where
  attrs := ⟨"fence", some model, Arr.scalar 1, id, 4, some [1, 1], [0, 1],
    .jointBarrier 0 none (some (Arr.onesMul 2 (Arr.scalar (-10)))) (some (Arr.onesMul 2 (Arr.scalar 10))) (some [0, 1])⟩
  jac := J
  value := V

/-- Everything at the configuration `x`. -/
theorem terms (x : Fin 2 → ℝ) : ∃ P P' : Prob ℝ, (run World.init setup).probs[0]? = some P ∧ (run World.init setup).probs[1]? = some P' ∧
    P'.comps = P.comps ++ [("fence", 2)] ∧ P.comps.length = 2 ∧ P.model = model ∧ P'.model = model ∧
    (P.vMin = Arr.onesMul 2 (Arr.scalar (-2)) ∧ P.vMax = Arr.onesMul 2 (Arr.scalar 2)) ∧ (P'.vMin = Arr.onesMul 2 (Arr.scalar (-3)) ∧ P'.vMax = Arr.onesMul 2 (Arr.scalar 3)) ∧
    ∃ J1 V1 J2 V2 J3 V3, J1.rows = 1 ∧ J2.rows = 1 ∧ J3.rows = 4 ∧ (∀ v : Nat → ℝ, rowDot J1 0 v = v 1) ∧ (∀ v : Nat → ℝ, rowDot J2 0 v = v 0) ∧
      (∀ v : Nat → ℝ, rowDot J3 0 v = v 0 ∧ rowDot J3 1 v = v 1 ∧ rowDot J3 2 v = - v 0 ∧ rowDot J3 3 v = - v 1) ∧ V1.get 0 = x 1 ∧ V2.get 0 = x 0 ∧
      (V3.get 0 = x 0 + 10 ∧ V3.get 1 = x 1 + 10 ∧ V3.get 2 = 10 - x 0 ∧ V3.get 3 = 10 - x 1) ∧
      TermsOf (run World.init setup) P' wide env (update env model (vecOf x)) ([term 0 "right" [0, 1] 1 J1 V1, term 0 "left" [1, 0] 0 J2 V2] ++ [wall J3 V3]) := by
  obtain ⟨V1, a1, -, a2⟩ := Carts.value 0 x (i := 1) (by norm_num)
  obtain ⟨V2, b1, -, b2⟩ := Carts.value 0 x (i := 0) (by norm_num)
  obtain ⟨V3, x1, -, x2⟩ := value x
  obtain ⟨J1, c1, c2, -, c3⟩ := Carts.jacobian 0 (update env model (vecOf x)) (i := 1) (by norm_num)
  obtain ⟨J2, d1, d2, -, d3⟩ := Carts.jacobian 0 (update env model (vecOf x)) (i := 0) (by norm_num)
  obtain ⟨J3, y1, y2, -, y3⟩ := jacobian (update env model (vecOf x))
  rw [run_setup]
  refine ⟨_, _, rfl, rfl, rfl, rfl, rfl, rfl, ⟨rfl, rfl⟩, ⟨rfl, rfl⟩, J1, V1, J2, V2, J3, V3, c2, d2, y2, c3, d3, y3, a2, b2, x2, ?_⟩
  exact .cons ⟨_, rfl, rfl, _, List.mem_cons_self, c1, a1⟩ (.cons ⟨_, rfl, rfl, _, List.mem_cons_of_mem _ List.mem_cons_self, d1, b1⟩
    (.cons ⟨_, rfl, rfl, _, List.mem_cons_of_mem _ (List.mem_cons_of_mem _ List.mem_cons_self), y1, x1⟩ .nil))

/-- The two tasks of both problems. -/
noncomputable def pair (J1 : Mat ℝ) (V1 : Vec ℝ) (J2 : Mat ℝ) (V2 : Vec ℝ) : List (Term ℝ) := [term 0 "right" [0, 1] 1 J1 V1, term 0 "left" [1, 0] 0 J2 V2]

section
variable {J1 J2 J3 : Mat ℝ} {V1 V2 V3 : Vec ℝ} {x : Fin 2 → ℝ} {vMin vMax : Arr ℝ}

theorem braking : ∀ t ∈ pair J1 V1 J2 V2, t.Braking := by
  intro t ht
  fin_cases ht <;> exact le_refl (0 : ℝ)

theorem watched (r1 : J1.rows = 1) (r2 : J2.rows = 1) (d1 : ∀ v : Nat → ℝ, rowDot J1 0 v = v 1) (d2 : ∀ v : Nat → ℝ, rowDot J2 0 v = v 0) : Watched 2 (pair J1 V1 J2 V2) := by
  intro u hu i hi
  have one : ∀ {n f k J V}, J.rows = 1 → (∀ v : Nat → ℝ, rowDot J 0 v = v k) → (term 0 n f k J V).weighted (Arr.scalar 1) u 0 = u k := by
    intro n f k J V h1 h2
    show ∑ r ∈ range J.rows, weightAt (Arr.scalar 1) 0 r * rowDot J r u = _
    rw [h1, sum_range_one, h2]
    show (1 : ℝ) * _ = _
    ring
  interval_cases i
  · exact (one r2 d2).symm.trans (hu _ (List.mem_cons_of_mem _ List.mem_cons_self) 0 (by show 0 < J2.rows; omega))
  · exact (one r1 d1).symm.trans (hu _ List.mem_cons_self 0 (by show 0 < J1.rows; omega))

theorem all (e4 : vMin = Arr.onesMul 2 (Arr.scalar (-2))) (e5 : vMax = Arr.onesMul 2 (Arr.scalar 2)) (v : Nat → ℝ) :
    Allowed 2 vMin vMax (pair J1 V1 J2 V2) v ↔ ∀ i < 2, -2 ≤ v i ∧ v i ≤ 2 := by
  have hb : ∀ i, - vMax.get [i] = -2 ∧ - vMin.get [i] = 2 := by
    intro i
    rw [e4, e5]
    show - (1 * 2 : ℝ) = -2 ∧ - (1 * -2 : ℝ) = 2
    norm_num
  unfold Allowed
  simp only [(hb _).1, (hb _).2]
  exact ⟨fun h => h.1, fun h => ⟨h, fun t ht => by fin_cases ht <;> trivial⟩⟩

/-- Within 1 of the targets, the best velocity is the one that both tasks ask for. -/
theorem best (hx : ∀ i, |x i| ≤ 1) (e4 : vMin = Arr.onesMul 2 (Arr.scalar (-2))) (e5 : vMax = Arr.onesMul 2 (Arr.scalar 2)) (r1 : J1.rows = 1) (r2 : J2.rows = 1)
    (d1 : ∀ v : Nat → ℝ, rowDot J1 0 v = v 1) (d2 : ∀ v : Nat → ℝ, rowDot J2 0 v = v 0) (v1 : V1.get 0 = x 1) (v2 : V2.get 0 = x 0)
    {v : Nat → ℝ} (hb : Best 2 vMin vMax (pair J1 V1 J2 V2) v) : v 0 = - x 0 ∧ v 1 = - x 1 := by
  have a0 := abs_le.1 (hx 0)
  have a1 := abs_le.1 (hx 1)
  have price : ∀ v : Nat → ℝ, totalPrice 2 (pair J1 V1 J2 V2) v = ((v 0 + x 0) ^ 2 + (v 1 + x 1) ^ 2) / 2 := by
    intro v
    show (term 0 "right" [0, 1] 1 J1 V1).price 2 v + ((term 0 "left" [1, 0] 0 J2 V2).price 2 v + 0) = _
    rw [term_price r1 d1 v1, term_price r2 d2 v2]; ring
  have goal : ((v 0 + x 0) ^ 2 + (v 1 + x 1) ^ 2) / 2 ≤ 0 := by
    have := hb.2 (fun i => if i = 0 then - x 0 else - x 1) (by
      refine (all e4 e5 _).2 fun i _ => ?_
      split <;> constructor <;> linarith)
    rw [price, price] at this
    simpa using this
  constructor
  · have : (v 0 + x 0) ^ 2 = 0 := le_antisymm (by nlinarith [sq_nonneg (v 1 + x 1)]) (sq_nonneg _)
    have := pow_eq_zero_iff (two_ne_zero) |>.1 this
    linarith
  · have : (v 1 + x 1) ^ 2 = 0 := le_antisymm (by nlinarith [sq_nonneg (v 0 + x 0)]) (sq_nonneg _)
    have := pow_eq_zero_iff (two_ne_zero) |>.1 this
    linarith

theorem limiting : ∀ t ∈ [wall J3 V3], t.Limiting := by
  intro t ht
  obtain rfl := List.mem_singleton.1 ht
  exact rfl

/-- That velocity does not touch the barrier. -/
theorem spare (hx : ∀ i, |x i| ≤ 1) (r3 : J3.rows = 4) (d3 : ∀ v : Nat → ℝ, rowDot J3 0 v = v 0 ∧ rowDot J3 1 v = v 1 ∧ rowDot J3 2 v = - v 0 ∧ rowDot J3 3 v = - v 1)
    (v3 : V3.get 0 = x 0 + 10 ∧ V3.get 1 = x 1 + 10 ∧ V3.get 2 = 10 - x 0 ∧ V3.get 3 = 10 - x 1) {v : Nat → ℝ} (s0 : v 0 = - x 0) (s1 : v 1 = - x 1) :
    ∀ r < J3.rows, - ((1 : ℝ) * V3.get r) < rowDot J3 r v := by
  have a0 := abs_le.1 (hx 0)
  have a1 := abs_le.1 (hx 1)
  intro r hr
  have hr : r < 4 := by omega
  obtain ⟨w0, w1, w2, w3⟩ := d3 v
  obtain ⟨z0, z1, z2, z3⟩ := v3
  interval_cases r
  · rw [w0, z0, s0]; linarith
  · rw [w1, z1, s1]; linarith
  · rw [w2, z2, s0]; linarith
  · rw [w3, z3, s1]; linarith

theorem clear {vMin' vMax' : Arr ℝ} (hx : ∀ i, |x i| ≤ 1) (e4 : vMin = Arr.onesMul 2 (Arr.scalar (-2))) (e5 : vMax = Arr.onesMul 2 (Arr.scalar 2))
    (e6 : vMin' = Arr.onesMul 2 (Arr.scalar (-3))) (e7 : vMax' = Arr.onesMul 2 (Arr.scalar 3)) {v : Nat → ℝ} (s0 : v 0 = - x 0) (s1 : v 1 = - x 1) :
    Clear 2 vMin vMax vMin' vMax' v ∧ Clear 2 vMin' vMax' vMin vMax v := by
  have a0 := abs_le.1 (hx 0)
  have a1 := abs_le.1 (hx 1)
  rw [e4, e5, e6, e7]
  constructor
  · intro i hi
    show ((1 * 3 : ℝ) = 1 * 2 ∨ - (1 * 2) < _ ∧ - (1 * 3) ≤ _) ∧ ((1 * -3 : ℝ) = 1 * -2 ∨ _ < - (1 * -2) ∧ _ ≤ - (1 * -3))
    interval_cases i
    · rw [s0]; exact ⟨.inr ⟨by linarith, by linarith⟩, .inr ⟨by linarith, by linarith⟩⟩
    · rw [s1]; exact ⟨.inr ⟨by linarith, by linarith⟩, .inr ⟨by linarith, by linarith⟩⟩
  · intro i hi
    show ((1 * 2 : ℝ) = 1 * 3 ∨ - (1 * 3) < _ ∧ - (1 * 2) ≤ _) ∧ ((1 * -2 : ℝ) = 1 * -3 ∨ _ < - (1 * -3) ∧ _ ≤ - (1 * -2))
    interval_cases i
    · rw [s0]; exact ⟨.inr ⟨by linarith, by linarith⟩, .inr ⟨by linarith, by linarith⟩⟩
    · rw [s1]; exact ⟨.inr ⟨by linarith, by linarith⟩, .inr ⟨by linarith, by linarith⟩⟩

end

theorem sized_narrow (x : Fin 2 → ℝ) : WellSized env (prob [("right", task 0 1), ("left", task 0 0)]) (update env model (vecOf x)) :=
  sized x (by
    intro nj hnj
    rcases List.mem_cons.1 hnj with rfl | hnj
    · exact ⟨0, 1, by norm_num, rfl⟩
    · obtain rfl := List.mem_singleton.1 hnj
      exact ⟨0, 0, by norm_num, rfl⟩)

theorem solved {I : Type} (osqp : QPSolver ℝ I) (x : Fin 2 → ℝ) (s : LocalIKData ℝ) {J : JaxProblem ℝ} {vMin vMax : Vec ℝ} {ss : List (SolverComp ℝ)} (hm : J.model = model)
    (h1 : J.vMin.toVec = .ok vMin) (h2 : J.vMax.toVec = .ok vMax) (h3 : (J.comps.map Prod.snd).mapM (solverComp env (update env model (vecOf x))) = .ok ss)
    (hz : WellSized env J (update env model (vecOf x))) (hj : ∀ e s d, SolverComp.barrier e s d ∈ ss → ¬ ZeroMat e.jac) :
    ∃ r, localSolve env osqp model (vecOf x).toArr s J = .ok r := by
  have hs := hz _ _ _ h1 h2 h3
  obtain ⟨qp, hqp⟩ := (C31_finite_partial hs).1.2 hj
  have hq : localSolveFromData env osqp model J s (update env model (vecOf x)) = .ok (⟨(osqp qp).1, (osqp qp).2⟩, ⟨(osqp qp).1⟩) := by
    unfold localSolveFromData solveFromData
    simp only [bind, Except.bind, h1, h2, h3]
    rw [← hm, hqp]
    rfl
  refine ⟨(⟨(osqp qp).1, (osqp qp).2⟩, ⟨(osqp qp).1⟩), ?_⟩
  unfold localSolve solve
  rw [if_neg (by intro h; exact h rfl)]
  exact hq

theorem solves {I : Type} (osqp : QPSolver ℝ I) (x : Fin 2 → ℝ) (s : LocalIKData ℝ) :
    (∃ r, localSolve env osqp model (vecOf x).toArr s (prob [("right", task 0 1), ("left", task 0 0)]) = .ok r) ∧ ∃ r, localSolve env osqp model (vecOf x).toArr s wide = .ok r := by
  obtain ⟨V1, a1, -, -⟩ := Carts.value 0 x (i := 1) (by norm_num)
  obtain ⟨V2, b1, -, -⟩ := Carts.value 0 x (i := 0) (by norm_num)
  obtain ⟨V3, x1, -, -⟩ := value x
  obtain ⟨J1, c1, -, -, -⟩ := Carts.jacobian 0 (update env model (vecOf x)) (i := 1) (by norm_num)
  obtain ⟨J2, d1, -, -, -⟩ := Carts.jacobian 0 (update env model (vecOf x)) (i := 0) (by norm_num)
  obtain ⟨J3, y1, y2, y3, y4⟩ := jacobian (update env model (vecOf x))
  have k : ∀ {i J V}, evalValue env (task 0 i) (update env model (vecOf x)) = .ok V → evalJacobian env (task 0 i) (update env model (vecOf x)) = .ok J →
      solverComp env (update env model (vecOf x)) (task 0 i) = .ok (.task ⟨J, V, ⟨1, fun _ => 1 * 1⟩, id⟩ ⟨1, 1, fun i k => (if i = k then 1 else 0) * 1⟩ 0) := by
    intro i J V a1 b1
    unfold solverComp evaluate
    simp only [bind, Except.bind, a1, b1]
    rfl
  have k3 : solverComp env (update env model (vecOf x)) guard = .ok (.barrier ⟨J3, V3, ⟨4, fun _ => 1 * 1⟩, id⟩ 0 (Vec.zero 2)) := by
    unfold solverComp evaluate
    simp only [bind, Except.bind, x1, y1]
    rfl
  constructor
  · refine solved osqp x s rfl rfl rfl (ss := [.task ⟨J1, V1, ⟨1, fun _ => 1 * 1⟩, id⟩ ⟨1, 1, fun i k => (if i = k then 1 else 0) * 1⟩ 0,
      .task ⟨J2, V2, ⟨1, fun _ => 1 * 1⟩, id⟩ ⟨1, 1, fun i k => (if i = k then 1 else 0) * 1⟩ 0]) ?_ (sized_narrow x) ?_
    · show [task 0 1, task 0 0].mapM _ = _
      simp only [List.mapM_cons, List.mapM_nil, bind, Except.bind, k a1 c1, k b1 d1]
      rfl
    · intro e s d hc
      simp at hc
  · refine solved osqp x s rfl rfl rfl (ss := [.task ⟨J1, V1, ⟨1, fun _ => 1 * 1⟩, id⟩ ⟨1, 1, fun i k => (if i = k then 1 else 0) * 1⟩ 0,
      .task ⟨J2, V2, ⟨1, fun _ => 1 * 1⟩, id⟩ ⟨1, 1, fun i k => (if i = k then 1 else 0) * 1⟩ 0, .barrier ⟨J3, V3, ⟨4, fun _ => 1 * 1⟩, id⟩ 0 (Vec.zero 2)]) ?_ (sized_wide x) ?_
    · show [task 0 1, task 0 0, guard].mapM _ = _
      simp only [List.mapM_cons, List.mapM_nil, bind, Except.bind, k a1 c1, k b1 d1, k3]
      rfl
    · intro e s d hc
      simp at hc
      obtain ⟨rfl, -, -⟩ := hc
      intro hzero
      have h0 := (y4 fun _ => 1).1
      have : rowDot J3 0 (fun _ => (1 : ℝ)) = 0 := by
        refine sum_eq_zero fun j hj => ?_
        rw [hzero 0 (by show 0 < J3.rows; omega) j (mem_range.1 hj), zero_mul]
      rw [this] at h0
      norm_num at h0

theorem roomy {I : Type} (osqp : QPSolver ℝ I) {x : Fin 2 → ℝ} (hx : ∀ i, |x i| ≤ 1) : Roomy env osqp model 0 1 (run World.init setup) (vecOf x) := by
  intro J J' hJ hJ'
  rw [compiled] at hJ
  rw [compiled_wide] at hJ'
  cases hJ; cases hJ'
  refine ⟨rfl, ⟨sized_narrow x, sized_wide x⟩, solves osqp x, fun P P' ts extra hP hP' k1 k2 => ?_⟩
  obtain ⟨Q, Q', hQ, hQ', e1, el, e2, e3, ⟨e4, e5⟩, ⟨e6, e7⟩, J1, V1, J2, V2, J3, V3, r1, r2, r3, d1, d2, d3, v1, v2, v3, t1⟩ := Yard.terms x
  rw [hP] at hQ; cases hQ
  rw [hP'] at hQ'; cases hQ'
  have hpair := terms_unique (by decide) k2 t1
  have hlen : ts.length = 2 := (List.Forall₂.length_eq k1).symm.trans el
  obtain ⟨rfl, rfl⟩ := List.append_inj hpair (by rw [hlen]; rfl)
  refine ⟨⟨fun _ => 0, (all e4 e5 _).2 fun i _ => by norm_num⟩, braking, watched r1 r2 d1 d2, limiting, fun v hv => ?_⟩
  obtain ⟨s0, s1⟩ := best hx e4 e5 r1 r2 d1 d2 v1 v2 hv
  refine ⟨(clear hx e4 e5 e6 e7 s0 s1).1, fun t ht => ?_⟩
  obtain rfl := List.mem_singleton.1 ht
  exact fun r hr => (spare hx r3 d3 v3 s0 s1 r hr).le

/-- The velocity found for the first problem. -/
theorem found {I : Type} {osqp : QPSolver ℝ I} (ho : Exact osqp) {x : Fin 2 → ℝ} (hx : ∀ i, |x i| ≤ 1) {s₀ s₁ : LocalIKData ℝ} {sol : LocalIKSolution ℝ I}
    (h : localSolve env osqp model (vecOf x).toArr s₀ (prob [("right", task 0 1), ("left", task 0 0)]) = .ok (sol, s₁)) :
    sol.vOpt.get 0 = - x 0 ∧ sol.vOpt.get 1 = - x 1 := by
  obtain ⟨P, P', hP, hP', e1, el, e2, e3, ⟨e4, e5⟩, -, J1, V1, J2, V2, J3, V3, r1, r2, r3, d1, d2, d3, v1, v2, v3, t1⟩ := Yard.terms x
  obtain ⟨s', r', h'⟩ : ∃ s' r', localSolve env osqp model (vecOf x).toArr s₀ wide = .ok (s', r') := by
    obtain ⟨⟨a, b⟩, h⟩ := (solves osqp x s₀).2
    exact ⟨a, b, h⟩
  obtain ⟨ts, extra, k1, k2, -⟩ := C126_program setup hP hP' e1 (e3.trans e2.symm) compiled compiled_wide ho (q := (vecOf x).toArr)
    (by rw [e2]; exact sized_narrow x) (by rw [e2]; exact sized_wide x) (by rw [e2]; exact h) (by rw [e2]; exact h')
  rw [e2] at k1 k2
  have hpair := terms_unique (by decide) k2 t1
  have hlen : ts.length = 2 := (List.Forall₂.length_eq k1).symm.trans el
  obtain ⟨rfl, rfl⟩ := List.append_inj hpair (by rw [hlen]; rfl)
  obtain ⟨P1, ts1, g1, g2, g3⟩ := C91_real_solution setup compiled ho (q := (vecOf x).toArr) (sized_narrow x) h
  rw [hP] at g1; cases g1
  obtain rfl := terms_unique (by decide) g2 k1
  have b := g3 (by rw [e2]; exact ⟨fun _ => 0, (all e4 e5 _).2 fun i _ => by norm_num⟩)
  rw [e2] at b
  exact best hx e4 e5 r1 r2 d1 d2 v1 v2 b

/-- The carts stay within 1 of their targets, so there is always room. -/
theorem everyTick {I : Type} {osqp : QPSolver ℝ I} (ho : Exact osqp) {dt : ℝ} (h0 : 0 ≤ dt) (h1 : dt ≤ 1) (k : Nat) : ∀ S : Robot ℝ, ReachableW S.world →
    (step S.world (.compile 0)).1 = .ok (.compiled (prob [("right", task 0 1), ("left", task 0 0)])) → (∃ x : Fin 2 → ℝ, (∀ i, |x i| ≤ 1) ∧ S.q = vecOf x) →
    AtEveryTick env osqp model 0 dt (fun S => Roomy env osqp model 0 1 (run World.init setup) S.q) S (List.replicate k .tick) := by
  induction k with
  | zero => intros; trivial
  | succ k ih =>
    rintro ⟨w, q, d⟩ hr hc ⟨x, hx, hq⟩
    dsimp only at hr hc hq
    subst hq
    refine ⟨fun _ => roomy osqp hx, ?_⟩
    obtain ⟨⟨sol, d'⟩, hs⟩ := (solves osqp x d).1
    obtain ⟨s0, s1⟩ := found ho hx hs
    have t : controlStep env osqp model 0 dt ⟨w, vecOf x, d⟩ .tick = ⟨(step w (.compile 0)).2, integrate env model (vecOf x) sol.vOpt dt, d'⟩ := by
      simp only [controlStep]
      cases hst : step w (.compile 0) with
      | mk r w1 =>
        rw [hst] at hc
        dsimp only at hc
        subst hc
        simp only [hs]
    rw [t]
    obtain ⟨o, rfl⟩ := hr
    refine ih _ ⟨o ++ [.compile 0], by rw [run_append]; rfl⟩ ((C02_compile_twice ⟨o, rfl⟩ 0).1.trans hc)
      ⟨fun k : Fin 2 => (integrate env model (vecOf x) sol.vOpt dt).get k, fun i => ?_, integrate_vecOf (m := model) (q := vecOf x) robot.addr rfl _ _⟩
    have shrink : ∀ y : ℝ, |y| ≤ 1 → |y + dt * - y| ≤ 1 := by
      intro y hy
      rw [show y + dt * - y = (1 - dt) * y by ring, abs_mul, abs_of_nonneg (by linarith : 0 ≤ 1 - dt)]
      nlinarith [abs_nonneg y]
    fin_cases i
    · show |x 0 + dt * sol.vOpt.get 0| ≤ 1
      rw [s0]; exact shrink _ (hx 0)
    · show |x 1 + dt * sol.vOpt.get 1| ≤ 1
      rw [s1]; exact shrink _ (hx 1)

end Yard

open Carts Yard in
/-- Both directions of `C126_program`: with the carts within 1 of the origin, the barrier at 10 and the wider velocity limits change nothing. -/
example {osqp : QPSolver ℝ Unit} (ho : Exact osqp) {x : Fin 2 → ℝ} (hx : ∀ i, |x i| ≤ 1) {s₀ s₁ s₀' s₁' : LocalIKData ℝ} {sol sol' : LocalIKSolution ℝ Unit}
    (h : localSolve env osqp model (vecOf x).toArr s₀ (prob [("right", task 0 1), ("left", task 0 0)]) = .ok (sol, s₁))
    (h' : localSolve env osqp model (vecOf x).toArr s₀' wide = .ok (sol', s₁')) :
    (∀ i < 2, sol'.vOpt.get i = sol.vOpt.get i) ∧ sol.vOpt.get 0 = - x 0 ∧ sol.vOpt.get 1 = - x 1 := by
  obtain ⟨P, P', hP, hP', e1, el, e2, e3, ⟨e4, e5⟩, ⟨e6, e7⟩, J1, V1, J2, V2, J3, V3, r1, r2, r3, d1, d2, d3, v1, v2, v3, t1⟩ := Yard.terms x
  obtain ⟨ts, extra, k1, k2, k⟩ := C126_program setup hP hP' e1 (e3.trans e2.symm) compiled compiled_wide ho (q := (vecOf x).toArr)
    (by rw [e2]; exact sized_narrow x) (by rw [e2]; exact sized_wide x) (by rw [e2]; exact h) (by rw [e2]; exact h')
  rw [e2] at k1 k2 k
  have hpair := terms_unique (by decide) k2 t1
  have hlen : ts.length = 2 := (List.Forall₂.length_eq k1).symm.trans el
  obtain ⟨rfl, rfl⟩ := List.append_inj hpair (by rw [hlen]; rfl)
  have hw : Watched 2 (pair J1 V1 J2 V2) := watched r1 r2 d1 d2
  obtain ⟨s0, s1⟩ := found ho hx h
  -- from the first problem to the second one
  obtain ⟨hb', hs⟩ := (k braking limiting).1 ⟨fun _ => 0, (all e4 e5 _).2 fun i _ => by norm_num⟩ (clear hx e4 e5 e6 e7 s0 s1).1 (by
    intro t ht
    obtain rfl := List.mem_singleton.1 ht
    exact fun r hr => (spare hx r3 d3 v3 s0 s1 r hr).le)
  -- and back
  have s0' := (hs hw 0 (by show 0 < 2; norm_num)).trans s0
  have s1' := (hs hw 1 (by show 1 < 2; norm_num)).trans s1
  refine ⟨((k braking limiting).2 ⟨_, hb'.1⟩ (clear hx e4 e5 e6 e7 s0' s1').2 ?_).2 hw, s0, s1⟩
  intro t ht
  obtain rfl := List.mem_singleton.1 ht
  exact spare hx r3 d3 v3 s0' s1'

open Carts Yard in
/-- `C126_loop`: starting within 1 of the targets, the carts go through the same configurations with and without the barrier and the wider limits. -/
example {I : Type} {osqp : QPSolver ℝ I} (ho : Exact osqp) {x : Fin 2 → ℝ} (hx : ∀ i, |x i| ≤ 1) {dt : ℝ} (h0 : 0 ≤ dt) (h1 : dt ≤ 1) (s0 s0' : LocalIKData ℝ) (k : Nat) :
    (Spec.control env osqp model 1 dt ⟨run World.init setup, vecOf x, s0'⟩ (List.replicate k .tick)).q =
      (Spec.control env osqp model 0 dt ⟨run World.init setup, vecOf x, s0⟩ (List.replicate k .tick)).q := by
  obtain ⟨P, P', hP, hP', e1, -, e2, e3, -⟩ := Yard.terms x
  exact C126_loop ho robot.addr setup hP hP' e1 (e3.trans e2.symm) compiled compiled_wide dt _ s0 s0' k (everyTick ho h0 h1 k _ ⟨_, rfl⟩ compiled ⟨x, hx, rfl⟩)

end Mjinx.Props
