import Verif.Props.Optimum

/-!
# C82–C86: uniqueness, attainment, scaling, optimality conditions and additivity
-/

set_option linter.unusedSectionVars false

namespace Mjinx.Props
open Spec Finset
variable {K : Type} [Field K] [LinearOrder K] [IsStrictOrderedRing K]

/-- Quadratic form of the cost matrix, component by component. -/
theorem quad_sum {n : Nat} {vMin vMax : Vec K} {comps : List (SolverComp K)} {qp : QP K}
    (h : QPForm n vMin vMax comps qp) (v : Nat → K) :
    ∑ i ∈ range n, ∑ j ∈ range n, v i * qp.P.get i j * v j =
      (comps.map fun c => ∑ i ∈ range n, ∑ j ∈ range n, v i * hessOf c i j * v j).sum := by
  simp only [h.P]
  clear h
  induction comps with
  | nil => simp
  | cons c l ih =>
    simp only [List.map_cons, List.sum_cons, mul_add, add_mul, sum_add_distrib]
    rw [← ih]

theorem rowDot_mid (A : Mat K) (i : Nat) (u v : Nat → K) :
    rowDot A i (fun k => (u k + v k) / 2) = (rowDot A i u + rowDot A i v) / 2 := by
  unfold rowDot
  rw [← sum_add_distrib, sum_div]
  exact sum_congr rfl fun k _ => by ring

theorem rowDot_sub (A : Mat K) (i : Nat) (u v : Nat → K) :
    rowDot A i (fun k => u k - v k) = rowDot A i u - rowDot A i v := by
  unfold rowDot
  rw [← sum_sub_distrib]
  exact sum_congr rfl fun k _ => by ring

theorem feasible_mid {qp : QP K} {u v : Nat → K} (hu : Feasible qp u) (hv : Feasible qp v) :
    Feasible qp (fun k => (u k + v k) / 2) := by
  constructor
  · intro i hi; rw [rowDot_mid]; linarith [hu.ineq i hi, hv.ineq i hi]
  · intro A b hA hb i hi; rw [rowDot_mid, hu.eq A b hA hb i hi, hv.eq A b hA hb i hi]; ring

theorem objective_mid (qp : QP K) (u v : Nat → K) :
    objective qp (fun k => (u k + v k) / 2) = (objective qp u + objective qp v) / 2 -
      (∑ i ∈ range qp.P.rows, ∑ j ∈ range qp.P.cols, (u i - v i) * qp.P.get i j * (u j - v j)) / 8 := by
  have h1 : ∑ i ∈ range qp.P.rows, ∑ j ∈ range qp.P.cols, (u i + v i) / 2 * qp.P.get i j * ((u j + v j) / 2) =
      ((∑ i ∈ range qp.P.rows, ∑ j ∈ range qp.P.cols, u i * qp.P.get i j * u j) +
        ∑ i ∈ range qp.P.rows, ∑ j ∈ range qp.P.cols, v i * qp.P.get i j * v j) / 2 -
      (∑ i ∈ range qp.P.rows, ∑ j ∈ range qp.P.cols, (u i - v i) * qp.P.get i j * (u j - v j)) / 4 := by
    simp only [← sum_add_distrib, sum_div, ← sum_sub_distrib]
    exact sum_congr rfl fun i _ => sum_congr rfl fun j _ => by ring
  have h2 : ∑ i ∈ range qp.c.len, qp.c.get i * ((u i + v i) / 2) =
      ((∑ i ∈ range qp.c.len, qp.c.get i * u i) + ∑ i ∈ range qp.c.len, qp.c.get i * v i) / 2 := by
    rw [← sum_add_distrib, sum_div]
    exact sum_congr rfl fun i _ => by ring
  unfold objective
  rw [h1, h2]; ring

/-- Two optima have the same quadratic part: the form of their difference is not positive. -/
theorem quad_of_optimal {qp : QP K} {u v : Nat → K} (hu : Optimal qp u) (hv : Optimal qp v) :
    ∑ i ∈ range qp.P.rows, ∑ j ∈ range qp.P.cols, (u i - v i) * qp.P.get i j * (u j - v j) ≤ 0 := by
  have h1 := hu.2 _ (feasible_mid hu.1 hv.1)
  have h2 := hv.2 _ (feasible_mid hu.1 hv.1)
  rw [objective_mid] at h1 h2
  linarith

theorem sqNorm_nonneg (n : Nat) (v : Nat → K) : 0 ≤ sqNorm n v := sum_nonneg fun _ _ => sq_nonneg _

theorem sqNorm_zero {n : Nat} {v : Nat → K} (h : sqNorm n v = 0) : ∀ i < n, v i = 0 := by
  intro i hi
  have := (sum_eq_zero_iff_of_nonneg fun i _ => sq_nonneg (v i)).mp h i (mem_range.mpr hi)
  exact pow_eq_zero_iff (two_ne_zero) |>.mp this

theorem weightedRate_eq {n} (W : Mat K) {e : Evaluated K} (h : Shaped n e) (v : Nat → K) (r : Nat) :
    weightedRate W e v r = wjv n W e v r := by
  unfold weightedRate wjv wj rowDot
  rw [h.cols]
  simp only [mul_sum, sum_mul]
  rw [sum_comm]
  exact sum_congr rfl fun _ _ => sum_congr rfl fun _ _ => by ring

/-- If the quadratic form vanishes at `v` then so does every component's. -/
theorem quad_parts {n : Nat} {vMin vMax : Vec K} {comps : List (SolverComp K)} {qp : QP K}
    (h : QPForm n vMin vMax comps qp) (hg : ∀ c ∈ comps, NonnegGains c) {v : Nat → K}
    (hz : ∑ i ∈ range n, ∑ j ∈ range n, v i * qp.P.get i j * v j ≤ 0) :
    ∀ c ∈ comps, ∑ i ∈ range n, ∑ j ∈ range n, v i * hessOf c i j * v j = 0 := by
  intro c hc
  refine le_antisymm ?_ (compObj_quad_nonneg (hg c hc) v)
  rw [quad_sum h] at hz
  refine le_trans ?_ hz
  apply List.single_le_sum
  · intro x hx
    obtain ⟨c, hc, rfl⟩ := List.mem_map.mp hx
    exact compObj_quad_nonneg (hg c hc) v
  · exact List.mem_map_of_mem hc

theorem quad_task {n : Nat} {e : Evaluated K} {W : Mat K} {lm : K} (hs : CompShaped n (.task e W lm)) (hl : 0 ≤ lm) {v : Nat → K}
    (hz : ∑ i ∈ range n, ∑ j ∈ range n, v i * hessOf (.task e W lm) i j * v j = 0) :
    (∀ r < e.jac.rows, weightedRate W e v r = 0) ∧
      lm * sqNorm e.jac.rows (residual W e fun _ => 0) * sqNorm n v = 0 := by
  simp only [hessOf, mul_add, add_mul, sum_add_distrib, quad_sq, quad_diag] at hz
  have e1 : ∑ r ∈ range e.jac.rows, we W e r * we W e r = sqNorm e.jac.rows (residual W e fun _ => 0) := by
    unfold sqNorm; simp only [residual_zero W hs.1]; exact sum_congr rfl fun _ _ => by ring
  rw [e1] at hz
  have h1 : 0 ≤ sqNorm e.jac.rows (wjv n W e v) := sqNorm_nonneg _ _
  have h2 : 0 ≤ lm * sqNorm e.jac.rows (residual W e fun _ => 0) * sqNorm n v :=
    mul_nonneg (mul_nonneg hl (sqNorm_nonneg _ _)) (sqNorm_nonneg _ _)
  have hz' : sqNorm e.jac.rows (wjv n W e v) + lm * sqNorm e.jac.rows (residual W e fun _ => 0) * sqNorm n v = 0 := hz
  refine ⟨fun r hr => ?_, by linarith⟩
  rw [weightedRate_eq W hs.1]
  exact sqNorm_zero (by linarith) r hr

/-- **C82.** If something in the objective pins every coordinate (`Spec.Curved`), the optimal velocity is
unique. -/
theorem C82_unique {n : Nat} {vMin vMax : Vec K} {comps : List (SolverComp K)} {qp : QP K}
    (hs : ProblemShaped n vMin vMax comps) (hg : ∀ c ∈ comps, NonnegGains c) (hc : Curved n comps)
    (hq : computeQP n n vMin vMax comps = .ok qp) {u v : Nat → K} (hu : Optimal qp u) (hv : Optimal qp v) :
    ∀ i < n, u i = v i := by
  have h := form_of_ok hs hq
  have hz := quad_of_optimal hu hv
  rw [h.prows, h.pcols] at hz
  have hp := quad_parts h hg (v := fun i => u i - v i) hz
  suffices hd : ∀ i < n, u i - v i = 0 from fun i hi => sub_eq_zero.mp (hd i hi)
  rcases hc with ⟨e, s, d, hm, hpos⟩ | ⟨e, W, lm, hm, hpos, r, hr, hne⟩ | hker
  · have h1 := hp _ hm
    simp only [hessOf, quad_diag] at h1
    have hn : e.jac.normSq ≠ 0 := by
      intro h0
      rw [computeQP_bad hs ⟨_, hm, h0⟩] at hq; cases hq
    rcases mul_eq_zero.mp h1 with h2 | h2
    · rcases div_eq_zero_iff.mp h2 with h3 | h3
      · exact absurd h3 hpos.ne'
      · exact absurd h3 hn
    · exact sqNorm_zero h2
  · have h1 := (quad_task (hs.comps _ hm) hpos.le (hp _ hm)).2
    rcases mul_eq_zero.mp h1 with h2 | h2
    · rcases mul_eq_zero.mp h2 with h3 | h3
      · exact absurd h3 hpos.ne'
      · exact absurd (sqNorm_zero h3 r hr) hne
    · exact sqNorm_zero h2
  · refine hker _ (fun e W lm hm => (quad_task (hs.comps _ hm) (hg _ hm) (hp _ hm)).1) (fun e a W hm r hr => ?_)
    have h1 := hp _ hm
    simp only [hessOf, quad_sq, Bool.false_eq_true, if_false] at h1
    rw [weightedRate_eq W (hs.comps _ hm).1]
    exact sqNorm_zero h1 r hr

/-- **C82 (directions the objective sees).** Without any such assumption two optimal velocities still have
the same weighted rate for every task and soft constraint. -/
theorem C82_same_rates {n : Nat} {vMin vMax : Vec K} {comps : List (SolverComp K)} {qp : QP K}
    (hs : ProblemShaped n vMin vMax comps) (hg : ∀ c ∈ comps, NonnegGains c)
    (hq : computeQP n n vMin vMax comps = .ok qp) {u v : Nat → K} (hu : Optimal qp u) (hv : Optimal qp v) :
    (∀ e W lm, SolverComp.task e W lm ∈ comps → ∀ r < e.jac.rows, weightedRate W e u r = weightedRate W e v r) ∧
    (∀ e a W, SolverComp.constraint e a false W ∈ comps → ∀ r < e.jac.rows,
      weightedRate W e u r = weightedRate W e v r) := by
  have h := form_of_ok hs hq
  have hz := quad_of_optimal hu hv
  rw [h.prows, h.pcols] at hz
  have hp := quad_parts h hg (v := fun i => u i - v i) hz
  have hsub : ∀ (W : Mat K) (e : Evaluated K) (r : Nat),
      weightedRate W e (fun i => u i - v i) r = weightedRate W e u r - weightedRate W e v r := by
    intro W e r
    unfold weightedRate
    rw [← sum_sub_distrib]
    exact sum_congr rfl fun k _ => by rw [rowDot_sub]; ring
  constructor
  · intro e W lm hm r hr
    have := (quad_task (hs.comps _ hm) (hg _ hm) (hp _ hm)).1 r hr
    rw [hsub] at this; exact sub_eq_zero.mp this
  · intro e a W hm r hr
    have h1 := hp _ hm
    simp only [hessOf, quad_sq, Bool.false_eq_true, if_false] at h1
    have : weightedRate W e (fun i => u i - v i) r = 0 := by
      rw [weightedRate_eq W (hs.comps _ hm).1]; exact sqNorm_zero h1 r hr
    rw [hsub] at this; exact sub_eq_zero.mp this

/-- The problem of `LEx` has a barrier with safe displacement gain 5. -/
example : Curved 2 LEx.comps ∧ (∀ c ∈ LEx.comps, NonnegGains c) ∧
    ∃ qp, computeQP 2 2 (LEx.lim (-1)) (LEx.lim 1) LEx.comps = .ok qp := by
  refine ⟨.inl ⟨LEx.ev 1 2, 5, Vec.zero 2, by simp [LEx.comps], by norm_num⟩, ?_, LEx.runs⟩
  intro c hc
  simp only [LEx.comps, List.mem_cons, List.not_mem_nil, or_false] at hc
  rcases hc with rfl | rfl | rfl | rfl <;> simp [NonnegGains]

/-- A task on two coordinates whose Jacobian is the identity: no damping, no barrier, trivial kernel. -/
example : Curved 2 [.task ⟨Mat.eye 2, ⟨2, fun _ => (3 : ℚ)⟩, ⟨2, fun _ => 1⟩, id⟩ (Mat.eye 2) 0] := by
  refine .inr (.inr fun v h _ i hi => ?_)
  have := h _ _ _ (List.mem_singleton.mpr rfl) i hi
  simp only [weightedRate, rowDot, Mat.eye] at this
  rw [sum_delta 2 i hi, sum_delta 2 i hi] at this
  exact this

/-- C82 needs an assumption: without any component every feasible velocity is optimal. -/
theorem C82_needs_curvature {n : Nat} {vMin vMax : Vec K} {qp : QP K} (hlo : vMin.len = n) (hhi : vMax.len = n)
    (hq : computeQP n n vMin vMax [] = .ok qp) (v : Nat → K) : Optimal qp v ↔ Feasible qp v := by
  have hs : ProblemShaped n vMin vMax [] := ⟨hlo, hhi, by simp⟩
  refine ⟨fun h => h.1, fun h => ⟨h, fun u _ => ?_⟩⟩
  rw [C25_objective hs hq, C25_objective hs hq]; simp

/-! ### C83 -/

theorem cost_meets {n : Nat} {c : SolverComp K} (hu : Undamped c) (v : Nat → K) :
    0 ≤ cost n v c ∧ (cost n v c = 0 ↔ Meets v c) := by
  cases c with
  | task e W lm =>
    have : lm = 0 := hu
    subst this
    have h := sqNorm_nonneg e.jac.rows (residual W e v)
    simp only [cost, zero_mul, zero_div, add_zero, Meets]
    refine ⟨by positivity, ⟨fun h0 => sqNorm_zero (by linarith), fun h0 => ?_⟩⟩
    have : sqNorm e.jac.rows (residual W e v) = 0 :=
      sum_eq_zero fun r hr => by rw [h0 r (mem_range.mp hr)]; ring
    rw [this]; ring
  | barrier e s d =>
    have : s = 0 := hu
    subst this
    simp [cost, Meets]
  | constraint e a hard W =>
    cases hard with
    | true => simp [cost, Meets]
    | false =>
      have h := sqNorm_nonneg e.jac.rows (residual W e v)
      simp only [cost, Bool.false_eq_true, if_false, Meets, forall_const]
      refine ⟨by positivity, ⟨fun h0 => sqNorm_zero (by linarith), fun h0 => ?_⟩⟩
      have : sqNorm e.jac.rows (residual W e v) = 0 :=
        sum_eq_zero fun r hr => by rw [h0 r (mem_range.mp hr)]; ring
      rw [this]; ring

/-- **C83.** Without damping and safe displacement gains, if one velocity within the constraints meets all
tasks and soft constraints at once, then the optimal velocities are exactly the velocities that do. -/
theorem C83_compatible_tasks {n : Nat} {vMin vMax : Vec K} {comps : List (SolverComp K)} {qp : QP K}
    (hs : ProblemShaped n vMin vMax comps) (hd : ∀ c ∈ comps, Undamped c)
    (hq : computeQP n n vMin vMax comps = .ok qp) {w : Nat → K} (hw : Feasible qp w) (hm : ∀ c ∈ comps, Meets w c)
    (v : Nat → K) : Optimal qp v ↔ Feasible qp v ∧ ∀ c ∈ comps, Meets v c := by
  have hnn : ∀ u, 0 ≤ (comps.map (cost n u)).sum := by
    intro u
    apply List.sum_nonneg; intro x hx
    obtain ⟨c, hc, rfl⟩ := List.mem_map.mp hx
    exact (cost_meets (hd c hc) u).1
  have hzero : ∀ u, (∀ c ∈ comps, Meets u c) ↔ (comps.map (cost n u)).sum = 0 := by
    intro u
    constructor
    · intro h
      apply List.sum_eq_zero; intro x hx
      obtain ⟨c, hc, rfl⟩ := List.mem_map.mp hx
      exact (cost_meets (hd c hc) u).2.2 (h c hc)
    · intro h c hc
      rw [← (cost_meets (n := n) (hd c hc) u).2]
      refine le_antisymm ?_ (cost_meets (hd c hc) u).1
      rw [← h]
      apply List.single_le_sum
      · intro x hx; obtain ⟨c, hc, rfl⟩ := List.mem_map.mp hx; exact (cost_meets (hd c hc) u).1
      · exact List.mem_map_of_mem hc
  constructor
  · intro h
    refine ⟨h.1, (hzero v).2 ?_⟩
    have := h.2 w hw
    rw [C25_objective hs hq, C25_objective hs hq, (hzero w).1 hm] at this
    linarith [hnn v]
  · rintro ⟨h1, h2⟩
    refine ⟨h1, fun u _ => ?_⟩
    rw [C25_objective hs hq, C25_objective hs hq, (hzero v).1 h2]
    linarith [hnn u]

/-- **C83 (exponential decrease).** In that situation a task whose cost matrix is not degenerate gets
`J v = -gain * gain_fn(error)` in every coordinate. -/
theorem C83_task_rate {n : Nat} {vMin vMax : Vec K} {comps : List (SolverComp K)} {qp : QP K}
    (hs : ProblemShaped n vMin vMax comps) (hd : ∀ c ∈ comps, Undamped c)
    (hq : computeQP n n vMin vMax comps = .ok qp) {w : Nat → K} (hw : Feasible qp w) (hm : ∀ c ∈ comps, Meets w c)
    {v : Nat → K} (hv : Optimal qp v) {e : Evaluated K} {W : Mat K} {lm : K} (he : SolverComp.task e W lm ∈ comps)
    (hW : Nondegenerate W e.jac.rows) :
    ∀ i < e.jac.rows, rowDot e.jac i v = - (e.gain.get i * e.gainFn (e.value.get i)) := by
  have := ((C83_compatible_tasks hs hd hq hw hm v).1 hv).2 _ he
  intro i hi
  have h0 := hW (fun k => rowDot e.jac k v + gained e k) this i hi
  unfold gained at h0
  linarith

/-- A task with error 3, cost 2 and no damping that velocity (-1, -1) meets. -/
example : ∃ qp, ProblemShaped 2 (LEx.lim (-1)) (LEx.lim 1) [.task (LEx.ev 3 1) (LEx.W1 2) 0] ∧
    computeQP 2 2 (LEx.lim (-1)) (LEx.lim 1) [.task (LEx.ev 3 1) (LEx.W1 2) 0] = .ok qp ∧
    Feasible qp (fun _ => -1) ∧ Meets (fun _ => -1) (.task (LEx.ev 3 1) (LEx.W1 2) 0) ∧
    Undamped (.task (LEx.ev 3 1) (LEx.W1 2) 0) ∧ Nondegenerate (LEx.W1 2) 1 := by
  have hs : ProblemShaped 2 (LEx.lim (-1)) (LEx.lim 1) [.task (LEx.ev 3 1) (LEx.W1 2) 0] :=
    ⟨rfl, rfl, by simp only [List.mem_singleton, forall_eq]; exact ⟨LEx.evShaped _ _, rfl, rfl⟩⟩
  obtain ⟨qp, hq, h⟩ := computeQP_form hs (by simp [badBarrier])
  refine ⟨qp, hs, hq, ?_, ?_, rfl, ?_⟩
  · rw [feasible_iff hs h]
    refine ⟨fun i _ => ?_, by simp [Respects]⟩
    show (-1 : ℚ) ≤ -1 ∧ (-1 : ℚ) ≤ - -1
    norm_num
  · intro r _
    show ∑ k ∈ range 1, (2 : ℚ) * ((∑ j ∈ range 2, (if j = 0 then 1 else 2) * -1) + 1 * 3) = 0
    simp [sum_range_succ]; norm_num
  · intro x hx k hk
    obtain rfl : k = 0 := by omega
    have := hx 0 Nat.one_pos
    simpa [LEx.W1] using this

/-! ### C84 -/

theorem cost_scale (k : K) (n : Nat) (v : Nat → K) (c : SolverComp K) :
    cost n v (scaleCost k c) = k ^ 2 * cost n v c := by
  have hres : ∀ (W : Mat K) (e : Evaluated K) (v : Nat → K) (i : Nat),
      residual (scaleMat k W) e v i = k * residual W e v i := by
    intro W e v i
    unfold Spec.residual scaleMat
    rw [mul_sum]; exact sum_congr rfl fun _ _ => by ring
  have hsq : ∀ (W : Mat K) (e : Evaluated K) (v : Nat → K),
      sqNorm e.jac.rows (residual (scaleMat k W) e v) = k ^ 2 * sqNorm e.jac.rows (residual W e v) := by
    intro W e v
    unfold sqNorm
    rw [mul_sum]; exact sum_congr rfl fun _ _ => by rw [hres]; ring
  cases c with
  | task e W lm => simp only [scaleCost, cost, hsq]; ring
  | barrier e s d => simp only [scaleCost, cost]; ring
  | constraint e a hard W =>
    cases hard with
    | true => simp [scaleCost, cost]
    | false => simp only [scaleCost, cost, hsq, Bool.false_eq_true, if_false]; ring

theorem shaped_scale {n : Nat} {vMin vMax : Vec K} {comps : List (SolverComp K)} (k : K)
    (hs : ProblemShaped n vMin vMax comps) : ProblemShaped n vMin vMax (comps.map (scaleCost k)) := by
  refine ⟨hs.vMin, hs.vMax, fun c hc => ?_⟩
  obtain ⟨c', hc', rfl⟩ := List.mem_map.mp hc
  have := hs.comps c' hc'
  cases c' <;> exact this

/-- **C84.** Only the ratio of the costs matters: multiplying all costs by the same nonzero number (and the
safe displacement gains, which are not squared, by its square) changes neither whether the problem can be
set up, nor which velocities are feasible, nor which are optimal. -/
theorem C84_relative_costs {n : Nat} {vMin vMax : Vec K} {comps : List (SolverComp K)} {qp : QP K}
    (hs : ProblemShaped n vMin vMax comps) {k : K} (hk : k ≠ 0) (hq : computeQP n n vMin vMax comps = .ok qp) :
    ∃ qp', computeQP n n vMin vMax (comps.map (scaleCost k)) = .ok qp' ∧
      (∀ v, Feasible qp' v ↔ Feasible qp v) ∧ (∀ v, objective qp' v = k ^ 2 * objective qp v) ∧
      ∀ v, Optimal qp' v ↔ Optimal qp v := by
  have hs' := shaped_scale k hs
  have hb : ∀ c ∈ comps.map (scaleCost k), ¬ badBarrier c := by
    intro c hc hbad
    obtain ⟨c', hc', rfl⟩ := List.mem_map.mp hc
    have : badBarrier c' := by cases c' <;> exact hbad
    rw [computeQP_bad hs ⟨c', hc', this⟩] at hq; cases hq
  obtain ⟨qp', hq', h'⟩ := computeQP_form hs' hb
  have hf : ∀ v, Feasible qp' v ↔ Feasible qp v := by
    intro v
    rw [feasible_iff hs' h', feasible_iff hs (form_of_ok hs hq)]
    refine and_congr_right fun _ => ?_
    simp only [List.mem_map, forall_exists_index, and_imp, forall_apply_eq_imp_iff₂]
    refine forall_congr' fun c => forall_congr' fun _ => ?_
    cases c <;> exact Iff.rfl
  have ho : ∀ v, objective qp' v = k ^ 2 * objective qp v := by
    intro v
    rw [C25_objective hs' hq', C25_objective hs hq]
    have : ∀ u, ((comps.map (scaleCost k)).map (cost n u)).sum = k ^ 2 * (comps.map (cost n u)).sum := by
      intro u
      rw [List.map_map, ← List.sum_map_mul_left]
      congr 1
      exact List.map_congr_left fun c _ => cost_scale k n u c
    rw [this, this]; ring
  refine ⟨qp', hq', hf, ho, fun v => ?_⟩
  have hpos : 0 < k ^ 2 := by positivity
  unfold Optimal
  simp only [hf, ho]
  exact and_congr_right fun _ => forall_congr' fun u => forall_congr' fun _ => mul_le_mul_iff_right₀ hpos

example : ∃ qp, computeQP 2 2 (LEx.lim (-1)) (LEx.lim 1) LEx.comps = .ok qp ∧
    ProblemShaped 2 (LEx.lim (-1)) (LEx.lim 1) LEx.comps ∧ (3 : ℚ) ≠ 0 :=
  LEx.runs.imp fun _ h => ⟨h, LEx.shaped _ _, by norm_num⟩

/-! ### C85 -/

/-- **C85.** A velocity with multipliers satisfying the KKT conditions is optimal. -/
theorem C85_kkt_optimal {n : Nat} {vMin vMax : Vec K} {comps : List (SolverComp K)} {qp : QP K}
    (hs : ProblemShaped n vMin vMax comps) (hg : ∀ c ∈ comps, NonnegGains c)
    (hq : computeQP n n vMin vMax comps = .ok qp) {v y z : Nat → K} (hk : KKT qp v y z) : Optimal qp v := by
  have h := form_of_ok hs hq
  obtain ⟨hsym, hpsd⟩ := C24_convex hs hg hq
  refine ⟨hk.primal, fun u hu => ?_⟩
  have hgrad := hk.gradient
  rw [h.prows, h.pcols] at hgrad
  -- objective difference
  have hdiff : objective qp u - objective qp v =
      (∑ i ∈ range n, ∑ j ∈ range n, (u i - v i) * qp.P.get i j * (u j - v j)) / 2 +
      ∑ i ∈ range n, ((∑ j ∈ range n, qp.P.get i j * v j) + qp.c.get i) * (u i - v i) := by
    have hsw : ∑ i ∈ range n, ∑ j ∈ range n, v i * qp.P.get i j * u j =
        ∑ i ∈ range n, ∑ j ∈ range n, u i * qp.P.get i j * v j := by
      rw [sum_comm]
      exact sum_congr rfl fun i _ => sum_congr rfl fun j _ => by rw [hsym j i]; ring
    have e1 : ∑ i ∈ range n, ∑ j ∈ range n, (u i - v i) * qp.P.get i j * (u j - v j) =
        (∑ i ∈ range n, ∑ j ∈ range n, u i * qp.P.get i j * u j) -
        (∑ i ∈ range n, ∑ j ∈ range n, u i * qp.P.get i j * v j) -
        (∑ i ∈ range n, ∑ j ∈ range n, v i * qp.P.get i j * u j) +
        ∑ i ∈ range n, ∑ j ∈ range n, v i * qp.P.get i j * v j := by
      simp only [← sum_sub_distrib, ← sum_add_distrib]
      exact sum_congr rfl fun i _ => sum_congr rfl fun j _ => by ring
    have e2 : ∑ i ∈ range n, ((∑ j ∈ range n, qp.P.get i j * v j) + qp.c.get i) * (u i - v i) =
        (∑ i ∈ range n, ∑ j ∈ range n, u i * qp.P.get i j * v j) -
        (∑ i ∈ range n, ∑ j ∈ range n, v i * qp.P.get i j * v j) +
        ((∑ i ∈ range n, qp.c.get i * u i) - ∑ i ∈ range n, qp.c.get i * v i) := by
      simp only [← sum_sub_distrib, ← sum_add_distrib]
      refine sum_congr rfl fun i _ => ?_
      rw [add_mul, sum_mul]
      congr 1
      · exact sum_congr rfl fun j _ => by ring
      · ring
    unfold objective
    rw [h.prows, h.pcols, h.clen, e1, e2, hsw]; ring
  -- multipliers
  have hG : ∑ i ∈ range n, (∑ r ∈ range qp.G.rows, qp.G.get r i * z r) * (u i - v i) =
      ∑ r ∈ range qp.G.rows, z r * (rowDot qp.G r u - rowDot qp.G r v) := by
    simp only [← rowDot_sub]
    unfold rowDot
    rw [h.gcols]
    simp only [sum_mul, mul_sum]
    rw [sum_comm]
    exact sum_congr rfl fun i _ => sum_congr rfl fun j _ => by ring
  have hGle : ∑ r ∈ range qp.G.rows, z r * (rowDot qp.G r u - rowDot qp.G r v) ≤ 0 := by
    refine sum_nonpos fun r hr => ?_
    have hr := mem_range.mp hr
    have h1 := hk.slack r hr
    have h2 := mul_le_mul_of_nonneg_left (hu.ineq r hr) (hk.dual r hr)
    linarith
  have hA : ∑ i ∈ range n, eqPart qp y i * (u i - v i) = 0 := by
    rcases h.A with ⟨-, h2, -⟩ | ⟨A, b, h1, h2, -, h4, -⟩
    · simp [eqPart, h2]
    · simp only [eqPart, h1]
      have : ∑ i ∈ range n, (∑ r ∈ range A.rows, A.get r i * y r) * (u i - v i) =
          ∑ r ∈ range A.rows, y r * (rowDot A r u - rowDot A r v) := by
        simp only [← rowDot_sub]
        unfold rowDot
        rw [h4]
        simp only [sum_mul, mul_sum]
        rw [sum_comm]
        exact sum_congr rfl fun i _ => sum_congr rfl fun j _ => by ring
      refine this.trans (sum_eq_zero fun r hr => ?_)
      rw [hu.eq A b h1 h2 r (mem_range.mp hr), hk.primal.eq A b h1 h2 r (mem_range.mp hr)]; ring
  have hsum : ∑ i ∈ range n, ((∑ j ∈ range n, qp.P.get i j * v j) + qp.c.get i) * (u i - v i) =
      - (∑ r ∈ range qp.G.rows, z r * (rowDot qp.G r u - rowDot qp.G r v)) := by
    rw [← hG]
    have h0 : ∑ i ∈ range n, ((∑ j ∈ range n, qp.P.get i j * v j) + qp.c.get i +
        (∑ r ∈ range qp.G.rows, qp.G.get r i * z r) +
        eqPart qp y i) * (u i - v i) = 0 :=
      sum_eq_zero fun i hi => by rw [hgrad i (mem_range.mp hi), zero_mul]
    simp only [add_mul _ _ (u _ - v _), sum_add_distrib] at h0 hA ⊢
    rw [hA] at h0
    linarith
  have := hpsd (fun i => u i - v i)
  rw [hsum] at hdiff
  linarith

/-- One joint, error 1, limits ±3: velocity -1 with zero multipliers. -/
example : ∃ (e : Evaluated ℚ) (W : Mat ℚ) (vMin vMax : Vec ℚ) (qp : QP ℚ),
    ProblemShaped 1 vMin vMax [.task e W 0] ∧ computeQP 1 1 vMin vMax [.task e W 0] = .ok qp ∧
    KKT qp (fun _ => -1) (fun _ => 0) (fun _ => 0) := by
  have hs : ProblemShaped 1 (⟨1, fun _ => -3⟩ : Vec ℚ) ⟨1, fun _ => 3⟩
      [.task ⟨⟨1, 1, fun _ _ => 1⟩, ⟨1, fun _ => 1⟩, ⟨1, fun _ => 1⟩, id⟩ ⟨1, 1, fun _ _ => 1⟩ 0] :=
    ⟨rfl, rfl, by simp only [List.mem_singleton, forall_eq]; exact ⟨⟨rfl, rfl, rfl⟩, rfl, rfl⟩⟩
  obtain ⟨qp, hq, h⟩ := computeQP_form hs (by simp [badBarrier])
  have hP : qp.P.get 0 0 = 1 := by rw [h.P]; simp [hessOf, wj, we]
  have hc : qp.c.get 0 = 1 := by rw [h.c]; simp [linOf, wj, we]
  have hA : qp.A = none := by
    rcases h.A with ⟨-, h2, -⟩ | ⟨A, b, h1, h2, h3, -⟩
    · exact h2
    · exact (h3 (by simp [eqOf])).elim
  refine ⟨_, _, _, _, qp, hs, hq, ?_, ?_, ?_, ?_⟩
  · rw [feasible_iff hs h]
    refine ⟨fun i _ => ?_, by simp [Respects]⟩
    show (-3 : ℚ) ≤ -1 ∧ (-1 : ℚ) ≤ - -3
    norm_num
  · intros; exact le_refl _
  · intros; ring
  · intro i hi
    rw [h.prows] at hi
    obtain rfl : i = 0 := by omega
    simp [h.pcols, hP, hc, eqPart, hA]

/-- C85 needs nonnegative damping: with damping -2 (which the setter accepts, C80_cost) a KKT point is not
optimal. -/
theorem C85_negative_damping : ∃ (e : Evaluated ℚ) (W : Mat ℚ) (vMin vMax : Vec ℚ) (qp : QP ℚ) (v y z : Nat → ℚ),
    ProblemShaped 1 vMin vMax [.task e W (-2)] ∧ computeQP 1 1 vMin vMax [.task e W (-2)] = .ok qp ∧
    KKT qp v y z ∧ ¬ Optimal qp v := by
  have hs : ProblemShaped 1 (⟨1, fun _ => -3⟩ : Vec ℚ) ⟨1, fun _ => 3⟩
      [.task ⟨⟨1, 1, fun _ _ => 1⟩, ⟨1, fun _ => 1⟩, ⟨1, fun _ => 1⟩, id⟩ ⟨1, 1, fun _ _ => 1⟩ (-2)] :=
    ⟨rfl, rfl, by simp only [List.mem_singleton, forall_eq]; exact ⟨⟨rfl, rfl, rfl⟩, rfl, rfl⟩⟩
  obtain ⟨qp, hq, h⟩ := computeQP_form hs (by simp [badBarrier])
  have hfe : ∀ x : ℚ, -3 ≤ x → x ≤ 3 → Feasible qp (fun _ => x) := by
    intro x h1 h2
    rw [feasible_iff hs h]
    refine ⟨fun i _ => ⟨h1, by simpa using h2⟩, ?_⟩
    simp [Respects]
  have hP : qp.P.get 0 0 = -1 := by
    rw [h.P]; simp [hessOf, wj, we]; norm_num
  have hc : qp.c.get 0 = 1 := by
    rw [h.c]; simp [linOf, wj, we]
  have hA : qp.A = none := by
    rcases h.A with ⟨-, h2, -⟩ | ⟨A, b, h1, h2, h3, -⟩
    · exact h2
    · exact (h3 (by simp [eqOf])).elim
  refine ⟨_, _, _, _, qp, fun _ => 1, fun _ => 0, fun _ => 0, hs, hq, ⟨hfe 1 (by norm_num) (by norm_num), ?_, ?_, ?_⟩, ?_⟩
  · intros; exact le_refl _
  · intros; ring
  · intro i hi
    rw [h.prows] at hi
    obtain rfl : i = 0 := by omega
    simp [h.pcols, hP, hc, eqPart, hA]
  · intro ho
    have := ho.2 _ (hfe (-3) (by norm_num) (by norm_num))
    simp only [objective, h.prows, h.pcols, h.clen, sum_range_one, hP, hc] at this
    norm_num at this

/-! ### C86 -/

/-- **C86.** Adding a component adds its conditions and its cost and nothing else. -/
theorem C86_additive {n : Nat} {vMin vMax : Vec K} {l₁ l₂ : List (SolverComp K)} {c : SolverComp K} {qp qp' : QP K}
    (hs : ProblemShaped n vMin vMax (l₁ ++ c :: l₂)) (hq : computeQP n n vMin vMax (l₁ ++ l₂) = .ok qp)
    (hq' : computeQP n n vMin vMax (l₁ ++ c :: l₂) = .ok qp') (v : Nat → K) :
    (Feasible qp' v ↔ Feasible qp v ∧ Respects v c) ∧
      objective qp' v = objective qp v + (cost n v c - cost n (fun _ => 0) c) := by
  have hs0 : ProblemShaped n vMin vMax (l₁ ++ l₂) :=
    ⟨hs.vMin, hs.vMax, fun x hx => hs.comps x (by simp at hx ⊢; tauto)⟩
  constructor
  · rw [feasible_iff hs (form_of_ok hs hq'), feasible_iff hs0 (form_of_ok hs0 hq)]
    simp only [List.mem_append, List.mem_cons]
    constructor
    · rintro ⟨h1, h2⟩
      exact ⟨⟨h1, fun x hx => h2 x (by tauto)⟩, h2 c (by tauto)⟩
    · rintro ⟨⟨h1, h2⟩, h3⟩
      refine ⟨h1, fun x hx => ?_⟩
      rcases hx with hx | rfl | hx
      · exact h2 x (.inl hx)
      · exact h3
      · exact h2 x (.inr hx)
  · rw [C25_objective hs hq', C25_objective hs0 hq]
    simp only [List.map_append, List.map_cons, List.sum_append, List.sum_cons]
    ring

theorem cost_weightless {n : Nat} {c : SolverComp K} (hc : CompShaped n c) (hw : Weightless c) (v : Nat → K) :
    cost n v c = 0 := by
  have hres : ∀ (W : Mat K) (e : Evaluated K) (v : Nat → K), W.rows = e.jac.rows → W.cols = e.jac.rows → ZeroMat W →
      sqNorm e.jac.rows (Spec.residual W e v) = 0 := by
    intro W e v h1 h2 hz
    refine sum_eq_zero fun r hr => ?_
    have : Spec.residual W e v r = 0 := sum_eq_zero fun k hk => by
      rw [hz r (h1 ▸ mem_range.mp hr) k (h2 ▸ mem_range.mp hk), zero_mul]
    rw [this]; ring
  cases c with
  | task e W lm => simp [cost, hres W e _ hc.2.1 hc.2.2 hw]
  | barrier e s d =>
    have : s = 0 := hw
    simp [cost, this]
  | constraint e a hard W =>
    rcases hw with rfl | hz
    · simp [cost]
    · simp [cost, hres W e _ hc.2.1 hc.2.2 hz]

/-- **C86 (zero cost).** A task or soft constraint with zero cost has no effect: the problem with it has the
same feasible and optimal velocities as the problem without it. -/
theorem C86_zero_cost {n : Nat} {vMin vMax : Vec K} {l₁ l₂ : List (SolverComp K)} {c : SolverComp K} {qp : QP K}
    (hs : ProblemShaped n vMin vMax (l₁ ++ c :: l₂)) (hq : computeQP n n vMin vMax (l₁ ++ l₂) = .ok qp)
    (hc : (∃ e W lm, c = .task e W lm ∧ ZeroMat W) ∨ ∃ e a W, c = .constraint e a false W ∧ ZeroMat W) :
    ∃ qp', computeQP n n vMin vMax (l₁ ++ c :: l₂) = .ok qp' ∧ (∀ v, Feasible qp' v ↔ Feasible qp v) ∧
      (∀ v, objective qp' v = objective qp v) ∧ ∀ v, Optimal qp' v ↔ Optimal qp v := by
  have hs0 : ProblemShaped n vMin vMax (l₁ ++ l₂) :=
    ⟨hs.vMin, hs.vMax, fun x hx => hs.comps x (by simp at hx ⊢; tauto)⟩
  have hw : Weightless c := by
    rcases hc with ⟨e, W, lm, rfl, hz⟩ | ⟨e, a, W, rfl, hz⟩
    · exact hz
    · exact .inr hz
  have hr : ∀ v, Respects v c := by
    intro v
    rcases hc with ⟨e, W, lm, rfl, hz⟩ | ⟨e, a, W, rfl, hz⟩
    · trivial
    · intro h; cases h
  obtain ⟨qp', hq', -⟩ : ∃ qp', computeQP n n vMin vMax (l₁ ++ c :: l₂) = .ok qp' ∧ QPForm n vMin vMax _ qp' := by
    refine computeQP_form hs fun x hx hbad => ?_
    have hx' : x = c ∨ x ∈ l₁ ++ l₂ := by simp at hx ⊢; tauto
    rcases hx' with rfl | hx'
    · rcases hc with ⟨e, W, lm, rfl, hz⟩ | ⟨e, a, W, rfl, hz⟩ <;> exact hbad
    · rw [computeQP_bad hs0 ⟨x, hx', hbad⟩] at hq; cases hq
  have hcs := hs.comps c (by simp)
  have hf : ∀ v, Feasible qp' v ↔ Feasible qp v := by
    intro v; rw [(C86_additive hs hq hq' v).1]; exact and_iff_left (hr v)
  have ho : ∀ v, objective qp' v = objective qp v := by
    intro v; rw [(C86_additive hs hq hq' v).2, cost_weightless hcs hw, cost_weightless hcs hw]; ring
  refine ⟨qp', hq', hf, ho, fun v => ?_⟩
  unfold Optimal; simp only [hf, ho]

/-- A zero-cost task next to the components of `LEx`. -/
example : ProblemShaped 2 (LEx.lim (-1)) (LEx.lim 1) ([] ++ .task (LEx.ev 3 1) (LEx.W1 0) 1 :: LEx.comps) ∧
    ZeroMat (LEx.W1 0) ∧ ∃ qp, computeQP 2 2 (LEx.lim (-1)) (LEx.lim 1) ([] ++ LEx.comps) = .ok qp := by
  refine ⟨⟨rfl, rfl, fun c hc => ?_⟩, fun _ _ _ _ => rfl, LEx.runs⟩
  rcases List.mem_cons.mp hc with rfl | hc
  · exact ⟨LEx.evShaped _ _, rfl, rfl⟩
  · exact (LEx.shaped (-1) 1).comps c hc

/-- **C86 (more constraints).** Adding a barrier or a hard constraint never lets the optimal value drop: the
optimum of the larger problem costs at least as much for the old components. -/
theorem C86_monotone {n : Nat} {vMin vMax : Vec K} {l₁ l₂ : List (SolverComp K)} {c : SolverComp K} {qp qp' : QP K}
    (hs : ProblemShaped n vMin vMax (l₁ ++ c :: l₂)) (hq : computeQP n n vMin vMax (l₁ ++ l₂) = .ok qp)
    (hq' : computeQP n n vMin vMax (l₁ ++ c :: l₂) = .ok qp') {v v' : Nat → K}
    (hv : Optimal qp v) (hv' : Feasible qp' v') : objective qp v ≤ objective qp v' :=
  hv.2 _ ((C86_additive hs hq hq' v').1.1 hv').1

end Mjinx.Props
