import Verif.Spec.Control
import Verif.Props.Solvable
import Verif.Props.Optimum
import Verif.Props.Vmap

/-!
# C91: what the local solver computes, in terms of the program
-/

namespace Mjinx.Props
open Spec
set_option linter.unusedSectionVars false
variable {K : Type} [Field K] [LinearOrder K]

private theorem gain_at {dim : Int} {gain g : Arr K} (h : GainOf dim gain g) {gv : Vec K} (hv : g.toVec = .ok gv) {r : Nat}
    (hr : r < gv.len) : gv.get r = gainAt gain r := by
  obtain ⟨n, -, hs, h⟩ := h
  have : gv = ⟨n, fun i => g.get [i]⟩ := by
    unfold Arr.toVec at hv; rw [hs] at hv; cases hv; rfl
  subst this
  unfold gainAt
  rcases h with ⟨h0, h⟩ | ⟨h1, h⟩
  · rw [if_pos h0]; exact h r hr
  · rw [if_neg (by rw [h1]; simp)]; exact h r hr

private theorem weight_at {dim : Int} {cost w : Arr K} (h : CostOf dim cost w) {W : Mat K} (hv : w.toMat = .ok W) {r k : Nat}
    (hr : r < W.rows) (hk : k < W.rows) : W.get r k = weightAt cost r k := by
  obtain ⟨n, -, hs, h⟩ := h
  have : W = ⟨n, n, fun i j => w.get [i, j]⟩ := by
    unfold Arr.toMat at hv; rw [hs] at hv; cases hv; rfl
  subst this
  unfold weightAt
  rcases h with ⟨h0, h⟩ | ⟨h0, h⟩ | ⟨h0, h⟩ <;> rw [h0] <;> exact h r hr k hk

private theorem map_ok {α β : Type} {x : Except Err α} {f : α → β} {y : β} (h : x.map f = .ok y) : ∃ a, x = .ok a ∧ y = f a := by
  cases x with
  | error => cases h
  | ok a => cases h; exact ⟨a, rfl, rfl⟩

/-- A compiled component, as the solver sees it, asks for what its attributes say. -/
theorem term_agrees {a : Attrs K} {j : JaxComp K} (hC : CompilesTo a j) {env : Env K} {d : MjData K} {s : SolverComp K}
    (hs : solverComp env d j = .ok s) {n : Nat} (hsh : CompShaped n s) :
    ∃ t : Term K, t.attrs = a ∧ evalJacobian env j d = .ok t.jac ∧ evalValue env j d = .ok t.value ∧
      ∀ v, cost n v s = t.price n v ∧ (Respects v s ↔ t.Allows v) := by
  obtain ⟨J, e, g, h1, h2, h3, h4⟩ := solverComp_ok hs
  refine ⟨⟨a, J, e⟩, rfl, h1, h2, ?_⟩
  have hrate : ∀ r < J.rows, g.len = J.rows → gained ⟨J, e, g, j.gainFn⟩ r = (⟨a, J, e⟩ : Term K).rate r := by
    intro r hr hl
    unfold gained Term.rate
    simp only
    rw [gain_at hC.gain h3 (by omega), hC.gainFn]
  have hres : ∀ (c w : Arr K) (W : Mat K), CostOf a.dim c w → w.toMat = .ok W → W.rows = J.rows → g.len = J.rows → ∀ v, ∀ r < J.rows,
      Spec.residual W ⟨J, e, g, j.gainFn⟩ v r = (⟨a, J, e⟩ : Term K).misfit c v r := by
    intro c w W hc hw hW hl v r hr
    unfold Spec.residual Term.misfit
    refine Finset.sum_congr rfl fun k hk => ?_
    have hk' : k < J.rows := Finset.mem_range.1 hk
    rw [hrate k hk' hl, weight_at hc hw (by omega) (by omega)]
  have hsq : ∀ (m : Nat) (f g : Nat → K), (∀ r < m, f r = g r) → sqNorm m f = sqNorm m g := by
    intro m f g h
    unfold sqNorm
    exact Finset.sum_congr rfl fun r hr => by rw [h r (Finset.mem_range.1 hr)]
  have hK := hC.kind
  have task : ∀ (t : TaskA K) (w : Arr K) (lm : K), CostOf a.dim t.cost w → lm = t.lmDamping →
      w.toMat.map (fun W => SolverComp.task ⟨J, e, g, j.gainFn⟩ W lm) = .ok s → ∀ v,
      cost n v s = sqNorm J.rows ((⟨a, J, e⟩ : Term K).misfit t.cost v) / 2 +
        t.lmDamping * sqNorm J.rows ((⟨a, J, e⟩ : Term K).misfit t.cost fun _ => 0) * sqNorm n v / 2 ∧ Respects v s := by
    rintro t w lm hc rfl hw v
    obtain ⟨W, hW, rfl⟩ := map_ok hw
    obtain ⟨⟨_, _, s3⟩, s4, _⟩ := hsh
    refine ⟨?_, trivial⟩
    unfold cost
    dsimp only
    rw [hsq _ _ _ (hres _ _ _ hc hW s4 s3 v), hsq _ _ _ (hres _ _ _ hc hW s4 s3 fun _ => 0)]
  have barrier : ∀ (x y : K), x = y → s = .barrier ⟨J, e, g, j.gainFn⟩ x (Vec.zero j.model.nv) → ∀ v,
      cost n v s = y / frobSq J * sqNorm n v / 2 ∧
        (Respects v s ↔ ∀ r < J.rows, - (⟨a, J, e⟩ : Term K).rate r ≤ rowDot J r v) := by
    rintro x y rfl rfl v
    obtain ⟨⟨_, _, s3⟩, _⟩ := hsh
    constructor
    · unfold cost
      dsimp only
      rw [hsq n (fun i => v i - (Vec.zero j.model.nv : Vec K).get i) v (fun i _ => by simp [Vec.zero])]
    · unfold Respects
      dsimp only
      refine forall₂_congr fun r hr => ?_
      rw [hrate r hr s3]
  unfold wrapComp at h4
  intro v
  unfold Term.price Term.Allows
  cases hk : a.kind <;> rw [hk] at hK <;> cases hjk : j.kind <;> rw [hjk] at hK h4 <;> simp only [KindOf] at hK <;> dsimp only at h4 ⊢
  case comTask.comTask => obtain ⟨p, q⟩ := task _ _ _ hK.1 hK.2.1 h4 v; exact ⟨p, by simp only [q]⟩
  case jointTask.jointTask => obtain ⟨p, q⟩ := task _ _ _ hK.1 hK.2.1 h4 v; exact ⟨p, by simp only [q]⟩
  case positionTask.positionTask => obtain ⟨p, q⟩ := task _ _ _ hK.1 hK.2.1 h4 v; exact ⟨p, by simp only [q]⟩
  case frameTask.frameTask => obtain ⟨p, q⟩ := task _ _ _ hK.1 hK.2.1 h4 v; exact ⟨p, by simp only [q]⟩
  case jointBarrier.jointBarrier => exact barrier _ _ hK.1 (by cases h4; rfl) v
  case positionBarrier.positionBarrier => exact barrier _ _ hK.1 (by cases h4; rfl) v
  case selfCollision.selfCollision => exact barrier _ _ hK.1 (by cases h4; rfl) v
  case modelEquality.modelEquality =>
    obtain ⟨W, hW, rfl⟩ := map_ok h4
    obtain ⟨⟨_, _, s3⟩, s4, _⟩ := hsh
    obtain ⟨-, rfl, hc⟩ := hK
    constructor
    · unfold cost
      dsimp only
      rw [hsq _ _ _ (hres _ _ _ hc hW s4 s3 v)]
    · unfold Respects
      dsimp only
      refine forall_congr' fun _ => forall₂_congr fun r hr => ?_
      rw [hrate r hr s3]

theorem mapM_forall₂ {α β : Type} {f : α → Except Err β} : ∀ {xs : List α} {ys : List β}, xs.mapM f = .ok ys →
    List.Forall₂ (fun x y => f x = .ok y) xs ys := by
  intro xs
  induction xs with
  | nil => intro ys h; cases h; exact .nil
  | cons x xs ih =>
    intro ys h
    rw [List.mapM_cons] at h
    obtain ⟨y, hy, h⟩ := Except.bind_eq_ok h
    obtain ⟨zs, hz, h⟩ := Except.bind_eq_ok h
    cases h
    exact .cons hy (ih hz)

private theorem terms_exist {w : World K} {js : List (String × JaxComp K)} {env : Env K} {d : MjData K} {n : Nat} (all : List (String × JaxComp K)) :
    ∀ {pc : List (String × Nat)} {cs : List (SolverComp K)}, (∀ nj ∈ js, nj ∈ all) →
    List.Forall₂ (fun (ni : String × Nat) (nj : String × JaxComp K) =>
        ni.1 = nj.1 ∧ ∃ c, w.comps[ni.2]? = some c ∧ CompilesTo c.attrs nj.2) pc js →
    List.Forall₂ (fun j s => solverComp env d j = .ok s) (js.map Prod.snd) cs → (∀ s ∈ cs, CompShaped n s) →
    ∃ ts : List (Term K), List.Forall₂ (fun (ni : String × Nat) (t : Term K) => ∃ c, w.comps[ni.2]? = some c ∧ t.attrs = c.attrs ∧
        ∃ j, (ni.1, j) ∈ all ∧ evalJacobian env j d = .ok t.jac ∧ evalValue env j d = .ok t.value) pc ts ∧
      List.Forall₂ (fun s t => ∀ v, cost n v s = Term.price n v t ∧ (Respects v s ↔ Term.Allows v t)) cs ts := by
  induction js with
  | nil =>
    intro pc cs _ h1 h2 _
    cases h1; cases h2
    exact ⟨[], .nil, .nil⟩
  | cons nj js ih =>
    intro pc cs hall h1 h2 h3
    cases h1 with
    | cons h1 h1' =>
      cases h2 with
      | cons h2 h2' =>
        obtain ⟨hn, c, hc, hC⟩ := h1
        obtain ⟨ts, t1, t2⟩ := ih (fun x hx => hall x (by simp [hx])) h1' h2' (fun s hs => h3 s (by simp [hs]))
        obtain ⟨t, e1, e2, e3, e4⟩ := term_agrees hC h2 (h3 _ (by simp))
        refine ⟨t :: ts, .cons ⟨c, hc, e1, nj.2, ?_, e2, e3⟩ t1, .cons e4 t2⟩
        rw [hn]
        exact hall nj (by simp)

private theorem sum_eq {n : Nat} {v : Nat → K} : ∀ {cs : List (SolverComp K)} {ts : List (Term K)},
    List.Forall₂ (fun s t => ∀ v, cost n v s = Term.price n v t ∧ (Respects v s ↔ Term.Allows v t)) cs ts →
    (cs.map (cost n v)).sum = totalPrice n ts v ∧ ((∀ c ∈ cs, Respects v c) ↔ ∀ t ∈ ts, t.Allows v)
  | [], [], .nil => by simp [totalPrice]
  | s :: cs, t :: ts, .cons h hs => by
    obtain ⟨h1, h2⟩ := sum_eq (v := v) hs
    constructor
    · rw [List.map_cons, List.sum_cons, h1, (h v).1, totalPrice, totalPrice, List.map_cons, List.sum_cons]
    · rw [List.forall_mem_cons, List.forall_mem_cons, h2, (h v).2]

/-- **C91** (the quadratic program is the control problem): after any program, at every simulation state where the sizes fit (C68)
and the quadratic program can be assembled (C87), a velocity is feasible for it iff the components allow it, and optimal iff it is
the best allowed velocity. -/
theorem C91_control_problem [IsStrictOrderedRing K] (ops : List (Op K)) {p : Nat} {J : JaxProblem K}
    (hJ : (step (run World.init ops) (.compile p)).1 = .ok (.compiled J)) {env : Env K} {d : MjData K} (hsz : WellSized env J d)
    {qp : QP K} (hqp : problemQP env J.model J d = .ok qp) :
    ∃ P ts, (run World.init ops).probs[p]? = some P ∧ TermsOf (run World.init ops) P J env d ts ∧
      ∀ v, (Feasible qp v ↔ Allowed P.model.nv P.vMin P.vMax ts v) ∧ (Optimal qp v ↔ Best P.model.nv P.vMin P.vMax ts v) := by
  obtain ⟨P, hP, e1, e2, e3, hcomps⟩ := compile_comps ⟨ops, rfl⟩ hJ
  obtain ⟨vMin, vMax, cs, h1, h2, h3, h4⟩ := problemQP_ok hqp
  have hshape := hsz vMin vMax cs h1 h2 h3
  obtain ⟨ts, t1, t2⟩ := terms_exist J.comps (fun _ h => h) hcomps (mapM_forall₂ h3) hshape.comps
  refine ⟨P, ts, hP, t1, ?_⟩
  have hlim : ∀ (x : Arr K) (y : Vec K), x.toVec = .ok y → ∀ i, y.get i = x.get [i] := by
    intro x y h i
    unfold Arr.toVec at h
    split at h
    · cases h; rfl
    · cases h
  have hfeas : ∀ v, Feasible qp v ↔ Allowed P.model.nv P.vMin P.vMax ts v := by
    intro v
    rw [feasible_iff hshape (form_of_ok hshape h4), (sum_eq t2).2]
    unfold Allowed
    simp only [hlim _ _ h1, hlim _ _ h2, e1, e2, e3]
  intro v
  refine ⟨hfeas v, ?_⟩
  unfold Optimal Best
  rw [hfeas]
  refine and_congr_right fun _ => forall_congr' fun u => ?_
  rw [hfeas, C25_objective hshape h4, C25_objective hshape h4, (sum_eq t2).1, (sum_eq t2).1, (sum_eq t2).1, ← e1]
  refine imp_congr_right fun _ => ?_
  exact sub_le_sub_iff_right _

/-- The velocity `solve` returns is the answer of the QP solver to the quadratic program of the problem. -/
theorem localSolve_ok {env : Env K} {I : Type} {osqp : QPSolver K I} {m : MjModel K} {q : Arr K} {s s' : LocalIKData K}
    {J : JaxProblem K} {sol : LocalIKSolution K I} (h : localSolve env osqp m q s J = .ok (sol, s')) :
    ∃ qp, problemQP env m J (update env m ⟨m.nq, fun i => q.get [i]⟩) = .ok qp ∧ sol.vOpt = (osqp qp).1 := by
  unfold localSolve solve at h
  split at h
  · cases h
  unfold localSolveFromData at h
  obtain ⟨vMin, h1, h⟩ := Except.bind_eq_ok h
  obtain ⟨vMax, h2, h⟩ := Except.bind_eq_ok h
  obtain ⟨cs, h3, h⟩ := Except.bind_eq_ok h
  unfold solveFromData at h
  obtain ⟨qp, h4, h⟩ := Except.bind_eq_ok h
  cases h
  refine ⟨qp, ?_, rfl⟩
  unfold problemQP
  simp only [bind, Except.bind, h1, h2, h3, h4]

/-- **C91** (solutions): with an exact QP solver, whenever `solve` returns after any program, at a configuration where the sizes fit
(C68), and there is a best allowed velocity, the velocity it returns is one. -/
theorem C91_solution [IsStrictOrderedRing K] (ops : List (Op K)) {p : Nat} {J : JaxProblem K}
    (hJ : (step (run World.init ops) (.compile p)).1 = .ok (.compiled J)) {env : Env K} {I : Type} {osqp : QPSolver K I} (ho : Exact osqp)
    {q : Arr K} {s s' : LocalIKData K} {sol : LocalIKSolution K I}
    (hsz : WellSized env J (update env J.model ⟨J.model.nq, fun i => q.get [i]⟩))
    (h : localSolve env osqp J.model q s J = .ok (sol, s')) :
    ∃ P ts, (run World.init ops).probs[p]? = some P ∧
      TermsOf (run World.init ops) P J env (update env J.model ⟨J.model.nq, fun i => q.get [i]⟩) ts ∧
      ((∃ u, Best P.model.nv P.vMin P.vMax ts u) → Best P.model.nv P.vMin P.vMax ts sol.vOpt.get) := by
  obtain ⟨qp, hqp, e⟩ := localSolve_ok h
  obtain ⟨P, ts, hP, ht, hb⟩ := C91_control_problem ops hJ hsz hqp
  refine ⟨P, ts, hP, ht, ?_⟩
  rintro ⟨u, hu⟩
  rw [e]
  exact ((hb _).2).1 (ho qp ⟨u, ((hb u).2).2 hu⟩)

/-- **C91** (over the reals): it is enough that some velocity is allowed. -/
theorem C91_real_solution (ops : List (Op ℝ)) {p : Nat} {J : JaxProblem ℝ}
    (hJ : (step (run World.init ops) (.compile p)).1 = .ok (.compiled J)) {env : Env ℝ} {I : Type} {osqp : QPSolver ℝ I} (ho : Exact osqp)
    {q : Arr ℝ} {s s' : LocalIKData ℝ} {sol : LocalIKSolution ℝ I}
    (hsz : WellSized env J (update env J.model ⟨J.model.nq, fun i => q.get [i]⟩))
    (h : localSolve env osqp J.model q s J = .ok (sol, s')) :
    ∃ P ts, (run World.init ops).probs[p]? = some P ∧
      TermsOf (run World.init ops) P J env (update env J.model ⟨J.model.nq, fun i => q.get [i]⟩) ts ∧
      ((∃ u, Allowed P.model.nv P.vMin P.vMax ts u) → Best P.model.nv P.vMin P.vMax ts sol.vOpt.get) := by
  obtain ⟨qp, hqp, e⟩ := localSolve_ok h
  obtain ⟨P, ts, hP, ht, hb⟩ := C91_control_problem ops hJ hsz hqp
  refine ⟨P, ts, hP, ht, ?_⟩
  rintro ⟨u, hu⟩
  obtain ⟨vMin, vMax, cs, h1, h2, h3, h4⟩ := problemQP_ok hqp
  rw [e]
  exact ((hb _).2).1 (ho qp ((C81_optimal_exists (hsz vMin vMax cs h1 h2 h3) h4).1 ⟨u, ((hb u).1).2 hu⟩))

open Classical in
/-- Exact QP solvers exist. -/
example : ∃ osqp : QPSolver K Unit, Exact osqp :=
  ⟨fun qp => (if h : ∃ v, Optimal qp v then ⟨0, h.choose⟩ else ⟨0, fun _ => 0⟩, ()), fun qp h => by simp only [dif_pos h]; exact h.choose_spec⟩

/-- The program of C87's example, with a masked task, joint limits and equality rows, meets the hypotheses of
`C91_control_problem` and `C91_solution` at every configuration. -/
example (osqp : QPSolver ℚ Unit) (q : Arr ℚ) (hq : q.shape = [13]) (s : LocalIKData ℚ) :
    ∃ J : JaxProblem ℚ, (step (run World.init SolveEx.ops) (.compile 0)).1 = .ok (.compiled J) ∧
      WellSized Ex.env J (update Ex.env J.model ⟨J.model.nq, fun i => q.get [i]⟩) ∧
      ∃ r, localSolve Ex.env osqp J.model q s J = .ok r := by
  refine ⟨_, rfl, ?_, ?_⟩
  · exact C68_problem_partial SolveEx.ops_clean (p := 0) rfl (by intro nj h; fin_cases h <;> rfl)
      (by
        intro nj h
        fin_cases h
        · exact settled_of_usable (env := Ex.env) rfl
        · exact settled_of_usable (env := Ex.env) ⟨Or.inr (Or.inr rfl), Or.inr (Or.inr rfl)⟩
        · exact settled_of_usable (env := Ex.env) trivial)
      Ex.model_wf (SizeEx.sized _ rfl)
  · obtain ⟨qp, -, h⟩ := (C87_solve_partial SolveEx.ops_clean (p := 0) rfl
      (by intro nj h; fin_cases h <;> rfl)
      (by
        intro nj h
        fin_cases h
        · exact rfl
        · exact ⟨Or.inr (Or.inr rfl), Or.inr (Or.inr rfl)⟩
        · trivial) SolveEx.model_fits SolveEx.env_fits (fun q hq => ⟨SizeEx.sized q hq, SolveEx.data_fits q⟩) osqp q s).2 hq
      (by
        intro nj h hb G hG h0
        fin_cases h
        · exact hb
        · cases hG
          exact absurd (h0 0 (by decide) 6 (by decide)) (by decide)
        · exact hb)
    exact ⟨_, h⟩

end Mjinx.Props
