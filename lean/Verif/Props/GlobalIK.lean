import Verif.Spec.Global
import Verif.Spec.ExEnv
import Verif.Spec.Accept
import Verif.Lemmas.New
import Verif.Props.ClosedLoop
import Mathlib.Analysis.SpecialFunctions.Log.Basic

/-!
# C37–C41: the global IK solver
-/

namespace Mjinx.Props
open Spec Finset
set_option linter.unusedSectionVars false

section
variable {K : Type} [Field K] [LinearOrder K]

theorem zip_same {f : K → K → K} {a b : Vec K} (h : a.len = b.len) :
    Vec.zip f a b = .ok ⟨a.len, fun i => f (a.get i) (b.get i)⟩ := by
  unfold Vec.zip; rw [if_pos h]

theorem globalStep_term {env : Env K} {log : K → K} {d : MjData K} {j : JaxComp K} {e g : Vec K}
    (h : Evaluates env d j e g) (hc : j.cls ≠ .constraint) (loss : K) :
    globalStep env log d loss j = .ok (loss + lossTerm log j.cls e g) := by
  obtain ⟨h1, h2, h3⟩ := h
  unfold globalStep
  cases hcl : j.cls with
  | constraint => exact absurd hcl hc
  | task =>
    show globalTask env d loss j = _
    unfold globalTask
    simp only [bind, Except.bind, h1, h2, zip_same h3, Vec.dot]
    rw [if_pos h3]
    simp only [pure, Except.pure, lossTerm, h3]
    congr 2
    exact sum_congr rfl fun i _ => by ring
  | barrier =>
    show globalBarrier env log d loss j = _
    unfold globalBarrier logBarrier
    simp only [bind, Except.bind, h1, h2, Vec.map]
    rw [zip_same (by exact h3)]
    simp only [pure, Except.pure, lossTerm, h3, clip]
    congr 1
    ring

/-- C37: without constraints, the loss is the sum over the components of `Σ gᵢ eᵢ²` for tasks and
`- Σ gᵢ log(clip(hᵢ, 1e-9, 1))` for barriers. -/
theorem C37_loss {env : Env K} {log : K → K} {p : JaxProblem K} {q : Vec K}
    {t : List (JaxComp K × Vec K × Vec K)} (ht : Table env (update env p.model q) p t)
    (hc : ∀ x ∈ t, x.1.cls ≠ .constraint) :
    globalLoss env log p q = .ok ((t.map fun x => lossTerm log x.1.cls x.2.1 x.2.2).sum) := by
  obtain ⟨h1, h2⟩ := ht
  unfold globalLoss
  rw [← h1]
  have : ∀ (t : List (JaxComp K × Vec K × Vec K)) (acc : K),
      (∀ x ∈ t, Evaluates env (update env p.model q) x.1 x.2.1 x.2.2) → (∀ x ∈ t, x.1.cls ≠ .constraint) →
      (t.map fun x => x.1).foldlM (globalStep env log (update env p.model q)) acc =
        .ok (acc + (t.map fun x => lossTerm log x.1.cls x.2.1 x.2.2).sum) := by
    intro t
    induction t with
    | nil => intro acc _ _; simp [pure, Except.pure]
    | cons x t ih =>
      intro acc h2 hc
      simp only [List.map_cons, List.foldlM_cons, List.sum_cons]
      rw [globalStep_term (h2 x (by simp)) (hc x (by simp))]
      simp only [bind, Except.bind]
      rw [ih _ (fun y hy => h2 y (by simp [hy])) (fun y hy => hc y (by simp [hy])), add_assoc]
  rw [this t 0 h2 hc, zero_add]

private def tagOf : NewComp K → Tag
  | .comTask .. => .com
  | .jointTask .. => .joint
  | .positionTask .. => .position
  | .frameTask .. => .frame
  | .jointBarrier .. => .jointBarrier
  | .positionBarrier .. => .positionBarrier
  | .selfCollision .. => .selfCollision
  | .modelEquality .. => .equality

private def clsOf : Tag → CompClass
  | .com | .joint | .position | .frame => .task
  | .jointBarrier | .positionBarrier | .selfCollision => .barrier
  | .equality => .constraint

private theorem new_tag {n : NewComp K} {c0 : Comp K} (hn : n.run = .ok c0) : c0.attrs.kind.tag = tagOf n := by
  cases n <;> simp only [NewComp.run] at hn
  case comTask =>
    obtain ⟨_, _, _, _, h, rfl⟩ := newComTask_ok hn
    rfl
  case jointTask =>
    obtain ⟨_, _, _, h, rfl⟩ := newJointTask_ok hn
    obtain ⟨_, _, _, _, rfl⟩ := initAttrs_ok h
    rfl
  case positionTask =>
    obtain ⟨_, _, _, h, rfl⟩ := newPositionTask_ok hn
    rfl
  case frameTask =>
    obtain ⟨_, _, _, h, rfl⟩ := newFrameTask_ok hn
    obtain ⟨_, _, _, _, rfl⟩ := initAttrs_ok h
    rfl
  case jointBarrier =>
    obtain ⟨_, h, rfl⟩ := newJointBarrier_ok hn
    obtain ⟨_, _, _, _, rfl⟩ := initAttrs_ok h
    rfl
  case positionBarrier =>
    obtain ⟨_, _, _, _, _, _, _, _, rfl⟩ := newPositionBarrier_ok hn
    rfl
  case selfCollision =>
    obtain ⟨_, h, rfl⟩ := newSelfCollision_ok hn
    obtain ⟨_, _, _, _, rfl⟩ := initAttrs_ok h
    rfl
  case modelEquality =>
    obtain ⟨_, h, rfl⟩ := newModelEquality_ok hn
    obtain ⟨_, _, _, _, rfl⟩ := initAttrs_ok h
    rfl

/-- C37: which term a component contributes is decided by its constructor: after any history, what a task constructor built
compiles to a task, what a barrier constructor built to a barrier, and the equality constraint to a constraint. -/
theorem C37_classes {n : NewComp K} {c0 : Comp K} (hn : n.run = .ok c0) (ops : List (CompOp K)) {j : JaxComp K}
    (hj : (jaxComponent (runOps c0 ops)).1 = .ok j) :
    (MakesTask n → j.cls = .task) ∧ (MakesBarrier n → j.cls = .barrier) ∧
      (¬ MakesTask n → ¬ MakesBarrier n → j.cls = .constraint) := by
  have hC : CompilesTo (runOps c0 ops).attrs j :=
    jaxComponent_spec (cacheOK_reachable ⟨_, c0, ops, hn, rfl⟩) (c' := (jaxComponent (runOps c0 ops)).2) (by rw [← hj])
  have htag : (runOps c0 ops).attrs.kind.tag = tagOf n :=
    runOps_induct (P := fun c => c.attrs.kind.tag = tagOf n) (new_tag hn) (fun op c h => by rw [run_tag, h]) ops
  have hK := hC.kind
  have hcls : j.cls = clsOf (tagOf n) := by
    rw [← htag]
    generalize (runOps c0 ops).attrs.kind = k at hK
    unfold JaxComp.cls
    generalize j.kind = jk at hK
    cases k <;> cases jk <;> first | rfl | exact hK.elim
  rw [hcls]
  cases n <;> simp [tagOf, clsOf, MakesTask, MakesBarrier]

example : ∃ (c0 : Comp ℚ) (j : JaxComp ℚ), (NewComp.selfCollision Ex.barrierArgs 0 [] [] (-1)).run = .ok c0 ∧
    (jaxComponent (runOps c0 [.updateModel Ex.model])).1 = .ok j := ⟨_, _, rfl, rfl⟩

/-- C38 is false: the cost matrices have no influence on the loss, whatever they are replaced with. -/
theorem C38_cost_ignored (env : Env K) (log : K → K) (p : JaxProblem K) (f : String → Arr K) (q : Vec K) :
    globalLoss env log { p with comps := p.comps.map fun c => (c.1, withCost (f c.1) c.2) } q =
      globalLoss env log p q := by
  unfold globalLoss
  dsimp only
  have hv : ∀ (j : JaxComp K) w d, evalValue env (withCost w j) d = evalValue env j d := by
    intro j w d
    unfold evalValue withCost
    cases hk : j.kind <;> simp only []
  have hstep : ∀ (j : JaxComp K) w d l, globalStep env log d l (withCost w j) = globalStep env log d l j := by
    intro j w d l
    have hcl : (withCost w j).cls = j.cls := by
      unfold JaxComp.cls withCost
      cases hk : j.kind <;> rfl
    unfold globalStep
    rw [hcl]
    unfold globalTask globalBarrier
    rw [hv]
    rfl
  generalize update env p.model q = d
  generalize (0 : K) = acc
  induction p.comps generalizing acc with
  | nil => rfl
  | cons c cs ih =>
    simp only [List.map_cons, List.foldlM_cons, hstep]
    cases globalStep env log d acc c.2 with
    | error e => rfl
    | ok a => exact ih a

/-- C40: a problem with a constraint never has a loss; if everything else can be evaluated the error is
`NotImplementedError`. -/
theorem C40_constraint_refused {env : Env K} {log : K → K} {p : JaxProblem K} {q : Vec K}
    {c : String × JaxComp K} (hc : c ∈ p.comps) (hcl : c.2.cls = .constraint) :
    (∀ l, globalLoss env log p q ≠ .ok l) ∧
    ((∀ x ∈ p.comps, x.2.cls ≠ .constraint → ∃ e g, Evaluates env (update env p.model q) x.2 e g) →
      globalLoss env log p q = .error .notImplementedError) := by
  unfold globalLoss
  generalize update env p.model q = d
  generalize (0 : K) = acc
  generalize p.comps = l at hc
  have hst : ∀ acc, globalStep env log d acc c.2 = .error .notImplementedError := by
    intro acc; unfold globalStep; rw [hcl]
  induction l generalizing acc with
  | nil => cases hc
  | cons x xs ih =>
    simp only [List.map_cons, List.foldlM_cons]
    by_cases hx : x.2.cls = .constraint
    · have : globalStep env log d acc x.2 = .error .notImplementedError := by
        unfold globalStep; rw [hx]
      rw [this]
      exact ⟨fun l h => (by cases h), fun _ => rfl⟩
    · have hc' : c ∈ xs := by
        rcases List.mem_cons.1 hc with rfl | h
        · exact absurd hcl hx
        · exact h
      constructor
      · intro l h
        obtain ⟨a, ha, h⟩ := Except.bind_eq_ok h
        exact (ih a hc').1 l h
      · intro H
        obtain ⟨e, g, hev⟩ := H x (by simp) hx
        rw [globalStep_term hev hx]
        exact (ih _ hc').2 fun y hy => H y (by simp [hy])

/-- C40, other direction: `NotImplementedError` is raised by nothing but a constraint. -/
theorem C40_only_constraints {env : Env K} {log : K → K} {p : JaxProblem K} {q : Vec K}
    (ha : ∀ c ∈ p.comps, ∃ e g, Evaluates env (update env p.model q) c.2 e g)
    (hc : ∀ c ∈ p.comps, c.2.cls ≠ .constraint) : ∃ l, globalLoss env log p q = .ok l := by
  unfold globalLoss
  revert ha
  generalize update env p.model q = d
  intro ha
  generalize (0 : K) = acc
  generalize p.comps = l at ha hc
  induction l generalizing acc with
  | nil => exact ⟨acc, rfl⟩
  | cons x xs ih =>
    obtain ⟨e, g, hev⟩ := ha x (by simp)
    simp only [List.map_cons, List.foldlM_cons]
    rw [globalStep_term hev (hc x (by simp))]
    exact ih _ (fun c hc => ha c (by simp [hc])) (fun c h => hc c (by simp [h]))

/-- C41: the returned velocity times the time step is the difference between the returned and the given
configuration; all have `nq` entries (not `nv`). -/
theorem C41_velocity {S : Type} {env : Env K} {log : K → K} {grad : Grad K} {opt : Optimizer K S} {dt : K}
    {m : MjModel K} {q : Arr K} {s s' : S} {p : JaxProblem K} {sol : GlobalIKSolution K}
    (hz : StepSized grad opt) (h : globalSolve env log grad opt dt m q s p = .ok (sol, s')) :
    sol.qOpt.len = m.nq ∧ sol.vOpt.len = m.nq ∧ dt ≠ 0 ∧
      ∀ i < m.nq, sol.vOpt.get i * dt = sol.qOpt.get i - q.get [i] := by
  unfold globalSolve at h
  split at h
  · cases h
  · unfold globalStepFrom at h
    obtain ⟨g, hg, h⟩ := Except.bind_eq_ok h
    obtain ⟨w, hw, h⟩ := Except.bind_eq_ok h
    split at h
    · cases h
    · rename_i hdt
      cases h
      unfold globalGrad at hg
      obtain ⟨l, hl, hg⟩ := Except.bind_eq_ok hg
      split at hg
      · cases hg
      · cases hg
        have hlen : (opt.update (grad (fun x => ((globalLoss env log p x).toOption).getD 0)
            ⟨m.nq, fun i => q.get [i]⟩) s).1.len = m.nq := by rw [hz.2, hz.1]
        rw [zip_same hlen.symm] at hw
        cases hw
        refine ⟨rfl, hlen, hdt, fun i _ => ?_⟩
        show _ / dt * dt = _ + _ - _
        rw [div_mul_cancel₀ _ hdt]
        ring

/-- C41: the velocity limits are not consulted. -/
theorem C41_limits_ignored {S : Type} (env : Env K) (log : K → K) (grad : Grad K) (opt : Optimizer K S) (dt : K)
    (m : MjModel K) (q : Arr K) (s : S) (p : JaxProblem K) (vMin vMax : Arr K) :
    globalSolve env log grad opt dt m q s { p with vMin := vMin, vMax := vMax } =
      globalSolve env log grad opt dt m q s p := rfl

/-- C34 for the global solver: wrong shapes raise `ValueError`, and `solve_from_data` is `solve` at the
configuration of the data. -/
theorem C34_global_solve {S : Type} (env : Env K) (log : K → K) (grad : Grad K) (opt : Optimizer K S) (dt : K)
    (m : MjModel K) (q : Arr K) (s : S) (p : JaxProblem K) :
    (q.shape ≠ [m.nq] → globalSolve env log grad opt dt m q s p = .error .valueError) ∧
    (∀ x : Vec K, q.toVec = .ok x → x.len = m.nq → (env.makeConstraint m (env.comPos m (env.kinematics m x))).qpos = x →
      globalSolve env log grad opt dt m q s p =
        globalSolveFromData env log grad opt dt m s p (env.makeConstraint m (env.comPos m (env.kinematics m x)))) := by
  constructor
  · intro h; unfold globalSolve; rw [if_pos h]
  · intro x hx hl hq
    unfold globalSolveFromData
    rw [hq]
    unfold Arr.toVec at hx
    split at hx
    · rename_i n hs
      cases hx
      subst hl
      unfold globalSolve Vec.toArr
      rw [if_neg (by rw [hs]; simp), if_neg (by simp)]
      rfl
    · cases hx

/-- C34, `init` of the global solver: a configuration of the right shape is handed to the optimiser; anything else is refused with
`ValueError`. -/
theorem C34_global_init {S : Type} (opt : Optimizer K S) (m : MjModel K) (q : Arr K) :
    (q.shape ≠ [m.nq] → globalInit opt m q = .error .valueError) ∧
    (∀ x : Vec K, q.toVec = .ok x → x.len = m.nq → globalInit opt m q = .ok (opt.init x)) := by
  constructor
  · intro h; unfold globalInit; rw [if_pos h]
  · intro x hx hl
    unfold Arr.toVec at hx
    split at hx
    · rename_i n hs
      cases hx
      subst hl
      unfold globalInit
      rw [if_neg (by rw [hs]; simp)]
    · cases hx

end

/-! ### Barrier penalty -/

section
variable {K : Type} [Field K] [LinearOrder K] [IsStrictOrderedRing K]

theorem clip_mono {a b x y : K} (h : x ≤ y) : min (max x a) b ≤ min (max y a) b :=
  min_le_min (max_le_max h le_rfl) le_rfl

theorem clip_pos (x : K) : 0 < min (max x (1 / 10 ^ 9)) 1 :=
  lt_min (lt_max_of_lt_right (by positivity)) one_pos

theorem increasing_le {log : K → K} (hl : Increasing log) {x y : K} (hx : 0 < x) (h : x ≤ y) : log x ≤ log y := by
  rcases h.eq_or_lt with rfl | h
  · exact le_rfl
  · exact (hl x y hx h).le

/-- C39, what holds: with nonnegative gains, a barrier whose values are entrywise smaller never gets a
smaller penalty; the penalty is strictly larger if some entry with positive gain went down from a value above
`1e-9` to one below 1.  Missing: strictness when the barrier is violated, which fails
(`C39_flat_when_violated`). -/
theorem C39_penalty_monotone_partial {env : Env K} {log : K → K} (hlog : Increasing log) {d d' : MjData K}
    {j : JaxComp K} {h h' g : Vec K}
    (hj : j.cls = .barrier) (he : Evaluates env d j h g) (he' : Evaluates env d' j h' g)
    (hg : ∀ i < h.len, 0 ≤ g.get i) (hle : ∀ i < h.len, h.get i ≤ h'.get i) :
    ∃ P P', (∀ l, globalStep env log d l j = .ok (l + P)) ∧
      (∀ l, globalStep env log d' l j = .ok (l + P')) ∧ P' ≤ P ∧
      ((∃ i < h.len, 0 < g.get i ∧ h.get i < h'.get i ∧ 1 / 10 ^ 9 < h'.get i ∧ h.get i < 1) → P' < P) := by
  have hcl : j.cls ≠ .constraint := by rw [hj]; decide
  have hlen : h'.len = h.len := by rw [← he.2.2, ← he'.2.2]
  refine ⟨_, _, fun l => globalStep_term he hcl l, fun l => globalStep_term he' hcl l, ?_, ?_⟩
  · simp only [hj, lossTerm, hlen, neg_le_neg_iff]
    refine sum_le_sum fun i hi => ?_
    rw [mem_range] at hi
    exact mul_le_mul_of_nonneg_left (increasing_le hlog (clip_pos _) (clip_mono (hle i hi))) (hg i hi)
  · rintro ⟨k, hk, k1, k2, k3, k4⟩
    simp only [hj, lossTerm, hlen, neg_lt_neg_iff]
    refine sum_lt_sum (fun i hi => ?_) ⟨k, mem_range.2 hk, ?_⟩
    · rw [mem_range] at hi
      exact mul_le_mul_of_nonneg_left (increasing_le hlog (clip_pos _) (clip_mono (hle i hi))) (hg i hi)
    · refine mul_lt_mul_of_pos_left (hlog _ _ (clip_pos _) ?_) k1
      have e1 : max (h.get k) (1 / 10 ^ 9) < max (h'.get k) (1 / 10 ^ 9) := by
        rw [max_eq_left k3.le]; exact max_lt k2 k3
      have e2 : min (max (h.get k) (1 / 10 ^ 9)) 1 < 1 := by
        refine min_lt_of_left_lt (max_lt k4 ?_)
        rw [div_lt_one (by positivity)]
        exact one_lt_pow₀ (by norm_num) (by norm_num)
      exact lt_min (lt_of_le_of_lt (min_le_left _ _) e1) e2

/-- The natural logarithm is such a function. -/
example : Increasing Real.log := fun _ _ hx h => Real.log_lt_log hx h

/-- C39 is false where it matters: all violated values (and all below `1e-9`) get the same penalty, so
nothing pushes a violated barrier back. -/
theorem C39_flat_when_violated {env : Env K} {log : K → K} {d d' : MjData K} {j : JaxComp K} {h h' g : Vec K}
    (hj : j.cls = .barrier) (he : Evaluates env d j h g) (he' : Evaluates env d' j h' g)
    (h0 : ∀ i < h.len, h.get i ≤ 1 / 10 ^ 9) (h0' : ∀ i < h.len, h'.get i ≤ 1 / 10 ^ 9) (l : K) :
    globalStep env log d l j = globalStep env log d' l j := by
  have hcl : j.cls ≠ .constraint := by rw [hj]; decide
  have hlen : h'.len = h.len := by rw [← he.2.2, ← he'.2.2]
  rw [globalStep_term he hcl, globalStep_term he' hcl]
  simp only [hj, lossTerm, hlen]
  congr 3
  refine sum_congr rfl fun i hi => ?_
  rw [mem_range] at hi
  rw [max_eq_right (h0 i hi), max_eq_right (h0' i hi)]

end

/-! ### Concrete cases -/

namespace GEx
/-- Data in which every body, geom and site has height `z`. -/
def at' (z : ℚ) : MjData ℚ := { Ex.data Ex.model ⟨13, fun _ => 0⟩ with siteXpos := [![0, 0, z]] }

/-- A barrier `site height ≥ 0` (gain 3), compiled. -/
theorem barrier : ∃ c0 j, newPositionBarrier Ex.barrierArgs "tip" .site (some (Ex.scalar 0)) none "min"
      (some (Arr.ofList [0, 0, 1])) = .ok c0 ∧
    (jaxComponent (runOps c0 [.updateModel Ex.model])).1 = .ok j ∧ j.cls = .barrier ∧
    ∀ z, ∃ h g, Evaluates Ex.env (at' z) j h g ∧ h.len = 1 ∧ h.get 0 = z ∧ g.get 0 = 3 := by
  refine ⟨_, _, rfl, rfl, rfl, fun z => ⟨_, _, ⟨rfl, rfl, rfl⟩, rfl, ?_, ?_⟩⟩
  · show z - 1 * 0 = z
    ring
  · show (1 : ℚ) * 3 = 3
    norm_num

/-- A problem with a joint task on the slide joint with the given cost (gain 3, target 0). -/
theorem task (w : ℚ) : ∃ c0 j, newJointTask { Ex.taskArgs with cost := Ex.scalar w } (some [0, 1]) = .ok c0 ∧
    (jaxComponent (runOps c0 [.updateModel Ex.model])).1 = .ok j ∧ j.cls = .task ∧ j.model = Ex.model ∧
    ∀ z, ∃ e g, Evaluates Ex.env (update Ex.env Ex.model ⟨13, fun _ => z⟩) j e g ∧ e.len = 1 ∧ e.get 0 = z ∧
      g.get 0 = 3 := by
  refine ⟨_, _, rfl, rfl, rfl, rfl, fun z => ⟨_, _, ⟨rfl, rfl, rfl⟩, rfl, ?_, ?_⟩⟩
  · show z - 0 = z
    ring
  · show (1 : ℚ) * 3 = 3
    norm_num
end GEx

/-- C37: a problem with one task. -/
example : ∃ (p : JaxProblem ℚ) (t : _), t ≠ [] ∧
    Table Ex.env (update Ex.env p.model ⟨13, fun _ => 1⟩) p t ∧ (∀ x ∈ t, x.1.cls ≠ .constraint) ∧
    globalLoss Ex.env id p ⟨13, fun _ => 1⟩ = .ok 3 := by
  obtain ⟨c0, j, -, -, hcl, hm, hz⟩ := GEx.task 2
  obtain ⟨e, g, he, h1, h2, h3⟩ := hz 1
  have ht : Table Ex.env (update Ex.env Ex.model ⟨13, fun _ => 1⟩)
      ⟨Ex.model, Ex.scalar 0, Ex.scalar 0, [("t", j)]⟩ [(j, e, g)] := ⟨rfl, by simpa using he⟩
  have hc : ∀ x ∈ [(j, e, g)], x.1.cls ≠ .constraint := by simp [hcl]
  refine ⟨⟨Ex.model, Ex.scalar 0, Ex.scalar 0, [("t", j)]⟩, [(j, e, g)], by simp, ht, hc, ?_⟩
  rw [C37_loss ht hc]
  simp [lossTerm, hcl, h1, h2, h3]

/-- C38: tasks that differ in nothing but the cost (2 and 5) have the same, nonzero, loss. -/
theorem C38_documented_false : ∃ c2 c5 j2 j5,
    newJointTask { Ex.taskArgs with cost := Ex.scalar 2 } (some [0, 1]) = .ok c2 ∧
    newJointTask { Ex.taskArgs with cost := Ex.scalar 5 } (some [0, 1]) = .ok c5 ∧
    (jaxComponent (runOps c2 [.updateModel Ex.model])).1 = .ok j2 ∧
    (jaxComponent (runOps c5 [.updateModel Ex.model])).1 = .ok j5 ∧
    ∀ log z, globalLoss Ex.env log ⟨Ex.model, Ex.scalar 0, Ex.scalar 0, [("t", j2)]⟩ ⟨13, fun _ => z⟩ = .ok (3 * z ^ 2) ∧
      globalLoss Ex.env log ⟨Ex.model, Ex.scalar 0, Ex.scalar 0, [("t", j5)]⟩ ⟨13, fun _ => z⟩ = .ok (3 * z ^ 2) := by
  have key : ∀ w, ∃ c0 j, newJointTask { Ex.taskArgs with cost := Ex.scalar w } (some [0, 1]) = .ok c0 ∧
      (jaxComponent (runOps c0 [.updateModel Ex.model])).1 = .ok j ∧ ∀ log z,
      globalLoss Ex.env log ⟨Ex.model, Ex.scalar 0, Ex.scalar 0, [("t", j)]⟩ ⟨13, fun _ => z⟩ = .ok (3 * z ^ 2) := by
    intro w
    obtain ⟨c0, j, h0, hj, hcl, hm, hz⟩ := GEx.task w
    refine ⟨c0, j, h0, hj, fun log z => ?_⟩
    obtain ⟨e, g, he, h1, h2, h3⟩ := hz z
    have ht : Table Ex.env (update Ex.env Ex.model ⟨13, fun _ => z⟩)
        ⟨Ex.model, Ex.scalar 0, Ex.scalar 0, [("t", j)]⟩ [(j, e, g)] := ⟨rfl, by simpa using he⟩
    have hc : ∀ x ∈ [(j, e, g)], x.1.cls ≠ .constraint := by simp [hcl]
    rw [C37_loss ht hc]
    simp [lossTerm, hcl, h1, h2, h3]
  obtain ⟨c2, j2, a1, a2, a3⟩ := key 2
  obtain ⟨c5, j5, b1, b2, b3⟩ := key 5
  exact ⟨c2, c5, j2, j5, a1, b1, a2, b2, fun log z => ⟨a3 log z, b3 log z⟩⟩

/-- C39: heights 1/4 and 1/2 (strictly larger penalty), and -5 and -1 (same penalty). -/
example : ∃ (j : JaxComp ℚ) (d d' : MjData ℚ) (h h' g : Vec ℚ), j.cls = .barrier ∧ Evaluates Ex.env d j h g ∧
    Evaluates Ex.env d' j h' g ∧ (∀ i < h.len, 0 ≤ g.get i) ∧ (∀ i < h.len, h.get i ≤ h'.get i) ∧
    ∃ i < h.len, 0 < g.get i ∧ h.get i < h'.get i ∧ 1 / 10 ^ 9 < h'.get i ∧ h.get i < 1 := by
  obtain ⟨c0, j, -, -, hcl, hz⟩ := GEx.barrier
  obtain ⟨h, g, he, h1, h2, h3⟩ := hz (1/4)
  obtain ⟨h', g', he', h1', h2', h3'⟩ := hz (1/2)
  have hg : g' = g := Except.ok.inj (he'.2.1.symm.trans he.2.1)
  subst hg
  refine ⟨j, _, _, h, h', g', hcl, he, he', ?_, ?_, 0, by omega, by rw [h3]; norm_num, ?_, ?_, ?_⟩
  · intro i hi; obtain rfl : i = 0 := by omega
    rw [h3]; norm_num
  · intro i hi; obtain rfl : i = 0 := by omega
    rw [h2, h2']; norm_num
  · rw [h2, h2']; norm_num
  · rw [h2']; norm_num
  · rw [h2]; norm_num
example : ∃ (j : JaxComp ℚ) (d d' : MjData ℚ) (h h' g : Vec ℚ), j.cls = .barrier ∧ Evaluates Ex.env d j h g ∧
    Evaluates Ex.env d' j h' g ∧ h.len = 1 ∧ h.get 0 = -5 ∧ h'.get 0 = -1 := by
  obtain ⟨c0, j, -, -, hcl, hz⟩ := GEx.barrier
  obtain ⟨h, g, he, h1, h2, h3⟩ := hz (-5)
  obtain ⟨h', g', he', h1', h2', h3'⟩ := hz (-1)
  have hg : g' = g := Except.ok.inj (he'.2.1.symm.trans he.2.1)
  subst hg
  exact ⟨j, _, _, h, h', g', hcl, he, he', h1, h2, h2'⟩

/-- C40: a compiled constraint. -/
example : ∃ c0 j, (NewComp.modelEquality (K := ℚ) "e" (Ex.scalar 1) true none).run = .ok c0 ∧
    (jaxComponent (runOps c0 [.updateModel Ex.model])).1 = .ok j ∧ j.cls = .constraint := ⟨_, _, rfl, rfl, rfl⟩

/-- C41, C34: gradient descent on a problem with one task. -/
example : ∃ (p : JaxProblem ℚ) (sol : GlobalIKSolution ℚ),
    StepSized (fun (_ : Vec ℚ → ℚ) (q : Vec ℚ) => Vec.smul 6 q) (⟨fun _ => (), fun g _ => (Vec.smul (-(1/10)) g, ())⟩ : Optimizer ℚ Unit) ∧
    globalSolve Ex.env id (fun _ q => Vec.smul 6 q) ⟨fun _ => (), fun g _ => (Vec.smul (-(1/10)) g, ())⟩ (1/2) Ex.model
      ⟨[13], fun _ => 1⟩ () p = .ok (sol, ()) ∧ sol.qOpt.get 12 = 2/5 := by
  obtain ⟨c0, j, -, -, hcl, hm, hz⟩ := GEx.task 2
  obtain ⟨e, g, he, h1, h2, h3⟩ := hz 1
  have ht : Table Ex.env (update Ex.env Ex.model ⟨13, fun _ => 1⟩)
      ⟨Ex.model, Ex.scalar 0, Ex.scalar 0, [("t", j)]⟩ [(j, e, g)] := ⟨rfl, by simpa using he⟩
  have hc : ∀ x ∈ [(j, e, g)], x.1.cls ≠ .constraint := by simp [hcl]
  refine ⟨⟨Ex.model, Ex.scalar 0, Ex.scalar 0, [("t", j)]⟩,
    ⟨⟨13, fun _ => 1 + -(1/10) * (6 * 1)⟩, ⟨13, fun _ => -(1/10) * (6 * 1) / (1/2)⟩⟩,
    ⟨fun _ _ => rfl, fun _ _ => rfl⟩, ?_, ?_⟩
  · unfold globalSolve globalStepFrom globalGrad
    rw [if_neg (by simp [Ex.model])]
    have : globalLoss Ex.env id ⟨Ex.model, Ex.scalar 0, Ex.scalar 0, [("t", j)]⟩ ⟨Ex.model.nq, fun i => 1⟩ = _ := C37_loss ht hc
    simp only [bind, Except.bind, this, List.length_singleton, one_ne_zero, if_false]
    simp only [pure, Except.pure]
    rw [zip_same (by rfl)]
    dsimp only
    rw [if_neg (by norm_num)]
    rfl
  · show (1 : ℚ) + -(1/10) * (6 * 1) = _
    norm_num

end Mjinx.Props
