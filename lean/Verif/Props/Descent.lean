import Verif.Spec.Descent
import Verif.Props.Control
import Verif.Props.GlobalSteps

/-!
# C92: what the global solver computes, in terms of the program
-/

namespace Mjinx.Props
open Spec
set_option linter.unusedSectionVars false
section
variable {K : Type} [Field K] [LinearOrder K]

/-- A component that the loss accepts adds the penalty its attributes say. -/
theorem step_reading {a : Attrs K} {j : JaxComp K} (hC : CompilesTo a j) {env : Env K} {log : K → K} {d : MjData K} {l l' : K}
    (hs : globalStep env log d l j = .ok l') (hz : ∀ e, evalValue env j d = .ok e → (e.len : Int) = j.dim) :
    ∃ t : Reading K, t.attrs = a ∧ evalValue env j d = .ok t.value ∧ ¬ t.isConstraint ∧ l' = l + t.penalty log := by
  have hcls : j.cls ≠ .constraint := by
    intro h; unfold globalStep at hs; rw [h] at hs; cases hs
  have hv : ∃ e, evalValue env j d = .ok e := by
    unfold globalStep at hs
    cases h : j.cls <;> rw [h] at hs
    · exact ⟨_, (Except.bind_eq_ok hs).choose_spec.1⟩
    · exact ⟨_, (Except.bind_eq_ok hs).choose_spec.1⟩
    · cases hs
  obtain ⟨e, he⟩ := hv
  obtain ⟨n, hn, hsh, hg⟩ := hC.gain
  have hgv : j.vectorGain.toVec = .ok ⟨n, fun i => j.vectorGain.get [i]⟩ := by
    unfold Arr.toVec; rw [hsh]
  have hlen : n = e.len := by
    have := hz e he; rw [hC.dim, hn] at this; exact_mod_cast this.symm
  have hga : ∀ r < e.len, j.vectorGain.get [r] = gainAt a.gain r := by
    intro r hr
    unfold gainAt
    rcases hg with ⟨h0, h⟩ | ⟨h1, h⟩
    · rw [if_pos h0]; exact h r (by omega)
    · rw [if_neg (by rw [h1]; simp)]; exact h r (by omega)
  have hstep := globalStep_term (log := log) (d := d) ⟨he, hgv, hlen⟩ hcls l
  rw [hs] at hstep
  injection hstep with hstep
  refine ⟨⟨a, e⟩, rfl, he, ?_, ?_⟩
  · have hK := hC.kind
    unfold Reading.isConstraint
    unfold JaxComp.cls at hcls
    cases hk : a.kind <;> rw [hk] at hK <;> cases hjk : j.kind <;> rw [hjk] at hK hcls <;> simp_all [KindOf]
  · rw [hstep]
    congr 1
    have htask : lossTerm log .task e ⟨n, fun i => j.vectorGain.get [i]⟩ =
        ∑ r ∈ Finset.range e.len, gainAt a.gain r * e.get r ^ 2 := by
      unfold lossTerm
      exact Finset.sum_congr rfl fun r hr => by rw [← hga r (Finset.mem_range.1 hr)]
    have hbar : lossTerm log .barrier e ⟨n, fun i => j.vectorGain.get [i]⟩ =
        - ∑ r ∈ Finset.range e.len, gainAt a.gain r * log (min (max (e.get r) (1 / 10 ^ 9)) 1) := by
      unfold lossTerm
      exact congrArg _ (Finset.sum_congr rfl fun r hr => by rw [← hga r (Finset.mem_range.1 hr)])
    have hK := hC.kind
    unfold Reading.penalty
    cases hk : a.kind <;> rw [hk] at hK <;> cases hjk : j.kind <;> rw [hjk] at hK <;> simp only [KindOf] at hK <;>
      dsimp only
    case modelEquality.modelEquality => exact absurd (by unfold JaxComp.cls; rw [hjk]) hcls
    all_goals
      first
      | (rw [show j.cls = .task by unfold JaxComp.cls; rw [hjk]]; exact htask)
      | (rw [show j.cls = .barrier by unfold JaxComp.cls; rw [hjk]]; exact hbar)

private theorem readings_exist {w : World K} {js : List (String × JaxComp K)} {env : Env K} {log : K → K} {d : MjData K}
    (all : List (String × JaxComp K)) :
    ∀ {pc : List (String × Nat)} {l l' : K}, (∀ nj ∈ js, nj ∈ all) →
    List.Forall₂ (fun (ni : String × Nat) (nj : String × JaxComp K) =>
        ni.1 = nj.1 ∧ ∃ c, w.comps[ni.2]? = some c ∧ CompilesTo c.attrs nj.2) pc js →
    (js.map Prod.snd).foldlM (globalStep env log d) l = .ok l' →
    (∀ nj ∈ js, ∀ e, evalValue env nj.2 d = .ok e → (e.len : Int) = nj.2.dim) →
    ∃ ts : List (Reading K), List.Forall₂ (fun (ni : String × Nat) (t : Reading K) => ∃ c, w.comps[ni.2]? = some c ∧ t.attrs = c.attrs ∧
        ∃ j, (ni.1, j) ∈ all ∧ evalValue env j d = .ok t.value) pc ts ∧
      (∀ t ∈ ts, ¬ t.isConstraint) ∧ l' = l + totalPenalty log ts := by
  induction js with
  | nil =>
    intro pc l l' _ h1 h2 _
    cases h1; cases h2
    exact ⟨[], .nil, by simp, by simp [totalPenalty]⟩
  | cons nj js ih =>
    intro pc l l' hall h1 h2 h3
    cases h1 with
    | cons h1 h1' =>
      obtain ⟨hn, c, hc, hC⟩ := h1
      rw [List.map_cons, List.foldlM_cons] at h2
      obtain ⟨l1, g1, g2⟩ := Except.bind_eq_ok h2
      obtain ⟨t, e1, e2, e3, e4⟩ := step_reading hC g1 (h3 nj (by simp))
      obtain ⟨ts, t1, t2, t3⟩ := ih (fun x hx => hall x (by simp [hx])) h1' g2 (fun x hx => h3 x (by simp [hx]))
      refine ⟨t :: ts, .cons ⟨c, hc, e1, nj.2, ?_, e2⟩ t1, ?_, ?_⟩
      · rw [hn]; exact hall nj (by simp)
      · intro u hu
        rcases List.mem_cons.1 hu with rfl | hu
        · exact e3
        · exact t2 u hu
      · rw [t3, e4, totalPenalty, totalPenalty, List.map_cons, List.sum_cons, add_assoc]

/-- **C92** (the loss): after any program, at every configuration where the values have the declared sizes (C68), a loss that the global
solver accepts is the total penalty of the components of the problem, and none of them is a constraint. -/
theorem C92_loss (ops : List (Op K)) {p : Nat} {J : JaxProblem K}
    (hJ : (step (run World.init ops) (.compile p)).1 = .ok (.compiled J)) {env : Env K} {log : K → K} {q : Vec K}
    (hsz : ValuesSized env J (update env J.model q)) {l : K} (hl : globalLoss env log J q = .ok l) :
    ∃ P ts, (run World.init ops).probs[p]? = some P ∧ ReadingsOf (run World.init ops) P J env (update env J.model q) ts ∧
      (∀ t ∈ ts, ¬ t.isConstraint) ∧ l = totalPenalty log ts := by
  obtain ⟨P, hP, -, -, -, hcomps⟩ := compile_comps ⟨ops, rfl⟩ hJ
  obtain ⟨ts, t1, t2, t3⟩ := readings_exist J.comps (fun _ h => h) hcomps hl hsz
  exact ⟨P, ts, hP, t1, t2, by rw [t3, zero_add]⟩

/-- The value of the loss is determined by the readings: with distinct names there is only one list of readings. -/
theorem readings_unique {w : World K} {P : Prob K} {J : JaxProblem K} (hn : (J.comps.map Prod.fst).Nodup) {env : Env K} {d : MjData K}
    {ts us : List (Reading K)} (ht : ReadingsOf w P J env d ts) (hu : ReadingsOf w P J env d us) : ts = us := by
  have huniq : ∀ {n : String} {j j' : JaxComp K}, (n, j) ∈ J.comps → (n, j') ∈ J.comps → j = j' := by
    intro n j j' h h'
    obtain ⟨i, hi, e⟩ := List.mem_iff_getElem.1 h
    obtain ⟨k, hk, e'⟩ := List.mem_iff_getElem.1 h'
    have : i = k := by
      refine (List.Nodup.getElem_inj_iff hn (hi := by simpa using hi) (hj := by simpa using hk)).1 ?_
      simp [e, e']
    subst this
    rw [e] at e'
    exact (Prod.mk.inj e').2
  unfold ReadingsOf at ht hu
  generalize P.comps = pc at ht hu
  induction ht generalizing us with
  | nil => cases hu; rfl
  | cons h _ ih =>
    cases hu with
    | cons h' hs' =>
      rw [ih hs']
      congr 1
      obtain ⟨c, hc, e, j, hj, hv⟩ := h
      obtain ⟨c', hc', e', j', hj', hv'⟩ := h'
      rw [hc] at hc'
      cases hc'
      cases huniq hj hj'
      rw [hv] at hv'
      injection hv' with hv'
      rename_i t _ _ _ t' _
      cases t; cases t'
      simp_all

end

/-- **C92** (one step): over the reals, with plain gradient descent of learning rate `r`, after any program whose loss is defined at every
configuration, `solve` moves every coordinate of the configuration against the partial derivative of the total penalty of the
components of the problem. -/
theorem C92_step (ops : List (Op ℝ)) {p : Nat} {J : JaxProblem ℝ}
    (hJ : (step (run World.init ops) (.compile p)).1 = .ok (.compiled J)) {env : Env ℝ}
    (hsz : ∀ x : Vec ℝ, x.len = J.model.nq → ValuesSized env J (update env J.model x))
    (hdef : ∀ x : Vec ℝ, x.len = J.model.nq → ∃ l, globalLoss env Real.log J x = .ok l)
    {r dt : ℝ} {q : Arr ℝ} {sol : GlobalIKSolution ℝ}
    (h : globalSolve env Real.log gradR (sgd r) dt J.model q () J = .ok (sol, ())) :
    ∃ P, (run World.init ops).probs[p]? = some P ∧ ∃ loss : (Nat → ℝ) → ℝ,
      (∀ x, ∃ ts, ReadingsOf (run World.init ops) P J env (update env J.model ⟨P.model.nq, x⟩) ts ∧ (∀ t ∈ ts, ¬ t.isConstraint) ∧
        loss x = totalPenalty Real.log ts) ∧
      sol.qOpt.len = P.model.nq ∧ sol.vOpt.len = P.model.nq ∧ ∀ i < P.model.nq,
        sol.qOpt.get i = q.get [i] - r * deriv (fun s => loss (Function.update (fun k => q.get [k]) i s)) (q.get [i]) ∧
        sol.vOpt.get i = (sol.qOpt.get i - q.get [i]) / dt := by
  obtain ⟨P, hP, e1, -, -, -⟩ := compile_comps ⟨ops, rfl⟩ hJ
  refine ⟨P, hP, fun x => ((globalLoss env Real.log J ⟨J.model.nq, x⟩).toOption).getD 0, ?_, ?_⟩
  · intro x
    rw [← e1]
    obtain ⟨l, hl⟩ := hdef ⟨J.model.nq, x⟩ rfl
    obtain ⟨P', ts, hP', h1, h2, h3⟩ := C92_loss ops hJ (hsz ⟨J.model.nq, x⟩ rfl) hl
    rw [hP] at hP'
    cases hP'
    refine ⟨ts, h1, h2, ?_⟩
    show ((globalLoss env Real.log J ⟨J.model.nq, x⟩).toOption).getD 0 = _
    rw [hl]
    exact h3
  · rw [← e1]
    unfold globalSolve at h
    split at h
    · cases h
    unfold globalStepFrom at h
    obtain ⟨g, hg, h⟩ := Except.bind_eq_ok h
    obtain ⟨qo, hqo, h⟩ := Except.bind_eq_ok h
    unfold globalGrad at hg
    obtain ⟨l, hl, hg⟩ := Except.bind_eq_ok hg
    split at hg
    · cases hg
    cases hg
    rw [zip_same (by rfl)] at hqo
    cases hqo
    split at h
    · cases h
    cases h
    refine ⟨rfl, rfl, fun i hi => ⟨?_, ?_⟩⟩
    · simp only [sgd, gradR]
      ring
    · simp only [Vec.map]
      ring

/-- A joint task and joint limits for the hinge of a model with a ball joint and a hinge: the hypotheses of `C92_loss` and `C92_step` hold, at
every configuration. -/
example (q : Arr ℝ) (hq : q.shape = [5]) : ∃ (ops : List (Op ℝ)) (J : JaxProblem ℝ),
    (step (run World.init ops) (.compile 0)).1 = .ok (.compiled J) ∧ J.comps.length = 2 ∧
      (∀ x : Vec ℝ, x.len = J.model.nq → ValuesSized LEx.env J (update LEx.env J.model x)) ∧
      (∀ x : Vec ℝ, x.len = J.model.nq → ∃ l, globalLoss LEx.env Real.log J x = .ok l) ∧
      ∃ sol, globalSolve LEx.env Real.log gradR (sgd (1 / 4)) 1 J.model q () J = .ok (sol, ()) := by
  have h1 : initTaskA GSEx.args.cost GSEx.args.lm = .ok { cost := Arr.scalar 1, lmDamping := 0 } := by
    unfold initTaskA
    have : ¬ GSEx.args.lm < 0 := lt_irrefl _
    rw [if_neg this, if_neg (by decide)]
    rfl
  have h0 : newJointTask GSEx.args none = .ok (Comp.fresh
    { name := "t", model := none, gain := Arr.scalar 1, gainFn := id, dim := -1, mask := none, maskIdxs := [],
      kind := .jointTask { cost := Arr.scalar 1, lmDamping := 0 } none none none }) := by
    unfold newJointTask
    rw [h1]
    rfl
  refine ⟨[.newComp (.jointTask GSEx.args none), .newComp (.jointBarrier { name := "b", gain := Arr.scalar 2, sdg := 1 } none none none),
    .newProblem LEx.model (Arr.scalar (-1)) (Arr.scalar 1), .add 0 0, .add 0 1], ?_⟩
  have hr : ∀ rest, run World.init (.newComp (.jointTask GSEx.args none) :: rest) = run (⟨[Comp.fresh
    { name := "t", model := none, gain := Arr.scalar 1, gainFn := id, dim := -1, mask := none, maskIdxs := [],
      kind := .jointTask { cost := Arr.scalar 1, lmDamping := 0 } none none none }], []⟩ : World ℝ) rest := by
    intro rest
    show run (step World.init (.newComp (.jointTask GSEx.args none))).2 rest = _
    congr 1
    unfold step NewComp.run
    dsimp only
    rw [h0]
    rfl
  rw [hr]
  refine ⟨_, rfl, rfl, ?_, ?_, ?_⟩
  · intro x hx nj hnj e he
    fin_cases hnj
    · cases he; rfl
    · cases he; rfl
  · intro x hx
    exact ⟨_, rfl⟩
  · unfold globalSolve
    rw [if_neg (by rw [hq]; decide)]
    exact ⟨_, if_neg one_ne_zero⟩

end Mjinx.Props
