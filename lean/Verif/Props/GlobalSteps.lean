import Verif.Props.GlobalIK
import Verif.Props.Integrate
import Mathlib.Analysis.Calculus.Deriv.Pow
import Mathlib.Analysis.Calculus.Deriv.Inv
import Mathlib.Analysis.Calculus.Deriv.Pi
import Mathlib.Analysis.Calculus.FDeriv.Pow
import Mathlib.Analysis.SpecificLimits.Basic

/-!
# C69, C70: iterating the global IK solver; quaternions in its result
-/

namespace Mjinx.Spec

/-- The gradient: entry `i` is the partial derivative by coordinate `i`. -/
noncomputable def gradR : Grad ℝ := fun f q =>
  ⟨q.len, fun i => deriv (fun s => f ⟨q.len, Function.update q.get i s⟩) (q.get i)⟩

/-- `optax.sgd(r)`: the step is `-r` times the gradient; there is no state. -/
def sgd {K : Type} [Field K] (r : K) : Optimizer K Unit := ⟨fun _ => (), fun g _ => (⟨g.len, fun i => -r * g.get i⟩, ())⟩

end Mjinx.Spec

namespace Mjinx.Props
open Spec Finset
set_option linter.unusedSectionVars false

theorem sgd_sized (r : ℝ) : StepSized gradR (sgd r) := ⟨fun _ _ => rfl, fun _ _ => rfl⟩

section
variable {K : Type} [Field K] [LinearOrder K]

theorem consecutive_ge {nq nv : Nat} : ∀ {q v : Nat} {ts : List JntType} {as bs : List Nat},
    Consecutive nq nv q v ts as bs → ∀ a ∈ as, q ≤ a
  | _, _, [], [], [], _, a, ha => by cases ha
  | q, v, t :: ts, a :: as, b :: bs, h, x, hx => by
    obtain ⟨h1, h2, h3⟩ := h
    rcases List.mem_cons.1 hx with rfl | hx
    · exact h1.ge
    · exact le_trans (Nat.le_add_right _ _) (consecutive_ge h3 x hx)

theorem consecutive_lt {nq nv : Nat} : ∀ {q v : Nat} {ts : List JntType} {as bs : List Nat},
    Consecutive nq nv q v ts as bs → as.Pairwise (· < ·)
  | _, _, [], [], [], _ => List.Pairwise.nil
  | q, v, t :: ts, a :: as, b :: bs, h => by
    obtain ⟨h1, h2, h3⟩ := h
    refine List.pairwise_cons.2 ⟨fun x hx => ?_, consecutive_lt h3⟩
    have := consecutive_ge h3 x hx
    have ht : 0 < t.nq := by cases t <;> decide
    omega

theorem zip_fst_sublist {α β : Type} : ∀ (a : List α) (b : List β), ((a.zip b).map Prod.fst).Sublist a
  | [], _ => by simp
  | _ :: _, [] => by simp
  | x :: a, y :: b => by simpa using zip_fst_sublist a b

theorem selectedJoints_nodup (m : MjModel K) (fm : Option (List Int)) : (selectedJoints m fm).Nodup := by
  have hs : (scalarJoints m).Nodup := List.Nodup.filter _ List.nodup_range
  cases fm with
  | none => exact hs
  | some f =>
    have h1 : List.Sublist ((((scalarJoints m).zip f).filter (fun x => x.2 ≠ 0)).map Prod.fst) (((scalarJoints m).zip f).map Prod.fst) :=
      List.Sublist.map _ List.filter_sublist
    refine List.Nodup.sublist h1 ?_
    exact List.Nodup.sublist (zip_fst_sublist _ _) hs

theorem selected_qpos_inj {m : MjModel K} (hw : JointsWF m) {fm : Option (List Int)} {i k : Nat}
    (hi : i < (selectedJoints m fm).length) (hk : k < (selectedJoints m fm).length)
    (h : qposOf m (selectedJoints m fm)[i] = qposOf m (selectedJoints m fm)[k]) : i = k := by
  have hl : ∀ j ∈ selectedJoints m fm, j < m.jntQposadr.length := by
    intro j hj
    have := mem_selectedJoints hj
    have h2 := (List.mem_filter.1 this).1
    rw [List.mem_range] at h2
    rw [(consecutive_lengths hw.addr).1]; exact h2
  have hn : m.jntQposadr.Nodup := (consecutive_lt hw.addr).imp (fun h => Nat.ne_of_lt h)
  have a1 := hl _ (List.getElem_mem hi)
  have a2 := hl _ (List.getElem_mem hk)
  unfold qposOf at h
  rw [List.getD_eq_getElem m.jntQposadr _ a1, List.getD_eq_getElem m.jntQposadr _ a2] at h
  have := (List.Nodup.getElem_inj_iff hn).1 h
  exact (List.Nodup.getElem_inj_iff (selectedJoints_nodup m fm)).1 this

end

section
variable {m : MjModel ℝ}

/-- The partial derivatives of a sum of weighted squared errors of different coordinates. -/
theorem deriv_squares {n : Nat} {g t : Nat → ℝ} {adr : Nat → Nat} (hinj : ∀ i < n, ∀ k < n, adr i = adr k → i = k)
    (q : Nat → ℝ) (c : Nat) :
    (∀ i < n, adr i = c → deriv (fun s => ∑ k ∈ range n, g k * (Function.update q c s (adr k) - t k) ^ 2) (q c) =
      2 * g i * (q c - t i)) ∧
    ((∀ i < n, adr i ≠ c) → deriv (fun s => ∑ k ∈ range n, g k * (Function.update q c s (adr k) - t k) ^ 2) (q c) = 0) := by
  have key : HasDerivAt (fun s => ∑ k ∈ range n, g k * (Function.update q c s (adr k) - t k) ^ 2)
      (∑ k ∈ range n, if adr k = c then 2 * g k * (q c - t k) else 0) (q c) := by
    refine HasDerivAt.fun_sum fun k _ => ?_
    by_cases hk : adr k = c
    · rw [if_pos hk]
      have : (fun s => g k * (Function.update q c s (adr k) - t k) ^ 2) = fun s => g k * (s - t k) ^ 2 := by
        funext s; rw [hk, Function.update_self]
      rw [this]
      have h1 := (((hasDerivAt_id (q c)).sub_const (t k)).pow 2).const_mul (g k)
      refine h1.congr_deriv ?_
      simp; ring
    · rw [if_neg hk]
      have : (fun s => g k * (Function.update q c s (adr k) - t k) ^ 2) = fun _ => g k * (q (adr k) - t k) ^ 2 := by
        funext s; rw [Function.update_of_ne hk]
      rw [this]
      exact hasDerivAt_const _ _
  rw [key.deriv]
  constructor
  · intro i hi hc
    rw [sum_eq_single i]
    · rw [if_pos hc]
    · intro k hk hne
      rw [if_neg]
      exact fun h => hne (hinj k (mem_range.1 hk) i hi (h.trans hc.symm))
    · intro h; exact absurd (mem_range.2 hi) h
  · intro h
    exact sum_eq_zero fun k hk => if_neg (h k (mem_range.1 hk))

/-- **C69** (one step): with plain gradient descent of learning rate `r` and one joint task, the solver step multiplies the error of each
selected joint by `1 - 2 r gain` and leaves all other coordinates alone. -/
theorem C69_step {a : TaskArgs ℝ} {fm : Option (List Int)} {c0 c : Comp ℝ} {j : JaxComp ℝ}
    {tq : Arr ℝ} (h0 : newJointTask a fm = .ok c0) (hr : CleanRun c0 c) (hj : (jaxComponent c).1 = .ok j)
    (hw : JointsWF j.model) (ht : targetQ c = some tq) (hnd : tq.ndim ≤ 1) {env : Env ℝ}
    (hk : KeepsScalars env j.model) {p : JaxProblem ℝ} (hp : p.comps.map Prod.snd = [j]) (hpm : p.model = j.model)
    (log : ℝ → ℝ) {r dt : ℝ} (hdt : dt ≠ 0) {q : Arr ℝ} (hq : q.shape = [j.model.nq]) :
    ∃ sol, globalSolve env log gradR (sgd r) dt j.model q () p = .ok (sol, ()) ∧ sol.qOpt.len = j.model.nq ∧
      (∀ i (hi : i < (selectedJoints j.model fm).length),
        sol.qOpt.get (qposOf j.model (selectedJoints j.model fm)[i]) - entry tq i =
          (1 - 2 * r * j.vectorGain.get [i]) * (q.get [qposOf j.model (selectedJoints j.model fm)[i]] - entry tq i)) ∧
      ∀ x, (∀ i (hi : i < (selectedJoints j.model fm).length), qposOf j.model (selectedJoints j.model fm)[i] ≠ x) →
        sol.qOpt.get x = q.get [x] := by
  obtain ⟨w, lm, tq', hc, t, qi, hkind, -, -⟩ := jointTask_compiled h0 hr hj hw
  have e1 : tq' = tq := by simpa [targetQ, hkind] using ht
  subst e1
  have hcl : j.cls = .task := by unfold JaxComp.cls; rw [hc.kind]
  have hadr : ∀ i (hi : i < (selectedJoints j.model fm).length),
      ((selectedJoints j.model fm).map (qposOf j.model)).getD i 0 = qposOf j.model (selectedJoints j.model fm)[i] := by
    intro i hi
    rw [List.getD_eq_getElem ((selectedJoints j.model fm).map (qposOf j.model)) _ (by simpa using hi), List.getElem_map]
  have hloss : ∀ x : Vec ℝ, x.len = j.model.nq → globalLoss env log p x =
      .ok (∑ k ∈ range (selectedJoints j.model fm).length, j.vectorGain.get [k] *
        (x.get (((selectedJoints j.model fm).map (qposOf j.model)).getD k 0) - entry tq' k) ^ 2) := by
    intro x hx
    obtain ⟨e, J, x1, -, x3, -, -, x6⟩ := jointTask_eval hc hw hnd env _ (hk _ hx).1
    have hev : Evaluates env (update env p.model x) j e ⟨(selectedJoints j.model fm).length, fun i => j.vectorGain.get [i]⟩ :=
      ⟨by rw [hpm]; exact x1, toVec_of_shape hc.gain, x3.symm⟩
    have hT : Table env (update env p.model x) p [(j, e, ⟨(selectedJoints j.model fm).length, fun i => j.vectorGain.get [i]⟩)] :=
      ⟨by rw [hp]; rfl, by simpa using hev⟩
    rw [C37_loss hT (by simp [hcl])]
    simp only [List.map_cons, List.map_nil, List.sum_cons, List.sum_nil, add_zero, hcl, lossTerm, x3]
    congr 1
    refine sum_congr rfl fun i hi => ?_
    rw [mem_range] at hi
    rw [(x6 i hi).1, hadr i hi, (hk x hx).2 _ (mem_selectedJoints (List.getElem_mem hi))]
  set q0 : Vec ℝ := ⟨j.model.nq, fun i => q.get [i]⟩ with hq0
  have hlen : p.comps.length ≠ 0 := by
    have := congrArg List.length hp
    simp at this; omega
  have hg : globalGrad env log gradR p q0 = .ok ⟨j.model.nq, fun c => deriv (fun s => ∑ k ∈ range (selectedJoints j.model fm).length,
      j.vectorGain.get [k] * (Function.update q0.get c s (((selectedJoints j.model fm).map (qposOf j.model)).getD k 0) -
        entry tq' k) ^ 2) (q0.get c)⟩ := by
    unfold globalGrad
    simp only [bind, Except.bind, hloss q0 rfl, if_neg hlen, pure, Except.pure, gradR]
    congr 2
    funext c
    congr 1
    funext s
    rw [hloss _ rfl]
    rfl
  set D : Nat → ℝ := fun c => deriv (fun s => ∑ k ∈ range (selectedJoints j.model fm).length,
      j.vectorGain.get [k] * (Function.update q0.get c s (((selectedJoints j.model fm).map (qposOf j.model)).getD k 0) -
        entry tq' k) ^ 2) (q0.get c) with hD
  refine ⟨⟨⟨j.model.nq, fun c => q0.get c + -r * D c⟩, ⟨j.model.nq, fun c => -r * D c / dt⟩⟩, ?_, rfl, ?_, ?_⟩
  · unfold globalSolve
    rw [if_neg (by simpa using hq)]
    unfold globalStepFrom
    simp only [bind, Except.bind, ← hq0, hg, sgd]
    rw [zip_same (by rfl)]
    simp only [if_neg hdt, pure, Except.pure, Vec.map]
    rfl
  all_goals
    have hinj : ∀ i < (selectedJoints j.model fm).length, ∀ k < (selectedJoints j.model fm).length,
        ((selectedJoints j.model fm).map (qposOf j.model)).getD i 0 = ((selectedJoints j.model fm).map (qposOf j.model)).getD k 0 → i = k := by
      intro i hi k hk h
      rw [hadr i hi, hadr k hk] at h
      exact selected_qpos_inj hw hi hk h
  · intro i hi
    have := (deriv_squares (g := fun k => j.vectorGain.get [k]) (t := entry tq') hinj q0.get
      (qposOf j.model (selectedJoints j.model fm)[i])).1 i hi (hadr i hi)
    dsimp only at this ⊢
    simp only [hD]
    rw [this]
    show q.get _ + _ - _ = _
    ring
  · intro x hx
    have := (deriv_squares (g := fun k => j.vectorGain.get [k]) (t := entry tq') hinj q0.get x).2
      (fun i hi => by rw [hadr i hi]; exact hx i hi)
    dsimp only at this ⊢
    simp only [hD]
    rw [this]
    show q.get _ + _ = _
    ring

/-- **C69**: let the solver run for ever, every step starting at the configuration the previous one returned.  All steps succeed; after
`n` steps the error of each selected joint is the initial one times `(1 - 2 r gain)^n`; with `0 < r gain < 1` it tends to zero. -/
theorem C69_converges {a : TaskArgs ℝ} {fm : Option (List Int)} {c0 c : Comp ℝ} {j : JaxComp ℝ}
    {tq : Arr ℝ} (h0 : newJointTask a fm = .ok c0) (hr : CleanRun c0 c) (hj : (jaxComponent c).1 = .ok j)
    (hw : JointsWF j.model) (ht : targetQ c = some tq) (hnd : tq.ndim ≤ 1) {env : Env ℝ}
    (hk : KeepsScalars env j.model) {p : JaxProblem ℝ} (hp : p.comps.map Prod.snd = [j]) (hpm : p.model = j.model)
    (log : ℝ → ℝ) {r dt : ℝ} (hdt : dt ≠ 0) {qs : Nat → Vec ℝ} (hq : (qs 0).len = j.model.nq)
    (hstep : ∀ n sol, globalSolve env log gradR (sgd r) dt j.model (qs n).toArr () p = .ok (sol, ()) → qs (n + 1) = sol.qOpt) :
    (∀ n, ∃ sol, globalSolve env log gradR (sgd r) dt j.model (qs n).toArr () p = .ok (sol, ())) ∧
    ∀ i (hi : i < (selectedJoints j.model fm).length),
      (∀ n, (qs n).get (qposOf j.model (selectedJoints j.model fm)[i]) - entry tq i =
        (1 - 2 * r * j.vectorGain.get [i]) ^ n * ((qs 0).get (qposOf j.model (selectedJoints j.model fm)[i]) - entry tq i)) ∧
      (0 < r * j.vectorGain.get [i] → r * j.vectorGain.get [i] < 1 →
        Filter.Tendsto (fun n => (qs n).get (qposOf j.model (selectedJoints j.model fm)[i])) Filter.atTop (nhds (entry tq i))) := by
  have hlen : ∀ n, (qs n).len = j.model.nq := by
    intro n
    induction n with
    | zero => exact hq
    | succ n ih =>
      obtain ⟨sol, s1, s2, -⟩ := C69_step h0 hr hj hw ht hnd hk hp hpm log (r := r) hdt (q := (qs n).toArr) (by simp [Vec.toArr, ih])
      rw [hstep n sol s1, s2]
  have hs := fun n => C69_step h0 hr hj hw ht hnd hk hp hpm log (r := r) hdt (q := (qs n).toArr) (by simp [Vec.toArr, hlen n])
  refine ⟨fun n => ?_, fun i hi => ?_⟩
  · obtain ⟨sol, s1, -⟩ := hs n
    exact ⟨sol, s1⟩
  · have hn : ∀ n, (qs n).get (qposOf j.model (selectedJoints j.model fm)[i]) - entry tq i =
        (1 - 2 * r * j.vectorGain.get [i]) ^ n * ((qs 0).get (qposOf j.model (selectedJoints j.model fm)[i]) - entry tq i) := by
      intro n
      induction n with
      | zero => simp
      | succ n ih =>
        obtain ⟨sol, s1, -, s3, -⟩ := hs n
        have := s3 i hi
        rw [hstep n sol s1, this, pow_succ']
        have e : (qs n).toArr.get [qposOf j.model (selectedJoints j.model fm)[i]] = (qs n).get (qposOf j.model (selectedJoints j.model fm)[i]) := rfl
        rw [e, ih]
        ring
    refine ⟨hn, fun g1 g2 => ?_⟩
    have h1 : Filter.Tendsto (fun n : Nat => (1 - 2 * r * j.vectorGain.get [i]) ^ n) Filter.atTop (nhds 0) := by
      apply tendsto_pow_atTop_nhds_zero_of_abs_lt_one
      rw [abs_lt]
      constructor <;> nlinarith
    have h2 := (h1.mul_const ((qs 0).get (qposOf j.model (selectedJoints j.model fm)[i]) - entry tq i)).add_const (entry tq i)
    rw [zero_mul, zero_add] at h2
    refine h2.congr fun n => ?_
    rw [← hn n]; ring

/-- The configurations of repeated solver steps; the hypothesis `hstep` of C69 holds for them. -/
noncomputable def globalRun (env : Env ℝ) (log : ℝ → ℝ) (r dt : ℝ) (m : MjModel ℝ) (p : JaxProblem ℝ) (q : Vec ℝ) : Nat → Vec ℝ
  | 0 => q
  | n + 1 => match globalSolve env log gradR (sgd r) dt m (globalRun env log r dt m p q n).toArr () p with
    | .ok (sol, _) => sol.qOpt
    | .error _ => q

namespace GSEx
noncomputable def args : TaskArgs ℝ := { name := "t", cost := Arr.scalar 1, gain := Arr.scalar 1, lm := 0 }

/-- A joint task on the hinge of the model with a ball joint and a hinge (gain 1, target 0), learning rate 1/4: the hypotheses of C69 hold,
and the error is halved in every step. -/
theorem task : ∃ (c0 c : Comp ℝ) (j : JaxComp ℝ) (tq : Arr ℝ), newJointTask args none = .ok c0 ∧ CleanRun c0 c ∧
    (jaxComponent c).1 = .ok j ∧ j.model = LEx.model ∧ targetQ c = some tq ∧ tq.ndim ≤ 1 ∧ KeepsScalars LEx.env LEx.model ∧
    j.vectorGain.get [0] = 1 * 1 ∧ entry tq 0 = 0 := by
  have h1 : initTaskA args.cost args.lm = .ok { cost := Arr.scalar 1, lmDamping := 0 } := by
    unfold initTaskA
    have : ¬ args.lm < 0 := lt_irrefl _
    rw [if_neg this, if_neg (by decide)]
    rfl
  have h0 : newJointTask args none = .ok (Comp.fresh
    { name := "t", model := none, gain := Arr.scalar 1, gainFn := id, dim := -1, mask := none, maskIdxs := [],
      kind := .jointTask { cost := Arr.scalar 1, lmDamping := 0 } none none none }) := by
    unfold newJointTask
    rw [h1]
    rfl
  refine ⟨_, _, _, _, h0, .step (.updateModel LEx.model) .refl (fun m h => ?_), rfl, rfl, rfl, by decide,
    fun _ h => ⟨h, fun _ _ => rfl⟩, rfl, rfl⟩
  rfl
end GSEx

example : ∃ (j : JaxComp ℝ), j.model = LEx.model ∧ selectedJoints LEx.model none = [1] ∧
    ∀ n, (globalRun LEx.env Real.log (1 / 4) 1 LEx.model ⟨LEx.model, Arr.scalar 0, Arr.scalar 0, [("t", j)]⟩ LEx.q n).get 4 = (1 / 2) ^ n * 2 := by
  obtain ⟨c0, c, j, tq, h0, hr, hj, hm, ht, hnd, hk, hg, he⟩ := GSEx.task
  refine ⟨j, hm, by decide, ?_⟩
  obtain ⟨-, H⟩ := C69_converges h0 hr hj (by rw [hm]; exact LEx.model_wf) ht hnd (by rw [hm]; exact hk)
    (p := ⟨LEx.model, Arr.scalar 0, Arr.scalar 0, [("t", j)]⟩) rfl hm.symm Real.log (r := 1 / 4) (dt := 1) one_ne_zero
    (qs := globalRun LEx.env Real.log (1 / 4) 1 LEx.model ⟨LEx.model, Arr.scalar 0, Arr.scalar 0, [("t", j)]⟩ LEx.q)
    (by rw [hm]; rfl) (fun n sol h => by
      rw [hm] at h
      show (match globalSolve LEx.env Real.log gradR (sgd (1 / 4)) 1 LEx.model _ () _ with
        | .ok (sol, _) => sol.qOpt
        | .error _ => LEx.q) = _
      rw [h])
  have hsel : selectedJoints j.model none = [1] := by rw [hm]; decide
  have h2 := (H 0 (by rw [hsel]; decide)).1
  have hx : qposOf j.model ((selectedJoints j.model none)[0]'(by rw [hsel]; decide)) = 4 := by
    simp only [hm]; rfl
  intro n
  have := h2 n
  rw [hx, he, hg, sub_zero, sub_zero] at this
  rw [this]
  have h3 : (globalRun LEx.env Real.log (1 / 4) 1 LEx.model ⟨LEx.model, Arr.scalar 0, Arr.scalar 0, [("t", j)]⟩ LEx.q 0).get 4 = 2 := by
    show LEx.q.get 4 = 2
    simp [LEx.q]
  rw [h3]
  norm_num

/-! ### C70: quaternions in the result -/

theorem normSq_quatAt (f : Nat → ℝ) (adr : Nat) : Quaternion.normSq (quatAt f adr) = ∑ b : Fin 4, f (adr + b) ^ 2 := by
  rw [Quaternion.normSq_def', Fin.sum_univ_four]
  rfl

theorem consecutive_blocks {nq nv : Nat} : ∀ {q v : Nat} {ts : List JntType} {as bs : List Nat},
    Consecutive nq nv q v ts as bs → ∀ k l, k < l → l < as.length → as.getD k 0 + (ts.getD k .hinge).nq ≤ as.getD l 0
  | _, _, [], [], [], _, k, l, hk, hl => by cases hl
  | q, v, t :: ts, a :: as, b :: bs, h, k, l, hk, hl => by
    obtain ⟨h1, h2, h3⟩ := h
    match l, k with
    | l + 1, 0 =>
      have hl' : l < as.length := by simpa using hl
      simp only [List.getD_cons_zero, List.getD_cons_succ]
      rw [List.getD_eq_getElem as _ hl', h1]
      exact consecutive_ge h3 _ (List.getElem_mem hl')
    | l + 1, k + 1 =>
      simp only [List.getD_cons_succ]
      exact consecutive_blocks h3 k l (by omega) (by simpa using hl)

/-- What holds of **C70**: a problem with one joint task leaves all quaternions alone, so unit quaternions stay unit quaternions.
Missing: all other tasks, for which the claim is false (`C70_norm_grows`, `C70_wrong`). -/
theorem C70_joint_task_partial {a : TaskArgs ℝ} {fm : Option (List Int)} {c0 c : Comp ℝ} {j : JaxComp ℝ}
    {tq : Arr ℝ} (h0 : newJointTask a fm = .ok c0) (hr : CleanRun c0 c) (hj : (jaxComponent c).1 = .ok j)
    (hw : JointsWF j.model) (ht : targetQ c = some tq) (hnd : tq.ndim ≤ 1) {env : Env ℝ}
    (hk : KeepsScalars env j.model) {p : JaxProblem ℝ} (hp : p.comps.map Prod.snd = [j]) (hpm : p.model = j.model)
    (log : ℝ → ℝ) {r dt : ℝ} (hdt : dt ≠ 0) {q : Arr ℝ} (hq : q.shape = [j.model.nq])
    (hu : UnitQuats j.model ⟨j.model.nq, fun i => q.get [i]⟩) :
    ∃ sol, globalSolve env log gradR (sgd r) dt j.model q () p = .ok (sol, ()) ∧ UnitQuats j.model sol.qOpt := by
  obtain ⟨sol, s1, s2, s3, s4⟩ := C69_step h0 hr hj hw ht hnd hk hp hpm log (r := r) hdt hq
  refine ⟨sol, s1, fun k adr ha => ?_⟩
  rw [← hu k adr ha, normSq_quatAt, normSq_quatAt]
  refine Finset.sum_congr rfl fun b _ => ?_
  have hb := b.2
  rw [s4]
  intro i hi he
  set l := (selectedJoints j.model fm)[i] with hl
  have hsl : l ∈ scalarJoints j.model := mem_selectedJoints (List.getElem_mem hi)
  obtain ⟨hl1, hl2⟩ := List.mem_filter.1 hsl
  rw [List.mem_range] at hl1
  have hlen := (consecutive_lengths hw.addr).1
  have hk1 : k < j.model.jntType.length := by
    by_contra hk1
    rw [List.getD_eq_default _ _ (by omega)] at ha
    cases ha
  have hkl : k ≠ l := by
    rintro rfl
    rw [List.getD_eq_getElem j.model.jntType _ hl1] at ha hl2
    cases ht : j.model.jntType[l] <;> rw [ht] at ha hl2 <;> first | exact absurd hl2 (by decide) | cases ha
  have hblk : adr + 4 ≤ qposOf j.model k + (j.model.jntType.getD k .hinge).nq ∧ qposOf j.model k ≤ adr := by
    unfold qposOf
    cases ht : j.model.jntType.getD k .hinge <;> rw [ht] at ha <;> cases ha
    · simp [JntType.nq]
    · simp [JntType.nq]
  rcases Nat.lt_or_gt_of_ne hkl with h | h
  · have := consecutive_blocks hw.addr k l h (by omega)
    unfold qposOf at *
    omega
  · have := consecutive_blocks hw.addr l k h (by omega)
    have h1 : (j.model.jntType.getD l .hinge).nq = 1 := by
      apply nq_of_scalar
      rw [List.getD_eq_getElem j.model.jntType _ hl1] at hl2 ⊢
      exact hl2
    unfold qposOf at *
    omega

/-- The configuration with the quaternion at `adr` replaced. -/
def withQuat (q : Nat → ℝ) (adr : Nat) (x : Fin 4 → ℝ) : Nat → ℝ :=
  fun i => if h : adr ≤ i ∧ i < adr + 4 then x ⟨i - adr, by omega⟩ else q i

theorem withQuat_at (q : Nat → ℝ) (adr : Nat) (x : Fin 4 → ℝ) (b : Fin 4) : withQuat q adr x (adr + b) = x b := by
  unfold withQuat
  rw [dif_pos ⟨by omega, by omega⟩]
  congr 1
  apply Fin.ext
  show adr + (b : Nat) - adr = b
  omega

theorem withQuat_update (q : Nat → ℝ) (adr : Nat) (b : Fin 4) (s : ℝ) :
    withQuat q adr (Function.update (fun b : Fin 4 => q (adr + b)) b s) = Function.update q (adr + b) s := by
  funext i
  unfold withQuat
  by_cases hi : adr ≤ i ∧ i < adr + 4
  · rw [dif_pos hi]
    by_cases hb : i = adr + b
    · subst hb
      have : (⟨adr + (b : Nat) - adr, by omega⟩ : Fin 4) = b := Fin.ext (by show adr + (b : Nat) - adr = b; omega)
      rw [this, Function.update_self, Function.update_self]
    · rw [Function.update_of_ne hb, Function.update_of_ne]
      · show q (adr + (i - adr)) = q i
        congr 1; omega
      · intro h
        apply hb
        have := congrArg Fin.val h
        dsimp only at this
        omega
  · rw [dif_neg hi, Function.update_of_ne]
    intro h; subst h; apply hi; omega

/-- The value of a function of the four quaternion coordinates that does not depend on the norm has a gradient orthogonal to the quaternion. -/
theorem euler_orthogonal {G : (Fin 4 → ℝ) → ℝ} {x : Fin 4 → ℝ} (hd : DifferentiableAt ℝ G x) (hs : ∀ s : ℝ, 0 < s → G (s • x) = G x) :
    ∑ b : Fin 4, x b * deriv (fun s => G (Function.update x b s)) (x b) = 0 := by
  have h1 : ∀ b : Fin 4, deriv (fun s => G (Function.update x b s)) (x b) = fderiv ℝ G x (Pi.single b 1) := by
    intro b
    have hu : HasDerivAt (fun s => Function.update x b s) (Pi.single b 1) (x b) := hasDerivAt_update x b (x b)
    have hG : HasFDerivAt G (fderiv ℝ G x) (Function.update x b (x b)) := by
      rw [Function.update_eq_self]; exact hd.hasFDerivAt
    exact (hG.comp_hasDerivAt (x b) hu).deriv
  have h2 : HasDerivAt (fun s : ℝ => G (s • x)) (fderiv ℝ G x x) 1 := by
    have hu : HasDerivAt (fun s : ℝ => s • x) x 1 := by
      simpa using (hasDerivAt_id (1 : ℝ)).smul_const x
    have hG : HasFDerivAt G (fderiv ℝ G x) ((1 : ℝ) • x) := by rw [one_smul]; exact hd.hasFDerivAt
    exact hG.comp_hasDerivAt 1 hu
  have h3 : HasDerivAt (fun s : ℝ => G (s • x)) 0 1 := by
    refine (hasDerivAt_const (1 : ℝ) (G x)).congr_of_eventuallyEq ?_
    filter_upwards [lt_mem_nhds (show (0 : ℝ) < 1 by norm_num)] with s hs'
    exact hs s hs'
  have h4 := h2.unique h3
  calc _ = ∑ b : Fin 4, fderiv ℝ G x (Pi.single b (x b)) := by
        refine Finset.sum_congr rfl fun b _ => ?_
        rw [h1 b]
        have : (Pi.single b (x b) : Fin 4 → ℝ) = x b • Pi.single b 1 := by
          rw [← Pi.single_smul]; simp
        rw [this, map_smul, smul_eq_mul]
    _ = fderiv ℝ G x (∑ b : Fin 4, Pi.single b (x b)) := (map_sum _ _ _).symm
    _ = 0 := by rw [Finset.univ_sum_single, h4]

/-- What a successful solver step with gradient descent does. -/
theorem globalSolve_sgd {env : Env ℝ} {log : ℝ → ℝ} {r dt : ℝ} {m : MjModel ℝ} {q : Arr ℝ} {p : JaxProblem ℝ}
    {sol : GlobalIKSolution ℝ} (h : globalSolve env log gradR (sgd r) dt m q () p = .ok (sol, ())) (i : Nat) :
    sol.qOpt.get i = q.get [i] - r * deriv (fun s => ((globalLoss env log p
      ⟨m.nq, Function.update (fun i => q.get [i]) i s⟩).toOption).getD 0) (q.get [i]) := by
  unfold globalSolve at h
  split at h
  · cases h
  · unfold globalStepFrom at h
    obtain ⟨g, hg, h⟩ := Except.bind_eq_ok h
    obtain ⟨w, hw, h⟩ := Except.bind_eq_ok h
    split at h
    · cases h
    · cases h
      unfold globalGrad at hg
      obtain ⟨l, hl, hg⟩ := Except.bind_eq_ok hg
      split at hg
      · cases hg
      · cases hg
        rw [zip_same (by rfl)] at hw
        cases hw
        show q.get [i] + -r * _ = _
        rw [sub_eq_add_neg, neg_mul]
        rfl

/-- **C70** is false: mjx normalises quaternions, so the loss does not depend on their norm (`hnorm`).  If it is differentiable in the
quaternion, a gradient descent step that changes the quaternion at all always makes it longer: its squared norm becomes 1 plus the squared
length of the change. -/
theorem C70_norm_grows {env : Env ℝ} {log : ℝ → ℝ} {r dt : ℝ} {m : MjModel ℝ} {q : Arr ℝ} {p : JaxProblem ℝ}
    {sol : GlobalIKSolution ℝ} (h : globalSolve env log gradR (sgd r) dt m q () p = .ok (sol, ())) {adr : Nat}
    (hnorm : ∀ s : ℝ, 0 < s → update env p.model ⟨m.nq, withQuat (fun i => q.get [i]) adr (fun b => s * q.get [adr + b])⟩ =
      update env p.model ⟨m.nq, fun i => q.get [i]⟩)
    (hd : DifferentiableAt ℝ (fun x : Fin 4 → ℝ => ((globalLoss env log p ⟨m.nq, withQuat (fun i => q.get [i]) adr x⟩).toOption).getD 0)
      (fun b => q.get [adr + b]))
    (hu : Quaternion.normSq (quatAt (fun i => q.get [i]) adr) = 1) :
    Quaternion.normSq (quatAt sol.qOpt.get adr) = 1 + ∑ b : Fin 4, (sol.qOpt.get (adr + b) - q.get [adr + b]) ^ 2 := by
  have hE := euler_orthogonal hd (fun s hs => by
    have h1 : withQuat (fun i => q.get [i]) adr (s • fun b : Fin 4 => q.get [adr + b]) =
      withQuat (fun i => q.get [i]) adr (fun b => s * q.get [adr + b]) := rfl
    have h2 : withQuat (fun i => q.get [i]) adr (fun b : Fin 4 => q.get [adr + b]) = fun i => q.get [i] := by
      have := withQuat_update (fun i => q.get [i]) adr 0 (q.get [adr + ((0 : Fin 4) : Nat)])
      rw [Function.update_eq_self, Function.update_eq_self] at this
      exact this
    simp only [globalLoss, h1, hnorm s hs, h2])
  have hs := globalSolve_sgd h
  rw [normSq_quatAt] at hu ⊢
  have key : ∀ b : Fin 4, sol.qOpt.get (adr + b) ^ 2 = q.get [adr + b] ^ 2 + (sol.qOpt.get (adr + b) - q.get [adr + b]) ^ 2 -
      2 * r * (q.get [adr + b] * deriv (fun s => ((globalLoss env log p ⟨m.nq, withQuat (fun i => q.get [i]) adr
        (Function.update (fun b : Fin 4 => q.get [adr + b]) b s)⟩).toOption).getD 0) (q.get [adr + b])) := by
    intro b
    have e : ∀ s, withQuat (fun i => q.get [i]) adr (Function.update (fun b : Fin 4 => q.get [adr + b]) b s) =
      Function.update (fun i => q.get [i]) (adr + b) s := fun s => withQuat_update (fun i => q.get [i]) adr b s
    simp only [e]
    rw [hs (adr + b)]
    ring
  rw [Finset.sum_congr rfl (fun b _ => key b), Finset.sum_sub_distrib, Finset.sum_add_distrib, hu, ← Finset.mul_sum, hE]
  ring

/-! ### A pendulum on a ball joint -/

namespace QEx

/-- A body on a ball joint, with a site one unit along its x axis. -/
noncomputable def model : MjModel ℝ :=
  { MjModel.empty with
    nq := 4, nv := 3, nbody := 2, jntType := [.ball], jntQposadr := [0], jntDofadr := [0], jntRange := [(0, 0)]
    bodyParentid := [0, 0], siteBodyid := [1], siteNames := ["tip"], bodyNames := ["world", "arm"] }

theorem model_wf : JointsWF model := ⟨by repeat' constructor, rfl⟩

/-- Squared norm of the first four coordinates. -/
def nsq (q : Nat → ℝ) : ℝ := q 0 ^ 2 + q 1 ^ 2 + q 2 ^ 2 + q 3 ^ 2

/-- The y coordinate of the x axis rotated by the normalised quaternion. -/
noncomputable def tipY (q : Nat → ℝ) : ℝ := 2 * (q 1 * q 2 + q 0 * q 3) / nsq q

/-- Kinematics of the pendulum (the other coordinates of the site do not matter here); the stored configuration is normalised. -/
noncomputable def data (q : Vec ℝ) : MjData ℝ :=
  ⟨⟨q.len, fun i => q.get i / √(nsq q.get)⟩, [], [], [], [], [], [![0, tipY q.get, 0]], [], [], [], [], [], [], []⟩

noncomputable def env : Env ℝ := { LEx.env with kinematics := fun _ q => data q }

def args : TaskArgs ℝ := { name := "t", cost := Arr.scalar 1, gain := Arr.scalar 1, lm := 0, mask := some (Arr.ofList [0, 1, 0]) }

noncomputable def start : Comp ℝ := Comp.fresh
  { name := "t", model := none, gain := Arr.scalar 1, gainFn := id, dim := 1, mask := some [0, 1, 0], maskIdxs := [1],
    kind := .positionTask { cost := Arr.scalar 1, lmDamping := 0 } ⟨"tip", .site, -1⟩ (Arr.zeros 1) }

/-- A position task on the y coordinate of the site, with target 1, and the problem consisting of it: it compiles, and the loss is
`(y - 1)²`. -/
theorem task : ∃ c0 c j, newPositionTask args "tip" .site = .ok c0 ∧ c = runOps c0 [.updateModel model, .updateTarget (Arr.ofList [1])] ∧
    (jaxComponent c).1 = .ok j ∧ j.model = model ∧
    ∀ log x, globalLoss env log ⟨model, Arr.scalar 0, Arr.scalar 0, [("t", j)]⟩ x = .ok ((tipY x.get - 1) ^ 2) := by
  have h1 : initTaskA (Arr.scalar (1 : ℝ)) 0 = .ok { cost := Arr.scalar 1, lmDamping := 0 } := by
    unfold initTaskA
    rw [if_neg (lt_irrefl _), if_neg (by decide)]
  have h0 : newPositionTask args "tip" .site = .ok start := by
    unfold newPositionTask
    have e : initTaskA args.cost args.lm = .ok { cost := Arr.scalar 1, lmDamping := 0 } := h1
    rw [e]
    rfl
  obtain ⟨j, hj, hm, hcl, hev⟩ : ∃ j, (jaxComponent (runOps start [.updateModel model, .updateTarget (Arr.ofList [1])])).1 = .ok j ∧
      j.model = model ∧ j.cls = .task ∧ ∀ x : Vec ℝ, ∃ e g, Evaluates env (update env model x) j e g ∧ e.len = 1 ∧ e.get 0 = tipY x.get - 1 ∧
        g.get 0 = 1 * 1 :=
    ⟨_, rfl, rfl, rfl, fun x => ⟨_, _, ⟨rfl, rfl, rfl⟩, rfl, rfl, rfl⟩⟩
  refine ⟨_, _, j, h0, rfl, hj, hm, fun log x => ?_⟩
  obtain ⟨e, g, he, h2, h3, h4⟩ := hev x
  have ht : Table env (update env model x) ⟨model, Arr.scalar 0, Arr.scalar 0, [("t", j)]⟩ [(j, e, g)] := ⟨rfl, by simpa using he⟩
  rw [C37_loss ht (by simp [hcl])]
  simp [lossTerm, hcl, h2, h3, h4]

/-- The unit quaternion. -/
def q : Arr ℝ := ⟨[4], fun i => if i = [0] then 1 else 0⟩

theorem tip_diff {x : Fin 4 → ℝ} (hx : x 0 ^ 2 + x 1 ^ 2 + x 2 ^ 2 + x 3 ^ 2 ≠ 0) (f : Nat → ℝ) :
    DifferentiableAt ℝ (fun x : Fin 4 → ℝ => (tipY (withQuat f 0 x) - 1) ^ 2) x := by
  have e : ∀ x : Fin 4 → ℝ, tipY (withQuat f 0 x) = 2 * (x 1 * x 2 + x 0 * x 3) / (x 0 ^ 2 + x 1 ^ 2 + x 2 ^ 2 + x 3 ^ 2) := fun x => rfl
  simp only [e]
  fun_prop (disch := assumption)

/-- One solver step from the unit quaternion, learning rate 1/4: the third imaginary part becomes 1. -/
theorem solve : ∃ c0 c j sol, newPositionTask args "tip" .site = .ok c0 ∧
    c = runOps c0 [.updateModel model, .updateTarget (Arr.ofList [1])] ∧ (jaxComponent c).1 = .ok j ∧
    globalSolve env Real.log gradR (sgd (1 / 4)) 1 model q () ⟨model, Arr.scalar 0, Arr.scalar 0, [("t", j)]⟩ = .ok (sol, ()) ∧
    (∀ s : ℝ, 0 < s → update env model ⟨model.nq, withQuat (fun i => q.get [i]) 0 (fun b => s * q.get [0 + b])⟩ =
      update env model ⟨model.nq, fun i => q.get [i]⟩) ∧
    DifferentiableAt ℝ (fun x : Fin 4 → ℝ => ((globalLoss env Real.log ⟨model, Arr.scalar 0, Arr.scalar 0, [("t", j)]⟩
      ⟨model.nq, withQuat (fun i => q.get [i]) 0 x⟩).toOption).getD 0) (fun b => q.get [0 + b]) ∧
    UnitQuats model ⟨4, fun i => q.get [i]⟩ ∧ sol.qOpt.get 3 = 1 := by
  obtain ⟨c0, c, j, h0, hc, hj, hm, hl⟩ := task
  have hs : ∃ sol, globalSolve env Real.log gradR (sgd (1 / 4)) 1 model q () ⟨model, Arr.scalar 0, Arr.scalar 0, [("t", j)]⟩ = .ok (sol, ()) := by
    unfold globalSolve globalStepFrom globalGrad
    rw [if_neg (by simp [q, model])]
    simp only [bind, Except.bind, hl, List.length_singleton, one_ne_zero, if_false, pure, Except.pure]
    rw [zip_same (by rfl)]
    exact ⟨_, rfl⟩
  obtain ⟨sol, hs⟩ := hs
  refine ⟨c0, c, j, sol, h0, hc, hj, hs, ?_, ?_, ?_, ?_⟩
  · intro s hs
    have e1 : nsq (withQuat (fun i => q.get [i]) 0 (fun b : Fin 4 => s * q.get [0 + b])) = s ^ 2 := by
      show (s * q.get [0]) ^ 2 + (s * q.get [1]) ^ 2 + (s * q.get [2]) ^ 2 + (s * q.get [3]) ^ 2 = _
      simp [q]
    have e2 : nsq (fun i => q.get [i]) = 1 := by simp [nsq, q]
    show data _ = data _
    unfold data
    congr 1
    · congr 1
      funext i
      rw [e1, e2, Real.sqrt_sq hs.le, Real.sqrt_one, div_one]
      by_cases hi : i < 4
      · have := withQuat_at (fun i => q.get [i]) 0 (fun b : Fin 4 => s * q.get [0 + b]) ⟨i, hi⟩
        simp only [Nat.zero_add] at this ⊢
        rw [this]
        field_simp
      · have : withQuat (fun i => q.get [i]) 0 (fun b : Fin 4 => s * q.get [0 + b]) i = q.get [i] := dif_neg (by omega)
        dsimp only
        rw [this]
        have : q.get [i] = 0 := by simp [q]; omega
        rw [this, zero_div]
    · have e3 : tipY (withQuat (fun i => q.get [i]) 0 (fun b : Fin 4 => s * q.get [0 + b])) = 0 := by
        show 2 * ((s * q.get [1]) * (s * q.get [2]) + (s * q.get [0]) * (s * q.get [3])) / _ = _
        simp [q]
      have e4 : tipY (fun i => q.get [i]) = 0 := by simp [tipY, q]
      rw [e3, e4]
  · simp only [hl]
    exact tip_diff (by simp [q]) _
  · intro k adr h
    match k with
    | 0 => cases h; rw [Quaternion.normSq_def']; simp [quatAt, q, model]
    | k + 1 =>
      have e : (model.jntType.getD (k + 1) .hinge) = .hinge := rfl
      rw [e] at h
      cases h
  · rw [globalSolve_sgd hs 3]
    simp only [hl]
    have hf : ∀ s, tipY (Function.update (fun i => q.get [i]) 3 s) = 2 * s / (1 + s ^ 2) := by
      intro s
      simp [tipY, nsq, q]
    have hd : HasDerivAt (fun s : ℝ => (2 * s / (1 + s ^ 2) - 1) ^ 2) (-4) 0 := by
      have h1 : HasDerivAt (fun s : ℝ => 2 * s) 2 0 := by simpa using (hasDerivAt_id (0 : ℝ)).const_mul 2
      have h2 : HasDerivAt (fun s : ℝ => 1 + s ^ 2) 0 0 := by
        simpa using ((hasDerivAt_id (0 : ℝ)).pow 2).const_add 1
      have h3 := ((h1.div h2 (by norm_num)).sub_const 1).pow 2
      refine h3.congr_deriv ?_
      norm_num
    have h3 : q.get [3] = 0 := rfl
    simp only [Except.toOption, Option.getD_some, hf, h3, hd.deriv]
    norm_num

end QEx

/-- **C70** is false in a concrete case: a position task on a body with a ball joint; the solver returns a quaternion of norm `√2`. -/
theorem C70_wrong : ∃ (c0 c : Comp ℝ) (j : JaxComp ℝ) (sol : GlobalIKSolution ℝ), newPositionTask QEx.args "tip" .site = .ok c0 ∧
    c = runOps c0 [.updateModel QEx.model, .updateTarget (Arr.ofList [1])] ∧ (jaxComponent c).1 = .ok j ∧
    JointsWF QEx.model ∧ UnitQuats QEx.model ⟨4, fun i => QEx.q.get [i]⟩ ∧
    globalSolve QEx.env Real.log gradR (sgd (1 / 4)) 1 QEx.model QEx.q () ⟨QEx.model, Arr.scalar 0, Arr.scalar 0, [("t", j)]⟩ = .ok (sol, ()) ∧
    ¬ UnitQuats QEx.model sol.qOpt := by
  obtain ⟨c0, c, j, sol, h0, hc, hj, hs, hn, hd, hu, h3⟩ := QEx.solve
  refine ⟨c0, c, j, sol, h0, hc, hj, QEx.model_wf, hu, hs, fun h => ?_⟩
  have h1 := C70_norm_grows hs (adr := 0) hn hd (hu 0 0 rfl)
  rw [h 0 0 rfl, Fin.sum_univ_four] at h1
  have h4 : sol.qOpt.get (0 + ((3 : Fin 4) : Nat)) = 1 := h3
  have h5 : QEx.q.get [0 + ((3 : Fin 4) : Nat)] = 0 := rfl
  rw [h4, h5] at h1
  nlinarith [sq_nonneg (sol.qOpt.get (0 + ((0 : Fin 4) : Nat)) - QEx.q.get [0 + ((0 : Fin 4) : Nat)]),
    sq_nonneg (sol.qOpt.get (0 + ((1 : Fin 4) : Nat)) - QEx.q.get [0 + ((1 : Fin 4) : Nat)]),
    sq_nonneg (sol.qOpt.get (0 + ((2 : Fin 4) : Nat)) - QEx.q.get [0 + ((2 : Fin 4) : Nat)])]

end
end Mjinx.Props
