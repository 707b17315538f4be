import Verif.Spec.QP
import Mathlib.Tactic.Ring
import Mathlib.Algebra.BigOperators.Field
import Mathlib.Tactic.FieldSimp
import Mathlib.Tactic.Linarith
import Mathlib.Tactic.Positivity
import Mathlib.Algebra.Order.BigOperators.Ring.Finset
import Mathlib.Algebra.BigOperators.Group.List.Lemmas
set_option linter.unusedSectionVars false

/-! Explicit form of the QP for well-shaped components. -/

namespace Mjinx
open Spec Finset
variable {K : Type} [Field K] [LinearOrder K]

/-- `-(gain * gain_fn value)` as a vector. -/
def mge (e : Evaluated K) : Vec K := ⟨e.gain.len, fun i => - e.gain.get i * e.gainFn (e.value.get i)⟩
def pge (e : Evaluated K) : Vec K := ⟨e.gain.len, fun i => e.gain.get i * e.gainFn (e.value.get i)⟩

theorem minusGainError_eq {nv} {e : Evaluated K} (h : Shaped nv e) : minusGainError e = .ok (mge e) := by
  unfold minusGainError Vec.zip
  have : e.gain.neg.len = (e.value.map e.gainFn).len := by
    show e.gain.len = e.value.len; rw [h.gain, h.value]
  rw [if_pos this]; rfl

theorem zipGain_eq {nv} {e : Evaluated K} (h : Shaped nv e) :
    Vec.zip (· * ·) e.gain (e.value.map e.gainFn) = .ok (pge e) := by
  unfold Vec.zip
  have : e.gain.len = (e.value.map e.gainFn).len := by
    show e.gain.len = e.value.len; rw [h.gain, h.value]
  rw [if_pos this]; rfl

/-- `W J` entry -/
def wj (W : Mat K) (e : Evaluated K) (i j : Nat) : K :=
  ∑ k ∈ range e.jac.rows, W.get i k * e.jac.get k j
/-- `W (-gain f)` entry -/
def we (W : Mat K) (e : Evaluated K) (i : Nat) : K :=
  ∑ k ∈ range e.jac.rows, W.get i k * (- e.gain.get k * e.gainFn (e.value.get k))

/-- contribution of a component to `P` -/
def hessOf : SolverComp K → Nat → Nat → K
  | .task e W lm, i, j => (∑ r ∈ range e.jac.rows, wj W e r i * wj W e r j) +
      lm * (∑ r ∈ range e.jac.rows, we W e r * we W e r) * (if i = j then 1 else 0)
  | .barrier e s _, i, j => s / e.jac.normSq * (if i = j then 1 else 0)
  | .constraint e _ hard W, i, j => if hard then 0 else ∑ r ∈ range e.jac.rows, wj W e r i * wj W e r j

/-- contribution of a component to `c` -/
def linOf : SolverComp K → Nat → K
  | .task e W _, j => ∑ r ∈ range e.jac.rows, - we W e r * wj W e r j
  | .barrier e s d, j => - (s / e.jac.normSq) * d.get j
  | .constraint e _ hard W, j => if hard then 0 else ∑ r ∈ range e.jac.rows, - we W e r * wj W e r j

def ineqOf : SolverComp K → List (Mat K × Vec K)
  | .barrier e _ _ => [(e.jac.neg, pge e)]
  | _ => []
def eqOf : SolverComp K → List (Mat K × Vec K)
  | .constraint e _ true _ => [(e.jac, mge e)]
  | _ => []

/-- a barrier with a zero Jacobian -/
def badBarrier : SolverComp K → Prop
  | .barrier e _ _ => e.jac.normSq = 0
  | _ => False

/-- The accumulator after a component. -/
def accStep (acc : QPAcc K) (c : SolverComp K) : QPAcc K where
  H := ⟨acc.H.rows, acc.H.cols, fun i j => acc.H.get i j + hessOf c i j⟩
  c := ⟨acc.c.len, fun i => acc.c.get i + linOf c i⟩
  Gs := acc.Gs ++ (ineqOf c).map Prod.fst
  hs := acc.hs ++ (ineqOf c).map Prod.snd
  As := acc.As ++ (eqOf c).map Prod.fst
  bs := acc.bs ++ (eqOf c).map Prod.snd

structure AccShaped (n : Nat) (acc : QPAcc K) : Prop where
  rows : acc.H.rows = n
  cols : acc.H.cols = n
  c : acc.c.len = n

theorem accStep_shaped {n} {acc : QPAcc K} (h : AccShaped n acc) (c : SolverComp K) :
    AccShaped n (accStep acc c) := ⟨h.rows, h.cols, h.c⟩

theorem processTask_eq {nv} {e : Evaluated K} {W : Mat K} (lm : K) (h : Shaped nv e)
    (hr : W.rows = e.jac.rows) (hc : W.cols = e.jac.rows) :
    processTask nv e W lm = .ok (⟨nv, nv, hessOf (.task e W lm)⟩, ⟨nv, linOf (.task e W lm)⟩) := by
  have hg := h.gain
  unfold processTask
  rw [minusGainError_eq h]
  simp only [bind, Except.bind, Mat.mul, Mat.mulVec, Vec.dot, Mat.vecMul, Mat.add, bdim, bidx, Mat.transpose,
    Mat.smul, Mat.eye, Vec.neg, mge, hc, hr, hg, h.cols, if_true, pure, Except.pure]
  rfl

theorem processSoft_eq {nv} {e : Evaluated K} {W : Mat K} (a : Bool) (h : Shaped nv e)
    (hr : W.rows = e.jac.rows) (hc : W.cols = e.jac.rows) :
    processSoft e W = .ok (⟨nv, nv, hessOf (.constraint e a false W)⟩,
      ⟨nv, linOf (.constraint e a false W)⟩) := by
  have hg := h.gain
  unfold processSoft
  rw [minusGainError_eq h]
  simp only [bind, Except.bind, Mat.mul, Mat.mulVec, Mat.vecMul, Mat.transpose,
    Vec.neg, mge, hc, hr, hg, h.cols, if_true, pure, Except.pure]
  rfl

theorem processBarrier_eq {nv} {e : Evaluated K} {s : K} {d : Vec K} (h : Shaped nv e)
    (hd : d.len = nv) (hn : e.jac.normSq ≠ 0) :
    processBarrier nv e s d = .ok (⟨nv, nv, hessOf (.barrier e s d)⟩, ⟨nv, linOf (.barrier e s d)⟩,
      e.jac.neg, pge e) := by
  unfold processBarrier
  simp only [if_neg hn, bind, Except.bind, zipGain_eq h, pure, Except.pure]
  simp only [Mat.smul, Mat.eye, Vec.smul, hd]; rfl

theorem qpStep_ok {nv} {acc : QPAcc K} {c : SolverComp K} (ha : AccShaped nv acc)
    (hc : CompShaped nv c) (hb : ¬ badBarrier c) : qpStep nv acc c = .ok (accStep acc c) := by
  have e1 := ha.rows; have e2 := ha.cols; have e3 := ha.c
  cases c with
  | task e W lm =>
    obtain ⟨h, hr, hc⟩ := hc
    simp only [qpStep, processTask_eq lm h hr hc, bind, Except.bind, Mat.add, Vec.add, Vec.zip, bdim, bidx, e1, e2, e3,
      if_true, pure, Except.pure]
    simp [accStep, ineqOf, eqOf, e1, e2, e3]
  | barrier e s d =>
    obtain ⟨h, hd⟩ := hc
    simp only [qpStep, processBarrier_eq h hd hb, bind, Except.bind, Mat.add, Vec.add, Vec.zip, bdim, bidx, e1, e2, e3,
      if_true, pure, Except.pure]
    simp [accStep, ineqOf, eqOf, e1, e2, e3]
  | constraint e a hard W =>
    obtain ⟨h, hr, hc⟩ := hc
    cases hard with
    | false =>
      simp only [qpStep, processSoft_eq a h hr hc, bind, Except.bind, Mat.add, Vec.add, Vec.zip, bdim, bidx, e1, e2, e3,
        if_true, pure, Except.pure, Bool.false_eq_true, if_false]
      simp [accStep, ineqOf, eqOf, e1, e2, e3]
    | true =>
      simp only [qpStep, processHard, minusGainError_eq h, bind, Except.bind, if_true, pure, Except.pure]
      simp [accStep, ineqOf, eqOf, hessOf, linOf]

theorem qpStep_bad {nv} {acc : QPAcc K} {c : SolverComp K} (hb : badBarrier c) :
    qpStep nv acc c = .error .nonFinite := by
  cases c with
  | barrier e s d =>
    have : e.jac.normSq = 0 := hb
    simp [qpStep, processBarrier, this, bind, Except.bind]
  | task => exact hb.elim
  | constraint => exact hb.elim

theorem fold_ok {nv} (comps : List (SolverComp K)) : ∀ acc : QPAcc K, AccShaped nv acc →
    (∀ c ∈ comps, CompShaped nv c) → (∀ c ∈ comps, ¬ badBarrier c) →
    comps.foldlM (qpStep nv) acc = .ok (comps.foldl accStep acc) := by
  induction comps with
  | nil => intros; rfl
  | cons c cs ih =>
    intro acc ha hs hb
    rw [List.foldlM_cons, qpStep_ok ha (hs _ (by simp)) (hb _ (by simp))]
    exact ih _ (accStep_shaped ha c) (fun x hx => hs x (by simp [hx])) (fun x hx => hb x (by simp [hx]))

theorem fold_bad {nv} (comps : List (SolverComp K)) : ∀ acc : QPAcc K, AccShaped nv acc →
    (∀ c ∈ comps, CompShaped nv c) → (∃ c ∈ comps, badBarrier c) →
    comps.foldlM (qpStep nv) acc = .error .nonFinite := by
  induction comps with
  | nil => rintro _ _ _ ⟨_, h, _⟩; simp at h
  | cons c cs ih =>
    intro acc ha hs hb
    rw [List.foldlM_cons]
    by_cases h : badBarrier c
    · rw [qpStep_bad h]; rfl
    · rw [qpStep_ok ha (hs _ (by simp)) h]
      refine ih _ (accStep_shaped ha c) (fun x hx => hs x (by simp [hx])) ?_
      obtain ⟨x, hx, hxb⟩ := hb
      rcases List.mem_cons.mp hx with rfl | hx
      · exact (h hxb).elim
      · exact ⟨x, hx, hxb⟩

theorem fold_acc (comps : List (SolverComp K)) : ∀ acc : QPAcc K,
    comps.foldl accStep acc =
      { H := ⟨acc.H.rows, acc.H.cols, fun i j => acc.H.get i j + (comps.map (hessOf · i j)).sum⟩
        c := ⟨acc.c.len, fun i => acc.c.get i + (comps.map (linOf · i)).sum⟩
        Gs := acc.Gs ++ (comps.flatMap ineqOf).map Prod.fst
        hs := acc.hs ++ (comps.flatMap ineqOf).map Prod.snd
        As := acc.As ++ (comps.flatMap eqOf).map Prod.fst
        bs := acc.bs ++ (comps.flatMap eqOf).map Prod.snd } := by
  induction comps with
  | nil => intro acc; simp
  | cons c cs ih =>
    intro acc
    rw [List.foldl_cons, ih]
    simp [accStep, add_assoc]

/-- Stacking well-shaped blocks: rows of the result are the rows of the blocks. -/
theorem stack_spec (n : Nat) : ∀ L : List (Mat K × Vec K), L ≠ [] →
    (∀ p ∈ L, p.1.cols = n ∧ p.2.len = p.1.rows) →
    ∃ G, Mat.vstackList (L.map Prod.fst) = .ok G ∧ G.cols = n ∧
      G.rows = (L.map (fun p => p.1.rows)).sum ∧ (Vec.concat (L.map Prod.snd)).len = G.rows ∧
      ∀ Q : (Nat → K) → K → Prop,
        (∀ i < G.rows, Q (G.get i) ((Vec.concat (L.map Prod.snd)).get i)) ↔
          ∀ p ∈ L, ∀ i < p.1.rows, Q (p.1.get i) (p.2.get i) := by
  intro L
  induction L with
  | nil => intro h; exact (h rfl).elim
  | cons p L ih =>
    intro _ hL
    obtain ⟨hp1, hp2⟩ := hL p (by simp)
    cases L with
    | nil =>
      refine ⟨p.1, rfl, hp1, by simp, by simp [Vec.concat, Vec.append, Vec.zero, hp2], ?_⟩
      intro Q
      simp only [List.map_cons, List.map_nil, Vec.concat, Vec.append, List.mem_singleton, forall_eq]
      constructor <;> intro h i hi <;> have := h i hi <;> simpa [hp2, hi] using this
    | cons p' L =>
      obtain ⟨R, h1, h2, h3, h4, h5⟩ := ih (by simp) (fun x hx => hL x (by simp [hx]))
      refine ⟨⟨p.1.rows + R.rows, p.1.cols,
        fun i j => if i < p.1.rows then p.1.get i j else R.get (i - p.1.rows) j⟩, ?_, hp1, ?_, ?_, ?_⟩
      · show (Mat.vstackList ((p' :: L).map Prod.fst) >>= fun R => Mat.vstack p.1 R) = _
        rw [h1]; show Mat.vstack p.1 R = _
        unfold Mat.vstack; rw [if_pos (by rw [hp1, h2])]
      · simp [h3]
      · show p.2.len + (Vec.concat ((p' :: L).map Prod.snd)).len = _
        rw [h4, hp2]
      · intro Q
        rw [List.forall_mem_cons, ← h5 Q]
        show (∀ i < p.1.rows + R.rows, Q (fun j => if i < p.1.rows then p.1.get i j else R.get (i - p.1.rows) j)
          (if i < p.2.len then p.2.get i else (Vec.concat ((p' :: L).map Prod.snd)).get (i - p.2.len))) ↔ _
        rw [hp2]
        constructor
        · intro h
          refine ⟨fun i hi => ?_, fun i hi => ?_⟩
          · have := h i (by omega); simpa [hi] using this
          · have := h (p.1.rows + i) (by omega); simpa using this
        · rintro ⟨ha, hb⟩ i hi
          by_cases h : i < p.1.rows
          · simpa [h] using ha i h
          · have := hb (i - p.1.rows) (by omega); simpa [h] using this

theorem ineqOf_shaped {n} {c : SolverComp K} (h : CompShaped n c) :
    ∀ p ∈ ineqOf c, p.1.cols = n ∧ p.2.len = p.1.rows := by
  cases c with
  | barrier e s d =>
    intro p hp; simp only [ineqOf, List.mem_singleton] at hp; subst hp
    exact ⟨h.1.cols, h.1.gain⟩
  | task => intro p hp; simp [ineqOf] at hp
  | constraint => intro p hp; simp [ineqOf] at hp

theorem eqOf_shaped {n} {c : SolverComp K} (h : CompShaped n c) :
    ∀ p ∈ eqOf c, p.1.cols = n ∧ p.2.len = p.1.rows := by
  cases c with
  | constraint e a hard W =>
    cases hard with
    | true =>
      intro p hp; simp only [eqOf, List.mem_singleton] at hp; subst hp
      exact ⟨h.1.cols, h.1.gain⟩
    | false => intro p hp; simp [eqOf] at hp
  | task => intro p hp; simp [eqOf] at hp
  | barrier => intro p hp; simp [eqOf] at hp

/-- The explicit QP. -/
structure QPForm (n : Nat) (vMin vMax : Vec K) (comps : List (SolverComp K)) (qp : QP K) : Prop where
  prows : qp.P.rows = n
  pcols : qp.P.cols = n
  clen : qp.c.len = n
  P : ∀ i j, qp.P.get i j = (comps.map (hessOf · i j)).sum
  c : ∀ i, qp.c.get i = (comps.map (linOf · i)).sum
  gcols : qp.G.cols = n
  grows : qp.G.rows = 2 * n + ((comps.flatMap ineqOf).map (fun p => p.1.rows)).sum
  hlen : qp.h.len = qp.G.rows
  G : ∀ Q : (Nat → K) → K → Prop, (∀ i < qp.G.rows, Q (qp.G.get i) (qp.h.get i)) ↔
    (∀ i < n, Q (fun j => if i = j then 1 else 0) (- vMin.get i)) ∧
    (∀ i < n, Q (fun j => - if i = j then 1 else 0) (vMax.get i)) ∧
    ∀ p ∈ comps.flatMap ineqOf, ∀ i < p.1.rows, Q (p.1.get i) (p.2.get i)
  A : (comps.flatMap eqOf = [] ∧ qp.A = none ∧ qp.b = none) ∨
    ∃ A b, qp.A = some A ∧ qp.b = some b ∧ comps.flatMap eqOf ≠ [] ∧ A.cols = n ∧ b.len = A.rows ∧
      A.rows = ((comps.flatMap eqOf).map (fun p => p.1.rows)).sum ∧
      ∀ Q : (Nat → K) → K → Prop, (∀ i < A.rows, Q (A.get i) (b.get i)) ↔
        ∀ p ∈ comps.flatMap eqOf, ∀ i < p.1.rows, Q (p.1.get i) (p.2.get i)

theorem computeQP_form {n : Nat} {vMin vMax : Vec K} {comps : List (SolverComp K)}
    (h : ProblemShaped n vMin vMax comps) (hb : ∀ c ∈ comps, ¬ badBarrier c) :
    ∃ qp, computeQP n n vMin vMax comps = .ok qp ∧ QPForm n vMin vMax comps qp := by
  have ha : AccShaped n (qpInit n n vMin vMax) := ⟨rfl, rfl, rfl⟩
  have hG : ∀ p ∈ [((Mat.eye n : Mat K), vMin.neg), ((Mat.eye n).neg, vMax)] ++ comps.flatMap ineqOf,
      p.1.cols = n ∧ p.2.len = p.1.rows := by
    intro p hp
    simp only [List.cons_append, List.nil_append, List.mem_cons] at hp
    rcases hp with rfl | rfl | hp
    · exact ⟨rfl, h.vMin⟩
    · exact ⟨rfl, h.vMax⟩
    · obtain ⟨c, hc, hp⟩ := List.mem_flatMap.mp hp
      exact ineqOf_shaped (h.comps c hc) p hp
  have hA : ∀ p ∈ comps.flatMap eqOf, p.1.cols = n ∧ p.2.len = p.1.rows := by
    intro p hp
    obtain ⟨c, hc, hp⟩ := List.mem_flatMap.mp hp
    exact eqOf_shaped (h.comps c hc) p hp
  obtain ⟨G, g1, g2, g3, g4, g5⟩ := stack_spec n _ (by simp) hG
  have gq : ∀ Q : (Nat → K) → K → Prop, (∀ i < G.rows, Q (G.get i) ((Vec.concat
      (([((Mat.eye n : Mat K), vMin.neg), ((Mat.eye n).neg, vMax)] ++ comps.flatMap ineqOf).map Prod.snd)).get i)) ↔
      (∀ i < n, Q (fun j => if i = j then 1 else 0) (- vMin.get i)) ∧
      (∀ i < n, Q (fun j => - if i = j then 1 else 0) (vMax.get i)) ∧
      ∀ p ∈ comps.flatMap ineqOf, ∀ i < p.1.rows, Q (p.1.get i) (p.2.get i) := by
    intro Q
    rw [g5 Q, List.cons_append, List.forall_mem_cons, List.cons_append, List.forall_mem_cons,
      List.nil_append]
    exact Iff.rfl
  have grow : G.rows = 2 * n + ((comps.flatMap ineqOf).map (fun p => p.1.rows)).sum := by
    rw [g3]; simp only [List.cons_append, List.nil_append, List.map_cons, List.sum_cons]
    show n + (n + _) = _; omega
  unfold computeQP
  rw [fold_ok comps _ ha h.comps hb, fold_acc]
  show ∃ qp, qpFinish _ = Except.ok qp ∧ _
  unfold qpFinish
  have hGs : (qpInit n n vMin vMax).Gs ++ (comps.flatMap ineqOf).map Prod.fst =
      ([((Mat.eye n : Mat K), vMin.neg), ((Mat.eye n).neg, vMax)] ++ comps.flatMap ineqOf).map Prod.fst := rfl
  have hhs : (qpInit n n vMin vMax).hs ++ (comps.flatMap ineqOf).map Prod.snd =
      ([((Mat.eye n : Mat K), vMin.neg), ((Mat.eye n).neg, vMax)] ++ comps.flatMap ineqOf).map Prod.snd := rfl
  have hAs : (qpInit n n vMin vMax).As ++ (comps.flatMap eqOf).map Prod.fst =
    (comps.flatMap eqOf).map Prod.fst := rfl
  have hbs : (qpInit n n vMin vMax).bs ++ (comps.flatMap eqOf).map Prod.snd =
    (comps.flatMap eqOf).map Prod.snd := rfl
  simp only [hGs, hhs, hAs, hbs, g1]
  have hP : ∀ i j, (qpInit n n vMin vMax).H.get i j + (comps.map (hessOf · i j)).sum =
      (comps.map (hessOf · i j)).sum := fun i j => zero_add _
  have hC : ∀ i, (qpInit n n vMin vMax).c.get i + (comps.map (linOf · i)).sum =
      (comps.map (linOf · i)).sum := fun i => zero_add _
  by_cases he : comps.flatMap eqOf = []
  · rw [he]
    refine ⟨_, rfl, ?_⟩
    exact ⟨rfl, rfl, rfl, hP, hC, g2, grow, g4, gq, Or.inl ⟨he, rfl, rfl⟩⟩
  · obtain ⟨A, a1, a2, a3, a4, a5⟩ := stack_spec n _ he hA
    have l1 : ((comps.flatMap eqOf).map Prod.fst).length ≠ 0 := by
      rw [List.length_map]; exact fun h => he (List.length_eq_zero_iff.mp h)
    have l2 : ((comps.flatMap eqOf).map Prod.snd).length ≠ 0 := by
      rw [List.length_map]; exact fun h => he (List.length_eq_zero_iff.mp h)
    rw [if_pos l1, if_pos l2, a1]
    refine ⟨_, rfl, ?_⟩
    exact ⟨rfl, rfl, rfl, hP, hC, g2, grow, g4, gq, Or.inr ⟨A, _, rfl, rfl, he, a2, a4, a3, a5⟩⟩

theorem computeQP_bad {n : Nat} {vMin vMax : Vec K} {comps : List (SolverComp K)}
    (h : ProblemShaped n vMin vMax comps) (hb : ∃ c ∈ comps, badBarrier c) :
    computeQP n n vMin vMax comps = .error .nonFinite := by
  have ha : AccShaped n (qpInit n n vMin vMax) := ⟨rfl, rfl, rfl⟩
  unfold computeQP
  rw [fold_bad comps _ ha h.comps hb]; rfl

theorem form_of_ok {n : Nat} {vMin vMax : Vec K} {comps : List (SolverComp K)} {qp : QP K}
    (h : ProblemShaped n vMin vMax comps) (hq : computeQP n n vMin vMax comps = .ok qp) :
    QPForm n vMin vMax comps qp := by
  by_cases hb : ∃ c ∈ comps, badBarrier c
  · rw [computeQP_bad h hb] at hq; cases hq
  · push Not at hb
    obtain ⟨qp', h1, h2⟩ := computeQP_form h hb
    rw [h1] at hq; cases hq; exact h2

/-! ### The objective -/

/-- `½ vᵀ H v + cᵀ v` of one component. -/
def compObj (n : Nat) (c : SolverComp K) (v : Nat → K) : K :=
  (∑ i ∈ range n, ∑ j ∈ range n, v i * hessOf c i j * v j) / 2 + ∑ i ∈ range n, linOf c i * v i

theorem list_sum_quad {α : Type} (n : Nat) (l : List α) (h : α → Nat → Nat → K) (g : α → Nat → K)
    (v : Nat → K) :
    (∑ i ∈ range n, ∑ j ∈ range n, v i * (l.map (h · i j)).sum * v j) / 2
      + ∑ i ∈ range n, (l.map (g · i)).sum * v i =
    (l.map fun c => (∑ i ∈ range n, ∑ j ∈ range n, v i * h c i j * v j) / 2
      + ∑ i ∈ range n, g c i * v i).sum := by
  induction l with
  | nil => simp
  | cons c l ih =>
    simp only [List.map_cons, List.sum_cons, mul_add, add_mul, sum_add_distrib, add_div]
    rw [← ih]; ring

theorem objective_eq {n : Nat} {vMin vMax : Vec K} {comps : List (SolverComp K)} {qp : QP K}
    (h : QPForm n vMin vMax comps qp) (v : Nat → K) :
    objective qp v = (comps.map (fun c => compObj n c v)).sum := by
  unfold objective
  rw [h.prows, h.pcols, h.clen]
  simp only [h.P, h.c]
  exact list_sum_quad n comps hessOf linOf v

theorem quad_sq (n m : Nat) (a : Nat → Nat → K) (v : Nat → K) :
    ∑ i ∈ range n, ∑ j ∈ range n, v i * (∑ r ∈ range m, a r i * a r j) * v j =
      ∑ r ∈ range m, (∑ j ∈ range n, a r j * v j) ^ 2 := by
  have : ∀ i j, v i * (∑ r ∈ range m, a r i * a r j) * v j =
      ∑ r ∈ range m, (a r i * v i) * (a r j * v j) := by
    intro i j; rw [mul_sum, sum_mul]; exact sum_congr rfl fun r _ => by ring
  simp only [this]
  rw [sum_congr rfl fun i _ => sum_comm, sum_comm]
  refine sum_congr rfl fun r _ => ?_
  rw [pow_two, sum_mul_sum]

theorem quad_diag (n : Nat) (k : K) (v : Nat → K) :
    ∑ i ∈ range n, ∑ j ∈ range n, v i * (k * if i = j then 1 else 0) * v j = k * sqNorm n v := by
  unfold sqNorm
  rw [mul_sum]
  refine sum_congr rfl fun i hi => ?_
  rw [sum_eq_single i]
  · simp; ring
  · intro j _ hj; simp [Ne.symm hj]
  · intro h; exact (h hi).elim

/-- `W J v` -/
def wjv (n : Nat) (W : Mat K) (e : Evaluated K) (v : Nat → K) (r : Nat) : K :=
  ∑ j ∈ range n, wj W e r j * v j

theorem residual_eq {n} (W : Mat K) {e : Evaluated K} (h : Shaped n e) (v : Nat → K) (r : Nat) :
    residual W e v r = wjv n W e v r - we W e r := by
  unfold residual wjv we wj rowDot gained
  rw [h.cols]
  simp only [mul_add, sum_add_distrib, mul_sum, sum_mul]
  rw [sum_comm, sub_eq_add_neg, ← sum_neg_distrib]
  congr 1
  · exact sum_congr rfl fun _ _ => sum_congr rfl fun _ _ => by ring
  · exact sum_congr rfl fun _ _ => by ring

theorem lin_eq (n m : Nat) (a : Nat → Nat → K) (b : Nat → K) (v : Nat → K) :
    ∑ i ∈ range n, (∑ r ∈ range m, - b r * a r i) * v i =
      ∑ r ∈ range m, - b r * ∑ i ∈ range n, a r i * v i := by
  simp only [sum_mul, mul_sum]
  rw [sum_comm]
  exact sum_congr rfl fun _ _ => sum_congr rfl fun _ _ => by ring

theorem residual_zero {n} (W : Mat K) {e : Evaluated K} (h : Shaped n e) (r : Nat) :
    residual W e (fun _ => 0) r = - we W e r := by
  rw [residual_eq W h]; simp [wjv]

theorem normSq_eq (A : Mat K) : A.normSq = frobSq A := by
  unfold Mat.normSq frobSq; simp only [pow_two]

theorem weighted_eq {n} (W : Mat K) {e : Evaluated K} (h : Shaped n e) (v : Nat → K) (p2 : (2 : K) ≠ 0) :
    (∑ r ∈ range e.jac.rows, (∑ j ∈ range n, wj W e r j * v j) ^ 2) / 2 +
      ∑ r ∈ range e.jac.rows, - we W e r * ∑ j ∈ range n, wj W e r j * v j =
    sqNorm e.jac.rows (residual W e v) / 2 - sqNorm e.jac.rows (residual W e fun _ => 0) / 2 := by
  unfold sqNorm
  simp only [residual_zero W h, residual_eq W h v, wjv, sum_div]
  rw [← sum_add_distrib, ← sum_sub_distrib]
  exact sum_congr rfl fun r _ => by field_simp; ring

theorem compObj_eq [IsStrictOrderedRing K] {n} {c : SolverComp K} (hc : CompShaped n c) (v : Nat → K) :
    compObj n c v = cost n v c - cost n (fun _ => 0) c := by
  have p2 : (2 : K) ≠ 0 := two_ne_zero
  cases c with
  | task e W lm =>
    have h := hc.1
    have hw := weighted_eq W h v p2
    have h0 : sqNorm n (fun _ => (0 : K)) = 0 := by simp [sqNorm]
    have hs : ∑ r ∈ range e.jac.rows, we W e r * we W e r =
        sqNorm e.jac.rows (residual W e fun _ => 0) := by
      unfold sqNorm; simp only [residual_zero W h]; exact sum_congr rfl fun _ _ => by ring
    unfold compObj
    simp only [hessOf, linOf, cost, mul_add, add_mul, sum_add_distrib, quad_sq, quad_diag, lin_eq, hs, h0]
    rw [add_div, add_right_comm, hw]; ring
  | barrier e s d =>
    unfold compObj
    simp only [hessOf, linOf, cost, quad_diag, ← normSq_eq]
    unfold sqNorm
    generalize s / e.jac.normSq = g
    rw [mul_sum, mul_sum, mul_sum, sum_div, sum_div, sum_div, ← sum_add_distrib, ← sum_sub_distrib]
    exact sum_congr rfl fun i _ => by field_simp; ring
  | constraint e a hard W =>
    cases hard with
    | true => simp [compObj, hessOf, linOf, cost]
    | false =>
      have h := hc.1
      have hw := weighted_eq W h v p2
      unfold compObj
      simp only [hessOf, linOf, cost, quad_sq, lin_eq, Bool.false_eq_true, if_false]
      exact hw

theorem compObj_quad_nonneg [IsStrictOrderedRing K] {n} {c : SolverComp K} (hg : NonnegGains c)
    (v : Nat → K) : 0 ≤ ∑ i ∈ range n, ∑ j ∈ range n, v i * hessOf c i j * v j := by
  have hsq : 0 ≤ sqNorm n v := sum_nonneg fun _ _ => sq_nonneg _
  cases c with
  | task e W lm =>
    simp only [hessOf, mul_add, add_mul, sum_add_distrib, quad_sq, quad_diag]
    have hlm : 0 ≤ lm := hg
    have : 0 ≤ ∑ r ∈ range e.jac.rows, we W e r * we W e r :=
      sum_nonneg fun _ _ => mul_self_nonneg _
    have h2 : 0 ≤ ∑ r ∈ range e.jac.rows, (∑ j ∈ range n, wj W e r j * v j) ^ 2 :=
      sum_nonneg fun _ _ => sq_nonneg _
    positivity
  | barrier e s d =>
    simp only [hessOf, quad_diag]
    have hs : 0 ≤ s := hg
    have : 0 ≤ e.jac.normSq := sum_nonneg fun _ _ => sum_nonneg fun _ _ => mul_self_nonneg _
    positivity
  | constraint e a hard W =>
    cases hard with
    | true => simp [hessOf]
    | false =>
      simp only [hessOf, quad_sq, Bool.false_eq_true, if_false]
      exact sum_nonneg fun _ _ => sq_nonneg _

theorem hessOf_symm (c : SolverComp K) (i j : Nat) : hessOf c i j = hessOf c j i := by
  have hd : (if i = j then (1 : K) else 0) = if j = i then 1 else 0 := by simp [eq_comm]
  cases c with
  | task e W lm =>
    simp only [hessOf]; rw [hd]; congr 1; exact sum_congr rfl fun _ _ => mul_comm _ _
  | barrier e s d => simp only [hessOf]; rw [hd]
  | constraint e a hard W =>
    simp only [hessOf]; split
    · rfl
    · exact sum_congr rfl fun _ _ => mul_comm _ _

/-! ### Feasibility -/

theorem rowDot_neg (A : Mat K) (i : Nat) (v : Nat → K) : rowDot A.neg i v = - rowDot A i v := by
  unfold rowDot Mat.neg; simp [sum_neg_distrib]

theorem sum_delta (n i : Nat) (hi : i < n) (v : Nat → K) :
    ∑ k ∈ range n, (if i = k then 1 else 0) * v k = v i := by
  rw [sum_eq_single i]
  · simp
  · intro b _ hb; simp [Ne.symm hb]
  · intro h; exact (h (mem_range.mpr hi)).elim

theorem feasible_iff [IsStrictOrderedRing K] {n : Nat} {vMin vMax : Vec K} {comps : List (SolverComp K)} {qp : QP K}
    (hs : ProblemShaped n vMin vMax comps) (h : QPForm n vMin vMax comps qp) (v : Nat → K) :
    Feasible qp v ↔ (∀ i < n, - vMax.get i ≤ v i ∧ v i ≤ - vMin.get i) ∧
      ∀ c ∈ comps, Respects v c := by
  have hI : (∀ i < qp.G.rows, rowDot qp.G i v ≤ qp.h.get i) ↔
      (∀ i < n, - vMax.get i ≤ v i ∧ v i ≤ - vMin.get i) ∧
      ∀ p ∈ comps.flatMap ineqOf, ∀ i < p.1.rows, ∑ k ∈ range n, p.1.get i k * v k ≤ p.2.get i := by
    have := h.G (fun row x => ∑ k ∈ range n, row k * v k ≤ x)
    unfold rowDot; rw [h.gcols, this, ← and_assoc]
    refine and_congr_left fun _ => ?_
    constructor
    · rintro ⟨h1, h2⟩ i hi
      have a := h1 i hi; have b := h2 i hi
      rw [sum_delta n i hi] at a
      simp only [neg_mul, sum_neg_distrib] at b
      rw [sum_delta n i hi] at b
      exact ⟨by linarith, a⟩
    · intro h1
      refine ⟨fun i hi => ?_, fun i hi => ?_⟩
      · rw [sum_delta n i hi]; exact (h1 i hi).2
      · simp only [neg_mul, sum_neg_distrib]; rw [sum_delta n i hi]; linarith [(h1 i hi).1]
  have hE : (∀ A b, qp.A = some A → qp.b = some b → ∀ i < A.rows, rowDot A i v = b.get i) ↔
      ∀ p ∈ comps.flatMap eqOf, ∀ i < p.1.rows, ∑ k ∈ range n, p.1.get i k * v k = p.2.get i := by
    rcases h.A with ⟨h1, h2, h3⟩ | ⟨A, b, h1, h2, h3, h4, _, _, h5⟩
    · rw [h1, h2]; simp
    · rw [h1, h2]
      have := h5 (fun row x => ∑ k ∈ range n, row k * v k = x)
      rw [← this]
      constructor
      · intro g; have := g A b rfl rfl; unfold rowDot at this; rw [h4] at this; exact this
      · rintro g A' b' hA hb; cases hA; cases hb; unfold rowDot; rw [h4]; exact g
  have hR : ((∀ p ∈ comps.flatMap ineqOf, ∀ i < p.1.rows, ∑ k ∈ range n, p.1.get i k * v k ≤ p.2.get i) ∧
      (∀ p ∈ comps.flatMap eqOf, ∀ i < p.1.rows, ∑ k ∈ range n, p.1.get i k * v k = p.2.get i)) ↔
      ∀ c ∈ comps, Respects v c := by
    simp only [List.mem_flatMap, forall_exists_index, and_imp]
    have key : ∀ c ∈ comps, ((∀ p ∈ ineqOf c, ∀ i < p.1.rows, ∑ k ∈ range n, p.1.get i k * v k ≤ p.2.get i) ∧
        (∀ p ∈ eqOf c, ∀ i < p.1.rows, ∑ k ∈ range n, p.1.get i k * v k = p.2.get i)) ↔ Respects v c := by
      intro c hc
      have hcs := hs.comps c hc
      cases c with
      | task e W lm => simp [ineqOf, eqOf, Respects]
      | barrier e s d =>
        have hcol := hcs.1.cols
        simp only [ineqOf, eqOf, Respects, List.mem_singleton, forall_eq, List.not_mem_nil,
          false_imp_iff, implies_true, and_true, Mat.neg, neg_mul, sum_neg_distrib, pge]
        unfold rowDot gained; rw [hcol]
        refine forall_congr' fun i => forall_congr' fun _ => ?_
        constructor <;> intro h <;> linarith
      | constraint e a hard W =>
        have hcol := hcs.1.cols
        cases hard with
        | false => simp [ineqOf, eqOf, Respects]
        | true =>
          simp only [ineqOf, eqOf, Respects, List.mem_singleton, forall_eq, List.not_mem_nil,
            false_imp_iff, implies_true, true_and, mge, forall_const]
          unfold rowDot gained; rw [hcol]; simp only [neg_mul]
    constructor
    · rintro ⟨h1, h2⟩ c hc
      exact (key c hc).mp ⟨fun p hp => h1 p c hc hp, fun p hp => h2 p c hc hp⟩
    · intro h
      exact ⟨fun p c hc hp => ((key c hc).mpr (h c hc)).1 p hp,
        fun p c hc hp => ((key c hc).mpr (h c hc)).2 p hp⟩
  rw [← hR, ← and_assoc, ← hI, ← hE]
  exact ⟨fun h => ⟨h.1, h.2⟩, fun h => ⟨h.1, h.2⟩⟩

end Mjinx
