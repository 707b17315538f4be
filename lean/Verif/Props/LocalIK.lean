import Verif.Lemmas.LocalIK
import Mathlib.Algebra.Order.Ring.Rat
import Mathlib.Algebra.Field.Rat
import Mathlib.Tactic.NormNum
set_option linter.unusedSectionVars false

/-!
# C21–C28, C31–C33, C35, C36: the quadratic program of local IK

The theorems are about components with fitting sizes (`ProblemShaped`); `Props/Pipeline.lean` shows that
compiled components are of this form.
-/

namespace Mjinx.Props
open Spec Finset
variable {K : Type} [Field K] [LinearOrder K] [IsStrictOrderedRing K]

/-! A concrete problem with two degrees of freedom used in the examples: one task, one barrier, one
hard and one soft constraint. -/
namespace LEx

def J1 : Mat ℚ := ⟨1, 2, fun _ j => if j = 0 then 1 else 2⟩
def ev (x g : ℚ) : Evaluated ℚ := ⟨J1, ⟨1, fun _ => x⟩, ⟨1, fun _ => g⟩, id⟩
def W1 (w : ℚ) : Mat ℚ := ⟨1, 1, fun _ _ => w⟩
def lim (x : ℚ) : Vec ℚ := ⟨2, fun _ => x⟩
def comps : List (SolverComp ℚ) :=
  [.task (ev 3 1) (W1 2) 1, .barrier (ev 1 2) 5 (Vec.zero 2), .constraint (ev 1 1) true true (W1 100),
   .constraint (ev 1 1) true false (W1 100)]

theorem evShaped (x g : ℚ) : Shaped 2 (ev x g) := ⟨rfl, rfl, rfl⟩
theorem shaped (lo hi : ℚ) : ProblemShaped 2 (lim lo) (lim hi) comps := by
  refine ⟨rfl, rfl, ?_⟩
  intro c hc
  simp only [comps, List.mem_cons, List.not_mem_nil, or_false] at hc
  rcases hc with rfl | rfl | rfl | rfl <;> exact ⟨evShaped _ _, by first | exact ⟨rfl, rfl⟩ | rfl⟩
theorem noBad : ∀ c ∈ comps, ¬ badBarrier c := by
  intro c hc
  simp only [comps, List.mem_cons, List.not_mem_nil, or_false] at hc
  rcases hc with rfl | rfl | rfl | rfl <;> simp only [badBarrier, not_false_eq_true]
  show ¬ (∑ i ∈ range 1, ∑ j ∈ range 2, _ : ℚ) = 0
  simp only [sum_range_succ, sum_range_zero, J1, ev]; norm_num
theorem runs : ∃ qp, computeQP 2 2 (lim (-1)) (lim 1) comps = .ok qp :=
  (computeQP_form (shaped (-1) 1) noBad).imp fun _ h => h.1

end LEx

/-- C21 (what the code does): the limit rows say `-v_max ≤ v ≤ -v_min`. -/
theorem C21_limit_rows {n : Nat} {vMin vMax : Vec K} {qp : QP K}
    (hlo : vMin.len = n) (hhi : vMax.len = n) (hq : computeQP n n vMin vMax [] = .ok qp) (v : Nat → K) :
    Feasible qp v ↔ ∀ i < n, - vMax.get i ≤ v i ∧ v i ≤ - vMin.get i := by
  have hs : ProblemShaped n vMin vMax [] := ⟨hlo, hhi, by simp⟩
  rw [feasible_iff hs (form_of_ok hs hq)]; simp

/-- C21 is false in general: for consistent limits, the limit rows mean `v_min ≤ v ≤ v_max` only if
the limits are symmetric in every coordinate. -/
theorem C21_only_symmetric {n : Nat} {vMin vMax : Vec K} {qp : QP K}
    (hlo : vMin.len = n) (hhi : vMax.len = n) (hle : ∀ i < n, vMin.get i ≤ vMax.get i)
    (hq : computeQP n n vMin vMax [] = .ok qp) :
    (∀ v, Feasible qp v ↔ ∀ i < n, vMin.get i ≤ v i ∧ v i ≤ vMax.get i) ↔
      ∀ i < n, vMin.get i = - vMax.get i := by
  simp only [C21_limit_rows hlo hhi hq]
  constructor
  · intro h i hi
    have a := (h vMax.get).mpr (fun i hi => ⟨hle i hi, le_refl _⟩) i hi
    have b := (h vMin.get).mpr (fun i hi => ⟨le_refl _, hle i hi⟩) i hi
    linarith [a.2, b.1]
  · intro h v
    refine forall_congr' fun i => forall_congr' fun hi => ?_
    rw [h i hi]; simp

/-- C21, witness: with limits -2 and 1 the QP allows velocity 2. -/
theorem C21_asymmetric_violation : ∃ (vMin vMax : Vec ℚ) (qp : QP ℚ) (v : Nat → ℚ),
    computeQP 1 1 vMin vMax [] = .ok qp ∧ vMin.len = 1 ∧ vMax.len = 1 ∧
    vMin.get 0 < 0 ∧ 0 < vMax.get 0 ∧ Feasible qp v ∧ vMax.get 0 < v 0 := by
  obtain ⟨qp, hq, -⟩ := computeQP_form (n := 1) (vMin := ⟨1, fun _ => (-2 : ℚ)⟩) (vMax := ⟨1, fun _ => 1⟩)
    (comps := []) ⟨rfl, rfl, by simp⟩ (by simp)
  refine ⟨⟨1, fun _ => -2⟩, ⟨1, fun _ => 1⟩, qp, fun _ => 2, hq, rfl, rfl, ?_, ?_, ?_, ?_⟩
  · show (-2 : ℚ) < 0; norm_num
  · show (0 : ℚ) < 1; norm_num
  · refine (C21_limit_rows (n := 1) rfl rfl hq _).mpr fun i _ => ?_
    show (-1 : ℚ) ≤ 2 ∧ (2 : ℚ) ≤ - -2
    norm_num
  · show (1 : ℚ) < 2; norm_num

/-- C21 (partial): for symmetric limits, with any components, feasible velocities are within the limits
and every velocity within the limits satisfies the limit rows.  Missing: asymmetric limits, where the
claim is false (`C21_only_symmetric`). -/
theorem C21_velocity_limits_partial {n : Nat} {vMin vMax : Vec K} {comps : List (SolverComp K)} {qp : QP K}
    (hs : ProblemShaped n vMin vMax comps) (hsym : ∀ i < n, vMin.get i = - vMax.get i)
    (hq : computeQP n n vMin vMax comps = .ok qp) (v : Nat → K) :
    Feasible qp v ↔ (∀ i < n, vMin.get i ≤ v i ∧ v i ≤ vMax.get i) ∧ ∀ c ∈ comps, Respects v c := by
  rw [feasible_iff hs (form_of_ok hs hq)]
  refine and_congr_left fun _ => forall_congr' fun i => forall_congr' fun hi => ?_
  rw [hsym i hi]; simp

example : ∃ qp, computeQP 2 2 (LEx.lim (-1)) (LEx.lim 1) LEx.comps = .ok qp ∧
    ProblemShaped 2 (LEx.lim (-1)) (LEx.lim 1) LEx.comps ∧
    ∀ i < 2, (LEx.lim (-1)).get i = - (LEx.lim 1).get i :=
  LEx.runs.imp fun _ h => ⟨h, LEx.shaped _ _, fun _ _ => rfl⟩

/-- C22: the feasible velocities are exactly those within the limit rows that satisfy, for every
barrier, `J v ≥ -gain * gain_fn(h)` in each component, and every hard constraint. -/
theorem C22_barrier_rows {n : Nat} {vMin vMax : Vec K} {comps : List (SolverComp K)} {qp : QP K}
    (hs : ProblemShaped n vMin vMax comps) (hq : computeQP n n vMin vMax comps = .ok qp) (v : Nat → K) :
    Feasible qp v ↔ (∀ i < n, - vMax.get i ≤ v i ∧ v i ≤ - vMin.get i) ∧
      (∀ e s d, SolverComp.barrier e s d ∈ comps → ∀ i < e.jac.rows,
        rowDot e.jac i v ≥ - (e.gain.get i * e.gainFn (e.value.get i))) ∧
      (∀ e a W, SolverComp.constraint e a true W ∈ comps → ∀ i < e.jac.rows,
        rowDot e.jac i v = - (e.gain.get i * e.gainFn (e.value.get i))) := by
  rw [feasible_iff hs (form_of_ok hs hq)]
  refine and_congr_right fun _ => ?_
  constructor
  · intro h
    exact ⟨fun e s d hm => h _ hm, fun e a W hm => h _ hm rfl⟩
  · rintro ⟨h1, h2⟩ c hc
    cases c with
    | task => trivial
    | barrier e s d => exact h1 e s d hc
    | constraint e a hard W => intro hh; subst hh; exact h2 e a W hc

example : ∃ qp, computeQP 2 2 (LEx.lim (-1)) (LEx.lim 1) LEx.comps = .ok qp ∧
    ∃ e s d, SolverComp.barrier e s d ∈ LEx.comps ∧ 0 < e.jac.rows :=
  LEx.runs.imp fun _ h => ⟨h, LEx.ev 1 2, 5, Vec.zero 2, by simp [LEx.comps], Nat.one_pos⟩

/-- C23: the equality rows hold for `v` iff every hard constraint has `J v = -gain * gain_fn(f)`; there
are no equality rows iff there is no hard constraint. -/
theorem C23_hard_constraints {n : Nat} {vMin vMax : Vec K} {comps : List (SolverComp K)} {qp : QP K}
    (hs : ProblemShaped n vMin vMax comps) (hq : computeQP n n vMin vMax comps = .ok qp) (v : Nat → K) :
    ((∀ A b, qp.A = some A → qp.b = some b → ∀ i < A.rows, rowDot A i v = b.get i) ↔
      (∀ e a W, SolverComp.constraint e a true W ∈ comps → ∀ i < e.jac.rows,
        rowDot e.jac i v = - (e.gain.get i * e.gainFn (e.value.get i)))) ∧
    (qp.A = none ↔ ¬ ∃ e a W, SolverComp.constraint e a true W ∈ comps) ∧
    (qp.b = none ↔ qp.A = none) := by
  have h := form_of_ok hs hq
  have hmem : ∀ p, p ∈ comps.flatMap eqOf ↔
      ∃ e a W, SolverComp.constraint e a true W ∈ comps ∧ p = (e.jac, mge e) := by
    intro p
    rw [List.mem_flatMap]
    constructor
    · rintro ⟨c, hc, hp⟩
      cases c with
      | task => simp [eqOf] at hp
      | barrier => simp [eqOf] at hp
      | constraint e a hard W =>
        cases hard with
        | false => simp [eqOf] at hp
        | true => exact ⟨e, a, W, hc, by simpa [eqOf] using hp⟩
    · rintro ⟨e, a, W, hc, rfl⟩
      exact ⟨_, hc, by simp [eqOf]⟩
  have hrow : (∀ p ∈ comps.flatMap eqOf, ∀ i < p.1.rows, ∑ k ∈ range n, p.1.get i k * v k = p.2.get i) ↔
      (∀ e a W, SolverComp.constraint e a true W ∈ comps → ∀ i < e.jac.rows,
        rowDot e.jac i v = - (e.gain.get i * e.gainFn (e.value.get i))) := by
    constructor
    · intro g e a W hm i hi
      have := g _ ((hmem _).mpr ⟨e, a, W, hm, rfl⟩) i hi
      have hc := (hs.comps _ hm).1.cols
      unfold rowDot; rw [hc, ← neg_mul]; exact this
    · rintro g p hp i hi
      obtain ⟨e, a, W, hm, rfl⟩ := (hmem p).mp hp
      have := g e a W hm i hi
      have hc := (hs.comps _ hm).1.cols
      unfold rowDot at this; rw [hc, ← neg_mul] at this; exact this
  have hnil : comps.flatMap eqOf = [] ↔ ¬ ∃ e a W, SolverComp.constraint e a true W ∈ comps := by
    rw [List.eq_nil_iff_forall_not_mem]
    constructor
    · rintro g ⟨e, a, W, hm⟩; exact g _ ((hmem _).mpr ⟨e, a, W, hm, rfl⟩)
    · rintro g p hp; obtain ⟨e, a, W, hm, -⟩ := (hmem p).mp hp; exact g ⟨e, a, W, hm⟩
  rw [← hrow, ← hnil]
  rcases h.A with ⟨h1, h2, h3⟩ | ⟨A, b, h1, h2, h3, h4, _, _, h5⟩
  · rw [h1, h2, h3]; simp
  · rw [h1, h2]
    refine ⟨?_, by simpa using h3, by simp⟩
    have := h5 (fun row x => ∑ k ∈ range n, row k * v k = x)
    rw [← this]
    constructor
    · intro g; have := g A b rfl rfl; unfold rowDot at this; rw [h4] at this; exact this
    · rintro g A' b' hA hb; cases hA; cases hb; unfold rowDot; rw [h4]; exact g

example : ∃ qp, computeQP 2 2 (LEx.lim (-1)) (LEx.lim 1) LEx.comps = .ok qp ∧
    ∃ e a W, SolverComp.constraint e a true W ∈ LEx.comps ∧ 0 < e.jac.rows :=
  LEx.runs.imp fun _ h => ⟨h, LEx.ev 1 1, true, LEx.W1 100, by simp [LEx.comps], Nat.one_pos⟩

/-- C24: the cost matrix is symmetric and positive semidefinite. -/
theorem C24_convex {n : Nat} {vMin vMax : Vec K} {comps : List (SolverComp K)} {qp : QP K}
    (hs : ProblemShaped n vMin vMax comps) (hg : ∀ c ∈ comps, NonnegGains c)
    (hq : computeQP n n vMin vMax comps = .ok qp) :
    (∀ i j, qp.P.get i j = qp.P.get j i) ∧
    ∀ v : Nat → K, 0 ≤ ∑ i ∈ range n, ∑ j ∈ range n, v i * qp.P.get i j * v j := by
  have h := form_of_ok hs hq
  refine ⟨fun i j => ?_, fun v => ?_⟩
  · rw [h.P, h.P]; congr 1; exact List.map_congr_left fun c _ => hessOf_symm c i j
  · simp only [h.P]
    have := list_sum_quad n comps hessOf (fun _ _ => 0) v
    simp only [zero_mul, sum_const_zero, add_zero] at this
    have h0 : ∀ i : Nat, ((comps.map fun _ => (0 : K)).sum * v i) = 0 := by
      intro i; simp
    simp only [h0, sum_const_zero, add_zero] at this
    have hn : 0 ≤ (comps.map fun c => (∑ i ∈ range n, ∑ j ∈ range n, v i * hessOf c i j * v j) / 2).sum := by
      apply List.sum_nonneg
      intro x hx
      obtain ⟨c, hc, rfl⟩ := List.mem_map.mp hx
      have := compObj_quad_nonneg (n := n) (hg c hc) v
      positivity
    rw [← this] at hn
    linarith

example : (∀ c ∈ LEx.comps, NonnegGains c) ∧ ∃ qp, computeQP 2 2 (LEx.lim (-1)) (LEx.lim 1) LEx.comps = .ok qp := by
  refine ⟨?_, LEx.runs⟩
  intro c hc
  simp only [LEx.comps, List.mem_cons, List.not_mem_nil, or_false] at hc
  rcases hc with rfl | rfl | rfl | rfl <;> simp [NonnegGains]

/-- C25: up to the constant that makes it vanish at `v = 0`, the objective is the sum of the
components' costs (`Spec.cost`). -/
theorem C25_objective {n : Nat} {vMin vMax : Vec K} {comps : List (SolverComp K)} {qp : QP K}
    (hs : ProblemShaped n vMin vMax comps) (hq : computeQP n n vMin vMax comps = .ok qp) (v : Nat → K) :
    objective qp v = (comps.map (cost n v)).sum - (comps.map (cost n fun _ => 0)).sum := by
  rw [objective_eq (form_of_ok hs hq)]
  have : ∀ l : List (SolverComp K), (∀ c ∈ l, CompShaped n c) →
      (l.map (fun c => compObj n c v)).sum = (l.map (cost n v)).sum - (l.map (cost n fun _ => 0)).sum := by
    intro l
    induction l with
    | nil => simp
    | cons c l ih =>
      intro h
      simp only [List.map_cons, List.sum_cons]
      rw [ih fun x hx => h x (by simp [hx]), compObj_eq (h c (by simp))]; ring
  exact this comps hs.comps

example : ∃ qp, computeQP 2 2 (LEx.lim (-1)) (LEx.lim 1) LEx.comps = .ok qp ∧
    ProblemShaped 2 (LEx.lim (-1)) (LEx.lim 1) LEx.comps := LEx.runs.imp fun _ h => ⟨h, LEx.shaped _ _⟩

/-- C26 (what the code does): a task without damping contributes `Jᵀ (Wᵀ W) J`. -/
theorem C26_weight_is_squared {n : Nat} {vMin vMax : Vec K} {e : Evaluated K} {W : Mat K} {qp : QP K}
    (hs : ProblemShaped n vMin vMax [.task e W 0])
    (hq : computeQP n n vMin vMax [.task e W 0] = .ok qp) (i j : Nat) :
    qp.P.get i j = ∑ a ∈ range e.jac.rows, ∑ b ∈ range e.jac.rows,
      e.jac.get a i * (∑ r ∈ range e.jac.rows, W.get r a * W.get r b) * e.jac.get b j := by
  rw [(form_of_ok hs hq).P]
  simp only [List.map_cons, List.map_nil, List.sum_cons, List.sum_nil, hessOf, wj, zero_mul, add_zero]
  simp only [sum_mul_sum]
  rw [sum_comm]
  refine sum_congr rfl fun a _ => ?_
  rw [sum_comm]
  refine sum_congr rfl fun b _ => ?_
  rw [mul_sum, sum_mul]
  exact sum_congr rfl fun r _ => by ring

/-- C26 is false: a task with cost 2 contributes `4 JᵀJ`, not the documented `2 JᵀJ`. -/
theorem C26_documented_weight_false : ∃ (e : Evaluated ℚ) (W : Mat ℚ) (vMin vMax : Vec ℚ) (qp : QP ℚ),
    ProblemShaped 1 vMin vMax [.task e W 0] ∧ computeQP 1 1 vMin vMax [.task e W 0] = .ok qp ∧
    qp.P.get 0 0 ≠ ∑ a ∈ range e.jac.rows, ∑ b ∈ range e.jac.rows,
      e.jac.get a 0 * W.get a b * e.jac.get b 0 := by
  have hs : ProblemShaped 1 (⟨1, fun _ => -1⟩ : Vec ℚ) ⟨1, fun _ => 1⟩
      [.task ⟨⟨1, 1, fun _ _ => 1⟩, ⟨1, fun _ => 1⟩, ⟨1, fun _ => 1⟩, id⟩ ⟨1, 1, fun _ _ => 2⟩ 0] :=
    ⟨rfl, rfl, by simp only [List.mem_singleton, forall_eq]; exact ⟨⟨rfl, rfl, rfl⟩, rfl, rfl⟩⟩
  obtain ⟨qp, hq, -⟩ := computeQP_form hs (by simp [badBarrier])
  refine ⟨_, _, _, _, qp, hs, hq, ?_⟩
  rw [C26_weight_is_squared hs hq]
  simp only [sum_range_one]; norm_num

/-- C26 (partial): the documented form `Jᵀ W J` holds for costs with `Wᵀ W = W`, such as selection
matrices and the identity.  Missing: every other cost, where it is false. -/
theorem C26_documented_weight_partial {n : Nat} {vMin vMax : Vec K} {e : Evaluated K} {W : Mat K} {qp : QP K}
    (hs : ProblemShaped n vMin vMax [.task e W 0])
    (hW : ∀ a < e.jac.rows, ∀ b < e.jac.rows, ∑ r ∈ range e.jac.rows, W.get r a * W.get r b = W.get a b)
    (hq : computeQP n n vMin vMax [.task e W 0] = .ok qp) (i j : Nat) :
    qp.P.get i j = ∑ a ∈ range e.jac.rows, ∑ b ∈ range e.jac.rows,
      e.jac.get a i * W.get a b * e.jac.get b j := by
  rw [C26_weight_is_squared hs hq]
  exact sum_congr rfl fun a ha => sum_congr rfl fun b hb => by
    rw [hW a (mem_range.mp ha) b (mem_range.mp hb)]

example : ∃ (e : Evaluated ℚ) (W : Mat ℚ) (qp : QP ℚ), ProblemShaped 2 (LEx.lim (-1)) (LEx.lim 1) [.task e W 0] ∧
    computeQP 2 2 (LEx.lim (-1)) (LEx.lim 1) [.task e W 0] = .ok qp ∧
    (∀ a < e.jac.rows, ∀ b < e.jac.rows, ∑ r ∈ range e.jac.rows, W.get r a * W.get r b = W.get a b) := by
  have hs : ProblemShaped 2 (LEx.lim (-1)) (LEx.lim 1) [.task (LEx.ev 3 1) (LEx.W1 1) 0] :=
    ⟨rfl, rfl, by simp only [List.mem_singleton, forall_eq]; exact ⟨LEx.evShaped _ _, rfl, rfl⟩⟩
  obtain ⟨qp, hq, -⟩ := computeQP_form hs (by simp [badBarrier])
  refine ⟨_, _, qp, hs, hq, ?_⟩
  intro a _ b _
  show ∑ r ∈ range 1, _ = _
  rw [sum_range_one]; exact one_mul _

/-- C27: permuting the components changes neither the success of the construction, nor the cost, nor
the feasible velocities. -/
theorem C27_order {n : Nat} {vMin vMax : Vec K} {l₁ l₂ : List (SolverComp K)} {qp₁ : QP K}
    (hs : ProblemShaped n vMin vMax l₁) (hp : l₁.Perm l₂) (hq : computeQP n n vMin vMax l₁ = .ok qp₁) :
    ∃ qp₂, computeQP n n vMin vMax l₂ = .ok qp₂ ∧
      (∀ i j, qp₂.P.get i j = qp₁.P.get i j) ∧ (∀ i, qp₂.c.get i = qp₁.c.get i) ∧
      (∀ v, objective qp₂ v = objective qp₁ v) ∧ (∀ v, Feasible qp₂ v ↔ Feasible qp₁ v) ∧
      (∀ v, Optimal qp₂ v ↔ Optimal qp₁ v) := by
  have h1 := form_of_ok hs hq
  have hs2 : ProblemShaped n vMin vMax l₂ := ⟨hs.vMin, hs.vMax, fun c hc => hs.comps c (hp.mem_iff.mpr hc)⟩
  have hb : ∀ c ∈ l₂, ¬ badBarrier c := by
    intro c hc hbad
    rw [computeQP_bad hs ⟨c, hp.mem_iff.mpr hc, hbad⟩] at hq; cases hq
  obtain ⟨qp₂, hq2, h2⟩ := computeQP_form hs2 hb
  have hobj : ∀ v, objective qp₂ v = objective qp₁ v := by
    intro v; rw [objective_eq h1, objective_eq h2]; exact ((hp.map _).sum_eq).symm
  have hfe : ∀ v, Feasible qp₂ v ↔ Feasible qp₁ v := by
    intro v; rw [feasible_iff hs h1, feasible_iff hs2 h2]
    exact and_congr_right fun _ => forall_congr' fun c => by rw [hp.mem_iff]
  refine ⟨qp₂, hq2, ?_, ?_, hobj, hfe, ?_⟩
  · intro i j; rw [h1.P, h2.P]; exact ((hp.map _).sum_eq).symm
  · intro i; rw [h1.c, h2.c]; exact ((hp.map _).sum_eq).symm
  · intro v; unfold Optimal; simp only [hobj, hfe]

example : ∃ qp, computeQP 2 2 (LEx.lim (-1)) (LEx.lim 1) LEx.comps = .ok qp ∧
    LEx.comps.Perm LEx.comps.reverse := LEx.runs.imp fun _ h => ⟨h, (List.reverse_perm _).symm⟩

/-- C28: in a control loop of any length, every answer is what a solver started from scratch (with any
initial data) would return for that request alone. -/
theorem C28_no_history {I : Type} (osqp : QPSolver K I) (nvSolver nv : Nat) (d d₀ : LocalIKData K)
    (rs : List (Request K)) :
    controlLoop osqp nvSolver nv d rs =
      rs.map fun r => (solveFromData osqp nvSolver nv r.vMin r.vMax d₀ r.comps).map Prod.fst := by
  induction rs generalizing d with
  | nil => rfl
  | cons r rs ih =>
    have hd : ∀ d, solveFromData osqp nvSolver nv r.vMin r.vMax d r.comps =
        solveFromData osqp nvSolver nv r.vMin r.vMax d₀ r.comps := fun _ => rfl
    simp only [controlLoop, List.map_cons]
    rw [hd d]
    cases hc : solveFromData osqp nvSolver nv r.vMin r.vMax d₀ r.comps with
    | error e => simp only [ih]; rfl
    | ok p => simp only [ih]; rfl

/-- A loop of two requests that both succeed. -/
example : ∃ s₁ s₂ : LocalIKSolution ℚ Unit, controlLoop (fun qp => (qp.c, ())) 2 2 ⟨Vec.zero 2⟩
    [⟨LEx.lim (-1), LEx.lim 1, LEx.comps⟩, ⟨LEx.lim (-1), LEx.lim 1, []⟩] = [.ok s₁, .ok s₂] := by
  obtain ⟨q1, h1⟩ := LEx.runs
  obtain ⟨q2, h2, -⟩ := computeQP_form (n := 2) (vMin := LEx.lim (-1)) (vMax := LEx.lim 1) (comps := [])
    ⟨rfl, rfl, by simp⟩ (by simp)
  refine ⟨⟨q1.c, ()⟩, ⟨q2.c, ()⟩, ?_⟩
  rw [C28_no_history _ _ _ _ ⟨Vec.zero 2⟩]
  simp only [List.map_cons, List.map_nil, solveFromData, h1, h2]
  rfl

theorem badBarrier_iff {e : Evaluated K} {s : K} {d : Vec K} :
    badBarrier (.barrier e s d) ↔ ZeroMat e.jac := by
  show (∑ i ∈ range _, ∑ j ∈ range _, _ : K) = 0 ↔ _
  rw [sum_eq_zero_iff_of_nonneg fun i _ => sum_nonneg fun j _ => mul_self_nonneg _]
  constructor
  · intro h i hi j hj
    have := h i (mem_range.mpr hi)
    rw [sum_eq_zero_iff_of_nonneg fun j _ => mul_self_nonneg _] at this
    exact mul_self_eq_zero.mp (this j (mem_range.mpr hj))
  · intro h i hi
    exact sum_eq_zero fun j hj => by rw [h i (mem_range.mp hi) j (mem_range.mp hj), mul_zero]

/-- C31 (partial): the matrices are finite exactly when no barrier has an all-zero Jacobian; nothing else
can go wrong.  Missing: finiteness when a barrier Jacobian vanishes, which is false
(`C31_zero_jacobian`). -/
theorem C31_finite_partial {n : Nat} {vMin vMax : Vec K} {comps : List (SolverComp K)}
    (hs : ProblemShaped n vMin vMax comps) :
    ((∃ qp, computeQP n n vMin vMax comps = .ok qp) ↔
      ∀ e s d, SolverComp.barrier e s d ∈ comps → ¬ ZeroMat e.jac) ∧
    (computeQP n n vMin vMax comps = .error .nonFinite ↔
      ∃ e s d, SolverComp.barrier e s d ∈ comps ∧ ZeroMat e.jac) := by
  have hex : (∃ c ∈ comps, badBarrier c) ↔ ∃ e s d, SolverComp.barrier e s d ∈ comps ∧ ZeroMat e.jac := by
    constructor
    · rintro ⟨c, hc, hb⟩
      cases c with
      | barrier e s d => exact ⟨e, s, d, hc, badBarrier_iff.mp hb⟩
      | task => exact hb.elim
      | constraint => exact hb.elim
    · rintro ⟨e, s, d, hc, hz⟩; exact ⟨_, hc, badBarrier_iff.mpr hz⟩
  by_cases hb : ∃ c ∈ comps, badBarrier c
  · have he := computeQP_bad hs hb
    rw [he]
    refine ⟨⟨fun ⟨_, h⟩ => (by cases h), fun h => ?_⟩, ⟨fun _ => hex.mp hb, fun _ => rfl⟩⟩
    obtain ⟨e, s, d, hc, hz⟩ := hex.mp hb
    exact (h e s d hc hz).elim
  · have hb' := hb
    push Not at hb
    obtain ⟨qp, hq, -⟩ := computeQP_form hs hb
    rw [hq]
    refine ⟨⟨fun _ e s d hc hz => hb' (hex.mpr ⟨e, s, d, hc, hz⟩), fun _ => ⟨qp, rfl⟩⟩,
      ⟨fun h => (by cases h), fun h => (hb' (hex.mpr h)).elim⟩⟩

/-- C31 is false: a barrier whose Jacobian vanishes makes the QP non-finite, even when its safe
displacement gain is zero. -/
theorem C31_zero_jacobian : ∃ (comps : List (SolverComp ℚ)) (vMin vMax : Vec ℚ),
    ProblemShaped 1 vMin vMax comps ∧ (∀ e s d, SolverComp.barrier e s d ∈ comps → s = 0) ∧
    computeQP 1 1 vMin vMax comps = .error .nonFinite := by
  have hs : ProblemShaped 1 (⟨1, fun _ => -1⟩ : Vec ℚ) ⟨1, fun _ => 1⟩
      [.barrier ⟨⟨1, 1, fun _ _ => 0⟩, ⟨1, fun _ => 1⟩, ⟨1, fun _ => 1⟩, id⟩ 0 ⟨1, fun _ => 0⟩] :=
    ⟨rfl, rfl, by simp only [List.mem_singleton, forall_eq]; exact ⟨⟨rfl, rfl, rfl⟩, rfl⟩⟩
  refine ⟨_, _, _, hs, ?_, (C31_finite_partial hs).2.mpr ⟨_, _, _, List.mem_singleton.mpr rfl, ?_⟩⟩
  · intro e s d h; simp only [List.mem_singleton, SolverComp.barrier.injEq] at h; exact h.2.1
  · intro i _ j _; rfl

example : ProblemShaped 2 (LEx.lim (-1)) (LEx.lim 1) LEx.comps := LEx.shaped _ _

/-- C32 (what the code does): the `active` flags are never read. -/
theorem C32_active_ignored (nvSolver nv : Nat) (vMin vMax : Vec K) (f : Nat → Bool)
    (comps : List (SolverComp K)) :
    computeQP nvSolver nv vMin vMax (withActive f comps) = computeQP nvSolver nv vMin vMax comps := by
  have : ∀ (l : List (SolverComp K)) (f : Nat → Bool) (acc : QPAcc K),
      (withActive f l).foldlM (qpStep nv) acc = l.foldlM (qpStep nv) acc := by
    intro l
    induction l with
    | nil => intros; rfl
    | cons c l ih =>
      intro f acc
      have hw : withActive f (c :: l) = setActiveFlag (f 0) c :: withActive (fun i => f (i + 1)) l := by
        unfold withActive; rw [List.mapIdx_cons]
      rw [hw, List.foldlM_cons, List.foldlM_cons]
      have hstep : qpStep nv acc (setActiveFlag (f 0) c) = qpStep nv acc c := by cases c <;> rfl
      rw [hstep]
      congr 1; funext a; exact ih _ _
  unfold computeQP; rw [this]

/-- C32 is false: an inactive hard constraint excludes a velocity that is feasible without it. -/
theorem C32_inactive_still_constrains : ∃ (e : Evaluated ℚ) (W : Mat ℚ) (vMin vMax : Vec ℚ) (qp qp₀ : QP ℚ)
    (v : Nat → ℚ), computeQP 2 2 vMin vMax [.constraint e false true W] = .ok qp ∧
    computeQP 2 2 vMin vMax [] = .ok qp₀ ∧ Feasible qp₀ v ∧ ¬ Feasible qp v := by
  have hs : ProblemShaped 2 (LEx.lim (-1)) (LEx.lim 1)
      [.constraint (LEx.ev 1 1) false true (LEx.W1 1)] :=
    ⟨rfl, rfl, by simp only [List.mem_singleton, forall_eq]; exact ⟨LEx.evShaped _ _, rfl, rfl⟩⟩
  have hs0 : ProblemShaped 2 (LEx.lim (-1)) (LEx.lim 1) [] := ⟨rfl, rfl, by simp⟩
  obtain ⟨qp, hq, -⟩ := computeQP_form hs (by simp [badBarrier])
  obtain ⟨q0, hq0, -⟩ := computeQP_form hs0 (by simp)
  refine ⟨LEx.ev 1 1, LEx.W1 1, LEx.lim (-1), LEx.lim 1, qp, q0, fun _ => 0, hq, hq0, ?_, ?_⟩
  · refine (C21_limit_rows (n := 2) rfl rfl hq0 _).mpr fun i _ => ?_
    show (-1 : ℚ) ≤ 0 ∧ (0 : ℚ) ≤ - -1
    norm_num
  · intro hf
    have h := ((C22_barrier_rows hs hq _).mp hf).2.2 _ _ _ (List.mem_singleton.mpr rfl) 0 Nat.one_pos
    simp [rowDot, LEx.ev] at h

/-- C33: replacing a soft constraint by the task with the same error, Jacobian, gain and cost and no
damping gives the very same QP. -/
theorem C33_soft_constraint_is_task {n : Nat} {vMin vMax : Vec K} {e : Evaluated K} {a : Bool} {W : Mat K}
    {pre post : List (SolverComp K)}
    (hs : ProblemShaped n vMin vMax (pre ++ .constraint e a false W :: post)) :
    computeQP n n vMin vMax (pre ++ .constraint e a false W :: post) =
      computeQP n n vMin vMax (pre ++ .task e W 0 :: post) := by
  have hmem : ∀ (x : SolverComp K), x ∈ pre ++ .task e W 0 :: post →
      x = .task e W 0 ∨ x ∈ pre ++ .constraint e a false W :: post := by
    intro x hx; simp only [List.mem_append, List.mem_cons] at hx ⊢; tauto
  have hs2 : ProblemShaped n vMin vMax (pre ++ .task e W 0 :: post) := by
    refine ⟨hs.vMin, hs.vMax, fun c hc => ?_⟩
    rcases hmem c hc with rfl | hc
    · exact hs.comps (.constraint e a false W) (by simp)
    · exact hs.comps c hc
  by_cases hb : ∃ c ∈ pre ++ .constraint e a false W :: post, badBarrier c
  · rw [computeQP_bad hs hb]
    obtain ⟨c, hc, hbc⟩ := hb
    rw [computeQP_bad hs2 ⟨c, ?_, hbc⟩]
    simp only [List.mem_append, List.mem_cons] at hc ⊢
    rcases hc with hc | rfl | hc
    · exact Or.inl hc
    · exact hbc.elim
    · exact Or.inr (Or.inr hc)
  · push Not at hb
    have hb2 : ∀ c ∈ pre ++ .task e W 0 :: post, ¬ badBarrier c := by
      intro c hc
      rcases hmem c hc with rfl | hc
      · exact id
      · exact hb c hc
    have ha : AccShaped n (qpInit n n vMin vMax) := ⟨rfl, rfl, rfl⟩
    unfold computeQP
    rw [fold_ok _ _ ha hs.comps hb, fold_ok _ _ ha hs2.comps hb2]
    have hacc : ∀ acc : QPAcc K, accStep acc (.constraint e a false W) = accStep acc (.task e W 0) := by
      intro acc; simp [accStep, hessOf, linOf, ineqOf, eqOf]
    rw [List.foldl_append, List.foldl_append, List.foldl_cons, List.foldl_cons, hacc]

example : ProblemShaped 2 (LEx.lim (-1)) (LEx.lim 1)
    (LEx.comps.take 3 ++ .constraint (LEx.ev 1 1) true false (LEx.W1 100) :: []) := LEx.shaped _ _

/-- C35: sizes of the QP. -/
theorem C35_qp_shapes {n : Nat} {vMin vMax : Vec K} {comps : List (SolverComp K)} {qp : QP K}
    (hs : ProblemShaped n vMin vMax comps) (hq : computeQP n n vMin vMax comps = .ok qp) :
    qp.P.rows = n ∧ qp.P.cols = n ∧ qp.c.len = n ∧ qp.G.cols = n ∧
    qp.G.rows = 2 * n + (comps.map ineqRows).sum ∧ qp.h.len = qp.G.rows ∧
    (∀ A, qp.A = some A → A.cols = n ∧ A.rows = (comps.map eqRows).sum ∧
      ∃ b, qp.b = some b ∧ b.len = A.rows) ∧
    (qp.A = none → qp.b = none ∧ (comps.map eqRows).sum = 0) := by
  have h := form_of_ok hs hq
  have h1 : ∀ l : List (SolverComp K), ((l.flatMap ineqOf).map (fun p => p.1.rows)).sum = (l.map ineqRows).sum := by
    intro l; induction l with
    | nil => rfl
    | cons c l ih =>
      rw [List.flatMap_cons, List.map_append, List.sum_append, ih, List.map_cons, List.sum_cons]
      cases c <;> simp [ineqOf, ineqRows, Mat.neg]
  have h2 : ∀ l : List (SolverComp K), ((l.flatMap eqOf).map (fun p => p.1.rows)).sum = (l.map eqRows).sum := by
    intro l; induction l with
    | nil => rfl
    | cons c l ih =>
      rw [List.flatMap_cons, List.map_append, List.sum_append, ih, List.map_cons, List.sum_cons]
      cases c with
      | constraint e a hard W => cases hard <;> simp [eqOf, eqRows]
      | task => simp [eqOf, eqRows]
      | barrier => simp [eqOf, eqRows]
  refine ⟨h.prows, h.pcols, h.clen, h.gcols, by rw [h.grows, h1], h.hlen, ?_, ?_⟩
  · intro A hA
    rcases h.A with ⟨_, h3, _⟩ | ⟨A', b, e1, e2, _, e4, e5, e6, _⟩
    · rw [h3] at hA; cases hA
    · rw [e1] at hA; cases hA; exact ⟨e4, by rw [e6, h2], b, e2, e5⟩
  · intro hA
    rcases h.A with ⟨h3, _, h5⟩ | ⟨A', b, e1, _⟩
    · refine ⟨h5, ?_⟩; rw [← h2, h3]; rfl
    · rw [e1] at hA; cases hA

example : ∃ qp, computeQP 2 2 (LEx.lim (-1)) (LEx.lim 1) LEx.comps = .ok qp ∧ qp.G.rows = 5 :=
  LEx.runs.imp fun _ h => ⟨h, (C35_qp_shapes (LEx.shaped _ _) h).2.2.2.2.1⟩

private theorem gained_zero {e : Evaluated K} (h : (∀ i < e.jac.rows, e.value.get i = 0) ∧ e.gainFn 0 = 0)
    (i : Nat) (hi : i < e.jac.rows) : gained e i = 0 := by
  unfold gained; rw [h.1 i hi, h.2, mul_zero]

private theorem residual_goal {e : Evaluated K} (W : Mat K)
    (h : (∀ i < e.jac.rows, e.value.get i = 0) ∧ e.gainFn 0 = 0) (r : Nat) :
    residual W e (fun _ => 0) r = 0 := by
  unfold residual
  refine sum_eq_zero fun k hk => ?_
  rw [gained_zero h k (mem_range.mp hk)]; simp [rowDot]

private theorem cost_goal {n : Nat} {c : SolverComp K} (h : AtGoal c) (v : Nat → K) :
    cost n (fun _ => 0) c = 0 ∧ 0 ≤ cost n v c := by
  have hsq : ∀ m (u : Nat → K), 0 ≤ sqNorm m u := fun m u => sum_nonneg fun _ _ => sq_nonneg _
  cases c with
  | task e W lm =>
    have h0 : sqNorm e.jac.rows (residual W e fun _ => 0) = 0 :=
      sum_eq_zero fun r _ => by rw [residual_goal W h]; ring
    simp only [cost, h0]
    have := hsq e.jac.rows (residual W e v)
    exact ⟨by ring, by simp only [mul_zero, zero_mul, zero_div, add_zero]; positivity⟩
  | barrier e s d =>
    obtain ⟨_, _, hs, hd⟩ := h
    simp only [cost, hd, sub_zero]
    have h0 : sqNorm n (fun _ => (0 : K)) = 0 := by simp [sqNorm]
    have h1 := hsq n v
    have h2 : 0 ≤ frobSq e.jac := sum_nonneg fun _ _ => sum_nonneg fun _ _ => sq_nonneg _
    refine ⟨by rw [h0]; ring, ?_⟩
    have : 0 ≤ s / frobSq e.jac := div_nonneg hs h2
    positivity
  | constraint e a hard W =>
    cases hard with
    | true => simp [cost]
    | false =>
      have h0 : sqNorm e.jac.rows (residual W e fun _ => 0) = 0 :=
        sum_eq_zero fun r _ => by rw [residual_goal W h]; ring
      simp only [cost, h0, Bool.false_eq_true, if_false]
      have := hsq e.jac.rows (residual W e v)
      exact ⟨by ring, by positivity⟩

/-- C36: at the goal, zero velocity is feasible and optimal, provided it satisfies the limits; and every
optimal velocity leaves every weighted task error where it is (`W J v = 0`). -/
theorem C36_standing_still {n : Nat} {vMin vMax : Vec K} {comps : List (SolverComp K)} {qp : QP K}
    (hs : ProblemShaped n vMin vMax comps) (hgoal : ∀ c ∈ comps, AtGoal c)
    (hlim : ∀ i < n, vMin.get i ≤ 0 ∧ 0 ≤ vMax.get i)
    (hq : computeQP n n vMin vMax comps = .ok qp) :
    Optimal qp (fun _ => 0) ∧
    ∀ v, Optimal qp v → ∀ e W lm, SolverComp.task e W lm ∈ comps → ∀ r < e.jac.rows,
      ∑ k ∈ range e.jac.rows, W.get r k * rowDot e.jac k v = 0 := by
  have hcost : ∀ v, (comps.map (cost n fun _ => 0)).sum = 0 ∧ 0 ≤ (comps.map (cost n v)).sum := by
    intro v
    constructor
    · apply List.sum_eq_zero; intro x hx
      obtain ⟨c, hc, rfl⟩ := List.mem_map.mp hx
      exact (cost_goal (hgoal c hc) v).1
    · apply List.sum_nonneg; intro x hx
      obtain ⟨c, hc, rfl⟩ := List.mem_map.mp hx
      exact (cost_goal (hgoal c hc) v).2
  have hopt : Optimal qp (fun _ => 0) := by
    constructor
    · rw [feasible_iff hs (form_of_ok hs hq)]
      refine ⟨fun i hi => ⟨by linarith [(hlim i hi).2], by linarith [(hlim i hi).1]⟩, fun c hc => ?_⟩
      have hg := hgoal c hc
      cases c with
      | task => trivial
      | barrier e s d =>
        intro i hi
        have h1 := hg.1 i hi
        have h2 := hg.2.1 _ h1.1
        have : 0 ≤ gained e i := mul_nonneg h1.2 h2
        simp [rowDot]; exact this
      | constraint e a hard W =>
        intro _ i hi
        rw [gained_zero hg i hi]; simp [rowDot]
    · intro u _
      rw [C25_objective hs hq, C25_objective hs hq, (hcost u).1, sub_self, sub_zero]
      exact (hcost u).2
  refine ⟨hopt, fun v hv e W lm hm r hr => ?_⟩
  have h1 := hv.2 _ hopt.1
  rw [C25_objective hs hq, C25_objective hs hq, (hcost v).1, sub_self, sub_zero] at h1
  have hsum : (comps.map (cost n v)).sum = 0 := le_antisymm h1 (hcost v).2
  have hle : cost n v (.task e W lm) ≤ (comps.map (cost n v)).sum := by
    apply List.single_le_sum
    · intro x hx; obtain ⟨c, hc, rfl⟩ := List.mem_map.mp hx; exact (cost_goal (hgoal c hc) v).2
    · exact List.mem_map_of_mem hm
  have hg := hgoal _ hm
  have h0 : sqNorm e.jac.rows (residual W e fun _ => 0) = 0 :=
    sum_eq_zero fun r _ => by rw [residual_goal W hg]; ring
  simp only [cost, h0, mul_zero, zero_mul, zero_div, add_zero] at hle
  have hz : sqNorm e.jac.rows (residual W e v) = 0 := by
    have : 0 ≤ sqNorm e.jac.rows (residual W e v) := sum_nonneg fun _ _ => sq_nonneg _
    linarith
  have hr0 := (sum_eq_zero_iff_of_nonneg fun i _ => sq_nonneg _).mp hz r (mem_range.mpr hr)
  have hr1 : residual W e v r = 0 := pow_eq_zero_iff (two_ne_zero) |>.mp hr0
  rw [← hr1]
  unfold residual
  exact sum_congr rfl fun k hk => by rw [gained_zero hg k (mem_range.mp hk), add_zero]

/-- A task and a constraint at zero error and a satisfied barrier. -/
example : ∃ qp, ProblemShaped 2 (LEx.lim (-1)) (LEx.lim 1)
      [.task (LEx.ev 0 1) (LEx.W1 2) 1, .barrier (LEx.ev 1 2) 5 (Vec.zero 2)] ∧
    computeQP 2 2 (LEx.lim (-1)) (LEx.lim 1)
      [.task (LEx.ev 0 1) (LEx.W1 2) 1, .barrier (LEx.ev 1 2) 5 (Vec.zero 2)] = .ok qp ∧
    (∀ c ∈ [.task (LEx.ev 0 1) (LEx.W1 2) 1, .barrier (LEx.ev 1 2) 5 (Vec.zero 2)], AtGoal c) := by
  have hs : ProblemShaped 2 (LEx.lim (-1)) (LEx.lim 1)
      [.task (LEx.ev 0 1) (LEx.W1 2) 1, .barrier (LEx.ev 1 2) 5 (Vec.zero 2)] := by
    refine ⟨rfl, rfl, ?_⟩
    intro c hc
    simp only [List.mem_cons, List.not_mem_nil, or_false] at hc
    rcases hc with rfl | rfl <;> exact ⟨LEx.evShaped _ _, by first | exact ⟨rfl, rfl⟩ | rfl⟩
  obtain ⟨qp, hq⟩ := (C31_finite_partial hs).1.mpr (by
    intro e s d h hz
    simp only [List.mem_cons, List.not_mem_nil, or_false, SolverComp.barrier.injEq, reduceCtorEq,
      false_or] at h
    rw [h.1] at hz
    have := hz 0 (by decide) 0 (by decide)
    simp [LEx.ev, LEx.J1] at this)
  refine ⟨qp, hs, hq, ?_⟩
  intro c hc
  simp only [List.mem_cons, List.not_mem_nil, or_false] at hc
  rcases hc with rfl | rfl
  · exact ⟨fun _ _ => rfl, rfl⟩
  · exact ⟨fun _ _ => ⟨by show (0:ℚ) ≤ 1; norm_num, by show (0:ℚ) ≤ 2; norm_num⟩, fun x hx => hx,
      by norm_num, fun _ => rfl⟩

end Mjinx.Props
