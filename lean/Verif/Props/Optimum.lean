import Verif.Props.LocalIK
import Verif.Spec.Optimum
import Mathlib.Topology.Order.Compact
import Mathlib.Topology.Algebra.Order.Field
import Mathlib.Topology.Instances.Real.Lemmas
import Mathlib.Analysis.Normed.Field.Lemmas
import Mathlib.Topology.Algebra.Monoid

/-!
# C81–C86: existence, uniqueness and meaning of the optimal velocity

The theorems are about components with fitting sizes (`ProblemShaped`), which compiled problems have (C68).
-/

set_option linter.unusedSectionVars false

namespace Mjinx.Props
open Spec Finset
variable {K : Type} [Field K] [LinearOrder K] [IsStrictOrderedRing K]

/-! ### C81: existence -/

/-- **C81 (feasible).** In a safe state with limits that contain zero, standing still satisfies all
constraints of the QP. -/
theorem C81_safe_feasible {n : Nat} {vMin vMax : Vec K} {comps : List (SolverComp K)} {qp : QP K}
    (hs : ProblemShaped n vMin vMax comps) (hsafe : ∀ c ∈ comps, Safe c)
    (hlim : ∀ i < n, vMin.get i ≤ 0 ∧ 0 ≤ vMax.get i)
    (hq : computeQP n n vMin vMax comps = .ok qp) : Feasible qp (fun _ => 0) := by
  rw [feasible_iff hs (form_of_ok hs hq)]
  refine ⟨fun i hi => ⟨by linarith [(hlim i hi).2], by linarith [(hlim i hi).1]⟩, fun c hc => ?_⟩
  have hg := hsafe c hc
  cases c with
  | task => trivial
  | barrier e s d =>
    intro i hi
    have h1 := hg.1 i hi
    have : 0 ≤ gained e i := mul_nonneg h1.2 (hg.2 _ h1.1)
    simp [rowDot]; exact this
  | constraint e a hard W =>
    intro hh i hi
    obtain ⟨h1, h2⟩ := hg hh
    simp [rowDot, gained, h1 i hi, h2]

private def ext {n : Nat} (x : Fin n → ℝ) (i : Nat) : ℝ := if h : i < n then x ⟨i, h⟩ else 0

private theorem continuous_ext {n : Nat} (i : Nat) : Continuous fun x : Fin n → ℝ => ext x i := by
  unfold ext
  split
  · exact continuous_apply _
  · exact continuous_const

private theorem continuous_rowDot {n : Nat} (A : Mat ℝ) (i : Nat) :
    Continuous fun x : Fin n → ℝ => rowDot A i (ext x) := by
  unfold rowDot
  exact continuous_finsetSum _ fun k _ => continuous_const.mul (continuous_ext k)

private theorem continuous_objective {n : Nat} (qp : QP ℝ) : Continuous fun x : Fin n → ℝ => objective qp (ext x) := by
  unfold objective
  refine Continuous.add (Continuous.div_const ?_ 2) ?_
  · exact continuous_finsetSum _ fun i _ => continuous_finsetSum _ fun j _ =>
      ((continuous_ext i).mul continuous_const).mul (continuous_ext j)
  · exact continuous_finsetSum _ fun i _ => continuous_const.mul (continuous_ext i)

private theorem rowDot_congr {A : Mat K} {n : Nat} (h : A.cols = n) {u v : Nat → K} (huv : ∀ i < n, u i = v i) (i : Nat) :
    rowDot A i u = rowDot A i v := by
  unfold rowDot
  rw [h]
  exact sum_congr rfl fun k hk => by rw [huv k (mem_range.mp hk)]

private theorem feasible_congr {n : Nat} {vMin vMax : Vec K} {comps : List (SolverComp K)} {qp : QP K}
    (hs : ProblemShaped n vMin vMax comps) (hq : computeQP n n vMin vMax comps = .ok qp) {u v : Nat → K}
    (huv : ∀ i < n, u i = v i) (h : Feasible qp u) : Feasible qp v := by
  obtain ⟨-, -, -, h4, -, -, h7, -⟩ := C35_qp_shapes hs hq
  constructor
  · intro i hi; rw [← rowDot_congr h4 huv]; exact h.ineq i hi
  · intro A b hA hb i hi
    rw [← rowDot_congr (h7 A hA).1 huv]; exact h.eq A b hA hb i hi

private theorem objective_congr {n : Nat} {vMin vMax : Vec K} {comps : List (SolverComp K)} {qp : QP K}
    (hs : ProblemShaped n vMin vMax comps) (hq : computeQP n n vMin vMax comps = .ok qp) {u v : Nat → K}
    (huv : ∀ i < n, u i = v i) : objective qp u = objective qp v := by
  obtain ⟨h1, h2, h3, -⟩ := C35_qp_shapes hs hq
  unfold objective
  rw [h1, h2, h3]
  congr 1
  · congr 1
    exact sum_congr rfl fun i hi => sum_congr rfl fun j hj => by
      rw [huv i (mem_range.mp hi), huv j (mem_range.mp hj)]
  · exact sum_congr rfl fun i hi => by rw [huv i (mem_range.mp hi)]

/-- **C81 (optimal).** Whenever some velocity satisfies the constraints, there is an optimal one: the limits
bound the search.  No assumption on costs, gains or damping. -/
theorem C81_optimal_exists {n : Nat} {vMin vMax : Vec ℝ} {comps : List (SolverComp ℝ)} {qp : QP ℝ}
    (hs : ProblemShaped n vMin vMax comps) (hq : computeQP n n vMin vMax comps = .ok qp) :
    (∃ v, Feasible qp v) ↔ ∃ v, Optimal qp v := by
  constructor
  swap
  · rintro ⟨v, hv⟩; exact ⟨v, hv.1⟩
  rintro ⟨v, hv⟩
  let S : Set (Fin n → ℝ) := {x | Feasible qp (ext x)}
  have hext : ∀ u : Nat → ℝ, ∀ i < n, u i = ext (fun k : Fin n => u k) i := by
    intro u i hi; simp [ext, hi]
  have hne : S.Nonempty := ⟨fun k => v k, feasible_congr hs hq (hext v) hv⟩
  have hclosed : IsClosed S := by
    have : S = (⋂ i ∈ range qp.G.rows, {x : Fin n → ℝ | rowDot qp.G i (ext x) ≤ qp.h.get i}) ∩
        ⋂ A : Mat ℝ, ⋂ b : Vec ℝ, ⋂ _ : qp.A = some A, ⋂ _ : qp.b = some b, ⋂ i ∈ range A.rows,
          {x : Fin n → ℝ | rowDot A i (ext x) = b.get i} := by
      ext x
      simp only [S, Set.mem_inter_iff, Set.mem_iInter, Set.mem_ofPred_eq, mem_range]
      exact ⟨fun h => ⟨h.ineq, h.eq⟩, fun h => ⟨h.1, h.2⟩⟩
    rw [this]
    refine IsClosed.inter ?_ ?_
    · exact isClosed_biInter fun i _ => isClosed_le (continuous_rowDot _ _) continuous_const
    · exact isClosed_iInter fun A => isClosed_iInter fun b => isClosed_iInter fun _ => isClosed_iInter fun _ =>
        isClosed_biInter fun i _ => isClosed_eq (continuous_rowDot _ _) continuous_const
  have hsub : S ⊆ Set.Icc (fun k : Fin n => - vMax.get k) (fun k : Fin n => - vMin.get k) := by
    intro x hx
    have := ((feasible_iff hs (form_of_ok hs hq) _).1 hx).1
    constructor
    · intro k; have := (this k k.2).1; simpa [ext] using this
    · intro k; have := (this k k.2).2; simpa [ext] using this
  have hcomp : IsCompact S := isCompact_Icc.of_isClosed_subset hclosed hsub
  obtain ⟨x, hx, hmin⟩ := hcomp.exists_isMinOn hne (continuous_objective qp).continuousOn
  refine ⟨ext x, hx, fun u hu => ?_⟩
  rw [objective_congr hs hq (hext u)]
  exact hmin (feasible_congr hs hq (hext u) hu)

/-- **C81.** In a safe state with limits that contain zero the local problem has an optimal velocity. -/
theorem C81_safe_solution {n : Nat} {vMin vMax : Vec ℝ} {comps : List (SolverComp ℝ)} {qp : QP ℝ}
    (hs : ProblemShaped n vMin vMax comps) (hsafe : ∀ c ∈ comps, Safe c)
    (hlim : ∀ i < n, vMin.get i ≤ 0 ∧ 0 ≤ vMax.get i)
    (hq : computeQP n n vMin vMax comps = .ok qp) : ∃ v, Optimal qp v :=
  (C81_optimal_exists hs hq).1 ⟨_, C81_safe_feasible hs hsafe hlim hq⟩

/-! A safe problem over the reals: a task, a satisfied barrier and a hard constraint that holds. -/
namespace OEx

noncomputable def ev (x g : ℝ) : Evaluated ℝ := ⟨⟨1, 2, fun _ j => if j = 0 then 1 else 2⟩, ⟨1, fun _ => x⟩, ⟨1, fun _ => g⟩, id⟩
noncomputable def comps : List (SolverComp ℝ) :=
  [.task (ev 3 1) ⟨1, 1, fun _ _ => 2⟩ 1, .barrier (ev 1 2) 5 (Vec.zero 2), .constraint (ev 0 1) true true ⟨1, 1, fun _ _ => 7⟩]
theorem shaped : ProblemShaped 2 (⟨2, fun _ => -1⟩ : Vec ℝ) ⟨2, fun _ => 1⟩ comps := by
  refine ⟨rfl, rfl, ?_⟩
  intro c hc
  simp only [comps, List.mem_cons, List.not_mem_nil, or_false] at hc
  rcases hc with rfl | rfl | rfl <;> exact ⟨⟨rfl, rfl, rfl⟩, by first | exact ⟨rfl, rfl⟩ | rfl⟩
theorem runs : ∃ qp, computeQP 2 2 (⟨2, fun _ => -1⟩ : Vec ℝ) ⟨2, fun _ => 1⟩ comps = .ok qp := by
  refine (C31_finite_partial shaped).1.2 fun e s d h => ?_
  simp only [comps, List.mem_cons, List.not_mem_nil, or_false, SolverComp.barrier.injEq, reduceCtorEq, false_or] at h
  obtain ⟨rfl, -, -⟩ := h
  intro hz
  have := hz 0 Nat.one_pos 0 Nat.two_pos
  simp [ev] at this
theorem safe : ∀ c ∈ comps, Safe c := by
  intro c hc
  simp only [comps, List.mem_cons, List.not_mem_nil, or_false] at hc
  rcases hc with rfl | rfl | rfl
  · trivial
  · exact ⟨fun i _ => ⟨by simp [ev], by simp [ev]⟩, fun x hx => hx⟩
  · exact fun _ => ⟨fun i _ => rfl, rfl⟩

end OEx

example : ∃ qp, computeQP 2 2 (⟨2, fun _ => -1⟩ : Vec ℝ) ⟨2, fun _ => 1⟩ OEx.comps = .ok qp ∧ ∃ v, Optimal qp v :=
  OEx.runs.imp fun _ h => ⟨h, C81_safe_solution OEx.shaped OEx.safe (fun _ _ => by simp) h⟩

end Mjinx.Props
