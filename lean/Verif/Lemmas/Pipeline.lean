import Verif.Lemmas.JointEval

/-! # From compiled problems to solver components -/

namespace Mjinx
open Spec
variable {K : Type} [Field K] [LinearOrder K]
set_option linter.unusedSectionVars false

theorem mapM_mem {α β : Type} {f : α → Except Err β} : ∀ {xs : List α} {ys : List β}, xs.mapM f = .ok ys →
    (∀ x ∈ xs, ∃ y ∈ ys, f x = .ok y) ∧ (∀ y ∈ ys, ∃ x ∈ xs, f x = .ok y) ∧ ys.length = xs.length := by
  intro xs
  induction xs with
  | nil => intro ys h; cases h; simp
  | cons x xs ih =>
    intro ys h
    rw [List.mapM_cons] at h
    obtain ⟨y, hy, h⟩ := Except.bind_eq_ok h
    obtain ⟨zs, hz, h⟩ := Except.bind_eq_ok h
    cases h
    obtain ⟨i1, i2, i3⟩ := ih hz
    refine ⟨?_, ?_, by simp [i3]⟩
    · intro x' hx'
      rcases List.mem_cons.1 hx' with rfl | hx'
      · exact ⟨y, by simp, hy⟩
      · obtain ⟨z, h1, h2⟩ := i1 x' hx'; exact ⟨z, by simp [h1], h2⟩
    · intro y' hy'
      rcases List.mem_cons.1 hy' with rfl | hy'
      · exact ⟨x, by simp, hy⟩
      · obtain ⟨z, h1, h2⟩ := i2 y' hy'; exact ⟨z, by simp [h1], h2⟩

/-- The parts of a QP built from a compiled problem. -/
theorem problemQP_ok {env : Env K} {m : MjModel K} {p : JaxProblem K} {d : MjData K} {qp : QP K}
    (h : problemQP env m p d = .ok qp) : ∃ vMin vMax cs, p.vMin.toVec = .ok vMin ∧ p.vMax.toVec = .ok vMax ∧
      (p.comps.map Prod.snd).mapM (solverComp env d) = .ok cs ∧ computeQP m.nv p.model.nv vMin vMax cs = .ok qp := by
  unfold problemQP at h
  obtain ⟨vMin, h1, h⟩ := Except.bind_eq_ok h
  obtain ⟨vMax, h2, h⟩ := Except.bind_eq_ok h
  obtain ⟨cs, h3, h⟩ := Except.bind_eq_ok h
  exact ⟨vMin, vMax, cs, h1, h2, h3, h⟩

theorem solverComp_ok {env : Env K} {d : MjData K} {j : JaxComp K} {s : SolverComp K}
    (h : solverComp env d j = .ok s) : ∃ J v g, evalJacobian env j d = .ok J ∧ evalValue env j d = .ok v ∧
      j.vectorGain.toVec = .ok g ∧ wrapComp j ⟨J, v, g, j.gainFn⟩ = .ok s := by
  unfold solverComp evaluate at h
  obtain ⟨e, h1, h⟩ := Except.bind_eq_ok h
  obtain ⟨J, h2, h1⟩ := Except.bind_eq_ok h1
  obtain ⟨v, h3, h1⟩ := Except.bind_eq_ok h1
  obtain ⟨g, h4, h1⟩ := Except.bind_eq_ok h1
  cases h1
  exact ⟨J, v, g, h2, h3, h4, h⟩

theorem toVec_of_shape {a : Arr K} {n : Nat} (h : a.shape = [n]) :
    a.toVec = .ok ⟨n, fun i => a.get [i]⟩ := by
  unfold Arr.toVec; rw [h]

end Mjinx
