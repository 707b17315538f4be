import Verif.Spec.QP

/-!
# Optimal velocities: safe states, curvature, scaling of costs, optimality conditions
-/

namespace Mjinx.Spec
variable {K : Type} [Field K] [LinearOrder K]

/-- Nothing is violated: barrier values and gains are nonnegative (with a gain function that keeps
nonnegative numbers nonnegative), hard constraints hold (with a gain function that keeps zero). -/
def Safe : SolverComp K → Prop
  | .task .. => True
  | .barrier e _ _ => (∀ i < e.jac.rows, 0 ≤ e.value.get i ∧ 0 ≤ e.gain.get i) ∧ ∀ x, 0 ≤ x → 0 ≤ e.gainFn x
  | .constraint e _ hard _ => hard = true → (∀ i < e.jac.rows, e.value.get i = 0) ∧ e.gainFn 0 = 0

/-- Row `r` of `W J v`. -/
def weightedRate (W : Mat K) (e : Evaluated K) (v : Nat → K) (r : Nat) : K :=
  ∑ k ∈ Finset.range e.jac.rows, W.get r k * rowDot e.jac k v

/-- Something in the objective pins every coordinate of the velocity: a barrier with a positive safe
displacement gain, a damped task with a nonzero weighted error, or weighted Jacobians of tasks and soft
constraints that together have no nonzero velocity in their kernel. -/
def Curved (n : Nat) (comps : List (SolverComp K)) : Prop :=
  (∃ e s d, SolverComp.barrier e s d ∈ comps ∧ 0 < s) ∨
  (∃ e W lm, SolverComp.task e W lm ∈ comps ∧ 0 < lm ∧ ∃ r < e.jac.rows, residual W e (fun _ => 0) r ≠ 0) ∨
  ∀ v : Nat → K,
    (∀ e W lm, SolverComp.task e W lm ∈ comps → ∀ r < e.jac.rows, weightedRate W e v r = 0) →
    (∀ e a W, SolverComp.constraint e a false W ∈ comps → ∀ r < e.jac.rows, weightedRate W e v r = 0) →
    ∀ i < n, v i = 0

/-- The weights determine the error they weigh: only the zero vector is mapped to zero. -/
def Nondegenerate (W : Mat K) (m : Nat) : Prop :=
  ∀ x : Nat → K, (∀ r < m, ∑ k ∈ Finset.range m, W.get r k * x k = 0) → ∀ k < m, x k = 0

/-- Multiply a matrix by a number. -/
def scaleMat (k : K) (A : Mat K) : Mat K := ⟨A.rows, A.cols, fun i j => k * A.get i j⟩

/-- The component with its cost matrix multiplied by `k` (and, for barriers, which have no cost matrix, its
safe displacement gain by `k²`). -/
def scaleCost (k : K) : SolverComp K → SolverComp K
  | .task e W lm => .task e (scaleMat k W) lm
  | .barrier e s d => .barrier e (k ^ 2 * s) d
  | .constraint e a hard W => .constraint e a hard (scaleMat k W)

/-- The component asks for nothing in the objective: zero cost, zero safe displacement gain. -/
def Weightless : SolverComp K → Prop
  | .task _ W _ => ZeroMat W
  | .barrier _ s _ => s = 0
  | .constraint _ _ hard W => hard = true ∨ ZeroMat W

/-- The component has no damping and no safe displacement gain. -/
def Undamped : SolverComp K → Prop
  | .task _ _ lm => lm = 0
  | .barrier _ s _ => s = 0
  | .constraint .. => True

/-- The velocity brings the weighted error of a task or soft constraint down as asked: `W (J v + g f(e)) = 0`. -/
def Meets (v : Nat → K) : SolverComp K → Prop
  | .task e W _ => ∀ r < e.jac.rows, residual W e v r = 0
  | .barrier .. => True
  | .constraint e _ hard W => hard = false → ∀ r < e.jac.rows, residual W e v r = 0

/-- Column `i` of `Aᵀ y`; zero without equality rows. -/
def eqPart (qp : QP K) (y : Nat → K) (i : Nat) : K :=
  match qp.A with
  | none => 0
  | some A => ∑ r ∈ Finset.range A.rows, A.get r i * y r

/-- The optimality conditions a QP solver's answer is checked against: primal feasibility, nonnegative
multipliers `z` of the inequality rows with complementary slackness, and a vanishing gradient of the
Lagrangian (with multipliers `y` for the equality rows). -/
structure KKT (qp : QP K) (v y z : Nat → K) : Prop where
  primal : Feasible qp v
  dual : ∀ r < qp.G.rows, 0 ≤ z r
  slack : ∀ r < qp.G.rows, z r * (rowDot qp.G r v - qp.h.get r) = 0
  gradient : ∀ i < qp.P.rows, (∑ j ∈ Finset.range qp.P.cols, qp.P.get i j * v j) + qp.c.get i +
    (∑ r ∈ Finset.range qp.G.rows, qp.G.get r i * z r) + eqPart qp y i = 0

end Mjinx.Spec
