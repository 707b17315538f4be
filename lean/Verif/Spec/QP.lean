import Verif.Model.LocalIK

/-!
# Reading a quadratic program

What it means for a velocity to be feasible or optimal, and what sizes a component must have for the
solver's products to make sense.  Velocities are functions on indices; only the first `n` entries
are read.
-/

namespace Mjinx.Spec
variable {K : Type} [Field K] [LinearOrder K]

/-- Row `i` of `A v`. -/
def rowDot (A : Mat K) (i : Nat) (v : Nat → K) : K := ∑ k ∈ Finset.range A.cols, A.get i k * v k

/-- `G v ≤ h` and, if there are equality rows, `A v = b`. -/
structure Feasible (qp : QP K) (v : Nat → K) : Prop where
  ineq : ∀ i < qp.G.rows, rowDot qp.G i v ≤ qp.h.get i
  eq : ∀ A b, qp.A = some A → qp.b = some b → ∀ i < A.rows, rowDot A i v = b.get i

/-- `½ vᵀ P v + cᵀ v` (jaxopt's OSQP convention). -/
def objective (qp : QP K) (v : Nat → K) : K :=
  (∑ i ∈ Finset.range qp.P.rows, ∑ j ∈ Finset.range qp.P.cols, v i * qp.P.get i j * v j) / 2
    + ∑ i ∈ Finset.range qp.c.len, qp.c.get i * v i

/-- A feasible velocity with the smallest objective. -/
def Optimal (qp : QP K) (v : Nat → K) : Prop :=
  Feasible qp v ∧ ∀ u, Feasible qp u → objective qp v ≤ objective qp u

/-- Squared length of the first `n` entries. -/
def sqNorm (n : Nat) (v : Nat → K) : K := ∑ i ∈ Finset.range n, v i ^ 2

/-- One error entry per Jacobian row and one Jacobian column per degree of freedom. -/
structure Shaped (nv : Nat) (e : Evaluated K) : Prop where
  cols : e.jac.cols = nv
  value : e.value.len = e.jac.rows
  gain : e.gain.len = e.jac.rows

/-- Component sizes fit: shaped, square cost of the right size, displacement with `nv` entries. -/
def CompShaped (nv : Nat) : SolverComp K → Prop
  | .task e W _ => Shaped nv e ∧ W.rows = e.jac.rows ∧ W.cols = e.jac.rows
  | .barrier e _ s => Shaped nv e ∧ s.len = nv
  | .constraint e _ _ W => Shaped nv e ∧ W.rows = e.jac.rows ∧ W.cols = e.jac.rows

/-- Right-hand side of a component: `gain_i * gain_fn(value_i)`. -/
def gained (e : Evaluated K) (i : Nat) : K := e.gain.get i * e.gainFn (e.value.get i)

/-- Every entry of the matrix is zero. -/
def ZeroMat (A : Mat K) : Prop := ∀ i < A.rows, ∀ j < A.cols, A.get i j = 0

/-- Sizes of a problem: limits with one entry per degree of freedom and fitting components. -/
structure ProblemShaped (n : Nat) (vMin vMax : Vec K) (comps : List (SolverComp K)) : Prop where
  vMin : vMin.len = n
  vMax : vMax.len = n
  comps : ∀ c ∈ comps, CompShaped n c

/-- `i`-th entry of `W (J v + gain * gain_fn(value))`. -/
def residual (W : Mat K) (e : Evaluated K) (v : Nat → K) (i : Nat) : K :=
  ∑ k ∈ Finset.range e.jac.rows, W.get i k * (rowDot e.jac k v + gained e k)

/-- Frobenius norm squared. -/
def frobSq (A : Mat K) : K := ∑ i ∈ Finset.range A.rows, ∑ j ∈ Finset.range A.cols, A.get i j ^ 2

/-- What a component adds to the objective at velocity `v`, by class:
* task: `½‖W(Jv + g f(e))‖² + ½ lm ‖W g f(e)‖² ‖v‖²`
* barrier: `½ (sdg/‖J‖²) ‖v - v_safe‖²`
* soft constraint: `½‖W(Jv + g f(e))‖²`; hard constraint: nothing. -/
def cost (n : Nat) (v : Nat → K) : SolverComp K → K
  | .task e W lm => sqNorm e.jac.rows (residual W e v) / 2
      + lm * sqNorm e.jac.rows (residual W e fun _ => 0) * sqNorm n v / 2
  | .barrier e s d => s / frobSq e.jac * sqNorm n (fun i => v i - d.get i) / 2
  | .constraint e _ hard W => if hard then 0 else sqNorm e.jac.rows (residual W e v) / 2

/-- Inequality rows and equality rows a component asks for. -/
def ineqRows : SolverComp K → Nat
  | .barrier e _ _ => e.jac.rows
  | _ => 0
def eqRows : SolverComp K → Nat
  | .constraint e _ true _ => e.jac.rows
  | _ => 0

/-- Damping and displacement gains are nonnegative. -/
def NonnegGains : SolverComp K → Prop
  | .task _ _ lm => 0 ≤ lm
  | .barrier _ s _ => 0 ≤ s
  | .constraint .. => True

/-- The conditions a velocity has to meet for a component: barrier inequality, hard constraint
equation. -/
def Respects (v : Nat → K) : SolverComp K → Prop
  | .task .. => True
  | .barrier e _ _ => ∀ i < e.jac.rows, - gained e i ≤ rowDot e.jac i v
  | .constraint e _ hard _ => hard = true → ∀ i < e.jac.rows, rowDot e.jac i v = - gained e i

/-- Task and constraint errors are zero, barriers are satisfied; gain functions map zero to zero and
nonnegative numbers to nonnegative numbers; the safe displacement is the code's default, zero. -/
def AtGoal : SolverComp K → Prop
  | .task e _ _ => (∀ i < e.jac.rows, e.value.get i = 0) ∧ e.gainFn 0 = 0
  | .barrier e s d => (∀ i < e.jac.rows, 0 ≤ e.value.get i ∧ 0 ≤ e.gain.get i) ∧
      (∀ x, 0 ≤ x → 0 ≤ e.gainFn x) ∧ 0 ≤ s ∧ ∀ i, d.get i = 0
  | .constraint e _ _ _ => (∀ i < e.jac.rows, e.value.get i = 0) ∧ e.gainFn 0 = 0

/-- One request to the solver: velocity limits and evaluated components. -/
structure Request (K : Type) where
  vMin : Vec K
  vMax : Vec K
  comps : List (SolverComp K)

/-- A control loop: requests are solved one after the other, each with the solver data returned by the
previous call (kept when a call raises).  Returns the answers. -/
def controlLoop {I : Type} (osqp : QPSolver K I) (nvSolver nv : Nat) :
    LocalIKData K → List (Request K) → List (Except Err (LocalIKSolution K I))
  | _, [] => []
  | d, r :: rs =>
    match solveFromData osqp nvSolver nv r.vMin r.vMax d r.comps with
    | .error e => .error e :: controlLoop osqp nvSolver nv d rs
    | .ok (s, d') => .ok s :: controlLoop osqp nvSolver nv d' rs

/-- The component with its `active` flag set to `b`, if it is a constraint. -/
def setActiveFlag (b : Bool) : SolverComp K → SolverComp K
  | .constraint e _ hard W => .constraint e b hard W
  | c => c

/-- Set the `active` flag of every constraint according to `f`. -/
def withActive (f : Nat → Bool) (comps : List (SolverComp K)) : List (SolverComp K) :=
  comps.mapIdx fun i c => setActiveFlag (f i) c

end Mjinx.Spec
