import Verif.Spec.Control
import Verif.Spec.Optimum
import Verif.Spec.Flow

/-!
# How hard tasks pull, how damping brakes

Quantities of evaluated components for C119.  For a task or soft constraint with weights `W`, Jacobian `J` and asked rate `a = gain * gain_fn(error)`:
`pull = ⟨W J v, W a⟩`, `pace = ‖W J v‖²`, `urge = ‖W a‖²`.
-/

namespace Mjinx.Spec
variable {K : Type} [Field K] [LinearOrder K]

/-- How far the velocity moves the weighted values in the direction of the weighted rates they are asked to fall at; negative is towards the goal. -/
def pull (v : Nat → K) : SolverComp K → K
  | .task e W _ => ∑ r ∈ Finset.range e.jac.rows, weightedRate W e v r * residual W e (fun _ => 0) r
  | .barrier .. => 0
  | .constraint e _ hard W => if hard then 0 else ∑ r ∈ Finset.range e.jac.rows, weightedRate W e v r * residual W e (fun _ => 0) r

/-- The squared weighted rate of the values. -/
def pace (v : Nat → K) : SolverComp K → K
  | .task e W _ => sqNorm e.jac.rows (weightedRate W e v)
  | .barrier .. => 0
  | .constraint e _ hard W => if hard then 0 else sqNorm e.jac.rows (weightedRate W e v)

/-- The squared weighted rate that is asked for. -/
def urge : SolverComp K → K
  | .task e W _ => sqNorm e.jac.rows (residual W e fun _ => 0)
  | .barrier .. => 0
  | .constraint e _ hard W => if hard then 0 else sqNorm e.jac.rows (residual W e fun _ => 0)

/-- What brakes all velocities alike: damping times squared weighted error, safe displacement gain over squared Jacobian. -/
def drag : SolverComp K → K
  | .task e W lm => lm * sqNorm e.jac.rows (residual W e fun _ => 0)
  | .barrier e s _ => s / frobSq e.jac
  | .constraint .. => 0

/-- The sum of a quantity over all components. -/
def total (f : SolverComp K → K) (comps : List (SolverComp K)) : K := (comps.map f).sum

/-- The safe displacement of barriers is the code's default, zero. -/
def NoDisplacement : SolverComp K → Prop
  | .barrier _ _ d => ∀ i, d.get i = 0
  | _ => True

/-- A task with damping at least `lam`, a barrier without negative safe displacement gain, a hard constraint. -/
def DampedBy (lam : K) : SolverComp K → Prop
  | .task _ _ lm => lam ≤ lm
  | .barrier _ s _ => 0 ≤ s
  | .constraint _ _ hard _ => hard = true

/-- A component a user has made: a task with damping at least `lam`, a barrier without negative safe displacement gain, a hard constraint. -/
def Term.DampedBy (lam : K) (t : Term K) : Prop :=
  match t.attrs.kind with
  | .comTask a _ | .jointTask a _ _ _ | .positionTask a _ _ | .frameTask a _ _ => lam ≤ a.lmDamping
  | .jointBarrier s .. | .positionBarrier s .. | .selfCollision s .. => 0 ≤ s
  | .modelEquality _ hard _ => hard = true

/-- How far the rates are from what tasks and soft constraints ask for: the square of the weighted misfit. -/
def Term.unrest (v : Nat → K) (t : Term K) : K :=
  match t.attrs.kind with
  | .comTask a _ | .jointTask a _ _ _ | .positionTask a _ _ | .frameTask a _ _ => sqNorm t.jac.rows (t.misfit a.cost v)
  | .modelEquality _ hard c => if hard then 0 else sqNorm t.jac.rows (t.misfit (c.getD (Arr.scalar 100)) v)
  | _ => 0

/-- Damping and safe displacement gains are not negative. -/
def Term.Braking (t : Term K) : Prop :=
  match t.attrs.kind with
  | .comTask a _ | .jointTask a _ _ _ | .positionTask a _ _ | .frameTask a _ _ => 0 ≤ a.lmDamping
  | .jointBarrier s .. | .positionBarrier s .. | .selfCollision s .. => 0 ≤ s
  | .modelEquality .. => True

/-- The weighted rate this component asks for is not zero: it is a task away from its target. -/
def Term.Unmet (t : Term K) : Prop :=
  match t.attrs.kind with
  | .comTask a _ | .jointTask a _ _ _ | .positionTask a _ _ | .frameTask a _ _ => ∃ r < t.jac.rows, t.misfit a.cost (fun _ => 0) r ≠ 0
  | _ => False

/-! ### Energy along a motion -/

/-- The cost matrix of a task. -/
def weightOf : JaxKind K → Option (Arr K)
  | .comTask w .. | .jointTask w .. | .positionTask w .. | .frameTask w .. => some w
  | _ => none

/-- The energy of a task at a configuration: half its gain times the squared weighted error.  Other components have none. -/
noncomputable def energyOf (env : Env ℝ) (j : JaxComp ℝ) (q : Vec ℝ) : ℝ :=
  match weightOf j.kind, evalValue env j (update env j.model q) with
  | some w, .ok f => j.vectorGain.get [0] * (∑ r ∈ Finset.range f.len, (∑ k ∈ Finset.range f.len, w.get [r, k] * f.get k) ^ 2) / 2
  | _, _ => 0

/-- The energy of all tasks of a problem. -/
noncomputable def energy (env : Env ℝ) (p : JaxProblem ℝ) (q : Vec ℝ) : ℝ := (p.comps.map fun nj => energyOf env nj.2 q).sum

/-- Joint, position and centre-of-mass tasks with the default gain function, the same gain for all entries and no negative damping; barriers without negative safe
displacement gain; hard constraints. -/
def Conservative (j : JaxComp ℝ) : Prop :=
  match j.kind with
  | .comTask _ lm _ | .jointTask _ lm _ _ | .positionTask _ lm _ _ _ =>
      0 ≤ lm ∧ j.gainFn = id ∧ ∀ n, j.vectorGain.shape = [n] → ∀ i < n, j.vectorGain.get [i] = j.vectorGain.get [0]
  | .frameTask .. => False
  | .jointBarrier s .. | .positionBarrier s .. | .selfCollision s .. => 0 ≤ s
  | .modelEquality _ hard _ => hard = true

/-- At every moment the velocity is optimal for the problem, and standing still would have been allowed. -/
structure OptimalFlow (env : Env ℝ) (m : MjModel ℝ) (p : JaxProblem ℝ) (T : ℝ) (x : ℝ → Fin m.nq → ℝ) (v : ℝ → Vec ℝ) : Prop
    extends FeasibleFlow env m (fun _ => p) T x v where
  optimal : ∀ t ∈ Set.Ico 0 T, ∀ qp, problemQP env m p (update env m (vecOf (x t))) = .ok qp → Optimal qp (v t).get
  still : ∀ t ∈ Set.Ico 0 T, ∀ qp, problemQP env m p (update env m (vecOf (x t))) = .ok qp → Feasible qp fun _ => 0

end Mjinx.Spec
