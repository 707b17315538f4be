import Verif.Spec.Sim

/-!
# The control problem a program describes

What the components of a problem ask of a velocity, read off the attributes a user sets (gain, cost, damping, ...) and off the
Jacobians and values of the components at the current configuration.  No quadratic program is mentioned.
-/

namespace Mjinx.Spec
variable {K : Type} [Field K] [LinearOrder K]

/-- Entry `r` of a gain: a number stands for all entries. -/
def gainAt (g : Arr K) (r : Nat) : K := if g.shape = [] then g.get [] else g.get [r]

/-- Entry `(r, k)` of a cost: a number or a vector stands for a diagonal matrix. -/
def weightAt (w : Arr K) (r k : Nat) : K :=
  match w.shape with
  | [] => if r = k then w.get [] else 0
  | [_] => if r = k then w.get [r] else 0
  | _ => w.get [r, k]

/-- A component of a problem at the current configuration: its attributes, Jacobian and value. -/
structure Term (K : Type) where
  attrs : Attrs K
  jac : Mat K
  value : Vec K

namespace Term

/-- The rate at which entry `r` of the value is asked to fall: gain times gain function of the value. -/
def rate (t : Term K) (r : Nat) : K := gainAt t.attrs.gain r * t.attrs.gainFn (t.value.get r)

/-- Entry `r` of the weighted difference between the rate of the value and the rate asked for. -/
def misfit (t : Term K) (w : Arr K) (v : Nat → K) (r : Nat) : K :=
  ∑ k ∈ Finset.range t.jac.rows, weightAt w r k * (rowDot t.jac k v + t.rate k)

/-- What the velocity `v` costs: tasks and soft constraints pay half the square of the weighted misfit, tasks also for the damping
of the velocity, barriers for the velocity in proportion to the safe displacement gain, hard constraints nothing.  (A barrier whose
Jacobian is all zero makes the program of the code not finite, which C87 states; division by zero gives zero here.) -/
def price (n : Nat) (v : Nat → K) (t : Term K) : K :=
  match t.attrs.kind with
  | .comTask a _ | .jointTask a _ _ _ | .positionTask a _ _ | .frameTask a _ _ =>
      sqNorm t.jac.rows (t.misfit a.cost v) / 2 + a.lmDamping * sqNorm t.jac.rows (t.misfit a.cost fun _ => 0) * sqNorm n v / 2
  | .jointBarrier s .. | .positionBarrier s .. | .selfCollision s .. => s / frobSq t.jac * sqNorm n v / 2
  | .modelEquality _ hard c => if hard then 0 else sqNorm t.jac.rows (t.misfit (c.getD (Arr.scalar 100)) v) / 2

/-- What the velocity has to satisfy: barriers do not fall faster than asked, hard constraints change exactly as asked. -/
def Allows (v : Nat → K) (t : Term K) : Prop :=
  match t.attrs.kind with
  | .jointBarrier .. | .positionBarrier .. | .selfCollision .. => ∀ r < t.jac.rows, - t.rate r ≤ rowDot t.jac r v
  | .modelEquality _ hard _ => hard = true → ∀ r < t.jac.rows, rowDot t.jac r v = - t.rate r
  | _ => True

end Term

/-- The velocity is allowed by all components and lies in the box the code makes of the velocity limits: between `-v_max` and
`-v_min` (which is the box between `v_min` and `v_max` when the limits are symmetric, see C21). -/
def Allowed (n : Nat) (vMin vMax : Arr K) (ts : List (Term K)) (v : Nat → K) : Prop :=
  (∀ i < n, - vMax.get [i] ≤ v i ∧ v i ≤ - vMin.get [i]) ∧ ∀ t ∈ ts, t.Allows v

/-- The price of a velocity: the sum over the components. -/
def totalPrice (n : Nat) (ts : List (Term K)) (v : Nat → K) : K := (ts.map (Term.price n v)).sum

/-- The velocity is allowed, and no allowed velocity is cheaper. -/
def Best (n : Nat) (vMin vMax : Arr K) (ts : List (Term K)) (v : Nat → K) : Prop :=
  Allowed n vMin vMax ts v ∧ ∀ u, Allowed n vMin vMax ts u → totalPrice n ts v ≤ totalPrice n ts u

/-- `ts` are the components of problem `P` in the world `w`, in order, with the Jacobians and values that their compiled versions in
`J` have at `d`. -/
def TermsOf (w : World K) (P : Prob K) (J : JaxProblem K) (env : Env K) (d : MjData K) (ts : List (Term K)) : Prop :=
  List.Forall₂ (fun (ni : String × Nat) (t : Term K) => ∃ c, w.comps[ni.2]? = some c ∧ t.attrs = c.attrs ∧
    ∃ j, (ni.1, j) ∈ J.comps ∧ evalJacobian env j d = .ok t.jac ∧ evalValue env j d = .ok t.value) P.comps ts

/-- The QP solver is exact: if the program has an optimum, it returns one. -/
def Exact {I : Type} (osqp : QPSolver K I) : Prop := ∀ qp, (∃ v, Optimal qp v) → Optimal qp (osqp qp).1.get

end Mjinx.Spec
