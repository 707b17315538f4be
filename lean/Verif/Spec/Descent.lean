import Verif.Spec.Control

/-!
# What the global solver descends on

The loss a program describes, read off the attributes a user sets and the values of the components at a configuration.
-/

namespace Mjinx.Spec
variable {K : Type} [Field K] [LinearOrder K]

/-- A component of a problem at a configuration: its attributes and its value. -/
structure Reading (K : Type) where
  attrs : Attrs K
  value : Vec K

/-- What a component adds to the loss: a task its error squared, entry by entry, times the gain; a barrier minus the gain times the
logarithm of its value, cut off below `1e-9` and above `1`.  Cost, damping, gain function and safe displacement gain do not occur. -/
def Reading.penalty (log : K → K) (t : Reading K) : K :=
  match t.attrs.kind with
  | .comTask .. | .jointTask .. | .positionTask .. | .frameTask .. =>
      ∑ r ∈ Finset.range t.value.len, gainAt t.attrs.gain r * t.value.get r ^ 2
  | .jointBarrier .. | .positionBarrier .. | .selfCollision .. =>
      - ∑ r ∈ Finset.range t.value.len, gainAt t.attrs.gain r * log (min (max (t.value.get r) (1 / 10 ^ 9)) 1)
  | .modelEquality .. => 0

/-- The component is a constraint. -/
def Reading.isConstraint (t : Reading K) : Prop :=
  match t.attrs.kind with
  | .modelEquality .. => True
  | _ => False

/-- The loss: the sum over the components. -/
def totalPenalty (log : K → K) (ts : List (Reading K)) : K := (ts.map (Reading.penalty log)).sum

/-- `ts` are the components of problem `P` in the world `w`, in order, with the values that their compiled versions in `J` have
at `d`. -/
def ReadingsOf (w : World K) (P : Prob K) (J : JaxProblem K) (env : Env K) (d : MjData K) (ts : List (Reading K)) : Prop :=
  List.Forall₂ (fun (ni : String × Nat) (t : Reading K) => ∃ c, w.comps[ni.2]? = some c ∧ t.attrs = c.attrs ∧
    ∃ j, (ni.1, j) ∈ J.comps ∧ evalValue env j d = .ok t.value) P.comps ts

/-- The values of the components have the declared dimensions (C68). -/
def ValuesSized (env : Env K) (J : JaxProblem K) (d : MjData K) : Prop :=
  ∀ nj ∈ J.comps, ∀ e, evalValue env nj.2 d = .ok e → (e.len : Int) = nj.2.dim

end Mjinx.Spec
