import Verif.Spec.Energy
import Verif.Spec.Settings

/-!
# Costs as priorities, targets that move
-/

namespace Mjinx.Spec
variable {K : Type} [Field K] [LinearOrder K]

/-- A cost multiplied by a number. -/
def scaled (s : K) (w : Arr K) : Arr K := ⟨w.shape, fun i => s * w.get i⟩

/-- The square of the weighted change of the rates of a task's values between the velocities `v` and `v'`. -/
def Term.swing (v v' : Nat → K) (t : Term K) : K :=
  match t.attrs.kind with
  | .comTask a _ | .jointTask a _ _ _ | .positionTask a _ _ | .frameTask a _ _ =>
      sqNorm t.jac.rows fun r => ∑ k ∈ Finset.range t.jac.rows, weightAt a.cost r k * (rowDot t.jac k v' - rowDot t.jac k v)
  | .modelEquality _ hard c =>
      if hard then 0 else sqNorm t.jac.rows fun r => ∑ k ∈ Finset.range t.jac.rows, weightAt (c.getD (Arr.scalar 100)) r k * (rowDot t.jac k v' - rowDot t.jac k v)
  | _ => 0

/-- The square of the weighted difference of two targets, times the gain. -/
def nudge (g w x x' : Arr K) (n : Nat) : K :=
  sqNorm n fun r => ∑ k ∈ Finset.range n, weightAt w r k * (gainAt g k * (x'.get [k] - x.get [k]))

/-- The target of a joint, position or centre-of-mass task. -/
def targetOf (c : Comp K) : Option (Arr K) :=
  match c.attrs.kind with
  | .comTask _ x | .positionTask _ _ x => some x
  | .jointTask _ _ x _ => x
  | _ => none

/-- Automatic differentiation does not see constants: functions that differ by a constant vector have the same Jacobian. -/
def ForgetsConstants (env : Env K) : Prop :=
  ∀ (f g : Vec K → Vec K) (q : Vec K) (c : Nat → K),
    (∀ x, x.len = q.len → (f x).len = (f q).len ∧ (g x).len = (f q).len ∧ ∀ i, (g x).get i = (f x).get i + c i) → env.jacrev g q = env.jacrev f q

end Mjinx.Spec
