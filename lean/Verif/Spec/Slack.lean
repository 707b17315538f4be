import Verif.Spec.Rest

/-!
# Limits that do not bind
-/

namespace Mjinx.Spec
variable {K : Type} [Field K] [LinearOrder K]

/-- The component only limits the velocity: it is a barrier with safe displacement gain zero or a hard constraint. -/
def Term.Limiting (t : Term K) : Prop :=
  match t.attrs.kind with
  | .jointBarrier s .. | .positionBarrier s .. | .selfCollision s .. => s = 0
  | .modelEquality _ hard _ => hard = true
  | _ => False

/-- The component is a barrier, and at the velocity `v` it could fall faster than it does in every entry. -/
def Term.Spare (v : Nat → K) (t : Term K) : Prop :=
  match t.attrs.kind with
  | .jointBarrier .. | .positionBarrier .. | .selfCollision .. => ∀ r < t.jac.rows, - t.rate r < rowDot t.jac r v
  | _ => False

/-- The velocity `v` does not touch the first velocity limits, and keeps the second ones, wherever they differ. -/
def Clear (n : Nat) (vMin vMax vMin' vMax' : Arr K) (v : Nat → K) : Prop :=
  ∀ i < n, (vMax'.get [i] = vMax.get [i] ∨ - vMax.get [i] < v i ∧ - vMax'.get [i] ≤ v i) ∧
    (vMin'.get [i] = vMin.get [i] ∨ v i < - vMin.get [i] ∧ v i ≤ - vMin'.get [i])

/-- At the configuration `q` the components of both problems have fitting sizes (C68) and both are solved; for problem `p` some velocity is allowed, damping and safe
displacement gains are not negative and the tasks together see every velocity; whatever `p'` has in addition only limits, and every best velocity for `p` keeps
it (and does not touch velocity limits that `p'` changes). -/
def Roomy {I : Type} (env : Env K) (osqp : QPSolver K I) (m : MjModel K) (p p' : Nat) (w : World K) (q : Vec K) : Prop :=
  ∀ J J', (step w (.compile p)).1 = .ok (.compiled J) → (step w (.compile p')).1 = .ok (.compiled J') →
    J.model = m ∧ (WellSized env J (update env m q) ∧ WellSized env J' (update env m q)) ∧
    (∀ s, (∃ r, localSolve env osqp m q.toArr s J = .ok r) ∧ ∃ r, localSolve env osqp m q.toArr s J' = .ok r) ∧
    ∀ P P' ts extra, w.probs[p]? = some P → w.probs[p']? = some P' → TermsOf w P J env (update env m q) ts → TermsOf w P' J' env (update env m q) (ts ++ extra) →
      (∃ u, Allowed m.nv P.vMin P.vMax ts u) ∧ (∀ t ∈ ts, t.Braking) ∧ Watched m.nv ts ∧ (∀ t ∈ extra, t.Limiting) ∧
      ∀ v, Best m.nv P.vMin P.vMax ts v → Clear m.nv P.vMin P.vMax P'.vMin P'.vMax v ∧ ∀ t ∈ extra, t.Allows v

end Mjinx.Spec
