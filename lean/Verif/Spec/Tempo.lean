import Verif.Spec.Priority
import Verif.Spec.Rest

/-!
# The same problem at another pace
-/

namespace Mjinx.Spec
variable {K : Type} [Field K] [LinearOrder K]

/-- The settings with the gain multiplied by `s`. -/
def quicker (s : K) (a : Attrs K) : Attrs K := { a with gain := scaled s a.gain }

/-- The component with its gain multiplied by `s`. -/
def Term.quicker (s : K) (t : Term K) : Term K := ⟨Spec.quicker s t.attrs, t.jac, t.value⟩

/-- Tasks have damping zero. -/
def Term.Undamped (t : Term K) : Prop :=
  match t.attrs.kind with
  | .comTask a _ | .jointTask a _ _ _ | .positionTask a _ _ | .frameTask a _ _ => a.lmDamping = 0
  | _ => True

/-- Problem `p` of `w'` is that of `w` with all gains and both velocity limits multiplied by `s`. -/
def Quicker (s : K) (p : Nat) (w w' : World K) : Prop :=
  ∃ P, w.probs[p]? = some P ∧ w'.probs[p]? = some { P with vMin := scaled s P.vMin, vMax := scaled s P.vMax } ∧
    ∀ ni ∈ P.comps, ∃ c c', w.comps[ni.2]? = some c ∧ w'.comps[ni.2]? = some c' ∧ c'.attrs = quicker s c.attrs

/-- The calls that multiply the velocity limits of problem `p` and the gains of all its components by `s`. -/
def speedUp (s : K) (p : Nat) (w : World K) : List (Op K) :=
  match w.probs[p]? with
  | none => []
  | some P =>
    .updateVMin p (scaled s P.vMin) :: .updateVMax p (scaled s P.vMax) ::
      P.comps.flatMap fun ni => match w.comps[ni.2]? with
        | none => []
        | some c => [.comp ni.2 (.updateGain (scaled s c.attrs.gain))]

/-- At the configuration `q` the components of the problem have fitting sizes (C68) and it is solved, some velocity is allowed, no task is damped, safe displacement
gains are not negative, and the tasks together see every velocity. -/
def Paced {I : Type} (env : Env K) (osqp : QPSolver K I) (m : MjModel K) (p : Nat) (w : World K) (q : Vec K) : Prop :=
  ∀ J, (step w (.compile p)).1 = .ok (.compiled J) →
    J.model = m ∧ WellSized env J (update env m q) ∧ (∀ s, ∃ r, localSolve env osqp m q.toArr s J = .ok r) ∧
    ∀ P ts, w.probs[p]? = some P → TermsOf w P J env (update env m q) ts →
      (∃ u, Allowed m.nv P.vMin P.vMax ts u) ∧ (∀ t ∈ ts, t.Undamped) ∧ (∀ t ∈ ts, t.Braking) ∧ Watched m.nv ts

end Mjinx.Spec
