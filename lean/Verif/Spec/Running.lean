import Verif.Spec.Compiles
import Verif.Spec.Converge
import Verif.Spec.Solvable

/-!
# Control loops that keep running
-/

namespace Mjinx.Spec
variable {K : Type} [Field K] [LinearOrder K]

/-- The settings compiled from problem `p` are usable: it compiles, its components are bound to the model, and their settings are the ones
that can be evaluated. -/
def Ready (env : Env K) (m : MjModel K) (p : Nat) (w : World K) : Prop :=
  ∃ J, (step w (.compile p)).1 = .ok (.compiled J) ∧ J.model = m ∧ ∀ nj ∈ J.comps, nj.2.model = m ∧ Usable env nj.2

/-- Component `i` is in problem `p`. -/
def IsPartOf (p : Nat) (w : World K) (i : Nat) : Prop := ∃ P name, w.probs[p]? = some P ∧ (name, i) ∈ P.comps

/-- A call with arguments that fit a component with `n` rows: gains and costs are refused or of a fitting size, targets and limits are not
batched, and no other model and no other number of collisions is set. -/
def FitsRows (n : Nat) : CompOp K → Prop
  | .updateGain g => g.shape.length ≤ 1 → GainFits n g
  | .updateCost w => w.shape.length ≤ 2 → CostFits n w
  | .updateTarget x | .updateQLimit _ x | .updatePLimit _ x => x.shape.length ≤ 1
  | .updateTargetFrame (.se3 x) => x.shape = [7]
  | .updateTargetFrame (.array x) => x.shape.length ≤ 1
  | .setNClosest k => k = n
  | .updateModel _ => False
  | _ => True

/-- What a loop over problem `p` that was set up in `w` may do: control steps; calls with fitting arguments on the components of the problem;
any other call that neither adds a component to the problem nor one of its components to another problem. -/
def Gentle (p : Nat) (w : World K) : Act K → Prop
  | .tick => True
  | .call (.comp i op) => IsPartOf p w i → ∀ c, w.comps[i]? = some c → FitsRows c.attrs.dim.toNat op
  | .call (.add q i) => q ≠ p ∧ ¬ IsPartOf p w i
  | .call _ => True

/-- Solving raises nothing, or the Jacobian of a barrier is all zero and the result is not a number. -/
def RunsOrSingular {I : Type} (env : Env K) (osqp : QPSolver K I) (m : MjModel K) (p : Nat) (S : Robot K) : Prop :=
  ∃ J, (step S.world (.compile p)).1 = .ok (.compiled J) ∧
    ((∃ r, localSolve env osqp m S.q.toArr S.data J = .ok r) ∨
      localSolve env osqp m S.q.toArr S.data J = .error .nonFinite ∧
      ∃ nj ∈ J.comps, CompiledBarrier nj.2 ∧ ∃ G, evalJacobian env nj.2 (update env m S.q) = .ok G ∧ ZeroMat G)

/-- The barriers of problem `p` are joint barriers over at least one joint. -/
def OnlyJointBarriers (p : Nat) (w : World K) : Prop :=
  ∀ J, (step w (.compile p)).1 = .ok (.compiled J) → ∀ nj ∈ J.comps, CompiledBarrier nj.2 →
    ∃ s lo hi i qi, nj.2.kind = .jointBarrier s lo hi (i :: qi)

end Mjinx.Spec
