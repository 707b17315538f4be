import Verif.Spec.Approx
import Verif.Spec.Compiles

/-!
# Control programs with moving targets
-/

namespace Mjinx.Spec
variable {K : Type} [Field K] [LinearOrder K]

/-- The program makes as many control steps as there are targets in the list, and `G x` holds at the control step whose target is `x`. -/
def TicksWith {I : Type} (env : Env K) (osqp : QPSolver K I) (m : MjModel K) (p : Nat) (dt : K) (G : Arr K → Robot K → Prop) :
    Robot K → List (Act K) → List (Arr K) → Prop
  | _, [], xs => xs = []
  | S, .call op :: acts, xs => TicksWith env osqp m p dt G (controlStep env osqp m p dt S (.call op)) acts xs
  | _, .tick :: _, [] => False
  | S, .tick :: acts, x :: xs => G x S ∧ TicksWith env osqp m p dt G (controlStep env osqp m p dt S .tick) acts xs

/-- The first `n` entries of `y` differ from those of `x` by at most `d`. -/
def Near (n : Nat) (d : Nat → K) (x y : Arr K) : Prop := ∀ i < n, |entry y i - entry x i| ≤ d i

/-- The selected joints are off the target by at most `e`. -/
def OffTarget (m : MjModel K) (fm : Option (List Int)) (x : Arr K) (e : Nat → K) (q : Vec K) : Prop :=
  ∀ i (h : i < (selectedJoints m fm).length), |q.get (qposOf m (selectedJoints m fm)[i]) - entry x i| ≤ e i

/-- The loop that sends component `k` to one target after the other, with a control step after each. -/
def sendTo (k : Nat) (xs : List (Arr K)) : List (Act K) := xs.flatMap fun x => [.call (.comp k (.updateTarget x)), .tick]

/-- Problem `p` consists of component `k`, a joint task for the selected joints without damping and with a cost that is at least `μ`, and of joint
barriers, at least one, for the limits `lo` and `hi` without safe displacement gain; all are complete, bound to the model, and have the default gain
function and the same gains `g`.  The velocity limits allow standing still, and for each selected joint they allow what the gain asks for at errors up to `e`. -/
def TaskWithLimits (m : MjModel K) (p k : Nat) (fm : Option (List Int)) (g : Nat → K) (μ : K) (lo hi : Arr K) (e : Nat → K) (w : World K) : Prop :=
  ∃ P, w.probs[p]? = some P ∧ P.model = m ∧ (∀ j < m.nv, - P.vMax.get [j] ≤ 0 ∧ 0 ≤ - P.vMin.get [j]) ∧
    (∀ i (h : i < (selectedJoints m fm).length), - P.vMax.get [dofOf m (selectedJoints m fm)[i]] ≤ - (g i * e i) ∧
      g i * e i ≤ - P.vMin.get [dofOf m (selectedJoints m fm)[i]]) ∧
    (∃ name, (name, k) ∈ P.comps) ∧ (∃ ni ∈ P.comps, ni.2 ≠ k) ∧
    ∀ ni ∈ P.comps, ∃ c, w.comps[ni.2]? = some c ∧ Complete c.attrs ∧ c.attrs.model = some m ∧ c.attrs.gainFn = id ∧
      ((ni.2 = k ∧ ∃ a tq qi, c.attrs.kind = .jointTask a fm tq qi ∧ a.lmDamping = 0 ∧ CostAtLeast a.cost (selectedJoints m fm).length μ ∧
          ∀ r < (selectedJoints m fm).length, gainAt c.attrs.gain r = g r) ∨
        (ni.2 ≠ k ∧ ∃ qi, c.attrs.kind = .jointBarrier 0 fm (some lo) (some hi) qi ∧ ∀ r < (selectedJoints m fm).length,
          gainAt c.attrs.gain r = g r ∧ gainAt c.attrs.gain ((selectedJoints m fm).length + r) = g r))

end Mjinx.Spec
