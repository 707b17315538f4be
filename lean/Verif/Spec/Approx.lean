import Verif.Spec.Converge

/-!
# Control programs with a QP solver that is only accurate up to a tolerance
-/

namespace Mjinx.Spec
variable {K : Type} [Field K] [LinearOrder K]

/-- Every row holds up to `ε`. -/
structure FeasibleUpTo (ε : K) (qp : QP K) (v : Nat → K) : Prop where
  ineq : ∀ i < qp.G.rows, rowDot qp.G i v ≤ qp.h.get i + ε
  eq : ∀ A b, qp.A = some A → qp.b = some b → ∀ i < A.rows, |rowDot A i v - b.get i| ≤ ε

/-- Barriers fall at most `ε` faster than asked, hard constraints change as asked up to `ε`. -/
def Term.AllowsUpTo (ε : K) (v : Nat → K) (t : Term K) : Prop :=
  match t.attrs.kind with
  | .jointBarrier .. | .positionBarrier .. | .selfCollision .. => ∀ r < t.jac.rows, - t.rate r - ε ≤ rowDot t.jac r v
  | .modelEquality _ hard _ => hard = true → ∀ r < t.jac.rows, |rowDot t.jac r v + t.rate r| ≤ ε
  | _ => True

/-- The velocity is allowed up to `ε`. -/
def AllowedUpTo (ε : K) (n : Nat) (vMin vMax : Arr K) (ts : List (Term K)) (v : Nat → K) : Prop :=
  (∀ i < n, - vMax.get [i] - ε ≤ v i ∧ v i ≤ - vMin.get [i] + ε) ∧ ∀ t ∈ ts, t.AllowsUpTo ε v

/-- When there are feasible points, the QP solver returns one up to `ε`. -/
def FindsFeasibleUpTo {I : Type} (ε : K) (osqp : QPSolver K I) : Prop :=
  ∀ qp, (∃ v, Feasible qp v) → FeasibleUpTo ε qp (osqp qp).1.get

/-- When there are optimal points, the objective at the point the QP solver returns exceeds theirs by at most `δ`. -/
def OptimalUpTo {I : Type} (δ : K) (osqp : QPSolver K I) : Prop :=
  ∀ qp u, Optimal qp u → objective qp (osqp qp).1.get ≤ objective qp u + δ

/-- The selected joints exceed the limits by at most `lower i` and `upper i`. -/
def WithinUpTo (m : MjModel K) (fm : Option (List Int)) (lo hi : Arr K) (lower upper : Nat → K) (q : Vec K) : Prop :=
  ∀ i (h : i < (selectedJoints m fm).length),
    entry lo i - lower i ≤ q.get (qposOf m (selectedJoints m fm)[i]) ∧ q.get (qposOf m (selectedJoints m fm)[i]) ≤ entry hi i + upper i

/-- Problem `p` contains a joint barrier for these limits, bound to the model, with the default gain function; entry `r` of its gain is `g r`. -/
def GuardedBy (m : MjModel K) (p : Nat) (fm : Option (List Int)) (lo hi : Arr K) (g : Nat → K) (w : World K) : Prop :=
  ∃ P name i c s qi, w.probs[p]? = some P ∧ P.model = m ∧ (name, i) ∈ P.comps ∧ w.comps[i]? = some c ∧
    c.attrs.model = some m ∧ c.attrs.kind = .jointBarrier s fm (some lo) (some hi) qi ∧ c.attrs.gainFn = id ∧
    ∀ r < 2 * (selectedJoints m fm).length, gainAt c.attrs.gain r = g r

/-- Vectors are at least as long after weighting as `μ` times before. -/
def CostAtLeast (w : Arr K) (n : Nat) (μ : K) : Prop :=
  ∀ x : Nat → K, μ ^ 2 * sqNorm n x ≤ sqNorm n (fun r => ∑ k ∈ Finset.range n, weightAt w r k * x k)

/-- As `Tracked`, with a cost that is at least `μ`. -/
def TrackedBy (m : MjModel K) (p : Nat) (fm : Option (List Int)) (tq : Arr K) (g : Nat → K) (μ : K) (w : World K) : Prop :=
  ∃ P name i c a qi, w.probs[p]? = some P ∧ P.model = m ∧ (name, i) ∈ P.comps ∧ w.comps[i]? = some c ∧
    c.attrs.model = some m ∧ c.attrs.kind = .jointTask a fm (some tq) qi ∧ CostAtLeast a.cost (selectedJoints m fm).length μ ∧
    c.attrs.gainFn = id ∧ ∀ r < (selectedJoints m fm).length, gainAt c.attrs.gain r = g r

/-- Problem `p` consists of joint tasks for the selected joints with this target, without damping, and of joint barriers for the limits `lo` and `hi`,
without safe displacement gain; all have the default gain function and the same gains `g`.  The velocity limits allow standing still,
and for each selected joint they allow what the gain asks for at errors up to `e`. -/
def SameGains (m : MjModel K) (p : Nat) (fm : Option (List Int)) (tq : Arr K) (g : Nat → K) (lo hi : Arr K) (e : Nat → K) (w : World K) : Prop :=
  ∃ P, w.probs[p]? = some P ∧ P.model = m ∧ (∀ k < m.nv, - P.vMax.get [k] ≤ 0 ∧ 0 ≤ - P.vMin.get [k]) ∧
    (∀ i (h : i < (selectedJoints m fm).length), - P.vMax.get [dofOf m (selectedJoints m fm)[i]] ≤ - (g i * e i) ∧
      g i * e i ≤ - P.vMin.get [dofOf m (selectedJoints m fm)[i]]) ∧
    ∀ ni ∈ P.comps, ∀ c, w.comps[ni.2]? = some c → c.attrs.model = some m ∧ c.attrs.gainFn = id ∧
      ((∃ a qi, c.attrs.kind = .jointTask a fm (some tq) qi ∧ a.lmDamping = 0 ∧
          ∀ r < (selectedJoints m fm).length, gainAt c.attrs.gain r = g r) ∨
        ∃ qi, c.attrs.kind = .jointBarrier 0 fm (some lo) (some hi) qi ∧ ∀ r < (selectedJoints m fm).length,
          gainAt c.attrs.gain r = g r ∧ gainAt c.attrs.gain ((selectedJoints m fm).length + r) = g r)

end Mjinx.Spec
