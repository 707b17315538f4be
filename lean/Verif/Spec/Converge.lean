import Verif.Spec.Loop

/-!
# Control programs that follow tasks
-/

namespace Mjinx.Spec
variable {K : Type} [Field K] [LinearOrder K]

/-- Tasks are not damped, barriers have no safe displacement gain. -/
def Term.Plain (t : Term K) : Prop :=
  match t.attrs.kind with
  | .comTask a _ | .jointTask a _ _ _ | .positionTask a _ _ | .frameTask a _ _ => a.lmDamping = 0
  | .jointBarrier s .. | .positionBarrier s .. | .selfCollision s .. => s = 0
  | .modelEquality .. => True

/-- The velocity changes the value of a task or soft constraint exactly at the rate asked for. -/
def Term.MetBy (v : Nat → K) (t : Term K) : Prop :=
  match t.attrs.kind with
  | .comTask .. | .jointTask .. | .positionTask .. | .frameTask .. => ∀ r < t.jac.rows, rowDot t.jac r v = - t.rate r
  | .modelEquality _ hard _ => hard = false → ∀ r < t.jac.rows, rowDot t.jac r v = - t.rate r
  | _ => True

/-- The components of problem `p` have fitting sizes, and some allowed velocity meets all tasks and soft constraints at once; there is
no damping and no safe displacement gain. -/
def Compatible (env : Env K) (m : MjModel K) (p : Nat) (S : Robot K) : Prop :=
  ∀ J, (step S.world (.compile p)).1 = .ok (.compiled J) →
    WellSized env J (update env m S.q) ∧
    ∀ P ts, S.world.probs[p]? = some P → TermsOf S.world P J env (update env m S.q) ts →
      (∀ t ∈ ts, t.Plain) ∧ ∃ v, Allowed P.model.nv P.vMin P.vMax ts v ∧ ∀ t ∈ ts, t.MetBy v

/-- The control step raises nothing. -/
def Works {I : Type} (env : Env K) (osqp : QPSolver K I) (m : MjModel K) (p : Nat) (S : Robot K) : Prop :=
  ∃ J r, (step S.world (.compile p)).1 = .ok (.compiled J) ∧ localSolve env osqp m S.q.toArr S.data J = .ok r

/-- No nonzero vector has cost zero. -/
def CostDefinite (w : Arr K) (n : Nat) : Prop :=
  ∀ x : Nat → K, (∀ r < n, ∑ k ∈ Finset.range n, weightAt w r k * x k = 0) → ∀ r < n, x r = 0

/-- Problem `p` contains a joint task for the selected joints with this target, bound to the model, with the default gain function and the
gains `g`; its cost is definite. -/
def Tracked (m : MjModel K) (p : Nat) (fm : Option (List Int)) (tq : Arr K) (g : Nat → K) (w : World K) : Prop :=
  ∃ P name i c a qi, w.probs[p]? = some P ∧ P.model = m ∧ (name, i) ∈ P.comps ∧ w.comps[i]? = some c ∧
    c.attrs.model = some m ∧ c.attrs.kind = .jointTask a fm (some tq) qi ∧ CostDefinite a.cost (selectedJoints m fm).length ∧
    c.attrs.gainFn = id ∧ ∀ r < (selectedJoints m fm).length, gainAt c.attrs.gain r = g r

/-- Problem `p` consists of joint tasks for the selected joints with this target, the default gain function, the gains `g` and no damping, and
of joint barriers for the limits `lo` and `hi` that allow approaching a limit at least as fast as the gains ask, without safe
displacement gain.  The velocity limits allow standing still, and for each selected joint they allow what the gain asks for at the error `e`. -/
def TaskAndLimits (m : MjModel K) (p : Nat) (fm : Option (List Int)) (tq : Arr K) (g : Nat → K) (lo hi : Arr K) (e : Nat → K)
    (w : World K) : Prop :=
  ∃ P, w.probs[p]? = some P ∧ (∀ k < m.nv, - P.vMax.get [k] ≤ 0 ∧ 0 ≤ - P.vMin.get [k]) ∧
    (∀ i (h : i < (selectedJoints m fm).length), - P.vMax.get [dofOf m (selectedJoints m fm)[i]] ≤ - (g i * e i) ∧
      - (g i * e i) ≤ - P.vMin.get [dofOf m (selectedJoints m fm)[i]]) ∧
    ∀ ni ∈ P.comps, ∀ c, w.comps[ni.2]? = some c → c.attrs.model = some m ∧
      ((∃ a qi, c.attrs.kind = .jointTask a fm (some tq) qi ∧ a.lmDamping = 0 ∧ c.attrs.gainFn = id ∧
          ∀ r < (selectedJoints m fm).length, gainAt c.attrs.gain r = g r) ∨
        ∃ qi, c.attrs.kind = .jointBarrier 0 fm (some lo) (some hi) qi ∧ ∀ r < (selectedJoints m fm).length, ∀ y, 0 ≤ y →
          g r * y ≤ gainAt c.attrs.gain r * c.attrs.gainFn y ∧
          g r * y ≤ gainAt c.attrs.gain ((selectedJoints m fm).length + r) * c.attrs.gainFn y)

/-- The number of control steps. -/
def ticksIn : List (Act K) → Nat
  | [] => 0
  | .tick :: acts => ticksIn acts + 1
  | .call _ :: acts => ticksIn acts

end Mjinx.Spec
