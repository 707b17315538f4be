import Verif.Spec.Control
import Verif.Spec.Problem

/-!
# Control programs

Programs that mix calls of the API with control steps of a robot.
-/

namespace Mjinx.Spec
variable {K : Type} [Field K] [LinearOrder K]

/-- The objects of a program, the configuration of the robot and the solver data carried from step to step. -/
structure Robot (K : Type) where
  world : World K
  q : Vec K
  data : LocalIKData K

/-- What a control program does next: call the API, or make a control step. -/
inductive Act (K : Type) where
  | call (op : Op K)
  | tick

/-- A control step compiles problem `p`, solves it at the current configuration and moves with the velocity found for `dt` seconds.  When
compiling or solving raises, the robot stays where it is. -/
def controlStep {I : Type} (env : Env K) (osqp : QPSolver K I) (m : MjModel K) (p : Nat) (dt : K) (S : Robot K) : Act K → Robot K
  | .call op => { S with world := (step S.world op).2 }
  | .tick =>
    match step S.world (.compile p) with
    | (.ok (.compiled J), w) =>
      match localSolve env osqp m S.q.toArr S.data J with
      | .ok (sol, s) => ⟨w, integrate env m S.q sol.vOpt dt, s⟩
      | .error _ => { S with world := w }
    | (_, w) => { S with world := w }

/-- All of a control program. -/
def control {I : Type} (env : Env K) (osqp : QPSolver K I) (m : MjModel K) (p : Nat) (dt : K) (S : Robot K) (acts : List (Act K)) : Robot K :=
  acts.foldl (controlStep env osqp m p dt) S

/-- The calls a control program makes. -/
def callsOf (p : Nat) (acts : List (Act K)) : List (Op K) :=
  acts.map fun
    | .call op => op
    | .tick => .compile p

/-- `G` holds whenever the program makes a control step. -/
def AtEveryTick {I : Type} (env : Env K) (osqp : QPSolver K I) (m : MjModel K) (p : Nat) (dt : K) (G : Robot K → Prop) :
    Robot K → List (Act K) → Prop
  | _, [] => True
  | S, a :: acts => (a = .tick → G S) ∧ AtEveryTick env osqp m p dt G (controlStep env osqp m p dt S a) acts

/-- The selected joints are within the limits. -/
def Within (m : MjModel K) (fm : Option (List Int)) (lo hi : Arr K) (q : Vec K) : Prop :=
  ∀ i (h : i < (selectedJoints m fm).length),
    entry lo i ≤ q.get (qposOf m (selectedJoints m fm)[i]) ∧ q.get (qposOf m (selectedJoints m fm)[i]) ≤ entry hi i

/-- Problem `p` contains a joint barrier for these limits, bound to the model, that in one step asks for no more than the distance to the limit.
For the default gain function this is `gain * dt ≤ 1`. -/
def Guarded (m : MjModel K) (p : Nat) (dt : K) (fm : Option (List Int)) (lo hi : Arr K) (w : World K) : Prop :=
  ∃ P name i c s qi, w.probs[p]? = some P ∧ P.model = m ∧ (name, i) ∈ P.comps ∧ w.comps[i]? = some c ∧
    c.attrs.model = some m ∧ c.attrs.kind = .jointBarrier s fm (some lo) (some hi) qi ∧
    ∀ r < 2 * (selectedJoints m fm).length, ∀ y, 0 ≤ y → gainAt c.attrs.gain r * c.attrs.gainFn y * dt ≤ y

/-- The components of problem `p` have fitting sizes (C68), and some velocity is allowed. -/
def CanMove (env : Env K) (m : MjModel K) (p : Nat) (S : Robot K) : Prop :=
  ∀ J, (step S.world (.compile p)).1 = .ok (.compiled J) →
    WellSized env J (update env m S.q) ∧
    ∀ P ts, S.world.probs[p]? = some P → TermsOf S.world P J env (update env m S.q) ts → ∃ v, Allowed P.model.nv P.vMin P.vMax ts v

/-- Problem `p` consists of tasks and of joint barriers for these limits, whose gain times gain function is nonnegative on nonnegative
values, and its velocity limits allow standing still. -/
def TasksAndLimits (m : MjModel K) (p : Nat) (fm : Option (List Int)) (lo hi : Arr K) (w : World K) : Prop :=
  ∃ P, w.probs[p]? = some P ∧ (∀ i < m.nv, P.vMin.get [i] ≤ 0 ∧ 0 ≤ P.vMax.get [i]) ∧
    ∀ ni ∈ P.comps, ∀ c, w.comps[ni.2]? = some c → IsTask c.attrs.kind ∨
      ∃ s qi, c.attrs.model = some m ∧ c.attrs.kind = .jointBarrier s fm (some lo) (some hi) qi ∧
        ∀ r < 2 * (selectedJoints m fm).length, ∀ y, 0 ≤ y → 0 ≤ gainAt c.attrs.gain r * c.attrs.gainFn y

/-- The components of problem `p` have fitting sizes (C68). -/
def SizesFit (env : Env K) (m : MjModel K) (p : Nat) (S : Robot K) : Prop :=
  ∀ J, (step S.world (.compile p)).1 = .ok (.compiled J) → WellSized env J (update env m S.q)

/-- The QP solver finds a feasible point when there is one. -/
def FindsFeasible {I : Type} (osqp : QPSolver K I) : Prop := ∀ qp, (∃ v, Feasible qp v) → Feasible qp (osqp qp).1.get

end Mjinx.Spec
