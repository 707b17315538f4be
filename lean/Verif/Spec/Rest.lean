import Verif.Spec.Energy
import Verif.Spec.Loop

/-!
# Where robots come to rest
-/

namespace Mjinx.Spec
variable {K : Type} [Field K] [LinearOrder K]

/-- Entry `r` of the weighted rate at which the value changes under the velocity `u`. -/
def Term.weighted (t : Term K) (w : Arr K) (u : Nat → K) (r : Nat) : K := ∑ k ∈ Finset.range t.jac.rows, weightAt w r k * rowDot t.jac k u

/-- How fast the component drifts from what it asks for when moving with `u`: the product of the weighted rate of the value and the weighted rate it is asked
to fall at.  For a task with the default gain function this is `gain` times the derivative of half the squared weighted error; negative means
that the error shrinks.  Barriers and hard constraints ask for nothing here, they restrict the velocity. -/
def Term.slope (u : Nat → K) (t : Term K) : K :=
  match t.attrs.kind with
  | .comTask a _ | .jointTask a _ _ _ | .positionTask a _ _ | .frameTask a _ _ =>
      ∑ r ∈ Finset.range t.jac.rows, t.weighted a.cost u r * t.misfit a.cost (fun _ => 0) r
  | .modelEquality _ hard c =>
      if hard then 0 else ∑ r ∈ Finset.range t.jac.rows, t.weighted (c.getD (Arr.scalar 100)) u r * t.misfit (c.getD (Arr.scalar 100)) (fun _ => 0) r
  | _ => 0

/-- The slopes of all components together. -/
def totalSlope (ts : List (Term K)) (u : Nat → K) : K := (ts.map (Term.slope u)).sum

/-- No allowed velocity makes the total weighted error shrink. -/
def NothingToGain (n : Nat) (vMin vMax : Arr K) (ts : List (Term K)) : Prop := ∀ u, Allowed n vMin vMax ts u → 0 ≤ totalSlope ts u

/-- The component asks for no motion: if it is a task or a soft constraint, every entry of its value is asked to fall at rate zero (with the default gain
function and positive gains: every entry of the value is zero). -/
def Term.Settled (t : Term K) : Prop :=
  match t.attrs.kind with
  | .comTask .. | .jointTask .. | .positionTask .. | .frameTask .. => ∀ r < t.jac.rows, t.rate r = 0
  | .modelEquality _ hard _ => hard = true ∨ ∀ r < t.jac.rows, t.rate r = 0
  | _ => True

/-- Tasks and soft constraints together see every velocity: none but zero leaves all their weighted values unchanged. -/
def Watched (n : Nat) (ts : List (Term K)) : Prop :=
  ∀ u : Nat → K, (∀ t ∈ ts, ∀ r < t.jac.rows, match t.attrs.kind with
    | .comTask a _ | .jointTask a _ _ _ | .positionTask a _ _ | .frameTask a _ _ => t.weighted a.cost u r = 0
    | .modelEquality _ hard c => hard = true ∨ t.weighted (c.getD (Arr.scalar 100)) u r = 0
    | _ => True) → ∀ i < n, u i = 0

/-- Something costs for every velocity but zero: a barrier with positive safe displacement gain (and a Jacobian that is not all zero), a task away
from its target with positive damping, or tasks that together see every velocity. -/
def Pinned (n : Nat) (ts : List (Term K)) : Prop :=
  (∃ t ∈ ts, (match t.attrs.kind with | .jointBarrier s .. | .positionBarrier s .. | .selfCollision s .. => 0 < s | _ => False) ∧ 0 < frobSq t.jac) ∨
  (∃ t ∈ ts, t.Unmet ∧ match t.attrs.kind with
    | .comTask a _ | .jointTask a _ _ _ | .positionTask a _ _ | .frameTask a _ _ => 0 < a.lmDamping | _ => False) ∨
  Watched n ts

/-- At the current configuration of the robot, problem `p` compiles to components with fitting sizes (C68), standing still is allowed, damping and safe
displacement gains are not negative, every velocity but zero costs something and no allowed velocity makes the total weighted error shrink. -/
def AtRest (env : Env K) (m : MjModel K) (p : Nat) (S : Robot K) : Prop :=
  ∀ J, (step S.world (.compile p)).1 = .ok (.compiled J) → J.model = m ∧ WellSized env J (update env m S.q) ∧
    ∀ P ts, S.world.probs[p]? = some P → TermsOf S.world P J env (update env m S.q) ts →
      Allowed m.nv P.vMin P.vMax ts (fun _ => 0) ∧ (∀ t ∈ ts, t.Braking) ∧ Pinned m.nv ts ∧ NothingToGain m.nv P.vMin P.vMax ts

end Mjinx.Spec
