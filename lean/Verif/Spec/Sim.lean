import Verif.Model.Eval
import Verif.Spec.QP
import Verif.Spec.Joints
import Verif.Spec.Component

/-!
# Reading simulation data and compiled components
-/

namespace Mjinx.Spec
variable {K : Type} [Field K] [LinearOrder K]

/-- What is assumed of mjx's kinematics: the data computed for a configuration has a configuration of
the same size with the same hinge and slide coordinates (mjx normalises quaternions). -/
def KeepsScalars (env : Env K) (m : MjModel K) : Prop :=
  ∀ q : Vec K, q.len = m.nq → (update env m q).qpos.len = m.nq ∧
    ∀ k ∈ scalarJoints m, (update env m q).qpos.get (qposOf m k) = q.get (qposOf m k)

/-- Entry `i` of a bound or target: numbers and arrays of length one stand for all entries. -/
def entry (a : Arr K) (i : Nat) : K :=
  if a.shape = [] then a.get [] else if a.shape = [1] then a.get [0] else a.get [i]

/-- The array can be subtracted from a vector with `n` entries without changing its size. -/
def FitsVec (a : Arr K) (n : Nat) : Prop := a.shape = [] ∨ a.shape = [1] ∨ a.shape = [n]

/-- What a user reads as `task.target_q`, `barrier.q_min`, `barrier.q_max` (`none`: not set yet). -/
def targetQ (c : Comp K) : Option (Arr K) :=
  match c.attrs.kind with
  | .jointTask _ _ x _ => x
  | _ => none
def qMin (c : Comp K) : Option (Arr K) :=
  match c.attrs.kind with
  | .jointBarrier _ _ lo _ _ => lo
  | _ => none
def qMax (c : Comp K) : Option (Arr K) :=
  match c.attrs.kind with
  | .jointBarrier _ _ _ hi _ => hi
  | _ => none

/-- What a user reads as `barrier.p_min`, `barrier.p_max`. -/
def pMin (c : Comp K) : Option (Arr K) :=
  match c.attrs.kind with
  | .positionBarrier _ _ lo _ _ _ => some lo
  | _ => none
def pMax (c : Comp K) : Option (Arr K) :=
  match c.attrs.kind with
  | .positionBarrier _ _ _ hi _ _ => some hi
  | _ => none
/-- What a user reads as `task.target_com`, `task.target_pos`. -/
def targetPoint (c : Comp K) : Option (Arr K) :=
  match c.attrs.kind with
  | .comTask _ x => some x
  | .positionTask _ _ x => some x
  | _ => none

/-- The axes with a nonzero mask entry; all three without mask. -/
def selectedAxes (mask : Option (Arr Int)) : List (Fin 3) :=
  (List.finRange 3).filter (fun i => match mask with
    | none => true
    | some m => m.get [i.val] ≠ 0)

/-- The id and type of the named object a compiled component refers to. -/
def objectOf (j : JaxComp K) : Option (Int × ObjType) :=
  match j.kind with
  | .positionTask _ _ i ty _ => some (i, ty)
  | .frameTask _ _ i ty _ => some (i, ty)
  | .positionBarrier _ i ty _ _ _ => some (i, ty)
  | _ => none

/-- Which entries of a joint's coordinates belong to a quaternion. -/
def coordKinds : JntType → List Bool
  | .free => [false, false, false, true, true, true, true]
  | .ball => [true, true, true, true]
  | .hinge => [false]
  | .slide => [false]

/-- Configuration entry `i` belongs to a quaternion. -/
def quatCoord (m : MjModel K) (i : Nat) : Bool := (m.jntType.flatMap coordKinds).getD i false

/-- Where the quaternion of a joint whose coordinates start at `adr` is. -/
def quatAdr : JntType → Nat → Option Nat
  | .free, adr => some (adr + 3)
  | .ball, adr => some adr
  | _, _ => none

/-- All quaternions of the configuration have norm one. -/
def UnitQuats (m : MjModel K) (q : Vec K) : Prop :=
  ∀ k adr, quatAdr (m.jntType.getD k .hinge) (m.jntQposadr.getD k 0) = some adr →
    Quaternion.normSq (quatAt q.get adr) = 1

end Mjinx.Spec

namespace Mjinx
variable {K : Type} [Field K] [LinearOrder K]

/-- `c` comes from `c0` by a history of calls (which may have raised) in which the most recent model update
did not raise: either no model update raised so far, or an accepted one came after the rejected ones. -/
inductive CleanRun (c0 : Comp K) : Comp K → Prop where
  | refl : CleanRun c0 c0
  | step {c : Comp K} (op : CompOp K) : CleanRun c0 c →
      (∀ m, op = .updateModel m → (op.run c).1 = .ok ()) → CleanRun c0 (op.run c).2
  | accepted (ops : List (CompOp K)) (m : MjModel K) : (updateModel m (runOps c0 ops)).1 = .ok () →
      CleanRun c0 (updateModel m (runOps c0 ops)).2

end Mjinx

namespace Mjinx.Spec
variable {K : Type} [Field K] [LinearOrder K]

/-- The components of a compiled problem, evaluated on `d`, have fitting sizes. -/
def WellSized (env : Env K) (p : JaxProblem K) (d : MjData K) : Prop :=
  ∀ vMin vMax cs, p.vMin.toVec = .ok vMin → p.vMax.toVec = .ok vMax →
    (p.comps.map Prod.snd).mapM (solverComp env d) = .ok cs → ProblemShaped p.model.nv vMin vMax cs

/-- A control loop of the local solver: in every step `n` some compiled problem `ps n` is solved at the
current configuration, any velocity that satisfies its constraints is applied for `dt` seconds. -/
structure FeasibleLoop (env : Env K) (m : MjModel K) (ps : Nat → JaxProblem K) (dt : K)
    (qs vs : Nat → Vec K) : Prop where
  start : (qs 0).len = m.nq
  move : ∀ n, qs (n + 1) = integrate env m (qs n) (vs n) dt
  model : ∀ n, (ps n).model = m
  sized : ∀ n, WellSized env (ps n) (update env m (qs n))
  feasible : ∀ n, ∃ qp, problemQP env m (ps n) (update env m (qs n)) = .ok qp ∧ Feasible qp (vs n).get

end Mjinx.Spec
