import Verif.Spec.Sim

/-!
# Histories of calls, read as "the last value set"

`accepted c calls` lists the calls of a history that did not raise, `latest f init calls` is the argument
of the last call that sets a given attribute, or the initial value if there was none.
-/

namespace Mjinx.Spec
variable {K : Type} [Field K] [LinearOrder K]

/-- The calls of a history on `c` that did not raise, in order. -/
def accepted : Comp K → List (CompOp K) → List (CompOp K)
  | _, [] => []
  | c, op :: ops =>
    match (op.run c).1 with
    | .ok _ => op :: accepted (op.run c).2 ops
    | .error _ => accepted (op.run c).2 ops

/-- The last value set by the calls, or `init`. -/
def latest {V : Type} (f : CompOp K → Option V) (init : V) (calls : List (CompOp K)) : V :=
  (calls.filterMap f).getLastD init

/-- What each setter is given. -/
def gainArg : CompOp K → Option (Arr K)
  | .updateGain g => some g
  | _ => none
def costArg : CompOp K → Option (Arr K)
  | .updateCost w => some w
  | _ => none
def lmArg : CompOp K → Option K
  | .setLmDamping x => some x
  | _ => none
def sdgArg : CompOp K → Option K
  | .setSafeDisplacementGain x => some x
  | _ => none
def targetArg : CompOp K → Option (Arr K)
  | .updateTarget x => some x
  | _ => none
/-- `update_target_frame`, with plain arrays `(px,py,pz,w,x,y,z)` converted to jaxlie's order. -/
def frameArg : CompOp K → Option (Arr K)
  | .updateTargetFrame (.se3 f) => some f
  | .updateTargetFrame (.array a) => some (frameOfArray a)
  | _ => none
def qLimitArg (upper : Bool) : CompOp K → Option (Arr K)
  | .updateQLimit u x => if u = upper then some x else none
  | _ => none
def pLimitArg (upper : Bool) : CompOp K → Option (Arr K)
  | .updatePLimit u x => if u = upper then some x else none
  | _ => none
def activeArg : CompOp K → Option Bool
  | .setActive x => some x
  | _ => none
def hardArg : CompOp K → Option Bool
  | .setHard x => some x
  | _ => none
def dMinArg : CompOp K → Option K
  | .setDMin x => some x
  | _ => none
def nClosestArg : CompOp K → Option Int
  | .setNClosest x => some x
  | _ => none
def modelArg : CompOp K → Option (MjModel K)
  | .updateModel m => some m
  | _ => none

/-- The identity pose `(w,x,y,z,px,py,pz) = (1,0,0,0,0,0,0)`. -/
def identityPose : Arr K := ⟨[7], fun idx => if idx = [0] then 1 else 0⟩

/-- A number stands for `n` copies of itself. -/
def spread (n : Nat) (x : Arr K) : Arr K :=
  match x.shape with
  | [] => ⟨[n], fun _ => x.get []⟩
  | _ => x

/-- What a user reads as `task.cost`, `task.lm_damping`. -/
def costAttr (c : Comp K) : Option (Arr K) :=
  match c.attrs.kind with
  | .comTask t _ | .jointTask t _ _ _ | .positionTask t _ _ | .frameTask t _ _ => some t.cost
  | _ => none
def lmAttr (c : Comp K) : Option K :=
  match c.attrs.kind with
  | .comTask t _ | .jointTask t _ _ _ | .positionTask t _ _ | .frameTask t _ _ => some t.lmDamping
  | _ => none
/-- What a user reads as `barrier.safe_displacement_gain`. -/
def sdgAttr (c : Comp K) : Option K :=
  match c.attrs.kind with
  | .jointBarrier s .. | .positionBarrier s .. | .selfCollision s .. => some s
  | _ => none
/-- What a user reads as `task.target_frame` (jaxlie's parameter order). -/
def targetFrame (c : Comp K) : Option (Arr K) :=
  match c.attrs.kind with
  | .frameTask _ _ f => some f
  | _ => none
/-- What a user reads as `constraint.active`, `constraint.hard_constraint`, `barrier.d_min`,
`barrier.n_closest_pairs`. -/
def activeAttr (c : Comp K) : Option Bool :=
  match c.attrs.kind with
  | .modelEquality a _ _ => some a
  | _ => none
def hardAttr (c : Comp K) : Option Bool :=
  match c.attrs.kind with
  | .modelEquality _ h _ => some h
  | _ => none
def dMinAttr (c : Comp K) : Option K :=
  match c.attrs.kind with
  | .selfCollision _ d .. => some d
  | _ => none
def nClosestAttr (c : Comp K) : Option Int :=
  match c.attrs.kind with
  | .selfCollision _ _ _ _ n _ => some n
  | _ => none

/-- The constructor call is for a task with these common arguments. -/
def BuildsTask : NewComp K → TaskArgs K → Prop
  | .comTask a, b | .jointTask a _, b | .positionTask a _ _, b | .frameTask a _ _, b => a = b
  | _, _ => False
/-- The constructor call is for a barrier with these common arguments. -/
def BuildsBarrier : NewComp K → BarrierArgs K → Prop
  | .jointBarrier a .., b | .positionBarrier a .., b | .selfCollision a .., b => a = b
  | _, _ => False
/-- The gain given to the constructor. -/
def gain0 : NewComp K → Arr K
  | .comTask a | .jointTask a _ | .positionTask a _ _ | .frameTask a _ _ => a.gain
  | .jointBarrier a .. | .positionBarrier a .. | .selfCollision a .. => a.gain
  | .modelEquality _ g _ _ => g

end Mjinx.Spec
