import Verif.Model.Problem

/-!
# What constructors and setters accept

Conditions on the arguments only, by class; written without the model's helpers.
-/

namespace Mjinx.Spec
variable {K : Type} [Field K] [LinearOrder K]

/-- The last axis of the array has `k` entries. -/
def LastAxis {α : Type} (x : Arr α) (k : Nat) : Prop := ∃ pre : List Nat, x.shape = pre ++ [k]

/-- Number of selected axes: the nonzero entries of a mask, or `all` without a mask. -/
def chosenAxes (all : Nat) : Option (Arr Int) → Nat
  | none => all
  | some m => ((List.range (m.shape.headD 0)).filter (fun i => m.get [i] ≠ 0)).length

/-- A mask has one dimension. -/
def FlatMask (mask : Option (Arr Int)) : Prop := ∀ m, mask = some m → m.shape.length = 1

/-- A position limit is a number, or its last axis has one entry per selected axis. -/
def PositionLimit (axes : Nat) (x : Arr K) : Prop := x.shape = [] ∨ LastAxis x axes

/-- Damping is nonnegative, the cost has at most two dimensions and the gain at most one. -/
def TaskArgsFit (a : TaskArgs K) : Prop := 0 ≤ a.lm ∧ a.cost.shape.length ≤ 2 ∧ a.gain.shape.length ≤ 1

/-- The arguments each constructor accepts. -/
def NewAccepts : NewComp K → Prop
  | .comTask a => TaskArgsFit a ∧ ∀ m, a.mask = some m → m.shape = [3]
  | .jointTask a _ => TaskArgsFit a
  | .positionTask a _ _ => TaskArgsFit a ∧ FlatMask a.mask
  | .frameTask a _ _ => TaskArgsFit a ∧ FlatMask a.mask
  | .jointBarrier a _ _ _ => a.gain.shape.length ≤ 1
  | .positionBarrier a _ _ lo hi lt mask => a.gain.shape.length ≤ 1 ∧ FlatMask mask ∧
      (lt = "min" ∨ lt = "max" ∨ lt = "both") ∧
      (∀ x, lo = some x → PositionLimit (chosenAxes 3 mask) x) ∧
      (∀ x, hi = some x → PositionLimit (chosenAxes 3 mask) x)
  | .selfCollision a _ _ _ _ => a.gain.shape.length ≤ 1
  | .modelEquality _ g _ _ => g.shape.length ≤ 1

/-- The constructor is that of a task / a barrier. -/
def MakesTask : NewComp K → Prop
  | .comTask _ | .jointTask _ _ | .positionTask _ _ _ | .frameTask _ _ _ => True
  | _ => False
def MakesBarrier : NewComp K → Prop
  | .jointBarrier .. | .positionBarrier .. | .selfCollision .. => True
  | _ => False

/-- A setter: any call but binding a model, reading the mask and compiling. -/
def IsSetter : CompOp K → Prop
  | .updateModel _ | .readMask | .compile => False
  | _ => True

/-- The arguments each setter accepts, for a component built by `n` whose `dim` property currently gives `dim`
(an error: not known yet). -/
def SetterAccepts (n : NewComp K) (dim : Except Err Int) : CompOp K → Prop
  | .updateGain g => g.shape.length ≤ 1
  | .updateCost w => MakesTask n ∧ w.shape.length ≤ 2
  | .setLmDamping _ => MakesTask n
  | .setSafeDisplacementGain _ => MakesBarrier n
  | .updateTarget x =>
    match n with
    | .comTask a => LastAxis x (chosenAxes 3 a.mask)
    | .positionTask a _ _ => LastAxis x (chosenAxes 3 a.mask)
    | .jointTask _ _ => (∃ e, dim = .error e) ∨ ∃ k : Nat, dim = .ok (k : Int) ∧ LastAxis x k
    | _ => False
  | .updateTargetFrame x =>
    match n, x with
    | .frameTask _ _ _, .se3 _ => True
    | .frameTask _ _ _, .array a => LastAxis a 7
    | _, _ => False
  | .updateQLimit _ x =>
    match n with
    | .jointBarrier .. => ∃ k : Nat, dim = .ok (2 * k : Int) ∧ LastAxis x k
    | _ => False
  | .updatePLimit _ x =>
    match n with
    | .positionBarrier _ _ _ _ _ _ mask => PositionLimit (chosenAxes 3 mask) x
    | _ => False
  | .setActive _ | .setHard _ =>
    match n with
    | .modelEquality .. => True
    | _ => False
  | .setDMin _ | .setNClosest _ | .setCollisionBodies _ =>
    match n with
    | .selfCollision .. => True
    | _ => False
  | .updateModel _ | .readMask | .compile => False

/-- A velocity limit is a number or a vector with one entry per degree of freedom. -/
def VelLimit (nv : Nat) (v : Arr K) : Prop := v.shape = [] ∨ v.shape = [nv]

end Mjinx.Spec
