import Verif.Model.Collision

/-!
# Components

`mjinx/components/**`: the Python-side component objects as state machines.  A method that may raise
returns the result *and* the object after the call (`Except Err α × Comp K`): attribute writes done
before the exception persist.
-/

namespace Mjinx

/-- `mjinx/typing.py:42-50` `PositionLimitType` -/
inductive LimitType where
  | min | max | both
deriving DecidableEq, Repr

namespace LimitType
/-- Python's `str.lower`, as ASCII lower-casing: the only non-ASCII character that Python lower-cases to
an ASCII string is the Kelvin sign (to `k`), which does not occur in the names compared below. -/
def lower (s : String) : String := String.ofList (s.toList.map Char.toLower)

/-- `mjinx/typing.py:52-70` `from_str` -/
def fromStr (s : String) : Except Err LimitType :=
  match lower s with
  | "min" => .ok .min
  | "max" => .ok .max
  | "both" => .ok .both
  | _ => .error .valueError

/-- `mjinx/typing.py:72-81` -/
def includesMin (t : LimitType) : Bool := t == .min || t == .both

/-- `mjinx/typing.py:83-93` -/
def includesMax (t : LimitType) : Bool := t == .max || t == .both
end LimitType

/-- `mjinx/components/tasks/_base.py:80-81`: attributes shared by all tasks. -/
structure TaskA (K : Type) where
  cost : Arr K
  lmDamping : K

/-- `tasks/_obj_task.py:110-112`, `barriers/_obj_barrier.py:115-117`; `objId = -1` means unset. -/
structure ObjA where
  objName : String
  objType : ObjType
  objId : Int

/-- The concrete component classes with their own attributes.
* `tasks/_com_task.py`, `tasks/_joint_task.py`, `tasks/_obj_position_task.py`, `tasks/_obj_frame_task.py`
* `barriers/_joint_barrier.py`, `barriers/_obj_position_barrier.py`, `barriers/_self_collision_barrier.py`
* `constraints/_equality_constraint.py`

A target frame is stored as jaxlie does: an array whose last axis is `(w,x,y,z,px,py,pz)`.
`_qmask` itself is not kept (only `_qmask_idxs` is ever read).  `exclude_collisions` is recomputed on
each model update and read nowhere else, so it is not kept either. -/
inductive Kind (K : Type) where
  | comTask (t : TaskA K) (targetCom : Arr K)
  | jointTask (t : TaskA K) (finalMask : Option (List Int)) (targetQ : Option (Arr K))
      (qmaskIdxs : Option (List Nat))
  | positionTask (t : TaskA K) (o : ObjA) (targetPos : Arr K)
  | frameTask (t : TaskA K) (o : ObjA) (targetFrame : Arr K)
  | jointBarrier (sdg : K) (finalMask : Option (List Int)) (qMin qMax : Option (Arr K))
      (qmaskIdxs : Option (List Nat))
  | positionBarrier (sdg : K) (o : ObjA) (pMin pMax : Arr K) (limitType : LimitType)
      (limitIdxs : List Nat)
  | selfCollision (sdg : K) (dMin : K) (bodies : List CollisionBody)
      (excludedRaw : List (CollisionBody × CollisionBody)) (nClosest : Int)
      (pairs : Option (List (Int × Int)))
  | modelEquality (active : Bool) (hard : Bool) (softCost : Option (Arr K))

/-- `mjinx/components/_base.py:111-118`: all attributes of a component except the cache. -/
structure Attrs (K : Type) where
  name : String
  model : Option (MjModel K)
  gain : Arr K
  gainFn : K → K
  dim : Int
  mask : Option (List Int)
  maskIdxs : List Nat
  kind : Kind K

/-- The subclass-specific fields of a compiled component (`Jax*` dataclasses). -/
inductive JaxKind (K : Type) where
  | comTask (matrixCost : Arr K) (lm : K) (targetCom : Arr K)
  | jointTask (matrixCost : Arr K) (lm : K) (targetQ : Arr K) (qmaskIdxs : List Nat)
  | positionTask (matrixCost : Arr K) (lm : K) (objId : Int) (objType : ObjType) (targetPos : Arr K)
  | frameTask (matrixCost : Arr K) (lm : K) (objId : Int) (objType : ObjType) (targetFrame : Arr K)
  | jointBarrier (sdg : K) (qMin qMax : Arr K) (qmaskIdxs : List Nat)
  | positionBarrier (sdg : K) (objId : Int) (objType : ObjType) (pMin pMax : Arr K)
      (limitIdxs : List Nat)
  | selfCollision (sdg : K) (dMinVec : Arr K) (pairs : List (Int × Int)) (nClosest : Int)
  | modelEquality (active : Bool) (hard : Bool) (softCost : Arr K)

/-- A compiled component: `mjinx/components/_base.py:16-46` `JaxComponent` and its subclasses. -/
structure JaxComp (K : Type) where
  dim : Int
  model : MjModel K
  vectorGain : Arr K
  gainFn : K → K
  maskIdxs : List Nat
  kind : JaxKind K

/-- A component object: attributes, the `__modified` flag and `_jax_component`. -/
structure Comp (K : Type) where
  attrs : Attrs K
  modified : Bool
  cache : Option (JaxComp K)

section
variable {K : Type} [Field K] [LinearOrder K]

/-- `_base.py:161-171` `__setattr__`: any attribute write marks the component as modified. -/
def Comp.set (c : Comp K) (a : Attrs K) : Comp K := { c with attrs := a, modified := true }

/-- A freshly constructed component: constructors only write attributes, so `__modified` is `True`
and there is no `_jax_component` yet. -/
def Comp.fresh (a : Attrs K) : Comp K := { attrs := a, modified := true, cache := none }

/-- Positions of nonzero entries, `tuple(i for i in range(len(m)) if m[i])` (`_base.py:148`) and
`jnp.argwhere(m).ravel()` (`_joint_task.py:154`). -/
def nonzeroIdxs (m : List Int) : List Nat := (List.range m.length).filter (fun i => (m[i]?).getD 0 ≠ 0)

/-! ### Constructors -/

/-- The mask handling of `_base.py:144-151`. -/
def initMask (mask : Option (Arr Int)) : Except Err (Option (List Int) × List Nat) :=
  match mask with
  | none => .ok (none, [])
  | some a =>
    match a.shape with
    | [n] =>
      let m := (List.range n).map (fun i => a.get [i])
      .ok (some m, nonzeroIdxs m)
    | _ => .error .valueError

/-- `_base.py:122-151` `Component.__init__` (gain check of `update_gain`, default gain function
identity, mask).  The `kind` is filled in by the subclass constructors. -/
def initAttrs (name : String) (gain : Arr K) (gainFn : Option (K → K)) (mask : Option (Arr Int))
    (kind : Kind K) : Except Err (Attrs K) :=
  if gain.ndim > 1 then .error .valueError
  else
    match initMask mask with
    | .error e => .error e
    | .ok (m, idxs) =>
      .ok { name, model := none, gain, gainFn := gainFn.getD id, dim := -1, mask := m,
            maskIdxs := idxs, kind }

/-- `tasks/_base.py:83-108` `Task.__init__`: the checks on damping and cost. -/
def initTaskA (cost : Arr K) (lm : K) : Except Err (TaskA K) :=
  if lm < 0 then .error .valueError
  else if cost.ndim > 2 then .error .valueError
  else .ok { cost, lmDamping := lm }

/-- Constructor arguments common to tasks. -/
structure TaskArgs (K : Type) where
  name : String
  cost : Arr K
  gain : Arr K
  gainFn : Option (K → K) := none
  lm : K
  mask : Option (Arr Int) := none

/-- `tasks/_com_task.py:124-125`: the mask length check of `ComTask.__init__`. -/
def checkComMask (mask : Option (Arr Int)) : Except Err Unit :=
  match mask with
  | none => .ok ()
  | some m =>
    match m.len with
    | .error e => .error e
    | .ok n => if n ≠ 3 then .error .valueError else .ok ()

/-- `tasks/_com_task.py:115-128` `ComTask.__init__` -/
def newComTask (a : TaskArgs K) : Except Err (Comp K) := do
  let _ ← checkComMask a.mask
  let t ← initTaskA a.cost a.lm
  let at0 ← initAttrs a.name a.gain a.gainFn a.mask (.comTask t (Arr.zeros 0))
  let dim : Nat := if a.mask.isNone then 3 else at0.maskIdxs.length
  return Comp.fresh { at0 with dim := dim, kind := .comTask t (Arr.zeros dim) }

/-- `tasks/_joint_task.py:101-112` `JointTask.__init__`; the mask is kept aside as `_final_mask`. -/
def newJointTask (a : TaskArgs K) (finalMask : Option (List Int)) : Except Err (Comp K) := do
  let t ← initTaskA a.cost a.lm
  let at0 ← initAttrs a.name a.gain a.gainFn none (.jointTask t finalMask none none)
  return Comp.fresh at0

/-- `tasks/_obj_position_task.py:79-92` `PositionTask.__init__` -/
def newPositionTask (a : TaskArgs K) (objName : String) (objType : ObjType) :
    Except Err (Comp K) := do
  let t ← initTaskA a.cost a.lm
  let at0 ← initAttrs a.name a.gain a.gainFn a.mask (.positionTask t ⟨objName, objType, -1⟩ (Arr.zeros 0))
  let dim : Nat := if a.mask.isNone then 3 else at0.maskIdxs.length
  return Comp.fresh
    { at0 with dim := dim, kind := .positionTask t ⟨objName, objType, -1⟩ (Arr.zeros dim) }

/-- `SE3.identity()` as parameters `(w,x,y,z,px,py,pz)`. -/
def se3Identity : Arr K := ⟨[7], fun idx => if idx = [0] then 1 else 0⟩

/-- `tasks/_obj_frame_task.py:116-129` `FrameTask.__init__` -/
def newFrameTask (a : TaskArgs K) (objName : String) (objType : ObjType) :
    Except Err (Comp K) := do
  let t ← initTaskA a.cost a.lm
  let at0 ← initAttrs a.name a.gain a.gainFn a.mask (.frameTask t ⟨objName, objType, -1⟩ se3Identity)
  let dim : Nat := if a.mask.isNone then 6 else at0.maskIdxs.length
  return Comp.fresh { at0 with dim := dim }

/-- Constructor arguments common to barriers. -/
structure BarrierArgs (K : Type) where
  name : String
  gain : Arr K
  gainFn : Option (K → K) := none
  sdg : K

/-- `barriers/_joint_barrier.py:109-122` `JointBarrier.__init__` -/
def newJointBarrier (a : BarrierArgs K) (qMin qMax : Option (Arr K)) (finalMask : Option (List Int)) :
    Except Err (Comp K) := do
  let at0 ← initAttrs a.name a.gain a.gainFn none (.jointBarrier a.sdg finalMask qMin qMax none)
  return Comp.fresh at0

/-- `barriers/_obj_position_barrier.py:136-147`: dimension and selected rows by limit type. -/
def limitIdxsOf (t : LimitType) (n : Nat) : List Nat :=
  match t with
  | .min => List.range n
  | .max => (List.range n).map (n + ·)
  | .both => List.range (2 * n)

/-- `barriers/_obj_position_barrier.py:189-212` (`update_p_min`) and `:227-249` (`update_p_max`):
the new bound; `none` when the limit type excludes the bound and the assignment is ignored. -/
def newPositionBound (included : Bool) (nAxes : Nat) (p : Arr K) : Except Err (Option (Arr K)) :=
  match p.shape.getLast? with
  | none => .ok (if included then some (Arr.onesMul nAxes p) else none)
  | some n =>
    if n ≠ nAxes then .error .valueError
    else .ok (if included then some p else none)

/-- `barriers/_obj_position_barrier.py:149-155`: the initial value of a bound, zeros unless given (and
accepted). -/
def initialBound (included : Bool) (nAxes : Nat) (p : Option (Arr K)) : Except Err (Arr K) :=
  match p with
  | none => .ok (Arr.zeros nAxes)
  | some p =>
    match newPositionBound included nAxes p with
    | .error e => .error e
    | .ok none => .ok (Arr.zeros nAxes)
    | .ok (some x) => .ok x

/-- `barriers/_obj_position_barrier.py:130-134`: the limit type given to the constructor. -/
def limitTypeArg (s : String) : Except Err LimitType :=
  if s ≠ "min" ∧ s ≠ "max" ∧ s ≠ "both" then .error .valueError else LimitType.fromStr s

/-- `barriers/_obj_position_barrier.py:102-155` `PositionBarrier.__init__` -/
def newPositionBarrier (a : BarrierArgs K) (objName : String) (objType : ObjType)
    (pMin pMax : Option (Arr K)) (limitType : String) (mask : Option (Arr Int)) :
    Except Err (Comp K) := do
  let mask := mask.getD (Arr.ofList [1, 1, 1])
  let o : ObjA := ⟨objName, objType, -1⟩
  let at0 ← initAttrs a.name a.gain a.gainFn (some mask)
    (.positionBarrier a.sdg o (Arr.zeros 0) (Arr.zeros 0) .both [])
  let lt ← limitTypeArg limitType
  let n := at0.maskIdxs.length
  let lo ← initialBound lt.includesMin n pMin
  let hi ← initialBound lt.includesMax n pMax
  return Comp.fresh
    { at0 with
      dim := (limitIdxsOf lt n).length
      kind := .positionBarrier a.sdg o lo hi lt (limitIdxsOf lt n) }

/-- `barriers/_self_collision_barrier.py:148-164` `SelfCollisionBarrier.__init__` -/
def newSelfCollision (a : BarrierArgs K) (dMin : K) (bodies : List CollisionBody)
    (excluded : List (CollisionBody × CollisionBody)) (nClosest : Int) : Except Err (Comp K) := do
  let at0 ← initAttrs a.name a.gain a.gainFn none
    (.selfCollision a.sdg dMin bodies excluded nClosest none)
  return Comp.fresh at0

/-- `constraints/_equality_constraint.py:74-101`, `constraints/_base.py:76-100` -/
def newModelEquality (name : String) (gain : Arr K) (hard : Bool) (softCost : Option (Arr K)) :
    Except Err (Comp K) := do
  let at0 ← initAttrs name gain none none (.modelEquality true hard softCost)
  return Comp.fresh at0

/-! ### Getters -/

/-- `_base.py:285-297` `dim` -/
def getDim (a : Attrs K) : Except Err Int :=
  if a.dim = -1 then .error .valueError else .ok a.dim

/-- `jnp.ones(d)`, `jnp.eye(d)`, `tuple(range(d))`, ... : a negative size is an error in jax. -/
def sizeOf (d : Int) : Except Err Nat := if d < 0 then .error .typeError else .ok d.toNat

/-- `_base.py:239-265` `vector_gain` -/
def vectorGain (a : Attrs K) : Except Err (Arr K) :=
  if a.dim = -1 then .error .valueError
  else match a.gain.shape with
    | [] =>
      match sizeOf a.dim with
      | .error e => .error e
      | .ok n => .ok (Arr.onesMul n a.gain)
    | [n] => if (n : Int) ≠ a.dim then .error .valueError else .ok a.gain
    | _ => .error .valueError

/-- `tasks/_base.py:142-179` `matrix_cost` -/
def matrixCost (dim : Int) (cost : Arr K) : Except Err (Arr K) :=
  if dim = -1 then .error .valueError
  else match cost.shape with
    | [] =>
      match sizeOf dim with
      | .error e => .error e
      | .ok n => .ok (Arr.eyeMul n cost)
    | [n] => if (n : Int) ≠ dim then .error .valueError else .ok (Arr.diag n cost)
    | [r, c] => if (r : Int) ≠ dim ∨ (c : Int) ≠ dim then .error .valueError else .ok cost
    | _ => .error .valueError

/-- `constraints/_base.py:102-133` `soft_constraint_cost` -/
def softConstraintCost (dim : Int) (cost : Option (Arr K)) : Except Err (Arr K) :=
  match cost with
  | none =>
    if dim = -1 then .error .valueError
    else match sizeOf dim with
      | .error e => .error e
      | .ok n => .ok (Arr.eyeMul n (Arr.scalar 100))
  | some cost => matrixCost dim cost

/-- `_base.py:299-312` `mask` and `:314-326` `mask_idxs`: fill in the default mask on first use.
Returns the component after the call (the attribute write sets `__modified`). -/
def ensureMask (c : Comp K) : Except Err Unit × Comp K :=
  match c.attrs.mask with
  | some _ => (.ok (), c)
  | none =>
    if c.attrs.dim = -1 then (.error .valueError, c)
    else match sizeOf c.attrs.dim with
      | .error e => (.error e, c)
      | .ok n =>
        (.ok (), c.set { c.attrs with mask := some (List.replicate n 1), maskIdxs := List.range n })

/-- The subclass-specific part of `_build_component`: reads the properties named by the dataclass
fields.  `tasks/_joint_task.py:167-177,204-213`, `barriers/_joint_barrier.py:124-136,162-174,248-257`,
`barriers/_obj_barrier.py:153-164`, `barriers/_self_collision_barrier.py:289-303`. -/
def buildKind (a : Attrs K) : Except Err (JaxKind K) :=
  match a.kind with
  | .comTask t tgt => do
    let w ← matrixCost a.dim t.cost
    return .comTask w t.lmDamping tgt
  | .jointTask t _ tq qi => do
    let w ← matrixCost a.dim t.cost
    match tq, qi with
    | none, _ => throw .valueError
    | some _, none => throw .attributeError
    | some tq, some qi => return .jointTask w t.lmDamping tq qi
  | .positionTask t o tgt => do
    let w ← matrixCost a.dim t.cost
    return .positionTask w t.lmDamping o.objId o.objType tgt
  | .frameTask t o tgt => do
    let w ← matrixCost a.dim t.cost
    return .frameTask w t.lmDamping o.objId o.objType tgt
  | .jointBarrier sdg _ lo hi qi =>
    match lo, hi, qi with
    | none, _, _ => throw .valueError
    | some _, none, _ => throw .valueError
    | some _, some _, none => throw .attributeError
    | some lo, some hi, some qi => return .jointBarrier sdg lo hi qi
  | .positionBarrier sdg o lo hi _ idxs =>
    if o.objId = -1 then throw .valueError
    else return .positionBarrier sdg o.objId o.objType lo hi idxs
  | .selfCollision sdg dMin _ _ nClosest pairs => do
    let d ← getDim a
    let n ← sizeOf d
    match pairs with
    | none => throw .attributeError
    | some ps => return .selfCollision sdg (Arr.onesMul n (Arr.scalar dMin)) ps nClosest
  | .modelEquality active hard soft => do
    let w ← softConstraintCost a.dim soft
    return .modelEquality active hard w

/-- `_base.py:328-335` `_build_component`: reads, in dataclass order, dim, model, vector_gain, gain_fn,
mask_idxs (which may fill in the default mask) and the subclass fields. -/
def buildComponent (m : MjModel K) (c : Comp K) : Except Err (JaxComp K) × Comp K :=
  match vectorGain c.attrs with
  | .error e => (.error e, c)
  | .ok g =>
    match ensureMask c with
    | (.error e, c') => (.error e, c')
    | (.ok _, c') =>
      match buildKind c'.attrs with
      | .error e => (.error e, c')
      | .ok k =>
        (.ok { dim := c'.attrs.dim, model := m, vectorGain := g, gainFn := c'.attrs.gainFn,
               maskIdxs := c'.attrs.maskIdxs, kind := k }, c')

/-- `_base.py:337-353` `jax_component` -/
def jaxComponent (c : Comp K) : Except Err (JaxComp K) × Comp K :=
  match c.attrs.model with
  | none => (.error .valueError, c)
  | some m =>
    if c.attrs.dim = -1 then (.error .valueError, c)
    else if c.modified then
      match buildComponent m c with
      | (.error e, c') => (.error e, c')
      | (.ok j, c') => (.ok j, { c' with cache := some j, modified := false })
    else
      match c.cache with
      | some j => (.ok j, c)
      | none => (.error .attributeError, c)

/-! ### Setters -/

/-- `_base.py:227-237` `update_gain` -/
def updateGain (g : Arr K) (c : Comp K) : Except Err Unit × Comp K :=
  if g.ndim > 1 then (.error .valueError, c)
  else (.ok (), c.set { c.attrs with gain := g })

/-- The task attributes of a component, if it is a task. -/
def Kind.taskA? : Kind K → Option (TaskA K)
  | .comTask t _ => some t
  | .jointTask t _ _ _ => some t
  | .positionTask t _ _ => some t
  | .frameTask t _ _ => some t
  | _ => none

/-- Replace the task attributes. -/
def Kind.setTaskA (k : Kind K) (t : TaskA K) : Kind K :=
  match k with
  | .comTask _ x => .comTask t x
  | .jointTask _ fm tq qi => .jointTask t fm tq qi
  | .positionTask _ o x => .positionTask t o x
  | .frameTask _ o x => .frameTask t o x
  | k => k

/-- Replace the safe displacement gain. -/
def Kind.setSdg (k : Kind K) (s : K) : Kind K :=
  match k with
  | .jointBarrier _ fm lo hi qi => .jointBarrier s fm lo hi qi
  | .positionBarrier _ o lo hi lt idxs => .positionBarrier s o lo hi lt idxs
  | .selfCollision _ d b e n p => .selfCollision s d b e n p
  | k => k

def Kind.isTask (k : Kind K) : Bool := k.taskA?.isSome

def Kind.isBarrier : Kind K → Bool
  | .jointBarrier .. => true
  | .positionBarrier .. => true
  | .selfCollision .. => true
  | _ => false

/-- `tasks/_base.py:128-140` `update_cost` -/
def updateCost (w : Arr K) (c : Comp K) : Except Err Unit × Comp K :=
  match c.attrs.kind.taskA? with
  | none => (.error .attributeError, c)
  | some t =>
    if w.ndim > 2 then (.error .valueError, c)
    else (.ok (), c.set { c.attrs with kind := c.attrs.kind.setTaskA { t with cost := w } })

/-- Plain assignment `task.lm_damping = x` (public attribute, `tasks/_base.py:80`, unchecked). -/
def setLmDamping (x : K) (c : Comp K) : Except Err Unit × Comp K :=
  match c.attrs.kind.taskA? with
  | none => (.error .attributeError, c)
  | some t => (.ok (), c.set { c.attrs with kind := c.attrs.kind.setTaskA { t with lmDamping := x } })

/-- Plain assignment `barrier.safe_displacement_gain = x` (`barriers/_base.py:97`). -/
def setSafeDisplacementGain (x : K) (c : Comp K) : Except Err Unit × Comp K :=
  if c.attrs.kind.isBarrier then (.ok (), c.set { c.attrs with kind := c.attrs.kind.setSdg x })
  else (.error .attributeError, c)

/-- `tasks/_com_task.py:148-163` `update_target_com`, `tasks/_obj_position_task.py:112-126`
`update_target_pos`, `tasks/_joint_task.py:188-202` `update_target_q`. -/
def updateTarget (x : Arr K) (c : Comp K) : Except Err Unit × Comp K :=
  match c.attrs.kind with
  | .comTask t _ =>
    match x.lastDim with
    | .error e => (.error e, c)
    | .ok n =>
      if (n : Int) ≠ c.attrs.dim then (.error .valueError, c)
      else (.ok (), c.set { c.attrs with kind := .comTask t x })
  | .positionTask t o _ =>
    match x.lastDim with
    | .error e => (.error e, c)
    | .ok n =>
      if (n : Int) ≠ c.attrs.dim then (.error .valueError, c)
      else (.ok (), c.set { c.attrs with kind := .positionTask t o x })
  | .jointTask t fm _ qi =>
    if c.attrs.dim = -1 then (.ok (), c.set { c.attrs with kind := .jointTask t fm (some x) qi })
    else match x.lastDim with
    | .error e => (.error e, c)
    | .ok n =>
      if (n : Int) ≠ c.attrs.dim then (.error .valueError, c)
      else (.ok (), c.set { c.attrs with kind := .jointTask t fm (some x) qi })
  | _ => (.error .attributeError, c)

/-- Argument of `update_target_frame`: an `SE3` object (its parameter array `(w,x,y,z,px,py,pz)`) or a
plain array. -/
inductive FrameArg (K : Type) where
  | se3 (wxyz_xyz : Arr K)
  | array (a : Arr K)

/-- `tasks/_obj_frame_task.py:166-172`: from `(px,py,pz,w,x,y,z)` to jaxlie's `(w,x,y,z,px,py,pz)`,
on the last axis. -/
def frameOfArray (a : Arr K) : Arr K :=
  ⟨a.shape, fun idx =>
    let i := idx.getLastD 0
    a.get (idx.dropLast ++ [if i < 4 then i + 3 else i - 4])⟩

/-- `tasks/_obj_frame_task.py:149-175` `update_target_frame` -/
def updateTargetFrame (x : FrameArg K) (c : Comp K) : Except Err Unit × Comp K :=
  match c.attrs.kind with
  | .frameTask t o _ =>
    match x with
    | .se3 f => (.ok (), c.set { c.attrs with kind := .frameTask t o f })
    | .array a =>
      match a.lastDim with
      | .error e => (.error e, c)
      | .ok n =>
        if n ≠ 7 then (.error .valueError, c)
        else (.ok (), c.set { c.attrs with kind := .frameTask t o (frameOfArray a) })
  | _ => (.error .attributeError, c)

/-- `barriers/_joint_barrier.py:147-160` `update_q_min` (`upper = false`) and `:185-197` `update_q_max`
(`upper = true`).  The argument is an array (a plain list raises `AttributeError`; not modelled). -/
def updateQLimit (upper : Bool) (x : Arr K) (c : Comp K) : Except Err Unit × Comp K :=
  match c.attrs.kind with
  | .jointBarrier sdg fm lo hi qi =>
    match x.lastDim with
    | .error e => (.error e, c)
    | .ok n =>
      match getDim c.attrs with
      | .error e => (.error e, c)
      | .ok d =>
        if (n : Int) ≠ d / 2 then (.error .valueError, c)
        else if upper then (.ok (), c.set { c.attrs with kind := .jointBarrier sdg fm lo (some x) qi })
        else (.ok (), c.set { c.attrs with kind := .jointBarrier sdg fm (some x) hi qi })
  | _ => (.error .attributeError, c)

/-- `barriers/_obj_position_barrier.py:189-212` `update_p_min` (`upper = false`) and `:227-249`
`update_p_max` (`upper = true`).  `len(self.mask_idxs)`: the mask is always set by the constructor. -/
def updatePLimit (upper : Bool) (x : Arr K) (c : Comp K) : Except Err Unit × Comp K :=
  match c.attrs.kind with
  | .positionBarrier sdg o lo hi lt idxs =>
    match newPositionBound (if upper then lt.includesMax else lt.includesMin)
        c.attrs.maskIdxs.length x with
    | .error e => (.error e, c)
    | .ok none => (.ok (), c)
    | .ok (some p) =>
      if upper then (.ok (), c.set { c.attrs with kind := .positionBarrier sdg o lo p lt idxs })
      else (.ok (), c.set { c.attrs with kind := .positionBarrier sdg o p hi lt idxs })
  | _ => (.error .attributeError, c)

/-- Plain assignments `constraint.active = x`, `constraint.hard_constraint = x`
(`constraints/_base.py:72-74`). -/
def setActive (x : Bool) (c : Comp K) : Except Err Unit × Comp K :=
  match c.attrs.kind with
  | .modelEquality _ h s => (.ok (), c.set { c.attrs with kind := .modelEquality x h s })
  | _ => (.error .attributeError, c)

def setHard (x : Bool) (c : Comp K) : Except Err Unit × Comp K :=
  match c.attrs.kind with
  | .modelEquality a _ s => (.ok (), c.set { c.attrs with kind := .modelEquality a x s })
  | _ => (.error .attributeError, c)

/-- Plain assignment `barrier.d_min = x` (`_self_collision_barrier.py:142`). -/
def setDMin (x : K) (c : Comp K) : Except Err Unit × Comp K :=
  match c.attrs.kind with
  | .selfCollision s _ b e n p => (.ok (), c.set { c.attrs with kind := .selfCollision s x b e n p })
  | _ => (.error .attributeError, c)

/-- Plain assignment `barrier.n_closest_pairs = x` (`_self_collision_barrier.py:146`); takes effect on
`dim` only at the next model update. -/
def setNClosest (x : Int) (c : Comp K) : Except Err Unit × Comp K :=
  match c.attrs.kind with
  | .selfCollision s d b e _ p => (.ok (), c.set { c.attrs with kind := .selfCollision s d b e x p })
  | _ => (.error .attributeError, c)

/-- Plain assignment `barrier.collision_bodies = xs` (`_self_collision_barrier.py:143`). -/
def setCollisionBodies (xs : List CollisionBody) (c : Comp K) : Except Err Unit × Comp K :=
  match c.attrs.kind with
  | .selfCollision s d _ e n p => (.ok (), c.set { c.attrs with kind := .selfCollision s d xs e n p })
  | _ => (.error .attributeError, c)

/-! ### Model updates -/

/-- `mask.at[b:e].set(0)` -/
def zeroSlice (l : List Int) (b e : Nat) : List Int :=
  l.mapIdx (fun i x => if b ≤ i ∧ i < e then 0 else x)

/-- `_joint_task.py:127-142`, `_joint_barrier.py:210-226`: the masks over `nv` and `nq` that select the
scalar joints.  The loop over `range(njnt)` reads `jnt_type`, `jnt_qposadr`, `jnt_dofadr` at the same
index; the model zips the three lists. -/
def jointMasks (m : MjModel K) : List Int × List Int :=
  (m.jntType.zip (m.jntQposadr.zip m.jntDofadr)).foldl
    (fun (mk : List Int × List Int) j =>
      if j.1 = .free ∨ j.1 = .ball then
        (zeroSlice mk.1 j.2.2 (j.2.2 + (if j.1 = .ball then 3 else 6)),
         zeroSlice mk.2 j.2.1 (j.2.1 + (if j.1 = .ball then 4 else 7)))
      else mk)
    (List.replicate m.nv 1, List.replicate m.nq 1)

/-- `mask.at[mask.astype(bool)].set(vals)`: overwrite the nonzero positions, in order. -/
def scatter : List Int → List Int → List Int
  | [], _ => []
  | m :: ms, vs =>
    if m = 0 then 0 :: scatter ms vs
    else match vs with
      | [] => m :: scatter ms []
      | v :: vs => v :: scatter ms vs

/-- `_joint_task.py:144-155`, `_joint_barrier.py:228-239`: apply the user's mask on the scalar joints.
Errors: wrong mask length (`ValueError`); for models whose `nq`-side selection has another size than
the `nv`-side one, jax's shape error (cannot happen for MuJoCo models, see `JointsWF`). -/
def applyFinalMask (masks : List Int × List Int) (fm : Option (List Int)) :
    Except Err (List Int × List Int) :=
  match fm with
  | none => .ok masks
  | some f =>
    if masks.1.sum ≠ (f.length : Int) then .error .valueError
    else if masks.2.sum ≠ (f.length : Int) then .error .shapeMismatch
    else .ok (scatter masks.1 f, scatter masks.2 f)

/-- `jnt_range[:, k][jnt_mask]` (`_joint_barrier.py:212,244,246`): the range column of the scalar
joints. -/
def scalarRange (m : MjModel K) (upper : Bool) : List K :=
  ((m.jntType.zip m.jntRange).filter (fun x => x.1.scalar)).map
    (fun x => if upper then x.2.2 else x.2.1)

/-- `tasks/_joint_task.py:114-165` `JointTask.update_model` -/
def updateModelJointTask (m : MjModel K) (t : TaskA K) (fm : Option (List Int))
    (tq : Option (Arr K)) (qi : Option (List Nat)) (c : Comp K) : Except Err Unit × Comp K :=
  let masks := jointMasks m
  -- lines 125-142: model and scalar-joint mask are written before the length check
  let c1 := c.set { c.attrs with model := some m, mask := some masks.1, kind := .jointTask t fm tq qi }
  match applyFinalMask masks fm with
  | .error e => (.error e, c1)
  | .ok mk =>
    let vIdx := nonzeroIdxs mk.1
    let qIdx := nonzeroIdxs mk.2
    let c2 := c1.set { c1.attrs with mask := some mk.1, maskIdxs := vIdx, dim := vIdx.length,
                                     kind := .jointTask t fm tq (some qIdx) }
    match tq with
    | none =>
      (.ok (), c2.set { c2.attrs with kind := .jointTask t fm (some (Arr.zeros vIdx.length)) (some qIdx) })
    | some x =>
      match x.lastDim with
      | .error e => (.error e, c2)
      | .ok n => if n ≠ vIdx.length then (.error .valueError, c2) else (.ok (), c2)

/-- `_joint_barrier.py:243-246`: a limit that is not set yet goes through the checking setter. -/
def fillLimit (upper : Bool) (old : Option (Arr K)) (x : Arr K) (c : Comp K) :
    Except Err Unit × Comp K :=
  match old with
  | some _ => (.ok (), c)
  | none => updateQLimit upper x c

/-- `barriers/_joint_barrier.py:199-246` `JointBarrier.update_model` -/
def updateModelJointBarrier (m : MjModel K) (sdg : K) (fm : Option (List Int))
    (lo hi : Option (Arr K)) (qi : Option (List Nat)) (c : Comp K) : Except Err Unit × Comp K :=
  let masks := jointMasks m
  let c1 := c.set { c.attrs with model := some m, mask := some masks.1,
                                 kind := .jointBarrier sdg fm lo hi qi }
  match applyFinalMask masks fm with
  | .error e => (.error e, c1)
  | .ok mk =>
    let vIdx := nonzeroIdxs mk.1
    let qIdx := nonzeroIdxs mk.2
    let c2 := c1.set { c1.attrs with mask := some mk.1, maskIdxs := vIdx,
                                     dim := ((2 * vIdx.length : Nat) : Int),
                                     kind := .jointBarrier sdg fm lo hi (some qIdx) }
    match fillLimit false lo (Arr.ofList0 (scalarRange m false)) c2 with
    | (.error e, c3) => (.error e, c3)
    | (.ok _, c3) => fillLimit true hi (Arr.ofList0 (scalarRange m true)) c3

/-- The objects attributes with the id filled in. -/
def Kind.setObj (k : Kind K) (o : ObjA) : Kind K :=
  match k with
  | .positionTask t _ x => .positionTask t o x
  | .frameTask t _ x => .frameTask t o x
  | .positionBarrier s _ lo hi lt idxs => .positionBarrier s o lo hi lt idxs
  | k => k

/-- `tasks/_obj_task.py:157-175` and `barriers/_obj_barrier.py:175-192` `update_model`: the id is written
before the check. -/
def updateModelObj (m : MjModel K) (o : ObjA) (c : Comp K) : Except Err Unit × Comp K :=
  let i := m.name2id o.objType o.objName
  let c1 := c.set { c.attrs with kind := c.attrs.kind.setObj { o with objId := i } }
  if i = -1 then (.error .valueError, c1)
  else (.ok (), c1.set { c1.attrs with model := some m })

/-- `barriers/_self_collision_barrier.py:264-287` `update_model` -/
def updateModelSelfCollision (m : MjModel K) (sdg dMin : K) (bodies : List CollisionBody)
    (exRaw : List (CollisionBody × CollisionBody)) (nClosest : Int)
    (pairs : Option (List (Int × Int))) (c : Comp K) : Except Err Unit × Comp K :=
  let bodies' := if bodies.length = 0 then
      (List.range m.nbody).map (fun (i : Nat) => CollisionBody.id (i : Int)) else bodies
  let c1 := c.set { c.attrs with model := some m,
                                 kind := .selfCollision sdg dMin bodies' exRaw nClosest pairs }
  match excludeSet m exRaw with
  | .error e => (.error e, c1)
  | .ok ex =>
    match generatePairs m bodies' ex with
    | .error e => (.error e, c1)
    | .ok ps =>
      let n := if nClosest = -1 then (ps.length : Int) else nClosest
      (.ok (), c1.set { c1.attrs with dim := n,
                                      kind := .selfCollision sdg dMin bodies' exRaw n (some ps) })

/-- `constraints/_equality_constraint.py:116-126`: number of equality rows. -/
def countEqRows : List EqType → Except Err Nat
  | [] => .ok 0
  | e :: es =>
    match e with
    | .connect => (countEqRows es).map (3 + ·)
    | .weld => (countEqRows es).map (6 + ·)
    | .joint => (countEqRows es).map (1 + ·)
    | .unsupported => .error .valueError

/-- `constraints/_equality_constraint.py:103-129` `update_model` -/
def updateModelEquality (m : MjModel K) (c : Comp K) : Except Err Unit × Comp K :=
  let c1 := c.set { c.attrs with model := some m }
  match countEqRows m.eqType with
  | .error e => (.error e, c1)
  | .ok n => (.ok (), c1.set { c1.attrs with maskIdxs := List.range n, dim := (n : Int) })

/-- `component.model = m` / `component.update_model(m)`, dispatched on the class. -/
def updateModel (m : MjModel K) (c : Comp K) : Except Err Unit × Comp K :=
  match c.attrs.kind with
  | .comTask _ _ => (.ok (), c.set { c.attrs with model := some m })   -- `_base.py:200-206`
  | .jointTask t fm tq qi => updateModelJointTask m t fm tq qi c
  | .positionTask _ o _ => updateModelObj m o c
  | .frameTask _ o _ => updateModelObj m o c
  | .jointBarrier s fm lo hi qi => updateModelJointBarrier m s fm lo hi qi c
  | .positionBarrier _ o _ _ _ _ => updateModelObj m o c
  | .selfCollision s d b e n p => updateModelSelfCollision m s d b e n p c
  | .modelEquality _ _ _ => updateModelEquality m c

/-! ### Histories -/

/-- The calls of the public interface of a component that can change it. -/
inductive CompOp (K : Type) where
  | updateGain (g : Arr K)
  | updateCost (w : Arr K)
  | setLmDamping (x : K)
  | setSafeDisplacementGain (x : K)
  | updateTarget (x : Arr K)
  | updateTargetFrame (x : FrameArg K)
  | updateQLimit (upper : Bool) (x : Arr K)
  | updatePLimit (upper : Bool) (x : Arr K)
  | setActive (x : Bool)
  | setHard (x : Bool)
  | setDMin (x : K)
  | setNClosest (x : Int)
  | setCollisionBodies (xs : List CollisionBody)
  | updateModel (m : MjModel K)
  | readMask
  | compile

/-- Perform one call; the result value of `compile` and `readMask` is dropped here. -/
def CompOp.run : CompOp K → Comp K → Except Err Unit × Comp K
  | .updateGain g, c => Mjinx.updateGain g c
  | .updateCost w, c => Mjinx.updateCost w c
  | .setLmDamping x, c => Mjinx.setLmDamping x c
  | .setSafeDisplacementGain x, c => Mjinx.setSafeDisplacementGain x c
  | .updateTarget x, c => Mjinx.updateTarget x c
  | .updateTargetFrame x, c => Mjinx.updateTargetFrame x c
  | .updateQLimit u x, c => Mjinx.updateQLimit u x c
  | .updatePLimit u x, c => Mjinx.updatePLimit u x c
  | .setActive x, c => Mjinx.setActive x c
  | .setHard x, c => Mjinx.setHard x c
  | .setDMin x, c => Mjinx.setDMin x c
  | .setNClosest x, c => Mjinx.setNClosest x c
  | .setCollisionBodies x, c => Mjinx.setCollisionBodies x c
  | .updateModel m, c => Mjinx.updateModel m c
  | .readMask, c => ensureMask c
  | .compile, c => let r := jaxComponent c; (r.1.map (fun _ => ()), r.2)

/-- Constructor calls. -/
inductive NewComp (K : Type) where
  | comTask (a : TaskArgs K)
  | jointTask (a : TaskArgs K) (finalMask : Option (List Int))
  | positionTask (a : TaskArgs K) (objName : String) (objType : ObjType)
  | frameTask (a : TaskArgs K) (objName : String) (objType : ObjType)
  | jointBarrier (a : BarrierArgs K) (qMin qMax : Option (Arr K)) (finalMask : Option (List Int))
  | positionBarrier (a : BarrierArgs K) (objName : String) (objType : ObjType)
      (pMin pMax : Option (Arr K)) (limitType : String) (mask : Option (Arr Int))
  | selfCollision (a : BarrierArgs K) (dMin : K) (bodies : List CollisionBody)
      (excluded : List (CollisionBody × CollisionBody)) (nClosest : Int)
  | modelEquality (name : String) (gain : Arr K) (hard : Bool) (softCost : Option (Arr K))

/-- Perform a constructor call. -/
def NewComp.run : NewComp K → Except Err (Comp K)
  | .comTask a => newComTask a
  | .jointTask a fm => newJointTask a fm
  | .positionTask a n t => newPositionTask a n t
  | .frameTask a n t => newFrameTask a n t
  | .jointBarrier a lo hi fm => newJointBarrier a lo hi fm
  | .positionBarrier a n t lo hi lt m => newPositionBarrier a n t lo hi lt m
  | .selfCollision a d b e n => newSelfCollision a d b e n
  | .modelEquality n g h s => newModelEquality n g h s

/-- The component after a history of calls, whether or not they raised. -/
def runOps (c : Comp K) (ops : List (CompOp K)) : Comp K :=
  ops.foldl (fun c op => (op.run c).2) c

/-- Components a user can get hold of: constructed, then any history of calls. -/
def Reachable (c : Comp K) : Prop :=
  ∃ (n : NewComp K) (c0 : Comp K) (ops : List (CompOp K)), n.run = .ok c0 ∧ c = runOps c0 ops

end
end Mjinx
