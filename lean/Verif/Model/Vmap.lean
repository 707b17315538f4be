import Verif.Model.Problem
import Mathlib.Data.List.Sort

/-!
# Trees of compiled problems and the axes specification for `jax.vmap`

`jax` sees a compiled problem as a tree: dataclasses and dictionaries are nodes, arrays and numbers are leaves, `None` has no
leaves, and fields marked `jdc.Static` belong to the node itself.
-/

namespace Mjinx

mutual
/-- A `jax` tree (external): `None`, a leaf, or a node with its static data and named children. -/
inductive PyTree (S A : Type) where
  | none
  | leaf (a : A)
  | node (s : S) (kids : Kids S A)
/-- The children of a node. -/
inductive Kids (S A : Type) where
  | nil
  | cons (name : String) (t : PyTree S A) (rest : Kids S A)
end

namespace Kids
variable {S A : Type}

def ofList : List (String × PyTree S A) → Kids S A
  | [] => .nil
  | (n, t) :: rest => .cons n t (ofList rest)

/-- Attribute or dictionary access. -/
def get : Kids S A → String → Option (PyTree S A)
  | .nil, _ => Option.none
  | .cons n t rest, f => if n = f then some t else rest.get f

/-- Attribute or dictionary assignment to an existing entry. -/
def set : Kids S A → String → PyTree S A → Kids S A
  | .nil, _, _ => .nil
  | .cons n t rest, f, x => if n = f then .cons n x rest else .cons n t (rest.set f x)

end Kids

mutual
/-- `problem.py:204`: `jax.tree_util.tree_map(lambda x: None, …)`: every leaf becomes `None`. -/
def PyTree.blank {S A : Type} (B : Type) : PyTree S A → PyTree S B
  | .none => .none
  | .leaf _ => .none
  | .node s kids => .node s (kids.blank B)
def Kids.blank {S A : Type} (B : Type) : Kids S A → Kids S B
  | .nil => .nil
  | .cons n t rest => .cons n (t.blank B) (rest.blank B)
end

mutual
/-- `jax.tree_util.tree_leaves` with the path of every leaf. -/
def PyTree.paths {S A : Type} : PyTree S A → List (List String × A)
  | .none => []
  | .leaf a => [([], a)]
  | .node _ kids => kids.paths
def Kids.paths {S A : Type} : Kids S A → List (List String × A)
  | .nil => []
  | .cons n t rest => t.paths.map (fun x => (n :: x.1, x.2)) ++ rest.paths
end

/-- An assignment inside the `with problem.set_vmap_dimension() as data:` block, such as
`data.components["ee_task"].target_frame = 0`: the entry at the path is replaced by the axis.  Unknown entries raise. -/
def PyTree.write {S : Type} : List String → Int → PyTree S Int → Except Err (PyTree S Int)
  | [], a, _ => .ok (.leaf a)
  | f :: path, a, .node s kids =>
    match kids.get f with
    | some t =>
      match t.write path a with
      | .ok t' => .ok (.node s (kids.set f t'))
      | .error e => .error e
    | Option.none => .error .attributeError
  | _ :: _, _, _ => .error .attributeError

/-- A sequence of assignments. -/
def PyTree.writes {S : Type} : List (List String × Int) → PyTree S Int → Except Err (PyTree S Int)
  | [], t => .ok t
  | (p, a) :: rest, t =>
    match t.write p a with
    | .ok t' => t'.writes rest
    | .error e => .error e

open Classical in
mutual
/-- `jax.api_util.flatten_axes` (external), used by `jax.vmap` on `in_axes`: the axes tree must be a prefix of the argument
tree, where `None` counts as a leaf; every leaf of the argument gets the axis of the axes leaf above it.  Nodes must agree in
class, static data and keys. -/
noncomputable def flattenAxes {S A : Type} : PyTree S Int → PyTree S A → Except Err (List (Option Int))
  | .none, t => .ok (t.paths.map (fun _ => Option.none))
  | .leaf i, t => .ok (t.paths.map (fun _ => some i))
  | .node s kids, .node s' kids' => if s = s' then flattenAxesK kids kids' else .error .valueError
  | .node _ _, _ => .error .valueError
noncomputable def flattenAxesK {S A : Type} : Kids S Int → Kids S A → Except Err (List (Option Int))
  | .nil, .nil => .ok []
  | .cons n t rest, .cons n' t' rest' =>
    if n = n' then
      match flattenAxes t t', flattenAxesK rest rest' with
      | .ok xs, .ok ys => .ok (xs ++ ys)
      | .error e, _ => .error e
      | _, .error e => .error e
    else .error .valueError
  | _, _ => .error .valueError
end

/-! ### Compiled problems as trees -/

/-- Static values. -/
inductive SVal (K : Type) where
  | int (x : Int)
  | num (x : K)
  | fn (f : K → K)
  | idxs (l : List Nat)
  | objType (t : ObjType)
  | pairs (l : List (Int × Int))
  | flag (b : Bool)

/-- Node labels: dictionaries, dataclasses with the values of their static fields, nodes of other libraries (the model). -/
inductive Static (K : Type) where
  | dict
  | cls (name : String) (static : List (SVal K))
  | other (name : String)

/-- Leaves: arrays, index arrays, numbers. -/
inductive Leaf (K : Type) where
  | arr (a : Arr K)
  | idxs (l : List Nat)
  | num (x : K)
  | flag (b : Bool)

section
variable {K : Type} [Field K] [LinearOrder K]

/-- The class of a compiled component. -/
def JaxKind.className : JaxKind K → String
  | .comTask .. => "JaxComTask"
  | .jointTask .. => "JaxJointTask"
  | .positionTask .. => "JaxPositionTask"
  | .frameTask .. => "JaxFrameTask"
  | .jointBarrier .. => "JaxJointBarrier"
  | .positionBarrier .. => "JaxPositionBarrier"
  | .selfCollision .. => "JaxSelfCollisionBarrier"
  | .modelEquality .. => "JaxModelEqualityConstraint"

/-- The `jdc.Static` fields of the subclasses: `tasks/_base.py:38`, `tasks/_obj_task.py:32-33`, `barriers/_obj_barrier.py:39-40`,
`barriers/_obj_position_barrier.py:43`, `barriers/_self_collision_barrier.py:45-46`, `constraints/_base.py:24`. -/
def JaxKind.static : JaxKind K → List (SVal K)
  | .comTask _ lm _ => [.num lm]
  | .jointTask _ lm _ _ => [.num lm]
  | .positionTask _ lm i t _ => [.num lm, .int i, .objType t]
  | .frameTask _ lm i t _ => [.num lm, .int i, .objType t]
  | .jointBarrier .. => []
  | .positionBarrier _ i t _ _ li => [.int i, .objType t, .idxs li]
  | .selfCollision _ _ ps n => [.pairs ps, .int n]
  | .modelEquality _ h _ => [.flag h]

/-- The other fields of the subclasses: `tasks/_base.py:37`, `tasks/_com_task.py:45`, `tasks/_joint_task.py:40-41`,
`tasks/_obj_position_task.py:42`, `tasks/_obj_frame_task.py:47` (an `SE3` is a node with one array), `barriers/_base.py:32`,
`barriers/_joint_barrier.py:37-39`, `barriers/_obj_position_barrier.py:41-42`, `barriers/_self_collision_barrier.py:44`,
`constraints/_base.py:23-25`. -/
def JaxKind.fields : JaxKind K → List (String × PyTree (Static K) (Leaf K))
  | .comTask w _ x => [("matrix_cost", .leaf (.arr w)), ("target_com", .leaf (.arr x))]
  | .jointTask w _ x qi => [("matrix_cost", .leaf (.arr w)), ("target_q", .leaf (.arr x)), ("qmask_idxs", .leaf (.idxs qi))]
  | .positionTask w _ _ _ x => [("matrix_cost", .leaf (.arr w)), ("target_pos", .leaf (.arr x))]
  | .frameTask w _ _ _ x => [("matrix_cost", .leaf (.arr w)),
      ("target_frame", .node (.cls "SE3" []) (.cons "wxyz_xyz" (.leaf (.arr x)) .nil))]
  | .jointBarrier s lo hi qi => [("safe_displacement_gain", .leaf (.num s)), ("q_min", .leaf (.arr lo)), ("q_max", .leaf (.arr hi)),
      ("qmask_idxs", .leaf (.idxs qi))]
  | .positionBarrier s _ _ lo hi _ => [("safe_displacement_gain", .leaf (.num s)), ("p_min", .leaf (.arr lo)), ("p_max", .leaf (.arr hi))]
  | .selfCollision s d _ _ => [("safe_displacement_gain", .leaf (.num s)), ("d_min_vec", .leaf (.arr d))]
  | .modelEquality a _ w => [("active", .leaf (.flag a)), ("soft_constraint_cost", .leaf (.arr w))]

/-- A compiled component as a tree (`components/_base.py:29-33` and the subclass fields).  `mt` is the tree of an `mjx.Model`
(external). -/
def compTree (mt : MjModel K → PyTree (Static K) (Leaf K)) (j : JaxComp K) : PyTree (Static K) (Leaf K) :=
  .node (.cls j.kind.className ([.int j.dim, .fn j.gainFn, .idxs j.maskIdxs] ++ j.kind.static))
    (.ofList ([("model", mt j.model), ("vector_gain", .leaf (.arr j.vectorGain))] ++ j.kind.fields))

/-- `problem.py:17-34` `JaxProblemData` as a tree; `jax` orders the entries of a dictionary by key. -/
def problemTree (mt : MjModel K → PyTree (Static K) (Leaf K)) (p : JaxProblem K) : PyTree (Static K) (Leaf K) :=
  .node (.cls "JaxProblemData" []) (.ofList [("model", mt p.model), ("v_min", .leaf (.arr p.vMin)), ("v_max", .leaf (.arr p.vMax)),
    ("components", .node .dict (.ofList ((p.comps.insertionSort (fun a b => a.1 ≤ b.1)).map (fun nj => (nj.1, compTree mt nj.2)))))])

/-- `problem.py:198-204` `set_vmap_dimension`: compile, replace the leaves by `None`, return a mutable copy. -/
def setVmapDimension (mt : MjModel K → PyTree (Static K) (Leaf K)) (h : List (Comp K)) (P : Prob K) :
    Except Err (PyTree (Static K) Int) × List (Comp K) :=
  match compileProb h P with
  | (.error e, h') => (.error e, h')
  | (.ok J, h') => (.ok ((problemTree mt J).blank Int), h')

end
end Mjinx
