import Verif.Model.Vmap
import Verif.Spec.Problem

/-! # Specification of the axes for `jax.vmap` -/

namespace Mjinx.Spec

/-- The axis given to a leaf by a sequence of assignments: that of the last assignment to the leaf or to something it is part
of; `None` without one. -/
def lastWrite (ws : List (List String × Int)) (leaf : List String) : Option Int :=
  (ws.reverse.find? (fun w => w.1.isPrefixOf leaf)).map (fun w => w.2)

mutual
/-- The entries of every node have distinct names. -/
def DistinctNames {S A : Type} : PyTree S A → Prop
  | .none => True
  | .leaf _ => True
  | .node _ kids => DistinctNamesK kids
def DistinctNamesK {S A : Type} : Kids S A → Prop
  | .nil => True
  | .cons n t rest => rest.get n = none ∧ DistinctNames t ∧ DistinctNamesK rest
end

mutual
/-- The structure of a tree: what is left when the values of the leaves are forgotten. -/
def shapeOf {S A : Type} : PyTree S A → PyTree S Unit
  | .none => .none
  | .leaf _ => .leaf ()
  | .node s kids => .node s (shapeOfK kids)
def shapeOfK {S A : Type} : Kids S A → Kids S Unit
  | .nil => .nil
  | .cons n t rest => .cons n (shapeOf t) (shapeOfK rest)
end

/-- The arrays and numbers of a compiled component that `jax` sees, with their names: gain, then per class the matrix cost and
target of tasks, the safe displacement gain and limits of barriers, activity and cost of constraints. -/
def mappable {K : Type} (j : JaxComp K) : List (List String × Leaf K) :=
  (["vector_gain"], .arr j.vectorGain) ::
  match j.kind with
  | .comTask w _ x => [(["matrix_cost"], .arr w), (["target_com"], .arr x)]
  | .jointTask w _ x qi => [(["matrix_cost"], .arr w), (["target_q"], .arr x), (["qmask_idxs"], .idxs qi)]
  | .positionTask w _ _ _ x => [(["matrix_cost"], .arr w), (["target_pos"], .arr x)]
  | .frameTask w _ _ _ x => [(["matrix_cost"], .arr w), (["target_frame", "wxyz_xyz"], .arr x)]
  | .jointBarrier s lo hi qi => [(["safe_displacement_gain"], .num s), (["q_min"], .arr lo), (["q_max"], .arr hi), (["qmask_idxs"], .idxs qi)]
  | .positionBarrier s _ _ lo hi _ => [(["safe_displacement_gain"], .num s), (["p_min"], .arr lo), (["p_max"], .arr hi)]
  | .selfCollision s d _ _ => [(["safe_displacement_gain"], .num s), (["d_min_vec"], .arr d)]
  | .modelEquality a _ w => [(["active"], .flag a), (["soft_constraint_cost"], .arr w)]

/-- Calls on a component that set targets, gains, costs, limits and other numbers that are not part of the structure of the
compiled problem. -/
def ArrayOp {K : Type} : CompOp K → Prop
  | .updateGain _ | .updateCost _ | .updateTarget _ | .updateTargetFrame _ | .updateQLimit _ _ | .updatePLimit _ _
  | .setSafeDisplacementGain _ | .setActive _ | .setDMin _ | .readMask | .compile => True
  | .setLmDamping _ | .setHard _ | .setNClosest _ | .setCollisionBodies _ | .updateModel _ => False

/-- Calls of a program that keep the structure of compiled problems: numbers of components, velocity limits, reading, compiling,
making new objects. -/
def ArrayCall {K : Type} : Op K → Prop
  | .comp _ op => ArrayOp op
  | .add _ _ | .remove _ _ => False
  | _ => True

end Mjinx.Spec
