import Verif.Model.CopySet
import Verif.Spec.Component

/-!
# What a setter changes of the compiled component
-/

namespace Mjinx.Spec
variable {K : Type} [Field K] [LinearOrder K]

/-- The frame that `update_target_frame` makes of its argument: an `SE3` as it is; an array with position first and quaternion last is reordered. -/
def FrameOf : FrameArg K → Arr K → Prop
  | .se3 f, y => y = f
  | .array x, y => y.shape = x.shape ∧ ∀ at_, (∀ i < 4, y.get (at_ ++ [i]) = x.get (at_ ++ [i + 3])) ∧ ∀ i < 3, y.get (at_ ++ [4 + i]) = x.get (at_ ++ [i])

/-- The fields of the compiled component that change with a setter call on a component with the attributes `a`, with their new values. -/
def Changes (a : Attrs K) (op : CompOp K) (l : PyDict K) : Prop :=
  match op with
  | .updateGain g => ∃ y, GainOf a.dim g y ∧ l = [("vector_gain", .arr y)]
  | .updateCost w => ∃ y, CostOf a.dim w y ∧ l = [("matrix_cost", .arr y)]
  | .setLmDamping x => l = [("lm_damping", .num x)]
  | .setSafeDisplacementGain x => l = [("safe_displacement_gain", .num x)]
  | .updateTarget x =>
    match a.kind with
    | .comTask .. => l = [("target_com", .arr x)]
    | .jointTask .. => l = [("target_q", .arr x)]
    | .positionTask .. => l = [("target_pos", .arr x)]
    | _ => False
  | .updateTargetFrame x => ∃ y, FrameOf x y ∧ l = [("target_frame", .se3 y)]
  | .updateQLimit upper x => l = [(if upper then "q_max" else "q_min", .arr x)]
  | .updatePLimit upper x =>
    match a.kind with
    | .positionBarrier _ _ _ _ t _ =>
      if t = .both ∨ t = (if upper then .max else .min) then
        ∃ y, (x.shape = [] ∧ y.shape = [a.maskIdxs.length] ∧ (∀ i < a.maskIdxs.length, y.get [i] = x.get []) ∨ x.shape ≠ [] ∧ y = x) ∧
          l = [(if upper then "p_max" else "p_min", .arr y)]
      else l = []
    | _ => False
  | .setActive x => l = [("active", .flag x)]
  | .setHard x => l = [("hard_constraint", .flag x)]
  | .setDMin x => ∃ y, GainOf a.dim (Arr.scalar x) y ∧ l = [("d_min_vec", .arr y)]
  | .setNClosest x => l = [("n_closest_pairs", .int x)]
  | .setCollisionBodies _ => l = []
  | .readMask => l = []
  | .compile => l = []
  | .updateModel _ => False

/-- What reading the attributes of a compiled component of the attributes `a` gives, attribute by attribute: `r name` is the value of the attribute
`name`. -/
structure Readings (a : Attrs K) (r : String → Option (PyVal K)) : Prop where
  dim : r "dim" = some (.int a.dim)
  model : ∃ m, a.model = some m ∧ r "model" = some (.model m)
  vectorGain : ∃ y, GainOf a.dim a.gain y ∧ r "vector_gain" = some (.arr y)
  gainFn : r "gain_fn" = some (.fn a.gainFn)
  maskIdxs : r "mask_idxs" = some (.idxs (if a.mask.isSome then a.maskIdxs else List.range a.dim.toNat))
  /-- Tasks have a cost and a damping. -/
  task : ∀ t, a.kind.taskA? = some t → (∃ w, CostOf a.dim t.cost w ∧ r "matrix_cost" = some (.arr w)) ∧ r "lm_damping" = some (.num t.lmDamping)
  /-- Barriers have a gain of the safe displacement. -/
  barrier : match a.kind with
    | .jointBarrier s .. | .positionBarrier s .. | .selfCollision s .. => r "safe_displacement_gain" = some (.num s)
    | _ => True
  /-- Tasks and barriers of an object know its id and type. -/
  obj : match a.kind with
    | .positionTask _ o _ | .frameTask _ o _ | .positionBarrier _ o .. => r "obj_id" = some (.int o.objId) ∧ r "obj_type" = some (.objType o.objType)
    | _ => True
  own : match a.kind with
    | .comTask _ x => r "target_com" = some (.arr x)
    | .jointTask _ _ x qi => r "target_q" = x.map .arr ∧ r "qmask_idxs" = qi.map .idxs
    | .positionTask _ _ x => r "target_pos" = some (.arr x)
    | .frameTask _ _ x => r "target_frame" = some (.se3 x)
    | .jointBarrier _ _ lo hi qi => r "q_min" = lo.map .arr ∧ r "q_max" = hi.map .arr ∧ r "qmask_idxs" = qi.map .idxs
    | .positionBarrier _ _ lo hi _ li => r "p_min" = some (.arr lo) ∧ r "p_max" = some (.arr hi) ∧ r "limit_type_mask_idxs" = some (.idxs li)
    | .selfCollision _ d _ _ n ps => (∃ y, GainOf a.dim (Arr.scalar d) y ∧ r "d_min_vec" = some (.arr y)) ∧ r "collision_pairs" = ps.map .pairs ∧
        r "n_closest_pairs" = some (.int n)
    | .modelEquality x h c => r "active" = some (.flag x) ∧ r "hard_constraint" = some (.flag h) ∧
        ∃ w, CostOf a.dim (c.getD (Arr.scalar 100)) w ∧ r "soft_constraint_cost" = some (.arr w)

end Mjinx.Spec
