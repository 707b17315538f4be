import Verif.Model.Vmap

/-!
# Copies of compiled components

`components/_base.py:48-56` `copy_and_set`: a compiled component as a Python object, that is a class and a dictionary of attributes.
-/

namespace Mjinx

/-- Attribute values of compiled components. -/
inductive PyVal (K : Type) where
  | arr (a : Arr K)
  | se3 (wxyz_xyz : Arr K)
  | num (x : K)
  | int (x : Int)
  | fn (f : K → K)
  | idxs (l : List Nat)
  | objType (t : ObjType)
  | pairs (l : List (Int × Int))
  | flag (b : Bool)
  | model (m : MjModel K)

/-- A dictionary with string keys, in order. -/
abbrev PyDict (K : Type) := List (String × PyVal K)

/-- `d[name]` (external). -/
def PyDict.get? {K : Type} (d : PyDict K) (name : String) : Option (PyVal K) := (d.find? (fun x => x.1 = name)).map (·.2)

/-- `d | e` (external): entries of `e` win; keys that only `e` has come last. -/
def PyDict.merge {K : Type} (d e : PyDict K) : PyDict K :=
  d.map (fun x => (x.1, (PyDict.get? e x.1).getD x.2)) ++ e.filter (fun x => (PyDict.get? d x.1).isNone)

/-- A compiled component as an object: its class and its `__dict__`.  Python checks no types of field values, so that objects that are no
meaningful components can be made. -/
structure JaxObj (K : Type) where
  cls : String
  dict : PyDict K

section
variable {K : Type}

/-- Attribute access. -/
def JaxObj.attr (o : JaxObj K) (name : String) : Option (PyVal K) := PyDict.get? o.dict name

/-- Names of the dataclass fields, in order: `components/_base.py:29-33`, `tasks/_base.py:37-38`, `tasks/_com_task.py:45`,
`tasks/_joint_task.py:40-41`, `tasks/_obj_task.py:32-33`, `tasks/_obj_position_task.py:42`, `tasks/_obj_frame_task.py:47`, `barriers/_base.py:32`,
`barriers/_joint_barrier.py:37-39`, `barriers/_obj_barrier.py:39-40`, `barriers/_obj_position_barrier.py:41-43`,
`barriers/_self_collision_barrier.py:44-46`, `constraints/_base.py:23-25`. -/
def classFields (cls : String) : List String :=
  ["dim", "model", "vector_gain", "gain_fn", "mask_idxs"] ++
    match cls with
    | "JaxComTask" => ["matrix_cost", "lm_damping", "target_com"]
    | "JaxJointTask" => ["matrix_cost", "lm_damping", "target_q", "qmask_idxs"]
    | "JaxPositionTask" => ["matrix_cost", "lm_damping", "obj_id", "obj_type", "target_pos"]
    | "JaxFrameTask" => ["matrix_cost", "lm_damping", "obj_id", "obj_type", "target_frame"]
    | "JaxJointBarrier" => ["safe_displacement_gain", "q_min", "q_max", "qmask_idxs"]
    | "JaxPositionBarrier" => ["safe_displacement_gain", "obj_id", "obj_type", "p_min", "p_max", "limit_type_mask_idxs"]
    | "JaxSelfCollisionBarrier" => ["safe_displacement_gain", "d_min_vec", "collision_pairs", "n_closest_pairs"]
    | "JaxModelEqualityConstraint" => ["active", "hard_constraint", "soft_constraint_cost"]
    | _ => []

/-- `cls(**args)` for a dataclass without default values (external): `TypeError` for an argument that is no field and for a field without
argument. -/
def newJaxObj (cls : String) (args : PyDict K) : Except Err (JaxObj K) :=
  if args.all (fun x => x.1 ∈ classFields cls) && (classFields cls).all (fun n => (PyDict.get? args n).isSome) then
    .ok ⟨cls, (classFields cls).filterMap (fun n => (PyDict.get? args n).map (fun v => (n, v)))⟩
  else .error .typeError

/-- `components/_base.py:48-56` `copy_and_set` (line 55: `self.__dict__ | kwargs`, line 56: `self.__class__(**new_args)`). -/
def JaxObj.copyAndSet (o : JaxObj K) (kwargs : PyDict K) : Except Err (JaxObj K) := newJaxObj o.cls (PyDict.merge o.dict kwargs)

/-- The class-specific attributes of a compiled component. -/
def JaxKind.dict : JaxKind K → PyDict K
  | .comTask w lm x => [("matrix_cost", .arr w), ("lm_damping", .num lm), ("target_com", .arr x)]
  | .jointTask w lm x qi => [("matrix_cost", .arr w), ("lm_damping", .num lm), ("target_q", .arr x), ("qmask_idxs", .idxs qi)]
  | .positionTask w lm i t x => [("matrix_cost", .arr w), ("lm_damping", .num lm), ("obj_id", .int i), ("obj_type", .objType t), ("target_pos", .arr x)]
  | .frameTask w lm i t x => [("matrix_cost", .arr w), ("lm_damping", .num lm), ("obj_id", .int i), ("obj_type", .objType t), ("target_frame", .se3 x)]
  | .jointBarrier s lo hi qi => [("safe_displacement_gain", .num s), ("q_min", .arr lo), ("q_max", .arr hi), ("qmask_idxs", .idxs qi)]
  | .positionBarrier s i t lo hi li => [("safe_displacement_gain", .num s), ("obj_id", .int i), ("obj_type", .objType t), ("p_min", .arr lo),
      ("p_max", .arr hi), ("limit_type_mask_idxs", .idxs li)]
  | .selfCollision s d ps n => [("safe_displacement_gain", .num s), ("d_min_vec", .arr d), ("collision_pairs", .pairs ps), ("n_closest_pairs", .int n)]
  | .modelEquality a h w => [("active", .flag a), ("hard_constraint", .flag h), ("soft_constraint_cost", .arr w)]

/-- The object that a compiled component is. -/
def JaxComp.obj (j : JaxComp K) : JaxObj K :=
  ⟨j.kind.className, [("dim", .int j.dim), ("model", .model j.model), ("vector_gain", .arr j.vectorGain), ("gain_fn", .fn j.gainFn),
    ("mask_idxs", .idxs j.maskIdxs)] ++ j.kind.dict⟩

end
end Mjinx
