import Verif.Model.Data
import Verif.Model.Problem
import Verif.Model.LocalIK

/-!
# Evaluating compiled components

`__call__` and `compute_jacobian` of the `Jax*` classes, and what the solvers read from a component.
Targets and limits are arrays; without vmap they must have at most one dimension here (a batched array
would broadcast to two dimensions, which the solver cannot use; the model reports a shape error).
-/

namespace Mjinx
open scoped Quaternion Matrix

section
variable {K : Type} [Field K] [LinearOrder K]

/-- A vector in space as an array. -/
def vec3 (v : V3 K) : Vec K := ⟨3, fun i => if h : i < 3 then v ⟨i, h⟩ else 0⟩

/-- A twist as an array, translational part first. -/
def vec6 (t : Twist K) : Vec K := (vec3 t.1).append (vec3 t.2)

/-- The parameters `(w,x,y,z,px,py,pz)` of a pose as jaxlie object. -/
def se3OfVec (v : Vec K) : Except Err (SE3 K) :=
  if v.len = 7 then .ok ⟨quatAt v.get 0, vec3At v.get 4⟩ else .error .shapeMismatch

/-- `get_frame` (`tasks/_obj_task.py:69-79`): rotation from the matrix, position. -/
def objFrame (env : Env K) (d : MjData K) (t : ObjType) (i : Int) : Except Err (SE3 K) := do
  let R ← objMat d t i
  let p ← objPos d t i
  return ⟨env.rotOfMat R, p⟩

/-- An array as operand of an elementwise operation with a one-dimensional array: a 0-dimensional array
broadcasts like one of length 1. -/
def Arr.operand (a : Arr K) : Except Err (Vec K) :=
  match a.shape with
  | [] => .ok ⟨1, fun _ => a.get []⟩
  | [n] => .ok ⟨n, fun i => a.get [i]⟩
  | _ => .error .shapeMismatch

/-- `x - target` for one-dimensional arrays. -/
def subVec (a b : Vec K) : Except Err (Vec K) := Vec.zip (· - ·) a b

/-- Stable order of the positions of a list by increasing value: `jax.lax.top_k(-x, n)[1]` for `n = len`
(ties: lower index first). -/
def ascOrder (xs : List K) : List Nat :=
  (List.range xs.length).mergeSort (fun i j => xs.getD i 0 ≤ xs.getD j 0)

/-- `jax.lax.top_k(-dists, k)[1]`; `k` larger than the number of entries (or negative) is an error. -/
def closest (xs : List K) (k : Int) : Except Err (List Nat) :=
  if k < 0 ∨ (xs.length : Int) < k then .error .valueError
  else .ok ((ascOrder xs).take k.toNat)

/-- `barriers/_self_collision_barrier.py:65-66` -/
def selfCollisionValue (env : Env K) (m : MjModel K) (d : MjData K) (dMin : Vec K)
    (pairs : List (Int × Int)) (n : Int) : Except Err (Vec K) := do
  let cs ← computeCollisionPairs (env.collide m d) m pairs
  let dists := cs.map (fun c => c.val.dist)
  let idx ← closest dists n
  subVec ⟨idx.length, fun i => dists.getD (idx.getD i 0) 0⟩ dMin

/-- `concat([x - lo, hi - x])` (`barriers/_joint_barrier.py:54-59`, `_obj_position_barrier.py:60-65`). -/
def boundsValue (x lo hi : Vec K) : Except Err (Vec K) := do
  let a ← subVec x lo
  let b ← subVec hi x
  return a.append b

/-- Rows of the constraint arrays that have type equality. -/
def eqSelect {α : Type} (eq : List Bool) (xs : List α) : List α :=
  ((eq.zip xs).filter (fun x => x.1)).map (fun x => x.2)

/-- `component(data)`, by class:
`tasks/_com_task.py:61-62`, `tasks/_joint_task.py:59`, `tasks/_obj_position_task.py:57`,
`tasks/_obj_frame_task.py:66`, `barriers/_joint_barrier.py:54-59`, `barriers/_obj_position_barrier.py:59-65`,
`barriers/_self_collision_barrier.py:65-66`, `constraints/_equality_constraint.py:38`. -/
def evalValue (env : Env K) (j : JaxComp K) (d : MjData K) : Except Err (Vec K) :=
  match j.kind with
  | .comTask _ _ tgt => do
    let t ← tgt.operand
    let root ← npGet j.model.bodyRootid 0
    let com ← jnpGet d.subtreeCom root
    subVec ((vec3 com).gather j.maskIdxs) t
  | .jointTask _ _ tgt qi => do
    let t ← tgt.operand
    subVec (d.qpos.gather qi) t
  | .positionTask _ _ i ty tgt => do
    let t ← tgt.operand
    let p ← objPos d ty i
    subVec ((vec3 p).gather j.maskIdxs) t
  | .frameTask _ _ i ty tgt => do
    let t ← tgt.toVec
    let T ← se3OfVec t
    let F ← objFrame env d ty i
    return (vec6 (env.se3Log (F.inv.mul T))).gather j.maskIdxs
  | .jointBarrier _ lo hi qi => do
    let l ← lo.operand
    let h ← hi.operand
    boundsValue (d.qpos.gather qi) l h
  | .positionBarrier _ i ty lo hi li => do
    let l ← lo.operand
    let h ← hi.operand
    let p ← objPos d ty i
    let b ← boundsValue ((vec3 p).gather j.maskIdxs) l h
    return b.gather li
  | .selfCollision _ dMin pairs n => do
    let dm ← dMin.operand
    selfCollisionValue env j.model d dm pairs n
  | .modelEquality _ _ _ =>
    let rows := eqSelect d.efcEq d.efcPos
    .ok ((⟨rows.length, fun i => rows.getD i 0⟩ : Vec K).gather j.maskIdxs)

/-- `zeros((n, nv)).at[arange(n), idxs].set(1)` (`tasks/_joint_task.py:76-77`, `barriers/_joint_barrier.py:75-76`): the two index vectors are
broadcast against each other, indices beyond `nv` are dropped. -/
def selectionMatrix (n nv : Nat) (idxs : List Nat) : Except Err (Mat K) := do
  let l ← bdim n idxs.length
  return ⟨n, nv, fun i k =>
    if (List.range l).any (fun t => bidx n l t == i && idxs[bidx idxs.length l t]? == some k) then 1 else 0⟩

/-- `components/_base.py:84-93` (and `tasks/_com_task.py:65-94` with `com = true`, which updates the data with its own
`specific_update`): reverse-mode Jacobian of the value as
a function of the configuration, mapped to velocities if `nq ≠ nv`.  The value at the current
configuration is computed first: shape errors do not depend on the configuration. -/
def autoJacobian (env : Env K) (j : JaxComp K) (d : MjData K) (com : Bool) : Except Err (Mat K) := do
  let upd := fun q => if com then comUpdate env j.model q else env.kinematics j.model q
  let _ ← evalValue env j (upd d.qpos)
  let f := fun q => ((evalValue env j (upd q)).toOption).getD (Vec.zero 0)
  let J := env.jacrev f d.qpos
  if j.model.nq ≠ j.model.nv then J.mul (jacDq2v j.model d.qpos.get) else return J

/-- Rows `(jacp, jacr)` per degree of freedom as the transposed 6×nv matrix (`frame_jac.T`). -/
def rowsMat (rows : List (V3 K × V3 K)) : Mat K :=
  ⟨6, rows.length, fun i k => (vec6 (rows.getD k (0, 0))).get i⟩

/-- A 6×6 matrix as array. -/
def mat6 (A : Matrix (Fin 6) (Fin 6) K) : Mat K :=
  ⟨6, 6, fun i j => if h : i < 6 ∧ j < 6 then A ⟨i, h.1⟩ ⟨j, h.2⟩ else 0⟩

/-- `_self_collision_barrier.py:94-109` `jac_row`: entry for one degree of freedom given the rows of the
two point Jacobians. -/
def normalRow (normal : V3 K) (r1 r2 : List (V3 K × V3 K)) : Nat → K := fun k =>
  ∑ a : Fin 3, normal a * ((r2.getD k (0, 0)).1 a - (r1.getD k (0, 0)).1 a)

/-- `_self_collision_barrier.py:94-109` `jac_row` -/
def collisionRow (m : MjModel K) (d : MjData K) (c : ContactVal K) (b1 b2 : Int) :
    Except Err (Nat → K) := do
  let half := c.dist / 2
  let r1 ← pointJacobian m d (c.pos - half • c.normal) b1
  let r2 ← pointJacobian m d (c.pos + half • c.normal) b2
  return normalRow c.normal r1 r2

/-- `model.geom_bodyid[pair]` (`_self_collision_barrier.py:113`). -/
def pairBodies (m : MjModel K) (g : Int × Int) : Except Err (Nat × Nat) := do
  let b1 ← npGet m.geomBodyid g.1
  let b2 ← npGet m.geomBodyid g.2
  return (b1, b2)

/-- `_self_collision_barrier.py:115-121`: the row for position `i` of the contact array.  `col_bodies` is
indexed with the position in the array of contacts although it is ordered like `collision_pairs`;
jax clamps an index that is too large. -/
def selfCollisionRow (m : MjModel K) (d : MjData K) (cs : List (Contact (ContactVal K)))
    (bodies : List (Nat × Nat)) (i : Nat) : Except Err (Nat → K) := do
  let c ← npGet cs (i : Int)
  let bb ← npGet bodies ((min i (bodies.length - 1) : Nat) : Int)
  collisionRow m d c.val bb.1 bb.2

/-- `_self_collision_barrier.py:68-121` `compute_jacobian`.  No pairs: `geom_bodyid[[]][:, 0]` is an
`IndexError`. -/
def selfCollisionJacobian (env : Env K) (m : MjModel K) (d : MjData K)
    (pairs : List (Int × Int)) (n : Int) : Except Err (Mat K) := do
  let cs ← computeCollisionPairs (env.collide m d) m pairs
  let idx ← closest (cs.map (fun c => c.val.dist)) n
  let bodies ← pairs.mapM (pairBodies m)
  if bodies.length = 0 then .error .indexError
  else do
    let rows ← idx.mapM (selfCollisionRow m d cs bodies)
    return ⟨rows.length, d.cdof.length, fun i k => (rows.getD i (fun _ => 0)) k⟩

/-- `_collision.py:158-185`: the body of the loop in `get_distance`, for one pair: the smallest distance, the contact
points and the contact normals (first rows of the frames).  Height fields (`mjGEOM_HFIELD = 1`) are refused when they come
first; `dist.min()` of no contacts is a `ValueError`. -/
def pairDistance (f : CollisionFuncs (ContactVal K)) (m : MjModel K) (g : Int × Int) :
    Except Err (K × List (V3 K) × List (V3 K)) := do
  let kg ← pairKey m g
  if kg.1.type1 = 1 then throw .notImplementedError
  if !f.known kg.1.type1 kg.1.type2 then throw .keyError
  let cs := (List.range (f.ncon kg.1.type1 kg.1.type2)).map (f.contact kg.1 kg.2)
  match (cs.map (fun c => c.dist)).min? with
  | none => throw .valueError
  | some x => return (x, cs.map (fun c => c.pos), cs.map (fun c => c.normal))

/-- `_collision.py:141-186` `get_distance`: distances, stacked points, stacked frames.  `jnp.vstack([])` is a
`ValueError`. -/
def getDistance (env : Env K) (m : MjModel K) (d : MjData K) (pairs : List (Int × Int)) :
    Except Err (List K × List (V3 K) × List (V3 K)) := do
  let rs ← pairs.mapM (pairDistance (env.collide m d) m)
  if rs.isEmpty then throw .valueError
  return (rs.map (fun r => r.1), rs.flatMap (fun r => r.2.1), rs.flatMap (fun r => r.2.2))

/-- `component.compute_jacobian(data)`, by class. -/
def evalJacobian (env : Env K) (j : JaxComp K) (d : MjData K) : Except Err (Mat K) :=
  match j.kind with
  | .comTask .. => autoJacobian env j d true
  | .jointTask .. => do
    let n ← sizeOf j.dim
    selectionMatrix n j.model.nv j.maskIdxs
  | .positionTask .. => autoJacobian env j d false
  | .frameTask _ _ i ty tgt => do
    let t ← tgt.toVec
    let T ← se3OfVec t
    let F ← objFrame env d ty i
    let Tbt := T.inv.mul F.inv
    let fj ← frameJacobianLocal j.model d i ty
    let jlog := env.jacZero (fun tau => env.se3Log (Tbt.mul (env.se3Exp tau)))
    let J ← (mat6 jlog).neg.mul (rowsMat fj)
    return J.gatherRows j.maskIdxs
  | .jointBarrier .. => do
    let n ← sizeOf (j.dim / 2)
    let S ← selectionMatrix n j.model.nv j.maskIdxs
    Mat.vstack S S.neg
  | .positionBarrier .. => autoJacobian env j d false
  | .selfCollision _ _ pairs n => selfCollisionJacobian env j.model d pairs n
  | .modelEquality _ _ _ =>
    let rows := eqSelect d.efcEq d.efcJ
    .ok ((⟨rows.length, j.model.nv, fun i k => (rows.getD i (Vec.zero 0)).get k⟩ : Mat K).gatherRows j.maskIdxs)

/-- Everything the solver reads from a component. -/
def evaluate (env : Env K) (j : JaxComp K) (d : MjData K) : Except Err (Evaluated K) := do
  let J ← evalJacobian env j d
  let v ← evalValue env j d
  let g ← j.vectorGain.toVec
  return ⟨J, v, g, j.gainFn⟩

/-- The class of a compiled component with the class-specific data the solver reads
(`_local_ik.py:307-329`: dispatch on the class; `barriers/_base.py:46-64`: the safe displacement is
zero). -/
def wrapComp (j : JaxComp K) (e : Evaluated K) : Except Err (SolverComp K) :=
  match j.kind with
  | .comTask w lm _ => w.toMat.map (fun W => .task e W lm)
  | .jointTask w lm _ _ => w.toMat.map (fun W => .task e W lm)
  | .positionTask w lm _ _ _ => w.toMat.map (fun W => .task e W lm)
  | .frameTask w lm _ _ _ => w.toMat.map (fun W => .task e W lm)
  | .jointBarrier s _ _ _ => .ok (.barrier e s (Vec.zero j.model.nv))
  | .positionBarrier s _ _ _ _ _ => .ok (.barrier e s (Vec.zero j.model.nv))
  | .selfCollision s _ _ _ => .ok (.barrier e s (Vec.zero j.model.nv))
  | .modelEquality a h w => w.toMat.map (fun W => .constraint e a h W)

/-- A compiled component as the solver sees it. -/
def solverComp (env : Env K) (d : MjData K) (j : JaxComp K) : Except Err (SolverComp K) := do
  let e ← evaluate env j d
  wrapComp j e

/-- `_local_ik.py:183-338` on a compiled problem: evaluate the components, build the QP. -/
def problemQP (env : Env K) (solverModel : MjModel K) (p : JaxProblem K) (d : MjData K) :
    Except Err (QP K) := do
  let vMin ← p.vMin.toVec
  let vMax ← p.vMax.toVec
  let cs ← (p.comps.map Prod.snd).mapM (solverComp env d)
  computeQP solverModel.nv p.model.nv vMin vMax cs

/-- `_local_ik.py:340-372` `solve_from_data` on a compiled problem. -/
def localSolveFromData {I : Type} (env : Env K) (osqp : QPSolver K I) (solverModel : MjModel K)
    (p : JaxProblem K) (s : LocalIKData K) (d : MjData K) :
    Except Err (LocalIKSolution K I × LocalIKData K) := do
  let vMin ← p.vMin.toVec
  let vMax ← p.vMax.toVec
  let cs ← (p.comps.map Prod.snd).mapM (solverComp env d)
  solveFromData osqp solverModel.nv p.model.nv vMin vMax s cs

/-- `solvers/_base.py:89-106` `solve` for the local solver. -/
def localSolve {I : Type} (env : Env K) (osqp : QPSolver K I) (solverModel : MjModel K)
    (q : Arr K) (s : LocalIKData K) (p : JaxProblem K) :
    Except Err (LocalIKSolution K I × LocalIKData K) :=
  solve solverModel.nq (fun q => update env solverModel ⟨solverModel.nq, fun i => q.get [i]⟩)
    (localSolveFromData env osqp solverModel p) q s

end
end Mjinx
