import Verif.Model.Lie
import Verif.Model.Collision

/-!
# Simulation data and `mjinx/configuration/_model.py`
-/

namespace Mjinx
open scoped Quaternion Matrix

/-- The fields of `mjx.Data` used by mjinx.  `cdof` rows are split in angular and linear part; `efcEq`
says which constraint rows have type equality. -/
structure MjData (K : Type) [Field K] where
  qpos : Vec K
  xpos : List (V3 K)
  xquat : List ℍ[K]
  xmat : List (M3 K)
  geomXpos : List (V3 K)
  geomXmat : List (M3 K)
  siteXpos : List (V3 K)
  siteXmat : List (M3 K)
  xipos : List (V3 K)
  subtreeCom : List (V3 K)
  cdof : List (V3 K × V3 K)
  efcEq : List Bool
  efcPos : List K
  efcJ : List (Vec K)

/-- A twist: translational part first (jaxlie's order). -/
abbrev Twist (K : Type) := V3 K × V3 K

/-- What a collision function reports for one contact: distance, contact point, normal (first row of the
contact frame). -/
structure ContactVal (K : Type) where
  dist : K
  pos : V3 K
  normal : V3 K

/-- The external functions mjinx calls: mjx (kinematics, com_pos, make_constraint, collision functions),
jax (reverse-mode Jacobian, Jacobian of a function of a twist at zero) and jaxlie (rotation matrix to
quaternion, exponential and logarithm). -/
structure Env (K : Type) [Field K] where
  kinematics : MjModel K → Vec K → MjData K
  comPos : MjModel K → MjData K → MjData K
  makeConstraint : MjModel K → MjData K → MjData K
  collide : MjModel K → MjData K → CollisionFuncs (ContactVal K)
  jacrev : (Vec K → Vec K) → Vec K → Mat K
  jacZero : (Twist K → Twist K) → Matrix (Fin 6) (Fin 6) K
  rotOfMat : M3 K → ℍ[K]
  so3Log : ℍ[K] → V3 K
  se3Log : SE3 K → Twist K
  se3Exp : Twist K → SE3 K
  quatIntegrate : ℍ[K] → V3 K → K → ℍ[K]

section
variable {K : Type} [Field K] [LinearOrder K]

/-- `_model.py:8-22` `update` -/
def update (env : Env K) (m : MjModel K) (q : Vec K) : MjData K :=
  env.makeConstraint m (env.comPos m (env.kinematics m q))

/-- `mjx._src.scan.body_tree(model, fn, "b", "b", x, reverse=True)` with `fn` adding the carry: every body
gets its own value plus the results of its children.  Bodies are numbered with parents before
children, so the additions can be done from the last body to the first. -/
def bodyTreeSum {α : Type} [Add α] [Zero α] (parent : List Nat) : Nat → List α → List α
  | 0, x => x
  | i + 1, x =>
    -- body `i+1` passes its total to its parent
    let p := parent.getD (i + 1) 0
    bodyTreeSum parent i (x.set p (x.getD p 0 + x.getD (i + 1) 0))

/-- `_model.py:76-81`, `:138-143`: for each degree of freedom, whether it belongs to the body or one of
its ancestors. -/
def dofMask (m : MjModel K) (bodyId : Int) : List Bool :=
  let onehot := (List.range m.nbody).map (fun (i : Nat) => if (i : Int) = bodyId then (1 : Int) else 0)
  let total := bodyTreeSum m.bodyParentid (m.nbody - 1) onehot
  m.dofBodyid.map (fun b => total.getD b 0 > 0)

/-- `mujoco.mjMINVAL` -/
def mjMinval : K := 1 / 10 ^ 15

/-- `tasks/_com_task.py:69-83`: centre of mass of each subtree; bodies without mass get their own
position. -/
def subtreeComs (m : MjModel K) (xipos : List (V3 K)) : List (V3 K) :=
  let pm := bodyTreeSum m.bodyParentid (m.nbody - 1)
    (List.zipWith (fun x w => ((fun a => x a * w : V3 K), w)) xipos m.bodyMass)
  List.zipWith (fun p xi => if p.2 < mjMinval then xi else fun a => p.1 a / max p.2 mjMinval) pm xipos

/-- `tasks/_com_task.py:66-86` `specific_update` -/
def comUpdate (env : Env K) (m : MjModel K) (q : Vec K) : MjData K :=
  let d := env.kinematics m q
  { d with subtreeCom := subtreeComs m d.xipos }

/-- Object position, rotation matrix and body, by object type (`_model.py:64-75`, `:123-136`).  The
tables of the model are numpy arrays, which raise `IndexError`; the arrays of the data are jax arrays, which
clamp. -/
def objBody (m : MjModel K) (t : ObjType) (i : Int) : Except Err Int :=
  match t with
  | .geom => (npGet m.geomBodyid i).map (fun (n : Nat) => (n : Int))
  | .site => (npGet m.siteBodyid i).map (fun (n : Nat) => (n : Int))
  | _ => .ok i

/-- `tasks/_obj_task.py:35-50`, `barriers/_obj_barrier.py:42-57` `get_pos`, also `_model.py:66-75`. -/
def objPos (d : MjData K) (t : ObjType) (i : Int) : Except Err (V3 K) :=
  match t with
  | .geom => jnpGet d.geomXpos i
  | .site => jnpGet d.siteXpos i
  | _ => jnpGet d.xpos i

/-- The rotation matrix of the object (`_model.py:125-136`, `tasks/_obj_task.py:52-67`). -/
def objMat (d : MjData K) (t : ObjType) (i : Int) : Except Err (M3 K) :=
  match t with
  | .geom => jnpGet d.geomXmat i
  | .site => jnpGet d.siteXmat i
  | _ => jnpGet d.xmat i

/-- `cdof` of one degree of freedom as velocity of a point at `offset` from the subtree's centre of mass:
`a[3:] + cross(a[:3], offset)`. -/
def pointVel (offset : V3 K) (a : V3 K × V3 K) : V3 K := a.2 + (crossProduct a.1) offset

/-- Rows `(jacp, jacr)` per degree of freedom, masked. -/
def maskRow (b : Bool) (r : V3 K × V3 K) : V3 K × V3 K := if b then r else (0, 0)

/-- `_model.py:25-90` `get_frame_jacobian_world_aligned`: one row `(jacp, jacr)` per degree of freedom. -/
def frameJacobianWorld (m : MjModel K) (d : MjData K) (objId : Int) (t : ObjType) :
    Except Err (List (V3 K × V3 K)) := do
  let b ← objBody m t objId
  let pos ← objPos d t objId
  let root ← jnpGet m.bodyRootid b
  let com ← jnpGet d.subtreeCom root
  return (d.cdof.zip (dofMask m b)).map (fun x => maskRow x.2 (pointVel (pos - com) x.1, x.1.1))

/-- `_model.py:93-157` `get_frame_jacobian_local`. -/
def frameJacobianLocal (m : MjModel K) (d : MjData K) (objId : Int) (t : ObjType) :
    Except Err (List (V3 K × V3 K)) := do
  let b ← objBody m t objId
  let pos ← objPos d t objId
  let rot ← objMat d t objId
  let root ← jnpGet m.bodyRootid b
  let com ← jnpGet d.subtreeCom root
  let rinv := rotᵀ
  return (d.cdof.zip (dofMask m b)).map
    (fun x => maskRow x.2 (rinv.mulVec (pointVel (pos - com) x.1), Matrix.vecMul x.1.1 rinvᵀ))

/-- `mjx._src.support.jac(m, d, point, body_id)` (external), as used by `_collision.py:189-213`
`geom_point_jacobian`: the same formula at a given point of a body. -/
def pointJacobian (m : MjModel K) (d : MjData K) (point : V3 K) (bodyId : Int) :
    Except Err (List (V3 K × V3 K)) := do
  let root ← jnpGet m.bodyRootid bodyId
  let com ← jnpGet d.subtreeCom root
  return (d.cdof.zip (dofMask m bodyId)).map (fun x => maskRow x.2 (pointVel (point - com) x.1, x.1.1))

/-- `_model.py:160-172` `get_transform_frame_to_world` -/
def transformFrameToWorld (d : MjData K) (i : Int) : Except Err (SE3 K) := do
  let q ← jnpGet d.xquat i
  let p ← jnpGet d.xpos i
  return ⟨q, p⟩

/-- `_model.py:175-185` `get_transform` -/
def getTransform (d : MjData K) (source dest : Int) : Except Err (SE3 K) := do
  let D ← transformFrameToWorld d dest
  let S ← transformFrameToWorld d source
  return D.mul S

/-- The entries of a quaternion / vector as a list. -/
def quatList (q : ℍ[K]) : List K := [q.re, q.imI, q.imJ, q.imK]
def vec3List (v : V3 K) : List K := [v 0, v 1, v 2]

/-- `mjx._src.forward._integrate_pos` (external), called by `_model.py:188-216` `integrate`: running
position `qi` in the configuration and `vi` in the velocity. -/
def integrateLoop (quatInt : ℍ[K] → V3 K → K → ℍ[K]) (q v : Nat → K) (dt : K) :
    List JntType → Nat → Nat → List K
  | [], _, _ => []
  | .free :: ts, qi, vi =>
    vec3List (vec3At q qi + dt • vec3At v vi) ++
      quatList (quatInt (quatAt q (qi + 3)) (vec3At v (vi + 3)) dt) ++
      integrateLoop quatInt q v dt ts (qi + 7) (vi + 6)
  | .ball :: ts, qi, vi =>
    quatList (quatInt (quatAt q qi) (vec3At v vi) dt) ++ integrateLoop quatInt q v dt ts (qi + 4) (vi + 3)
  | .hinge :: ts, qi, vi => (q qi + dt * v vi) :: integrateLoop quatInt q v dt ts (qi + 1) (vi + 1)
  | .slide :: ts, qi, vi => (q qi + dt * v vi) :: integrateLoop quatInt q v dt ts (qi + 1) (vi + 1)

/-- `_model.py:188-216` `integrate` -/
def integrate (env : Env K) (m : MjModel K) (q v : Vec K) (dt : K) : Vec K :=
  let l := integrateLoop env.quatIntegrate q.get v.get dt m.jntType 0 0
  ⟨l.length, fun i => l.getD i 0⟩

/-- `_model.py:219-233` `get_configuration_limit`.  The limit is a Python float (`Sum.inl`) or an array. -/
def getConfigurationLimit (m : MjModel K) (limit : K ⊕ Vec K) : Except Err (Mat K × Vec K) := do
  let l : Vec K := match limit with
    | .inl x => ⟨m.nv, fun _ => 1 * x⟩
    | .inr v => v
  let A ← Mat.vstack (Mat.smul (-1) (Mat.eye m.nv)) (Mat.eye m.nv)
  return (A, l.append l)

/-- `_lie.py:30-90` `joint_difference`: the loop over the joints with the running index.
`jaxlie.manifold.rminus(a, b)` is `(a⁻¹ b).log()`. -/
def jointDifferenceLoop (env : Env K) (q1 q2 : Nat → K) : List JntType → Nat → List K
  | [], _ => []
  | .free :: ts, i =>
    let A : SE3 K := ⟨quatAt q1 (i + 3), vec3At q1 i⟩
    let B : SE3 K := ⟨quatAt q2 (i + 3), vec3At q2 i⟩
    let t := env.se3Log (A.inv.mul B)
    vec3List t.1 ++ vec3List t.2 ++ jointDifferenceLoop env q1 q2 ts (i + 7)
  | .ball :: ts, i =>
    vec3List (env.so3Log (quatInv (quatAt q1 i) * quatAt q2 i)) ++ jointDifferenceLoop env q1 q2 ts (i + 4)
  | .hinge :: ts, i => (q1 i - q2 i) :: jointDifferenceLoop env q1 q2 ts (i + 1)
  | .slide :: ts, i => (q1 i - q2 i) :: jointDifferenceLoop env q1 q2 ts (i + 1)

/-- `_lie.py:30-90` `joint_difference` (`jnp.concatenate([])` is a `ValueError`). -/
def jointDifference (env : Env K) (m : MjModel K) (q1 q2 : Vec K) : Except Err (List K) :=
  if m.jntType.length = 0 then .error .valueError
  else .ok (jointDifferenceLoop env q1.get q2.get m.jntType 0)

end
end Mjinx
