import Verif.Model.Problem
import Verif.Model.Eval
import Verif.Model.GlobalIK

/-!
# The unit tests of the project, run on the model

`/repo/tests/unit_tests`.  These are tests of the model, not proofs of properties: the assertions of the project's own unit tests, on rational numbers, evaluated on the
model's functions.  They check that the model behaves as the code is expected to.  Left out: assertions on types of results, on warnings, and those whose expected values
come from forward kinematics or from the narrow-phase collision functions of mjx, which are inputs here.  Where a test uses a dummy subclass of an abstract component, a concrete
class stands in.
-/

namespace Mjinx.UnitTests

/-- `assertRaises(e)` -/
def raises {α : Type} (e : Err) (x : Except Err α) : Bool :=
  match x with
  | .error e' => e' == e
  | .ok _ => false

def succeeds {α : Type} (x : Except Err α) : Bool :=
  match x with
  | .error _ => false
  | .ok _ => true

/-- `assert_array_equal` with a vector. -/
def isVec (a : Arr ℚ) (xs : List ℚ) : Bool := a.shape == [xs.length] && (List.range xs.length).all fun i => a.get [i] == xs.getD i 0

/-- `assert_array_equal` with a matrix. -/
def isMat (a : Arr ℚ) (xs : List (List ℚ)) : Bool :=
  a.shape == [xs.length, (xs.headD []).length] &&
    (List.range xs.length).all fun i => (List.range (xs.headD []).length).all fun j => a.get [i, j] == (xs.getD i []).getD j 0

def isM (a : Mat ℚ) (xs : List (List ℚ)) : Bool := (List.range a.rows).map (fun i => (List.range a.cols).map (a.get i)) == xs

/-- The test holds of the result, which has to be one. -/
def okAnd {α : Type} (x : Except Err α) (p : α → Bool) : Bool :=
  match x with
  | .error _ => false
  | .ok a => p a

def s (x : ℚ) : Arr ℚ := Arr.scalar x
def v (xs : List ℚ) : Arr ℚ := Arr.ofList0 xs
def mat (xs : List (List ℚ)) : Arr ℚ := ⟨[xs.length, (xs.headD []).length], fun i => (xs.getD (i.headD 0) []).getD (i.tail.headD 0) 0⟩
def imask (xs : List Int) : Arr Int := Arr.ofList xs

/-- A component after a constructor call and a history of calls. -/
def made (n : NewComp ℚ) (ops : List (CompOp ℚ)) (p : Comp ℚ → Bool) : Bool :=
  okAnd n.run fun c => p (runOps c ops)

/-- The call returns after this history. -/
def accepts (n : NewComp ℚ) (ops : List (CompOp ℚ)) (op : CompOp ℚ) : Bool := made n ops fun c => succeeds (op.run c).1

/-- The call raises after this history. -/
def refuses (n : NewComp ℚ) (ops : List (CompOp ℚ)) (op : CompOp ℚ) : Bool := made n ops fun c => raises .valueError (op.run c).1

/-- The component compiled after this history. -/
def compiled (n : NewComp ℚ) (ops : List (CompOp ℚ)) (p : JaxComp ℚ → Bool) : Bool := made n ops fun c => okAnd (jaxComponent c).1 p

def task (gain : Arr ℚ := s 1) (cost : Arr ℚ := s 1) (mask : Option (Arr Int) := none) (lm : ℚ := 0) (fn : Option (ℚ → ℚ) := none) : TaskArgs ℚ := ⟨"test_component", cost, gain, fn, lm, mask⟩
def barrier (gain : Arr ℚ := s 1) (name : String := "test_barrier") : BarrierArgs ℚ := ⟨name, gain, none, 0⟩

/-! ### Models -/

/-- A chain of bodies, each with the given joint. -/
def chain (ts : List JntType) (range : List (ℚ × ℚ)) : MjModel ℚ :=
  { (MjModel.empty : MjModel ℚ) with
    nq := (ts.map JntType.nq).sum, nv := (ts.map JntType.nv).sum, nbody := ts.length + 1, jntType := ts,
    jntQposadr := (List.range ts.length).map fun i => ((ts.take i).map JntType.nq).sum,
    jntDofadr := (List.range ts.length).map fun i => ((ts.take i).map JntType.nv).sum,
    jntRange := range, bodyParentid := 0 :: List.range ts.length, bodyRootid := 0 :: ts.map fun _ => 1, bodyWeldid := List.range (ts.length + 1),
    dofBodyid := (ts.zipIdx.map fun ti => List.replicate ti.1.nv (ti.2 + 1)).flatten,
    bodyGeomadr := -1 :: (List.range ts.length).map Int.ofNat, bodyGeomnum := 0 :: ts.map fun _ => 1, bodyMass := 0 :: ts.map fun _ => 1,
    geomType := ts.map fun _ => 2, geomDataid := ts.map fun _ => -1, geomPriority := ts.map fun _ => 0, geomCondim := ts.map fun _ => 3,
    geomContype := ts.map fun _ => 1, geomConaffinity := ts.map fun _ => 1, geomBodyid := (List.range ts.length).map (· + 1),
    bodyNames := "world" :: (List.range ts.length).map fun i => s!"body{i + 1}", geomNames := (List.range ts.length).map fun i => s!"box{i + 1}" }

def hinges3 : MjModel ℚ := chain [.hinge, .hinge, .hinge] [(0, 0), (0, 0), (0, 0)]
def hinge1 : MjModel ℚ := chain [.hinge] [(-1 / 10, 1 / 10)]
def floating : MjModel ℚ := chain [.free, .hinge, .hinge, .hinge] [(0, 0), (0, 0), (0, 0), (0, 0)]
def freeBody : MjModel ℚ := chain [.free] [(0, 0)]

/-- External functions, as far as they are used by what is tested: the logarithm is right for translations, and every pair of spheres has two contacts. -/
def env : Env ℚ where
  kinematics _ q := ⟨q, [], [], [], [], [], [], [], [], [], [], [], [], []⟩
  comPos _ d := d
  makeConstraint _ d := d
  collide _ _ := ⟨fun t u => t == 2 && u == 2, fun _ _ => 2, fun _ _ k => ⟨3 + k, 0, ![0, 0, 1]⟩⟩
  jacrev f q := ⟨(f q).len, q.len, fun _ _ => 0⟩
  jacZero _ := 0
  rotOfMat _ := 1
  so3Log _ := 0
  se3Log T := (T.trans, 0)
  se3Exp _ := SE3.one
  quatIntegrate q _ _ := q

/-- Data with the given configuration and positions of bodies. -/
def data (q : List ℚ) (xpos : List (V3 ℚ) := []) (com : List (V3 ℚ) := []) : MjData ℚ :=
  ⟨⟨q.length, fun i => q.getD i 0⟩, xpos, [], [], [], [], [], [], [], com, [], [], [], []⟩

def valueIs (j : JaxComp ℚ) (d : MjData ℚ) (xs : List ℚ) : Bool := okAnd (evalValue env j d) fun x => x.toList == xs
def jacobianIs (j : JaxComp ℚ) (d : MjData ℚ) (xs : List (List ℚ)) : Bool := okAnd (evalJacobian env j d) fun x => isM x xs

/-! ### `components/test_base_component.py` -/

-- test_update_gain
#guard accepts (.comTask (task (gain := s 2))) [] (.updateGain (s 1))
#guard accepts (.comTask (task (gain := s 2))) [] (.updateGain (v [0, 0, 0]))
#guard refuses (.comTask (task (gain := s 2))) [] (.updateGain (mat [[1, 0, 0], [0, 1, 0], [0, 0, 1]]))
#guard made (.comTask (task (gain := s 2))) [.updateGain (v [1, 1, 1])] fun c => isVec c.attrs.gain [1, 1, 1]
-- test_vector_gain
#guard made (.jointTask (task) none) [.updateGain (s 1)] fun c => raises .valueError (vectorGain c.attrs)
#guard made (.comTask (task)) [.updateGain (s 3)] fun c => okAnd (vectorGain c.attrs) (isVec · [3, 3, 3])
#guard made (.comTask (task)) [.updateGain (v [0, 1, 2])] fun c => okAnd (vectorGain c.attrs) (isVec · [0, 1, 2])
#guard made (.comTask (task)) [.updateGain (v [1, 1, 1, 1])] fun c => raises .valueError (vectorGain c.attrs)
-- test_mask
#guard refuses (.jointTask (task) none) [] .readMask
#guard made (.comTask (task)) [.readMask] fun c => c.attrs.mask == some [1, 1, 1] && c.attrs.maskIdxs == [0, 1, 2]
#guard made (.comTask (task (mask := some (imask [1, 0, 1])))) [.readMask] fun c => c.attrs.mask == some [1, 0, 1] && c.attrs.maskIdxs == [0, 2]
#guard raises .valueError (NewComp.comTask (task (mask := some ⟨[2, 2], fun _ => 1⟩))).run
-- test_gain_function
#guard made (.comTask (task (fn := some (· ^ 2)))) [] fun c => c.attrs.gainFn 3 == 9
-- test_building_component
#guard refuses (.comTask (task (gain := s 2))) [] .compile
#guard refuses (.jointTask (task) none) [] .compile
#guard accepts (.comTask (task (gain := s 2))) [.updateModel hinge1] .compile

/-! ### `components/tasks/test_base_task.py` -/

-- test_update_gain (of the cost)
#guard made (.comTask (task)) [.updateCost (v [1, 1, 1])] fun c => match c.attrs.kind with | .comTask t _ => isVec t.cost [1, 1, 1] | _ => false
#guard accepts (.comTask (task)) [] (.updateCost (mat [[1, 0, 0], [0, 1, 0], [0, 0, 1]]))
#guard refuses (.comTask (task)) [] (.updateCost ⟨[3, 3, 3], fun _ => 0⟩)
-- test_matrix_cost
#guard raises .valueError (matrixCost (-1) (s 1))
#guard okAnd (matrixCost 3 (s 3)) (isMat · [[3, 0, 0], [0, 3, 0], [0, 0, 3]])
#guard okAnd (matrixCost 3 (v [0, 1, 2])) (isMat · [[0, 0, 0], [0, 1, 0], [0, 0, 2]])
#guard okAnd (matrixCost 3 (mat [[1, 0, 0], [0, 1, 0], [0, 0, 1]])) (isMat · [[1, 0, 0], [0, 1, 0], [0, 0, 1]])
#guard raises .valueError (matrixCost 3 (v [1, 1, 1, 1]))
#guard raises .valueError (matrixCost 3 (mat [[1, 0, 0, 0], [0, 1, 0, 0], [0, 0, 1, 0], [0, 0, 0, 1]]))
-- test_lm_damping
#guard made (.comTask (task (lm := 5))) [] fun c => match c.attrs.kind with | .comTask t _ => t.lmDamping == 5 | _ => false
#guard raises .valueError (NewComp.comTask (task (lm := -5))).run

/-! ### `components/tasks/test_com_task.py` -/

-- test_task_dim
#guard made (.comTask (task (mask := some (imask [1, 0, 1])))) [] fun c => c.attrs.dim == 2
-- test_mask_validation
#guard raises .valueError (NewComp.comTask (task (mask := some (imask [1, 0])))).run
#guard raises .valueError (NewComp.comTask (task (mask := some (imask [1, 0, 1, 0])))).run
-- test_update_target_com
#guard made (.comTask (task)) [.updateTarget (v [1, 2, 3])] fun c => match c.attrs.kind with | .comTask _ x => isVec x [1, 2, 3] | _ => false
#guard refuses (.comTask (task)) [] (.updateTarget (v [0, 1, 2, 3]))
-- test_build_component
#guard compiled (.comTask (task (gain := s 2) (fn := some (2 * ·)) (lm := 1 / 2) (mask := some (imask [1, 1, 0])))) [.updateModel hinge1, .updateTarget (v [-3 / 10, 3 / 10])] fun j =>
  j.dim == 2 && isVec j.vectorGain [2, 2] && j.gainFn 4 == 8 && j.maskIdxs == [0, 1] &&
  (match j.kind with | .comTask w lm x => isMat w [[1, 0], [0, 1]] && lm == 1 / 2 && isVec x [-3 / 10, 3 / 10] | _ => false) &&
  valueIs j (data [0] [] [![3 / 10, 3 / 10, 3 / 10], ![3 / 10, 3 / 10, 3 / 10]]) [6 / 10, 0]

/-! ### `components/tasks/test_joint_task.py` -/

-- test_set_model_no_mask
#guard made (.jointTask (task) none) [] fun c => raises .valueError (getDim c.attrs) && (match c.attrs.kind with | .jointTask _ _ none _ => true | _ => false)
#guard made (.jointTask (task) none) [.updateModel hinges3] fun c => c.attrs.dim == 3 && (match c.attrs.kind with | .jointTask _ _ (some x) _ => isVec x [0, 0, 0] | _ => false)
#guard accepts (.jointTask (task) none) [.updateModel hinges3] (.updateTarget (v [1, 1, 1]))
#guard refuses (.jointTask (task) none) [.updateModel hinges3] (.updateTarget (v [1, 1, 1, 1]))
-- test_set_model_with_mask
#guard made (.jointTask (task) (some [1, 1, 0])) [.updateModel hinges3] fun c => c.attrs.dim == 2 && (match c.attrs.kind with | .jointTask _ _ (some x) _ => x.shape == [2] | _ => false)
#guard accepts (.jointTask (task) (some [1, 1, 0])) [.updateModel hinges3] (.updateTarget (v [1, 1]))
#guard refuses (.jointTask (task) (some [1, 1, 0])) [.updateModel hinges3] (.updateTarget (v [1, 1, 1]))
#guard refuses (.jointTask (task) (some [1, 0])) [] (.updateModel hinges3)
-- test_update_target_q
#guard made (.jointTask (task) none) [.updateTarget (v [1, 2, 3])] fun c => match c.attrs.kind with | .jointTask _ _ (some x) _ => isVec x [1, 2, 3] | _ => false
#guard refuses (.jointTask (task) none) [.updateTarget (v [1, 2, 3]), .updateTarget (v [1, 2])] (.updateModel hinges3)
#guard accepts (.jointTask (task) (some [1, 1, 0])) [.updateTarget (v [1, 2])] (.updateModel hinges3)
-- test_build_component
#guard compiled (.jointTask (task (gain := s 2) (fn := some (2 * ·)) (lm := 1 / 2)) (some [1, 0, 1])) [.updateModel hinges3, .updateTarget (v [-2 / 10, 4 / 10])] fun j =>
  j.dim == 2 && isVec j.vectorGain [2, 2] && j.gainFn 4 == 8 && j.maskIdxs == [0, 2] &&
  (match j.kind with | .jointTask w lm x _ => isMat w [[1, 0], [0, 1]] && lm == 1 / 2 && isVec x [-2 / 10, 4 / 10] | _ => false) && valueIs j (data [0, 0, 0]) [2 / 10, -4 / 10]
-- test_joint_task_floating_base
#guard made (.jointTask (task) none) [.updateModel floating] fun c => c.attrs.dim == 3
#guard compiled (.jointTask (task) none) [.updateModel floating, .updateTarget (v [5 / 10, 1, -5 / 10])] fun j =>
  valueIs j (data [0, 0, 0, 0, 0, 0, 0, 0, 0, 0]) [-5 / 10, -1, 5 / 10] && valueIs j (data [1, 2, 3, 1, 0, 0, 0, 2 / 10, 8 / 10, -3 / 10]) [-3 / 10, -2 / 10, 2 / 10] &&
  jacobianIs j (data [1, 2, 3, 1, 0, 0, 0, 2 / 10, 8 / 10, -3 / 10]) [[0, 0, 0, 0, 0, 0, 1, 0, 0], [0, 0, 0, 0, 0, 0, 0, 1, 0], [0, 0, 0, 0, 0, 0, 0, 0, 1]]

/-! ### `components/tasks/test_obj_task.py`, `test_obj_position_task.py`, `test_obj_frame_task.py` -/

/-- One body with a geom, and a site on the world. -/
def objects : MjModel ℚ := { hinge1 with geomNames := ["geom1"], siteNames := ["site1"], siteBodyid := [0] }

def objIdIs (c : Comp ℚ) (i : Int) : Bool := match c.attrs.kind with | .positionTask _ o _ => o.objId == i | _ => false

-- test_obj_id, test_update_model_invalid_object
#guard made (.positionTask (task) "body1" .body) [.updateModel objects] (objIdIs · 1)
#guard made (.positionTask (task) "geom1" .geom) [.updateModel objects] (objIdIs · 0)
#guard made (.positionTask (task) "site1" .site) [.updateModel objects] (objIdIs · 0)
#guard refuses (.positionTask (task) "invalid_obj" .body) [] (.updateModel objects)
-- test_get_pos
#guard okAnd (objPos { data [0] [0, ![1, 2, 3]] with geomXpos := [![8, 10, 12]], siteXpos := [![10, 11, 12]] } .body 1) fun p => vec3List p == [1, 2, 3]
#guard okAnd (objPos { data [0] [0, ![1, 2, 3]] with geomXpos := [![8, 10, 12]], siteXpos := [![10, 11, 12]] } .geom 0) fun p => vec3List p == [8, 10, 12]
#guard okAnd (objPos { data [0] [0, ![1, 2, 3]] with geomXpos := [![8, 10, 12]], siteXpos := [![10, 11, 12]] } .site 0) fun p => vec3List p == [10, 11, 12]
-- test_target_frame of the position task
#guard made (.positionTask (task) "body3" .body) [] fun c => match c.attrs.kind with | .positionTask _ _ x => isVec x [0, 0, 0] | _ => false
#guard made (.positionTask (task) "body3" .body) [.updateTarget (v [-1, 0, 1])] fun c => match c.attrs.kind with | .positionTask _ _ x => isVec x [-1, 0, 1] | _ => false
#guard refuses (.positionTask (task) "body3" .body) [] (.updateTarget (v [0, 1, 2, 3, 4]))
-- test_build_component of the position task
#guard compiled (.positionTask (task (gain := s 2) (fn := some (2 * ·)) (lm := 1 / 2) (mask := some (imask [1, 0, 1]))) "body3" .body)
  [.updateModel hinges3, .updateTarget (v [1 / 10, -1 / 10])] fun j =>
  j.dim == 2 && isVec j.vectorGain [2, 2] && j.gainFn 4 == 8 && j.maskIdxs == [0, 2] &&
  (match j.kind with | .positionTask w lm i t x => isMat w [[1, 0], [0, 1]] && lm == 1 / 2 && i == 3 && t == .body && isVec x [1 / 10, -1 / 10] | _ => false) &&
  valueIs j (data [0, 0, 0] [0, 0, 0, 0]) [-1 / 10, 1 / 10]
-- test_target_frame of the frame task
#guard made (.frameTask (task) "body3" .body) [] fun c => match c.attrs.kind with | .frameTask _ _ x => isVec x [1, 0, 0, 0, 0, 0, 0] | _ => false
#guard made (.frameTask (task) "body3" .body) [.updateTargetFrame (.se3 (v [1 / 10, 2 / 10, -1 / 10, 0, 1, 0, 0]))] fun c =>
  match c.attrs.kind with | .frameTask _ _ x => isVec x [1 / 10, 2 / 10, -1 / 10, 0, 1, 0, 0] | _ => false
#guard made (.frameTask (task) "body3" .body) [.updateTargetFrame (.array (v [-1, 0, 1, 0, 0, 1, 0]))] fun c =>
  match c.attrs.kind with | .frameTask _ _ x => isVec x [0, 0, 1, 0, -1, 0, 1] | _ => false
#guard refuses (.frameTask (task) "body3" .body) [] (.updateTargetFrame (.array (v [-1, 0, 1, 0, 0, 1, 0, 1])))
-- test_build_component of the frame task
#guard compiled (.frameTask (task (gain := s 2) (fn := some (2 * ·)) (lm := 1 / 2) (mask := some (imask [1, 0, 1, 1, 0, 1]))) "body3" .body)
  [.updateModel hinges3, .updateTargetFrame (.array (v [1 / 10, 0, -1 / 10, 1, 0, 0, 0]))] fun j =>
  j.dim == 4 && isVec j.vectorGain [2, 2, 2, 2] && j.gainFn 4 == 8 && j.maskIdxs == [0, 2, 3, 5] &&
  (match j.kind with
    | .frameTask w lm i t x => isMat w [[1, 0, 0, 0], [0, 1, 0, 0], [0, 0, 1, 0], [0, 0, 0, 1]] && lm == 1 / 2 && i == 3 && t == .body && isVec x [1, 0, 0, 0, 1 / 10, 0, -1 / 10]
    | _ => false) &&
  valueIs j { data [0, 0, 0] [0, 0, 0, 0] with xmat := [1, 1, 1, 1] } [1 / 10, -1 / 10, 0, 0] &&
  okAnd (evalJacobian env j { data [0, 0, 0] [0, 0, 0, 0] [0, 0, 0, 0] with xmat := [1, 1, 1, 1], cdof := List.replicate 3 (![1, 0, 0], ![0, 1, 0]) }) fun J => J.rows == 4 && J.cols == 3

/-! ### `components/barriers/test_base_barrier.py`, `test_joint_barrier.py` -/

def qLimits (c : Comp ℚ) (lo hi : List ℚ) : Bool := match c.attrs.kind with | .jointBarrier _ _ (some a) (some b) _ => isVec a lo && isVec b hi | _ => false

-- test_safe_displacement_gain
#guard made (.jointBarrier (barrier (gain := s 2)) none none none) [.setSafeDisplacementGain 5] fun c => match c.attrs.kind with | .jointBarrier x .. => x == 5 | _ => false
-- test_initialization
#guard made (.jointBarrier (barrier) (some (v [-1])) (some (v [1])) none) [.updateModel hinge1] fun c => qLimits c [-1] [1] && c.attrs.dim == 2
-- test_update_q_min, test_update_q_max
#guard made (.jointBarrier (barrier) (some (v [-1])) (some (v [1])) none) [.updateModel hinge1, .updateQLimit false (v [-2])] (qLimits · [-2] [1])
#guard refuses (.jointBarrier (barrier) (some (v [-1])) (some (v [1])) none) [.updateModel hinge1] (.updateQLimit false (v [-2, -2]))
#guard made (.jointBarrier (barrier) (some (v [-1])) (some (v [1])) none) [.updateModel hinge1, .updateQLimit true (v [2])] (qLimits · [-1] [2])
#guard refuses (.jointBarrier (barrier) (some (v [-1])) (some (v [1])) none) [.updateModel hinge1] (.updateQLimit true (v [2, 2]))
-- test_default_limits
#guard made (.jointBarrier (barrier) none none none) [] fun c => match c.attrs.kind with | .jointBarrier _ _ none none _ => true | _ => false
#guard made (.jointBarrier (barrier) none none none) [.updateModel hinge1] (qLimits · [-1 / 10] [1 / 10])
-- test_jax_component
#guard compiled (.jointBarrier (barrier) (some (v [-1])) (some (v [1])) none) [.updateModel hinge1] fun j =>
  j.dim == 2 && isVec j.vectorGain [1, 1] && (match j.kind with | .jointBarrier _ lo hi _ => isVec lo [-1] && isVec hi [1] | _ => false)
-- test_call
#guard compiled (.jointBarrier (barrier) (some (v [-1])) (some (v [1])) none) [.updateModel hinge1] fun j =>
  valueIs j (data [1 / 2]) [3 / 2, 1 / 2] &&
  okAnd (jointDifference env hinge1 (data [1 / 2]).qpos (data [-1]).qpos) (· == [3 / 2]) && okAnd (jointDifference env hinge1 (data [1]).qpos (data [1 / 2]).qpos) (· == [1 / 2])
-- test_joint_barrier_floating_base
#guard compiled (.jointBarrier (barrier) (some (v [-1, -1, -1])) (some (v [1, 1, 1])) none) [.updateModel floating] fun j => j.dim == 6 &&
  valueIs j (data [0, 0, 0, 1, 0, 0, 0, 0, 0, 0]) [1, 1, 1, 1, 1, 1] &&
  valueIs j (data [0, 0, 0, 1, 0, 0, 0, -9 / 10, -9 / 10, -9 / 10]) [1 / 10, 1 / 10, 1 / 10, 19 / 10, 19 / 10, 19 / 10] &&
  valueIs j (data [0, 0, 0, 1, 0, 0, 0, 9 / 10, 9 / 10, 9 / 10]) [19 / 10, 19 / 10, 19 / 10, 1 / 10, 1 / 10, 1 / 10] &&
  jacobianIs j (data [0, 0, 0, 1, 0, 0, 0, 9 / 10, 9 / 10, 9 / 10])
    [[0, 0, 0, 0, 0, 0, 1, 0, 0], [0, 0, 0, 0, 0, 0, 0, 1, 0], [0, 0, 0, 0, 0, 0, 0, 0, 1], [0, 0, 0, 0, 0, 0, -1, 0, 0], [0, 0, 0, 0, 0, 0, 0, -1, 0], [0, 0, 0, 0, 0, 0, 0, 0, -1]]

/-! ### `components/barriers/test_obj_position_barrier.py` -/

def pos (lo hi : Option (Arr ℚ)) (t : String) : NewComp ℚ := .positionBarrier (barrier) "body1" .body lo hi t none
def pLimits (c : Comp ℚ) (lo hi : Option (List ℚ)) : Bool :=
  match c.attrs.kind with | .positionBarrier _ _ a b _ _ => (match lo with | some x => isVec a x | none => true) && (match hi with | some x => isVec b x | none => true) | _ => false
def limitTypeIs (c : Comp ℚ) (t : LimitType) : Bool := match c.attrs.kind with | .positionBarrier _ _ _ _ t' _ => t' == t | _ => false

-- test_initialization
#guard made (pos (some (v [-1, -1, -1])) (some (v [1, 1, 1])) "both") [.updateModel freeBody] fun c =>
  pLimits c (some [-1, -1, -1]) (some [1, 1, 1]) && limitTypeIs c .both && (match c.attrs.kind with | .positionBarrier _ o .. => o.objId == 1 | _ => false)
-- test_update_p_min, test_update_p_max
#guard made (pos (some (v [-1, -1, -1])) none "min") [.updatePLimit false (s (1 / 10))] (pLimits · (some [1 / 10, 1 / 10, 1 / 10]) none)
#guard made (pos (some (v [-1, -1, -1])) none "min") [.updatePLimit false (v [-2, -2, -2])] (pLimits · (some [-2, -2, -2]) none)
#guard refuses (pos (some (v [-1, -1, -1])) none "min") [] (.updatePLimit false (v [-2, -2]))
#guard accepts (pos (some (v [-1, -1, -1])) none "min") [] (.updatePLimit true (v [1, 1, 1]))
#guard made (pos none (some (v [1, 1, 1])) "max") [.updatePLimit true (s (1 / 10))] (pLimits · none (some [1 / 10, 1 / 10, 1 / 10]))
#guard made (pos none (some (v [1, 1, 1])) "max") [.updatePLimit true (v [2, 2, 2])] (pLimits · none (some [2, 2, 2]))
#guard refuses (pos none (some (v [1, 1, 1])) "max") [] (.updatePLimit true (v [2, 2]))
-- test_limit_type_and_dimension
#guard made (pos (some (v [-1, -1, -1])) none "min") [] fun c => c.attrs.dim == 3 && limitTypeIs c .min
#guard made (pos none (some (v [1, 1, 1])) "max") [] fun c => c.attrs.dim == 3 && limitTypeIs c .max
#guard made (pos (some (v [-1, -1, -1])) (some (v [1, 1, 1])) "both") [] fun c => c.attrs.dim == 6 && limitTypeIs c .both
#guard raises .valueError (pos none none "invalid").run
-- test_jax_component
#guard compiled (pos (some (v [-1, -1, -1])) (some (v [1, 1, 1])) "both") [.updateModel freeBody] fun j =>
  j.dim == 6 && isVec j.vectorGain [1, 1, 1, 1, 1, 1] && (match j.kind with | .positionBarrier _ i _ lo hi _ => i == 1 && isVec lo [-1, -1, -1] && isVec hi [1, 1, 1] | _ => false)
-- test_jax_call
#guard compiled (pos (some (v [-1, -1, -1])) (some (v [1, 1, 1])) "both") [.updateModel freeBody] fun j =>
  valueIs j (data [0, 1 / 2, -1 / 2, 1, 0, 0, 0] [0, ![0, 1 / 2, -1 / 2]]) [1, 3 / 2, 1 / 2, 1, 1 / 2, 3 / 2]

/-! ### `components/barriers/test_self_collision_barrier.py` -/

/-- Four bodies with a joint and a sphere: `body1`, and `body2`, `body3`, `body4` in a chain; the last sphere has other contact bits. -/
def spheres : MjModel ℚ :=
  { chain [.hinge, .hinge, .hinge, .hinge] [(0, 0), (0, 0), (0, 0), (0, 0)] with
    bodyParentid := [0, 0, 0, 2, 3], bodyRootid := [0, 1, 2, 2, 2], geomContype := [1, 1, 1, 2], geomConaffinity := [1, 1, 1, 2] }

def selfCol (bodies : List CollisionBody) (excl : List (CollisionBody × CollisionBody)) : NewComp ℚ := .selfCollision (barrier) (1 / 10) bodies excl (-1)
def pairsAre (c : Comp ℚ) (ps : List (Int × Int)) : Bool := match c.attrs.kind with | .selfCollision _ _ _ _ _ (some qs) => qs == ps | _ => false

-- test_initialization
#guard accepts (selfCol [.name "body1", .name "body2"] [(.name "body1", .name "body2")]) [] (.updateModel spheres)
#guard okAnd (excludeSet spheres [(.name "body1", .name "body2")]) (· == [sortedPair 1 2])
-- test_generate_collision_pairs, test_generate_collision_pairs_with_exclusion
#guard made (selfCol [] []) [.updateModel spheres] (pairsAre · [(0, 1), (0, 2)])
#guard made (selfCol [] [(.name "body1", .name "body2")]) [.updateModel spheres] (pairsAre · [(0, 2)])
-- test_body2id
#guard okAnd (body2id spheres (.name "body1")) (· == 1)
#guard okAnd (body2id spheres (.id 1)) (· == 1)
-- test_validate_body_pair
#guard okAnd (validateBodyPair spheres 1 2) id
#guard okAnd (validateBodyPair spheres 1 3) id
#guard okAnd (validateBodyPair spheres 2 4) id
#guard okAnd (validateBodyPair spheres 2 3) (!·)
#guard okAnd (validateBodyPair spheres 3 4) (!·)
-- test_validate_geom_pair
#guard okAnd (validateGeomPair spheres 0 1) id
#guard okAnd (validateGeomPair spheres 0 2) id
#guard okAnd (validateGeomPair spheres 1 2) id
#guard okAnd (validateGeomPair spheres 3 0) (!·)
#guard okAnd (validateGeomPair spheres 3 1) (!·)
#guard okAnd (validateGeomPair spheres 3 2) (!·)
-- test_d_min_vec, test_jax_component
#guard compiled (selfCol [] []) [.updateModel spheres] fun j => j.dim == 2 && isVec j.vectorGain [1, 1] &&
  (match j.kind with | .selfCollision _ d ps _ => isVec d [1 / 10, 1 / 10] && ps.length == 2 | _ => false)

/-! ### `components/constraints/test_base_constraint.py` -/

#guard okAnd (softConstraintCost (K := ℚ) 3 none) (isMat · [[100, 0, 0], [0, 100, 0], [0, 0, 100]])
#guard okAnd (softConstraintCost 3 (some (s 10))) (isMat · [[10, 0, 0], [0, 10, 0], [0, 0, 10]])
#guard okAnd (softConstraintCost 3 (some (v [1, 2, 3]))) (isMat · [[1, 0, 0], [0, 2, 0], [0, 0, 3]])
#guard raises .valueError (softConstraintCost 3 (some (v [1, 2])))
#guard okAnd (softConstraintCost 3 (some (mat [[1, 0, 0], [0, 2, 0], [0, 0, 3]]))) (isMat · [[1, 0, 0], [0, 2, 0], [0, 0, 3]])
#guard raises .valueError (softConstraintCost 3 (some (mat [[1, 0], [0, 2]])))
#guard raises .valueError (softConstraintCost 3 (some (⟨[3, 3, 1], fun _ => 1⟩ : Arr ℚ)))

/-! ### `test_problem.py` -/

def one : MjModel ℚ := chain [.hinge] [(0, 0)]

/-- The problem of `setUp`, a task, a barrier, and another barrier with the name of the task. -/
def setUp : List (Op ℚ) := [.newProblem one (s 0) (s 0), .newComp (.comTask (task)), .newComp (.jointBarrier (barrier) none none none),
  .newComp (.jointBarrier (barrier (name := "test_component")) none none none)]

/-- Result of a call after a program. -/
def after (ops : List (Op ℚ)) (op : Op ℚ) : Except Err (Res ℚ) := (step (run World.init (setUp ++ ops)) op).1
def vMinIs (ops : List (Op ℚ)) (xs : List ℚ) : Bool := match (run World.init (setUp ++ ops)).probs with | [p] => isVec p.vMin xs | _ => false
def vMaxIs (ops : List (Op ℚ)) (xs : List ℚ) : Bool := match (run World.init (setUp ++ ops)).probs with | [p] => isVec p.vMax xs | _ => false
def compiledIs (ops : List (Op ℚ)) (p : JaxProblem ℚ → Bool) : Bool := match after ops (.compile 0) with | .ok (.compiled J) => p J | _ => false
def returns (x : Except Err (Res ℚ)) (i : Nat) : Bool := match x with | .ok (.ref k) => k == i | _ => false

-- test_v_min
#guard vMinIs [.updateVMin 0 (s 1)] [1]
#guard raises .valueError (after [.updateVMin 0 (s 1)] (.updateVMin 0 (v [1, 2, 3])))
#guard vMinIs [.updateVMin 0 (s 1), .updateVMin 0 (v [1, 2, 3]), .updateVMin 0 (v [0])] [0]
#guard compiledIs [.updateVMin 0 (v [0])] fun J => isVec J.vMin [0]
#guard raises .valueError (after [] (.updateVMin 0 (mat [[1]])))
-- test_v_max
#guard vMaxIs [.updateVMax 0 (s 1)] [1]
#guard raises .valueError (after [.updateVMax 0 (s 1)] (.updateVMax 0 (v [1, 2, 3])))
#guard vMaxIs [.updateVMax 0 (s 1), .updateVMax 0 (v [1, 2, 3]), .updateVMax 0 (v [0])] [0]
#guard compiledIs [.updateVMax 0 (v [0])] fun J => isVec J.vMax [0]
#guard raises .valueError (after [] (.updateVMax 0 (mat [[1]])))
-- test_add_component
#guard match (run World.init (setUp ++ [.add 0 0, .compile 0])).comps with | c :: _ => c.attrs.model.isSome && !c.modified | _ => false
#guard compiledIs [.add 0 0] fun J => match J.comps with | [("test_component", j)] => (match j.kind with | .comTask .. => true | _ => false) | _ => false
#guard raises .valueError (after [.add 0 0, .compile 0] (.add 0 2))
-- test_remove_component
#guard compiledIs [.add 0 0, .remove 0 "test_component"] fun J => J.comps.length == 0
-- test_components_access
#guard returns (after [.add 0 0] (.component 0 "test_component")) 0
#guard raises .valueError (after [.add 0 0] (.component 0 "non_existens_component"))
-- test_tasks_access, test_barriers_access
#guard returns (after [.add 0 0, .add 0 1] (.task 0 "test_component")) 0
#guard raises .valueError (after [.add 0 0, .add 0 1] (.task 0 "test_barrier"))
#guard raises .valueError (after [.add 0 0, .add 0 1] (.task 0 "non_existent_task"))
#guard returns (after [.add 0 0, .add 0 1] (.barrier 0 "test_barrier")) 1
#guard raises .valueError (after [.add 0 0, .add 0 1] (.barrier 0 "test_component"))
#guard raises .valueError (after [.add 0 0, .add 0 1] (.barrier 0 "non_existent_task"))

/-! ### `configuration/test_configuration.py` -/

def mixed : MjModel ℚ := chain [.hinge, .ball, .hinge] [(-1, 2), (0, 2), (-1, 2)]
def complex : MjModel ℚ := chain [.free, .ball, .hinge, .slide] [(0, 0), (0, 0), (0, 0), (0, 0)]

-- test_get_frame_jacobian_world_aligned: shape, and no joint moves the world
#guard mixed.nv == 5 && okAnd (frameJacobianWorld mixed { data [0, 0, 0, 0, 1, 0] [0, 0, 0, 0] [0, 0, 0, 0] with cdof := List.replicate 5 (![1, 0, 0], ![0, 1, 0]) } 0 .body) fun rs =>
  rs.length == 5 && rs.all fun r => vec3List r.1 ++ vec3List r.2 == [0, 0, 0, 0, 0, 0]
#guard okAnd (frameJacobianWorld mixed { data [0, 0, 0, 0, 1, 0] [0, 0, 0, 0] [0, 0, 0, 0] with cdof := List.replicate 5 (![1, 0, 0], ![0, 1, 0]) } 1 .body) fun rs =>
  rs.length == 5 && rs.map (fun r => vec3List r.1 ++ vec3List r.2) == [[0, 1, 0, 1, 0, 0], [0, 0, 0, 0, 0, 0], [0, 0, 0, 0, 0, 0], [0, 0, 0, 0, 0, 0], [0, 0, 0, 0, 0, 0]]
-- test_integrate
#guard (integrate env mixed (data [0, 0, 0, 0, 1, 0]).qpos ⟨1, fun _ => 1 / 10⟩ (1 / 10)).len == 6
-- test_get_configuration_limit, test_get_configuration_limit_array
#guard okAnd (getConfigurationLimit mixed (.inl 1)) fun Ab => Ab.1.rows == 10 && Ab.1.cols == 5 && Ab.2.len == 10
#guard okAnd (getConfigurationLimit (chain [.slide, .hinge, .ball] [(0, 0), (0, 0), (0, 0)]) (.inr ⟨3, fun i => [1 / 2, 1, 3 / 2].getD i 0⟩)) fun Ab =>
  Ab.1.rows == 10 && Ab.1.cols == 5 && Ab.2.toList == [1 / 2, 1, 3 / 2, 1 / 2, 1, 3 / 2]
-- test_get_joint_zero, test_get_joint_zero_complex_model
#guard okAnd (getJointZero mixed) fun q => q.length == 6
#guard okAnd (getJointZero complex) fun q => q.length == 13
-- test_joint_difference, test_joint_difference_complex_model
#guard okAnd (jointDifference env mixed (data [0, 0, 0, 0, 1, 0]).qpos (data [1 / 10, 1, 0, 0, 0, -1 / 5]).qpos) fun d => d.length == 5
#guard okAnd (jointDifference env complex (data [1, 0, 0, 0, 0, 0, 0, 1, 0, 0, 0, 1 / 2, 1 / 5]).qpos (data [1, 0, 0, 0, 1, 0, 0, 0, 1, 0, 0, 7 / 10, 3 / 10]).qpos) fun d => d.length == 11
-- test_skew_symmetric
#guard (List.finRange 3).map (fun i => (List.finRange 3).map fun j => skewSymmetric ![(1 : ℚ), 2, 3] i j) == [[0, -3, 2], [3, 0, -1], [-2, 1, 0]]
-- test_attitude_jacobian
#guard (List.finRange 4).map (fun i => (List.finRange 3).map fun j => attitudeJacobian (⟨1 / 2, 1 / 2, 1 / 2, 1 / 2⟩ : Quaternion ℚ) i j) ==
  [[-1 / 2, -1 / 2, -1 / 2], [1 / 2, -1 / 2, 1 / 2], [1 / 2, 1 / 2, -1 / 2], [-1 / 2, 1 / 2, 1 / 2]]
-- test_jac_dq2v
#guard isM (jacDq2v (chain [.free, .ball, .hinge] [(0, 0), (0, 0), (0, 0)]) (data [1, 2, 3, 1, 0, 0, 0, 1, 0, 0, 0, 1 / 2]).qpos.get)
  [[1, 0, 0, 0, 0, 0, 0, 0, 0, 0], [0, 1, 0, 0, 0, 0, 0, 0, 0, 0], [0, 0, 1, 0, 0, 0, 0, 0, 0, 0],
   [0, 0, 0, 0, 0, 0, 0, 0, 0, 0], [0, 0, 0, 1, 0, 0, 0, 0, 0, 0], [0, 0, 0, 0, 1, 0, 0, 0, 0, 0], [0, 0, 0, 0, 0, 1, 0, 0, 0, 0],
   [0, 0, 0, 0, 0, 0, 0, 0, 0, 0], [0, 0, 0, 0, 0, 0, 1, 0, 0, 0], [0, 0, 0, 0, 0, 0, 0, 1, 0, 0], [0, 0, 0, 0, 0, 0, 0, 0, 1, 0],
   [0, 0, 0, 0, 0, 0, 0, 0, 0, 1]]

/-! ### `configuration/test_collision_utils.py` -/

-- test_sorted_pair
#guard sortedPair 5 3 == (3, 5) && sortedPair 2 2 == (2, 2)
-- test_geom_groups_ordering
#guard okAnd (geomGroups { (MjModel.empty : MjModel ℚ) with geomType := [5, 3], geomDataid := [10, 11], geomPriority := [0, 0], geomCondim := [7, 5] } [(0, 1)]) fun gs =>
  match gs with | [(k, _)] => k.type1 == 3 && k.type2 == 5 && k.condim == 7 | _ => false
-- test_geom_groups_priority
#guard okAnd (geomGroups { (MjModel.empty : MjModel ℚ) with geomType := [6, 6], geomDataid := [0, 1], geomPriority := [2, 1], geomCondim := [4, 3] } [(0, 1)]) fun gs =>
  match gs with | [(k, _)] => k.condim == 4 | _ => false
-- test_compute_collision_pairs_empty
#guard okAnd (computeCollisionPairs (env.collide spheres (data [0, 0, 0, 0])) spheres []) fun cs => cs.length == 0
-- test_get_distance_normal
#guard okAnd (getDistance env spheres (data [0, 0, 0, 0]) [(0, 1)]) fun r => r.1 == [3]
-- test_get_distance_hfield_raises
#guard raises .notImplementedError (getDistance env { spheres with geomType := [1, 2, 2, 2] } (data [0, 0, 0, 0]) [(0, 1)])

/-! ### `solvers/test_local_ik.py` -/

/-- The dummy of `test_solve_from_data_dummy`: a solver that always returns ones. -/
def ones : QPSolver ℚ Unit := fun qp => (⟨qp.c.len, fun _ => 1⟩, ())

def empty1 : JaxProblem ℚ := ⟨one, v [0], v [1], []⟩

-- test_init, test_init_valid_dimension
#guard okAnd (localInit (K := ℚ) 1 none) fun d => d.vPrev.toList == [0]
#guard raises .valueError (localInit 1 (some (v [0, 1])))
#guard okAnd (localInit 1 (some (v [0]))) fun d => d.vPrev.toList == [0]
-- test_solve
#guard raises .valueError (localSolve env ones one (v [1, 1]) ⟨Vec.zero 1⟩ empty1)
#guard okAnd (localSolve env ones one (v [1]) ⟨Vec.zero 1⟩ empty1) fun r => r.1.vOpt.toList == r.2.vPrev.toList
-- test_compute_qp_matrices_no_constraints
#guard okAnd (problemQP env one empty1 (data [0])) fun qp => qp.A.isNone && qp.b.isNone && qp.G.rows == 2 && qp.h.len == 2
-- test_compute_qp_matrices_with_hard_constraint
#guard okAnd (computeQP (K := ℚ) 1 1 ⟨1, fun _ => 0⟩ ⟨1, fun _ => 1⟩ [.constraint ⟨Mat.eye 1, Vec.zero 1, ⟨1, fun _ => (1 : ℚ)⟩, id⟩ true true (Mat.eye 1)]) fun qp =>
  (match qp.A with | some A => A.rows == 1 && A.cols == 1 | none => false) && (match qp.b with | some b => b.len == 1 | none => false)
-- test_solve_from_data_dummy
#guard okAnd (localSolveFromData env ones one empty1 ⟨Vec.zero 1⟩ (data [0])) fun r => r.1.vOpt.toList == [1] && r.2.vPrev.toList == [1]

/-! ### `solvers/test_global_ik.py` -/

/-- The centre of mass of the two spheres at configuration zero. -/
def envCom : Env ℚ := { env with kinematics := fun _ q => { data [] with qpos := q, subtreeCom := [![3 / 10, 3 / 10, 3 / 10], ![3 / 10, 3 / 10, 3 / 10]] } }
def sgd : Optimizer ℚ Unit := ⟨fun _ => (), fun g s => (⟨g.len, fun i => - g.get i⟩, s)⟩

-- test_init
#guard raises .valueError (globalInit sgd one (v [0, 1]))
#guard succeeds (globalInit sgd one (v [0]))
-- test_loss_fn
#guard compiledIs [.add 0 0, .comp 0 (.updateTarget (v [3 / 10, 3 / 10, 3 / 10]))] fun J => okAnd (globalLoss envCom id J ⟨1, fun _ => 0⟩) (· == 0)
-- test_solve
#guard compiledIs [.add 0 0] fun J => raises .valueError (globalSolve envCom id (fun _ q => q) sgd (1 / 1000) one (v [1, 1]) () J)
#guard compiledIs [.add 0 0] fun J => okAnd (globalSolve envCom id (fun _ q => q) sgd (1 / 1000) one (v [1]) () J) fun r =>
  okAnd (globalSolveFromData envCom id (fun _ q => q) sgd (1 / 1000) one () J (data [1])) fun r' => r.1.vOpt.toList == r'.1.vOpt.toList

end Mjinx.UnitTests
