import Verif.Model.Simulator
import Verif.Spec.Tree
import Verif.Spec.Joints
import Verif.Spec.Collision

/-!
# Robots and simulators

What MuJoCo's compiler guarantees about the tables of a robot, and what it means that the open simulator functions are those of mjx.
-/

namespace Mjinx.Spec
open scoped Quaternion

/-- The tables that MuJoCo's compiler produces: every joint belongs to a body other than the world, degrees of freedom belong to the bodies of their
joints, hinge axes and orientations are normalised, a free joint is the only joint of a body of the world, behind a ball joint there are only
slides, the bodies of one kinematic tree have the same root, and geometries and sites belong to bodies. -/
structure RobotWF (G : Geometry) (m : MjModel ℝ) : Prop where
  tree : TreeWF m
  addr : JointsWF m
  joints : ∀ j < m.jntType.length, 0 < G.jntBodyid.getD j 0 ∧ G.jntBodyid.getD j 0 < m.nbody
  dofs : m.dofBodyid = (List.range m.jntType.length).flatMap fun j =>
    List.replicate (m.jntType.getD j .hinge).nv (G.jntBodyid.getD j 0)
  axis : ∀ j < m.jntType.length, m.jntType.getD j .hinge = .hinge → sq3 (G.jntAxis.getD j 0) = 1
  quat : ∀ b, Quaternion.normSq (G.bodyQuat.getD b 1) = 1
  free : ∀ j < m.jntType.length, m.jntType.getD j .hinge = .free → m.bodyParentid.getD (G.jntBodyid.getD j 0) 0 = 0 ∧
    ∀ i < m.jntType.length, G.jntBodyid.getD i 0 = G.jntBodyid.getD j 0 → i = j
  ball : ∀ j i, j < i → i < m.jntType.length → G.jntBodyid.getD i 0 = G.jntBodyid.getD j 0 → m.jntType.getD j .hinge = .ball →
    m.jntType.getD i .hinge = .slide
  roots : m.bodyRootid.length = m.nbody ∧ ∀ b < m.nbody, m.bodyRootid.getD b 0 < m.nbody
  root : ∀ b, 0 < b → b < m.nbody → m.bodyParentid.getD b 0 ≠ 0 → m.bodyRootid.getD b 0 = m.bodyRootid.getD (m.bodyParentid.getD b 0) 0
  mass : m.bodyMass.length = m.nbody
  objects : (∀ b ∈ m.geomBodyid, b < m.nbody) ∧ ∀ b ∈ m.siteBodyid, b < m.nbody
  turns : (∀ i, Quaternion.normSq (G.geomQuat.getD i 1) = 1) ∧ ∀ i, Quaternion.normSq (G.siteQuat.getD i 1) = 1

/-- The simulator functions are those of mjx, on the robot `m` with the geometry `G`; the constraint rows remain open. -/
structure Simulates (env : Env ℝ) (G : Geometry) (m : MjModel ℝ) : Prop where
  kinematics : ∀ q, env.kinematics m q = simKinematics G m q
  comPos : ∀ q, env.comPos m (simKinematics G m q) = simComPos G m (simKinematics G m q)
  constraint : ∀ d, ∃ e p J, env.makeConstraint m d = { d with efcEq := e, efcPos := p, efcJ := J }
  quat : env.quatIntegrate = quatIntegrateR

/-- The collision functions of planes (type 0) and spheres (type 2) are those of mjx; `size` are the radii of the spheres (`geom_size[:, 0]`).  The
functions of all other types remain open. -/
structure CollidesSpheres (env : Env ℝ) (size : List ℝ) (m : MjModel ℝ) : Prop where
  known : ∀ d, (env.collide m d).known 2 2 = true ∧ (env.collide m d).known 0 2 = true
  ncon : ∀ d, (env.collide m d).ncon 2 2 = 1 ∧ (env.collide m d).ncon 0 2 = 1
  spheres : ∀ (d : MjData ℝ) (key : FunctionKey) (g : Int × Int), key.type1 = 2 → key.type2 = 2 → (env.collide m d).contact key g 0 =
    sphereSphere (d.geomXpos.getD g.1.toNat 0) (size.getD g.1.toNat 0) (d.geomXpos.getD g.2.toNat 0) (size.getD g.2.toNat 0)
  planes : ∀ (d : MjData ℝ) (key : FunctionKey) (g : Int × Int), key.type1 = 0 → key.type2 = 2 → (env.collide m d).contact key g 0 =
    planeSphere (d.geomXpos.getD g.1.toNat 0) (d.geomXmat.getD g.1.toNat 0) (d.geomXpos.getD g.2.toNat 0) (size.getD g.2.toNat 0)

/-- A list of pairs of geoms of the types `t1` and `t2` that all belong to one group of collision pairs (same contact dimensionality). -/
structure OneGroup (m : MjModel ℝ) (t1 t2 : Nat) (pairs : List (Int × Int)) : Prop where
  tables : GeomsWF m
  bodies : m.geomBodyid.length = m.geomType.length
  inRange : ∀ g ∈ pairs, InRange m g
  types : ∀ g ∈ pairs, geomTypeOf m g.1 = t1 ∧ geomTypeOf m g.2 = t2
  same : ∀ g ∈ pairs, ∀ g' ∈ pairs, keyOf m g = keyOf m g'

/-- The distance of two points. -/
noncomputable def gap (x y : V3 ℝ) : ℝ := √(sq3 (y - x))

end Mjinx.Spec
