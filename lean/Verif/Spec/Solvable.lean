import Verif.Spec.Sim
import Verif.Spec.Collision

/-!
# What it takes to evaluate a component

Sizes of the arrays of a MuJoCo model and of its simulation data, and the settings no setter checks.
-/

namespace Mjinx.Spec
variable {K : Type} [Field K] [LinearOrder K]

/-- The tables of a model fit each other, as MuJoCo's compiler produces them: one entry per body, geom, site, degree of freedom;
ids refer to existing bodies; there is at least the world body. -/
structure ModelFits (m : MjModel K) : Prop where
  bodies : 0 < m.nbody
  rootLen : m.bodyRootid.length = m.nbody
  root : ∀ r ∈ m.bodyRootid, r < m.nbody
  mass : m.bodyMass.length = m.nbody
  bodyNames : m.bodyNames.length = m.nbody
  geomNames : m.geomNames.length = m.geomBodyid.length
  siteNames : m.siteNames.length = m.siteBodyid.length
  geomBody : ∀ b ∈ m.geomBodyid, b < m.nbody
  siteBody : ∀ b ∈ m.siteBodyid, b < m.nbody
  geomLen : m.geomBodyid.length = m.geomType.length
  contypeLen : m.geomContype.length = m.geomType.length
  joints : JointsWF m
  geoms : GeomsWF m
  collision : CollisionWF m

/-- Positions of simulation data, one per object of the model. -/
structure PositionsFit (m : MjModel K) (d : MjData K) : Prop where
  xpos : d.xpos.length = m.nbody
  geomXpos : d.geomXpos.length = m.geomBodyid.length
  siteXpos : d.siteXpos.length = m.siteBodyid.length

/-- Simulation data of the model: one entry per coordinate, degree of freedom, body, geom and site. -/
structure DataFits (m : MjModel K) (d : MjData K) : Prop extends PositionsFit m d where
  xmat : d.xmat.length = m.nbody
  geomXmat : d.geomXmat.length = m.geomBodyid.length
  siteXmat : d.siteXmat.length = m.siteBodyid.length
  subtreeCom : d.subtreeCom.length = m.nbody

/-- What the simulator returns fits the model, and every collision function reports at least one contact. -/
structure EnvFits (env : Env K) (m : MjModel K) : Prop where
  kinematics : ∀ q, q.len = m.nq → PositionsFit m (env.kinematics m q) ∧ (env.kinematics m q).xipos.length = m.nbody
  contacts : ∀ d t1 t2, (env.collide m d).known t1 t2 = true → 1 ≤ (env.collide m d).ncon t1 t2

/-- Settings that nothing checks: targets and limits are not batched, joint limits fit the selected joints, objects are bodies,
geoms or sites, and a self-collision barrier watches at least one pair and does not ask for more distances than it watches pairs
(nor for another number than at the last model update); the simulator can collide the types of every watched pair. -/
def Usable (env : Env K) (j : JaxComp K) : Prop :=
  match j.kind with
  | .comTask _ _ x => x.shape.length = 1
  | .jointTask _ _ x _ => x.shape.length = 1
  | .positionTask _ _ _ ty x => x.shape.length = 1 ∧ ty ≠ .other
  | .frameTask _ _ _ ty x => x.shape = [7] ∧ ty ≠ .other
  | .jointBarrier _ lo hi qi => FitsVec lo qi.length ∧ FitsVec hi qi.length
  | .positionBarrier _ _ ty lo hi _ => lo.shape.length = 1 ∧ hi.shape.length = 1 ∧ ty ≠ .other
  | .selfCollision _ _ pairs n => n = j.dim ∧ pairs ≠ [] ∧ n ≤ pairs.length ∧
    ∀ d, ∀ g ∈ pairs, HasFunction (env.collide j.model d) j.model g
  | .modelEquality .. => True

/-- Barriers among the compiled components. -/
def CompiledBarrier (j : JaxComp K) : Prop :=
  match j.kind with
  | .jointBarrier .. | .positionBarrier .. | .selfCollision .. => True
  | _ => False

end Mjinx.Spec
