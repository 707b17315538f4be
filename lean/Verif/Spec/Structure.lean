import Verif.Model.Eval
import Verif.Spec.Running

/-!
# Compiled problems of the same structure
-/

namespace Mjinx.Spec
variable {K : Type} [Field K] [LinearOrder K]

/-- The same class, object, limit rows, collision pairs and hardness, and arrays of the same shapes.  Dampings, activity and all entries of arrays may differ. -/
def SameFields : JaxKind K → JaxKind K → Prop
  | .comTask w _ x, .comTask w' _ x' => w.shape = w'.shape ∧ x.shape = x'.shape
  | .jointTask w _ x qi, .jointTask w' _ x' qi' => w.shape = w'.shape ∧ x.shape = x'.shape ∧ qi.length = qi'.length
  | .positionTask w _ i t x, .positionTask w' _ i' t' x' => w.shape = w'.shape ∧ i = i' ∧ t = t' ∧ x.shape = x'.shape
  | .frameTask w _ i t x, .frameTask w' _ i' t' x' => w.shape = w'.shape ∧ i = i' ∧ t = t' ∧ x.shape = x'.shape
  | .jointBarrier _ lo hi qi, .jointBarrier _ lo' hi' qi' => lo.shape = lo'.shape ∧ hi.shape = hi'.shape ∧ qi.length = qi'.length
  | .positionBarrier _ i t lo hi li, .positionBarrier _ i' t' lo' hi' li' => i = i' ∧ t = t' ∧ lo.shape = lo'.shape ∧ hi.shape = hi'.shape ∧ li = li'
  | .selfCollision _ d ps n, .selfCollision _ d' ps' n' => d.shape = d'.shape ∧ ps = ps' ∧ n = n'
  | .modelEquality _ h w, .modelEquality _ h' w' => h = h' ∧ w.shape = w'.shape
  | _, _ => False

/-- Compiled components of the same structure: the same model, dimension and mask, gains of the same shape, and alike in the fields of their class. -/
structure SameStructure (j j' : JaxComp K) : Prop where
  model : j.model = j'.model
  dim : j.dim = j'.dim
  mask : j.maskIdxs = j'.maskIdxs
  gain : j.vectorGain.shape = j'.vectorGain.shape
  fields : SameFields j.kind j'.kind

/-- Compiled problems of the same structure: the same model, the same names in the same order, components of the same structure. -/
structure SameProblem (J J' : JaxProblem K) : Prop where
  model : J.model = J'.model
  vMin : J.vMin.shape = J'.vMin.shape
  vMax : J.vMax.shape = J'.vMax.shape
  comps : List.Forall₂ (fun a b => a.1 = b.1 ∧ SameStructure a.2 b.2) J.comps J'.comps

/-- Simulation data with arrays of the same sizes, and the same rows of type equality. -/
structure SameSizes (d d' : MjData K) : Prop where
  qpos : d.qpos.len = d'.qpos.len
  xpos : d.xpos.length = d'.xpos.length
  xmat : d.xmat.length = d'.xmat.length
  geomXpos : d.geomXpos.length = d'.geomXpos.length
  geomXmat : d.geomXmat.length = d'.geomXmat.length
  siteXpos : d.siteXpos.length = d'.siteXpos.length
  siteXmat : d.siteXmat.length = d'.siteXmat.length
  xipos : d.xipos.length = d'.xipos.length
  subtreeCom : d.subtreeCom.length = d'.subtreeCom.length
  cdof : d.cdof.length = d'.cdof.length
  efcEq : d.efcEq = d'.efcEq
  efcPos : d.efcPos.length = d'.efcPos.length
  efcJ : d.efcJ.length = d'.efcJ.length

/-- The sizes of what the libraries return depend on the model and on sizes only: arrays of the simulator, numbers of contacts, Jacobians. -/
structure FixedSizes (env : Env K) (m : MjModel K) : Prop where
  update : ∀ q q' : Vec K, q.len = q'.len → SameSizes (update env m q) (update env m q')
  kinematics : ∀ q q' : Vec K, q.len = q'.len → SameSizes (env.kinematics m q) (env.kinematics m q')
  contacts : ∀ d d' t1 t2, (env.collide m d).known t1 t2 = (env.collide m d').known t1 t2 ∧ (env.collide m d).ncon t1 t2 = (env.collide m d').ncon t1 t2
  jacrev : ∀ f q, (env.jacrev f q).rows = (f q).len ∧ (env.jacrev f q).cols = q.len

/-- Two computations end alike: both succeed, or both raise the same exception, unless one of them goes on with infinite numbers. -/
def EndAlike {α β : Type} (x : Except Err α) (y : Except Err β) : Prop :=
  (∃ a b, x = .ok a ∧ y = .ok b) ∨ (∃ e, x = .error e ∧ y = .error e) ∨ x = .error .nonFinite ∨ y = .error .nonFinite

/-- Optional arrays: the same shape as this one. -/
def ShapedLike (x : Arr K) (y : Option (Arr K)) : Prop := ∃ z, y = some z ∧ x.shape = z.shape

/-- A call on a component with the class-specific settings `k` that keeps shapes: targets and limits have the shape of those they replace (or, for limits on
positions without batch axes, are numbers); no other model, number of collisions or hardness is set.  Gains, costs, dampings, margins, activity are free. -/
def KeepsShapes : Kind K → CompOp K → Prop
  | .comTask _ y, .updateTarget x => x.shape = y.shape
  | .positionTask _ _ y, .updateTarget x => x.shape = y.shape
  | .jointTask _ _ y _, .updateTarget x => ShapedLike x y
  | .frameTask _ _ y, .updateTargetFrame (.se3 x) => x.shape = y.shape
  | .frameTask _ _ y, .updateTargetFrame (.array x) => x.shape = y.shape
  | .jointBarrier _ _ lo hi _, .updateQLimit upper x => ShapedLike x (if upper then hi else lo)
  | .positionBarrier _ _ lo hi _ _, .updatePLimit upper x =>
      x.shape = (if upper then hi else lo).shape ∨ x.shape = [] ∧ (if upper then hi else lo).shape.length = 1
  | .selfCollision _ _ _ _ n _, .setNClosest k => k = n
  | .modelEquality _ h _, .setHard b => b = h
  | _, .updateModel _ => False
  | _, _ => True

/-- A call that keeps the structure of problem `p` as it was in `w`: calls that keep shapes on its components; any other call that neither adds a component to the
problem, nor one of its components to another problem, nor removes one. -/
def KeepsStructure (p : Nat) (w : World K) : Op K → Prop
  | .comp i op => IsPartOf p w i → ∀ c, w.comps[i]? = some c → KeepsShapes c.attrs.kind op
  | .add q i => q ≠ p ∧ ¬ IsPartOf p w i
  | .remove q _ => q ≠ p
  | _ => True

end Mjinx.Spec
