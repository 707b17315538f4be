import Verif.Spec.Simulator
import Verif.Spec.Deriv
import Verif.Model.Eval

/-!
# Carrying a floating robot elsewhere

A robot with free bases is put `s` further on, with its targets and limits, everything else staying as it is.
-/

noncomputable section

namespace Mjinx.Spec

/-- What the coordinates of a joint change by if its robot is moved by `s`: the positions of free joints move, orientations and all other joints stay. -/
def baseOffsets (s : V3 ℝ) : JntType → List ℝ
  | .free => [s 0, s 1, s 2, 0, 0, 0, 0]
  | .ball => [0, 0, 0, 0]
  | .hinge => [0]
  | .slide => [0]

/-- What coordinate `i` of the configuration changes by. -/
def baseOffset (m : MjModel ℝ) (s : V3 ℝ) (i : Nat) : ℝ := (m.jntType.flatMap (baseOffsets s)).getD i 0

/-- The configuration of the robot after it has been moved by `s`. -/
def carry (m : MjModel ℝ) (s : V3 ℝ) (q : Vec ℝ) : Vec ℝ := ⟨q.len, fun i => q.get i + baseOffset m s i⟩

/-- An array whose entry `i` is changed by `off i`. -/
def carryArr (off : Nat → ℝ) (x : Arr ℝ) : Arr ℝ := ⟨x.shape, fun idx => x.get idx + off (idx.headD 0)⟩

/-- What the selected axes of a position change by. -/
def axesOffset (s : V3 ℝ) (mask : List Nat) : Nat → ℝ := ((vec3 s).gather mask).get

/-- What the selected coordinates change by. -/
def coordsOffset (m : MjModel ℝ) (s : V3 ℝ) (qi : List Nat) : Nat → ℝ := ((⟨m.nq, baseOffset m s⟩ : Vec ℝ).gather qi).get

/-- A component with its target, or its limits, moved by `s`. -/
def carryComp (m : MjModel ℝ) (s : V3 ℝ) (j : JaxComp ℝ) : JaxComp ℝ :=
  { j with kind := match j.kind with
    | .comTask w lm x => .comTask w lm (carryArr (axesOffset s j.maskIdxs) x)
    | .jointTask w lm x qi => .jointTask w lm (carryArr (coordsOffset m s qi) x) qi
    | .positionTask w lm i ty x => .positionTask w lm i ty (carryArr (axesOffset s j.maskIdxs) x)
    | .jointBarrier g lo hi qi => .jointBarrier g (carryArr (coordsOffset m s qi) lo) (carryArr (coordsOffset m s qi) hi) qi
    | .positionBarrier g i ty lo hi li =>
      .positionBarrier g i ty (carryArr (axesOffset s j.maskIdxs) lo) (carryArr (axesOffset s j.maskIdxs) hi) li
    | .frameTask w lm i ty x => .frameTask w lm i ty (carryArr (fun k => if k < 4 then 0 else (vec3 s).get (k - 4)) x)
    | k => k }

/-- A problem with all targets and limits moved by `s`. -/
def carryProblem (m : MjModel ℝ) (s : V3 ℝ) (p : JaxProblem ℝ) : JaxProblem ℝ :=
  { p with comps := p.comps.map fun c => (c.1, carryComp m s c.2) }

/-- Object `i` exists and belongs to the robot, not to the world. -/
def OnRobot (m : MjModel ℝ) (ty : ObjType) (i : Int) : Prop := 0 ≤ i ∧ ∃ b, bodyOf m ty i.toNat = some b ∧ b ≠ 0

/-- The rows of the equality constraints do not depend on where the robot is (constraints between its own bodies; not welds to the world). -/
def SameRows (env : Env ℝ) (m : MjModel ℝ) (s : V3 ℝ) : Prop :=
  ∀ q, (update env m (carry m s q)).efcEq = (update env m q).efcEq ∧ (update env m (carry m s q)).efcPos = (update env m q).efcPos ∧
    (update env m (carry m s q)).efcJ = (update env m q).efcJ

/-- A contact moved by `s`. -/
def movedContact (s : V3 ℝ) (c : ContactVal ℝ) : ContactVal ℝ := ⟨c.dist, c.pos + s, c.normal⟩

/-- The collision functions see relative positions only: the contacts between geometries of the robot move along (`sphere_along` is a case). -/
def ContactsAlong (env : Env ℝ) (m : MjModel ℝ) (s : V3 ℝ) : Prop :=
  ∀ q, (∀ t1 t2, (env.collide m (update env m (carry m s q))).known t1 t2 = (env.collide m (update env m q)).known t1 t2 ∧
      (env.collide m (update env m (carry m s q))).ncon t1 t2 = (env.collide m (update env m q)).ncon t1 t2) ∧
    ∀ key g n, OnRobot m .geom g.1 → OnRobot m .geom g.2 →
      (env.collide m (update env m (carry m s q))).contact key g n = movedContact s ((env.collide m (update env m q)).contact key g n)

/-- Components whose targets can be moved along: targets and limits have one entry per selected axis or coordinate, and objects belong to the robot.  Tasks for whole
frames are not among them (`C122_frame_wrong`). -/
def Portable (env : Env ℝ) (m : MjModel ℝ) (s : V3 ℝ) (j : JaxComp ℝ) : Prop :=
  j.model = m ∧
  match j.kind with
  | .comTask _ _ x => x.shape = [j.maskIdxs.length] ∧ 1 / 10 ^ 15 ≤ ∑ b ∈ Finset.range m.nbody, m.bodyMass.getD b 0
  | .jointTask _ _ x qi => x.shape = [qi.length]
  | .positionTask _ _ i ty x => x.shape = [j.maskIdxs.length] ∧ OnRobot m ty i
  | .frameTask .. => False
  | .jointBarrier _ lo hi qi => lo.shape = [qi.length] ∧ hi.shape = [qi.length]
  | .positionBarrier _ i ty lo hi _ => lo.shape = [j.maskIdxs.length] ∧ hi.shape = [j.maskIdxs.length] ∧ OnRobot m ty i
  | .selfCollision _ _ pairs _ => ContactsAlong env m s ∧ ∀ g ∈ pairs, OnRobot m .geom g.1 ∧ OnRobot m .geom g.2
  | .modelEquality .. => SameRows env m s

/-- Nothing of the robot is attached to the world: every body on the world has a free joint.  The world has no mass. -/
structure Floating (G : Geometry) (m : MjModel ℝ) : Prop where
  base : ∀ b, 0 < b → b < m.nbody → m.bodyParentid.getD b 0 = 0 → ∃ j < m.jntType.length, G.jntBodyid.getD j 0 = b ∧ m.jntType.getD j .hinge = .free
  weightless : m.bodyMass.getD 0 0 = 0
  worldRoot : m.bodyRootid.getD 0 0 = 0
  roots : ∀ b, 0 < b → b < m.nbody → m.bodyRootid.getD b 0 ≠ 0

/-- Automatic differentiation at a point that is moved along with the function. -/
def DifferentiatesAlong (env : Env ℝ) : Prop :=
  ∀ (f g : Vec ℝ → Vec ℝ) (q : Vec ℝ) (o : Nat → ℝ), (∀ i, q.len ≤ i → o i = 0) →
    (∀ x : Vec ℝ, x.len = q.len → g ⟨x.len, fun i => x.get i + o i⟩ = f x) → env.jacrev g ⟨q.len, fun i => q.get i + o i⟩ = env.jacrev f q

/-- A control loop on one compiled problem: solve, move for `dt` seconds, `n` times.  An exception ends it. -/
def driven {I : Type} (env : Env ℝ) (osqp : QPSolver ℝ I) (m : MjModel ℝ) (p : JaxProblem ℝ) (dt : ℝ) : Nat → Vec ℝ → LocalIKData ℝ → Except Err (Vec ℝ × LocalIKData ℝ)
  | 0, q, st => .ok (q, st)
  | n + 1, q, st => do
    let r ← localSolve env osqp m q.toArr st p
    driven env osqp m p dt n (integrate env m q r.1.vOpt dt) r.2

end Mjinx.Spec
