import Verif.Spec.Approx
import Verif.Spec.Deriv
import Verif.Spec.Pose

/-!
# Control steps of finite length

Between two control steps the velocity is constant, while the Jacobian of a point of the robot changes.  How much is lost depends on how fast
the velocity of the point can change in the meantime.
-/

namespace Mjinx.Spec

/-- The component was made by the constructor call `n`, and its most recent model change was accepted. -/
def MadeBy {K : Type} [Field K] [LinearOrder K] (n : NewComp K) (c : Comp K) : Prop := ∃ c0, n.run = .ok c0 ∧ CleanRun c0 c

/-- What position components can refer to: a named object, or the centre of mass. -/
inductive Point where
  | object (type : ObjType) (name : String)
  | centreOfMass

/-- At configuration `q` the simulator puts the point at `pos q`. -/
def Locates (env : Env ℝ) (m : MjModel ℝ) : Point → (Vec ℝ → V3 ℝ) → Prop
  | .object ot on, pos => ∀ k : Nat, (m.names ot)[k]? = some on → ∀ q, PlacedAt (update env m q) ot k (pos q)
  | .centreOfMass, pos => m.bodyRootid[0]? = some 0 ∧ ∀ q, (update env m q).subtreeCom[0]? = some (pos q)

/-- The coordinates of the point are differentiable functions of the configuration. -/
def SmoothPoint (m : MjModel ℝ) (pos : Vec ℝ → V3 ℝ) : Prop :=
  ∀ q : Vec ℝ, q.len = m.nq → ∀ a, DifferentiableAt ℝ (fun x : Fin q.len → ℝ => pos (vecOf x) a) (coordsOf q)

/-- While the robot moves for up to `dt` seconds with a constant velocity of at most `V`, every coordinate of the point accelerates by at most `L`. -/
def AccelerationAtMost (env : Env ℝ) (m : MjModel ℝ) (V : Nat → ℝ) (L dt : ℝ) (pos : Vec ℝ → V3 ℝ) : Prop :=
  ∀ q v : Vec ℝ, q.len = m.nq → (∀ k < m.nv, |v.get k| ≤ V k) → ∀ a, ∃ speed : ℝ → ℝ, ∀ t ∈ Set.Icc 0 dt,
    HasDerivAt (fun s => pos (integrate env m q v s) a) (speed t) t ∧ |speed t - speed 0| ≤ L * t

/-- Velocities that satisfy the velocity limits of problem `p` up to `ε` are at most `V`. -/
def SpeedAtMost (m : MjModel ℝ) (p : Nat) (ε : ℝ) (V : Nat → ℝ) (w : World ℝ) : Prop :=
  ∃ P, w.probs[p]? = some P ∧ ∀ k < m.nv, P.vMax.get [k] + ε ≤ V k ∧ - P.vMin.get [k] + ε ≤ V k

/-- Problem `p` contains a position barrier for the object, made with this mask and limit type, bound to the model, with the limits `lo` and `hi`, the
default gain function and gains of at least `γ` with `gain * dt ≤ 1`. -/
def Fenced (m : MjModel ℝ) (p : Nat) (dt : ℝ) (ot : ObjType) (on : String) (lt : String) (mask : Option (Arr Int)) (lo hi : Arr ℝ) (γ : ℝ)
    (w : World ℝ) : Prop :=
  ∃ P name i c a lo0 hi0, w.probs[p]? = some P ∧ P.model = m ∧ (name, i) ∈ P.comps ∧ w.comps[i]? = some c ∧ c.attrs.model = some m ∧
    MadeBy (.positionBarrier a on ot lo0 hi0 lt mask) c ∧ pMin c = some lo ∧ pMax c = some hi ∧ c.attrs.gainFn = id ∧
    ∀ r < 2 * (selectedAxes mask).length, γ ≤ gainAt c.attrs.gain r ∧ gainAt c.attrs.gain r * dt ≤ 1

/-- The selected coordinates of a point exceed the limits of that type by at most `b`. -/
def InFence (lt : String) (mask : Option (Arr Int)) (lo hi : Arr ℝ) (b : ℝ) (x : V3 ℝ) : Prop :=
  ∀ r (h : r < (selectedAxes mask).length),
    (lt ≠ "max" → entry lo r - b ≤ x (selectedAxes mask)[r]) ∧ (lt ≠ "min" → x (selectedAxes mask)[r] ≤ entry hi r + b)

/-- The constructor call of the task for a point. -/
def Point.task (a : TaskArgs ℝ) : Point → NewComp ℝ
  | .object ot on => .positionTask a on ot
  | .centreOfMass => .comTask a

/-- The cost of a task. -/
def costOf {K : Type} (c : Comp K) : Option (Arr K) :=
  match c.attrs.kind with
  | .comTask a _ | .positionTask a _ _ => some a.cost
  | _ => none

/-- Problem `p` contains a task for the point, made with this mask, bound to the model, with the target `x`, the default gain function, the gains `g` and a
cost of at least `μ`. -/
def Aimed (m : MjModel ℝ) (p : Nat) (pt : Point) (mask : Option (Arr Int)) (x : Arr ℝ) (g : Nat → ℝ) (μ : ℝ) (w : World ℝ) : Prop :=
  ∃ P name i c a W, w.probs[p]? = some P ∧ P.model = m ∧ (name, i) ∈ P.comps ∧ w.comps[i]? = some c ∧ c.attrs.model = some m ∧
    MadeBy (pt.task a) c ∧ a.mask = mask ∧ targetPoint c = some x ∧ c.attrs.gainFn = id ∧
    (∀ r < (selectedAxes mask).length, gainAt c.attrs.gain r = g r) ∧ costOf c = some W ∧ CostAtLeast W (selectedAxes mask).length μ

/-- The selected coordinates of a point are off the target `x` by at most `e`. -/
def OffBy (mask : Option (Arr Int)) (x : Arr ℝ) (e : Nat → ℝ) (y : V3 ℝ) : Prop :=
  ∀ r (h : r < (selectedAxes mask).length), |y (selectedAxes mask)[r] - entry x r| ≤ e r

end Mjinx.Spec
