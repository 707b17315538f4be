import Verif.Model.SimEquality
import Verif.Spec.Simulator
import Verif.Spec.Reach
import Verif.Spec.Control

/-!
# Closed kinematic loops
-/

namespace Mjinx.Spec

/-- The rows of the equality constraints are those of mjx: the `connect` constraints `cs` first, then welds (open), then the joint couplings `ks`; behind them come
rows of other kinds. -/
structure SimulatesLoops (env : Env ℝ) (G : Geometry) (m : MjModel ℝ) (cs : List Connect) (ks : List Coupling) : Prop where
  supported : EqType.unsupported ∉ m.eqType
  connects : m.eqType.count .connect = cs.length
  joints : m.eqType.count .joint = ks.length
  bodies : ∀ c ∈ cs, c.body1 < m.nbody ∧ c.body2 < m.nbody
  coupled : ∀ k ∈ ks, k.joint1 ∈ scalarJoints m ∧ ∀ j, k.joint2 = some j → j ∈ scalarJoints m ∧ j ≠ k.joint1
  rows : ∀ q d, d = simComPos G m (simKinematics G m q) → ∃ (rs : List (List EfcRow)) (ws os eqs : List EfcRow),
    cs.mapM (connectRows m d) = .ok rs ∧ ws.length = 6 * m.eqType.count .weld ∧ eqs = rs.flatten ++ ws ++ ks.map (couplingRow G m d) ∧
    env.makeConstraint m d = { d with
      efcEq := eqs.map (fun _ => true) ++ os.map (fun _ => false)
      efcPos := (eqs ++ os).map EfcRow.pos
      efcJ := (eqs ++ os).map EfcRow.jac }

/-- In the simulation state `d` the first anchor of a `connect` constraint is at `u` seen from the second. -/
def AnchorsOff (d : MjData ℝ) (c : Connect) (u : V3 ℝ) : Prop :=
  ∃ T1 T2, transformFrameToWorld d c.body1 = .ok T1 ∧ transformFrameToWorld d c.body2 = .ok T2 ∧ u = T1.apply c.anchor1 - T2.apply c.anchor2

/-- How far the first joint of a coupling is from where the second wants it. -/
noncomputable def couplingOff (G : Geometry) (m : MjModel ℝ) (q : Nat → ℝ) (k : Coupling) : ℝ :=
  let from0 := fun j => q (qposOf m j) - G.qpos0 (qposOf m j)
  let y := match k.joint2 with
    | none => 0
    | some j => from0 j
  from0 k.joint1 - (k.coef 0 + k.coef 1 * y + k.coef 2 * y ^ 2 + k.coef 3 * y ^ 3 + k.coef 4 * y ^ 4)

/-- The row of coordinate `a` of the `k`-th `connect` constraint. -/
def connectRow (k : Nat) (a : Fin 3) : Nat := 3 * k + a

/-- The row of the `k`-th joint coupling. -/
def couplingAt (m : MjModel ℝ) (k : Nat) : Nat := 3 * m.eqType.count .connect + 6 * m.eqType.count .weld + k

/-- Problem `p` contains a hard equality constraint, bound to the model, with the default gain function and the gains `g`. -/
def HoldsLoops (m : MjModel ℝ) (p : Nat) (g : Nat → ℝ) (w : World ℝ) : Prop :=
  ∃ P name i c n gain hard soft act cost, w.probs[p]? = some P ∧ P.model = m ∧ (name, i) ∈ P.comps ∧ w.comps[i]? = some c ∧ c.attrs.model = some m ∧
    MadeBy (.modelEquality n gain hard soft) c ∧ c.attrs.kind = .modelEquality act true cost ∧ c.attrs.gainFn = id ∧ ∀ r, gainAt c.attrs.gain r = g r

/-- The anchors of all `connect` constraints and the joints of all couplings are off by at most `e`, row by row. -/
def LoopsOff (env : Env ℝ) (G : Geometry) (m : MjModel ℝ) (cs : List Connect) (ks : List Coupling) (e : Nat → ℝ) (q : Vec ℝ) : Prop :=
  (∀ k c, cs[k]? = some c → ∀ u, AnchorsOff (update env m q) c u → ∀ a, |u a| ≤ e (connectRow k a)) ∧
  ∀ k c, ks[k]? = some c → |couplingOff G m q.get c| ≤ e (couplingAt m k)

/-- How fast the anchors of a `connect` constraint can accelerate: the centripetal accelerations of both at the ends of the arm, stretched out, with all hinges
turning as fast as allowed. -/
noncomputable def anchorAcceleration (G : Geometry) (m : MjModel ℝ) (V : Nat → ℝ) (c : Connect) : ℝ :=
  turnSpeed m V ^ 2 * ((armLength G m + gap 0 c.anchor1) + (armLength G m + gap 0 c.anchor2))

end Mjinx.Spec
