import Verif.Model.SimWeld
import Verif.Spec.Loops

/-!
# Welded bodies
-/

namespace Mjinx.Spec
open scoped Quaternion

/-- The rows of the equality constraints are those of mjx: the `connect` constraints `cs` first, then the welds `ws`, then the joint couplings `ks`; behind them come
rows of other kinds. -/
structure SimulatesWelds (env : Env ℝ) (G : Geometry) (m : MjModel ℝ) (cs : List Connect) (ws : List Weld) (ks : List Coupling) : Prop where
  supported : EqType.unsupported ∉ m.eqType
  connects : m.eqType.count .connect = cs.length
  welds : m.eqType.count .weld = ws.length
  joints : m.eqType.count .joint = ks.length
  bodies : ∀ c ∈ cs, c.body1 < m.nbody ∧ c.body2 < m.nbody
  welded : ∀ w ∈ ws, w.body1 < m.nbody ∧ w.body2 < m.nbody ∧ Quaternion.normSq w.relpose = 1
  coupled : ∀ k ∈ ks, k.joint1 ∈ scalarJoints m ∧ ∀ j, k.joint2 = some j → j ∈ scalarJoints m ∧ j ≠ k.joint1
  rows : ∀ q d, d = simComPos G m (simKinematics G m q) → ∃ (rs ss : List (List EfcRow)) (os eqs : List EfcRow),
    cs.mapM (connectRows m d) = .ok rs ∧ ws.mapM (weldRows m d) = .ok ss ∧ eqs = rs.flatten ++ ss.flatten ++ ks.map (couplingRow G m d) ∧
    env.makeConstraint m d = { d with
      efcEq := eqs.map (fun _ => true) ++ os.map (fun _ => false)
      efcPos := (eqs ++ os).map EfcRow.pos
      efcJ := (eqs ++ os).map EfcRow.jac }

/-- In the simulation state `d` the bodies of a weld are where the weld wants them: the frame at `anchor2` of the first body, turned by `relpose`, and the frame at
`anchor1` of the second body are the same. -/
def Welded (d : MjData ℝ) (w : Weld) : Prop :=
  ∃ T1 T2, transformFrameToWorld d w.body1 = .ok T1 ∧ transformFrameToWorld d w.body2 = .ok T2 ∧
    ∀ p, T1.apply (w.anchor2 + rotate w.relpose p) = T2.apply (w.anchor1 + p)

/-- In the simulation state `d` the origins of these frames are `u` apart, and the rotation from the second to the first has the vector part `r` (its axis times the
sine of half its angle), scaled by `torquescale`. -/
def WeldOff (d : MjData ℝ) (w : Weld) (u r : V3 ℝ) : Prop :=
  ∃ T1 T2, transformFrameToWorld d w.body1 = .ok T1 ∧ transformFrameToWorld d w.body2 = .ok T2 ∧
    u = T1.apply w.anchor2 - T2.apply w.anchor1 ∧ r = w.torquescale • imVec (star T2.rot * (T1.rot * w.relpose))

/-- The rows of the `k`-th weld: three for the origins and three for the rotation. -/
def weldPosAt (m : MjModel ℝ) (k : Nat) (a : Fin 3) : Nat := 3 * m.eqType.count .connect + (6 * k + a)
def weldRotAt (m : MjModel ℝ) (k : Nat) (a : Fin 3) : Nat := 3 * m.eqType.count .connect + (6 * k + (3 + a))

/-- All welds are off by at most `e`, row by row. -/
def WeldsOff (env : Env ℝ) (m : MjModel ℝ) (ws : List Weld) (e : Nat → ℝ) (q : Vec ℝ) : Prop :=
  ∀ k w, ws[k]? = some w → ∀ u r, WeldOff (update env m q) w u r → ∀ a, |u a| ≤ e (weldPosAt m k a) ∧ |r a| ≤ e (weldRotAt m k a)

/-- How fast the origins of the frames of a weld can accelerate. -/
noncomputable def weldAcceleration (G : Geometry) (m : MjModel ℝ) (V : Nat → ℝ) (w : Weld) : ℝ :=
  turnSpeed m V ^ 2 * ((armLength G m + gap 0 w.anchor2) + (armLength G m + gap 0 w.anchor1))

/-- How fast the rotation between the frames of a weld can accelerate. -/
noncomputable def weldTurning (m : MjModel ℝ) (V : Nat → ℝ) (w : Weld) : ℝ := |w.torquescale| * turnSpeed m V ^ 2

end Mjinx.Spec
