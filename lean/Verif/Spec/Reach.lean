import Verif.Spec.Simulator
import Verif.Spec.Sampled

/-!
# How fast the points of a robot can accelerate
-/

namespace Mjinx.Spec
open Finset

/-- The robot only has hinges and slides, and no hinge turns a slide: arms with hinges, possibly on rails.  Joint `i` turns joint `j` if it belongs to
a body above, or comes earlier in the same body. -/
structure RailArm (G : Geometry) (m : MjModel ℝ) : Prop where
  joints : ∀ t ∈ m.jntType, t = .hinge ∨ t = .slide
  rails : ∀ j < m.jntType.length, m.jntType.getD j .hinge = .slide → ∀ i < m.jntType.length, m.jntType.getD i .hinge = .hinge →
    ¬ Anc m.bodyParentid (G.jntBodyid.getD i 0) (m.bodyParentid.getD (G.jntBodyid.getD j 0) 0) ∧
    ¬ (G.jntBodyid.getD i 0 = G.jntBodyid.getD j 0 ∧ i < j)

/-- The length of all links, plus twice the distances of the joints from the origins of their bodies. -/
noncomputable def armLength (G : Geometry) (m : MjModel ℝ) : ℝ :=
  ∑ b ∈ range m.nbody, gap 0 (G.bodyPos.getD b 0) + ∑ j ∈ range m.jntType.length, 2 * gap 0 (G.jntPos.getD j 0)

/-- If the speed of joint velocity `k` is at most `V k`, all hinges together turn at most this fast. -/
noncomputable def turnSpeed (m : MjModel ℝ) (V : Nat → ℝ) : ℝ :=
  ∑ j ∈ range m.jntType.length, if m.jntType.getD j .hinge = .hinge then V (dofOf m j) else 0

/-- The place of a body, geometry or site within its body. -/
noncomputable def placeOf (G : Geometry) : ObjType → Nat → V3 ℝ
  | .geom, k => G.geomPos.getD k 0
  | .site, k => G.sitePos.getD k 0
  | _, _ => 0

/-- A point of the robot: an object whose name is not used twice, or the centre of mass of a robot with mass. -/
def PartOf (m : MjModel ℝ) : Point → Prop
  | .object ot on => ot ≠ .other ∧ ∃ k, (∀ k', (m.names ot)[k']? = some on ↔ k' = k) ∧ ∃ b, bodyOf m ot k = some b
  | .centreOfMass => m.bodyRootid[0]? = some 0 ∧ (∀ w ∈ m.bodyMass, 0 ≤ w) ∧ 1 / 10 ^ 15 ≤ ∑ b ∈ range m.nbody, m.bodyMass.getD b 0

/-- At configuration `q` the simulator puts the point at `x`. -/
def IsAt (env : Env ℝ) (m : MjModel ℝ) (q : Vec ℝ) : Point → V3 ℝ → Prop
  | .object ot on, x => ∃ k, (m.names ot)[k]? = some on ∧ PlacedAt (update env m q) ot k x
  | .centreOfMass, x => (update env m q).subtreeCom[0]? = some x

/-- How far the point is from the origin of its body; for the centre of mass, all distances of the centres of the bodies from their origins. -/
noncomputable def overhang (G : Geometry) (m : MjModel ℝ) : Point → ℝ
  | .object ot on => gap 0 (placeOf G ot ((m.names ot).idxOf on))
  | .centreOfMass => ∑ b ∈ range m.nbody, gap 0 (G.bodyIpos.getD b 0)

/-- The centripetal acceleration of a point at the end of the arm, stretched out, with all hinges turning as fast as allowed. -/
noncomputable def maxAcceleration (G : Geometry) (m : MjModel ℝ) (V : Nat → ℝ) (pt : Point) : ℝ :=
  turnSpeed m V ^ 2 * (armLength G m + overhang G m pt)

end Mjinx.Spec
