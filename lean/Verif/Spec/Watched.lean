import Verif.Spec.CollisionFlow
import Verif.Spec.Reach

/-!
# Robots that watch their balls
-/

namespace Mjinx.Spec

/-- Problem `p` contains a self-collision barrier, bound to the model, that watches the pairs of geoms `pairs` and reports all of them (as with the default
`n_closest_pairs`), with the minimal distance `dMin`, the default gain function and gains of at least `γ` with `gain * dt ≤ 1`. -/
def WatchesPairs (m : MjModel ℝ) (p : Nat) (dt dMin : ℝ) (pairs : List (Int × Int)) (γ : ℝ) (w : World ℝ) : Prop :=
  ∃ P name i c sdg bodies ex, w.probs[p]? = some P ∧ P.model = m ∧ (name, i) ∈ P.comps ∧ w.comps[i]? = some c ∧ c.attrs.model = some m ∧
    c.attrs.kind = .selfCollision sdg dMin bodies ex pairs.length (some pairs) ∧ c.attrs.dim = pairs.length ∧ c.attrs.gainFn = id ∧
    ∀ r < pairs.length, γ ≤ gainAt c.attrs.gain r ∧ gainAt c.attrs.gain r * dt ≤ 1

/-- How fast two geoms can accelerate towards each other: the centripetal accelerations of both at the ends of the arm, stretched out, with all hinges
turning as fast as allowed. -/
noncomputable def pairAcceleration (G : Geometry) (m : MjModel ℝ) (V : Nat → ℝ) (g : Int × Int) : ℝ :=
  turnSpeed m V ^ 2 * ((armLength G m + gap 0 (G.geomPos.getD g.1.toNat 0)) + (armLength G m + gap 0 (G.geomPos.getD g.2.toNat 0)))

/-- The centripetal acceleration of one geom at the end of the arm. -/
noncomputable def ballAcceleration (G : Geometry) (m : MjModel ℝ) (V : Nat → ℝ) (g : Int) : ℝ :=
  turnSpeed m V ^ 2 * (armLength G m + gap 0 (G.geomPos.getD g.toNat 0))

end Mjinx.Spec
