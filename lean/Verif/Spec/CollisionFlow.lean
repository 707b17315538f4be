import Verif.Spec.Simulator

/-!
# Balls that stay apart
-/

namespace Mjinx.Spec
open scoped Matrix

/-- Every point of one ball of the pair has at least the distance `c` from every point of the other. -/
def BallsApart (d : MjData ℝ) (size : List ℝ) (c : ℝ) (g : Int × Int) : Prop :=
  ∀ x1 x2, objPos d .geom g.1 = .ok x1 → objPos d .geom g.2 = .ok x2 →
    ∀ y1 y2, gap x1 y1 ≤ size.getD g.1.toNat 0 → gap x2 y2 ≤ size.getD g.2.toNat 0 → c ≤ gap y1 y2

/-- Every point of the ball, the second geom of the pair, is at least `c` above the plane, the first. -/
def BallAbove (d : MjData ℝ) (size : List ℝ) (c : ℝ) (g : Int × Int) : Prop :=
  ∀ x1 R x2, objPos d .geom g.1 = .ok x1 → objMat d .geom g.1 = .ok R → objPos d .geom g.2 = .ok x2 →
    ∀ y, gap x2 y ≤ size.getD g.2.toNat 0 → c ≤ (y - x1) ⬝ᵥ fun a => R a 2

end Mjinx.Spec
