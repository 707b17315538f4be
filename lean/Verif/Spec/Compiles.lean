import Verif.Spec.Problem

/-!
# When components and problems compile
-/

namespace Mjinx.Spec
variable {K : Type} [Field K] [LinearOrder K]

/-- A gain for `n` rows: one number, or one per row. -/
def GainFits (n : Nat) (g : Arr K) : Prop := g.shape = [] ∨ g.shape = [n]

/-- A cost for `n` rows: one number, one per row, or a square matrix. -/
def CostFits (n : Nat) (w : Arr K) : Prop := w.shape = [] ∨ w.shape = [n] ∨ w.shape = [n, n]

/-- Nothing is missing that compiling needs: the component is bound to a model, its dimension is a number of rows, its gain fits this number, and so does
its cost if it is a task, or its cost for softness if it is an equality constraint that was given one. -/
structure Complete (a : Attrs K) : Prop where
  bound : a.model ≠ none
  dim : 0 ≤ a.dim
  gain : GainFits a.dim.toNat a.gain
  cost : match a.kind with
    | .comTask t _ | .jointTask t _ _ _ | .positionTask t _ _ | .frameTask t _ _ => CostFits a.dim.toNat t.cost
    | .modelEquality _ _ soft => ∀ w, soft = some w → CostFits a.dim.toNat w
    | .jointBarrier .. | .positionBarrier .. | .selfCollision .. => True

end Mjinx.Spec
