import Verif.Spec.Loop

/-!
# Control loops that steer

Programs that are set up once and then run, changing only some of their components on the way.
-/

namespace Mjinx.Spec
variable {K : Type} [Field K] [LinearOrder K]

/-- What a loop that steers the components of `T` does: control steps; any call on a component of `T` except handing it another model; any other call that
neither adds components to problems nor changes problem `p`. -/
def Steers (p : Nat) (T : Nat → Prop) : Act K → Prop
  | .tick => True
  | .call (.comp i op) => T i ∧ ∀ m, op ≠ .updateModel m
  | .call (.updateVMin q _) => q ≠ p
  | .call (.updateVMax q _) => q ≠ p
  | .call (.remove q _) => q ≠ p
  | .call (.add _ _) => False
  | .call _ => True

/-- The components of problem `p` are bound to the model, and those of `T` among them are tasks. -/
def SteersTasks (m : MjModel K) (p : Nat) (T : Nat → Prop) (w : World K) : Prop :=
  ∀ P, w.probs[p]? = some P → ∀ ni ∈ P.comps, ∀ c, w.comps[ni.2]? = some c → c.attrs.model = some m ∧ (T ni.2 → IsTask c.attrs.kind)

end Mjinx.Spec
