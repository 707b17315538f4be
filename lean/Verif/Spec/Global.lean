import Verif.Model.GlobalIK
import Verif.Spec.Sim

/-!
# Reading the global IK loss
-/

namespace Mjinx.Spec
variable {K : Type} [Field K] [LinearOrder K]

/-- The component can be evaluated, with one gain per entry of its value. -/
def Evaluates (env : Env K) (d : MjData K) (j : JaxComp K) (e g : Vec K) : Prop :=
  evalValue env j d = .ok e ∧ j.vectorGain.toVec = .ok g ∧ g.len = e.len

/-- What a component adds to the loss, given its value and gain:
task `Σ gᵢ eᵢ²`, barrier `- Σ gᵢ log(clip(hᵢ, 1e-9, 1))`. -/
def lossTerm (log : K → K) (c : CompClass) (e g : Vec K) : K :=
  match c with
  | .task => ∑ i ∈ Finset.range e.len, g.get i * e.get i ^ 2
  | .barrier => - ∑ i ∈ Finset.range e.len, g.get i * log (min (max (e.get i) (1 / 10 ^ 9)) 1)
  | .constraint => 0

/-- The components of a problem with their values and gains on `d`. -/
def Table (env : Env K) (d : MjData K) (p : JaxProblem K) (t : List (JaxComp K × Vec K × Vec K)) : Prop :=
  t.map (fun x => x.1) = p.comps.map Prod.snd ∧ ∀ x ∈ t, Evaluates env d x.1 x.2.1 x.2.2

/-- The same compiled component with another cost matrix (tasks and constraints). -/
def withCost (w : Arr K) (j : JaxComp K) : JaxComp K :=
  { j with kind := match j.kind with
    | .comTask _ lm t => .comTask w lm t
    | .jointTask _ lm t qi => .jointTask w lm t qi
    | .positionTask _ lm i ty t => .positionTask w lm i ty t
    | .frameTask _ lm i ty t => .frameTask w lm i ty t
    | .modelEquality a h _ => .modelEquality a h w
    | k => k }

/-- All that is used of the logarithm: strictly increasing on positive numbers. -/
def Increasing (log : K → K) : Prop := ∀ x y, 0 < x → x < y → log x < log y

/-- The optimiser's step has one entry per configuration entry. -/
def StepSized {S : Type} (grad : Grad K) (opt : Optimizer K S) : Prop :=
  (∀ f q, (grad f q).len = q.len) ∧ ∀ g s, (opt.update g s).1.len = g.len

end Mjinx.Spec
