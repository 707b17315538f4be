import Verif.Spec.Settings

/-!
# What a program does to one of its objects
-/

namespace Mjinx.Spec
variable {K : Type} [Field K] [LinearOrder K]

/-- What one call of a program does to component `i`: calls on the component itself; adding it to a problem that has no component of its name binds it to
the model of that problem.  Nothing else concerns it. -/
def concerns (i : Nat) (w : World K) : Op K → List (CompOp K)
  | .comp j op => if j = i then [op] else []
  | .add p j =>
    match w.probs[p]?, w.comps[i]? with
    | some P, some c => if j = i ∧ c.attrs.name ∉ P.comps.map Prod.fst then [.updateModel P.model] else []
    | _, _ => []
  | _ => []

/-- The calls of a program that concern component `i`, in order. -/
def callsOn (i : Nat) : World K → List (Op K) → List (CompOp K)
  | _, [] => []
  | w, op :: ops => concerns i w op ++ callsOn i (step w op).2 ops

/-- Reading the compiled form of a component. -/
def IsRead : CompOp K → Bool
  | .compile => true
  | _ => false

/-- The calls apart from reads. -/
def withoutReads (l : List (CompOp K)) : List (CompOp K) := l.filter fun op => ! IsRead op

/-- The arguments of the calls of `update_v_min` on problem `p` that are a number or have one entry per degree of freedom. -/
def vMinArgs (p nv : Nat) : List (Op K) → List (Arr K)
  | [] => []
  | .updateVMin q v :: ops => if q = p ∧ (v.shape = [] ∨ v.shape = [nv]) then v :: vMinArgs p nv ops else vMinArgs p nv ops
  | _ :: ops => vMinArgs p nv ops

/-- The same for `update_v_max`. -/
def vMaxArgs (p nv : Nat) : List (Op K) → List (Arr K)
  | [] => []
  | .updateVMax q v :: ops => if q = p ∧ (v.shape = [] ∨ v.shape = [nv]) then v :: vMaxArgs p nv ops else vMaxArgs p nv ops
  | _ :: ops => vMaxArgs p nv ops

/-- The arguments of the calls of `update_gain` on component `i` that are numbers or one-dimensional. -/
def gainsGiven (i : Nat) : List (Op K) → List (Arr K)
  | [] => []
  | .comp j (.updateGain g) :: ops => if j = i ∧ g.shape.length ≤ 1 then g :: gainsGiven i ops else gainsGiven i ops
  | _ :: ops => gainsGiven i ops

end Mjinx.Spec
