import Verif.Spec.Component

/-!
# Specification vocabulary for problems

A problem seen from outside: the log of successful `add_component` and `remove_component` calls.
-/

namespace Mjinx.Spec
variable {K : Type} [Field K] [LinearOrder K]

/-- A successful change of the component list of problem `p`. -/
inductive Event where
  | added (p : Nat) (name : String) (ref : Nat)
  | removed (p : Nat) (name : String)

/-- The event caused by a call, if it returned normally. -/
def eventOf (w : World K) (op : Op K) : List Event :=
  match (step w op).1, op with
  | .ok _, .add p i =>
    match w.comps[i]? with
    | some c => [.added p c.attrs.name i]
    | none => []
  | .ok _, .remove p name => [.removed p name]
  | _, _ => []

/-- The log of a program. -/
def events (w : World K) : List (Op K) → List Event
  | [] => []
  | op :: ops => eventOf w op ++ events (step w op).2 ops

/-- Effect of an event on the entry of `name` in problem `p`. -/
def currentStep (p : Nat) (name : String) (cur : Option Nat) : Event → Option Nat
  | .added p' n i => if p' = p ∧ n = name then some i else cur
  | .removed p' n => if p' = p ∧ n = name then none else cur

/-- The component currently registered under `name` in problem `p`: decided by the last event about
that name. -/
def current (p : Nat) (name : String) (log : List Event) : Option Nat :=
  log.foldl (currentStep p name) none

/-- Effect of an event on the component list of problem `p`. -/
def orderedStep (p : Nat) (cur : List (String × Nat)) : Event → List (String × Nat)
  | .added p' n i => if p' = p then cur ++ [(n, i)] else cur
  | .removed p' n => if p' = p then cur.filter (fun kv => kv.1 ≠ n) else cur

/-- The components of problem `p` in order of insertion. -/
def ordered (p : Nat) (log : List Event) : List (String × Nat) := log.foldl (orderedStep p) []

/-- Tasks and barriers, by class. -/
inductive IsTask : Kind K → Prop where
  | com (t x) : IsTask (.comTask t x)
  | joint (t f x q) : IsTask (.jointTask t f x q)
  | position (t o x) : IsTask (.positionTask t o x)
  | frame (t o x) : IsTask (.frameTask t o x)

inductive IsBarrier : Kind K → Prop where
  | joint (s f l h q) : IsBarrier (.jointBarrier s f l h q)
  | position (s o l h t i) : IsBarrier (.positionBarrier s o l h t i)
  | selfCollision (s d b e n p) : IsBarrier (.selfCollision s d b e n p)

/-- `v` is a vector of `n` equal entries / the given vector. -/
def VelOf (n : Nat) (given v : Arr K) : Prop :=
  v.shape = [n] ∧ ((given.shape = [] ∧ ∀ i < n, v.get [i] = given.get []) ∨
                   (given.shape = [n] ∧ ∀ i < n, v.get [i] = given.get [i]))

/-- In this program, component `i` only ever meets the model `M i`: through `add_component` or a direct
model update. -/
def OneModel (M : Nat → MjModel K) (w : World K) : List (Op K) → Prop
  | [] => True
  | op :: ops =>
    (match op with
      | .add p i => ∀ P, w.probs[p]? = some P → P.model = M i
      | .comp i (.updateModel m) => m = M i
      | _ => True) ∧ OneModel M (step w op).2 ops

end Mjinx.Spec
