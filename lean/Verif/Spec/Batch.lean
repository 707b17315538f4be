import Verif.Spec.Vmap

/-! # Specification of batches of targets -/

namespace Mjinx.Spec
variable {K : Type}

/-- `b` is `a[k]`: the batch axis is removed, all entries are those of element `k`. -/
def SliceArr (k : Nat) (a b : Arr K) : Prop :=
  ∃ B, a.shape = B :: b.shape ∧ k < B ∧ ∀ ix : List Nat, ix.length = b.shape.length → b.get ix = a.get (k :: ix)

/-- The array `a[k]`. -/
def element (k : Nat) (a : Arr K) : Arr K := ⟨a.shape.tail, fun ix => a.get (k :: ix)⟩

/-- A call that sets a batch of `B` targets: an array of targets with one more axis in front. -/
def BatchedTarget (B : Nat) : CompOp K → Prop
  | .updateTarget x => ∃ n s, x.shape = B :: n :: s
  | .updateTargetFrame (.se3 x) => ∃ n s, x.shape = B :: n :: s
  | .updateTargetFrame (.array x) => ∃ n s, x.shape = B :: n :: s
  | _ => False

/-- The same call with target `k` of the batch only. -/
def elementCall (k : Nat) : CompOp K → CompOp K
  | .updateTarget x => .updateTarget (element k x)
  | .updateTargetFrame (.se3 x) => .updateTargetFrame (.se3 (element k x))
  | .updateTargetFrame (.array x) => .updateTargetFrame (.array (element k x))
  | op => op

/-- The field of a compiled task that holds its target. -/
def targetField : JaxKind K → Option String
  | .comTask .. => some "target_com"
  | .jointTask .. => some "target_q"
  | .positionTask .. => some "target_pos"
  | .frameTask .. => some "target_frame"
  | _ => none

/-- What the function mapped by `jax.vmap` receives in call `k` for one leaf: the leaf itself without an axis, element `k` of it along
axis 0. -/
def LeafElement (k : Nat) : Option Int → Leaf K → Leaf K → Prop
  | none, x, y => y = x
  | some 0, .arr a, .arr b => SliceArr k a b
  | _, _, _ => False

/-- The calls of a list of target updates. -/
def calls (us : List (Nat × CompOp K)) : List (Op K) := us.map (fun u => .comp u.1 u.2)

/-- The calls are all accepted. -/
def Accepted [Field K] [LinearOrder K] (w : World K) : List (Op K) → Prop
  | [] => True
  | op :: rest => (∃ r, (step w op).1 = .ok r) ∧ Accepted (step w op).2 rest

/-- Corresponding leaves of two trees: those below an entry with an axis are elements, the others are equal. -/
def Elements (axis : List String → Option Int) (k : Nat) : List (List String × Leaf K) → List (List String × Leaf K) → Prop :=
  List.Forall₂ (fun x y => y.1 = x.1 ∧ LeafElement k (axis x.1) x.2 y.2)

/-- The assignments of a `with problem.set_vmap_dimension() as data:` block that give axis 0 to the targets of the components `ids`, and to
nothing else, in any order. -/
def TargetWrites (comps : List (String × Nat)) (J : JaxProblem K) (ids : List Nat) (ws : List (List String × Int)) : Prop :=
  ∀ path a, (path, a) ∈ ws ↔ a = 0 ∧ ∃ nm i j f, (nm, i) ∈ comps ∧ i ∈ ids ∧ (nm, j) ∈ J.comps ∧ targetField j.kind = some f ∧
    path = ["components", nm, f]

end Mjinx.Spec
