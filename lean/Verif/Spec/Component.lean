import Verif.Model.Problem

/-!
# Specification vocabulary for components

Declarative relations, written without the model's own helper functions.
-/

namespace Mjinx.Spec
variable {K : Type} [Field K]

/-- `g` is a vector of length `dim` that repeats a scalar gain or is the given gain vector. -/
def GainOf (dim : Int) (gain g : Arr K) : Prop :=
  ∃ n : Nat, dim = n ∧ g.shape = [n] ∧
    ((gain.shape = [] ∧ ∀ i < n, g.get [i] = gain.get []) ∨
     (gain.shape = [n] ∧ ∀ i < n, g.get [i] = gain.get [i]))

/-- `w` is a `dim × dim` matrix: scaled identity, diagonal, or the given matrix. -/
def CostOf (dim : Int) (cost w : Arr K) : Prop :=
  ∃ n : Nat, dim = n ∧ w.shape = [n, n] ∧
    ((cost.shape = [] ∧ ∀ i < n, ∀ j < n, w.get [i, j] = if i = j then cost.get [] else 0) ∨
     (cost.shape = [n] ∧ ∀ i < n, ∀ j < n, w.get [i, j] = if i = j then cost.get [i] else 0) ∨
     (cost.shape = [n, n] ∧ ∀ i < n, ∀ j < n, w.get [i, j] = cost.get [i, j]))

/-- The compiled class-specific fields `jk` for a component with dimension `dim` and class-specific
attributes `k`: every field is the attribute itself or its expansion. -/
def KindOf (dim : Int) : Kind K → JaxKind K → Prop
  | .comTask t x, .comTask w lm x' => CostOf dim t.cost w ∧ lm = t.lmDamping ∧ x' = x
  | .jointTask t _ x qi, .jointTask w lm x' qi' =>
      CostOf dim t.cost w ∧ lm = t.lmDamping ∧ some x' = x ∧ some qi' = qi
  | .positionTask t o x, .positionTask w lm i ty x' =>
      CostOf dim t.cost w ∧ lm = t.lmDamping ∧ i = o.objId ∧ ty = o.objType ∧ x' = x
  | .frameTask t o x, .frameTask w lm i ty x' =>
      CostOf dim t.cost w ∧ lm = t.lmDamping ∧ i = o.objId ∧ ty = o.objType ∧ x' = x
  | .jointBarrier s _ lo hi qi, .jointBarrier s' lo' hi' qi' =>
      s' = s ∧ some lo' = lo ∧ some hi' = hi ∧ some qi' = qi
  | .positionBarrier s o lo hi _ li, .positionBarrier s' i ty lo' hi' li' =>
      s' = s ∧ i = o.objId ∧ ty = o.objType ∧ lo' = lo ∧ hi' = hi ∧ li' = li ∧ o.objId ≠ -1
  | .selfCollision s d _ _ n ps, .selfCollision s' dv ps' n' =>
      s' = s ∧ GainOf dim (Arr.scalar d) dv ∧ some ps' = ps ∧ n' = n
  | .modelEquality a h c, .modelEquality a' h' w =>
      a' = a ∧ h' = h ∧ CostOf dim (c.getD (Arr.scalar 100)) w
  | _, _ => False

/-- `j` is what a component with the attributes `a` compiles to: it carries the component's model,
dimension, gain function, the expanded gain, the mask indices (all axes if no mask is set) and the
class-specific fields. -/
structure CompilesTo (a : Attrs K) (j : JaxComp K) : Prop where
  model : a.model = some j.model
  dim : j.dim = a.dim
  gain : GainOf a.dim a.gain j.vectorGain
  gainFn : j.gainFn = a.gainFn
  maskIdxs : j.maskIdxs = if a.mask.isSome then a.maskIdxs else List.range a.dim.toNat
  kind : KindOf a.dim a.kind j.kind

/-- `idxs` lists in increasing order exactly the positions of `m` that are nonzero. -/
def SelectsNonzero (m : List Int) (idxs : List Nat) : Prop :=
  idxs.Pairwise (· < ·) ∧ ∀ i, i ∈ idxs ↔ ∃ h : i < m.length, m[i] ≠ 0

/-- What a user can read off a component: every attribute, where reading `mask`/`mask_idxs` on a
component without a mask gives all ones / all axes (or fails while the dimension is unset). -/
structure Observable (K : Type) where
  name : String
  model : Option (MjModel K)
  gain : Arr K
  gainFn : K → K
  dim : Int
  mask : Option (List Int × List Nat)
  kind : Kind K

def observe (c : Comp K) : Observable K where
  name := c.attrs.name
  model := c.attrs.model
  gain := c.attrs.gain
  gainFn := c.attrs.gainFn
  dim := c.attrs.dim
  mask := match c.attrs.mask with
    | some m => some (m, c.attrs.maskIdxs)
    | none => if c.attrs.dim < 0 then none
        else some (List.replicate c.attrs.dim.toNat 1, List.range c.attrs.dim.toNat)
  kind := c.attrs.kind

/-- An object of type `ty` named `name` has index `i` in model `m`. -/
def HasObject (m : MjModel K) (ty : ObjType) (name : String) (i : Int) : Prop :=
  ∃ k : Nat, i = k ∧ (m.names ty)[k]? = some name

/-- What the user chose, as opposed to what is derived from the model: object ids, selected
coordinates, the list of bodies (which may be filled in from the model) and the generated pairs are
blanked. -/
def userKind : Kind K → Kind K
  | .jointTask t fm tq _ => .jointTask t fm tq none
  | .positionTask t o x => .positionTask t { o with objId := -1 } x
  | .frameTask t o x => .frameTask t { o with objId := -1 } x
  | .jointBarrier s fm lo hi _ => .jointBarrier s fm lo hi none
  | .positionBarrier s o lo hi lt li => .positionBarrier s { o with objId := -1 } lo hi lt li
  | .selfCollision s d _ ex n _ => .selfCollision s d [] ex n none
  | k => k

/-- Kinds whose axes do not come from the model. -/
def FixedAxes : Kind K → Prop
  | .comTask .. | .positionTask .. | .frameTask .. | .positionBarrier .. => True
  | _ => False

end Mjinx.Spec

namespace Mjinx
variable {K : Type} [Field K] [LinearOrder K]

/-- Components after a history in which no model update raised (other calls may have raised). -/
inductive ReachableClean : Comp K → Prop where
  | new {n : NewComp K} {c : Comp K} : n.run = .ok c → ReachableClean c
  | step {c : Comp K} (op : CompOp K) : ReachableClean c →
      (∀ m, op = .updateModel m → (op.run c).1 = .ok ()) → ReachableClean (op.run c).2

end Mjinx
