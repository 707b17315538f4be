import Verif.Model.Component

/-!
# Problems

`mjinx/problem.py`.  Python objects are shared by reference: `World.comps` is the heap of component
objects, `World.probs` the heap of `Problem` objects, and a problem stores references (indices).
-/

namespace Mjinx

/-- `problem.py:48-52`: a `Problem` object.  `comps` is the insertion-ordered dictionary
`__components` from names to component references. -/
structure Prob (K : Type) where
  model : MjModel K
  vMin : Arr K
  vMax : Arr K
  comps : List (String × Nat)

/-- `problem.py:17-33` `JaxProblemData` -/
structure JaxProblem (K : Type) where
  model : MjModel K
  vMin : Arr K
  vMax : Arr K
  comps : List (String × JaxComp K)

structure World (K : Type) where
  comps : List (Comp K)
  probs : List (Prob K)

section
variable {K : Type} [Field K] [LinearOrder K]

/-- `problem.py:72-88` `update_v_min` and `:108-124` `update_v_max`: the value to store. -/
def expandVel (nv : Nat) (v : Arr K) : Except Err (Arr K) :=
  match v.shape with
  | [] => .ok (Arr.onesMul nv v)
  | [n] => if n ≠ nv then .error .valueError else .ok v
  | _ => .error .valueError

/-- `problem.py:48-52` `Problem.__init__` -/
def newProb (m : MjModel K) (vMin vMax : Arr K) : Except Err (Prob K) :=
  match expandVel m.nv vMin with
  | .error e => .error e
  | .ok lo =>
    match expandVel m.nv vMax with
    | .error e => .error e
    | .ok hi => .ok { model := m, vMin := lo, vMax := hi, comps := [] }

/-- `problem.py:72-88` `update_v_min` -/
def Prob.updateVMin (v : Arr K) (p : Prob K) : Except Err Unit × Prob K :=
  match expandVel p.model.nv v with
  | .error e => (.error e, p)
  | .ok x => (.ok (), { p with vMin := x })

/-- `problem.py:108-124` `update_v_max` -/
def Prob.updateVMax (v : Arr K) (p : Prob K) : Except Err Unit × Prob K :=
  match expandVel p.model.nv v with
  | .error e => (.error e, p)
  | .ok x => (.ok (), { p with vMax := x })

/-- Dictionary lookup. -/
def dictGet {β : Type} : List (String × β) → String → Option β
  | [], _ => none
  | (k, v) :: rest, key => if k = key then some v else dictGet rest key

/-- `problem.py:126-136` `add_component`, on the problem and the component object (reference `i`). -/
def Prob.addComponent (p : Prob K) (i : Nat) (c : Comp K) : Except Err Unit × Prob K × Comp K :=
  match dictGet p.comps c.attrs.name with
  | some _ => (.error .valueError, p, c)
  | none =>
    match updateModel p.model c with
    | (.error e, c') => (.error e, p, c')
    | (.ok _, c') => (.ok (), { p with comps := p.comps ++ [(c'.attrs.name, i)] }, c')

/-- `problem.py:138-145` `remove_component` -/
def Prob.removeComponent (p : Prob K) (name : String) : Prob K :=
  { p with comps := p.comps.filter (fun kv => kv.1 ≠ name) }

/-- Replace an object of the component heap. -/
def setComp (h : List (Comp K)) (i : Nat) (c : Comp K) : List (Comp K) := h.set i c

/-- The dictionary comprehension of `problem.py:153-155`: compile the components in order; an exception
leaves the components compiled so far with their caches.  Dangling references cannot occur; they are
reported as `attributeError`. -/
def compileComps (h : List (Comp K)) :
    List (String × Nat) → Except Err (List (String × JaxComp K)) × List (Comp K)
  | [] => (.ok [], h)
  | (name, i) :: rest =>
    match h[i]? with
    | none => (.error .attributeError, h)
    | some c =>
      match jaxComponent c with
      | (.error e, c') => (.error e, setComp h i c')
      | (.ok j, c') =>
        match compileComps (setComp h i c') rest with
        | (.error e, h') => (.error e, h')
        | (.ok js, h') => (.ok ((name, j) :: js), h')

/-- `problem.py:147-156` `compile` -/
def compileProb (h : List (Comp K)) (p : Prob K) : Except Err (JaxProblem K) × List (Comp K) :=
  match compileComps h p.comps with
  | (.error e, h') => (.error e, h')
  | (.ok js, h') => (.ok { model := p.model, vMin := p.vMin, vMax := p.vMax, comps := js }, h')

/-- `problem.py:158-168` `component`: the reference. -/
def Prob.component (p : Prob K) (name : String) : Except Err Nat :=
  match dictGet p.comps name with
  | none => .error .valueError
  | some i => .ok i

/-- `problem.py:170-182` `task` -/
def Prob.task (h : List (Comp K)) (p : Prob K) (name : String) : Except Err Nat :=
  match dictGet p.comps name with
  | none => .error .valueError
  | some i =>
    match h[i]? with
    | none => .error .attributeError
    | some c => if c.attrs.kind.isTask then .ok i else .error .valueError

/-- `problem.py:184-196` `barrier` -/
def Prob.barrier (h : List (Comp K)) (p : Prob K) (name : String) : Except Err Nat :=
  match dictGet p.comps name with
  | none => .error .valueError
  | some i =>
    match h[i]? with
    | none => .error .attributeError
    | some c => if c.attrs.kind.isBarrier then .ok i else .error .valueError

/-! ### Programs -/

/-- Calls a user program can make. References are indices into the heaps. -/
inductive Op (K : Type) where
  | newComp (n : NewComp K)
  | comp (i : Nat) (op : CompOp K)
  | newProblem (m : MjModel K) (vMin vMax : Arr K)
  | updateVMin (p : Nat) (v : Arr K)
  | updateVMax (p : Nat) (v : Arr K)
  | add (p i : Nat)
  | remove (p : Nat) (name : String)
  | compile (p : Nat)
  | component (p : Nat) (name : String)
  | task (p : Nat) (name : String)
  | barrier (p : Nat) (name : String)

/-- What a call returns. -/
inductive Res (K : Type) where
  | none
  | ref (i : Nat)
  | compiled (j : JaxProblem K)

/-- One call: result or exception, and the state after it.  Dangling references are reported as
`attributeError` and change nothing. -/
def step (w : World K) : Op K → Except Err (Res K) × World K
  | .newComp n =>
    match n.run with
    | .error e => (.error e, w)
    | .ok c => (.ok (.ref w.comps.length), { w with comps := w.comps ++ [c] })
  | .comp i op =>
    match w.comps[i]? with
    | none => (.error .attributeError, w)
    | some c =>
      let r := op.run c
      (r.1.map (fun _ => .none), { w with comps := setComp w.comps i r.2 })
  | .newProblem m lo hi =>
    match newProb m lo hi with
    | .error e => (.error e, w)
    | .ok p => (.ok (.ref w.probs.length), { w with probs := w.probs ++ [p] })
  | .updateVMin p v =>
    match w.probs[p]? with
    | none => (.error .attributeError, w)
    | some P => let r := P.updateVMin v; (r.1.map (fun _ => .none), { w with probs := w.probs.set p r.2 })
  | .updateVMax p v =>
    match w.probs[p]? with
    | none => (.error .attributeError, w)
    | some P => let r := P.updateVMax v; (r.1.map (fun _ => .none), { w with probs := w.probs.set p r.2 })
  | .add p i =>
    match w.probs[p]?, w.comps[i]? with
    | some P, some c =>
      let r := P.addComponent i c
      (r.1.map (fun _ => .none),
        { comps := setComp w.comps i r.2.2, probs := w.probs.set p r.2.1 })
    | _, _ => (.error .attributeError, w)
  | .remove p name =>
    match w.probs[p]? with
    | none => (.error .attributeError, w)
    | some P => (.ok .none, { w with probs := w.probs.set p (P.removeComponent name) })
  | .compile p =>
    match w.probs[p]? with
    | none => (.error .attributeError, w)
    | some P =>
      let r := compileProb w.comps P
      (r.1.map .compiled, { w with comps := r.2 })
  | .component p name =>
    match w.probs[p]? with
    | none => (.error .attributeError, w)
    | some P => ((P.component name).map .ref, w)
  | .task p name =>
    match w.probs[p]? with
    | none => (.error .attributeError, w)
    | some P => ((P.task w.comps name).map .ref, w)
  | .barrier p name =>
    match w.probs[p]? with
    | none => (.error .attributeError, w)
    | some P => ((P.barrier w.comps name).map .ref, w)

/-- The state of a program before its first call. -/
def World.init : World K := ⟨[], []⟩

/-- The state after a list of calls, whether or not they raised. -/
def run (w : World K) (ops : List (Op K)) : World K := ops.foldl (fun w op => (step w op).2) w

/-- States a user program can be in. -/
def ReachableW (w : World K) : Prop := ∃ ops : List (Op K), w = run World.init ops

end
end Mjinx
