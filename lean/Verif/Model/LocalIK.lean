import Verif.Model.MjModel

/-!
# The local IK solver: building the quadratic program

`mjinx/solvers/_local_ik.py`, `mjinx/solvers/_base.py`.  The compiled components enter with the values
they are asked for: Jacobian, value, expanded gain, gain function and the class-specific fields.
`Model/Eval.lean` computes these from compiled components and simulation data.
-/

namespace Mjinx

/-- What the solver reads from any component: `compute_jacobian(data)`, `component(data)`,
`vector_gain`, `gain_fn`. -/
structure Evaluated (K : Type) where
  jac : Mat K
  value : Vec K
  gain : Vec K
  gainFn : K → K

/-- A component as the solver sees it, by class: `JaxTask`, `JaxBarrier`, `JaxConstraint`. -/
inductive SolverComp (K : Type) where
  | task (e : Evaluated K) (cost : Mat K) (lm : K)
  | barrier (e : Evaluated K) (sdg : K) (safeDisplacement : Vec K)
  | constraint (e : Evaluated K) (active hard : Bool) (softCost : Mat K)

/-- The matrices returned by `__compute_qp_matrices`. -/
structure QP (K : Type) where
  P : Mat K
  c : Vec K
  A : Option (Mat K)
  b : Option (Vec K)
  G : Mat K
  h : Vec K

section
variable {K : Type} [Field K] [LinearOrder K]

/-- `-vector_gain * jax.vmap(gain_fn)(component(data))`, `_local_ik.py:240,274,286` -/
def minusGainError (e : Evaluated K) : Except Err (Vec K) :=
  Vec.zip (· * ·) e.gain.neg (e.value.map e.gainFn)

/-- `_local_ik.py:232-249` `process_task` -/
def processTask (nv : Nat) (e : Evaluated K) (cost : Mat K) (lm : K) : Except Err (Mat K × Vec K) := do
  let err ← minusGainError e
  let wJ ← cost.mul e.jac
  let wE ← cost.mulVec err
  let ee ← wE.dot wE
  let mu := lm * ee
  let JJ ← wJ.transpose.mul wJ
  let H ← JJ.add (Mat.smul mu (Mat.eye nv))
  let c ← Mat.vecMul wE.neg wJ
  return (H, c)

/-- `_local_ik.py:251-271` `process_barrier`.  A zero Jacobian makes `gain_over_jacobian` infinite or
NaN (0/0), and with it every entry of the diagonal of `H` (and, through `0 * inf`, the rest). -/
def processBarrier (nv : Nat) (e : Evaluated K) (sdg : K) (safe : Vec K) :
    Except Err (Mat K × Vec K × Mat K × Vec K) := do
  let n := e.jac.normSq
  let g ← if n = 0 then .error Err.nonFinite else .ok (sdg / n)
  let H := Mat.smul g (Mat.eye nv)
  let c := Vec.smul (-g) safe
  let h ← Vec.zip (· * ·) e.gain (e.value.map e.gainFn)
  return (H, c, e.jac.neg, h)

/-- `_local_ik.py:273-282` `process_soft_constraint` -/
def processSoft (e : Evaluated K) (cost : Mat K) : Except Err (Mat K × Vec K) := do
  let err ← minusGainError e
  let wJ ← cost.mul e.jac
  let wE ← cost.mulVec err
  let H ← wJ.transpose.mul wJ
  let c ← Mat.vecMul wE.neg wJ
  return (H, c)

/-- `_local_ik.py:284-290` `process_hard_constraint` -/
def processHard (e : Evaluated K) : Except Err (Mat K × Vec K) := do
  let bias ← minusGainError e
  return (e.jac, bias)

/-- The running totals of `_local_ik.py:292-330`. -/
structure QPAcc (K : Type) where
  H : Mat K
  c : Vec K
  Gs : List (Mat K)
  hs : List (Vec K)
  As : List (Mat K)
  bs : List (Vec K)

/-- `_local_ik.py:292-305`: initial totals with the velocity limit rows.  `nvSolver` is the number of
degrees of freedom of the solver's own model, `nv` that of the problem's model. -/
def qpInit (nvSolver nv : Nat) (vMin vMax : Vec K) : QPAcc K where
  H := Mat.zero nvSolver nvSolver
  c := Vec.zero nvSolver
  Gs := [Mat.eye nv, (Mat.eye nv).neg]
  hs := [vMin.neg, vMax]
  As := []
  bs := []

/-- `_local_ik.py:307-329`: one turn of the loop over the components. -/
def qpStep (nv : Nat) (acc : QPAcc K) : SolverComp K → Except Err (QPAcc K)
  | .task e cost lm => do
    let r ← processTask nv e cost lm
    let H ← acc.H.add r.1
    let c ← acc.c.add r.2
    return { acc with H := H, c := c }
  | .barrier e sdg safe => do
    let r ← processBarrier nv e sdg safe
    let H ← acc.H.add r.1
    let c ← acc.c.add r.2.1
    return { acc with H := H, c := c, Gs := acc.Gs ++ [r.2.2.1], hs := acc.hs ++ [r.2.2.2] }
  | .constraint e _ hard cost =>
    if hard then do
      let r ← processHard e
      return { acc with As := acc.As ++ [r.1], bs := acc.bs ++ [r.2] }
    else do
      let r ← processSoft e cost
      let H ← acc.H.add r.1
      let c ← acc.c.add r.2
      return { acc with H := H, c := c }

/-- `_local_ik.py:331-338`: stack what was collected. -/
def qpFinish (acc : QPAcc K) : Except Err (QP K) := do
  let A ← if acc.As.length ≠ 0 then (Mat.vstackList acc.As).map some else .ok none
  let G ← Mat.vstackList acc.Gs
  return { P := acc.H, c := acc.c, A := A,
           b := if acc.bs.length ≠ 0 then some (Vec.concat acc.bs) else none,
           G := G, h := Vec.concat acc.hs }

/-- `_local_ik.py:183-338` `__compute_qp_matrices` -/
def computeQP (nvSolver nv : Nat) (vMin vMax : Vec K) (comps : List (SolverComp K)) :
    Except Err (QP K) := do
  let acc ← comps.foldlM (qpStep nv) (qpInit nvSolver nv vMin vMax)
  qpFinish acc

/-- `LocalIKData` (`_local_ik.py:55-64`) -/
structure LocalIKData (K : Type) where
  vPrev : Vec K

/-- `LocalIKSolution` (`_local_ik.py:67-94`); `info` stands for dual variables, iteration count, error and
status. -/
structure LocalIKSolution (K I : Type) where
  vOpt : Vec K
  info : I

/-- `jaxopt.OSQP.run` with the parameters fixed at construction: a function of the QP. -/
abbrev QPSolver (K I : Type) := QP K → Vec K × I

/-- `_local_ik.py:340-372` `solve_from_data` -/
def solveFromData {I : Type} (osqp : QPSolver K I) (nvSolver nv : Nat) (vMin vMax : Vec K)
    (_data : LocalIKData K) (comps : List (SolverComp K)) :
    Except Err (LocalIKSolution K I × LocalIKData K) := do
  let qp ← computeQP nvSolver nv vMin vMax comps
  let s := osqp qp
  return (⟨s.1, s.2⟩, ⟨s.1⟩)

/-- `_local_ik.py:374-386` `init` -/
def localInit (nvSolver : Nat) (v : Option (Arr K)) : Except Err (LocalIKData K) :=
  match v with
  | none => .ok ⟨Vec.zero nvSolver⟩
  | some a => if a.shape ≠ [nvSolver] then .error .valueError else .ok ⟨⟨nvSolver, fun i => a.get [i]⟩⟩

end

/-- `solvers/_base.py:89-106` `Solver.solve`, for any solver: check the shape of the configuration, update
the simulation data, delegate.  `D` is the simulation data, `S` the solver data, `R` the result. -/
def solve {K D S R : Type} (nq : Nat) (update : Arr K → D)
    (solveFrom : S → D → Except Err (R × S)) (q : Arr K) (s : S) : Except Err (R × S) :=
  if q.shape ≠ [nq] then .error .valueError else solveFrom s (update q)

end Mjinx
