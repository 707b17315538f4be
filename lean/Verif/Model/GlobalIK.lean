import Verif.Model.Eval

/-!
# The global IK solver

`mjinx/solvers/_global_ik.py`.  The logarithm, the gradient (`jax.grad`) and the optax optimiser are
parameters.
-/

namespace Mjinx

section
variable {K : Type} [Field K] [LinearOrder K]

/-- The class a compiled component is an instance of (`JaxTask`, `JaxBarrier`, `JaxConstraint`). -/
inductive CompClass where
  | task | barrier | constraint
deriving DecidableEq

/-- `isinstance(component, JaxTask)` etc. -/
def JaxComp.cls (j : JaxComp K) : CompClass :=
  match j.kind with
  | .comTask .. => .task
  | .jointTask .. => .task
  | .positionTask .. => .task
  | .frameTask .. => .task
  | .jointBarrier .. => .barrier
  | .positionBarrier .. => .barrier
  | .selfCollision .. => .barrier
  | .modelEquality .. => .constraint

/-- `jnp.clip(x, lo, hi)` -/
def clip (lo hi x : K) : K := min (max x lo) hi

/-- `_global_ik.py:106-127` `__log_barrier`: `sum(gain * log(x))`. -/
def logBarrier (log : K → K) (x gain : Vec K) : Except Err K := do
  let p ← Vec.zip (· * ·) gain (x.map log)
  return ∑ i ∈ Finset.range p.len, p.get i

/-- `_global_ik.py:151-153`: `loss + vector_gain * err.T @ err`, that is `(vector_gain * err) @ err`. -/
def globalTask (env : Env K) (d : MjData K) (loss : K) (j : JaxComp K) : Except Err K := do
  let err ← evalValue env j d
  let g ← j.vectorGain.toVec
  let ge ← Vec.zip (· * ·) g err
  let s ← ge.dot err
  return loss + s

/-- `_global_ik.py:154-155`: `loss - log_barrier(clip(component(data), 1e-9, 1), gain)`. -/
def globalBarrier (env : Env K) (log : K → K) (d : MjData K) (loss : K) (j : JaxComp K) : Except Err K := do
  let h ← evalValue env j d
  let g ← j.vectorGain.toVec
  let b ← logBarrier log (h.map (clip (1 / 10 ^ 9) 1)) g
  return loss - b

/-- `_global_ik.py:150-158`: one component. -/
def globalStep (env : Env K) (log : K → K) (d : MjData K) (loss : K) (j : JaxComp K) : Except Err K :=
  match j.cls with
  | .task => globalTask env d loss j
  | .barrier => globalBarrier env log d loss j
  | .constraint => .error .notImplementedError

/-- `_global_ik.py:129-159` `loss_fn` -/
def globalLoss (env : Env K) (log : K → K) (p : JaxProblem K) (q : Vec K) : Except Err K :=
  (p.comps.map Prod.snd).foldlM (globalStep env log (update env p.model q)) 0

/-- `jax.grad` of a function of the configuration. -/
abbrev Grad (K : Type) := (Vec K → K) → Vec K → Vec K

/-- An optax optimiser (`init` and `update`, the latter without parameters). -/
structure Optimizer (K S : Type) where
  init : Vec K → S
  update : Vec K → S → Vec K × S

/-- `self.grad_fn(q, problem_data)`.  Shape errors and refused components do not depend on the
configuration; without any component the loss is the integer 0, which `jax.grad` refuses with a
`TypeError`. -/
def globalGrad (env : Env K) (log : K → K) (grad : Grad K) (p : JaxProblem K) (q : Vec K) :
    Except Err (Vec K) := do
  let _ ← globalLoss env log p q
  if p.comps.length = 0 then .error .typeError
  else return grad (fun x => ((globalLoss env log p x).toOption).getD 0) q

/-- `_global_ik.py` `GlobalIKSolution` -/
structure GlobalIKSolution (K : Type) where
  qOpt : Vec K
  vOpt : Vec K

/-- `_global_ik.py:188-197`, after the shape check: gradient, optimiser step, result.  A zero time step
makes the velocity infinite or NaN. -/
def globalStepFrom {S : Type} (env : Env K) (log : K → K) (grad : Grad K) (opt : Optimizer K S) (dt : K)
    (p : JaxProblem K) (s : S) (q : Vec K) : Except Err (GlobalIKSolution K × S) := do
  let g ← globalGrad env log grad p q
  let r := opt.update g s
  let qOpt ← Vec.zip (· + ·) q r.1
  if dt = 0 then .error .nonFinite
  else return (⟨qOpt, r.1.map (· / dt)⟩, r.2)

/-- `_global_ik.py:176-197` `solve` -/
def globalSolve {S : Type} (env : Env K) (log : K → K) (grad : Grad K) (opt : Optimizer K S) (dt : K)
    (solverModel : MjModel K) (q : Arr K) (s : S) (p : JaxProblem K) : Except Err (GlobalIKSolution K × S) :=
  if q.shape ≠ [solverModel.nq] then .error .valueError
  else globalStepFrom env log grad opt dt p s ⟨solverModel.nq, fun i => q.get [i]⟩

/-- `_global_ik.py:161-174` `solve_from_data` -/
def globalSolveFromData {S : Type} (env : Env K) (log : K → K) (grad : Grad K) (opt : Optimizer K S) (dt : K)
    (solverModel : MjModel K) (s : S) (p : JaxProblem K) (d : MjData K) : Except Err (GlobalIKSolution K × S) :=
  globalSolve env log grad opt dt solverModel d.qpos.toArr s p

/-- `_global_ik.py:199-209` `init` -/
def globalInit {S : Type} (opt : Optimizer K S) (solverModel : MjModel K) (q : Arr K) : Except Err S :=
  if q.shape ≠ [solverModel.nq] then .error .valueError
  else .ok (opt.init ⟨solverModel.nq, fun i => q.get [i]⟩)

end
end Mjinx
