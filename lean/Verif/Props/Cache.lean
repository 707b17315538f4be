import Verif.Lemmas.Compile
import Verif.Spec.Examples

/-!
# C01, C02: caching of compiled components
-/

namespace Mjinx.Props
open Mjinx Spec
variable {K : Type} [Field K] [LinearOrder K]

/-- **C01.** Whatever happened to a component before, what `jax_component` returns carries exactly the
current settings. -/
theorem C01_compiled_matches_settings {c c' : Comp K} {j : JaxComp K} (h : Reachable c)
    (hj : jaxComponent c = (.ok j, c')) : CompilesTo c.attrs j :=
  jaxComponent_spec (cacheOK_reachable h) hj

/-- **C01.** Caching is invisible: the result (or exception) is the one a never-compiled component with
the same settings gives. -/
theorem C01_caching_invisible {c : Comp K} (h : Reachable c) :
    (jaxComponent c).1 = (jaxComponent (Comp.fresh c.attrs)).1 :=
  jaxComponent_fst (cacheOK_reachable h)

/-- **C01.** The same through `Problem.compile` in any program: the data lists the problem's
components in order, each compiled from the settings the component has at that moment. -/
theorem C01_problem_compile {w w' : World K} {p : Nat} {P : Prob K} {J : JaxProblem K}
    (h : ReachableW w) (hP : w.probs[p]? = some P)
    (hJ : step w (.compile p) = (.ok (.compiled J), w')) :
    J.model = P.model ∧ J.vMin = P.vMin ∧ J.vMax = P.vMax ∧
    List.Forall₂ (fun (ni : String × Nat) (nj : String × JaxComp K) =>
      ni.1 = nj.1 ∧ ∃ c, w.comps[ni.2]? = some c ∧ CompilesTo c.attrs nj.2) P.comps J.comps := by
  obtain ⟨h1, -⟩ := compileComps_spec P.comps w.comps (cacheOK_world h)
  simp only [step, hP, compileProb] at hJ
  cases hc : compileComps w.comps P.comps with
  | mk r h' =>
    rw [hc] at hJ h1
    cases r with
    | error e => simp [Except.map] at hJ
    | ok js =>
      simp only [Except.map, Prod.mk.injEq, Except.ok.injEq, Res.compiled.injEq] at hJ
      obtain ⟨rfl, -⟩ := hJ
      refine ⟨rfl, rfl, rfl, (compilePure_ok h1.symm).imp ?_⟩
      rintro ⟨n, i⟩ ⟨n', j⟩ ⟨hn, hf⟩
      refine ⟨hn, ?_⟩
      simp only [heapResult] at hf
      split at hf
      · cases hf
      · rename_i c hc'
        exact ⟨c, hc', compileResult_spec hf⟩

/-- **C02.** Compiling twice in a row gives the same data (or the same exception), and compiling changes
nothing a user can read: the problems are untouched and every component reads as before. -/
theorem C02_compile_twice {w : World K} (h : ReachableW w) (p : Nat) :
    (step (step w (.compile p)).2 (.compile p)).1 = (step w (.compile p)).1 ∧
    (step w (.compile p)).2.probs = w.probs ∧
    (step w (.compile p)).2.comps.map observe = w.comps.map observe := by
  cases hP : w.probs[p]? with
  | none => simp [step, hP]
  | some P =>
    obtain ⟨h1, h2⟩ := compileComps_spec P.comps w.comps (cacheOK_world h)
    have hcache : ∀ c ∈ (compileComps w.comps P.comps).2, CacheOK c :=
      all_compileComps (P := CacheOK) (fun c hc => cacheOK_run .compile c hc) _ _ (cacheOK_world h)
    obtain ⟨h3, -⟩ := compileComps_spec P.comps _ hcache
    have hfun : heapResult (compileComps w.comps P.comps).2 = heapResult w.comps :=
      funext (fun k => heapResult_congr h2 k)
    rw [hfun, ← h1] at h3
    have hstep : step w (.compile p) =
        ((compileProb w.comps P).1.map .compiled, { w with comps := (compileComps w.comps P.comps).2 }) := by
      simp only [step, hP, compileProb]
      cases hc : compileComps w.comps P.comps with
      | mk r h' => cases r <;> rfl
    have hstep2 : step (step w (.compile p)).2 (.compile p) =
        ((compileProb (compileComps w.comps P.comps).2 P).1.map .compiled,
          { w with comps := (compileProb (compileComps w.comps P.comps).2 P).2 }) := by
      rw [hstep]; simp only [step, hP]
    refine ⟨?_, by rw [hstep], ?_⟩
    · rw [hstep2, hstep]
      simp only
      congr 1
      unfold compileProb
      cases hc : compileComps w.comps P.comps with
      | mk r h' =>
        rw [hc] at h3
        cases hc2 : compileComps h' P.comps with
        | mk r2 h'' =>
          simp only [hc2] at h3
          subst h3
          cases r2 <;> rfl
    · rw [hstep]
      apply List.ext_getElem?
      intro i
      simp only [List.getElem?_map]
      cases hi : w.comps[i]? with
      | none =>
        have : (compileComps w.comps P.comps).2[i]? = none := by
          rw [List.getElem?_eq_none_iff] at hi ⊢; rw [h2.1]; exact hi
        rw [this]
      | some c =>
        obtain ⟨c', hc', hm, _⟩ := h2.2 i c hi
        rw [hc']
        simp only [Option.map_some]
        rw [hm.observe]

/-! ### Instances -/

/-- A program: a CoM task is added to a problem, compiled, its gain changed. -/
def exOps : List (Op ℚ) :=
  [.newComp (.comTask Ex.taskArgs), .newProblem Ex.model (Ex.scalar (-1)) (Ex.scalar 1), .add 0 0,
   .compile 0, .comp 0 (.updateGain (Ex.scalar 7))]

/-- Compiling after the gain change succeeds and shows the new gain, not the cached one. -/
example : ∃ J w', step (run World.init exOps) (.compile 0) = (.ok (.compiled J), w') ∧
    J.comps.map (fun nj => (nj.1, nj.2.dim, nj.2.vectorGain.get [0])) = [("t", 3, 7)] := by
  refine ⟨_, _, rfl, ?_⟩
  show [("t", (3 : Int), (1 * 7 : ℚ))] = _
  rw [one_mul]

example : ReachableW (run World.init exOps) := ⟨exOps, rfl⟩

/-- A reachable component that has been compiled, modified and compiles again. -/
example : ∃ (c c' : Comp ℚ) (j : JaxComp ℚ), Reachable c ∧ c.cache.isSome ∧
    jaxComponent c = (.ok j, c') := by
  refine ⟨runOps (Comp.fresh _) [.updateModel Ex.model, .compile, .updateGain (Ex.scalar 7)], _, _,
    ⟨.comTask Ex.taskArgs, _, _, rfl, rfl⟩, rfl, rfl⟩

end Mjinx.Props
