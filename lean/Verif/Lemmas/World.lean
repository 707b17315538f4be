import Verif.Lemmas.Component
import Verif.Spec.Component

/-! Helper lemmas: properties of components lift from single calls to whole programs. -/

set_option linter.unusedSectionVars false

namespace Mjinx
variable {K : Type} [Field K] [LinearOrder K]

theorem reachable_new {n : NewComp K} {c : Comp K} (h : n.run = .ok c) : Reachable c :=
  ⟨n, c, [], h, rfl⟩

theorem reachable_step {c : Comp K} (h : Reachable c) (op : CompOp K) : Reachable (op.run c).2 := by
  obtain ⟨n, c0, ops, h0, rfl⟩ := h
  exact ⟨n, c0, ops ++ [op], h0, by simp [runOps, List.foldl_append]⟩

/-- Induction principle for reachable components. -/
theorem Reachable.induct {P : Comp K → Prop}
    (hnew : ∀ (n : NewComp K) c, n.run = .ok c → P c)
    (hstep : ∀ (op : CompOp K) c, P c → P (op.run c).2) {c : Comp K} (h : Reachable c) : P c := by
  obtain ⟨n, c0, ops, h0, rfl⟩ := h
  have : ∀ (ops : List (CompOp K)) c, P c → P (runOps c ops) := by
    intro ops
    induction ops with
    | nil => intro c hc; exact hc
    | cons op ops ih => intro c hc; exact ih _ (hstep op c hc)
  exact this ops c0 (hnew n c0 h0)

theorem ReachableClean.reachable {c : Comp K} (h : ReachableClean c) : Reachable c := by
  induction h with
  | new h => exact reachable_new h
  | step op _ _ ih => exact reachable_step ih op

/-- A property of single components that holds for new ones and is kept by every call holds for
every component of a reachable world. -/
theorem all_setComp {P : Comp K → Prop} {h : List (Comp K)} {i : Nat} {c : Comp K}
    (hh : ∀ c ∈ h, P c) (hc : P c) : ∀ c' ∈ setComp h i c, P c' := by
  intro c' hc'
  rcases List.mem_or_eq_of_mem_set hc' with h1 | h1
  · exact hh _ h1
  · rw [h1]; exact hc

theorem jaxComponent_run (c : Comp K) : (jaxComponent c).2 = (CompOp.run .compile c).2 := rfl

theorem all_compileComps {P : Comp K → Prop} (hstep : ∀ c, P c → P (jaxComponent c).2) :
    ∀ (l : List (String × Nat)) (h : List (Comp K)), (∀ c ∈ h, P c) →
      ∀ c ∈ (compileComps h l).2, P c := by
  intro l
  induction l with
  | nil => intro h hh; exact hh
  | cons x rest ih =>
    intro h hh
    obtain ⟨name, i⟩ := x
    cases hi : h[i]? with
    | none => simp only [compileComps, hi]; exact hh
    | some c =>
      have hP : P (jaxComponent c).2 := hstep c (hh c (List.mem_of_getElem? hi))
      cases hj : jaxComponent c with
      | mk r c' =>
        rw [hj] at hP
        cases r with
        | error e => simp only [compileComps, hi, hj]; exact all_setComp hh hP
        | ok j =>
          have := ih (setComp h i c') (all_setComp hh hP)
          cases hr : compileComps (setComp h i c') rest with
          | mk r2 h2 =>
            rw [hr] at this
            cases r2 <;> (simp only [compileComps, hi, hj, hr]; exact this)

theorem all_step {P : Comp K → Prop} (hnew : ∀ (n : NewComp K) c, n.run = .ok c → P c)
    (hstep : ∀ (op : CompOp K) c, P c → P (op.run c).2) (op : Op K) (w : World K)
    (hw : ∀ c ∈ w.comps, P c) : ∀ c ∈ (step w op).2.comps, P c := by
  cases op <;> simp only [step]
  case newComp n =>
    split
    · exact hw
    · rename_i c hc
      intro c' hc'
      rcases List.mem_append.1 hc' with h | h
      · exact hw _ h
      · rw [List.mem_singleton.1 h]; exact hnew n c hc
  case comp i op =>
    split
    · exact hw
    · rename_i c hc
      exact all_setComp hw (hstep op c (hw c (List.mem_of_getElem? hc)))
  case newProblem => split <;> exact hw
  case updateVMin => split <;> exact hw
  case updateVMax => split <;> exact hw
  case add p i =>
    split
    · rename_i P' c hP hc
      apply all_setComp hw
      have hc' := hw c (List.mem_of_getElem? hc)
      have := hstep (.updateModel P'.model) c hc'
      unfold Prob.addComponent
      split
      · exact hc'
      · simp only [CompOp.run] at this
        split
        · rename_i h; rw [h] at this; exact this
        · rename_i h; rw [h] at this; exact this
    · exact hw
  case remove => split <;> exact hw
  case compile p =>
    split
    · exact hw
    · rename_i P' _
      dsimp only
      unfold compileProb
      have := all_compileComps (hstep .compile) P'.comps w.comps hw
      split <;> (rename_i h; rw [h] at this; exact this)
  case component => split <;> exact hw
  case task => split <;> exact hw
  case barrier => split <;> exact hw

theorem run_append (w : World K) (ops ops' : List (Op K)) : run w (ops ++ ops') = run (run w ops) ops' := by
  simp [run, List.foldl_append]

/-- Induction principle for reachable worlds. -/
theorem ReachableW.induct {P : World K → Prop} (hinit : P World.init)
    (hstep : ∀ (op : Op K) w, P w → P (step w op).2) {w : World K} (h : ReachableW w) : P w := by
  obtain ⟨ops, rfl⟩ := h
  have : ∀ (ops : List (Op K)) w, P w → P (run w ops) := by
    intro ops
    induction ops with
    | nil => intro w hw; exact hw
    | cons op ops ih => intro w hw; exact ih _ (hstep op w hw)
  exact this ops _ hinit

theorem reachableW_step {w : World K} (h : ReachableW w) (op : Op K) : ReachableW (step w op).2 := by
  obtain ⟨ops, rfl⟩ := h
  exact ⟨ops ++ [op], by rw [run_append]; rfl⟩

theorem reachable_of_world {w : World K} (h : ReachableW w) : ∀ c ∈ w.comps, Reachable c :=
  ReachableW.induct (P := fun w => ∀ c ∈ w.comps, Reachable c)
    (by intro c hc; cases hc)
    (fun op w hw => all_step (fun n c hc => reachable_new hc) (fun op c hc => reachable_step hc op) op w hw)
    h

theorem Except.bind_eq_ok {ε α β : Type} {x : Except ε α} {f : α → Except ε β} {b : β}
    (h : (x >>= f) = .ok b) : ∃ a, x = .ok a ∧ f a = .ok b := by
  cases x with
  | error e => cases h
  | ok a => exact ⟨a, rfl, h⟩

theorem fresh_of_new {n : NewComp K} {c : Comp K} (h : n.run = .ok c) :
    c = Comp.fresh c.attrs := by
  cases n <;> simp only [NewComp.run] at h
  case comTask a =>
    unfold newComTask at h
    obtain ⟨_, _, h⟩ := Except.bind_eq_ok h
    obtain ⟨_, _, h⟩ := Except.bind_eq_ok h
    obtain ⟨_, _, h⟩ := Except.bind_eq_ok h
    cases h; rfl
  case jointTask a fm =>
    unfold newJointTask at h
    obtain ⟨_, _, h⟩ := Except.bind_eq_ok h
    obtain ⟨_, _, h⟩ := Except.bind_eq_ok h
    cases h; rfl
  case positionTask =>
    unfold newPositionTask at h
    obtain ⟨_, _, h⟩ := Except.bind_eq_ok h
    obtain ⟨_, _, h⟩ := Except.bind_eq_ok h
    cases h; rfl
  case frameTask =>
    unfold newFrameTask at h
    obtain ⟨_, _, h⟩ := Except.bind_eq_ok h
    obtain ⟨_, _, h⟩ := Except.bind_eq_ok h
    cases h; rfl
  case jointBarrier =>
    unfold newJointBarrier at h
    obtain ⟨_, _, h⟩ := Except.bind_eq_ok h
    cases h; rfl
  case positionBarrier =>
    unfold newPositionBarrier at h
    obtain ⟨_, _, h⟩ := Except.bind_eq_ok h
    obtain ⟨_, _, h⟩ := Except.bind_eq_ok h
    obtain ⟨_, _, h⟩ := Except.bind_eq_ok h
    obtain ⟨_, _, h⟩ := Except.bind_eq_ok h
    cases h; rfl
  case selfCollision =>
    unfold newSelfCollision at h
    obtain ⟨_, _, h⟩ := Except.bind_eq_ok h
    cases h; rfl
  case modelEquality =>
    unfold newModelEquality at h
    obtain ⟨_, _, h⟩ := Except.bind_eq_ok h
    cases h; rfl

theorem cacheOK_reachable {c : Comp K} (h : Reachable c) : CacheOK c :=
  Reachable.induct (P := CacheOK)
    (fun n c hc => by rw [fresh_of_new hc]; exact cacheOK_of_modified rfl)
    (fun op c hc => cacheOK_run op c hc) h

end Mjinx
