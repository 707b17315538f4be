import Verif.Props.Settings

/-!
# C20: the target of a frame task always has the seven entries of a pose
-/

namespace Mjinx.Spec
variable {K : Type} [Field K] [LinearOrder K]

/-- An `SE3` object has seven parameters (a property of jaxlie's type); arrays may have any shape. -/
def ProperPose : CompOp K → Prop
  | .updateTargetFrame (.se3 f) => f.lastDim = .ok 7
  | _ => True

end Mjinx.Spec

namespace Mjinx.Props
open Spec
set_option linter.unusedSectionVars false
variable {K : Type} [Field K] [LinearOrder K]

private theorem accepted_seven : ∀ (ops : List (CompOp K)) (c : Comp K), (∀ op ∈ ops, ProperPose op) →
    ∀ op ∈ accepted c ops, ∀ x, frameArg op = some x → x.lastDim = .ok 7 := by
  intro ops
  induction ops with
  | nil => intro c _ op h; simp [accepted] at h
  | cons o ops ih =>
    intro c hp op hop x hx
    unfold accepted at hop
    have ih := ih (o.run c).2 (fun o ho => hp o (by simp [ho]))
    cases hr : (o.run c).1 with
    | error e => rw [hr] at hop; exact ih op hop x hx
    | ok u =>
      rw [hr] at hop
      rcases List.mem_cons.1 hop with rfl | hop
      · cases op <;> simp only [frameArg, reduceCtorEq] at hx
        rename_i a
        cases a with
        | se3 f => cases hx; exact hp (.updateTargetFrame (.se3 _)) (by simp)
        | array a =>
          cases hx
          simp only [CompOp.run, updateTargetFrame] at hr
          split at hr
          · split at hr
            · cases hr
            · rename_i k hk
              split at hr
              · cases hr
              · rename_i h7
                have h7 : k = 7 := by simpa using h7
                subst h7
                simpa [Arr.lastDim, frameOfArray] using hk
          · cases hr
      · exact ih op hop x hx

/-- **C20** (frame tasks): after any history, the target of a frame task has seven entries. -/
theorem C20_frame_target_fits {a : TaskArgs K} {on : String} {ot : ObjType} {c0 : Comp K}
    (hn : newFrameTask a on ot = .ok c0) (ops : List (CompOp K)) (hp : ∀ op ∈ ops, ProperPose op) :
    ∃ x, targetFrame (runOps c0 ops) = some x ∧ x.lastDim = .ok 7 := by
  have hn' : (NewComp.frameTask a on ot).run = .ok c0 := hn
  refine ⟨_, C80_target_frame hn' ops, ?_⟩
  unfold latest
  rw [List.getLastD_eq_getLast?]
  have hacc := accepted_seven ops c0 hp
  cases hl : ((accepted c0 ops).filterMap frameArg).getLast? with
  | none => rfl
  | some x =>
    obtain ⟨op, h1, h2⟩ := List.mem_filterMap.1 (List.mem_of_getLast? hl)
    exact hacc op h1 x h2

/-- **C20** (frame tasks, updates): an array whose last axis is not seven is refused with `ValueError` and changes nothing; an
array whose last axis is seven is accepted and becomes the target. -/
theorem C20_frame_update (c : Comp K) (a : Arr K) {k : Nat} (hk : a.lastDim = .ok k) (ht : (targetFrame c).isSome) :
    (k ≠ 7 → updateTargetFrame (.array a) c = (.error .valueError, c)) ∧
    (k = 7 → (updateTargetFrame (.array a) c).1 = .ok () ∧
      ∃ x, targetFrame (updateTargetFrame (.array a) c).2 = some x ∧ x.shape = a.shape) := by
  unfold targetFrame at ht
  split at ht
  · rename_i t o y hc
    constructor
    · intro h
      simp [updateTargetFrame, hc, hk, h]
    · rintro rfl
      simp [updateTargetFrame, hc, hk, targetFrame, Comp.set, frameOfArray]
  · cases ht

example : ∃ (c0 : Comp ℚ) (x : Arr ℚ), newFrameTask Ex.taskArgs "b4" .body = .ok c0 ∧
    targetFrame (runOps c0 [.updateTargetFrame (.array (Arr.ofList [1, 2, 3, 1, 0, 0, 0])),
      .updateTargetFrame (.array (Arr.ofList [1, 2, 3, 1, 0, 0, 0, 9]))]) = some x ∧ x.get [4] = 1 ∧ x.shape = [7] :=
  ⟨_, _, rfl, rfl, rfl, rfl⟩

end Mjinx.Props
