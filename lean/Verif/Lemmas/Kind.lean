import Verif.Lemmas.Frame
import Verif.Lemmas.New

/-! # Calls never change the class of a component; masks -/

set_option linter.unusedSectionVars false

namespace Mjinx
variable {K : Type} [Field K] [LinearOrder K]
open Spec

/-- The class of a component. -/
inductive Tag where
  | com | joint | position | frame | jointBarrier | positionBarrier | selfCollision | equality
deriving DecidableEq

def Kind.tag : Kind K → Tag
  | .comTask .. => .com
  | .jointTask .. => .joint
  | .positionTask .. => .position
  | .frameTask .. => .frame
  | .jointBarrier .. => .jointBarrier
  | .positionBarrier .. => .positionBarrier
  | .selfCollision .. => .selfCollision
  | .modelEquality .. => .equality

theorem tag_setTaskA (k : Kind K) (t : TaskA K) : (k.setTaskA t).tag = k.tag := by cases k <;> rfl
theorem tag_setSdg (k : Kind K) (s : K) : (k.setSdg s).tag = k.tag := by cases k <;> rfl
theorem tag_setObj (k : Kind K) (o : ObjA) : (k.setObj o).tag = k.tag := by cases k <;> rfl

theorem fillLimit_tag (u : Bool) (o : Option (Arr K)) (x : Arr K) (c : Comp K) :
    (fillLimit u o x c).2.attrs.kind.tag = c.attrs.kind.tag := by
  unfold fillLimit; split
  · rfl
  · unfold updateQLimit
    repeat' split
    all_goals simp_all [Comp.set, Kind.tag]

theorem updateModelJointBarrier_tag (m : MjModel K) (sdg : K) (fm : Option (List Int))
    (lo hi : Option (Arr K)) (qi : Option (List Nat)) (c : Comp K) :
    (updateModelJointBarrier m sdg fm lo hi qi c).2.attrs.kind.tag = .jointBarrier := by
  unfold updateModelJointBarrier
  dsimp only
  split
  · rfl
  · rename_i mk _
    have h1 := fillLimit_tag false lo (Arr.ofList0 (scalarRange m false))
      ((c.set { c.attrs with model := some m, mask := some (jointMasks m).1, kind := .jointBarrier sdg fm lo hi qi }).set
        { name := c.attrs.name, model := some m, gain := c.attrs.gain, gainFn := c.attrs.gainFn, mask := some mk.1, maskIdxs := nonzeroIdxs mk.1,
          dim := ((2 * (nonzeroIdxs mk.1).length : Nat) : Int),
          kind := .jointBarrier sdg fm lo hi (some (nonzeroIdxs mk.2)) })
    split
    · rename_i he
      have he' := congrArg Prod.snd he
      dsimp only at he'
      rw [← he']; exact h1
    · rename_i he
      have he' := congrArg Prod.snd he
      dsimp only at he'
      rw [fillLimit_tag, ← he']
      exact h1

/-- No call changes the class. -/
theorem run_tag (op : CompOp K) (c : Comp K) : (op.run c).2.attrs.kind.tag = c.attrs.kind.tag := by
  cases op <;> simp only [CompOp.run]
  case updateGain => unfold updateGain; split <;> rfl
  case updateCost =>
    unfold updateCost; repeat' split
    all_goals first | rfl | exact tag_setTaskA _ _
  case setLmDamping =>
    unfold setLmDamping; split
    all_goals first | rfl | exact tag_setTaskA _ _
  case setSafeDisplacementGain =>
    unfold setSafeDisplacementGain; split
    all_goals first | rfl | exact tag_setSdg _ _
  case updateTarget =>
    unfold updateTarget; repeat' split
    all_goals first | rfl | simp_all [Comp.set, Kind.tag]
  case updateTargetFrame =>
    unfold updateTargetFrame; repeat' split
    all_goals first | rfl | simp_all [Comp.set, Kind.tag]
  case updateQLimit =>
    unfold updateQLimit; repeat' split
    all_goals first | rfl | simp_all [Comp.set, Kind.tag]
  case updatePLimit =>
    unfold updatePLimit; repeat' split
    all_goals first | rfl | simp_all [Comp.set, Kind.tag]
  case setActive => unfold setActive; split <;> first | rfl | simp_all [Comp.set, Kind.tag]
  case setHard => unfold setHard; split <;> first | rfl | simp_all [Comp.set, Kind.tag]
  case setDMin => unfold setDMin; split <;> first | rfl | simp_all [Comp.set, Kind.tag]
  case setNClosest => unfold setNClosest; split <;> first | rfl | simp_all [Comp.set, Kind.tag]
  case setCollisionBodies => unfold setCollisionBodies; split <;> first | rfl | simp_all [Comp.set, Kind.tag]
  case readMask => rcases maskFill_ensureMask c with h | ⟨_, _, h⟩ <;> rw [h]
  case compile => rcases maskFill_jaxComponent c with h | ⟨_, _, h⟩ <;> rw [h]
  case updateModel m =>
    unfold updateModel
    split
    · simp_all [Comp.set, Kind.tag]
    · unfold updateModelJointTask
      dsimp only
      repeat' split
      all_goals simp_all [Comp.set, Kind.tag]
    · unfold updateModelObj; dsimp only; split <;> exact tag_setObj _ _
    · unfold updateModelObj; dsimp only; split <;> exact tag_setObj _ _
    · rename_i h; rw [h]; exact updateModelJointBarrier_tag ..
    · unfold updateModelObj; dsimp only; split <;> exact tag_setObj _ _
    · rename_i h
      unfold updateModelSelfCollision; dsimp only
      repeat' split
      all_goals rw [h]; rfl
    · unfold updateModelEquality; dsimp only
      split <;> rfl

theorem nonzeroIdxs_selects (m : List Int) : SelectsNonzero m (nonzeroIdxs m) := by
  constructor
  · exact List.Pairwise.filter _ List.pairwise_lt_range
  · intro i
    unfold nonzeroIdxs
    rw [List.mem_filter, List.mem_range]
    constructor
    · rintro ⟨h, h2⟩
      refine ⟨h, ?_⟩
      rw [List.getElem?_eq_getElem h] at h2
      simpa using h2
    · rintro ⟨h, h2⟩
      refine ⟨h, ?_⟩
      rw [List.getElem?_eq_getElem h]
      simpa using h2

theorem nonzeroIdxs_replicate (n : Nat) : nonzeroIdxs (List.replicate n 1) = List.range n := by
  unfold nonzeroIdxs
  rw [List.length_replicate, List.filter_eq_self]
  intro i hi
  rw [List.mem_range] at hi
  simp [hi]

/-- The mask, if set, agrees with the mask indices. -/
def MaskOK (c : Comp K) : Prop := ∀ m, c.attrs.mask = some m → c.attrs.maskIdxs = nonzeroIdxs m

theorem maskOK_of_fill {c c' : Comp K} (h : MaskFill c.attrs c'.attrs) (hc : MaskOK c) : MaskOK c' := by
  rcases h with h | ⟨_, _, h⟩
  · unfold MaskOK; rw [h]; exact hc
  · intro m hm
    rw [h] at hm ⊢
    simp only [Option.some.injEq] at hm ⊢
    subst hm
    exact (nonzeroIdxs_replicate _).symm

theorem maskOK_of_not_model (op : CompOp K) (c : Comp K) (h : ∀ m, op ≠ .updateModel m) (hc : MaskOK c) :
    MaskOK (op.run c).2 := by
  by_cases h' : op.isSetter
  · obtain ⟨-, -, -, -, h5, h6⟩ := setter_frame op c h'
    intro m hm; rw [h5] at hm; rw [h6]; exact hc m hm
  · cases op <;> simp only [CompOp.isSetter, not_true_eq_false] at h' <;> simp only [CompOp.run]
    · exact (h _ rfl).elim
    · exact maskOK_of_fill (maskFill_ensureMask c) hc
    · exact maskOK_of_fill (maskFill_jaxComponent c) hc

theorem maskOK_new {n : NewComp K} {c : Comp K} (hn : n.run = .ok c) : MaskOK c := by
  have key : ∀ {mk : Option (Arr Int)} {m : Option (List Int)} {idxs : List Nat},
      initMask mk = .ok (m, idxs) → ∀ m', m = some m' → idxs = nonzeroIdxs m' := by
    intro mk m idxs h m' hm'
    rcases initMask_ok h with ⟨_, h, _⟩ | ⟨a, n, _, _, h, h'⟩
    · rw [h] at hm'; cases hm'
    · rw [h] at hm'; cases hm'; exact h'
  cases n <;> simp only [NewComp.run] at hn
  case comTask =>
    obtain ⟨_, _, _, _, h, rfl⟩ := newComTask_ok hn
    obtain ⟨_, _, _, hm, rfl⟩ := initAttrs_ok h; exact key hm
  case jointTask =>
    obtain ⟨_, _, _, h, rfl⟩ := newJointTask_ok hn
    obtain ⟨_, _, _, hm, rfl⟩ := initAttrs_ok h; exact key hm
  case positionTask =>
    obtain ⟨_, _, _, h, rfl⟩ := newPositionTask_ok hn
    obtain ⟨_, _, _, hm, rfl⟩ := initAttrs_ok h; exact key hm
  case frameTask =>
    obtain ⟨_, _, _, h, rfl⟩ := newFrameTask_ok hn
    obtain ⟨_, _, _, hm, rfl⟩ := initAttrs_ok h; exact key hm
  case jointBarrier =>
    obtain ⟨_, h, rfl⟩ := newJointBarrier_ok hn
    obtain ⟨_, _, _, hm, rfl⟩ := initAttrs_ok h; exact key hm
  case positionBarrier =>
    obtain ⟨_, _, _, _, h, _, _, _, rfl⟩ := newPositionBarrier_ok hn
    obtain ⟨_, _, _, hm, rfl⟩ := initAttrs_ok h; exact key hm
  case selfCollision =>
    obtain ⟨_, h, rfl⟩ := newSelfCollision_ok hn
    obtain ⟨_, _, _, hm, rfl⟩ := initAttrs_ok h; exact key hm
  case modelEquality =>
    obtain ⟨_, h, rfl⟩ := newModelEquality_ok hn
    obtain ⟨_, _, _, hm, rfl⟩ := initAttrs_ok h; exact key hm

theorem runOps_induct {P : Comp K → Prop} {c0 : Comp K} (h0 : P c0)
    (hs : ∀ op c, P c → P ((op : CompOp K).run c).2) (ops : List (CompOp K)) : P (runOps c0 ops) := by
  unfold runOps
  induction ops generalizing c0 with
  | nil => exact h0
  | cons op ops ih => exact ih (hs op c0 h0)

end Mjinx
