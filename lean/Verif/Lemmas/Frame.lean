import Verif.Lemmas.Compile

/-! Helper lemmas: what calls leave unchanged. -/

set_option linter.unusedSectionVars false

namespace Mjinx
variable {K : Type} [Field K] [LinearOrder K]
open Spec

/-- Calls that are not model updates. -/
def CompOp.isSetter : CompOp K → Bool
  | .updateModel _ => false
  | .readMask => false
  | .compile => false
  | _ => true

/-- Setters change only gain and class-specific attributes. -/
theorem setter_frame (op : CompOp K) (c : Comp K) (h : op.isSetter) :
    (op.run c).2.attrs.name = c.attrs.name ∧ (op.run c).2.attrs.model = c.attrs.model ∧
    (op.run c).2.attrs.gainFn = c.attrs.gainFn ∧
    (op.run c).2.attrs.dim = c.attrs.dim ∧ (op.run c).2.attrs.mask = c.attrs.mask ∧
    (op.run c).2.attrs.maskIdxs = c.attrs.maskIdxs := by
  cases op <;> simp only [CompOp.isSetter, Bool.false_eq_true] at h <;> simp only [CompOp.run]
  case updateGain => unfold updateGain; repeat' split
                     all_goals exact ⟨rfl, rfl, rfl, rfl, rfl, rfl⟩
  case updateCost => unfold updateCost; repeat' split
                     all_goals exact ⟨rfl, rfl, rfl, rfl, rfl, rfl⟩
  case setLmDamping => unfold setLmDamping; repeat' split
                       all_goals exact ⟨rfl, rfl, rfl, rfl, rfl, rfl⟩
  case setSafeDisplacementGain => unfold setSafeDisplacementGain; repeat' split
                                  all_goals exact ⟨rfl, rfl, rfl, rfl, rfl, rfl⟩
  case updateTarget => unfold updateTarget; repeat' split
                       all_goals exact ⟨rfl, rfl, rfl, rfl, rfl, rfl⟩
  case updateTargetFrame => unfold updateTargetFrame; repeat' split
                            all_goals exact ⟨rfl, rfl, rfl, rfl, rfl, rfl⟩
  case updateQLimit => unfold updateQLimit; repeat' split
                       all_goals exact ⟨rfl, rfl, rfl, rfl, rfl, rfl⟩
  case updatePLimit => unfold updatePLimit; repeat' split
                       all_goals exact ⟨rfl, rfl, rfl, rfl, rfl, rfl⟩
  case setActive => unfold setActive; repeat' split
                    all_goals exact ⟨rfl, rfl, rfl, rfl, rfl, rfl⟩
  case setHard => unfold setHard; repeat' split
                  all_goals exact ⟨rfl, rfl, rfl, rfl, rfl, rfl⟩
  case setDMin => unfold setDMin; repeat' split
                  all_goals exact ⟨rfl, rfl, rfl, rfl, rfl, rfl⟩
  case setNClosest => unfold setNClosest; repeat' split
                      all_goals exact ⟨rfl, rfl, rfl, rfl, rfl, rfl⟩
  case setCollisionBodies => unfold setCollisionBodies; repeat' split
                             all_goals exact ⟨rfl, rfl, rfl, rfl, rfl, rfl⟩

theorem updateQLimit_frame (u : Bool) (x : Arr K) (c : Comp K) :
    (updateQLimit u x c).2.attrs.name = c.attrs.name ∧
    (updateQLimit u x c).2.attrs.model = c.attrs.model ∧
    (updateQLimit u x c).2.attrs.gainFn = c.attrs.gainFn ∧
    (updateQLimit u x c).2.attrs.dim = c.attrs.dim ∧ (updateQLimit u x c).2.attrs.mask = c.attrs.mask ∧
    (updateQLimit u x c).2.attrs.maskIdxs = c.attrs.maskIdxs :=
  setter_frame (.updateQLimit u x) c rfl

theorem updateQLimit_gain (u : Bool) (x : Arr K) (c : Comp K) :
    (updateQLimit u x c).2.attrs.gain = c.attrs.gain := by
  unfold updateQLimit; repeat' split
  all_goals rfl

/-- Frame of `fillLimit`. -/
theorem fillLimit_frame (u : Bool) (o : Option (Arr K)) (x : Arr K) (c : Comp K) :
    (fillLimit u o x c).2.attrs.name = c.attrs.name ∧
    (fillLimit u o x c).2.attrs.model = c.attrs.model ∧
    (fillLimit u o x c).2.attrs.gainFn = c.attrs.gainFn ∧
    (fillLimit u o x c).2.attrs.dim = c.attrs.dim ∧ (fillLimit u o x c).2.attrs.mask = c.attrs.mask ∧
    (fillLimit u o x c).2.attrs.maskIdxs = c.attrs.maskIdxs ∧
    (fillLimit u o x c).2.attrs.gain = c.attrs.gain := by
  unfold fillLimit; split
  · exact ⟨rfl, rfl, rfl, rfl, rfl, rfl, rfl⟩
  · obtain ⟨h1, h2, h3, h4, h5, h6⟩ := updateQLimit_frame u x c
    exact ⟨h1, h2, h3, h4, h5, h6, updateQLimit_gain u x c⟩

/-- The joint barrier's model update, after the mask check succeeded. -/
theorem updateModelJointBarrier_ok_mask {m : MjModel K} {sdg : K} {fm : Option (List Int)}
    {lo hi : Option (Arr K)} {qi : Option (List Nat)} {c : Comp K} {mk : List Int × List Int}
    (h : applyFinalMask (jointMasks m) fm = .ok mk) :
    (updateModelJointBarrier m sdg fm lo hi qi c).2.attrs.name = c.attrs.name ∧
    (updateModelJointBarrier m sdg fm lo hi qi c).2.attrs.model = some m ∧
    (updateModelJointBarrier m sdg fm lo hi qi c).2.attrs.gainFn = c.attrs.gainFn ∧
    (updateModelJointBarrier m sdg fm lo hi qi c).2.attrs.dim = ((2 * (nonzeroIdxs mk.1).length : Nat) : Int) ∧
    (updateModelJointBarrier m sdg fm lo hi qi c).2.attrs.mask = some mk.1 ∧
    (updateModelJointBarrier m sdg fm lo hi qi c).2.attrs.maskIdxs = nonzeroIdxs mk.1 ∧
    (updateModelJointBarrier m sdg fm lo hi qi c).2.attrs.gain = c.attrs.gain := by
  unfold updateModelJointBarrier
  simp only [h]
  split
  · rename_i e c3 he
    have hf := fillLimit_frame false lo (Arr.ofList0 (scalarRange m false))
      ((c.set { c.attrs with model := some m, mask := some (jointMasks m).1, kind := .jointBarrier sdg fm lo hi qi }).set
        { name := c.attrs.name, model := some m, gain := c.attrs.gain, gainFn := c.attrs.gainFn, mask := some mk.1, maskIdxs := nonzeroIdxs mk.1,
          dim := ((2 * (nonzeroIdxs mk.1).length : Nat) : Int),
          kind := .jointBarrier sdg fm lo hi (some (nonzeroIdxs mk.2)) })
    have he' := congrArg Prod.snd he
    dsimp only at he'
    rw [← he']
    exact hf
  · rename_i u c3 he
    have hf := fillLimit_frame false lo (Arr.ofList0 (scalarRange m false))
      ((c.set { c.attrs with model := some m, mask := some (jointMasks m).1, kind := .jointBarrier sdg fm lo hi qi }).set
        { name := c.attrs.name, model := some m, gain := c.attrs.gain, gainFn := c.attrs.gainFn, mask := some mk.1, maskIdxs := nonzeroIdxs mk.1,
          dim := ((2 * (nonzeroIdxs mk.1).length : Nat) : Int),
          kind := .jointBarrier sdg fm lo hi (some (nonzeroIdxs mk.2)) })
    have he' := congrArg Prod.snd he
    dsimp only at he'
    obtain ⟨f1, f2, f3, f4, f5, f6, f7⟩ := fillLimit_frame true hi (Arr.ofList0 (scalarRange m true)) c3
    rw [f1, f2, f3, f4, f5, f6, f7, ← he']
    exact hf

theorem updateModelJointBarrier_err_mask {m : MjModel K} {sdg : K} {fm : Option (List Int)}
    {lo hi : Option (Arr K)} {qi : Option (List Nat)} {c : Comp K} {e : Err}
    (h : applyFinalMask (jointMasks m) fm = .error e) :
    updateModelJointBarrier m sdg fm lo hi qi c =
      (.error e, c.set { c.attrs with model := some m, mask := some (jointMasks m).1, kind := .jointBarrier sdg fm lo hi qi }) := by
  unfold updateModelJointBarrier
  simp only [h]

/-- A model update never renames, never changes gain or gain function; the model afterwards is the new
one, or (when it raised) possibly still the old one. -/
theorem updateModel_frame (m : MjModel K) (c : Comp K) :
    (updateModel m c).2.attrs.name = c.attrs.name ∧
    (updateModel m c).2.attrs.gain = c.attrs.gain ∧
    (updateModel m c).2.attrs.gainFn = c.attrs.gainFn ∧
    ((updateModel m c).2.attrs.model = some m ∨
      ((updateModel m c).2.attrs.model = c.attrs.model ∧ ∃ e, (updateModel m c).1 = .error e)) := by
  unfold updateModel
  split
  · exact ⟨rfl, rfl, rfl, Or.inl rfl⟩
  · unfold updateModelJointTask
    dsimp only
    repeat' split
    all_goals exact ⟨rfl, rfl, rfl, Or.inl rfl⟩
  · unfold updateModelObj; dsimp only; split
    · exact ⟨rfl, rfl, rfl, Or.inr ⟨rfl, _, rfl⟩⟩
    · exact ⟨rfl, rfl, rfl, Or.inl rfl⟩
  · unfold updateModelObj; dsimp only; split
    · exact ⟨rfl, rfl, rfl, Or.inr ⟨rfl, _, rfl⟩⟩
    · exact ⟨rfl, rfl, rfl, Or.inl rfl⟩
  · rename_i s fm lo hi qi _
    cases h : applyFinalMask (jointMasks m) fm with
    | error e =>
      rw [updateModelJointBarrier_err_mask h]
      exact ⟨rfl, rfl, rfl, Or.inl rfl⟩
    | ok mk =>
      obtain ⟨h1, h2, h3, -, -, -, h7⟩ :=
        updateModelJointBarrier_ok_mask (sdg := s) (lo := lo) (hi := hi) (qi := qi) (c := c) h
      exact ⟨h1, h7, h3, Or.inl h2⟩
  · unfold updateModelObj; dsimp only; split
    · exact ⟨rfl, rfl, rfl, Or.inr ⟨rfl, _, rfl⟩⟩
    · exact ⟨rfl, rfl, rfl, Or.inl rfl⟩
  · unfold updateModelSelfCollision; dsimp only
    repeat' split
    all_goals exact ⟨rfl, rfl, rfl, Or.inl rfl⟩
  · unfold updateModelEquality; dsimp only
    split <;> exact ⟨rfl, rfl, rfl, Or.inl rfl⟩

/-- No call renames a component. -/
theorem run_name (op : CompOp K) (c : Comp K) : (op.run c).2.attrs.name = c.attrs.name := by
  by_cases h : op.isSetter
  · exact (setter_frame op c h).1
  · cases op <;> simp only [CompOp.isSetter, not_true_eq_false] at h <;> simp only [CompOp.run]
    · exact (updateModel_frame _ c).1
    · rcases maskFill_ensureMask c with h | ⟨_, _, h⟩ <;> rw [h]
    · rcases maskFill_jaxComponent c with h | ⟨_, _, h⟩ <;> rw [h]

/-- Only model updates change the model. -/
theorem run_model (op : CompOp K) (c : Comp K) (h : ∀ m, op ≠ .updateModel m) :
    (op.run c).2.attrs.model = c.attrs.model := by
  by_cases h' : op.isSetter
  · exact (setter_frame op c h').2.1
  · cases op <;> simp only [CompOp.isSetter, not_true_eq_false] at h' <;> simp only [CompOp.run]
    · exact (h _ rfl).elim
    · rcases maskFill_ensureMask c with h | ⟨_, _, h⟩ <;> rw [h]
    · rcases maskFill_jaxComponent c with h | ⟨_, _, h⟩ <;> rw [h]

end Mjinx
