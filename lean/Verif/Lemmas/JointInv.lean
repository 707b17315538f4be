import Verif.Lemmas.New
import Verif.Lemmas.Kind
import Verif.Lemmas.Joints

/-! # Joint tasks and barriers: invariants of histories without a failed model update -/

namespace Mjinx
variable {K : Type} [Field K] [LinearOrder K]
set_option linter.unusedSectionVars false

/-- The constructor's mask argument, for joint components. -/
def Kind.finalMask? : Kind K → Option (Option (List Int))
  | .jointTask _ fm _ _ => some fm
  | .jointBarrier _ fm _ _ _ => some fm
  | _ => none

theorem fm_setTaskA (k : Kind K) (t : TaskA K) : (k.setTaskA t).finalMask? = k.finalMask? := by cases k <;> rfl
theorem fm_setSdg (k : Kind K) (s : K) : (k.setSdg s).finalMask? = k.finalMask? := by cases k <;> rfl
theorem fm_setObj (k : Kind K) (o : ObjA) : (k.setObj o).finalMask? = k.finalMask? := by cases k <;> rfl

theorem updateQLimit_fm (u : Bool) (x : Arr K) (c : Comp K) :
    (updateQLimit u x c).2.attrs.kind.finalMask? = c.attrs.kind.finalMask? := by
  unfold updateQLimit; repeat' split
  all_goals first | rfl | simp_all [Comp.set, Kind.finalMask?]

theorem fillLimit_fm (u : Bool) (o : Option (Arr K)) (x : Arr K) (c : Comp K) :
    (fillLimit u o x c).2.attrs.kind.finalMask? = c.attrs.kind.finalMask? := by
  unfold fillLimit; split
  · rfl
  · exact updateQLimit_fm ..

theorem updateModelJointBarrier_fm (m : MjModel K) (sdg : K) (fm : Option (List Int))
    (lo hi : Option (Arr K)) (qi : Option (List Nat)) (c : Comp K) :
    (updateModelJointBarrier m sdg fm lo hi qi c).2.attrs.kind.finalMask? = some fm := by
  unfold updateModelJointBarrier
  dsimp only
  split
  · rfl
  · split
    · rename_i c3 he
      rw [show c3 = _ from (congrArg Prod.snd he).symm, fillLimit_fm]; rfl
    · rename_i c3 he
      rw [fillLimit_fm, show c3 = _ from (congrArg Prod.snd he).symm, fillLimit_fm]; rfl

/-- No call changes the mask argument. -/
theorem run_fm (op : CompOp K) (c : Comp K) :
    (op.run c).2.attrs.kind.finalMask? = c.attrs.kind.finalMask? := by
  cases op <;> simp only [CompOp.run]
  case updateGain => unfold updateGain; split <;> rfl
  case updateCost =>
    unfold updateCost; repeat' split
    all_goals first | rfl | exact fm_setTaskA _ _
  case setLmDamping =>
    unfold setLmDamping; split
    all_goals first | rfl | exact fm_setTaskA _ _
  case setSafeDisplacementGain =>
    unfold setSafeDisplacementGain; split
    all_goals first | rfl | exact fm_setSdg _ _
  case updateTarget =>
    unfold updateTarget; repeat' split
    all_goals first | rfl | simp_all [Comp.set, Kind.finalMask?]
  case updateTargetFrame =>
    unfold updateTargetFrame; repeat' split
    all_goals first | rfl | simp_all [Comp.set, Kind.finalMask?]
  case updateQLimit => exact updateQLimit_fm ..
  case updatePLimit =>
    unfold updatePLimit; repeat' split
    all_goals first | rfl | simp_all [Comp.set, Kind.finalMask?]
  case setActive => unfold setActive; split <;> first | rfl | simp_all [Comp.set, Kind.finalMask?]
  case setHard => unfold setHard; split <;> first | rfl | simp_all [Comp.set, Kind.finalMask?]
  case setDMin => unfold setDMin; split <;> first | rfl | simp_all [Comp.set, Kind.finalMask?]
  case setNClosest => unfold setNClosest; split <;> first | rfl | simp_all [Comp.set, Kind.finalMask?]
  case setCollisionBodies =>
    unfold setCollisionBodies; split <;> first | rfl | simp_all [Comp.set, Kind.finalMask?]
  case readMask => rcases maskFill_ensureMask c with h | ⟨_, _, h⟩ <;> rw [h]
  case compile => rcases maskFill_jaxComponent c with h | ⟨_, _, h⟩ <;> rw [h]
  case updateModel m =>
    unfold updateModel
    split
    · simp_all [Comp.set, Kind.finalMask?]
    · unfold updateModelJointTask
      dsimp only
      repeat' split
      all_goals simp_all [Comp.set, Kind.finalMask?]
    · unfold updateModelObj; dsimp only; split <;> exact fm_setObj _ _
    · unfold updateModelObj; dsimp only; split <;> exact fm_setObj _ _
    · rename_i h; rw [h]; exact updateModelJointBarrier_fm ..
    · unfold updateModelObj; dsimp only; split <;> exact fm_setObj _ _
    · rename_i h
      unfold updateModelSelfCollision; dsimp only
      repeat' split
      all_goals rw [h]; rfl
    · unfold updateModelEquality; dsimp only
      split <;> rfl

/-- Masks, dimension and attributes of a joint component that is bound to model `m`. -/
def JInvAt (a : Attrs K) (m : MjModel K) : Prop :=
  match a.kind with
  | .jointTask _ fm tq qi => ∃ mk x, applyFinalMask (jointMasks m) fm = .ok mk ∧ a.mask = some mk.1 ∧
      a.maskIdxs = nonzeroIdxs mk.1 ∧ a.dim = ((nonzeroIdxs mk.1).length : Int) ∧
      qi = some (nonzeroIdxs mk.2) ∧ tq = some x ∧ x.lastDim = .ok (nonzeroIdxs mk.1).length
  | .jointBarrier _ fm lo hi qi => ∃ mk, applyFinalMask (jointMasks m) fm = .ok mk ∧ a.mask = some mk.1 ∧
      a.maskIdxs = nonzeroIdxs mk.1 ∧ a.dim = ((2 * (nonzeroIdxs mk.1).length : Nat) : Int) ∧
      qi = some (nonzeroIdxs mk.2) ∧ lo.isSome ∧ hi.isSome
  | _ => True

def JInv (c : Comp K) : Prop := ∀ m, c.attrs.model = some m → JInvAt c.attrs m

theorem updateQLimit_ok {u : Bool} {x : Arr K} {c : Comp K} {sdg : K} {fm : Option (List Int)}
    {lo hi : Option (Arr K)} {qi : Option (List Nat)} (hk : c.attrs.kind = .jointBarrier sdg fm lo hi qi)
    (h : (updateQLimit u x c).1 = .ok ()) :
    ∃ n : Nat, x.lastDim = .ok n ∧ (n : Int) = c.attrs.dim / 2 ∧
      (updateQLimit u x c).2.attrs =
        { c.attrs with kind := .jointBarrier sdg fm (if u then lo else some x) (if u then some x else hi) qi } := by
  revert h
  unfold updateQLimit
  rw [hk]
  dsimp only
  cases hl : x.lastDim with
  | error e => intro h; cases h
  | ok n =>
    dsimp only [getDim]
    split
    · rename_i h; intro h'; cases h'
    · rename_i d hd
      split at hd
      · cases hd
      · cases hd
        split
        · intro h; cases h
        · rename_i hn
          intro _
          refine ⟨n, rfl, by simpa using hn, ?_⟩
          cases u <;> rfl

theorem fillLimit_ok {u : Bool} {o : Option (Arr K)} {x : Arr K} {c : Comp K} {sdg : K} {fm : Option (List Int)}
    {lo hi : Option (Arr K)} {qi : Option (List Nat)} (hk : c.attrs.kind = .jointBarrier sdg fm lo hi qi)
    (ho : o = if u then hi else lo)
    (h : (fillLimit u o x c).1 = .ok ()) :
    (o = none → ∃ n : Nat, x.lastDim = .ok n ∧ (n : Int) = c.attrs.dim / 2) ∧
    (fillLimit u o x c).2.attrs =
      { c.attrs with kind :=
          .jointBarrier sdg fm (if u then lo else some (o.getD x)) (if u then some (o.getD x) else hi) qi } := by
  cases o with
  | some y =>
    refine ⟨fun h => (by cases h), ?_⟩
    unfold fillLimit
    dsimp only [Option.getD]
    have : c.attrs.kind = .jointBarrier sdg fm (if u then lo else some y) (if u then some y else hi) qi := by
      rw [hk, ho]
      cases u <;> rfl
    rw [← this]
  | none =>
    unfold fillLimit at h ⊢
    obtain ⟨n, h1, h2, h3⟩ := updateQLimit_ok hk h
    exact ⟨fun _ => ⟨n, h1, h2⟩, h3⟩

/-- What a successful model update of a joint barrier leaves behind. -/
theorem updateModelJointBarrier_ok {m : MjModel K} {sdg : K} {fm : Option (List Int)}
    {lo hi : Option (Arr K)} {qi : Option (List Nat)} {c : Comp K}
    (h : (updateModelJointBarrier m sdg fm lo hi qi c).1 = .ok ()) :
    ∃ mk, applyFinalMask (jointMasks m) fm = .ok mk ∧
      (lo = none ∨ hi = none → (scalarRange m true).length = (nonzeroIdxs mk.1).length) ∧
      (updateModelJointBarrier m sdg fm lo hi qi c).2.attrs =
        { c.attrs with model := some m, mask := some mk.1, maskIdxs := nonzeroIdxs mk.1,
                       dim := ((2 * (nonzeroIdxs mk.1).length : Nat) : Int),
                       kind := .jointBarrier sdg fm (some (lo.getD (Arr.ofList0 (scalarRange m false))))
                                 (some (hi.getD (Arr.ofList0 (scalarRange m true)))) (some (nonzeroIdxs mk.2)) } := by
  cases hm : applyFinalMask (jointMasks m) fm with
  | error e => rw [updateModelJointBarrier_err_mask hm] at h; cases h
  | ok mk =>
    refine ⟨mk, rfl, ?_⟩
    have hlen : ∀ u, (scalarRange m u).length = (scalarRange m true).length := by
      intro u; simp [scalarRange]
    have hdim : ∀ n : Nat, (n : Int) = ((2 * (nonzeroIdxs mk.1).length : Nat) : Int) / 2 →
        n = (nonzeroIdxs mk.1).length := by intro n hn; omega
    revert h
    unfold updateModelJointBarrier
    simp only [hm]
    split
    · intro h; cases h
    · rename_i c3 he
      have e1 := congrArg Prod.fst he
      have e2 := congrArg Prod.snd he
      dsimp only at e1 e2
      obtain ⟨g1, g2⟩ := fillLimit_ok (u := false) (o := lo) (sdg := sdg) (fm := fm) (lo := lo) (hi := hi)
        (qi := some (nonzeroIdxs mk.2)) rfl rfl e1
      rw [e2] at g2
      have hk3 : c3.attrs.kind = .jointBarrier sdg fm
          (some (lo.getD (Arr.ofList0 (scalarRange m false)))) hi (some (nonzeroIdxs mk.2)) := by
        rw [g2]; rfl
      intro h
      obtain ⟨g3, g4⟩ := fillLimit_ok (u := true) (o := hi) hk3 rfl h
      refine ⟨?_, ?_⟩
      · rintro (h0 | h0)
        · obtain ⟨n, a1, a2⟩ := g1 h0
          cases a1
          rw [hlen] at a2
          exact hdim _ a2
        · obtain ⟨n, a1, a2⟩ := g3 h0
          cases a1
          rw [g2] at a2
          exact hdim _ a2
      · rw [g4, g2]; rfl

/-- What a successful model update of a joint task leaves behind. -/
theorem updateModelJointTask_ok {m : MjModel K} {t : TaskA K} {fm : Option (List Int)}
    {tq : Option (Arr K)} {qi : Option (List Nat)} {c : Comp K}
    (h : (updateModelJointTask m t fm tq qi c).1 = .ok ()) :
    ∃ mk, applyFinalMask (jointMasks m) fm = .ok mk ∧
      (∀ x, tq = some x → x.lastDim = .ok (nonzeroIdxs mk.1).length) ∧
      (updateModelJointTask m t fm tq qi c).2.attrs =
        { c.attrs with model := some m, mask := some mk.1, maskIdxs := nonzeroIdxs mk.1,
                       dim := ((nonzeroIdxs mk.1).length : Int),
                       kind := .jointTask t fm (some (tq.getD (Arr.zeros (nonzeroIdxs mk.1).length)))
                                 (some (nonzeroIdxs mk.2)) } := by
  revert h
  unfold updateModelJointTask
  dsimp only
  split
  · intro h; cases h
  · rename_i mk hm
    cases tq with
    | none => intro _; exact ⟨mk, hm, fun x hx => (by cases hx), rfl⟩
    | some x =>
      dsimp only
      cases hl : x.lastDim with
      | error e => intro h; cases h
      | ok n =>
        dsimp only
        split
        · intro h; cases h
        · rename_i hn
          intro _
          refine ⟨mk, hm, ?_, rfl⟩
          intro y hy
          cases hy
          rw [hl]
          congr 1
          simpa using hn

theorem jInv_update {m : MjModel K} {c : Comp K} (h : (updateModel m c).1 = .ok ()) :
    JInv (updateModel m c).2 := by
  intro m' hm'
  have hmod : (updateModel m c).2.attrs.model = some m := by
    rcases (updateModel_frame m c).2.2.2 with h' | ⟨_, e, he⟩
    · exact h'
    · rw [he] at h; cases h
  rw [hmod] at hm'; cases hm'
  have htag := run_tag (.updateModel m) c
  simp only [CompOp.run] at htag
  cases hk : c.attrs.kind with
  | jointTask t fm tq qi =>
    have hu : updateModel m c = updateModelJointTask m t fm tq qi c := by
      unfold updateModel; rw [hk]
    rw [hu] at h ⊢
    obtain ⟨mk, h1, h2, h3⟩ := updateModelJointTask_ok h
    unfold JInvAt
    rw [h3]
    refine ⟨mk, _, h1, rfl, rfl, rfl, rfl, rfl, ?_⟩
    cases tq with
    | none => rfl
    | some x => exact h2 x rfl
  | jointBarrier s fm lo hi qi =>
    have hu : updateModel m c = updateModelJointBarrier m s fm lo hi qi c := by
      unfold updateModel; rw [hk]
    rw [hu] at h ⊢
    obtain ⟨mk, h1, h2, h3⟩ := updateModelJointBarrier_ok h
    unfold JInvAt
    rw [h3]
    exact ⟨mk, h1, rfl, rfl, rfl, rfl, rfl, rfl⟩
  | _ =>
    all_goals
    rw [hk] at htag
    unfold JInvAt
    revert htag
    cases (updateModel m c).2.attrs.kind <;> intro htag <;> trivial

theorem jInv_of_fill {c c' : Comp K} (h : MaskFill c.attrs c'.attrs) (hc : JInv c) : JInv c' := by
  rcases h with h | ⟨h0, _, h⟩
  · unfold JInv; rw [h]; exact hc
  · intro m hm
    rw [h] at hm ⊢
    have := hc m hm
    unfold JInvAt at this ⊢
    revert this
    dsimp only
    cases hk : c.attrs.kind <;> simp only [imp_self]
    · rintro ⟨mk, x, _, h1, _⟩; rw [h0] at h1; cases h1
    · rintro ⟨mk, _, h1, _⟩; rw [h0] at h1; cases h1

theorem jInv_of_not_model (op : CompOp K) (c : Comp K) (h : ∀ m, op ≠ .updateModel m) (hc : JInv c) :
    JInv (op.run c).2 := by
  by_cases hs : op.isSetter
  · intro m hm
    obtain ⟨-, f2, -, f4, f5, f6⟩ := setter_frame op c hs
    rw [f2] at hm
    have hi := hc m hm
    cases op <;> simp only [CompOp.isSetter, Bool.false_eq_true] at hs <;> simp only [CompOp.run] at *
    case updateGain => unfold updateGain; split <;> exact hi
    case updateCost =>
      unfold updateCost; repeat' split
      all_goals first | exact hi | skip
      unfold JInvAt at hi ⊢
      cases hk : c.attrs.kind <;> rw [hk] at hi <;> simp_all [Comp.set, Kind.setTaskA]
    case setLmDamping =>
      unfold setLmDamping; repeat' split
      all_goals first | exact hi | skip
      unfold JInvAt at hi ⊢
      cases hk : c.attrs.kind <;> rw [hk] at hi <;> simp_all [Comp.set, Kind.setTaskA]
    case setSafeDisplacementGain =>
      unfold setSafeDisplacementGain; repeat' split
      all_goals first | exact hi | skip
      unfold JInvAt at hi ⊢
      cases hk : c.attrs.kind <;> rw [hk] at hi <;> simp_all [Comp.set, Kind.setSdg]
    case updateTarget x =>
      unfold updateTarget; cases hk : c.attrs.kind <;> dsimp only
      case jointTask t fm tq qi =>
        have hi' := hi
        unfold JInvAt at hi'
        rw [hk] at hi'
        obtain ⟨mk, y, h1, h2, h3, h4, h5, h6, h7⟩ := hi'
        rw [if_neg (by rw [h4]; omega)]
        cases hl : x.lastDim with
        | error e => exact hi
        | ok n =>
          dsimp only
          split
          · exact hi
          · rename_i hn
            refine ⟨mk, x, h1, h2, h3, h4, h5, rfl, ?_⟩
            rw [hl]; congr 1
            rw [h4] at hn
            simpa using hn
      all_goals (repeat' split)
      all_goals first | exact hi | trivial
    case updateTargetFrame =>
      unfold updateTargetFrame; cases hk : c.attrs.kind <;> dsimp only
      all_goals (repeat' split)
      all_goals first | exact hi | trivial
    case updateQLimit u x =>
      cases hr : (updateQLimit u x c).1 with
      | ok _ =>
        unfold JInvAt at hi ⊢
        cases hk : c.attrs.kind <;> rw [hk] at hi
        case jointBarrier s fm lo hi' qi =>
          obtain ⟨n, q1, q2, q3⟩ := updateQLimit_ok hk hr
          obtain ⟨mk, h1, h2, h3, h4, h5, h6, h7⟩ := hi
          rw [q3]
          cases u
          · exact ⟨mk, h1, h2, h3, h4, h5, rfl, h7⟩
          · exact ⟨mk, h1, h2, h3, h4, h5, h6, rfl⟩
        all_goals (unfold updateQLimit at hr; rw [hk] at hr; cases hr)
      | error e =>
        have : (updateQLimit u x c).2 = c := by
          revert hr; unfold updateQLimit; repeat' split
          all_goals first | (intro _; rfl) | (intro hr; cases hr)
        rw [this]; exact hi
    case updatePLimit u x =>
      unfold updatePLimit; cases hk : c.attrs.kind <;> dsimp only
      all_goals (repeat' split)
      all_goals first | exact hi | trivial
    case setActive =>
      unfold setActive; cases hk : c.attrs.kind <;> first | exact hi | trivial
    case setHard =>
      unfold setHard; cases hk : c.attrs.kind <;> first | exact hi | trivial
    case setDMin =>
      unfold setDMin; cases hk : c.attrs.kind <;> first | exact hi | trivial
    case setNClosest =>
      unfold setNClosest; cases hk : c.attrs.kind <;> first | exact hi | trivial
    case setCollisionBodies =>
      unfold setCollisionBodies; cases hk : c.attrs.kind <;> first | exact hi | trivial
  · cases op <;> simp only [CompOp.isSetter, not_true_eq_false] at hs <;> simp only [CompOp.run]
    · exact (h _ rfl).elim
    · exact jInv_of_fill (maskFill_ensureMask c) hc
    · exact jInv_of_fill (maskFill_jaxComponent c) hc

end Mjinx
