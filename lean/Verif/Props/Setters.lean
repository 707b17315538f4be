import Verif.Lemmas.Kind
import Verif.Spec.Examples

/-!
# C08-C12, C15: setters, model updates, gains, costs and masks
-/

set_option linter.unusedSectionVars false

namespace Mjinx.Props
open Mjinx Spec
variable {K : Type} [Field K] [LinearOrder K]

/-- **C08.** A call that raises, other than a model update, leaves the component exactly as it was
(for compilation see C02: it may record the default mask, which is not observable). -/
theorem C08_rejected_setter (op : CompOp K) (c : Comp K) (e : Err) (hm : ∀ m, op ≠ .updateModel m)
    (hc : op ≠ .compile) (h : (op.run c).1 = .error e) : (op.run c).2 = c := by
  cases op <;> simp only [CompOp.run] at h ⊢
  case updateGain => unfold updateGain at h ⊢; split <;> simp_all
  case updateCost => unfold updateCost at h ⊢; repeat' split
                     all_goals simp_all
  case setLmDamping => unfold setLmDamping at h ⊢; split <;> simp_all
  case setSafeDisplacementGain => unfold setSafeDisplacementGain at h ⊢; split <;> simp_all
  case updateTarget => unfold updateTarget at h ⊢; repeat' split
                       all_goals simp_all
  case updateTargetFrame => unfold updateTargetFrame at h ⊢; repeat' split
                            all_goals simp_all
  case updateQLimit => unfold updateQLimit at h ⊢; repeat' split
                       all_goals simp_all
  case updatePLimit => unfold updatePLimit at h ⊢; repeat' split
                       all_goals simp_all
  case setActive => unfold setActive at h ⊢; split <;> simp_all
  case setHard => unfold setHard at h ⊢; split <;> simp_all
  case setDMin => unfold setDMin at h ⊢; split <;> simp_all
  case setNClosest => unfold setNClosest at h ⊢; split <;> simp_all
  case setCollisionBodies => unfold setCollisionBodies at h ⊢; split <;> simp_all
  case updateModel m => exact (hm m rfl).elim
  case readMask => unfold ensureMask at h ⊢; repeat' split
                   all_goals simp_all
  case compile => exact (hc rfl).elim

/-! ### C09 -/

/-- **C09 is false**: a position task that is bound to a model and is then offered a model without its
object raises, but has already lost the object id: it is not the component it was. -/
theorem C09_rejected_model_changes_task :
    ∃ (c : Comp ℚ) (m : MjModel ℚ), Reachable c ∧ (updateModel m c).1 = .error .valueError ∧
      (∃ t o x, c.attrs.kind = .positionTask t o x ∧ o.objId = 4) ∧
      (∃ t o x, (updateModel m c).2.attrs.kind = .positionTask t o x ∧ o.objId = -1) ∧
      observe (updateModel m c).2 ≠ observe c := by
  refine ⟨_, Ex.model2, ⟨.positionTask Ex.taskArgs "b4" .body, _, [.updateModel Ex.model], rfl, rfl⟩,
    rfl, ⟨_, _, _, rfl, rfl⟩, ⟨_, _, _, rfl, rfl⟩, ?_⟩
  intro h
  have h := congrArg (fun o : Observable ℚ => match o.kind with
    | .positionTask _ o _ => o.objId | _ => 0) h
  revert h
  decide

/-- **C09 is false** for joint tasks: the model and the mask are replaced before the rejection. -/
theorem C09_rejected_model_changes_joint_task :
    ∃ (c : Comp ℚ) (m : MjModel ℚ), Reachable c ∧ (updateModel m c).1 = .error .valueError ∧
      (∃ m0, c.attrs.model = some m0 ∧ m0.nv = 11) ∧
      (∃ m0, (updateModel m c).2.attrs.model = some m0 ∧ m0.nv = 10) ∧
      c.attrs.maskIdxs = [6] ∧ (updateModel m c).2.attrs.maskIdxs = [6] ∧
      (updateModel m c).2.attrs.mask = some [0, 0, 0, 0, 0, 0, 1, 0, 0, 0] :=
  ⟨_, Ex.model2, ⟨.jointTask Ex.taskArgs (some [1, 0]), _, [.updateModel Ex.model], rfl, rfl⟩, rfl,
    ⟨_, rfl, rfl⟩, ⟨_, rfl, rfl⟩, rfl, rfl, rfl⟩

private theorem updateModelObj_settings (m : MjModel K) (o : ObjA) (c : Comp K)
    (h : (∃ t x, c.attrs.kind = .positionTask t o x) ∨ (∃ t x, c.attrs.kind = .frameTask t o x) ∨
      ∃ s lo hi lt li, c.attrs.kind = .positionBarrier s o lo hi lt li) :
    userKind (updateModelObj m o c).2.attrs.kind = userKind c.attrs.kind := by
  have : (updateModelObj m o c).2.attrs.kind =
      c.attrs.kind.setObj { o with objId := m.name2id o.objType o.objName } := by
    unfold updateModelObj; dsimp only; split <;> rfl
  rw [this]
  rcases h with ⟨t, x, h⟩ | ⟨t, x, h⟩ | ⟨s, lo, hi, lt, li, h⟩ <;> rw [h] <;> rfl

private theorem scalarRange_length (m : MjModel K) : (scalarRange m true).length = (scalarRange m false).length := by
  simp [scalarRange]

private theorem fillLimit_err {u : Bool} {o : Option (Arr K)} {x : Arr K} {c c' : Comp K} {e : Err}
    (h : fillLimit u o x c = (.error e, c')) : o = none ∧ c' = c ∧ updateQLimit u x c = (.error e, c) := by
  unfold fillLimit at h
  split at h
  · cases h
  · have h2 := C08_rejected_setter (.updateQLimit u x) c e (by simp) (by simp)
      (by simp only [CompOp.run]; rw [h])
    simp only [CompOp.run] at h2
    rw [h] at h2
    simp only at h2
    subst h2
    exact ⟨rfl, rfl, h⟩

/-- Whether a limit vector is accepted depends only on its length. -/
private theorem updateQLimit_len {u u' : Bool} {x x' : Arr K} {c c' : Comp K} (hs : x'.shape = x.shape)
    (hd : c'.attrs.dim = c.attrs.dim) (ht : c'.attrs.kind.tag = c.attrs.kind.tag)
    (h : (updateQLimit u x c).1 = .ok ()) : (updateQLimit u' x' c').1 = .ok () := by
  unfold updateQLimit at h
  cases hk : c.attrs.kind with
  | jointBarrier s fm lo hi qi =>
    rw [hk] at h ht
    cases hk' : c'.attrs.kind <;> rw [hk'] at ht <;> simp only [Kind.tag, reduceCtorEq] at ht
    unfold updateQLimit
    rw [hk']
    have hl : x'.lastDim = x.lastDim := by unfold Arr.lastDim; rw [hs]
    have hg : getDim c'.attrs = getDim c.attrs := by unfold getDim; rw [hd]
    simp only [hl, hg] at h ⊢
    cases hx : x.lastDim with
    | error e => rw [hx] at h; cases h
    | ok n =>
      rw [hx] at h
      simp only at h ⊢
      cases hg' : getDim c.attrs with
      | error e => rw [hg'] at h; cases h
      | ok d =>
        rw [hg'] at h
        simp only at h ⊢
        split at h
        · cases h
        · rename_i hn
          simp only [hn]
          cases u' <;> rfl
  | _ => rw [hk] at h; cases h

/-- **C09 (partial).** A rejected model leaves name, gain, gain function and everything the user set on the
component (cost, damping, targets, limits, object name and type, masks given, distances, exclusions)
unchanged.  Missing: the model, `mask`, `dim` and the object id, which can change before the rejection
(`C09_rejected_model_changes_task`, `C09_rejected_model_changes_joint_task`). -/
theorem C09_rejected_model_keeps_settings_partial (m : MjModel K) (c : Comp K) (e : Err)
    (h : (updateModel m c).1 = .error e) :
    (updateModel m c).2.attrs.name = c.attrs.name ∧ (updateModel m c).2.attrs.gain = c.attrs.gain ∧
    (updateModel m c).2.attrs.gainFn = c.attrs.gainFn ∧
    userKind (updateModel m c).2.attrs.kind = userKind c.attrs.kind := by
  obtain ⟨h1, h2, h3, -⟩ := updateModel_frame m c
  refine ⟨h1, h2, h3, ?_⟩
  clear h1 h2 h3
  unfold updateModel at h ⊢
  split
  · rename_i hk; rw [hk] at h; cases h
  · rename_i t fm tq qi hk
    rw [hk] at h
    simp only at h
    rw [hk]
    unfold updateModelJointTask at h ⊢
    dsimp only at h ⊢
    split
    · rfl
    · rename_i mk hmk
      rw [hmk] at h
      split
      · simp only at h; cases h
      · rename_i x
        simp only at h
        split
        · rfl
        · split <;> rfl
  · rename_i hk; exact updateModelObj_settings m _ c (Or.inl ⟨_, _, hk⟩)
  · rename_i hk; exact updateModelObj_settings m _ c (Or.inr (Or.inl ⟨_, _, hk⟩))
  · rename_i s fm lo hi qi hk
    rw [hk] at h
    simp only at h
    unfold updateModelJointBarrier at h ⊢
    dsimp only at h ⊢
    split
    · rw [hk]; rfl
    · rename_i mk hmk
      rw [hmk] at h
      dsimp only at h
      split
      · rename_i e' c3 he
        obtain ⟨-, hc3, -⟩ := fillLimit_err he
        rw [hc3, hk]; rfl
      · rename_i u c3 he
        rw [he] at h
        dsimp only at h
        cases hf : fillLimit true hi (Arr.ofList0 (scalarRange m true)) c3 with
        | mk r c4 =>
          rw [hf] at h
          cases r with
          | ok _ => cases h
          | error e' =>
            obtain ⟨-, hc4, herr⟩ := fillLimit_err hf
            cases lo with
            | some x =>
              simp only [fillLimit, Prod.mk.injEq] at he
              dsimp only
              rw [hc4, ← he.2, hk]; rfl
            | none =>
              exfalso
              simp only [fillLimit] at he
              have hfr := updateQLimit_frame false (Arr.ofList0 (scalarRange m false))
                ((c.set { c.attrs with model := some m, mask := some (jointMasks m).1, kind := .jointBarrier s fm none hi qi }).set
                  { name := c.attrs.name, model := some m, gain := c.attrs.gain, gainFn := c.attrs.gainFn, mask := some mk.1, maskIdxs := nonzeroIdxs mk.1,
                    dim := ((2 * (nonzeroIdxs mk.1).length : Nat) : Int),
                    kind := .jointBarrier s fm none hi (some (nonzeroIdxs mk.2)) })
              have htg := run_tag (.updateQLimit false (Arr.ofList0 (scalarRange m false)))
                ((c.set { c.attrs with model := some m, mask := some (jointMasks m).1, kind := .jointBarrier s fm none hi qi }).set
                  { name := c.attrs.name, model := some m, gain := c.attrs.gain, gainFn := c.attrs.gainFn, mask := some mk.1, maskIdxs := nonzeroIdxs mk.1,
                    dim := ((2 * (nonzeroIdxs mk.1).length : Nat) : Int),
                    kind := .jointBarrier s fm none hi (some (nonzeroIdxs mk.2)) })
              simp only [CompOp.run] at htg
              dsimp only [Comp.set] at he hfr htg
              rw [he] at hfr htg
              have := updateQLimit_len (u' := true) (x' := Arr.ofList0 (scalarRange m true)) (c' := c3)
                (by simp [Arr.ofList0, scalarRange_length]) hfr.2.2.2.1 htg (congrArg Prod.fst he)
              rw [herr] at this
              cases this
  · rename_i hk; exact updateModelObj_settings m _ c (Or.inr (Or.inr ⟨_, _, _, _, _, hk⟩))
  · rename_i s d b ex n p hk
    rw [hk] at h
    simp only at h
    rw [hk]
    unfold updateModelSelfCollision at h ⊢
    dsimp only at h ⊢
    split
    · rfl
    · rename_i x hx
      rw [hx] at h
      split
      · rfl
      · rename_i ps hps
        simp only [hps] at h
        cases h
  · rename_i hk
    rw [hk] at h
    simp only at h
    unfold updateModelEquality at h ⊢
    dsimp only at h ⊢
    split <;> rfl

/-! ### C10, C11 -/

/-- **C10.** For a component of dimension `d`: a scalar gain is repeated `d` times, a vector of length `d` is
used as is, every other shape raises `ValueError`; an unset dimension raises `ValueError`. -/
theorem C10_gain_expansion (a : Attrs K) :
    (a.dim = -1 → vectorGain a = .error .valueError) ∧
    ∀ d : Nat, a.dim = d →
      (a.gain.shape = [] → ∃ g, vectorGain a = .ok g ∧ g.shape = [d] ∧ ∀ i < d, g.get [i] = a.gain.get []) ∧
      (a.gain.shape = [d] → vectorGain a = .ok a.gain) ∧
      (a.gain.shape ≠ [] → a.gain.shape ≠ [d] → vectorGain a = .error .valueError) := by
  constructor
  · intro h; unfold vectorGain; rw [if_pos h]
  · intro d hd
    have h1 : ¬ a.dim = -1 := by omega
    have hs : sizeOf (d : Int) = .ok d := by unfold sizeOf; rw [if_neg (by omega)]; simp
    refine ⟨fun h => ⟨Arr.onesMul d a.gain, ?_, rfl, fun i _ => by simp [Arr.onesMul]⟩, fun h => ?_, fun h h' => ?_⟩
    · unfold vectorGain; rw [if_neg h1]; simp only [h, hd, hs]
    · unfold vectorGain; rw [if_neg h1]; simp [h, hd]
    · unfold vectorGain; rw [if_neg h1]
      split
      · rename_i h2; exact absurd h2 h
      · rename_i n h2
        rw [if_pos]
        intro h3
        apply h'
        rw [h2]
        have : n = d := by omega
        rw [this]
      · rfl

/-- **C10.** Every gain a component can hold is a scalar or a vector, so the three cases above are all
there is. -/
theorem C10_gain_rank {c : Comp K} (h : Reachable c) : c.attrs.gain.ndim ≤ 1 := by
  refine Reachable.induct (P := fun c => c.attrs.gain.ndim ≤ 1) ?_ ?_ h
  · intro n c hn
    cases n <;> simp only [NewComp.run] at hn
    case comTask =>
      obtain ⟨_, _, _, _, h, rfl⟩ := newComTask_ok hn
      obtain ⟨hg, _, _, _, rfl⟩ := initAttrs_ok h; exact hg
    case jointTask =>
      obtain ⟨_, _, _, h, rfl⟩ := newJointTask_ok hn
      obtain ⟨hg, _, _, _, rfl⟩ := initAttrs_ok h; exact hg
    case positionTask =>
      obtain ⟨_, _, _, h, rfl⟩ := newPositionTask_ok hn
      obtain ⟨hg, _, _, _, rfl⟩ := initAttrs_ok h; exact hg
    case frameTask =>
      obtain ⟨_, _, _, h, rfl⟩ := newFrameTask_ok hn
      obtain ⟨hg, _, _, _, rfl⟩ := initAttrs_ok h; exact hg
    case jointBarrier =>
      obtain ⟨_, h, rfl⟩ := newJointBarrier_ok hn
      obtain ⟨hg, _, _, _, rfl⟩ := initAttrs_ok h; exact hg
    case positionBarrier =>
      obtain ⟨_, _, _, _, h, _, _, _, rfl⟩ := newPositionBarrier_ok hn
      obtain ⟨hg, _, _, _, rfl⟩ := initAttrs_ok h; exact hg
    case selfCollision =>
      obtain ⟨_, h, rfl⟩ := newSelfCollision_ok hn
      obtain ⟨hg, _, _, _, rfl⟩ := initAttrs_ok h; exact hg
    case modelEquality =>
      obtain ⟨_, h, rfl⟩ := newModelEquality_ok hn
      obtain ⟨hg, _, _, _, rfl⟩ := initAttrs_ok h; exact hg
  · intro op c hc
    cases op <;> simp only [CompOp.run]
    case updateGain g =>
      unfold updateGain
      split
      · exact hc
      · rename_i h; exact not_lt.1 h
    case updateCost => unfold updateCost; repeat' split
                       all_goals exact hc
    case setLmDamping => unfold setLmDamping; split <;> exact hc
    case setSafeDisplacementGain => unfold setSafeDisplacementGain; split <;> exact hc
    case updateTarget => unfold updateTarget; repeat' split
                         all_goals exact hc
    case updateTargetFrame => unfold updateTargetFrame; repeat' split
                              all_goals exact hc
    case updateQLimit => rw [updateQLimit_gain]; exact hc
    case updatePLimit => unfold updatePLimit; repeat' split
                         all_goals exact hc
    case setActive => unfold setActive; split <;> exact hc
    case setHard => unfold setHard; split <;> exact hc
    case setDMin => unfold setDMin; split <;> exact hc
    case setNClosest => unfold setNClosest; split <;> exact hc
    case setCollisionBodies => unfold setCollisionBodies; split <;> exact hc
    case updateModel m => rw [(updateModel_frame m c).2.1]; exact hc
    case readMask => rcases maskFill_ensureMask c with h | ⟨_, _, h⟩ <;> rw [h] <;> exact hc
    case compile => rcases maskFill_jaxComponent c with h | ⟨_, _, h⟩ <;> rw [h] <;> exact hc

/-- **C11.** Expansion of a task's cost. -/
theorem C11_cost_expansion (dim : Int) (cost : Arr K) :
    (dim = -1 → matrixCost dim cost = .error .valueError) ∧
    ∀ d : Nat, dim = d →
      (cost.shape = [] → ∃ w, matrixCost dim cost = .ok w ∧ w.shape = [d, d] ∧
        ∀ i < d, ∀ j < d, w.get [i, j] = if i = j then cost.get [] else 0) ∧
      (cost.shape = [d] → ∃ w, matrixCost dim cost = .ok w ∧ w.shape = [d, d] ∧
        ∀ i < d, ∀ j < d, w.get [i, j] = if i = j then cost.get [i] else 0) ∧
      (cost.shape = [d, d] → matrixCost dim cost = .ok cost) ∧
      (cost.shape ≠ [] → cost.shape ≠ [d] → cost.shape ≠ [d, d] → matrixCost dim cost = .error .valueError) := by
  constructor
  · intro h; unfold matrixCost; rw [if_pos h]
  · rintro d rfl
    have h1 : ¬ (d : Int) = -1 := by omega
    have hs : sizeOf (d : Int) = .ok d := by unfold sizeOf; rw [if_neg (by omega)]; simp
    refine ⟨fun h => ⟨Arr.eyeMul d cost, ?_, rfl, fun i _ j _ => ?_⟩,
      fun h => ⟨Arr.diag d cost, ?_, rfl, fun i _ j _ => ?_⟩, fun h => ?_, fun ha hb hc => ?_⟩
    · unfold matrixCost; rw [if_neg h1]; simp only [h, hs]
    · by_cases hij : i = j <;> simp [Arr.eyeMul, hij]
    · unfold matrixCost; rw [if_neg h1]; simp [h]
    · by_cases hij : i = j <;> simp [Arr.diag, hij]
    · unfold matrixCost; rw [if_neg h1]; simp [h]
    · unfold matrixCost; rw [if_neg h1]
      split
      · rename_i h2; exact absurd h2 ha
      · rename_i n h2
        rw [if_pos]
        intro h3
        apply hb
        rw [h2]
        have : n = d := by omega
        rw [this]
      · rename_i r c h2
        rw [if_pos]
        by_contra h3
        rw [not_or, not_not, not_not] at h3
        apply hc
        rw [h2]
        have h4 : r = d := by omega
        have h5 : c = d := by omega
        rw [h4, h5]
      · rfl

/-- **C11.** A soft constraint's cost expands like a task's; without an explicit cost it is 100 times the
identity. -/
theorem C11_soft_cost (dim : Int) :
    (∀ cost : Arr K, softConstraintCost dim (some cost) = matrixCost dim cost) ∧
    (dim = -1 → softConstraintCost (K := K) dim none = .error .valueError) ∧
    ∀ d : Nat, dim = d → ∃ w : Arr K, softConstraintCost dim none = .ok w ∧ w.shape = [d, d] ∧
      ∀ i < d, ∀ j < d, w.get [i, j] = if i = j then 100 else 0 := by
  refine ⟨fun _ => rfl, fun h => by simp [softConstraintCost, h], ?_⟩
  rintro d rfl
  have h1 : ¬ (d : Int) = -1 := by omega
  have hs : sizeOf (d : Int) = .ok d := by unfold sizeOf; rw [if_neg (by omega)]; simp
  refine ⟨Arr.eyeMul d (Arr.scalar 100), ?_, rfl, fun i _ j _ => ?_⟩
  · unfold softConstraintCost; simp only [h1, if_false, hs]
  · by_cases hij : i = j <;> simp [Arr.eyeMul, Arr.scalar, hij]

/-! ### C12 -/

private theorem observe_of_maskOK {c : Comp K} (hc : MaskOK c) {m : List Int} {idxs : List Nat}
    (h : (observe c).mask = some (m, idxs)) : SelectsNonzero m idxs := by
  unfold observe at h
  simp only at h
  split at h
  · rename_i m' hm
    cases h
    rw [hc m hm]
    exact nonzeroIdxs_selects m
  · split at h
    · cases h
    · cases h
      rw [← nonzeroIdxs_replicate]
      exact nonzeroIdxs_selects _

private theorem maskOK_updateModel_plain (m : MjModel K) (c : Comp K)
    (h1 : c.attrs.kind.tag ≠ .joint) (h2 : c.attrs.kind.tag ≠ .jointBarrier) (h3 : c.attrs.kind.tag ≠ .equality)
    (hc : MaskOK c) : MaskOK (updateModel m c).2 := by
  unfold updateModel
  split
  · exact hc
  · rename_i hk; rw [hk] at h1; exact absurd rfl h1
  · unfold updateModelObj; dsimp only; split <;> exact hc
  · unfold updateModelObj; dsimp only; split <;> exact hc
  · rename_i hk; rw [hk] at h2; exact absurd rfl h2
  · unfold updateModelObj; dsimp only; split <;> exact hc
  · unfold updateModelSelfCollision; dsimp only
    repeat' split
    all_goals exact hc
  · rename_i hk; rw [hk] at h3; exact absurd rfl h3

/-- **C12 (partial).** After any history, whatever raised, `mask_idxs` lists in increasing order exactly
the nonzero positions of `mask`, for all components except joint tasks, joint barriers and model
equality constraints. -/
theorem C12_mask_agrees_partial {c : Comp K} (h : Reachable c)
    (hk : match c.attrs.kind with
      | .jointTask .. | .jointBarrier .. | .modelEquality .. => False
      | _ => True)
    {m : List Int} {idxs : List Nat} (hm : (observe c).mask = some (m, idxs)) : SelectsNonzero m idxs := by
  refine observe_of_maskOK ?_ hm
  have := Reachable.induct (P := fun c : Comp K => c.attrs.kind.tag ≠ .joint → c.attrs.kind.tag ≠ .jointBarrier →
    c.attrs.kind.tag ≠ .equality → MaskOK c) (fun n c hn _ _ _ => maskOK_new hn)
    (fun op c ih h1 h2 h3 => by
      rw [run_tag] at h1 h2 h3
      by_cases hu : ∃ m, op = .updateModel m
      · obtain ⟨m, rfl⟩ := hu
        exact maskOK_updateModel_plain m c h1 h2 h3 (ih h1 h2 h3)
      · exact maskOK_of_not_model op c (fun m e => hu ⟨m, e⟩) (ih h1 h2 h3)) h
  cases hk' : c.attrs.kind <;> rw [hk'] at hk this <;>
    first | exact hk.elim | exact this (by simp [Kind.tag]) (by simp [Kind.tag]) (by simp [Kind.tag])

/-- **C12 (partial).** For joint tasks and joint barriers (and all others but the equality constraint) the
same holds after every history in which no model was rejected. -/
theorem C12_mask_agrees_joint_partial {c : Comp K} (h : ReachableClean c)
    (hk : match c.attrs.kind with
      | .modelEquality .. => False
      | _ => True)
    {m : List Int} {idxs : List Nat} (hm : (observe c).mask = some (m, idxs)) : SelectsNonzero m idxs := by
  refine observe_of_maskOK ?_ hm
  have key : c.attrs.kind.tag ≠ .equality → MaskOK c := by
    clear hk hm
    induction h with
    | new hn => intro _; exact maskOK_new hn
    | @step c op hc hu ih =>
      intro h3
      rw [run_tag] at h3
      have ih := ih h3
      by_cases hu' : ∃ m, op = .updateModel m
      · obtain ⟨m, rfl⟩ := hu'
        have hok := hu m rfl
        simp only [CompOp.run] at hok ⊢
        by_cases h1 : c.attrs.kind.tag = .joint
        · cases hk : c.attrs.kind <;> rw [hk] at h1 <;> simp only [Kind.tag, reduceCtorEq] at h1
          unfold updateModel at hok ⊢
          rw [hk] at hok ⊢
          dsimp only at hok ⊢
          unfold updateModelJointTask at hok ⊢
          dsimp only at hok ⊢
          split
          · rename_i he; rw [he] at hok; cases hok
          · rename_i mk he
            rw [he] at hok
            intro m' hm'
            have hfin : ∀ c' : Comp K, c'.attrs.mask = some mk.1 → c'.attrs.maskIdxs = nonzeroIdxs mk.1 →
                c'.attrs.mask = some m' → c'.attrs.maskIdxs = nonzeroIdxs m' := by
              intro c' a b d; rw [a] at d; cases d; exact b
            refine hfin _ ?_ ?_ hm'
            · repeat' split
              all_goals rfl
            · repeat' split
              all_goals rfl
        · by_cases h2 : c.attrs.kind.tag = .jointBarrier
          · cases hk : c.attrs.kind <;> rw [hk] at h2 <;> simp only [Kind.tag, reduceCtorEq] at h2
            rename_i s fm lo hi qi
            unfold updateModel at hok ⊢
            rw [hk] at hok ⊢
            dsimp only at hok ⊢
            cases hmk : applyFinalMask (jointMasks m) fm with
            | error e =>
              rw [updateModelJointBarrier_err_mask hmk] at hok; cases hok
            | ok mk =>
              obtain ⟨-, -, -, -, h5, h6, -⟩ :=
                updateModelJointBarrier_ok_mask (sdg := s) (lo := lo) (hi := hi) (qi := qi) (c := c) hmk
              intro m' hm'
              rw [h5] at hm'; cases hm'; exact h6
          · exact maskOK_updateModel_plain m c h1 h2 h3 ih
      · exact maskOK_of_not_model op c (fun m e => hu' ⟨m, e⟩) ih
  apply key
  cases hk' : c.attrs.kind <;> rw [hk'] at hk <;> first | exact hk.elim | simp [Kind.tag]

/-- **C12 is false** for equality constraints that move to another model after their mask was read:
`mask` keeps the old length while `mask_idxs` follows the new model. -/
theorem C12_equality_mask_stale :
    ∃ c : Comp ℚ, ReachableClean c ∧ (observe c).mask = some ([1, 1, 1, 1], [0, 1, 2, 3, 4, 5]) := by
  refine ⟨_, ReachableClean.step (.updateModel Ex.model2) (ReachableClean.step .readMask
    (ReachableClean.step (.updateModel Ex.model)
    (ReachableClean.new (n := .modelEquality "e" (Ex.scalar 1) false none) rfl) ?_) ?_) ?_, rfl⟩
  · intros; rfl
  · intro m h; cases h
  · intros; rfl

/-- **C12 is false** for joint tasks after a rejected model: here the new model has 10 degrees of freedom,
`mask` selects dof 6 of the new model only, and `mask_idxs` still selects dofs 6 and 10 of the old one. -/
theorem C12_joint_mask_stale_after_rejection :
    ∃ c : Comp ℚ, Reachable c ∧
      (observe c).mask = some ([0, 0, 0, 0, 0, 0, 1, 0, 0, 0], [6, 10]) :=
  ⟨_, ⟨.jointTask Ex.taskArgs (some [1, 1]), _, [.updateModel Ex.model, .updateModel Ex.model2], rfl, rfl⟩, rfl⟩

/-- **C12 is false** ("without an explicit mask it lists every axis") for self-collision barriers that move
to a model with fewer pairs after their mask was read. -/
theorem C12_self_collision_mask_stale :
    ∃ c : Comp ℚ, ReachableClean c ∧ c.attrs.dim = 1 ∧ (observe c).mask = some ([1, 1, 1], [0, 1, 2]) := by
  refine ⟨_, ReachableClean.step (.updateModel Ex.model2) (ReachableClean.step (.setNClosest (-1))
    (ReachableClean.step (.setCollisionBodies []) (ReachableClean.step .readMask
    (ReachableClean.step (.updateModel Ex.model)
    (ReachableClean.new (n := .selfCollision Ex.barrierArgs 0 [] [] (-1)) rfl) ?_) ?_) ?_) ?_) ?_, rfl, rfl⟩
  · intros; rfl
  · intro m h; cases h
  · intro m h; cases h
  · intro m h; cases h
  · intros; rfl

/-- A component built without a mask and whose axes do not depend on the model selects all its axes,
after any history: 3 for CoM and position tasks, 6 for frame tasks. -/
private def AllAxes (d : Nat) (c : Comp K) : Prop :=
  c.attrs.dim = d ∧ (c.attrs.mask = none ∨ (c.attrs.mask = some (List.replicate d 1) ∧ c.attrs.maskIdxs = List.range d))

private theorem allAxes_run (d : Nat) (op : CompOp K) (c : Comp K)
    (ht : c.attrs.kind.tag = .com ∨ c.attrs.kind.tag = .position ∨ c.attrs.kind.tag = .frame)
    (h : AllAxes d c) : AllAxes d (op.run c).2 := by
  by_cases h' : op.isSetter
  · obtain ⟨-, -, -, h4, h5, h6⟩ := setter_frame op c h'
    unfold AllAxes; rw [h4, h5, h6]; exact h
  · have hfill : ∀ a', MaskFill c.attrs a' → a'.dim = d ∧ (a'.mask = none ∨
        (a'.mask = some (List.replicate d 1) ∧ a'.maskIdxs = List.range d)) := by
      intro a' ha
      rcases ha with ha | ⟨_, _, ha⟩
      · rw [ha]; exact h
      · rw [ha]
        have := h.1
        refine ⟨this, Or.inr ⟨?_, ?_⟩⟩ <;> simp [this]
    cases op <;> simp only [CompOp.isSetter, not_true_eq_false] at h' <;> simp only [CompOp.run]
    · rename_i m
      unfold updateModel
      split
      · exact h
      · rename_i hk; rw [hk] at ht; simp [Kind.tag] at ht
      · unfold updateModelObj; dsimp only; split <;> exact h
      · unfold updateModelObj; dsimp only; split <;> exact h
      · rename_i hk; rw [hk] at ht; simp [Kind.tag] at ht
      · rename_i hk; rw [hk] at ht; simp [Kind.tag] at ht
      · rename_i hk; rw [hk] at ht; simp [Kind.tag] at ht
      · rename_i hk; rw [hk] at ht; simp [Kind.tag] at ht
    · exact hfill _ (maskFill_ensureMask c)
    · exact hfill _ (maskFill_jaxComponent c)

/-- **C12.** A CoM, position or frame task built without a mask selects every axis (3, 3, 6) after any
history. -/
theorem C12_default_selects_all (a : TaskArgs K) (ha : a.mask = none) (on : String) (ot : ObjType)
    (ops : List (CompOp K)) (c0 : Comp K) (n : NewComp K) (d : Nat)
    (hn : (n = .comTask a ∧ d = 3) ∨ (n = .positionTask a on ot ∧ d = 3) ∨ (n = .frameTask a on ot ∧ d = 6))
    (h0 : n.run = .ok c0) :
    (observe (runOps c0 ops)).mask = some (List.replicate d 1, List.range d) := by
  have hinit : (c0.attrs.kind.tag = .com ∨ c0.attrs.kind.tag = .position ∨ c0.attrs.kind.tag = .frame) ∧
      AllAxes d c0 := by
    rcases hn with ⟨rfl, rfl⟩ | ⟨rfl, rfl⟩ | ⟨rfl, rfl⟩ <;> simp only [NewComp.run] at h0
    · obtain ⟨_, _, _, _, h, rfl⟩ := newComTask_ok h0
      obtain ⟨_, _, _, hm, rfl⟩ := initAttrs_ok h
      rw [ha] at hm
      cases hm
      exact ⟨Or.inl rfl, by simp [Comp.fresh, AllAxes, ha]⟩
    · obtain ⟨_, _, _, h, rfl⟩ := newPositionTask_ok h0
      obtain ⟨_, _, _, hm, rfl⟩ := initAttrs_ok h
      rw [ha] at hm
      cases hm
      exact ⟨Or.inr (Or.inl rfl), by simp [Comp.fresh, AllAxes, ha]⟩
    · obtain ⟨_, _, _, h, rfl⟩ := newFrameTask_ok h0
      obtain ⟨_, _, _, hm, rfl⟩ := initAttrs_ok h
      rw [ha] at hm
      cases hm
      exact ⟨Or.inr (Or.inr rfl), by simp [Comp.fresh, AllAxes, ha]⟩
  have : AllAxes d (runOps c0 ops) := by
    obtain ⟨ht, hax⟩ := hinit
    clear hn h0
    induction ops generalizing c0 with
    | nil => exact hax
    | cons op ops ih =>
      exact ih (op.run c0).2 (by rw [run_tag]; exact ht) (allAxes_run d op c0 ht hax)
  obtain ⟨h1, h2⟩ := this
  unfold observe
  simp only
  rcases h2 with h2 | ⟨h2, h3⟩
  · simp [h2, h1]
  · simp [h2, h3]

/-! ### C15 -/

/-- **C15.** Whenever a component compiles: its dimension is a natural number `n`, the gain vector has length
`n`, and the cost matrix (soft cost for constraints) is `n × n`. -/
theorem C15_compiled_shapes {c c' : Comp K} {j : JaxComp K} (h : Reachable c)
    (hj : jaxComponent c = (.ok j, c')) :
    ∃ n : Nat, j.dim = n ∧ j.vectorGain.shape = [n] ∧
      match j.kind with
      | .comTask w _ _ | .jointTask w _ _ _ | .positionTask w _ _ _ _ | .frameTask w _ _ _ _ => w.shape = [n, n]
      | .modelEquality _ _ w => w.shape = [n, n]
      | .selfCollision _ d _ _ => d.shape = [n]
      | _ => True := by
  have hs := jaxComponent_spec (cacheOK_reachable h) hj
  obtain ⟨n, hn, hg, -⟩ := hs.gain
  refine ⟨n, by rw [hs.dim, hn], hg, ?_⟩
  have hk := hs.kind
  cases hkk : c.attrs.kind <;> cases hjj : j.kind <;> rw [hkk, hjj] at hk <;> simp only [KindOf] at hk <;>
    dsimp only <;> try trivial
  all_goals
    first
    | (obtain ⟨⟨k, hk1, hk2, -⟩, -⟩ := hk; have : k = n := by omega
       rw [this] at hk2; exact hk2)
    | (obtain ⟨-, ⟨k, hk1, hk2, -⟩, -⟩ := hk; have : k = n := by omega
       rw [this] at hk2; exact hk2)
    | (obtain ⟨-, -, ⟨k, hk1, hk2, -⟩⟩ := hk; have : k = n := by omega
       rw [this] at hk2; exact hk2)

/-! ### Instances -/

/-- A rejected cost update. -/
example : ((CompOp.updateCost (K := ℚ) (Arr.mk [1, 1, 1] fun _ => 0)).run
    (Comp.fresh { name := "t", model := none, gain := Ex.scalar 1, gainFn := id, dim := 3, mask := none,
                  maskIdxs := [], kind := .comTask ⟨Ex.scalar 1, 0⟩ (Arr.zeros 3) })).1 = .error .valueError := rfl

/-- A masked position barrier after reads and limit updates. -/
example : ∃ c : Comp ℚ, Reachable c ∧ (observe c).mask = some ([1, 0, 1], [0, 2]) :=
  ⟨_, ⟨.positionBarrier Ex.barrierArgs "b4" .body none none "both" (some (Arr.ofList [1, 0, 1])), _,
    [.readMask, .updatePLimit false (Ex.scalar 1), .updateModel Ex.model, .compile], rfl, rfl⟩, rfl⟩

/-- A joint task with a mask after an accepted model. -/
example : ∃ c : Comp ℚ, ReachableClean c ∧
    (observe c).mask = some ([0, 0, 0, 0, 0, 0, 0, 0, 0, 0, 1], [10]) := by
  refine ⟨_, ReachableClean.step (.updateModel Ex.model)
    (ReachableClean.new (n := .jointTask Ex.taskArgs (some [0, 1])) rfl) ?_, rfl⟩
  intros; rfl

/-- A component that compiles. -/
example : ∃ (c c' : Comp ℚ) (j : JaxComp ℚ), Reachable c ∧ jaxComponent c = (.ok j, c') ∧ j.dim = 2 :=
  ⟨_, _, _, ⟨.jointTask Ex.taskArgs none, _, [.updateModel Ex.model], rfl, rfl⟩, rfl, rfl⟩

end Mjinx.Props
