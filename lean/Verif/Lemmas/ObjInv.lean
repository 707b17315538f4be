import Verif.Lemmas.KindStep
import Verif.Spec.Sim

/-! # Tasks and barriers with fixed axes: targets, bounds, object ids -/

namespace Mjinx
open Spec
variable {K : Type} [Field K] [LinearOrder K]
set_option linter.unusedSectionVars false

/-- Constructor arguments that no call changes: object name and type, limit type and selected rows. -/
def Kind.const : Kind K → Option (String × ObjType × Option (LimitType × List Nat))
  | .positionTask _ o _ => some (o.objName, o.objType, none)
  | .frameTask _ o _ => some (o.objName, o.objType, none)
  | .positionBarrier _ o _ _ lt li => some (o.objName, o.objType, some (lt, li))
  | _ => none

theorem const_setTaskA (k : Kind K) (t : TaskA K) : (k.setTaskA t).const = k.const := by cases k <;> rfl
theorem const_setSdg (k : Kind K) (s : K) : (k.setSdg s).const = k.const := by cases k <;> rfl

theorem KindStep.const {a : Attrs K} {k : Kind K} (h : KindStep a k) : k.const = a.kind.const := by
  cases h
  case same => rfl
  case taskA => exact const_setTaskA _ _
  case sdg => exact const_setSdg _ _
  case com hk _ _ => rw [hk]; rfl
  case pos hk _ _ => rw [hk]; rfl
  case joint hk _ => rw [hk]; rfl
  case frame hk => rw [hk]; rfl
  case qlim hk _ => rw [hk]; rfl
  case pmin hk _ => rw [hk]; rfl
  case pmax hk _ => rw [hk]; rfl
  case eqc hk => rw [hk]; rfl
  case coll hk => rw [hk]; rfl

theorem const_of_tag {k : Kind K} (h : k.tag = .com ∨ k.tag = .joint ∨ k.tag = .jointBarrier ∨
    k.tag = .selfCollision ∨ k.tag = .equality) : k.const = none := by
  cases k <;> first | rfl | simp [Kind.tag] at h

/-- What a model update does to a component with a named object. -/
theorem updateModel_obj {m : MjModel K} {c : Comp K} {o : ObjA}
    (hk : (∃ t x, c.attrs.kind = .positionTask t o x) ∨ (∃ t x, c.attrs.kind = .frameTask t o x) ∨
      ∃ s lo hi lt li, c.attrs.kind = .positionBarrier s o lo hi lt li) :
    (updateModel m c).2.attrs =
      { c.attrs with
        kind := c.attrs.kind.setObj { o with objId := m.name2id o.objType o.objName }
        model := if m.name2id o.objType o.objName = -1 then c.attrs.model else some m } ∧
    (updateModel m c).1 = if m.name2id o.objType o.objName = -1 then .error .valueError else .ok () := by
  have : updateModel m c = updateModelObj m o c := by
    unfold updateModel
    rcases hk with ⟨_, _, hk⟩ | ⟨_, _, hk⟩ | ⟨_, _, _, _, _, hk⟩ <;> rw [hk]
  rw [this]
  unfold updateModelObj
  dsimp only
  split <;> exact ⟨rfl, rfl⟩

theorem run_const (op : CompOp K) (c : Comp K) : (op.run c).2.attrs.kind.const = c.attrs.kind.const := by
  by_cases hm : ∃ m, op = .updateModel m
  · obtain ⟨m, rfl⟩ := hm
    have ht := run_tag (.updateModel m) c
    simp only [CompOp.run] at ht ⊢
    cases hk : c.attrs.kind
    case positionTask t o x =>
      rw [(updateModel_obj (.inl ⟨t, x, hk⟩)).1, hk]; rfl
    case frameTask t o x =>
      rw [(updateModel_obj (.inr (.inl ⟨t, x, hk⟩))).1, hk]; rfl
    case positionBarrier s o lo hi lt li =>
      rw [(updateModel_obj (.inr (.inr ⟨s, lo, hi, lt, li, hk⟩))).1, hk]; rfl
    all_goals
      rw [const_of_tag (by rw [ht, hk]; simp [Kind.tag])]; rfl
  · exact (run_kindStep op c (fun m h => hm ⟨m, h⟩)).const

/-- The axes of kinds with fixed axes only change by filling in the default mask. -/
theorem run_mask_fixed (op : CompOp K) (c : Comp K) (hf : FixedAxes c.attrs.kind) :
    (op.run c).2.attrs.dim = c.attrs.dim ∧
    (((op.run c).2.attrs.mask = c.attrs.mask ∧ (op.run c).2.attrs.maskIdxs = c.attrs.maskIdxs) ∨
    (c.attrs.mask = none ∧ (op.run c).2.attrs.mask = some (List.replicate c.attrs.dim.toNat 1) ∧
      (op.run c).2.attrs.maskIdxs = List.range c.attrs.dim.toNat)) := by
  by_cases hm : ∃ m, op = .updateModel m
  · obtain ⟨m, rfl⟩ := hm
    simp only [CompOp.run]
    cases hk : c.attrs.kind <;> rw [hk] at hf <;> simp only [FixedAxes] at hf
    case comTask t x => unfold updateModel; rw [hk]; exact ⟨rfl, .inl ⟨rfl, rfl⟩⟩
    case positionTask t o x =>
      rw [(updateModel_obj (.inl ⟨t, x, hk⟩)).1]; exact ⟨rfl, .inl ⟨rfl, rfl⟩⟩
    case frameTask t o x =>
      rw [(updateModel_obj (.inr (.inl ⟨t, x, hk⟩))).1]; exact ⟨rfl, .inl ⟨rfl, rfl⟩⟩
    case positionBarrier s o lo hi lt li =>
      rw [(updateModel_obj (.inr (.inr ⟨s, lo, hi, lt, li, hk⟩))).1]; exact ⟨rfl, .inl ⟨rfl, rfl⟩⟩
  · have hm' : ∀ m, op ≠ .updateModel m := fun m h => hm ⟨m, h⟩
    exact ⟨run_dim op c hm', run_mask op c hm'⟩

/-- The invariant of components with fixed axes. -/
def FInv (a : Attrs K) : Prop :=
  match a.kind with
  | .comTask _ x => ∃ n : Nat, a.dim = n ∧ x.lastDim = .ok n ∧ (a.mask = none ∨ a.maskIdxs.length = n)
  | .positionTask _ _ x => ∃ n : Nat, a.dim = n ∧ x.lastDim = .ok n ∧ (a.mask = none ∨ a.maskIdxs.length = n)
  | .frameTask _ _ _ => ∃ n : Nat, a.dim = n ∧ (a.mask = none ∨ a.maskIdxs.length = n)
  | .positionBarrier _ o lo hi lt li => a.mask.isSome ∧ li = limitIdxsOf lt a.maskIdxs.length ∧
      a.dim = (li.length : Int) ∧ lo.lastDim = .ok a.maskIdxs.length ∧ hi.lastDim = .ok a.maskIdxs.length ∧
      (o.objId ≠ -1 → ∃ m, a.model = some m ∧ o.objId = m.name2id o.objType o.objName)
  | _ => True

theorem newPositionBound_some {b : Bool} {n : Nat} {x p : Arr K}
    (h : newPositionBound b n x = .ok (some p)) :
    b = true ∧ p.lastDim = .ok n ∧ ((x.shape = [] ∧ p = Arr.onesMul n x) ∨ (x.lastDim = .ok n ∧ p = x)) := by
  unfold newPositionBound at h
  split at h
  · rename_i hs
    cases b
    · cases h
    · cases h
      exact ⟨rfl, rfl, .inl ⟨List.getLast?_eq_none_iff.1 hs, rfl⟩⟩
  · rename_i k hs
    split at h
    · cases h
    · rename_i hn
      have hn : k = n := by simpa using hn
      subst hn
      cases b
      · cases h
      · cases h
        have : x.lastDim = .ok k := by unfold Arr.lastDim; rw [hs]
        exact ⟨rfl, this, .inr ⟨this, rfl⟩⟩

theorem finv_mask {a a' : Attrs K} (n : Nat) (hn : a.dim = n)
    (h : (a'.mask = a.mask ∧ a'.maskIdxs = a.maskIdxs) ∨
      (a.mask = none ∧ a'.mask = some (List.replicate a.dim.toNat 1) ∧ a'.maskIdxs = List.range a.dim.toNat))
    (ho : a.mask = none ∨ a.maskIdxs.length = n) : a'.mask = none ∨ a'.maskIdxs.length = n := by
  rcases h with ⟨h1, h2⟩ | ⟨_, _, h3⟩
  · rw [h1, h2]; exact ho
  · right; rw [h3, hn]; simp

theorem finv_run (op : CompOp K) (c : Comp K) (h : FInv c.attrs) : FInv (op.run c).2.attrs := by
  by_cases hf : FixedAxes c.attrs.kind
  · obtain ⟨hd, hmask⟩ := run_mask_fixed op c hf
    by_cases hm : ∃ m, op = .updateModel m
    · obtain ⟨m, rfl⟩ := hm
      simp only [CompOp.run] at hd hmask ⊢
      cases hk : c.attrs.kind <;> rw [hk] at hf <;> simp only [FixedAxes] at hf
      case comTask t x =>
        have : (updateModel m c).2.attrs = { c.attrs with model := some m } := by
          unfold updateModel; rw [hk]; rfl
        unfold FInv at h ⊢
        rw [this]; rw [hk] at h ⊢; exact h
      case positionTask t o x =>
        rw [(updateModel_obj (.inl ⟨t, x, hk⟩)).1]
        unfold FInv at h ⊢
        rw [hk] at h ⊢; exact h
      case frameTask t o x =>
        rw [(updateModel_obj (.inr (.inl ⟨t, x, hk⟩))).1]
        unfold FInv at h ⊢
        rw [hk] at h ⊢; exact h
      case positionBarrier s o lo hi lt li =>
        rw [(updateModel_obj (.inr (.inr ⟨s, lo, hi, lt, li, hk⟩))).1]
        unfold FInv at h ⊢
        rw [hk] at h ⊢
        obtain ⟨h1, h2, h3, h4, h5, -⟩ := h
        refine ⟨h1, h2, h3, h4, h5, ?_⟩
        intro hne
        simp only at hne ⊢
        exact ⟨m, by rw [if_neg hne], rfl⟩
    · have hm' : ∀ m, op ≠ .updateModel m := fun m h => hm ⟨m, h⟩
      have hmod := run_model op c hm'
      have hs := run_kindStep op c hm'
      revert hs hd hmask hmod
      generalize (op.run c).2.attrs = a'
      intro hd hmask hmod hs
      unfold FInv at h ⊢
      generalize hk' : a'.kind = k' at hs
      have hfm := fun n hn ho => finv_mask n hn hmask ho
      have hpb : c.attrs.mask.isSome → a'.mask.isSome ∧ a'.maskIdxs = c.attrs.maskIdxs := by
        intro hi
        rcases hmask with ⟨h1, h2⟩ | ⟨h0, _⟩
        · rw [h1]; exact ⟨hi, h2⟩
        · rw [h0] at hi; cases hi
      cases hk : c.attrs.kind <;> rw [hk] at hf <;> simp only [FixedAxes] at hf <;> rw [hk] at h
      case comTask t x =>
        obtain ⟨n, h1, h2, h3⟩ := h
        have := hfm n h1 h3
        cases hs <;> simp_all [Kind.setTaskA, Kind.setSdg]
      case positionTask t o x =>
        obtain ⟨n, h1, h2, h3⟩ := h
        have := hfm n h1 h3
        cases hs <;> simp_all [Kind.setTaskA, Kind.setSdg]
      case frameTask t o x =>
        obtain ⟨n, h1, h3⟩ := h
        have := hfm n h1 h3
        cases hs <;> simp_all [Kind.setTaskA, Kind.setSdg]
      case positionBarrier s o lo hi lt li =>
        obtain ⟨h1, h2, h3, h4, h5, h6⟩ := h
        obtain ⟨m1, m2⟩ := hpb h1
        rw [hmod, m2, hd]
        cases hs
        case pmin hk2 hp =>
          have := newPositionBound_some hp
          simp_all
        case pmax hk2 hp =>
          have := newPositionBound_some hp
          simp_all
        all_goals simp_all [Kind.setTaskA, Kind.setSdg]
  · have ht := run_tag op c
    revert hf ht
    unfold FInv
    cases c.attrs.kind <;> cases (op.run c).2.attrs.kind <;> simp [FixedAxes, Kind.tag]

theorem lastDim_zeros (n : Nat) : (Arr.zeros n : Arr K).lastDim = .ok n := rfl

theorem initialBound_ok {b : Bool} {n : Nat} {p : Option (Arr K)} {x : Arr K}
    (h : initialBound b n p = .ok x) : x.lastDim = .ok n := by
  unfold initialBound at h
  split at h
  · cases h; rfl
  · split at h
    · cases h
    · cases h; rfl
    · rename_i hp; cases h; exact (newPositionBound_some hp).2.1

theorem finv_new {n : NewComp K} {c : Comp K} (hn : n.run = .ok c) : FInv c.attrs := by
  have key : ∀ {mk : Option (Arr Int)} {m : Option (List Int)} {idxs : List Nat} (k : Nat),
      initMask mk = .ok (m, idxs) → m = none ∨ idxs.length = if mk.isNone then k else idxs.length := by
    intro mk m idxs k h
    rcases initMask_ok h with ⟨h1, h2, _⟩ | ⟨a, _, h1, _⟩
    · exact .inl h2
    · right; rw [h1]; rfl
  cases n <;> simp only [NewComp.run] at hn
  case comTask =>
    obtain ⟨t, at0, _, _, h, rfl⟩ := newComTask_ok hn
    obtain ⟨_, m, idxs, h1, rfl⟩ := initAttrs_ok h
    exact ⟨_, rfl, rfl, key 3 h1⟩
  case jointTask =>
    obtain ⟨t, at0, _, h, rfl⟩ := newJointTask_ok hn
    obtain ⟨_, m, idxs, h1, rfl⟩ := initAttrs_ok h
    trivial
  case positionTask =>
    obtain ⟨t, at0, _, h, rfl⟩ := newPositionTask_ok hn
    obtain ⟨_, m, idxs, h1, rfl⟩ := initAttrs_ok h
    exact ⟨_, rfl, rfl, key 3 h1⟩
  case frameTask =>
    obtain ⟨t, at0, _, h, rfl⟩ := newFrameTask_ok hn
    obtain ⟨_, m, idxs, h1, rfl⟩ := initAttrs_ok h
    exact ⟨_, rfl, key 6 h1⟩
  case jointBarrier =>
    obtain ⟨at0, h, rfl⟩ := newJointBarrier_ok hn
    obtain ⟨_, m, idxs, h1, rfl⟩ := initAttrs_ok h
    trivial
  case positionBarrier =>
    obtain ⟨at0, lt, lo, hi, h, h2, h3, h4, rfl⟩ := newPositionBarrier_ok hn
    obtain ⟨_, m, idxs, h1, rfl⟩ := initAttrs_ok h
    refine ⟨?_, rfl, rfl, initialBound_ok h3, initialBound_ok h4, fun h => (h rfl).elim⟩
    rcases initMask_ok h1 with ⟨h1, _⟩ | ⟨_, _, _, _, h2, _⟩
    · cases h1
    · simp [Comp.fresh, h2]
  case selfCollision =>
    obtain ⟨at0, h, rfl⟩ := newSelfCollision_ok hn
    obtain ⟨_, m, idxs, h1, rfl⟩ := initAttrs_ok h
    trivial
  case modelEquality =>
    obtain ⟨at0, h, rfl⟩ := newModelEquality_ok hn
    obtain ⟨_, m, idxs, h1, rfl⟩ := initAttrs_ok h
    trivial

theorem name2id_spec (m : MjModel K) (ty : ObjType) (s : String) :
    (m.name2id ty s ≠ -1 → HasObject m ty s (m.name2id ty s)) ∧
    (m.name2id ty s = -1 → ∀ i, ¬ HasObject m ty s i) := by
  unfold MjModel.name2id
  split
  · rename_i i hi
    refine ⟨fun _ => ⟨i, rfl, ?_⟩, fun h => by omega⟩
    rw [List.findIdx?_eq_some_iff_getElem] at hi
    obtain ⟨h1, h2, _⟩ := hi
    rw [List.getElem?_eq_getElem h1]; simpa using h2
  · rename_i hn
    refine ⟨fun h => (h rfl).elim, ?_⟩
    rintro _ i ⟨k, rfl, hk⟩
    rw [List.findIdx?_eq_none_iff] at hn
    have := hn s (List.mem_of_getElem? hk)
    simp at this

/-- After an accepted model update the object id of a task is the one in the model. -/
theorem taskId_update {m m' : MjModel K} {c : Comp K} (ho : (updateModel m' c).1 = .ok ())
    (hm : (updateModel m' c).2.attrs.model = some m) {o : ObjA}
    (hk : (∃ t x, (updateModel m' c).2.attrs.kind = .positionTask t o x) ∨
      (∃ t x, (updateModel m' c).2.attrs.kind = .frameTask t o x)) :
    o.objId = m.name2id o.objType o.objName ∧ o.objId ≠ -1 := by
  have ht := run_tag (.updateModel m') c
  simp only [CompOp.run] at ht
  have key : ∀ o', ((∃ t x, c.attrs.kind = .positionTask t o' x) ∨
      (∃ t x, c.attrs.kind = .frameTask t o' x) ∨
      ∃ s lo hi lt li, c.attrs.kind = .positionBarrier s o' lo hi lt li) →
      m'.name2id o'.objType o'.objName ≠ -1 ∧ m = m' := by
    intro o' hk'
    obtain ⟨e1, e2⟩ := updateModel_obj (m := m') hk'
    rw [ho] at e2
    split at e2
    · cases e2
    · rename_i hne
      refine ⟨hne, ?_⟩
      rw [e1] at hm
      simp only [if_neg hne, Option.some.injEq] at hm
      exact hm.symm
  rcases hk with ⟨t, x, hk⟩ | ⟨t, x, hk⟩
  · rw [hk] at ht
    cases hk' : c.attrs.kind <;> rw [hk'] at ht <;> simp only [Kind.tag, reduceCtorEq] at ht
    rename_i t' o' x'
    obtain ⟨k1, rfl⟩ := key o' (.inl ⟨t', x', hk'⟩)
    rw [(updateModel_obj (m := m) (.inl ⟨t', x', hk'⟩)).1, hk'] at hk
    simp only [Kind.setObj, Kind.positionTask.injEq] at hk
    rw [← hk.2.1]; exact ⟨rfl, k1⟩
  · rw [hk] at ht
    cases hk' : c.attrs.kind <;> rw [hk'] at ht <;> simp only [Kind.tag, reduceCtorEq] at ht
    rename_i t' o' x'
    obtain ⟨k1, rfl⟩ := key o' (.inr (.inl ⟨t', x', hk'⟩))
    rw [(updateModel_obj (m := m) (.inr (.inl ⟨t', x', hk'⟩))).1, hk'] at hk
    simp only [Kind.setObj, Kind.frameTask.injEq] at hk
    rw [← hk.2.1]; exact ⟨rfl, k1⟩

/-- Object ids of tasks when the most recent model update was accepted. -/
theorem CleanRun.taskId {n : NewComp K} {c0 c : Comp K} (hn : n.run = .ok c0) (h : CleanRun c0 c)
    {m : MjModel K} (hm : c.attrs.model = some m) {o : ObjA}
    (hk : (∃ t x, c.attrs.kind = .positionTask t o x) ∨ (∃ t x, c.attrs.kind = .frameTask t o x)) :
    o.objId = m.name2id o.objType o.objName ∧ o.objId ≠ -1 := by
  induction h generalizing m o with
  | refl => rw [model_none_of_new hn] at hm; cases hm
  | accepted ops m' ho => exact taskId_update ho hm hk
  | @step c op _ hop ih =>
    by_cases hu : ∃ m, op = .updateModel m
    · obtain ⟨m', rfl⟩ := hu
      exact taskId_update (hop m' rfl) hm hk
    · have hm' : ∀ m, op ≠ .updateModel m := fun m h => hu ⟨m, h⟩
      rw [run_model op c hm'] at hm
      have hs := run_kindStep op c hm'
      refine ih hm ?_
      revert hs hk
      generalize (op.run c).2.attrs.kind = k'
      intro hk hs
      cases hs
      case same => exact hk
      case taskA => cases hk2 : c.attrs.kind <;> simp_all [Kind.setTaskA]
      case sdg => cases hk2 : c.attrs.kind <;> simp_all [Kind.setSdg]
      all_goals simp_all

end Mjinx
