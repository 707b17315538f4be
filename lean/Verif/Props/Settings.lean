import Verif.Lemmas.Settings
import Verif.Lemmas.JointEval
import Verif.Props.JointMask
import Verif.Props.Objects
import Verif.Spec.Examples

/-!
# C80: after any history of calls, every setting has the last accepted value

For every constructor call and every finite history of calls on the component (accepted or not), each
setting reads as the argument of the last accepted setter, or the constructor's value or documented default
if there was none; the compiled component carries that value.
-/

set_option linter.unusedSectionVars false
set_option linter.unusedTactic false
set_option linter.unreachableTactic false

namespace Mjinx.Props
open Spec
variable {K : Type} [Field K] [LinearOrder K]

private theorem keep {V : Type} {r : Comp K → Option V} (ru : Kind K → Option V)
    (hr : ∀ c, r c = ru (userKind c.attrs.kind)) {op : CompOp K} {c : Comp K} {e : Err}
    (h : (op.run c).1 = .error e) : r (op.run c).2 = r c := by
  rw [hr, hr, (rejected_call h).2]

/-- For readings that no model update changes. -/
private theorem plain {V : Type} (r : Comp K → Option V) (f : CompOp K → Option V) (ru : Kind K → Option V)
    (hr : ∀ c, r c = ru (userKind c.attrs.kind))
    (hset : ∀ n op k v, (∀ m, op ≠ .updateModel m) → ru k = some v → ru (callKind n op k) = some ((f op).getD v))
    (hmod : ∀ m k k', modelKind m k k' → ru k' = ru k)
    (hf : ∀ m, f (.updateModel m) = none) {c0 : Comp K} {v : V} (h0 : r c0 = some v) (ops : List (CompOp K)) :
    r (runOps c0 ops) = some (latest f v (accepted c0 ops)) := by
  refine latest_run r f (fun _ => True) (fun _ => True) (fun _ _ _ _ => trivial) ?_ ?_ ops c0 v
    (fun _ _ => trivial) trivial h0
  · intro op c v _ _ hv h
    by_cases hu : ∃ m, op = .updateModel m
    · obtain ⟨m, rfl⟩ := hu
      simp only [CompOp.run] at h ⊢
      rw [hr, hmod m _ _ (accepted_model h).2, ← hr, hv, hf]; rfl
    · rw [hr, (accepted_setter h fun m h => hu ⟨m, h⟩).2]
      rw [hr] at hv
      exact hset _ op _ v (fun m h => hu ⟨m, h⟩) hv
  · intro op c e _ _ h
    exact keep ru hr h

/-- **C80 (gain).** The gain is the one of the last accepted `update_gain`, or the constructor's. -/
theorem C80_gain {n : NewComp K} {c0 : Comp K} (hn : n.run = .ok c0) (ops : List (CompOp K)) :
    (runOps c0 ops).attrs.gain = latest gainArg (gain0 n) (accepted c0 ops) := by
  have h0 : c0.attrs.gain = gain0 n := by
    cases n <;> simp only [NewComp.run] at hn
    case comTask =>
      obtain ⟨_, _, _, _, h, rfl⟩ := newComTask_ok hn
      obtain ⟨_, _, _, _, rfl⟩ := initAttrs_ok h; rfl
    case jointTask =>
      obtain ⟨_, _, _, h, rfl⟩ := newJointTask_ok hn
      obtain ⟨_, _, _, _, rfl⟩ := initAttrs_ok h; rfl
    case positionTask =>
      obtain ⟨_, _, _, h, rfl⟩ := newPositionTask_ok hn
      obtain ⟨_, _, _, _, rfl⟩ := initAttrs_ok h; rfl
    case frameTask =>
      obtain ⟨_, _, _, h, rfl⟩ := newFrameTask_ok hn
      obtain ⟨_, _, _, _, rfl⟩ := initAttrs_ok h; rfl
    case jointBarrier =>
      obtain ⟨_, h, rfl⟩ := newJointBarrier_ok hn
      obtain ⟨_, _, _, _, rfl⟩ := initAttrs_ok h; rfl
    case positionBarrier =>
      obtain ⟨_, _, _, _, h, _, _, _, rfl⟩ := newPositionBarrier_ok hn
      obtain ⟨_, _, _, _, rfl⟩ := initAttrs_ok h; rfl
    case selfCollision =>
      obtain ⟨_, h, rfl⟩ := newSelfCollision_ok hn
      obtain ⟨_, _, _, _, rfl⟩ := initAttrs_ok h; rfl
    case modelEquality =>
      obtain ⟨_, h, rfl⟩ := newModelEquality_ok hn
      obtain ⟨_, _, _, _, rfl⟩ := initAttrs_ok h; rfl
  have := latest_run (fun c : Comp K => some c.attrs.gain) gainArg (fun _ => True) (fun _ => True)
    (fun _ _ _ _ => trivial) (by
      intro op c v _ _ hv h
      cases hv
      by_cases hu : ∃ m, op = .updateModel m
      · obtain ⟨m, rfl⟩ := hu
        exact congrArg some (accepted_model h).1
      · exact congrArg some (accepted_setter h fun m h => hu ⟨m, h⟩).1)
    (fun op c e _ _ h => congrArg some (rejected_call h).1) ops c0 _ (fun _ _ => trivial) trivial rfl
  rw [h0] at this
  exact Option.some.inj this

private theorem task_new {n : NewComp K} {a : TaskArgs K} (ht : BuildsTask n a) {c0 : Comp K} (hn : n.run = .ok c0) :
    costAttr c0 = some a.cost ∧ lmAttr c0 = some a.lm := by
  cases n <;> simp only [NewComp.run] at hn <;> simp only [BuildsTask] at ht
  case comTask =>
    obtain ⟨_, _, _, h1, h, rfl⟩ := newComTask_ok hn
    obtain ⟨_, _, rfl⟩ := initTaskA_ok h1
    subst ht; exact ⟨rfl, rfl⟩
  case jointTask =>
    obtain ⟨_, _, h1, h, rfl⟩ := newJointTask_ok hn
    obtain ⟨_, _, rfl⟩ := initTaskA_ok h1
    obtain ⟨_, _, _, _, rfl⟩ := initAttrs_ok h
    subst ht; exact ⟨rfl, rfl⟩
  case positionTask =>
    obtain ⟨_, _, h1, h, rfl⟩ := newPositionTask_ok hn
    obtain ⟨_, _, rfl⟩ := initTaskA_ok h1
    subst ht; exact ⟨rfl, rfl⟩
  case frameTask =>
    obtain ⟨_, _, h1, h, rfl⟩ := newFrameTask_ok hn
    obtain ⟨_, _, rfl⟩ := initTaskA_ok h1
    obtain ⟨_, _, _, _, rfl⟩ := initAttrs_ok h
    subst ht; exact ⟨rfl, rfl⟩

/-- **C80 (cost and damping).** -/
theorem C80_cost {n : NewComp K} {a : TaskArgs K} (ht : BuildsTask n a) {c0 : Comp K} (hn : n.run = .ok c0)
    (ops : List (CompOp K)) :
    costAttr (runOps c0 ops) = some (latest costArg a.cost (accepted c0 ops)) ∧
    lmAttr (runOps c0 ops) = some (latest lmArg a.lm (accepted c0 ops)) := by
  obtain ⟨h1, h2⟩ := task_new ht hn
  constructor
  · refine plain costAttr costArg (fun k => k.taskA?.map (·.cost)) ?_ ?_ ?_ (fun _ => rfl) h1 ops
    · intro c; unfold costAttr; cases c.attrs.kind <;> rfl
    · intro n op k v hu hv
      cases op <;> cases k <;> first | exact hv | cases hv <;> rfl
    · intro m k k' h
      cases k <;> simp only [modelKind] at h
      case jointTask => obtain ⟨_, _, rfl⟩ := h; rfl
      case selfCollision => obtain ⟨_, _, rfl⟩ := h; rfl
      all_goals subst h; rfl
  · refine plain lmAttr lmArg (fun k => k.taskA?.map (·.lmDamping)) ?_ ?_ ?_ (fun _ => rfl) h2 ops
    · intro c; unfold lmAttr; cases c.attrs.kind <;> rfl
    · intro n op k v hu hv
      cases op <;> cases k <;> first | exact hv | cases hv <;> rfl
    · intro m k k' h
      cases k <;> simp only [modelKind] at h
      case jointTask => obtain ⟨_, _, rfl⟩ := h; rfl
      case selfCollision => obtain ⟨_, _, rfl⟩ := h; rfl
      all_goals subst h; rfl

/-- **C80 (safe displacement gain of barriers).** -/
theorem C80_safe_displacement_gain {n : NewComp K} {a : BarrierArgs K} (ht : BuildsBarrier n a) {c0 : Comp K}
    (hn : n.run = .ok c0) (ops : List (CompOp K)) :
    sdgAttr (runOps c0 ops) = some (latest sdgArg a.sdg (accepted c0 ops)) := by
  have h0 : sdgAttr c0 = some a.sdg := by
    cases n <;> simp only [NewComp.run] at hn <;> simp only [BuildsBarrier] at ht
    case jointBarrier =>
      obtain ⟨_, h, rfl⟩ := newJointBarrier_ok hn
      obtain ⟨_, _, _, _, rfl⟩ := initAttrs_ok h; subst ht; rfl
    case positionBarrier =>
      obtain ⟨_, _, _, _, h, _, _, _, rfl⟩ := newPositionBarrier_ok hn
      subst ht; rfl
    case selfCollision =>
      obtain ⟨_, h, rfl⟩ := newSelfCollision_ok hn
      obtain ⟨_, _, _, _, rfl⟩ := initAttrs_ok h; subst ht; rfl
  refine plain sdgAttr sdgArg (fun k => match k with
    | .jointBarrier s .. | .positionBarrier s .. | .selfCollision s .. => some s
    | _ => none) ?_ ?_ ?_ (fun _ => rfl) h0 ops
  · intro c; unfold sdgAttr; cases c.attrs.kind <;> rfl
  · intro n op k v hu hv
    cases op <;> cases k <;> first | exact hv | cases hv <;> rfl
  · intro m k k' h
    cases k <;> simp only [modelKind] at h
    case jointTask => obtain ⟨_, _, rfl⟩ := h; rfl
    case selfCollision => obtain ⟨_, _, rfl⟩ := h; rfl
    all_goals subst h; rfl

/-- **C80 (targets of centre-of-mass and position tasks).** The target is the last accepted one, the zero
vector if there was none. -/
theorem C80_target {n : NewComp K} {a : TaskArgs K} (ht : n = .comTask a ∨ ∃ on ot, n = .positionTask a on ot)
    {c0 : Comp K} (hn : n.run = .ok c0) (ops : List (CompOp K)) :
    ∃ d : Nat, c0.attrs.dim = d ∧
      targetPoint (runOps c0 ops) = some (latest targetArg (Arr.zeros d) (accepted c0 ops)) := by
  have h0 : ∃ d : Nat, c0.attrs.dim = d ∧ targetPoint c0 = some (Arr.zeros d) := by
    rcases ht with rfl | ⟨on, ot, rfl⟩ <;> simp only [NewComp.run] at hn
    · obtain ⟨_, _, _, _, h, rfl⟩ := newComTask_ok hn
      exact ⟨_, rfl, rfl⟩
    · obtain ⟨_, _, _, h, rfl⟩ := newPositionTask_ok hn
      exact ⟨_, rfl, rfl⟩
  obtain ⟨d, hd, h0⟩ := h0
  refine ⟨d, hd, ?_⟩
  refine plain targetPoint targetArg (fun k => match k with
    | .comTask _ x => some x
    | .positionTask _ _ x => some x
    | _ => none) ?_ ?_ ?_ (fun _ => rfl) h0 ops
  · intro c; unfold targetPoint; cases c.attrs.kind <;> rfl
  · intro n op k v hu hv
    cases op <;> cases k <;> first | exact hv | cases hv <;> rfl
  · intro m k k' h
    cases k <;> simp only [modelKind] at h
    case jointTask => obtain ⟨_, _, rfl⟩ := h; rfl
    case selfCollision => obtain ⟨_, _, rfl⟩ := h; rfl
    all_goals subst h; rfl

/-- **C80 (target of frame tasks).** The target frame is the last accepted one, the identity if there was
none. -/
theorem C80_target_frame {a : TaskArgs K} {on : String} {ot : ObjType} {c0 : Comp K}
    (hn : (NewComp.frameTask a on ot).run = .ok c0) (ops : List (CompOp K)) :
    targetFrame (runOps c0 ops) = some (latest frameArg identityPose (accepted c0 ops)) := by
  have h0 : targetFrame c0 = some identityPose := by
    simp only [NewComp.run] at hn
    obtain ⟨_, _, _, h, rfl⟩ := newFrameTask_ok hn
    obtain ⟨_, _, _, _, rfl⟩ := initAttrs_ok h; rfl
  refine plain targetFrame frameArg (fun k => match k with
    | .frameTask _ _ x => some x
    | _ => none) ?_ ?_ ?_ (fun _ => rfl) h0 ops
  · intro c; unfold targetFrame; cases c.attrs.kind <;> rfl
  · intro n op k v hu hv
    cases op
    case updateTargetFrame x => cases x <;> cases k <;> first | exact hv | (cases hv; done) | rfl
    all_goals cases k <;> exact hv
  · intro m k k' h
    cases k <;> simp only [modelKind] at h
    case jointTask => obtain ⟨_, _, rfl⟩ := h; rfl
    case selfCollision => obtain ⟨_, _, rfl⟩ := h; rfl
    all_goals subst h; rfl

/-- **C80 (equality constraints).** -/
theorem C80_constraint {nm : String} {g : Arr K} {hard : Bool} {s : Option (Arr K)} {c0 : Comp K}
    (hn : (NewComp.modelEquality nm g hard s).run = .ok c0) (ops : List (CompOp K)) :
    activeAttr (runOps c0 ops) = some (latest activeArg true (accepted c0 ops)) ∧
    hardAttr (runOps c0 ops) = some (latest hardArg hard (accepted c0 ops)) := by
  have h0 : activeAttr c0 = some true ∧ hardAttr c0 = some hard := by
    simp only [NewComp.run] at hn
    obtain ⟨_, h, rfl⟩ := newModelEquality_ok hn
    obtain ⟨_, _, _, _, rfl⟩ := initAttrs_ok h; exact ⟨rfl, rfl⟩
  constructor
  · refine plain activeAttr activeArg (fun k => match k with
      | .modelEquality a _ _ => some a
      | _ => none) ?_ ?_ ?_ (fun _ => rfl) h0.1 ops
    · intro c; unfold activeAttr; cases c.attrs.kind <;> rfl
    · intro n op k v hu hv
      cases op <;> cases k <;> first | exact hv | cases hv <;> rfl
    · intro m k k' h
      cases k <;> simp only [modelKind] at h
      case jointTask => obtain ⟨_, _, rfl⟩ := h; rfl
      case selfCollision => obtain ⟨_, _, rfl⟩ := h; rfl
      all_goals subst h; rfl
  · refine plain hardAttr hardArg (fun k => match k with
      | .modelEquality _ h _ => some h
      | _ => none) ?_ ?_ ?_ (fun _ => rfl) h0.2 ops
    · intro c; unfold hardAttr; cases c.attrs.kind <;> rfl
    · intro n op k v hu hv
      cases op <;> cases k <;> first | exact hv | cases hv <;> rfl
    · intro m k k' h
      cases k <;> simp only [modelKind] at h
      case jointTask => obtain ⟨_, _, rfl⟩ := h; rfl
      case selfCollision => obtain ⟨_, _, rfl⟩ := h; rfl
      all_goals subst h; rfl

private def nClosestOf : Kind K → Option Int
  | .selfCollision _ _ _ _ n _ => some n
  | _ => none

/-- **C80 (self-collision barriers).** The minimal distance is the last one set; so is the number of closest
pairs, as long as `-1` ("all pairs", replaced by their number at the next model update) is never used. -/
theorem C80_self_collision {a : BarrierArgs K} {d : K} {bodies : List CollisionBody}
    {ex : List (CollisionBody × CollisionBody)} {nc : Int} {c0 : Comp K}
    (hn : (NewComp.selfCollision a d bodies ex nc).run = .ok c0) (ops : List (CompOp K)) :
    dMinAttr (runOps c0 ops) = some (latest dMinArg d (accepted c0 ops)) ∧
    (nc ≠ -1 → CompOp.setNClosest (-1) ∉ ops →
      nClosestAttr (runOps c0 ops) = some (latest nClosestArg nc (accepted c0 ops))) := by
  have h0 : dMinAttr c0 = some d ∧ nClosestAttr c0 = some nc := by
    simp only [NewComp.run] at hn
    obtain ⟨_, h, rfl⟩ := newSelfCollision_ok hn
    obtain ⟨_, _, _, _, rfl⟩ := initAttrs_ok h; exact ⟨rfl, rfl⟩
  constructor
  · refine plain dMinAttr dMinArg (fun k => match k with
      | .selfCollision _ d .. => some d
      | _ => none) ?_ ?_ ?_ (fun _ => rfl) h0.1 ops
    · intro c; unfold dMinAttr; cases c.attrs.kind <;> rfl
    · intro n op k v hu hv
      cases op <;> cases k <;> first | exact hv | cases hv <;> rfl
    · intro m k k' h
      cases k <;> simp only [modelKind] at h
      case jointTask => obtain ⟨_, _, rfl⟩ := h; rfl
      case selfCollision => obtain ⟨_, _, rfl⟩ := h; rfl
      all_goals subst h; rfl
  · intro hnc hops
    have hr : ∀ c : Comp K, nClosestAttr c = nClosestOf (userKind c.attrs.kind) := by
      intro c; unfold nClosestAttr; cases c.attrs.kind <;> rfl
    have step : ∀ (op : CompOp K) (c : Comp K) v, op ≠ .setNClosest (-1) → nClosestAttr c ≠ some (-1) →
        nClosestAttr c = some v → (op.run c).1 = .ok () →
        nClosestAttr (op.run c).2 = some ((nClosestArg op).getD v) := by
      intro op c v hop hi hv h
      by_cases hu : ∃ m, op = .updateModel m
      · obtain ⟨m, rfl⟩ := hu
        simp only [CompOp.run] at h ⊢
        have hm := (accepted_model h).2
        rw [hr] at hi hv ⊢
        revert hm hi hv
        generalize userKind c.attrs.kind = k
        generalize userKind (updateModel m c).2.attrs.kind = k'
        intro hi hv hm
        cases k <;> cases hv
        obtain ⟨n', h1, rfl⟩ := hm
        have : n' = _ := h1 (fun h => hi (by rw [h]; rfl))
        rw [this]; rfl
      · have := (accepted_setter h fun m h => hu ⟨m, h⟩).2
        rw [hr] at hv ⊢
        rw [this]
        revert hv
        generalize userKind c.attrs.kind = k
        intro hv
        cases op <;> cases k <;> first | exact hv | cases hv <;> rfl
    refine latest_run nClosestAttr nClosestArg (fun c => nClosestAttr c ≠ some (-1) ∧ (nClosestAttr c).isSome)
      (fun op => op ≠ .setNClosest (-1)) ?_ (fun op c v hop hi hv h => step op c v hop hi.1 hv h)
      (fun op c e _ _ h => keep nClosestOf hr h) ops c0 nc (fun op hop he => hops (he ▸ hop)) ?_ h0.2
    · intro op c hop hi
      cases h : (op.run c).1 with
      | error e => rw [keep nClosestOf hr h]; exact hi
      | ok u =>
        obtain ⟨v, hv⟩ := Option.isSome_iff_exists.1 hi.2
        rw [step op c v hop hi.1 hv h]
        refine ⟨?_, rfl⟩
        have hv1 : v ≠ -1 := fun h => hi.1 (by rw [hv, h])
        cases op <;> simp only [nClosestArg, Option.getD_none, Option.getD_some, ne_eq, Option.some.injEq] <;>
          first | exact hv1 | (intro he; rw [he] at hop; exact hop rfl)
    · rw [h0.2]; exact ⟨fun h => hnc (Option.some.inj h), rfl⟩

private def targetQOf : Kind K → Option (Arr K)
  | .jointTask _ _ x _ => x
  | _ => none
private def qLimOf (u : Bool) : Kind K → Option (Arr K)
  | .jointBarrier _ _ lo hi _ => if u then hi else lo
  | _ => none

private theorem fm_user (k : Kind K) : (userKind k).finalMask? = k.finalMask? := by cases k <;> rfl
private theorem tag_user (k : Kind K) : (userKind k).tag = k.tag := by cases k <;> rfl

/-- **C80 (target of joint tasks).** The target is the last accepted one; without one it is unset until the
first accepted model, which makes it zero (one entry per selected joint of that model). -/
theorem C80_joint_target [IsStrictOrderedRing K] {a : TaskArgs K} {fm : Option (List Int)} {c0 : Comp K}
    (hn : (NewComp.jointTask a fm).run = .ok c0) (ops : List (CompOp K))
    (hw : ∀ m, CompOp.updateModel m ∈ ops → JointsWF m) :
    targetQ (runOps c0 ops) = (((accepted c0 ops).filterMap targetArg).getLast?).or
      (((accepted c0 ops).filterMap modelArg).head?.map fun m => Arr.zeros (selectedJoints m fm).length) := by
  have h0 : targetQ c0 = none ∧ c0.attrs.kind.tag = .joint ∧ c0.attrs.kind.finalMask? = some fm := by
    simp only [NewComp.run] at hn
    obtain ⟨_, _, _, h, rfl⟩ := newJointTask_ok hn
    obtain ⟨_, _, _, _, rfl⟩ := initAttrs_ok h; exact ⟨rfl, rfl, rfl⟩
  have hr : ∀ c : Comp K, targetQ c = targetQOf (userKind c.attrs.kind) := by
    intro c; unfold targetQ; cases c.attrs.kind <;> rfl
  have := latest_run_default targetQ targetArg (fun m => Arr.zeros (selectedJoints m fm).length)
    (fun c : Comp K => c.attrs.kind.tag = .joint ∧ c.attrs.kind.finalMask? = some fm)
    (fun op => ∀ m, op = .updateModel m → JointsWF m)
    (fun op c _ hi => ⟨(run_tag op c).trans hi.1, (run_fm op c).trans hi.2⟩) (fun _ => rfl) (by
      intro op c _ hi hu h
      have h2 := (accepted_setter h hu).2
      have ht := hi.1
      rw [← tag_user] at ht
      rw [hr, hr, h2]
      revert ht
      generalize userKind c.attrs.kind = k
      intro ht
      cases k <;> simp only [Kind.tag, reduceCtorEq] at ht
      cases op <;> first | rfl | exact (hu _ rfl).elim)
    (by
      intro m c hg hi h
      have hm := (accepted_model h).2
      have ht := hi.1
      have hf := hi.2
      rw [← tag_user] at ht
      rw [← fm_user] at hf
      rw [hr, hr]
      revert ht hf hm
      generalize userKind c.attrs.kind = k
      generalize userKind (updateModel m c).2.attrs.kind = k'
      intro hm ht hf
      cases k <;> simp only [Kind.tag, reduceCtorEq] at ht
      simp only [Kind.finalMask?, Option.some.injEq] at hf
      obtain ⟨mk, h1, rfl⟩ := hm
      rw [hf] at h1
      obtain ⟨s1, s2⟩ := applyFinalMask_spec (hg m rfl) fm
      have hl : ∀ f, fm = some f → f.length = (scalarJoints m).length := by
        intro f hf
        by_contra hne
        rw [s1 f hf hne] at h1; cases h1
      obtain ⟨mk', e1, e2, -⟩ := s2 hl
      rw [h1] at e1; cases e1
      simp only [targetQOf, e2, List.length_map])
    (fun op c e _ _ h => keep targetQOf hr h) ops c0 (fun op hop m he => hw m (he ▸ hop)) ⟨h0.2.1, h0.2.2⟩
  rw [this, h0.1]
  rfl

/-- **C80 (limits of joint barriers).** A limit is the last accepted one, else the constructor's; without
either it is unset until the first accepted model, whose joint ranges it then takes. -/
theorem C80_joint_limits [IsStrictOrderedRing K] {a : BarrierArgs K} {lo hi : Option (Arr K)} {fm : Option (List Int)} {c0 : Comp K}
    (hn : (NewComp.jointBarrier a lo hi fm).run = .ok c0) (ops : List (CompOp K))
    (hw : ∀ m, CompOp.updateModel m ∈ ops → JointsWF m) :
    qMin (runOps c0 ops) = (((accepted c0 ops).filterMap (qLimitArg false)).getLast?).or (lo.or
      (((accepted c0 ops).filterMap modelArg).head?.map fun m =>
        Arr.ofList0 ((scalarJoints m).map fun k => (m.jntRange.getD k (0, 0)).1))) ∧
    qMax (runOps c0 ops) = (((accepted c0 ops).filterMap (qLimitArg true)).getLast?).or (hi.or
      (((accepted c0 ops).filterMap modelArg).head?.map fun m =>
        Arr.ofList0 ((scalarJoints m).map fun k => (m.jntRange.getD k (0, 0)).2))) := by
  have h0 : qMin c0 = lo ∧ qMax c0 = hi ∧ c0.attrs.kind.tag = .jointBarrier := by
    simp only [NewComp.run] at hn
    obtain ⟨_, h, rfl⟩ := newJointBarrier_ok hn
    obtain ⟨_, _, _, _, rfl⟩ := initAttrs_ok h; exact ⟨rfl, rfl, rfl⟩
  have key : ∀ u : Bool, ∀ r : Comp K → Option (Arr K), (∀ c, r c = qLimOf u (userKind c.attrs.kind)) →
      r (runOps c0 ops) = (((accepted c0 ops).filterMap (qLimitArg u)).getLast?).or ((r c0).or
        (((accepted c0 ops).filterMap modelArg).head?.map fun m => Arr.ofList0 ((scalarJoints m).map
          fun k => if u then (m.jntRange.getD k (0, 0)).2 else (m.jntRange.getD k (0, 0)).1))) := by
    intro u r hr
    refine latest_run_default r (qLimitArg u) _
      (fun c : Comp K => c.attrs.kind.tag = .jointBarrier)
      (fun op => ∀ m, op = .updateModel m → JointsWF m)
      (fun op c _ hi => (run_tag op c).trans hi) (fun _ => rfl) ?_ ?_
      (fun op c e _ _ h => keep (qLimOf u) hr h) ops c0 (fun op hop m he => hw m (he ▸ hop)) h0.2.2
    · intro op c _ ht hu h
      have h2 := (accepted_setter h hu).2
      rw [← tag_user] at ht
      rw [hr, hr, h2]
      revert ht
      generalize userKind c.attrs.kind = k
      intro ht
      cases k <;> simp only [Kind.tag, reduceCtorEq] at ht
      cases op with
      | updateQLimit u' x => cases u <;> cases u' <;> rfl
      | updateModel => exact (hu _ rfl).elim
      | _ => rfl
    · intro m c hg ht h
      have hm := (accepted_model h).2
      rw [← tag_user] at ht
      rw [hr, hr]
      revert ht hm
      generalize userKind c.attrs.kind = k
      generalize userKind (updateModel m c).2.attrs.kind = k'
      intro ht hm
      cases k <;> simp only [Kind.tag, reduceCtorEq] at ht
      simp only [modelKind] at hm
      subst hm
      simp only [scalarRange_eq (hg m rfl)]
      cases u <;> rfl
  have k1 := key false qMin (by intro c; unfold qMin; cases c.attrs.kind <;> rfl)
  have k2 := key true qMax (by intro c; unfold qMax; cases c.attrs.kind <;> rfl)
  rw [h0.1] at k1
  rw [h0.2.1] at k2
  exact ⟨k1, k2⟩

private def pLimOf (u : Bool) : Kind K → Option (Arr K)
  | .positionBarrier _ _ lo hi _ _ => some (if u then hi else lo)
  | _ => none
private def limTypeOf : Kind K → Option LimitType
  | .positionBarrier _ _ _ _ lt _ => some lt
  | _ => none
private def incl (lt : LimitType) (u : Bool) : Bool := if u then lt.includesMax else lt.includesMin

private theorem limType_user (k : Kind K) : limTypeOf (userKind k) = limTypeOf k := by cases k <;> rfl

private theorem limType_step {op : CompOp K} {c : Comp K} {lt : LimitType} (h : limTypeOf c.attrs.kind = some lt) :
    limTypeOf (op.run c).2.attrs.kind = some lt := by
  rw [← limType_user] at h ⊢
  cases hr : (op.run c).1 with
  | error e => rw [(rejected_call hr).2]; exact h
  | ok u =>
    by_cases hu : ∃ m, op = .updateModel m
    · obtain ⟨m, rfl⟩ := hu
      have hm := (accepted_model hr).2
      revert h hm
      simp only [CompOp.run]
      generalize userKind c.attrs.kind = k
      generalize userKind (updateModel m c).2.attrs.kind = k'
      intro h hm
      cases k <;> cases h
      cases hm; rfl
    · rw [(accepted_setter hr fun m h => hu ⟨m, h⟩).2]
      revert h
      generalize userKind c.attrs.kind = k
      intro h
      cases k <;> cases h
      cases op <;> rfl

private theorem maskIdxs_step {op : CompOp K} {c : Comp K} {lt : LimitType} (h : limTypeOf c.attrs.kind = some lt)
    (hm : c.attrs.mask.isSome) :
    (op.run c).2.attrs.mask.isSome ∧ (op.run c).2.attrs.maskIdxs = c.attrs.maskIdxs := by
  by_cases hu : ∃ m, op = .updateModel m
  · obtain ⟨m, rfl⟩ := hu
    simp only [CompOp.run]
    unfold updateModel
    cases hk : c.attrs.kind <;> rw [hk] at h <;> cases h
    simp only
    unfold updateModelObj
    dsimp only
    split <;> exact ⟨hm, rfl⟩
  · rcases run_mask op c (fun m h => hu ⟨m, h⟩) with ⟨h1, h2⟩ | ⟨h1, -⟩
    · rw [h1, h2]; exact ⟨hm, rfl⟩
    · rw [h1] at hm; cases hm

private theorem initialBound_eq {inc : Bool} {n : Nat} {p : Option (Arr K)} {x : Arr K}
    (h : initialBound inc n p = .ok x) : x = if inc then (p.map (spread n)).getD (Arr.zeros n) else Arr.zeros n := by
  unfold initialBound at h
  cases p with
  | none => cases h; cases inc <;> rfl
  | some p =>
    simp only at h
    cases hb : newPositionBound inc n p with
    | error e => rw [hb] at h; cases h
    | ok q =>
      rw [hb] at h
      have := newPositionBound_ok hb
      subst this
      cases inc <;> simp only [Bool.false_eq_true, if_true, if_false] at h ⊢ <;> cases h <;> rfl

/-- **C80 (limits of position barriers).** With `n` selected axes, the limits are the last accepted ones
(a number standing for all axes), else the constructor's, else zero.  A limit excluded by the limit type stays
zero: giving it is ignored. -/
theorem C80_position_limits [IsStrictOrderedRing K] {a : BarrierArgs K} {on : String} {ot : ObjType} {lo hi : Option (Arr K)}
    {s : String} {mask : Option (Arr Int)} {c0 : Comp K}
    (hn : (NewComp.positionBarrier a on ot lo hi s mask).run = .ok c0) (ops : List (CompOp K)) :
    ∃ n : Nat, c0.attrs.maskIdxs.length = n ∧
    pMin (runOps c0 ops) = some (if s = "max" then Arr.zeros n else
      latest (fun op => (pLimitArg false op).map (spread n)) ((lo.map (spread n)).getD (Arr.zeros n))
        (accepted c0 ops)) ∧
    pMax (runOps c0 ops) = some (if s = "min" then Arr.zeros n else
      latest (fun op => (pLimitArg true op).map (spread n)) ((hi.map (spread n)).getD (Arr.zeros n))
        (accepted c0 ops)) := by
  simp only [NewComp.run] at hn
  obtain ⟨at0, lt, lo0, hi0, h1, h2, h3, h4, rfl⟩ := newPositionBarrier_ok hn
  refine ⟨at0.maskIdxs.length, rfl, ?_⟩
  generalize hc0 : Comp.fresh _ = c0
  have hmask : c0.attrs.mask.isSome := by
    subst hc0
    obtain ⟨_, m, idxs, hm, rfl⟩ := initAttrs_ok h1
    rcases initMask_ok hm with ⟨h, _⟩ | ⟨_, _, _, _, h, _⟩
    · cases h
    · subst h; rfl
  have hlen : c0.attrs.maskIdxs.length = at0.maskIdxs.length := by subst hc0; rfl
  have hlt : limTypeOf c0.attrs.kind = some lt := by subst hc0; rfl
  have e1 := initialBound_eq h3
  have e2 := initialBound_eq h4
  have key : ∀ (u : Bool) (r : Comp K → Option (Arr K)) (v : Arr K), (∀ c, r c = pLimOf u (userKind c.attrs.kind)) →
      r c0 = some v → r (runOps c0 ops) = some (latest (fun op => if incl lt u then
        (pLimitArg u op).map (spread at0.maskIdxs.length) else none) v (accepted c0 ops)) := by
    intro u r v hr hv
    refine latest_run r _ (fun c : Comp K => limTypeOf c.attrs.kind = some lt ∧ c.attrs.mask.isSome ∧
      c.attrs.maskIdxs.length = at0.maskIdxs.length) (fun _ => True) ?_ ?_
      (fun op c e _ _ h => keep (pLimOf u) hr h) ops c0 v (fun _ _ => trivial) ⟨hlt, hmask, hlen⟩ hv
    · intro op c _ ⟨i1, i2, i3⟩
      obtain ⟨m1, m2⟩ := maskIdxs_step (op := op) i1 i2
      exact ⟨limType_step i1, m1, by rw [m2, i3]⟩
    · intro op c v _ ⟨i1, i2, i3⟩ hv h
      rw [← limType_user] at i1
      by_cases hu : ∃ m, op = .updateModel m
      · obtain ⟨m, rfl⟩ := hu
        have hm := (accepted_model h).2
        rw [hr] at hv ⊢
        revert i1 hm hv
        simp only [CompOp.run]
        generalize userKind c.attrs.kind = k
        generalize userKind (updateModel m c).2.attrs.kind = k'
        intro i1 hv hm
        cases k <;> cases i1
        cases hm; rw [hv]; simp [pLimitArg]
      · have h2 := (accepted_setter h fun m h => hu ⟨m, h⟩).2
        rw [hr] at hv ⊢
        rw [h2, i3]
        revert i1 hv
        generalize userKind c.attrs.kind = k
        intro i1 hv
        cases k <;> cases i1
        cases op with
        | updatePLimit u' x =>
          cases hv
          cases lt <;> cases u <;> cases u' <;> rfl
        | _ => cases lt <;> cases u <;> exact hv
  have k1 := key false pMin lo0 (by intro c; unfold pMin; cases c.attrs.kind <;> rfl) (by subst hc0; rfl)
  have k2 := key true pMax hi0 (by intro c; unfold pMax; cases c.attrs.kind <;> rfl) (by subst hc0; rfl)
  have none_latest : ∀ (v : Arr K) (l : List (CompOp K)), latest (fun _ => none) v l = v := by
    intro v l; unfold latest; rw [List.filterMap_none]; rfl
  rcases limitTypeArg_ok h2 with ⟨rfl, rfl⟩ | ⟨rfl, rfl⟩ | ⟨rfl, rfl⟩ <;>
    simp only [incl, LimitType.includesMin, LimitType.includesMax] at k1 k2 e1 e2
  · rw [k1, k2, e1, e2]; constructor
    · simp
    · simp only [if_true]; exact congrArg some (none_latest _ _)
  · rw [k1, k2, e1, e2]; constructor
    · simp only [if_true]; exact congrArg some (none_latest _ _)
    · simp
  · rw [k1, k2, e1, e2]; constructor <;> simp

/-- **C80 (compiled components).** After any history, if the component compiles, the compiled gain is the
expansion of the last accepted gain and, for tasks, the compiled cost and damping are those of the last
accepted cost and damping. -/
theorem C80_compiled {n : NewComp K} {c0 c' : Comp K} (hn : n.run = .ok c0) (ops : List (CompOp K)) {j : JaxComp K}
    (hj : jaxComponent (runOps c0 ops) = (.ok j, c')) :
    GainOf j.dim (latest gainArg (gain0 n) (accepted c0 ops)) j.vectorGain ∧
    ∀ a, BuildsTask n a → match j.kind with
      | .comTask w lm _ | .jointTask w lm _ _ | .positionTask w lm _ _ _ | .frameTask w lm _ _ _ =>
          CostOf j.dim (latest costArg a.cost (accepted c0 ops)) w ∧ lm = latest lmArg a.lm (accepted c0 ops)
      | _ => False := by
  have hs := jaxComponent_spec (cacheOK_reachable ⟨n, c0, ops, hn, rfl⟩) hj
  refine ⟨?_, fun a ha => ?_⟩
  · rw [hs.dim, ← C80_gain hn ops]; exact hs.gain
  · obtain ⟨h1, h2⟩ := C80_cost ha hn ops
    have hk := hs.kind
    unfold costAttr at h1
    unfold lmAttr at h2
    rw [hs.dim]
    cases hkk : (runOps c0 ops).attrs.kind <;> rw [hkk] at h1 h2 hk <;> simp only [reduceCtorEq] at h1 <;>
      cases hjj : j.kind <;> rw [hjj] at hk <;> simp only [KindOf] at hk <;>
      simp only [Option.some.injEq] at h1 h2 <;> rw [← h1, ← h2] <;> exact ⟨hk.1, hk.2.1⟩

/-! A history with accepted and rejected calls. -/
namespace SetEx

def mat : Arr ℚ := ⟨[3, 3], fun _ => 1⟩
def vec (n : Nat) : Arr ℚ := ⟨[n], fun _ => 1⟩
/-- Two gains (the second is a matrix and is rejected), a model, two targets (the second is too short), a
cost. -/
def ops : List (CompOp ℚ) :=
  [.updateGain (Ex.scalar 2), .updateGain mat, .updateModel Ex.model, .updateTarget (vec 3),
   .updateTarget (vec 2), .compile, .updateCost mat]

end SetEx

example : ∃ c0, (NewComp.comTask Ex.taskArgs).run = .ok c0 ∧ accepted c0 SetEx.ops =
    [.updateGain (Ex.scalar 2), .updateModel Ex.model, .updateTarget (SetEx.vec 3), .compile, .updateCost SetEx.mat] ∧
    (runOps c0 SetEx.ops).attrs.gain = Ex.scalar 2 ∧ costAttr (runOps c0 SetEx.ops) = some SetEx.mat ∧
    targetPoint (runOps c0 SetEx.ops) = some (SetEx.vec 3) ∧
    (∃ j c', jaxComponent (runOps c0 SetEx.ops) = (.ok j, c')) := by
  have h : (NewComp.comTask Ex.taskArgs).run = .ok _ := rfl
  refine ⟨_, h, rfl, ?_, ?_, ?_, _, _, rfl⟩
  · rw [C80_gain h]; rfl
  · rw [(C80_cost (n := .comTask Ex.taskArgs) rfl h SetEx.ops).1]; rfl
  · obtain ⟨d, hd, h2⟩ := C80_target (.inl rfl) h SetEx.ops
    rw [h2]; rfl

/-- Joint tasks: no target was given, so the first accepted model sets it to two zeros. -/
example : ∃ c0, (NewComp.jointTask Ex.taskArgs (some [1, 1])).run = .ok c0 ∧
    targetQ (runOps c0 [.updateModel Ex.model2, .updateModel Ex.model]) = some (Arr.zeros 2) ∧
    JointsWF Ex.model ∧ JointsWF Ex.model2 :=
  ⟨_, rfl, rfl, ⟨by simp [Ex.model, Consecutive, JntType.nq, JntType.nv], rfl⟩,
    ⟨by simp [Ex.model, Ex.model2, Consecutive, JntType.nq, JntType.nv], rfl⟩⟩

/-- Position barriers: an upper limit given as a number, a lower limit that the limit type excludes. -/
example : ∃ c0, (NewComp.positionBarrier Ex.barrierArgs "b4" .body none (some (Ex.scalar 1)) "max" none).run = .ok c0 ∧
    accepted c0 [.updatePLimit false (SetEx.vec 3), .updatePLimit true (SetEx.vec 2)] =
      [.updatePLimit false (SetEx.vec 3)] ∧
    pMin (runOps c0 [.updatePLimit false (SetEx.vec 3)]) = some (Arr.zeros 3) :=
  ⟨_, rfl, rfl, rfl⟩

/-- Joint barriers: the ranges of the first model are kept until a limit is set. -/
example : ∃ c0, (NewComp.jointBarrier Ex.barrierArgs none none none).run = .ok c0 ∧
    accepted c0 [.updateModel Ex.model, .updateQLimit true (SetEx.vec 2)] =
      [.updateModel Ex.model, .updateQLimit true (SetEx.vec 2)] ∧
    qMin (runOps c0 [.updateModel Ex.model, .updateQLimit true (SetEx.vec 2)]) = some (Arr.ofList0 [-1, -2]) ∧
    qMax (runOps c0 [.updateModel Ex.model, .updateQLimit true (SetEx.vec 2)]) = some (SetEx.vec 2) :=
  ⟨_, rfl, rfl, rfl, rfl⟩

example : ∃ c0, (NewComp.selfCollision Ex.barrierArgs 0 [] [] 2).run = .ok c0 ∧
    accepted c0 [.setNClosest 1, .updateModel Ex.model, .setDMin (1 / 2), .setSafeDisplacementGain 7] =
      [.setNClosest 1, .updateModel Ex.model, .setDMin (1 / 2), .setSafeDisplacementGain 7] :=
  ⟨_, rfl, rfl⟩

example : ∃ c0, (NewComp.frameTask Ex.taskArgs "b4" .body).run = .ok c0 ∧
    accepted c0 [.updateTargetFrame (.array (SetEx.vec 7)), .updateTargetFrame (.array (SetEx.vec 6))] =
      [.updateTargetFrame (.array (SetEx.vec 7))] :=
  ⟨_, rfl, rfl⟩

example : ∃ c0, (NewComp.modelEquality "e" (Ex.scalar 1) true none).run = .ok c0 ∧
    hardAttr (runOps c0 [.setHard false, .updateModel Ex.model, .setActive false]) = some false :=
  ⟨_, rfl, rfl⟩

end Mjinx.Props
