import Verif.Props.Setters
import Verif.Lemmas.JointInv
import Verif.Lemmas.KindStep
import Verif.Spec.Settings

/-! # Helper lemmas: what accepted and rejected calls do to the values a user set -/

set_option linter.unusedSectionVars false
set_option linter.unusedTactic false
set_option linter.unreachableTactic false

namespace Mjinx
variable {K : Type} [Field K] [LinearOrder K]
open Spec Props

/-- What an accepted call does to the values the user set (`n`: number of selected axes). -/
def callKind (n : Nat) (op : CompOp K) (k : Kind K) : Kind K :=
  match op with
  | .updateCost w => match k.taskA? with
    | some t => k.setTaskA { t with cost := w }
    | none => k
  | .setLmDamping x => match k.taskA? with
    | some t => k.setTaskA { t with lmDamping := x }
    | none => k
  | .setSafeDisplacementGain x => k.setSdg x
  | .updateTarget x => match k with
    | .comTask t _ => .comTask t x
    | .positionTask t o _ => .positionTask t o x
    | .jointTask t fm _ qi => .jointTask t fm (some x) qi
    | k => k
  | .updateTargetFrame x => match k with
    | .frameTask t o _ => .frameTask t o (match x with | .se3 f => f | .array a => frameOfArray a)
    | k => k
  | .updateQLimit u x => match k with
    | .jointBarrier s fm lo hi qi => .jointBarrier s fm (if u then lo else some x) (if u then some x else hi) qi
    | k => k
  | .updatePLimit u x => match k with
    | .positionBarrier s o lo hi lt li =>
      .positionBarrier s o (if u = false ∧ lt.includesMin = true then spread n x else lo)
        (if u = true ∧ lt.includesMax = true then spread n x else hi) lt li
    | k => k
  | .setActive x => match k with
    | .modelEquality _ h s => .modelEquality x h s
    | k => k
  | .setHard x => match k with
    | .modelEquality a _ s => .modelEquality a x s
    | k => k
  | .setDMin x => match k with
    | .selfCollision s _ b e n p => .selfCollision s x b e n p
    | k => k
  | .setNClosest x => match k with
    | .selfCollision s d b e _ p => .selfCollision s d b e x p
    | k => k
  | _ => k

theorem newPositionBound_ok {inc : Bool} {n : Nat} {x : Arr K} {p : Option (Arr K)}
    (h : newPositionBound inc n x = .ok p) : p = if inc then some (spread n x) else none := by
  unfold newPositionBound at h
  unfold spread
  cases hs : x.shape with
  | nil => rw [hs] at h; cases inc <;> cases h <;> simp [Arr.onesMul]
  | cons d ds =>
    rw [hs] at h
    cases hl : (d :: ds).getLast? with
    | none => simp at hl
    | some k =>
      rw [hl] at h
      simp only at h
      split at h
      · cases h
      · cases inc <;> cases h <;> rfl

theorem accepted_setter {op : CompOp K} {c : Comp K} (h : (op.run c).1 = .ok ())
    (hm : ∀ m, op ≠ .updateModel m) :
    (op.run c).2.attrs.gain = (gainArg op).getD c.attrs.gain ∧
    userKind (op.run c).2.attrs.kind = callKind c.attrs.maskIdxs.length op (userKind c.attrs.kind) := by
  cases op with
  | updateModel m => exact (hm m rfl).elim
  | readMask =>
    simp only [CompOp.run]
    rcases maskFill_ensureMask c with h | ⟨_, _, h⟩ <;> rw [h] <;> exact ⟨rfl, rfl⟩
  | compile =>
    simp only [CompOp.run]
    rcases maskFill_jaxComponent c with h | ⟨_, _, h⟩ <;> rw [h] <;> exact ⟨rfl, rfl⟩
  | updateGain g =>
    simp only [CompOp.run] at h ⊢
    unfold updateGain at h ⊢
    split at h
    · cases h
    · rename_i hn; rw [if_neg hn]; exact ⟨rfl, rfl⟩
  | updatePLimit u x =>
    simp only [CompOp.run] at h ⊢
    unfold updatePLimit at h ⊢
    cases hk : c.attrs.kind <;> rw [hk] at h <;> simp only at h ⊢ <;> try (cases h; done)
    rename_i s o lo hi lt li
    cases hb : newPositionBound (if u then lt.includesMax else lt.includesMin) c.attrs.maskIdxs.length x with
    | error e => rw [hb] at h; cases h
    | ok p =>
      rw [hb] at h
      have := newPositionBound_ok hb
      cases u <;> cases h1 : lt.includesMin <;> cases h2 : lt.includesMax <;> simp_all [gainArg, callKind, userKind, Comp.set]
  | _ =>
    all_goals
    simp only [CompOp.run] at h ⊢
    simp only [updateCost, setLmDamping, setSafeDisplacementGain, updateTarget, updateTargetFrame, updateQLimit,
      setActive, setHard, setDMin, setNClosest, setCollisionBodies] at h ⊢
    revert h
    cases hk : c.attrs.kind <;> simp only [Kind.taskA?, Kind.isBarrier] <;>
      (repeat' split) <;> intro h <;> (try (cases h; done)) <;>
      simp_all [gainArg, callKind, userKind, Kind.taskA?, Kind.setTaskA, Kind.setSdg, Comp.set]

/-- A rejected call changes neither the gain nor anything else the user set. -/
theorem rejected_call {op : CompOp K} {c : Comp K} {e : Err} (h : (op.run c).1 = .error e) :
    (op.run c).2.attrs.gain = c.attrs.gain ∧ userKind (op.run c).2.attrs.kind = userKind c.attrs.kind := by
  by_cases hm : ∃ m, op = .updateModel m
  · obtain ⟨m, rfl⟩ := hm
    obtain ⟨-, h2, -, h4⟩ := C09_rejected_model_keeps_settings_partial m c e h
    exact ⟨h2, h4⟩
  · by_cases hc : op = .compile
    · subst hc
      simp only [CompOp.run]
      rcases maskFill_jaxComponent c with h | ⟨_, _, h⟩ <;> rw [h] <;> exact ⟨rfl, rfl⟩
    · rw [C08_rejected_setter op c e (fun m h => hm ⟨m, h⟩) hc h]; exact ⟨rfl, rfl⟩

/-- What an accepted model update does to the values the user set. -/
def modelKind (m : MjModel K) (k k' : Kind K) : Prop :=
  match k with
  | .jointTask t fm tq _ => ∃ mk, applyFinalMask (jointMasks m) fm = .ok mk ∧
      k' = .jointTask t fm (some (tq.getD (Arr.zeros (nonzeroIdxs mk.1).length))) none
  | .jointBarrier s fm lo hi _ => k' = .jointBarrier s fm (some (lo.getD (Arr.ofList0 (scalarRange m false))))
      (some (hi.getD (Arr.ofList0 (scalarRange m true)))) none
  | .selfCollision s d _ e n _ => ∃ n', (n ≠ -1 → n' = n) ∧ k' = .selfCollision s d [] e n' none
  | k => k' = k

theorem accepted_model {m : MjModel K} {c : Comp K} (h : (updateModel m c).1 = .ok ()) :
    (updateModel m c).2.attrs.gain = c.attrs.gain ∧
    modelKind m (userKind c.attrs.kind) (userKind (updateModel m c).2.attrs.kind) := by
  refine ⟨(updateModel_frame m c).2.1, ?_⟩
  unfold updateModel at h ⊢
  cases hk : c.attrs.kind <;> simp only [hk] at h ⊢
  case comTask => rfl
  case jointTask t fm tq qi =>
    obtain ⟨mk, h1, h2, h3⟩ := updateModelJointTask_ok h
    rw [h3]
    exact ⟨mk, h1, rfl⟩
  case positionTask t o x =>
    revert h; unfold updateModelObj; dsimp only; split
    · intro h; cases h
    · intro _; simp only [Comp.set, hk]; rfl
  case frameTask t o x =>
    revert h; unfold updateModelObj; dsimp only; split
    · intro h; cases h
    · intro _; simp only [Comp.set, hk]; rfl
  case jointBarrier s fm lo hi qi =>
    obtain ⟨mk, h1, h2, h3⟩ := updateModelJointBarrier_ok h
    rw [h3]
    rfl
  case positionBarrier s o lo hi lt li =>
    revert h; unfold updateModelObj; dsimp only; split
    · intro h; cases h
    · intro _; simp only [Comp.set, hk]; rfl
  case selfCollision s d b e n p =>
    revert h; unfold updateModelSelfCollision; dsimp only
    split
    · intro h; cases h
    · split
      · intro h; cases h
      · intro _
        refine ⟨_, ?_, rfl⟩
        intro hn; rw [if_neg hn]
  case modelEquality a h0 s =>
    revert h; unfold updateModelEquality; dsimp only; split
    · intro h; cases h
    · intro _; simp only [Comp.set, hk]; rfl

theorem accepted_cons (c : Comp K) (op : CompOp K) (ops : List (CompOp K)) :
    accepted c (op :: ops) = match (op.run c).1 with
      | .ok _ => op :: accepted (op.run c).2 ops
      | .error _ => accepted (op.run c).2 ops := rfl

/-- The generic argument: a reading that every accepted call either sets or keeps, and every rejected call
keeps, is the last value set. -/
theorem latest_run {V : Type} (r : Comp K → Option V) (f : CompOp K → Option V) (I : Comp K → Prop)
    (good : CompOp K → Prop)
    (hI : ∀ op c, good op → I c → I (op.run c).2)
    (hok : ∀ op c v, good op → I c → r c = some v → (op.run c).1 = .ok () →
      r (op.run c).2 = some ((f op).getD v))
    (herr : ∀ op c e, good op → I c → (op.run c).1 = .error e → r (op.run c).2 = r c) :
    ∀ (ops : List (CompOp K)) (c : Comp K) (v : V), (∀ op ∈ ops, good op) → I c → r c = some v →
      r (runOps c ops) = some (latest f v (accepted c ops))
  | [], c, v, _, _, hv => hv
  | op :: ops, c, v, hg, hi, hv => by
    have hg0 := hg op (by simp)
    have ih := fun w => latest_run r f I good hI hok herr ops (op.run c).2 w
      (fun o ho => hg o (List.mem_cons_of_mem _ ho)) (hI op c hg0 hi)
    show r (runOps (op.run c).2 ops) = _
    rw [accepted_cons]
    cases h : (op.run c).1 with
    | error e =>
      simp only
      exact ih v ((herr op c e hg0 hi h).trans hv)
    | ok u =>
      simp only
      rw [ih _ (hok op c v hg0 hi hv h)]
      unfold latest
      cases hf : f op with
      | none => rw [List.filterMap_cons_none hf]; rfl
      | some w => rw [List.filterMap_cons_some hf, List.getLastD_cons]; rfl

/-- The same for an attribute that may be unset at first and is then filled in by the first accepted model. -/
theorem latest_run_default {V : Type} (r : Comp K → Option V) (f : CompOp K → Option V) (d : MjModel K → V)
    (I : Comp K → Prop) (good : CompOp K → Prop)
    (hI : ∀ op c, good op → I c → I (op.run c).2)
    (hm : ∀ m, f (.updateModel m) = none)
    (hok : ∀ op c, good op → I c → (∀ m, op ≠ .updateModel m) → (op.run c).1 = .ok () →
      r (op.run c).2 = (f op).or (r c))
    (hmod : ∀ m c, good (.updateModel m) → I c → (updateModel m c).1 = .ok () →
      r (updateModel m c).2 = some ((r c).getD (d m)))
    (herr : ∀ op c e, good op → I c → (op.run c).1 = .error e → r (op.run c).2 = r c) :
    ∀ (ops : List (CompOp K)) (c : Comp K), (∀ op ∈ ops, good op) → I c →
      r (runOps c ops) = (((accepted c ops).filterMap f).getLast?).or
        ((r c).or (((accepted c ops).filterMap modelArg).head?.map d))
  | [], c, _, _ => by show r c = _; simp [accepted]
  | op :: ops, c, hg, hi => by
    have hg0 := hg op (by simp)
    have ih := latest_run_default r f d I good hI hm hok hmod herr ops (op.run c).2
      (fun o ho => hg o (List.mem_cons_of_mem _ ho)) (hI op c hg0 hi)
    show r (runOps (op.run c).2 ops) = _
    rw [ih, accepted_cons]
    cases h : (op.run c).1 with
    | error e =>
      simp only
      rw [herr op c e hg0 hi h]
    | ok u =>
      simp only
      by_cases hu : ∃ m, op = .updateModel m
      · obtain ⟨m, rfl⟩ := hu
        rw [List.filterMap_cons_none (hm m), List.filterMap_cons_some (f := modelArg) (b := m) rfl]
        have := hmod m c hg0 hi h
        simp only [CompOp.run] at this ⊢
        rw [this]
        cases hr : r c <;> simp
      · have hu' : ∀ m, op ≠ .updateModel m := fun m h => hu ⟨m, h⟩
        have hma : modelArg op = none := by
          cases op <;> first | rfl | exact (hu' _ rfl).elim
        rw [List.filterMap_cons_none hma, hok op c hg0 hi hu' h]
        cases hf : f op with
        | none => rw [List.filterMap_cons_none hf]; rfl
        | some w =>
          rw [List.filterMap_cons_some hf]
          cases hl : (List.filterMap f (accepted (op.run c).2 ops)) with
          | nil => simp
          | cons x xs =>
            rw [List.getLast?_cons_cons]
            cases hq : (x :: xs).getLast? with
            | none => simp at hq
            | some y => simp

end Mjinx
