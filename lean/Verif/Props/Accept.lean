import Verif.Spec.Accept
import Verif.Spec.Joints
import Verif.Lemmas.ObjInv
import Verif.Lemmas.JointEval
import Verif.Props.JointMask
import Verif.Lemmas.Problem
import Verif.Spec.Examples

/-!
# C89: constructors and setters accept exactly the documented values
-/

set_option linter.unusedSectionVars false
set_option linter.unusedTactic false
set_option linter.unreachableTactic false

namespace Mjinx.Props
variable {K : Type} [Field K] [LinearOrder K]
open Spec

private theorem lastAxis_iff {α : Type} {x : Arr α} {k : Nat} : LastAxis x k ↔ x.shape.getLast? = some k := by
  unfold LastAxis
  constructor
  · rintro ⟨pre, h⟩; rw [h]; simp
  · intro h
    exact ⟨x.shape.dropLast, by
      have := List.dropLast_append_getLast? k (by rw [h]; rfl)
      exact this.symm⟩

private theorem lastDim_iff {α : Type} {x : Arr α} {k : Nat} : x.lastDim = .ok k ↔ LastAxis x k := by
  rw [lastAxis_iff]
  unfold Arr.lastDim
  cases x.shape.getLast? <;> simp

private theorem nonzero_length (f : Nat → Int) (n : Nat) :
    (nonzeroIdxs ((List.range n).map f)).length = ((List.range n).filter (fun i => f i ≠ 0)).length := by
  unfold nonzeroIdxs
  rw [List.length_map, List.length_range]
  congr 1
  apply List.filter_congr
  intro i hi
  rw [List.mem_range] at hi
  simp [hi]

private theorem initMask_iff (mask : Option (Arr Int)) : (∃ r, initMask mask = .ok r) ↔ FlatMask mask := by
  unfold FlatMask
  cases mask with
  | none => simp [initMask]
  | some a =>
    unfold initMask
    simp only [Option.some.injEq, forall_eq']
    match hs : a.shape with
    | [] => simp
    | [n] => simp
    | _ :: _ :: _ => simp

private theorem initMask_axes {mask : Option (Arr Int)} {m : Option (List Int)} {idxs : List Nat} (all : Nat)
    (h : initMask mask = .ok (m, idxs)) : (if mask.isNone then all else idxs.length) = chosenAxes all mask := by
  rcases initMask_ok h with ⟨rfl, _, _⟩ | ⟨a, n, rfl, hs, _, rfl⟩
  · rfl
  · simp only [Option.isNone_some, Bool.false_eq_true, if_false, chosenAxes, hs, List.headD_cons]
    exact nonzero_length _ _

private theorem initAttrs_iff (nm : String) (g : Arr K) (gf : Option (K → K)) (mask : Option (Arr Int)) (k : Kind K) :
    (∃ a, initAttrs nm g gf mask k = .ok a) ↔ g.shape.length ≤ 1 ∧ FlatMask mask := by
  rw [← initMask_iff]
  unfold initAttrs Arr.ndim
  by_cases hg : g.shape.length ≤ 1
  · rw [if_neg (by omega)]
    cases initMask mask <;> simp [hg]
  · rw [if_pos (by omega)]
    simp [hg]

private theorem initTaskA_iff (w : Arr K) (lm : K) : (∃ t, initTaskA w lm = .ok t) ↔ 0 ≤ lm ∧ w.shape.length ≤ 2 := by
  unfold initTaskA Arr.ndim
  by_cases h1 : lm < 0
  · rw [if_pos h1]; simp [not_le.2 h1]
  · rw [if_neg h1]
    by_cases h2 : w.shape.length ≤ 2
    · rw [if_neg (by omega)]; simp [not_lt.1 h1, h2]
    · rw [if_pos (by omega)]; simp [h2]

private theorem bind_iff {α β : Type} {x : Except Err α} {f : α → Except Err β} :
    (∃ b, (x >>= f) = .ok b) ↔ ∃ a, x = .ok a ∧ ∃ b, f a = .ok b := by
  cases x <;> simp [bind, Except.bind]

private theorem newPositionBound_iff (inc : Bool) (n : Nat) (x : Arr K) :
    (∃ p, newPositionBound inc n x = .ok p) ↔ PositionLimit n x := by
  unfold newPositionBound PositionLimit
  rw [lastAxis_iff]
  cases h : x.shape.getLast? with
  | none => simp [List.getLast?_eq_none_iff.1 h]
  | some k =>
    have : x.shape ≠ [] := by intro h'; rw [h'] at h; cases h
    by_cases hk : k = n <;> simp [hk, this]

private theorem initialBound_iff (inc : Bool) (n : Nat) (p : Option (Arr K)) :
    (∃ x, initialBound inc n p = .ok x) ↔ ∀ x, p = some x → PositionLimit n x := by
  cases p with
  | none => simp [initialBound]
  | some x =>
    simp only [initialBound, Option.some.injEq, forall_eq']
    rw [← newPositionBound_iff inc]
    cases newPositionBound inc n x with
    | error e => simp
    | ok o => cases o <;> simp

private theorem limitTypeArg_iff (s : String) :
    (∃ t, limitTypeArg s = .ok t) ↔ (s = "min" ∨ s = "max" ∨ s = "both") := by
  unfold limitTypeArg
  by_cases h : s = "min" ∨ s = "max" ∨ s = "both"
  · rw [if_neg (by tauto)]
    refine ⟨fun _ => h, fun _ => ?_⟩
    rcases h with rfl | rfl | rfl
    · exact ⟨.min, by decide +kernel⟩
    · exact ⟨.max, by decide +kernel⟩
    · exact ⟨.both, by decide +kernel⟩
  · rw [if_pos (by tauto)]; simp [h]

private theorem checkComMask_iff (mask : Option (Arr Int)) :
    ((∃ u, checkComMask mask = .ok u) ∧ FlatMask mask) ↔ ∀ m, mask = some m → m.shape = [3] := by
  unfold FlatMask
  cases mask with
  | none => simp [checkComMask]
  | some a =>
    simp only [checkComMask, Option.some.injEq, forall_eq', Arr.len]
    match hs : a.shape with
    | [] => simp
    | [n] => by_cases hn : n = 3 <;> simp [hn]
    | _ :: _ :: _ => simp

private theorem flatMask_getD (mask : Option (Arr Int)) (d : Arr Int) (hd : d.shape.length = 1) :
    FlatMask (some (mask.getD d)) ↔ FlatMask mask := by
  unfold FlatMask
  cases mask with
  | none => simp [hd]
  | some a => simp

private theorem barrierAxes {mask : Option (Arr Int)} {m : Option (List Int)} {idxs : List Nat}
    (h : initMask (some (mask.getD (Arr.ofList [1, 1, 1]))) = .ok (m, idxs)) : idxs.length = chosenAxes 3 mask := by
  cases mask with
  | none => cases h; decide
  | some a => exact (initMask_axes 3 h :)

/-- **C89** A constructor returns normally exactly when its arguments fit. -/
theorem C89_new (n : NewComp K) : (∃ c, n.run = .ok c) ↔ NewAccepts n := by
  cases n with
  | comTask a =>
    simp only [NewComp.run, newComTask, NewAccepts, TaskArgsFit, bind_iff]
    rw [← checkComMask_iff]
    have h1 := initTaskA_iff a.cost a.lm
    constructor
    · rintro ⟨u, h0, t, ht, at0, hat, -⟩
      have := (initAttrs_iff _ _ _ _ _).1 ⟨_, hat⟩
      exact ⟨⟨(h1.1 ⟨t, ht⟩).1, (h1.1 ⟨t, ht⟩).2, this.1⟩, ⟨u, h0⟩, this.2⟩
    · rintro ⟨⟨h2, h3, h4⟩, ⟨u, h0⟩, h5⟩
      obtain ⟨t, ht⟩ := h1.2 ⟨h2, h3⟩
      obtain ⟨at0, hat⟩ := (initAttrs_iff a.name a.gain a.gainFn a.mask (.comTask t (Arr.zeros 0))).2 ⟨h4, h5⟩
      exact ⟨u, h0, t, ht, at0, hat, _, rfl⟩
  | jointTask a fm =>
    simp only [NewComp.run, newJointTask, NewAccepts, TaskArgsFit, bind_iff]
    have h1 := initTaskA_iff a.cost a.lm
    constructor
    · rintro ⟨t, ht, at0, hat, -⟩
      have := (initAttrs_iff _ _ _ _ _).1 ⟨_, hat⟩
      exact ⟨(h1.1 ⟨t, ht⟩).1, (h1.1 ⟨t, ht⟩).2, this.1⟩
    · rintro ⟨h2, h3, h4⟩
      obtain ⟨t, ht⟩ := h1.2 ⟨h2, h3⟩
      obtain ⟨at0, hat⟩ := (initAttrs_iff a.name a.gain a.gainFn none (.jointTask t fm none none)).2
        ⟨h4, fun _ h => nomatch h⟩
      exact ⟨t, ht, at0, hat, _, rfl⟩
  | positionTask a on ot =>
    simp only [NewComp.run, newPositionTask, NewAccepts, TaskArgsFit, bind_iff]
    have h1 := initTaskA_iff a.cost a.lm
    constructor
    · rintro ⟨t, ht, at0, hat, -⟩
      have := (initAttrs_iff _ _ _ _ _).1 ⟨_, hat⟩
      exact ⟨⟨(h1.1 ⟨t, ht⟩).1, (h1.1 ⟨t, ht⟩).2, this.1⟩, this.2⟩
    · rintro ⟨⟨h2, h3, h4⟩, h5⟩
      obtain ⟨t, ht⟩ := h1.2 ⟨h2, h3⟩
      obtain ⟨at0, hat⟩ := (initAttrs_iff a.name a.gain a.gainFn a.mask
        (.positionTask t ⟨on, ot, -1⟩ (Arr.zeros 0))).2 ⟨h4, h5⟩
      exact ⟨t, ht, at0, hat, _, rfl⟩
  | frameTask a on ot =>
    simp only [NewComp.run, newFrameTask, NewAccepts, TaskArgsFit, bind_iff]
    have h1 := initTaskA_iff a.cost a.lm
    constructor
    · rintro ⟨t, ht, at0, hat, -⟩
      have := (initAttrs_iff _ _ _ _ _).1 ⟨_, hat⟩
      exact ⟨⟨(h1.1 ⟨t, ht⟩).1, (h1.1 ⟨t, ht⟩).2, this.1⟩, this.2⟩
    · rintro ⟨⟨h2, h3, h4⟩, h5⟩
      obtain ⟨t, ht⟩ := h1.2 ⟨h2, h3⟩
      obtain ⟨at0, hat⟩ := (initAttrs_iff a.name a.gain a.gainFn a.mask
        (.frameTask t ⟨on, ot, -1⟩ se3Identity)).2 ⟨h4, h5⟩
      exact ⟨t, ht, at0, hat, _, rfl⟩
  | jointBarrier a lo hi fm =>
    simp only [NewComp.run, newJointBarrier, NewAccepts, bind_iff]
    constructor
    · rintro ⟨at0, hat, -⟩
      exact ((initAttrs_iff _ _ _ _ _).1 ⟨_, hat⟩).1
    · intro h
      obtain ⟨at0, hat⟩ := (initAttrs_iff a.name a.gain a.gainFn none (.jointBarrier a.sdg fm lo hi none)).2
        ⟨h, fun _ h => nomatch h⟩
      exact ⟨at0, hat, _, rfl⟩
  | positionBarrier a on ot lo hi lt mask =>
    simp only [NewComp.run, newPositionBarrier, NewAccepts, bind_iff]
    have hfm := flatMask_getD mask (Arr.ofList [1, 1, 1]) rfl
    constructor
    · rintro ⟨at0, hat, l, hl, lo', hlo, hi', hhi, -⟩
      have h1 := (initAttrs_iff _ _ _ _ _).1 ⟨_, hat⟩
      obtain ⟨-, m, idxs, hm, rfl⟩ := initAttrs_ok hat
      have hax := barrierAxes hm
      simp only [hax] at hlo hhi
      exact ⟨h1.1, hfm.1 h1.2, (limitTypeArg_iff _).1 ⟨l, hl⟩, (initialBound_iff _ _ _).1 ⟨_, hlo⟩,
        (initialBound_iff _ _ _).1 ⟨_, hhi⟩⟩
    · rintro ⟨h1, h2, h3, h4, h5⟩
      obtain ⟨at0, hat⟩ := (initAttrs_iff a.name a.gain a.gainFn (some (mask.getD (Arr.ofList [1, 1, 1])))
        (.positionBarrier a.sdg ⟨on, ot, -1⟩ (Arr.zeros 0) (Arr.zeros 0) .both [])).2 ⟨h1, hfm.2 h2⟩
      obtain ⟨l, hl⟩ := (limitTypeArg_iff lt).2 h3
      have hax : at0.maskIdxs.length = chosenAxes 3 mask := by
        obtain ⟨-, m, idxs, hm, rfl⟩ := initAttrs_ok hat
        exact barrierAxes hm
      obtain ⟨lo', hlo⟩ := (initialBound_iff l.includesMin _ _).2 h4
      obtain ⟨hi', hhi⟩ := (initialBound_iff l.includesMax _ _).2 h5
      rw [← hax] at hlo hhi
      exact ⟨at0, hat, l, hl, lo', hlo, hi', hhi, _, rfl⟩
  | selfCollision a d b e n =>
    simp only [NewComp.run, newSelfCollision, NewAccepts, bind_iff]
    constructor
    · rintro ⟨at0, hat, -⟩
      exact ((initAttrs_iff _ _ _ _ _).1 ⟨_, hat⟩).1
    · intro h
      obtain ⟨at0, hat⟩ := (initAttrs_iff a.name a.gain a.gainFn none (.selfCollision a.sdg d b e n none)).2
        ⟨h, fun _ h => nomatch h⟩
      exact ⟨at0, hat, _, rfl⟩
  | modelEquality nm g h s =>
    simp only [NewComp.run, newModelEquality, NewAccepts, bind_iff]
    constructor
    · rintro ⟨at0, hat, -⟩
      exact ((initAttrs_iff _ _ _ _ _).1 ⟨_, hat⟩).1
    · intro hg
      obtain ⟨at0, hat⟩ := (initAttrs_iff nm g none none (.modelEquality true h s)).2
        ⟨hg, fun _ h => nomatch h⟩
      exact ⟨at0, hat, _, rfl⟩

/-- The class made by a constructor. -/
private def classOf : NewComp K → Tag
  | .comTask _ => .com
  | .jointTask _ _ => .joint
  | .positionTask _ _ _ => .position
  | .frameTask _ _ _ => .frame
  | .jointBarrier .. => .jointBarrier
  | .positionBarrier .. => .positionBarrier
  | .selfCollision .. => .selfCollision
  | .modelEquality .. => .equality

private theorem new_class {n : NewComp K} {c : Comp K} (hn : n.run = .ok c) : c.attrs.kind.tag = classOf n := by
  cases n <;> simp only [NewComp.run] at hn
  case comTask => obtain ⟨t, at0, _, _, h, rfl⟩ := newComTask_ok hn; rfl
  case jointTask => obtain ⟨t, at0, _, h, rfl⟩ := newJointTask_ok hn; obtain ⟨_, m, idxs, h1, rfl⟩ := initAttrs_ok h; rfl
  case positionTask => obtain ⟨t, at0, _, h, rfl⟩ := newPositionTask_ok hn; rfl
  case frameTask => obtain ⟨t, at0, _, h, rfl⟩ := newFrameTask_ok hn; obtain ⟨_, m, idxs, h1, rfl⟩ := initAttrs_ok h; rfl
  case jointBarrier => obtain ⟨at0, h, rfl⟩ := newJointBarrier_ok hn; obtain ⟨_, m, idxs, h1, rfl⟩ := initAttrs_ok h; rfl
  case positionBarrier => obtain ⟨at0, lt, lo, hi, h, h2, h3, h4, rfl⟩ := newPositionBarrier_ok hn; rfl
  case selfCollision => obtain ⟨at0, h, rfl⟩ := newSelfCollision_ok hn; obtain ⟨_, m, idxs, h1, rfl⟩ := initAttrs_ok h; rfl
  case modelEquality => obtain ⟨at0, h, rfl⟩ := newModelEquality_ok hn; obtain ⟨_, m, idxs, h1, rfl⟩ := initAttrs_ok h; rfl

/-- Dimension of a component along a history. -/
private def DimOK (n : NewComp K) (a : Attrs K) : Prop :=
  match n with
  | .comTask x => a.dim = chosenAxes 3 x.mask
  | .positionTask x _ _ => a.dim = chosenAxes 3 x.mask
  | .jointTask _ _ => a.dim = -1 ∨ ∃ k : Nat, a.dim = k
  | .jointBarrier .. => a.dim = -1 ∨ ∃ k : Nat, a.dim = 2 * k
  | .positionBarrier _ _ _ _ _ _ mask => a.mask.isSome ∧ a.maskIdxs.length = chosenAxes 3 mask
  | _ => True

private theorem dimOK_new {n : NewComp K} {c : Comp K} (hn : n.run = .ok c) : DimOK n c.attrs := by
  cases n <;> simp only [NewComp.run] at hn
  case comTask =>
    obtain ⟨t, at0, _, _, h, rfl⟩ := newComTask_ok hn
    obtain ⟨_, m, idxs, h1, rfl⟩ := initAttrs_ok h
    simp only [DimOK, Comp.fresh, Int.natCast_inj]
    exact initMask_axes 3 h1
  case positionTask =>
    obtain ⟨t, at0, _, h, rfl⟩ := newPositionTask_ok hn
    obtain ⟨_, m, idxs, h1, rfl⟩ := initAttrs_ok h
    simp only [DimOK, Comp.fresh, Int.natCast_inj]
    exact initMask_axes 3 h1
  case jointTask =>
    obtain ⟨t, at0, _, h, rfl⟩ := newJointTask_ok hn
    obtain ⟨_, m, idxs, h1, rfl⟩ := initAttrs_ok h
    exact .inl rfl
  case jointBarrier =>
    obtain ⟨at0, h, rfl⟩ := newJointBarrier_ok hn
    obtain ⟨_, m, idxs, h1, rfl⟩ := initAttrs_ok h
    exact .inl rfl
  case positionBarrier =>
    obtain ⟨at0, lt, lo, hi, h, h2, h3, h4, rfl⟩ := newPositionBarrier_ok hn
    obtain ⟨_, m, idxs, h1, rfl⟩ := initAttrs_ok h
    refine ⟨?_, barrierAxes h1⟩
    rcases initMask_ok h1 with ⟨h1, _⟩ | ⟨_, _, _, _, h2, _⟩
    · cases h1
    · simp [Comp.fresh, h2]
  all_goals trivial

private theorem fillLimit_dim (u : Bool) (o : Option (Arr K)) (x : Arr K) (c : Comp K) :
    (fillLimit u o x c).2.attrs.dim = c.attrs.dim := by
  unfold fillLimit; split
  · rfl
  · exact run_dim (.updateQLimit u x) c (fun m h => nomatch h)

private theorem dimOK_run {n : NewComp K} (op : CompOp K) (c : Comp K) (ht : c.attrs.kind.tag = classOf n)
    (h : DimOK n c.attrs) : DimOK n (op.run c).2.attrs := by
  cases n with
  | comTask a =>
    have hf : FixedAxes c.attrs.kind := by cases hk : c.attrs.kind <;> rw [hk] at ht <;> first | trivial | cases ht
    exact (run_mask_fixed op c hf).1.trans h
  | positionTask a on ot =>
    have hf : FixedAxes c.attrs.kind := by cases hk : c.attrs.kind <;> rw [hk] at ht <;> first | trivial | cases ht
    exact (run_mask_fixed op c hf).1.trans h
  | positionBarrier a on ot lo hi lt mask =>
    have hf : FixedAxes c.attrs.kind := by cases hk : c.attrs.kind <;> rw [hk] at ht <;> first | trivial | cases ht
    obtain ⟨h1, h2⟩ := h
    rcases (run_mask_fixed op c hf).2 with ⟨h3, h4⟩ | ⟨h3, -⟩
    · exact ⟨by rw [h3]; exact h1, by rw [h4]; exact h2⟩
    · rw [h3] at h1; cases h1
  | jointTask a fm =>
    by_cases hm : ∃ m, op = .updateModel m
    · obtain ⟨m, rfl⟩ := hm
      cases hk : c.attrs.kind <;> rw [hk] at ht <;> try (cases ht; done)
      simp only [CompOp.run, updateModel, hk, updateModelJointTask]
      simp only [DimOK] at h ⊢
      repeat' split
      all_goals first | exact h | exact .inr ⟨_, rfl⟩
    · simp only [DimOK]; rw [run_dim op c (fun m h => hm ⟨m, h⟩)]; exact h
  | jointBarrier a lo hi fm =>
    by_cases hm : ∃ m, op = .updateModel m
    · obtain ⟨m, rfl⟩ := hm
      cases hk : c.attrs.kind <;> rw [hk] at ht <;> try (cases ht; done)
      simp only [CompOp.run, updateModel, hk, updateModelJointBarrier]
      simp only [DimOK] at h ⊢
      split
      · exact h
      · split
        · rename_i c3 he
          rw [show c3 = _ from (congrArg Prod.snd he).symm, fillLimit_dim]
          exact .inr ⟨_, Int.natCast_mul _ _⟩
        · rename_i c3 he
          rw [fillLimit_dim, show c3 = _ from (congrArg Prod.snd he).symm, fillLimit_dim]
          exact .inr ⟨_, Int.natCast_mul _ _⟩
    · simp only [DimOK]; rw [run_dim op c (fun m h => hm ⟨m, h⟩)]; exact h
  | _ => trivial

private theorem ops_inv {n : NewComp K} {c : Comp K} (hn : n.run = .ok c) (ops : List (CompOp K)) :
    (runOps c ops).attrs.kind.tag = classOf n ∧ DimOK n (runOps c ops).attrs :=
  runOps_induct (P := fun c => c.attrs.kind.tag = classOf n ∧ DimOK n c.attrs) ⟨new_class hn, dimOK_new hn⟩
    (fun op c h => ⟨(run_tag op c).trans h.1, dimOK_run op c h.1 h.2⟩) ops

/-- **C89** After any history, a setter returns normally exactly when its argument fits the component. -/
theorem C89_setter {n : NewComp K} {c0 : Comp K} (hn : n.run = .ok c0) (ops : List (CompOp K)) (op : CompOp K)
    (hop : IsSetter op) :
    (op.run (runOps c0 ops)).1 = .ok () ↔ SetterAccepts n (getDim (runOps c0 ops).attrs) op := by
  obtain ⟨ht, hd⟩ := ops_inv hn ops
  generalize runOps c0 ops = c at ht hd
  cases op with
  | updateModel m => exact hop.elim
  | readMask => exact hop.elim
  | compile => exact hop.elim
  | updateGain g =>
    simp only [CompOp.run, updateGain, SetterAccepts]
    by_cases h : g.ndim > 1
    · rw [if_pos h]; exact iff_of_false (by simp) (not_le.2 h)
    · rw [if_neg h]; exact iff_of_true rfl (not_lt.1 h)
  | updateCost w =>
    simp only [CompOp.run, updateCost, SetterAccepts]
    have h2 : w.shape.length ≤ 2 ↔ ¬ w.ndim > 2 := not_lt.symm
    rw [h2]
    by_cases h : w.ndim > 2 <;>
    cases n <;> cases hk : c.attrs.kind <;> rw [hk] at ht <;> (try (cases ht; done)) <;>
        simp [Kind.taskA?, MakesTask, h]
  | updateTarget x =>
    cases n <;> cases hk : c.attrs.kind <;> rw [hk] at ht <;> (try (cases ht; done)) <;>
      simp only [CompOp.run, updateTarget, SetterAccepts, hk, DimOK, ← lastDim_iff] at hd ⊢ <;>
      (try (simp; done))
    · rw [hd]; cases hx : x.lastDim with
      | error e => simp
      | ok k => simp only [Except.ok.injEq]; split <;> simp_all
    · by_cases hdim : c.attrs.dim = -1
      · simp [hdim, getDim]
      · obtain ⟨k, hk'⟩ := hd.resolve_left hdim
        have h0 : ¬ ((k : Int) = -1) := by omega
        have h1 : getDim c.attrs = .ok (k : Int) := by unfold getDim; rw [if_neg hdim, hk']
        rw [if_neg hdim, h1, hk']
        cases hx : x.lastDim with
        | error e => simp
        | ok j =>
          by_cases hj : j = k
          · simp [hj]
          · simp [hj]
    · rw [hd]; cases hx : x.lastDim with
      | error e => simp
      | ok k => simp only [Except.ok.injEq]; split <;> simp_all
  | updateTargetFrame x =>
    cases n <;> cases hk : c.attrs.kind <;> rw [hk] at ht <;> (try (cases ht; done)) <;>
      cases x <;> simp only [CompOp.run, updateTargetFrame, SetterAccepts, hk, ← lastDim_iff] <;>
      (try (simp; done))
    rename_i a
    cases hx : a.lastDim with
    | error e => simp
    | ok k => simp only [Except.ok.injEq]; split <;> simp_all
  | updateQLimit u x =>
    cases n <;> cases hk : c.attrs.kind <;> rw [hk] at ht <;> (try (cases ht; done)) <;>
      simp only [CompOp.run, updateQLimit, SetterAccepts, hk, DimOK, ← lastDim_iff] at hd ⊢ <;>
      (try (simp; done))
    cases hx : x.lastDim with
    | error e => simp
    | ok j =>
      simp only [getDim]
      rcases hd with hd | ⟨k, hd⟩
      · simp [hd]
      · have h1 : ((2 * k : Int) = -1) = False := by simp; omega
        simp only [hd, h1, if_false]
        have h2 : (2 * (k : Int)) / 2 = k := by omega
        rw [h2]
        by_cases hjk : j = k
        · subst hjk
          cases u <;> simp
        · rw [if_pos (by simpa using hjk)]
          simp only [reduceCtorEq, Except.ok.injEq, false_iff, not_exists, not_and]
          intro i hi; omega
  | updatePLimit u x =>
    cases n <;> cases hk : c.attrs.kind <;> rw [hk] at ht <;> (try (cases ht; done)) <;>
      simp only [CompOp.run, updatePLimit, SetterAccepts, hk, DimOK] at hd ⊢ <;>
      (try (simp; done))
    rename_i s o lo hi lt li
    rw [hd.2, ← newPositionBound_iff (if u then lt.includesMax else lt.includesMin)]
    cases newPositionBound (if u then lt.includesMax else lt.includesMin) _ x with
    | error e => simp
    | ok p => cases p <;> cases u <;> simp
  | _ =>
    cases n <;> cases hk : c.attrs.kind <;> rw [hk] at ht <;> (try (cases ht; done)) <;>
      simp [CompOp.run, setLmDamping, setSafeDisplacementGain, setActive, setHard, setDMin, setNClosest,
        setCollisionBodies, SetterAccepts, hk, Kind.taskA?, Kind.isBarrier, MakesTask, MakesBarrier]

private theorem joint_kind {a : TaskArgs K} {fm : Option (List Int)} {c0 : Comp K} (hn : newJointTask a fm = .ok c0)
    (ops : List (CompOp K)) : ∃ t tq qi, (runOps c0 ops).attrs.kind = .jointTask t fm tq qi := by
  have h1 : (runOps c0 ops).attrs.kind.finalMask? = some fm :=
    runOps_induct (P := fun c => c.attrs.kind.finalMask? = some fm)
      (by obtain ⟨t, at0, _, h, rfl⟩ := newJointTask_ok hn; obtain ⟨_, m, idxs, h1, rfl⟩ := initAttrs_ok h; rfl)
      (fun op c h => (run_fm op c).trans h) ops
  have h2 := (ops_inv (n := .jointTask a fm) hn ops).1
  revert h1 h2
  cases (runOps c0 ops).attrs.kind <;> intro h1 h2 <;> (try (cases h2; done))
  cases h1; exact ⟨_, _, _, rfl⟩

private theorem jointBarrier_kind {a : BarrierArgs K} {lo hi : Option (Arr K)} {fm : Option (List Int)} {c0 : Comp K}
    (hn : newJointBarrier a lo hi fm = .ok c0) (ops : List (CompOp K)) :
    ∃ s lo hi qi, (runOps c0 ops).attrs.kind = .jointBarrier s fm lo hi qi := by
  have h1 : (runOps c0 ops).attrs.kind.finalMask? = some fm :=
    runOps_induct (P := fun c => c.attrs.kind.finalMask? = some fm)
      (by obtain ⟨at0, h, rfl⟩ := newJointBarrier_ok hn; obtain ⟨_, m, idxs, h1, rfl⟩ := initAttrs_ok h; rfl)
      (fun op c h => (run_fm op c).trans h) ops
  have h2 := (ops_inv (n := .jointBarrier a lo hi fm) hn ops).1
  revert h1 h2
  cases (runOps c0 ops).attrs.kind <;> intro h1 h2 <;> (try (cases h2; done))
  cases h1; exact ⟨_, _, _, _, rfl⟩

/-- **C89** A centre of mass task accepts every model. -/
theorem C89_bind_com {a : TaskArgs K} {c0 : Comp K} (hn : (NewComp.comTask a).run = .ok c0) (ops : List (CompOp K))
    (m : MjModel K) : (updateModel m (runOps c0 ops)).1 = .ok () := by
  have h := (ops_inv hn ops).1
  unfold updateModel
  cases hk : (runOps c0 ops).attrs.kind <;> rw [hk] at h <;> first | rfl | cases h

/-- **C89** After any history, a joint task accepts a model exactly when its mask (if given) has one entry per scalar
joint and its target (if there is one already) has one entry per selected joint. -/
theorem C89_bind_joint_task {a : TaskArgs K} {fm : Option (List Int)} {c0 : Comp K}
    (hn : newJointTask a fm = .ok c0) (ops : List (CompOp K)) {m : MjModel K} (hw : JointsWF m) :
    (updateModel m (runOps c0 ops)).1 = .ok () ↔
      (∀ f, fm = some f → f.length = (scalarJoints m).length) ∧
      ∀ x, targetQ (runOps c0 ops) = some x → LastAxis x (selectedJoints m fm).length := by
  obtain ⟨t, tq, qi, hk⟩ := joint_kind hn ops
  generalize runOps c0 ops = c at hk
  obtain ⟨s1, s2⟩ := applyFinalMask_spec hw fm
  have ht : targetQ c = tq := by unfold targetQ; rw [hk]
  rw [ht]
  by_cases hf : ∀ f, fm = some f → f.length = (scalarJoints m).length
  · obtain ⟨mk, e1, e2, -⟩ := s2 hf
    have hl : (nonzeroIdxs mk.1).length = (selectedJoints m fm).length := by rw [e2, List.length_map]
    rw [and_iff_right hf]
    simp only [updateModel, hk, updateModelJointTask, e1, hl, ← lastDim_iff]
    cases tq with
    | none => simp
    | some x =>
      simp only [Option.some.injEq, forall_eq']
      cases x.lastDim with
      | error e => simp
      | ok k => by_cases hk : k = (selectedJoints m fm).length <;> simp [hk]
  · rw [iff_false_right (fun h => hf h.1)]
    push Not at hf
    obtain ⟨f, hf1, hf2⟩ := hf
    simp [updateModel, hk, updateModelJointTask, s1 f hf1 hf2]

/-- **C89** After any history, a joint barrier accepts a model exactly when its mask (if given) has one entry per scalar
joint and, unless both limits were given, every scalar joint is selected. -/
theorem C89_bind_joint_barrier [IsStrictOrderedRing K] {a : BarrierArgs K} {lo hi : Option (Arr K)} {fm : Option (List Int)} {c0 : Comp K}
    (hn : newJointBarrier a lo hi fm = .ok c0) (ops : List (CompOp K)) {m : MjModel K} (hw : JointsWF m) :
    (updateModel m (runOps c0 ops)).1 = .ok () ↔
      (∀ f, fm = some f → f.length = (scalarJoints m).length) ∧
      (qMin (runOps c0 ops) = none ∨ qMax (runOps c0 ops) = none →
        (selectedJoints m fm).length = (scalarJoints m).length) := by
  obtain ⟨s, lo, hi, qi, hk⟩ := jointBarrier_kind hn ops
  generalize runOps c0 ops = c at hk
  obtain ⟨s1, s2⟩ := applyFinalMask_spec hw fm
  have h1 : qMin c = lo := by unfold qMin; rw [hk]
  have h2 : qMax c = hi := by unfold qMax; rw [hk]
  rw [h1, h2]
  by_cases hf : ∀ f, fm = some f → f.length = (scalarJoints m).length
  · obtain ⟨mk, e1, e2, -⟩ := s2 hf
    have hl : (nonzeroIdxs mk.1).length = (selectedJoints m fm).length := by rw [e2, List.length_map]
    have hr : ∀ u, (scalarRange m u).length = (scalarJoints m).length := by
      intro u; rw [scalarRange_eq hw]; simp
    have g1 : ¬ (((2 * (selectedJoints m fm).length : Nat) : Int) = -1) := by omega
    have g2 : ((2 * (selectedJoints m fm).length : Nat) : Int) / 2 = ((selectedJoints m fm).length : Int) := by omega
    have g3 : ((scalarJoints m).length : Int) = ((selectedJoints m fm).length : Int) ↔
      (selectedJoints m fm).length = (scalarJoints m).length := by omega
    have g4 : ¬ (2 * ((scalarJoints m).length : Int) = -1) := by omega
    rw [and_iff_right hf]
    cases lo <;> cases hi <;>
      simp only [updateModel, hk, updateModelJointBarrier, e1, fillLimit, updateQLimit, Comp.set, getDim, Arr.lastDim,
        Arr.ofList0, List.getLast?_singleton, hr, hl, g1, g2, g3, if_false, ne_eq, Bool.false_eq_true, if_true] <;>
      by_cases hs : (selectedJoints m fm).length = (scalarJoints m).length <;> simp [hs, g4]
  · rw [iff_false_right (fun h => hf h.1)]
    push Not at hf
    obtain ⟨f, hf1, hf2⟩ := hf
    have : (updateModel m c) = updateModelJointBarrier m s fm lo hi qi c := by unfold updateModel; rw [hk]
    rw [this, updateModelJointBarrier_err_mask (s1 f hf1 hf2)]
    simp

/-- **C89** After any history, an equality constraint accepts a model exactly when all its equalities are of a
supported type (connect, weld or joint). -/
theorem C89_bind_equality {name : String} {gain : Arr K} {hard : Bool} {soft : Option (Arr K)} {c0 : Comp K}
    (hn : newModelEquality name gain hard soft = .ok c0) (ops : List (CompOp K)) (m : MjModel K) :
    (updateModel m (runOps c0 ops)).1 = .ok () ↔ ∀ e ∈ m.eqType, e = .connect ∨ e = .weld ∨ e = .joint := by
  have h := (ops_inv (n := .modelEquality name gain hard soft) hn ops).1
  have hu : updateModel m (runOps c0 ops) = updateModelEquality m (runOps c0 ops) := by
    unfold updateModel
    cases hk : (runOps c0 ops).attrs.kind <;> rw [hk] at h <;> first | rfl | cases h
  have hc : ∀ es : List EqType, (∃ k, countEqRows es = .ok k) ↔ ∀ e ∈ es, e = .connect ∨ e = .weld ∨ e = .joint := by
    intro es
    induction es with
    | nil => simp [countEqRows]
    | cons e es ih =>
      rw [List.forall_mem_cons, ← ih]
      cases e <;> simp only [countEqRows] <;> cases countEqRows es <;> simp [Except.map]
  rw [hu, ← hc]
  unfold updateModelEquality
  cases countEqRows m.eqType <;> simp

/-- **C89** A problem is created exactly when both velocity limits are numbers or vectors with one entry per degree of
freedom. -/
theorem C89_new_problem (m : MjModel K) (lo hi : Arr K) :
    (∃ P, newProb m lo hi = .ok P) ↔ VelLimit m.nv lo ∧ VelLimit m.nv hi := by
  have key : ∀ v : Arr K, (∃ x, expandVel m.nv v = .ok x) ↔ VelLimit m.nv v := by
    intro v
    unfold expandVel VelLimit
    match hs : v.shape with
    | [] => simp
    | [k] => by_cases hk : k = m.nv <;> simp [hk]
    | _ :: _ :: _ => simp
  rw [← key, ← key]
  unfold newProb
  cases expandVel m.nv lo <;> cases expandVel m.nv hi <;> simp

/-- **C89** The dimension a fixed-axes component reports, after any history: the number of selected axes, for a position
barrier once per limited side. -/
theorem C89_dim {n : NewComp K} {c0 : Comp K} (hn : n.run = .ok c0) (ops : List (CompOp K)) :
    match n with
    | .comTask a | .positionTask a _ _ => getDim (runOps c0 ops).attrs = .ok (chosenAxes 3 a.mask : Int)
    | .frameTask a _ _ => getDim (runOps c0 ops).attrs = .ok (chosenAxes 6 a.mask : Int)
    | .positionBarrier _ _ _ _ _ s mask =>
      getDim (runOps c0 ops).attrs = .ok ((if s = "both" then 2 * chosenAxes 3 mask else chosenAxes 3 mask : Nat) : Int)
    | _ => True := by
  have hg : ∀ (k : Nat) (a : Attrs K), a.dim = k → getDim a = .ok (k : Int) := by
    intro k a h
    unfold getDim; rw [if_neg (by omega), h]
  have hfix : ∀ (k : Nat), FixedAxes c0.attrs.kind → c0.attrs.dim = k → getDim (runOps c0 ops).attrs = .ok (k : Int) := by
    intro k hf hk
    refine hg k _ (runOps_induct (P := fun c => FixedAxes c.attrs.kind ∧ c.attrs.dim = k) ⟨hf, hk⟩ ?_ ops).2
    intro op c ⟨h1, h2⟩
    refine ⟨?_, (run_mask_fixed op c h1).1.trans h2⟩
    have := run_tag op c
    revert this
    cases hk : c.attrs.kind <;> rw [hk] at h1 <;> simp only [FixedAxes] at h1 <;>
      cases (op.run c).2.attrs.kind <;> intro h <;> first | trivial | cases h
  cases n <;> simp only [NewComp.run] at hn ⊢
  case comTask a =>
    exact hg _ _ (ops_inv (n := .comTask a) hn ops).2
  case positionTask a on ot =>
    exact hg _ _ (ops_inv (n := .positionTask a on ot) hn ops).2
  case frameTask a on ot =>
    obtain ⟨t, at0, _, h, rfl⟩ := newFrameTask_ok hn
    obtain ⟨_, m, idxs, h1, rfl⟩ := initAttrs_ok h
    refine hfix _ trivial ?_
    simp only [Comp.fresh, Int.natCast_inj]
    exact initMask_axes 6 h1
  case positionBarrier a on ot lo hi s mask =>
    obtain ⟨at0, lt, lo, hi, h, h2, h3, h4, rfl⟩ := newPositionBarrier_ok hn
    obtain ⟨_, m, idxs, h1, rfl⟩ := initAttrs_ok h
    refine hfix _ trivial ?_
    have hax := barrierAxes h1
    simp only [Comp.fresh, Int.natCast_inj, hax]
    have hs : (s = "min" ∧ lt = .min) ∨ (s = "max" ∧ lt = .max) ∨ (s = "both" ∧ lt = .both) := by
      rcases (limitTypeArg_iff s).1 ⟨lt, h2⟩ with rfl | rfl | rfl
      · have : limitTypeArg "min" = .ok .min := by decide +kernel
        rw [this] at h2; cases h2; simp
      · have : limitTypeArg "max" = .ok .max := by decide +kernel
        rw [this] at h2; cases h2; simp
      · have : limitTypeArg "both" = .ok .both := by decide +kernel
        rw [this] at h2; cases h2; simp
    rcases hs with ⟨rfl, rfl⟩ | ⟨rfl, rfl⟩ | ⟨rfl, rfl⟩ <;> simp [limitIdxsOf]

/-! Examples: a matrix cost and a batched target are accepted by a position task that is restricted to two axes, a
scalar target is not; a joint barrier refuses limits before it has a model. -/
example : ∃ c0, (NewComp.positionTask { Ex.taskArgs with mask := some (Arr.ofList [1, 0, 1]) } "hand" .body).run = .ok c0 ∧
    chosenAxes 3 (some (Arr.ofList [1, 0, 1])) = 2 ∧
    ((CompOp.updateCost ⟨[2, 2], fun _ => 1⟩ : CompOp ℚ).run c0).1 = .ok () ∧
    ((CompOp.updateTarget ⟨[5, 2], fun _ => 1⟩ : CompOp ℚ).run c0).1 = .ok () ∧
    ((CompOp.updateTarget ⟨[], fun _ => 1⟩ : CompOp ℚ).run c0).1 ≠ .ok () := by
  refine ⟨_, rfl, by decide, rfl, rfl, ?_⟩
  intro h; cases h
example : ∃ c0, newJointBarrier Ex.barrierArgs none none none = .ok c0 ∧
    ((CompOp.updateQLimit false ⟨[2], fun _ => 1⟩ : CompOp ℚ).run c0).1 ≠ .ok () ∧
    ((CompOp.updateQLimit false ⟨[2], fun _ => 1⟩ : CompOp ℚ).run (runOps c0 [.updateModel Ex.model])).1 = .ok () := by
  refine ⟨_, rfl, ?_, rfl⟩
  intro h; cases h
example : NewAccepts (.comTask (K := ℚ) { Ex.taskArgs with mask := some (Arr.ofList [1, 0, 1]) }) ∧
    ¬ NewAccepts (.comTask (K := ℚ) { Ex.taskArgs with mask := some (Arr.ofList [1, 0]) }) := by
  constructor
  · refine (C89_new _).1 ⟨_, rfl⟩
  · rintro ⟨-, h⟩
    exact absurd (h _ rfl) (by decide)

end Mjinx.Props
