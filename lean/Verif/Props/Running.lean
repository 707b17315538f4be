import Verif.Spec.Running
import Verif.Props.Steer
import Verif.Props.Follow

/-!
# Control loops that keep running

Property C117.
-/

namespace Mjinx.Props
open Spec
set_option linter.unusedSectionVars false
variable {K : Type} [Field K] [LinearOrder K]

/-- `Usable` for the attributes of a component. -/
private def UsableA (env : Env K) (a : Attrs K) : Prop :=
  match a.kind with
  | .comTask _ x => x.shape.length = 1
  | .jointTask _ _ x _ => ∀ y, x = some y → y.shape.length = 1
  | .positionTask _ o x => x.shape.length = 1 ∧ o.objType ≠ .other
  | .frameTask _ o x => x.shape = [7] ∧ o.objType ≠ .other
  | .jointBarrier _ _ lo hi qi => (∀ l q, lo = some l → qi = some q → FitsVec l q.length) ∧ ∀ h q, hi = some h → qi = some q → FitsVec h q.length
  | .positionBarrier _ o lo hi _ _ => lo.shape.length = 1 ∧ hi.shape.length = 1 ∧ o.objType ≠ .other
  | .selfCollision _ _ _ _ n ps => n = a.dim ∧ ∀ q, ps = some q → q ≠ [] ∧ n ≤ q.length ∧
      ∀ m, a.model = some m → ∀ d, ∀ g ∈ q, HasFunction (env.collide m d) m g
  | .modelEquality .. => True

private theorem usable_iff {env : Env K} {a : Attrs K} {j : JaxComp K} (h : CompilesTo a j) : Usable env j ↔ UsableA env a := by
  have hK := h.kind
  have hm := h.model
  have hd := h.dim
  unfold Usable UsableA
  cases hk : a.kind <;> rw [hk] at hK <;> cases hj : j.kind <;> rw [hj] at hK <;> simp only [KindOf] at hK <;> dsimp only
  case comTask.comTask => rw [hK.2.2]
  case jointTask.jointTask => obtain ⟨-, -, rfl, -⟩ := hK; simp
  case positionTask.positionTask => obtain ⟨-, -, -, rfl, rfl⟩ := hK; rfl
  case frameTask.frameTask => obtain ⟨-, -, -, rfl, rfl⟩ := hK; rfl
  case jointBarrier.jointBarrier => obtain ⟨-, rfl, rfl, rfl⟩ := hK; simp
  case positionBarrier.positionBarrier => obtain ⟨-, -, rfl, rfl, rfl, -⟩ := hK; rfl
  case selfCollision.selfCollision => obtain ⟨-, -, rfl, rfl⟩ := hK; rw [hd, hm]; simp

/-- What a call on a component of the loop keeps of it. -/
private structure Same (a b : Attrs K) : Prop where
  dim : b.dim = a.dim
  model : b.model = a.model
  tag : b.kind.tag = a.kind.tag
  qi : ∀ s fm lo hi qi, a.kind = .jointBarrier s fm lo hi qi → ∃ s' lo' hi', b.kind = .jointBarrier s' fm lo' hi' qi

private theorem Same.refl (a : Attrs K) : Same a a := ⟨rfl, rfl, rfl, fun s _ lo hi _ h => ⟨s, lo, hi, h⟩⟩

private theorem Same.trans {a b c : Attrs K} (h1 : Same a b) (h2 : Same b c) : Same a c := by
  refine ⟨h2.dim.trans h1.dim, h2.model.trans h1.model, h2.tag.trans h1.tag, fun s fm lo hi qi h => ?_⟩
  obtain ⟨s', lo', hi', h'⟩ := h1.qi s fm lo hi qi h
  exact h2.qi _ _ _ _ _ h'

private theorem same_run (op : CompOp K) (c : Comp K) (h : ∀ m, op ≠ .updateModel m) : Same c.attrs (op.run c).2.attrs := by
  refine ⟨run_dim op c h, run_model op c h, run_tag op c, fun s fm lo hi qi hk => ?_⟩
  have := run_kindStep op c h
  generalize (op.run c).2.attrs.kind = k at this
  cases this <;> simp_all [Kind.setTaskA, Kind.setSdg]

private theorem run_gain {op : CompOp K} (c : Comp K) (hg : ∀ g, op ≠ .updateGain g) (hu : ∀ m, op ≠ .updateModel m) :
    (op.run c).2.attrs.gain = c.attrs.gain := by
  cases op <;> simp only [CompOp.run]
  case updateGain g => exact absurd rfl (hg g)
  case updateModel m => exact absurd rfl (hu m)
  case updateCost => unfold updateCost; repeat' split
                     all_goals rfl
  case setLmDamping => unfold setLmDamping; repeat' split
                       all_goals rfl
  case setSafeDisplacementGain => unfold setSafeDisplacementGain; repeat' split
                                  all_goals rfl
  case updateTarget => unfold updateTarget; repeat' split
                       all_goals rfl
  case updateTargetFrame => unfold updateTargetFrame; repeat' split
                            all_goals rfl
  case updateQLimit => exact updateQLimit_gain _ _ _
  case updatePLimit => unfold updatePLimit; repeat' split
                       all_goals rfl
  case setActive => unfold setActive; repeat' split
                    all_goals rfl
  case setHard => unfold setHard; repeat' split
                  all_goals rfl
  case setDMin => unfold setDMin; repeat' split
                  all_goals rfl
  case setNClosest => unfold setNClosest; repeat' split
                      all_goals rfl
  case setCollisionBodies => unfold setCollisionBodies; repeat' split
                             all_goals rfl
  case readMask => rcases maskFill_ensureMask c with h | ⟨_, _, h⟩ <;> rw [h]
  case compile => rcases maskFill_jaxComponent c with h | ⟨_, _, h⟩ <;> rw [h]

/-- The cost a component is compiled with. -/
private def costOf? : Kind K → Option (Arr K)
  | .comTask t _ | .jointTask t _ _ _ | .positionTask t _ _ | .frameTask t _ _ => some t.cost
  | .modelEquality _ _ soft => soft
  | .jointBarrier .. | .positionBarrier .. | .selfCollision .. => none

private theorem complete_iff (a : Attrs K) : Complete a ↔ a.model ≠ none ∧ 0 ≤ a.dim ∧ GainFits a.dim.toNat a.gain ∧
    ∀ w, costOf? a.kind = some w → CostFits a.dim.toNat w := by
  constructor
  · intro h
    refine ⟨h.bound, h.dim, h.gain, ?_⟩
    have := h.cost
    cases hk : a.kind <;> rw [hk] at this <;> simp_all [costOf?]
  · rintro ⟨h1, h2, h3, h4⟩
    refine ⟨h1, h2, h3, ?_⟩
    cases hk : a.kind <;> rw [hk] at h4 <;> simp_all [costOf?]

private theorem setTaskA_cost {k : Kind K} {t t' : TaskA K} (h : k.taskA? = some t) :
    costOf? k = some t.cost ∧ costOf? (k.setTaskA t') = some t'.cost := by
  cases k <;> cases h <;> exact ⟨rfl, rfl⟩

private theorem run_cost (op : CompOp K) (c : Comp K) (hu : ∀ m, op ≠ .updateModel m) :
    costOf? (op.run c).2.attrs.kind = costOf? c.attrs.kind ∨
      ∃ w, op = .updateCost w ∧ w.shape.length ≤ 2 ∧ costOf? (op.run c).2.attrs.kind = some w := by
  cases op <;> simp only [CompOp.run]
  case updateModel m => exact absurd rfl (hu m)
  case updateGain => unfold updateGain; left; split <;> rfl
  case updateCost w =>
    unfold updateCost
    split
    · exact .inl rfl
    · rename_i t ht
      split
      · exact .inl rfl
      · rename_i hn
        exact .inr ⟨w, rfl, not_lt.1 hn, (setTaskA_cost ht).2⟩
  case setLmDamping =>
    unfold setLmDamping
    left
    split
    · rfl
    · rename_i t ht
      exact (setTaskA_cost ht).2.trans (setTaskA_cost (t' := t) ht).1.symm
  case setSafeDisplacementGain =>
    unfold setSafeDisplacementGain
    left
    split
    · cases hk : c.attrs.kind <;> simp only [Comp.set] <;> rfl
    · rfl
  case readMask => left; rcases maskFill_ensureMask c with h | ⟨_, _, h⟩ <;> rw [h]
  case compile => left; rcases maskFill_jaxComponent c with h | ⟨_, _, h⟩ <;> rw [h]
  case updateTarget => left; unfold updateTarget; repeat' split
                       all_goals first | rfl | simp_all [Comp.set, costOf?]
  case updateTargetFrame => left; unfold updateTargetFrame; repeat' split
                            all_goals first | rfl | simp_all [Comp.set, costOf?]
  case updateQLimit => left; unfold updateQLimit; repeat' split
                       all_goals first | rfl | simp_all [Comp.set, costOf?]
  case updatePLimit => left; unfold updatePLimit; repeat' split
                       all_goals first | rfl | simp_all [Comp.set, costOf?]
  case setActive => left; unfold setActive; repeat' split
                    all_goals first | rfl | simp_all [Comp.set, costOf?]
  case setHard => left; unfold setHard; repeat' split
                  all_goals first | rfl | simp_all [Comp.set, costOf?]
  case setDMin => left; unfold setDMin; repeat' split
                  all_goals first | rfl | simp_all [Comp.set, costOf?]
  case setNClosest => left; unfold setNClosest; repeat' split
                      all_goals first | rfl | simp_all [Comp.set, costOf?]
  case setCollisionBodies => left; unfold setCollisionBodies; repeat' split
                             all_goals first | rfl | simp_all [Comp.set, costOf?]

private theorem complete_run {op : CompOp K} {c : Comp K} (hf : FitsRows c.attrs.dim.toNat op) (h : Complete c.attrs) :
    Complete (op.run c).2.attrs := by
  have hu : ∀ m, op ≠ .updateModel m := by rintro m rfl; exact hf
  have hs := same_run op c hu
  rw [complete_iff] at h ⊢
  obtain ⟨h1, h2, h3, h4⟩ := h
  rw [hs.model, hs.dim]
  refine ⟨h1, h2, ?_, ?_⟩
  · by_cases hg : ∃ g, op = .updateGain g
    · obtain ⟨g, rfl⟩ := hg
      simp only [CompOp.run]
      unfold updateGain
      split
      · exact h3
      · rename_i hn
        exact hf (not_lt.1 hn)
    · rw [run_gain c (fun g e => hg ⟨g, e⟩) hu]
      exact h3
  · rcases run_cost op c hu with e | ⟨w, rfl, hl, e⟩
    · rw [e]; exact h4
    · rw [e]; intro w' hw'; cases hw'; exact hf hl

/-- Arrays with at most one axis that have a last axis have one. -/
private theorem one_axis {x : Arr K} {n : Nat} (h : x.lastDim = .ok n) (hl : x.shape.length ≤ 1) : x.shape = [n] := by
  unfold Arr.lastDim at h
  match hs : x.shape, hl with
  | [], _ => rw [hs] at h; cases h
  | [k], _ => rw [hs] at h; cases h; rfl

private theorem bound_axis {b : Bool} {n : Nat} {x p : Arr K} (h : newPositionBound b n x = .ok (some p)) (hl : x.shape.length ≤ 1) :
    p.shape.length = 1 := by
  unfold newPositionBound at h
  split at h
  · split at h
    · cases h; rfl
    · cases h
  · rename_i k hk
    split at h
    · cases h
    · split at h
      · cases h
        match hs : x.shape, hl with
        | [], _ => rw [hs] at hk; cases hk
        | [k], _ => rfl
      · cases h

/-- Joint barriers have two rows per joint. -/
private theorem barrier_dim {c : Comp K} (hcl : CleanComp c) {m : MjModel K} (hw : JointsWF m) (hm : c.attrs.model = some m) {s : K}
    {fm : Option (List Int)} {lo hi : Option (Arr K)} {qi : Option (List Nat)} (hk : c.attrs.kind = .jointBarrier s fm lo hi qi) :
    ∃ q, qi = some q ∧ c.attrs.dim = ((2 * q.length : Nat) : Int) := by
  obtain ⟨n, c0, hn, hr⟩ := hcl
  have hJ := hr.jInv (jInv_new hn) m hm
  unfold JInvAt at hJ
  rw [hk] at hJ
  obtain ⟨mk, h1, -, -, h4, h5, -⟩ := hJ
  have hs := applyFinalMask_spec hw fm
  have hlen : ∀ f, fm = some f → f.length = (scalarJoints m).length := by
    intro f hf
    by_contra hne
    rw [hs.1 f hf hne] at h1
    cases h1
  obtain ⟨mk', h1', h2', h3'⟩ := hs.2 hlen
  rw [h1] at h1'; cases h1'
  refine ⟨_, h5, ?_⟩
  rw [h4, h2', h3', List.length_map, List.length_map]

private theorem usable_kind {env : Env K} {a b : Attrs K} (hd : b.dim = a.dim) (hm : b.model = a.model) (hk : b.kind = a.kind) (h : UsableA env a) :
    UsableA env b := by
  unfold UsableA at h ⊢
  rw [hk, hd, hm]
  exact h

private theorem usable_run {env : Env K} {m : MjModel K} (hw : JointsWF m) {op : CompOp K} {c : Comp K} (hcl : CleanComp c)
    (hm : c.attrs.model = some m) (hf : FitsRows c.attrs.dim.toNat op) (hd : 0 ≤ c.attrs.dim) (h : UsableA env c.attrs) :
    UsableA env (op.run c).2.attrs := by
  have hu : ∀ m, op ≠ .updateModel m := by rintro m rfl; exact hf
  have hs := same_run op c hu
  cases op <;> simp only [CompOp.run]
  case updateModel m => exact absurd rfl (hu m)
  case updateGain => unfold updateGain; split
                     all_goals exact usable_kind rfl rfl rfl h
  case updateCost =>
    unfold updateCost; repeat' split
    · exact h
    · exact h
    · unfold UsableA at h ⊢
      cases hk : c.attrs.kind <;> rw [hk] at h <;> simp only [Comp.set, Kind.setTaskA] <;> exact h
  case setLmDamping =>
    unfold setLmDamping; split
    · exact h
    · unfold UsableA at h ⊢
      cases hk : c.attrs.kind <;> rw [hk] at h <;> simp only [Comp.set, Kind.setTaskA] <;> exact h
  case setSafeDisplacementGain =>
    unfold setSafeDisplacementGain; split
    · unfold UsableA at h ⊢
      cases hk : c.attrs.kind <;> rw [hk] at h <;> simp only [Comp.set, Kind.setSdg] <;> exact h
    · exact h
  case updateTarget x =>
    unfold updateTarget
    split
    · rename_i hk
      split
      · exact h
      · rename_i n hn
        split
        · exact h
        · show x.shape.length = 1
          rw [one_axis hn hf]; rfl
    · rename_i hk
      split
      · exact h
      · rename_i n hn
        split
        · exact h
        · unfold UsableA at h
          rw [hk] at h
          refine ⟨?_, h.2⟩
          rw [one_axis hn hf]; rfl
    · rename_i hk
      split
      · rename_i h1; omega
      · split
        · exact h
        · rename_i n hn
          split
          · exact h
          · intro y hy
            cases hy
            rw [one_axis hn hf]; rfl
    · exact h
  case updateTargetFrame x =>
    unfold updateTargetFrame
    split
    · rename_i hk
      unfold UsableA at h
      rw [hk] at h
      split
      · exact ⟨hf, h.2⟩
      · rename_i a
        split
        · unfold UsableA; rw [hk]; exact h
        · rename_i n hn
          split
          · unfold UsableA; rw [hk]; exact h
          · rename_i h7
            refine ⟨?_, h.2⟩
            show a.shape = [7]
            rw [one_axis hn hf, not_not.1 h7]
    · exact h
  case updateQLimit u x =>
    unfold updateQLimit
    split
    · rename_i s fm lo hi qi hk
      obtain ⟨q, rfl, hdim⟩ := barrier_dim hcl hw hm hk
      split
      · exact h
      · rename_i n hn
        unfold getDim
        rw [if_neg (by omega)]
        dsimp only
        split
        · exact h
        · rename_i hne
          have hx : x.shape = [q.length] := by
            rw [one_axis hn hf]
            have : (n : Int) = c.attrs.dim / 2 := not_not.1 hne
            congr 1
            omega
          unfold UsableA at h
          rw [hk] at h
          split
          · refine ⟨h.1, fun l q' hl hq' => ?_⟩
            cases hl; cases hq'
            exact .inr (.inr hx)
          · refine ⟨fun l q' hl hq' => ?_, h.2⟩
            cases hl; cases hq'
            exact .inr (.inr hx)
    · exact h
  case updatePLimit u x =>
    unfold updatePLimit
    split
    · rename_i hk
      split
      · exact h
      · exact h
      · rename_i p hp
        unfold UsableA at h
        rw [hk] at h
        split
        · exact ⟨h.1, bound_axis hp hf, h.2.2⟩
        · exact ⟨bound_axis hp hf, h.2⟩
    · exact h
  case setActive => unfold setActive; split
                    · trivial
                    · exact h
  case setHard => unfold setHard; split
                  · trivial
                  · exact h
  case setDMin => unfold setDMin; split
                  · rename_i hk; unfold UsableA at h ⊢; rw [hk] at h; exact h
                  · exact h
  case setNClosest k =>
    unfold setNClosest
    split
    · rename_i hk
      unfold UsableA at h ⊢
      rw [hk] at h
      have : k = c.attrs.dim := by
        have : k = (c.attrs.dim.toNat : Int) := hf
        omega
      dsimp only [Comp.set]
      rw [this]
      rw [h.1] at h
      exact ⟨rfl, h.2⟩
    · exact h
  case setCollisionBodies => unfold setCollisionBodies; split
                             · rename_i hk; unfold UsableA at h ⊢; rw [hk] at h; exact h
                             · exact h
  case readMask =>
    rcases maskFill_ensureMask c with e | ⟨_, _, e⟩ <;> rw [e]
    · exact h
    · exact usable_kind rfl rfl rfl h
  case compile =>
    rcases maskFill_jaxComponent c with e | ⟨_, _, e⟩ <;> rw [e]
    · exact h
    · exact usable_kind rfl rfl rfl h

/-- What the loop keeps. -/
private def Loop (env : Env K) (m : MjModel K) (p : Nat) (w0 w : World K) : Prop :=
  ∃ P, w.probs[p]? = some P ∧ P.model = m ∧ ∀ ni ∈ P.comps, IsPartOf p w0 ni.2 ∧ ∃ c c0, w.comps[ni.2]? = some c ∧ w0.comps[ni.2]? = some c0 ∧
    Same c0.attrs c.attrs ∧ c.attrs.model = some m ∧ Complete c.attrs ∧ UsableA env c.attrs

private theorem loop_of_ready {env : Env K} {m : MjModel K} {p : Nat} {w : World K} (hcw : CleanWorld w) (h : Ready env m p w) :
    Loop env m p w w := by
  obtain ⟨J, hJ, hJm, hall⟩ := h
  obtain ⟨ops, rfl, hcl⟩ := hcw
  obtain ⟨P, hP, hcomplete⟩ := (C102_problem hcl p).1 ⟨J, hJ⟩
  obtain ⟨P', hP', hm, -, -, hF⟩ := compile_comps ⟨ops, rfl⟩ hJ
  rw [hP] at hP'; cases hP'
  refine ⟨P, hP, by rw [← hm, hJm], fun ni hni => ⟨⟨P, ni.1, hP, hni⟩, ?_⟩⟩
  obtain ⟨nj, hnj, -, c, hc, hC⟩ := terms_entry hF hni
  obtain ⟨c', hc', hcc⟩ := hcomplete ni hni
  rw [hc] at hc'; cases hc'
  obtain ⟨h1, h2⟩ := hall nj hnj
  exact ⟨c, c, hc, hc, .refl _, by rw [hC.model, h1], hcc, (usable_iff hC).1 h2⟩

private theorem ready_of_loop {env : Env K} {m : MjModel K} {p : Nat} {w0 w : World K} (hcw : CleanWorld w) (h : Loop env m p w0 w) :
    Ready env m p w := by
  obtain ⟨P, hP, hPm, hall⟩ := h
  obtain ⟨ops, rfl, hcl⟩ := hcw
  obtain ⟨J, hJ⟩ := (C102_problem hcl p).2 ⟨P, hP, fun ni hni => by
    obtain ⟨-, c, -, hc, -, -, -, h, -⟩ := hall ni hni
    exact ⟨c, hc, h⟩⟩
  obtain ⟨P', hP', hm, -, -, hF⟩ := compile_comps ⟨ops, rfl⟩ hJ
  rw [hP] at hP'; cases hP'
  refine ⟨J, hJ, by rw [hm, hPm], fun nj hnj => ?_⟩
  obtain ⟨ni, hni, -, c, hc, hC⟩ := terms_entry' hF hnj
  obtain ⟨-, c', -, hc', -, -, h1, -, h2⟩ := hall ni hni
  rw [hc] at hc'; cases hc'
  have := hC.model
  rw [h1] at this
  exact ⟨(Option.some.inj this).symm, (usable_iff hC).2 h2⟩

private theorem maskFill_loop {env : Env K} {a b : Attrs K} (h : MaskFill a b) : Same a b ∧ (Complete a → Complete b) ∧ (UsableA env a → UsableA env b) := by
  rcases h with rfl | ⟨_, _, rfl⟩
  · exact ⟨.refl _, id, id⟩
  · exact ⟨⟨rfl, rfl, rfl, fun s _ lo hi _ h => ⟨s, lo, hi, h⟩⟩, fun ha => ⟨ha.bound, ha.dim, ha.gain, ha.cost⟩, usable_kind rfl rfl rfl⟩

/-- Problem and components up to what the loop keeps. -/
private theorem loop_same {env : Env K} {m : MjModel K} {p : Nat} {w0 w w' : World K}
    (hp : ∀ P, w.probs[p]? = some P → ∃ P', w'.probs[p]? = some P' ∧ P'.model = P.model ∧ ∀ ni ∈ P'.comps, ni ∈ P.comps)
    (hc : ∀ i c, IsPartOf p w0 i → w.comps[i]? = some c → w'.comps[i]? = some c) (h : Loop env m p w0 w) : Loop env m p w0 w' := by
  obtain ⟨P, hP, hPm, hall⟩ := h
  obtain ⟨P', hP', hm', hsub⟩ := hp P hP
  refine ⟨P', hP', by rw [hm', hPm], fun ni hni => ?_⟩
  obtain ⟨h1, c, c0, h2, h3⟩ := hall ni (hsub ni hni)
  exact ⟨h1, c, c0, hc _ _ h1 h2, h3⟩

private theorem loop_compile {env : Env K} {m : MjModel K} {p : Nat} {w0 w : World K} (hr : ReachableW w) (q : Nat) (h : Loop env m p w0 w) :
    Loop env m p w0 (step w (.compile q)).2 := by
  simp only [step]
  split
  · exact h
  · rename_i Q hQ
    have hs := (compileComps_spec Q.comps w.comps (fun c hc => cacheOK_world hr c hc)).2
    have e : (compileProb w.comps Q).2 = (compileComps w.comps Q.comps).2 := by
      unfold compileProb
      split <;> (rename_i h; rw [h])
    obtain ⟨P, hP, hPm, hall⟩ := h
    refine ⟨P, hP, hPm, fun ni hni => ?_⟩
    obtain ⟨h1, c, c0, h2, h3, h4, h5, h6, h7⟩ := hall ni hni
    obtain ⟨c', hc', hf, -⟩ := hs.2 _ c h2
    obtain ⟨g1, g2, g3⟩ := maskFill_loop (env := env) hf
    refine ⟨h1, c', c0, ?_, h3, h4.trans g1, by rw [g1.model, h5], g2 h6, g3 h7⟩
    show (compileProb w.comps Q).2[ni.2]? = _
    rw [e]
    exact hc'

private theorem set_prob {w : World K} {p q : Nat} {Q Q' : Prob K} (hQ : w.probs[q]? = some Q) (hm : Q'.model = Q.model)
    (hsub : ∀ ni ∈ Q'.comps, ni ∈ Q.comps) :
    ∀ P, w.probs[p]? = some P → ∃ P', (w.probs.set q Q')[p]? = some P' ∧ P'.model = P.model ∧ ∀ ni ∈ P'.comps, ni ∈ P.comps := by
  intro P hP
  by_cases h : q = p
  · subst h
    rw [hQ] at hP; cases hP
    have : q < w.probs.length := (List.getElem?_eq_some_iff.1 hQ).1
    exact ⟨Q', by simp [this], hm, hsub⟩
  · exact ⟨P, by rw [List.getElem?_set_ne h]; exact hP, rfl, fun _ h => h⟩

private theorem same_prob {w : World K} {p : Nat} :
    ∀ P, w.probs[p]? = some P → ∃ P', w.probs[p]? = some P' ∧ P'.model = P.model ∧ ∀ ni ∈ P'.comps, ni ∈ P.comps :=
  fun P h => ⟨P, h, rfl, fun _ h => h⟩

private theorem loop_call {env : Env K} {m : MjModel K} (hw : JointsWF m) {p : Nat} {w0 w : World K} (hr : ReachableW w)
    (hclean : ∀ c ∈ w.comps, CleanComp c) {op : Op K} (hg : Gentle p w0 (.call op)) (h : Loop env m p w0 w) : Loop env m p w0 (step w op).2 := by
  cases op
  case newComp n =>
    simp only [step]
    split
    · exact h
    · refine loop_same (w := w) same_prob (fun i c _ hc => ?_) h
      have : i < w.comps.length := (List.getElem?_eq_some_iff.1 hc).1
      simp only
      rw [List.getElem?_append_left this]
      exact hc
  case comp i op =>
    simp only [step]
    split
    · exact h
    · rename_i c hc
      obtain ⟨P, hP, hPm, hall⟩ := h
      refine ⟨P, hP, hPm, fun ni hni => ?_⟩
      obtain ⟨h1, c', c0, h2, h3, h4, h5, h6, h7⟩ := hall ni hni
      by_cases hi : i = ni.2
      · subst hi
        rw [hc] at h2; cases h2
        have hf : FitsRows c.attrs.dim.toNat op := by rw [h4.dim]; exact hg h1 c0 h3
        have hu : ∀ m, op ≠ .updateModel m := by rintro m rfl; exact hf
        have : ni.2 < w.comps.length := (List.getElem?_eq_some_iff.1 hc).1
        have hs := same_run op c hu
        exact ⟨h1, (op.run c).2, c0, by simp [setComp, this], h3, h4.trans hs, by rw [hs.model, h5], complete_run hf h6,
          usable_run hw (hclean c (List.mem_of_getElem? hc)) h5 hf h6.dim h7⟩
      · exact ⟨h1, c', c0, by simp [setComp, hi, h2], h3, h4, h5, h6, h7⟩
  case newProblem m lo hi =>
    simp only [step]
    split
    · exact h
    · refine loop_same (w := w) (fun P hP => ⟨P, ?_, rfl, fun _ h => h⟩) (fun _ _ _ hc => hc) h
      have : p < w.probs.length := (List.getElem?_eq_some_iff.1 hP).1
      simp only
      rw [List.getElem?_append_left this]
      exact hP
  case updateVMin q v =>
    simp only [step]
    split
    · exact h
    · rename_i Q hQ
      refine loop_same (set_prob hQ ?_ ?_) (fun _ _ _ hc => hc) h
      · unfold Prob.updateVMin; split <;> rfl
      · unfold Prob.updateVMin; split <;> exact fun _ h => h
  case updateVMax q v =>
    simp only [step]
    split
    · exact h
    · rename_i Q hQ
      refine loop_same (set_prob hQ ?_ ?_) (fun _ _ _ hc => hc) h
      · unfold Prob.updateVMax; split <;> rfl
      · unfold Prob.updateVMax; split <;> exact fun _ h => h
  case add q i =>
    simp only [step]
    split
    · rename_i Q c hQ hc
      refine loop_same (w := w) (fun P hP => ⟨P, ?_, rfl, fun _ h => h⟩) (fun k c' hk hc' => ?_) h
      · rw [List.getElem?_set_ne hg.1]; exact hP
      · have : i ≠ k := by rintro rfl; exact hg.2 hk
        simp [setComp, this, hc']
    · exact h
  case remove q name =>
    simp only [step]
    split
    · exact h
    · rename_i Q hQ
      exact loop_same (set_prob hQ rfl (fun ni h => (List.mem_filter.1 h).1)) (fun _ _ _ hc => hc) h
  case compile q => exact loop_compile hr q h
  case component => simp only [step]; split <;> exact h
  case task => simp only [step]; split <;> exact h
  case barrier => simp only [step]; split <;> exact h

variable [IsStrictOrderedRing K]

omit [IsStrictOrderedRing K] in
private theorem toArr_vec {q : Vec K} {n : Nat} (h : q.len = n) : (⟨n, fun i => q.toArr.get [i]⟩ : Vec K) = q := by
  subst h; rfl

omit [IsStrictOrderedRing K] in
private theorem solve_of_error {I : Type} {env : Env K} {osqp : QPSolver K I} {m : MjModel K} {J : JaxProblem K} {s : LocalIKData K} {d : MjData K}
    {e : Err} (h : problemQP env m J d = .error e) : localSolveFromData env osqp m J s d = .error e := by
  unfold problemQP at h
  unfold localSolveFromData solveFromData
  simp only [bind, Except.bind] at h ⊢
  cases h1 : J.vMin.toVec with
  | error e1 => rw [h1] at h; cases h; rfl
  | ok lo =>
    cases h2 : J.vMax.toVec with
    | error e2 => rw [h1, h2] at h; cases h; rfl
    | ok hi =>
      cases h3 : (J.comps.map Prod.snd).mapM (solverComp env d) with
      | error e3 => rw [h1, h2, h3] at h; cases h; rfl
      | ok cs =>
        rw [h1, h2, h3] at h
        dsimp only at h ⊢
        rw [h]

private theorem runs_of_ready {I : Type} {env : Env K} {m : MjModel K} (hm : ModelFits m) (he : EnvFits env m)
    (hz : ∀ q : Vec K, q.len = m.nq → Sized env m (update env m q) ∧ DataFits m (update env m q)) (osqp : QPSolver K I) {p : Nat}
    {S : Robot K} (hq : S.q.len = m.nq) (hcw : CleanWorld S.world) (h : Ready env m p S.world) : RunsOrSingular env osqp m p S := by
  obtain ⟨J, hJ, rfl, hall⟩ := h
  obtain ⟨ops, ew, hcl⟩ := hcw
  have hJ' := hJ
  rw [ew] at hJ'
  obtain ⟨hd1, hd2⟩ := hz S.q hq
  have hP := C87_problem_partial hcl hJ' (fun nj h => (hall nj h).1) (fun nj h => (hall nj h).2) hm he hd1 hd2
  refine ⟨J, hJ, ?_⟩
  have hsh : S.q.toArr.shape = [J.model.nq] := by show [S.q.len] = _; rw [hq]
  by_cases hB : ∃ nj ∈ J.comps, CompiledBarrier nj.2 ∧ ∃ G, evalJacobian env nj.2 (update env J.model S.q) = .ok G ∧ ZeroMat G
  · refine .inr ⟨?_, hB⟩
    unfold localSolve solve
    rw [if_neg (not_not.2 hsh)]
    dsimp only
    rw [toArr_vec hq]
    exact solve_of_error (hP.2.2 hB)
  · left
    have hs := (C87_solve_partial hcl hJ' (fun nj h => (hall nj h).1) (fun nj h => (hall nj h).2) hm he hz osqp S.q.toArr S.data).2 hsh (by
      rw [toArr_vec hq]
      intro nj hnj hb G hG h0
      exact hB ⟨nj, hnj, hb, G, hG, h0⟩)
    obtain ⟨qp, -, hr⟩ := hs
    exact ⟨_, hr⟩

omit [IsStrictOrderedRing K] in
private theorem loop_ticks {I : Type} {env : Env K} {osqp : QPSolver K I} {m : MjModel K} (hw : JointsWF m) {p : Nat} {dt : K}
    {w0 : World K} {G : Robot K → Prop} (hG : ∀ S, Sane m S → CleanWorld S.world → Loop env m p w0 S.world → G S) :
    ∀ (acts : List (Act K)) (S : Robot K), Sane m S → CleanWorld S.world → CleanProgram S.world (callsOf p acts) → Loop env m p w0 S.world →
      (∀ a ∈ acts, Gentle p w0 a) → AtEveryTick env osqp m p dt G S acts := by
  intro acts
  induction acts with
  | nil => intro S _ _ _ _ _; trivial
  | cons a acts ih =>
    intro S hS hcw hcp hL hg
    obtain ⟨h1, h2⟩ := sane_step env osqp hw p dt hS hcp
    have hcw' : ∀ op, CleanProgram S.world [op] → CleanWorld (step S.world op).2 := by
      intro op hop
      obtain ⟨ops, e, hcl⟩ := hcw
      rw [e] at hop ⊢
      exact ⟨ops ++ [op], by rw [run_append]; rfl, clean_concat _ _ _ hcl hop⟩
    have hhead := hcp.1
    refine ⟨fun _ => hG S hS hcw hL, ih _ h1 ?_ h2 ?_ (fun b hb => hg b (by simp [hb]))⟩ <;> cases a with
    | tick =>
      rw [tick_world]
      first | exact loop_compile hS.reach p hL | exact hcw' _ ⟨hhead, trivial⟩
    | call op => first | exact loop_call hw hS.reach hS.clean (hg _ (by simp)) hL | exact hcw' _ ⟨hhead, trivial⟩

omit [IsStrictOrderedRing K] in
private theorem clean_split : ∀ (ops ops' : List (Op K)) (w : World K), CleanProgram w (ops ++ ops') → CleanProgram w ops ∧ CleanProgram (run w ops) ops' := by
  intro ops
  induction ops with
  | nil => intro ops' w h; exact ⟨trivial, h⟩
  | cons op ops ih =>
    intro ops' w h
    obtain ⟨h1, h2⟩ := ih ops' _ h.2
    exact ⟨⟨h.1, h1⟩, h2⟩

/-- **C117** (a loop keeps running): a problem that was set up usable stays so, whatever the loop does as long as it hands the components arguments
that fit and adds nothing: at every control step it compiles and solving returns a velocity, unless the Jacobian of a barrier is all zero, and then the
result is not a number. -/
theorem C117_runs {I : Type} {env : Env K} {m : MjModel K} (hm : ModelFits m) (he : EnvFits env m)
    (hz : ∀ q : Vec K, q.len = m.nq → Sized env m (update env m q) ∧ DataFits m (update env m q)) (osqp : QPSolver K I) {p : Nat} (dt : K)
    {setup : List (Op K)} {acts : List (Act K)} (hclean : CleanProgram World.init (setup ++ callsOf p acts))
    (hready : Ready env m p (run World.init setup)) (hgentle : ∀ a ∈ acts, Gentle p (run World.init setup) a)
    {q0 : Vec K} (hq0 : q0.len = m.nq) (s0 : LocalIKData K) :
    AtEveryTick env osqp m p dt (RunsOrSingular env osqp m p) ⟨run World.init setup, q0, s0⟩ acts := by
  obtain ⟨h1, h2⟩ := clean_split _ _ _ hclean
  have hcw : CleanWorld (run World.init setup) := ⟨setup, rfl, h1⟩
  refine loop_ticks (w0 := run World.init setup) hm.joints (fun S hS hcw hL => ?_) acts _ ⟨⟨setup, rfl⟩, ?_, hq0⟩ hcw h2 (loop_of_ready hcw hready) hgentle
  · exact runs_of_ready hm he hz osqp hS.len hcw (ready_of_loop hcw hL)
  · exact cleanComp_program setup World.init (by intro c hc; cases hc) h1

/-- Barriers of the loop were barriers when it was set up. -/
private theorem barrier_back {env : Env K} {m : MjModel K} (hm : ModelFits m) (hkeep : KeepsScalars env m) {p : Nat} {w0 : World K} {S : Robot K}
    (hw0 : CleanWorld w0) (hready : Ready env m p w0)
    (honly : OnlyJointBarriers p w0) (hS : Sane m S) (hcw : CleanWorld S.world) (hL : Loop env m p w0 S.world) {J : JaxProblem K}
    (hJ : (step S.world (.compile p)).1 = .ok (.compiled J)) {nj : String × JaxComp K} (hnj : nj ∈ J.comps) (hb : CompiledBarrier nj.2) {G : Mat K}
    (hG : evalJacobian env nj.2 (update env m S.q) = .ok G) : ¬ ZeroMat G := by
  obtain ⟨J', hJ', -, hall'⟩ := ready_of_loop hcw hL
  rw [hJ] at hJ'; cases hJ'
  obtain ⟨hjm, hu⟩ := hall' nj hnj
  obtain ⟨P, hP, -, hall⟩ := hL
  obtain ⟨P', hP', -, -, -, hF⟩ := compile_comps hS.reach hJ
  rw [hP] at hP'; cases hP'
  obtain ⟨ni, hni, -, c, hc, hC⟩ := terms_entry' hF hnj
  obtain ⟨⟨P0, name, hP0, hmem⟩, c', c0, hc', hc0, hsame, -⟩ := hall ni hni
  rw [hc] at hc'; cases hc'
  obtain ⟨J0, hJ0, -, -⟩ := hready
  obtain ⟨ops, rfl, -⟩ := hw0
  obtain ⟨P0', hP0', -, -, -, hF0⟩ := compile_comps ⟨ops, rfl⟩ hJ0
  rw [hP0] at hP0'; cases hP0'
  obtain ⟨nj0, hnj0, -, c0', hc0', hC0⟩ := terms_entry hF0 hmem
  rw [hc0] at hc0'; cases hc0'
  have hb0 : CompiledBarrier nj0.2 := by
    have k1 := hC.kind
    have k2 := hC0.kind
    have ht := hsame.tag
    unfold CompiledBarrier at hb ⊢
    cases h1 : c.attrs.kind <;> rw [h1] at k1 ht <;> cases h2 : nj.2.kind <;> rw [h2] at k1 hb <;> simp only [KindOf] at k1 hb <;>
      cases h3 : c0.attrs.kind <;> rw [h3] at k2 ht <;> simp only [Kind.tag] at ht <;> (try cases ht) <;>
      cases h4 : nj0.2.kind <;> rw [h4] at k2 <;> trivial
  obtain ⟨s, lo, hi, i, qi, hk0⟩ := honly J0 hJ0 nj0 hnj0 hb0
  have k2 := hC0.kind
  rw [hk0] at k2
  cases h3 : c0.attrs.kind <;> rw [h3] at k2 <;> simp only [KindOf] at k2
  rename_i s0 fm lo0 hi0 qi0
  obtain ⟨-, -, -, rfl⟩ := k2
  obtain ⟨s', lo', hi', hk⟩ := hsame.qi _ _ _ _ _ h3
  have k1 := hC.kind
  rw [hk] at k1
  cases h2 : nj.2.kind <;> rw [h2] at k1 <;> simp only [KindOf] at k1
  rename_i s1 l1 u1 q1
  obtain ⟨rfl, rfl, rfl, hqi⟩ := k1
  have hwj : JointsWF nj.2.model := by rw [hjm]; exact hm.joints
  have hc' := jointBarrier_of_clean (hS.clean c (List.mem_of_getElem? hc)) hC hwj hk
  have hk' := hc'.kind
  rw [h2] at hk'
  injection hk' with _ _ _ hq
  cases hqi
  have hlen' : 0 < (selectedJoints nj.2.model fm).length := by
    have := congrArg List.length hq
    rw [List.length_map] at this
    rw [← this]
    simp
  unfold Usable at hu
  rw [h2] at hu
  dsimp only at hu
  have hfl : (i :: qi).length = (selectedJoints nj.2.model fm).length := by rw [hq, List.length_map]
  rw [hfl] at hu
  rw [← hjm] at hkeep hG
  obtain ⟨_, J', -, x2, -, x4, x5, x6⟩ := jointBarrier_eval hc' hwj hu.1 hu.2 env (update env nj.2.model S.q) (hkeep _ (by rw [hjm]; exact hS.len)).1
  rw [hG] at x2; cases x2
  intro h0
  obtain ⟨-, -, y, -⟩ := x6 0 hlen'
  have hd := (integrate_scalar env hwj S.q S.q 0).2 _ (mem_selectedJoints (List.getElem_mem hlen'))
  have := h0 0 (by rw [x4]; omega) (dofOf nj.2.model (selectedJoints nj.2.model fm)[0]) (by rw [x5]; exact hd.2.1)
  rw [y, if_pos rfl] at this
  exact one_ne_zero this

/-- **C117** (no singular configurations): when the only barriers are joint barriers over at least one joint, nothing is raised at any control step. -/
theorem C117_always {I : Type} {env : Env K} {m : MjModel K} (hm : ModelFits m) (he : EnvFits env m) (hkeep : KeepsScalars env m)
    (hz : ∀ q : Vec K, q.len = m.nq → Sized env m (update env m q) ∧ DataFits m (update env m q)) (osqp : QPSolver K I) {p : Nat} (dt : K)
    {setup : List (Op K)} {acts : List (Act K)} (hclean : CleanProgram World.init (setup ++ callsOf p acts))
    (hready : Ready env m p (run World.init setup)) (honly : OnlyJointBarriers p (run World.init setup))
    (hgentle : ∀ a ∈ acts, Gentle p (run World.init setup) a) {q0 : Vec K} (hq0 : q0.len = m.nq) (s0 : LocalIKData K) :
    AtEveryTick env osqp m p dt (Works env osqp m p) ⟨run World.init setup, q0, s0⟩ acts := by
  obtain ⟨h1, h2⟩ := clean_split _ _ _ hclean
  have hcw : CleanWorld (run World.init setup) := ⟨setup, rfl, h1⟩
  refine loop_ticks (w0 := run World.init setup) hm.joints (fun S hS hcw' hL => ?_) acts _ ⟨⟨setup, rfl⟩, ?_, hq0⟩ hcw h2 (loop_of_ready hcw hready) hgentle
  · obtain ⟨J, hJ, ⟨r, hr⟩ | ⟨-, nj, hnj, hb, G, hG, h0⟩⟩ := runs_of_ready hm he hz osqp hS.len hcw' (ready_of_loop hcw' hL)
    · exact ⟨J, r, hJ, hr⟩
    · exact absurd h0 (barrier_back hm hkeep hcw hready honly hS hcw' hL hJ hnj hb hG)
  · exact cleanComp_program setup World.init (by intro c hc; cases hc) h1

namespace RunEx

/-- A loop over `SolveEx.ops`: targets and gains that arrive from somewhere, velocity limits, and a control step after each of them. -/
def acts (xs : List (Arr ℚ × ℚ)) : List (Act ℚ) :=
  xs.flatMap fun x => [.call (.comp 0 (.updateTarget x.1)), .call (.comp 0 (.updateGain (Ex.scalar x.2))), .call (.comp 1 (.setSafeDisplacementGain x.2)),
    .call (.updateVMax 0 (Ex.scalar x.2)), .tick]

theorem clean (xs : List (Arr ℚ × ℚ)) : ∀ w, CleanProgram w (callsOf 0 (acts xs)) := by
  induction xs with
  | nil => intro w; trivial
  | cons x xs ih => intro w; exact ⟨trivial, trivial, trivial, trivial, trivial, ih _⟩

theorem gentle {xs : List (Arr ℚ × ℚ)} (h : ∀ x ∈ xs, x.1.shape.length ≤ 1) (w : World ℚ) : ∀ a ∈ acts xs, Gentle 0 w a := by
  intro a ha
  obtain ⟨x, hx, ha⟩ := List.mem_flatMap.1 ha
  have := h x hx
  fin_cases ha
  · exact fun _ _ _ => this
  · exact fun _ _ _ _ => .inl rfl
  · exact fun _ _ _ => trivial
  · trivial
  · trivial

theorem ready : Ready Ex.env Ex.model 0 (run World.init SolveEx.ops) := by
  refine ⟨_, rfl, rfl, ?_⟩
  intro nj h
  fin_cases h
  · exact ⟨rfl, rfl⟩
  · exact ⟨rfl, Or.inr (Or.inr rfl), Or.inr (Or.inr rfl)⟩
  · exact ⟨rfl, trivial⟩

theorem only : OnlyJointBarriers 0 (run World.init SolveEx.ops) := by
  intro J hJ nj h hb
  cases hJ
  fin_cases h
  · exact hb.elim
  · exact ⟨_, _, _, _, _, rfl⟩
  · exact hb.elim

end RunEx

/-- However many targets arrive, and whether or not they are accepted, every control step is solved. -/
example (osqp : QPSolver ℚ Unit) (dt : ℚ) {xs : List (Arr ℚ × ℚ)} (h : ∀ x ∈ xs, x.1.shape.length ≤ 1) {q0 : Vec ℚ} (hq0 : q0.len = 13)
    (s0 : LocalIKData ℚ) :
    AtEveryTick Ex.env osqp Ex.model 0 dt (Works Ex.env osqp Ex.model 0) ⟨run World.init SolveEx.ops, q0, s0⟩ (RunEx.acts xs) :=
  C117_always SolveEx.model_fits SolveEx.env_fits (Ex.env_keeps _) (fun q hq => ⟨SizeEx.sized q hq, SolveEx.data_fits q⟩) osqp dt
    (clean_concat _ _ _ SolveEx.ops_clean (RunEx.clean xs _)) RunEx.ready RunEx.only (RunEx.gentle h _) hq0 s0

/-- The same loop over a problem with a self-collision barrier, whose Jacobian can be all zero. -/
example (osqp : QPSolver ℚ Unit) (dt : ℚ) {xs : List (Arr ℚ × ℚ)} (h : ∀ x ∈ xs, x.1.shape.length ≤ 1) {q0 : Vec ℚ} (hq0 : q0.len = 13)
    (s0 : LocalIKData ℚ) :
    AtEveryTick Ex.env osqp Ex.model 0 dt (RunsOrSingular Ex.env osqp Ex.model 0) ⟨run World.init SizeEx.ops, q0, s0⟩ (RunEx.acts xs) := by
  refine C117_runs SolveEx.model_fits SolveEx.env_fits (fun q hq => ⟨SizeEx.sized q hq, SolveEx.data_fits q⟩) osqp dt
    (clean_concat _ _ _ SizeEx.ops_clean (RunEx.clean xs _)) ⟨_, rfl, rfl, ?_⟩ (RunEx.gentle h _) hq0 s0
  intro nj h
  fin_cases h
  · exact ⟨rfl, rfl⟩
  · exact ⟨rfl, rfl⟩
  · exact ⟨rfl, Or.inr (Or.inr rfl), Or.inr (Or.inr rfl)⟩
  · exact ⟨rfl, rfl, by decide, by decide, fun _ _ _ => rfl⟩
  · exact ⟨rfl, trivial⟩

/-- A gain of a wrong size is accepted, and the next control step raises. -/
example (osqp : QPSolver ℚ Unit) (dt : ℚ) (q0 : Vec ℚ) (s0 : LocalIKData ℚ) :
    (step (run World.init SolveEx.ops) (.comp 0 (.updateGain ⟨[5], fun _ => 1⟩))).1 = .ok .none ∧
    ¬ AtEveryTick Ex.env osqp Ex.model 0 dt (RunsOrSingular Ex.env osqp Ex.model 0) ⟨run World.init SolveEx.ops, q0, s0⟩
      [.call (.comp 0 (.updateGain ⟨[5], fun _ => 1⟩)), .tick] := by
  refine ⟨rfl, ?_⟩
  rintro ⟨-, h, -⟩
  obtain ⟨J, hJ, -⟩ := h rfl
  cases hJ

end Mjinx.Props
