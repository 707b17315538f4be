import Verif.Spec.Compiles
import Verif.Props.Sizes

/-!
# When components and problems compile

Property C102.
-/

namespace Mjinx.Props
open Spec
set_option linter.unusedSectionVars false
variable {K : Type} [Field K] [LinearOrder K]

/-- What an accepted model update leaves behind. -/
private def Bound : Kind K → Prop
  | .positionBarrier _ o _ _ _ _ => o.objId ≠ -1
  | .selfCollision _ _ _ _ _ p => p ≠ none
  | _ => True

private theorem bound_update {m : MjModel K} {c : Comp K} (h : (updateModel m c).1 = .ok ()) : Bound (updateModel m c).2.attrs.kind := by
  have ht := run_tag (.updateModel m) c
  simp only [CompOp.run] at ht
  cases hk : c.attrs.kind with
  | positionBarrier s o lo hi lt li =>
    obtain ⟨e1, e2⟩ := updateModel_obj (m := m) (c := c) (o := o) (.inr (.inr ⟨s, lo, hi, lt, li, hk⟩))
    rw [h] at e2
    rw [e1, hk]
    split at e2
    · cases e2
    · rename_i hne
      exact hne
  | selfCollision x1 x2 x3 x4 x5 x6 =>
    have hu : updateModel m c = updateModelSelfCollision m x1 x2 x3 x4 x5 x6 c := by unfold updateModel; rw [hk]
    rw [hu] at h ⊢
    revert h
    unfold updateModelSelfCollision
    dsimp only
    cases excludeSet m x4 with
    | error e => intro h; cases h
    | ok ex =>
      dsimp only
      cases generatePairs m (if x3.length = 0 then (List.range m.nbody).map (fun (i : Nat) => CollisionBody.id (i : Int)) else x3) ex with
      | error e => intro h; cases h
      | ok ps => intro _; simp [Comp.set, Bound]
  | _ =>
    rw [hk] at ht
    cases hk' : (updateModel m c).2.attrs.kind <;> rw [hk'] at ht
    all_goals trivial

private theorem bound_step {a : Attrs K} {k : Kind K} (h : KindStep a k) (ha : Bound a.kind) : Bound k := by
  cases h
  case same => exact ha
  case taskA => cases hk : a.kind <;> rw [hk] at ha <;> exact ha
  case sdg => cases hk : a.kind <;> rw [hk] at ha <;> exact ha
  case pmin hk _ => rw [hk] at ha; exact ha
  case pmax hk _ => rw [hk] at ha; exact ha
  case coll hk => rw [hk] at ha; exact ha
  all_goals trivial

private theorem bound_clean {n : NewComp K} {c0 c : Comp K} (hn : n.run = .ok c0) (hr : CleanRun c0 c) (hm : c.attrs.model ≠ none) :
    Bound c.attrs.kind := by
  induction hr with
  | refl => exact absurd (model_none_of_new hn) hm
  | accepted ops m h => exact bound_update h
  | @step c op _ hop ih =>
    by_cases hu : ∃ m, op = .updateModel m
    · obtain ⟨m, rfl⟩ := hu
      exact bound_update (hop m rfl)
    · have hm' : ∀ m, op ≠ .updateModel m := fun m h => hu ⟨m, h⟩
      rw [run_model op c hm'] at hm
      exact bound_step (run_kindStep op c hm') (ih hm)

private theorem vectorGain_ok {a : Attrs K} (hd : 0 ≤ a.dim) (h : GainFits a.dim.toNat a.gain) : ∃ g, vectorGain a = .ok g := by
  unfold vectorGain
  rw [if_neg (by omega)]
  rcases h with h | h <;> rw [h]
  · dsimp only [sizeOf]
    rw [if_neg (not_lt.2 hd)]
    exact ⟨_, rfl⟩
  · dsimp only
    rw [if_neg (by omega)]
    exact ⟨_, rfl⟩

private theorem matrixCost_ok {d : Int} (hd : 0 ≤ d) {w : Arr K} (h : CostFits d.toNat w) : ∃ x, matrixCost d w = .ok x := by
  unfold matrixCost
  rw [if_neg (by omega)]
  rcases h with h | h | h <;> rw [h]
  · dsimp only [sizeOf]
    rw [if_neg (not_lt.2 hd)]
    exact ⟨_, rfl⟩
  · dsimp only
    rw [if_neg (by omega)]
    exact ⟨_, rfl⟩
  · dsimp only
    rw [if_neg (by omega)]
    exact ⟨_, rfl⟩

private theorem fits_of_costOf {d : Int} {w x : Arr K} (h : CostOf d w x) : CostFits d.toNat w := by
  obtain ⟨k, rfl, -, h⟩ := h
  rcases h with ⟨h, -⟩ | ⟨h, -⟩ | ⟨h, -⟩
  · exact .inl h
  · exact .inr (.inl h)
  · exact .inr (.inr h)

private theorem complete_of_compiles {a : Attrs K} {j : JaxComp K} (h : CompilesTo a j) : Complete a := by
  obtain ⟨k, hk, -, hg⟩ := h.gain
  refine ⟨by rw [h.model]; simp, by omega, ?_, ?_⟩
  · have : a.dim.toNat = k := by omega
    rw [this]
    rcases hg with ⟨hg, -⟩ | ⟨hg, -⟩
    · exact .inl hg
    · exact .inr hg
  · have hK := h.kind
    cases hk : a.kind <;> rw [hk] at hK <;> cases hj : j.kind <;> rw [hj] at hK <;> simp only [KindOf] at hK <;>
      first | trivial | exact fits_of_costOf hK.1 | skip
    intro w hw
    subst hw
    exact fits_of_costOf hK.2.2

private theorem buildKind_ok {a : Attrs K} {m : MjModel K} (h : Complete a) (hJ : JInvAt a m) (hB : Bound a.kind) : ∃ k, buildKind a = .ok k := by
  obtain ⟨-, hd, -, hc⟩ := h
  unfold buildKind
  unfold JInvAt at hJ
  cases hk : a.kind <;> rw [hk] at hc hJ hB <;> dsimp only at hc hJ ⊢
  case comTask t x =>
    obtain ⟨w, hw⟩ := matrixCost_ok hd hc
    simp only [bind, Except.bind, hw, pure, Except.pure]
    exact ⟨_, rfl⟩
  case jointTask t fm tq qi =>
    obtain ⟨w, hw⟩ := matrixCost_ok hd hc
    obtain ⟨mk, x, -, -, -, -, h5, h6, -⟩ := hJ
    subst h5 h6
    simp only [bind, Except.bind, hw, pure, Except.pure]
    exact ⟨_, rfl⟩
  case positionTask t o x =>
    obtain ⟨w, hw⟩ := matrixCost_ok hd hc
    simp only [bind, Except.bind, hw, pure, Except.pure]
    exact ⟨_, rfl⟩
  case frameTask t o x =>
    obtain ⟨w, hw⟩ := matrixCost_ok hd hc
    simp only [bind, Except.bind, hw, pure, Except.pure]
    exact ⟨_, rfl⟩
  case jointBarrier s fm lo hi qi =>
    obtain ⟨mk, -, -, -, -, h5, h6, h7⟩ := hJ
    obtain ⟨lo, rfl⟩ := Option.isSome_iff_exists.1 h6
    obtain ⟨hi, rfl⟩ := Option.isSome_iff_exists.1 h7
    subst h5
    exact ⟨_, rfl⟩
  case positionBarrier s o lo hi lt li =>
    rw [if_neg hB]
    exact ⟨_, rfl⟩
  case selfCollision s d b e n p =>
    obtain ⟨ps, rfl⟩ := Option.ne_none_iff_exists'.1 hB
    have h1 : getDim a = .ok a.dim := by unfold getDim; rw [if_neg (by omega)]
    have h2 : sizeOf a.dim = .ok a.dim.toNat := by unfold sizeOf; rw [if_neg (not_lt.2 hd)]
    simp only [bind, Except.bind, h1, h2, pure, Except.pure]
    exact ⟨_, rfl⟩
  case modelEquality ac hard soft =>
    have hw : ∃ w, softConstraintCost a.dim soft = .ok w := by
      cases soft with
      | none =>
        unfold softConstraintCost
        dsimp only [sizeOf]
        rw [if_neg (by omega), if_neg (not_lt.2 hd)]
        exact ⟨_, rfl⟩
      | some w => exact matrixCost_ok hd (hc w rfl)
    obtain ⟨w, hw⟩ := hw
    simp only [bind, Except.bind, hw, pure, Except.pure]
    exact ⟨_, rfl⟩

private theorem build_ok (m : MjModel K) {c : Comp K} {g : Arr K} {k : JaxKind K} (hg : vectorGain c.attrs = .ok g) (hk : buildKind c.attrs = .ok k)
    (hd : 0 ≤ c.attrs.dim) : ∃ j, (buildComponent m c).1 = .ok j := by
  rw [buildComponent_fst, ensureMask_eq]
  simp only [bind, Except.bind, hg, hk]
  rw [if_neg (by omega : ¬ c.attrs.dim = -1), if_neg (not_lt.2 hd), ite_self]
  exact ⟨_, rfl⟩

/-- **C102** (components): after any history in which no model update failed half way, a component compiles exactly when it is complete. -/
theorem C102_component {c : Comp K} (hcl : CleanComp c) : (∃ j, (jaxComponent c).1 = .ok j) ↔ Complete c.attrs := by
  obtain ⟨n, c0, hn, hr⟩ := hcl
  have hC : CacheOK c := cacheOK_reachable (hr.reachable hn)
  constructor
  · rintro ⟨j, hj⟩
    exact complete_of_compiles (jaxComponent_spec hC (c' := (jaxComponent c).2) (by rw [← hj]))
  · intro h
    rw [jaxComponent_fst hC]
    have hJ := hr.jInv (jInv_new hn)
    have hB := bound_clean hn hr h.bound
    obtain ⟨m, hm⟩ := Option.ne_none_iff_exists'.1 h.bound
    obtain ⟨k, hk⟩ := buildKind_ok h (hJ m hm) hB
    obtain ⟨g, hg⟩ := vectorGain_ok h.dim h.gain
    have hd := h.dim
    have hb := build_ok m (c := Comp.fresh c.attrs) hg hk hd
    obtain ⟨j, hj⟩ := hb
    refine ⟨j, ?_⟩
    unfold compileResult jaxComponent
    show (match c.attrs.model with | none => _ | some m => _ : Except Err (JaxComp K) × Comp K).1 = _
    rw [hm]
    dsimp only
    rw [if_neg (by show ¬ c.attrs.dim = -1; omega), if_pos (show (Comp.fresh c.attrs).modified = true from rfl)]
    cases hbb : buildComponent m (Comp.fresh c.attrs) with
    | mk r c' =>
      rw [hbb] at hj
      cases hj
      rfl

private theorem compilePure_iff (f : Nat → Except Err (JaxComp K)) (l : List (String × Nat)) :
    (∃ js, compilePure f l = .ok js) ↔ ∀ ni ∈ l, ∃ j, f ni.2 = .ok j := by
  induction l with
  | nil => simp [compilePure]
  | cons x l ih =>
    obtain ⟨name, i⟩ := x
    simp only [compilePure, List.mem_cons, forall_eq_or_imp]
    cases hf : f i with
    | error e => simp
    | ok j =>
      rw [← ih]
      cases hc : compilePure f l <;> simp

/-- **C102** (problems): after any program in which no model update failed half way, compiling a problem succeeds exactly when all its components are
complete. -/
theorem C102_problem {ops : List (Op K)} (hops : CleanProgram World.init ops) (p : Nat) :
    (∃ J, (step (run World.init ops) (.compile p)).1 = .ok (.compiled J)) ↔
      ∃ P, (run World.init ops).probs[p]? = some P ∧
        ∀ ni ∈ P.comps, ∃ c, (run World.init ops).comps[ni.2]? = some c ∧ Complete c.attrs := by
  have hclean := cleanComp_program ops World.init (by intro c hc; cases hc) hops
  have hcache := fun c hc => cacheOK_world (⟨ops, rfl⟩ : ReachableW (run (World.init (K := K)) ops)) c hc
  generalize run World.init ops = w at hclean hcache
  cases hP : w.probs[p]? with
  | none => simp [step, hP]
  | some P =>
    have h1 : (∃ J, (step w (.compile p)).1 = .ok (.compiled J)) ↔ ∃ js, (compileComps w.comps P.comps).1 = .ok js := by
      simp only [step, hP, compileProb]
      cases hc : compileComps w.comps P.comps with
      | mk r h =>
        cases r <;> simp [Except.map]
    rw [h1, (compileComps_spec P.comps w.comps hcache).1, compilePure_iff]
    constructor
    · intro h
      refine ⟨P, rfl, fun ni hni => ?_⟩
      obtain ⟨j, hj⟩ := h ni hni
      unfold heapResult at hj
      cases hc : w.comps[ni.2]? with
      | none => rw [hc] at hj; cases hj
      | some c =>
        rw [hc] at hj
        have hm := List.mem_of_getElem? hc
        refine ⟨c, rfl, (C102_component (hclean c hm)).1 ⟨j, ?_⟩⟩
        rw [jaxComponent_fst (hcache c hm)]
        exact hj
    · rintro ⟨P', hP', h⟩ ni hni
      cases hP'
      obtain ⟨c, hc, hcc⟩ := h ni hni
      have hm := List.mem_of_getElem? hc
      obtain ⟨j, hj⟩ := (C102_component (hclean c hm)).2 hcc
      refine ⟨j, ?_⟩
      unfold heapResult
      rw [hc]
      rw [jaxComponent_fst (hcache c hm)] at hj
      exact hj

/-- A joint task needs a model and a cost that fits the joints of the model; whether it compiles after the calls can be read off its attributes. -/
example : ∃ c0 : Comp ℚ, (NewComp.jointTask { Ex.taskArgs with mask := none } none).run = .ok c0 ∧
    CleanComp (runOps c0 [.updateModel Ex.model]) ∧ Complete (runOps c0 [.updateModel Ex.model]).attrs ∧
    CleanComp (runOps c0 [.updateModel Ex.model, .updateGain ⟨[3], fun _ => 1⟩]) ∧
    ¬ Complete (runOps c0 [.updateModel Ex.model, .updateGain ⟨[3], fun _ => 1⟩]).attrs := by
  refine ⟨_, rfl, ⟨.jointTask { Ex.taskArgs with mask := none } none, _, rfl, .step (.updateModel Ex.model) .refl (by intro m h; cases h; rfl)⟩,
    ⟨(by intro h; cases h), by decide, .inl rfl, .inl rfl⟩,
    ⟨.jointTask { Ex.taskArgs with mask := none } none, _, rfl,
      .step (.updateGain _) (.step (.updateModel Ex.model) .refl (by intro m h; cases h; rfl)) (by intro m h; cases h)⟩, fun h => ?_⟩
  rcases h.gain with h | h
  · cases h
  · exact absurd h (by decide)

end Mjinx.Props
