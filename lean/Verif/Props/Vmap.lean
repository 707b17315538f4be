import Verif.Lemmas.Vmap
import Verif.Props.Problem
import Verif.Props.Cache
import Mathlib.Tactic.FinCases

/-! # C67, C77: axes for `jax.vmap` -/

namespace Mjinx.Props
open Spec
set_option linter.unusedSectionVars false

variable {K : Type} [Field K] [LinearOrder K]

theorem distinct_comp (mt : MjModel K → PyTree (Static K) (Leaf K)) (hmt : ∀ m, DistinctNames (mt m)) (j : JaxComp K) :
    DistinctNames (compTree mt j) := by
  unfold compTree DistinctNames
  apply distinct_ofList
  · cases hk : j.kind <;> simp [JaxKind.fields]
  · intro x hx
    simp only [List.mem_append, List.mem_cons, List.not_mem_nil, or_false] at hx
    rcases hx with (rfl | rfl) | hx
    · exact hmt _
    · unfold DistinctNames; trivial
    · cases hk : j.kind <;> rw [hk] at hx <;> simp only [JaxKind.fields, List.mem_cons, List.not_mem_nil, or_false] at hx
      all_goals
        rcases hx with rfl | hx
        · simp [DistinctNames]
      all_goals
        try rcases hx with rfl | hx
        try subst hx
        all_goals first | simp [DistinctNames, DistinctNamesK, Kids.get] | skip
      all_goals
        try rcases hx with rfl | rfl
        all_goals simp [DistinctNames]

theorem distinct_problem (mt : MjModel K → PyTree (Static K) (Leaf K)) (hmt : ∀ m, DistinctNames (mt m)) (J : JaxProblem K)
    (hJ : (J.comps.map (fun nj => nj.1)).Nodup) : DistinctNames (problemTree mt J) := by
  unfold problemTree DistinctNames
  apply distinct_ofList
  · simp
  · intro x hx
    simp only [List.mem_cons, List.not_mem_nil, or_false] at hx
    rcases hx with rfl | rfl | rfl | rfl
    · exact hmt _
    · simp [DistinctNames]
    · simp [DistinctNames]
    · unfold DistinctNames
      apply distinct_ofList
      · rw [List.map_map]
        have : (J.comps.insertionSort (fun a b => a.1 ≤ b.1)).Perm J.comps := List.perm_insertionSort _ _
        exact ((this.map (fun nj => nj.1)).nodup_iff).2 hJ
      · intro x hx
        obtain ⟨nj, -, rfl⟩ := List.mem_map.1 hx
        exact distinct_comp mt hmt nj.2

/-- What compiling gives, component by component. -/
theorem compile_comps {w : World K} (hw : ReachableW w) {p : Nat} {J : JaxProblem K} (hJ : (step w (.compile p)).1 = .ok (.compiled J)) :
    ∃ P, w.probs[p]? = some P ∧ J.model = P.model ∧ J.vMin = P.vMin ∧ J.vMax = P.vMax ∧
      List.Forall₂ (fun (ni : String × Nat) (nj : String × JaxComp K) =>
        ni.1 = nj.1 ∧ ∃ c, w.comps[ni.2]? = some c ∧ CompilesTo c.attrs nj.2) P.comps J.comps := by
  cases hP : w.probs[p]? with
  | none => simp [step, hP] at hJ
  | some P =>
    obtain ⟨h1, -⟩ := compileComps_spec P.comps _ (cacheOK_world hw)
    simp only [step, hP, compileProb] at hJ
    cases hc : compileComps w.comps P.comps with
    | mk r h' =>
      rw [hc] at hJ h1
      cases r with
      | error e => simp [Except.map] at hJ
      | ok js =>
        simp only [Except.map, Except.ok.injEq, Res.compiled.injEq] at hJ
        subst hJ
        refine ⟨P, rfl, rfl, rfl, rfl, ?_⟩
        refine (compilePure_ok h1.symm).imp ?_
        intro ni nj h
        refine ⟨h.1, ?_⟩
        have h2 := h.2
        unfold heapResult at h2
        split at h2
        · cases h2
        · rename_i c hc
          exact ⟨c, hc, compileResult_spec h2⟩

theorem compile_names {ops : List (Op K)} {p : Nat} {J : JaxProblem K} (hJ : (step (run World.init ops) (.compile p)).1 = .ok (.compiled J)) :
    (J.comps.map (fun nj => nj.1)).Nodup := by
  obtain ⟨P, h1, -, -, -, h2⟩ := compile_comps ⟨ops, rfl⟩ hJ
  have : J.comps.map (fun nj => nj.1) = P.comps.map Prod.fst := by
    have h3 : ∀ (l : List (String × Nat)) (js : List (String × JaxComp K)), List.Forall₂ (fun ni nj =>
        ni.1 = nj.1 ∧ ∃ c, (run World.init ops).comps[ni.2]? = some c ∧ CompilesTo c.attrs nj.2) l js →
        js.map (fun nj => nj.1) = l.map Prod.fst := by
      intro l js h
      induction h with
      | nil => rfl
      | cons h _ ih => simp [ih, h.1]
    exact h3 _ _ h2
  rw [this]
  exact C03_names_distinct ops h1

/-- `set_vmap_dimension` returns the structure of what `compile` returns. -/
theorem setVmap_compile (mt : MjModel K → PyTree (Static K) (Leaf K)) {w : World K} {p : Nat} {P : Prob K} (hP : w.probs[p]? = some P)
    {ax : PyTree (Static K) Int} (h : (setVmapDimension mt w.comps P).1 = .ok ax) :
    ∃ J, (step w (.compile p)).1 = .ok (.compiled J) ∧ ax = (problemTree mt J).blank Int := by
  unfold setVmapDimension at h
  cases hc : compileProb w.comps P with
  | mk r h' =>
    rw [hc] at h
    cases r with
    | error e => cases h
    | ok J =>
      cases h
      exact ⟨J, by simp only [step, hP, hc, Except.map], rfl⟩

/-- **C67.** After any program, `set_vmap_dimension` gives axes that `jax.vmap` accepts for the compiled problem; with the
assignments `ws` made in the `with` block, every leaf of the compiled problem gets the axis of the last assignment to it or to
something it is part of, and `None` if there is none. -/
theorem C67_axes (mt : MjModel K → PyTree (Static K) (Leaf K)) (hmt : ∀ m, DistinctNames (mt m)) (ops : List (Op K))
    {p : Nat} {P : Prob K} (hP : (run World.init ops).probs[p]? = some P) {ax0 : PyTree (Static K) Int}
    (h : (setVmapDimension mt (run World.init ops).comps P).1 = .ok ax0) :
    ∃ J, (step (run World.init ops) (.compile p)).1 = .ok (.compiled J) ∧
      ∀ ws ax, ax0.writes ws = .ok ax →
        flattenAxes ax (problemTree mt J) = .ok ((problemTree mt J).paths.map (fun leaf => lastWrite ws leaf.1)) := by
  obtain ⟨J, h1, rfl⟩ := setVmap_compile mt hP h
  refine ⟨J, h1, ?_⟩
  intro ws ax hax
  obtain ⟨h2, h3⟩ := writes_spec (problemTree mt J) ws ax hax
  rw [flatten_fits ax _ (distinct_problem mt hmt J (compile_names h1)) h2]
  simp only [h3]

/-- **C67** (assignments succeed): an axis can be assigned to every leaf of the compiled problem and to everything that contains a
leaf; several assignments can follow each other as long as none goes properly below an earlier one. -/
theorem C67_assignable (mt : MjModel K → PyTree (Static K) (Leaf K)) (hmt : ∀ m, DistinctNames (mt m)) (ops : List (Op K))
    {p : Nat} {P : Prob K} (hP : (run World.init ops).probs[p]? = some P) {ax0 : PyTree (Static K) Int}
    (h : (setVmapDimension mt (run World.init ops).comps P).1 = .ok ax0) :
    ∃ J, (step (run World.init ops) (.compile p)).1 = .ok (.compiled J) ∧
      ∀ ws : List (List String × Int), (∀ w ∈ ws, ∃ leaf ∈ (problemTree mt J).paths, w.1.isPrefixOf leaf.1) →
        ws.Pairwise (fun v w => v.1.isPrefixOf w.1 = false ∨ v.1 = w.1) → ∃ ax, ax0.writes ws = .ok ax := by
  obtain ⟨J, h1, rfl⟩ := setVmap_compile mt hP h
  refine ⟨J, h1, ?_⟩
  intro ws hw hp
  refine writes_ok ws _ ?_ hp
  intro w hw' b
  obtain ⟨leaf, hl, hpre⟩ := hw w hw'
  exact write_below_blank w.1 _ leaf hl hpre (distinct_problem mt hmt J (compile_names h1)) b

theorem find_of_mem {β : Type} {n : String} {b : β} : ∀ {l : List (String × β)}, (l.map (fun x => x.1)).Nodup → (n, b) ∈ l →
    l.find? (fun x => x.1 = n) = some (n, b)
  | [], _, h => by simp at h
  | x :: l, hn, h => by
    rw [List.map_cons, List.nodup_cons] at hn
    rcases List.mem_cons.1 h with rfl | h
    · simp
    · have : x.1 ≠ n := fun e => hn.1 (List.mem_map.2 ⟨(n, b), h, e.symm⟩)
      rw [List.find?_cons_of_neg (by simpa using this)]
      exact find_of_mem hn.2 h

theorem components_get (mt : MjModel K → PyTree (Static K) (Leaf K)) (J : JaxProblem K) (hn : (J.comps.map (fun nj => nj.1)).Nodup)
    {nm : String} {j : JaxComp K} (hj : (nm, j) ∈ J.comps) :
    (Kids.ofList ((J.comps.insertionSort (fun a b => a.1 ≤ b.1)).map (fun nj => (nj.1, compTree mt nj.2)))).get nm
      = some (compTree mt j) := by
  have hp : (J.comps.insertionSort (fun a b => a.1 ≤ b.1)).Perm J.comps := List.perm_insertionSort _ _
  rw [get_ofList, find_of_mem (b := compTree mt j)]
  · rfl
  · rw [List.map_map]
    exact ((hp.map (fun nj => nj.1)).nodup_iff).2 hn
  · exact List.mem_map.2 ⟨(nm, j), hp.mem_iff.2 hj, rfl⟩

theorem components_get_some (mt : MjModel K → PyTree (Static K) (Leaf K)) (J : JaxProblem K)
    {nm : String} {t : PyTree (Static K) (Leaf K)}
    (h : (Kids.ofList ((J.comps.insertionSort (fun a b => a.1 ≤ b.1)).map (fun nj => (nj.1, compTree mt nj.2)))).get nm = some t) :
    ∃ j, (nm, j) ∈ J.comps ∧ t = compTree mt j := by
  have hp : (J.comps.insertionSort (fun a b => a.1 ≤ b.1)).Perm J.comps := List.perm_insertionSort _ _
  rw [get_ofList, Option.map_eq_some_iff] at h
  obtain ⟨x, hx, rfl⟩ := h
  have h1 := List.mem_of_find?_eq_some hx
  have h2 := List.find?_some hx
  obtain ⟨nj, h3, rfl⟩ := List.mem_map.1 h1
  simp only [decide_eq_true_eq] at h2
  subst h2
  exact ⟨nj.2, hp.mem_iff.1 h3, rfl⟩

theorem problem_get (mt : MjModel K → PyTree (Static K) (Leaf K)) (J : JaxProblem K) :
    (Kids.ofList [("model", mt J.model), ("v_min", .leaf (.arr J.vMin)), ("v_max", .leaf (.arr J.vMax)),
      ("components", PyTree.node .dict (.ofList ((J.comps.insertionSort (fun a b => a.1 ≤ b.1)).map (fun nj => (nj.1, compTree mt nj.2)))))]).get
      "components" = some (PyTree.node .dict (.ofList ((J.comps.insertionSort (fun a b => a.1 ≤ b.1)).map (fun nj => (nj.1, compTree mt nj.2))))) := by
  simp [get_ofList]

theorem leaves_ofList {S A : Type} : ∀ l : List (String × PyTree S A), (Kids.ofList l).paths = l.flatMap (fun x => x.2.paths.map (fun y => (x.1 :: y.1, y.2)))
  | [] => rfl
  | (n, t) :: rest => by rw [Kids.ofList, Kids.paths, leaves_ofList rest]; rfl

theorem compTree_paths (mt : MjModel K → PyTree (Static K) (Leaf K)) (j : JaxComp K) :
    (compTree mt j).paths = (mt j.model).paths.map (fun y => ("model" :: y.1, y.2)) ++ mappable j := by
  rw [compTree, PyTree.paths, leaves_ofList, List.flatMap_append, List.flatMap_cons, mappable]
  rcases j with ⟨d, m, g, fn, ix, k⟩
  cases k <;> simp [JaxKind.fields, PyTree.paths, Kids.paths]

/-- **C67** (what can be mapped): the leaves of a compiled problem, each of which has an axis, are those
of the model, the velocity limits, and for every component those of its model and its gain, cost, target, limits and other
numbers. -/
theorem C67_leaves (mt : MjModel K → PyTree (Static K) (Leaf K)) (J : JaxProblem K) (leaf : List String × Leaf K) :
    leaf ∈ (problemTree mt J).paths ↔
      (∃ y ∈ (mt J.model).paths, leaf = ("model" :: y.1, y.2)) ∨ leaf = (["v_min"], .arr J.vMin) ∨ leaf = (["v_max"], .arr J.vMax) ∨
      ∃ nm j, (nm, j) ∈ J.comps ∧ ((∃ y ∈ (mt j.model).paths, leaf = ("components" :: nm :: "model" :: y.1, y.2)) ∨
        ∃ y ∈ mappable j, leaf = ("components" :: nm :: y.1, y.2)) := by
  rw [problemTree, PyTree.paths, leaves_ofList]
  simp only [List.flatMap_cons, List.flatMap_nil, List.append_nil, PyTree.paths, List.map_cons, List.map_nil, leaves_ofList, List.mem_append,
    List.mem_map, List.mem_singleton, List.mem_flatMap, List.mem_insertionSort, Prod.exists]
  constructor
  · rintro (⟨a, b, h, rfl⟩ | h | h | ⟨a, b, ⟨n, t, ⟨nm, j, hj, he⟩, a', b', hab, he'⟩, rfl⟩)
    · exact .inl ⟨a, b, h, rfl⟩
    · exact .inr (.inl h)
    · exact .inr (.inr (.inl h))
    · refine .inr (.inr (.inr ⟨nm, j, hj, ?_⟩))
      cases he
      cases he'
      rw [compTree_paths, List.mem_append, List.mem_map] at hab
      rcases hab with ⟨y, hy, he⟩ | h
      · cases he; exact .inl ⟨_, _, hy, rfl⟩
      · exact .inr ⟨_, _, h, rfl⟩
  · rintro (⟨a, b, h, rfl⟩ | h | h | ⟨nm, j, hj, ⟨a, b, h, rfl⟩ | ⟨a, b, h, rfl⟩⟩)
    · exact .inl ⟨a, b, h, rfl⟩
    · exact .inr (.inl h)
    · exact .inr (.inr (.inl h))
    · exact .inr (.inr (.inr ⟨_, _, ⟨nm, _, ⟨nm, j, hj, rfl⟩, _, _, by
        rw [compTree_paths, List.mem_append, List.mem_map]; exact .inl ⟨_, h, rfl⟩, rfl⟩, rfl⟩))
    · exact .inr (.inr (.inr ⟨_, _, ⟨nm, _, ⟨nm, j, hj, rfl⟩, _, _, by
        rw [compTree_paths, List.mem_append]; exact .inr h, rfl⟩, rfl⟩))

/-- **C67** (targets can be mapped): the entry `components / name / field` exists for the target of every task of the compiled
problem, so by `C67_assignable` an axis can be given to it. -/
theorem C67_target_path (mt : MjModel K → PyTree (Static K) (Leaf K)) (ops : List (Op K)) {p : Nat} {J : JaxProblem K}
    (h : (step (run World.init ops) (.compile p)).1 = .ok (.compiled J)) {nm : String} {j : JaxComp K}
    (hj : (nm, j) ∈ J.comps) {f : String} (hf : match j.kind with
      | .comTask .. => f = "target_com"
      | .jointTask .. => f = "target_q"
      | .positionTask .. => f = "target_pos"
      | .frameTask .. => f = "target_frame"
      | _ => False) :
    ∃ leaf ∈ (problemTree mt J).paths, ["components", nm, f].isPrefixOf leaf.1 := by
  have hn := compile_names h
  have key : ∀ (x : List String × Leaf K), x ∈ (compTree mt j).paths → ("components" :: nm :: x.1, x.2) ∈ (problemTree mt J).paths := by
    intro x hx
    exact pathsK_of_get _ (problem_get mt J) (pathsK_of_get _ (components_get mt J hn hj) hx)
  cases hk : j.kind <;> rw [hk] at hf <;> simp only at hf
  case comTask w lm x =>
    subst hf
    refine ⟨_, key (["target_com"], .arr x) ?_, by simp⟩
    simp [compTree, hk, JaxKind.fields, PyTree.paths, Kids.paths, Kids.ofList]
  case jointTask w lm x qi =>
    subst hf
    refine ⟨_, key (["target_q"], .arr x) ?_, by simp⟩
    simp [compTree, hk, JaxKind.fields, PyTree.paths, Kids.paths, Kids.ofList]
  case positionTask w lm i t x =>
    subst hf
    refine ⟨_, key (["target_pos"], .arr x) ?_, by simp⟩
    simp [compTree, hk, JaxKind.fields, PyTree.paths, Kids.paths, Kids.ofList]
  case frameTask w lm i t x =>
    subst hf
    refine ⟨_, key (["target_frame", "wxyz_xyz"], .arr x) ?_, by simp⟩
    simp [compTree, hk, JaxKind.fields, PyTree.paths, Kids.paths, Kids.ofList]

/-! ### C77 -/

/-- The structure-determining part of the class-specific attributes. -/
def kstat : Kind K → String × List (SVal K)
  | .comTask t _ => ("JaxComTask", [.num t.lmDamping])
  | .jointTask t _ _ _ => ("JaxJointTask", [.num t.lmDamping])
  | .positionTask t o _ => ("JaxPositionTask", [.num t.lmDamping, .int o.objId, .objType o.objType])
  | .frameTask t o _ => ("JaxFrameTask", [.num t.lmDamping, .int o.objId, .objType o.objType])
  | .jointBarrier .. => ("JaxJointBarrier", [])
  | .positionBarrier _ o _ _ _ li => ("JaxPositionBarrier", [.int o.objId, .objType o.objType, .idxs li])
  | .selfCollision _ _ _ _ n ps => ("JaxSelfCollisionBarrier", [.pairs (ps.getD []), .int n])
  | .modelEquality _ h _ => ("JaxModelEqualityConstraint", [.flag h])

/-- The structure-determining part of the attributes. -/
def stat (a : Attrs K) : Option (MjModel K) × Int × (K → K) × List Nat × String × List (SVal K) :=
  (a.model, a.dim, a.gainFn, (if a.mask.isSome then a.maskIdxs else List.range a.dim.toNat), kstat a.kind)

theorem kstat_kindOf {dim : Int} {k : Kind K} {jk : JaxKind K} (h : KindOf dim k jk) : kstat k = (jk.className, jk.static) := by
  cases k <;> cases jk <;> simp only [KindOf] at h
  case comTask.comTask => obtain ⟨-, rfl, -⟩ := h; rfl
  case jointTask.jointTask => obtain ⟨-, rfl, -⟩ := h; rfl
  case positionTask.positionTask => obtain ⟨-, rfl, rfl, rfl, -⟩ := h; rfl
  case frameTask.frameTask => obtain ⟨-, rfl, rfl, rfl, -⟩ := h; rfl
  case jointBarrier.jointBarrier => rfl
  case positionBarrier.positionBarrier => obtain ⟨-, rfl, rfl, -, -, rfl, -⟩ := h; rfl
  case selfCollision.selfCollision => obtain ⟨-, -, h, rfl⟩ := h; subst h; rfl
  case modelEquality.modelEquality => obtain ⟨-, rfl, -⟩ := h; rfl

/-- The structure of the fields depends only on the class. -/
theorem fields_shape {a b : JaxKind K} (h : a.className = b.className) :
    a.fields.map (fun x => (x.1, shapeOf x.2)) = b.fields.map (fun x => (x.1, shapeOf x.2)) := by
  cases a <;> cases b <;> simp [JaxKind.className] at h <;> simp [JaxKind.fields, shapeOf, shapeOfK]

theorem compTree_shape (mt : MjModel K → PyTree (Static K) (Leaf K)) {a b : Attrs K} {i j : JaxComp K} (ha : CompilesTo a i)
    (hb : CompilesTo b j) (h : stat a = stat b) : shapeOf (compTree mt i) = shapeOf (compTree mt j) := by
  have h1 := kstat_kindOf ha.kind
  have h2 := kstat_kindOf hb.kind
  simp only [stat, Prod.mk.injEq] at h
  obtain ⟨hm, hd, hg, hi, hk⟩ := h
  rw [← ha.maskIdxs, ← hb.maskIdxs] at hi
  rw [h1, h2, Prod.mk.injEq] at hk
  rw [← ha.dim, ← hb.dim] at hd
  rw [← ha.gainFn, ← hb.gainFn] at hg
  have hm' : i.model = j.model := by
    have := ha.model.symm.trans (hm.trans hb.model)
    exact Option.some.inj this
  unfold compTree
  simp only [shapeOf, shape_ofList, hd, hg, hi, hk, List.map_append, fields_shape hk.1, hm', List.map_cons, List.map_nil]

theorem stat_fill {a b : Attrs K} (h : MaskFill a b) : stat b = stat a := by
  rcases h with rfl | ⟨h1, h2, rfl⟩
  · rfl
  · simp [stat, h1]

theorem stat_set_kind (c : Comp K) {k : Kind K} (h : kstat k = kstat c.attrs.kind) :
    stat (c.set { c.attrs with kind := k }).attrs = stat c.attrs := by
  simp only [stat, Comp.set, h]
  rfl

theorem stat_arrayOp {op : CompOp K} (h : ArrayOp op) (c : Comp K) : stat (op.run c).2.attrs = stat c.attrs := by
  cases op with
  | setLmDamping | setHard | setNClosest | setCollisionBodies | updateModel => exact h.elim
  | readMask => exact stat_fill (maskFill_ensureMask c)
  | compile => exact stat_fill (maskFill_jaxComponent c)
  | updateGain g => simp only [CompOp.run, updateGain]; split <;> rfl
  | updateCost w =>
    simp only [CompOp.run, updateCost]
    split
    · rfl
    · rename_i t ht
      split
      · rfl
      · refine stat_set_kind c ?_
        cases hk : c.attrs.kind <;> simp [hk, Kind.taskA?] at ht <;> subst ht <;> simp [Kind.setTaskA, kstat]
  | setSafeDisplacementGain x =>
    simp only [CompOp.run, setSafeDisplacementGain]
    split
    · refine stat_set_kind c ?_
      cases hk : c.attrs.kind <;> simp [Kind.setSdg, kstat]
    · rfl
  | updateTarget x =>
    simp only [CompOp.run, updateTarget]
    split <;> (try split) <;> (try split) <;> (try split) <;> first | rfl | (refine stat_set_kind c ?_; simp_all [kstat])
  | updateTargetFrame x =>
    simp only [CompOp.run, updateTargetFrame]
    split <;> (try split) <;> (try split) <;> (try split) <;> first | rfl | (refine stat_set_kind c ?_; simp_all [kstat])
  | updateQLimit u x =>
    simp only [CompOp.run, updateQLimit]
    split <;> (try split) <;> (try split) <;> (try split) <;> (try split) <;> first | rfl | (refine stat_set_kind c ?_; simp_all [kstat])
  | updatePLimit u x =>
    simp only [CompOp.run, updatePLimit]
    split <;> (try split) <;> (try split) <;> first | rfl | (cases u <;> (refine stat_set_kind c ?_; simp_all [kstat]))
  | setActive x =>
    simp only [CompOp.run, setActive]
    split <;> first | rfl | (refine stat_set_kind c ?_; simp_all [kstat])
  | setDMin x =>
    simp only [CompOp.run, setDMin]
    split <;> first | rfl | (refine stat_set_kind c ?_; simp_all [kstat])

/-- Two states in which every object of the first is still there with the same structure. -/
def SameStat (w w' : World K) : Prop :=
  (∀ (i : Nat) (c : Comp K), w.comps[i]? = some c → ∃ c', w'.comps[i]? = some c' ∧ stat c'.attrs = stat c.attrs) ∧
  (∀ (p : Nat) (P : Prob K), w.probs[p]? = some P → ∃ P', w'.probs[p]? = some P' ∧ P'.model = P.model ∧ P'.comps = P.comps)

theorem sameStat_refl (w : World K) : SameStat w w := ⟨fun _ c h => ⟨c, h, rfl⟩, fun _ P h => ⟨P, h, rfl, rfl⟩⟩

theorem sameStat_trans {a b c : World K} (h1 : SameStat a b) (h2 : SameStat b c) : SameStat a c := by
  constructor
  · intro i x hx
    obtain ⟨y, hy, e1⟩ := h1.1 i x hx
    obtain ⟨z, hz, e2⟩ := h2.1 i y hy
    exact ⟨z, hz, e2.trans e1⟩
  · intro p x hx
    obtain ⟨y, hy, e1, e1'⟩ := h1.2 p x hx
    obtain ⟨z, hz, e2, e2'⟩ := h2.2 p y hy
    exact ⟨z, hz, e2.trans e1, e2'.trans e1'⟩

theorem sameStat_probs {w : World K} {p : Nat} {P P' : Prob K} (hp : w.probs[p]? = some P) (h : P'.model = P.model ∧ P'.comps = P.comps) :
    SameStat w { w with probs := w.probs.set p P' } := by
  refine ⟨fun _ c h => ⟨c, h, rfl⟩, ?_⟩
  intro q Q hQ
  by_cases hq : p = q
  · subst hq
    rw [hp] at hQ; cases hQ
    exact ⟨P', by simp [(List.getElem?_eq_some_iff.1 hp).1], h⟩
  · exact ⟨Q, by simp [hq, hQ], rfl, rfl⟩

theorem sameStat_step {w : World K} (hw : ReachableW w) {op : Op K} (h : ArrayCall op) : SameStat w (step w op).2 := by
  cases op with
  | add | remove => exact h.elim
  | newComp n =>
    simp only [step]
    split
    · exact sameStat_refl w
    · refine ⟨fun i c hc => ⟨c, ?_, rfl⟩, fun _ P h => ⟨P, h, rfl, rfl⟩⟩
      rw [List.getElem?_append_left (List.getElem?_eq_some_iff.1 hc).1]; exact hc
  | newProblem m lo hi =>
    simp only [step]
    split
    · exact sameStat_refl w
    · refine ⟨fun _ c h => ⟨c, h, rfl⟩, fun p P hP => ⟨P, ?_, rfl, rfl⟩⟩
      rw [List.getElem?_append_left (List.getElem?_eq_some_iff.1 hP).1]; exact hP
  | comp i o =>
    simp only [step]
    split
    · exact sameStat_refl w
    · rename_i c hc
      refine ⟨?_, fun _ P h => ⟨P, h, rfl, rfl⟩⟩
      intro k x hx
      by_cases hk : i = k
      · subst hk
        rw [hc] at hx; cases hx
        exact ⟨_, by simp [setComp, (List.getElem?_eq_some_iff.1 hc).1], stat_arrayOp h c⟩
      · exact ⟨x, by simp [setComp, hk, hx], rfl⟩
  | updateVMin p v =>
    simp only [step]
    split
    · exact sameStat_refl w
    · rename_i P hP
      refine sameStat_probs hP ?_
      unfold Prob.updateVMin; split <;> exact ⟨rfl, rfl⟩
  | updateVMax p v =>
    simp only [step]
    split
    · exact sameStat_refl w
    · rename_i P hP
      refine sameStat_probs hP ?_
      unfold Prob.updateVMax; split <;> exact ⟨rfl, rfl⟩
  | compile p =>
    simp only [step]
    split
    · exact sameStat_refl w
    · rename_i P hP
      obtain ⟨-, h1⟩ := compileComps_spec P.comps _ (cacheOK_world hw)
      have h2 : (compileProb w.comps P).2 = (compileComps w.comps P.comps).2 := by
        unfold compileProb; split <;> simp_all
      refine ⟨?_, fun _ P h => ⟨P, h, rfl, rfl⟩⟩
      intro i c hc
      obtain ⟨c', h3, h4, -⟩ := h1.2 i c hc
      exact ⟨c', by simp only [h2]; exact h3, stat_fill h4⟩
  | component p n => simp only [step]; split <;> exact sameStat_refl w
  | task p n => simp only [step]; split <;> exact sameStat_refl w
  | barrier p n => simp only [step]; split <;> exact sameStat_refl w

theorem sameStat_run : ∀ (ops : List (Op K)) (w : World K), ReachableW w → (∀ op ∈ ops, ArrayCall op) → SameStat w (run w ops)
  | [], w, _, _ => sameStat_refl w
  | op :: ops, w, hw, h =>
    sameStat_trans (sameStat_step hw (h op (by simp)))
      (sameStat_run ops _ (reachableW_step hw op) (fun o ho => h o (by simp [ho])))

/-- Sorting by name commutes with anything that keeps the names. -/
theorem comps_shape (mt : MjModel K → PyTree (Static K) (Leaf K)) : ∀ {l l' : List (String × JaxComp K)},
    List.Forall₂ (fun (x y : String × JaxComp K) => x.1 = y.1 ∧ shapeOf (compTree mt x.2) = shapeOf (compTree mt y.2)) l l' →
    l.map (fun nj => (nj.1, shapeOf (compTree mt nj.2))) = l'.map (fun nj => (nj.1, shapeOf (compTree mt nj.2)))
  | _, _, .nil => rfl
  | _, _, .cons h t => by simp only [List.map_cons, h.1, h.2, comps_shape mt t]

theorem problemTree_shape (mt : MjModel K → PyTree (Static K) (Leaf K)) {J J' : JaxProblem K} (hm : J.model = J'.model)
    (h : List.Forall₂ (fun (x y : String × JaxComp K) => x.1 = y.1 ∧ shapeOf (compTree mt x.2) = shapeOf (compTree mt y.2))
      J.comps J'.comps) : shapeOf (problemTree mt J) = shapeOf (problemTree mt J') := by
  have key : ∀ l : List (String × JaxComp K), (l.insertionSort (fun a b => a.1 ≤ b.1)).map (fun nj => (nj.1, shapeOf (compTree mt nj.2)))
      = (l.map (fun nj => (nj.1, shapeOf (compTree mt nj.2)))).insertionSort (fun a b => a.1 ≤ b.1) := by
    intro l
    exact List.map_insertionSort (r := fun (a b : String × JaxComp K) => a.1 ≤ b.1)
      (s := fun (a b : String × PyTree (Static K) Unit) => a.1 ≤ b.1) (fun nj => (nj.1, shapeOf (compTree mt nj.2))) l
      (fun _ _ _ _ => Iff.rfl)
  unfold problemTree
  simp only [shapeOf, shape_ofList, List.map_cons, List.map_nil, List.map_map, hm]
  have h2 : ∀ l : List (String × JaxComp K),
      l.map ((fun x : String × PyTree (Static K) (Leaf K) => (x.1, shapeOf x.2)) ∘ fun nj => (nj.1, compTree mt nj.2)) =
      l.map (fun nj => (nj.1, shapeOf (compTree mt nj.2))) := fun l => rfl
  rw [h2, h2, key, key, comps_shape mt h]

/-- **C77.** Let a problem compile to `J1`, then let any calls follow that set only arrays and numbers (targets, gains, costs,
limits, safe displacement gains, activity flags), read, compile, or create other objects.  If the problem now compiles to `J2`,
then `J2` has the structure of `J1`: the same leaves at the same paths, and any axes specification (in particular one obtained
from `set_vmap_dimension` before) is accepted for `J2` exactly when it is for `J1`, with the same axis for every leaf. -/
theorem C77_structure_kept (mt : MjModel K → PyTree (Static K) (Leaf K)) (ops ops' : List (Op K)) (h' : ∀ op ∈ ops', ArrayCall op)
    {p : Nat} {J1 J2 : JaxProblem K} (h1 : (step (run World.init ops) (.compile p)).1 = .ok (.compiled J1))
    (h2 : (step (run World.init (ops ++ ops')) (.compile p)).1 = .ok (.compiled J2)) :
    shapeOf (problemTree mt J1) = shapeOf (problemTree mt J2) ∧
    (problemTree mt J1).paths.map (fun leaf => leaf.1) = (problemTree mt J2).paths.map (fun leaf => leaf.1) ∧
    ∀ ax, flattenAxes ax (problemTree mt J1) = flattenAxes ax (problemTree mt J2) := by
  have key : shapeOf (problemTree mt J1) = shapeOf (problemTree mt J2) := by
    obtain ⟨P1, hP1, m1, -, -, c1⟩ := compile_comps ⟨ops, rfl⟩ h1
    obtain ⟨P2, hP2, m2, -, -, c2⟩ := compile_comps ⟨ops ++ ops', rfl⟩ h2
    obtain ⟨s1, s2⟩ := sameStat_run ops' (run World.init ops) ⟨ops, rfl⟩ h'
    rw [run_append] at hP2
    obtain ⟨P', hP', e1, e2⟩ := s2 p P1 hP1
    rw [hP'] at hP2
    cases hP2
    refine problemTree_shape mt (by rw [m1, m2, e1]) ?_
    rw [e2] at c2
    generalize P1.comps = l at c1 c2
    generalize J1.comps = l1 at c1
    generalize J2.comps = l2 at c2
    induction c1 generalizing l2 with
    | nil => cases c2; exact .nil
    | cons a _ ih =>
      cases c2 with
      | cons b t =>
        refine .cons ⟨a.1.symm.trans b.1, ?_⟩ (ih _ t)
        obtain ⟨-, c, hc, hc'⟩ := a
        obtain ⟨-, d, hd, hd'⟩ := b
        obtain ⟨d', hd1, hd2⟩ := s1 _ c hc
        rw [run_append, hd1] at hd
        cases hd
        exact compTree_shape mt hc' hd' hd2.symm
  refine ⟨key, ?_, ?_⟩
  · rw [← paths_shape, key, paths_shape]
  · intro ax
    rw [← flatten_shape, key, flatten_shape]

/-- **C77** (when the axes no longer fit): axes obtained from `set_vmap_dimension`, with any assignments `ws` below the component
`nm` or elsewhere, are accepted for another compiled problem only if that one has a component `nm` of the same class with the same
dimension, gain function, mask indices and other static fields (damping, object, limit rows, collision pairs, hardness). -/
theorem C77_needs_same_static (mt : MjModel K → PyTree (Static K) (Leaf K)) (ops : List (Op K))
    {p : Nat} {P : Prob K} (hP : (run World.init ops).probs[p]? = some P) {J1 J2 : JaxProblem K}
    (h1 : (step (run World.init ops) (.compile p)).1 = .ok (.compiled J1)) {ax0 ax : PyTree (Static K) Int}
    (h0 : (setVmapDimension mt (run World.init ops).comps P).1 = .ok ax0) {ws : List (List String × Int)} (hax : ax0.writes ws = .ok ax)
    {nm : String} {j1 : JaxComp K} (hj1 : (nm, j1) ∈ J1.comps) (hws : ∀ w ∈ ws, w.1.isPrefixOf ["components", nm] = false)
    {xs : List (Option Int)} (hfit : flattenAxes ax (problemTree mt J2) = .ok xs) :
    ∃ j2, (nm, j2) ∈ J2.comps ∧ j2.kind.className = j1.kind.className ∧ j2.dim = j1.dim ∧ j2.gainFn = j1.gainFn ∧
      j2.maskIdxs = j1.maskIdxs ∧ j2.kind.static = j1.kind.static := by
  obtain ⟨J, hJ, rfl⟩ := setVmap_compile mt hP h0
  rw [h1] at hJ
  cases hJ
  have hl : labelAt ["components", nm] ax = some (.cls j1.kind.className ([.int j1.dim, .fn j1.gainFn, .idxs j1.maskIdxs] ++ j1.kind.static)) := by
    rw [labelAt_writes _ ws _ ax hax hws, labelAt_blank]
    unfold problemTree
    rw [labelAt, problem_get]
    simp only [labelAt]
    rw [components_get mt J1 (compile_names h1) hj1]
    rfl
  have h2 := labelAt_flatten _ ax _ hfit hl
  unfold problemTree at h2
  rw [labelAt, problem_get] at h2
  simp only [labelAt] at h2
  cases hg : (Kids.ofList ((J2.comps.insertionSort (fun a b => a.1 ≤ b.1)).map (fun nj => (nj.1, compTree mt nj.2)))).get nm with
  | none => rw [hg] at h2; cases h2
  | some t =>
    rw [hg] at h2
    obtain ⟨j2, hj2, rfl⟩ := components_get_some mt J2 hg
    simp only [compTree, labelAt, Option.some.injEq, Static.cls.injEq, List.cons_append, List.nil_append, List.cons.injEq,
      SVal.int.injEq, SVal.fn.injEq, SVal.idxs.injEq] at h2
    exact ⟨j2, hj2, h2.1, h2.2.1, h2.2.2.1, h2.2.2.2.1, h2.2.2.2.2⟩

/-- **C77** (damping is part of the structure): axes prepared before `task.lm_damping` is set to another value are rejected with
`ValueError` for the problem compiled afterwards. -/
theorem C77_damping (mt : MjModel K → PyTree (Static K) (Leaf K)) (ops : List (Op K))
    {p i : Nat} {P : Prob K} (hP : (run World.init ops).probs[p]? = some P) {nm : String} (hi : (nm, i) ∈ P.comps)
    {c : Comp K} (hc : (run World.init ops).comps[i]? = some c) {t : TaskA K} (ht : c.attrs.kind.taskA? = some t)
    {x : K} (hx : x ≠ t.lmDamping) {ax0 ax : PyTree (Static K) Int}
    (h0 : (setVmapDimension mt (run World.init ops).comps P).1 = .ok ax0) {ws : List (List String × Int)} (hax : ax0.writes ws = .ok ax)
    (hws : ∀ w ∈ ws, w.1.isPrefixOf ["components", nm] = false) {J2 : JaxProblem K}
    (h2 : (step (run World.init (ops ++ [.comp i (.setLmDamping x)])) (.compile p)).1 = .ok (.compiled J2)) :
    flattenAxes ax (problemTree mt J2) = .error .valueError := by
  obtain ⟨J1, h1, -⟩ := setVmap_compile mt hP h0
  cases hfit : flattenAxes ax (problemTree mt J2) with
  | error e => rw [flatten_error _ _ hfit]
  | ok xs =>
    exfalso
    obtain ⟨P1, hP1, -, -, -, c1⟩ := compile_comps ⟨ops, rfl⟩ h1
    rw [hP] at hP1; cases hP1
    obtain ⟨P2, hP2, -, -, -, c2⟩ := compile_comps ⟨_, rfl⟩ h2
    have hw : run World.init (ops ++ [.comp i (.setLmDamping x)]) = (step (run World.init ops) (.comp i (.setLmDamping x))).2 := by
      rw [run_append]; rfl
    rw [hw] at hP2 c2
    simp only [step, hc] at hP2 c2
    rw [hP] at hP2; cases hP2
    have hlen := (List.getElem?_eq_some_iff.1 hc).1
    have hn1 := compile_names h1
    have hn2 := compile_names h2
    have get1 : ∀ {l : List (String × Nat)} {js : List (String × JaxComp K)} {R : String × Nat → String × JaxComp K → Prop},
        List.Forall₂ (fun a b => a.1 = b.1 ∧ R a b) l js → (nm, i) ∈ l → ∃ j, (nm, j) ∈ js ∧ R (nm, i) (nm, j) := by
      intro l js R h
      induction h with
      | nil => intro h; simp at h
      | @cons a b l js hab _ ih =>
        intro h
        rcases List.mem_cons.1 h with rfl | h
        · obtain ⟨b1, b2⟩ := b
          obtain ⟨rfl, hr⟩ := hab
          exact ⟨b2, by simp, hr⟩
        · obtain ⟨j, hj, hr⟩ := ih h
          exact ⟨j, by simp [hj], hr⟩
    obtain ⟨j1, hj1, d1, hd1, hc1⟩ := get1 c1 hi
    obtain ⟨j2, hj2, d2, hd2, hc2⟩ := get1 c2 hi
    rw [hc] at hd1; cases hd1
    obtain ⟨j2', hj2', e1, -, -, -, e2⟩ := C77_needs_same_static mt ops hP h1 h0 hax hj1 hws hfit
    have : j2' = j2 := by
      have a := find_of_mem hn2 hj2
      have b := find_of_mem hn2 hj2'
      rw [a] at b
      simpa using b.symm
    subst this
    simp only [setComp, hlen, List.getElem?_set_self, Option.some.injEq] at hd2
    have k1 := kstat_kindOf hc1.kind
    have k2 := kstat_kindOf hc2.kind
    rw [e1, e2, ← k1, ← hd2] at k2
    simp only [CompOp.run, setLmDamping, ht] at k2
    cases hk : c.attrs.kind <;> simp [hk, Kind.taskA?] at ht <;> subst ht <;> simp [hk, Comp.set, Kind.setTaskA, kstat] at k2 <;> exact hx k2

namespace VmapEx

/-- A model seen as a tree with one array. -/
def mt (_ : MjModel ℚ) : PyTree (Static ℚ) (Leaf ℚ) := .node (.other "Model") (.cons "body_mass" (.leaf (.arr (Arr.zeros 5))) .nil)

theorem mt_distinct (m : MjModel ℚ) : DistinctNames (mt m) := by simp [mt, DistinctNames, DistinctNamesK, Kids.get]

/-- A frame task and a joint task. -/
def ops : List (Op ℚ) :=
  [.newComp (.frameTask Ex.taskArgs "b2" .body), .newComp (.jointTask { Ex.taskArgs with name := "j" } none),
   .newProblem Ex.model (Ex.scalar (-1)) (Ex.scalar 1), .add 0 0, .add 0 1]

/-- A target and a gain are set, velocity limits are changed, another component is made and the problem compiled. -/
def later : List (Op ℚ) :=
  [.comp 0 (.updateTargetFrame (.array ⟨[5, 7], fun i => (i.getD 0 0 : ℚ)⟩)), .comp 1 (.updateGain (Ex.scalar 2)), .compile 0,
   .updateVMax 0 (Ex.scalar 4), .newComp (.comTask Ex.taskArgs), .comp 1 (.updateTarget (Arr.zeros 2))]

/-- The assignments of the example script: map the target frame, the gain of the joint task (twice) and the velocity limit. -/
def ws : List (List String × Int) :=
  [(["components", "t", "target_frame"], 0), (["components", "j", "vector_gain"], 1), (["v_min"], 0),
   (["components", "j", "vector_gain"], 0)]

example : ∃ J P ax0, (step (run World.init ops) (.compile 0)).1 = .ok (.compiled J) ∧ (run World.init ops).probs[0]? = some P ∧
    (setVmapDimension mt (run World.init ops).comps P).1 = .ok ax0 ∧
    ∃ ax, ax0.writes ws = .ok ax ∧
      (problemTree mt J).paths.map (fun leaf => (leaf.1, lastWrite ws leaf.1)) =
        [(["model", "body_mass"], none), (["v_min"], some 0), (["v_max"], none),
         (["components", "j", "model", "body_mass"], none), (["components", "j", "vector_gain"], some 0),
         (["components", "j", "matrix_cost"], none), (["components", "j", "target_q"], none), (["components", "j", "qmask_idxs"], none),
         (["components", "t", "model", "body_mass"], none), (["components", "t", "vector_gain"], none),
         (["components", "t", "matrix_cost"], none), (["components", "t", "target_frame", "wxyz_xyz"], some 0)] := by
  refine ⟨_, _, _, rfl, rfl, rfl, _, rfl, ?_⟩
  rfl

/-- The assignments meet the hypotheses of `C67_assignable`. -/
example : ws.Pairwise (fun v w => v.1.isPrefixOf w.1 = false ∨ v.1 = w.1) := by decide

example : ∃ J, (step (run World.init ops) (.compile 0)).1 = .ok (.compiled J) ∧
    ∀ w ∈ ws, ∃ leaf ∈ (problemTree mt J).paths, w.1.isPrefixOf leaf.1 := by
  refine ⟨_, rfl, ?_⟩
  intro w hw
  fin_cases hw
  · exact ⟨_, List.mem_of_getElem? (i := 11) rfl, rfl⟩
  · exact ⟨_, List.mem_of_getElem? (i := 4) rfl, rfl⟩
  · exact ⟨_, List.mem_of_getElem? (i := 1) rfl, rfl⟩
  · exact ⟨_, List.mem_of_getElem? (i := 4) rfl, rfl⟩

/-- `C77_structure_kept` applies to `later`: both compile, with different targets, and the axes are accepted afterwards. -/
example : ∃ J1 J2 P ax0 ax, (step (run World.init ops) (.compile 0)).1 = .ok (.compiled J1) ∧
    (step (run World.init (ops ++ later)) (.compile 0)).1 = .ok (.compiled J2) ∧ (∀ op ∈ later, ArrayCall op) ∧
    (run World.init ops).probs[0]? = some P ∧ (setVmapDimension mt (run World.init ops).comps P).1 = .ok ax0 ∧
    ax0.writes ws = .ok ax ∧
    flattenAxes ax (problemTree mt J2) = .ok [none, some 0, none, none, some 0, none, none, none, none, none, none, some 0] := by
  have hl : ∀ op ∈ later, ArrayCall op := by
    intro op h; fin_cases h <;> trivial
  refine ⟨_, _, _, _, _, rfl, rfl, hl, rfl, rfl, rfl, ?_⟩
  obtain ⟨J, hJ, hax⟩ := C67_axes mt mt_distinct ops (p := 0) rfl rfl
  rw [← (C77_structure_kept mt ops later hl hJ rfl).2.2]
  cases hJ
  rw [hax ws _ rfl]
  rfl

/-- `C77_damping` applies to the frame task. -/
example : ∃ P c t J2, (run World.init ops).probs[0]? = some P ∧ ("t", 0) ∈ P.comps ∧ (run World.init ops).comps[0]? = some c ∧
    c.attrs.kind.taskA? = some t ∧ (1 : ℚ) ≠ t.lmDamping ∧
    (step (run World.init (ops ++ [.comp 0 (.setLmDamping 1)])) (.compile 0)).1 = .ok (.compiled J2) ∧
    ∀ w ∈ ws, w.1.isPrefixOf ["components", "t"] = false := by
  refine ⟨_, _, _, _, rfl, by decide, rfl, rfl, ?_, rfl, by decide⟩
  show (1 : ℚ) ≠ 0
  norm_num

end VmapEx

end Mjinx.Props
