import Verif.Lemmas.ObjInv
import Verif.Lemmas.JointEval
import Verif.Spec.ExEnv

/-!
# C57: equality constraints
-/

namespace Mjinx.Props
open Spec
set_option linter.unusedSectionVars false
variable {K : Type} [Field K] [LinearOrder K]

/-- Rows an equality constraint of MuJoCo contributes; `none`: a type mjinx does not support. -/
def eqRowCount : EqType → Option Nat
  | .connect => some 3
  | .weld => some 6
  | .joint => some 1
  | .unsupported => none

/-- Indices of the equality rows among all constraint rows of the simulator, in order. -/
def equalityRows (d : MjData K) : List Nat :=
  (List.range d.efcEq.length).filter (fun i => d.efcEq.getD i false)

theorem countEqRows_spec (es : List EqType) :
    (∀ n, countEqRows es = .ok n ↔ (∀ e ∈ es, eqRowCount e ≠ none) ∧ n = (es.map (fun e => (eqRowCount e).getD 0)).sum) ∧
    (∀ e ∈ es, eqRowCount e = none → countEqRows es = .error .valueError) := by
  induction es with
  | nil =>
    constructor
    · intro n; simp only [countEqRows, Except.ok.injEq]; simp [eq_comm]
    · simp
  | cons e es ih =>
    obtain ⟨h1, h2⟩ := ih
    have key : ∀ k, eqRowCount e = some k → countEqRows (e :: es) = (countEqRows es).map (k + ·) := by
      intro k hk; cases e <;> simp_all [eqRowCount, countEqRows]
    cases hk : eqRowCount e with
    | none =>
      have he : e = .unsupported := by cases e <;> simp_all [eqRowCount]
      subst he
      constructor
      · intro n; simp [countEqRows, hk]
      · intro _ _ _; rfl
    | some k =>
      rw [key k hk]
      constructor
      · intro n
        cases hc : countEqRows es with
        | error er =>
          simp only [Except.map, reduceCtorEq, false_iff, not_and]
          intro hs
          exfalso
          have := (h1 _).2 ⟨fun x hx => hs x (by simp [hx]), rfl⟩
          rw [hc] at this; cases this
        | ok r =>
          obtain ⟨a, b⟩ := (h1 r).1 hc
          simp only [Except.map, Except.ok.injEq, List.map_cons, List.sum_cons, hk, Option.getD_some, ← b,
            List.forall_mem_cons]
          constructor
          · rintro rfl; exact ⟨⟨by simp, a⟩, rfl⟩
          · rintro ⟨_, rfl⟩; rfl
      · intro x hx hn
        rcases List.mem_cons.1 hx with rfl | hx
        · rw [hk] at hn; cases hn
        · rw [h2 x hx hn]; rfl

/-- Dimension and indices of an equality constraint bound to a model. -/
def EqInv (c : Comp K) : Prop :=
  c.attrs.kind.tag = .equality ∧ ∀ m, c.attrs.model = some m → ∃ n, countEqRows m.eqType = .ok n ∧
    c.attrs.dim = (n : Int) ∧ c.attrs.maskIdxs = List.range n

theorem eqInv_update {m : MjModel K} {c : Comp K} (ht : c.attrs.kind.tag = .equality)
    (h : (updateModel m c).1 = .ok ()) : EqInv (updateModel m c).2 := by
  have ht' := run_tag (.updateModel m) c
  refine ⟨by simpa [CompOp.run, ht] using ht', ?_⟩
  clear ht'
  have : updateModel m c = updateModelEquality m c := by
    unfold updateModel
    cases hk : c.attrs.kind <;> rw [hk] at ht <;> cases ht
  rw [this] at h ⊢
  unfold updateModelEquality at h ⊢
  dsimp only at h ⊢
  split at h
  · cases h
  · rename_i n hn
    intro m' hm'
    cases hm'
    exact ⟨n, hn, rfl, rfl⟩

theorem eqInv_clean {name : String} {gain : Arr K} {hard : Bool} {soft : Option (Arr K)} {c0 c : Comp K}
    (h0 : newModelEquality name gain hard soft = .ok c0) (hr : CleanRun c0 c) : EqInv c := by
  have hn : (NewComp.modelEquality name gain hard soft).run = .ok c0 := h0
  have ht0 : c0.attrs.kind.tag = .equality := by
    obtain ⟨at0, h, rfl⟩ := newModelEquality_ok h0
    obtain ⟨_, m, idxs, h1, rfl⟩ := initAttrs_ok h
    rfl
  induction hr with
  | refl => exact ⟨ht0, fun m hm => by rw [model_none_of_new hn] at hm; cases hm⟩
  | accepted ops m h =>
    refine eqInv_update ?_ h
    exact runOps_induct (P := fun c => c.attrs.kind.tag = .equality) ht0
      (fun op c h => by rw [run_tag, h]) ops
  | @step c op _ hop ih =>
    by_cases hu : ∃ m, op = .updateModel m
    · obtain ⟨m, rfl⟩ := hu
      exact eqInv_update ih.1 (hop m rfl)
    · have hu' : ∀ m, op ≠ .updateModel m := fun m h => hu ⟨m, h⟩
      refine ⟨by rw [run_tag, ih.1], ?_⟩
      intro m hm
      rw [run_model op c hu'] at hm
      obtain ⟨n, h1, h2, h3⟩ := ih.2 m hm
      refine ⟨n, h1, by rw [run_dim op c hu', h2], ?_⟩
      rcases run_mask op c hu' with ⟨_, e⟩ | ⟨_, _, e⟩
      · rw [e, h3]
      · rw [e, h2]; simp

/-- C57: once the most recent model was accepted, a compiled equality constraint has 3 rows per connect, 6
per weld and 1 per joint equality of its model, which has no equality of another type. -/
theorem C57_size {name : String} {gain : Arr K} {hard : Bool} {soft : Option (Arr K)} {c0 c : Comp K}
    (h0 : newModelEquality name gain hard soft = .ok c0) (hr : CleanRun c0 c) {j : JaxComp K}
    (hj : (jaxComponent c).1 = .ok j) :
    (∀ e ∈ j.model.eqType, eqRowCount e ≠ none) ∧
    j.dim = ((j.model.eqType.map (fun e => (eqRowCount e).getD 0)).sum : Nat) ∧
    j.maskIdxs = List.range (j.model.eqType.map (fun e => (eqRowCount e).getD 0)).sum := by
  have hn : (NewComp.modelEquality name gain hard soft).run = .ok c0 := h0
  have hC : CompilesTo c.attrs j :=
    jaxComponent_spec (cacheOK_reachable (hr.reachable hn)) (c' := (jaxComponent c).2) (by rw [← hj])
  obtain ⟨ht, hI⟩ := eqInv_clean h0 hr
  obtain ⟨n, h1, h2, h3⟩ := hI _ hC.model
  obtain ⟨a, b⟩ := ((countEqRows_spec _).1 n).1 h1
  rw [← b]
  refine ⟨a, by rw [hC.dim, h2], ?_⟩
  rw [hC.maskIdxs, h3, h2]
  split <;> simp

/-- C57: after any history, a model with an equality of an unsupported type is refused. -/
theorem C57_unsupported_refused {name : String} {gain : Arr K} {hard : Bool} {soft : Option (Arr K)}
    {c0 : Comp K} (h0 : newModelEquality name gain hard soft = .ok c0) (ops : List (CompOp K))
    (m : MjModel K) (e : EqType) (he : e ∈ m.eqType) (hu : eqRowCount e = none) :
    (updateModel m (runOps c0 ops)).1 = .error .valueError := by
  have ht : (runOps c0 ops).attrs.kind.tag = .equality := by
    refine runOps_induct (P := fun c => c.attrs.kind.tag = .equality) ?_ (fun op c h => by rw [run_tag, h]) ops
    obtain ⟨at0, h, rfl⟩ := newModelEquality_ok h0
    obtain ⟨_, m, idxs, h1, rfl⟩ := initAttrs_ok h
    rfl
  have hx : updateModel m (runOps c0 ops) = updateModelEquality m (runOps c0 ops) := by
    unfold updateModel
    cases hk : (runOps c0 ops).attrs.kind <;> rw [hk] at ht <;> cases ht
  rw [hx]
  unfold updateModelEquality
  rw [(countEqRows_spec _).2 e he hu]

theorem eqSelect_getD {α : Type} (z : α) : ∀ (eq : List Bool) (xs : List α), xs.length = eq.length →
    (eqSelect eq xs).length = ((List.range eq.length).filter (fun i => eq.getD i false)).length ∧
    ∀ i, (h : i < ((List.range eq.length).filter (fun i => eq.getD i false)).length) →
      (eqSelect eq xs).getD i z = xs.getD ((List.range eq.length).filter (fun i => eq.getD i false))[i] z := by
  intro eq
  induction eq with
  | nil => intro xs hx; refine ⟨rfl, ?_⟩; intro i h; exact absurd h (by simp)
  | cons b bs ih =>
    intro xs hx
    cases xs with
    | nil => cases hx
    | cons x xs =>
      obtain ⟨l1, l2⟩ := ih xs (by simpa using hx)
      have hr : (List.range (b :: bs).length).filter (fun i => (b :: bs).getD i false) =
          (if b then [0] else []) ++ ((List.range bs.length).filter (fun i => bs.getD i false)).map (· + 1) := by
        rw [List.length_cons, List.range_succ_eq_map, List.filter_cons, List.filter_map]
        have : ((fun i => (b :: bs).getD i false) ∘ Nat.succ) = fun i => bs.getD i false := by
          funext i; simp
        rw [this]
        cases b <;> simp
      have hs : eqSelect (b :: bs) (x :: xs) = (if b then [x] else []) ++ eqSelect bs xs := by
        unfold eqSelect
        cases b <;> simp
      rw [hs]
      simp only [hr]
      cases b
      · simp only [Bool.false_eq_true, if_false, List.nil_append, List.length_map]
        refine ⟨l1, ?_⟩
        intro i h
        rw [l2 i h]; simp
      · simp only [if_true, List.singleton_append, List.length_cons, List.length_map]
        refine ⟨by rw [l1], ?_⟩
        intro i h
        cases i with
        | zero => simp
        | succ i =>
          have := l2 i (by omega)
          simp only [List.getD_cons_succ, List.getElem_cons_succ, List.getElem_map]
          exact this

/-- C57: if the simulator produced the equality rows of the model (and arrays of equal length), the value is
exactly the list of violations of these rows and the Jacobian exactly the list of their Jacobian rows. -/
theorem C57_rows {name : String} {gain : Arr K} {hard : Bool} {soft : Option (Arr K)} {c0 c : Comp K}
    (h0 : newModelEquality name gain hard soft = .ok c0) (hr : CleanRun c0 c) {j : JaxComp K}
    (hj : (jaxComponent c).1 = .ok j) (env : Env K) (d : MjData K)
    (hp : d.efcPos.length = d.efcEq.length) (hJ : d.efcJ.length = d.efcEq.length)
    (hrows : (equalityRows d).length = (j.model.eqType.map (fun e => (eqRowCount e).getD 0)).sum) :
    ∃ v J, evalValue env j d = .ok v ∧ evalJacobian env j d = .ok J ∧
      v.len = (equalityRows d).length ∧ J.rows = (equalityRows d).length ∧ J.cols = j.model.nv ∧
      ∀ i (h : i < (equalityRows d).length), v.get i = d.efcPos.getD (equalityRows d)[i] 0 ∧
        ∀ k, J.get i k = (d.efcJ.getD (equalityRows d)[i] (Vec.zero 0)).get k := by
  obtain ⟨-, -, hm⟩ := C57_size h0 hr hj
  have hn : (NewComp.modelEquality name gain hard soft).run = .ok c0 := h0
  have hC : CompilesTo c.attrs j :=
    jaxComponent_spec (cacheOK_reachable (hr.reachable hn)) (c' := (jaxComponent c).2) (by rw [← hj])
  obtain ⟨ht, -⟩ := eqInv_clean h0 hr
  rw [← hrows] at hm
  have hK := hC.kind
  have hjk : ∃ a b w, j.kind = .modelEquality a b w := by
    cases hk : c.attrs.kind <;> rw [hk] at ht <;> cases ht
    rw [hk] at hK
    cases hjk : j.kind <;> rw [hjk] at hK <;> simp only [KindOf] at hK
    exact ⟨_, _, _, rfl⟩
  obtain ⟨a, b, w, hjk⟩ := hjk
  obtain ⟨p1, p2⟩ := eqSelect_getD 0 d.efcEq d.efcPos hp
  obtain ⟨q1, q2⟩ := eqSelect_getD (Vec.zero 0) d.efcEq d.efcJ hJ
  unfold evalValue evalJacobian
  rw [hjk]
  refine ⟨_, _, rfl, rfl, by simp [Vec.gather, hm], by simp [Mat.gatherRows, hm], rfl, ?_⟩
  intro i hi
  have hi' : i < j.maskIdxs.length := by rw [hm]; simpa using hi
  have hidx : j.maskIdxs[i] = i := by simp only [hm, List.getElem_range]
  have hgd : (j.maskIdxs[i]?).getD 0 = i := by rw [List.getElem?_eq_getElem hi', hidx]; rfl
  constructor
  · rw [gather_get hi' (by simp only [hidx]; rw [p1]; exact hi), hidx]
    exact p2 i hi
  · intro k
    have : (min i ((eqSelect d.efcEq d.efcJ).length - 1)) = i := by rw [q1]; unfold equalityRows at hi; omega
    simp only [Mat.gatherRows, hgd, this]
    rw [q2 i hi]; rfl

example : ∃ c0 c j, newModelEquality "e" (Ex.scalar 1) false none = .ok c0 ∧ CleanRun c0 c ∧
    (jaxComponent c).1 = .ok j ∧ j.dim = 4 ∧ EqType.connect ∈ j.model.eqType :=
  ⟨_, _, _, rfl, .accepted [.updateModel { Ex.model with eqType := [.unsupported] }] Ex.model rfl, rfl, rfl,
    by decide⟩
example : ∃ d : MjData ℚ, d.efcPos.length = d.efcEq.length ∧ d.efcJ.length = d.efcEq.length ∧
    (equalityRows d).length = (Ex.model.eqType.map (fun e => (eqRowCount e).getD 0)).sum ∧
    equalityRows d = [0, 2, 3, 4] := by
  refine ⟨{ Ex.data Ex.model ⟨13, fun _ => 0⟩ with
    efcEq := [true, false, true, true, true], efcPos := [1, 2, 3, 4, 5],
    efcJ := List.replicate 5 (Vec.zero 11) }, rfl, rfl, by decide, by decide⟩

end Mjinx.Props
