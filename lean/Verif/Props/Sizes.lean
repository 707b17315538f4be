import Verif.Props.Objects
import Verif.Props.ClosedLoop
import Verif.Props.Problem
import Verif.Props.SelfCollision
import Verif.Spec.ExEnv
import Verif.Lemmas.Pipeline

/-!
# C68: sizes of values, Jacobians, gains and costs
-/

namespace Mjinx.Spec
variable {K : Type} [Field K] [LinearOrder K]

/-- `jax.jacrev` returns one row per output and one column per input; the simulation data has one coordinate per entry of the
configuration and one motion axis per degree of freedom; the model names a body for every degree of freedom. -/
structure Sized (env : Env K) (m : MjModel K) (d : MjData K) : Prop where
  jacrev : ∀ f q, (env.jacrev f q).rows = (f q).len ∧ (env.jacrev f q).cols = q.len
  qpos : d.qpos.len = m.nq
  cdof : d.cdof.length = m.nv
  dofBody : m.dofBodyid.length = m.nv

/-- Settings that nothing checks: the limits of a joint barrier fit the selected joints (limits given to the constructor are not
checked), and the number of pairs of a self-collision barrier was not changed after the last model update. -/
def Settled (j : JaxComp K) : Prop :=
  match j.kind with
  | .jointBarrier _ lo hi qi => FitsVec lo qi.length ∧ FitsVec hi qi.length
  | .selfCollision _ _ _ n => n = j.dim
  | _ => True

/-- A program in which no model update is refused half way: every call that hands a model to a component either succeeds or
changes nothing. -/
def CleanProgram (w : World K) : List (Op K) → Prop
  | [] => True
  | op :: ops =>
    (match op with
      | .add _ _ => ∀ e, (step w op).1 = .error e → (step w op).2 = w
      | .comp _ (.updateModel _) => ∀ e, (step w op).1 = .error e → (step w op).2 = w
      | _ => True) ∧ CleanProgram (step w op).2 ops

end Mjinx.Spec

namespace Mjinx.Props
open Spec
set_option linter.unusedSectionVars false
variable {K : Type} [Field K] [LinearOrder K]

theorem subVec_len {a b e : Vec K} {n : Nat} (ha : a.len = n) (hb : b.len = n) (h : subVec a b = .ok e) : e.len = n := by
  unfold subVec Vec.zip at h
  rw [if_pos (by rw [ha, hb])] at h
  cases h; exact ha

theorem operand_of_lastDim {a : Arr K} {n : Nat} {t : Vec K} (h : a.lastDim = .ok n) (ht : a.operand = .ok t) : t.len = n := by
  unfold Arr.operand at ht
  unfold Arr.lastDim at h
  split at ht
  · rename_i hs; rw [hs] at h; cases h
  · rename_i k hs; rw [hs] at h; cases h; cases ht; rfl
  · cases ht

theorem fits_sub {a : Arr K} {n : Nat} {t x e : Vec K} (h : FitsVec a n) (ht : a.operand = .ok t) (hx : x.len = n) :
    (subVec x t = .ok e → e.len = n) ∧ (subVec t x = .ok e → e.len = n) := by
  obtain ⟨t', h1, h2⟩ := operand_fits h
  rw [ht] at h1; cases h1
  obtain ⟨r, a1, a2, -, r', b1, b2, -⟩ := h2 x hx
  exact ⟨fun h => by rw [a1] at h; cases h; exact a2, fun h => by rw [b1] at h; cases h; exact b2⟩

/-- The axes of a compiled equality constraint are as many as its dimension. -/
theorem equality_mask {n : NewComp K} {c0 c : Comp K} (hn : n.run = .ok c0) (hr : CleanRun c0 c)
    (ht : c0.attrs.kind.tag = .equality) : c.attrs.model.isSome → c.attrs.mask = none ∨ c.attrs.maskIdxs.length = c.attrs.dim.toNat := by
  have upd : ∀ (m : MjModel K) (c : Comp K), c.attrs.kind.tag = .equality → (updateModel m c).1 = .ok () →
      (updateModel m c).2.attrs.maskIdxs.length = (updateModel m c).2.attrs.dim.toNat := by
    intro m c ht h
    cases hk : c.attrs.kind <;> rw [hk] at ht <;> simp only [Kind.tag, reduceCtorEq] at ht
    rename_i a h' s
    have hu : updateModel m c = updateModelEquality m c := by unfold updateModel; rw [hk]
    rw [hu] at h ⊢
    unfold updateModelEquality at h ⊢
    dsimp only at h ⊢
    split at h
    · cases h
    · rename_i hc
      simp only [Comp.set]
      simp
  induction hr with
  | refl => intro h; rw [model_none_of_new hn] at h; cases h
  | @step c op hc hop ih =>
    have htc : c.attrs.kind.tag = .equality := by rw [hc.tag]; exact ht
    by_cases hu : ∃ m, op = .updateModel m
    · obtain ⟨m, rfl⟩ := hu
      exact fun _ => .inr (upd m c htc (hop m rfl))
    · have hm' : ∀ m, op ≠ .updateModel m := fun m h => hu ⟨m, h⟩
      intro hs
      rw [run_model op c hm'] at hs
      rw [run_dim op c hm']
      rcases run_mask op c hm' with ⟨h1, h2⟩ | ⟨h0, h1, h2⟩
      · rw [h1, h2]; exact ih hs
      · right; rw [h2]; simp
  | accepted ops m h =>
    have : (runOps c0 ops).attrs.kind.tag = .equality := by
      rw [← ht]
      exact runOps_induct (P := fun c => c.attrs.kind.tag = c0.attrs.kind.tag) rfl (fun op c ih => by rw [run_tag, ih]) ops
    exact fun _ => .inr (upd m _ this h)

theorem closest_length {xs : List K} {k : Int} {idx : List Nat} (h : closest xs k = .ok idx) : (idx.length : Int) = k := by
  unfold closest at h
  split at h
  · cases h
  · rename_i hk
    cases h
    rw [List.length_take]
    have : (ascOrder xs).length = xs.length := by unfold ascOrder; rw [List.length_mergeSort, List.length_range]
    rw [this]; omega

theorem new_jointTask {n : NewComp K} {c0 : Comp K} (hn : n.run = .ok c0) (h : c0.attrs.kind.tag = .joint) :
    ∃ a fm, n = .jointTask a fm := by
  cases n <;> simp only [NewComp.run] at hn
  case jointTask a fm => exact ⟨a, fm, rfl⟩
  all_goals exfalso
  case comTask => obtain ⟨t, at0, _, _, h', rfl⟩ := newComTask_ok hn; obtain ⟨_, m, idxs, h1, rfl⟩ := initAttrs_ok h'; cases h
  case positionTask => obtain ⟨t, at0, _, h', rfl⟩ := newPositionTask_ok hn; obtain ⟨_, m, idxs, h1, rfl⟩ := initAttrs_ok h'; cases h
  case frameTask => obtain ⟨t, at0, _, h', rfl⟩ := newFrameTask_ok hn; obtain ⟨_, m, idxs, h1, rfl⟩ := initAttrs_ok h'; cases h
  case jointBarrier => obtain ⟨at0, h', rfl⟩ := newJointBarrier_ok hn; obtain ⟨_, m, idxs, h1, rfl⟩ := initAttrs_ok h'; cases h
  case positionBarrier => obtain ⟨at0, lt, lo, hi, h', h2, h3, h4, rfl⟩ := newPositionBarrier_ok hn; obtain ⟨_, m, idxs, h1, rfl⟩ := initAttrs_ok h'; cases h
  case selfCollision => obtain ⟨at0, h', rfl⟩ := newSelfCollision_ok hn; obtain ⟨_, m, idxs, h1, rfl⟩ := initAttrs_ok h'; cases h
  case modelEquality => obtain ⟨at0, h', rfl⟩ := newModelEquality_ok hn; obtain ⟨_, m, idxs, h1, rfl⟩ := initAttrs_ok h'; cases h

theorem new_jointBarrier {n : NewComp K} {c0 : Comp K} (hn : n.run = .ok c0) (h : c0.attrs.kind.tag = .jointBarrier) :
    ∃ a lo hi fm, n = .jointBarrier a lo hi fm := by
  cases n <;> simp only [NewComp.run] at hn
  case jointBarrier a lo hi fm => exact ⟨a, lo, hi, fm, rfl⟩
  all_goals exfalso
  case comTask => obtain ⟨t, at0, _, _, h', rfl⟩ := newComTask_ok hn; obtain ⟨_, m, idxs, h1, rfl⟩ := initAttrs_ok h'; cases h
  case jointTask => obtain ⟨t, at0, _, h', rfl⟩ := newJointTask_ok hn; obtain ⟨_, m, idxs, h1, rfl⟩ := initAttrs_ok h'; cases h
  case positionTask => obtain ⟨t, at0, _, h', rfl⟩ := newPositionTask_ok hn; obtain ⟨_, m, idxs, h1, rfl⟩ := initAttrs_ok h'; cases h
  case frameTask => obtain ⟨t, at0, _, h', rfl⟩ := newFrameTask_ok hn; obtain ⟨_, m, idxs, h1, rfl⟩ := initAttrs_ok h'; cases h
  case positionBarrier => obtain ⟨at0, lt, lo, hi, h', h2, h3, h4, rfl⟩ := newPositionBarrier_ok hn; obtain ⟨_, m, idxs, h1, rfl⟩ := initAttrs_ok h'; cases h
  case selfCollision => obtain ⟨at0, h', rfl⟩ := newSelfCollision_ok hn; obtain ⟨_, m, idxs, h1, rfl⟩ := initAttrs_ok h'; cases h
  case modelEquality => obtain ⟨at0, h', rfl⟩ := newModelEquality_ok hn; obtain ⟨_, m, idxs, h1, rfl⟩ := initAttrs_ok h'; cases h

/-- **C68** (value): the value of a compiled component has as many entries as its dimension.  Missing:
components that are not `Settled`, where it is false (`C68_wrong`). -/
theorem C68_value_partial {n : NewComp K} {c0 c : Comp K} {j : JaxComp K} (hn : n.run = .ok c0) (hr : CleanRun c0 c)
    (hj : (jaxComponent c).1 = .ok j) (hw : JointsWF j.model) (hs : Settled j) {env : Env K} {d : MjData K} {e : Vec K}
    (he : evalValue env j d = .ok e) : (e.len : Int) = j.dim := by
  have hC : CompilesTo c.attrs j :=
    jaxComponent_spec (cacheOK_reachable (hr.reachable hn)) (c' := (jaxComponent c).2) (by rw [← hj])
  obtain ⟨n', c1, ops, hn', hc'⟩ := hr.reachable hn
  have hF : FInv c.attrs := by
    rw [hc']; exact runOps_induct (P := fun c => FInv c.attrs) (finv_new hn') finv_run ops
  have htag := hr.tag
  have hmask : ∀ k : Nat, c.attrs.dim = k → (c.attrs.mask = none ∨ c.attrs.maskIdxs.length = k) → j.maskIdxs.length = k := by
    intro k hk h
    rw [hC.maskIdxs]
    rcases h with h | h
    · rw [h]; simp [hk]
    · split
      · exact h
      · simp [hk]
  have hK := hC.kind
  rw [hC.dim]
  unfold FInv at hF
  unfold evalValue at he
  cases hk : c.attrs.kind <;> rw [hk] at hK hF htag <;> cases hjk : j.kind <;> rw [hjk] at hK he <;> simp only [KindOf] at hK <;>
    dsimp only at he
  case comTask.comTask t x w lm x' =>
    obtain ⟨k, h1, h2, h3⟩ := hF
    obtain ⟨-, -, rfl⟩ := hK
    obtain ⟨t, ht, he⟩ := Except.bind_eq_ok he
    obtain ⟨r, _, he⟩ := Except.bind_eq_ok he
    obtain ⟨p, _, he⟩ := Except.bind_eq_ok he
    rw [subVec_len (hmask k h1 h3) (operand_of_lastDim h2 ht) he, h1]
  case positionTask.positionTask t o x w lm i ty x' =>
    obtain ⟨k, h1, h2, h3⟩ := hF
    obtain ⟨-, -, -, -, rfl⟩ := hK
    obtain ⟨t, ht, he⟩ := Except.bind_eq_ok he
    obtain ⟨p, _, he⟩ := Except.bind_eq_ok he
    rw [subVec_len (hmask k h1 h3) (operand_of_lastDim h2 ht) he, h1]
  case frameTask.frameTask t o x w lm i ty x' =>
    obtain ⟨k, h1, h3⟩ := hF
    obtain ⟨t, ht, he⟩ := Except.bind_eq_ok he
    obtain ⟨T, _, he⟩ := Except.bind_eq_ok he
    obtain ⟨F, _, he⟩ := Except.bind_eq_ok he
    cases he
    show (j.maskIdxs.length : Int) = _
    rw [hmask k h1 h3, h1]
  case positionBarrier.positionBarrier s o lo hi lt li s' i ty lo' hi' li' =>
    obtain ⟨h1, h2, h3, h4, h5, h6⟩ := hF
    obtain ⟨-, -, -, rfl, rfl, rfl, -⟩ := hK
    obtain ⟨l, _, he⟩ := Except.bind_eq_ok he
    obtain ⟨h, _, he⟩ := Except.bind_eq_ok he
    obtain ⟨p, _, he⟩ := Except.bind_eq_ok he
    obtain ⟨b, _, he⟩ := Except.bind_eq_ok he
    cases he
    show (li'.length : Int) = _
    rw [h3]
  case selfCollision.selfCollision s dm b ex k ps s' dv ps' k' =>
    obtain ⟨-, ⟨nn, g1, g2, -⟩, -, rfl⟩ := hK
    obtain ⟨dm', hdm, he⟩ := Except.bind_eq_ok he
    unfold selfCollisionValue at he
    obtain ⟨cs, _, he⟩ := Except.bind_eq_ok he
    obtain ⟨idx, hidx, he⟩ := Except.bind_eq_ok he
    have hlen := closest_length hidx
    unfold Settled at hs
    rw [hjk] at hs
    have hs' : k' = j.dim := hs
    rw [hC.dim, g1] at hs'
    rw [hs'] at hlen
    have hdl : dm'.len = nn := by
      unfold Arr.operand at hdm
      rw [g2] at hdm
      cases hdm; rfl
    rw [subVec_len (n := nn) (by show idx.length = nn; omega) hdl he, g1]
  case modelEquality.modelEquality a h s a' h' w =>
    cases he
    obtain ⟨nn, g1, -⟩ := hC.gain
    show (j.maskIdxs.length : Int) = _
    rw [hmask nn g1 ?_, g1]
    have := equality_mask hn hr (by rw [← htag]; rfl) (by rw [hC.model]; rfl)
    rw [g1] at this
    simpa using this
  case jointTask.jointTask t fm x qi w lm x' qi' =>
    obtain ⟨a, fm', rfl⟩ := new_jointTask hn htag.symm
    obtain ⟨w', lm', tq', hc, -⟩ := jointTask_compiled hn hr hj hw
    obtain ⟨t, ht, he⟩ := Except.bind_eq_ok he
    have e1 := hc.kind
    rw [hjk] at e1
    cases e1
    rw [subVec_len (by simp [Vec.gather]) (operand_of_lastDim hc.target ht) he, ← hC.dim, hc.dim]
  case jointBarrier.jointBarrier s fm lo hi qi s' lo' hi' qi' =>
    obtain ⟨a, lo0, hi0, fm', rfl⟩ := new_jointBarrier hn htag.symm
    obtain ⟨s1, lo1, hi1, hc, -⟩ := jointBarrier_compiled hn hr hj hw
    have e1 := hc.kind
    rw [hjk] at e1
    cases e1
    unfold Settled at hs
    rw [hjk] at hs
    obtain ⟨hs1, hs2⟩ := hs
    obtain ⟨l, hl, he⟩ := Except.bind_eq_ok he
    obtain ⟨h, hh, he⟩ := Except.bind_eq_ok he
    unfold boundsValue at he
    obtain ⟨x, hx, he⟩ := Except.bind_eq_ok he
    obtain ⟨y, hy, he⟩ := Except.bind_eq_ok he
    cases he
    have g1 := (fits_sub hs1 hl (by simp [Vec.gather])).1 hx
    have g2 := (fits_sub hs2 hh (by simp [Vec.gather])).2 hy
    rw [← hC.dim, hc.dim]
    show ((x.len + y.len : Nat) : Int) = _
    rw [g1, g2]
    simp; omega

theorem jacDq2vLoop_size (q : Nat → K) : ∀ (xs : List (JntType × Nat)) (r c : Nat) (A : Mat K),
    (jacDq2vLoop q xs r c A).rows = A.rows ∧ (jacDq2vLoop q xs r c A).cols = A.cols := by
  intro xs
  induction xs with
  | nil => intro r c A; exact ⟨rfl, rfl⟩
  | cons x xs ih =>
    intro r c A
    obtain ⟨t, adr⟩ := x
    cases t <;> unfold jacDq2vLoop <;> dsimp only <;> (rw [(ih _ _ _).1, (ih _ _ _).2]; exact ⟨rfl, rfl⟩)

theorem autoJacobian_size {n : NewComp K} {c0 c : Comp K} {j : JaxComp K} (hn : n.run = .ok c0) (hr : CleanRun c0 c)
    (hj : (jaxComponent c).1 = .ok j) (hw : JointsWF j.model) (hs : Settled j) {env : Env K} {d : MjData K} {J : Mat K}
    (hz : Sized env j.model d) {b : Bool} (h : autoJacobian env j d b = .ok J) : (J.rows : Int) = j.dim ∧ J.cols = j.model.nv := by
  unfold autoJacobian at h
  obtain ⟨e, he, h⟩ := Except.bind_eq_ok h
  have hl := C68_value_partial hn hr hj hw hs he
  have hJ := hz.jacrev (fun q => ((evalValue env j (if b then comUpdate env j.model q else env.kinematics j.model q)).toOption).getD
    (Vec.zero 0)) d.qpos
  have hf : (((evalValue env j (if b then comUpdate env j.model d.qpos else env.kinematics j.model d.qpos)).toOption).getD
      (Vec.zero 0)) = e := by rw [he]; rfl
  rw [hf, hz.qpos] at hJ
  dsimp only at h
  by_cases hq : j.model.nq = j.model.nv
  · rw [if_neg (not_not.2 hq)] at h
    cases h
    exact ⟨by rw [← hl]; exact congrArg _ hJ.1, by rw [hJ.2]; exact hq⟩
  · rw [if_pos hq] at h
    have hD := jacDq2vLoop_size d.qpos.get (j.model.jntType.zip j.model.jntQposadr) 0 0 (Mat.zero j.model.nq j.model.nv)
    unfold Mat.mul at h
    rw [if_pos (by rw [hJ.2]; exact hD.1.symm)] at h
    cases h
    exact ⟨by rw [← hl]; exact congrArg _ hJ.1, hD.2⟩

/-- **C68** (Jacobian): the Jacobian of a compiled component has as many rows as its dimension and a column for every degree
of freedom. -/
theorem C68_jacobian_partial {n : NewComp K} {c0 c : Comp K} {j : JaxComp K} (hn : n.run = .ok c0) (hr : CleanRun c0 c)
    (hj : (jaxComponent c).1 = .ok j) (hw : JointsWF j.model) (hs : Settled j) {env : Env K} {d : MjData K} {J : Mat K}
    (hz : Sized env j.model d) (hJ : evalJacobian env j d = .ok J) : (J.rows : Int) = j.dim ∧ J.cols = j.model.nv := by
  have hC : CompilesTo c.attrs j :=
    jaxComponent_spec (cacheOK_reachable (hr.reachable hn)) (c' := (jaxComponent c).2) (by rw [← hj])
  have htag := hr.tag
  have hK := hC.kind
  cases hk : c.attrs.kind <;> rw [hk] at hK htag <;> cases hjk : j.kind <;> rw [hjk] at hK <;> simp only [KindOf] at hK <;>
    (unfold evalJacobian at hJ; rw [hjk] at hJ; dsimp only at hJ)
  case comTask.comTask => exact autoJacobian_size hn hr hj hw hs hz hJ
  case positionTask.positionTask => exact autoJacobian_size hn hr hj hw hs hz hJ
  case positionBarrier.positionBarrier => exact autoJacobian_size hn hr hj hw hs hz hJ
  case jointTask.jointTask t fm x qi w lm x' qi' =>
    obtain ⟨k, hk', hJ⟩ := Except.bind_eq_ok hJ
    obtain ⟨s1, s2⟩ := selectionMatrix_size hJ
    unfold sizeOf at hk'
    split at hk'
    · cases hk'
    · cases hk'
      exact ⟨by rw [s1]; omega, s2⟩
  case jointBarrier.jointBarrier s fm lo hi qi s' lo' hi' qi' =>
    obtain ⟨a, lo0, hi0, fm', rfl⟩ := new_jointBarrier hn htag.symm
    obtain ⟨s1, lo1, hi1, hc, -⟩ := jointBarrier_compiled hn hr hj hw
    have hd := hc.dim
    obtain ⟨k, hk', hJ⟩ := Except.bind_eq_ok hJ
    obtain ⟨S, hS, hJ'⟩ := Except.bind_eq_ok hJ
    obtain ⟨s1, s2⟩ := selectionMatrix_size hS
    unfold sizeOf at hk'
    split at hk'
    · cases hk'
    · cases hk'
      unfold Mat.vstack at hJ'
      split at hJ'
      · cases hJ'
        refine ⟨?_, s2⟩
        show ((S.rows + S.rows : Nat) : Int) = _
        rw [s1]
        omega
      · cases hJ'
  case frameTask.frameTask t o x w lm i ty x' =>
    obtain ⟨n', c1, ops, hn', hc'⟩ := hr.reachable hn
    have hF : FInv c.attrs := by
      rw [hc']; exact runOps_induct (P := fun c => FInv c.attrs) (finv_new hn') finv_run ops
    unfold FInv at hF
    rw [hk] at hF
    obtain ⟨k, h1, h3⟩ := hF
    obtain ⟨t, ht, hJ⟩ := Except.bind_eq_ok hJ
    obtain ⟨T, _, hJ⟩ := Except.bind_eq_ok hJ
    obtain ⟨F, _, hJ⟩ := Except.bind_eq_ok hJ
    obtain ⟨fj, hfj, hJ⟩ := Except.bind_eq_ok hJ
    obtain ⟨M, hM, hJ⟩ := Except.bind_eq_ok hJ
    cases hJ
    refine ⟨?_, ?_⟩
    · show (j.maskIdxs.length : Int) = _
      rw [hC.dim, hC.maskIdxs, h1]
      rcases h3 with h | h
      · rw [h]; simp
      · split
        · rw [h]
        · simp
    · show M.cols = _
      unfold Mat.mul at hM
      split at hM
      · cases hM
        show fj.length = _
        unfold frameJacobianLocal at hfj
        obtain ⟨b, _, hfj⟩ := Except.bind_eq_ok hfj
        obtain ⟨pos, _, hfj⟩ := Except.bind_eq_ok hfj
        obtain ⟨rot, _, hfj⟩ := Except.bind_eq_ok hfj
        obtain ⟨root, _, hfj⟩ := Except.bind_eq_ok hfj
        obtain ⟨com, _, hfj⟩ := Except.bind_eq_ok hfj
        cases hfj
        simp [dofMask, hz.cdof, hz.dofBody]
      · cases hM
  case selfCollision.selfCollision s dm b ex k ps s' dv ps' k' =>
    unfold selfCollisionJacobian at hJ
    obtain ⟨cs, _, hJ⟩ := Except.bind_eq_ok hJ
    obtain ⟨idx, hidx, hJ⟩ := Except.bind_eq_ok hJ
    obtain ⟨bodies, _, hJ⟩ := Except.bind_eq_ok hJ
    split at hJ
    · cases hJ
    · obtain ⟨rows, hrows, hJ⟩ := Except.bind_eq_ok hJ
      cases hJ
      unfold Settled at hs
      rw [hjk] at hs
      refine ⟨?_, hz.cdof⟩
      show (rows.length : Int) = _
      rw [(mapM_mem hrows).2.2, closest_length hidx]
      exact hs
  case modelEquality.modelEquality a h s a' h' w =>
    cases hJ
    obtain ⟨nn, g1, -⟩ := hC.gain
    refine ⟨?_, rfl⟩
    show (j.maskIdxs.length : Int) = _
    have := equality_mask hn hr (by rw [← htag]; rfl) (by rw [hC.model]; rfl)
    rw [hC.dim, hC.maskIdxs]
    rcases this with h | h
    · rw [h, g1]; simp
    · split
      · rw [h, g1]; simp
      · rw [g1]; simp

/-- **C68** (gain): the gain vector of a compiled component has as many entries as its dimension. -/
theorem C68_gain {n : NewComp K} {c0 c : Comp K} {j : JaxComp K} (hn : n.run = .ok c0) (hr : CleanRun c0 c)
    (hj : (jaxComponent c).1 = .ok j) : ∃ g, j.vectorGain.toVec = .ok g ∧ (g.len : Int) = j.dim := by
  have hC : CompilesTo c.attrs j :=
    jaxComponent_spec (cacheOK_reachable (hr.reachable hn)) (c' := (jaxComponent c).2) (by rw [← hj])
  obtain ⟨k, h1, h2, -⟩ := hC.gain
  exact ⟨_, toVec_of_shape h2, by rw [hC.dim, h1]⟩

theorem toMat_of_cost {dim : Int} {c w : Arr K} (h : CostOf dim c w) {W : Mat K} (hW : w.toMat = .ok W) :
    (W.rows : Int) = dim ∧ (W.cols : Int) = dim := by
  obtain ⟨k, rfl, h2, -⟩ := h
  unfold Arr.toMat at hW
  rw [h2] at hW
  cases hW
  exact ⟨rfl, rfl⟩

/-- **C68** (what the solver receives): Jacobian, value, gain and cost matrix of a compiled component fit each other and the
number of degrees of freedom. -/
theorem C68_component_partial {n : NewComp K} {c0 c : Comp K} {j : JaxComp K} (hn : n.run = .ok c0) (hr : CleanRun c0 c)
    (hj : (jaxComponent c).1 = .ok j) (hw : JointsWF j.model) (hs : Settled j) {env : Env K} {d : MjData K} {s : SolverComp K}
    (hz : Sized env j.model d) (h : solverComp env d j = .ok s) : CompShaped j.model.nv s := by
  obtain ⟨J, v, g, h1, h2, h3, h4⟩ := solverComp_ok h
  obtain ⟨a1, a2⟩ := C68_jacobian_partial hn hr hj hw hs hz h1
  have a3 := C68_value_partial hn hr hj hw hs h2
  obtain ⟨g', b1, b2⟩ := C68_gain hn hr hj
  rw [h3] at b1; cases b1
  have hsh : Shaped j.model.nv (⟨J, v, g, j.gainFn⟩ : Evaluated K) := ⟨a2, by show v.len = J.rows; omega, by show g.len = J.rows; omega⟩
  have hC : CompilesTo c.attrs j :=
    jaxComponent_spec (cacheOK_reachable (hr.reachable hn)) (c' := (jaxComponent c).2) (by rw [← hj])
  have hK := hC.kind
  rw [← hC.dim] at hK
  have cost : ∀ {x w : Arr K} {W : Mat K}, CostOf j.dim x w → w.toMat = .ok W → W.rows = J.rows ∧ W.cols = J.rows := by
    intro x w W hc hW
    obtain ⟨h1, h2⟩ := toMat_of_cost hc hW
    omega
  unfold wrapComp at h4
  cases hk : c.attrs.kind <;> rw [hk] at hK <;> cases hjk : j.kind <;> rw [hjk] at hK h4 <;> simp only [KindOf] at hK <;>
    dsimp only at h4
  case jointBarrier.jointBarrier => cases h4; exact ⟨hsh, rfl⟩
  case positionBarrier.positionBarrier => cases h4; exact ⟨hsh, rfl⟩
  case selfCollision.selfCollision => cases h4; exact ⟨hsh, rfl⟩
  case modelEquality.modelEquality a h s a' h' w =>
    cases hW : w.toMat with
    | error => rw [hW] at h4; cases h4
    | ok W => rw [hW] at h4; cases h4; exact ⟨hsh, cost hK.2.2 hW⟩
  case comTask.comTask w _ _ =>
    cases hW : w.toMat with
    | error => rw [hW] at h4; cases h4
    | ok W => rw [hW] at h4; cases h4; exact ⟨hsh, cost hK.1 hW⟩
  case jointTask.jointTask w _ _ _ =>
    cases hW : w.toMat with
    | error => rw [hW] at h4; cases h4
    | ok W => rw [hW] at h4; cases h4; exact ⟨hsh, cost hK.1 hW⟩
  case positionTask.positionTask w _ _ _ _ =>
    cases hW : w.toMat with
    | error => rw [hW] at h4; cases h4
    | ok W => rw [hW] at h4; cases h4; exact ⟨hsh, cost hK.1 hW⟩
  case frameTask.frameTask w _ _ _ _ =>
    cases hW : w.toMat with
    | error => rw [hW] at h4; cases h4
    | ok W => rw [hW] at h4; cases h4; exact ⟨hsh, cost hK.1 hW⟩

/-- A component made by a constructor and changed by accepted model updates and any other calls. -/
def CleanComp (c : Comp K) : Prop := ∃ n c0, NewComp.run n = .ok c0 ∧ CleanRun c0 c

theorem cleanComp_run {c : Comp K} (h : CleanComp c) (op : CompOp K) (hop : ∀ m, op = .updateModel m → (op.run c).1 = .ok ()) :
    CleanComp (op.run c).2 := by
  obtain ⟨n, c0, h1, h2⟩ := h
  exact ⟨n, c0, h1, .step op h2 hop⟩

theorem cleanComp_program : ∀ (ops : List (Op K)) (w : World K), (∀ c ∈ w.comps, CleanComp c) → CleanProgram w ops →
    ∀ c ∈ (run w ops).comps, CleanComp c := by
  intro ops
  induction ops with
  | nil => intro w hw _; exact hw
  | cons op ops ih =>
    intro w hw hp
    obtain ⟨h1, h2⟩ := hp
    refine ih _ ?_ h2
    show ∀ c ∈ (step w op).2.comps, CleanComp c
    cases op with
    | newComp n =>
      simp only [step]
      split
      · exact hw
      · rename_i c hc
        intro c' hc'
        rcases List.mem_append.1 hc' with h | h
        · exact hw _ h
        · rw [List.mem_singleton.1 h]; exact ⟨n, c, hc, .refl⟩
    | comp i op =>
      cases hi : w.comps[i]? with
      | none => simp only [step, hi]; exact hw
      | some c =>
        have hc := hw c (List.mem_of_getElem? hi)
        cases hr : (op.run c).1 with
        | ok u =>
          simp only [step, hi]
          exact all_setComp hw (cleanComp_run hc op (fun m _ => by rw [hr]))
        | error e =>
          by_cases hu : ∃ m, op = .updateModel m
          · obtain ⟨m, rfl⟩ := hu
            rw [h1 e (by simp only [step, hi, hr, Except.map])]
            exact hw
          · simp only [step, hi]
            exact all_setComp hw (cleanComp_run hc op (fun m h => absurd ⟨m, h⟩ hu))
    | newProblem m lo hi => simp only [step]; split <;> exact hw
    | updateVMin p v => simp only [step]; split <;> exact hw
    | updateVMax p v => simp only [step]; split <;> exact hw
    | add p i =>
      cases hP : w.probs[p]? with
      | none => simp only [step, hP]; exact hw
      | some P =>
        cases hi : w.comps[i]? with
        | none => simp only [step, hP, hi]; exact hw
        | some c =>
          have hc := hw c (List.mem_of_getElem? hi)
          cases hr : (P.addComponent i c).1 with
          | error e =>
            rw [h1 e (by simp only [step, hP, hi, hr, Except.map])]
            exact hw
          | ok u =>
            simp only [step, hP, hi]
            refine all_setComp hw ?_
            unfold Prob.addComponent at hr ⊢
            cases hd : dictGet P.comps c.attrs.name with
            | some k => rw [hd] at hr; cases hr
            | none =>
              rw [hd] at hr
              have := cleanComp_run hc (.updateModel P.model)
              simp only [CompOp.run] at this
              cases hu : updateModel P.model c with
              | mk r c' =>
                cases r with
                | error e => rw [hu] at hr; cases hr
                | ok u =>
                  rw [hu] at this
                  exact this (fun _ _ => rfl)
    | remove p name => simp only [step]; split <;> exact hw
    | compile p =>
      cases hP : w.probs[p]? with
      | none => simp only [step, hP]; exact hw
      | some P =>
        simp only [step, hP]
        unfold compileProb
        have := all_compileComps (P := CleanComp) (fun c hc => cleanComp_run hc .compile (fun m h => by cases h)) P.comps w.comps hw
        split <;> (rename_i h; rw [h] at this; exact this)
    | component p name => simp only [step]; split <;> exact hw
    | task p name => simp only [step]; split <;> exact hw
    | barrier p name => simp only [step]; split <;> exact hw

/-- The components of a compiled problem were made by constructors and changed by accepted model updates and any other calls; its
velocity limits have one entry per degree of freedom. -/
theorem compiled_from_clean {ops : List (Op K)} (hops : CleanProgram World.init ops) {p : Nat} {J : JaxProblem K}
    (hJ : (step (run World.init ops) (.compile p)).1 = .ok (.compiled J)) :
    J.vMin.shape = [J.model.nv] ∧ J.vMax.shape = [J.model.nv] ∧
    ∀ nj ∈ J.comps, ∃ n c0 c, NewComp.run n = .ok c0 ∧ CleanRun c0 c ∧ (jaxComponent c).1 = .ok nj.2 := by
  have hreach : ReachableW (run (World.init (K := K)) ops) := ⟨ops, rfl⟩
  have hclean := cleanComp_program ops World.init (by intro c hc; cases hc) hops
  cases hP : (run World.init ops).probs[p]? with
  | none => simp [step, hP] at hJ
  | some P =>
    have hlim := C06_limits_shape hreach hP
    obtain ⟨h1, -⟩ := compileComps_spec P.comps _ (cacheOK_world hreach)
    simp only [step, hP, compileProb] at hJ
    cases hc : compileComps (run World.init ops).comps P.comps with
    | mk r h' =>
      rw [hc] at hJ h1
      cases r with
      | error e => simp [Except.map] at hJ
      | ok js =>
        simp only [Except.map, Except.ok.injEq, Res.compiled.injEq] at hJ
        subst hJ
        have hf := compilePure_ok h1.symm
        refine ⟨hlim.1, hlim.2, ?_⟩
        intro nj hnj
        obtain ⟨k, hk, rfl⟩ := List.getElem_of_mem hnj
        have hlen := hf.length_eq
        have hk' : k < P.comps.length := by simp only at hk; omega
        obtain ⟨-, hrel⟩ := List.Forall₂.get hf hk' hk
        simp only [heapResult] at hrel
        split at hrel
        · cases hrel
        · rename_i c hc'
          have hcm := List.mem_of_getElem? hc'
          obtain ⟨n, c0, hn, hr⟩ := hclean c hcm
          exact ⟨n, c0, c, hn, hr, (jaxComponent_fst (cacheOK_world hreach c hcm)).trans hrel⟩

/-- **C68** (problems): whatever a program did, as long as no model update failed half way, the components of a compiled problem
fit each other and the velocity limits, so that the quadratic program can be assembled. -/
theorem C68_problem_partial {ops : List (Op K)} (hops : CleanProgram World.init ops) {p : Nat} {J : JaxProblem K}
    (hJ : (step (run World.init ops) (.compile p)).1 = .ok (.compiled J))
    (hm : ∀ nj ∈ J.comps, nj.2.model = J.model) (hs : ∀ nj ∈ J.comps, Settled nj.2)
    (hw : JointsWF J.model) {env : Env K} {d : MjData K} (hz : Sized env J.model d) : WellSized env J d := by
  obtain ⟨l1, l2, hcl⟩ := compiled_from_clean hops hJ
  intro vMin vMax cs hlo hhi hcs
  refine ⟨?_, ?_, ?_⟩
  · rw [toVec_of_shape l1] at hlo; cases hlo; rfl
  · rw [toVec_of_shape l2] at hhi; cases hhi; rfl
  · intro s hsm
    obtain ⟨j, hj, hjs⟩ := (mapM_mem hcs).2.1 s hsm
    obtain ⟨nj, hnj, rfl⟩ := List.mem_map.1 hj
    have e1 := hm nj hnj
    obtain ⟨n, c0, c, hn, hr, hjc⟩ := hcl nj hnj
    have := C68_component_partial hn hr hjc (by rw [e1]; exact hw) (hs nj hnj) (by rw [e1]; exact hz) hjs
    rw [← e1]
    exact this

/-- **C68 fails after a change of the number of pairs**: the number of rows follows the new number, the dimension (and with it
gain and minimal distances) stays. -/
theorem C68_pairs_changed (env : Env K) {j : JaxComp K} {d : MjData K} {s : K} {dm : Arr K} {pairs : List (Int × Int)} {k : Int}
    (hk : j.kind = .selfCollision s dm pairs k) {J : Mat K} (hJ : evalJacobian env j d = .ok J) : (J.rows : Int) = k := by
  unfold evalJacobian at hJ
  rw [hk] at hJ
  dsimp only at hJ
  unfold selfCollisionJacobian at hJ
  obtain ⟨cs, _, hJ⟩ := Except.bind_eq_ok hJ
  obtain ⟨idx, hidx, hJ⟩ := Except.bind_eq_ok hJ
  obtain ⟨bodies, _, hJ⟩ := Except.bind_eq_ok hJ
  split at hJ
  · cases hJ
  · obtain ⟨rows, hrows, hJ⟩ := Except.bind_eq_ok hJ
    cases hJ
    show (rows.length : Int) = _
    rw [(mapM_mem hrows).2.2, closest_length hidx]

/-! ### Concrete cases -/

namespace SizeEx

/-- Tasks and barriers of every kind of size: masked task, joint task, joint barrier, three collision pairs, equality rows. -/
def ops : List (Op ℚ) :=
  [.newComp (.comTask { Ex.taskArgs with mask := some ⟨[3], fun i => if i = [1] then 0 else 1⟩ }),
   .newComp (.jointTask { Ex.taskArgs with name := "j" } (some [0, 1])),
   .newComp (.jointBarrier Ex.barrierArgs none none none),
   .newComp (.selfCollision { Ex.barrierArgs with name := "c" } 3 [] [] (-1)),
   .newComp (.modelEquality "e" (Ex.scalar 1) true none),
   .newProblem Ex.model (Ex.scalar (-1)) (Ex.scalar 1), .add 0 0, .add 0 1, .add 0 2, .add 0 3, .add 0 4, .add 0 0,
   .comp 0 (.updateGain (Ex.scalar 2))]

theorem ops_clean : CleanProgram World.init ops := by
  refine ⟨trivial, trivial, trivial, trivial, trivial, trivial, ?_, ?_, ?_, ?_, ?_, ?_, trivial, trivial⟩
  · intro e h; cases h
  · intro e h; cases h
  · intro e h; cases h
  · intro e h; cases h
  · intro e h; cases h
  · intro e _; rfl

theorem sized (q : Vec ℚ) (hq : q.len = 13) : Sized Ex.env Ex.model (Ex.data Ex.model q) :=
  ⟨fun _ _ => ⟨rfl, rfl⟩, hq, rfl, rfl⟩

/-- The compiled problem meets the hypotheses of `C68_problem_partial`. -/
example : ∃ J : JaxProblem ℚ, (step (run World.init ops) (.compile 0)).1 = .ok (.compiled J) ∧
    J.comps.map (fun nj => (nj.1, nj.2.dim)) = [("t", 2), ("j", 1), ("b", 4), ("c", 3), ("e", 4)] ∧
    (∀ nj ∈ J.comps, nj.2.model = J.model) ∧ J.model = Ex.model ∧ ∀ nj ∈ J.comps, Settled nj.2 := by
  refine ⟨_, rfl, rfl, ?_, rfl, ?_⟩
  · intro nj h
    fin_cases h <;> rfl
  · intro nj h
    fin_cases h
    · trivial
    · trivial
    · exact ⟨Or.inr (Or.inr rfl), Or.inr (Or.inr rfl)⟩
    · rfl
    · trivial

/-- The barrier over the three pairs of the chain, asked for one pair after it was given the model. -/
def changed : Option (JaxComp ℚ) :=
  match newSelfCollision Ex.barrierArgs 3 [] [] (-1) with
  | .error _ => none
  | .ok c => (jaxComponent (setNClosest 1 (updateModel Ex.model c).2).2).1.toOption

/-- A joint barrier on the first of the two scalar joints with three lower limits. -/
def threeLimits : Option (JaxComp ℚ) :=
  match newJointBarrier Ex.barrierArgs (some ⟨[3], fun _ => 0⟩) (some ⟨[1], fun _ => 1⟩) (some [1, 0]) with
  | .error _ => none
  | .ok c => (jaxComponent (updateModel Ex.model c).2).1.toOption

end SizeEx

/-- **C68 is false as stated**: (1) a barrier over three pairs that is asked for one pair after it was given its model still
compiles, with dimension 3, but its Jacobian has one row; (2) a joint barrier for one joint accepts three lower limits in its
constructor, compiles with dimension 2 and has a value with four entries. -/
theorem C68_wrong :
    (∃ j, SizeEx.changed = some j ∧ j.dim = 3 ∧ ∃ J, evalJacobian Ex.env j (Ex.data Ex.model ⟨13, fun _ => 0⟩) = .ok J ∧ J.rows = 1) ∧
    ∃ j, SizeEx.threeLimits = some j ∧ j.dim = 2 ∧
      ∃ v, evalValue Ex.env j (Ex.data Ex.model ⟨13, fun _ => 0⟩) = .ok v ∧ v.len = 4 := by
  refine ⟨⟨_, rfl, rfl, ?_⟩, ⟨_, rfl, rfl, _, rfl, rfl⟩⟩
  show ∃ J, selfCollisionJacobian Ex.env Ex.model (Ex.data Ex.model ⟨13, fun _ => 0⟩) [(0, 2), (0, 3), (1, 3)] 1 = .ok J ∧ J.rows = 1
  obtain ⟨cs, h1, h2⟩ := computeCollisionPairs_ok (Ex.env.collide Ex.model (Ex.data Ex.model ⟨13, fun _ => 0⟩)) SCEx.geoms
    (pairs := [(0, 2), (0, 3), (1, 3)]) (fun g hg => SCEx.inRange g (by
      have : ∀ g ∈ [((0 : Int), (2 : Int)), (0, 3), (1, 3)], g ∈ SCEx.pairs := by decide
      exact this g hg)) (fun _ _ => rfl)
  have hl : cs.length = 3 := h2.length_eq
  obtain ⟨a1, a2, -, -⟩ := ascOrder_spec (cs.map (fun c => c.val.dist))
  rw [List.length_map, hl] at a1 a2
  have hcl : ∃ p, p < 3 ∧ closest (cs.map (fun c => c.val.dist)) 1 = .ok [p] := by
    unfold closest
    rw [if_neg (by rw [List.length_map, hl]; decide)]
    generalize ascOrder (cs.map (fun c => c.val.dist)) = o at a1 a2 ⊢
    rcases o with - | ⟨p, t⟩
    · cases a1
    · exact ⟨p, a2 p (by simp), rfl⟩
  obtain ⟨p, hp, hcl⟩ := hcl
  have hb : [((0 : Int), (2 : Int)), (0, 3), (1, 3)].mapM (pairBodies Ex.model) = .ok [(1, 3), (1, 4), (2, 4)] := rfl
  have hg : npGet cs (p : Int) = .ok cs[p] := by
    rw [npGet_int (cs[p]) (by omega) (by omega)]
    simp [hl, hp]
  have hr : ∃ row, selfCollisionRow Ex.model (Ex.data Ex.model ⟨13, fun _ => 0⟩) cs [(1, 3), (1, 4), (2, 4)] p = .ok row := by
    unfold selfCollisionRow
    simp only [bind, Except.bind, hg]
    generalize cs[p].val = cv
    have hp3 : p = 0 ∨ p = 1 ∨ p = 2 := by omega
    rcases hp3 with rfl | rfl | rfl <;> exact ⟨_, rfl⟩
  obtain ⟨row, hr⟩ := hr
  unfold selfCollisionJacobian
  simp only [bind, Except.bind, h1, hcl, hb, List.mapM_cons, List.mapM_nil, hr]
  exact ⟨_, rfl, rfl⟩

end Mjinx.Props
