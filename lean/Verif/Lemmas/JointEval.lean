import Mathlib.Data.List.GetD
import Verif.Spec.Sim
import Verif.Lemmas.JointInv
import Verif.Lemmas.World
import Verif.Lemmas.Build

/-! # Compiled joint components: coordinates, values, Jacobians, motion -/

namespace Mjinx
open Spec Finset
open scoped Quaternion
variable {K : Type} [Field K] [LinearOrder K]
set_option linter.unusedSectionVars false

theorem CleanRun.reachable {n : NewComp K} {c0 c : Comp K} (hn : n.run = .ok c0) (h : CleanRun c0 c) :
    Reachable c := by
  induction h with
  | refl => exact ⟨n, c0, [], hn, rfl⟩
  | step op _ _ ih =>
    obtain ⟨n', c1, ops, h1, h2⟩ := ih
    refine ⟨n', c1, ops ++ [op], h1, ?_⟩
    rw [h2]; simp [runOps]
  | accepted ops m _ => exact ⟨n, c0, ops ++ [.updateModel m], hn, by simp [runOps, CompOp.run]⟩

theorem CleanRun.jInv {c0 c : Comp K} (h0 : JInv c0) (h : CleanRun c0 c) : JInv c := by
  induction h with
  | refl => exact h0
  | step op _ hop ih =>
    by_cases hm : ∃ m, op = .updateModel m
    · obtain ⟨m, rfl⟩ := hm
      exact jInv_update (hop m rfl)
    · exact jInv_of_not_model op _ (fun m hm' => hm ⟨m, hm'⟩) ih
  | accepted ops m h => exact jInv_update h

theorem CleanRun.fm {c0 c : Comp K} (h : CleanRun c0 c) :
    c.attrs.kind.finalMask? = c0.attrs.kind.finalMask? := by
  induction h with
  | refl => rfl
  | step op _ _ ih => rw [run_fm, ih]
  | accepted ops m _ =>
    rw [show updateModel m (runOps c0 ops) = (CompOp.updateModel m).run (runOps c0 ops) from rfl, run_fm]
    exact runOps_induct (P := fun c => c.attrs.kind.finalMask? = c0.attrs.kind.finalMask?) rfl
      (fun op c h => by rw [run_fm, h]) ops

theorem CleanRun.tag {c0 c : Comp K} (h : CleanRun c0 c) : c.attrs.kind.tag = c0.attrs.kind.tag := by
  induction h with
  | refl => rfl
  | step op _ _ ih => rw [run_tag, ih]
  | accepted ops m _ =>
    rw [show updateModel m (runOps c0 ops) = (CompOp.updateModel m).run (runOps c0 ops) from rfl, run_tag]
    exact runOps_induct (P := fun c => c.attrs.kind.tag = c0.attrs.kind.tag) rfl
      (fun op c h => by rw [run_tag, h]) ops

theorem jInv_new {n : NewComp K} {c : Comp K} (hn : n.run = .ok c) : JInv c := by
  intro m hm; rw [model_none_of_new hn] at hm; cases hm

theorem nonzeroIdxs_length_le (l : List Int) : (nonzeroIdxs l).length ≤ l.length := by
  unfold nonzeroIdxs
  exact (List.length_filter_le _ _).trans (by simp)

/-- What a compiled joint task looks like. -/
structure JointTaskCompiled (fm : Option (List Int)) (j : JaxComp K) (w : Arr K) (lm : K) (tq : Arr K) : Prop where
  kind : j.kind = .jointTask w lm tq ((selectedJoints j.model fm).map (qposOf j.model))
  maskIdxs : j.maskIdxs = (selectedJoints j.model fm).map (dofOf j.model)
  dim : j.dim = ((selectedJoints j.model fm).length : Int)
  target : tq.lastDim = .ok (selectedJoints j.model fm).length
  maskLen : ∀ f, fm = some f → f.length = (scalarJoints j.model).length
  cost : ∃ c, CostOf j.dim c w
  gain : j.vectorGain.shape = [(selectedJoints j.model fm).length]

theorem jointTask_compiled {a : TaskArgs K} {fm : Option (List Int)} {c0 c : Comp K} {j : JaxComp K}
    (h0 : newJointTask a fm = .ok c0) (hr : CleanRun c0 c) (hj : (jaxComponent c).1 = .ok j)
    (hw : JointsWF j.model) : ∃ w lm tq, JointTaskCompiled fm j w lm tq ∧
      ∃ t qi, c.attrs.kind = .jointTask t fm (some tq) qi ∧ lm = t.lmDamping ∧ CostOf j.dim t.cost w := by
  have hn : (NewComp.jointTask a fm).run = .ok c0 := h0
  have hI := hr.jInv (jInv_new hn)
  have hC : CompilesTo c.attrs j :=
    jaxComponent_spec (cacheOK_reachable (hr.reachable hn)) (c' := (jaxComponent c).2) (by rw [← hj])
  have hfm := hr.fm
  have htag := hr.tag
  have hk0 : ∃ t, c0.attrs.kind = .jointTask t fm none none := by
    obtain ⟨t, at0, _, h2, rfl⟩ := newJointTask_ok h0
    obtain ⟨_, _, _, _, rfl⟩ := initAttrs_ok h2
    exact ⟨t, rfl⟩
  obtain ⟨t0, hk0⟩ := hk0
  rw [hk0] at hfm htag
  have hI' := hI _ hC.model
  unfold JInvAt at hI'
  have hK := hC.kind
  cases hk : c.attrs.kind <;> rw [hk] at htag hfm hI' hK <;> try (cases htag)
  rename_i t fm' tq qi
  cases hfm
  obtain ⟨mk, x, h1, h2, h3, h4, h5, h6, h7⟩ := hI'
  cases hjk : j.kind <;> rw [hjk] at hK <;> simp only [KindOf] at hK
  rename_i w lm tq' qi'
  obtain ⟨k1, k2, k3, k4⟩ := hK
  obtain ⟨s1, s2⟩ := applyFinalMask_spec hw fm
  have hlen : ∀ f, fm = some f → f.length = (scalarJoints j.model).length := by
    intro f hf
    by_contra hne
    rw [s1 f hf hne] at h1; cases h1
  obtain ⟨mk', e1, e2, e3⟩ := s2 hlen
  rw [h1] at e1; cases e1
  rw [h6] at k3; cases k3
  rw [h5] at k4; cases k4
  have hl : (nonzeroIdxs mk.1).length = (selectedJoints j.model fm).length := by rw [e2]; simp
  refine ⟨w, lm, x, ⟨?_, ?_, ?_, ?_, hlen, ⟨t.cost, ?_⟩, ?_⟩, t, qi, by rw [h6], k2, by rw [hC.dim]; exact k1⟩
  · rw [hjk, e3]
  · rw [hC.maskIdxs, h2]; simp only [Option.isSome_some, if_true]; rw [h3, e2]
  · rw [hC.dim, h4, hl]
  · rw [h7, hl]
  · rw [hC.dim]; exact k1
  · obtain ⟨n, g1, g2, _⟩ := hC.gain
    rw [h4, hl] at g1
    rw [g2]; congr 1; omega

/-- What a compiled joint barrier looks like. -/
structure JointBarrierCompiled (fm : Option (List Int)) (j : JaxComp K) (s : K) (lo hi : Arr K) : Prop where
  kind : j.kind = .jointBarrier s lo hi ((selectedJoints j.model fm).map (qposOf j.model))
  maskIdxs : j.maskIdxs = (selectedJoints j.model fm).map (dofOf j.model)
  dim : j.dim = ((2 * (selectedJoints j.model fm).length : Nat) : Int)
  maskLen : ∀ f, fm = some f → f.length = (scalarJoints j.model).length
  gain : j.vectorGain.shape = [2 * (selectedJoints j.model fm).length]

theorem jointBarrier_compiled {a : BarrierArgs K} {lo0 hi0 : Option (Arr K)} {fm : Option (List Int)}
    {c0 c : Comp K} {j : JaxComp K}
    (h0 : newJointBarrier a lo0 hi0 fm = .ok c0) (hr : CleanRun c0 c) (hj : (jaxComponent c).1 = .ok j)
    (hw : JointsWF j.model) : ∃ s lo hi, JointBarrierCompiled fm j s lo hi ∧
      ∃ qi, c.attrs.kind = .jointBarrier s fm (some lo) (some hi) qi := by
  have hn : (NewComp.jointBarrier a lo0 hi0 fm).run = .ok c0 := h0
  have hI := hr.jInv (jInv_new hn)
  have hC : CompilesTo c.attrs j :=
    jaxComponent_spec (cacheOK_reachable (hr.reachable hn)) (c' := (jaxComponent c).2) (by rw [← hj])
  have hfm := hr.fm
  have htag := hr.tag
  have hk0 : c0.attrs.kind = .jointBarrier a.sdg fm lo0 hi0 none := by
    obtain ⟨at0, h2, rfl⟩ := newJointBarrier_ok h0
    obtain ⟨_, _, _, _, rfl⟩ := initAttrs_ok h2
    rfl
  rw [hk0] at hfm htag
  have hI' := hI _ hC.model
  unfold JInvAt at hI'
  have hK := hC.kind
  cases hk : c.attrs.kind <;> rw [hk] at htag hfm hI' hK <;> try (cases htag)
  rename_i s fm' lo hi qi
  cases hfm
  obtain ⟨mk, h1, h2, h3, h4, h5, h6, h7⟩ := hI'
  cases hjk : j.kind <;> rw [hjk] at hK <;> simp only [KindOf] at hK
  rename_i s' lo' hi' qi'
  obtain ⟨k1, k2, k3, k4⟩ := hK
  subst k1
  obtain ⟨s1, s2⟩ := applyFinalMask_spec hw fm
  have hlen : ∀ f, fm = some f → f.length = (scalarJoints j.model).length := by
    intro f hf
    by_contra hne
    rw [s1 f hf hne] at h1; cases h1
  obtain ⟨mk', e1, e2, e3⟩ := s2 hlen
  rw [h1] at e1; cases e1
  rw [h5] at k4; cases k4
  have hl : (nonzeroIdxs mk.1).length = (selectedJoints j.model fm).length := by rw [e2]; simp
  refine ⟨s', lo', hi', ⟨?_, ?_, ?_, hlen, ?_⟩, qi, ?_⟩
  · rw [hjk, e3]
  · rw [hC.maskIdxs, h2]; simp only [Option.isSome_some, if_true]; rw [h3, e2]
  · rw [hC.dim, h4, hl]
  · obtain ⟨n, g1, g2, _⟩ := hC.gain
    rw [h4, hl] at g1
    rw [g2]; congr 1; omega
  · rw [k2, k3]

/-! ### Motion -/

theorem integrateLoop_spec (qi : ℍ[K] → V3 K → K → ℍ[K]) (q v : Nat → K) (dt : K) {nq nv : Nat} :
    ∀ {q0 v0 : Nat} {ts : List JntType} {as bs : List Nat}, Consecutive nq nv q0 v0 ts as bs →
    q0 + (integrateLoop qi q v dt ts q0 v0).length = nq ∧
    ∀ k < ts.length, (ts.getD k .free).scalar = true →
      q0 ≤ as.getD k 0 ∧ as.getD k 0 < nq ∧ v0 ≤ bs.getD k 0 ∧ bs.getD k 0 < nv ∧
      (integrateLoop qi q v dt ts q0 v0).getD (as.getD k 0 - q0) 0 = q (as.getD k 0) + dt * v (bs.getD k 0)
  | q0, v0, [], [], [], h => by
    simp only [Consecutive] at h
    exact ⟨by simp [integrateLoop, h.1], fun k hk => by simp at hk⟩
  | q0, v0, t :: ts, a :: as, b :: bs, h => by
    obtain ⟨rfl, rfl, h3⟩ := h
    obtain ⟨i1, i2⟩ := integrateLoop_spec qi q v dt h3
    have hvle : b + t.nv ≤ nv := by
      have := (consecutive_layout h3).2.2.2; omega
    have key : ∃ pre : List K, pre.length = t.nq ∧
        integrateLoop qi q v dt (t :: ts) a b = pre ++ integrateLoop qi q v dt ts (a + t.nq) (b + t.nv) ∧
        (t.scalar = true → pre = [q a + dt * v b]) := by
      cases t
      · exact ⟨vec3List (vec3At q a + dt • vec3At v b) ++
          quatList (qi (quatAt q (a + 3)) (vec3At v (b + 3)) dt), rfl,
          by simp only [integrateLoop, JntType.nq, JntType.nv], fun h => by cases h⟩
      · exact ⟨quatList (qi (quatAt q a) (vec3At v b) dt), rfl,
          by simp only [integrateLoop, JntType.nq, JntType.nv], fun h => by cases h⟩
      · exact ⟨[q a + dt * v b], rfl, rfl, fun _ => rfl⟩
      · exact ⟨[q a + dt * v b], rfl, rfl, fun _ => rfl⟩
    obtain ⟨pre, p1, p2, p3⟩ := key
    rw [p2]
    refine ⟨by rw [List.length_append, p1]; omega, ?_⟩
    intro k hk hs
    cases k with
    | zero =>
      simp only [List.getD_cons_zero] at hs ⊢
      have hn := nv_of_scalar t hs
      have hq := nq_of_scalar t hs
      refine ⟨le_refl _, by omega, le_refl _, by omega, ?_⟩
      rw [p3 hs]; simp
    | succ k =>
      simp only [List.getD_cons_succ] at hs ⊢
      obtain ⟨j1, j2, j3, j4, j5⟩ := i2 k (by simpa using hk) hs
      refine ⟨by omega, j2, by omega, j4, ?_⟩
      rw [← j5, List.getD_append_right _ _ _ _ (by omega), p1]
      congr 1; omega
  | _, _, [], [], _ :: _, h => by simp [Consecutive] at h
  | _, _, [], _ :: _, _, h => by simp [Consecutive] at h
  | _, _, _ :: _, [], _, h => by simp [Consecutive] at h
  | _, _, _ :: _, _ :: _, [], h => by simp [Consecutive] at h

theorem mem_scalarJoints {m : MjModel K} {k : Nat} :
    k ∈ scalarJoints m ↔ k < m.jntType.length ∧ (m.jntType.getD k .free).scalar = true := by
  simp [scalarJoints]

theorem mem_selectedJoints {m : MjModel K} {fm : Option (List Int)} {k : Nat} (h : k ∈ selectedJoints m fm) :
    k ∈ scalarJoints m := by
  cases fm with
  | none => exact h
  | some f =>
    simp only [selectedJoints, List.mem_map, List.mem_filter] at h
    obtain ⟨x, ⟨h1, _⟩, rfl⟩ := h
    exact (List.of_mem_zip h1).1

/-- Scalar joints move linearly. -/
theorem integrate_scalar (env : Env K) {m : MjModel K} (hw : JointsWF m) (q v : Vec K) (dt : K) :
    (integrate env m q v dt).len = m.nq ∧ ∀ k ∈ scalarJoints m,
      qposOf m k < m.nq ∧ dofOf m k < m.nv ∧
      (integrate env m q v dt).get (qposOf m k) = q.get (qposOf m k) + dt * v.get (dofOf m k) := by
  obtain ⟨h1, h2⟩ := integrateLoop_spec env.quatIntegrate q.get v.get dt hw.addr
  refine ⟨by simpa [integrate] using h1, ?_⟩
  intro k hk
  obtain ⟨hk1, hk2⟩ := mem_scalarJoints.1 hk
  obtain ⟨_, j2, _, j4, j5⟩ := h2 k hk1 hk2
  exact ⟨j2, j4, by simpa [integrate, qposOf, dofOf] using j5⟩

/-! ### Values and Jacobians -/

theorem operand_fits {a : Arr K} {n : Nat} (h : FitsVec a n) :
    ∃ t, a.operand = .ok t ∧ ∀ x : Vec K, x.len = n →
      ∃ r, subVec x t = .ok r ∧ r.len = n ∧ (∀ i < n, r.get i = x.get i - entry a i) ∧
      ∃ r', subVec t x = .ok r' ∧ r'.len = n ∧ (∀ i < n, r'.get i = entry a i - x.get i) := by
  have hlen1 : ∀ (y : K) (x : Vec K), x.len = n →
      (∃ r, subVec x ⟨1, fun _ => y⟩ = .ok r ∧ r.len = n ∧ (∀ i < n, r.get i = x.get i - y) ∧
      ∃ r', subVec ⟨1, fun _ => y⟩ x = .ok r' ∧ r'.len = n ∧ (∀ i < n, r'.get i = y - x.get i)) := by
    intro y x hx
    unfold subVec Vec.zip
    dsimp only
    by_cases h1 : x.len = 1
    · rw [if_pos h1, if_pos h1.symm]
      exact ⟨_, rfl, hx, fun i _ => rfl, _, rfl, by rw [← h1]; exact hx, fun i _ => rfl⟩
    · have h2 : ¬ 1 = x.len := fun h => h1 h.symm
      simp only [h1, h2, if_false, if_true]
      exact ⟨_, rfl, hx, fun i _ => rfl, _, rfl, hx, fun i _ => rfl⟩
  rcases h with h | h | h
  · refine ⟨⟨1, fun _ => a.get []⟩, by simp [Arr.operand, h], ?_⟩
    have : ∀ i, entry a i = a.get [] := fun i => by simp [entry, h]
    simp only [this]
    exact hlen1 _
  · by_cases hn : n = 1
    · subst hn
      refine ⟨⟨1, fun i => a.get [i]⟩, by simp [Arr.operand, h], ?_⟩
      intro x hx
      unfold subVec Vec.zip
      dsimp only
      rw [if_pos hx, if_pos hx.symm]
      have : ∀ i, entry a i = a.get [0] := fun i => by simp [entry, h]
      refine ⟨_, rfl, hx, fun i hi => ?_, _, rfl, rfl, fun i hi => ?_⟩ <;>
        (obtain rfl : i = 0 := by omega) <;> simp [this]
    · refine ⟨⟨1, fun i => a.get [i]⟩, by simp [Arr.operand, h], ?_⟩
      intro x hx
      unfold subVec Vec.zip
      dsimp only
      have h1 : ¬ x.len = 1 := by omega
      have h2 : ¬ 1 = x.len := fun h => h1 h.symm
      simp only [h1, h2, if_false, if_true]
      have : ∀ i, entry a i = a.get [0] := fun i => by simp [entry, h]
      simp only [this]
      exact ⟨_, rfl, hx, fun i _ => rfl, _, rfl, hx, fun i _ => rfl⟩
  · refine ⟨⟨n, fun i => a.get [i]⟩, by simp [Arr.operand, h], ?_⟩
    intro x hx
    unfold subVec Vec.zip
    dsimp only
    rw [if_pos hx, if_pos hx.symm]
    have : ∀ i < n, entry a i = a.get [i] := by
      intro i hi
      unfold entry
      rw [h, if_neg (by simp)]
      split
      · rename_i h1
        simp only [List.cons.injEq, and_true] at h1
        obtain rfl : i = 0 := by omega
        rfl
      · rfl
    exact ⟨_, rfl, hx, fun i hi => by rw [this i hi], _, rfl, rfl, fun i hi => by rw [this i hi]⟩

theorem entry_ofList0 (l : List K) {i : Nat} (h : i < l.length) : entry (Arr.ofList0 l) i = l[i] := by
  unfold entry
  rw [if_neg (by simp [Arr.ofList0])]
  split
  · rename_i h1
    simp only [Arr.ofList0, List.cons.injEq, and_true] at h1
    obtain rfl : i = 0 := by omega
    simp [Arr.ofList0, h]
  · simp [Arr.ofList0, h]

theorem gather_get {v : Vec K} {idxs : List Nat} {i : Nat} (hi : i < idxs.length) (hb : idxs[i] < v.len) :
    (v.gather idxs).get i = v.get idxs[i] := by
  simp only [Vec.gather, List.getElem?_eq_getElem hi, Option.getD_some]
  congr 1; omega

theorem selectionMatrix_ok {n nv : Nat} {idxs : List Nat} (h : idxs.length = n) :
    ∃ S : Mat K, selectionMatrix n nv idxs = .ok S ∧ S.rows = n ∧ S.cols = nv ∧
      ∀ i (hi : i < idxs.length), ∀ k, S.get i k = if k = idxs[i] then 1 else 0 := by
  subst h
  refine ⟨_, by unfold selectionMatrix bdim; rw [if_pos rfl]; rfl, rfl, rfl, ?_⟩
  intro i hi k
  show (if _ then (1 : K) else 0) = _
  congr 1
  simp only [bidx, if_true, List.any_eq_true, List.mem_range, Bool.and_eq_true, beq_iff_eq, eq_iff_iff]
  constructor
  · rintro ⟨t, -, rfl, ht⟩
    rw [List.getElem?_eq_getElem hi] at ht
    exact (Option.some.inj ht).symm
  · rintro rfl
    exact ⟨i, hi, rfl, List.getElem?_eq_getElem hi⟩

theorem selectionMatrix_size {n nv : Nat} {idxs : List Nat} {S : Mat K} (h : selectionMatrix n nv idxs = .ok S) :
    S.rows = n ∧ S.cols = nv := by
  unfold selectionMatrix at h
  cases hb : bdim n idxs.length with
  | error e => rw [hb] at h; cases h
  | ok l => rw [hb] at h; cases h; exact ⟨rfl, rfl⟩

theorem rowDot_unit {S : Mat K} {i c : Nat} (hc : c < S.cols) (h : ∀ k, S.get i k = if k = c then 1 else 0)
    (v : Nat → K) : rowDot S i v = v c := by
  unfold rowDot
  rw [Finset.sum_eq_single c]
  · rw [h, if_pos rfl, one_mul]
  · intro b _ hb; rw [h, if_neg hb, zero_mul]
  · intro hc'; exact (hc' (Finset.mem_range.2 hc)).elim

theorem rowDot_neg (S : Mat K) (i : Nat) (v : Nat → K) : rowDot S.neg i v = - rowDot S i v := by
  simp [rowDot, Mat.neg]

theorem Mat.vstack_self (S : Mat K) :
    ∃ M, Mat.vstack S S.neg = .ok M ∧ M.rows = 2 * S.rows ∧ M.cols = S.cols ∧
      (∀ i < S.rows, ∀ k, M.get i k = S.get i k) ∧ ∀ i k, M.get (S.rows + i) k = - S.get i k := by
  refine ⟨_, if_pos rfl, ?_, rfl, ?_, ?_⟩
  · simp [Mat.neg]; omega
  · intro i hi k; simp [hi]
  · intro i k; simp [Mat.neg]

theorem sizeOf_nat (n : Nat) : sizeOf ((n : Nat) : Int) = .ok n := by
  unfold sizeOf; rw [if_neg (by omega)]; simp

theorem jointTask_eval {fm : Option (List Int)} {j : JaxComp K} {w : Arr K} {lm : K} {tq : Arr K}
    (hc : JointTaskCompiled fm j w lm tq) (hw : JointsWF j.model) (ht : tq.ndim ≤ 1) (env : Env K)
    (d : MjData K) (hd : d.qpos.len = j.model.nq) :
    ∃ e J, evalValue env j d = .ok e ∧ evalJacobian env j d = .ok J ∧
      e.len = (selectedJoints j.model fm).length ∧ J.rows = (selectedJoints j.model fm).length ∧
      J.cols = j.model.nv ∧
      ∀ i (hi : i < (selectedJoints j.model fm).length),
        e.get i = d.qpos.get (qposOf j.model (selectedJoints j.model fm)[i]) - entry tq i ∧
        ∀ k, J.get i k = if k = dofOf j.model (selectedJoints j.model fm)[i] then 1 else 0 := by
  have hshape : tq.shape = [(selectedJoints j.model fm).length] := by
    have := hc.target
    unfold Arr.lastDim at this
    unfold Arr.ndim at ht
    match hs : tq.shape, ht with
    | [], _ => rw [hs] at this; cases this
    | [n], _ => rw [hs] at this; cases this; rfl
  obtain ⟨t, t1, t2⟩ := operand_fits (a := tq) (n := (selectedJoints j.model fm).length) (.inr (.inr hshape))
  obtain ⟨e, e1, e2, e3, -⟩ := t2 (d.qpos.gather ((selectedJoints j.model fm).map (qposOf j.model)))
    (by simp [Vec.gather])
  obtain ⟨S, s1, s2, s3, s4⟩ := selectionMatrix_ok (K := K) (n := (selectedJoints j.model fm).length)
    (nv := j.model.nv) (idxs := (selectedJoints j.model fm).map (dofOf j.model)) (by simp)
  refine ⟨e, S, ?_, ?_, e2, s2, s3, ?_⟩
  · unfold evalValue; rw [hc.kind]; simp only [t1]; exact e1
  · unfold evalJacobian; rw [hc.kind]; simp only [hc.dim, sizeOf_nat, hc.maskIdxs]; exact s1
  · intro i hi
    have hq := ((integrate_scalar env hw d.qpos d.qpos 0).2 _
      (mem_selectedJoints (List.getElem_mem hi))).1
    refine ⟨?_, ?_⟩
    · rw [e3 i hi, gather_get (by simpa using hi) (by simp only [List.getElem_map]; omega)]
      simp
    · intro k
      rw [s4 i (by simpa using hi) k]; simp

theorem jointBarrier_eval {fm : Option (List Int)} {j : JaxComp K} {s : K} {lo hi : Arr K}
    (hc : JointBarrierCompiled fm j s lo hi) (hw : JointsWF j.model)
    (hlo : FitsVec lo (selectedJoints j.model fm).length)
    (hhi : FitsVec hi (selectedJoints j.model fm).length) (env : Env K)
    (d : MjData K) (hd : d.qpos.len = j.model.nq) :
    ∃ h J, evalValue env j d = .ok h ∧ evalJacobian env j d = .ok J ∧
      h.len = 2 * (selectedJoints j.model fm).length ∧ J.rows = 2 * (selectedJoints j.model fm).length ∧
      J.cols = j.model.nv ∧
      ∀ i (hi' : i < (selectedJoints j.model fm).length),
        h.get i = d.qpos.get (qposOf j.model (selectedJoints j.model fm)[i]) - entry lo i ∧
        h.get ((selectedJoints j.model fm).length + i) =
          entry hi i - d.qpos.get (qposOf j.model (selectedJoints j.model fm)[i]) ∧
        (∀ k, J.get i k = if k = dofOf j.model (selectedJoints j.model fm)[i] then 1 else 0) ∧
        ∀ k, J.get ((selectedJoints j.model fm).length + i) k =
          if k = dofOf j.model (selectedJoints j.model fm)[i] then -1 else 0 := by
  obtain ⟨t, t1, t2⟩ := operand_fits hlo
  obtain ⟨t', t1', t2'⟩ := operand_fits hhi
  have hgl : (d.qpos.gather ((selectedJoints j.model fm).map (qposOf j.model))).len =
      (selectedJoints j.model fm).length := by simp [Vec.gather]
  obtain ⟨a, a1, a2, a3, -⟩ := t2 _ hgl
  obtain ⟨_, _, _, _, b, b1, b2, b3⟩ := t2' _ hgl
  obtain ⟨S, s1, s2, s3, s4⟩ := selectionMatrix_ok (K := K) (n := (selectedJoints j.model fm).length)
    (nv := j.model.nv) (idxs := (selectedJoints j.model fm).map (dofOf j.model)) (by simp)
  obtain ⟨M, m1, m2, m3, m4, m5⟩ := Mat.vstack_self S
  refine ⟨a.append b, M, ?_, ?_, ?_, by rw [m2, s2], by rw [m3, s3], ?_⟩
  · unfold evalValue; rw [hc.kind]; simp only [t1, t1', boundsValue, bind, Except.bind, a1, b1]
    rfl
  · unfold evalJacobian; rw [hc.kind]
    have hdiv : j.dim / 2 = ((selectedJoints j.model fm).length : Int) := by rw [hc.dim]; omega
    simp only [hdiv, sizeOf_nat, hc.maskIdxs, bind, Except.bind, s1]
    exact m1
  · simp only [Vec.append, a2, b2]; omega
  · intro i hi'
    have hq := ((integrate_scalar env hw d.qpos d.qpos 0).2 _
      (mem_selectedJoints (List.getElem_mem hi'))).1
    have hg : (d.qpos.gather ((selectedJoints j.model fm).map (qposOf j.model))).get i =
        d.qpos.get (qposOf j.model (selectedJoints j.model fm)[i]) := by
      rw [gather_get (by simpa using hi') (by simp only [List.getElem_map]; omega)]; simp
    refine ⟨?_, ?_, ?_, ?_⟩
    · simp only [Vec.append, a2, if_pos hi']; rw [a3 i hi', hg]
    · simp only [Vec.append, a2]; rw [if_neg (by omega), Nat.add_sub_cancel_left, b3 i hi', hg]
    · intro k
      rw [m4 i (by omega), s4 i (by simpa using hi') k]; simp
    · intro k
      have := m5 i k
      rw [s2] at this
      rw [this, s4 i (by simpa using hi') k]
      simp only [List.getElem_map]; split <;> simp

end Mjinx
