import Verif.Lemmas.JointEval
import Verif.Spec.ExEnv
import Mathlib.Tactic.NormNum
import Mathlib.Tactic.Linarith

/-!
# C13, C14, C16, C17: joint tasks and joint barriers

`c0` is a freshly constructed component, `c` the component after any history of calls in which the
most recent model update did not raise (`CleanRun`; anything else may have raised), `j` what it compiles to.  The model of `j` is any
model with MuJoCo's joint layout (`JointsWF`).
-/

namespace Mjinx.Props
open Spec Finset
set_option linter.unusedSectionVars false
variable {K : Type} [Field K] [LinearOrder K] [IsStrictOrderedRing K]

/-- C13, joint task: entry `i` of the error reads the configuration coordinate of the `i`-th selected
joint, row `i` of the Jacobian selects the velocity coordinate of the same joint, and there are no other
entries. -/
theorem C13_task_coordinates {a : TaskArgs K} {fm : Option (List Int)} {c0 c : Comp K} {j : JaxComp K}
    (h0 : newJointTask a fm = .ok c0) (hr : CleanRun c0 c) (hj : (jaxComponent c).1 = .ok j)
    (hw : JointsWF j.model) :
    ∃ tq, targetQ c = some tq ∧
      (tq.ndim ≤ 1 → ∀ (env : Env K) (d : MjData K), d.qpos.len = j.model.nq →
        ∃ e J, evalValue env j d = .ok e ∧ evalJacobian env j d = .ok J ∧
          e.len = (selectedJoints j.model fm).length ∧ J.rows = (selectedJoints j.model fm).length ∧
          J.cols = j.model.nv ∧
          ∀ i (hi : i < (selectedJoints j.model fm).length),
            e.get i = d.qpos.get (qposOf j.model (selectedJoints j.model fm)[i]) - entry tq i ∧
            ∀ k, J.get i k = if k = dofOf j.model (selectedJoints j.model fm)[i] then 1 else 0) := by
  obtain ⟨w, lm, tq, h1, t, qi, h2, -⟩ := jointTask_compiled h0 hr hj hw
  exact ⟨tq, by simp [targetQ, h2], fun ht env d hd => jointTask_eval h1 hw ht env d hd⟩

/-- C13, joint barrier: the first half of the entries and rows belongs to the lower limits, the second
half to the upper limits, in the order of the selected joints. -/
theorem C13_barrier_coordinates {a : BarrierArgs K} {lo0 hi0 : Option (Arr K)} {fm : Option (List Int)}
    {c0 c : Comp K} {j : JaxComp K}
    (h0 : newJointBarrier a lo0 hi0 fm = .ok c0) (hr : CleanRun c0 c) (hj : (jaxComponent c).1 = .ok j)
    (hw : JointsWF j.model) :
    ∃ lo hi, qMin c = some lo ∧ qMax c = some hi ∧
      (FitsVec lo (selectedJoints j.model fm).length → FitsVec hi (selectedJoints j.model fm).length →
        ∀ (env : Env K) (d : MjData K), d.qpos.len = j.model.nq →
        ∃ h J, evalValue env j d = .ok h ∧ evalJacobian env j d = .ok J ∧
          h.len = 2 * (selectedJoints j.model fm).length ∧ J.rows = 2 * (selectedJoints j.model fm).length ∧
          J.cols = j.model.nv ∧
          ∀ i (hi' : i < (selectedJoints j.model fm).length),
            h.get i = d.qpos.get (qposOf j.model (selectedJoints j.model fm)[i]) - entry lo i ∧
            h.get ((selectedJoints j.model fm).length + i) =
              entry hi i - d.qpos.get (qposOf j.model (selectedJoints j.model fm)[i]) ∧
            (∀ k, J.get i k = if k = dofOf j.model (selectedJoints j.model fm)[i] then 1 else 0) ∧
            ∀ k, J.get ((selectedJoints j.model fm).length + i) k =
              if k = dofOf j.model (selectedJoints j.model fm)[i] then -1 else 0) := by
  obtain ⟨s, lo, hi, h1, qi, h2⟩ := jointBarrier_compiled h0 hr hj hw
  exact ⟨lo, hi, by simp [qMin, h2], by simp [qMax, h2],
    fun hl hh env d hd => jointBarrier_eval h1 hw hl hh env d hd⟩

/-- C13: a mask that does not have one entry per scalar joint is refused, whatever happened before. -/
theorem C13_wrong_length_refused {c : Comp K} {f : List Int} {m : MjModel K} (hw : JointsWF m)
    (hlen : f.length ≠ (scalarJoints m).length) :
    (∀ t tq qi, c.attrs.kind = .jointTask t (some f) tq qi → (updateModel m c).1 = .error .valueError) ∧
    ∀ s lo hi qi, c.attrs.kind = .jointBarrier s (some f) lo hi qi →
      (updateModel m c).1 = .error .valueError := by
  have hm := (applyFinalMask_spec hw (some f)).1 f rfl hlen
  refine ⟨?_, ?_⟩
  · intro t tq qi hk
    unfold updateModel; rw [hk]; simp only [updateModelJointTask, hm]
  · intro s lo hi qi hk
    unfold updateModel; rw [hk]; exact congrArg Prod.fst (updateModelJointBarrier_err_mask hm)

/-! Example: a joint task and a joint barrier on the model with a free joint, a hinge, a ball joint and a
slide; the mask keeps the slide only.  They compile, and the selected joint is joint 3. -/
example : selectedJoints Ex.model (some [0, 1]) = [3] ∧ qposOf Ex.model 3 = 12 ∧ dofOf Ex.model 3 = 10 := by
  refine ⟨?_, rfl, rfl⟩; decide
example : ∃ c0 c j, newJointTask Ex.taskArgs (some [0, 1]) = .ok c0 ∧ CleanRun c0 c ∧
    (jaxComponent c).1 = .ok j ∧ JointsWF j.model ∧ j.model.nq = 13 ∧
    ∃ tq, targetQ c = some tq ∧ tq.ndim ≤ 1 := by
  refine ⟨_, _, _, rfl, .step (.updateModel Ex.model) .refl (fun m h => ?_), rfl, Ex.model_wf, rfl, _, rfl, by decide⟩
  rfl
example : ∃ c0 c j, newJointBarrier Ex.barrierArgs (some (Ex.scalar (-1))) (some (Ex.scalar 1)) (some [0, 1]) = .ok c0 ∧
    CleanRun c0 c ∧ (jaxComponent c).1 = .ok j ∧ JointsWF j.model ∧
    ∃ lo hi, qMin c = some lo ∧ qMax c = some hi ∧ FitsVec lo (selectedJoints j.model (some [0, 1])).length ∧
      FitsVec hi (selectedJoints j.model (some [0, 1])).length := by
  refine ⟨_, _, _, rfl, .step (.updateModel Ex.model) .refl (fun m h => ?_), rfl, Ex.model_wf, _, _, rfl, rfl,
    .inl rfl, .inl rfl⟩
  rfl

/-- C14: along the motion by any velocity for any time, the error of a joint task changes by exactly the
time step times the Jacobian applied to the velocity.  `KeepsScalars` is the assumption on mjx. -/
theorem C14_exact_derivative {a : TaskArgs K} {fm : Option (List Int)} {c0 c : Comp K} {j : JaxComp K}
    {tq : Arr K} (h0 : newJointTask a fm = .ok c0) (hr : CleanRun c0 c) (hj : (jaxComponent c).1 = .ok j)
    (hw : JointsWF j.model) (ht : targetQ c = some tq) (hnd : tq.ndim ≤ 1) (env : Env K)
    (hk : KeepsScalars env j.model) (q v : Vec K) (dt : K) (hq : q.len = j.model.nq) :
    ∃ e J e', evalValue env j (update env j.model q) = .ok e ∧
      evalJacobian env j (update env j.model q) = .ok J ∧
      evalValue env j (update env j.model (integrate env j.model q v dt)) = .ok e' ∧
      e'.len = e.len ∧ J.rows = e.len ∧ ∀ i < e.len, e'.get i = e.get i + dt * rowDot J i v.get := by
  obtain ⟨tq', ht', H⟩ := C13_task_coordinates h0 hr hj hw
  rw [ht] at ht'; cases ht'
  obtain ⟨i1, i2⟩ := integrate_scalar env hw q v dt
  obtain ⟨e, J, e1, e2, e3, e4, e5, e6⟩ := H hnd env _ (hk q hq).1
  obtain ⟨e', _, f1, -, f3, -, -, f6⟩ := H hnd env _ (hk _ i1).1
  refine ⟨e, J, e', e1, e2, f1, by rw [e3, f3], by rw [e3, e4], ?_⟩
  intro i hi
  rw [e3] at hi
  have hs := mem_selectedJoints (List.getElem_mem hi)
  rw [(f6 i hi).1, (e6 i hi).1, (hk _ i1).2 _ hs, (hk q hq).2 _ hs, (i2 _ hs).2.2,
    rowDot_unit (by rw [e5]; exact (i2 _ hs).2.1) (e6 i hi).2]
  ring

example : KeepsScalars Ex.env Ex.model ∧ (⟨13, fun _ => 0⟩ : Vec ℚ).len = Ex.model.nq :=
  ⟨Ex.env_keeps _, rfl⟩

/-- C16: the value of a joint barrier is nonnegative iff all selected joints are within the limits. -/
theorem C16_nonneg_iff_within {a : BarrierArgs K} {lo0 hi0 : Option (Arr K)} {fm : Option (List Int)}
    {c0 c : Comp K} {j : JaxComp K} {lo hi : Arr K}
    (h0 : newJointBarrier a lo0 hi0 fm = .ok c0) (hr : CleanRun c0 c) (hj : (jaxComponent c).1 = .ok j)
    (hw : JointsWF j.model) (hlo : qMin c = some lo) (hhi : qMax c = some hi)
    (flo : FitsVec lo (selectedJoints j.model fm).length)
    (fhi : FitsVec hi (selectedJoints j.model fm).length)
    (env : Env K) (d : MjData K) (hd : d.qpos.len = j.model.nq) :
    ∃ h, evalValue env j d = .ok h ∧ h.len = 2 * (selectedJoints j.model fm).length ∧
      ((∀ i < h.len, 0 ≤ h.get i) ↔
        ∀ i (hi' : i < (selectedJoints j.model fm).length),
          entry lo i ≤ d.qpos.get (qposOf j.model (selectedJoints j.model fm)[i]) ∧
          d.qpos.get (qposOf j.model (selectedJoints j.model fm)[i]) ≤ entry hi i) := by
  obtain ⟨lo', hi', e1, e2, H⟩ := C13_barrier_coordinates h0 hr hj hw
  rw [hlo] at e1; rw [hhi] at e2; cases e1; cases e2
  obtain ⟨h, J, v1, -, v3, -, -, v6⟩ := H flo fhi env d hd
  refine ⟨h, v1, v3, ?_⟩
  rw [v3]
  constructor
  · intro H i hi'
    obtain ⟨a1, a2, -⟩ := v6 i hi'
    have b1 := H i (by omega)
    have b2 := H _ (show (selectedJoints j.model fm).length + i < _ by omega)
    rw [a1] at b1; rw [a2] at b2
    exact ⟨by linarith, by linarith⟩
  · intro H i hi'
    by_cases hlt : i < (selectedJoints j.model fm).length
    · rw [(v6 i hlt).1]; linarith [(H i hlt).1]
    · obtain ⟨k, rfl⟩ : ∃ k, i = (selectedJoints j.model fm).length + k :=
        ⟨i - (selectedJoints j.model fm).length, by omega⟩
      rw [(v6 k (by omega)).2.1]; linarith [(H k (by omega)).2]

theorem scalarRange_eq {m : MjModel K} (hw : JointsWF m) (u : Bool) :
    scalarRange m u = (scalarJoints m).map
      (fun k => if u then (m.jntRange.getD k (0, 0)).2 else (m.jntRange.getD k (0, 0)).1) := by
  have hz : m.jntType.zip m.jntRange =
      (List.range m.jntType.length).map (fun k => (m.jntType.getD k .free, m.jntRange.getD k (0, 0))) := by
    apply List.ext_getElem
    · simp [hw.range]
    · intro i h1 h2
      simp only [List.length_map, List.length_range] at h2
      have h3 : i < m.jntRange.length := by rw [hw.range]; exact h2
      simp [List.getD_eq_getElem?_getD, h2, h3]
  rw [scalarRange, hz, List.filter_map, List.map_map, scalarJoints]
  rfl

/-- All scalar joints are selected when as many are selected as there are. -/
theorem selected_all {m : MjModel K} {fm : Option (List Int)}
    (h : (selectedJoints m fm).length = (scalarJoints m).length)
    (hf : ∀ f, fm = some f → f.length = (scalarJoints m).length) :
    selectedJoints m fm = scalarJoints m := by
  cases fm with
  | none => rfl
  | some f =>
    have hl := hf f rfl
    simp only [selectedJoints] at h ⊢
    have h2 : (((scalarJoints m).zip f).filter (fun x => x.2 ≠ 0)).length = ((scalarJoints m).zip f).length := by
      rw [List.length_map] at h; rw [h]; simp [hl]
    rw [List.filter_eq_self.2 (List.length_filter_eq_length_iff.1 h2)]
    exact List.map_fst_zip (by omega)

/-- C16, default limits: whenever a joint barrier built without a limit accepts its model, that limit
becomes the model's range of the selected joints, entry by entry. -/
theorem C16_default_limits {m : MjModel K} (hw : JointsWF m) {c : Comp K} {s : K} {fm : Option (List Int)}
    {lo hi : Option (Arr K)} {qi : Option (List Nat)} (hk : c.attrs.kind = .jointBarrier s fm lo hi qi)
    (hu : (updateModel m c).1 = .ok ()) :
    (lo = none → ∃ x, qMin (updateModel m c).2 = some x ∧ x.shape = [(selectedJoints m fm).length] ∧
      ∀ i (h : i < (selectedJoints m fm).length),
        entry x i = (m.jntRange.getD (selectedJoints m fm)[i] (0, 0)).1) ∧
    (hi = none → ∃ x, qMax (updateModel m c).2 = some x ∧ x.shape = [(selectedJoints m fm).length] ∧
      ∀ i (h : i < (selectedJoints m fm).length),
        entry x i = (m.jntRange.getD (selectedJoints m fm)[i] (0, 0)).2) := by
  have he : updateModel m c = updateModelJointBarrier m s fm lo hi qi c := by unfold updateModel; rw [hk]
  rw [he] at hu ⊢
  obtain ⟨mk, h1, h2, h3⟩ := updateModelJointBarrier_ok hu
  obtain ⟨s1, s2⟩ := applyFinalMask_spec hw fm
  have hlen : ∀ f, fm = some f → f.length = (scalarJoints m).length := by
    intro f hf
    by_contra hne
    rw [s1 f hf hne] at h1; cases h1
  obtain ⟨mk', e1, e2, e3⟩ := s2 hlen
  rw [h1] at e1; cases e1
  have hall : lo = none ∨ hi = none → selectedJoints m fm = scalarJoints m := by
    intro h
    refine selected_all ?_ hlen
    have := h2 h
    rw [e2, scalarRange_eq hw] at this
    simpa using this.symm
  have key : ∀ u, selectedJoints m fm = scalarJoints m →
      (Arr.ofList0 (scalarRange m u)).shape = [(selectedJoints m fm).length] ∧
      ∀ i (h : i < (selectedJoints m fm).length), entry (Arr.ofList0 (scalarRange m u)) i =
        if u then (m.jntRange.getD (selectedJoints m fm)[i] (0, 0)).2
        else (m.jntRange.getD (selectedJoints m fm)[i] (0, 0)).1 := by
    intro u ha
    rw [ha, scalarRange_eq hw]
    refine ⟨by simp [Arr.ofList0], ?_⟩
    intro i h
    rw [entry_ofList0 _ (by simpa using h)]; simp
  refine ⟨?_, ?_⟩
  · rintro rfl
    obtain ⟨k1, k2⟩ := key false (hall (.inl rfl))
    exact ⟨_, by simp [qMin, h3], k1, by simpa using k2⟩
  · rintro rfl
    obtain ⟨k1, k2⟩ := key true (hall (.inr rfl))
    exact ⟨_, by simp [qMax, h3], k1, by simpa using k2⟩

example : ∃ c0, newJointBarrier Ex.barrierArgs none none (some [1, 1]) = .ok c0 ∧
    (updateModel Ex.model c0).1 = .ok () ∧ selectedJoints Ex.model (some [1, 1]) = [1, 3] := by
  refine ⟨_, rfl, rfl, ?_⟩; decide

private theorem fillLimit_error {u : Bool} {o : Option (Arr K)} {l : List K} {c : Comp K} {e : Err} {s : K} {fm : Option (List Int)}
    {lo hi : Option (Arr K)} {qi : Option (List Nat)} (hk : c.attrs.kind = .jointBarrier s fm lo hi qi) (hd : 0 ≤ c.attrs.dim)
    (h : (fillLimit u o (Arr.ofList0 l) c).1 = .error e) : e = .valueError := by
  unfold fillLimit at h
  cases o with
  | some x => cases h
  | none =>
    dsimp only at h
    unfold updateQLimit at h
    rw [hk] at h
    have hdim : getDim c.attrs = .ok c.attrs.dim := by
      unfold getDim
      rw [if_neg (by omega)]
    have hlast : (Arr.ofList0 l : Arr K).lastDim = .ok l.length := rfl
    simp only [hlast, hdim] at h
    split at h
    · cases h; rfl
    · split at h <;> cases h

/-- C17 is false: a joint barrier without explicit limits whose mask drops any joint is refused by every
model (with the right number of joints). -/
theorem C17_masked_default_refused {m : MjModel K} (hw : JointsWF m) {c : Comp K} {s : K} {f : List Int}
    {lo hi : Option (Arr K)} {qi : Option (List Nat)} (hk : c.attrs.kind = .jointBarrier s (some f) lo hi qi)
    (hnone : lo = none ∨ hi = none) (hlen : f.length = (scalarJoints m).length) (hdrop : 0 ∈ f) :
    (updateModel m c).1 = .error .valueError := by
  have he : updateModel m c = updateModelJointBarrier m s (some f) lo hi qi c := by unfold updateModel; rw [hk]
  rw [he]
  have hve : ∀ e, (updateModelJointBarrier m s (some f) lo hi qi c).1 = .error e → e = .valueError := by
    intro e h
    obtain ⟨s1, s2⟩ := applyFinalMask_spec hw (some f)
    obtain ⟨mk, e1, -, -⟩ := s2 (fun f' hf => by cases hf; exact hlen)
    unfold updateModelJointBarrier at h
    simp only [e1] at h
    split at h
    · rename_i e' c3 h3
      cases h
      exact fillLimit_error (s := s) (fm := some f) (lo := lo) (hi := hi) (qi := some (nonzeroIdxs mk.2)) rfl (Int.natCast_nonneg _) (congrArg Prod.fst h3)
    · rename_i c3 h3
      have e2 := congrArg Prod.fst h3
      obtain ⟨-, g2⟩ := fillLimit_ok (u := false) (o := lo) (sdg := s) (fm := some f) (lo := lo) (hi := hi)
        (qi := some (nonzeroIdxs mk.2)) rfl rfl e2
      rw [congrArg Prod.snd h3] at g2
      exact fillLimit_error (c := c3) (s := s) (fm := some f) (by rw [g2]) (by rw [g2]; exact Int.natCast_nonneg _) h
  cases hu : (updateModelJointBarrier m s (some f) lo hi qi c).1 with
  | error e => rw [hve e hu]
  | ok x =>
  exfalso
  obtain ⟨mk, h1, h2, h3⟩ := updateModelJointBarrier_ok hu
  obtain ⟨s1, s2⟩ := applyFinalMask_spec hw (some f)
  obtain ⟨mk', e1, e2, e3⟩ := s2 (fun f' hf => by cases hf; exact hlen)
  rw [h1] at e1; cases e1
  have h4 := h2 hnone
  rw [e2, scalarRange_eq hw] at h4
  simp only [List.length_map, selectedJoints] at h4
  have h5 : (((scalarJoints m).zip f).filter (fun x => x.2 ≠ 0)).length = ((scalarJoints m).zip f).length := by
    rw [← h4]; simp [hlen]
  have h6 := List.length_filter_eq_length_iff.1 h5
  obtain ⟨i, hi, h0⟩ := List.getElem_of_mem hdrop
  have hz : i < ((scalarJoints m).zip f).length := by simp; omega
  have := h6 _ (List.getElem_mem hz)
  simp [h0] at this

example : ∃ c0 s qi, newJointBarrier Ex.barrierArgs none none (some [0, 1]) = .ok c0 ∧
    c0.attrs.kind = .jointBarrier s (some [0, 1]) none none qi ∧
    [0, 1].length = (scalarJoints Ex.model).length ∧ (0 : Int) ∈ ([0, 1] : List Int) ∧
    (updateModel Ex.model c0).1 = .error .valueError := by
  refine ⟨_, _, _, rfl, rfl, rfl, by decide, rfl⟩

/-- C17 holds if the mask drops no joint (or there is no mask): the barrier accepts the model and takes
both limits from the model.  Missing: masks that drop a joint, for which the property is false. -/
theorem C17_default_limits_partial {m : MjModel K} (hw : JointsWF m) {a : BarrierArgs K}
    {fm : Option (List Int)} {c0 : Comp K} (h0 : newJointBarrier a none none fm = .ok c0)
    (hfm : ∀ f, fm = some f → f.length = (scalarJoints m).length ∧ 0 ∉ f) :
    (updateModel m c0).1 = .ok () ∧
    ∃ lo hi, qMin (updateModel m c0).2 = some lo ∧ qMax (updateModel m c0).2 = some hi ∧
      lo.shape = [(scalarJoints m).length] ∧ hi.shape = [(scalarJoints m).length] ∧
      ∀ i (h : i < (scalarJoints m).length), entry lo i = (m.jntRange.getD (scalarJoints m)[i] (0, 0)).1 ∧
        entry hi i = (m.jntRange.getD (scalarJoints m)[i] (0, 0)).2 := by
  have hk0 : c0.attrs.kind = .jointBarrier a.sdg fm none none none := by
    obtain ⟨at0, h2, rfl⟩ := newJointBarrier_ok h0
    obtain ⟨_, _, _, _, rfl⟩ := initAttrs_ok h2
    rfl
  have hsel : selectedJoints m fm = scalarJoints m := by
    cases fm with
    | none => rfl
    | some f =>
      obtain ⟨hl, h0⟩ := hfm f rfl
      simp only [selectedJoints]
      rw [List.filter_eq_self.2]
      · exact List.map_fst_zip (by omega)
      · rintro ⟨x, y⟩ hx
        have := (List.of_mem_zip hx).2
        simp only [ne_eq, decide_not, Bool.not_eq_true', decide_eq_false_iff_not]
        rintro rfl; exact h0 this
  have hu : (updateModel m c0).1 = .ok () := by
    obtain ⟨mk, e1, e2, e3⟩ := (applyFinalMask_spec hw fm).2 (fun f hf => (hfm f hf).1)
    have hl : (nonzeroIdxs mk.1).length = (scalarJoints m).length := by rw [e2, hsel]; simp
    have hr : ∀ u, (scalarRange m u).length = (scalarJoints m).length := by
      intro u; rw [scalarRange_eq hw]; simp
    unfold updateModel; rw [hk0]
    simp only [updateModelJointBarrier, e1, fillLimit, updateQLimit, Comp.set, getDim, Arr.lastDim,
      Arr.ofList0, List.getLast?_singleton, hr, hl]
    have h1 : ¬ (((2 * (scalarJoints m).length : Nat) : Int) = -1) := by omega
    have h2 : ((2 * (scalarJoints m).length : Nat) : Int) / 2 = ((scalarJoints m).length : Int) := by omega
    simp only [h1, h2, if_false, ne_eq, not_true_eq_false, Bool.false_eq_true, if_true]
  refine ⟨hu, ?_⟩
  obtain ⟨hlo, hhi⟩ := C16_default_limits hw hk0 hu
  obtain ⟨lo, l1, l2, l3⟩ := hlo rfl
  obtain ⟨hi, r1, r2, r3⟩ := hhi rfl
  simp only [hsel] at l2 l3 r2 r3
  exact ⟨lo, hi, l1, r1, l2, r2, fun i h => ⟨l3 i h, r3 i h⟩⟩

example : ∃ c0, newJointBarrier Ex.barrierArgs none none (some [1, 1]) = .ok c0 ∧
    ∀ f, some ([1, 1] : List Int) = some f → f.length = (scalarJoints Ex.model).length ∧ 0 ∉ f := by
  refine ⟨_, rfl, ?_⟩
  intro f hf; cases hf; exact ⟨rfl, by decide⟩

end Mjinx.Props
