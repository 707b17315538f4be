import Verif.Props.Objects
import Verif.Props.FrameTask
import Verif.Props.Settings
import Verif.Lemmas.Tree
import Verif.Spec.Pose

/-!
# C90, C59: components measure the selected coordinates of the object they name
-/

namespace Mjinx.Props
open Spec Finset
open scoped Quaternion Matrix
set_option linter.unusedSectionVars false
variable {K : Type} [Field K] [LinearOrder K] [IsStrictOrderedRing K]

/-- The three tasks with a fixed number of axes. -/
def FixedTask (a : TaskArgs K) (all : Nat) (n : NewComp K) : Prop :=
  (n = .comTask a ∧ all = 3) ∨ (∃ on ot, n = .positionTask a on ot ∧ all = 3) ∨ (∃ on ot, n = .frameTask a on ot ∧ all = 6)

theorem nonzeroIdxs_axes (mk : Arr Int) (n : Nat) (h : mk.shape = [n]) (all : Nat) :
    nonzeroIdxs ((List.range n).map (fun i => mk.get [i])) = axesOf all (some mk) := by
  simp only [nonzeroIdxs, List.length_map, List.length_range, axesOf, h, List.headD_cons]
  apply List.filter_congr
  intro i hi
  have hi : i < n := List.mem_range.1 hi
  simp [List.getElem?_range hi]

/-- The compiled component uses the axes selected at construction. -/
theorem fixedTask_axes {a : TaskArgs K} {all : Nat} {n : NewComp K} (hf : FixedTask a all n) {c0 : Comp K}
    (hn : n.run = .ok c0) (ops : List (CompOp K)) {j : JaxComp K} (hC : CompilesTo (runOps c0 ops).attrs j) :
    j.maskIdxs = axesOf all a.mask ∧ j.dim = ((axesOf all a.mask).length : Int) := by
  have hinit : FixedAxes c0.attrs.kind ∧ c0.attrs.dim = ((axesOf all a.mask).length : Int) ∧
      ((c0.attrs.mask.isSome ∧ c0.attrs.maskIdxs = axesOf all a.mask) ∨ (c0.attrs.mask = none ∧ a.mask = none)) := by
    have key : ∀ {m : Option (List Int)} {idxs : List Nat}, initMask a.mask = .ok (m, idxs) →
        ((if a.mask.isNone then all else idxs.length : Nat) : Int) = ((axesOf all a.mask).length : Int) ∧
        ((m.isSome ∧ idxs = axesOf all a.mask) ∨ (m = none ∧ a.mask = none)) := by
      intro m idxs h
      rcases initMask_ok h with ⟨h1, h2, _⟩ | ⟨mk, k, h1, h2, h3, h4⟩
      · rw [h1, h2]; simp [axesOf]
      · have := nonzeroIdxs_axes mk k h2 all
        rw [h1, ← this, h3, h4]; simp
    rcases hf with ⟨rfl, rfl⟩ | ⟨on, ot, rfl, rfl⟩ | ⟨on, ot, rfl, rfl⟩ <;> simp only [NewComp.run] at hn
    · obtain ⟨_, _, _, _, h, rfl⟩ := newComTask_ok hn
      obtain ⟨_, _, _, hm, rfl⟩ := initAttrs_ok h
      exact ⟨trivial, key hm⟩
    · obtain ⟨_, _, _, h, rfl⟩ := newPositionTask_ok hn
      obtain ⟨_, _, _, hm, rfl⟩ := initAttrs_ok h
      exact ⟨trivial, key hm⟩
    · obtain ⟨_, _, _, h, rfl⟩ := newFrameTask_ok hn
      obtain ⟨_, _, _, hm, rfl⟩ := initAttrs_ok h
      exact ⟨trivial, key hm⟩
  have hrun : FixedAxes (runOps c0 ops).attrs.kind ∧ (runOps c0 ops).attrs.dim = ((axesOf all a.mask).length : Int) ∧
      (((runOps c0 ops).attrs.mask.isSome ∧ (runOps c0 ops).attrs.maskIdxs = axesOf all a.mask) ∨
        ((runOps c0 ops).attrs.mask = none ∧ a.mask = none)) := by
    refine runOps_induct (P := fun c => FixedAxes c.attrs.kind ∧ c.attrs.dim = ((axesOf all a.mask).length : Int) ∧
      ((c.attrs.mask.isSome ∧ c.attrs.maskIdxs = axesOf all a.mask) ∨ (c.attrs.mask = none ∧ a.mask = none))) hinit ?_ ops
    rintro op c ⟨h1, h2, h3⟩
    obtain ⟨g1, g2⟩ := run_mask_fixed op c h1
    refine ⟨?_, by rw [g1, h2], ?_⟩
    · have := run_tag op c
      revert this h1
      cases c.attrs.kind <;> cases (op.run c).2.attrs.kind <;> simp [Kind.tag, FixedAxes]
    · rcases g2 with ⟨g2, g3⟩ | ⟨g2, g3, g4⟩
      · rw [g2, g3]; exact h3
      · rw [g3, g4, h2]
        rcases h3 with ⟨h3, _⟩ | ⟨_, h3⟩
        · rw [g2] at h3; cases h3
        · left; rw [h3]; simp [axesOf]
  obtain ⟨-, h2, h3⟩ := hrun
  refine ⟨?_, by rw [hC.dim, h2]⟩
  rw [hC.maskIdxs]
  rcases h3 with ⟨h3, h4⟩ | ⟨h3, h4⟩
  · rw [if_pos h3, h4]
  · rw [h3, h2, h4]; simp [axesOf]

theorem axesOf_lt {all : Nat} {mask : Option (Arr Int)} (h : FullMask all mask) : ∀ i ∈ axesOf all mask, i < all := by
  intro i hi
  cases mask with
  | none => simpa [axesOf] using hi
  | some m =>
    simp only [axesOf, h m rfl, List.headD_cons, List.mem_filter, List.mem_range] at hi
    exact hi.1

theorem objPos_placed {d : MjData K} {ot : ObjType} {k : Nat} {p : V3 K} (h : PlacedAt d ot k p) : objPos d ot k = .ok p := by
  cases ot <;> simp only [PlacedAt] at h
  · exact jnpGet_some h
  · exact jnpGet_some h
  · exact jnpGet_some h

theorem objMat_oriented {d : MjData K} {ot : ObjType} {k : Nat} {R : M3 K} (h : OrientedAs d ot k R) : objMat d ot k = .ok R := by
  cases ot <;> simp only [OrientedAs] at h
  · exact jnpGet_some h
  · exact jnpGet_some h
  · exact jnpGet_some h

theorem clean_ops {c0 c : Comp K} (hr : CleanRun c0 c) : ∃ ops, c = runOps c0 ops := by
  induction hr with
  | refl => exact ⟨[], rfl⟩
  | step op _ _ ih => obtain ⟨ops, rfl⟩ := ih; exact ⟨ops ++ [op], by simp [runOps]⟩
  | accepted ops m _ => exact ⟨ops ++ [.updateModel m], by simp [runOps, CompOp.run]⟩

/-- The value of a compiled position task. -/
theorem positionTask_value_of {a : TaskArgs K} {on : String} {ot : ObjType} {c0 c : Comp K}
    (h0 : newPositionTask a on ot = .ok c0) (hmask : FullMask 3 a.mask) (hr : CleanRun c0 c) {j : JaxComp K}
    (hC : CompilesTo c.attrs j) {x : Arr K} (hx : targetPoint c = some x) (hx1 : x.ndim ≤ 1) :
    ∃ k : Nat, (j.model.names ot)[k]? = some on ∧ ∀ (env : Env K) (d : MjData K) (p : V3 K), PlacedAt d ot k p →
      ∃ e, evalValue env j d = .ok e ∧ e.len = (axesOf 3 a.mask).length ∧
        ∀ r i, (axesOf 3 a.mask)[r]? = some i → ∃ h : i < 3, e.get r = p ⟨i, h⟩ - entry x r := by
  have hn : (NewComp.positionTask a on ot).run = .ok c0 := h0
  obtain ⟨i, ho, k, rfl, hk⟩ := task_object_of (on := on) (ot := ot) (a := a) (.inl rfl) hn hr hC
  obtain ⟨ops, rfl⟩ := clean_ops hr
  obtain ⟨hidx, hdim⟩ := fixedTask_axes (.inr (.inl ⟨on, ot, rfl, rfl⟩)) hn ops hC
  obtain ⟨n, hd, hl⟩ := C20_target_fits hn ops hx
  have hnl : n = (axesOf 3 a.mask).length := by
    have := hC.dim; omega
  subst hnl
  refine ⟨k, hk, fun env d p hp => ?_⟩
  have htag : (runOps c0 ops).attrs.kind.tag = Tag.position := by
    refine runOps_induct (P := fun c => c.attrs.kind.tag = Tag.position) ?_ (fun op c h => by rw [run_tag, h]) ops
    obtain ⟨_, _, _, h, rfl⟩ := newPositionTask_ok h0
    rfl
  have hK := hC.kind
  unfold targetPoint at hx
  cases hkk : (runOps c0 ops).attrs.kind <;> rw [hkk] at htag hx hK <;> simp only [Kind.tag, reduceCtorEq] at htag
  cases hx
  cases hjk : j.kind <;> rw [hjk] at hK <;> simp only [KindOf] at hK
  rename_i w lm i' ty' x'
  have hox : (i', ty') = ((k : Int), ot) := by
    have : objectOf j = some (i', ty') := by unfold objectOf; rw [hjk]
    rw [this] at ho; exact Option.some.inj ho
  cases hox
  have hxx : x' = x := by simp_all
  subst hxx
  obtain ⟨t, t1, t2⟩ := operand_fits (fits_of_lastDim hl hx1)
  obtain ⟨e, e1, e2, e3, -⟩ := t2 ((vec3 p).gather j.maskIdxs) (by rw [hidx]; rfl)
  refine ⟨e, ?_, e2, ?_⟩
  · rw [evalValue, hjk]
    simp only [bind, Except.bind, t1, objPos_placed hp, e1]
  · intro r i hri
    obtain ⟨hr, rfl⟩ := List.getElem?_eq_some_iff.1 hri
    have h3 := axesOf_lt hmask _ (List.getElem_mem hr)
    refine ⟨h3, ?_⟩
    rw [e3 r hr]
    simp only [hidx]
    rw [gather_get hr h3]
    simp [vec3, h3]

/-- **C90** (position tasks on a body, geometry or site, with a mask of length three or none, after any history whose most
recent model change was accepted): the value is the position of the object of that name on the selected axes, minus the
target. -/
theorem C90_position_task_partial {a : TaskArgs K} {on : String} {ot : ObjType} {c0 c : Comp K}
    (h0 : newPositionTask a on ot = .ok c0) (hmask : FullMask 3 a.mask) (hr : CleanRun c0 c) {j : JaxComp K}
    (hj : (jaxComponent c).1 = .ok j) {x : Arr K} (hx : targetPoint c = some x) (hx1 : x.ndim ≤ 1) :
    ∃ k : Nat, (j.model.names ot)[k]? = some on ∧ ∀ (env : Env K) (d : MjData K) (p : V3 K), PlacedAt d ot k p →
      ∃ e, evalValue env j d = .ok e ∧ e.len = (axesOf 3 a.mask).length ∧
        ∀ r i, (axesOf 3 a.mask)[r]? = some i → ∃ h : i < 3, e.get r = p ⟨i, h⟩ - entry x r := by
  have hn : (NewComp.positionTask a on ot).run = .ok c0 := h0
  refine positionTask_value_of h0 hmask hr ?_ hx hx1
  exact jaxComponent_spec (cacheOK_reachable (hr.reachable hn)) (c' := (jaxComponent c).2) (by rw [← hj])

/-- The value of a compiled centre-of-mass task. -/
theorem comTask_value_of {a : TaskArgs K} {c0 : Comp K} (h0 : newComTask a = .ok c0) (ops : List (CompOp K)) {j : JaxComp K}
    (hC : CompilesTo (runOps c0 ops).attrs j) {x : Arr K} (hx : targetPoint (runOps c0 ops) = some x) (hx1 : x.ndim ≤ 1)
    (hroot : j.model.bodyRootid[0]? = some 0) (env : Env K) (d : MjData K) {com : V3 K} (hcom : d.subtreeCom[0]? = some com) :
    ∃ e, evalValue env j d = .ok e ∧ e.len = (axesOf 3 a.mask).length ∧
      ∀ r i, (axesOf 3 a.mask)[r]? = some i → ∃ h : i < 3, e.get r = com ⟨i, h⟩ - entry x r := by
  have hn : (NewComp.comTask a).run = .ok c0 := h0
  have hmask : FullMask 3 a.mask := by
    intro m hm
    obtain ⟨_, _, h, _, h', _⟩ := newComTask_ok h0
    obtain ⟨_, _, _, h'', _⟩ := initAttrs_ok h'
    rcases initMask_ok h'' with ⟨h2, _⟩ | ⟨m', n, h2, h3, _⟩
    · rw [hm] at h2; cases h2
    · rw [hm] at h2; cases h2
      rw [hm] at h
      simp only [checkComMask, Arr.len, h3] at h
      split at h
      · cases h
      · rename_i hne
        have : n = 3 := by simpa using hne
        rw [h3, this]
  obtain ⟨hidx, hdim⟩ := fixedTask_axes (.inl ⟨rfl, rfl⟩) hn ops hC
  obtain ⟨n, hd, hl⟩ := C20_target_fits hn ops hx
  have hnl : n = (axesOf 3 a.mask).length := by
    have := hC.dim; omega
  subst hnl
  have htag : (runOps c0 ops).attrs.kind.tag = Tag.com := by
    refine runOps_induct (P := fun c => c.attrs.kind.tag = Tag.com) ?_ (fun op c h => by rw [run_tag, h]) ops
    obtain ⟨_, _, _, _, h, rfl⟩ := newComTask_ok h0
    rfl
  have hK := hC.kind
  unfold targetPoint at hx
  cases hkk : (runOps c0 ops).attrs.kind <;> rw [hkk] at htag hx hK <;> simp only [Kind.tag, reduceCtorEq] at htag
  cases hx
  cases hjk : j.kind <;> rw [hjk] at hK <;> simp only [KindOf] at hK
  rename_i w lm x'
  have hxx : x' = x := by simp_all
  subst hxx
  obtain ⟨t, t1, t2⟩ := operand_fits (fits_of_lastDim hl hx1)
  obtain ⟨e, e1, e2, e3, -⟩ := t2 ((vec3 com).gather j.maskIdxs) (by rw [hidx]; rfl)
  have hroot' : npGet j.model.bodyRootid 0 = .ok 0 := npGet_some (i := 0) hroot
  have hcom' : jnpGet d.subtreeCom ((0 : Nat) : Int) = .ok com := jnpGet_some (i := 0) hcom
  refine ⟨e, ?_, e2, ?_⟩
  · rw [evalValue, hjk]
    simp only [bind, Except.bind, t1, hroot', hcom', e1]
  · intro r i hri
    obtain ⟨hr, rfl⟩ := List.getElem?_eq_some_iff.1 hri
    have h3 := axesOf_lt hmask _ (List.getElem_mem hr)
    refine ⟨h3, ?_⟩
    rw [e3 r hr]
    simp only [hidx]
    rw [gather_get hr h3]
    simp [vec3, h3]

/-- **C90** (CoM tasks, any history): the value is the centre of mass of the world's subtree on the selected axes, minus
the target. -/
theorem C90_com_task {a : TaskArgs K} {c0 : Comp K} (h0 : newComTask a = .ok c0) (ops : List (CompOp K)) {j : JaxComp K}
    (hj : (jaxComponent (runOps c0 ops)).1 = .ok j) {x : Arr K} (hx : targetPoint (runOps c0 ops) = some x) (hx1 : x.ndim ≤ 1)
    (hroot : j.model.bodyRootid[0]? = some 0) (env : Env K) (d : MjData K) {com : V3 K} (hcom : d.subtreeCom[0]? = some com) :
    ∃ e, evalValue env j d = .ok e ∧ e.len = (axesOf 3 a.mask).length ∧
      ∀ r i, (axesOf 3 a.mask)[r]? = some i → ∃ h : i < 3, e.get r = com ⟨i, h⟩ - entry x r := by
  have hn : (NewComp.comTask a).run = .ok c0 := h0
  exact comTask_value_of h0 ops (jaxComponent_spec (cacheOK_reachable ⟨_, c0, ops, hn, rfl⟩) (c' := (jaxComponent (runOps c0 ops)).2)
    (by rw [← hj])) hx hx1 hroot env d hcom

/-- The compiled frame task: its object and target. -/
theorem frameTask_compiled {a : TaskArgs K} {on : String} {ot : ObjType} {c0 c : Comp K}
    (h0 : newFrameTask a on ot = .ok c0) (hr : CleanRun c0 c) {j : JaxComp K}
    (hj : (jaxComponent c).1 = .ok j) {x : Arr K} (hx : targetFrame c = some x) :
    j.maskIdxs = axesOf 6 a.mask ∧ ∃ (w : Arr K) (lm : K) (k : Nat), (j.model.names ot)[k]? = some on ∧ j.kind = .frameTask w lm k ot x := by
  have hn : (NewComp.frameTask a on ot).run = .ok c0 := h0
  obtain ⟨i, ho, k, rfl, hk⟩ := C19_task_object_partial (on := on) (ot := ot) (.frameTask a) hn hr hj
  obtain ⟨ops, rfl⟩ := clean_ops hr
  have hC : CompilesTo (runOps c0 ops).attrs j :=
    jaxComponent_spec (cacheOK_reachable ⟨_, c0, ops, hn, rfl⟩) (c' := (jaxComponent (runOps c0 ops)).2) (by rw [← hj])
  obtain ⟨hidx, hdim⟩ := fixedTask_axes (.inr (.inr ⟨on, ot, rfl, rfl⟩)) hn ops hC
  refine ⟨hidx, ?_⟩
  have hK := hC.kind
  unfold targetFrame at hx
  cases hkk : (runOps c0 ops).attrs.kind <;> rw [hkk] at hx hK <;> cases hx
  cases hjk : j.kind <;> rw [hjk] at hK <;> simp only [KindOf] at hK
  rename_i w lm i' ty' x'
  have hox : (i', ty') = ((k : Int), ot) := by
    have : objectOf j = some (i', ty') := by unfold objectOf; rw [hjk]
    rw [this] at ho; exact Option.some.inj ho
  cases hox
  have hxx : x' = x := by simp_all
  subst hxx
  exact ⟨w, lm, k, hk, rfl⟩

/-- The pose with the seven parameters `(qw, qx, qy, qz, x, y, z)` of a target. -/
def targetPose (x : Arr K) : SE3 K := ⟨⟨x.get [0], x.get [1], x.get [2], x.get [3]⟩, ![x.get [4], x.get [5], x.get [6]]⟩

/-- **C90** (frame tasks on a body, geometry or site, with a mask of length six or none): the value lists the selected
coordinates (translational first) of the logarithm of the target's pose seen from the object of that name. -/
theorem C90_frame_task_partial {a : TaskArgs K} {on : String} {ot : ObjType} {c0 c : Comp K}
    (h0 : newFrameTask a on ot = .ok c0) (hmask : FullMask 6 a.mask) (hr : CleanRun c0 c) {j : JaxComp K}
    (hj : (jaxComponent c).1 = .ok j) {x : Arr K} (hx : targetFrame c = some x) (hx1 : x.shape = [7]) :
    ∃ k : Nat, (j.model.names ot)[k]? = some on ∧ ∀ (env : Env K) (d : MjData K) (p : V3 K) (R : M3 K), PlacedAt d ot k p →
      OrientedAs d ot k R → ∃ e, evalValue env j d = .ok e ∧ e.len = (axesOf 6 a.mask).length ∧
        ∀ r i, (axesOf 6 a.mask)[r]? = some i →
          let t := env.se3Log ((SE3.inv ⟨env.rotOfMat R, p⟩).mul (targetPose x))
          (∀ h : i < 3, e.get r = t.1 ⟨i, h⟩) ∧ (∀ h : i - 3 < 3, 3 ≤ i → e.get r = t.2 ⟨i - 3, h⟩) := by
  obtain ⟨hidx, w, lm, k, hk, hjk⟩ := frameTask_compiled h0 hr hj hx
  refine ⟨k, hk, fun env d p R hp hR => ?_⟩
  refine ⟨(vec6 (env.se3Log ((SE3.inv ⟨env.rotOfMat R, p⟩).mul (targetPose x)))).gather j.maskIdxs, ?_, by rw [hidx]; rfl, ?_⟩
  · rw [evalValue, hjk]
    have ht : x.toVec = .ok ⟨7, fun i => x.get [i]⟩ := by simp [Arr.toVec, hx1]
    simp only [bind, Except.bind, ht, objFrame, objMat_oriented hR, objPos_placed hp, se3OfVec, if_true]
    rfl
  · intro r i hri
    obtain ⟨hr, rfl⟩ := List.getElem?_eq_some_iff.1 hri
    have h6 := axesOf_lt hmask _ (List.getElem_mem hr)
    simp only [hidx]
    rw [gather_get hr h6]
    constructor
    · intro h3
      simp [vec6, Vec.append, vec3, h3]
    · intro h3 h3'
      have : ¬ (axesOf 6 a.mask)[r] < 3 := by omega
      simp [vec6, Vec.append, vec3, this, h3]

/-- **C90** (position barriers on a body, geometry or site, with a mask of length three or none, any history): the value
lists, for the selected axes, the distances of the object of that name from the bounds of the limit type. -/
theorem C90_position_barrier_partial {a : BarrierArgs K} {on : String} {ot : ObjType} {lo0 hi0 : Option (Arr K)}
    {lt : String} {mask : Option (Arr Int)} {c0 : Comp K} {j : JaxComp K}
    (h0 : newPositionBarrier a on ot lo0 hi0 lt mask = .ok c0) (hmask : FullMask 3 mask) (ops : List (CompOp K))
    (hj : (jaxComponent (runOps c0 ops)).1 = .ok j) :
    ∃ (k : Nat) (lo hi : Arr K), (j.model.names ot)[k]? = some on ∧ pMin (runOps c0 ops) = some lo ∧ pMax (runOps c0 ops) = some hi ∧
      (lo.ndim ≤ 1 → hi.ndim ≤ 1 → ∀ (env : Env K) (d : MjData K) (p : V3 K), PlacedAt d ot k p →
        ∃ e, evalValue env j d = .ok e ∧
          let n := (selectedAxes mask).length
          (lt = "min" → e.len = n ∧ ∀ r (hr : r < n), e.get r = p (selectedAxes mask)[r] - entry lo r) ∧
          (lt = "max" → e.len = n ∧ ∀ r (hr : r < n), e.get r = entry hi r - p (selectedAxes mask)[r]) ∧
          (lt = "both" → e.len = 2 * n ∧ ∀ r (hr : r < n), e.get r = p (selectedAxes mask)[r] - entry lo r ∧
            e.get (n + r) = entry hi r - p (selectedAxes mask)[r])) := by
  obtain ⟨i, lo, hi, lt', hlt, ⟨k, rfl, hk⟩, h1, h2, h3⟩ := positionBarrier_rows h0 hmask ops hj
  refine ⟨k, lo, hi, hk, h1, h2, fun hl hh env d p hp => ?_⟩
  obtain ⟨b, hb, hv, hd, hrow⟩ := h3 hl hh env d p (objPos_placed hp)
  refine ⟨_, hv, ?_⟩
  rcases limitTypeArg_ok hlt with ⟨rfl, rfl⟩ | ⟨rfl, rfl⟩ | ⟨rfl, rfl⟩
  · refine ⟨fun _ => ⟨by simp [Vec.gather, limitIdxsOf], fun r hr => ?_⟩, fun h => absurd h (by decide), fun h => absurd h (by decide)⟩
    rw [gather_get (by simpa [limitIdxsOf] using hr) (by simp [limitIdxsOf, hb]; omega)]
    simpa [limitIdxsOf] using (hrow r hr).1
  · refine ⟨fun h => absurd h (by decide), fun _ => ⟨by simp [Vec.gather, limitIdxsOf], fun r hr => ?_⟩, fun h => absurd h (by decide)⟩
    rw [gather_get (by simpa [limitIdxsOf] using hr) (by simp [limitIdxsOf, hb]; omega)]
    simpa [limitIdxsOf] using (hrow r hr).2
  · refine ⟨fun h => absurd h (by decide), fun h => absurd h (by decide), fun _ => ⟨by simp [Vec.gather, limitIdxsOf], fun r hr => ?_⟩⟩
    rw [gather_get (by simp [limitIdxsOf]; omega) (by simp [limitIdxsOf, hb]; omega),
      gather_get (by simp [limitIdxsOf]; omega) (by simp [limitIdxsOf, hb]; omega)]
    simpa [limitIdxsOf] using hrow r hr

/-- **C90 is false for masks with more entries than axes**: a position task with mask `[0, 0, 0, 1]` is accepted and measures
the third coordinate, which its mask deselects. -/
theorem C90_long_mask : ∃ (a : TaskArgs ℚ) (c0 : Comp ℚ) (j : JaxComp ℚ), a.mask = some (Arr.ofList [0, 0, 0, 1]) ∧
    newPositionTask a "b1" .body = .ok c0 ∧ (jaxComponent (runOps c0 [.updateModel Ex.model])).1 = .ok j ∧
    ∀ (env : Env ℚ) (d : MjData ℚ) (p : V3 ℚ), PlacedAt d .body 1 p →
      ∃ e, evalValue env j d = .ok e ∧ e.len = 1 ∧ e.get 0 = p 2 := by
  refine ⟨{ Ex.taskArgs with mask := some (Arr.ofList [0, 0, 0, 1]) }, _, _, rfl, rfl, rfl, fun env d p hp => ?_⟩
  have h := objPos_placed hp
  refine ⟨⟨1, fun i => ((vec3 p).gather [3]).get i - 0⟩, ?_, rfl, ?_⟩
  · unfold evalValue
    show (do
      let t ← (Arr.zeros 1 : Arr ℚ).operand
      let p ← objPos d .body 1
      subVec ((vec3 p).gather [3]) t) = _
    have h' : objPos d .body 1 = .ok p := h
    simp only [bind, Except.bind, h']
    rfl
  · simp [Vec.gather, vec3]

/-- **C90 is false for objects other than bodies, geometries and sites**: a position task on a camera is accepted and
measures the body whose index is the camera's. -/
theorem C90_camera : ∃ (m : MjModel ℚ) (c0 : Comp ℚ) (j : JaxComp ℚ), m.otherNames = ["cam"] ∧ m.bodyNames[0]? = some "world" ∧
    newPositionTask Ex.taskArgs "cam" .other = .ok c0 ∧ (jaxComponent (runOps c0 [.updateModel m])).1 = .ok j ∧
    ∀ (env : Env ℚ) (d : MjData ℚ) (p : V3 ℚ), PlacedAt d .body 0 p →
      ∃ e, evalValue env j d = .ok e ∧ e.len = 3 ∧ ∀ r (h : r < 3), e.get r = p ⟨r, h⟩ := by
  refine ⟨{ Ex.model with otherNames := ["cam"] }, _, _, rfl, rfl, rfl, rfl, fun env d p hp => ?_⟩
  have h : objPos d .other 0 = .ok p := (objPos_placed hp : objPos d .body (0 : Nat) = .ok p)
  refine ⟨⟨3, fun i => ((vec3 p).gather [0, 1, 2]).get i - 0⟩, ?_, rfl, ?_⟩
  · unfold evalValue
    show (do
      let t ← (Arr.zeros 3 : Arr ℚ).operand
      let p ← objPos d .other 0
      subVec ((vec3 p).gather [0, 1, 2]) t) = _
    simp only [bind, Except.bind, h]
    rfl
  · intro r hr
    interval_cases r <;> simp [Vec.gather, vec3]

/-- **C59** (named objects): a frame task without mask on a body, geometry or site, after any history whose most recent model
change was accepted.  The error is zero exactly when the matrix and the position of the object of that name put every point
where the target does.  Rotations are converted with jaxlie's `SO3.from_matrix`, logarithms are jaxlie's. -/
theorem C59_named_object {a : TaskArgs ℝ} {on : String} {ot : ObjType} {c0 c : Comp ℝ}
    (h0 : newFrameTask a on ot = .ok c0) (hmask : a.mask = none) (hr : CleanRun c0 c) {j : JaxComp ℝ}
    (hj : (jaxComponent c).1 = .ok j) {x : Arr ℝ} (hx : targetFrame c = some x) (hx1 : x.shape = [7])
    (hu : x.get [0] ^ 2 + x.get [1] ^ 2 + x.get [2] ^ 2 + x.get [3] ^ 2 = 1)
    {env : Env ℝ} {eps : ℝ} (hlog : env.se3Log = se3LogR eps) (hrot : env.rotOfMat = rotOfMatR) (e0 : 0 < eps) (e1 : eps ≤ 3 / 4) :
    ∃ k : Nat, (j.model.names ot)[k]? = some on ∧ ∀ (d : MjData ℝ) (p : V3 ℝ) (R : M3 ℝ), PlacedAt d ot k p →
      OrientedAs d ot k R → IsRotation R → ∃ e, evalValue env j d = .ok e ∧ e.len = 6 ∧
        ((∀ r < 6, e.get r = 0) ↔ ∀ v, R.mulVec v + p = (targetPose x).apply v) := by
  obtain ⟨hidx, w, lm, k, hk, hjk⟩ := frameTask_compiled h0 hr hj hx
  refine ⟨k, hk, fun d p R hp hR hrt => ?_⟩
  obtain ⟨u1, u2⟩ := rotOfMatR_spec hrt
  have hF : objFrame env d ot k = .ok ⟨rotOfMatR R, p⟩ := by
    simp only [bind, Except.bind, objFrame, objMat_oriented hR, objPos_placed hp, hrot]; rfl
  have ht : x.toVec = .ok ⟨7, fun i => x.get [i]⟩ := by simp [Arr.toVec, hx1]
  have := C59_zero_iff_target hlog e0 e1 (d := d) hjk (by rw [hidx, hmask]; rfl) ht (T := targetPose x) rfl hF
    (by rw [Quaternion.normSq_def']; exact hu) u1
  simpa only [SamePose, SE3.apply, u2] using this

/-! ### Examples -/

/-- The hypotheses of the task theorems: a position task with a mask, a frame task and a CoM task on the example robot. -/
example : ∃ (c0 c : Comp ℚ) (j : JaxComp ℚ) (x : Arr ℚ),
    newPositionTask { Ex.taskArgs with mask := some (Arr.ofList [1, 0, 1]) } "b1" .body = .ok c0 ∧
    FullMask 3 (some (Arr.ofList [1, 0, 1])) ∧ CleanRun c0 c ∧ (jaxComponent c).1 = .ok j ∧ targetPoint c = some x ∧ x.ndim ≤ 1 ∧
    x.shape = [2] :=
  ⟨_, _, _, _, rfl, by rintro m ⟨⟩; rfl, .step (.updateTarget (Arr.ofList [1, 2])) (.step (.updateModel Ex.model) .refl (by rintro m ⟨⟩; rfl))
    (by rintro m ⟨⟩), rfl, rfl, by decide, rfl⟩
example : ∃ (c0 c : Comp ℚ) (j : JaxComp ℚ) (x : Arr ℚ), newFrameTask Ex.taskArgs "b1" .body = .ok c0 ∧
    CleanRun c0 c ∧ (jaxComponent c).1 = .ok j ∧ targetFrame c = some x ∧ x.shape = [7] ∧
    x.get [0] ^ 2 + x.get [1] ^ 2 + x.get [2] ^ 2 + x.get [3] ^ 2 = 1 :=
  ⟨_, _, _, _, rfl, .step (.updateModel Ex.model) .refl (by rintro m ⟨⟩; rfl), rfl, rfl, rfl, by
    show (1 : ℚ) ^ 2 + 0 ^ 2 + 0 ^ 2 + 0 ^ 2 = 1
    norm_num⟩
example : ∃ (c0 : Comp ℚ) (j : JaxComp ℚ) (x : Arr ℚ), newComTask Ex.taskArgs = .ok c0 ∧
    (jaxComponent (runOps c0 [.updateModel Ex.model])).1 = .ok j ∧ targetPoint (runOps c0 [.updateModel Ex.model]) = some x ∧ x.ndim ≤ 1 ∧
    j.model.bodyRootid[0]? = some 0 := ⟨_, _, _, rfl, rfl, rfl, by decide, rfl⟩
example : ∃ (c0 : Comp ℚ) (j : JaxComp ℚ), newPositionBarrier Ex.barrierArgs "b1" .body (some (Ex.scalar 0)) none "min" none = .ok c0 ∧
    FullMask 3 none ∧ (jaxComponent (runOps c0 [.updateModel Ex.model])).1 = .ok j := ⟨_, _, rfl, by rintro m ⟨⟩, rfl⟩

/-- The arm of `C60_wrong`: the hypotheses of `C59_named_object`. -/
noncomputable def armArgs : TaskArgs ℝ where
  name := "t"
  cost := Arr.scalar 1
  gain := Arr.scalar 1
  lm := 0
noncomputable def armComp : Comp ℝ :=
  Comp.fresh {
    name := "t", model := none, gain := Arr.scalar 1, gainFn := id, dim := 6, mask := none, maskIdxs := [], kind := .frameTask ⟨Arr.scalar 1, 0⟩ ⟨"arm", .body, -1⟩ se3Identity }
example : ∃ (c : Comp ℝ) (j : JaxComp ℝ) (x : Arr ℝ), newFrameTask armArgs "arm" .body = .ok armComp ∧
    CleanRun armComp c ∧ (jaxComponent c).1 = .ok j ∧ targetFrame c = some x ∧ x.shape = [7] ∧
    (x.get [0] ^ 2 + x.get [1] ^ 2 + x.get [2] ^ 2 + x.get [3] ^ 2 = 1) ∧ (j.model.names .body)[1]? = some "arm" ∧
    ∀ q, PlacedAt (Arm.data 1 q) .body 1 ![1 * Real.cos q, 1 * Real.sin q, 0] ∧ OrientedAs (Arm.data 1 q) .body 1 (Arm.rz q) ∧
      IsRotation (Arm.rz q) := by
  have h : newFrameTask armArgs "arm" .body = .ok armComp := by
    unfold newFrameTask
    have : initTaskA armArgs.cost armArgs.lm = .ok ⟨Arr.scalar 1, 0⟩ := by
      rw [initTaskA, if_neg (by simp [armArgs])]; rfl
    rw [this]
    rfl
  refine ⟨_, _, _, h, .step (.updateModel Arm.model) .refl (by rintro m ⟨⟩; rfl), rfl, rfl, rfl, ?_, rfl, fun q => ⟨rfl, rfl, Arm.rz_rotation q⟩⟩
  show (1 : ℝ) ^ 2 + 0 ^ 2 + 0 ^ 2 + 0 ^ 2 = 1
  norm_num
end Mjinx.Props
