import Verif.Lemmas.ObjInv
import Verif.Lemmas.JointEval
import Verif.Spec.ExEnv
import Mathlib.Tactic.NormNum
import Mathlib.Tactic.Linarith

/-!
# C18, C19, C20, C58: position barriers, named objects, targets, limit types
-/

namespace Mjinx.Props
open Spec Finset
set_option linter.unusedSectionVars false
variable {K : Type} [Field K] [LinearOrder K] [IsStrictOrderedRing K]

theorem maskIdxs_axes {mask : Option (Arr Int)} {m : Option (List Int)} {idxs : List Nat}
    (h : initMask (some (mask.getD (Arr.ofList [1, 1, 1]))) = .ok (m, idxs))
    (hmask : ∀ mk, mask = some mk → mk.shape = [3]) : idxs = (selectedAxes mask).map Fin.val := by
  rcases initMask_ok h with ⟨h, _⟩ | ⟨a, n, h1, h2, _, h4⟩
  · cases h
  · rw [h4]
    have h3 : List.range 3 = [0, 1, 2] := rfl
    have hf : List.finRange 3 = [0, 1, 2] := by decide
    cases mask with
    | none =>
      cases h1
      have : n = 3 := by simpa [Arr.ofList] using h2.symm
      subst this
      rfl
    | some mk =>
      cases h1
      have : n = 3 := by simpa [hmask _ rfl] using h2.symm
      subst this
      simp only [Option.getD_some, nonzeroIdxs, List.length_map, h3, selectedAxes, hf,
        List.filter_cons, List.filter_nil]
      by_cases a0 : mk.get [0] = 0 <;> by_cases a1 : mk.get [1] = 0 <;> by_cases a2 : mk.get [2] = 0 <;>
        simp [a0, a1, a2, List.range_succ]

theorem fits_of_lastDim {a : Arr K} {n : Nat} (h : a.lastDim = .ok n) (hn : a.ndim ≤ 1) : FitsVec a n := by
  unfold Arr.lastDim at h
  unfold Arr.ndim at hn
  unfold FitsVec
  match hs : a.shape, hn with
  | [], _ => rw [hs] at h; cases h
  | [k], _ => rw [hs] at h; cases h; exact .inr (.inr rfl)

/-- The constructor of the position barrier accepts exactly the three lower-case names. -/
theorem limitTypeArg_ok {s : String} {lt : LimitType} (h : limitTypeArg s = .ok lt) :
    (s = "min" ∧ lt = .min) ∨ (s = "max" ∧ lt = .max) ∨ (s = "both" ∧ lt = .both) := by
  unfold limitTypeArg at h
  split at h
  · cases h
  · rename_i hs
    have : s = "min" ∨ s = "max" ∨ s = "both" := by
      by_contra hc
      simp only [not_or] at hc
      exact hs ⟨hc.1, hc.2.1, hc.2.2⟩
    rcases this with rfl | rfl | rfl
    · left; refine ⟨rfl, ?_⟩; cases h; rfl
    · right; left; refine ⟨rfl, ?_⟩; cases h; rfl
    · right; right; refine ⟨rfl, ?_⟩; cases h; rfl

/-- Reading a gathered vector is reading the selected entries. -/
theorem nonneg_gather {v : Vec K} {idxs : List Nat} (hb : ∀ i ∈ idxs, i < v.len) :
    (∀ r < (v.gather idxs).len, 0 ≤ (v.gather idxs).get r) ↔ ∀ i ∈ idxs, 0 ≤ v.get i := by
  constructor
  · intro h i hi
    obtain ⟨r, hr, rfl⟩ := List.getElem_of_mem hi
    have := h r hr
    rwa [gather_get hr (hb _ hi)] at this
  · intro h r hr
    have hr' : r < idxs.length := hr
    rw [gather_get hr' (hb _ (List.getElem_mem hr'))]
    exact h _ (List.getElem_mem hr')

/-- The rows of a compiled position barrier: both bounds on the selected axes, of which the limit type keeps its part. -/
theorem positionBarrier_rows_of {a : BarrierArgs K} {on : String} {ot : ObjType} {lo0 hi0 : Option (Arr K)}
    {lt : String} {mask : Option (Arr Int)} {c0 : Comp K} {j : JaxComp K}
    (h0 : newPositionBarrier a on ot lo0 hi0 lt mask = .ok c0)
    (hmask : ∀ mk, mask = some mk → mk.shape = [3]) (ops : List (CompOp K))
    (hC : CompilesTo (runOps c0 ops).attrs j) :
    ∃ i lo hi lt', limitTypeArg lt = .ok lt' ∧ HasObject j.model ot on i ∧ pMin (runOps c0 ops) = some lo ∧
      pMax (runOps c0 ops) = some hi ∧
      (lo.ndim ≤ 1 → hi.ndim ≤ 1 → ∀ (env : Env K) (d : MjData K) (p : V3 K), objPos d ot i = .ok p →
        ∃ b : Vec K, b.len = 2 * (selectedAxes mask).length ∧
          evalValue env j d = .ok (b.gather (limitIdxsOf lt' (selectedAxes mask).length)) ∧
          j.dim = (limitIdxsOf lt' (selectedAxes mask).length).length ∧
          ∀ k (hk : k < (selectedAxes mask).length), (b.get k = p (selectedAxes mask)[k] - entry lo k) ∧
            (b.get ((selectedAxes mask).length + k) = entry hi k - p (selectedAxes mask)[k])) := by
  have hn : (NewComp.positionBarrier a on ot lo0 hi0 lt mask).run = .ok c0 := h0
  have hI : FInv (runOps c0 ops).attrs := runOps_induct (P := fun c => FInv c.attrs) (finv_new hn) finv_run ops
  obtain ⟨at0, lt', lo', hi', b1, b2, b3, b4, b5⟩ := newPositionBarrier_ok h0
  obtain ⟨_, m0, idxs, b6, b7⟩ := initAttrs_ok b1
  have hidx := maskIdxs_axes b6 hmask
  have hconst : (runOps c0 ops).attrs.kind.const = c0.attrs.kind.const :=
    runOps_induct (P := fun c => c.attrs.kind.const = c0.attrs.kind.const) rfl
      (fun op c h => by rw [run_const, h]) ops
  have htag : (runOps c0 ops).attrs.kind.tag = c0.attrs.kind.tag :=
    runOps_induct (P := fun c => c.attrs.kind.tag = c0.attrs.kind.tag) rfl
      (fun op c h => by rw [run_tag, h]) ops
  have hmk : (runOps c0 ops).attrs.kind.tag = Tag.positionBarrier ∧ (runOps c0 ops).attrs.mask = c0.attrs.mask ∧
      (runOps c0 ops).attrs.maskIdxs = c0.attrs.maskIdxs := by
    have hs : c0.attrs.mask.isSome := by
      have := finv_new hn
      rw [b5] at this ⊢
      exact this.1
    refine runOps_induct (P := fun c => c.attrs.kind.tag = Tag.positionBarrier ∧ c.attrs.mask = c0.attrs.mask ∧
      c.attrs.maskIdxs = c0.attrs.maskIdxs) ⟨?_, rfl, rfl⟩ ?_ ops
    · rw [b5]; rfl
    · rintro op c ⟨i1, i2, i3⟩
      have hf : FixedAxes c.attrs.kind := by
        revert i1; cases c.attrs.kind <;> simp [Kind.tag, FixedAxes]
      obtain ⟨_, h⟩ := run_mask_fixed op c hf
      refine ⟨by rw [run_tag, i1], ?_⟩
      rcases h with ⟨h1, h2⟩ | ⟨h1, _⟩
      · rw [h1, h2]; exact ⟨i2, i3⟩
      · rw [i2] at h1; rw [h1] at hs; cases hs
  obtain ⟨hmk1, hmk2, hmk3⟩ := hmk
  have hkd : c0.attrs.kind = .positionBarrier a.sdg ⟨on, ot, -1⟩ lo' hi' lt'
      (limitIdxsOf lt' c0.attrs.maskIdxs.length) ∧ c0.attrs.maskIdxs = (selectedAxes mask).map Fin.val := by
    rw [b5, b7]; exact ⟨rfl, hidx⟩
  obtain ⟨hkd1, hkd2⟩ := hkd
  rw [hkd1] at hconst
  clear b1 b3 b4 b5 b6 b7 htag
  have hK := hC.kind
  have hMI := hC.maskIdxs
  have hM := hC.model
  have hD := hC.dim
  revert hI hconst hK hMI hM hD
  cases hk : (runOps c0 ops).attrs.kind <;> rw [hk] at hmk1 <;> simp only [Kind.tag, reduceCtorEq] at hmk1
  rename_i s o lo hi lt2 li
  intro hI hconst hK hMI hM hD
  unfold FInv at hI
  rw [hk] at hI
  obtain ⟨i1, i2, i3, i4, i5, i6⟩ := hI
  simp only [Kind.const, Option.some.injEq, Prod.mk.injEq] at hconst
  obtain ⟨e1, e2, e3, e4⟩ := hconst
  cases hjk : j.kind <;> rw [hjk] at hK <;> simp only [KindOf] at hK
  rename_i s' i' ty' lo'' hi'' li'
  obtain ⟨rfl, rfl, rfl, rfl, rfl, rfl, hid⟩ := hK
  obtain ⟨m, g1, g2⟩ := i6 hid
  rw [hM] at g1; cases g1
  rw [i1] at hMI; simp only [if_true] at hMI
  rw [hmk3] at i4 i5
  rw [hmk3, hkd2] at hMI
  rw [hkd2, List.length_map] at i4 i5
  refine ⟨o.objId, lo'', hi'', lt', b2, ?_, by simp [pMin, hk], by simp [pMax, hk], ?_⟩
  · have := (name2id_spec j.model o.objType o.objName).1 (by rw [← g2]; exact hid)
    rw [← g2, e1, e2] at this; exact this
  intro hl hh env d p hp
  obtain ⟨t, t1, t2⟩ := operand_fits (fits_of_lastDim i4 hl)
  obtain ⟨t', t1', t2'⟩ := operand_fits (fits_of_lastDim i5 hh)
  have hgl : ((vec3 p).gather ((selectedAxes mask).map Fin.val)).len = (selectedAxes mask).length := by
    simp [Vec.gather]
  have hgg : ∀ k (hk : k < (selectedAxes mask).length),
      ((vec3 p).gather ((selectedAxes mask).map Fin.val)).get k = p (selectedAxes mask)[k] := by
    intro k hk
    rw [gather_get (by simpa using hk) (by simp only [List.getElem_map]; exact (selectedAxes mask)[k].isLt)]
    simp [vec3]
  obtain ⟨x, x1, x2, x3, -⟩ := t2 _ hgl
  obtain ⟨_, _, _, _, y, y1, y2, y3⟩ := t2' _ hgl
  have hnn : ∀ k (hk : k < (selectedAxes mask).length),
      ((x.append y).get k = p (selectedAxes mask)[k] - entry lo'' k) ∧
      ((x.append y).get ((selectedAxes mask).length + k) = entry hi'' k - p (selectedAxes mask)[k]) := by
    intro k hk
    simp only [Vec.append, x2, if_pos hk]
    rw [if_neg (by omega), Nat.add_sub_cancel_left, x3 k hk, y3 k hk, hgg k hk]
    exact ⟨rfl, rfl⟩
  have hlen : (x.append y).len = 2 * (selectedAxes mask).length := by simp only [Vec.append, x2, y2]; omega
  have hli : li' = limitIdxsOf lt' (selectedAxes mask).length := by
    rw [e4, hkd2, List.length_map]
  refine ⟨x.append y, hlen, ?_, ?_, hnn⟩
  · rw [← hli]
    unfold evalValue
    rw [hjk]
    simp only [t1, t1', hMI, e2, hp, boundsValue, bind, Except.bind, x1, y1, pure, Except.pure]
  · rw [hD, i3, hli]

theorem positionBarrier_rows {a : BarrierArgs K} {on : String} {ot : ObjType} {lo0 hi0 : Option (Arr K)}
    {lt : String} {mask : Option (Arr Int)} {c0 : Comp K} {j : JaxComp K}
    (h0 : newPositionBarrier a on ot lo0 hi0 lt mask = .ok c0)
    (hmask : ∀ mk, mask = some mk → mk.shape = [3]) (ops : List (CompOp K))
    (hj : (jaxComponent (runOps c0 ops)).1 = .ok j) :
    ∃ i lo hi lt', limitTypeArg lt = .ok lt' ∧ HasObject j.model ot on i ∧ pMin (runOps c0 ops) = some lo ∧
      pMax (runOps c0 ops) = some hi ∧
      (lo.ndim ≤ 1 → hi.ndim ≤ 1 → ∀ (env : Env K) (d : MjData K) (p : V3 K), objPos d ot i = .ok p →
        ∃ b : Vec K, b.len = 2 * (selectedAxes mask).length ∧
          evalValue env j d = .ok (b.gather (limitIdxsOf lt' (selectedAxes mask).length)) ∧
          j.dim = (limitIdxsOf lt' (selectedAxes mask).length).length ∧
          ∀ k (hk : k < (selectedAxes mask).length), (b.get k = p (selectedAxes mask)[k] - entry lo k) ∧
            (b.get ((selectedAxes mask).length + k) = entry hi k - p (selectedAxes mask)[k])) :=
  positionBarrier_rows_of h0 hmask ops (jaxComponent_spec (cacheOK_reachable ⟨NewComp.positionBarrier a on ot lo0 hi0 lt mask, c0, ops, h0, rfl⟩)
    (c' := (jaxComponent (runOps c0 ops)).2) (by rw [← hj]))

/-- C18: for every limit type, mask of length three (or none) and history of calls (including rejected
ones), the value of a compiled position barrier is nonnegative iff on every selected axis the object's
position satisfies the bounds of the limit type. -/
theorem C18_nonneg_iff_within {a : BarrierArgs K} {on : String} {ot : ObjType} {lo0 hi0 : Option (Arr K)}
    {lt : String} {mask : Option (Arr Int)} {c0 : Comp K} {j : JaxComp K}
    (h0 : newPositionBarrier a on ot lo0 hi0 lt mask = .ok c0)
    (hmask : ∀ mk, mask = some mk → mk.shape = [3]) (ops : List (CompOp K))
    (hj : (jaxComponent (runOps c0 ops)).1 = .ok j) :
    ∃ i lo hi, HasObject j.model ot on i ∧ pMin (runOps c0 ops) = some lo ∧ pMax (runOps c0 ops) = some hi ∧
      (lo.ndim ≤ 1 → hi.ndim ≤ 1 → ∀ (env : Env K) (d : MjData K) (p : V3 K), objPos d ot i = .ok p →
        ∃ h, evalValue env j d = .ok h ∧ (j.dim = h.len) ∧
          ((∀ r < h.len, 0 ≤ h.get r) ↔
            (lt ≠ "max" → ∀ k (hk : k < (selectedAxes mask).length), entry lo k ≤ p (selectedAxes mask)[k]) ∧
            (lt ≠ "min" → ∀ k (hk : k < (selectedAxes mask).length), p (selectedAxes mask)[k] ≤ entry hi k))) := by
  obtain ⟨i, lo, hi, lt', b2, ho, h1, h2, hrows⟩ := positionBarrier_rows h0 hmask ops hj
  refine ⟨i, lo, hi, ho, h1, h2, fun hl hh env d p hp => ?_⟩
  obtain ⟨b, hlen, hv, hd, hnn⟩ := hrows hl hh env d p hp
  refine ⟨_, hv, by rw [hd]; rfl, ?_⟩
  have hlow : (∀ i ∈ List.range (selectedAxes mask).length, 0 ≤ b.get i) ↔
      ∀ k (hk : k < (selectedAxes mask).length), entry lo k ≤ p (selectedAxes mask)[k] := by
    simp only [List.mem_range]
    refine forall_congr' fun k => forall_congr' fun hk => ?_
    rw [(hnn k hk).1]; exact sub_nonneg
  have hupp : (∀ i ∈ (List.range (selectedAxes mask).length).map ((selectedAxes mask).length + ·), 0 ≤ b.get i) ↔
      ∀ k (hk : k < (selectedAxes mask).length), p (selectedAxes mask)[k] ≤ entry hi k := by
    simp only [List.mem_map, List.mem_range, forall_exists_index, and_imp, forall_apply_eq_imp_iff₂]
    refine forall_congr' fun k => forall_congr' fun hk => ?_
    rw [(hnn k hk).2]; exact sub_nonneg
  rw [nonneg_gather (by
    intro i hi
    rw [hlen]
    cases lt' <;> simp only [limitIdxsOf, List.mem_range, List.mem_map] at hi <;> omega)]
  rcases limitTypeArg_ok b2 with ⟨rfl, rfl⟩ | ⟨rfl, rfl⟩ | ⟨rfl, rfl⟩
  · simp only [limitIdxsOf, hlow]
    simp
  · simp only [limitIdxsOf, hupp]
    simp
  · have hboth : ∀ P : Nat → Prop, (∀ i ∈ List.range (2 * (selectedAxes mask).length), P i) ↔
        (∀ i ∈ List.range (selectedAxes mask).length, P i) ∧
        ∀ i ∈ (List.range (selectedAxes mask).length).map ((selectedAxes mask).length + ·), P i := by
      intro P
      simp only [List.mem_map, List.mem_range, forall_exists_index, and_imp, forall_apply_eq_imp_iff₂]
      constructor
      · intro h; exact ⟨fun i hi => h i (by omega), fun i hi => h _ (by omega)⟩
      · rintro ⟨h1, h2⟩ i hi
        by_cases hlt : i < (selectedAxes mask).length
        · exact h1 i hlt
        · have := h2 (i - (selectedAxes mask).length) (by omega)
          rwa [Nat.add_sub_cancel' (by omega)] at this
    simp only [limitIdxsOf]
    rw [hboth, hlow, hupp]
    simp

/-- The shape of a position barrier after any history. -/
theorem posBarrier_kind {a : BarrierArgs K} {on : String} {ot : ObjType} {lo0 hi0 : Option (Arr K)}
    {lt : String} {mask : Option (Arr Int)} {c0 : Comp K}
    (h0 : newPositionBarrier a on ot lo0 hi0 lt mask = .ok c0)
    (hmask : ∀ mk, mask = some mk → mk.shape = [3]) (ops : List (CompOp K)) :
    ∃ lt' s i lo hi, limitTypeArg lt = .ok lt' ∧ (runOps c0 ops).attrs.kind =
      .positionBarrier s ⟨on, ot, i⟩ lo hi lt' (limitIdxsOf lt' (selectedAxes mask).length) ∧
      (runOps c0 ops).attrs.maskIdxs.length = (selectedAxes mask).length ∧
      (i ≠ -1 → ∃ m, (runOps c0 ops).attrs.model = some m ∧ i = m.name2id ot on) := by
  have hn : (NewComp.positionBarrier a on ot lo0 hi0 lt mask).run = .ok c0 := h0
  have hI : FInv (runOps c0 ops).attrs := runOps_induct (P := fun c => FInv c.attrs) (finv_new hn) finv_run ops
  obtain ⟨at0, lt', lo', hi', b1, b2, b3, b4, b5⟩ := newPositionBarrier_ok h0
  obtain ⟨_, m0, idxs, b6, b7⟩ := initAttrs_ok b1
  have hidx := maskIdxs_axes b6 hmask
  have hconst : (runOps c0 ops).attrs.kind.const = c0.attrs.kind.const :=
    runOps_induct (P := fun c => c.attrs.kind.const = c0.attrs.kind.const) rfl
      (fun op c h => by rw [run_const, h]) ops
  have hkc : c0.attrs.kind.const = some (on, ot, some (lt', limitIdxsOf lt' (selectedAxes mask).length)) := by
    rw [b5, b7]; simp only [Kind.const, Comp.fresh, hidx, List.length_map]
  rw [hkc] at hconst
  clear b1 b3 b4 b5 b6 b7
  unfold FInv at hI
  revert hI hconst
  cases hk : (runOps c0 ops).attrs.kind <;> intro hI hconst <;>
    simp only [Kind.const, Option.some.injEq, Prod.mk.injEq, reduceCtorEq, and_false] at hconst
  rename_i s o lo hi lt2 li
  obtain ⟨e1, e2, rfl, rfl⟩ := hconst
  subst e1 e2
  obtain ⟨i1, i2, i3, i4, i5, i6⟩ := hI
  refine ⟨lt2, s, o.objId, lo, hi, b2, rfl, ?_, i6⟩
  have := congrArg List.length i2
  cases lt2 <;> simp only [limitIdxsOf, List.length_range, List.length_map] at this <;> omega

/-- C18: assigning the bound that the limit type excludes never changes anything. -/
theorem C18_excluded_ignored {a : BarrierArgs K} {on : String} {ot : ObjType} {lo0 hi0 : Option (Arr K)}
    {lt : String} {mask : Option (Arr Int)} {c0 : Comp K}
    (h0 : newPositionBarrier a on ot lo0 hi0 lt mask = .ok c0)
    (hmask : ∀ mk, mask = some mk → mk.shape = [3]) (ops : List (CompOp K)) (x : Arr K) :
    (lt = "max" → ((CompOp.updatePLimit false x).run (runOps c0 ops)).2 = runOps c0 ops) ∧
    (lt = "min" → ((CompOp.updatePLimit true x).run (runOps c0 ops)).2 = runOps c0 ops) := by
  obtain ⟨lt', s, i, lo, hi, h1, h2, h3, _⟩ := posBarrier_kind h0 hmask ops
  have key : ∀ u : Bool, (if u then lt'.includesMax else lt'.includesMin) = false →
      ((CompOp.updatePLimit u x).run (runOps c0 ops)).2 = runOps c0 ops := by
    intro u hu
    simp only [CompOp.run]
    unfold updatePLimit
    rw [h2]
    dsimp only
    rw [hu]
    split
    · rfl
    · rfl
    · rename_i hp; have := (newPositionBound_some hp).1; cases this
  rcases limitTypeArg_ok h1 with ⟨rfl, rfl⟩ | ⟨rfl, rfl⟩ | ⟨rfl, rfl⟩
  · exact ⟨fun h => absurd h (by decide), fun _ => key true rfl⟩
  · exact ⟨fun _ => key false rfl, fun h => absurd h (by decide)⟩
  · exact ⟨fun h => absurd h (by decide), fun h => absurd h (by decide)⟩

theorem bound_entry {b : Bool} {n : Nat} {x p : Arr K} (h : newPositionBound b n x = .ok (some p))
    (hx : x.ndim ≤ 1) : ∀ k < n, entry p k = entry x k := by
  obtain ⟨_, _, ⟨h1, rfl⟩ | ⟨_, rfl⟩⟩ := newPositionBound_some h
  · intro k hk
    unfold entry
    rw [h1]
    by_cases hn : n = 1
    · simp [Arr.onesMul, hn]
    · simp [Arr.onesMul, hn]
  · intro k _; rfl

/-- C18: an accepted assignment of a bound that the limit type includes stores exactly that bound (a number
stands for all axes) and leaves the other bound alone; a bound of another length is refused. -/
theorem C18_included_stored {a : BarrierArgs K} {on : String} {ot : ObjType} {lo0 hi0 : Option (Arr K)}
    {lt : String} {mask : Option (Arr Int)} {c0 : Comp K}
    (h0 : newPositionBarrier a on ot lo0 hi0 lt mask = .ok c0)
    (hmask : ∀ mk, mask = some mk → mk.shape = [3]) (ops : List (CompOp K)) (x : Arr K) :
    (lt ≠ "max" → ∀ c', c' = (CompOp.updatePLimit false x).run (runOps c0 ops) →
      (x.lastDim ≠ .ok (selectedAxes mask).length → x.shape ≠ [] → c'.1 = .error .valueError) ∧
      (c'.1 = .ok () → pMax c'.2 = pMax (runOps c0 ops) ∧ ∃ lo, pMin c'.2 = some lo ∧
        (x.ndim ≤ 1 → ∀ k < (selectedAxes mask).length, entry lo k = entry x k))) ∧
    (lt ≠ "min" → ∀ c', c' = (CompOp.updatePLimit true x).run (runOps c0 ops) →
      (x.lastDim ≠ .ok (selectedAxes mask).length → x.shape ≠ [] → c'.1 = .error .valueError) ∧
      (c'.1 = .ok () → pMin c'.2 = pMin (runOps c0 ops) ∧ ∃ hi, pMax c'.2 = some hi ∧
        (x.ndim ≤ 1 → ∀ k < (selectedAxes mask).length, entry hi k = entry x k))) := by
  obtain ⟨lt', s, i, lo, hi, h1, h2, h3, _⟩ := posBarrier_kind h0 hmask ops
  have hb : ∀ b, (x.lastDim ≠ .ok (selectedAxes mask).length → x.shape ≠ [] →
      newPositionBound b (selectedAxes mask).length x = .error .valueError) := by
    intro b hx hs
    unfold newPositionBound
    cases hg : x.shape.getLast? with
    | none => exact absurd (List.getLast?_eq_none_iff.1 hg) hs
    | some n =>
      dsimp only
      rw [if_pos]
      intro hn
      apply hx
      unfold Arr.lastDim
      rw [hg, hn]
  have hnn : ∀ n, newPositionBound true n x ≠ .ok none := by
    intro n h
    unfold newPositionBound at h
    split at h
    · cases h
    · split at h <;> cases h
  constructor
  · intro hlt c' hc'
    have hinc : lt'.includesMin = true := by
      rcases limitTypeArg_ok h1 with ⟨_, rfl⟩ | ⟨h, _⟩ | ⟨_, rfl⟩
      · rfl
      · exact absurd h hlt
      · rfl
    simp only [CompOp.run] at hc'
    unfold updatePLimit at hc'
    rw [h2] at hc'
    dsimp only at hc'
    simp only [Bool.false_eq_true, if_false, hinc, h3] at hc'
    constructor
    · intro hx hs
      rw [hb true hx hs] at hc'
      rw [hc']
    · intro ho
      cases hp : newPositionBound true (selectedAxes mask).length x with
      | error e => rw [hp] at hc'; rw [hc'] at ho; cases ho
      | ok q =>
        cases q with
        | none => exact absurd hp (hnn _)
        | some p =>
          rw [hp] at hc'
          rw [hc']
          refine ⟨by simp [pMax, h2, Comp.set], p, rfl, fun hx => bound_entry hp hx⟩
  · intro hlt c' hc'
    have hinc : lt'.includesMax = true := by
      rcases limitTypeArg_ok h1 with ⟨h, _⟩ | ⟨_, rfl⟩ | ⟨_, rfl⟩
      · exact absurd h hlt
      · rfl
      · rfl
    simp only [CompOp.run] at hc'
    unfold updatePLimit at hc'
    rw [h2] at hc'
    dsimp only at hc'
    simp only [if_true, hinc, h3] at hc'
    constructor
    · intro hx hs
      rw [hb true hx hs] at hc'
      rw [hc']
    · intro ho
      cases hp : newPositionBound true (selectedAxes mask).length x with
      | error e => rw [hp] at hc'; rw [hc'] at ho; cases ho
      | ok q =>
        cases q with
        | none => exact absurd hp (hnn _)
        | some p =>
          rw [hp] at hc'
          rw [hc']
          refine ⟨by simp [pMin, h2, Comp.set], p, rfl, fun hx => bound_entry hp hx⟩

/-- C18: the bounds given to the constructor are the initial ones; zero if not given or excluded. -/
theorem C18_initial_bounds {a : BarrierArgs K} {on : String} {ot : ObjType} {lo0 hi0 : Option (Arr K)}
    {lt : String} {mask : Option (Arr Int)} {c0 : Comp K}
    (h0 : newPositionBarrier a on ot lo0 hi0 lt mask = .ok c0)
    (hmask : ∀ mk, mask = some mk → mk.shape = [3]) :
    ∃ lo hi, pMin c0 = some lo ∧ pMax c0 = some hi ∧
      (∀ x, lo0 = some x → lt ≠ "max" → x.ndim ≤ 1 → ∀ k < (selectedAxes mask).length, entry lo k = entry x k) ∧
      (∀ x, hi0 = some x → lt ≠ "min" → x.ndim ≤ 1 → ∀ k < (selectedAxes mask).length, entry hi k = entry x k) ∧
      (lo0 = none ∨ lt = "max" → ∀ k < (selectedAxes mask).length, entry lo k = 0) ∧
      (hi0 = none ∨ lt = "min" → ∀ k < (selectedAxes mask).length, entry hi k = 0) := by
  obtain ⟨at0, lt', lo, hi, b1, b2, b3, b4, b5⟩ := newPositionBarrier_ok h0
  obtain ⟨_, m0, idxs, b6, b7⟩ := initAttrs_ok b1
  have hidx := maskIdxs_axes b6 hmask
  have hlen : at0.maskIdxs.length = (selectedAxes mask).length := by rw [b7]; simp [hidx]
  rw [hlen] at b3 b4
  have hz : ∀ n k : Nat, k < n → entry (Arr.zeros n : Arr K) k = 0 := by
    intro n k _; unfold entry Arr.zeros; simp
  have key : ∀ {b : Bool} {n : Nat} {p : Option (Arr K)} {r : Arr K}, initialBound b n p = .ok r →
      (∀ x, p = some x → b = true → x.ndim ≤ 1 → ∀ k < n, entry r k = entry x k) ∧
      (p = none ∨ b = false → ∀ k < n, entry r k = 0) := by
    intro b n p r h
    unfold initialBound at h
    split at h
    · cases h
      exact ⟨fun x hx => (by cases hx), fun _ k hk => hz n k hk⟩
    · rename_i q
      cases hq : newPositionBound b n q with
      | error e => rw [hq] at h; cases h
      | ok o =>
        rw [hq] at h
        cases o with
        | none =>
          cases h
          refine ⟨fun x hx hb => ?_, fun _ k hk => hz n k hk⟩
          subst hb
          unfold newPositionBound at hq
          split at hq
          · cases hq
          · split at hq <;> cases hq
        | some y =>
          cases h
          refine ⟨fun x hx _ hd => ?_, ?_⟩
          · cases hx; exact bound_entry hq hd
          · rintro (h | h)
            · cases h
            · have := (newPositionBound_some hq).1; rw [h] at this; cases this
  obtain ⟨l1, l2⟩ := key b3
  obtain ⟨u1, u2⟩ := key b4
  refine ⟨lo, hi, by rw [b5]; rfl, by rw [b5]; rfl, ?_, ?_, ?_, ?_⟩ <;>
    rcases limitTypeArg_ok b2 with ⟨rfl, rfl⟩ | ⟨rfl, rfl⟩ | ⟨rfl, rfl⟩
  · exact fun x hx _ => l1 x hx rfl
  · exact fun x hx h => absurd rfl h
  · exact fun x hx _ => l1 x hx rfl
  · exact fun x hx h => absurd rfl h
  · exact fun x hx _ => u1 x hx rfl
  · exact fun x hx _ => u1 x hx rfl
  · exact fun h => l2 (h.imp id (fun h => absurd h (by decide)))
  · exact fun h => l2 (.inr rfl)
  · exact fun h => l2 (h.imp id (fun h => absurd h (by decide)))
  · exact fun h => u2 (.inr rfl)
  · exact fun h => u2 (h.imp id (fun h => absurd h (by decide)))
  · exact fun h => u2 (h.imp id (fun h => absurd h (by decide)))

/-- A barrier on the third axis of the tip site. -/
def exMask : Arr Int := Arr.ofList [1, 0, 1]
example : selectedAxes (some exMask) = [0, 2] := by decide
example : ∃ c0 j, newPositionBarrier Ex.barrierArgs "tip" .site (some (Ex.scalar (-1))) none "min" (some exMask) = .ok c0 ∧
    (jaxComponent (runOps c0 [.updateModel Ex.model, .updatePLimit false (Ex.scalar 2)])).1 = .ok j ∧
    exMask.shape = [3] := ⟨_, _, rfl, rfl, rfl⟩

/-! ### C19 -/

/-- C19, barriers: after any history, a compiled position barrier refers to an object of its type and name in
its model. -/
theorem C19_barrier_object {a : BarrierArgs K} {on : String} {ot : ObjType} {lo0 hi0 : Option (Arr K)}
    {lt : String} {mask : Option (Arr Int)} {c0 : Comp K} {j : JaxComp K}
    (h0 : newPositionBarrier a on ot lo0 hi0 lt mask = .ok c0)
    (ops : List (CompOp K)) (hj : (jaxComponent (runOps c0 ops)).1 = .ok j) :
    ∃ i, objectOf j = some (i, ot) ∧ HasObject j.model ot on i := by
  have hn : (NewComp.positionBarrier a on ot lo0 hi0 lt mask).run = .ok c0 := h0
  have hI : FInv (runOps c0 ops).attrs := runOps_induct (P := fun c => FInv c.attrs) (finv_new hn) finv_run ops
  have hC : CompilesTo (runOps c0 ops).attrs j :=
    jaxComponent_spec (cacheOK_reachable ⟨_, c0, ops, hn, rfl⟩) (c' := (jaxComponent (runOps c0 ops)).2)
      (by rw [← hj])
  have hkc : ∃ x, c0.attrs.kind.const = some (on, ot, some x) := by
    obtain ⟨at0, lt', lo', hi', _, _, _, _, rfl⟩ := newPositionBarrier_ok h0
    exact ⟨_, rfl⟩
  obtain ⟨x, hkc⟩ := hkc
  have hconst : (runOps c0 ops).attrs.kind.const = some (on, ot, some x) :=
    runOps_induct (P := fun c => c.attrs.kind.const = some (on, ot, some x)) hkc
      (fun op c h => by rw [run_const, h]) ops
  have hK := hC.kind
  have hM := hC.model
  unfold FInv at hI
  revert hI hconst hK
  cases (runOps c0 ops).attrs.kind <;> intro hI hconst hK <;>
    simp only [Kind.const, Option.some.injEq, Prod.mk.injEq, reduceCtorEq, and_false] at hconst
  rename_i s o lo hi lt2 li
  obtain ⟨e1, e2, _⟩ := hconst
  subst e1 e2
  obtain ⟨-, -, -, -, -, i6⟩ := hI
  cases hjk : j.kind <;> rw [hjk] at hK <;> simp only [KindOf] at hK
  obtain ⟨rfl, rfl, rfl, rfl, rfl, rfl, hid⟩ := hK
  obtain ⟨m, g1, g2⟩ := i6 hid
  rw [hM] at g1; cases g1
  refine ⟨o.objId, by simp [objectOf, hjk], ?_⟩
  rw [g2]
  exact (name2id_spec _ _ _).1 (by rw [← g2]; exact hid)

/-- The constructor calls of components with a named object. -/
inductive NamedNew (on : String) (ot : ObjType) : NewComp K → Prop where
  | positionTask (a : TaskArgs K) : NamedNew on ot (.positionTask a on ot)
  | frameTask (a : TaskArgs K) : NamedNew on ot (.frameTask a on ot)
  | positionBarrier (a : BarrierArgs K) (lo hi : Option (Arr K)) (lt : String) (mask : Option (Arr Int)) :
      NamedNew on ot (.positionBarrier a on ot lo hi lt mask)

theorem NamedNew.const {on : String} {ot : ObjType} {n : NewComp K} (hN : NamedNew on ot n) {c0 : Comp K}
    (hn : n.run = .ok c0) : ∃ x, c0.attrs.kind.const = some (on, ot, x) := by
  cases hN with
  | positionTask a =>
    obtain ⟨t, at0, _, h, rfl⟩ := newPositionTask_ok hn
    exact ⟨_, rfl⟩
  | frameTask a =>
    obtain ⟨t, at0, _, h, rfl⟩ := newFrameTask_ok hn
    obtain ⟨_, m, idxs, h1, rfl⟩ := initAttrs_ok h
    exact ⟨_, rfl⟩
  | positionBarrier a lo hi lt mask =>
    obtain ⟨at0, lt', lo', hi', _, _, _, _, rfl⟩ := newPositionBarrier_ok hn
    exact ⟨_, rfl⟩

theorem NamedNew.kind {on : String} {ot : ObjType} {n : NewComp K} (hN : NamedNew on ot n) {c0 : Comp K}
    (hn : n.run = .ok c0) (ops : List (CompOp K)) : ∃ i,
    (∃ t x, (runOps c0 ops).attrs.kind = .positionTask t ⟨on, ot, i⟩ x) ∨
    (∃ t x, (runOps c0 ops).attrs.kind = .frameTask t ⟨on, ot, i⟩ x) ∨
    ∃ s lo hi lt li, (runOps c0 ops).attrs.kind = .positionBarrier s ⟨on, ot, i⟩ lo hi lt li := by
  obtain ⟨x, hx⟩ := hN.const hn
  have hconst : (runOps c0 ops).attrs.kind.const = some (on, ot, x) :=
    runOps_induct (P := fun c => c.attrs.kind.const = some (on, ot, x)) hx
      (fun op c h => by rw [run_const, h]) ops
  revert hconst
  cases (runOps c0 ops).attrs.kind <;> intro hconst <;>
    simp only [Kind.const, Option.some.injEq, Prod.mk.injEq, reduceCtorEq] at hconst
  · obtain ⟨rfl, rfl, rfl⟩ := hconst
    rename_i o _; exact ⟨o.objId, .inl ⟨_, _, rfl⟩⟩
  · obtain ⟨rfl, rfl, rfl⟩ := hconst
    rename_i o _; exact ⟨o.objId, .inr (.inl ⟨_, _, rfl⟩)⟩
  · obtain ⟨rfl, rfl, rfl⟩ := hconst
    rename_i o _ _ _ _; exact ⟨o.objId, .inr (.inr ⟨_, _, _, _, _, rfl⟩)⟩

/-- C19: after any history, a model without an object of that type and name is refused with `ValueError`, and
a model with one is accepted. -/
theorem C19_missing_object_refused {on : String} {ot : ObjType} {n : NewComp K} (hN : NamedNew on ot n)
    {c0 : Comp K} (hn : n.run = .ok c0) (ops : List (CompOp K)) (m : MjModel K) :
    ((¬ ∃ i, HasObject m ot on i) → (updateModel m (runOps c0 ops)).1 = .error .valueError) ∧
    ((∃ i, HasObject m ot on i) → (updateModel m (runOps c0 ops)).1 = .ok ()) := by
  obtain ⟨i, hk⟩ := hN.kind hn ops
  obtain ⟨-, e⟩ := updateModel_obj (m := m) hk
  rw [e]
  obtain ⟨s1, s2⟩ := name2id_spec m ot on
  constructor
  · intro h
    rw [if_pos]
    by_contra hne
    exact h ⟨_, s1 hne⟩
  · rintro ⟨i, hi⟩
    rw [if_neg]
    intro he
    exact s2 he i hi

/-- C19: as long as every model offered so far was refused, compiling raises `ValueError`. -/
theorem C19_never_bound {on : String} {ot : ObjType} {n : NewComp K} (hN : NamedNew on ot n)
    {c0 : Comp K} (hn : n.run = .ok c0) (ops : List (CompOp K))
    (hm : ∀ m, CompOp.updateModel m ∈ ops → ¬ ∃ i, HasObject m ot on i) :
    (jaxComponent (runOps c0 ops)).1 = .error .valueError := by
  have : (runOps c0 ops).attrs.model = none := by
    induction ops using List.reverseRecOn with
    | nil => exact model_none_of_new hn
    | append_singleton ops op ih =>
      have ih := ih (fun m h => hm m (by simp [h]))
      have e : runOps c0 (ops ++ [op]) = (op.run (runOps c0 ops)).2 := by simp [runOps]
      rw [e]
      by_cases hu : ∃ m, op = .updateModel m
      · obtain ⟨m, rfl⟩ := hu
        obtain ⟨i, hk⟩ := hN.kind hn ops
        obtain ⟨e1, e2⟩ := updateModel_obj (m := m) hk
        have hr := (C19_missing_object_refused hN hn ops m).1 (hm m (by simp))
        simp only [CompOp.run]
        rw [e1]
        rw [hr] at e2
        dsimp only at e2 ⊢
        split at e2
        · rename_i hid; rw [if_pos hid]; exact ih
        · cases e2
      · rw [run_model op _ (fun m h => hu ⟨m, h⟩)]; exact ih
  unfold jaxComponent
  rw [this]

/-- The object of a compiled position or frame task. -/
theorem task_object_of {on : String} {ot : ObjType} {a : TaskArgs K} {n : NewComp K} (hN : n = .positionTask a on ot ∨ n = .frameTask a on ot)
    {c0 c : Comp K} (hn : n.run = .ok c0) (hr : CleanRun c0 c) {j : JaxComp K} (hC : CompilesTo c.attrs j) :
    ∃ i, objectOf j = some (i, ot) ∧ HasObject j.model ot on i := by
  have hN' : NamedNew on ot n := by rcases hN with rfl | rfl; exacts [.positionTask a, .frameTask a]
  obtain ⟨ops, rfl⟩ : ∃ ops, c = runOps c0 ops := by
    clear hC
    induction hr with
    | refl => exact ⟨[], rfl⟩
    | step op _ _ ih => obtain ⟨ops, rfl⟩ := ih; exact ⟨ops ++ [op], by simp [runOps]⟩
    | accepted ops m _ => exact ⟨ops ++ [.updateModel m], by simp [runOps, CompOp.run]⟩
  obtain ⟨i, hk⟩ := hN'.kind hn ops
  have hM := hC.model
  have hK := hC.kind
  have fin : ∀ m : MjModel K, i = m.name2id ot on ∧ i ≠ -1 → HasObject m ot on i := by
    rintro m ⟨h1, h2⟩
    rw [h1]; exact (name2id_spec _ _ _).1 (by rw [← h1]; exact h2)
  rcases hk with ⟨t, x, hk⟩ | ⟨t, x, hk⟩ | ⟨s, lo, hi, lt, li, hk⟩
  · have := hr.taskId hn hM (.inl ⟨t, x, hk⟩)
    rw [hk] at hK
    cases hjk : j.kind <;> rw [hjk] at hK <;> simp only [KindOf] at hK
    obtain ⟨_, _, rfl, rfl, _⟩ := hK
    exact ⟨_, by simp only [objectOf, hjk], fin _ this⟩
  · have := hr.taskId hn hM (.inr ⟨t, x, hk⟩)
    rw [hk] at hK
    cases hjk : j.kind <;> rw [hjk] at hK <;> simp only [KindOf] at hK
    obtain ⟨_, _, rfl, rfl, _⟩ := hK
    exact ⟨_, by simp only [objectOf, hjk], fin _ this⟩
  · exfalso
    rcases hN with rfl | rfl
    · obtain ⟨t, at0, _, h, rfl⟩ := newPositionTask_ok hn
      have := hr.tag
      rw [hk] at this; cases this
    · obtain ⟨t, at0, _, h, rfl⟩ := newFrameTask_ok hn
      obtain ⟨_, m, idxs, h1, rfl⟩ := initAttrs_ok h
      have := hr.tag
      rw [hk] at this; cases this

/-- C19, tasks, provided the most recent model update was accepted.  Missing: tasks whose most recent
model was rejected after an earlier one was accepted (`C19_task_after_rejection`). -/
theorem C19_task_object_partial {on : String} {ot : ObjType} {n : NewComp K} (hN : NamedNew on ot n)
    {c0 c : Comp K} (hn : n.run = .ok c0) (hr : CleanRun c0 c) {j : JaxComp K}
    (hj : (jaxComponent c).1 = .ok j) : ∃ i, objectOf j = some (i, ot) ∧ HasObject j.model ot on i := by
  have hC : CompilesTo c.attrs j :=
    jaxComponent_spec (cacheOK_reachable (hr.reachable hn)) (c' := (jaxComponent c).2) (by rw [← hj])
  cases hN
  case positionBarrier a lo0 hi0 lt0 mask =>
    obtain ⟨ops, rfl⟩ : ∃ ops, c = runOps c0 ops := by
      clear hC hj
      induction hr with
      | refl => exact ⟨[], rfl⟩
      | step op _ _ ih => obtain ⟨ops, rfl⟩ := ih; exact ⟨ops ++ [op], by simp [runOps]⟩
      | accepted ops m _ => exact ⟨ops ++ [.updateModel m], by simp [runOps, CompOp.run]⟩
    exact C19_barrier_object (a := a) (lo0 := lo0) (hi0 := hi0) (lt := lt0) (mask := mask) hn ops hj
  case positionTask a => exact task_object_of (a := a) (.inl rfl) hn hr hC
  case frameTask a => exact task_object_of (a := a) (.inr rfl) hn hr hC

/-- **C19 is false** for tasks after a rejected model: the task still compiles, with id -1, which is not
the id of any object (and which arrays read as their last entry). -/
theorem C19_task_after_rejection : ∃ (c0 : Comp ℚ) (j : JaxComp ℚ) (ops : List (CompOp ℚ)),
    newPositionTask Ex.taskArgs "b4" .body = .ok c0 ∧ (jaxComponent (runOps c0 ops)).1 = .ok j ∧
    objectOf j = some (-1, .body) ∧ ∀ m : MjModel ℚ, ¬ HasObject m .body "b4" (-1) := by
  refine ⟨_, _, [.updateModel Ex.model, .updateModel Ex.model2], rfl, rfl, rfl, ?_⟩
  rintro m ⟨k, hk, _⟩
  omega

example : NamedNew (K := ℚ) "b4" .body (.positionTask Ex.taskArgs "b4" .body) ∧
    HasObject Ex.model .body "b4" 4 ∧ ¬ ∃ i, HasObject Ex.model2 .body "b4" i := by
  refine ⟨.positionTask _, ⟨4, rfl, rfl⟩, ?_⟩
  rintro ⟨_, k, rfl, hk⟩
  have := List.mem_of_getElem? hk
  revert this
  decide
example : ∃ c0 c j, (NewComp.positionTask Ex.taskArgs "b4" .body).run = .ok c0 ∧ CleanRun c0 c ∧
    (jaxComponent c).1 = .ok j ∧ objectOf j = some (4, .body) :=
  ⟨_, _, _, rfl, .accepted [.updateModel Ex.model2] Ex.model rfl, rfl, rfl⟩

/-! ### C20 -/

/-- C20: after any history, the target of a centre-of-mass or position task has as many entries as the task
has dimensions. -/
theorem C20_target_fits {n : NewComp K} {c0 : Comp K} (hn : n.run = .ok c0) (ops : List (CompOp K))
    {x : Arr K} (hx : targetPoint (runOps c0 ops) = some x) :
    ∃ d : Nat, (runOps c0 ops).attrs.dim = d ∧ x.lastDim = .ok d := by
  have hI : FInv (runOps c0 ops).attrs := runOps_induct (P := fun c => FInv c.attrs) (finv_new hn) finv_run ops
  unfold targetPoint at hx
  unfold FInv at hI
  split at hx
  · rename_i hk; rw [hk] at hI; cases hx
    obtain ⟨d, h1, h2, _⟩ := hI; exact ⟨d, h1, h2⟩
  · rename_i hk; rw [hk] at hI; cases hx
    obtain ⟨d, h1, h2, _⟩ := hI; exact ⟨d, h1, h2⟩
  · cases hx

/-- C20: a target whose last axis does not match the known dimension is refused and changes nothing; one that
matches is stored. -/
theorem C20_update (c : Comp K) (x : Arr K) {d k : Nat} (hd : c.attrs.dim = d) (hk : x.lastDim = .ok k)
    (ht : (targetPoint c).isSome ∨ ∃ t fm tq qi, c.attrs.kind = .jointTask t fm tq qi) :
    (k ≠ d → updateTarget x c = (.error .valueError, c)) ∧
    (k = d → (updateTarget x c).1 = .ok () ∧
      (targetPoint (updateTarget x c).2 = some x ∨ targetQ (updateTarget x c).2 = some x)) := by
  have hne : ¬ c.attrs.dim = -1 := by omega
  rcases ht with ht | ⟨t, fm, tq, qi, hkd⟩
  · unfold targetPoint at ht
    split at ht
    · rename_i hkd
      unfold updateTarget
      rw [hkd]
      simp only [hk]
      constructor
      · intro h; rw [if_pos (by omega)]
      · intro h; rw [if_neg (by omega)]; exact ⟨rfl, .inl rfl⟩
    · rename_i hkd
      unfold updateTarget
      rw [hkd]
      simp only [hk]
      constructor
      · intro h; rw [if_pos (by omega)]
      · intro h; rw [if_neg (by omega)]; exact ⟨rfl, .inl rfl⟩
    · cases ht
  · unfold updateTarget
    rw [hkd]
    simp only [hk, if_neg hne]
    constructor
    · intro h; rw [if_pos (by omega)]
    · intro h; rw [if_neg (by omega)]; exact ⟨rfl, .inr rfl⟩

/-- Joint tasks know their dimension only from a model. -/
theorem CleanRun.dim_model {a : TaskArgs K} {fm : Option (List Int)} {c0 c : Comp K}
    (h0 : newJointTask a fm = .ok c0) (hr : CleanRun c0 c) (hd : c.attrs.dim ≠ -1) :
    ∃ m, c.attrs.model = some m := by
  have upd : ∀ (m : MjModel K) (c : Comp K), (updateModel m c).1 = .ok () →
      (updateModel m c).2.attrs.model = some m := by
    intro m c h
    rcases (updateModel_frame m c).2.2.2 with h' | ⟨_, e, he⟩
    · exact h'
    · rw [he] at h; cases h
  induction hr with
  | refl =>
    exfalso
    obtain ⟨t, at0, _, h, rfl⟩ := newJointTask_ok h0
    obtain ⟨_, m, idxs, h1, rfl⟩ := initAttrs_ok h
    exact hd rfl
  | @step c op _ hop ih =>
    by_cases hu : ∃ m, op = .updateModel m
    · obtain ⟨m, rfl⟩ := hu
      exact ⟨m, upd m c (hop m rfl)⟩
    · rw [run_dim op c (fun m h => hu ⟨m, h⟩)] at hd
      rw [run_model op c (fun m h => hu ⟨m, h⟩)]
      exact ih hd
  | accepted ops m h => exact ⟨m, upd m _ h⟩

/-- C20, joint tasks, provided the most recent model update was accepted.  Missing: after a rejected model
(`C20_joint_after_rejection`). -/
theorem C20_joint_target_fits_partial {a : TaskArgs K} {fm : Option (List Int)} {c0 c : Comp K}
    (h0 : newJointTask a fm = .ok c0) (hr : CleanRun c0 c) (hd : c.attrs.dim ≠ -1) :
    ∃ (d : Nat) (x : Arr K), c.attrs.dim = d ∧ targetQ c = some x ∧ x.lastDim = .ok d := by
  have hn : (NewComp.jointTask a fm).run = .ok c0 := h0
  obtain ⟨m, hm⟩ := CleanRun.dim_model h0 hr hd
  have hI := hr.jInv (jInv_new hn) m hm
  have ht : c.attrs.kind.tag = .joint := by
    rw [hr.tag]
    obtain ⟨t, at0, _, h, rfl⟩ := newJointTask_ok h0
    obtain ⟨_, m, idxs, h1, rfl⟩ := initAttrs_ok h
    rfl
  unfold JInvAt at hI
  unfold targetQ
  revert hI ht
  cases c.attrs.kind <;> intro hI ht <;> cases ht
  obtain ⟨mk, x, _, _, _, h4, _, h6, h7⟩ := hI
  exact ⟨_, x, h4, h6, h7⟩

/-- **C20 is false** for joint tasks after a rejected model: the dimension is the one of the rejected model,
the target has the old length. -/
theorem C20_joint_after_rejection : ∃ (c0 : Comp ℚ) (ops : List (CompOp ℚ)) (x : Arr ℚ),
    newJointTask Ex.taskArgs none = .ok c0 ∧ targetQ (runOps c0 ops) = some x ∧
    (runOps c0 ops).attrs.dim = 1 ∧ x.lastDim = .ok 2 :=
  ⟨_, [.updateModel Ex.model, .updateModel Ex.model2], _, rfl, rfl, rfl, rfl⟩

example : ∃ c0 x, (NewComp.comTask { Ex.taskArgs with mask := some exMask }).run = .ok c0 ∧
    targetPoint (runOps c0 [.updateTarget (Arr.ofList [(1 : ℚ), 2]), .updateTarget (Arr.ofList [1, 2, 3])]) = some x ∧
    x.lastDim = .ok 2 := ⟨_, _, rfl, rfl, rfl⟩
example : ∃ c0 c, newJointTask Ex.taskArgs none = .ok c0 ∧ CleanRun c0 c ∧ c.attrs.dim = 2 :=
  ⟨_, _, rfl, .step (.updateModel Ex.model) .refl (by rintro m ⟨⟩; rfl), rfl⟩

/-! ### C58 -/

/-- Equal up to the case of the letters: every character is that of `t` or its upper-case version. -/
def SameUpToCase (s t : String) : Prop :=
  List.Forall₂ (fun a b => a = b ∨ a = b.toUpper) s.toList t.toList

/-- The name of a limit type. -/
def limitName : LimitType → String
  | .min => "min" | .max => "max" | .both => "both"

theorem toLower_iff {c b : Char} (h1 : 97 ≤ b.toNat) (h2 : b.toNat ≤ 122) :
    c.toLower = b ↔ c = b ∨ c = b.toUpper := by
  have hup : b.toUpper.toNat = b.toNat - 32 := by
    unfold Char.toUpper
    rw [dif_pos ⟨by exact h1, by exact h2⟩]
    show (b.val + ('A'.val - 'a'.val)).toNat = _
    rw [UInt32.toNat_add]
    have : ('A'.val - 'a'.val).toNat = 2^32 - 32 := by decide
    rw [this]
    change (b.toNat + _) % _ = _
    omega
  have inj : ∀ x y : Char, x = y ↔ x.toNat = y.toNat := fun x y =>
    ⟨fun h => by rw [h], fun h => Char.ext (UInt32.toNat_inj.1 h)⟩
  rw [inj c.toLower, inj c b, inj c, hup]
  unfold Char.toLower
  split
  · rename_i h
    have ha : 65 ≤ c.toNat := h.1
    have hb : c.toNat ≤ 90 := h.2
    show (c.val + ('a'.val - 'A'.val)).toNat = _ ↔ _
    rw [UInt32.toNat_add]
    have : ('a'.val - 'A'.val).toNat = 32 := by decide
    rw [this]
    change (c.toNat + _) % _ = _ ↔ _
    omega
  · rename_i h
    have h' : ¬ (65 ≤ c.toNat ∧ c.toNat ≤ 90) := h
    omega

theorem lower_iff (s t : String) (ht : ∀ c ∈ t.toList, 97 ≤ c.toNat ∧ c.toNat ≤ 122) :
    LimitType.lower s = t ↔ SameUpToCase s t := by
  unfold LimitType.lower SameUpToCase
  rw [show (String.ofList (s.toList.map Char.toLower) = t ↔ s.toList.map Char.toLower = t.toList) from
    ⟨fun h => by rw [← h]; simp, fun h => by rw [h]; simp⟩]
  generalize s.toList = l
  revert ht
  generalize t.toList = r
  induction l generalizing r with
  | nil => intro _; cases r <;> simp
  | cons a l ih =>
    intro hr
    cases r with
    | nil => simp
    | cons b r =>
      have hb := hr b (by simp)
      simp only [List.map_cons, List.cons.injEq, List.forall₂_cons]
      rw [toLower_iff hb.1 hb.2, ih r (fun c hc => hr c (by simp [hc]))]

/-- C58: `from_str` accepts exactly the three names, up to case, and otherwise raises `ValueError`. -/
theorem C58_from_str (s : String) :
    (∀ t, LimitType.fromStr s = .ok t ↔ SameUpToCase s (limitName t)) ∧
    ((∀ t, ¬ SameUpToCase s (limitName t)) → LimitType.fromStr s = .error .valueError) := by
  have h1 := lower_iff s "min" (by decide)
  have h2 := lower_iff s "max" (by decide)
  have h3 := lower_iff s "both" (by decide)
  have hf : LimitType.fromStr s = if LimitType.lower s = "min" then .ok .min else
      if LimitType.lower s = "max" then .ok .max else
      if LimitType.lower s = "both" then .ok .both else .error .valueError := by
    unfold LimitType.fromStr
    split
    · rename_i h; rw [h, if_pos rfl]
    · rename_i h; rw [h, if_neg (by decide), if_pos rfl]
    · rename_i h; rw [h, if_neg (by decide), if_neg (by decide), if_pos rfl]
    · rename_i a b c; rw [if_neg a, if_neg b, if_neg c]
  rw [hf]
  constructor
  · intro t
    cases t <;> simp only [limitName]
    · rw [← h1]; split
      · simp_all
      · split
        · simp_all
        · split <;> simp_all
    · rw [← h2]; split
      · simp_all
      · split
        · simp_all
        · split <;> simp_all
    · rw [← h3]; split
      · simp_all
      · split
        · simp_all
        · split <;> simp_all
  · intro h
    have a := h .min
    have b := h .max
    have c := h .both
    simp only [limitName, ← h1, ← h2, ← h3] at a b c
    rw [if_neg a, if_neg b, if_neg c]

/-- C58: the lower side is included exactly for `min` and `both`, the upper side exactly for `max` and
`both`. -/
theorem C58_includes (t : LimitType) :
    (t.includesMin = true ↔ t = .min ∨ t = .both) ∧ (t.includesMax = true ↔ t = .max ∨ t = .both) := by
  cases t <;> decide

/-- C58: the constructor of the position barrier, however, only accepts the lower-case names. -/
theorem C58_constructor_lower_case (a : BarrierArgs K) (on : String) (ot : ObjType) (lo hi : Option (Arr K))
    (lt : String) (mask : Option (Arr Int)) (c : Comp K) (h : newPositionBarrier a on ot lo hi lt mask = .ok c) :
    lt = "min" ∨ lt = "max" ∨ lt = "both" := by
  obtain ⟨_, _, _, _, _, b2, _⟩ := newPositionBarrier_ok h
  rcases limitTypeArg_ok b2 with ⟨h, _⟩ | ⟨h, _⟩ | ⟨h, _⟩ <;> simp [h]

example : SameUpToCase "mIN" "min" ∧ ¬ SameUpToCase "mean" "min" := by
  unfold SameUpToCase
  constructor
  · exact .cons (.inl rfl) (.cons (.inr rfl) (.cons (.inr rfl) .nil))
  · intro h
    have := h.length_eq
    revert this
    decide

end Mjinx.Props
