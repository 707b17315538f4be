import Verif.Spec.Joints
import Verif.Lemmas.Kind

/-! # The joint masks of `update_model` -/

set_option linter.unusedSectionVars false

namespace Mjinx
variable {K : Type} [Field K] [LinearOrder K]
open Spec

theorem zeroSlice_length (l : List Int) (b e : Nat) : (zeroSlice l b e).length = l.length := by
  simp [zeroSlice]

theorem zeroSlice_append (pre post : List Int) (n : Nat) :
    zeroSlice (pre ++ (List.replicate n 1 ++ post)) pre.length (pre.length + n) =
      pre ++ (List.replicate n 0 ++ post) := by
  apply List.ext_getElem
  · simp [zeroSlice]
  · intro i h1 h2
    simp only [zeroSlice, List.getElem_mapIdx]
    by_cases hi : i < pre.length
    · rw [if_neg (by omega), List.getElem_append_left hi, List.getElem_append_left hi]
    · by_cases hi2 : i < pre.length + n
      · rw [if_pos (by omega)]
        rw [List.getElem_append_right (by omega), List.getElem_append_left (by simp; omega)]
        simp
      · rw [if_neg (by omega)]
        rw [List.getElem_append_right (by omega), List.getElem_append_right (by simp; omega)]
        rw [List.getElem_append_right (by omega), List.getElem_append_right (by simp; omega)]
        simp

abbrev JEntry := JntType × Nat × Nat

/-- Block form of the mask over degrees of freedom / over configuration coordinates. -/
def blocks (sz : JntType → Nat) (ts : List JntType) : List Int :=
  ts.flatMap (fun t => List.replicate (sz t) (if t.scalar then 1 else 0))

/-- Consecutive layout on entries. -/
def LayoutFrom : Nat → Nat → List JEntry → Prop
  | _, _, [] => True
  | q, v, e :: es => e.2.1 = q ∧ e.2.2 = v ∧ LayoutFrom (q + e.1.nq) (v + e.1.nv) es

theorem consecutive_layout {nq nv : Nat} : ∀ {q v : Nat} {ts : List JntType} {as bs : List Nat},
    Consecutive nq nv q v ts as bs →
    LayoutFrom q v (ts.zip (as.zip bs)) ∧ (ts.zip (as.zip bs)).map Prod.fst = ts ∧
    q + (ts.map JntType.nq).sum = nq ∧ v + (ts.map JntType.nv).sum = nv
  | q, v, [], [], [], h => by simp [Consecutive] at h; simp [LayoutFrom, h]
  | q, v, t :: ts, a :: as, b :: bs, h => by
    obtain ⟨h1, h2, h3⟩ := h
    obtain ⟨i1, i2, i3, i4⟩ := consecutive_layout h3
    refine ⟨⟨h1, h2, i1⟩, ?_, ?_, ?_⟩
    · simp [i2]
    · simp; omega
    · simp; omega
  | _, _, [], [], _ :: _, h => by simp [Consecutive] at h
  | _, _, [], _ :: _, _, h => by simp [Consecutive] at h
  | _, _, _ :: _, [], _, h => by simp [Consecutive] at h
  | _, _, _ :: _, _ :: _, [], h => by simp [Consecutive] at h

/-- The loop body of `jointMasks`. -/
def maskStep (mk : List Int × List Int) (j : JEntry) : List Int × List Int :=
  if j.1 = .free ∨ j.1 = .ball then
    (zeroSlice mk.1 j.2.2 (j.2.2 + (if j.1 = .ball then 3 else 6)),
     zeroSlice mk.2 j.2.1 (j.2.1 + (if j.1 = .ball then 4 else 7)))
  else mk

theorem jointMasks_eq (m : MjModel K) : jointMasks m =
    (m.jntType.zip (m.jntQposadr.zip m.jntDofadr)).foldl maskStep
      (List.replicate m.nv 1, List.replicate m.nq 1) := rfl

theorem fold_masks (es : List JEntry) : ∀ (preV preQ : List Int), LayoutFrom preQ.length preV.length es →
    es.foldl maskStep (preV ++ List.replicate ((es.map (·.1.nv)).sum) 1,
      preQ ++ List.replicate ((es.map (·.1.nq)).sum) 1) =
    (preV ++ blocks JntType.nv (es.map (·.1)), preQ ++ blocks JntType.nq (es.map (·.1))) := by
  induction es with
  | nil => intro preV preQ _; simp [blocks]
  | cons e es ih =>
    intro preV preQ h
    obtain ⟨h1, h2, h3⟩ := h
    obtain ⟨t, qa, va⟩ := e
    simp only at h1 h2 h3
    have hb : ∀ sz : JntType → Nat, blocks sz (t :: es.map (·.1)) =
        List.replicate (sz t) (if t.scalar then 1 else 0) ++ blocks sz (es.map (·.1)) := by
      intro sz; simp [blocks]
    have hlay := ih (preV ++ List.replicate t.nv (if t.scalar then 1 else 0))
      (preQ ++ List.replicate t.nq (if t.scalar then 1 else 0)) (by simpa using h3)
    simp only [List.map_cons, List.sum_cons, List.foldl_cons, hb, List.replicate_add]
    rw [← List.append_assoc, ← List.append_assoc, List.append_assoc, List.append_assoc] at *
    simp only [List.append_assoc] at hlay
    rw [← hlay]
    congr 1
    subst h1 h2
    cases t
    · simp only [maskStep, JntType.nv, JntType.nq, JntType.scalar]
      simp only [true_or, if_true, reduceCtorEq, if_false, Bool.false_eq_true]
      rw [zeroSlice_append, zeroSlice_append]
    · simp only [maskStep, JntType.nv, JntType.nq, JntType.scalar]
      simp only [or_true, if_true, if_false, Bool.false_eq_true]
      rw [zeroSlice_append, zeroSlice_append]
    · simp [maskStep, JntType.nv, JntType.nq, JntType.scalar]
    · simp [maskStep, JntType.nv, JntType.nq, JntType.scalar]

theorem jointMasks_blocks {m : MjModel K} (h : JointsWF m) :
    jointMasks m = (blocks JntType.nv m.jntType, blocks JntType.nq m.jntType) := by
  obtain ⟨h1, h2, h3, h4⟩ := consecutive_layout h.addr
  rw [jointMasks_eq]
  have := fold_masks (m.jntType.zip (m.jntQposadr.zip m.jntDofadr)) [] [] h1
  have e1 : ((m.jntType.zip (m.jntQposadr.zip m.jntDofadr)).map (·.1.nv)).sum = m.nv := by
    rw [← h4, Nat.zero_add]; conv_rhs => rw [← h2, List.map_map]
    rfl
  have e2 : ((m.jntType.zip (m.jntQposadr.zip m.jntDofadr)).map (·.1.nq)).sum = m.nq := by
    rw [← h3, Nat.zero_add]; conv_rhs => rw [← h2, List.map_map]
    rfl
  rw [e1, e2] at this
  simp only [List.nil_append] at this
  rw [this, h2]

theorem nonzeroIdxs_cons (x : Int) (l : List Int) :
    nonzeroIdxs (x :: l) = (if x = 0 then [] else [0]) ++ (nonzeroIdxs l).map (· + 1) := by
  unfold nonzeroIdxs
  rw [List.length_cons, List.range_succ_eq_map, List.filter_cons]
  by_cases hx : x = 0
  · simp [hx, List.filter_map, Function.comp_def]
  · simp [hx, List.filter_map, Function.comp_def]

theorem nonzeroIdxs_append (a b : List Int) :
    nonzeroIdxs (a ++ b) = nonzeroIdxs a ++ (nonzeroIdxs b).map (a.length + ·) := by
  induction a with
  | nil => simp [nonzeroIdxs]
  | cons x a ih =>
    rw [List.cons_append, nonzeroIdxs_cons, nonzeroIdxs_cons, ih]
    simp [List.map_map, Function.comp_def]
    intro i _; omega

theorem nonzeroIdxs_zeros (n : Nat) : nonzeroIdxs (List.replicate n 0) = [] := by
  unfold nonzeroIdxs
  rw [List.filter_eq_nil_iff]
  intro i _
  simp only [List.getElem?_replicate]
  split <;> simp

theorem scatter_zeros (n : Nat) (b vs : List Int) :
    scatter (List.replicate n 0 ++ b) vs = List.replicate n 0 ++ scatter b vs := by
  induction n with
  | zero => simp
  | succ n ih => simp [List.replicate_succ, scatter, ih]

theorem blocks_sum {sz : JntType → Nat} (h1 : ∀ t : JntType, t.scalar → sz t = 1) (ts : List JntType) :
    (blocks sz ts).sum = ((ts.filter (·.scalar)).length : Int) := by
  induction ts with
  | nil => rfl
  | cons t ts ih =>
    have : blocks sz (t :: ts) = List.replicate (sz t) (if t.scalar then 1 else 0) ++ blocks sz ts := by
      simp [blocks]
    rw [this, List.sum_append, ih]
    cases ht : t.scalar
    · simp [ht]
    · simp [ht, h1 t ht]; omega

/-- Selected coordinates, by joint entries. -/
theorem scatter_blocks {sz : JntType → Nat} (h1 : ∀ t : JntType, t.scalar → sz t = 1)
    (adr : JEntry → Nat) :
    ∀ (es : List JEntry) (off : Nat) (f : List Int),
    (∀ (pre : List JEntry) (e : JEntry) (post : List JEntry), es = pre ++ e :: post →
      adr e = off + ((pre.map (·.1)).map sz).sum) →
    f.length = ((es.map (·.1)).filter (·.scalar)).length →
    (nonzeroIdxs (scatter (blocks sz (es.map (·.1))) f)).map (off + ·) =
      ((((es.filter (·.1.scalar)).zip f).filter (fun x => x.2 ≠ 0)).map (fun x => adr x.1)) := by
  intro es
  induction es with
  | nil => intro off f _ _; simp [blocks, scatter, nonzeroIdxs]
  | cons e es ih =>
    intro off f hadr hf
    have hb : blocks sz (e.1 :: es.map (·.1)) =
        List.replicate (sz e.1) (if e.1.scalar then 1 else 0) ++ blocks sz (es.map (·.1)) := by
      simp [blocks]
    have hadr' : ∀ (pre : List JEntry) (e' : JEntry) (post : List JEntry), es = pre ++ e' :: post →
        adr e' = (off + sz e.1) + ((pre.map (·.1)).map sz).sum := by
      intro pre e' post hes
      have := hadr (e :: pre) e' post (by rw [hes]; rfl)
      rw [this]; simp; omega
    have he : adr e = off := by simpa using hadr [] e es rfl
    rw [List.map_cons, hb]
    cases ht : e.1.scalar
    · simp only [Bool.false_eq_true, if_false]
      rw [scatter_zeros, nonzeroIdxs_append, nonzeroIdxs_zeros, List.nil_append, List.map_map,
        List.length_replicate, List.filter_cons]
      simp only [ht, Bool.false_eq_true, if_false]
      rw [← ih (off + sz e.1) f hadr' (by simpa [ht] using hf)]
      apply List.map_congr_left
      intro i _
      simp only [Function.comp]; omega
    · have hs1 := h1 e.1 ht
      simp only [if_true, hs1, List.replicate_one, List.singleton_append]
      cases f with
      | nil => simp [ht] at hf
      | cons v vs =>
        have hrec := ih (off + sz e.1) vs hadr' (by simpa [ht] using hf)
        simp only [scatter, one_ne_zero, if_false]
        rw [nonzeroIdxs_cons, List.filter_cons]
        simp only [ht, if_true, List.zip_cons_cons]
        rw [List.filter_cons]
        by_cases hv : v = 0
        · simp only [hv, if_true, List.nil_append, ne_eq, not_true_eq_false, decide_false, Bool.false_eq_true, if_false]
          rw [← hrec, List.map_map]
          apply List.map_congr_left
          intro i _
          simp only [Function.comp]; omega
        · simp only [hv, if_false, List.singleton_append, ne_eq, not_false_eq_true, decide_true, if_true,
            List.map_cons]
          rw [← hrec, List.map_map, he]
          congr 1
          apply List.map_congr_left
          intro i _
          simp only [Function.comp]; omega

/-- Without a user mask: all ones. -/
theorem scatter_ones {sz : JntType → Nat} (h1 : ∀ t : JntType, t.scalar → sz t = 1) (ts : List JntType) :
    scatter (blocks sz ts) (List.replicate (ts.filter (·.scalar)).length 1) = blocks sz ts := by
  induction ts with
  | nil => rfl
  | cons t ts ih =>
    have hb : blocks sz (t :: ts) = List.replicate (sz t) (if t.scalar then 1 else 0) ++ blocks sz ts := by
      simp [blocks]
    rw [hb]
    cases ht : t.scalar
    · simp only [Bool.false_eq_true, if_false]
      rw [scatter_zeros, List.filter_cons]
      simp [ht, ih]
    · simp [ht, h1 t ht, List.replicate_succ, scatter, ih]

theorem layout_adr_q : ∀ (es : List JEntry) (q v : Nat), LayoutFrom q v es →
    ∀ (pre : List JEntry) (e : JEntry) (post : List JEntry), es = pre ++ e :: post →
      e.2.1 = q + ((pre.map (·.1)).map JntType.nq).sum := by
  intro es
  induction es with
  | nil => intro q v _ pre e post h; simp at h
  | cons x es ih =>
    intro q v hl pre e post h
    obtain ⟨h1, h2, h3⟩ := hl
    cases pre with
    | nil => simp at h; rw [← h.1]; simpa using h1
    | cons y pre =>
      simp at h
      obtain ⟨rfl, h⟩ := h
      have := ih _ _ h3 pre e post h
      rw [this]; simp; omega

theorem layout_adr_v : ∀ (es : List JEntry) (q v : Nat), LayoutFrom q v es →
    ∀ (pre : List JEntry) (e : JEntry) (post : List JEntry), es = pre ++ e :: post →
      e.2.2 = v + ((pre.map (·.1)).map JntType.nv).sum := by
  intro es
  induction es with
  | nil => intro q v _ pre e post h; simp at h
  | cons x es ih =>
    intro q v hl pre e post h
    obtain ⟨h1, h2, h3⟩ := hl
    cases pre with
    | nil => simp at h; rw [← h.1]; simpa using h2
    | cons y pre =>
      simp at h
      obtain ⟨rfl, h⟩ := h
      have := ih _ _ h3 pre e post h
      rw [this]; simp; omega

theorem nq_of_scalar (t : JntType) (h : t.scalar) : t.nq = 1 := by cases t <;> simp_all [JntType.scalar, JntType.nq]
theorem nv_of_scalar (t : JntType) (h : t.scalar) : t.nv = 1 := by cases t <;> simp_all [JntType.scalar, JntType.nv]

/-- The entries of a model, and how joint indices pick them out. -/
def entries (m : MjModel K) : List JEntry := m.jntType.zip (m.jntQposadr.zip m.jntDofadr)

theorem consecutive_lengths {nq nv : Nat} : ∀ {q v : Nat} {ts : List JntType} {as bs : List Nat},
    Consecutive nq nv q v ts as bs → as.length = ts.length ∧ bs.length = ts.length
  | q, v, [], [], [], h => by simp
  | q, v, t :: ts, a :: as, b :: bs, h => by
    obtain ⟨h1, h2⟩ := consecutive_lengths h.2.2; simp [h1, h2]
  | _, _, [], [], _ :: _, h => by simp [Consecutive] at h
  | _, _, [], _ :: _, _, h => by simp [Consecutive] at h
  | _, _, _ :: _, [], _, h => by simp [Consecutive] at h
  | _, _, _ :: _, _ :: _, [], h => by simp [Consecutive] at h

theorem entries_eq {m : MjModel K} (h : JointsWF m) :
    entries m = (List.range m.jntType.length).map (fun k => (m.jntType.getD k .free, qposOf m k, dofOf m k)) := by
  obtain ⟨h1, h2⟩ := consecutive_lengths h.addr
  apply List.ext_getElem
  · simp [entries, h1, h2]
  · intro i hi1 hi2
    simp only [entries, List.length_zip, h1, h2] at hi1
    have : i < m.jntType.length := by omega
    simp [entries, qposOf, dofOf, this, h1, h2]

theorem entries_scalar {m : MjModel K} (h : JointsWF m) :
    (entries m).filter (·.1.scalar) =
      (scalarJoints m).map (fun k => (m.jntType.getD k .free, qposOf m k, dofOf m k)) := by
  rw [entries_eq h, List.filter_map, scalarJoints]
  rfl

theorem scalarJoints_length {m : MjModel K} (h : JointsWF m) :
    (scalarJoints m).length = (m.jntType.filter (·.scalar)).length := by
  have h2 := congrArg List.length (entries_scalar h)
  rw [List.length_map] at h2
  rw [← h2]
  obtain ⟨_, hm, _⟩ := consecutive_layout h.addr
  have : (m.jntType.filter (·.scalar)) = ((entries m).filter (·.1.scalar)).map Prod.fst := by
    conv_lhs => rw [← hm]
    rw [List.filter_map]
    rfl
  rw [this, List.length_map]

/-- The mask given to the selection: the user's, or all ones. -/
def maskOr (m : MjModel K) (fm : Option (List Int)) : List Int :=
  fm.getD (List.replicate (scalarJoints m).length 1)

theorem selectedJoints_eq (m : MjModel K) (fm : Option (List Int)) :
    selectedJoints m fm = (((scalarJoints m).zip (maskOr m fm)).filter (fun x => x.2 ≠ 0)).map Prod.fst := by
  cases fm with
  | some f => rfl
  | none =>
    simp only [selectedJoints, maskOr, Option.getD_none]
    generalize scalarJoints m = l
    induction l with
    | nil => rfl
    | cons a l ih =>
      simp [List.replicate_succ] at ih ⊢
      exact ih

/-- Accepted masks: exactly the masks of the right length, and the result selects the coordinates of the
selected joints. -/
theorem applyFinalMask_spec {m : MjModel K} (h : JointsWF m) (fm : Option (List Int)) :
    (∀ f, fm = some f → f.length ≠ (scalarJoints m).length → applyFinalMask (jointMasks m) fm = .error .valueError) ∧
    ((∀ f, fm = some f → f.length = (scalarJoints m).length) →
      ∃ mk, applyFinalMask (jointMasks m) fm = .ok mk ∧
        nonzeroIdxs mk.1 = (selectedJoints m fm).map (dofOf m) ∧
        nonzeroIdxs mk.2 = (selectedJoints m fm).map (qposOf m)) := by
  have hb := jointMasks_blocks h
  have hlen := scalarJoints_length h
  have hs1 : (jointMasks m).1.sum = ((scalarJoints m).length : Int) := by
    rw [hb, hlen]; exact blocks_sum nv_of_scalar _
  have hs2 : (jointMasks m).2.sum = ((scalarJoints m).length : Int) := by
    rw [hb, hlen]; exact blocks_sum nq_of_scalar _
  constructor
  · rintro f rfl hf
    unfold applyFinalMask
    simp only
    rw [if_pos]
    rw [hs1]
    intro hc
    apply hf
    exact_mod_cast hc.symm
  · intro hf
    have hmo : (maskOr m fm).length = (scalarJoints m).length := by
      cases fm with
      | none => simp [maskOr]
      | some f => exact hf f rfl
    refine ⟨(scatter (jointMasks m).1 (maskOr m fm), scatter (jointMasks m).2 (maskOr m fm)), ?_, ?_, ?_⟩
    · cases fm with
      | none =>
        simp only [applyFinalMask, maskOr, Option.getD_none]
        rw [hb, hlen]
        simp only
        rw [scatter_ones nv_of_scalar, scatter_ones nq_of_scalar]
      | some f =>
        have hfl := hf f rfl
        simp only [applyFinalMask, maskOr, Option.getD_some]
        rw [if_neg, if_neg]
        · rw [hs2, hfl]; simp
        · rw [hs1, hfl]; simp
    all_goals
      obtain ⟨hl, hm, _⟩ := consecutive_layout h.addr
      have hel : LayoutFrom 0 0 (entries m) := hl
      have hmap : (entries m).map (·.1) = m.jntType := hm
      have hfl : (maskOr m fm).length = (((entries m).map (·.1)).filter (·.scalar)).length := by
        rw [hmap, hmo, hlen]
    · have := scatter_blocks nv_of_scalar (fun e => e.2.2) (entries m) 0 (maskOr m fm)
        (layout_adr_v _ _ _ hel) hfl
      rw [hmap] at this
      simp only [Nat.zero_add, List.map_id'] at this
      rw [hb]
      simp only
      rw [this, entries_scalar h, selectedJoints_eq, List.map_map, List.zip_map_left, List.filter_map, List.map_map]
      rfl
    · have := scatter_blocks nq_of_scalar (fun e => e.2.1) (entries m) 0 (maskOr m fm)
        (layout_adr_q _ _ _ hel) hfl
      rw [hmap] at this
      simp only [Nat.zero_add, List.map_id'] at this
      rw [hb]
      simp only
      rw [this, entries_scalar h, selectedJoints_eq, List.map_map, List.zip_map_left, List.filter_map, List.map_map]
      rfl

end Mjinx
