import Verif.Props.Sizes
import Verif.Spec.Solvable

/-!
# C87: what compiles can be evaluated and solved
-/

namespace Mjinx.Props
open Spec
set_option linter.unusedSectionVars false
variable {K : Type} [Field K] [LinearOrder K]

/-! ### Objects -/

private theorem get_ok {α : Type} {l : List α} {k : Nat} (h : k < l.length) : ∃ x, jnpGet l (k : Int) = .ok x :=
  ⟨_, jnpGet_some (List.getElem?_eq_getElem h)⟩

private theorem get_mem {α : Type} {l : List α} {k : Nat} (h : k < l.length) : ∃ x ∈ l, npGet l (k : Int) = .ok x ∧ jnpGet l (k : Int) = .ok x :=
  ⟨_, List.getElem_mem h, npGet_some (List.getElem?_eq_getElem h), jnpGet_some (List.getElem?_eq_getElem h)⟩

private theorem object_lt {m : MjModel K} {ty : ObjType} {on : String} {i : Int} (h : HasObject m ty on i) :
    ∃ k : Nat, i = k ∧ k < (m.names ty).length := by
  obtain ⟨k, rfl, hk⟩ := h
  exact ⟨k, rfl, (List.getElem?_eq_some_iff.1 hk).1⟩

private theorem objPos_ok {m : MjModel K} (hm : ModelFits m) {d : MjData K} (hd : PositionsFit m d) {ty : ObjType} {on : String}
    {i : Int} (h : HasObject m ty on i) (ht : ty ≠ .other) : ∃ p, objPos d ty i = .ok p := by
  obtain ⟨k, rfl, hk⟩ := object_lt h
  cases ty <;> simp only [MjModel.names, objPos] at hk ⊢
  · exact get_ok (by rw [hd.xpos, ← hm.bodyNames]; exact hk)
  · exact get_ok (by rw [hd.geomXpos, ← hm.geomNames]; exact hk)
  · exact get_ok (by rw [hd.siteXpos, ← hm.siteNames]; exact hk)
  · exact absurd rfl ht

private theorem objMat_ok {m : MjModel K} (hm : ModelFits m) {d : MjData K} (hd : DataFits m d) {ty : ObjType} {on : String}
    {i : Int} (h : HasObject m ty on i) (ht : ty ≠ .other) : ∃ p, objMat d ty i = .ok p := by
  obtain ⟨k, rfl, hk⟩ := object_lt h
  cases ty <;> simp only [MjModel.names, objMat] at hk ⊢
  · exact get_ok (by rw [hd.xmat, ← hm.bodyNames]; exact hk)
  · exact get_ok (by rw [hd.geomXmat, ← hm.geomNames]; exact hk)
  · exact get_ok (by rw [hd.siteXmat, ← hm.siteNames]; exact hk)
  · exact absurd rfl ht

private theorem objBody_ok {m : MjModel K} (hm : ModelFits m) {ty : ObjType} {on : String}
    {i : Int} (h : HasObject m ty on i) (ht : ty ≠ .other) : ∃ b : Nat, objBody m ty i = .ok (b : Int) ∧ b < m.nbody := by
  obtain ⟨k, rfl, hk⟩ := object_lt h
  cases ty <;> simp only [MjModel.names, objBody] at hk ⊢
  · exact ⟨k, rfl, by rw [← hm.bodyNames]; exact hk⟩
  · obtain ⟨b, h1, h2, -⟩ := get_mem (l := m.geomBodyid) (k := k) (by rw [← hm.geomNames]; exact hk)
    exact ⟨b, by rw [h2]; rfl, hm.geomBody b h1⟩
  · obtain ⟨b, h1, h2, -⟩ := get_mem (l := m.siteBodyid) (k := k) (by rw [← hm.siteNames]; exact hk)
    exact ⟨b, by rw [h2]; rfl, hm.siteBody b h1⟩
  · exact absurd rfl ht

private theorem root_ok {m : MjModel K} (hm : ModelFits m) {com : List (V3 K)} (hd : com.length = m.nbody) {b : Nat}
    (hb : b < m.nbody) : ∃ r c, npGet m.bodyRootid (b : Int) = .ok r ∧ jnpGet m.bodyRootid (b : Int) = .ok r ∧
      jnpGet com (r : Int) = .ok c := by
  obtain ⟨r, h1, h2, h2'⟩ := get_mem (l := m.bodyRootid) (k := b) (by rw [hm.rootLen]; exact hb)
  obtain ⟨c, h3⟩ := get_ok (l := com) (k := r) (by rw [hd]; exact hm.root r h1)
  exact ⟨r, c, h2, h2', h3⟩

private theorem bodyTreeSum_length {α : Type} [Add α] [Zero α] (parent : List Nat) : ∀ (i : Nat) (x : List α),
    (bodyTreeSum parent i x).length = x.length := by
  intro i
  induction i with
  | zero => intro x; rfl
  | succ i ih => intro x; unfold bodyTreeSum; rw [ih]; simp

theorem subtreeComs_length {m : MjModel K} (hm : ModelFits m) {x : List (V3 K)} (hx : x.length = m.nbody) :
    (subtreeComs m x).length = m.nbody := by
  unfold subtreeComs
  simp [bodyTreeSum_length, hx, hm.mass]

private theorem frameJacobianLocal_ok {m : MjModel K} (hm : ModelFits m) {d : MjData K} (hd : DataFits m d) {ty : ObjType}
    {on : String} {i : Int} (h : HasObject m ty on i) (ht : ty ≠ .other) : ∃ r, frameJacobianLocal m d i ty = .ok r := by
  obtain ⟨b, h1, hb⟩ := objBody_ok hm h ht
  obtain ⟨p, h2⟩ := objPos_ok hm hd.toPositionsFit h ht
  obtain ⟨R, h3⟩ := objMat_ok hm hd h ht
  obtain ⟨r, c, -, h4, h5⟩ := root_ok hm hd.subtreeCom hb
  unfold frameJacobianLocal
  simp only [bind, Except.bind, h1, h2, h3, h4, h5]
  exact ⟨_, rfl⟩

private theorem pointJacobian_ok {m : MjModel K} (hm : ModelFits m) {d : MjData K} (hd : DataFits m d) (x : V3 K) {b : Nat}
    (hb : b < m.nbody) : ∃ r, pointJacobian m d x (b : Int) = .ok r := by
  obtain ⟨r, c, -, h4, h5⟩ := root_ok hm hd.subtreeCom hb
  unfold pointJacobian
  simp only [bind, Except.bind, h4, h5]
  exact ⟨_, rfl⟩

/-! ### Arrays -/

private theorem operand_ok {x : Arr K} {n : Nat} (h1 : x.shape.length = 1) (h2 : x.lastDim = .ok n) :
    ∃ t, x.operand = .ok t ∧ t.len = n := by
  unfold Arr.lastDim at h2
  unfold Arr.operand
  rcases hs : x.shape with - | ⟨a, - | ⟨b, t⟩⟩
  · rw [hs] at h1; cases h1
  · rw [hs] at h2; cases h2; exact ⟨_, rfl, rfl⟩
  · rw [hs] at h1; simp at h1

private theorem subVec_ok {a b : Vec K} (h : a.len = b.len) : ∃ r, subVec a b = .ok r := by
  unfold subVec Vec.zip
  rw [if_pos h]
  exact ⟨_, rfl⟩

private theorem toMat_ok {dim : Int} {c w : Arr K} (h : CostOf dim c w) : ∃ W, w.toMat = .ok W := by
  obtain ⟨k, rfl, h2, -⟩ := h
  unfold Arr.toMat
  rw [h2]
  exact ⟨_, rfl⟩

private theorem mapM_ok {α β : Type} {f : α → Except Err β} : ∀ {xs : List α}, (∀ x ∈ xs, ∃ y, f x = .ok y) →
    ∃ ys, xs.mapM f = .ok ys := by
  intro xs
  induction xs with
  | nil => intro _; exact ⟨[], rfl⟩
  | cons x xs ih =>
    intro h
    obtain ⟨y, hy⟩ := h x (by simp)
    obtain ⟨ys, hys⟩ := ih (fun z hz => h z (by simp [hz]))
    exact ⟨y :: ys, by rw [List.mapM_cons, hy, hys]; rfl⟩

private theorem sizeOf_nat (k : Nat) : sizeOf (k : Int) = .ok k := by
  unfold sizeOf
  rw [if_neg (by omega), Int.toNat_natCast]

private theorem selection_ok {k nv : Nat} {l : List Nat} (h : l.length = k) : ∃ S : Mat K, selectionMatrix k nv l = .ok S ∧ S.cols = nv := by
  obtain ⟨S, h1, -, h2, -⟩ := selectionMatrix_ok (K := K) (nv := nv) h
  exact ⟨S, h1, h2⟩

private theorem autoJacobian_ok {env : Env K} {j : JaxComp K} {d : MjData K} {b : Bool} (hz : Sized env j.model d)
    (h : ∃ v, evalValue env j (if b then comUpdate env j.model d.qpos else env.kinematics j.model d.qpos) = .ok v) :
    ∃ J, autoJacobian env j d b = .ok J := by
  obtain ⟨v, hv⟩ := h
  unfold autoJacobian
  simp only [bind, Except.bind, hv]
  split
  · unfold Mat.mul
    rw [if_pos]
    · exact ⟨_, rfl⟩
    · rw [(hz.jacrev _ _).2, hz.qpos]
      exact (jacDq2vLoop_size d.qpos.get (j.model.jntType.zip j.model.jntQposadr) 0 0 (Mat.zero j.model.nq j.model.nv)).1.symm
  · exact ⟨_, rfl⟩

/-! ### Watched pairs -/

private theorem npGet_range {α : Type} {l : List α} {i : Int} {x : α} (h0 : 0 ≤ i) (h : npGet l i = .ok x) : i < l.length := by
  unfold npGet at h
  rw [if_neg (by omega), if_neg (by omega)] at h
  split at h
  · rename_i hx
    have := (List.getElem?_eq_some_iff.1 hx).1
    omega
  · cases h

private theorem npGet_index {α : Type} {l : List α} {i : Int} {x : α} (h : npGet l i = .ok x) :
    ∃ k : Nat, k < l.length ∧ l[k]? = some x ∧ ∀ {β : Type} (l' : List β), l'.length = l.length → npGet l' i = npGet l' (k : Int) := by
  have hform : ∀ {β : Type} (l' : List β), npGet l' i = if (if i < 0 then i + (l'.length : Int) else i) < 0 then .error .indexError
      else match l'[(if i < 0 then i + (l'.length : Int) else i).toNat]? with
        | some x => .ok x
        | none => .error .indexError := fun _ => rfl
  rw [hform] at h
  generalize hj : (if i < 0 then i + (l.length : Int) else i) = jj at h
  by_cases hneg : jj < 0
  · rw [if_pos hneg] at h; cases h
  · rw [if_neg hneg] at h
    cases hx : l[jj.toNat]? with
    | none => rw [hx] at h; cases h
    | some y =>
      rw [hx] at h
      cases h
      refine ⟨jj.toNat, (List.getElem?_eq_some_iff.1 hx).1, hx, ?_⟩
      intro β l' hl
      rw [hform, hl, hj, if_neg hneg, Int.toNat_of_nonneg (by omega)]
      unfold npGet
      simp only [if_neg hneg]
      cases l'[jj.toNat]? <;> rfl

private theorem addGeomPair_range {m : MjModel K} {acc acc' : List (Int × Int)} {g : Int × Int}
    (h : addGeomPair m acc g = .ok acc') (h0 : 0 ≤ g.1 ∧ 0 ≤ g.2)
    (P : ∀ p ∈ acc, (0 ≤ p.1 ∧ p.1 < m.geomContype.length) ∧ 0 ≤ p.2 ∧ p.2 < m.geomContype.length)
    (hr : g.1 < m.geomContype.length ∧ g.2 < m.geomContype.length) :
    ∀ p ∈ acc', (0 ≤ p.1 ∧ p.1 < m.geomContype.length) ∧ 0 ≤ p.2 ∧ p.2 < m.geomContype.length := by
  unfold addGeomPair at h
  obtain ⟨ok, _, h⟩ := Except.bind_eq_ok h
  split at h
  · cases h
    intro p hp
    unfold setAdd at hp
    split at hp
    · exact P p hp
    · rcases List.mem_append.1 hp with hp | hp
      · exact P p hp
      · rw [List.mem_singleton.1 hp]
        unfold sortedPair
        simp only
        omega
  · cases h; exact P

private theorem foldlM_inv {α β : Type} {f : β → α → Except Err β} {P : β → Prop} {Q : α → Prop} : ∀ {l : List α} {b b' : β},
    (∀ x ∈ l, Q x) → P b → (∀ b x b', Q x → P b → f b x = .ok b' → P b') → l.foldlM f b = .ok b' → P b' := by
  intro l
  induction l with
  | nil => intro b b' _ hb _ h; cases h; exact hb
  | cons x l ih =>
    intro b b' hQ hb hs h
    rw [List.foldlM_cons] at h
    obtain ⟨c, hc, h⟩ := Except.bind_eq_ok h
    exact ih (fun y hy => hQ y (by simp [hy])) (hs _ _ _ (hQ x (by simp)) hb hc) hs h

private theorem generatePairs_range {m : MjModel K} (hw : CollisionWF m) {bodies : List CollisionBody} {ex ps : List (Int × Int)}
    (h : generatePairs m bodies ex = .ok ps) :
    ∀ p ∈ ps, (0 ≤ p.1 ∧ p.1 < m.geomContype.length) ∧ 0 ≤ p.2 ∧ p.2 < m.geomContype.length := by
  unfold generatePairs at h
  refine foldlM_inv (P := fun acc : List (Int × Int) => ∀ p ∈ acc, (0 ≤ p.1 ∧ p.1 < m.geomContype.length) ∧ 0 ≤ p.2 ∧ p.2 < m.geomContype.length)
    (Q := fun _ => True) (fun _ _ => trivial) (by simp) ?_ h
  rintro acc ⟨x, y⟩ acc' - hP hs
  unfold addBodyPair at hs
  obtain ⟨b1, _, hs⟩ := Except.bind_eq_ok hs
  obtain ⟨b2, _, hs⟩ := Except.bind_eq_ok hs
  split at hs
  · cases hs; exact hP
  split at hs
  · cases hs; exact hP
  obtain ⟨v, _, hs⟩ := Except.bind_eq_ok hs
  split at hs
  · cases hs; exact hP
  obtain ⟨s1, e1, hs⟩ := Except.bind_eq_ok hs
  obtain ⟨n1, e2, hs⟩ := Except.bind_eq_ok hs
  obtain ⟨s2, e3, hs⟩ := Except.bind_eq_ok hs
  obtain ⟨n2, e4, hs⟩ := Except.bind_eq_ok hs
  have key : ∀ {b : Int} {s : Int} {n : Nat}, npGet m.bodyGeomadr b = .ok s → npGet m.bodyGeomnum b = .ok n →
      ∀ g ∈ intRange s n, 0 ≤ g ∧ g < m.geomContype.length := by
    intro b s n hs hn g hg
    obtain ⟨k, k1, k2, k3⟩ := npGet_index hs
    rw [k3 _ (by rw [hw.adrLen, hw.numLen])] at hn
    have hn := npGet_nat hn
    have hk : k < m.nbody := by rw [← hw.adrLen]; exact k1
    have hg := mem_intRange.1 hg
    have := hw.geoms k hk
    rw [List.getD_eq_getElem?_getD, hn, List.getD_eq_getElem?_getD, k2] at this
    simp only [Option.getD_some] at this
    omega
  refine foldlM_inv (P := fun acc : List (Int × Int) => ∀ p ∈ acc, (0 ≤ p.1 ∧ p.1 < m.geomContype.length) ∧ 0 ≤ p.2 ∧ p.2 < m.geomContype.length)
    (Q := fun g : Int × Int => (0 ≤ g.1 ∧ g.1 < m.geomContype.length) ∧ 0 ≤ g.2 ∧ g.2 < m.geomContype.length) ?_ hP ?_ hs
  · intro g hg
    obtain ⟨g1, h1, hg⟩ := List.mem_flatMap.1 hg
    obtain ⟨g2, h2, rfl⟩ := List.mem_map.1 hg
    exact ⟨key e1 e2 g1 h1, key e3 e4 g2 h2⟩
  · intro acc g acc' hQ hP hs
    exact addGeomPair_range hs ⟨hQ.1.1, hQ.2.1⟩ hP ⟨hQ.1.2, hQ.2.2⟩

private def kindPairs : Kind K → Option (List (Int × Int))
  | .selfCollision _ _ _ _ _ p => p
  | _ => none

private theorem kindPairs_step {a : Attrs K} {k : Kind K} (h : KindStep a k) : kindPairs k = kindPairs a.kind := by
  cases h
  case same => rfl
  case taskA => cases a.kind <;> rfl
  case sdg => cases a.kind <;> rfl
  all_goals
    have hk : ∀ {x}, a.kind = x → kindPairs a.kind = kindPairs x := fun h => by rw [h]
    first
      | (rename_i h; rw [hk h]; rfl)
      | (rename_i h _; rw [hk h]; rfl)
      | (rename_i h _ _; rw [hk h]; rfl)

/-- The pairs watched by a self-collision barrier are pairs of geoms of its model. -/
theorem collision_pairs_range {n : NewComp K} {c0 c : Comp K} (hn : n.run = .ok c0) (hr : CleanRun c0 c)
    {m : MjModel K} (hm : c.attrs.model = some m) (hw : CollisionWF m) {s d : K} {b : List CollisionBody}
    {e : List (CollisionBody × CollisionBody)} {k : Int} {ps : List (Int × Int)}
    (hk : c.attrs.kind = .selfCollision s d b e k (some ps)) :
    ∀ p ∈ ps, (0 ≤ p.1 ∧ p.1 < m.geomContype.length) ∧ 0 ≤ p.2 ∧ p.2 < m.geomContype.length := by
  have upd : ∀ (m' : MjModel K) (c : Comp K) {s d : K} {b : List CollisionBody}
      {e : List (CollisionBody × CollisionBody)} {k : Int} {ps : List (Int × Int)}, (updateModel m' c).1 = .ok () →
      (updateModel m' c).2.attrs.model = some m →
      (updateModel m' c).2.attrs.kind = .selfCollision s d b e k (some ps) →
      ∀ p ∈ ps, (0 ≤ p.1 ∧ p.1 < m.geomContype.length) ∧ 0 ≤ p.2 ∧ p.2 < m.geomContype.length := by
    intro m' c s d b e k ps ho hm hk
    have ht := run_tag (.updateModel m') c
    simp only [CompOp.run] at ht
    rw [hk] at ht
    cases hc : c.attrs.kind <;> rw [hc] at ht <;> simp [Kind.tag] at ht
    rename_i x1 x2 x3 x4 x5 x6
    have hu : updateModel m' c = updateModelSelfCollision m' x1 x2 x3 x4 x5 x6 c := by unfold updateModel; rw [hc]
    rw [hu] at ho hm hk
    unfold updateModelSelfCollision at ho hm hk
    dsimp only at ho hm hk
    split at ho
    · cases ho
    · rename_i ex hex
      rw [hex] at hm hk
      dsimp only at hm hk
      split at ho
      · cases ho
      · rename_i ps' hps
        rw [hps] at hm hk
        simp only [Comp.set, Option.some.injEq, Kind.selfCollision.injEq] at hm hk
        obtain ⟨-, -, -, -, -, rfl⟩ := hk
        subst hm
        exact generatePairs_range hw hps
  induction hr generalizing s d b e k ps with
  | refl => rw [model_none_of_new hn] at hm; cases hm
  | @step c op hc hop ih =>
    by_cases hu : ∃ m, op = .updateModel m
    · obtain ⟨m', rfl⟩ := hu
      exact upd m' c (hop m' rfl) hm hk
    · have hm' : ∀ m, op ≠ .updateModel m := fun m h => hu ⟨m, h⟩
      rw [run_model op c hm'] at hm
      have hs := kindPairs_step (run_kindStep op c hm')
      have ht := run_tag op c
      rw [hk] at hs ht
      cases hc : c.attrs.kind <;> rw [hc] at ht <;> simp [Kind.tag] at ht
      rename_i x1 x2 x3 x4 x5 x6
      rw [hc] at hs
      have hs : some ps = x6 := hs
      subst hs
      exact ih hm hc
  | accepted ops m' h => exact upd m' _ h hm hk

/-! ### Evaluation -/

variable [IsStrictOrderedRing K]

private theorem object_of_compiled {n : NewComp K} {c0 c : Comp K} {j : JaxComp K} (hn : n.run = .ok c0) (hr : CleanRun c0 c)
    (hj : (jaxComponent c).1 = .ok j) {i : Int} {ty : ObjType} (ho : objectOf j = some (i, ty)) :
    ∃ on, HasObject j.model ty on i := by
  have named : ∀ {on ot}, NamedNew on ot n → ∃ on, HasObject j.model ty on i := by
    intro on ot h
    obtain ⟨i', h1, h2⟩ := C19_task_object_partial h hn hr hj
    rw [ho] at h1; cases h1
    exact ⟨_, h2⟩
  have hC : CompilesTo c.attrs j :=
    jaxComponent_spec (cacheOK_reachable (hr.reachable hn)) (c' := (jaxComponent c).2) (by rw [← hj])
  have hK := hC.kind
  have htag := hr.tag
  have hobj : c0.attrs.kind.tag = .position ∨ c0.attrs.kind.tag = .frame ∨ c0.attrs.kind.tag = .positionBarrier := by
    rw [← htag]
    unfold objectOf at ho
    cases hk : c.attrs.kind <;> rw [hk] at hK <;> cases hjk : j.kind <;> rw [hjk] at hK ho <;> simp only [KindOf] at hK <;>
      simp [Kind.tag] at ho ⊢
  cases n
  case positionTask a on ot => exact named (.positionTask a)
  case frameTask a on ot => exact named (.frameTask a)
  case positionBarrier a on ot lo hi lt mask => exact named (.positionBarrier a lo hi lt mask)
  all_goals exfalso; simp only [NewComp.run] at hn
  case comTask => obtain ⟨t, at0, _, _, h', rfl⟩ := newComTask_ok hn; obtain ⟨_, m, idxs, h1, rfl⟩ := initAttrs_ok h'; simp [Kind.tag, Comp.fresh] at hobj
  case jointTask => obtain ⟨t, at0, _, h', rfl⟩ := newJointTask_ok hn; obtain ⟨_, m, idxs, h1, rfl⟩ := initAttrs_ok h'; simp [Kind.tag, Comp.fresh] at hobj
  case jointBarrier => obtain ⟨at0, h', rfl⟩ := newJointBarrier_ok hn; obtain ⟨_, m, idxs, h1, rfl⟩ := initAttrs_ok h'; simp [Kind.tag, Comp.fresh] at hobj
  case selfCollision => obtain ⟨at0, h', rfl⟩ := newSelfCollision_ok hn; obtain ⟨_, m, idxs, h1, rfl⟩ := initAttrs_ok h'; simp [Kind.tag, Comp.fresh] at hobj
  case modelEquality => obtain ⟨at0, h', rfl⟩ := newModelEquality_ok hn; obtain ⟨_, m, idxs, h1, rfl⟩ := initAttrs_ok h'; simp [Kind.tag, Comp.fresh] at hobj

theorem settled_of_usable {env : Env K} {j : JaxComp K} (h : Usable env j) : Settled j := by
  unfold Usable at h
  unfold Settled
  split <;> rename_i hk <;> first | trivial | (rw [hk] at h; first | exact h | exact h.1)

/-- The contacts of a usable self-collision barrier: at least as many as watched pairs. -/
private theorem contacts_ok {env : Env K} {m : MjModel K} (hm : ModelFits m) (he : EnvFits env m) (d : MjData K)
    {pairs : List (Int × Int)} (hp : ∀ p ∈ pairs, (0 ≤ p.1 ∧ p.1 < m.geomContype.length) ∧ 0 ≤ p.2 ∧ p.2 < m.geomContype.length)
    (hf : ∀ g ∈ pairs, HasFunction (env.collide m d) m g) :
    ∃ cs, computeCollisionPairs (env.collide m d) m pairs = .ok cs ∧ pairs.length ≤ cs.length := by
  obtain ⟨cs, h1, h2⟩ := computeCollisionPairs_ok (env.collide m d) hm.geoms (pairs := pairs)
    (fun g hg => by have := hp g hg; rw [hm.contypeLen] at this; exact this) hf
  refine ⟨cs, h1, ?_⟩
  rw [h2.length_eq]
  unfold allContacts
  clear h1 h2 hp
  induction pairs with
  | nil => simp
  | cons g gs ih =>
    rw [List.flatMap_cons, List.length_append, List.length_cons]
    have : 1 ≤ (pairContacts (env.collide m d) m (orient m g)).length := by
      unfold pairContacts
      simp only [List.length_map, List.length_range]
      exact he.contacts d _ _ (hf g (by simp))
    have := ih (fun x hx => hf x (by simp [hx]))
    omega

private theorem closest_ok {xs : List K} {k : Int} (h0 : 0 ≤ k) (h : k ≤ xs.length) : ∃ idx, closest xs k = .ok idx := by
  unfold closest
  rw [if_neg (by omega)]
  exact ⟨_, rfl⟩

/-- The value can be computed. -/
private theorem evalValue_total {n : NewComp K} {c0 c : Comp K} {j : JaxComp K} (hn : n.run = .ok c0) (hr : CleanRun c0 c)
    (hj : (jaxComponent c).1 = .ok j) (hm : ModelFits j.model) {env : Env K} (hu : Usable env j) (he : EnvFits env j.model)
    {d : MjData K} (hd : PositionsFit j.model d)
    (hcom : (∃ w lm x, j.kind = .comTask w lm x) → d.subtreeCom.length = j.model.nbody)
    (hfr : (∃ w lm i ty x, j.kind = .frameTask w lm i ty x) → DataFits j.model d) : ∃ v, evalValue env j d = .ok v := by
  have hC : CompilesTo c.attrs j :=
    jaxComponent_spec (cacheOK_reachable (hr.reachable hn)) (c' := (jaxComponent c).2) (by rw [← hj])
  obtain ⟨n', c1, ops, hn', hc'⟩ := hr.reachable hn
  have hF : FInv c.attrs := by
    rw [hc']; exact runOps_induct (P := fun c => FInv c.attrs) (finv_new hn') finv_run ops
  have htag := hr.tag
  have hobj := fun {i ty} => object_of_compiled hn hr hj (i := i) (ty := ty)
  have hmask : ∀ k : Nat, c.attrs.dim = k → (c.attrs.mask = none ∨ c.attrs.maskIdxs.length = k) → j.maskIdxs.length = k := by
    intro k hk h
    rw [hC.maskIdxs]
    rcases h with h | h
    · rw [h]; simp [hk]
    · split
      · exact h
      · simp [hk]
  have hK := hC.kind
  unfold FInv at hF
  unfold Usable at hu
  unfold objectOf at hobj
  unfold evalValue
  cases hk : c.attrs.kind <;> rw [hk] at hK hF htag <;> cases hjk : j.kind <;> rw [hjk] at hK hu hobj hcom hfr <;>
    simp only [KindOf] at hK <;> dsimp only at hu hobj ⊢
  case comTask.comTask t x w lm x' =>
    obtain ⟨k, h1, h2, h3⟩ := hF
    obtain ⟨-, -, rfl⟩ := hK
    obtain ⟨t, ht, htl⟩ := operand_ok hu h2
    obtain ⟨r, com, hr1, -, hr2⟩ := root_ok hm (hcom ⟨_, _, _, rfl⟩) hm.bodies
    have hr1 : npGet j.model.bodyRootid 0 = .ok r := hr1
    simp only [bind, Except.bind, ht, hr1, hr2]
    exact subVec_ok (by rw [htl]; exact hmask k h1 h3)
  case positionTask.positionTask t o x w lm i ty x' =>
    obtain ⟨k, h1, h2, h3⟩ := hF
    obtain ⟨-, -, -, -, rfl⟩ := hK
    obtain ⟨t, ht, htl⟩ := operand_ok hu.1 h2
    obtain ⟨on, ho⟩ := hobj rfl
    obtain ⟨p, hp⟩ := objPos_ok hm hd ho hu.2
    simp only [bind, Except.bind, ht, hp]
    exact subVec_ok (by rw [htl]; exact hmask k h1 h3)
  case frameTask.frameTask t o x w lm i ty x' =>
    have hd := hfr ⟨_, _, _, _, _, rfl⟩
    obtain ⟨on, ho⟩ := hobj rfl
    obtain ⟨p, hp⟩ := objPos_ok hm hd.toPositionsFit ho hu.2
    obtain ⟨R, hR⟩ := objMat_ok hm hd ho hu.2
    simp only [bind, Except.bind, toVec_of_shape hu.1, se3OfVec, objFrame, hp, hR, pure, Except.pure]
    exact ⟨_, rfl⟩
  case positionBarrier.positionBarrier s o lo hi lt li s' i ty lo' hi' li' =>
    obtain ⟨h1, h2, h3, h4, h5, h6⟩ := hF
    obtain ⟨-, -, -, rfl, rfl, rfl, -⟩ := hK
    obtain ⟨l, hl, hll⟩ := operand_ok hu.1 h4
    obtain ⟨h, hh, hhl⟩ := operand_ok hu.2.1 h5
    obtain ⟨on, ho⟩ := hobj rfl
    obtain ⟨p, hp⟩ := objPos_ok hm hd ho hu.2.2
    have hml : j.maskIdxs.length = c.attrs.maskIdxs.length := by rw [hC.maskIdxs, if_pos h1]
    obtain ⟨a, ha⟩ := subVec_ok (a := (vec3 p).gather j.maskIdxs) (b := l) (by rw [hll, ← hml]; rfl)
    obtain ⟨b, hb⟩ := subVec_ok (a := h) (b := (vec3 p).gather j.maskIdxs) (by rw [hhl, ← hml]; rfl)
    simp only [bind, Except.bind, hl, hh, hp, boundsValue, ha, hb, pure, Except.pure]
    exact ⟨_, rfl⟩
  case selfCollision.selfCollision s dm b ex k ps s' dv ps' k' =>
    obtain ⟨-, ⟨nn, g1, g2, -⟩, hps, rfl⟩ := hK
    subst hps
    obtain ⟨u1, u2, u3, u4⟩ := hu
    rw [hC.dim, g1] at u1
    obtain ⟨cs, hcs, hlen⟩ := contacts_ok hm he d (collision_pairs_range hn hr hC.model hm.collision hk) (u4 d)
    obtain ⟨idx, hidx⟩ := closest_ok (xs := cs.map (fun c => c.val.dist)) (k := k') (by omega) (by rw [List.length_map]; omega)
    have hdm : dv.operand = .ok ⟨nn, fun i => dv.get [i]⟩ := by unfold Arr.operand; rw [g2]
    simp only [bind, Except.bind, hdm, selfCollisionValue, hcs, hidx]
    refine subVec_ok ?_
    have := closest_length hidx
    show idx.length = nn
    omega
  case modelEquality.modelEquality => exact ⟨_, rfl⟩
  case jointTask.jointTask t fm x qi w lm x' qi' =>
    obtain ⟨a, fm', rfl⟩ := new_jointTask hn htag.symm
    obtain ⟨w', lm', tq', hc, -⟩ := jointTask_compiled hn hr hj hm.joints
    have e1 := hc.kind
    rw [hjk] at e1
    cases e1
    obtain ⟨t, ht, htl⟩ := operand_ok hu hc.target
    simp only [bind, Except.bind, ht]
    exact subVec_ok (by rw [htl]; simp [Vec.gather])
  case jointBarrier.jointBarrier s fm lo hi qi s' lo' hi' qi' =>
    obtain ⟨l, hl, hlx⟩ := operand_fits hu.1
    obtain ⟨h, hh, hhx⟩ := operand_fits hu.2
    obtain ⟨a, ha, -⟩ := hlx (d.qpos.gather qi') rfl
    obtain ⟨_, _, _, _, b, hb, -⟩ := hhx (d.qpos.gather qi') rfl
    simp only [bind, Except.bind, hl, hh, boundsValue, ha, hb, pure, Except.pure]
    exact ⟨_, rfl⟩

/-- The Jacobian can be computed. -/
private theorem evalJacobian_total {n : NewComp K} {c0 c : Comp K} {j : JaxComp K} (hn : n.run = .ok c0) (hr : CleanRun c0 c)
    (hj : (jaxComponent c).1 = .ok j) (hm : ModelFits j.model) {env : Env K} (hu : Usable env j) (he : EnvFits env j.model)
    {d : MjData K} (hz : Sized env j.model d) (hd : DataFits j.model d) : ∃ J, evalJacobian env j d = .ok J := by
  have hC : CompilesTo c.attrs j :=
    jaxComponent_spec (cacheOK_reachable (hr.reachable hn)) (c' := (jaxComponent c).2) (by rw [← hj])
  have htag := hr.tag
  have hobj := fun {i ty} => object_of_compiled hn hr hj (i := i) (ty := ty)
  obtain ⟨kp, kx⟩ := he.kinematics d.qpos hz.qpos
  have hK := hC.kind
  have hval := fun {d} => evalValue_total hn hr hj hm hu he (d := d)
  have hu' := hu
  unfold Usable at hu
  unfold objectOf at hobj
  unfold evalJacobian
  cases hk : c.attrs.kind <;> rw [hk] at hK htag <;> cases hjk : j.kind <;> rw [hjk] at hK hu hobj hval <;>
    simp only [KindOf] at hK <;> dsimp only at hu hobj ⊢
  case comTask.comTask t x w lm x' =>
    refine autoJacobian_ok hz (hval ?_ ?_ ?_)
    · exact ⟨kp.xpos, kp.geomXpos, kp.siteXpos⟩
    · intro _; exact subtreeComs_length hm kx
    · rintro ⟨_, _, _, _, _, h⟩; cases h
  case positionTask.positionTask t o x w lm i ty x' =>
    refine autoJacobian_ok hz (hval kp ?_ ?_)
    · rintro ⟨_, _, _, h⟩; cases h
    · rintro ⟨_, _, _, _, _, h⟩; cases h
  case positionBarrier.positionBarrier s o lo hi lt li s' i ty lo' hi' li' =>
    refine autoJacobian_ok hz (hval kp ?_ ?_)
    · rintro ⟨_, _, _, h⟩; cases h
    · rintro ⟨_, _, _, _, _, h⟩; cases h
  case frameTask.frameTask t o x w lm i ty x' =>
    obtain ⟨on, ho⟩ := hobj rfl
    obtain ⟨p, hp⟩ := objPos_ok hm hd.toPositionsFit ho hu.2
    obtain ⟨R, hR⟩ := objMat_ok hm hd ho hu.2
    obtain ⟨r, hrr⟩ := frameJacobianLocal_ok hm hd ho hu.2
    simp only [bind, Except.bind, toVec_of_shape hu.1, se3OfVec, objFrame, hp, hR, hrr, pure, Except.pure]
    exact ⟨_, rfl⟩
  case selfCollision.selfCollision s dm b ex k ps s' dv ps' k' =>
    obtain ⟨-, ⟨nn, g1, g2, -⟩, hps, rfl⟩ := hK
    subst hps
    obtain ⟨u1, u2, u3, u4⟩ := hu
    rw [hC.dim, g1] at u1
    have hrange := collision_pairs_range hn hr hC.model hm.collision hk
    obtain ⟨cs, hcs, hlen⟩ := contacts_ok hm he d hrange (u4 d)
    obtain ⟨idx, hidx⟩ := closest_ok (xs := cs.map (fun c => c.val.dist)) (k := k') (by omega) (by rw [List.length_map]; omega)
    have hb : ∀ g ∈ ps', ∃ b1 b2 : Nat, pairBodies j.model g = .ok (b1, b2) ∧ b1 < j.model.nbody ∧ b2 < j.model.nbody := by
      intro g hg
      obtain ⟨⟨a1, a2⟩, a3, a4⟩ := hrange g hg
      rw [hm.contypeLen, ← hm.geomLen] at a2 a4
      obtain ⟨k1, e1⟩ := Int.eq_ofNat_of_zero_le a1
      obtain ⟨k2, e2⟩ := Int.eq_ofNat_of_zero_le a3
      obtain ⟨b1, m1, q1⟩ := get_mem (l := j.model.geomBodyid) (k := k1) (by omega)
      obtain ⟨b2, m2, q2⟩ := get_mem (l := j.model.geomBodyid) (k := k2) (by omega)
      refine ⟨b1, b2, ?_, hm.geomBody _ m1, hm.geomBody _ m2⟩
      unfold pairBodies
      simp only [bind, Except.bind, e1, e2, q1, q2]
      rfl
    obtain ⟨bodies, hbod⟩ := mapM_ok (f := pairBodies j.model) (xs := ps') (fun g hg => by obtain ⟨_, _, h, -⟩ := hb g hg; exact ⟨_, h⟩)
    obtain ⟨-, m2, m3⟩ := mapM_mem hbod
    have hne : ps'.length ≠ 0 := by simpa using u2
    obtain ⟨rows, hrows⟩ := mapM_ok (f := selfCollisionRow j.model d cs bodies) (xs := idx) (by
      intro i hi
      have hil : i < cs.length := by
        have h2 := (ascOrder_spec (cs.map (fun c => c.val.dist))).2.1 i
        rw [List.length_map] at h2
        apply h2
        unfold closest at hidx
        split at hidx
        · cases hidx
        · cases hidx; exact List.mem_of_mem_take hi
      obtain ⟨c', -, hc', -⟩ := get_mem hil
      obtain ⟨bb, hbm, hbb, -⟩ := get_mem (l := bodies) (k := min i (bodies.length - 1)) (by omega)
      obtain ⟨g, hg, hgb⟩ := m2 bb hbm
      obtain ⟨b1, b2, q0, q1, q2⟩ := hb g hg
      rw [hgb] at q0
      cases q0
      unfold selfCollisionRow
      simp only [bind, Except.bind, hc', hbb, collisionRow]
      obtain ⟨r1, p1⟩ := pointJacobian_ok hm hd (c'.val.pos - (c'.val.dist / 2) • c'.val.normal) q1
      obtain ⟨r2, p2⟩ := pointJacobian_ok hm hd (c'.val.pos + (c'.val.dist / 2) • c'.val.normal) q2
      rw [p1, p2]
      exact ⟨_, rfl⟩)
    unfold selfCollisionJacobian
    simp only [bind, Except.bind, hcs, hidx, hbod, m3, if_neg hne, hrows]
    exact ⟨_, rfl⟩
  case modelEquality.modelEquality => exact ⟨_, rfl⟩
  case jointTask.jointTask t fm x qi w lm x' qi' =>
    obtain ⟨a, fm', rfl⟩ := new_jointTask hn htag.symm
    obtain ⟨w', lm', tq', hc, -⟩ := jointTask_compiled hn hr hj hm.joints
    rw [hc.dim, hc.maskIdxs]
    obtain ⟨S, hS, -⟩ := selection_ok (K := K) (k := (selectedJoints j.model fm').length) (nv := j.model.nv)
      (l := (selectedJoints j.model fm').map (dofOf j.model)) (by simp)
    simp only [bind, Except.bind, sizeOf_nat, hS]
    exact ⟨_, rfl⟩
  case jointBarrier.jointBarrier s fm lo hi qi s' lo' hi' qi' =>
    obtain ⟨a, lo0, hi0, fm', rfl⟩ := new_jointBarrier hn htag.symm
    obtain ⟨s1, lo1, hi1, hc, -⟩ := jointBarrier_compiled hn hr hj hm.joints
    rw [hc.dim, hc.maskIdxs]
    have e1 : ((2 * (selectedJoints j.model fm').length : Nat) : Int) / 2 = ((selectedJoints j.model fm').length : Int) := by omega
    rw [e1]
    obtain ⟨S, hS, -⟩ := selection_ok (K := K) (k := (selectedJoints j.model fm').length) (nv := j.model.nv)
      (l := (selectedJoints j.model fm').map (dofOf j.model)) (by simp)
    simp only [bind, Except.bind, sizeOf_nat, hS]
    unfold Mat.vstack
    rw [if_pos (show S.cols = S.neg.cols from rfl)]
    exact ⟨_, rfl⟩

/-- **C87** (components): a compiled component with usable settings can be evaluated on every simulation state of its model, and
what it returns has fitting sizes.  Missing: settings that are not `Usable`, where evaluation raises (`C87_no_pairs`,
`C87_too_many_distances`). -/
theorem C87_component_partial {n : NewComp K} {c0 c : Comp K} {j : JaxComp K} (hn : n.run = .ok c0) (hr : CleanRun c0 c)
    (hj : (jaxComponent c).1 = .ok j) (hm : ModelFits j.model) {env : Env K} (hu : Usable env j) (he : EnvFits env j.model)
    {d : MjData K} (hz : Sized env j.model d) (hd : DataFits j.model d) :
    ∃ s, solverComp env d j = .ok s ∧ CompShaped j.model.nv s := by
  obtain ⟨J, hJ⟩ := evalJacobian_total hn hr hj hm hu he hz hd
  obtain ⟨v, hv⟩ := evalValue_total hn hr hj hm hu he hd.toPositionsFit (fun _ => hd.subtreeCom) (fun _ => hd)
  obtain ⟨g, hg, -⟩ := C68_gain hn hr hj
  have hC : CompilesTo c.attrs j :=
    jaxComponent_spec (cacheOK_reachable (hr.reachable hn)) (c' := (jaxComponent c).2) (by rw [← hj])
  have hK := hC.kind
  have hw : ∃ s, wrapComp j ⟨J, v, g, j.gainFn⟩ = .ok s := by
    unfold wrapComp
    cases hk : c.attrs.kind <;> rw [hk] at hK <;> cases hjk : j.kind <;> rw [hjk] at hK <;> simp only [KindOf] at hK <;> dsimp only
    case jointBarrier.jointBarrier => exact ⟨_, rfl⟩
    case positionBarrier.positionBarrier => exact ⟨_, rfl⟩
    case selfCollision.selfCollision => exact ⟨_, rfl⟩
    case modelEquality.modelEquality => obtain ⟨W, hW⟩ := toMat_ok hK.2.2; rw [hW]; exact ⟨_, rfl⟩
    all_goals obtain ⟨W, hW⟩ := toMat_ok hK.1; rw [hW]; exact ⟨_, rfl⟩
  obtain ⟨s, hs⟩ := hw
  have h : solverComp env d j = .ok s := by
    unfold solverComp evaluate
    simp only [bind, Except.bind, hJ, hv, hg, pure, Except.pure]
    exact hs
  exact ⟨s, h, C68_component_partial hn hr hj hm.joints (settled_of_usable hu) hz h⟩

private theorem barrier_comp {env : Env K} {d : MjData K} {j : JaxComp K} {s : SolverComp K} (h : solverComp env d j = .ok s) :
    (∀ e g x, s = .barrier e g x → CompiledBarrier j ∧ evalJacobian env j d = .ok e.jac) ∧
    (CompiledBarrier j → ∀ G, evalJacobian env j d = .ok G → ∃ e g x, s = .barrier e g x ∧ e.jac = G) := by
  obtain ⟨J, v, g, h1, h2, h3, h4⟩ := solverComp_ok h
  unfold wrapComp at h4
  unfold CompiledBarrier
  have no : ∀ {w : Arr K} {f : Mat K → SolverComp K}, w.toMat.map f = .ok s → ∃ W, s = f W := by
    intro w f hw
    cases hW : w.toMat with
    | error => rw [hW] at hw; cases hw
    | ok W => rw [hW] at hw; cases hw; exact ⟨W, rfl⟩
  cases hk : j.kind <;> rw [hk] at h4 <;> dsimp only at h4 ⊢
  case jointBarrier =>
    cases h4
    exact ⟨fun e g x he => by cases he; exact ⟨trivial, h1⟩, fun _ G hG => ⟨_, _, _, rfl, by rw [h1] at hG; cases hG; rfl⟩⟩
  case positionBarrier =>
    cases h4
    exact ⟨fun e g x he => by cases he; exact ⟨trivial, h1⟩, fun _ G hG => ⟨_, _, _, rfl, by rw [h1] at hG; cases hG; rfl⟩⟩
  case selfCollision =>
    cases h4
    exact ⟨fun e g x he => by cases he; exact ⟨trivial, h1⟩, fun _ G hG => ⟨_, _, _, rfl, by rw [h1] at hG; cases hG; rfl⟩⟩
  all_goals
    obtain ⟨W, rfl⟩ := no h4
    exact ⟨(fun e g x he => by cases he), (fun hf => False.elim hf)⟩

/-- **C87** (problems): whatever a program did, as long as no model update failed half way, the settings are usable and the data
fits the model, the quadratic program of a compiled problem can be assembled unless the Jacobian of one of its barriers is all
zero; and then the result is not a number, nothing else goes wrong. -/
theorem C87_problem_partial {ops : List (Op K)} (hops : CleanProgram World.init ops) {p : Nat} {J : JaxProblem K}
    (hJ : (step (run World.init ops) (.compile p)).1 = .ok (.compiled J))
    (hm : ∀ nj ∈ J.comps, nj.2.model = J.model) {env : Env K}
    (hu : ∀ nj ∈ J.comps, Usable env nj.2) (hw : ModelFits J.model) (he : EnvFits env J.model) {d : MjData K} (hz : Sized env J.model d)
    (hd : DataFits J.model d) :
    ((∃ qp, problemQP env J.model J d = .ok qp) ↔
      ∀ nj ∈ J.comps, CompiledBarrier nj.2 → ∀ G, evalJacobian env nj.2 d = .ok G → ¬ ZeroMat G) ∧
    (problemQP env J.model J d = .error .nonFinite ↔
      ∃ nj ∈ J.comps, CompiledBarrier nj.2 ∧ ∃ G, evalJacobian env nj.2 d = .ok G ∧ ZeroMat G) := by
  obtain ⟨l1, l2, hcl⟩ := compiled_from_clean hops hJ
  have hall : ∀ j ∈ J.comps.map Prod.snd, ∃ s, solverComp env d j = .ok s := by
    intro j hj
    obtain ⟨nj, hnj, rfl⟩ := List.mem_map.1 hj
    obtain ⟨n, c0, c, hn, hr, hjc⟩ := hcl nj hnj
    have e1 := hm nj hnj
    obtain ⟨s, hs, -⟩ := C87_component_partial hn hr hjc (by rw [e1]; exact hw) (hu nj hnj) (env := env) (d := d)
      (by rw [e1]; exact he) (by rw [e1]; exact hz) (by rw [e1]; exact hd)
    exact ⟨s, hs⟩
  obtain ⟨cs, hcs⟩ := mapM_ok hall
  have hsh := C68_problem_partial hops hJ hm (fun nj h => settled_of_usable (hu nj h)) hw.joints hz _ _ cs
    (toVec_of_shape l1) (toVec_of_shape l2) hcs
  have hqp : problemQP env J.model J d = computeQP J.model.nv J.model.nv ⟨J.model.nv, fun i => J.vMin.get [i]⟩ ⟨J.model.nv, fun i => J.vMax.get [i]⟩ cs := by
    unfold problemQP
    simp only [bind, Except.bind, toVec_of_shape l1, toVec_of_shape l2, hcs]
  rw [hqp]
  obtain ⟨f1, f2⟩ := C31_finite_partial hsh
  obtain ⟨m1, m2, -⟩ := mapM_mem hcs
  have hiff : (∃ e s x, SolverComp.barrier e s x ∈ cs ∧ ZeroMat e.jac) ↔
      ∃ nj ∈ J.comps, CompiledBarrier nj.2 ∧ ∃ G, evalJacobian env nj.2 d = .ok G ∧ ZeroMat G := by
    constructor
    · rintro ⟨e, s, x, hmem, h0⟩
      obtain ⟨j, hj, hjs⟩ := m2 _ hmem
      obtain ⟨nj, hnj, rfl⟩ := List.mem_map.1 hj
      obtain ⟨b1, b2⟩ := (barrier_comp hjs).1 e s x rfl
      exact ⟨nj, hnj, b1, _, b2, h0⟩
    · rintro ⟨nj, hnj, hb, G, hG, h0⟩
      obtain ⟨s, hs, hss⟩ := m1 nj.2 (List.mem_map.2 ⟨nj, hnj, rfl⟩)
      obtain ⟨e, g, x, rfl, rfl⟩ := (barrier_comp hss).2 hb G hG
      exact ⟨e, g, x, hs, h0⟩
  refine ⟨f1.trans ?_, f2.trans hiff⟩
  constructor
  · intro h nj hnj hb G hG h0
    obtain ⟨e, s, x, h1, h2⟩ := hiff.2 ⟨nj, hnj, hb, G, hG, h0⟩
    exact h e s x h1 h2
  · intro h e s x h1 h2
    obtain ⟨nj, hnj, hb, G, hG, h0⟩ := hiff.1 ⟨e, s, x, h1, h2⟩
    exact h nj hnj hb G hG h0

/-- **C87** (solving): then `solve` returns a solution for every configuration of the right length at which no barrier's
Jacobian is all zero, whatever the QP solver returns. -/
theorem C87_solve_partial {ops : List (Op K)} (hops : CleanProgram World.init ops) {p : Nat} {J : JaxProblem K}
    (hJ : (step (run World.init ops) (.compile p)).1 = .ok (.compiled J))
    (hm : ∀ nj ∈ J.comps, nj.2.model = J.model) {env : Env K}
    (hu : ∀ nj ∈ J.comps, Usable env nj.2) (hw : ModelFits J.model) (he : EnvFits env J.model)
    (hd : ∀ q : Vec K, q.len = J.model.nq → Sized env J.model (update env J.model q) ∧ DataFits J.model (update env J.model q))
    {I : Type} (osqp : QPSolver K I) (q : Arr K) (s : LocalIKData K) :
    (q.shape ≠ [J.model.nq] → localSolve env osqp J.model q s J = .error .valueError) ∧
    (q.shape = [J.model.nq] →
      (∀ nj ∈ J.comps, CompiledBarrier nj.2 → ∀ G,
        evalJacobian env nj.2 (update env J.model ⟨J.model.nq, fun i => q.get [i]⟩) = .ok G → ¬ ZeroMat G) →
      ∃ qp, problemQP env J.model J (update env J.model ⟨J.model.nq, fun i => q.get [i]⟩) = .ok qp ∧
        localSolve env osqp J.model q s J = .ok (⟨(osqp qp).1, (osqp qp).2⟩, ⟨(osqp qp).1⟩)) := by
  constructor
  · intro h
    unfold localSolve solve
    rw [if_pos h]
  · intro h hb
    obtain ⟨hz, hd⟩ := hd ⟨J.model.nq, fun i => q.get [i]⟩ rfl
    obtain ⟨qp, hqp⟩ := (C87_problem_partial hops hJ hm hu hw he hz hd).1.2 hb
    refine ⟨qp, hqp, ?_⟩
    obtain ⟨vMin, vMax, cs, h1, h2, h3, h4⟩ := problemQP_ok hqp
    unfold localSolve solve
    rw [if_neg (not_not.2 h)]
    unfold localSolveFromData solveFromData
    simp only [bind, Except.bind, h1, h2, h3, h4]
    rfl

/-- **C87 fails without pairs**: a self-collision barrier that watches no pair compiles with dimension zero, but its Jacobian
raises an `IndexError`. -/
theorem C87_no_pairs (env : Env K) {j : JaxComp K} {s : K} {dm : Arr K} (hk : j.kind = .selfCollision s dm [] 0)
    (d : MjData K) : evalJacobian env j d = .error .indexError := by
  unfold evalJacobian
  rw [hk]
  dsimp only
  rfl

/-- **C87 fails for unknown types**: so does one with a pair whose geom types the simulator has no collision function for;
value and Jacobian raise a `KeyError`. -/
theorem C87_unknown_types (env : Env K) {j : JaxComp K} {s : K} {n k : Nat} {dm : K} {pairs : List (Int × Int)}
    (hk : j.kind = .selfCollision s (Arr.onesMul n (Arr.scalar dm)) pairs k) (hw : GeomsWF j.model)
    (hp : ∀ g ∈ pairs, InRange j.model g) {d : MjData K} {g : Int × Int} (hg : g ∈ pairs)
    (hf : ¬ HasFunction (env.collide j.model d) j.model g) :
    evalValue env j d = .error .keyError ∧ evalJacobian env j d = .error .keyError := by
  have h := computeCollisionPairs_error (env.collide j.model d) hw hp hg hf
  constructor
  · unfold evalValue
    rw [hk]
    have ho : (Arr.onesMul n (Arr.scalar dm)).operand = .ok ⟨n, fun i => (Arr.onesMul n (Arr.scalar dm)).get [i]⟩ := rfl
    simp only [bind, Except.bind, ho, selfCollisionValue, h]
  · unfold evalJacobian
    rw [hk]
    simp only [selfCollisionJacobian, bind, Except.bind, h]

namespace SolveEx

theorem model_fits : ModelFits Ex.model where
  bodies := by decide
  rootLen := rfl
  root := by decide
  mass := rfl
  bodyNames := rfl
  geomNames := rfl
  siteNames := rfl
  geomBody := by decide
  siteBody := by decide
  geomLen := rfl
  contypeLen := rfl
  joints := Ex.model_wf
  geoms := SCEx.geoms
  collision := ColEx.wf

theorem env_fits : EnvFits Ex.env Ex.model := ⟨fun _ _ => ⟨⟨rfl, rfl, rfl⟩, rfl⟩, fun _ _ _ _ => le_refl _⟩

theorem data_fits (q : Vec ℚ) : DataFits Ex.model (Ex.data Ex.model q) := ⟨⟨rfl, rfl, rfl⟩, rfl, rfl, rfl, rfl⟩

/-- The compiled problem of `SizeEx.ops`, with its three kinds of barriers and tasks and an equality constraint, meets the
hypotheses of `C87_problem_partial`; the simulator of the example has zero point Jacobians, so the Jacobian of its
self-collision barrier is all zero. -/
example : ∃ J : JaxProblem ℚ, (step (run World.init SizeEx.ops) (.compile 0)).1 = .ok (.compiled J) ∧
    (∀ nj ∈ J.comps, nj.2.model = J.model) ∧ J.model = Ex.model ∧ (∀ nj ∈ J.comps, Usable Ex.env nj.2) ∧
    ∃ nj ∈ J.comps, CompiledBarrier nj.2 := by
  refine ⟨_, rfl, ?_, rfl, ?_, ?_⟩
  · intro nj h
    fin_cases h <;> rfl
  · intro nj h
    fin_cases h
    · exact rfl
    · exact rfl
    · exact ⟨Or.inr (Or.inr rfl), Or.inr (Or.inr rfl)⟩
    · exact ⟨rfl, by decide, by decide, fun _ _ _ => rfl⟩
    · trivial
  · exact ⟨_, .tail _ (.tail _ (.head _)), trivial⟩

/-- A masked task, a joint barrier and equality rows. -/
def ops : List (Op ℚ) :=
  [.newComp (.comTask { Ex.taskArgs with mask := some ⟨[3], fun i => if i = [1] then 0 else 1⟩ }),
   .newComp (.jointBarrier Ex.barrierArgs none none none),
   .newComp (.modelEquality "e" (Ex.scalar 1) true none),
   .newProblem Ex.model (Ex.scalar (-1)) (Ex.scalar 1), .add 0 0, .add 0 1, .add 0 2]

theorem ops_clean : CleanProgram World.init ops := by
  refine ⟨trivial, trivial, trivial, trivial, ?_, ?_, ?_, trivial⟩ <;> · intro e h; cases h

/-- It is solved at every configuration, whatever the QP solver answers. -/
example (osqp : QPSolver ℚ Unit) (q : Arr ℚ) (hq : q.shape = [13]) (s : LocalIKData ℚ) :
    ∃ J : JaxProblem ℚ, (step (run World.init ops) (.compile 0)).1 = .ok (.compiled J) ∧ ∃ r,
      localSolve Ex.env osqp Ex.model q s J = .ok r := by
  refine ⟨_, rfl, ?_⟩
  obtain ⟨qp, -, h⟩ := (C87_solve_partial ops_clean (p := 0) rfl
    (by intro nj h; fin_cases h <;> rfl)
    (by
      intro nj h
      fin_cases h
      · exact rfl
      · exact ⟨Or.inr (Or.inr rfl), Or.inr (Or.inr rfl)⟩
      · trivial) model_fits env_fits (fun q hq => ⟨SizeEx.sized q hq, data_fits q⟩) osqp q s).2 hq
    (by
      intro nj h hb G hG h0
      fin_cases h
      · exact hb
      · cases hG
        exact absurd (h0 0 (by decide) 6 (by decide)) (by decide)
      · exact hb)
  exact ⟨_, h⟩

/-- A barrier that is to watch a single body. -/
def noPairs : Option (JaxComp ℚ) :=
  match newSelfCollision Ex.barrierArgs 3 [.id 1] [] (-1) with
  | .error _ => none
  | .ok c => (jaxComponent (updateModel Ex.model c).2).1.toOption

end SolveEx

/-- It compiles; nothing tells the user before the solver is called. -/
theorem C87_no_pairs_compiles (d : MjData ℚ) :
    ∃ j, SolveEx.noPairs = some j ∧ j.dim = 0 ∧ evalJacobian Ex.env j d = .error .indexError :=
  ⟨_, rfl, rfl, C87_no_pairs Ex.env rfl d⟩

/-- The same for a barrier over the three pairs of the chain, compiled through the public interface, with a simulator that cannot
collide capsules (type 3) with anything. -/
example (d : MjData ℚ) : ∃ c : Comp ℚ, ∃ j, newSelfCollision Ex.barrierArgs 3 [] [] (-1) = .ok c ∧
    (jaxComponent (updateModel Ex.model c).2).1 = .ok j ∧
    evalValue { Ex.env with collide := fun _ _ => { known := fun a b => a ≠ 3 ∧ b ≠ 3, ncon := fun _ _ => 1, contact := fun _ _ _ => ⟨0, 0, 0⟩ } }
      j d = .error .keyError := by
  refine ⟨_, _, rfl, rfl, (C87_unknown_types _ (s := 1) (n := 3) (k := 3) (dm := 3) (pairs := [(0, 2), (0, 3), (1, 3)]) rfl SCEx.geoms ?_
    (g := (1, 3)) (by simp) ?_).1⟩
  · intro g hg
    exact SCEx.inRange g ((by decide : ∀ g ∈ [((0 : Int), (2 : Int)), (0, 3), (1, 3)], g ∈ SCEx.pairs) g hg)
  · show ¬ (decide (geomTypeOf Ex.model (orient Ex.model (1, 3)).1 ≠ 3 ∧ geomTypeOf Ex.model (orient Ex.model (1, 3)).2 ≠ 3) = true)
    decide

end Mjinx.Props
