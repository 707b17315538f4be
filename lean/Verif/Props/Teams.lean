import Verif.Spec.Teams
import Verif.Props.RobotJacobian
import Verif.Props.Kinematics
import Verif.Lemmas.Edit
import Verif.Spec.Converge

/-!
# C123: robots in one scene do not disturb each other
-/

set_option linter.unusedSectionVars false

noncomputable section

namespace Mjinx.Props
open Spec Finset

variable {env : Env ℝ} {G : Geometry} {m : MjModel ℝ} {S : Nat → Prop}

/-! ### Columns -/

private theorem anc_in (hw : RobotWF G m) (hS : Separate m S) {a b : Nat} (h : Anc m.bodyParentid a b) (ha : a ≠ 0) (hb : b < m.nbody) (hSb : S b) : S a := by
  induction h with
  | self => exact hSb
  | @step b h0 h ih =>
    have hlt := hw.tree.parent b (Nat.pos_of_ne_zero h0) hb
    by_cases hp : m.bodyParentid.getD b 0 = 0
    · rw [hp] at h
      cases h with
      | self => exact absurd rfl ha
      | step h1 _ => exact absurd rfl h1
    · exact ih (by omega) ((hS b (Nat.pos_of_ne_zero h0) hb hp).1 hSb)

private theorem dof_pos (hw : RobotWF G m) {k : Nat} (hk : k < m.nv) : m.dofBodyid.getD k 0 ≠ 0 := by
  have hl : k < m.dofBodyid.length := by rw [hw.tree.dofs]; exact hk
  rw [List.getD_eq_getElem _ _ hl]
  have hmem := List.getElem_mem hl
  generalize m.dofBodyid[k] = b at hmem
  rw [hw.dofs] at hmem
  obtain ⟨j, hj, h⟩ := List.mem_flatMap.1 hmem
  have h2 := (List.mem_replicate.1 h).2
  have := (hw.joints j (List.mem_range.1 hj)).1
  omega

private theorem not_anc (hw : RobotWF G m) (hS : Separate m S) {b k : Nat} (hk : k < m.nv) (hb : b < m.nbody) (hSb : S b) (hD : ¬ Drives m S k) :
    ¬ Anc m.bodyParentid (m.dofBodyid.getD k 0) b := fun h => hD (anc_in hw hS h (dof_pos hw hk) hb hSb)

private theorem selection_zero {n nv : Nat} {l : List Nat} {A : Mat ℝ} (h : selectionMatrix n nv l = .ok A) {k : Nat} (hk : k ∉ l) (r : Nat) : A.get r k = 0 := by
  unfold selectionMatrix at h
  obtain ⟨t, ht, h⟩ := Except.bind_eq_ok h
  cases h
  show (if _ then (1 : ℝ) else 0) = 0
  rw [if_neg]
  intro hc
  obtain ⟨x, -, hx⟩ := List.any_eq_true.1 hc
  simp only [Bool.and_eq_true, beq_iff_eq] at hx
  exact hk (List.mem_of_getElem? hx.2)

private theorem auto_zero (hs : Simulates env G m) (hw : RobotWF G m) (hj : JacrevExact env) (hS : Separate m S) {j : JaxComp ℝ} (hm : j.model = m)
    {i : Int} {ty : ObjType} (hd : Differentiated j) (hp : ∀ d, pointOf j d = objPos d ty i) (ho : IsOn m S ty i)
    {x : Fin m.nq → ℝ} (hu : UnitQuats m (vecOf x)) {V J} (hV : evalValue env j (update env m (vecOf x)) = .ok V)
    (hJ : evalJacobian env j (update env m (vecOf x)) = .ok J) {r k : Nat} (hr : r < V.len) (hk : k < m.nv) (hD : ¬ Drives m S k) : J.get r k = 0 := by
  subst hm
  obtain ⟨J', hJ', hrate⟩ := C78_robot hs hw hj hd hu hV
  rw [hJ] at hJ'; cases hJ'
  obtain ⟨hi, b, hb, -, hSb⟩ := ho
  obtain ⟨i, rfl⟩ := Int.eq_ofNat_of_zero_le hi
  have hb : bodyOf j.model ty i = some b := hb
  obtain ⟨rows, hrows, hmot⟩ := C107_world hs hw hu hb
  have hbn := bodyOf_lt hw hb
  have hz := C47_frame_jacobian hw.tree hb hbn (.inl hrows) hk (not_anc hw hS hk hbn hSb hD)
  have hlen : rows.length = j.model.nv := frame_rows hs hw hrows
  obtain ⟨W, hW, hWd⟩ := hrate (oneDof k)
  obtain ⟨X, M, hXM, -, -, hX, -⟩ := hmot (oneDof k)
  obtain ⟨-, σ, c, a, hσ⟩ := value_affine hd hV
  have d1 := hWd r hr
  have e : (fun t => (W t).get r) = fun t => σ r * X t (a r) + c r := by
    funext t
    obtain ⟨V', v1, -, v3⟩ := hσ _ _ ((hp _).trans (hXM t).1)
    rw [hW t] at v1
    cases v1
    exact v3 r
  rw [e] at d1
  have d2 := ((hX (a r)).const_mul (σ r)).add_const (c r)
  rw [velocity_oneDof (by rw [hlen]; exact hk), hz] at d2
  have key := d1.unique d2
  rw [sum_eq_single k (fun l _ hl => by simp [oneDof, hl]) (fun h => absurd (mem_range.2 hk) h)] at key
  have : (oneDof k).get k = 1 := by simp [oneDof]
  rw [this] at key
  simp only [Pi.zero_apply, mul_zero, mul_one] at key
  rcases mul_eq_zero.1 key with h | h
  · exact h
  · split at h <;> norm_num at h

/-- **C123 (columns).** A component about the bodies in `S` has zeros in the columns of all degrees of freedom that drive other bodies. -/
theorem C123_columns (hs : Simulates env G m) (hw : RobotWF G m) (hj : JacrevExact env) (hS : Separate m S) {j : JaxComp ℝ} (ha : IsAbout env m S j)
    {x : Fin m.nq → ℝ} (hu : UnitQuats m (vecOf x)) {V J} (hV : evalValue env j (update env m (vecOf x)) = .ok V)
    (hJ : evalJacobian env j (update env m (vecOf x)) = .ok J) {r k : Nat} (hr : r < V.len) (hk : k < m.nv) (hD : ¬ Drives m S k) : J.get r k = 0 := by
  obtain ⟨hm, ha⟩ := ha
  cases hkd : j.kind with
  | comTask => rw [hkd] at ha; exact ha.elim
  | jointTask w lm tgt qi =>
    rw [hkd] at ha
    unfold evalJacobian at hJ
    rw [hkd] at hJ
    obtain ⟨n, -, hJ⟩ := Except.bind_eq_ok hJ
    exact selection_zero hJ (fun h => hD (ha k h)) r
  | positionTask w lm i ty tgt =>
    rw [hkd] at ha
    exact auto_zero hs hw hj hS hm (by unfold Differentiated; rw [hkd]; trivial) (fun d => by unfold pointOf; rw [hkd]) ha hu hV hJ hr hk hD
  | frameTask w lm i ty tgt =>
    rw [hkd] at ha
    obtain ⟨hi, b, hb, -, hSb⟩ := ha
    obtain ⟨i, rfl⟩ := Int.eq_ofNat_of_zero_le hi
    have hb : bodyOf m ty i = some b := hb
    have hbn := bodyOf_lt hw hb
    unfold evalJacobian at hJ
    rw [hkd] at hJ
    obtain ⟨t, -, hJ⟩ := Except.bind_eq_ok hJ
    obtain ⟨T, -, hJ⟩ := Except.bind_eq_ok hJ
    obtain ⟨F, -, hJ⟩ := Except.bind_eq_ok hJ
    obtain ⟨fj, hfj, hJ⟩ := Except.bind_eq_ok hJ
    obtain ⟨J0, hJ0, hJ⟩ := Except.bind_eq_ok hJ
    rw [hm] at hfj
    have hz := C47_frame_jacobian hw.tree hb hbn (.inr hfj) hk (not_anc hw hS hk hbn hSb hD)
    cases hJ
    show J0.get _ k = 0
    unfold Mat.mul at hJ0
    split at hJ0
    · cases hJ0
      dsimp only
      refine sum_eq_zero fun l _ => ?_
      have : (rowsMat fj).get l k = 0 := by
        show (vec6 (fj.getD k (0, 0))).get l = 0
        rw [hz]
        simp [vec6, Vec.append, vec3]
      rw [this, mul_zero]
    · cases hJ0
  | jointBarrier g lo hi qi =>
    rw [hkd] at ha
    unfold evalJacobian at hJ
    rw [hkd] at hJ
    obtain ⟨n, -, hJ⟩ := Except.bind_eq_ok hJ
    obtain ⟨A, hA, hJ⟩ := Except.bind_eq_ok hJ
    have hz := selection_zero hA (fun h => hD (ha k h))
    unfold Mat.vstack at hJ
    split at hJ
    · cases hJ
      show (if r < A.rows then A.get r k else - A.get (r - A.rows) k) = 0
      split
      · exact hz r
      · rw [hz, neg_zero]
    · cases hJ
  | positionBarrier g i ty lo hi li =>
    rw [hkd] at ha
    exact auto_zero hs hw hj hS hm (by unfold Differentiated; rw [hkd]; trivial) (fun d => by unfold pointOf; rw [hkd]) ha hu hV hJ hr hk hD
  | selfCollision g dm pairs n =>
    rw [hkd] at ha
    unfold evalJacobian at hJ
    rw [hkd] at hJ
    unfold selfCollisionJacobian at hJ
    obtain ⟨cs, -, hJ⟩ := Except.bind_eq_ok hJ
    obtain ⟨idx, -, hJ⟩ := Except.bind_eq_ok hJ
    obtain ⟨bodies, hbod, hJ⟩ := Except.bind_eq_ok hJ
    split at hJ
    · cases hJ
    obtain ⟨rows, hrows, hJ⟩ := Except.bind_eq_ok hJ
    cases hJ
    show (rows.getD r fun _ => 0) k = 0
    have hin : ∀ bb ∈ bodies, (bb.1 < m.nbody ∧ S bb.1) ∧ bb.2 < m.nbody ∧ S bb.2 := by
      intro bb hbb
      obtain ⟨g, hg, hpb⟩ := (mapM_mem hbod).2.1 bb hbb
      rw [hm] at hpb
      obtain ⟨⟨h1, b1, hb1, -, hs1⟩, h2, b2, hb2, -, hs2⟩ := ha g hg
      unfold pairBodies at hpb
      obtain ⟨c1, e1, hpb⟩ := Except.bind_eq_ok hpb
      obtain ⟨c2, e2, hpb⟩ := Except.bind_eq_ok hpb
      cases hpb
      rw [← Int.toNat_of_nonneg h1] at e1
      rw [← Int.toNat_of_nonneg h2] at e2
      have f1 : m.geomBodyid[g.1.toNat]? = some c1 := npGet_nat e1
      have f2 : m.geomBodyid[g.2.toNat]? = some c2 := npGet_nat e2
      have g1 : c1 = b1 := Option.some.inj (f1.symm.trans hb1)
      have g2 : c2 = b2 := Option.some.inj (f2.symm.trans hb2)
      subst g1 g2
      exact ⟨⟨bodyOf_lt hw hb1, hs1⟩, bodyOf_lt hw hb2, hs2⟩
    have hrow : ∀ row ∈ rows, row k = 0 := by
      intro row hrow
      obtain ⟨l, -, hl⟩ := (mapM_mem hrows).2.1 row hrow
      unfold selfCollisionRow at hl
      obtain ⟨c, -, hl⟩ := Except.bind_eq_ok hl
      obtain ⟨bb, hbb, hl⟩ := Except.bind_eq_ok hl
      have hmem := List.mem_of_getElem? (npGet_nat hbb)
      obtain ⟨⟨n1, s1⟩, n2, s2⟩ := hin bb hmem
      unfold collisionRow at hl
      obtain ⟨r1, e1, hl⟩ := Except.bind_eq_ok hl
      obtain ⟨r2, e2, hl⟩ := Except.bind_eq_ok hl
      cases hl
      rw [hm] at e1 e2
      have z1 := C47_point_jacobian hw.tree n1 e1 hk (not_anc hw hS hk n1 s1 hD)
      have z2 := C47_point_jacobian hw.tree n2 e2 hk (not_anc hw hS hk n2 s2 hD)
      show ∑ a : Fin 3, _ * ((r2.getD k (0, 0)).1 a - (r1.getD k (0, 0)).1 a) = 0
      rw [z1, z2]
      simp
    by_cases hl : r < rows.length
    · rw [List.getD_eq_getElem _ _ hl]
      exact hrow _ (List.getElem_mem hl)
    · rw [List.getD_eq_default _ _ (by omega)]
  | modelEquality a h w =>
    rw [hkd] at ha
    unfold evalJacobian at hJ
    rw [hkd] at hJ
    cases hJ
    have hall : ∀ l, ((eqSelect (update env m (vecOf x)).efcEq (update env m (vecOf x)).efcJ).getD l (Vec.zero 0)).get k = 0 := by
      intro l
      by_cases hl : l < (eqSelect (update env m (vecOf x)).efcEq (update env m (vecOf x)).efcJ).length
      · rw [List.getD_eq_getElem _ _ hl]
        exact ha (vecOf x) _ (List.getElem_mem hl) k hD
      · rw [List.getD_eq_default _ _ (by omega)]; rfl
    exact hall _

/-! ### Best velocities -/

private theorem rowDot_agree {D : Nat → Prop} {t : Term ℝ} (ht : t.Sees D) {u v : Nat → ℝ} (h : ∀ k < t.jac.cols, D k → u k = v k) {r : Nat} (hr : r < t.jac.rows) :
    rowDot t.jac r u = rowDot t.jac r v := by
  unfold rowDot
  refine sum_congr rfl fun k hk => ?_
  by_cases hD : D k
  · rw [h k (mem_range.1 hk) hD]
  · rw [ht r hr k (mem_range.1 hk) hD, zero_mul, zero_mul]

private theorem misfit_agree {D : Nat → Prop} {t : Term ℝ} (ht : t.Sees D) {u v : Nat → ℝ} (h : ∀ k < t.jac.cols, D k → u k = v k) (w : Arr ℝ) :
    t.misfit w u = t.misfit w v := by
  funext r
  unfold Term.misfit
  exact sum_congr rfl fun k hk => by rw [rowDot_agree ht h (mem_range.1 hk)]

/-- What a component without damping asks of a velocity depends only on what it sees. -/
private theorem term_agree {D : Nat → Prop} {t : Term ℝ} (ht : t.Sees D) (hp : t.Plain) {u v : Nat → ℝ} (h : ∀ k < t.jac.cols, D k → u k = v k) (n : Nat) :
    t.price n u = t.price n v ∧ (t.Allows u ↔ t.Allows v) := by
  unfold Term.Plain at hp
  unfold Term.price Term.Allows
  cases hk : t.attrs.kind <;> rw [hk] at hp <;> dsimp only at hp ⊢
  all_goals first
    | exact ⟨by simp only [misfit_agree ht h, hp, zero_mul], Iff.rfl⟩
    | exact ⟨by simp only [hp, zero_div, zero_mul], forall₂_congr fun r hr => by rw [rowDot_agree ht h hr]⟩
    | exact ⟨by simp only [misfit_agree ht h], imp_congr_right fun _ => forall₂_congr fun r hr => by rw [rowDot_agree ht h hr]⟩

private theorem terms_agree {D : Nat → Prop} {n : Nat} {A : List (Term ℝ)} (hA : ∀ t ∈ A, t.Sees D ∧ t.Plain ∧ t.jac.cols = n) {u v : Nat → ℝ}
    (h : ∀ k < n, D k → u k = v k) : totalPrice n A u = totalPrice n A v ∧ ((∀ t ∈ A, t.Allows u) ↔ ∀ t ∈ A, t.Allows v) := by
  have key := fun t (ht : t ∈ A) => term_agree (hA t ht).1 (hA t ht).2.1 (u := u) (v := v) (by rw [(hA t ht).2.2]; exact h) n
  constructor
  · unfold totalPrice
    congr 1
    exact List.map_congr_left fun t ht => (key t ht).1
  · exact forall₂_congr fun t ht => (key t ht).2

private theorem total_perm {n : Nat} {ts A B : List (Term ℝ)} (h : ts.Perm (A ++ B)) (v : Nat → ℝ) : totalPrice n ts v = totalPrice n A v + totalPrice n B v := by
  unfold totalPrice
  rw [(h.map _).sum_eq, List.map_append, List.sum_append]

private theorem joined_in {D : Nat → Prop} {u v : Nat → ℝ} {k : Nat} (h : D k) : joined D u v k = u k := if_pos h
private theorem joined_out {D : Nat → Prop} {u v : Nat → ℝ} {k : Nat} (h : ¬ D k) : joined D u v k = v k := if_neg h

variable {n : Nat} {vMin vMax : Arr ℝ} {D : Nat → Prop} {ts A B : List (Term ℝ)}

private theorem allowed_joined (hA : ∀ t ∈ A, t.Sees D ∧ t.Plain ∧ t.jac.cols = n) (hB : ∀ t ∈ B, t.Sees (fun k => ¬ D k) ∧ t.Plain ∧ t.jac.cols = n)
    (hp : ts.Perm (A ++ B)) {u v : Nat → ℝ} (hu : Allowed n vMin vMax A u) (hv : Allowed n vMin vMax B v) : Allowed n vMin vMax ts (joined D u v) := by
  refine ⟨fun i hi => ?_, fun t ht => ?_⟩
  · by_cases h : D i
    · rw [joined_in h]; exact hu.1 i hi
    · rw [joined_out h]; exact hv.1 i hi
  · rcases List.mem_append.1 (hp.mem_iff.1 ht) with h | h
    · exact ((terms_agree hA (u := joined D u v) (v := u) fun k _ hk => joined_in hk).2).2 hu.2 t h
    · exact ((terms_agree hB (u := joined D u v) (v := v) fun k _ hk => joined_out hk).2).2 hv.2 t h

private theorem allowed_perm (hp : ts.Perm (A ++ B)) {v : Nat → ℝ} (h : Allowed n vMin vMax ts v) : Allowed n vMin vMax A v ∧ Allowed n vMin vMax B v :=
  ⟨⟨h.1, fun t ht => h.2 t (hp.mem_iff.2 (List.mem_append_left _ ht))⟩, h.1, fun t ht => h.2 t (hp.mem_iff.2 (List.mem_append_right _ ht))⟩

/-- **C123 (best velocities).** Components without damping that see different degrees of freedom: a velocity is best for all of them iff it is best for those that see
`D` and best for the others.  So a best velocity for the first and a best velocity for the others can be put together. -/
theorem C123_best_partial (hA : ∀ t ∈ A, t.Sees D ∧ t.Plain ∧ t.jac.cols = n) (hB : ∀ t ∈ B, t.Sees (fun k => ¬ D k) ∧ t.Plain ∧ t.jac.cols = n) (hp : ts.Perm (A ++ B)) :
    (∀ v, Best n vMin vMax ts v ↔ Best n vMin vMax A v ∧ Best n vMin vMax B v) ∧
      ∀ u v, Best n vMin vMax A u → Best n vMin vMax B v → Best n vMin vMax ts (joined D u v) := by
  have hjA : ∀ u v, totalPrice n A (joined D u v) = totalPrice n A u := fun u v => (terms_agree hA fun k _ hk => joined_in hk).1
  have hjB : ∀ u v, totalPrice n B (joined D u v) = totalPrice n B v := fun u v => (terms_agree hB fun k _ hk => joined_out hk).1
  refine ⟨fun v => ⟨fun h => ?_, fun h => ?_⟩, fun u v hu hv => ?_⟩
  · obtain ⟨a1, a2⟩ := allowed_perm hp h.1
    refine ⟨⟨a1, fun u hu => ?_⟩, a2, fun u hu => ?_⟩
    · have := h.2 _ (allowed_joined hA hB hp hu a2)
      rw [total_perm hp, total_perm hp, hjA, hjB] at this
      linarith
    · have := h.2 _ (allowed_joined hA hB hp a1 hu)
      rw [total_perm hp, total_perm hp, hjA, hjB] at this
      linarith
  · refine ⟨⟨h.1.1.1, fun t ht => ?_⟩, fun u hu => ?_⟩
    · rcases List.mem_append.1 (hp.mem_iff.1 ht) with h' | h'
      · exact h.1.1.2 t h'
      · exact h.2.1.2 t h'
    · obtain ⟨a1, a2⟩ := allowed_perm hp hu
      rw [total_perm hp, total_perm hp]
      exact add_le_add (h.1.2 u a1) (h.2.2 u a2)
  · refine ⟨allowed_joined hA hB hp hu.1 hv.1, fun w hw => ?_⟩
    obtain ⟨a1, a2⟩ := allowed_perm hp hw
    rw [total_perm hp, total_perm hp, hjA, hjB]
    exact add_le_add (hu.2 w a1) (hv.2 w a2)

/-! ### Programs -/

theorem wrap_shaped {c : SolverComp ℝ} {J : Mat ℝ} {V g : Vec ℝ} {f : ℝ → ℝ} {j : JaxComp ℝ} {n : Nat} (h : wrapComp j ⟨J, V, g, f⟩ = .ok c) (hs : CompShaped n c) :
    V.len = J.rows ∧ J.cols = n := by
  have gen : ∀ {w : Arr ℝ} {F : Mat ℝ → SolverComp ℝ}, w.toMat.map F = .ok c → (∀ W, CompShaped n (F W) → V.len = J.rows ∧ J.cols = n) → V.len = J.rows ∧ J.cols = n := by
    intro w F h hF
    cases hw : w.toMat with
    | error => rw [hw] at h; cases h
    | ok W => rw [hw] at h; cases h; exact hF W hs
  unfold wrapComp at h
  cases hk : j.kind <;> rw [hk] at h <;> dsimp only at h
  all_goals first
    | exact gen h fun W hW => ⟨hW.1.value, hW.1.cols⟩
    | (cases h; exact ⟨hs.1.value, hs.1.cols⟩)

private theorem both {α β : Type} {R R' : α → β → Prop} : ∀ {xs : List α} {ys : List β}, List.Forall₂ R xs ys → List.Forall₂ R' xs ys →
    List.Forall₂ (fun x y => R x y ∧ R' x y) xs ys
  | _, _, .nil, .nil => .nil
  | _, _, .cons a as, .cons b bs => .cons ⟨a, b⟩ (both as bs)

private theorem unique {α β : Type} {R R' : α → β → Prop} (h : ∀ x y z, R x y → R' x z → z = y) : ∀ {xs : List α} {ys zs : List β}, List.Forall₂ R xs ys →
    List.Forall₂ R' xs zs → zs = ys
  | _, _, _, .nil, .nil => rfl
  | _, _, _, .cons a as, .cons b bs => by rw [h _ _ _ a b, unique h as bs]

/-- **C123.** Two problems of a program: `p` has the components of problem `pA`, which are about the mechanisms in `S`, and others, which are about other mechanisms; nothing
is damped.  With an exact QP solver, the velocity returned for `p` is a best velocity for `pA`: the components of the other robots do not matter for it.
And what is returned for `pA` is, on the joints of `S`, as good in `p` as what is returned for `p`. -/
theorem C123_program_partial (hs : Simulates env G m) (hw : RobotWF G m) (hj : JacrevExact env) (hS : Separate m S) (ops : List (Op ℝ)) {p pA : Nat} {P PA : Prob ℝ}
    (hP : (run World.init ops).probs[p]? = some P) (hPA : (run World.init ops).probs[pA]? = some PA) {rest : List (String × Nat)} (hc : P.comps.Perm (PA.comps ++ rest))
    (hm : P.model = m) (hmA : PA.model = m) (hv : PA.vMin = P.vMin ∧ PA.vMax = P.vMax) {J JA : JaxProblem ℝ}
    (hJ : (step (run World.init ops) (.compile p)).1 = .ok (.compiled J)) (hJA : (step (run World.init ops) (.compile pA)).1 = .ok (.compiled JA))
    (hA : ∀ nj ∈ J.comps, nj.1 ∈ PA.comps.map Prod.fst → IsAbout env m S nj.2)
    (hB : ∀ nj ∈ J.comps, nj.1 ∈ rest.map Prod.fst → IsAbout env m (fun b => ¬ S b) nj.2)
    {I : Type} {osqp : QPSolver ℝ I} (ho : Exact osqp) {x : Fin m.nq → ℝ} (hu : UnitQuats m (vecOf x))
    (hsz : WellSized env J (update env m (vecOf x))) (hszA : WellSized env JA (update env m (vecOf x)))
    {s₀ s₁ s₀' s₁' : LocalIKData ℝ} {sol solA : LocalIKSolution ℝ I}
    (h : localSolve env osqp m (vecOf x).toArr s₀ J = .ok (sol, s₁)) (h' : localSolve env osqp m (vecOf x).toArr s₀' JA = .ok (solA, s₁')) :
    ∃ ts tsA, TermsOf (run World.init ops) P J env (update env m (vecOf x)) ts ∧ TermsOf (run World.init ops) PA JA env (update env m (vecOf x)) tsA ∧
      ((∃ u, Allowed m.nv P.vMin P.vMax ts u) → (∀ t ∈ ts, t.Plain) →
        Best m.nv P.vMin P.vMax tsA sol.vOpt.get ∧ Best m.nv P.vMin P.vMax ts (joined (Drives m S) solA.vOpt.get sol.vOpt.get)) := by
  have model_eq : ∀ {p : Nat} {P : Prob ℝ} {J : JaxProblem ℝ}, (step (run World.init ops) (.compile p)).1 = .ok (.compiled J) → (run World.init ops).probs[p]? = some P → J.model = P.model := by
    intro p P J hJ hP
    obtain ⟨Q, hQ, e, -⟩ := compile_comps ⟨ops, rfl⟩ hJ
    rw [hP] at hQ; cases hQ; exact e
  have e1 : J.model = m := (model_eq hJ hP).trans hm
  have e2 : JA.model = m := (model_eq hJA hPA).trans hmA
  obtain ⟨qp, hqp, -⟩ := localSolve_ok h
  have hqp : problemQP env m J (update env m (vecOf x)) = .ok qp := hqp
  obtain ⟨P1, ts, g1, ht, hb⟩ := C91_real_solution ops hJ ho (q := (vecOf x).toArr) (by rw [e1]; exact hsz) (by rw [e1]; exact h)
  obtain ⟨P2, tsA, g2, htA, hbA⟩ := C91_real_solution ops hJA ho (q := (vecOf x).toArr) (by rw [e2]; exact hszA) (by rw [e2]; exact h')
  rw [hP] at g1; cases g1
  rw [hPA] at g2; cases g2
  rw [e1] at ht
  rw [e2] at htA
  have ht : TermsOf (run World.init ops) P J env (update env m (vecOf x)) ts := ht
  have htA : TermsOf (run World.init ops) PA JA env (update env m (vecOf x)) tsA := htA
  refine ⟨ts, tsA, ht, htA, fun hex hpl => ?_⟩
  -- the terms of the two groups
  obtain ⟨vMin, vMax, cs, q1, q2, q3, -⟩ := problemQP_ok hqp
  have hshape := hsz vMin vMax cs q1 q2 q3
  have sees : ∀ (S' : Nat → Prop), Separate m S' → ∀ (nj : String × JaxComp ℝ) (t : Term ℝ), nj ∈ J.comps → IsAbout env m S' nj.2 →
      evalJacobian env nj.2 (update env m (vecOf x)) = .ok t.jac → evalValue env nj.2 (update env m (vecOf x)) = .ok t.value →
      t.Sees (Drives m S') ∧ t.jac.cols = m.nv := by
    intro S' hS' nj t hnj ha k1 k2
    obtain ⟨s, hs1, hs2⟩ := (mapM_mem q3).1 nj.2 (List.mem_map_of_mem hnj)
    obtain ⟨J0, V0, g0, f1, f2, f3, f4⟩ := solverComp_ok hs2
    rw [k1] at f1; cases f1
    rw [k2] at f2; cases f2
    obtain ⟨l1, l2⟩ := wrap_shaped f4 (hshape.comps s hs1)
    rw [e1] at l2
    refine ⟨fun r hr k hk hD => ?_, l2⟩
    exact C123_columns hs hw hj hS' ha hu k2 k1 (by rw [l1]; exact hr) (by rw [← l2]; exact hk) hD
  have hS' : Separate m (fun b => ¬ S b) := fun b h0 h1 h2 => not_congr (hS b h0 h1 h2)
  have hR := terms_results hP hJ ht
  unfold TermsOf at ht
  have hboth := both hR ht
  obtain ⟨ts', hF, hperm⟩ := List.perm_comp_forall₂ hc.symm hboth
  obtain ⟨tA, tB, hFA, hFB, rfl⟩ := forall₂_split hF
  have hRA := terms_results hPA hJA htA
  have hsame : tsA = tA := by
    refine unique (fun ni t t' a b => ?_) hFA hRA
    obtain ⟨⟨c, x1, x2, j, x3, x4, x5⟩, -⟩ := a
    obtain ⟨c', y1, y2, j', y3, y4, y5⟩ := b
    rw [x1] at y1; cases y1
    rw [x3] at y3; cases y3
    rw [x4] at y4; rw [x5] at y5
    obtain ⟨a1, a2, a3⟩ := t
    obtain ⟨b1, b2, b3⟩ := t'
    cases y4; cases y5
    dsimp only at x2 y2
    rw [x2, y2]
  subst hsame
  have hmem : ∀ {l : List (String × Nat)} {us : List (Term ℝ)}, List.Forall₂ (fun (ni : String × Nat) (t : Term ℝ) => (∃ c, (run World.init ops).comps[ni.2]? = some c ∧ t.attrs = c.attrs ∧
        ∃ j, compileResult c.attrs = .ok j ∧ evalJacobian env j (update env m (vecOf x)) = .ok t.jac ∧ evalValue env j (update env m (vecOf x)) = .ok t.value) ∧
      ∃ c, (run World.init ops).comps[ni.2]? = some c ∧ t.attrs = c.attrs ∧
        ∃ j, (ni.1, j) ∈ J.comps ∧ evalJacobian env j (update env m (vecOf x)) = .ok t.jac ∧ evalValue env j (update env m (vecOf x)) = .ok t.value) l us →
      ∀ t ∈ us, ∃ ni ∈ l, ∃ j, (ni.1, j) ∈ J.comps ∧ evalJacobian env j (update env m (vecOf x)) = .ok t.jac ∧ evalValue env j (update env m (vecOf x)) = .ok t.value := by
    intro l us h
    induction h with
    | nil => intro t ht; cases ht
    | cons a as ih =>
      intro t ht
      rcases List.mem_cons.1 ht with rfl | ht
      · obtain ⟨-, c, -, -, j, hj⟩ := a
        exact ⟨_, List.mem_cons_self, j, hj⟩
      · obtain ⟨ni, h1, h2⟩ := ih t ht
        exact ⟨ni, List.mem_cons_of_mem _ h1, h2⟩
  have sA : ∀ t ∈ tsA, t.Sees (Drives m S) ∧ t.Plain ∧ t.jac.cols = m.nv := by
    intro t ht
    obtain ⟨ni, h1, j, h2, h3, h4⟩ := hmem hFA t ht
    obtain ⟨k1, k2⟩ := sees S hS (ni.1, j) t h2 (hA _ h2 (List.mem_map_of_mem h1)) h3 h4
    exact ⟨k1, hpl t (hperm.mem_iff.1 (List.mem_append_left _ ht)), k2⟩
  have sB : ∀ t ∈ tB, t.Sees (fun k => ¬ Drives m S k) ∧ t.Plain ∧ t.jac.cols = m.nv := by
    intro t ht
    obtain ⟨ni, h1, j, h2, h3, h4⟩ := hmem hFB t ht
    obtain ⟨k1, k2⟩ := sees _ hS' (ni.1, j) t h2 (hB _ h2 (List.mem_map_of_mem h1)) h3 h4
    exact ⟨k1, hpl t (hperm.mem_iff.1 (List.mem_append_right _ ht)), k2⟩
  rw [hm] at hb
  rw [hmA, hv.1, hv.2] at hbA
  obtain ⟨c1, c2⟩ := C123_best_partial (vMin := P.vMin) (vMax := P.vMax) sA sB hperm.symm
  have best := hb hex
  obtain ⟨b1, b2⟩ := (c1 _).1 best
  exact ⟨b1, c2 _ _ (hbA ⟨_, b1.1⟩) b2⟩

end Mjinx.Props
