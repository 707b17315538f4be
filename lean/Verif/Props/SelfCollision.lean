import Verif.Lemmas.Collision
import Verif.Lemmas.JointEval
import Verif.Spec.ExEnv
import Verif.Props.Collision
import Mathlib.Data.List.Sort

/-!
# Grouping, values and Jacobian of the self-collision barrier (C53–C56)
-/

namespace Mjinx.Props
open Spec
set_option linter.unusedSectionVars false

/-! ## C53 — grouping loses no pair -/

section
variable {K : Type}

/-- **C53**: grouping succeeds on every list of pairs of geoms of the model.  Together the groups hold every pair
exactly once, flipped if its types were out of order; a group is listed once, is not empty, and its members share the
two types, the two meshes and the contact dimensionality of its key, with types in order. -/
theorem C53_groups {m : MjModel K} (hw : GeomsWF m) {pairs : List (Int × Int)} (hp : ∀ g ∈ pairs, InRange m g) :
    ∃ gs, geomGroups m pairs = .ok gs ∧
      (gs.flatMap Prod.snd).Perm (pairs.map (orient m)) ∧
      (gs.map Prod.fst).Nodup ∧
      ∀ k l, (k, l) ∈ gs → l ≠ [] ∧ ∀ g ∈ l, k.type1 = geomTypeOf m g.1 ∧ k.type2 = geomTypeOf m g.2 ∧
        k.data1 = meshOf m g.1 ∧ k.data2 = meshOf m g.2 ∧ k.condim = pairCondim m g ∧ k.type1 ≤ k.type2 := by
  obtain ⟨gs, h1, h2⟩ := geomGroups_ok hw hp
  refine ⟨gs, h1, h2.perm, h2.nodup, ?_⟩
  intro k l hkl
  constructor
  · obtain ⟨x, hx, hk⟩ := (h2.keys k).1 (List.mem_map_of_mem (f := Prod.fst) hkl)
    intro hl
    have := h2.vals k l hkl
    rw [hl] at this
    have hx' : orient m x ∈ (pairs.filter (fun g => decide (keyOf m (orient m g) = k))).map (orient m) :=
      List.mem_map_of_mem (List.mem_filter.2 ⟨hx, by simpa using hk⟩)
    rw [← this] at hx'
    simp at hx'
  · intro g hg
    obtain ⟨x, hx, rfl, rfl⟩ := h2.key_of_mem hkl hg
    refine ⟨rfl, rfl, rfl, rfl, rfl, ?_⟩
    show geomTypeOf m (orient m x).1 ≤ geomTypeOf m (orient m x).2
    unfold orient
    split
    · rename_i h; exact le_of_lt h
    · rename_i h; exact not_lt.1 h

/-- **C53** (evaluation): the contacts reported for a list of pairs are those of all the pairs, each once. -/
theorem C53_contacts {C : Type} (f : CollisionFuncs C) {m : MjModel K} (hw : GeomsWF m)
    {pairs : List (Int × Int)} (hp : ∀ g ∈ pairs, InRange m g) (hf : ∀ g ∈ pairs, HasFunction f m g) :
    ∃ cs, computeCollisionPairs f m pairs = .ok cs ∧ cs.Perm (allContacts f m pairs) :=
  computeCollisionPairs_ok f hw hp hf

/-- **C53** (missing functions): one watched pair whose geom types the simulator cannot collide makes the whole evaluation
raise `KeyError`. -/
theorem C53_unknown_types {C : Type} (f : CollisionFuncs C) {m : MjModel K} (hw : GeomsWF m)
    {pairs : List (Int × Int)} (hp : ∀ g ∈ pairs, InRange m g) {g : Int × Int} (hg : g ∈ pairs) (hf : ¬ HasFunction f m g) :
    computeCollisionPairs f m pairs = .error .keyError :=
  computeCollisionPairs_error f hw hp hg hf

end

/-! ## C54 — values of the barrier -/

variable {K : Type} [Field K] [LinearOrder K]

/-- Helper: the positions in order of increasing value. -/
theorem ascOrder_spec (xs : List K) :
    (ascOrder xs).length = xs.length ∧ (∀ i ∈ ascOrder xs, i < xs.length) ∧
    ((ascOrder xs).map (fun i => xs.getD i 0)).Perm xs ∧
    ((ascOrder xs).map (fun i => xs.getD i 0)).Pairwise (· ≤ ·) := by
  have hp : (ascOrder xs).Perm (List.range xs.length) := List.mergeSort_perm _ _
  refine ⟨by simpa using hp.length_eq, ?_, ?_, ?_⟩
  · intro i hi
    simpa using hp.mem_iff.1 hi
  · refine (hp.map _).trans ?_
    have : (List.range xs.length).map (fun i => xs.getD i 0) = xs := by
      apply List.ext_getElem
      · simp
      · intro i h1 h2
        rw [List.getElem_map, List.getElem_range, List.getD_eq_getElem _ _ h2]
    rw [this]
  · rw [List.pairwise_map]
    have := List.pairwise_mergeSort (le := fun i j => decide (xs.getD i 0 ≤ xs.getD j 0))
      (by
        intro a b c h1 h2
        rw [decide_eq_true_eq] at h1 h2 ⊢
        exact le_trans h1 h2)
      (by
        intro a b
        rw [Bool.or_eq_true, decide_eq_true_eq, decide_eq_true_eq]
        exact le_total _ _) (List.range xs.length)
    refine List.Pairwise.imp ?_ this
    intro a b h
    simpa only [decide_eq_true_eq] using h

/-- Helper: the value of the barrier. -/
theorem selfCollision_value (env : Env K) {j : JaxComp K} {d : MjData K} {s dMin : K} {pairs : List (Int × Int)} {n : Nat}
    (hk : j.kind = .selfCollision s (Arr.onesMul n (Arr.scalar dMin)) pairs n)
    {cs : List (Contact (ContactVal K))} (hcs : computeCollisionPairs (env.collide j.model d) j.model pairs = .ok cs)
    (hn : n ≤ cs.length) :
    ∃ v, evalValue env j d = .ok v ∧ v.len = n ∧ ∀ i < n,
      v.get i = ((ascOrder (cs.map (fun c => c.val.dist))).map (fun i => (cs.map (fun c => c.val.dist)).getD i 0)).getD i 0 - dMin := by
  have hfit : FitsVec (Arr.onesMul n (Arr.scalar dMin)) n := .inr (.inr rfl)
  obtain ⟨t, t1, t2⟩ := operand_fits hfit
  obtain ⟨a1, a2, -, -⟩ := ascOrder_spec (cs.map (fun c => c.val.dist))
  rw [List.length_map] at a1
  have hlen : ((ascOrder (cs.map (fun c => c.val.dist))).take n).length = n := by
    rw [List.length_take, a1]; omega
  have hcl : closest (cs.map (fun c => c.val.dist)) (n : Int) = .ok ((ascOrder (cs.map (fun c => c.val.dist))).take n) := by
    unfold closest
    rw [if_neg (by rw [List.length_map]; omega), Int.toNat_natCast]
  obtain ⟨r, r1, r2, r3, -⟩ := t2 ⟨((ascOrder (cs.map (fun c => c.val.dist))).take n).length,
    fun i => (cs.map (fun c => c.val.dist)).getD (((ascOrder (cs.map (fun c => c.val.dist))).take n).getD i 0) 0⟩ hlen
  refine ⟨r, ?_, r2, ?_⟩
  · unfold evalValue
    rw [hk]
    simp only [bind, Except.bind, t1, selfCollisionValue, hcs, hcl]
    exact r1
  · intro i hi
    rw [r3 i hi]
    have he : entry (Arr.onesMul n (Arr.scalar dMin)) i = dMin := by
      simp [entry, Arr.onesMul, Arr.scalar]
    rw [he]
    congr 1
    dsimp only
    rw [List.getD_eq_getElem (ascOrder _ |>.take n) _ (by rw [hlen]; exact hi), List.getElem_take,
      List.getD_eq_getElem (List.map _ (ascOrder _)) _ (by rw [List.length_map, a1]; omega), List.getElem_map]

/-- **C54** (values): the barrier's values are the `n` smallest distances over all contacts of the watched pairs, in
increasing order, minus `d_min`. -/
theorem C54_values (env : Env K) {j : JaxComp K} {d : MjData K} {s dMin : K} {pairs : List (Int × Int)} {n : Nat}
    (hk : j.kind = .selfCollision s (Arr.onesMul n (Arr.scalar dMin)) pairs n)
    (hw : GeomsWF j.model) (hp : ∀ g ∈ pairs, InRange j.model g)
    (hf : ∀ g ∈ pairs, HasFunction (env.collide j.model d) j.model g)
    (hn : n ≤ (allContacts (env.collide j.model d) j.model pairs).length) :
    ∃ (v : Vec K) (sorted : List K), evalValue env j d = .ok v ∧ v.len = n ∧
      sorted.Perm ((allContacts (env.collide j.model d) j.model pairs).map (fun c => c.val.dist)) ∧
      sorted.Pairwise (· ≤ ·) ∧ ∀ i < n, v.get i = sorted.getD i 0 - dMin := by
  obtain ⟨cs, h1, h2⟩ := computeCollisionPairs_ok (env.collide j.model d) hw hp hf
  obtain ⟨v, v1, v2, v3⟩ := selfCollision_value env hk h1 (by rw [h2.length_eq]; exact hn)
  obtain ⟨-, -, a3, a4⟩ := ascOrder_spec (cs.map (fun c => c.val.dist))
  exact ⟨v, _, v1, v2, a3.trans (h2.map _), a4, v3⟩

/-- **C54** (safety): for `n ≥ 1` all values are nonnegative exactly when every contact of every watched pair is at
least `d_min` apart. -/
theorem C54_safe [IsStrictOrderedRing K] (env : Env K) {j : JaxComp K} {d : MjData K} {s dMin : K}
    {pairs : List (Int × Int)} {n : Nat}
    (hk : j.kind = .selfCollision s (Arr.onesMul n (Arr.scalar dMin)) pairs n)
    (hw : GeomsWF j.model) (hp : ∀ g ∈ pairs, InRange j.model g)
    (hf : ∀ g ∈ pairs, HasFunction (env.collide j.model d) j.model g)
    (hn : n ≤ (allContacts (env.collide j.model d) j.model pairs).length) (hn1 : 1 ≤ n) :
    ∃ v, evalValue env j d = .ok v ∧ ((∀ i < n, 0 ≤ v.get i) ↔
      ∀ g ∈ pairs, ∀ c ∈ pairContacts (env.collide j.model d) j.model (orient j.model g), dMin ≤ c.val.dist) := by
  obtain ⟨v, l, h1, h2, h3, h4, h5⟩ := C54_values env hk hw hp hf hn
  have hll : n ≤ l.length := by rw [h3.length_eq, List.length_map]; exact hn
  have hmem : (∀ x ∈ l, dMin ≤ x) ↔
      ∀ g ∈ pairs, ∀ c ∈ pairContacts (env.collide j.model d) j.model (orient j.model g), dMin ≤ c.val.dist := by
    constructor
    · intro h g hg c hc
      apply h
      rw [h3.mem_iff, List.mem_map]
      exact ⟨c, List.mem_flatMap.2 ⟨g, hg, hc⟩, rfl⟩
    · intro h x hx
      rw [h3.mem_iff, List.mem_map] at hx
      obtain ⟨c, hc, rfl⟩ := hx
      obtain ⟨g, hg, hc⟩ := List.mem_flatMap.1 hc
      exact h g hg c hc
  refine ⟨v, h1, ?_⟩
  rw [← hmem]
  constructor
  · intro h x hx
    have h0 := h 0 (by omega)
    rw [h5 0 (by omega), sub_nonneg] at h0
    refine le_trans h0 ?_
    obtain ⟨i, hi, rfl⟩ := List.mem_iff_getElem.1 hx
    rw [List.getD_eq_getElem _ _ (by omega)]
    rcases Nat.eq_zero_or_pos i with rfl | hpos
    · exact le_refl _
    · exact List.pairwise_iff_getElem.1 h4 0 i (by omega) hi hpos
  · intro h i hi
    rw [h5 i hi, sub_nonneg]
    apply h
    rw [List.getD_eq_getElem _ _ (by omega)]
    exact List.getElem_mem _

/-- **C54** (limits): asking for more distances than there are contacts is an error at evaluation. -/
theorem C54_too_many (env : Env K) {j : JaxComp K} {d : MjData K} {s dMin : K} {pairs : List (Int × Int)} {n : Nat}
    (hk : j.kind = .selfCollision s (Arr.onesMul n (Arr.scalar dMin)) pairs n)
    (hw : GeomsWF j.model) (hp : ∀ g ∈ pairs, InRange j.model g)
    (hf : ∀ g ∈ pairs, HasFunction (env.collide j.model d) j.model g)
    (hn : (allContacts (env.collide j.model d) j.model pairs).length < n) : evalValue env j d = .error .valueError := by
  obtain ⟨cs, h1, h2⟩ := computeCollisionPairs_ok (env.collide j.model d) hw hp hf
  have hl := h2.length_eq
  have hfit : FitsVec (Arr.onesMul n (Arr.scalar dMin)) n := .inr (.inr rfl)
  obtain ⟨t, t1, t2⟩ := operand_fits hfit
  have hcl : closest (cs.map (fun c => c.val.dist)) (n : Int) = .error .valueError := by
    unfold closest
    rw [if_pos (by rw [List.length_map]; omega)]
  unfold evalValue
  rw [hk]
  simp only [bind, Except.bind, t1, selfCollisionValue, h1, hcl]

/-! ## C55 — bodies used by the Jacobian -/

/-- Helper: `mapM` by position. -/
theorem mapM_get {α β : Type} {f : α → Except Err β} : ∀ {xs : List α} {ys : List β}, xs.mapM f = .ok ys →
    ys.length = xs.length ∧ ∀ (i : Nat) x, xs[i]? = some x → ∃ y, ys[i]? = some y ∧ f x = .ok y := by
  intro xs
  induction xs with
  | nil => intro ys h; cases h; simp
  | cons x xs ih =>
    intro ys h
    rw [List.mapM_cons] at h
    obtain ⟨y, hy, h⟩ := Except.bind_eq_ok h
    obtain ⟨zs, hz, h⟩ := Except.bind_eq_ok h
    cases h
    obtain ⟨i1, i2⟩ := ih hz
    refine ⟨by simp [i1], ?_⟩
    intro i x' hx
    cases i with
    | zero =>
      simp only [List.getElem?_cons_zero, Option.some.injEq] at hx
      subst hx
      exact ⟨y, rfl, hy⟩
    | succ i => exact i2 i x' hx

/-- Helper: what a Jacobian row is. -/
theorem collisionRow_spec {m : MjModel K} {d : MjData K} {c : ContactVal K} {b1 b2 : Nat} {row : Nat → K}
    (h : collisionRow m d c b1 b2 = .ok row) : DistanceRow m d c b1 b2 row := by
  unfold collisionRow at h
  obtain ⟨r1, h1, h⟩ := Except.bind_eq_ok h
  obtain ⟨r2, h2, h⟩ := Except.bind_eq_ok h
  cases h
  exact ⟨r1, r2, h1, h2, fun k => rfl⟩

/-- **C55** (what the code computes): row `i` takes distance, point and normal from the contact at position `p` of the
reported contacts (the `i`-th closest), but the bodies from the watched pair at position `p` of the list of pairs, whatever
the geoms of that contact are. -/
theorem C55_bodies_by_position (env : Env K) {j : JaxComp K} {d : MjData K} {s : K} {dm : Arr K} {pairs : List (Int × Int)}
    {n : Nat} (hk : j.kind = .selfCollision s dm pairs n)
    {cs : List (Contact (ContactVal K))} (hcs : computeCollisionPairs (env.collide j.model d) j.model pairs = .ok cs)
    (hb : ∀ g ∈ pairs, (0 ≤ g.1 ∧ g.1 < j.model.geomBodyid.length) ∧ 0 ≤ g.2 ∧ g.2 < j.model.geomBodyid.length)
    {J : Mat K} (hJ : evalJacobian env j d = .ok J) :
    J.rows = n ∧ ∀ i < n, ∃ p c g, (ascOrder (cs.map (fun c => c.val.dist)))[i]? = some p ∧ cs[p]? = some c ∧
      pairs[min p (pairs.length - 1)]? = some g ∧
      DistanceRow j.model d c.val (geomBody j.model g.1) (geomBody j.model g.2) (J.get i) := by
  unfold evalJacobian at hJ
  rw [hk] at hJ
  simp only at hJ
  unfold selfCollisionJacobian at hJ
  simp only [bind, Except.bind, hcs] at hJ
  have hbodies : pairs.mapM (pairBodies j.model) =
      .ok (pairs.map (fun g => (geomBody j.model g.1, geomBody j.model g.2))) := by
    clear hJ hcs hk
    induction pairs with
    | nil => rfl
    | cons g gs ih =>
      obtain ⟨⟨a1, a2⟩, b1, b2⟩ := hb g (by simp)
      rw [List.mapM_cons, ih (fun x hx => hb x (by simp [hx]))]
      simp only [pairBodies, bind, Except.bind, npGet_int 0 a1 a2, npGet_int 0 b1 b2]
      rfl
  cases hcl : closest (cs.map (fun c => c.val.dist)) (n : Int) with
  | error e => rw [hcl] at hJ; simp at hJ
  | ok idx =>
  rw [hcl] at hJ
  simp only [hbodies] at hJ
  split at hJ
  · simp at hJ
  rename_i hne
  cases hr : idx.mapM (selfCollisionRow j.model d cs (pairs.map (fun g => (geomBody j.model g.1, geomBody j.model g.2)))) with
  | error e => rw [hr] at hJ; simp at hJ
  | ok rows =>
  rw [hr] at hJ
  simp only [pure, Except.pure, Except.ok.injEq] at hJ
  subst hJ
  obtain ⟨l1, l2⟩ := mapM_get hr
  obtain ⟨a1, a2, -, -⟩ := ascOrder_spec (cs.map (fun c => c.val.dist))
  rw [List.length_map] at a1
  unfold closest at hcl
  split at hcl
  · simp at hcl
  rename_i hn
  rw [List.length_map] at hn
  injection hcl with hcl
  rw [Int.toNat_natCast] at hcl
  have hidx : idx.length = n := by rw [← hcl, List.length_take, a1]; omega
  refine ⟨by rw [← hidx, ← l1], ?_⟩
  intro i hi
  have hi' : i < (ascOrder (cs.map (fun c => c.val.dist))).length := by rw [a1]; omega
  have hp : idx[i]? = some ((ascOrder (cs.map (fun c => c.val.dist)))[i]) := by
    rw [← hcl, List.getElem?_take, if_pos hi, List.getElem?_eq_getElem hi']
  obtain ⟨row, h1, h2⟩ := l2 i _ hp
  unfold selfCollisionRow at h2
  obtain ⟨c, hc, h2⟩ := Except.bind_eq_ok h2
  obtain ⟨bb, hbb, h2⟩ := Except.bind_eq_ok h2
  have hc' := npGet_nat hc
  have hbb' := npGet_nat hbb
  rw [List.getElem?_map, List.length_map] at hbb'
  obtain ⟨g, hg, hgb⟩ := Option.map_eq_some_iff.1 hbb'
  refine ⟨_, c, g, List.getElem?_eq_getElem hi', hc', hg, ?_⟩
  have hrow : (fun k => rows.getD i (fun _ => 0) k) = row := by
    rw [List.getD_eq_getElem?_getD, h1]; rfl
  show DistanceRow _ _ _ _ _ (fun k => rows.getD i (fun _ => 0) k)
  rw [hrow]
  subst hgb
  exact collisionRow_spec h2

/-- All pairs have the same (oriented) types, meshes and contact dimensionality, in order, with one contact each: nothing
is regrouped or flipped. -/
structure Uniform {C : Type} (f : CollisionFuncs C) (m : MjModel K) (pairs : List (Int × Int)) : Prop where
  oriented : ∀ g ∈ pairs, geomTypeOf m g.1 ≤ geomTypeOf m g.2
  same : ∀ g ∈ pairs, ∀ g' ∈ pairs, keyOf m g = keyOf m g'
  known : ∀ g ∈ pairs, f.known (geomTypeOf m g.1) (geomTypeOf m g.2) = true
  single : ∀ g ∈ pairs, f.ncon (geomTypeOf m g.1) (geomTypeOf m g.2) = 1

/-- Helper: then the contacts are reported in the order of the pairs. -/
theorem uniform_contacts {C : Type} (f : CollisionFuncs C) {m : MjModel K} (hw : GeomsWF m) {pairs : List (Int × Int)}
    (hp : ∀ g ∈ pairs, InRange m g) (hu : Uniform f m pairs) :
    ∃ cs, computeCollisionPairs f m pairs = .ok cs ∧ cs = pairs.map (fun g => ⟨g, f.contact (keyOf m g) g 0⟩) := by
  have hor : ∀ g ∈ pairs, orient m g = g := fun g hg => if_neg (not_lt.2 (hu.oriented g hg))
  obtain ⟨gs, h1, h2⟩ := geomGroups_ok hw hp
  have hany : gs.any (fun kg => !f.known kg.1.type1 kg.1.type2) = false := by
    rw [← Bool.not_eq_true, groups_any f h2]
    rintro ⟨g, hg, h⟩
    apply h
    unfold HasFunction
    rw [hor g hg]
    exact hu.known g hg
  unfold computeCollisionPairs
  simp only [bind, Except.bind, h1, hany, Bool.false_eq_true, if_false]
  refine ⟨_, rfl, ?_⟩
  have hlist : pairs.flatMap (pairContacts f m) = pairs.map (fun g => (⟨g, f.contact (keyOf m g) g 0⟩ : Contact C)) := by
    rw [← List.flatMap_singleton' (pairs.map _), List.flatMap_map]
    apply List.flatMap_congr
    intro g hg
    unfold pairContacts
    rw [hu.single g hg]
    rfl
  rcases pairs with - | ⟨g0, rest⟩
  · have : gs = [] := by
      have hk := h2.keys
      rcases gs with - | ⟨⟨k, l⟩, t⟩
      · rfl
      · have := (hk k).1 (by simp)
        simp at this
    subst this
    simp [condimGroups]
  · set k0 := keyOf m g0 with hk0
    have hkeys : ∀ k ∈ gs.map Prod.fst, k = k0 := by
      intro k hk
      obtain ⟨x, hx, rfl⟩ := (h2.keys k).1 hk
      rw [hor x hx]
      exact hu.same x hx g0 (by simp)
    have hmem : k0 ∈ gs.map Prod.fst := (h2.keys k0).2 ⟨g0, by simp, by rw [hor g0 (by simp)]⟩
    have hgs : ∃ l, gs = [(k0, l)] := by
      rcases gs with - | ⟨⟨k, l⟩, - | ⟨⟨k', l'⟩, t⟩⟩
      · simp at hmem
      · exact ⟨l, by rw [← hkeys k (by simp)]⟩
      · have e1 := hkeys k (by simp)
        have e2 := hkeys k' (by simp)
        have := h2.nodup
        simp [e1, e2] at this
    obtain ⟨l, rfl⟩ := hgs
    have hl : l = g0 :: rest := by
      rw [h2.vals k0 l (by simp)]
      have hf : (g0 :: rest).filter (fun x => decide (keyOf m (orient m x) = k0)) = g0 :: rest := by
        rw [List.filter_eq_self]
        intro x hx
        rw [decide_eq_true_eq, hor x hx]
        exact hu.same x hx g0 (by simp)
      rw [hf]
      have : (g0 :: rest).map (orient m) = (g0 :: rest).map id := List.map_congr_left hor
      rw [this, List.map_id]
    subst hl
    rw [← hlist, ← runGroup_eq f (k := k0) (fun g hg => hu.same g hg g0 (by simp))]
    simp [condimGroups, dictAppend]

/-- **C55, partial**: if all watched pairs have the same types, meshes and contact dimensionality, list the geom with the
smaller type first, and have a collision function with a single contact, then row `i` is the derivative of the `i`-th reported distance: it uses the
bodies of the geoms at that distance.  Missing: all other pair lists, where it is false (below). -/
theorem C55_uniform_partial (env : Env K) {j : JaxComp K} {d : MjData K} {s dMin : K} {pairs : List (Int × Int)}
    {n : Nat} (hk : j.kind = .selfCollision s (Arr.onesMul n (Arr.scalar dMin)) pairs n)
    (hw : GeomsWF j.model) (hp : ∀ g ∈ pairs, InRange j.model g) (hu : Uniform (env.collide j.model d) j.model pairs)
    (hbl : j.model.geomBodyid.length = j.model.geomType.length) {J : Mat K} (hJ : evalJacobian env j d = .ok J)
    {v : Vec K} (hv : evalValue env j d = .ok v) :
    J.rows = n ∧ v.len = n ∧ ∀ i < n, ∃ c ∈ allContacts (env.collide j.model d) j.model pairs, v.get i = c.val.dist - dMin ∧
      DistanceRow j.model d c.val (geomBody j.model c.geom.1) (geomBody j.model c.geom.2) (J.get i) := by
  obtain ⟨cs, h1, h2⟩ := uniform_contacts (env.collide j.model d) hw hp hu
  obtain ⟨h3, h4⟩ := C55_bodies_by_position env hk h1 (fun g hg => by rw [hbl]; exact hp g hg) hJ
  have hf : ∀ g ∈ pairs, HasFunction (env.collide j.model d) j.model g := by
    intro g hg
    unfold HasFunction
    rw [show orient j.model g = g from if_neg (not_lt.2 (hu.oriented g hg))]
    exact hu.known g hg
  have hperm : cs.Perm (allContacts (env.collide j.model d) j.model pairs) := by
    obtain ⟨cs', e1, e2⟩ := computeCollisionPairs_ok (env.collide j.model d) hw hp hf
    rw [h1] at e1; injection e1 with e1; rw [e1]; exact e2
  have hn : n ≤ cs.length := by
    by_contra hlt
    push Not at hlt
    rw [C54_too_many env hk hw hp hf (by rw [← hperm.length_eq]; exact hlt)] at hv
    cases hv
  obtain ⟨v', v1, v2, v3⟩ := selfCollision_value env hk h1 hn
  rw [hv] at v1
  injection v1 with v1
  subst v1
  refine ⟨h3, v2, ?_⟩
  intro i hi
  obtain ⟨p, c, g, hp1, hp2, hp3, hrow⟩ := h4 i hi
  have hpl : p < cs.length := (List.getElem?_eq_some_iff.1 hp2).1
  have hcl : cs.length = pairs.length := by rw [h2, List.length_map]
  rw [min_eq_left (by omega)] at hp3
  have hcg : c.geom = g := by
    rw [h2, List.getElem?_map, hp3] at hp2
    simp only [Option.map_some, Option.some.injEq] at hp2
    rw [← hp2]
  refine ⟨c, hperm.mem_iff.1 (List.mem_of_getElem? hp2), ?_, by rw [hcg]; exact hrow⟩
  rw [v3 i hi]
  congr 1
  obtain ⟨a1, -, -, -⟩ := ascOrder_spec (cs.map (fun c => c.val.dist))
  rw [List.length_map] at a1
  rw [List.getD_eq_getElem?_getD, List.getElem?_map, hp1]
  simp only [Option.map_some, Option.getD_some]
  rw [List.getD_eq_getElem?_getD, List.getElem?_map, hp2]
  rfl

/-- **C55 fails for flipped pairs**: a watched pair whose first geom has the larger type is handed to the collision
function the other way round, so the reported normal points from the second geom to the first — but the Jacobian row
still takes the first geom's body as the body of the normal's origin. -/
theorem C55_flipped_pair (env : Env K) {j : JaxComp K} {d : MjData K} {s : K} {dm : Arr K} {g : Int × Int}
    (hk : j.kind = .selfCollision s dm [g] 1) (hw : GeomsWF j.model) (hg : InRange j.model g)
    (hflip : geomTypeOf j.model g.2 < geomTypeOf j.model g.1)
    (hf : HasFunction (env.collide j.model d) j.model g)
    (hone : (env.collide j.model d).ncon (geomTypeOf j.model g.2) (geomTypeOf j.model g.1) = 1)
    (hbl : j.model.geomBodyid.length = j.model.geomType.length) {J : Mat K} (hJ : evalJacobian env j d = .ok J) :
    ∃ c, allContacts (env.collide j.model d) j.model [g] = [c] ∧ c.geom = (g.2, g.1) ∧
      DistanceRow j.model d c.val (geomBody j.model c.geom.2) (geomBody j.model c.geom.1) (J.get 0) := by
  have hor : orient j.model g = (g.2, g.1) := if_pos hflip
  obtain ⟨cs, h1, h2⟩ := computeCollisionPairs_ok (env.collide j.model d) hw (pairs := [g]) (by simpa using hg) (by simpa using hf)
  have hall : allContacts (env.collide j.model d) j.model [g] =
      [⟨(g.2, g.1), (env.collide j.model d).contact (keyOf j.model (g.2, g.1)) (g.2, g.1) 0⟩] := by
    simp only [allContacts, List.flatMap_cons, List.flatMap_nil, List.append_nil, hor, pairContacts, hone]
    rfl
  rw [hall, List.perm_singleton] at h2
  have hk' : j.kind = .selfCollision s dm [g] ((1 : Nat) : Int) := hk
  obtain ⟨-, h4⟩ := C55_bodies_by_position env hk' h1 (fun g' hg' => by
    rw [List.mem_singleton] at hg'; subst hg'; rw [hbl]; exact hg) hJ
  obtain ⟨p, c, g', hp1, hp2, hp3, hrow⟩ := h4 0 (by omega)
  have hp : p = 0 := by
    rw [h2] at hp2
    have := (List.getElem?_eq_some_iff.1 hp2).1
    simpa using this
  subst hp
  rw [h2] at hp2
  simp only [List.getElem?_cons_zero, Option.some.injEq] at hp2
  simp only [List.length_singleton, Nat.sub_self, min_self, List.getElem?_cons_zero, Option.some.injEq] at hp3
  subst hp3
  refine ⟨c, by rw [hall, hp2], by rw [← hp2], ?_⟩
  have hgeom : c.geom = (g.2, g.1) := by rw [← hp2]
  rw [hgeom]
  exact hrow

/-! ## C56 — unknown bodies -/

section
variable {K : Type}

/-- Helper: index -1 is the last entry. -/
theorem npGet_neg_one {α : Type} {l : List α} {n : Nat} (h : l.length = n) (hn : 0 < n) :
    npGet l (-1) = npGet l ((n - 1 : Nat) : Int) := by
  unfold npGet
  have h0 : ¬ ((n - 1 : Nat) : Int) < 0 := by omega
  have h1 : (-1 : Int) < 0 := by omega
  simp only [h0, h1, if_true, if_false]
  have : (-1 : Int) + (l.length : Int) = ((n - 1 : Nat) : Int) := by rw [h]; omega
  rw [this, if_neg h0]

/-- What the code understands by a body that the model does not have. -/
def lastFor (m : MjModel K) (c : CollisionBody) : CollisionBody :=
  match c with
  | .id i => if i = -1 then .id ((m.nbody - 1 : Nat) : Int) else .id i
  | .name s => if s ∈ m.bodyNames then .name s else .id ((m.nbody - 1 : Nat) : Int)
  | .other => .other

theorem name2id_unknown {m : MjModel K} {s : String} (h : s ∉ m.bodyNames) : m.name2id .body s = -1 := by
  unfold MjModel.name2id
  have : (m.names .body).findIdx? (· == s) = none := by
    rw [List.findIdx?_eq_none_iff]
    intro x hx
    simp only [beq_eq_false_iff_ne]
    rintro rfl
    exact h hx
  rw [this]

theorem name2id_known {m : MjModel K} {s : String} (h : s ∈ m.bodyNames) : m.name2id .body s ≠ -1 := by
  unfold MjModel.name2id
  cases hf : (m.names .body).findIdx? (· == s) with
  | none =>
    rw [List.findIdx?_eq_none_iff] at hf
    have := hf s h
    simp at this
  | some i => simp only; omega

theorem body2id_last (m : MjModel K) (c : CollisionBody) :
    body2id m (lastFor m c) = (body2id m c).map (fun i => if i = -1 then ((m.nbody - 1 : Nat) : Int) else i) := by
  cases c with
  | id i =>
    simp only [lastFor]
    split
    · rename_i h; simp only [body2id, Except.map, h, if_true]
    · rename_i h; simp only [body2id, Except.map, h, if_false]
  | name s =>
    simp only [lastFor]
    split
    · rename_i h
      simp only [body2id, Except.map, name2id_known h, if_false]
    · rename_i h
      simp only [body2id, Except.map, name2id_unknown h, if_true]
  | other => rfl

/-- Helper: the filter treats -1 as the last body. -/
theorem addBodyPair_last {m : MjModel K} (hw : CollisionWF m) (hn : 0 < m.nbody) (acc : List (Int × Int))
    (c1 c2 : CollisionBody) :
    addBodyPair m [] acc (c1, c2) = addBodyPair m [] acc (lastFor m c1, lastFor m c2) := by
  set L : Int := ((m.nbody - 1 : Nat) : Int) with hL
  have g1 : ∀ i, npGet m.bodyWeldid (if i = -1 then L else i) = npGet m.bodyWeldid i := by
    intro i; split
    · rename_i h; rw [h, npGet_neg_one hw.weldLen hn]
    · rfl
  have g2 : ∀ i, npGet m.bodyGeomadr (if i = -1 then L else i) = npGet m.bodyGeomadr i := by
    intro i; split
    · rename_i h; rw [h, npGet_neg_one hw.adrLen hn]
    · rfl
  have g3 : ∀ i, npGet m.bodyGeomnum (if i = -1 then L else i) = npGet m.bodyGeomnum i := by
    intro i; split
    · rename_i h; rw [h, npGet_neg_one hw.numLen hn]
    · rfl
  have hself : validateBodyPair m L L = .ok false := by
    rw [hL, validateBodyPair_ok hw (by omega) (by omega)]
    simp
  have hv : ∀ i k, validateBodyPair m (if i = -1 then L else i) (if k = -1 then L else k) = validateBodyPair m i k := by
    intro i k
    unfold validateBodyPair
    rw [g1, g1]
  unfold addBodyPair
  rw [body2id_last, body2id_last, ← hL]
  cases body2id m c1 with
  | error e => rfl
  | ok i =>
    cases body2id m c2 with
    | error e => rfl
    | ok k =>
      simp only [Except.map, bind, Except.bind, List.not_mem_nil, if_false, hv, g2, g3]
      by_cases hik : i = k
      · subst hik; simp
      · rw [if_neg hik]
        by_cases hik' : (if i = -1 then L else i) = (if k = -1 then L else k)
        · rw [if_pos hik', ← hv, hik']
          have hLL : (if k = -1 then L else k) = L := by
            by_cases hk1 : k = -1
            · rw [if_pos hk1]
            · rw [if_neg hk1] at hik' ⊢
              by_cases hi1 : i = -1
              · rw [if_pos hi1] at hik'; exact hik'.symm
              · rw [if_neg hi1] at hik'; exact absurd hik' hik
          rw [hLL, hself]
          rfl
        · rw [if_neg hik']

theorem pairsOf_map {α β : Type} (f : α → β) (l : List α) : pairsOf (l.map f) = (pairsOf l).map (fun p => (f p.1, f p.2)) := by
  induction l with
  | nil => rfl
  | cons a l ih => simp [pairsOf, ih, List.map_map, Function.comp_def]

/-- **C56 is false**: without exclusions, naming a body that the model does not have (or the number -1) has exactly the
effect of naming the model's last body, for every model and every list of bodies. -/
theorem C56_unknown_is_last {m : MjModel K} (hw : CollisionWF m) (hn : 0 < m.nbody) (bodies : List CollisionBody) :
    generatePairs m bodies [] = generatePairs m (bodies.map (lastFor m)) [] := by
  unfold generatePairs
  rw [pairsOf_map]
  generalize pairsOf bodies = l
  have : ∀ acc, l.foldlM (addBodyPair m []) acc =
      (l.map (fun p => (lastFor m p.1, lastFor m p.2))).foldlM (addBodyPair m []) acc := by
    induction l with
    | nil => intro acc; rfl
    | cons p l ih =>
      intro acc
      rw [List.map_cons, List.foldlM_cons, List.foldlM_cons, ← addBodyPair_last hw hn]
      simp only [ih]
  exact this []

variable [Field K] [LinearOrder K]

/-- **C56 is false** (at the barrier): a barrier that lists a name unknown to the model, followed by known bodies, is
accepted; it watches the geom pairs of the known bodies *and the last body of the model*. -/
theorem C56_unknown_accepted {m : MjModel K} (hw : CollisionWF m) (hn : 0 < m.nbody) {c : Comp K} {s d : K}
    {x : String} (hx : x ∉ m.bodyNames) {b : List CollisionBody} {n : Int} {p : Option (List (Int × Int))}
    (hk : c.attrs.kind = .selfCollision s d (.name x :: b) [] n p) {ids : List Nat} (hb : AllNamed m b ids) :
    ∃ c' ps n', updateModel m c = (.ok (), c') ∧ c'.attrs.kind = .selfCollision s d (.name x :: b) [] n' (some ps) ∧
      ps.Nodup ∧ ∀ g, g ∈ ps ↔ Admissible m ((m.nbody - 1) :: ids) [] g := by
  have hb' : AllNamed m ((.name x :: b : List CollisionBody).map (lastFor m)) ((m.nbody - 1) :: ids) := by
    rw [List.map_cons]
    refine .cons ?_ ?_
    · simp only [lastFor, if_neg hx]
      exact ⟨by omega, rfl⟩
    · have : b.map (lastFor m) = b := by
        conv_rhs => rw [← List.map_id b]
        apply List.map_congr_left
        intro y hy
        obtain ⟨i, _, hi⟩ := forall₂_left hb hy
        cases y with
        | id k =>
          have : k = i := hi.2
          simp only [lastFor, id]
          rw [if_neg (by omega)]
        | name t =>
          have : t ∈ m.bodyNames := List.mem_of_getElem? hi.2.1
          simp only [lastFor, if_pos this, id]
        | other => rfl
      rw [this]
      exact hb
  obtain ⟨ps, h1, h2, h3⟩ := generatePairs_ok hw (exIds := []) (ex := []) (by simp) hb'
  rw [← C56_unknown_is_last hw hn] at h1
  have hu : updateModel m c = updateModelSelfCollision m s d (.name x :: b) [] n p c := by
    unfold updateModel
    rw [hk]
  rw [hu]
  unfold updateModelSelfCollision
  have he : excludeSet m [] = .ok [] := rfl
  dsimp only
  rw [he, if_neg (by simp)]
  dsimp only
  rw [h1]
  exact ⟨_, ps, _, rfl, rfl, h2, h3⟩

/-- **C56, partial**: what is refused.  In a list of two bodies, an object that is neither a number nor a name is a
`ValueError`, and a number outside `[-nbody, nbody)` is an `IndexError`; the previous pairs are kept.  Missing: unknown
names and negative numbers, which are accepted (above). -/
theorem C56_refused_partial {m : MjModel K} (hw : CollisionWF m) {c : Comp K} {s d : K} {x y : CollisionBody} {n : Int}
    {p : Option (List (Int × Int))} (hk : c.attrs.kind = .selfCollision s d [x, y] [] n p) :
    (x = .other ∨ y = .other → (updateModel m c).1 = .error .valueError) ∧
    (∀ i k : Int, x = .id i → y = .id k → i ≠ k → (i < -m.nbody ∨ (m.nbody : Int) ≤ i) →
      (updateModel m c).1 = .error .indexError) := by
  have hu : updateModel m c = updateModelSelfCollision m s d [x, y] [] n p c := by
    unfold updateModel
    rw [hk]
  have he : excludeSet m [] = .ok [] := rfl
  have hgen : generatePairs m [x, y] [] = (addBodyPair m [] [] (x, y)) := by
    show ((addBodyPair m [] [] (x, y)) >>= pure) = _
    cases addBodyPair m [] [] (x, y) <;> rfl
  have key : ∀ e, addBodyPair m [] [] (x, y) = .error e → (updateModel m c).1 = .error e := by
    intro e h
    rw [hu]
    unfold updateModelSelfCollision
    dsimp only
    rw [he, if_neg (by simp)]
    dsimp only
    rw [hgen, h]
  constructor
  · intro h
    apply key
    unfold addBodyPair
    rcases h with h | h
    · rw [h]; rfl
    · rw [h]
      cases x <;> rfl
  · intro i k hx hy hne hi
    apply key
    unfold addBodyPair
    rw [hx, hy]
    simp only [body2id, bind, Except.bind, if_neg hne, List.not_mem_nil, if_false]
    have : npGet m.bodyWeldid i = .error .indexError := by
      unfold npGet
      rw [hw.weldLen]
      rcases hi with hi | hi
      · have h1 : i < 0 := by omega
        have h2 : i + (m.nbody : Int) < 0 := by omega
        simp only [h1, h2, if_true]
      · have h1 : ¬ i < 0 := by omega
        have h2 : m.bodyWeldid[i.toNat]? = none := by
          rw [List.getElem?_eq_none_iff, hw.weldLen]; omega
        simp only [h1, if_false, h2]
    unfold validateBodyPair
    rw [this]
    rfl

end

/-! ### Concrete cases -/

namespace SCEx

theorem geoms : GeomsWF Ex.model := ⟨rfl, rfl, rfl⟩

/-- The three pairs of the chain, and one that is out of order (a capsule and a sphere). -/
def pairs : List (Int × Int) := [(0, 2), (0, 3), (1, 3), (1, 2)]

theorem inRange : ∀ g ∈ pairs, InRange Ex.model g := by
  intro g hg
  have : ∀ g ∈ pairs, (0 ≤ g.1 ∧ g.1 < (4 : Int)) ∧ (0 ≤ g.2 ∧ g.2 < (4 : Int)) := by decide
  exact this g hg

/-- Types 2, 3, 2, 6: the last pair is flipped. -/
example : orient Ex.model (1, 2) = (2, 1) ∧ orient Ex.model (0, 3) = (0, 3) := by decide

def comp (n : Nat) : JaxComp ℚ :=
  { model := Ex.model, vectorGain := Ex.scalar 1, gainFn := id, dim := n, maskIdxs := List.range n,
    kind := .selfCollision 1 (Arr.onesMul n (Arr.scalar 3)) pairs n }

/-- In the example simulator the distance of a pair is the sum of the geom numbers: 2, 3, 4, 3. -/
example : (comp 2).kind = .selfCollision 1 (Arr.onesMul 2 (Arr.scalar 3)) pairs ((2 : Nat) : Int) ∧
    2 ≤ (allContacts (Ex.env.collide (comp 2).model (Ex.data Ex.model ⟨13, fun _ => 0⟩)) (comp 2).model pairs).length ∧
    (allContacts (Ex.env.collide (comp 2).model (Ex.data Ex.model ⟨13, fun _ => 0⟩)) (comp 2).model pairs).length < 5 :=
  ⟨rfl, by decide, by decide⟩

example : (allContacts (Ex.env.collide Ex.model (Ex.data Ex.model ⟨13, fun _ => 0⟩)) Ex.model pairs).map
    (fun c => c.val.dist) = [((0 : Int) : ℚ) + ((2 : Int) : ℚ), ((0 : Int) : ℚ) + ((3 : Int) : ℚ),
      ((1 : Int) : ℚ) + ((3 : Int) : ℚ), ((2 : Int) : ℚ) + ((1 : Int) : ℚ)] := rfl

/-- A barrier compiled through the public interface has the shape assumed in C54: three pairs, minimal distance 3. -/
example : ∃ c : Comp ℚ, ∃ j, newSelfCollision Ex.barrierArgs 3 [] [] (-1) = .ok c ∧
    (jaxComponent (updateModel Ex.model c).2).1 = .ok j ∧
    j.kind = .selfCollision 1 (Arr.onesMul 3 (Arr.scalar 3)) [(0, 2), (0, 3), (1, 3)] ((3 : Nat) : Int) := ⟨_, _, rfl, rfl, rfl⟩

/-! A planar robot with two sliding bodies on the x axis: body 1 carries a capsule (geom 0, type 3) at `q 0`, body 2 a
sphere (geom 1, type 2) at `q 1 < q 0`. -/

def model : MjModel ℚ :=
  { Ex.model with
    nq := 2, nv := 2, nbody := 3
    jntType := [.slide, .slide], jntQposadr := [0, 1], jntDofadr := [0, 1], jntRange := [(0, 0), (0, 0)]
    bodyParentid := [0, 0, 0], bodyWeldid := [0, 1, 2], bodyRootid := [0, 1, 2]
    bodyGeomadr := [-1, 0, 1], bodyGeomnum := [0, 1, 1], bodyMass := [0, 1, 1], dofBodyid := [1, 2]
    geomType := [3, 2], geomDataid := [-1, -1], geomPriority := [0, 0], geomCondim := [3, 3]
    geomContype := [1, 1], geomConaffinity := [1, 1], geomBodyid := [1, 2], siteBodyid := []
    eqType := [], bodyNames := ["world", "left", "right"], geomNames := ["g1", "g2"], siteNames := [] }

def data (q : Vec ℚ) : MjData ℚ :=
  { Ex.data model q with
    xpos := [0, ![q.get 0, 0, 0], ![q.get 1, 0, 0]]
    cdof := [(0, ![1, 0, 0]), (0, ![1, 0, 0])] }

/-- The simulator reports the distance `x₂ - x₁` from the first to the second geom, with the normal along x. -/
def geomX (q : Vec ℚ) (g : Int) : ℚ := if g = 0 then q.get 0 else q.get 1

def env : Env ℚ :=
  { Ex.env with
    kinematics := fun _ q => data q
    collide := fun _ d => { known := fun _ _ => true, ncon := fun _ _ => 1,
                            contact := fun _ g _ => ⟨geomX d.qpos g.2 - geomX d.qpos g.1, 0, ![1, 0, 0]⟩ } }

def one : JaxComp ℚ :=
  { model := model, vectorGain := Ex.scalar 1, gainFn := id, dim := 1, maskIdxs := [0],
    kind := .selfCollision 1 (Arr.onesMul 1 (Arr.scalar 0)) [(0, 1)] 1 }

/-- This component is the one the barrier on this model compiles to. -/
example : ∃ c : Comp ℚ, ∃ j, newSelfCollision Ex.barrierArgs 0 [] [] (-1) = .ok c ∧
    (jaxComponent (updateModel model c).2).1 = .ok j ∧ j.model = model ∧
    j.kind = .selfCollision 1 (Arr.onesMul 1 (Arr.scalar 0)) [(0, 1)] 1 := ⟨_, _, rfl, rfl, rfl, rfl⟩

theorem contacts (q : Vec ℚ) : computeCollisionPairs (env.collide one.model (data q)) one.model [(0, 1)] =
    .ok [⟨(1, 0), ⟨q.get 0 - q.get 1, 0, ![1, 0, 0]⟩⟩] := by
  obtain ⟨cs, h1, h2⟩ := computeCollisionPairs_ok (env.collide one.model (data q)) (m := one.model) ⟨rfl, rfl, rfl⟩
    (pairs := [(0, 1)]) (by
      intro g hg
      rw [List.mem_singleton] at hg
      subst hg
      exact ⟨⟨by decide, by decide⟩, by decide, by decide⟩) (fun _ _ => rfl)
  have hall : allContacts (env.collide one.model (data q)) one.model [(0, 1)] =
    [⟨(1, 0), ⟨q.get 0 - q.get 1, 0, ![1, 0, 0]⟩⟩] := rfl
  rw [hall, List.perm_singleton] at h2
  rw [h1, h2]

theorem value (q : Vec ℚ) : ∃ v, evalValue env one (data q) = .ok v ∧ v.len = 1 ∧ v.get 0 = q.get 0 - q.get 1 := by
  obtain ⟨v, v1, v2, v3⟩ := selfCollision_value env (j := one) (d := data q) (s := 1) (dMin := 0) (n := 1) rfl
    (contacts q) (le_refl 1)
  refine ⟨v, v1, v2, ?_⟩
  rw [v3 0 (by decide)]
  simp [ascOrder]

theorem jacobian (q : Vec ℚ) : ∃ J, evalJacobian env one (data q) = .ok J ∧ J.get 0 0 = -1 ∧ J.get 0 1 = 1 := by
  have hcl : ∀ x : ℚ, closest [x] 1 = .ok [0] := by
    intro x
    simp [closest, ascOrder]
  have hj : evalJacobian env one (data q) = selfCollisionJacobian env one.model (data q) [(0, 1)] 1 := rfl
  have hb : [((0 : Int), (1 : Int))].mapM (pairBodies one.model) = .ok [(1, 2)] := rfl
  have e : ∃ J, selfCollisionJacobian env one.model (data q) [(0, 1)] 1 = .ok J ∧
      ∀ k, J.get 0 k = normalRow ![1, 0, 0]
        (((data q).cdof.zip (dofMask model 1)).map (fun x => maskRow x.2
          (pointVel ((0 - ((q.get 0 - q.get 1) / 2) • ![1, 0, 0]) - 0) x.1, x.1.1)))
        (((data q).cdof.zip (dofMask model 2)).map (fun x => maskRow x.2
          (pointVel ((0 + ((q.get 0 - q.get 1) / 2) • ![1, 0, 0]) - 0) x.1, x.1.1))) k := by
    unfold selfCollisionJacobian
    simp only [bind, Except.bind, contacts, List.map_cons, List.map_nil, hcl, hb]
    exact ⟨_, rfl, fun k => rfl⟩
  obtain ⟨J, h1, h2⟩ := e
  refine ⟨J, hj.trans h1, ?_, ?_⟩
  · rw [h2]
    have d1 : dofMask model 1 = [true, false] := rfl
    have d2 : dofMask model 2 = [false, true] := rfl
    rw [d1, d2]
    simp [normalRow, data, Fin.sum_univ_three, maskRow, pointVel]
  · rw [h2]
    have d1 : dofMask model 1 = [true, false] := rfl
    have d2 : dofMask model 2 = [false, true] := rfl
    rw [d1, d2]
    simp [normalRow, data, Fin.sum_univ_three, maskRow, pointVel]

end SCEx

/-- **C55 is false, with the wrong sign**: a robot with two sliding bodies that carry a capsule and a sphere, watched by
the barrier that mjinx builds for it.  The reported value is `q 0 - q 1` at every configuration, so its derivative is
`(1, -1)`; the Jacobian is `(-1, 1)` at every configuration. -/
theorem C55_sign_wrong (q : Vec ℚ) :
    (∃ v, evalValue SCEx.env SCEx.one (SCEx.data q) = .ok v ∧ v.len = 1 ∧ v.get 0 = q.get 0 - q.get 1) ∧
    ∃ J, evalJacobian SCEx.env SCEx.one (SCEx.data q) = .ok J ∧ J.get 0 0 = -1 ∧ J.get 0 1 = 1 :=
  ⟨SCEx.value q, SCEx.jacobian q⟩

namespace SCEx

/-- The hypotheses of `C55_flipped_pair` hold for this robot. -/
example : one.kind = .selfCollision 1 (Arr.onesMul 1 (Arr.scalar 0)) [(0, 1)] 1 ∧ GeomsWF one.model ∧
    geomTypeOf one.model 1 < geomTypeOf one.model 0 ∧ one.model.geomBodyid.length = one.model.geomType.length ∧
    (∀ q, HasFunction (env.collide one.model (data q)) one.model (0, 1)) ∧ InRange one.model (0, 1) :=
  ⟨rfl, ⟨rfl, rfl, rfl⟩, by decide, rfl, fun _ => rfl, ⟨by decide, by decide⟩, by decide, by decide⟩

/-- The hypotheses of `C55_uniform_partial` hold if both geoms are spheres, here with the capsule replaced. -/
def model' : MjModel ℚ := { model with geomType := [2, 2] }
def one' : JaxComp ℚ := { one with model := model' }
example : Uniform (env.collide model' (data ⟨2, fun _ => 0⟩)) model' [(0, 1)] ∧ GeomsWF model' ∧
    (∀ g ∈ [((0 : Int), (1 : Int))], InRange model' g) := by
  refine ⟨⟨?_, ?_, fun _ _ => rfl, ?_⟩, ⟨rfl, rfl, rfl⟩, ?_⟩
  · intro g hg; rw [List.mem_singleton] at hg; subst hg; decide
  · intro g hg g' hg'; rw [List.mem_singleton] at hg hg'; rw [hg, hg']
  · intro g hg; rfl
  · intro g hg; rw [List.mem_singleton] at hg; subst hg
    exact ⟨⟨by decide, by decide⟩, by decide, by decide⟩

/-- C56: a misspelt body, through the constructor: it is taken for body 4, the last one. -/
example : "hand" ∉ Ex.model.bodyNames ∧ ∃ c : Comp ℚ,
    newSelfCollision Ex.barrierArgs 0 [.name "hand", .name "b1"] [] (-1) = .ok c ∧
    (updateModel Ex.model c).1 = .ok () ∧
    (updateModel Ex.model c).2.attrs.kind = .selfCollision 1 0 [.name "hand", .name "b1"] [] 1 (some [(0, 3)]) :=
  ⟨by decide, _, rfl, rfl, rfl⟩

example : ∃ c : Comp ℚ, newSelfCollision Ex.barrierArgs 0 [.id 7, .id 1] [] (-1) = .ok c ∧
    c.attrs.kind = .selfCollision 1 0 [.id 7, .id 1] [] (-1) none ∧ (Ex.model.nbody : Int) ≤ 7 := ⟨_, rfl, rfl, by decide⟩

end SCEx

end Mjinx.Props
