import Verif.Props.SelfCollision

/-!
# Distances pair by pair (C106)
-/

namespace Mjinx.Props
open Spec
set_option linter.unusedSectionVars false

variable {K : Type} [Field K] [LinearOrder K]

/-- The pairs `get_distance` can handle: geoms of the model, no height field first, types the simulator can collide with at
least one contact. -/
structure Measurable (f : CollisionFuncs (ContactVal K)) (m : MjModel K) (g : Int × Int) : Prop where
  inRange : InRange m g
  noField : geomTypeOf m (orient m g).1 ≠ 1
  function : HasFunction f m g
  contacts : 1 ≤ (pairContacts f m (orient m g)).length

/-- Helper: what one pair returns. -/
theorem pairDistance_ok {f : CollisionFuncs (ContactVal K)} {m : MjModel K} (hw : GeomsWF m) {g : Int × Int}
    (hg : Measurable f m g) : ∃ x, pairDistance f m g = .ok (x, (pairContacts f m (orient m g)).map (fun c => c.val.pos),
      (pairContacts f m (orient m g)).map (fun c => c.val.normal)) ∧
      (∃ c ∈ pairContacts f m (orient m g), c.val.dist = x) ∧ ∀ c ∈ pairContacts f m (orient m g), x ≤ c.val.dist := by
  have hc : ((List.range (f.ncon (keyOf m (orient m g)).type1 (keyOf m (orient m g)).type2)).map
      (f.contact (keyOf m (orient m g)) (orient m g))) = (pairContacts f m (orient m g)).map (fun c => c.val) := by
    unfold pairContacts
    rw [List.map_map]
    rfl
  have hne : (pairContacts f m (orient m g)).map (fun c => c.val.dist) ≠ [] := by
    intro h
    have := hg.contacts
    rw [← List.length_map (f := fun c => c.val.dist), h] at this
    simp at this
  obtain ⟨x, hx⟩ := Option.ne_none_iff_exists'.1 (mt List.min?_eq_none_iff.1 hne)
  have hx' := (List.min?_eq_some_iff).1 hx
  refine ⟨x, ?_, ?_, ?_⟩
  · have h1 : (keyOf m (orient m g)).type1 ≠ 1 := hg.noField
    have h2 : f.known (keyOf m (orient m g)).type1 (keyOf m (orient m g)).type2 = true := hg.function
    unfold pairDistance
    rw [pairKey_ok hw hg.inRange]
    simp only [bind, Except.bind, h1, h2, Bool.not_true, Bool.false_eq_true, if_false, hc, List.map_map]
    have e : (List.map ((fun c : ContactVal K => c.dist) ∘ fun c : Contact (ContactVal K) => c.val) (pairContacts f m (orient m g))).min? = some x := hx
    simp only [pure, Except.pure]
    rw [e]
    rfl
  · obtain ⟨c, hc1, hc2⟩ := List.mem_map.1 hx'.1
    exact ⟨c, hc1, hc2⟩
  · intro c hc1
    exact hx'.2 _ (List.mem_map_of_mem (f := fun c => c.val.dist) hc1)

/-- Helper: all of the list. -/
theorem getDistance_spec (env : Env K) {m : MjModel K} (hw : GeomsWF m) (d : MjData K) {pairs : List (Int × Int)}
    (hp : ∀ g ∈ pairs, Measurable (env.collide m d) m g) (hne : pairs ≠ []) :
    ∃ ds, getDistance env m d pairs = .ok (ds, (allContacts (env.collide m d) m pairs).map (fun c => c.val.pos),
        (allContacts (env.collide m d) m pairs).map (fun c => c.val.normal)) ∧
      List.Forall₂ (fun g x => (∃ c ∈ pairContacts (env.collide m d) m (orient m g), c.val.dist = x) ∧
        ∀ c ∈ pairContacts (env.collide m d) m (orient m g), x ≤ c.val.dist) pairs ds := by
  have key : ∃ rs, pairs.mapM (pairDistance (env.collide m d) m) = .ok rs ∧ rs.length = pairs.length ∧
      rs.flatMap (fun r => r.2.1) = (allContacts (env.collide m d) m pairs).map (fun c => c.val.pos) ∧
      rs.flatMap (fun r => r.2.2) = (allContacts (env.collide m d) m pairs).map (fun c => c.val.normal) ∧
      List.Forall₂ (fun g x => (∃ c ∈ pairContacts (env.collide m d) m (orient m g), c.val.dist = x) ∧
        ∀ c ∈ pairContacts (env.collide m d) m (orient m g), x ≤ c.val.dist) pairs (rs.map (fun r => r.1)) := by
    clear hne
    induction pairs with
    | nil => exact ⟨[], rfl, rfl, rfl, rfl, .nil⟩
    | cons g gs ih =>
      obtain ⟨rs, h1, h2, h3, h4, h5⟩ := ih (fun x hx => hp x (by simp [hx]))
      obtain ⟨x, x1, x2, x3⟩ := pairDistance_ok hw (hp g (by simp))
      refine ⟨(x, (pairContacts (env.collide m d) m (orient m g)).map (fun c => c.val.pos),
        (pairContacts (env.collide m d) m (orient m g)).map (fun c => c.val.normal)) :: rs, ?_, by simp [h2], ?_, ?_,
        .cons ⟨x2, x3⟩ h5⟩
      · rw [List.mapM_cons, h1, x1]; rfl
      · rw [List.flatMap_cons, h3]; simp only [allContacts, List.flatMap_cons, List.map_append]
      · rw [List.flatMap_cons, h4]; simp only [allContacts, List.flatMap_cons, List.map_append]
  obtain ⟨rs, h1, h2, h3, h4, h5⟩ := key
  refine ⟨_, ?_, h5⟩
  have hemp : rs.isEmpty = false := by
    cases rs with
    | nil => exact absurd (List.length_eq_zero_iff.1 h2.symm) hne
    | cons _ _ => rfl
  unfold getDistance
  simp only [bind, Except.bind, h1, hemp, Bool.false_eq_true, if_false, pure, Except.pure, h3, h4]

/-- **C106** (distances): `get_distance` returns one distance per pair, in the order of the pairs whatever their types: the
smallest distance over the contacts the simulator reports for that pair. -/
theorem C106_distances (env : Env K) {m : MjModel K} (hw : GeomsWF m) (d : MjData K) {pairs : List (Int × Int)}
    (hp : ∀ g ∈ pairs, Measurable (env.collide m d) m g) (hne : pairs ≠ []) :
    ∃ ds ps ns, getDistance env m d pairs = .ok (ds, ps, ns) ∧ ds.length = pairs.length ∧
      ∀ (i : Nat) (g : Int × Int), pairs[i]? = some g → ∃ x, ds[i]? = some x ∧
        (∃ c ∈ pairContacts (env.collide m d) m (orient m g), c.val.dist = x) ∧
        ∀ c ∈ pairContacts (env.collide m d) m (orient m g), x ≤ c.val.dist := by
  obtain ⟨ds, h1, h2⟩ := getDistance_spec env hw d hp hne
  refine ⟨ds, _, _, h1, h2.length_eq.symm, ?_⟩
  intro i g hi
  obtain ⟨hl, hi⟩ := List.getElem?_eq_some_iff.1 hi
  have hl' : i < ds.length := by rw [← h2.length_eq]; exact hl
  have := h2.get (i := i) hl hl'
  simp only [List.get_eq_getElem] at this
  rw [hi] at this
  exact ⟨ds[i], List.getElem?_eq_getElem hl', this⟩

/-- **C106** (agreement): the smallest of these distances is what the first value of a self-collision barrier that watches
the same pairs is computed from. -/
theorem C106_smallest [IsStrictOrderedRing K] (env : Env K) {j : JaxComp K} {d : MjData K} {s dMin : K}
    {pairs : List (Int × Int)} {n : Nat} (hk : j.kind = .selfCollision s (Arr.onesMul n (Arr.scalar dMin)) pairs n)
    (hw : GeomsWF j.model) (hp : ∀ g ∈ pairs, Measurable (env.collide j.model d) j.model g) (hne : pairs ≠ [])
    (hn : n ≤ (allContacts (env.collide j.model d) j.model pairs).length) (hn1 : 1 ≤ n) :
    ∃ ds ps ns v, getDistance env j.model d pairs = .ok (ds, ps, ns) ∧ evalValue env j d = .ok v ∧
      ∃ x ∈ ds, v.get 0 = x - dMin ∧ ∀ y ∈ ds, x ≤ y := by
  obtain ⟨ds, h1, h2⟩ := getDistance_spec env hw d hp hne
  obtain ⟨v, l, v1, v2, v3, v4, v5⟩ := C54_values env hk hw (fun g hg => (hp g hg).inRange) (fun g hg => (hp g hg).function) hn
  refine ⟨ds, _, _, v, h1, v1, ?_⟩
  have hll : 0 < l.length := by rw [v3.length_eq, List.length_map]; omega
  have h0 : l.getD 0 0 = l[0] := List.getD_eq_getElem _ _ hll
  have hmin : ∀ y ∈ l, l[0] ≤ y := by
    intro y hy
    obtain ⟨i, hi, rfl⟩ := List.mem_iff_getElem.1 hy
    rcases Nat.eq_zero_or_pos i with rfl | hpos
    · exact le_refl _
    · exact List.pairwise_iff_getElem.1 v4 0 i hll hi hpos
  have hcon : ∀ y, y ∈ l ↔ ∃ g ∈ pairs, ∃ c ∈ pairContacts (env.collide j.model d) j.model (orient j.model g), c.val.dist = y := by
    intro y
    rw [v3.mem_iff, List.mem_map]
    constructor
    · rintro ⟨c, hc, rfl⟩
      obtain ⟨g, hg, hc⟩ := List.mem_flatMap.1 hc
      exact ⟨g, hg, c, hc, rfl⟩
    · rintro ⟨g, hg, c, hc, rfl⟩
      exact ⟨c, List.mem_flatMap.2 ⟨g, hg, hc⟩, rfl⟩
  have hds : ∀ y ∈ ds, y ∈ l := by
    intro y hy
    obtain ⟨i, hi, rfl⟩ := List.mem_iff_getElem.1 hy
    have hl' : i < pairs.length := by rw [h2.length_eq]; exact hi
    have := h2.get (i := i) hl' hi
    simp only [List.get_eq_getElem] at this
    exact (hcon _).2 ⟨pairs[i], List.getElem_mem _, this.1⟩
  have hmem : l[0] ∈ ds := by
    obtain ⟨g, hg, c, hc, he⟩ := (hcon _).1 (List.getElem_mem hll)
    obtain ⟨i, hi, rfl⟩ := List.mem_iff_getElem.1 hg
    have hl' : i < ds.length := by rw [← h2.length_eq]; exact hi
    have h := h2.get (i := i) hi hl'
    simp only [List.get_eq_getElem] at h
    have e : ds[i] = l[0] := le_antisymm (by rw [← he]; exact h.2 c hc) (hmin _ (hds _ (List.getElem_mem hl')))
    rw [← e]
    exact List.getElem_mem hl'
  exact ⟨l[0], hmem, by rw [v5 0 (by omega), h0], fun y hy => hmin y (hds y hy)⟩

/-- **C106, partial** (points and normals): if every pair has a single contact, the point and the normal at position `i`
are those of pair `i`.  Missing: pairs with several contacts, where it is false (below). -/
theorem C106_points_partial (env : Env K) {m : MjModel K} (hw : GeomsWF m) (d : MjData K) {pairs : List (Int × Int)}
    (hp : ∀ g ∈ pairs, Measurable (env.collide m d) m g) (hne : pairs ≠ [])
    (hone : ∀ g ∈ pairs, (pairContacts (env.collide m d) m (orient m g)).length = 1) :
    ∃ ds ps ns, getDistance env m d pairs = .ok (ds, ps, ns) ∧ ps.length = pairs.length ∧ ns.length = pairs.length ∧
      ∀ (i : Nat) (g : Int × Int), pairs[i]? = some g → ∃ c, pairContacts (env.collide m d) m (orient m g) = [c] ∧ ds[i]? = some c.val.dist ∧
        ps[i]? = some c.val.pos ∧ ns[i]? = some c.val.normal := by
  obtain ⟨ds, h1, h2⟩ := getDistance_spec env hw d hp hne
  have key : ∃ cs : List (Contact (ContactVal K)), allContacts (env.collide m d) m pairs = cs ∧
      List.Forall₂ (fun g c => pairContacts (env.collide m d) m (orient m g) = [c]) pairs cs := by
    clear h1 h2 hne hp
    induction pairs with
    | nil => exact ⟨[], rfl, .nil⟩
    | cons g gs ih =>
      obtain ⟨cs, e, h⟩ := ih (fun x hx => hone x (by simp [hx]))
      obtain ⟨c, hc⟩ := List.length_eq_one_iff.1 (hone g (by simp))
      exact ⟨c :: cs, by rw [← e, allContacts, List.flatMap_cons, hc]; rfl, .cons hc h⟩
  obtain ⟨cs, e, hcs⟩ := key
  rw [e] at h1
  refine ⟨ds, _, _, h1, by rw [List.length_map, hcs.length_eq], by rw [List.length_map, hcs.length_eq], ?_⟩
  intro i g hi
  obtain ⟨hl, hi⟩ := List.getElem?_eq_some_iff.1 hi
  have hl1 : i < ds.length := by rw [← h2.length_eq]; exact hl
  have hl2 : i < cs.length := by rw [← hcs.length_eq]; exact hl
  have a := h2.get (i := i) hl hl1
  have b := hcs.get (i := i) hl hl2
  simp only [List.get_eq_getElem] at a b
  rw [hi] at a b
  refine ⟨cs[i], b, ?_, by rw [List.getElem?_map, List.getElem?_eq_getElem hl2]; rfl,
    by rw [List.getElem?_map, List.getElem?_eq_getElem hl2]; rfl⟩
  obtain ⟨⟨c, c1, c2⟩, -⟩ := a
  rw [b, List.mem_singleton] at c1
  rw [List.getElem?_eq_getElem hl1, ← c2, c1]

/-- **C106 fails for points and normals**: they are stacked contact by contact, while distances are listed pair by pair.  With
several contacts per pair the arrays have different lengths, and entry `i` of one does not belong to entry `i` of the
other. -/
theorem C106_points_per_contact (env : Env K) {m : MjModel K} (hw : GeomsWF m) (d : MjData K) {pairs : List (Int × Int)}
    (hp : ∀ g ∈ pairs, Measurable (env.collide m d) m g) (hne : pairs ≠ []) :
    ∃ ds ps ns, getDistance env m d pairs = .ok (ds, ps, ns) ∧ ds.length = pairs.length ∧
      ps = (allContacts (env.collide m d) m pairs).map (fun c => c.val.pos) ∧
      ns = (allContacts (env.collide m d) m pairs).map (fun c => c.val.normal) := by
  obtain ⟨ds, h1, h2⟩ := getDistance_spec env hw d hp hne
  exact ⟨ds, _, _, h1, h2.length_eq.symm, rfl, rfl⟩

/-- Helper: the first error of a `mapM`. -/
theorem mapM_error {α β : Type} {f : α → Except Err β} {xs ys : List α} {x : α} {e : Err}
    (h : ∀ y ∈ xs, ∃ z, f y = .ok z) (hx : f x = .error e) : (xs ++ x :: ys).mapM f = .error e := by
  induction xs with
  | nil => rw [List.nil_append, List.mapM_cons, hx]; rfl
  | cons a as ih =>
    obtain ⟨z, hz⟩ := h a (by simp)
    rw [List.cons_append, List.mapM_cons, hz, ih (fun y hy => h y (by simp [hy]))]
    rfl

/-- **C106** (refusals): no pairs at all is a `ValueError`; the first pair it cannot handle decides otherwise: a pair with a
height field first is a `NotImplementedError`, one the simulator has no function for a `KeyError`. -/
theorem C106_refused (env : Env K) {m : MjModel K} (hw : GeomsWF m) (d : MjData K) :
    getDistance env m d [] = .error .valueError ∧
    ∀ (good rest : List (Int × Int)) (g : Int × Int), (∀ g ∈ good, Measurable (env.collide m d) m g) → InRange m g →
      (geomTypeOf m (orient m g).1 = 1 → getDistance env m d (good ++ g :: rest) = .error .notImplementedError) ∧
      (geomTypeOf m (orient m g).1 ≠ 1 → ¬ HasFunction (env.collide m d) m g →
        getDistance env m d (good ++ g :: rest) = .error .keyError) := by
  refine ⟨rfl, ?_⟩
  intro good rest g hgood hg
  have key : ∀ e, pairDistance (env.collide m d) m g = .error e → getDistance env m d (good ++ g :: rest) = .error e := by
    intro e he
    unfold getDistance
    rw [mapM_error (fun y hy => by obtain ⟨x, h, -⟩ := pairDistance_ok hw (hgood y hy); exact ⟨_, h⟩) he]
    rfl
  constructor
  · intro h
    apply key
    have h1 : (keyOf m (orient m g)).type1 = 1 := h
    unfold pairDistance
    rw [pairKey_ok hw hg]
    simp only [bind, Except.bind, h1, if_true]
    rfl
  · intro h hf
    apply key
    have h1 : (keyOf m (orient m g)).type1 ≠ 1 := h
    have h2 : (env.collide m d).known (keyOf m (orient m g)).type1 (keyOf m (orient m g)).type2 = false := by
      rw [← Bool.not_eq_true]; exact hf
    unfold pairDistance
    rw [pairKey_ok hw hg]
    simp only [bind, Except.bind, h1, h2, Bool.not_false, if_true, if_false]
    rfl

/-! ### Concrete cases -/

namespace DistEx

/-- The four pairs of `SCEx` meet the hypotheses. -/
theorem measurable : ∀ g ∈ SCEx.pairs, Measurable (Ex.env.collide Ex.model (Ex.data Ex.model ⟨13, fun _ => 0⟩)) Ex.model g := by
  intro g hg
  refine ⟨SCEx.inRange g hg, ?_, rfl, ?_⟩
  · revert g; decide
  · unfold pairContacts; rw [List.length_map, List.length_range]; exact le_refl _

/-- A simulator whose boxes and capsules touch in two points, at distances 2 and 1 from geoms 0 and 1. -/
def env : Env ℚ :=
  { Ex.env with
    collide := fun _ _ => { known := fun _ b => b ≠ 0, ncon := fun _ _ => 2,
                            contact := fun _ g k => ⟨if k = 0 then 2 else 1, ![g.1, k, 0], 0⟩ } }

/-- Two pairs, each with two contacts: two distances, four points; the second point belongs to the first pair. -/
example : ∃ ds ps ns, getDistance env Ex.model (Ex.data Ex.model ⟨13, fun _ => 0⟩) [(0, 2), (1, 3)] = .ok (ds, ps, ns) ∧
    ds.length = 2 ∧ ps.length = 4 ∧ ps[1]? = some ![((0 : Int) : ℚ), ((1 : Nat) : ℚ), 0] := by
  obtain ⟨ds, ps, ns, h1, h2, h3, -⟩ := C106_points_per_contact env (m := Ex.model) SCEx.geoms (Ex.data Ex.model ⟨13, fun _ => 0⟩)
    (pairs := [(0, 2), (1, 3)]) (by
      intro g hg
      have hg' : g ∈ SCEx.pairs := by
        have : ∀ g ∈ [((0 : Int), (2 : Int)), (1, 3)], g ∈ SCEx.pairs := by decide
        exact this g hg
      have ht : ∀ g ∈ SCEx.pairs, (decide (geomTypeOf Ex.model (orient Ex.model g).2 ≠ 0)) = true := by decide
      refine ⟨SCEx.inRange g hg', (measurable g hg').noField, ht g hg', ?_⟩
      unfold pairContacts; rw [List.length_map, List.length_range]; exact (by decide : 1 ≤ 2)) (by decide)
  refine ⟨ds, ps, ns, h1, h2, ?_, ?_⟩
  · rw [h3]; rfl
  · rw [h3]; rfl

end DistEx

end Mjinx.Props
