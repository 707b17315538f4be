import Verif.Lemmas.Collision
import Verif.Spec.ExEnv
import Verif.Model.Problem

/-!
# Collision pairs (C51, C52)
-/

namespace Mjinx.Props
open Spec
set_option linter.unusedSectionVars false
variable {K : Type} [Field K] [LinearOrder K]

/-! ## C51 — the watched pairs are the admissible ones -/

/-- Helper: what `update_model` stores. -/
theorem updateModel_collision {m : MjModel K} (hw : CollisionWF m) {c : Comp K} {s d : K} {b : List CollisionBody}
    {e : List (CollisionBody × CollisionBody)} {n : Int} {p : Option (List (Int × Int))}
    (hk : c.attrs.kind = .selfCollision s d b e n p) {ids : List Nat} {exIds : List (Nat × Nat)}
    (hb : AllNamed m (if b.length = 0 then (List.range m.nbody).map (fun (i : Nat) => CollisionBody.id (i : Int)) else b) ids)
    (he : AllNamedPairs m e exIds) :
    ∃ c' ps b', updateModel m c = (.ok (), c') ∧
      c'.attrs.kind = .selfCollision s d b' e (if n = -1 then (ps.length : Int) else n) (some ps) ∧
      c'.attrs.model = some m ∧ c'.attrs.dim = (if n = -1 then (ps.length : Int) else n) ∧
      ps.Nodup ∧ ∀ g, g ∈ ps ↔ Admissible m ids exIds g := by
  obtain ⟨ex, h1, h2⟩ := excludeSet_ok he
  obtain ⟨ps, h3, h4, h5⟩ := generatePairs_ok hw h2 hb
  have hu : updateModel m c = updateModelSelfCollision m s d b e n p c := by
    unfold updateModel
    rw [hk]
  rw [hu]
  unfold updateModelSelfCollision
  dsimp only
  rw [h1]
  dsimp only
  rw [h3]
  exact ⟨_, ps, _, rfl, rfl, rfl, rfl, h4, h5⟩

/-- **C51** (listed bodies): a self-collision barrier whose bodies and exclusions all exist in the model accepts the
model, and the geom pairs it then watches are — each once — exactly the admissible ones. -/
theorem C51_listed_bodies {m : MjModel K} (hw : CollisionWF m) {c : Comp K} {s d : K} {b : List CollisionBody}
    {e : List (CollisionBody × CollisionBody)} {n : Int} {p : Option (List (Int × Int))}
    (hk : c.attrs.kind = .selfCollision s d b e n p) (hne : b ≠ []) {ids : List Nat} {exIds : List (Nat × Nat)}
    (hb : AllNamed m b ids) (he : AllNamedPairs m e exIds) :
    ∃ c' ps b' n', updateModel m c = (.ok (), c') ∧ c'.attrs.kind = .selfCollision s d b' e n' (some ps) ∧
      ps.Nodup ∧ ∀ g, g ∈ ps ↔ Admissible m ids exIds g := by
  have hl : b.length ≠ 0 := by simpa using hne
  obtain ⟨c', ps, b', h1, h2, _, _, h3, h4⟩ := updateModel_collision hw hk (ids := ids) (exIds := exIds)
    (by rw [if_neg hl]; exact hb) he
  exact ⟨c', ps, b', _, h1, h2, h3, h4⟩

/-- **C51** (no bodies listed): then all bodies of the model are meant. -/
theorem C51_all_bodies {m : MjModel K} (hw : CollisionWF m) {c : Comp K} {s d : K}
    {e : List (CollisionBody × CollisionBody)} {n : Int} {p : Option (List (Int × Int))}
    (hk : c.attrs.kind = .selfCollision s d [] e n p) {exIds : List (Nat × Nat)} (he : AllNamedPairs m e exIds) :
    ∃ c' ps b' n', updateModel m c = (.ok (), c') ∧ c'.attrs.kind = .selfCollision s d b' e n' (some ps) ∧
      ps.Nodup ∧ ∀ g, g ∈ ps ↔ Admissible m (List.range m.nbody) exIds g := by
  obtain ⟨c', ps, b', h1, h2, _, _, h3, h4⟩ := updateModel_collision hw hk (ids := List.range m.nbody) (exIds := exIds)
    (by
      rw [if_pos (List.length_nil)]
      unfold AllNamed
      rw [List.forall₂_map_left_iff, List.forall₂_same]
      intro i hi
      exact ⟨List.mem_range.1 hi, rfl⟩) he
  exact ⟨c', ps, b', _, h1, h2, h3, h4⟩

/-- **C51** (corollary): in every watched pair the first geom comes first, and both are geoms of the model. -/
theorem C51_sorted {m : MjModel K} (hw : CollisionWF m) {ids : List Nat} (hids : ∀ b ∈ ids, b < m.nbody)
    {exIds : List (Nat × Nat)} {g : Int × Int} (h : Admissible m ids exIds g) :
    0 ≤ g.1 ∧ g.1 ≤ g.2 ∧ g.2 < m.geomContype.length := by
  obtain ⟨b1, i1, b2, i2, _, g1, g2, h1, h2, _, rfl⟩ := h
  have r1 := geomOf_range hw (hids _ i1) h1
  have r2 := geomOf_range hw (hids _ i2) h2
  simp only
  omega

/-- **C51**, a consequence worth knowing: a body attached to the world by its own joints is never checked against the
geoms of the world (floor, walls), because the world counts as its parent. -/
theorem C51_root_bodies_ignore_world {m : MjModel K} {exIds : List (Nat × Nat)} {b : Nat}
    (hroot : m.bodyParentid.getD (weldOf m b) 0 = 0) : ¬ Collidable m exIds 0 b := by
  intro h
  exact h.notChild.1 (by rw [weldParent, hroot])

/-! ## C52 — the order of bodies and exclusions does not matter -/

/-- **C52**: two barriers that list the same bodies (in any order, repeated or not) and the same exclusions (in any
order, either way round) watch the same pairs. -/
theorem C52_order_irrelevant {m : MjModel K} (hw : CollisionWF m) {c c' : Comp K} {s d s' d' : K}
    {b b' : List CollisionBody} {e e' : List (CollisionBody × CollisionBody)} {n n' : Int}
    {p p' : Option (List (Int × Int))}
    (hk : c.attrs.kind = .selfCollision s d b e n p) (hk' : c'.attrs.kind = .selfCollision s' d' b' e' n' p')
    (hne : b ≠ []) {ids : List Nat} {exIds : List (Nat × Nat)} (hb : AllNamed m b ids) (he : AllNamedPairs m e exIds)
    (hbb : ∀ x, x ∈ b ↔ x ∈ b') (hee : ∀ x ∈ e, x ∈ e' ∨ (x.2, x.1) ∈ e') (hee' : ∀ x ∈ e', x ∈ e ∨ (x.2, x.1) ∈ e) :
    ∃ r r' ps ps' bs bs' ns ns', updateModel m c = (.ok (), r) ∧ updateModel m c' = (.ok (), r') ∧
      r.attrs.kind = .selfCollision s d bs e ns (some ps) ∧ r'.attrs.kind = .selfCollision s' d' bs' e' ns' (some ps') ∧
      ps.Perm ps' := by
  have hne' : b' ≠ [] := by
    rintro rfl
    exact hne (List.eq_nil_iff_forall_not_mem.2 fun x hx => by simpa using (hbb x).1 hx)
  -- the numbers of the bodies of `b'`
  have exB : ∀ l : List CollisionBody, (∀ x ∈ l, ∃ i, Names m x i) → ∃ is, AllNamed m l is := by
    intro l
    induction l with
    | nil => exact fun _ => ⟨[], .nil⟩
    | cons a l ih =>
      intro h
      obtain ⟨i, hi⟩ := h a (by simp)
      obtain ⟨is, his⟩ := ih fun x hx => h x (by simp [hx])
      exact ⟨i :: is, .cons hi his⟩
  have exP : ∀ l : List (CollisionBody × CollisionBody), (∀ x ∈ l, ∃ i : Nat × Nat, Names m x.1 i.1 ∧ Names m x.2 i.2) →
      ∃ is, AllNamedPairs m l is := by
    intro l
    induction l with
    | nil => exact fun _ => ⟨[], .nil⟩
    | cons a l ih =>
      intro h
      obtain ⟨i, hi⟩ := h a (by simp)
      obtain ⟨is, his⟩ := ih fun x hx => h x (by simp [hx])
      exact ⟨i :: is, .cons hi his⟩
  obtain ⟨ids', hb'⟩ := exB b' (fun x hx => by
    obtain ⟨i, _, hi⟩ := forall₂_left hb ((hbb x).2 hx)
    exact ⟨i, hi⟩)
  obtain ⟨exIds', he'⟩ := exP e' (fun x hx => by
    rcases hee' x hx with h | h
    · obtain ⟨i, _, hi⟩ := forall₂_left he h
      exact ⟨i, hi⟩
    · obtain ⟨i, _, hi⟩ := forall₂_left he h
      exact ⟨(i.2, i.1), hi.2, hi.1⟩)
  have hids : ∀ i, i ∈ ids ↔ i ∈ ids' := by
    intro i
    constructor
    · intro hi
      obtain ⟨x, hx, hn⟩ := forall₂_right hb hi
      obtain ⟨j, hj, hn'⟩ := forall₂_left hb' ((hbb x).1 hx)
      rwa [names_unique hn hn']
    · intro hi
      obtain ⟨x, hx, hn⟩ := forall₂_right hb' hi
      obtain ⟨j, hj, hn'⟩ := forall₂_left hb ((hbb x).2 hx)
      rwa [names_unique hn hn']
  have half : ∀ {e e' : List (CollisionBody × CollisionBody)} {is is' : List (Nat × Nat)}, AllNamedPairs m e is →
      AllNamedPairs m e' is' → (∀ x ∈ e, x ∈ e' ∨ (x.2, x.1) ∈ e') → ∀ i j, (i, j) ∈ is → (i, j) ∈ is' ∨ (j, i) ∈ is' := by
    intro e e' is is' h h' hee i j hij
    obtain ⟨x, hx, hn1, hn2⟩ := forall₂_right h hij
    rcases hee x hx with hx' | hx'
    · obtain ⟨⟨i', j'⟩, hj, k1, k2⟩ := forall₂_left h' hx'
      obtain rfl : i = i' := names_unique hn1 k1
      obtain rfl : j = j' := names_unique hn2 k2
      exact .inl hj
    · obtain ⟨⟨i', j'⟩, hj, k1, k2⟩ := forall₂_left h' hx'
      obtain rfl : i = j' := names_unique hn1 k2
      obtain rfl : j = i' := names_unique hn2 k1
      exact .inr hj
  have hcol : ∀ i j, Collidable m exIds i j ↔ Collidable m exIds' i j := by
    intro i j
    constructor
    · intro h
      refine ⟨h.ne, ⟨?_, ?_⟩, h.notWelded, h.notChild⟩
      · intro hx; rcases half he' he hee' _ _ hx with hy | hy
        · exact h.notExcluded.1 hy
        · exact h.notExcluded.2 hy
      · intro hx; rcases half he' he hee' _ _ hx with hy | hy
        · exact h.notExcluded.2 hy
        · exact h.notExcluded.1 hy
    · intro h
      refine ⟨h.ne, ⟨?_, ?_⟩, h.notWelded, h.notChild⟩
      · intro hx; rcases half he he' hee _ _ hx with hy | hy
        · exact h.notExcluded.1 hy
        · exact h.notExcluded.2 hy
      · intro hx; rcases half he he' hee _ _ hx with hy | hy
        · exact h.notExcluded.2 hy
        · exact h.notExcluded.1 hy
  obtain ⟨r, ps, bs, ns, h1, h2, h3, h4⟩ := C51_listed_bodies hw hk hne hb he
  obtain ⟨r', ps', bs', ns', k1, k2, k3, k4⟩ := C51_listed_bodies hw hk' hne' hb' he'
  refine ⟨r, r', ps, ps', bs, bs', ns, ns', h1, k1, h2, k2, ?_⟩
  rw [List.perm_ext_iff_of_nodup h3 k3]
  intro g
  rw [h4, k4]
  unfold Admissible
  simp only [hids, hcol]

/-! ### Concrete cases: a chain world - b1 - b2 - b3 - b4 -/

namespace ColEx

theorem wf : CollisionWF Ex.model := by
  refine ⟨rfl, by decide, rfl, by decide, rfl, rfl, ?_, rfl⟩
  intro b hb
  have hb' : b < 5 := hb
  obtain rfl | rfl | rfl | rfl | rfl : b = 0 ∨ b = 1 ∨ b = 2 ∨ b = 3 ∨ b = 4 := by omega
  all_goals decide

/-- A barrier on three bodies, one by name, with an exclusion. -/
def bodies : List CollisionBody := [.id 4, .name "b1", .id 2]
def excl : List (CollisionBody × CollisionBody) := [(.name "b4", .id 1)]

theorem named : AllNamed Ex.model bodies [4, 1, 2] :=
  .cons ⟨by decide, rfl⟩ (.cons ⟨by decide, rfl, by decide⟩ (.cons ⟨by decide, rfl⟩ .nil))

theorem namedPairs : AllNamedPairs Ex.model excl [(4, 1)] := .cons ⟨⟨by decide, rfl, by decide⟩, by decide, rfl⟩ .nil

/-- The hypotheses of C51 hold for a barrier made by the constructor; the only pair left is that of bodies 2 and 4. -/
example : ∃ c : Comp ℚ, newSelfCollision Ex.barrierArgs 0 bodies excl (-1) = .ok c ∧
    c.attrs.kind = .selfCollision 1 0 bodies excl (-1) none ∧ bodies ≠ [] ∧
    (updateModel Ex.model c).2.attrs.kind = .selfCollision 1 0 bodies excl 1 (some [(1, 3)]) :=
  ⟨_, rfl, rfl, by decide, rfl⟩

example : Admissible Ex.model [4, 1, 2] [(4, 1)] (1, 3) :=
  ⟨2, by decide, 4, by decide, ⟨by decide, by decide, by decide, by decide⟩, 1, 3, by simp [GeomOf, Ex.model],
    by simp [GeomOf, Ex.model], by simp [MayTouch, Ex.model], rfl⟩

example : ∃ c : Comp ℚ, newSelfCollision Ex.barrierArgs 0 [] excl (-1) = .ok c ∧
    c.attrs.kind = .selfCollision 1 0 [] excl (-1) none ∧
    ∃ b, (updateModel Ex.model c).2.attrs.kind = .selfCollision 1 0 b excl 2 (some [(0, 2), (1, 3)]) :=
  ⟨_, rfl, rfl, _, rfl⟩

/-- Reordered bodies and a flipped exclusion, as in C52. -/
example : ∀ x, x ∈ bodies ↔ x ∈ ([.id 2, .id 4, .name "b1", .id 2] : List CollisionBody) := by
  intro x; simp [bodies]; tauto

example : (∀ x ∈ excl, x ∈ [(CollisionBody.id 1, CollisionBody.name "b4")] ∨
    (x.2, x.1) ∈ [(CollisionBody.id 1, CollisionBody.name "b4")]) := by decide

/-- Body 1 hangs on the world: it is never checked against the world's geoms. -/
example : Ex.model.bodyParentid.getD (weldOf Ex.model 1) 0 = 0 := rfl

end ColEx

end Mjinx.Props
