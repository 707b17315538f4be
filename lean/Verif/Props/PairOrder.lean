import Verif.Props.SelfCollision
import Verif.Lemmas.Compile

/-!
# The order of the watched pairs (C115)
-/

namespace Mjinx.Props
open Spec
set_option linter.unusedSectionVars false
variable {K : Type} [Field K] [LinearOrder K]

/-- Helper: two increasing lists with the same members are equal. -/
theorem sorted_unique {l l' : List K} (hp : l.Perm l') (h : l.Pairwise (· ≤ ·)) (h' : l'.Pairwise (· ≤ ·)) : l = l' :=
  List.Perm.eq_of_pairwise (fun _ _ _ _ h1 h2 => le_antisymm h1 h2) h h' hp

/-- Helper: the contacts of permuted pairs are permuted contacts. -/
theorem allContacts_perm {C : Type} (f : CollisionFuncs C) (m : MjModel K) {pairs pairs' : List (Int × Int)}
    (h : pairs.Perm pairs') : (allContacts f m pairs).Perm (allContacts f m pairs') :=
  List.Perm.flatMap_right _ h

/-- Helper: a pair without a collision function makes the value raise `KeyError`. -/
theorem value_unknown (env : Env K) {j : JaxComp K} {d : MjData K} {s dMin : K} {pairs : List (Int × Int)} {n : Nat}
    (hk : j.kind = .selfCollision s (Arr.onesMul n (Arr.scalar dMin)) pairs n)
    (hw : GeomsWF j.model) (hp : ∀ g ∈ pairs, InRange j.model g)
    (hf : ¬ ∀ g ∈ pairs, HasFunction (env.collide j.model d) j.model g) : evalValue env j d = .error .keyError := by
  push Not at hf
  obtain ⟨g, hg, hf⟩ := hf
  have h1 := computeCollisionPairs_error (env.collide j.model d) hw hp hg hf
  have hfit : FitsVec (Arr.onesMul n (Arr.scalar dMin)) n := .inr (.inr rfl)
  obtain ⟨t, t1, t2⟩ := operand_fits hfit
  unfold evalValue
  rw [hk]
  simp only [bind, Except.bind, t1, selfCollisionValue, h1]

/-- **C115** (values): two self-collision barriers on the same model that watch the same pairs in different orders have
the same values at every configuration, or raise the same exception. -/
theorem C115_values (env : Env K) {j j' : JaxComp K} {d : MjData K} {s s' dMin : K} {pairs pairs' : List (Int × Int)}
    {n : Nat} (hk : j.kind = .selfCollision s (Arr.onesMul n (Arr.scalar dMin)) pairs n)
    (hk' : j'.kind = .selfCollision s' (Arr.onesMul n (Arr.scalar dMin)) pairs' n) (hm : j'.model = j.model)
    (hperm : pairs.Perm pairs') (hw : GeomsWF j.model) (hp : ∀ g ∈ pairs, InRange j.model g) :
    (∃ e, evalValue env j d = .error e ∧ evalValue env j' d = .error e) ∨
    ∃ v v', evalValue env j d = .ok v ∧ evalValue env j' d = .ok v' ∧ v.len = n ∧ v'.len = n ∧
      ∀ i < n, v'.get i = v.get i := by
  have hw' : GeomsWF j'.model := by rw [hm]; exact hw
  have hp' : ∀ g ∈ pairs', InRange j'.model g := fun g hg => by rw [hm]; exact hp g (hperm.mem_iff.2 hg)
  have hac := allContacts_perm (env.collide j.model d) j.model hperm
  by_cases hf : ∀ g ∈ pairs, HasFunction (env.collide j.model d) j.model g
  · have hf' : ∀ g ∈ pairs', HasFunction (env.collide j'.model d) j'.model g :=
      fun g hg => by rw [hm]; exact hf g (hperm.mem_iff.2 hg)
    by_cases hn : n ≤ (allContacts (env.collide j.model d) j.model pairs).length
    · obtain ⟨v, l, h1, h2, h3, h4, h5⟩ := C54_values env hk hw hp hf hn
      obtain ⟨v', l', h1', h2', h3', h4', h5'⟩ := C54_values env hk' hw' hp' hf'
        (by rw [hm, ← hac.length_eq]; exact hn)
      rw [hm] at h3'
      have hl : l = l' := sorted_unique ((h3.trans (hac.map _)).trans h3'.symm) h4 h4'
      subst hl
      exact .inr ⟨v, v', h1, h1', h2, h2', fun i hi => by rw [h5 i hi, h5' i hi]⟩
    · push Not at hn
      exact .inl ⟨_, C54_too_many env hk hw hp hf hn,
        C54_too_many env hk' hw' hp' hf' (by rw [hm, ← hac.length_eq]; exact hn)⟩
  · refine .inl ⟨_, value_unknown env hk hw hp hf, value_unknown env hk' hw' hp' ?_⟩
    intro h
    apply hf
    intro g hg
    have := h g (hperm.mem_iff.1 hg)
    rwa [hm] at this

/-- Helper: the Jacobian row is determined by what it is. -/
theorem distanceRow_unique {m : MjModel K} {d : MjData K} {c : ContactVal K} {b1 b2 : Nat} {r r' : Nat → K}
    (h : DistanceRow m d c b1 b2 r) (h' : DistanceRow m d c b1 b2 r') : r = r' := by
  obtain ⟨x1, x2, e1, e2, e3⟩ := h
  obtain ⟨y1, y2, f1, f2, f3⟩ := h'
  rw [e1] at f1; injection f1 with f1; subst f1
  rw [e2] at f2; injection f2 with f2; subst f2
  funext k
  rw [e3, f3]

/-- **C115, partial** (Jacobian; missing: other pair lists, where it is false, see below): if moreover all pairs are of one kind (see `Uniform`) and no two of them are equally far apart,
the Jacobians agree as well, row by row. -/
theorem C115_rows_partial (env : Env K) {j j' : JaxComp K} {d : MjData K} {s s' dMin : K} {pairs pairs' : List (Int × Int)}
    {n : Nat} (hk : j.kind = .selfCollision s (Arr.onesMul n (Arr.scalar dMin)) pairs n)
    (hk' : j'.kind = .selfCollision s' (Arr.onesMul n (Arr.scalar dMin)) pairs' n) (hm : j'.model = j.model)
    (hperm : pairs.Perm pairs') (hw : GeomsWF j.model) (hp : ∀ g ∈ pairs, InRange j.model g)
    (hu : Uniform (env.collide j.model d) j.model pairs) (hbl : j.model.geomBodyid.length = j.model.geomType.length)
    (hd : ((allContacts (env.collide j.model d) j.model pairs).map (fun c => c.val.dist)).Nodup)
    {J J' : Mat K} (hJ : evalJacobian env j d = .ok J) (hJ' : evalJacobian env j' d = .ok J')
    {v v' : Vec K} (hv : evalValue env j d = .ok v) (hv' : evalValue env j' d = .ok v') :
    J.rows = n ∧ J'.rows = n ∧ ∀ i < n, J'.get i = J.get i := by
  have hu' : Uniform (env.collide j'.model d) j'.model pairs' := by
    rw [hm]
    exact ⟨fun g hg => hu.oriented g (hperm.mem_iff.2 hg),
      fun g hg g' hg' => hu.same g (hperm.mem_iff.2 hg) g' (hperm.mem_iff.2 hg'),
      fun g hg => hu.known g (hperm.mem_iff.2 hg), fun g hg => hu.single g (hperm.mem_iff.2 hg)⟩
  obtain ⟨a1, -, a3⟩ := C55_uniform_partial env hk hw hp hu hbl hJ hv
  obtain ⟨b1, -, b3⟩ := C55_uniform_partial env hk' (by rw [hm]; exact hw)
    (fun g hg => by rw [hm]; exact hp g (hperm.mem_iff.2 hg)) hu' (by rw [hm]; exact hbl) hJ' hv'
  refine ⟨a1, b1, ?_⟩
  intro i hi
  obtain ⟨c, hc, e1, r1⟩ := a3 i hi
  obtain ⟨c', hc', e2, r2⟩ := b3 i hi
  rw [hm] at hc' r2
  have hvv : v'.get i = v.get i := by
    rcases C115_values env (d := d) hk hk' hm hperm hw hp with ⟨e, he, -⟩ | ⟨w, w', h1, h2, -, -, h3⟩
    · rw [hv] at he; cases he
    · rw [hv] at h1; rw [hv'] at h2
      injection h1 with h1; injection h2 with h2
      subst h1; subst h2
      exact h3 i hi
  have hcc : c' = c := by
    refine List.inj_on_of_nodup_map hd ((allContacts_perm _ _ hperm).mem_iff.2 hc') hc ?_
    rw [e1, e2] at hvv
    exact sub_left_injective hvv
  subst hcc
  exact (distanceRow_unique r1 r2).symm

/-- Helper: what the compiled barrier holds. -/
theorem jaxComponent_selfCollision {m : MjModel K} {c r : Comp K} {s dMin : K} {b : List CollisionBody}
    {e : List (CollisionBody × CollisionBody)} {n : Int} {p : Option (List (Int × Int))}
    (hk : c.attrs.kind = .selfCollision s dMin b e n p) (hr : updateModel m c = (.ok (), r))
    {bs : List CollisionBody} {ps : List (Int × Int)} {ns : Int}
    (hrk : r.attrs.kind = .selfCollision s dMin bs e ns (some ps))
    {j : JaxComp K} (hj : (jaxComponent r).1 = .ok j) :
    ns = (if n = -1 then (ps.length : Int) else n) ∧ j.model = m ∧ ∃ n' : Nat, ns = n' ∧
      j.kind = .selfCollision s (Arr.onesMul n' (Arr.scalar dMin)) ps n' := by
  have hu : updateModel m c = updateModelSelfCollision m s dMin b e n p c := by
    unfold updateModel
    rw [hk]
  rw [hu] at hr
  unfold updateModelSelfCollision at hr
  dsimp only at hr
  split at hr
  · simp at hr
  split at hr
  · simp at hr
  simp only [Prod.mk.injEq, true_and] at hr
  subst hr
  simp only [Comp.set, Kind.selfCollision.injEq, Option.some.injEq, true_and] at hrk
  obtain ⟨-, hns, hps⟩ := hrk
  rw [hps] at hj hns
  refine ⟨hns.symm, ?_⟩
  rw [hns] at hj
  clear hns
  unfold jaxComponent at hj
  simp only [Comp.set] at hj
  split at hj
  · simp at hj
  simp only [if_true] at hj
  have hb : ∃ c1 : Comp K, (buildComponent m c1).1 = .ok j ∧ c1.attrs.dim = ns ∧
      ∃ bs e n, c1.attrs.kind = .selfCollision s dMin bs e n (some ps) ∧ n = ns := by
    split at hj
    · simp at hj
    · rename_i h1
      exact ⟨_, (congrArg Prod.fst h1).trans hj, rfl, _, _, _, rfl, rfl⟩
  obtain ⟨c1, hb, hd1, bs1, e1, n1, hk1, hn1⟩ := hb
  rw [buildComponent_fst] at hb
  obtain ⟨g, -, hb⟩ := Except.bind_eq_ok hb
  obtain ⟨u, -, hb⟩ := Except.bind_eq_ok hb
  obtain ⟨k, h3, hb⟩ := Except.bind_eq_ok hb
  cases hb
  unfold buildKind at h3
  rw [hk1] at h3
  simp only [getDim, hd1, hn1] at h3
  obtain ⟨d, h4, h3⟩ := Except.bind_eq_ok h3
  split at h4
  · cases h4
  cases h4
  obtain ⟨N, h5, h3⟩ := Except.bind_eq_ok h3
  cases h3
  unfold sizeOf at h5
  split at h5
  · cases h5
  cases h5
  exact ⟨rfl, ns.toNat, by omega, by rw [Int.toNat_of_nonneg (by omega)]⟩

/-- **C115** (set up): two barriers that list the same bodies in different orders (or repeatedly) and the same exclusions,
and that agree in `d_min` and in the number of distances asked for, have the same values at every configuration once they
have been given the model and compiled, or raise the same exception. -/
theorem C115_listed {m : MjModel K} (hw : CollisionWF m) (hg : GeomsWF m) (hl : m.geomContype.length = m.geomType.length)
    {c c' : Comp K} {s s' dMin : K} {n : Int}
    {b b' : List CollisionBody} {e e' : List (CollisionBody × CollisionBody)} {p p' : Option (List (Int × Int))}
    (hk : c.attrs.kind = .selfCollision s dMin b e n p) (hk' : c'.attrs.kind = .selfCollision s' dMin b' e' n p')
    (hne : b ≠ []) {ids : List Nat} {exIds : List (Nat × Nat)} (hb : AllNamed m b ids) (he : AllNamedPairs m e exIds)
    (hbb : ∀ x, x ∈ b ↔ x ∈ b') (hee : ∀ x ∈ e, x ∈ e' ∨ (x.2, x.1) ∈ e') (hee' : ∀ x ∈ e', x ∈ e ∨ (x.2, x.1) ∈ e)
    {j j' : JaxComp K} (hj : (jaxComponent (updateModel m c).2).1 = .ok j)
    (hj' : (jaxComponent (updateModel m c').2).1 = .ok j') (env : Env K) (d : MjData K) :
    (∃ e, evalValue env j d = .error e ∧ evalValue env j' d = .error e) ∨
    ∃ v v', evalValue env j d = .ok v ∧ evalValue env j' d = .ok v' ∧ v'.len = v.len ∧
      ∀ i < v.len, v'.get i = v.get i := by
  obtain ⟨r, r', ps, ps', bs, bs', ns, ns', h1, h1', h2, h2', hperm⟩ :=
    C52_order_irrelevant hw hk hk' hne hb he hbb hee hee'
  rw [h1] at hj
  rw [h1'] at hj'
  obtain ⟨a1, a2, N, a3, a4⟩ := jaxComponent_selfCollision hk h1 h2 hj
  obtain ⟨b1, b2, N', b3, b4⟩ := jaxComponent_selfCollision hk' h1' h2' hj'
  have hN : N' = N := by
    rw [hperm.length_eq] at a1
    have : (N' : Int) = N := by rw [← a3, ← b3, a1, b1]
    exact_mod_cast this
  subst hN
  have hin : ∀ g ∈ ps, InRange j.model g := by
    obtain ⟨c1, ps1, b1', n1, k1, k2, -, k4⟩ := C51_listed_bodies hw hk hne hb he
    rw [h1] at k1
    simp only [Prod.mk.injEq, true_and] at k1
    subst k1
    rw [h2] at k2
    simp only [Kind.selfCollision.injEq, Option.some.injEq] at k2
    obtain ⟨-, -, -, -, -, rfl⟩ := k2
    intro g hgm
    have hids : ∀ b ∈ ids, b < m.nbody := by
      intro i hi
      obtain ⟨x, -, hx⟩ := forall₂_right hb hi
      exact hx.1
    obtain ⟨x1, x2, x3⟩ := C51_sorted hw hids ((k4 g).1 hgm)
    rw [a2, InRange, ← hl]
    omega
  rcases C115_values env (d := d) a4 b4 (b2.trans a2.symm) hperm (by rw [a2]; exact hg) hin with h | ⟨v, v', q1, q2, q3, q4, q5⟩
  · exact .inl h
  · exact .inr ⟨v, v', q1, q2, by rw [q3, q4], fun i hi => q5 i (by rw [← q3]; exact hi)⟩

/-! ### Concrete cases -/

namespace OrderEx

/-- The hypotheses of `C115_listed` hold for two barriers made by the constructor, on bodies in different orders. -/
example : ∃ c c' : Comp ℚ, ∃ j j',
    newSelfCollision Ex.barrierArgs 3 [.id 4, .name "b1", .id 2] [] (-1) = .ok c ∧
    newSelfCollision Ex.barrierArgs 3 [.name "b1", .id 2, .id 4, .id 2] [] (-1) = .ok c' ∧
    c.attrs.kind = .selfCollision 1 3 [.id 4, .name "b1", .id 2] [] (-1) none ∧
    c'.attrs.kind = .selfCollision 1 3 [.name "b1", .id 2, .id 4, .id 2] [] (-1) none ∧
    (jaxComponent (updateModel Ex.model c).2).1 = .ok j ∧ (jaxComponent (updateModel Ex.model c').2).1 = .ok j' ∧
    CollisionWF Ex.model ∧ GeomsWF Ex.model ∧ Ex.model.geomContype.length = Ex.model.geomType.length ∧
    AllNamed Ex.model [.id 4, .name "b1", .id 2] [4, 1, 2] :=
  ⟨_, _, _, _, rfl, rfl, rfl, rfl, rfl, rfl, ColEx.wf, SCEx.geoms, rfl, ColEx.named⟩

/-- Four spheres on a chain; the distance of a pair in the example simulator is the sum of the geom numbers. -/
def model : MjModel ℚ := { Ex.model with geomType := [2, 2, 2, 2] }
def pairs : List (Int × Int) := [(0, 2), (0, 3), (1, 3)]
def pairs' : List (Int × Int) := [(1, 3), (0, 2), (0, 3)]
def comp (ps : List (Int × Int)) : JaxComp ℚ :=
  { model := model, vectorGain := Ex.scalar 1, gainFn := id, dim := 3, maskIdxs := [0, 1, 2],
    kind := .selfCollision 1 (Arr.onesMul 3 (Arr.scalar 3)) ps 3 }
def data : MjData ℚ := Ex.data model ⟨13, fun _ => 0⟩

theorem perm : pairs.Perm pairs' := by decide

theorem inRange : ∀ g ∈ pairs, InRange model g := by
  have : ∀ g ∈ pairs, (0 ≤ g.1 ∧ g.1 < (4 : Int)) ∧ (0 ≤ g.2 ∧ g.2 < (4 : Int)) := by decide
  exact this

theorem uniform : Uniform (Ex.env.collide model data) model pairs := by
  refine ⟨by decide, by decide, fun _ _ => rfl, fun _ _ => rfl⟩

theorem distances : ((allContacts (Ex.env.collide model data) model pairs).map (fun c => c.val.dist)).Nodup := by
  show [((0 : Int) : ℚ) + ((2 : Int) : ℚ), ((0 : Int) : ℚ) + ((3 : Int) : ℚ), ((1 : Int) : ℚ) + ((3 : Int) : ℚ)].Nodup
  norm_num

theorem jacobian : (∃ J, evalJacobian Ex.env (comp pairs) data = .ok J) ∧
    ∃ J, evalJacobian Ex.env (comp pairs') data = .ok J := by
  have hu' : Uniform (Ex.env.collide model data) model pairs' :=
    ⟨by decide, by decide, fun _ _ => rfl, fun _ _ => rfl⟩
  obtain ⟨cs, h1, h2⟩ := uniform_contacts (Ex.env.collide model data) (m := model) ⟨rfl, rfl, rfl⟩ inRange uniform
  obtain ⟨cs', h1', h2'⟩ := uniform_contacts (Ex.env.collide model data) (m := model) ⟨rfl, rfl, rfl⟩
    (fun g hg => inRange g (perm.mem_iff.2 hg)) hu'
  have hd : cs.map (fun c => c.val.dist) = [2, 3, 4] := by
    rw [h2]
    show [((0 : Int) : ℚ) + ((2 : Int) : ℚ), ((0 : Int) : ℚ) + ((3 : Int) : ℚ), ((1 : Int) : ℚ) + ((3 : Int) : ℚ)] = _
    norm_num
  have hd' : cs'.map (fun c => c.val.dist) = [4, 2, 3] := by
    rw [h2']
    show [((1 : Int) : ℚ) + ((3 : Int) : ℚ), ((0 : Int) : ℚ) + ((2 : Int) : ℚ), ((0 : Int) : ℚ) + ((3 : Int) : ℚ)] = _
    norm_num
  have hcl : closest [(2 : ℚ), 3, 4] 3 = .ok [0, 1, 2] := by
    simp only [closest, ascOrder]
    norm_num [List.mergeSort, List.range, List.range.loop, List.MergeSort.Internal.splitInTwo, List.merge]
  have hcl' : closest [(4 : ℚ), 2, 3] 3 = .ok [1, 2, 0] := by
    simp only [closest, ascOrder]
    norm_num [List.mergeSort, List.range, List.range.loop, List.MergeSort.Internal.splitInTwo, List.merge]
  constructor
  · show ∃ J, selfCollisionJacobian Ex.env model data pairs 3 = .ok J
    unfold selfCollisionJacobian
    simp only [bind, Except.bind, h1, hd, hcl]
    rw [h2]
    exact ⟨_, rfl⟩
  · show ∃ J, selfCollisionJacobian Ex.env model data pairs' 3 = .ok J
    unfold selfCollisionJacobian
    simp only [bind, Except.bind, h1', hd', hcl']
    rw [h2']
    exact ⟨_, rfl⟩

/-- The hypotheses of `C115_values` and `C115_rows_partial` hold for these barriers. -/
example : ∃ v v' J J', evalValue Ex.env (comp pairs) data = .ok v ∧ evalValue Ex.env (comp pairs') data = .ok v' ∧
    evalJacobian Ex.env (comp pairs) data = .ok J ∧ evalJacobian Ex.env (comp pairs') data = .ok J' ∧
    ∀ i < 3, J'.get i = J.get i := by
  obtain ⟨⟨J, hJ⟩, J', hJ'⟩ := jacobian
  have hk : (comp pairs).kind = .selfCollision 1 (Arr.onesMul 3 (Arr.scalar 3)) pairs ((3 : Nat) : Int) := rfl
  have hk' : (comp pairs').kind = .selfCollision 1 (Arr.onesMul 3 (Arr.scalar 3)) pairs' ((3 : Nat) : Int) := rfl
  obtain ⟨v, l, hv, -⟩ := C54_values Ex.env (d := data) hk ⟨rfl, rfl, rfl⟩ inRange (fun _ _ => rfl) (le_refl 3)
  rcases C115_values Ex.env (d := data) hk hk' rfl perm ⟨rfl, rfl, rfl⟩ inRange with ⟨e, he, -⟩ | ⟨w, w', h1, h2, -⟩
  · rw [hv] at he; cases he
  · exact ⟨w, w', J, J', h1, h2, hJ, hJ', (C115_rows_partial Ex.env hk hk' rfl perm ⟨rfl, rfl, rfl⟩ inRange uniform rfl distances
      hJ hJ' h1 h2).2.2⟩

/-! Four sliding bodies: spheres 0, 1 and 3, capsule 2.  The same pairs in two orders. -/

def mixed : MjModel ℚ :=
  { Ex.model with
    nq := 4, nv := 4, nbody := 5
    jntType := [.slide, .slide, .slide, .slide], jntQposadr := [0, 1, 2, 3], jntDofadr := [0, 1, 2, 3]
    jntRange := [(0, 0), (0, 0), (0, 0), (0, 0)]
    bodyParentid := [0, 0, 0, 0, 0], bodyWeldid := [0, 1, 2, 3, 4], bodyRootid := [0, 1, 2, 3, 4]
    bodyGeomadr := [-1, 0, 1, 2, 3], bodyGeomnum := [0, 1, 1, 1, 1], bodyMass := [0, 1, 1, 1, 1], dofBodyid := [1, 2, 3, 4]
    geomType := [2, 2, 3, 2], geomDataid := [-1, -1, -1, -1], geomPriority := [0, 0, 0, 0], geomCondim := [3, 3, 3, 3]
    geomContype := [1, 1, 1, 1], geomConaffinity := [1, 1, 1, 1], geomBodyid := [1, 2, 3, 4], siteBodyid := []
    eqType := [], bodyNames := ["world", "a", "b", "c", "d"], geomNames := ["g1", "g2", "g3", "g4"], siteNames := [] }
def mixedData (q : Vec ℚ) : MjData ℚ :=
  { Ex.data mixed q with cdof := [(0, ![1, 0, 0]), (0, ![1, 0, 0]), (0, ![1, 0, 0]), (0, ![1, 0, 0])] }
def mixedEnv : Env ℚ :=
  { Ex.env with
    kinematics := fun _ q => mixedData q
    collide := fun _ _ => { known := fun _ _ => true, ncon := fun _ _ => 1,
                            contact := fun _ g _ => ⟨if g = (1, 3) then 1 else if g = (0, 1) then 2 else 3, 0, ![1, 0, 0]⟩ } }
def P : List (Int × Int) := [(0, 1), (1, 3), (0, 2)]
def P' : List (Int × Int) := [(0, 1), (0, 2), (1, 3)]

/-- Both lists are grouped alike: the two pairs of spheres, then the pair of a sphere and a capsule. -/
theorem mixed_contacts {ps : List (Int × Int)}
    (h : geomGroups mixed ps = .ok [(⟨2, 2, -1, -1, 3⟩, [(0, 1), (1, 3)]), (⟨2, 3, -1, -1, 3⟩, [(0, 2)])]) (q : Vec ℚ) :
    computeCollisionPairs (mixedEnv.collide mixed (mixedData q)) mixed ps =
      .ok [⟨(0, 1), ⟨2, 0, ![1, 0, 0]⟩⟩, ⟨(1, 3), ⟨1, 0, ![1, 0, 0]⟩⟩, ⟨(0, 2), ⟨3, 0, ![1, 0, 0]⟩⟩] := by
  unfold computeCollisionPairs
  have hany : [((⟨2, 2, -1, -1, 3⟩ : FunctionKey), [((0 : Int), (1 : Int)), (1, 3)]), (⟨2, 3, -1, -1, 3⟩, [(0, 2)])].any
      (fun kg => !(mixedEnv.collide mixed (mixedData q)).known kg.1.type1 kg.1.type2) = false := rfl
  simp only [bind, Except.bind, h, hany, Bool.false_eq_true, if_false]
  have hc : condimGroups (List.map (fun kg => (kg.1, runGroup (mixedEnv.collide mixed (mixedData q)) kg))
      [((⟨2, 2, -1, -1, 3⟩ : FunctionKey), [((0 : Int), (1 : Int)), (1, 3)]), (⟨2, 3, -1, -1, 3⟩, [(0, 2)])]) =
      [(3, [[⟨(0, 1), ⟨2, 0, ![1, 0, 0]⟩⟩, ⟨(1, 3), ⟨1, 0, ![1, 0, 0]⟩⟩], [⟨(0, 2), ⟨3, 0, ![1, 0, 0]⟩⟩]])] := rfl
  rw [hc, List.mergeSort_singleton]
  rfl

theorem mixed_row {ps : List (Int × Int)} (q : Vec ℚ)
    (h : geomGroups mixed ps = .ok [(⟨2, 2, -1, -1, 3⟩, [(0, 1), (1, 3)]), (⟨2, 3, -1, -1, 3⟩, [(0, 2)])])
    {b0 b1 b2 : Nat × Nat} (hb : ps.mapM (pairBodies mixed) = .ok [b0, b1, b2])
    {row : Nat → ℚ} (hr : collisionRow mixed (mixedData q) ⟨1, 0, ![1, 0, 0]⟩ b1.1 b1.2 = .ok row) :
    ∃ J, selfCollisionJacobian mixedEnv mixed (mixedData q) ps 1 = .ok J ∧ J.get 0 = row := by
  have hcl : closest [(2 : ℚ), 1, 3] 1 = .ok [1] := by
    simp only [closest, ascOrder]
    norm_num [List.mergeSort, List.range, List.range.loop, List.MergeSort.Internal.splitInTwo, List.merge]
  unfold selfCollisionJacobian
  simp only [bind, Except.bind, mixed_contacts h, List.map_cons, List.map_nil, hcl, hb]
  have hs : selfCollisionRow mixed (mixedData q) [⟨(0, 1), ⟨2, 0, ![1, 0, 0]⟩⟩, ⟨(1, 3), ⟨1, 0, ![1, 0, 0]⟩⟩, ⟨(0, 2), ⟨3, 0, ![1, 0, 0]⟩⟩]
    [b0, b1, b2] 1 = .ok row := hr
  simp only [List.mapM_cons, List.mapM_nil, hs, bind, Except.bind, pure, Except.pure]
  exact ⟨_, rfl, rfl⟩

def mixedComp (ps : List (Int × Int)) : JaxComp ℚ :=
  { model := mixed, vectorGain := Ex.scalar 1, gainFn := id, dim := 1, maskIdxs := [0],
    kind := .selfCollision 1 (Arr.onesMul 1 (Arr.scalar 0)) ps 1 }

end OrderEx

/-- **C115, what does not hold**: for pairs of different kinds the Jacobian does depend on the order. -/
theorem C115_mixed_differs (q : Vec ℚ) :
    ∃ J J', evalJacobian OrderEx.mixedEnv (OrderEx.mixedComp OrderEx.P) (OrderEx.mixedData q) = .ok J ∧
      evalJacobian OrderEx.mixedEnv (OrderEx.mixedComp OrderEx.P') (OrderEx.mixedData q) = .ok J' ∧
      OrderEx.P.Perm OrderEx.P' ∧ J.get 0 0 = 0 ∧ J'.get 0 0 = -1 := by
  obtain ⟨J, h1, h2⟩ := OrderEx.mixed_row q (ps := OrderEx.P) rfl (b0 := (1, 2)) (b1 := (2, 4)) (b2 := (1, 3)) rfl rfl
  obtain ⟨J', h1', h2'⟩ := OrderEx.mixed_row q (ps := OrderEx.P') rfl (b0 := (1, 2)) (b1 := (1, 3)) (b2 := (2, 4)) rfl rfl
  refine ⟨J, J', h1, h1', by decide, ?_, ?_⟩
  · rw [h2]
    have d1 : dofMask OrderEx.mixed 2 = [false, true, false, false] := rfl
    have d2 : dofMask OrderEx.mixed 4 = [false, false, false, true] := rfl
    simp [d1, d2, normalRow, OrderEx.mixedData, maskRow, pointVel]
  · rw [h2']
    have d1 : dofMask OrderEx.mixed 1 = [true, false, false, false] := rfl
    have d2 : dofMask OrderEx.mixed 3 = [false, false, true, false] := rfl
    simp [d1, d2, normalRow, OrderEx.mixedData, Fin.sum_univ_three, maskRow, pointVel]

end Mjinx.Props
