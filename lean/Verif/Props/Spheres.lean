import Verif.Lemmas.Contact
import Verif.Props.SelfCollision
import Verif.Props.BodyMotion

/-!
# C108, C109: collision barriers of robots made of spheres
-/

namespace Mjinx.Props
open Spec Finset
open scoped Quaternion Matrix Topology

/-! ### One group of pairs -/

section
variable {env : Env ℝ} {G : Geometry} {j : JaxComp ℝ} {q : Vec ℝ} {s dMin : ℝ} {pairs : List (Int × Int)} {n : Nat}

/-- What the simulator reports for a pair. -/
noncomputable def contactOf (env : Env ℝ) (m : MjModel ℝ) (q : Vec ℝ) (g : Int × Int) : ContactVal ℝ :=
  (env.collide m (update env m q)).contact (keyOf m g) g 0

theorem mapM_total {α β : Type} {f : α → Except Err β} : ∀ {xs : List α}, (∀ x ∈ xs, ∃ y, f x = .ok y) → ∃ ys, xs.mapM f = .ok ys
  | [], _ => ⟨[], rfl⟩
  | x :: xs, h => by
    obtain ⟨y, hy⟩ := h x (by simp)
    obtain ⟨ys, hys⟩ := mapM_total (xs := xs) (fun z hz => h z (by simp [hz]))
    exact ⟨y :: ys, by rw [List.mapM_cons, hy, hys]; rfl⟩

theorem geomBody_lt {m : MjModel ℝ} (hw : RobotWF G m) (hb : m.geomBodyid.length = m.geomType.length) {g : Int}
    (h0 : 0 ≤ g) (h1 : g < m.geomType.length) : geomBody m g < m.nbody := by
  apply hw.objects.1
  unfold geomBody
  rw [List.getD_eq_getElem _ _ (by omega)]
  exact List.getElem_mem _

/-- The Jacobian exists. -/
theorem collision_jacobian_exists (hs : Simulates env G j.model) (hw : RobotWF G j.model) (hu : UnitQuats j.model q)
    (hk : j.kind = .selfCollision s (Arr.onesMul n (Arr.scalar dMin)) pairs n)
    (hb : j.model.geomBodyid.length = j.model.geomType.length) (hp : ∀ g ∈ pairs, InRange j.model g)
    {cs : List (Contact (ContactVal ℝ))} (h1 : computeCollisionPairs (env.collide j.model (update env j.model q)) j.model pairs = .ok cs)
    (hne : pairs ≠ []) (hn : n ≤ cs.length) :
    ∃ J, evalJacobian env j (update env j.model q) = .ok J ∧ J.cols = (update env j.model q).cdof.length := by
  obtain ⟨a1, a2, -, -⟩ := ascOrder_spec (cs.map (fun c => c.val.dist))
  rw [List.length_map] at a1
  have hc : closest (cs.map (fun c => c.val.dist)) (n : Int) = .ok ((ascOrder (cs.map (fun c => c.val.dist))).take n) := by
    unfold closest
    rw [if_neg (by rw [List.length_map]; omega), Int.toNat_natCast]
  have hbodies : pairs.mapM (pairBodies j.model) = .ok (pairs.map (fun g => (geomBody j.model g.1, geomBody j.model g.2))) := by
    have : ∀ ps : List (Int × Int), (∀ g ∈ ps, InRange j.model g) →
        ps.mapM (pairBodies j.model) = .ok (ps.map (fun g => (geomBody j.model g.1, geomBody j.model g.2))) := by
      intro ps
      induction ps with
      | nil => intro _; rfl
      | cons g gs ih =>
        intro h
        obtain ⟨⟨a1, a2⟩, b1, b2⟩ := h g (by simp)
        rw [List.mapM_cons, ih (fun x hx => h x (by simp [hx]))]
        simp only [pairBodies, bind, Except.bind, npGet_int 0 a1 (hb ▸ a2), npGet_int 0 b1 (hb ▸ b2)]
        rfl
    exact this pairs hp
  have hpl : 0 < pairs.length := List.length_pos_iff.2 hne
  have hrows : ∃ rows, ((ascOrder (cs.map (fun c => c.val.dist))).take n).mapM (selfCollisionRow j.model (update env j.model q) cs
      (pairs.map (fun g => (geomBody j.model g.1, geomBody j.model g.2)))) = .ok rows := by
    apply mapM_total
    intro i hi
    have hi := a2 i (List.mem_of_mem_take hi)
    rw [List.length_map] at hi
    have hmem : (pairs[min i (pairs.length - 1)]'(by omega)) ∈ pairs := List.getElem_mem _
    obtain ⟨⟨r1, r2⟩, r3, r4⟩ := hp _ hmem
    obtain ⟨x1, e1, -, -⟩ := pointJacobian_twist hs hw hu (geomBody_lt hw hb r1 r2) (cs[i].val.pos - (cs[i].val.dist / 2) • cs[i].val.normal)
    obtain ⟨x2, e2, -, -⟩ := pointJacobian_twist hs hw hu (geomBody_lt hw hb r3 r4) (cs[i].val.pos + (cs[i].val.dist / 2) • cs[i].val.normal)
    refine ⟨normalRow cs[i].val.normal x1 x2, ?_⟩
    · unfold selfCollisionRow collisionRow
      have k1 : npGet cs (i : Int) = .ok cs[i] := npGet_some (List.getElem?_eq_getElem hi)
      have k2 : npGet (pairs.map (fun g => (geomBody j.model g.1, geomBody j.model g.2)))
          ((min i ((pairs.map (fun g => (geomBody j.model g.1, geomBody j.model g.2))).length - 1) : Nat) : Int) =
          .ok (geomBody j.model (pairs[min i (pairs.length - 1)]'(by omega)).1, geomBody j.model (pairs[min i (pairs.length - 1)]'(by omega)).2) := by
        apply npGet_some
        rw [List.length_map, List.getElem?_map, List.getElem?_eq_getElem (by omega)]
        rfl
      simp only [bind, Except.bind, k1, k2, e1, e2]
      rfl
  obtain ⟨rows, hrows⟩ := hrows
  refine ⟨⟨rows.length, (update env j.model q).cdof.length, fun i k => (rows.getD i (fun _ => 0)) k⟩, ?_, rfl⟩
  unfold evalJacobian
  rw [hk]
  simp only [selfCollisionJacobian, bind, Except.bind, h1, hc, hbodies, hrows]
  rw [if_neg (by rw [List.length_map]; omega)]
  rfl

/-- Values and Jacobian rows of a barrier that watches one group of pairs. -/
theorem group_rows (hs : Simulates env G j.model) (hw : RobotWF G j.model) (hu : UnitQuats j.model q)
    (hk : j.kind = .selfCollision s (Arr.onesMul n (Arr.scalar dMin)) pairs n)
    (hg : GeomsWF j.model) (hb : j.model.geomBodyid.length = j.model.geomType.length) (hp : ∀ g ∈ pairs, InRange j.model g)
    (hun : Uniform (env.collide j.model (update env j.model q)) j.model pairs) (hne : pairs ≠ []) (hn : n ≤ pairs.length) :
    ∃ J V, evalJacobian env j (update env j.model q) = .ok J ∧ evalValue env j (update env j.model q) = .ok V ∧ J.rows = n ∧ V.len = n ∧
      ∀ i < n, ∃ p g, (ascOrder (pairs.map fun g => (contactOf env j.model q g).dist))[i]? = some p ∧ pairs[p]? = some g ∧
        V.get i = (contactOf env j.model q g).dist - dMin ∧
        ∀ v, rowDot J i v = (contactOf env j.model q g).normal ⬝ᵥ
          (pointVel (contactOf env j.model q g).pos (bodyTwist G j.model q.get v (geomBody j.model g.2)) -
            pointVel (contactOf env j.model q g).pos (bodyTwist G j.model q.get v (geomBody j.model g.1))) := by
  obtain ⟨cs, h1, h2⟩ := uniform_contacts _ hg hp hun
  have hcl : cs.length = pairs.length := by rw [h2, List.length_map]
  obtain ⟨J, hJ, hcols⟩ := collision_jacobian_exists hs hw hu hk hb hp h1 hne (by omega)
  obtain ⟨V, v1, v2, v3⟩ := selfCollision_value env hk h1 (by omega)
  obtain ⟨r1, r2⟩ := C55_bodies_by_position env hk h1 (fun g hg => by rw [hb]; exact hp g hg) hJ
  have hd : cs.map (fun c => c.val.dist) = pairs.map fun g => (contactOf env j.model q g).dist := by
    rw [h2, List.map_map]; rfl
  refine ⟨J, V, hJ, v1, r1, v2, fun i hi => ?_⟩
  obtain ⟨p, c, g, p1, p2, p3, hrow⟩ := r2 i hi
  have hpl := (List.getElem?_eq_some_iff.1 p2).1
  rw [min_eq_left (by omega)] at p3
  have hcg : c = ⟨g, contactOf env j.model q g⟩ := by
    rw [h2, List.getElem?_map, p3] at p2
    simp only [Option.map_some, Option.some.injEq] at p2
    rw [← p2]; rfl
  rw [hd] at p1
  obtain ⟨⟨g1, g2⟩, g3, g4⟩ := hp g (List.mem_of_getElem? p3)
  refine ⟨p, g, p1, p3, ?_, ?_⟩
  · rw [v3 i hi, hd]
    congr 1
    rw [List.getD_eq_getElem?_getD, List.getElem?_map, p1]
    simp only [Option.map_some, Option.getD_some]
    rw [List.getD_eq_getElem?_getD, List.getElem?_map, p3]
    rfl
  · intro v
    rw [hcg] at hrow
    rw [rowDot, hcols]
    exact distanceRow_twist hs hw hu (geomBody_lt hw hb g1 g2) (geomBody_lt hw hb g3 g4) hrow v

/-! ### Sorting -/

theorem ascOrder_congr {xs ys : List ℝ} (hl : xs.length = ys.length)
    (h : ∀ a < xs.length, ∀ b < xs.length, a ≠ b → xs.getD a 0 ≠ xs.getD b 0 ∧ (xs.getD a 0 < xs.getD b 0 → ys.getD a 0 < ys.getD b 0)) :
    ascOrder ys = ascOrder xs := by
  have hpx : (ascOrder xs).Perm (List.range xs.length) := List.mergeSort_perm _ _
  have hpy : (ascOrder ys).Perm (List.range ys.length) := List.mergeSort_perm _ _
  obtain ⟨-, x2, -, x4⟩ := ascOrder_spec xs
  obtain ⟨-, y2, -, y4⟩ := ascOrder_spec ys
  rw [List.pairwise_map] at x4 y4
  have hperm : (ascOrder ys).Perm (ascOrder xs) := by
    rw [hl] at hpx
    exact hpy.trans hpx.symm
  have y4' : (ascOrder ys).Pairwise (fun a b => xs.getD a 0 ≤ xs.getD b 0) := by
    refine List.Pairwise.imp_of_mem ?_ y4
    intro a b ha hb hab
    have ha' := y2 a ha
    have hb' := y2 b hb
    by_cases e : a = b
    · rw [e]
    · by_contra hlt
      exact absurd ((h b (by omega) a (by omega) (Ne.symm e)).2 (not_le.1 hlt)) (not_lt.2 hab)
  refine hperm.eq_of_pairwise ?_ y4' x4
  intro a b ha hb hab hba
  by_contra e
  exact (h a (by have := y2 a ha; omega) b (x2 b hb) e).1 (le_antisymm hab hba)

/-- If the distances of the watched pairs change smoothly and differ, the sorted values change at the rates of the Jacobian rows. -/
theorem sorted_rate {D : ℝ → Int × Int → ℝ} {r : Int × Int → ℝ} (hD : ∀ g ∈ pairs, HasDerivAt (fun t => D t g) (r g) 0)
    (hne : (pairs.map (D 0)).Nodup) {i p : Nat} {g : Int × Int} (hp : (ascOrder (pairs.map (D 0)))[i]? = some p) (hg : pairs[p]? = some g) :
    HasDerivAt (fun t => ((ascOrder (pairs.map (D t))).map fun k => (pairs.map (D t)).getD k 0).getD i 0) (r g) 0 := by
  have hmem := List.mem_of_getElem? hg
  refine (hD g hmem).congr_of_eventuallyEq ?_
  have hget : ∀ t a (ha : a < pairs.length), (pairs.map (D t)).getD a 0 = D t pairs[a] := by
    intro t a ha
    rw [List.getD_eq_getElem _ _ (by rw [List.length_map]; exact ha), List.getElem_map]
  have hev : ∀ᶠ t in 𝓝 (0 : ℝ), ∀ a ∈ Finset.range pairs.length, ∀ b ∈ Finset.range pairs.length,
      (pairs.map (D 0)).getD a 0 < (pairs.map (D 0)).getD b 0 → (pairs.map (D t)).getD a 0 < (pairs.map (D t)).getD b 0 := by
    rw [Finset.eventually_all]
    intro a ha
    rw [Finset.eventually_all]
    intro b hb
    rw [Finset.mem_range] at ha hb
    by_cases hlt : (pairs.map (D 0)).getD a 0 < (pairs.map (D 0)).getD b 0
    · have c1 := (hD _ (List.getElem_mem ha)).continuousAt
      have c2 := (hD _ (List.getElem_mem hb)).continuousAt
      have := c1.eventually_lt c2 (by rw [← hget 0 a ha, ← hget 0 b hb]; exact hlt)
      filter_upwards [this] with t ht _
      rw [hget t a ha, hget t b hb]
      exact ht
    · exact Filter.Eventually.of_forall fun t h => absurd h hlt
  filter_upwards [hev] with t ht
  have hasc : ascOrder (pairs.map (D t)) = ascOrder (pairs.map (D 0)) := by
    apply ascOrder_congr (by simp)
    intro a ha b hb hab
    rw [List.length_map] at ha hb
    refine ⟨?_, fun h => ht a (Finset.mem_range.2 ha) b (Finset.mem_range.2 hb) h⟩
    rw [List.getD_eq_getElem _ _ (by simpa using ha), List.getD_eq_getElem _ _ (by simpa using hb)]
    intro e
    exact hab ((List.Nodup.getElem_inj_iff hne).1 e)
  rw [hasc, List.getD_eq_getElem?_getD, List.getElem?_map, hp]
  simp only [Option.map_some, Option.getD_some]
  rw [List.getD_eq_getElem?_getD, List.getElem?_map, hg]
  rfl

end

/-! ### Spheres -/

section
variable {env : Env ℝ} {G : Geometry} {size : List ℝ} {j : JaxComp ℝ} {q : Vec ℝ} {s dMin : ℝ} {pairs : List (Int × Int)} {n : Nat}

theorem group_uniform (hc : CollidesSpheres env size j.model) {t : Nat} (ht : t = 2 ∨ t = 0) (hg : OneGroup j.model t 2 pairs) (q : Vec ℝ) :
    Uniform (env.collide j.model (update env j.model q)) j.model pairs where
  oriented g h := by rw [(hg.types g h).1, (hg.types g h).2]; omega
  same := hg.same
  known g h := by
    rw [(hg.types g h).1, (hg.types g h).2]
    rcases ht with rfl | rfl
    · exact (hc.known _).1
    · exact (hc.known _).2
  single g h := by
    rw [(hg.types g h).1, (hg.types g h).2]
    rcases ht with rfl | rfl
    · exact (hc.ncon _).1
    · exact (hc.ncon _).2

/-- The centre of a geom. -/
theorem geom_pos (hs : Simulates env G j.model) (hb : j.model.geomBodyid.length = j.model.geomType.length) (q : Vec ℝ) {g : Int}
    (h0 : 0 ≤ g) (h1 : g < j.model.geomType.length) :
    objPos (update env j.model q) .geom g = .ok ((bodyPose G j.model q.get (geomBody j.model g)).apply (G.geomPos.getD g.toNat 0)) ∧
    (update env j.model q).geomXpos.getD g.toNat 0 = (bodyPose G j.model q.get (geomBody j.model g)).apply (G.geomPos.getD g.toNat 0) ∧
    (update env j.model q).geomXmat.getD g.toNat 0 = quatMat ((bodyPose G j.model q.get (geomBody j.model g)).rot * G.geomQuat.getD g.toNat 1) := by
  have hl : g.toNat < j.model.geomBodyid.length := by omega
  have hb' : bodyOf j.model .geom g.toNat = some (geomBody j.model g) := by
    show j.model.geomBodyid[g.toNat]? = some (j.model.geomBodyid.getD g.toNat 0)
    rw [List.getD_eq_getElem _ _ hl, List.getElem?_eq_getElem hl]
  obtain ⟨o1, -⟩ := update_object hs q hb'
  have e : ((g.toNat : Nat) : Int) = g := by omega
  rw [e] at o1
  obtain ⟨a, b, c, hu⟩ := update_fields hs q
  refine ⟨o1, ?_, ?_⟩
  · rw [hu]
    show ((List.range j.model.geomBodyid.length).map _).getD g.toNat 0 = _
    rw [List.getD_eq_getElem _ _ (by simpa using hl), List.getElem_map, List.getElem_range]
    rfl
  · rw [hu]
    show ((List.range j.model.geomBodyid.length).map _).getD g.toNat 0 = _
    rw [List.getD_eq_getElem _ _ (by simpa using hl), List.getElem_map, List.getElem_range]
    rfl

/-- How the frame of the body of a geom moves. -/
theorem geom_twist (hs : Simulates env G j.model) (hw : RobotWF G j.model) (hu : UnitQuats j.model q)
    (hb : j.model.geomBodyid.length = j.model.geomType.length) {g : Int} (h0 : 0 ≤ g) (h1 : g < j.model.geomType.length) (v : Vec ℝ) :
    HasTwist (fun t => bodyPose G j.model (integrate env j.model q v t).get (geomBody j.model g))
      (bodyTwist G j.model q.get v.get (geomBody j.model g)) :=
  (body_twist hw (integrate_moves hs.quat hw.addr hu v) hu _ (geomBody_lt hw hb h0 h1)).1

/-- What is reported for two spheres. -/
theorem sphere_contact (hc : CollidesSpheres env size j.model) (hg : OneGroup j.model 2 2 pairs) {g : Int × Int} (h : g ∈ pairs) (q : Vec ℝ) :
    contactOf env j.model q g = sphereSphere ((update env j.model q).geomXpos.getD g.1.toNat 0) (size.getD g.1.toNat 0)
      ((update env j.model q).geomXpos.getD g.2.toNat 0) (size.getD g.2.toNat 0) :=
  hc.spheres _ _ _ (hg.types g h).1 (hg.types g h).2

theorem sphere_rate (hs : Simulates env G j.model) (hw : RobotWF G j.model) (hc : CollidesSpheres env size j.model) (hu : UnitQuats j.model q)
    (hg : OneGroup j.model 2 2 pairs) {g : Int × Int} (h : g ∈ pairs)
    (hne : objPos (update env j.model q) .geom g.1 ≠ objPos (update env j.model q) .geom g.2) (v : Vec ℝ) :
    ∃ X1 X2 : ℝ → V3 ℝ, (∀ t, objPos (update env j.model (integrate env j.model q v t)) .geom g.1 = .ok (X1 t) ∧
        objPos (update env j.model (integrate env j.model q v t)) .geom g.2 = .ok (X2 t)) ∧
      objPos (update env j.model q) .geom g.1 = .ok (X1 0) ∧ objPos (update env j.model q) .geom g.2 = .ok (X2 0) ∧
      (∀ t, (contactOf env j.model (integrate env j.model q v t) g).dist = gap (X1 t) (X2 t) - (size.getD g.1.toNat 0 + size.getD g.2.toNat 0)) ∧
      (contactOf env j.model q g).dist = gap (X1 0) (X2 0) - (size.getD g.1.toNat 0 + size.getD g.2.toNat 0) ∧
      HasDerivAt (fun t => gap (X1 t) (X2 t)) ((contactOf env j.model q g).normal ⬝ᵥ
        (pointVel (contactOf env j.model q g).pos (bodyTwist G j.model q.get v.get (geomBody j.model g.2)) -
          pointVel (contactOf env j.model q g).pos (bodyTwist G j.model q.get v.get (geomBody j.model g.1)))) 0 := by
  obtain ⟨⟨a1, a2⟩, b1, b2⟩ := hg.inRange g h
  have P1 := fun q' => geom_pos (j := j) hs hg.bodies q' a1 a2
  have P2 := fun q' => geom_pos (j := j) hs hg.bodies q' b1 b2
  have T1 := geom_twist hs hw hu hg.bodies a1 a2 v
  have T2 := geom_twist hs hw hu hg.bodies b1 b2 v
  have s1 := start_pose hs hw hu v (geomBody_lt hw hg.bodies a1 a2)
  have s2 := start_pose hs hw hu v (geomBody_lt hw hg.bodies b1 b2)
  rw [(P1 q).1, (P2 q).1] at hne
  have D1 := fun a => T1 (G.geomPos.getD g.1.toNat 0) a
  have D2 := fun a => T2 (G.geomPos.getD g.2.toNat 0) a
  simp only [s1] at D1
  simp only [s2] at D2
  refine ⟨_, _, fun t => ⟨(P1 _).1, (P2 _).1⟩, ?_, ?_, ?_, ?_, ?_⟩
  · rw [s1]; exact (P1 q).1
  · rw [s2]; exact (P2 q).1
  · intro t
    rw [sphere_contact hc hg h, (P1 _).2.1, (P2 _).2.1]; rfl
  · rw [sphere_contact hc hg h, (P1 _).2.1, (P2 _).2.1, s1, s2]; rfl
  · rw [sphere_contact hc hg h, (P1 _).2.1, (P2 _).2.1]
    have hd := gap_rate D1 D2 (by simp only [s1, s2]; exact fun e => hne (by rw [e]))
    simp only [s1, s2] at hd
    refine hd.congr_deriv ?_
    generalize hx1 : (bodyPose G j.model q.get (geomBody j.model g.1)).apply (G.geomPos.getD g.1.toNat 0) = x1 at *
    generalize hx2 : (bodyPose G j.model q.get (geomBody j.model g.2)).apply (G.geomPos.getD g.2.toNat 0) = x2 at *
    generalize bodyTwist G j.model q.get v.get (geomBody j.model g.1) = τ1
    generalize bodyTwist G j.model q.get v.get (geomBody j.model g.2) = τ2
    have hp : √(sq3 (x2 - x1)) ≠ 0 := (Real.sqrt_pos.2 (sq3_pos fun e => hne (by rw [e]))).ne'
    simp only [sphereSphere, if_neg hp]
    have e2 : x1 = x2 + (-√(sq3 (x2 - x1))) • ((√(sq3 (x2 - x1)))⁻¹ • (x2 - x1)) := by
      rw [smul_smul, neg_mul, mul_inv_cancel₀ hp]; module
    generalize hn : (√(sq3 (x2 - x1)))⁻¹ • (x2 - x1) = nn at *
    rw [dotProduct_sub, dotProduct_sub, normal_slide nn x1, normal_slide nn x1]
    congr 1
    generalize -√(sq3 (x2 - x1)) = c at e2
    rw [e2, normal_slide]

/-- **C108**: a barrier that watches pairs of spheres.  Values and Jacobian exist; every row belongs to a watched pair: the value is the distance of its
surfaces minus `d_min`, and when the robot moves from `q` with any joint velocity `v`, the distance of the centres (and so that of the surfaces)
changes at the rate `J v`. -/
theorem C108_spheres (hs : Simulates env G j.model) (hw : RobotWF G j.model) (hc : CollidesSpheres env size j.model) (hu : UnitQuats j.model q)
    (hk : j.kind = .selfCollision s (Arr.onesMul n (Arr.scalar dMin)) pairs n) (hg : OneGroup j.model 2 2 pairs) (hne : pairs ≠ [])
    (hn : n ≤ pairs.length)
    (hsep : ∀ g ∈ pairs, objPos (update env j.model q) .geom g.1 ≠ objPos (update env j.model q) .geom g.2) :
    ∃ J V, evalJacobian env j (update env j.model q) = .ok J ∧ evalValue env j (update env j.model q) = .ok V ∧ J.rows = n ∧ V.len = n ∧
      ∀ i < n, ∃ g ∈ pairs, ∀ v : Vec ℝ, ∃ X1 X2 : ℝ → V3 ℝ,
        (∀ t, objPos (update env j.model (integrate env j.model q v t)) .geom g.1 = .ok (X1 t) ∧
          objPos (update env j.model (integrate env j.model q v t)) .geom g.2 = .ok (X2 t)) ∧
        objPos (update env j.model q) .geom g.1 = .ok (X1 0) ∧ objPos (update env j.model q) .geom g.2 = .ok (X2 0) ∧
        V.get i = gap (X1 0) (X2 0) - (size.getD g.1.toNat 0 + size.getD g.2.toNat 0) - dMin ∧
        HasDerivAt (fun t => gap (X1 t) (X2 t)) (rowDot J i v.get) 0 := by
  obtain ⟨J, V, h1, h2, h3, h4, h5⟩ := group_rows hs hw hu hk hg.tables hg.bodies hg.inRange (group_uniform hc (.inl rfl) hg q) hne hn
  refine ⟨J, V, h1, h2, h3, h4, fun i hi => ?_⟩
  obtain ⟨p, g, -, hpg, hV, hJ⟩ := h5 i hi
  have hmem := List.mem_of_getElem? hpg
  refine ⟨g, hmem, fun v => ?_⟩
  obtain ⟨X1, X2, x1, x2, x3, -, x4, x5⟩ := sphere_rate hs hw hc hu hg hmem (hsep g hmem) v
  exact ⟨X1, X2, x1, x2, x3, by rw [hV, x4], by rw [hJ]; exact x5⟩

/-- **C108** (values): where the watched distances differ from each other, the sorted values of the barrier themselves change at the rates of the
Jacobian. -/
theorem C108_values (hs : Simulates env G j.model) (hw : RobotWF G j.model) (hc : CollidesSpheres env size j.model) (hu : UnitQuats j.model q)
    (hk : j.kind = .selfCollision s (Arr.onesMul n (Arr.scalar dMin)) pairs n) (hg : OneGroup j.model 2 2 pairs) (hne : pairs ≠ [])
    (hn : n ≤ pairs.length)
    (hsep : ∀ g ∈ pairs, objPos (update env j.model q) .geom g.1 ≠ objPos (update env j.model q) .geom g.2)
    (hdist : ∀ g ∈ pairs, ∀ g' ∈ pairs, ∀ x y x' y', objPos (update env j.model q) .geom g.1 = .ok x → objPos (update env j.model q) .geom g.2 = .ok y →
      objPos (update env j.model q) .geom g'.1 = .ok x' → objPos (update env j.model q) .geom g'.2 = .ok y' →
      gap x y - (size.getD g.1.toNat 0 + size.getD g.2.toNat 0) = gap x' y' - (size.getD g'.1.toNat 0 + size.getD g'.2.toNat 0) → g = g')
    (hnd : pairs.Nodup) :
    ∃ J, evalJacobian env j (update env j.model q) = .ok J ∧ ∀ v : Vec ℝ, ∃ V : ℝ → Vec ℝ,
      (∀ t, evalValue env j (update env j.model (integrate env j.model q v t)) = .ok (V t)) ∧
      ∀ i < n, HasDerivAt (fun t => (V t).get i) (rowDot J i v.get) 0 := by
  obtain ⟨J, V0, h1, -, -, -, h5⟩ := group_rows hs hw hu hk hg.tables hg.bodies hg.inRange (group_uniform hc (.inl rfl) hg q) hne hn
  refine ⟨J, h1, fun v => ?_⟩
  have hval : ∀ t, ∃ V, evalValue env j (update env j.model (integrate env j.model q v t)) = .ok V ∧ ∀ i < n, V.get i =
      ((ascOrder (pairs.map fun g => (contactOf env j.model (integrate env j.model q v t) g).dist)).map fun k =>
        (pairs.map fun g => (contactOf env j.model (integrate env j.model q v t) g).dist).getD k 0).getD i 0 - dMin := by
    intro t
    obtain ⟨cs, c1, c2⟩ := uniform_contacts _ hg.tables hg.inRange (group_uniform hc (.inl rfl) hg (integrate env j.model q v t))
    obtain ⟨V, v1, -, v3⟩ := selfCollision_value env hk c1 (by rw [c2, List.length_map]; exact hn)
    refine ⟨V, v1, fun i hi => ?_⟩
    rw [v3 i hi, c2, List.map_map]
    rfl
  choose V hV1 hV2 using hval
  refine ⟨V, hV1, fun i hi => ?_⟩
  obtain ⟨p, g, hp, hpg, -, hJ⟩ := h5 i hi
  have e : (fun t => (V t).get i) = fun t => ((ascOrder (pairs.map fun g => (contactOf env j.model (integrate env j.model q v t) g).dist)).map fun k =>
        (pairs.map fun g => (contactOf env j.model (integrate env j.model q v t) g).dist).getD k 0).getD i 0 - dMin := by
    funext t; exact hV2 t i hi
  rw [e, hJ]
  -- the distances at the start
  have h0 : ∀ g ∈ pairs, (contactOf env j.model (integrate env j.model q v 0) g).dist = (contactOf env j.model q g).dist := by
    intro g hgm
    obtain ⟨X1, X2, -, -, -, x4, x5, -⟩ := sphere_rate hs hw hc hu hg hgm (hsep g hgm) v
    rw [x4 0, x5]
  have h0l : (pairs.map fun g => (contactOf env j.model (integrate env j.model q v 0) g).dist) = pairs.map fun g => (contactOf env j.model q g).dist :=
    List.map_congr_left h0
  have := sorted_rate (pairs := pairs) (D := fun t g => (contactOf env j.model (integrate env j.model q v t) g).dist)
    (r := fun g => (contactOf env j.model q g).normal ⬝ᵥ
        (pointVel (contactOf env j.model q g).pos (bodyTwist G j.model q.get v.get (geomBody j.model g.2)) -
          pointVel (contactOf env j.model q g).pos (bodyTwist G j.model q.get v.get (geomBody j.model g.1)))) (i := i) (p := p) (g := g)
    ?_ ?_ (by rw [h0l]; exact hp) hpg
  · exact this.sub_const dMin
  · intro g hgm
    obtain ⟨X1, X2, -, -, -, x4, -, x6⟩ := sphere_rate hs hw hc hu hg hgm (hsep g hgm) v
    simp only [x4]
    exact x6.sub_const _
  · rw [h0l]
    refine List.Nodup.map_on ?_ hnd
    intro g hgm g' hgm' he
    obtain ⟨X1, X2, -, y1, y2, -, y3, -⟩ := sphere_rate hs hw hc hu hg hgm (hsep g hgm) v
    obtain ⟨Y1, Y2, -, z1, z2, -, z3, -⟩ := sphere_rate hs hw hc hu hg hgm' (hsep g' hgm') v
    rw [y3, z3] at he
    exact hdist g hgm g' hgm' _ _ _ _ y1 y2 z1 z2 he

/-- **C108** (meaning): for `d_min > 0` all values are nonnegative exactly when no two points of watched spheres are closer than `d_min`. -/
theorem C108_apart (hs : Simulates env G j.model) (hc : CollidesSpheres env size j.model)
    (hk : j.kind = .selfCollision s (Arr.onesMul n (Arr.scalar dMin)) pairs n) (hg : OneGroup j.model 2 2 pairs)
    (hn1 : 1 ≤ n) (hn : n ≤ pairs.length) (hd : 0 < dMin) (hr : ∀ r ∈ size, 0 ≤ r) (q : Vec ℝ) :
    ∃ V, evalValue env j (update env j.model q) = .ok V ∧ ((∀ i < n, 0 ≤ V.get i) ↔
      ∀ g ∈ pairs, ∀ x1 x2, objPos (update env j.model q) .geom g.1 = .ok x1 → objPos (update env j.model q) .geom g.2 = .ok x2 →
        ∀ y1 y2, gap x1 y1 ≤ size.getD g.1.toNat 0 → gap x2 y2 ≤ size.getD g.2.toNat 0 → dMin ≤ gap y1 y2) := by
  have hun := group_uniform hc (.inl rfl) hg q
  have hor : ∀ g ∈ pairs, orient j.model g = g := fun g h => if_neg (not_lt.2 (hun.oriented g h))
  have hpc : ∀ g ∈ pairs, pairContacts (env.collide j.model (update env j.model q)) j.model (orient j.model g) = [⟨g, contactOf env j.model q g⟩] := by
    intro g h
    unfold pairContacts
    rw [hor g h, hun.single g h]
    rfl
  have hall : (allContacts (env.collide j.model (update env j.model q)) j.model pairs).length = pairs.length := by
    unfold allContacts
    rw [List.length_flatMap, List.map_congr_left (g := fun _ => 1) fun g h => by rw [hpc g h]; rfl]
    simp
  obtain ⟨V, h1, h2⟩ := C54_safe env hk hg.tables hg.inRange (fun g h => by unfold HasFunction; rw [hor g h]; exact hun.known g h)
    (by rw [hall]; exact hn) hn1
  refine ⟨V, h1, h2.trans ?_⟩
  have hsz : ∀ k, 0 ≤ size.getD k 0 := by
    intro k
    by_cases hk : k < size.length
    · rw [List.getD_eq_getElem _ _ hk]; exact hr _ (List.getElem_mem _)
    · rw [List.getD_eq_default _ _ (by omega)]
  refine forall₂_congr fun g h => ?_
  obtain ⟨⟨a1, a2⟩, b1, b2⟩ := hg.inRange g h
  have P1 := geom_pos (j := j) hs hg.bodies q a1 a2
  have P2 := geom_pos (j := j) hs hg.bodies q b1 b2
  have hdist : (contactOf env j.model q g).dist = gap ((bodyPose G j.model q.get (geomBody j.model g.1)).apply (G.geomPos.getD g.1.toNat 0))
      ((bodyPose G j.model q.get (geomBody j.model g.2)).apply (G.geomPos.getD g.2.toNat 0)) -
      (size.getD g.1.toNat 0 + size.getD g.2.toNat 0) := by
    rw [sphere_contact hc hg h, P1.2.1, P2.2.1]; rfl
  rw [hpc g h, P1.1, P2.1]
  simp only [List.mem_singleton, forall_eq, Except.ok.injEq]
  rw [hdist, balls_apart (hsz _) (hsz _) hd]
  constructor
  · rintro h x1 x2 rfl rfl; exact h
  · intro h; exact h _ _ rfl rfl

/-! ### C109: planes -/

/-- What is reported for a plane and a sphere. -/
theorem plane_contact (hc : CollidesSpheres env size j.model) {g : Int × Int} (ht : geomTypeOf j.model g.1 = 0 ∧ geomTypeOf j.model g.2 = 2) (q : Vec ℝ) :
    contactOf env j.model q g = planeSphere ((update env j.model q).geomXpos.getD g.1.toNat 0) ((update env j.model q).geomXmat.getD g.1.toNat 0)
      ((update env j.model q).geomXpos.getD g.2.toNat 0) (size.getD g.2.toNat 0) :=
  hc.planes _ _ _ ht.1 ht.2

/-- The normal of a plane. -/
def normalOf (M : M3 ℝ) : V3 ℝ := fun a => M a 2

theorem geom_mat (hs : Simulates env G j.model) (hb : j.model.geomBodyid.length = j.model.geomType.length) (q : Vec ℝ) {g : Int}
    (h0 : 0 ≤ g) (h1 : g < j.model.geomType.length) :
    objMat (update env j.model q) .geom g = .ok (quatMat ((bodyPose G j.model q.get (geomBody j.model g)).rot * G.geomQuat.getD g.toNat 1)) := by
  have hl : g.toNat < j.model.geomBodyid.length := by omega
  have hb' : bodyOf j.model .geom g.toNat = some (geomBody j.model g) := by
    show j.model.geomBodyid[g.toNat]? = some (j.model.geomBodyid.getD g.toNat 0)
    rw [List.getD_eq_getElem _ _ hl, List.getElem?_eq_getElem hl]
  obtain ⟨-, o2⟩ := update_object hs q hb'
  have e : ((g.toNat : Nat) : Int) = g := by omega
  rw [e] at o2
  exact o2

theorem plane_rate (hs : Simulates env G j.model) (hw : RobotWF G j.model) (hc : CollidesSpheres env size j.model) (hu : UnitQuats j.model q)
    (hb : j.model.geomBodyid.length = j.model.geomType.length) {g : Int × Int} (hr : InRange j.model g)
    (ht : geomTypeOf j.model g.1 = 0 ∧ geomTypeOf j.model g.2 = 2) (v : Vec ℝ) :
    ∃ (X1 X2 : ℝ → V3 ℝ) (M : ℝ → M3 ℝ), (∀ t, objPos (update env j.model (integrate env j.model q v t)) .geom g.1 = .ok (X1 t) ∧
        objMat (update env j.model (integrate env j.model q v t)) .geom g.1 = .ok (M t) ∧
        objPos (update env j.model (integrate env j.model q v t)) .geom g.2 = .ok (X2 t)) ∧
      objPos (update env j.model q) .geom g.1 = .ok (X1 0) ∧ objMat (update env j.model q) .geom g.1 = .ok (M 0) ∧
      objPos (update env j.model q) .geom g.2 = .ok (X2 0) ∧
      (contactOf env j.model q g).dist = (X2 0 - X1 0) ⬝ᵥ normalOf (M 0) - size.getD g.2.toNat 0 ∧
      HasDerivAt (fun t => (X2 t - X1 t) ⬝ᵥ normalOf (M t)) ((contactOf env j.model q g).normal ⬝ᵥ
        (pointVel (contactOf env j.model q g).pos (bodyTwist G j.model q.get v.get (geomBody j.model g.2)) -
          pointVel (contactOf env j.model q g).pos (bodyTwist G j.model q.get v.get (geomBody j.model g.1)))) 0 := by
  obtain ⟨⟨a1, a2⟩, b1, b2⟩ := hr
  have P1 := fun q' => geom_pos (j := j) hs hb q' a1 a2
  have P2 := fun q' => geom_pos (j := j) hs hb q' b1 b2
  have M1 := fun q' => geom_mat (j := j) hs hb q' a1 a2
  have T1 := geom_twist hs hw hu hb a1 a2 v
  have T2 := geom_twist hs hw hu hb b1 b2 v
  have s1 := start_pose hs hw hu v (geomBody_lt hw hb a1 a2)
  have s2 := start_pose hs hw hu v (geomBody_lt hw hb b1 b2)
  have D2 := fun a => T2 (G.geomPos.getD g.2.toNat 0) a
  simp only [s2] at D2
  have hnorm : ∀ R : ℍ[ℝ], normalOf (quatMat (R * G.geomQuat.getD g.1.toNat 1)) = rotate R (rotate (G.geomQuat.getD g.1.toNat 1) (Pi.single 2 1)) := by
    intro R
    funext a
    rw [← rotate_mul]
    show quatMat (R * G.geomQuat.getD g.1.toNat 1) a 2 = _
    rw [← quatMat_mulVec, Matrix.mulVec_single_one]
    rfl
  refine ⟨_, _, _, fun t => ⟨(P1 _).1, M1 _, (P2 _).1⟩, ?_, ?_, ?_, ?_, ?_⟩
  · rw [s1]; exact (P1 q).1
  · rw [s1]; exact M1 q
  · rw [s2]; exact (P2 q).1
  · rw [plane_contact hc ht, (P1 _).2.1, (P1 _).2.2, (P2 _).2.1, s1, s2]; rfl
  · simp only [hnorm]
    have hd := height_rate T1 (G.geomPos.getD g.1.toNat 0) (rotate (G.geomQuat.getD g.1.toNat 1) (Pi.single 2 1)) D2
    simp only [s1, s2] at hd
    refine hd.congr_deriv ?_
    have hcn : (contactOf env j.model q g).normal = rotate (bodyPose G j.model q.get (geomBody j.model g.1)).rot
        (rotate (G.geomQuat.getD g.1.toNat 1) (Pi.single 2 1)) := by
      rw [plane_contact hc ht, (P1 _).2.2, ← hnorm]; rfl
    have hcp : ∃ c : ℝ, (contactOf env j.model q g).pos = (bodyPose G j.model q.get (geomBody j.model g.2)).apply (G.geomPos.getD g.2.toNat 0) +
        c • (contactOf env j.model q g).normal := by
      refine ⟨-(size.getD g.2.toNat 0 + (contactOf env j.model q g).dist / 2), ?_⟩
      rw [plane_contact hc ht, ← (P2 _).2.1]
      simp only [planeSphere, neg_smul, sub_eq_add_neg]
    obtain ⟨c, hcp⟩ := hcp
    rw [hcp, ← hcn, dotProduct_sub, dotProduct_sub, normal_slide, normal_slide]

/-- **C109, partial**: a barrier that watches pairs of a plane and a sphere, the plane listed first.  Every row belongs to a watched pair: the value is
the height of the sphere above the plane minus `d_min`, and the height changes at the rate `J v`.  Missing: pairs that list the sphere
first, where it is false (below). -/
theorem C109_planes_partial (hs : Simulates env G j.model) (hw : RobotWF G j.model) (hc : CollidesSpheres env size j.model) (hu : UnitQuats j.model q)
    (hk : j.kind = .selfCollision s (Arr.onesMul n (Arr.scalar dMin)) pairs n) (hg : OneGroup j.model 0 2 pairs) (hne : pairs ≠ [])
    (hn : n ≤ pairs.length) :
    ∃ J V, evalJacobian env j (update env j.model q) = .ok J ∧ evalValue env j (update env j.model q) = .ok V ∧ J.rows = n ∧ V.len = n ∧
      ∀ i < n, ∃ g ∈ pairs, ∀ v : Vec ℝ, ∃ (X1 X2 : ℝ → V3 ℝ) (M : ℝ → M3 ℝ),
        (∀ t, objPos (update env j.model (integrate env j.model q v t)) .geom g.1 = .ok (X1 t) ∧
          objMat (update env j.model (integrate env j.model q v t)) .geom g.1 = .ok (M t) ∧
          objPos (update env j.model (integrate env j.model q v t)) .geom g.2 = .ok (X2 t)) ∧
        objPos (update env j.model q) .geom g.1 = .ok (X1 0) ∧ objMat (update env j.model q) .geom g.1 = .ok (M 0) ∧
        objPos (update env j.model q) .geom g.2 = .ok (X2 0) ∧
        V.get i = (X2 0 - X1 0) ⬝ᵥ normalOf (M 0) - size.getD g.2.toNat 0 - dMin ∧
        HasDerivAt (fun t => (X2 t - X1 t) ⬝ᵥ normalOf (M t)) (rowDot J i v.get) 0 := by
  obtain ⟨J, V, h1, h2, h3, h4, h5⟩ := group_rows hs hw hu hk hg.tables hg.bodies hg.inRange (group_uniform hc (.inr rfl) hg q) hne hn
  refine ⟨J, V, h1, h2, h3, h4, fun i hi => ?_⟩
  obtain ⟨p, g, -, hpg, hV, hJ⟩ := h5 i hi
  have hmem := List.mem_of_getElem? hpg
  refine ⟨g, hmem, fun v => ?_⟩
  obtain ⟨X1, X2, M, x1, x2, x3, x4, x5, x6⟩ := plane_rate hs hw hc hu hg.bodies (hg.inRange g hmem) (hg.types g hmem) v
  exact ⟨X1, X2, M, x1, x2, x3, x4, by rw [hV, x5], by rw [hJ]; exact x6⟩

/-- **C109 fails when the sphere is listed first**: the value is still the height of the sphere above the plane minus `d_min`, but the Jacobian is the
rate of change of the height with the wrong sign, for every motion. -/
theorem C109_reversed (hs : Simulates env G j.model) (hw : RobotWF G j.model) (hc : CollidesSpheres env size j.model) (hu : UnitQuats j.model q)
    {g : Int × Int} (hk : j.kind = .selfCollision s (Arr.onesMul 1 (Arr.scalar dMin)) [g] 1) (hg : OneGroup j.model 2 0 [g]) :
    ∃ J V, evalJacobian env j (update env j.model q) = .ok J ∧ evalValue env j (update env j.model q) = .ok V ∧ J.rows = 1 ∧ V.len = 1 ∧
      ∀ v : Vec ℝ, ∃ (X1 X2 : ℝ → V3 ℝ) (M : ℝ → M3 ℝ),
        (∀ t, objPos (update env j.model (integrate env j.model q v t)) .geom g.2 = .ok (X1 t) ∧
          objMat (update env j.model (integrate env j.model q v t)) .geom g.2 = .ok (M t) ∧
          objPos (update env j.model (integrate env j.model q v t)) .geom g.1 = .ok (X2 t)) ∧
        objPos (update env j.model q) .geom g.2 = .ok (X1 0) ∧ objMat (update env j.model q) .geom g.2 = .ok (M 0) ∧
        objPos (update env j.model q) .geom g.1 = .ok (X2 0) ∧
        V.get 0 = (X2 0 - X1 0) ⬝ᵥ normalOf (M 0) - size.getD g.1.toNat 0 - dMin ∧
        HasDerivAt (fun t => (X2 t - X1 t) ⬝ᵥ normalOf (M t)) (-rowDot J 0 v.get) 0 := by
  have hr := hg.inRange g (by simp)
  obtain ⟨t1, t2⟩ := hg.types g (by simp)
  have hflip : geomTypeOf j.model g.2 < geomTypeOf j.model g.1 := by rw [t1, t2]; omega
  have hor : orient j.model g = (g.2, g.1) := if_pos hflip
  have hf : HasFunction (env.collide j.model (update env j.model q)) j.model g := by
    unfold HasFunction
    rw [hor, t1, t2]
    exact (hc.known _).2
  have hone : (env.collide j.model (update env j.model q)).ncon (geomTypeOf j.model g.2) (geomTypeOf j.model g.1) = 1 := by
    rw [t1, t2]; exact (hc.ncon _).2
  obtain ⟨cs, h1, h2⟩ := computeCollisionPairs_ok (env.collide j.model (update env j.model q)) hg.tables (pairs := [g]) (by simpa using hr) (by simpa using hf)
  have hall : allContacts (env.collide j.model (update env j.model q)) j.model [g] = [⟨(g.2, g.1), contactOf env j.model q (g.2, g.1)⟩] := by
    simp only [allContacts, List.flatMap_cons, List.flatMap_nil, List.append_nil, hor, pairContacts, hone]
    rfl
  rw [hall, List.perm_singleton] at h2
  have hk' : j.kind = .selfCollision s (Arr.onesMul 1 (Arr.scalar dMin)) [g] ((1 : Nat) : Int) := hk
  obtain ⟨J, hJ, hcols⟩ := collision_jacobian_exists hs hw hu hk' hg.bodies hg.inRange h1 (by simp) (by rw [h2]; simp)
  obtain ⟨V, v1, v2, v3⟩ := selfCollision_value env hk' h1 (by rw [h2]; simp)
  obtain ⟨r1, -⟩ := C55_bodies_by_position env hk' h1 (fun g' hg' => by rw [hg.bodies]; exact hg.inRange g' hg') hJ
  obtain ⟨c, k1, k2, hrow⟩ := C55_flipped_pair env hk hg.tables hr hflip hf hone hg.bodies hJ
  rw [hall] at k1
  injection k1 with k1
  rw [← k1] at hrow
  refine ⟨J, V, hJ, v1, r1, v2, fun v => ?_⟩
  obtain ⟨X1, X2, M, x1, x2, x3, x4, x5, x6⟩ := plane_rate hs hw hc hu hg.bodies (g := (g.2, g.1)) ⟨hr.2, hr.1⟩ ⟨t2, t1⟩ v
  refine ⟨X1, X2, M, x1, x2, x3, x4, ?_, ?_⟩
  · rw [v3 0 (by omega), h2]
    have : ascOrder [(contactOf env j.model q (g.2, g.1)).dist] = [0] := by simp [ascOrder]
    simp only [List.map_cons, List.map_nil, this, List.getD_cons_zero]
    rw [x5]
  · obtain ⟨⟨a1, a2⟩, b1, b2⟩ := hr
    rw [rowDot, hcols, distanceRow_twist hs hw hu (geomBody_lt hw hg.bodies a1 a2) (geomBody_lt hw hg.bodies b1 b2) hrow]
    refine x6.congr_deriv ?_
    rw [dotProduct_sub, dotProduct_sub]
    ring

end

/-! ### Examples -/

namespace Beads

/-- A rail: body 1 slides along x, body 2 hangs on it and turns about z; body 3 is fixed.  Geoms: a floor and a ball of the world, a ball on the
slider, a ball on the arm, a wall (a plane) on body 3. -/
noncomputable def model : MjModel ℝ :=
  { (MjModel.empty : MjModel ℝ) with
    nq := 2, nv := 2, nbody := 4, jntType := [.slide, .hinge], jntQposadr := [0, 1], jntDofadr := [0, 1], jntRange := [(0, 0), (0, 0)],
    bodyParentid := [0, 0, 1, 0], bodyRootid := [0, 1, 1, 3], bodyWeldid := [0, 1, 2, 0], dofBodyid := [1, 2], bodyMass := [0, 1, 1, 1],
    geomBodyid := [0, 0, 1, 2, 3], geomType := [0, 2, 2, 2, 0], geomDataid := [-1, -1, -1, -1, -1], geomPriority := [0, 0, 0, 0, 0],
    geomCondim := [3, 3, 3, 3, 3], bodyNames := ["world", "slider", "arm", "wall"] }

noncomputable def geometry : Geometry where
  bodyPos := [0, ![0, 0, 1], ![1, 0, 1], ![7, 0, 0]]
  bodyQuat := [1, 1, 1, Digger.tilt]
  bodyIpos := [0, 0, 0, 0]
  jntBodyid := [1, 2]
  jntPos := [0, 0]
  jntAxis := [![1, 0, 0], ![0, 0, 1]]
  qpos0 := fun _ => 0
  geomPos := [0, ![0, 5, 0], 0, 0, 0]
  geomQuat := [1, 1, 1, 1, 1]
  sitePos := []
  siteQuat := []

noncomputable def size : List ℝ := [0, 1 / 2, 1 / 2, 1 / 4, 0]

noncomputable def env : Env ℝ :=
  { Rod.env 0 with
    kinematics := simKinematics geometry, comPos := simComPos geometry, makeConstraint := fun _ d => d
    collide := fun _ d =>
      { known := fun _ _ => true, ncon := fun _ _ => 1
        contact := fun key g _ => if key.type1 = 2 then
          sphereSphere (d.geomXpos.getD g.1.toNat 0) (size.getD g.1.toNat 0) (d.geomXpos.getD g.2.toNat 0) (size.getD g.2.toNat 0)
          else planeSphere (d.geomXpos.getD g.1.toNat 0) (d.geomXmat.getD g.1.toNat 0) (d.geomXpos.getD g.2.toNat 0) (size.getD g.2.toNat 0) } }

theorem simulates : Simulates env geometry model := ⟨fun _ => rfl, fun _ => rfl, fun d => ⟨d.efcEq, d.efcPos, d.efcJ, rfl⟩, rfl⟩

theorem collides : CollidesSpheres env size model where
  known _ := ⟨rfl, rfl⟩
  ncon _ := ⟨rfl, rfl⟩
  spheres d key g h _ := by show (if key.type1 = 2 then _ else _) = _; rw [if_pos h]
  planes d key g h _ := by show (if key.type1 = 2 then _ else _) = _; rw [if_neg (by omega)]

theorem robot : RobotWF geometry model where
  tree := by
    refine ⟨?_, by decide, rfl, by decide⟩
    intro b h0 hb
    have : b < 4 := hb
    interval_cases b <;> decide
  addr := ⟨by repeat' constructor, rfl⟩
  joints := by
    intro j hj
    have : j < 2 := hj
    interval_cases j <;> exact ⟨by decide, by decide⟩
  dofs := rfl
  axis := by
    intro j hj ht
    have : j < 2 := hj
    interval_cases j
    · cases ht
    · show sq3 ![0, 0, 1] = 1
      simp [sq3]
  quat := by
    refine Digger.cover _ ?_ ?_ ?_ ?_ ?_
    · show Quaternion.normSq (1 : ℍ[ℝ]) = 1; simp
    · show Quaternion.normSq (1 : ℍ[ℝ]) = 1; simp
    · show Quaternion.normSq (1 : ℍ[ℝ]) = 1; simp
    · exact Digger.tilt_unit
    · intro j hj
      rw [List.getD_eq_default _ _ (by exact hj)]; simp
  free := by
    intro j hj ht
    have : j < 2 := hj
    interval_cases j <;> cases ht
  ball := by
    intro j i hji hi _ ht
    have hi' : i < 2 := hi
    have hj : j < 2 := by omega
    interval_cases j <;> cases ht
  roots := ⟨rfl, by decide⟩
  root := by
    intro b h0 hb hp
    have : b < 4 := hb
    interval_cases b
    · exact absurd rfl hp
    · rfl
    · exact absurd rfl hp
  mass := rfl
  objects := ⟨by decide, by simp [model, MjModel.empty]⟩
  turns := by
    constructor
    · intro j
      by_cases hj : j < 5
      · interval_cases j <;> (show Quaternion.normSq (1 : ℍ[ℝ]) = 1; simp)
      · rw [List.getD_eq_default _ _ (show 5 ≤ j by omega)]; simp
    · intro j
      rw [List.getD_eq_default _ _ (show 0 ≤ j by omega)]; simp

theorem unit (q : Vec ℝ) : UnitQuats model q := by
  intro k adr h
  by_cases hk : k < 2
  · interval_cases k <;> cases h
  · rw [List.getD_eq_default (l := model.jntType) _ (show 2 ≤ k by omega)] at h
    cases h

/-- The slider at `x`, the arm straight. -/
noncomputable def at0 (x : ℝ) : Vec ℝ := ⟨2, fun i => if i = 0 then x else 0⟩

theorem pose1 (x : ℝ) : bodyPose geometry model (at0 x).get 1 = ⟨1, ![x, 0, 1]⟩ := by
  have hj : jointsOfBody geometry model 1 = [0] := rfl
  rw [bodyPose, if_neg (by decide), hj]
  have hp : model.bodyParentid.getD 1 0 = 0 := rfl
  simp only [hp, dif_pos (show 0 < 1 by decide), bodyPose_zero, List.foldl_cons, List.foldl_nil]
  have e : jointMove geometry model (at0 x).get ((SE3.one : SE3 ℝ).mul ⟨geometry.bodyQuat.getD 1 1, geometry.bodyPos.getD 1 0⟩) 0 =
      ⟨1 * 1, (rotate 1 ![0, 0, 1] + 0) + (x - 0) • rotate (1 * 1) ![1, 0, 0]⟩ := rfl
  rw [e, one_mul, rotate_one, rotate_one, SE3.mk.injEq]
  refine ⟨rfl, ?_⟩
  funext a
  fin_cases a <;> simp

theorem pose2 (x : ℝ) : bodyPose geometry model (at0 x).get 2 = ⟨1, ![x + 1, 0, 2]⟩ := by
  have hj : jointsOfBody geometry model 2 = [1] := rfl
  rw [bodyPose, if_neg (by decide), hj]
  have hp : model.bodyParentid.getD 2 0 = 1 := rfl
  simp only [hp, dif_pos (show 1 < 2 by decide), pose1, List.foldl_cons, List.foldl_nil]
  have e : jointMove geometry model (at0 x).get ((⟨1, ![x, 0, 1]⟩ : SE3 ℝ).mul ⟨geometry.bodyQuat.getD 2 1, geometry.bodyPos.getD 2 0⟩) 1 =
      ⟨1 * 1 * axisAngleQuat ![0, 0, 1] (0 - 0), (rotate (1 * 1) 0 + (rotate 1 ![1, 0, 1] + ![x, 0, 1])) - rotate (1 * 1 * axisAngleQuat ![0, 0, 1] (0 - 0)) 0⟩ := rfl
  have e1 : axisAngleQuat ![0, 0, 1] (0 - 0) = 1 := by
    rw [axisAngleQuat]
    ext <;> simp
  rw [e, e1, one_mul, one_mul, rotate_one, rotate_one, SE3.mk.injEq]
  refine ⟨rfl, ?_⟩
  funext a
  fin_cases a
  · simp; ring
  · simp
  · simp; norm_num

/-- The barrier that keeps the two moving balls one decimetre away from the ball of the world. -/
noncomputable def barrier : JaxComp ℝ :=
  { model := model, vectorGain := Arr.scalar 1, gainFn := id, dim := 2, maskIdxs := [0, 1],
    kind := .selfCollision 1 (Arr.onesMul 2 (Arr.scalar (1 / 10))) [(1, 2), (1, 3)] 2 }

theorem group : OneGroup model 2 2 [(1, 2), (1, 3)] := by
  refine ⟨⟨rfl, rfl, rfl⟩, rfl, ?_, ?_, ?_⟩
  · intro g hg
    fin_cases hg <;> exact ⟨⟨by decide, by decide⟩, by decide, by decide⟩
  · intro g hg
    fin_cases hg <;> exact ⟨rfl, rfl⟩
  · intro g hg g' hg'
    fin_cases hg <;> fin_cases hg' <;> rfl

theorem pos1 (x : ℝ) : objPos (update env model (at0 x)) .geom 1 = .ok ![0, 5, 0] := by
  refine (geom_pos (j := barrier) simulates rfl (at0 x) (g := 1) (by decide) (by decide)).1.trans ?_
  have hb : geomBody barrier.model 1 = 0 := rfl
  rw [hb, bodyPose_zero]
  congr 1
  show rotate 1 ![0, 5, 0] + 0 = _
  rw [rotate_one, add_zero]

theorem pos2 (x : ℝ) : objPos (update env model (at0 x)) .geom 2 = .ok ![x, 0, 1] := by
  refine (geom_pos (j := barrier) simulates rfl (at0 x) (g := 2) (by decide) (by decide)).1.trans ?_
  have hb : geomBody barrier.model 2 = 1 := rfl
  have hm : barrier.model = model := rfl
  rw [hb, hm, pose1]
  congr 1
  show rotate 1 0 + ![x, 0, 1] = _
  rw [rotate_one, zero_add]

theorem pos3 (x : ℝ) : objPos (update env model (at0 x)) .geom 3 = .ok ![x + 1, 0, 2] := by
  refine (geom_pos (j := barrier) simulates rfl (at0 x) (g := 3) (by decide) (by decide)).1.trans ?_
  have hb : geomBody barrier.model 3 = 2 := rfl
  have hm : barrier.model = model := rfl
  rw [hb, hm, pose2]
  congr 1
  show rotate 1 0 + ![x + 1, 0, 2] = _
  rw [rotate_one, zero_add]

theorem separate (x : ℝ) : ∀ g ∈ [((1 : Int), (2 : Int)), (1, 3)],
    objPos (update env model (at0 x)) .geom g.1 ≠ objPos (update env model (at0 x)) .geom g.2 := by
  intro g hg
  fin_cases hg
  · show objPos (update env model (at0 x)) .geom 1 ≠ objPos (update env model (at0 x)) .geom 2
    rw [pos1, pos2]
    intro h
    injection h with h
    have := congrFun h 1
    simp at this
  · show objPos (update env model (at0 x)) .geom 1 ≠ objPos (update env model (at0 x)) .geom 3
    rw [pos1, pos3]
    intro h
    injection h with h
    have := congrFun h 1
    simp at this

/-- All hypotheses of `C108_spheres` hold, wherever the slider is. -/
example (x : ℝ) : ∃ J V, evalJacobian env barrier (update env model (at0 x)) = .ok J ∧ evalValue env barrier (update env model (at0 x)) = .ok V ∧
    J.rows = 2 ∧ V.len = 2 ∧ ∀ i < 2, ∃ g ∈ [((1 : Int), (2 : Int)), (1, 3)], ∀ v : Vec ℝ, ∃ X1 X2 : ℝ → V3 ℝ,
        (∀ t, objPos (update env model (integrate env model (at0 x) v t)) .geom g.1 = .ok (X1 t) ∧
          objPos (update env model (integrate env model (at0 x) v t)) .geom g.2 = .ok (X2 t)) ∧
        objPos (update env model (at0 x)) .geom g.1 = .ok (X1 0) ∧ objPos (update env model (at0 x)) .geom g.2 = .ok (X2 0) ∧
        V.get i = gap (X1 0) (X2 0) - (size.getD g.1.toNat 0 + size.getD g.2.toNat 0) - 1 / 10 ∧
        HasDerivAt (fun t => gap (X1 t) (X2 t)) (rowDot J i v.get) 0 :=
  C108_spheres (j := barrier) simulates robot collides (unit _) rfl group (by decide) (by decide) (separate x)

/-- … and of `C108_values`, with the slider at the origin: the distances are `√26 - 1` and `√30 - 3/4`. -/
example : ∃ J, evalJacobian env barrier (update env model (at0 0)) = .ok J ∧ ∀ v : Vec ℝ, ∃ V : ℝ → Vec ℝ,
      (∀ t, evalValue env barrier (update env model (integrate env model (at0 0) v t)) = .ok (V t)) ∧
      ∀ i < 2, HasDerivAt (fun t => (V t).get i) (rowDot J i v.get) 0 := by
  refine C108_values (j := barrier) (size := size) simulates robot collides (unit _) rfl group (by decide) (by decide) (separate 0) ?_ (by decide)
  have key : gap ![0, 5, 0] ![(0 : ℝ), 0, 1] - (size.getD 1 0 + size.getD 2 0) < gap ![0, 5, 0] ![(0 : ℝ) + 1, 0, 2] - (size.getD 1 0 + size.getD 3 0) := by
    have h1 : gap ![0, 5, 0] ![(0 : ℝ), 0, 1] < gap ![0, 5, 0] ![(0 : ℝ) + 1, 0, 2] := by
      apply Real.sqrt_lt_sqrt (sq3_nonneg _)
      simp [sq3]
      norm_num
    have h2 : size.getD 3 0 < size.getD 2 0 := by show (1 / 4 : ℝ) < 1 / 2; norm_num
    linarith
  intro g hg g' hg' a b c d ha hb hc hd he
  fin_cases hg <;> fin_cases hg'
  · rfl
  · exfalso
    have ha := ha.symm.trans (pos1 0)
    have hb := hb.symm.trans (pos2 0)
    have hc := hc.symm.trans (pos1 0)
    have hd := hd.symm.trans (pos3 0)
    cases ha; cases hb; cases hc; cases hd
    exact key.ne he
  · exfalso
    have ha := ha.symm.trans (pos1 0)
    have hb := hb.symm.trans (pos3 0)
    have hc := hc.symm.trans (pos1 0)
    have hd := hd.symm.trans (pos2 0)
    cases ha; cases hb; cases hc; cases hd
    exact key.ne he.symm
  · rfl

/-- … and of `C108_apart`. -/
example (q : Vec ℝ) : ∃ V, evalValue env barrier (update env model q) = .ok V ∧ ((∀ i < 2, 0 ≤ V.get i) ↔
      ∀ g ∈ [((1 : Int), (2 : Int)), (1, 3)], ∀ x1 x2, objPos (update env model q) .geom g.1 = .ok x1 → objPos (update env model q) .geom g.2 = .ok x2 →
        ∀ y1 y2, gap x1 y1 ≤ size.getD g.1.toNat 0 → gap x2 y2 ≤ size.getD g.2.toNat 0 → 1 / 10 ≤ gap y1 y2) :=
  C108_apart (j := barrier) simulates collides rfl group (by decide) (by decide) (by norm_num)
    (by intro r hr; fin_cases hr <;> norm_num) q

/-- A barrier that keeps the balls above the floor. -/
noncomputable def floor : JaxComp ℝ := { barrier with kind := .selfCollision 1 (Arr.onesMul 2 (Arr.scalar (1 / 10))) [(0, 2), (0, 3)] 2 }

example (q : Vec ℝ) : ∃ J V, evalJacobian env floor (update env model q) = .ok J ∧ evalValue env floor (update env model q) = .ok V ∧
    J.rows = 2 ∧ V.len = 2 := by
  obtain ⟨J, V, h1, h2, h3, h4, -⟩ := C109_planes_partial (j := floor) (q := q) simulates robot collides (unit _) rfl (pairs := [(0, 2), (0, 3)]) (by
    refine ⟨⟨rfl, rfl, rfl⟩, rfl, ?_, ?_, ?_⟩
    · intro g hg
      fin_cases hg <;> exact ⟨⟨by decide, by decide⟩, by decide, by decide⟩
    · intro g hg
      fin_cases hg <;> exact ⟨rfl, rfl⟩
    · intro g hg g' hg'
      fin_cases hg <;> fin_cases hg' <;> rfl) (by decide) (by decide)
  exact ⟨J, V, h1, h2, h3, h4⟩

/-- A barrier that should keep the ball of the arm away from the wall; the ball has the smaller id. -/
noncomputable def wall : JaxComp ℝ := { barrier with dim := 1, maskIdxs := [0], kind := .selfCollision 1 (Arr.onesMul 1 (Arr.scalar (1 / 10))) [(3, 4)] 1 }

example (q : Vec ℝ) : ∃ J V, evalJacobian env wall (update env model q) = .ok J ∧ evalValue env wall (update env model q) = .ok V ∧
    J.rows = 1 ∧ V.len = 1 := by
  obtain ⟨J, V, h1, h2, h3, h4, -⟩ := C109_reversed (j := wall) (q := q) simulates robot collides (unit _) rfl (by
    refine ⟨⟨rfl, rfl, rfl⟩, rfl, ?_, ?_, ?_⟩
    · intro g hg
      fin_cases hg; exact ⟨⟨by decide, by decide⟩, by decide, by decide⟩
    · intro g hg
      fin_cases hg; exact ⟨rfl, rfl⟩
    · intro g hg g' hg'
      fin_cases hg; fin_cases hg'; rfl)
  exact ⟨J, V, h1, h2, h3, h4⟩

end Beads

end Mjinx.Props
