import Verif.Lemmas.Carry
import Mathlib.Analysis.Calculus.FDeriv.Add

/-!
# C122: only relative positions matter
-/

namespace Mjinx.Props
open Spec Finset Carry

variable {env : Env ℝ} {G : Geometry} {m : MjModel ℝ} {s : V3 ℝ}

private theorem operand_along {x : Arr ℝ} {n : Nat} (h : x.shape = [n]) (off : Nat → ℝ) :
    x.operand = .ok ⟨n, fun i => x.get [i]⟩ ∧ (carryArr off x).operand = .ok ⟨n, fun i => x.get [i] + off i⟩ := by
  constructor
  · unfold Arr.operand; rw [h]
  · have : (carryArr off x).shape = [n] := h
    unfold Arr.operand; rw [this]; rfl

private theorem sub_along {n : Nat} {a b a' b' : Nat → ℝ} (o : Nat → ℝ) (ha : ∀ i, a' i = a i + o i) (hb : ∀ i, b' i = b i + o i) :
    subVec ⟨n, a'⟩ ⟨n, b'⟩ = subVec ⟨n, a⟩ ⟨n, b⟩ := by
  unfold subVec Vec.zip
  simp [ha, hb]

private theorem vec3_add (p : V3 ℝ) (mask : List Nat) (i : Nat) : ((vec3 (p + s)).gather mask).get i = ((vec3 p).gather mask).get i + axesOffset s mask i := by
  unfold axesOffset Vec.gather vec3
  dsimp only
  split <;> simp

private theorem coords_add {q : Vec ℝ} (hq : q.len = m.nq) (qi : List Nat) (i : Nat) :
    ((carry m s q).gather qi).get i = (q.gather qi).get i + coordsOffset m s qi i := by
  unfold coordsOffset Vec.gather carry
  dsimp only
  rw [hq]

private theorem bounds_along {n : Nat} {x l h x' l' h' : Nat → ℝ} (o : Nat → ℝ) (hx : ∀ i, x' i = x i + o i) (hl : ∀ i, l' i = l i + o i) (hh : ∀ i, h' i = h i + o i) :
    boundsValue ⟨n, x'⟩ ⟨n, l'⟩ ⟨n, h'⟩ = boundsValue ⟨n, x⟩ ⟨n, l⟩ ⟨n, h⟩ := by
  unfold boundsValue
  rw [sub_along o hx hl, sub_along o hh hx]

/-- What a component says about where it is does not change. -/
private theorem value_along {j : JaxComp ℝ} (hp : Portable env m s j) {d d' : MjData ℝ} (hd : Carried m s d d')
    (hcom : ∀ w lm x, j.kind = .comTask w lm x → ∃ c, npGet m.bodyRootid 0 = .ok 0 ∧ jnpGet d.subtreeCom (0 : Nat) = .ok c ∧ jnpGet d'.subtreeCom (0 : Nat) = .ok (c + s))
    (hrow : ∀ a h w, j.kind = .modelEquality a h w → d'.efcEq = d.efcEq ∧ d'.efcPos = d.efcPos)
    (hcol : ∀ g x pairs n, j.kind = .selfCollision g x pairs n → computeCollisionPairs (env.collide m d') m pairs =
      (computeCollisionPairs (env.collide m d) m pairs).map (List.map fun c => ⟨c.geom, movedContact s c.val⟩)) :
    evalValue env (carryComp m s j) d' = evalValue env j d := by
  obtain ⟨hm, hp⟩ := hp
  unfold evalValue carryComp
  cases hk : j.kind <;> rw [hk] at hp <;> dsimp only at hp ⊢
  case comTask w lm x =>
    obtain ⟨c, h1, h2, h3⟩ := hcom w lm x hk
    obtain ⟨e1, e2⟩ := operand_along hp.1 (axesOffset s j.maskIdxs)
    simp only [bind, Except.bind, e1, e2, hm, h1, h2, h3]
    exact sub_along _ (vec3_add c _) fun _ => rfl
  case jointTask w lm x qi =>
    obtain ⟨e1, e2⟩ := operand_along hp (coordsOffset m s qi)
    simp only [bind, Except.bind, e1, e2, hd.qpos]
    exact sub_along _ (coords_add hd.qlen _) fun _ => rfl
  case positionTask w lm i ty x =>
    obtain ⟨p, h1, h2⟩ := hd.objects ty i hp.2
    obtain ⟨e1, e2⟩ := operand_along hp.1 (axesOffset s j.maskIdxs)
    simp only [bind, Except.bind, e1, e2, h1, h2]
    exact sub_along _ (vec3_add p _) fun _ => rfl
  case jointBarrier g lo hi qi =>
    obtain ⟨e1, e2⟩ := operand_along hp.1 (coordsOffset m s qi)
    obtain ⟨e3, e4⟩ := operand_along hp.2 (coordsOffset m s qi)
    simp only [bind, Except.bind, e1, e2, e3, e4, hd.qpos]
    exact bounds_along _ (coords_add hd.qlen _) (fun _ => rfl) fun _ => rfl
  case positionBarrier g i ty lo hi li =>
    obtain ⟨p, h1, h2⟩ := hd.objects ty i hp.2.2
    obtain ⟨e1, e2⟩ := operand_along hp.1 (axesOffset s j.maskIdxs)
    obtain ⟨e3, e4⟩ := operand_along hp.2.1 (axesOffset s j.maskIdxs)
    simp only [bind, Except.bind, e1, e2, e3, e4, h1, h2]
    have e : boundsValue ((vec3 (p + s)).gather j.maskIdxs) ⟨j.maskIdxs.length, fun i => lo.get [i] + axesOffset s j.maskIdxs i⟩
        ⟨j.maskIdxs.length, fun i => hi.get [i] + axesOffset s j.maskIdxs i⟩ = boundsValue ((vec3 p).gather j.maskIdxs) ⟨j.maskIdxs.length, fun i => lo.get [i]⟩
        ⟨j.maskIdxs.length, fun i => hi.get [i]⟩ := bounds_along _ (vec3_add (s := s) p j.maskIdxs) (fun _ => rfl) (fun _ => rfl)
    rw [e]
  case selfCollision g x pairs n =>
    have h := hcol g x pairs n hk
    unfold selfCollisionValue
    rw [hm, h]
    cases computeCollisionPairs (env.collide m d) m pairs with
    | error => rfl
    | ok cs =>
      have e : (cs.map fun c => (⟨c.geom, movedContact s c.val⟩ : Contact (ContactVal ℝ))).map (fun c => c.val.dist) = cs.map fun c => c.val.dist := by
        rw [List.map_map]; rfl
      simp only [Except.map, bind, Except.bind, e]
  case modelEquality a h w =>
    obtain ⟨h1, h2⟩ := hrow a h w hk
    rw [h1, h2]

private theorem point_along {d d' : MjData ℝ} (hc : d'.cdof = d.cdof) {b : Nat} {r : Nat} {c : V3 ℝ} (hr : jnpGet m.bodyRootid b = .ok r)
    (h1 : jnpGet d.subtreeCom r = .ok c) (h2 : jnpGet d'.subtreeCom r = .ok (c + s)) (p : V3 ℝ) : pointJacobian m d' (p + s) b = pointJacobian m d p b := by
  unfold pointJacobian
  simp only [bind, Except.bind, hr, h1, h2, hc, add_sub_add_right_eq_sub]

private theorem npGet_map {α β : Type} (h : α → β) (l : List α) (i : Int) : npGet (l.map h) i = (npGet l i).map h := by
  unfold npGet
  rw [List.length_map]
  dsimp only
  generalize (if i < 0 then i + (l.length : Int) else i) = k
  by_cases hk : k < 0
  · rw [if_pos hk, if_pos hk]; rfl
  · rw [if_neg hk, if_neg hk, List.getElem?_map]
    cases l[k.toNat]? <;> rfl

private theorem npGet_elem {α : Type} {l : List α} {i : Int} {x : α} (h : npGet l i = .ok x) : x ∈ l := by
  unfold npGet at h
  dsimp only at h
  generalize (if i < 0 then i + (l.length : Int) else i) = k at h
  by_cases hk : k < 0
  · rw [if_pos hk] at h; cases h
  · rw [if_neg hk] at h
    cases e : l[k.toNat]? <;> rw [e] at h <;> cases h
    exact List.mem_of_getElem? e

private theorem collision_along {d d' : MjData ℝ} (hc : d'.cdof = d.cdof)
    (hcom : ∀ b, 0 < b → b < m.nbody → ∃ r c, jnpGet m.bodyRootid b = .ok r ∧ jnpGet d.subtreeCom (r : Nat) = .ok c ∧ jnpGet d'.subtreeCom (r : Nat) = .ok (c + s))
    (hobj : ∀ b ∈ m.geomBodyid, b < m.nbody) {pairs : List (Int × Int)} (hp : ∀ g ∈ pairs, OnRobot m .geom g.1 ∧ OnRobot m .geom g.2)
    (hcol : computeCollisionPairs (env.collide m d') m pairs = (computeCollisionPairs (env.collide m d) m pairs).map (List.map fun c => ⟨c.geom, movedContact s c.val⟩))
    (n : Int) : selfCollisionJacobian env m d' pairs n = selfCollisionJacobian env m d pairs n := by
  unfold selfCollisionJacobian
  rw [hcol]
  cases computeCollisionPairs (env.collide m d) m pairs with
  | error => rfl
  | ok cs =>
    have e : (cs.map fun c => (⟨c.geom, movedContact s c.val⟩ : Contact (ContactVal ℝ))).map (fun c => c.val.dist) = cs.map fun c => c.val.dist := by
      rw [List.map_map]; rfl
    simp only [Except.map, bind, Except.bind, e, hc]
    cases closest (cs.map fun c => c.val.dist) n with
    | error => rfl
    | ok idx =>
      dsimp only
      cases hb : pairs.mapM (pairBodies m) with
      | error => rfl
      | ok bodies =>
        dsimp only
        have hbod : ∀ bb ∈ bodies, (0 < bb.1 ∧ bb.1 < m.nbody) ∧ 0 < bb.2 ∧ bb.2 < m.nbody := by
          intro bb hbb
          obtain ⟨g, hg, h⟩ := (mapM_mem hb).2.1 bb hbb
          unfold pairBodies at h
          obtain ⟨b1, h1, h⟩ := Except.bind_eq_ok h
          obtain ⟨b2, h2, h⟩ := Except.bind_eq_ok h
          cases h
          have one : ∀ {i : Int} {b : Nat}, OnRobot m .geom i → npGet m.geomBodyid i = .ok b → 0 < b ∧ b < m.nbody := by
            rintro i b ⟨hi, c, hc, hc0⟩ h
            obtain ⟨k, rfl⟩ := Int.eq_ofNat_of_zero_le hi
            have : npGet m.geomBodyid (k : Int) = .ok c := npGet_some hc
            obtain rfl := Except.ok.inj (h.symm.trans this)
            exact ⟨by omega, hobj _ (List.mem_of_getElem? hc)⟩
          exact ⟨one (hp g hg).1 h1, one (hp g hg).2 h2⟩
        have hrow : ∀ i, selfCollisionRow m d' (cs.map fun c => ⟨c.geom, movedContact s c.val⟩) bodies i = selfCollisionRow m d cs bodies i := by
          intro i
          unfold selfCollisionRow
          rw [npGet_map]
          cases npGet cs (i : Int) with
          | error => rfl
          | ok c =>
            simp only [Except.map, bind, Except.bind]
            cases hbb : npGet bodies ((min i (bodies.length - 1) : Nat) : Int) with
            | error => rfl
            | ok bb =>
              dsimp only
              obtain ⟨⟨a1, a2⟩, a3, a4⟩ := hbod bb (npGet_elem hbb)
              obtain ⟨r1, c1, x1, x2, x3⟩ := hcom _ a1 a2
              obtain ⟨r2, c2, y1, y2, y3⟩ := hcom _ a3 a4
              have k1 := point_along (s := s) hc x1 x2 x3 (c.val.pos - (c.val.dist / 2) • c.val.normal)
              have k2 := point_along (s := s) hc y1 y2 y3 (c.val.pos + (c.val.dist / 2) • c.val.normal)
              have z1 : c.val.pos + s - (c.val.dist / 2) • c.val.normal = c.val.pos - (c.val.dist / 2) • c.val.normal + s := by abel
              have z2 : c.val.pos + s + (c.val.dist / 2) • c.val.normal = c.val.pos + (c.val.dist / 2) • c.val.normal + s := by abel
              unfold collisionRow movedContact
              dsimp only
              rw [z1, z2, k1, k2]
        rw [funext hrow]

private theorem dq2v_loop {q q' : Nat → ℝ} : ∀ (l : List (JntType × Nat)), (∀ p ∈ l, (p.1 = .free → quatAt q' (p.2 + 3) = quatAt q (p.2 + 3)) ∧ (p.1 = .ball → quatAt q' p.2 = quatAt q p.2)) →
    ∀ (r c : Nat) (A : Mat ℝ), jacDq2vLoop q' l r c A = jacDq2vLoop q l r c A
  | [], _, _, _, _ => rfl
  | (t, a) :: l, h, r, c, A => by
    have h0 := h (t, a) (by simp)
    have ih := dq2v_loop l fun p hp => h p (by simp [hp])
    unfold jacDq2vLoop
    cases t <;> dsimp only at h0 ⊢
    case free => rw [h0.1 rfl]; exact ih _ _ _
    case ball => rw [h0.2 rfl]; exact ih _ _ _
    all_goals exact ih _ _ _

private theorem dq2v_along (hw : JointsWF m) (q : Vec ℝ) : jacDq2v m (carry m s q).get = jacDq2v m q.get := by
  refine dq2v_loop _ (fun p hp => ?_) _ _ _
  obtain ⟨j, hj, e⟩ := List.mem_iff_getElem.1 hp
  have hl := (consecutive_lengths hw.addr).1
  have hj1 : j < m.jntType.length := by simp at hj; omega
  have hj2 : j < m.jntQposadr.length := by omega
  rw [List.getElem_zip] at e
  have e1 : m.jntType.getD j .hinge = p.1 := by rw [List.getD_eq_getElem _ _ hj1, ← e]
  have e2 : m.jntQposadr.getD j 0 = p.2 := by rw [List.getD_eq_getElem _ _ hj2, ← e]
  rw [← e2]
  exact ⟨fun ht => (free_pos hw (along_carry q) hj1 (e1.trans ht)).2, fun ht => ball_same hw (along_carry q) hj1 (e1.trans ht)⟩

section
variable (hs : Simulates env G m) (hw : RobotWF G m) (hf : Floating G m) (hd : DifferentiatesAlong env)
include hs hw hf

private theorem updated (q : Vec ℝ) : Carried m s (update env m q) (update env m (carry m s q)) ∧
    (update env m q).subtreeCom = subtreeComs m (simKinematics G m q).xipos ∧ (update env m (carry m s q)).cdof = (update env m q).cdof ∧
    ∀ b, 0 < b → b < m.nbody → ∃ r c, jnpGet m.bodyRootid b = .ok r ∧ jnpGet (update env m q).subtreeCom (r : Nat) = .ok c ∧
      jnpGet (update env m (carry m s q)).subtreeCom (r : Nat) = .ok (c + s) := by
  obtain ⟨e, p, J, h⟩ := update_fields hs q
  obtain ⟨e', p', J', h'⟩ := update_fields hs (carry m s q)
  have hk := kin_carried (s := s) hw hf q
  rw [h, h']
  refine ⟨⟨hk.qlen, hk.qpos, hk.objects⟩, rfl, ?_, ?_⟩
  · show (List.range m.jntType.length).flatMap _ = (List.range m.jntType.length).flatMap _
    refine List.flatMap_congr fun j hj => ?_
    rw [List.mem_range] at hj
    obtain ⟨h0, hb⟩ := hw.joints j hj
    obtain ⟨c, h1, h2⟩ := coms_slid (s := s) hw hf q (Nat.pos_of_ne_zero (hf.roots _ h0 hb)) (hw.roots.2 _ hb)
    have e1 : (subtreeComs m (simKinematics G m q).xipos).getD (m.bodyRootid.getD (G.jntBodyid.getD j 0) 0) 0 = c := by rw [List.getD_eq_getElem?_getD, h1]; rfl
    have e2 : (subtreeComs m (simKinematics G m (carry m s q)).xipos).getD (m.bodyRootid.getD (G.jntBodyid.getD j 0) 0) 0 = c + s := by
      rw [List.getD_eq_getElem?_getD, h2]; rfl
    rw [e1, e2, hk.qpos]
    exact cdof_slid hw hf (along_carry _) hj c
  · intro b h0 hb
    obtain ⟨c, h1, h2⟩ := coms_slid (s := s) hw hf q (Nat.pos_of_ne_zero (hf.roots _ h0 hb)) (hw.roots.2 _ hb)
    refine ⟨m.bodyRootid.getD b 0, c, jnpGet_some ?_, jnpGet_some h1, jnpGet_some h2⟩
    rw [List.getD_eq_getElem _ _ (by rw [hw.roots.1]; exact hb), List.getElem?_eq_getElem]

include hd

private theorem auto_along {j : JaxComp ℝ} (hp : Portable env m s j) {d d' : MjData ℝ} (hq : d.qpos.len = m.nq) (hq' : d'.qpos = carry m s d.qpos) (com : Bool)
    (hk : (com = true ∧ ∃ w lm x, j.kind = .comTask w lm x) ∨ (com = false ∧ ((∃ w lm i ty x, j.kind = .positionTask w lm i ty x) ∨ ∃ g i ty lo hi li, j.kind = .positionBarrier g i ty lo hi li))) :
    autoJacobian env (carryComp m s j) d' com = autoJacobian env j d com := by
  have hm := hp.1
  have hm' : (carryComp m s j).model = m := hm
  have key : ∀ q : Vec ℝ, evalValue env (carryComp m s j) (if com then comUpdate env m (carry m s q) else env.kinematics m (carry m s q)) =
      evalValue env j (if com then comUpdate env m q else env.kinematics m q) := by
    intro q
    rcases hk with ⟨rfl, w, lm, x, hk⟩ | ⟨rfl, hk⟩
    · have hmass : 1 / 10 ^ 15 ≤ ∑ b ∈ range m.nbody, m.bodyMass.getD b 0 := by
        have := hp.2; rw [hk] at this; exact this.2
      simp only [if_true]
      unfold comUpdate
      dsimp only
      rw [hs.kinematics, hs.kinematics]
      have hk' := kin_carried (s := s) hw hf q
      refine value_along hp ⟨hk'.qlen, hk'.qpos, hk'.objects⟩ (fun _ _ _ _ => com_carried hw hf hmass q) (fun a h w h' => ?_) (fun _ _ _ _ h' => ?_)
      · rw [hk] at h'; cases h'
      · rw [hk] at h'; cases h'
    · simp only [if_false, Bool.false_eq_true]
      rw [hs.kinematics, hs.kinematics]
      refine value_along hp (kin_carried hw hf q) (fun a h w h' => ?_) (fun a h w h' => ?_) (fun _ _ _ _ h' => ?_)
      · rcases hk with ⟨_, _, _, _, _, hk⟩ | ⟨_, _, _, _, _, _, hk⟩ <;> rw [hk] at h' <;> cases h'
      · rcases hk with ⟨_, _, _, _, _, hk⟩ | ⟨_, _, _, _, _, _, hk⟩ <;> rw [hk] at h' <;> cases h'
      · rcases hk with ⟨_, _, _, _, _, hk⟩ | ⟨_, _, _, _, _, _, hk⟩ <;> rw [hk] at h' <;> cases h'
  unfold autoJacobian
  rw [hm', hm, hq', dq2v_along hw.addr]
  dsimp only
  rw [key]
  have hj := hd (fun q => ((evalValue env j (if com then comUpdate env m q else env.kinematics m q)).toOption).getD (Vec.zero 0))
    (fun q => ((evalValue env (carryComp m s j) (if com then comUpdate env m q else env.kinematics m q)).toOption).getD (Vec.zero 0)) d.qpos (baseOffset m s)
    (fun i hi => offset_beyond hw.addr (by omega)) (fun x _ => by
      have := key x
      unfold carry at this
      rw [this])
  have e : carry m s d.qpos = ⟨d.qpos.len, fun i => d.qpos.get i + baseOffset m s i⟩ := rfl
  rw [e, hj]

/-- **C122 (components).** What the solver reads from a component is the same after robot and target have been moved. -/
theorem C122_component_partial {j : JaxComp ℝ} (hp : Portable env m s j) (q : Vec ℝ) :
    evalValue env (carryComp m s j) (update env m (carry m s q)) = evalValue env j (update env m q) ∧
      evalJacobian env (carryComp m s j) (update env m (carry m s q)) = evalJacobian env j (update env m q) := by
  obtain ⟨hu, -, hcdof, hroots⟩ := updated hs hw hf (s := s) q
  have hcoms : ∀ q, (update env m q).subtreeCom = subtreeComs m (simKinematics G m q).xipos := fun q => (updated hs hw hf (s := s) q).2.1
  have hcontacts : ∀ {pairs : List (Int × Int)}, ContactsAlong env m s → (∀ g ∈ pairs, OnRobot m .geom g.1 ∧ OnRobot m .geom g.2) →
      computeCollisionPairs (env.collide m (update env m (carry m s q))) m pairs =
        (computeCollisionPairs (env.collide m (update env m q)) m pairs).map (List.map fun c => ⟨c.geom, movedContact s c.val⟩) := fun h hp =>
    contacts_along (movedContact s) (P := fun g => OnRobot m .geom g.1 ∧ OnRobot m .geom g.2) (fun g hg => ⟨hg.2, hg.1⟩) (h q).1
      (fun key g n hg => (h q).2 key g n hg.1 hg.2) hp
  constructor
  · refine value_along hp hu (fun w lm x hk => ?_) (fun a h w hk => ?_) (fun _ _ _ _ hk => ?_)
    · have hmass : 1 / 10 ^ 15 ≤ ∑ b ∈ range m.nbody, m.bodyMass.getD b 0 := by
        have := hp.2; rw [hk] at this; exact this.2
      rw [hcoms, hcoms]
      exact com_carried hw hf hmass q
    · have := hp.2; rw [hk] at this
      exact ⟨(this q).1, (this q).2.1⟩
    · have := hp.2; rw [hk] at this
      exact hcontacts this.1 this.2
  · have hauto := fun com hk => auto_along hs hw hf hd hp hu.qlen hu.qpos com hk
    have hp2 := hp.2
    unfold evalJacobian
    cases hk : j.kind <;> rw [hk] at hp2 <;> dsimp only at hp2
    case comTask w lm x =>
      have hk' : (carryComp m s j).kind = .comTask w lm (carryArr (axesOffset s j.maskIdxs) x) := by unfold carryComp; rw [hk]
      rw [hk']; exact hauto true (.inl ⟨rfl, _, _, _, hk⟩)
    case jointTask w lm x qi =>
      have hk' : (carryComp m s j).kind = .jointTask w lm (carryArr (coordsOffset m s qi) x) qi := by unfold carryComp; rw [hk]
      rw [hk']; rfl
    case positionTask w lm i ty x =>
      have hk' : (carryComp m s j).kind = .positionTask w lm i ty (carryArr (axesOffset s j.maskIdxs) x) := by unfold carryComp; rw [hk]
      rw [hk']; exact hauto false (.inr ⟨rfl, .inl ⟨_, _, _, _, _, hk⟩⟩)
    case jointBarrier g lo hi qi =>
      have hk' : (carryComp m s j).kind = .jointBarrier g (carryArr (coordsOffset m s qi) lo) (carryArr (coordsOffset m s qi) hi) qi := by unfold carryComp; rw [hk]
      rw [hk']; rfl
    case positionBarrier g i ty lo hi li =>
      have hk' : (carryComp m s j).kind = .positionBarrier g i ty (carryArr (axesOffset s j.maskIdxs) lo) (carryArr (axesOffset s j.maskIdxs) hi) li := by
        unfold carryComp; rw [hk]
      rw [hk']; exact hauto false (.inr ⟨rfl, .inr ⟨_, _, _, _, _, _, hk⟩⟩)
    case selfCollision g x pairs n =>
      have hk' : (carryComp m s j).kind = .selfCollision g x pairs n := by unfold carryComp; rw [hk]
      rw [hk']
      show selfCollisionJacobian env j.model _ pairs n = selfCollisionJacobian env j.model _ pairs n
      rw [hp.1]
      exact collision_along hcdof hroots hw.objects.1 hp2.2 (hcontacts hp2.1 hp2.2) n
    case modelEquality a h w =>
      have hk' : (carryComp m s j).kind = .modelEquality a h w := by unfold carryComp; rw [hk]
      rw [hk']; dsimp only; rw [(hp2 q).1, (hp2 q).2.2]; rfl

private theorem solver_along {j : JaxComp ℝ} (hp : Portable env m s j) (q : Vec ℝ) :
    solverComp env (update env m (carry m s q)) (carryComp m s j) = solverComp env (update env m q) j := by
  obtain ⟨h1, h2⟩ := C122_component_partial hs hw hf hd hp q
  have hev : evaluate env (carryComp m s j) (update env m (carry m s q)) = evaluate env j (update env m q) := by
    unfold evaluate
    rw [h1, h2]
    rfl
  have hwrap : ∀ e, wrapComp (carryComp m s j) e = wrapComp j e := by
    intro e
    unfold wrapComp carryComp
    cases hk : j.kind <;> rfl
  unfold solverComp
  rw [hev]
  simp only [hwrap]

private theorem comps_along (q : Vec ℝ) : ∀ l : List (String × JaxComp ℝ), (∀ c ∈ l, Portable env m s c.2) →
    ((l.map fun c => (c.1, carryComp m s c.2)).map Prod.snd).mapM (solverComp env (update env m (carry m s q))) = (l.map Prod.snd).mapM (solverComp env (update env m q))
  | [], _ => rfl
  | c :: l, h => by
    simp only [List.map_cons, List.mapM_cons]
    rw [solver_along hs hw hf hd (h c (by simp)) q, comps_along q l fun x hx => h x (by simp [hx])]

/-- **C122 (commands).** A floating robot is put elsewhere, together with all targets and limits.  For every QP solver the call returns the same velocity, the same solver
state, and fails in the same way if it fails. -/
theorem C122_same_command_partial {I : Type} (osqp : QPSolver ℝ I) {p : JaxProblem ℝ} (hp : ∀ c ∈ p.comps, Portable env m s c.2) (st : LocalIKData ℝ) (q : Arr ℝ) :
    localSolve env osqp m (carryArr (baseOffset m s) q) st (carryProblem m s p) = localSolve env osqp m q st p := by
  unfold localSolve solve
  have hshape : (carryArr (baseOffset m s) q).shape = q.shape := rfl
  rw [hshape]
  congr 1
  unfold localSolveFromData
  have := comps_along hs hw hf hd ⟨m.nq, fun i => q.get [i]⟩ p.comps hp
  show (do
    let vMin ← p.vMin.toVec
    let vMax ← p.vMax.toVec
    let cs ← ((p.comps.map fun c : String × JaxComp ℝ => (c.1, carryComp m s c.2)).map Prod.snd).mapM (solverComp env (update env m (carry m s ⟨m.nq, fun i => q.get [i]⟩)))
    solveFromData osqp m.nv p.model.nv vMin vMax st cs) = _
  rw [this]

end

private theorem integrate_loop (quatInt : Quaternion ℝ → V3 ℝ → ℝ → Quaternion ℝ) (v : Nat → ℝ) (dt : ℝ) (q q' : Nat → ℝ) :
    ∀ (ts : List JntType) (a b : Nat), (∀ i, q' (a + i) = q (a + i) + (ts.flatMap (baseOffsets s)).getD i 0) →
    (integrateLoop quatInt q' v dt ts a b).length = (integrateLoop quatInt q v dt ts a b).length ∧
    ∀ i, (integrateLoop quatInt q' v dt ts a b).getD i 0 = (integrateLoop quatInt q v dt ts a b).getD i 0 + (ts.flatMap (baseOffsets s)).getD i 0
  | [], _, _, _ => by simp [integrateLoop]
  | t :: ts, a, b, h => by
    have hl := offsets_length (s := s) t
    rw [List.flatMap_cons] at h
    have hrest : ∀ i, q' (a + t.nq + i) = q (a + t.nq + i) + (ts.flatMap (baseOffsets s)).getD i 0 := by
      intro i
      have := h (t.nq + i)
      rw [← Nat.add_assoc, List.getD_append_right _ _ _ _ (by omega)] at this
      rw [this]; congr 2; omega
    have hhead : ∀ i < t.nq, q' (a + i) = q (a + i) + (baseOffsets s t).getD i 0 := by
      intro i hi
      rw [h i, List.getD_append _ _ _ _ (by omega)]
    have glue : ∀ (x x' y y' : List ℝ), x.length = t.nq → x'.length = t.nq → (∀ i < t.nq, x'.getD i 0 = x.getD i 0 + (baseOffsets s t).getD i 0) →
        (y'.length = y.length ∧ ∀ i, y'.getD i 0 = y.getD i 0 + (ts.flatMap (baseOffsets s)).getD i 0) →
        (x' ++ y').length = (x ++ y).length ∧ ∀ i, (x' ++ y').getD i 0 = (x ++ y).getD i 0 + (baseOffsets s t ++ ts.flatMap (baseOffsets s)).getD i 0 := by
      intro x x' y y' h1 h2 h3 h4
      refine ⟨by simp [h1, h2, h4.1], fun i => ?_⟩
      by_cases hi : i < t.nq
      · rw [List.getD_append _ _ _ _ (by omega), List.getD_append _ _ _ _ (by omega), List.getD_append _ _ _ _ (by omega), h3 i hi]
      · rw [List.getD_append_right _ _ _ _ (by omega), List.getD_append_right _ _ _ _ (by omega), List.getD_append_right _ _ _ _ (by omega), h4.2, h1, h2, hl]
    rw [List.flatMap_cons]
    cases t with
    | free =>
      have ih := integrate_loop quatInt v dt q q' ts (a + 7) (b + 6) hrest
      have g := fun i (hi : i < 7) => hhead i hi
      have e1 : vec3At q' a = vec3At q a + s := by
        unfold vec3At
        have h0 := g 0 (by omega)
        rw [Nat.add_zero] at h0
        rw [h0, g 1 (by omega), g 2 (by omega)]
        funext i; fin_cases i <;> rfl
      have e2 : quatAt q' (a + 3) = quatAt q (a + 3) := by
        unfold quatAt
        rw [g 3 (by omega), show a + 3 + 1 = a + 4 from rfl, show a + 3 + 2 = a + 5 from rfl, show a + 3 + 3 = a + 6 from rfl, g 4 (by omega), g 5 (by omega), g 6 (by omega)]
        simp [baseOffsets]
        try rfl
      unfold integrateLoop
      rw [e1, e2]
      refine glue _ _ _ _ rfl rfl (fun i hi => ?_) ih
      have : i < 7 := hi
      interval_cases i <;> simp [vec3List, quatList, baseOffsets] <;> ring
    | ball =>
      have ih := integrate_loop quatInt v dt q q' ts (a + 4) (b + 3) hrest
      have g := fun i (hi : i < 4) => hhead i hi
      have e2 : quatAt q' a = quatAt q a := by
        unfold quatAt
        have h0 := g 0 (by omega)
        rw [Nat.add_zero] at h0
        rw [h0, g 1 (by omega), g 2 (by omega), g 3 (by omega)]
        simp [baseOffsets]
        try rfl
      unfold integrateLoop
      rw [e2]
      refine glue _ _ _ _ rfl rfl (fun i hi => ?_) ih
      have : i < 4 := hi
      interval_cases i <;> simp [baseOffsets]
    | hinge =>
      have ih := integrate_loop quatInt v dt q q' ts (a + 1) (b + 1) hrest
      have h0 := hhead 0 Nat.one_pos
      rw [Nat.add_zero] at h0
      unfold integrateLoop
      rw [h0]
      refine glue [_] [_] _ _ rfl rfl (fun i hi => ?_) ih
      have : i < 1 := hi
      interval_cases i; simp [baseOffsets]
    | slide =>
      have ih := integrate_loop quatInt v dt q q' ts (a + 1) (b + 1) hrest
      have h0 := hhead 0 Nat.one_pos
      rw [Nat.add_zero] at h0
      unfold integrateLoop
      rw [h0]
      refine glue [_] [_] _ _ rfl rfl (fun i hi => ?_) ih
      have : i < 1 := hi
      interval_cases i; simp [baseOffsets]

/-- **C122 (motion).** Moving the robot elsewhere and then following a velocity is following the velocity and then moving. -/
theorem C122_integrate (q v : Vec ℝ) (dt : ℝ) : integrate env m (carry m s q) v dt = carry m s (integrate env m q v dt) := by
  obtain ⟨h1, h2⟩ := integrate_loop (s := s) env.quatIntegrate v.get dt q.get (carry m s q).get m.jntType 0 0 (fun i => by rw [Nat.zero_add]; rfl)
  unfold integrate
  show (⟨_, _⟩ : Vec ℝ) = ⟨_, _⟩
  congr 1
  funext i
  exact h2 i

/-- **C122 (loops).** Over any number of control steps the robot that was put elsewhere does what the other one does: all its configurations are those of the other robot,
moved. -/
theorem C122_loop_partial (hs : Simulates env G m) (hw : RobotWF G m) (hf : Floating G m) (hd : DifferentiatesAlong env) {I : Type} (osqp : QPSolver ℝ I)
    {p : JaxProblem ℝ} (hp : ∀ c ∈ p.comps, Portable env m s c.2) (dt : ℝ) (n : Nat) : ∀ (q : Vec ℝ) (st : LocalIKData ℝ),
    driven env osqp m (carryProblem m s p) dt n (carry m s q) st = (driven env osqp m p dt n q st).map fun r => (carry m s r.1, r.2) := by
  induction n with
  | zero => intro q st; rfl
  | succ n ih =>
    intro q st
    unfold driven
    have h := C122_same_command_partial hs hw hf hd osqp hp st q.toArr
    have e : carryArr (baseOffset m s) q.toArr = (carry m s q).toArr := rfl
    rw [← e, h]
    cases localSolve env osqp m q.toArr st p with
    | error => rfl
    | ok r =>
      simp only [bind, Except.bind]
      rw [C122_integrate, ih]

/-- Exact derivatives can be taken at a moved point. -/
theorem jacrevR_along {env : Env ℝ} (h : env.jacrev = jacrevR) : DifferentiatesAlong env := by
  intro f g q o ho hfg
  rw [h]
  unfold jacrevR
  have e : ∀ x : Fin q.len → ℝ, g (vecOf (x + fun k : Fin q.len => o k)) = f (vecOf x) := by
    intro x
    rw [← hfg (vecOf x) rfl]
    congr 1
    show (⟨_, _⟩ : Vec ℝ) = ⟨_, _⟩
    congr 1
    funext i
    unfold vecOf
    dsimp only
    split_ifs with hi
    · rfl
    · rw [ho i (not_lt.1 hi), add_zero]
  have hq := hfg q rfl
  rw [hq]
  congr 1
  funext i k
  split_ifs with hk
  · have e1 : (fun x : Fin q.len → ℝ => (f (vecOf x)).get i) = fun x => (fun y : Fin q.len → ℝ => (g (vecOf y)).get i) (x + fun k : Fin q.len => o k) := by
      funext x
      dsimp only
      rw [e]
    have e2 := fderiv_comp_add_right (𝕜 := ℝ) (f := fun y : Fin q.len → ℝ => (g (vecOf y)).get i) (x := coordsOf q) (fun k : Fin q.len => o k)
    rw [e1, e2]
    rfl
  · rfl

/-- The contact of two spheres moves along with them. -/
theorem sphere_along (p1 p2 : V3 ℝ) (r1 r2 : ℝ) : sphereSphere (p1 + s) r1 (p2 + s) r2 = movedContact s (sphereSphere p1 r1 p2 r2) := by
  unfold sphereSphere movedContact
  simp only [add_sub_add_right_eq_sub]
  congr 1
  abel

end Mjinx.Props
