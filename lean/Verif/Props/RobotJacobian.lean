import Verif.Lemmas.Smooth
import Verif.Props.BodyMotion

/-!
# C78, C110: automatic Jacobians of robots
-/

set_option linter.unusedSectionVars false

namespace Mjinx.Props
open Spec Finset
open scoped Quaternion Matrix

section
variable {env : Env ℝ} {G : Geometry} {m : MjModel ℝ}

/-! ### What the simulator guarantees -/

theorem sim_kept (hs : Simulates env G m) : PositionsKept env m := by
  constructor <;> intro q <;> obtain ⟨e, p, J, h⟩ := update_fields hs q <;> rw [h, hs.kinematics] <;> rfl

/-- A configuration whose quaternions have length one is kept. -/
theorem sim_qpos (hs : Simulates env G m) (hw : JointsWF m) {x : Fin m.nq → ℝ} (hu : UnitQuats m (vecOf x)) :
    (update env m (vecOf x)).qpos = vecOf x := by
  obtain ⟨e, p, J, h⟩ := update_fields hs (vecOf x)
  obtain ⟨h1, h2⟩ := normalized_get hw hu
  rw [h]
  show (⟨(normalizedQpos m (vecOf x).get).length, fun i => (normalizedQpos m (vecOf x).get).getD i 0⟩ : Vec ℝ) = vecOf x
  have e : (fun i => (normalizedQpos m (vecOf x).get).getD i 0) = (vecOf x).get := by
    funext i
    by_cases hi : i < m.nq
    · exact h2 i hi
    · rw [List.getD_eq_default _ _ (by omega)]
      exact (show (vecOf x).get i = 0 from dif_neg hi).symm
  rw [e, h1]
  rfl

theorem unit_nonzero {x : Fin m.nq → ℝ} (hu : UnitQuats m (vecOf x)) : QuatsNonzero m (vecOf x).get := by
  intro j adr h
  rw [hu j adr h]
  exact one_ne_zero

/-! ### Values of the differentiated components -/

/-- The point whose coordinates a component constrains. -/
noncomputable def pointOf (j : JaxComp ℝ) (d : MjData ℝ) : Except Err (V3 ℝ) :=
  match j.kind with
  | .comTask .. => do
    let root ← npGet j.model.bodyRootid 0
    jnpGet d.subtreeCom root
  | .positionTask _ _ i ty _ => objPos d ty i
  | .positionBarrier _ i ty _ _ _ => objPos d ty i
  | _ => .error .valueError

private theorem gather3 (p : V3 ℝ) (l : List Nat) (i : Nat) :
    ((vec3 p).gather l).get i = p ⟨min ((l[i]?).getD 0) 2, by omega⟩ := by
  show (if h : min ((l[i]?).getD 0) (3 - 1) < 3 then p ⟨_, h⟩ else 0) = _
  rw [dif_pos (by omega)]

private theorem zip_shape (f : ℝ → ℝ → ℝ) {a b V : Vec ℝ} (h : Vec.zip f a b = .ok V) : ∃ u w : Nat → Nat, (∀ i, V.get i = f (a.get (u i)) (b.get (w i))) ∧
    ∀ a' b' : Vec ℝ, a'.len = a.len → b'.len = b.len → ∃ V', Vec.zip f a' b' = .ok V' ∧ V'.len = V.len ∧ ∀ i, V'.get i = f (a'.get (u i)) (b'.get (w i)) := by
  unfold Vec.zip at h
  split at h
  · cases h
    refine ⟨id, id, fun i => rfl, fun a' b' ha hb => ⟨⟨a'.len, fun i => f (a'.get i) (b'.get i)⟩, ?_, ha, fun i => rfl⟩⟩
    unfold Vec.zip
    rw [if_pos (by omega)]
  · split at h
    · cases h
      refine ⟨fun _ => 0, id, fun i => rfl, fun a' b' ha hb => ⟨⟨b'.len, fun i => f (a'.get 0) (b'.get i)⟩, ?_, hb, fun i => rfl⟩⟩
      unfold Vec.zip
      rw [if_neg (by omega), if_pos (by omega)]
    · split at h
      · cases h
        refine ⟨id, fun _ => 0, fun i => rfl, fun a' b' ha hb => ⟨⟨a'.len, fun i => f (a'.get i) (b'.get 0)⟩, ?_, ha, fun i => rfl⟩⟩
        unfold Vec.zip
        rw [if_neg (by omega), if_neg (by omega), if_pos (by omega)]
      · cases h

/-- Every entry of the value is a coordinate of the point, with a sign, plus a constant. -/
theorem value_affine {j : JaxComp ℝ} (hd : Differentiated j) {d0 : MjData ℝ} {V0 : Vec ℝ} (h0 : evalValue env j d0 = .ok V0) :
    (∃ p, pointOf j d0 = .ok p) ∧ ∃ (σ c : Nat → ℝ) (a : Nat → Fin 3), ∀ d p, pointOf j d = .ok p →
      ∃ V, evalValue env j d = .ok V ∧ V.len = V0.len ∧ ∀ i, V.get i = σ i * p (a i) + c i := by
  unfold Differentiated at hd
  unfold evalValue at h0
  unfold pointOf
  split at hd
  · rename_i w lm tgt hk
    rw [hk] at h0
    obtain ⟨t, ht, h0⟩ := Except.bind_eq_ok h0
    obtain ⟨root, hr, h0⟩ := Except.bind_eq_ok h0
    obtain ⟨com, hc, h0⟩ := Except.bind_eq_ok h0
    refine ⟨⟨com, ?_⟩, ?_⟩
    · simp only [hk, hr, bind, Except.bind]
      exact hc
    · obtain ⟨u, w', -, hz⟩ := zip_shape _ h0
      refine ⟨fun _ => 1, fun i => - t.get (w' i), fun i => ⟨min ((j.maskIdxs[u i]?).getD 0) 2, by omega⟩, fun d p hp => ?_⟩
      simp only [hk, hr, bind, Except.bind] at hp
      obtain ⟨V, v1, v2, v3⟩ := hz ((vec3 p).gather j.maskIdxs) t rfl rfl
      refine ⟨V, ?_, v2, fun i => ?_⟩
      · rw [evalValue, hk]
        simp only [bind, Except.bind, ht, hr, hp]
        exact v1
      · rw [v3, gather3]; ring
  · rename_i w lm oi ty tgt hk
    rw [hk] at h0
    obtain ⟨t, ht, h0⟩ := Except.bind_eq_ok h0
    obtain ⟨p0, hp0, h0⟩ := Except.bind_eq_ok h0
    refine ⟨⟨p0, by rw [hk]; exact hp0⟩, ?_⟩
    obtain ⟨u, w', -, hz⟩ := zip_shape _ h0
    refine ⟨fun _ => 1, fun i => - t.get (w' i), fun i => ⟨min ((j.maskIdxs[u i]?).getD 0) 2, by omega⟩, fun d p hp => ?_⟩
    simp only [hk] at hp
    obtain ⟨V, v1, v2, v3⟩ := hz ((vec3 p).gather j.maskIdxs) t rfl rfl
    refine ⟨V, ?_, v2, fun i => ?_⟩
    · rw [evalValue, hk]
      simp only [bind, Except.bind, ht, hp]
      exact v1
    · rw [v3, gather3]; ring
  · rename_i s oi ty lo hi li hk
    rw [hk] at h0
    obtain ⟨l, hl, h0⟩ := Except.bind_eq_ok h0
    obtain ⟨h, hh, h0⟩ := Except.bind_eq_ok h0
    obtain ⟨p0, hp0, h0⟩ := Except.bind_eq_ok h0
    obtain ⟨b, hb, h0⟩ := Except.bind_eq_ok h0
    cases h0
    obtain ⟨x1, hx1, hb⟩ := Except.bind_eq_ok hb
    obtain ⟨x2, hx2, hb⟩ := Except.bind_eq_ok hb
    cases hb
    refine ⟨⟨p0, by rw [hk]; exact hp0⟩, ?_⟩
    obtain ⟨u, w, -, hz⟩ := zip_shape _ hx1
    obtain ⟨u', w', -, hz'⟩ := zip_shape _ hx2
    let at' : Nat → Nat := fun i => min ((li[i]?).getD 0) (x1.len + x2.len - 1)
    refine ⟨fun i => if at' i < x1.len then 1 else -1, fun i => if at' i < x1.len then - l.get (w (at' i)) else h.get (u' (at' i - x1.len)),
      fun i => if at' i < x1.len then ⟨min ((j.maskIdxs[u (at' i)]?).getD 0) 2, by omega⟩ else ⟨min ((j.maskIdxs[w' (at' i - x1.len)]?).getD 0) 2, by omega⟩,
      fun d p hp => ?_⟩
    simp only [hk] at hp
    obtain ⟨V, v1, v2, v3⟩ := hz ((vec3 p).gather j.maskIdxs) l rfl rfl
    obtain ⟨W, w1, w2, w3⟩ := hz' h ((vec3 p).gather j.maskIdxs) rfl rfl
    refine ⟨(V.append W).gather li, ?_, rfl, fun i => ?_⟩
    · rw [evalValue, hk]
      have v1' : subVec ((vec3 p).gather j.maskIdxs) l = .ok V := v1
      have w1' : subVec h ((vec3 p).gather j.maskIdxs) = .ok W := w1
      simp only [bind, Except.bind, hl, hh, hp, boundsValue, v1', w1']
      rfl
    · show (if min ((li[i]?).getD 0) (V.len + W.len - 1) < V.len then V.get (min ((li[i]?).getD 0) (V.len + W.len - 1)) else
        W.get (min ((li[i]?).getD 0) (V.len + W.len - 1) - V.len)) = _
      rw [v2, w2]
      show (if at' i < x1.len then V.get (at' i) else W.get (at' i - x1.len)) = _
      by_cases hlt : at' i < x1.len
      · simp only [if_pos hlt]
        rw [v3, gather3]; ring
      · simp only [if_neg hlt]
        rw [w3, gather3]; ring
  · exact hd.elim

/-! ### Points are differentiable -/

private theorem jnpGet_range {α : Type} (n : Nat) (i : Int) : (∀ f : Nat → α, jnpGet ((List.range n).map f) i = .error .indexError) ∨
    ∃ k < n, ∀ f : Nat → α, jnpGet ((List.range n).map f) i = .ok (f k) := by
  rcases Nat.eq_zero_or_pos n with rfl | hn
  · exact .inl fun f => rfl
  · refine .inr ⟨min (if i < 0 then i + n else i).toNat (n - 1), by omega, fun f => ?_⟩
    unfold jnpGet
    simp only [List.length_map, List.length_range, List.getElem?_map]
    rw [List.getElem?_range (by omega)]
    rfl

open Classical in
theorem point_smooth {j : JaxComp ℝ} (hs : Simulates env G j.model) (hw : RobotWF G j.model) (hd : Differentiated j)
    {q0 : Vec ℝ} {p0 : V3 ℝ} (h0 : pointOf j (update env j.model q0) = .ok p0) :
    ∃ P : Vec ℝ → V3 ℝ, (∀ q, pointOf j (update env j.model q) = .ok (P q)) ∧
      ∀ (x : Fin j.model.nq → ℝ), QuatsNonzero j.model (vecOf x).get → ∀ a, DifferentiableAt ℝ (fun y : Fin j.model.nq → ℝ => P (vecOf y) a) x := by
  have obj : ∀ (ty : ObjType) (i : Int), objPos (update env j.model q0) ty i = .ok p0 → ∃ P : Vec ℝ → V3 ℝ,
      (∀ q, objPos (update env j.model q) ty i = .ok (P q)) ∧
      ∀ (x : Fin j.model.nq → ℝ), QuatsNonzero j.model (vecOf x).get → ∀ a, DifferentiableAt ℝ (fun y : Fin j.model.nq → ℝ => P (vecOf y) a) x := by
    intro ty i h
    have hup := fun q => update_fields hs q
    choose e p J hup using hup
    rw [hup] at h
    cases ty with
    | geom =>
      rcases jnpGet_range (α := V3 ℝ) j.model.geomBodyid.length i with hn | ⟨k, -, hk⟩
      · rw [objPos, show ({ simComPos G j.model (simKinematics G j.model q0) with efcEq := e q0, efcPos := p q0, efcJ := J q0 } : MjData ℝ).geomXpos = _ from rfl,
          simComPos, simKinematics] at h
        dsimp only at h
        rw [hn] at h; cases h
      · refine ⟨fun q => (bodyPose G j.model q.get (j.model.geomBodyid.getD k 0)).apply (G.geomPos.getD k 0), fun q => ?_, fun x hx a => ?_⟩
        · rw [hup]; exact hk _
        · exact ((bodyPose_smooth (k := 1) hx _).apply (p := fun _ => G.geomPos.getD k 0) (fun a => contDiffAt_const) a).differentiableAt (by simp)
    | site =>
      rcases jnpGet_range (α := V3 ℝ) j.model.siteBodyid.length i with hn | ⟨k, -, hk⟩
      · rw [objPos, show ({ simComPos G j.model (simKinematics G j.model q0) with efcEq := e q0, efcPos := p q0, efcJ := J q0 } : MjData ℝ).siteXpos = _ from rfl,
          simComPos, simKinematics] at h
        dsimp only at h
        rw [hn] at h; cases h
      · refine ⟨fun q => (bodyPose G j.model q.get (j.model.siteBodyid.getD k 0)).apply (G.sitePos.getD k 0), fun q => ?_, fun x hx a => ?_⟩
        · rw [hup]; exact hk _
        · exact ((bodyPose_smooth (k := 1) hx _).apply (p := fun _ => G.sitePos.getD k 0) (fun a => contDiffAt_const) a).differentiableAt (by simp)
    | body =>
      rcases jnpGet_range (α := V3 ℝ) j.model.nbody i with hn | ⟨k, -, hk⟩
      · rw [objPos] at h
        · dsimp only [simComPos, simKinematics] at h
          rw [hn] at h; cases h
        · simp
        · simp
      · refine ⟨fun q => (bodyPose G j.model q.get k).trans, fun q => ?_, fun x hx a => ?_⟩
        · rw [hup]; exact hk _
        · exact ((bodyPose_smooth (k := 1) hx k).trans a).differentiableAt (by simp)
    | other =>
      rcases jnpGet_range (α := V3 ℝ) j.model.nbody i with hn | ⟨k, -, hk⟩
      · rw [objPos] at h
        · dsimp only [simComPos, simKinematics] at h
          rw [hn] at h; cases h
        · simp
        · simp
      · refine ⟨fun q => (bodyPose G j.model q.get k).trans, fun q => ?_, fun x hx a => ?_⟩
        · rw [hup]; exact hk _
        · exact ((bodyPose_smooth (k := 1) hx k).trans a).differentiableAt (by simp)
  unfold Differentiated at hd
  unfold pointOf at h0 ⊢
  split at hd
  · rename_i hk
    simp only [hk] at h0 ⊢
    obtain ⟨root, hr, h0⟩ := Except.bind_eq_ok h0
    simp only [hr, bind, Except.bind]
    have hroot : root < j.model.nbody := by
      have hl := hw.roots.1
      have hpos := hw.tree.pos
      have h1 : npGet j.model.bodyRootid 0 = .ok (j.model.bodyRootid.getD 0 0) :=
        npGet_some (i := 0) (by rw [List.getD_eq_getElem _ _ (by omega), List.getElem?_eq_getElem])
      rw [h1] at hr
      cases hr
      exact hw.roots.2 0 hpos
    have hcom : ∀ q, jnpGet (update env j.model q).subtreeCom root = .ok
        (if subtreeMass j.model root < 1 / 10 ^ 15 then (simKinematics G j.model q).xipos.getD root 0 else subtreeMean j.model (simKinematics G j.model q).xipos root) := by
      intro q
      obtain ⟨e, p, J, hup⟩ := update_fields hs q
      rw [hup]
      exact jnpGet_some (C61_subtrees hw.tree (by simp [simKinematics]) hw.mass hroot)
    have hx : ∀ c < j.model.nbody, ∀ q, (simKinematics G j.model q).xipos.getD c 0 = (bodyPose G j.model q.get c).apply (G.bodyIpos.getD c 0) := by
      intro c hc q
      rw [List.getD_eq_getElem _ _ (by simpa [simKinematics] using hc)]
      simp [simKinematics]
    have hdx : ∀ c < j.model.nbody, ∀ (x : Fin j.model.nq → ℝ), QuatsNonzero j.model (vecOf x).get → ∀ a,
        DifferentiableAt ℝ (fun y : Fin j.model.nq → ℝ => (simKinematics G j.model (vecOf y)).xipos.getD c 0 a) x := by
      intro c hc x hu a
      simp only [hx c hc]
      exact ((bodyPose_smooth (k := 1) hu c).apply (p := fun _ => G.bodyIpos.getD c 0) (fun a => contDiffAt_const) a).differentiableAt (by simp)
    refine ⟨_, hcom, fun x hu a => ?_⟩
    by_cases hm : subtreeMass j.model root < 1 / 10 ^ 15
    · simp only [if_pos hm]
      exact hdx root hroot x hu a
    · simp only [if_neg hm, subtreeMean]
      have h1 : DifferentiableAt ℝ (fun y : Fin j.model.nq → ℝ => ∑ c ∈ range j.model.nbody, if Anc j.model.bodyParentid root c then
          j.model.bodyMass.getD c 0 * (simKinematics G j.model (vecOf y)).xipos.getD c 0 a else 0) x := DifferentiableAt.fun_sum fun c hc => ?_
      · have h2 : DifferentiableAt ℝ (fun y : Fin j.model.nq → ℝ => (∑ c ∈ range j.model.nbody, if Anc j.model.bodyParentid root c then
          j.model.bodyMass.getD c 0 * (simKinematics G j.model (vecOf y)).xipos.getD c 0 a else 0) * (subtreeMass j.model root)⁻¹) x := h1.mul_const _
        exact h2
      split
      · exact (hdx c (mem_range.1 hc) x hu a).const_mul _
      · exact differentiableAt_const _
  · rename_i w lm oi ty tgt hk
    simp only [hk] at h0 ⊢
    exact obj ty oi h0
  · rename_i s oi ty lo hi li hk
    simp only [hk] at h0 ⊢
    exact obj ty oi h0
  · exact hd.elim

/-- The value as a differentiable function of the configuration. -/
theorem value_smooth {j : JaxComp ℝ} (hs : Simulates env G j.model) (hw : RobotWF G j.model) (hd : Differentiated j)
    {q0 : Vec ℝ} {V0 : Vec ℝ} (h0 : evalValue env j (update env j.model q0) = .ok V0) :
    ∃ f : Vec ℝ → Vec ℝ, (∀ q, evalValue env j (update env j.model q) = .ok (f q)) ∧ (∀ q, (f q).len = V0.len) ∧
      ∀ x : Fin j.model.nq → ℝ, QuatsNonzero j.model (vecOf x).get → Smooth f (vecOf x) := by
  obtain ⟨⟨p0, hp0⟩, σ, c, a, haff⟩ := value_affine hd h0
  obtain ⟨P, hP, hdiff⟩ := point_smooth hs hw hd hp0
  have h := fun q => haff _ _ (hP q)
  choose f hf1 hf2 hf3 using h
  refine ⟨f, hf1, hf2, fun x hu i _ => ?_⟩
  simp only [hf3]
  have e : coordsOf (vecOf x) = x := by
    funext k
    exact dif_pos (show (k : Nat) < j.model.nq from k.2)
  refine DifferentiableAt.add_const _ (DifferentiableAt.const_mul ?_ _)
  have := hdiff x hu (a i)
  rw [← e] at this
  exact this

private theorem jacLoop_rows (q : Nat → ℝ) : ∀ (l : List (JntType × Nat)) (r c : Nat) (A : Mat ℝ), (jacDq2vLoop q l r c A).rows = A.rows
  | [], _, _, _ => rfl
  | (t, adr) :: rest, r, c, A => by
    cases t <;> exact jacLoop_rows q rest _ _ _

/-- The Jacobian can be evaluated wherever the value can. -/
theorem auto_exists (hs : Simulates env G m) (hw : RobotWF G m) {j : JaxComp ℝ} (hm : j.model = m) (hj : JacrevExact env) (hd : Differentiated j)
    {x : Fin m.nq → ℝ} (hu : UnitQuats m (vecOf x)) {V0 : Vec ℝ} (h0 : evalValue env j (update env m (vecOf x)) = .ok V0) :
    ∃ J, evalJacobian env j (update env m (vecOf x)) = .ok J := by
  subst hm
  have hp := sim_kept hs
  have hq := sim_qpos hs hw.addr hu
  have key : ∀ b, (∃ V, evalValue env j (if b = true then comUpdate env j.model (vecOf x) else env.kinematics j.model (vecOf x)) = .ok V) →
      ∃ J, autoJacobian env j (update env j.model (vecOf x)) b = .ok J := by
    rintro b ⟨V, hb⟩
    unfold autoJacobian
    simp only [hq, hb, bind, Except.bind]
    split
    · unfold Mat.mul
      rw [hj.cols, if_pos (show (vecOf x).len = (jacDq2v j.model (vecOf x).get).rows from
        (jacLoop_rows (vecOf x).get (j.model.jntType.zip j.model.jntQposadr) 0 0 (Mat.zero j.model.nq j.model.nv)).symm)]
      exact ⟨_, rfl⟩
    · exact ⟨_, rfl⟩
  unfold evalJacobian
  unfold Differentiated at hd
  split at hd
  · rename_i hk
    simp only [hk]
    refine key true ⟨V0, ?_⟩
    rw [← h0]
    unfold evalValue
    rw [hk]
    simp only [if_pos, hp.com]
    rfl
  · rename_i hk
    simp only [hk]
    refine key false ⟨V0, ?_⟩
    rw [← h0]
    unfold evalValue
    rw [hk]
    simp only [objPos_kept hp, Bool.false_eq_true, if_false]
  · rename_i hk
    simp only [hk]
    refine key false ⟨V0, ?_⟩
    rw [← h0]
    unfold evalValue
    rw [hk]
    simp only [objPos_kept hp, Bool.false_eq_true, if_false]
  · exact hd.elim

/-! ### C78 for robots -/

/-- **C78**, what the code computes, for every robot and without assumptions on the value: when the robot moves from a configuration with velocity `v`, the
value of a centre-of-mass task, position task or position barrier changes at the rate `J v`, except that the angular velocities of free and
ball joints count only half. -/
theorem C78_robot {j : JaxComp ℝ} (hs : Simulates env G j.model) (hw : RobotWF G j.model) (hj : JacrevExact env) (hd : Differentiated j)
    {x : Fin j.model.nq → ℝ} (hu : UnitQuats j.model (vecOf x)) {V0 : Vec ℝ} (h0 : evalValue env j (update env j.model (vecOf x)) = .ok V0) :
    ∃ J, evalJacobian env j (update env j.model (vecOf x)) = .ok J ∧ ∀ v : Vec ℝ, ∃ V : ℝ → Vec ℝ, (∀ t, evalValue env j (update env j.model (integrate env j.model (vecOf x) v t)) = .ok (V t)) ∧
      ∀ i < V0.len, HasDerivAt (fun t => (V t).get i)
        (∑ k ∈ range j.model.nv, J.get i k * ((if angularDof j.model k then 1 / 2 else 1) * v.get k)) 0 := by
  obtain ⟨f, hf1, hf2, hf3⟩ := value_smooth hs hw hd h0
  obtain ⟨J, hJ⟩ := auto_exists hs hw rfl hj hd hu h0
  have hq := sim_qpos hs hw.addr hu
  refine ⟨J, hJ, fun v => ⟨fun t => f (integrate env j.model (vecOf x) v t), fun t => hf1 _, fun i hi => ?_⟩⟩
  have h := C78_rate (d := update env j.model (vecOf x)) hs.quat hj hw.addr (sim_kept hs) hd (by rw [hq]; rfl) (by rw [hq]; exact hu) hJ hf1 hf2
    (by rw [hq]; exact hf3 x (unit_nonzero hu)) v hi
  rw [hq] at h
  exact h

/-- **C78**, what holds for robots: the value changes at the rate `J v` for every velocity without angular velocity of free and ball joints. -/
theorem C78_robot_partial {j : JaxComp ℝ} (hs : Simulates env G j.model) (hw : RobotWF G j.model) (hj : JacrevExact env) (hd : Differentiated j)
    {x : Fin j.model.nq → ℝ} (hu : UnitQuats j.model (vecOf x)) {V0 : Vec ℝ} (h0 : evalValue env j (update env j.model (vecOf x)) = .ok V0) :
    ∃ J, evalJacobian env j (update env j.model (vecOf x)) = .ok J ∧ ∀ v : Vec ℝ, (∀ k < j.model.nv, angularDof j.model k = true → v.get k = 0) →
      ∃ V : ℝ → Vec ℝ, (∀ t, evalValue env j (update env j.model (integrate env j.model (vecOf x) v t)) = .ok (V t)) ∧
      ∀ i < V0.len, HasDerivAt (fun t => (V t).get i) (rowDot J i v.get) 0 := by
  obtain ⟨f, hf1, hf2, hf3⟩ := value_smooth hs hw hd h0
  obtain ⟨J, hJ⟩ := auto_exists hs hw rfl hj hd hu h0
  have hq := sim_qpos hs hw.addr hu
  refine ⟨J, hJ, fun v hv => ⟨fun t => f (integrate env j.model (vecOf x) v t), fun t => hf1 _, fun i hi => ?_⟩⟩
  have h := C78_rate_partial (d := update env j.model (vecOf x)) hs.quat hj hw.addr (sim_kept hs) hd (by rw [hq]; rfl) (by rw [hq]; exact hu) hJ hf1 hf2
    (by rw [hq]; exact hf3 x (unit_nonzero hu)) v hv hi
  rw [hq] at h
  exact h

/-! ### C110 -/

theorem cdof_length (hs : Simulates env G m) (hw : RobotWF G m) (q : Vec ℝ) : (update env m q).cdof.length = m.nv := by
  obtain ⟨e, p, J, hup⟩ := update_fields hs q
  rw [hup]
  obtain ⟨l1, -⟩ := consecutive_block ((0, 0) : V3 ℝ × V3 ℝ) hw.addr.addr
    (fun j => jointCdof G m (simKinematics G m q).qpos.get ((subtreeComs m (simKinematics G m q).xipos).getD (m.bodyRootid.getD (G.jntBodyid.getD j 0) 0) 0) j)
    (fun j _ => jointCdof_length _ j)
  rw [Nat.zero_add] at l1
  exact l1

theorem frame_rows (hs : Simulates env G m) (hw : RobotWF G m) {q : Vec ℝ} {i : Int} {t : ObjType} {rows : List (V3 ℝ × V3 ℝ)}
    (h : frameJacobianWorld m (update env m q) i t = .ok rows) : rows.length = m.nv := by
  obtain ⟨b, pos, root, com, -, -, -, -, e⟩ := worldRows h
  rw [e]
  simp [dofMask_length, hw.tree.dofs, cdof_length hs hw q]

theorem point_rows (hs : Simulates env G m) (hw : RobotWF G m) {q : Vec ℝ} {p : V3 ℝ} {b : Int} {rows : List (V3 ℝ × V3 ℝ)}
    (h : pointJacobian m (update env m q) p b = .ok rows) : rows.length = m.nv := by
  obtain ⟨root, hroot, h⟩ := Except.bind_eq_ok h
  obtain ⟨com, hcom, h⟩ := Except.bind_eq_ok h
  injection h with h
  rw [← h]
  simp [dofMask_length, hw.tree.dofs, cdof_length hs hw q]

/-- The joint velocity of one degree of freedom. -/
def oneDof (k : Nat) : Vec ℝ := ⟨k + 1, fun i => if i = k then 1 else 0⟩

private theorem sum_oneDof (F : Nat → ℝ) {n k : Nat} (hk : k < n) : ∑ l ∈ range n, F l * (oneDof k).get l = F k := by
  rw [sum_eq_single k]
  · simp [oneDof]
  · intro b _ hb
    simp [oneDof, hb]
  · intro h
    exact absurd (mem_range.2 hk) h

theorem velocity_oneDof {rows : List (V3 ℝ × V3 ℝ)} {k : Nat} (hk : k < rows.length) : objVelocity rows (oneDof k).get = rows.getD k (0, 0) := by
  unfold objVelocity
  rw [sum_eq_single k]
  · simp [oneDof]
  · intro l _ hl
    simp [oneDof, hl]
  · intro h
    exact absurd (mem_range.2 hk) h

/-- **C110**: the Jacobian of a position task and the world-aligned frame Jacobian of the same object, entry by entry: the selected rows of the linear
part, except that the columns of angular velocities of free and ball joints are twice as large. -/
theorem C110_position {j : JaxComp ℝ} (hs : Simulates env G j.model) (hw : RobotWF G j.model) (hj : JacrevExact env)
    {w tgt : Arr ℝ} {lm : ℝ} {i : Nat} {ty : ObjType} {b : Nat} (hk : j.kind = .positionTask w lm i ty tgt) (hb : bodyOf j.model ty i = some b)
    (hm : ∀ a ∈ j.maskIdxs, a < 3) (ht : FitsVec tgt j.maskIdxs.length)
    {x : Fin j.model.nq → ℝ} (hu : UnitQuats j.model (vecOf x)) :
    ∃ J, evalJacobian env j (update env j.model (vecOf x)) = .ok J ∧ ∃ rows, frameJacobianWorld j.model (update env j.model (vecOf x)) i ty = .ok rows ∧ rows.length = j.model.nv ∧
      ∀ r (hr : r < j.maskIdxs.length), ∃ h3 : j.maskIdxs[r] < 3, ∀ k < j.model.nv,
        J.get r k = (if angularDof j.model k then 2 else 1) * (rows.getD k (0, 0)).1 ⟨j.maskIdxs[r], h3⟩ := by
  have hn : ∀ q, objPos (update env j.model q) ty i = .ok ((bodyPose G j.model q.get b).apply (offsetOf G ty i)) := fun q => (update_object hs q hb).1
  obtain ⟨t, ht1, ht2⟩ := operand_fits ht
  have hval : ∀ q p, objPos (update env j.model q) ty i = .ok p → ∃ V, evalValue env j (update env j.model q) = .ok V ∧ V.len = j.maskIdxs.length ∧
      ∀ r (hr : r < j.maskIdxs.length), V.get r = p ⟨min j.maskIdxs[r] 2, by omega⟩ - entry tgt r := by
    intro q p hp
    obtain ⟨V, v1, v2, v3, -⟩ := ht2 ((vec3 p).gather j.maskIdxs) rfl
    refine ⟨V, ?_, v2, fun r hr => ?_⟩
    · rw [evalValue, hk]
      simp only [bind, Except.bind, ht1, hp]
      exact v1
    · rw [v3 r hr, gather3]
      simp only [List.getElem?_eq_getElem hr, Option.getD_some]
  obtain ⟨V0, hV0, hV0l, -⟩ := hval _ _ (hn (vecOf x))
  obtain ⟨J, hJ, hrate⟩ := C78_robot hs hw hj (by unfold Differentiated; rw [hk]; trivial) hu hV0
  obtain ⟨rows, hrows, hmot⟩ := C107_world hs hw hu hb
  have hlen : rows.length = j.model.nv := frame_rows hs hw hrows
  refine ⟨J, hJ, rows, hrows, hlen, fun r hr => ?_⟩
  have h3 : j.maskIdxs[r] < 3 := hm _ (List.getElem_mem hr)
  refine ⟨h3, fun k hkn => ?_⟩
  obtain ⟨V, hV, hVd⟩ := hrate (oneDof k)
  obtain ⟨X, M, hXM, -, -, hX, -⟩ := hmot (oneDof k)
  have d1 := hVd r (by rw [hV0l]; exact hr)
  have d2 := (hX ⟨j.maskIdxs[r], h3⟩).sub_const (entry tgt r)
  have e : (fun t => (V t).get r) = fun t => X t ⟨j.maskIdxs[r], h3⟩ - entry tgt r := by
    funext s
    obtain ⟨V', v1, -, v3⟩ := hval _ _ (hXM s).1
    rw [hV s] at v1
    cases v1
    rw [v3 r hr]
    congr 3
    omega
  rw [e] at d1
  have key := d1.unique d2
  rw [show (∑ l ∈ range j.model.nv, J.get r l * ((if angularDof j.model l then 1 / 2 else 1) * (oneDof k).get l)) =
      ∑ l ∈ range j.model.nv, (J.get r l * (if angularDof j.model l then 1 / 2 else 1)) * (oneDof k).get l from sum_congr rfl fun l _ => by ring,
    sum_oneDof _ hkn] at key
  rw [velocity_oneDof (by rw [hlen]; exact hkn)] at key
  rw [← key]
  split <;> ring

/-- **C110**, centre of mass: the Jacobian of a centre-of-mass task is the mass-weighted mean of the Jacobians of the bodies' centres, as `mjx.jac`
computes them, except that the columns of angular velocities of free and ball joints are twice as large. -/
theorem C110_com {j : JaxComp ℝ} (hs : Simulates env G j.model) (hw : RobotWF G j.model) (hj : JacrevExact env)
    {w tgt : Arr ℝ} {lm : ℝ} (hk : j.kind = .comTask w lm tgt) (hroot : j.model.bodyRootid.getD 0 1 = 0) (hmass : 1 / 10 ^ 15 ≤ totalMass j.model)
    (hm : ∀ a ∈ j.maskIdxs, a < 3) (ht : FitsVec tgt j.maskIdxs.length)
    {x : Fin j.model.nq → ℝ} (hu : UnitQuats j.model (vecOf x)) :
    ∃ J, evalJacobian env j (update env j.model (vecOf x)) = .ok J ∧ ∃ rows : Nat → List (V3 ℝ × V3 ℝ),
      (∀ c < j.model.nbody, ∃ p, (update env j.model (vecOf x)).xipos[c]? = some p ∧
        pointJacobian j.model (update env j.model (vecOf x)) p c = .ok (rows c) ∧ (rows c).length = j.model.nv) ∧
      ∀ r (hr : r < j.maskIdxs.length), ∃ h3 : j.maskIdxs[r] < 3, ∀ k < j.model.nv,
        J.get r k = (if angularDof j.model k then 2 else 1) *
          ((∑ c ∈ range j.model.nbody, j.model.bodyMass.getD c 0 * ((rows c).getD k (0, 0)).1 ⟨j.maskIdxs[r], h3⟩) / totalMass j.model) := by
  have hx : ∀ q, (update env j.model q).xipos = (List.range j.model.nbody).map fun c => (bodyPose G j.model q.get c).apply (G.bodyIpos.getD c 0) := by
    intro q
    obtain ⟨e, p, J, hup⟩ := update_fields hs q
    rw [hup]
    rfl
  have hc : ∀ q, (update env j.model q).subtreeCom = subtreeComs j.model (update env j.model q).xipos := by
    intro q
    obtain ⟨e, p, J, hup⟩ := update_fields hs q
    rw [hup]
    rfl
  have hval := fun q => C61_com_error (env := env) (d := update env j.model q) hk hw.tree hroot hw.mass hmass (by rw [hx]; simp) (hc q) hm ht
  obtain ⟨V0, hV0, hV0l, -⟩ := hval (vecOf x)
  obtain ⟨J, hJ, hrate⟩ := C78_robot hs hw hj (by unfold Differentiated; rw [hk]; trivial) hu hV0
  have hpt := fun c : Nat => fun h : c < j.model.nbody => C107_point hs hw hu h (G.bodyIpos.getD c 0)
  have hex : ∃ rows : Nat → List (V3 ℝ × V3 ℝ), ∀ c < j.model.nbody, ∃ T, transformFrameToWorld (update env j.model (vecOf x)) c = .ok T ∧
      pointJacobian j.model (update env j.model (vecOf x)) (T.apply (G.bodyIpos.getD c 0)) c = .ok (rows c) ∧
      ∀ v : Vec ℝ, ∃ F : ℝ → SE3 ℝ, (∀ s, transformFrameToWorld (update env j.model (integrate env j.model (vecOf x) v s)) c = .ok (F s)) ∧ F 0 = T ∧
        ∀ a, HasDerivAt (fun s => (F s).apply (G.bodyIpos.getD c 0) a) ((objVelocity (rows c) v.get).1 a) 0 := by
    refine ⟨fun c => if h : c < j.model.nbody then (hpt c h).choose_spec.2.choose else [], fun c h => ?_⟩
    dsimp only
    rw [dif_pos h]
    exact ⟨_, (hpt c h).choose_spec.1, (hpt c h).choose_spec.2.choose_spec⟩
  obtain ⟨rows, hrows⟩ := hex
  refine ⟨J, hJ, rows, fun c hcn => ?_, fun r hr => ?_⟩
  · obtain ⟨T, hT, hp, -⟩ := hrows c hcn
    refine ⟨T.apply (G.bodyIpos.getD c 0), ?_, hp, point_rows hs hw hp⟩
    rw [update_frame hs _ hcn] at hT
    cases hT
    rw [hx]
    simp [hcn]
  have h3 : j.maskIdxs[r] < 3 := hm _ (List.getElem_mem hr)
  refine ⟨h3, fun k hkn => ?_⟩
  obtain ⟨V, hV, hVd⟩ := hrate (oneDof k)
  have d1 := hVd r (by rw [hV0l]; exact hr)
  have hterm : ∀ c ∈ range j.model.nbody, HasDerivAt
      (fun s => j.model.bodyMass.getD c 0 * (update env j.model (integrate env j.model (vecOf x) (oneDof k) s)).xipos.getD c 0 ⟨j.maskIdxs[r], h3⟩)
      (j.model.bodyMass.getD c 0 * ((rows c).getD k (0, 0)).1 ⟨j.maskIdxs[r], h3⟩) 0 := by
    intro c hcn
    rw [mem_range] at hcn
    obtain ⟨T, hT, hp, hF⟩ := hrows c hcn
    obtain ⟨F, hF1, -, hF2⟩ := hF (oneDof k)
    have h := (hF2 ⟨j.maskIdxs[r], h3⟩).const_mul (j.model.bodyMass.getD c 0)
    rw [velocity_oneDof (by rw [point_rows hs hw hp]; exact hkn)] at h
    refine h.congr_of_eventuallyEq (Filter.Eventually.of_forall fun s => ?_)
    have e := hF1 s
    rw [update_frame hs _ hcn] at e
    injection e with e
    dsimp only
    rw [← e, hx]
    congr 2
    rw [List.getD_eq_getElem _ _ (by simpa using hcn)]
    simp
  have d2 := ((HasDerivAt.fun_sum hterm).div_const (totalMass j.model)).sub_const (entry tgt r)
  have e : (fun t => (V t).get r) = fun t => (∑ c ∈ range j.model.nbody, j.model.bodyMass.getD c 0 *
      (update env j.model (integrate env j.model (vecOf x) (oneDof k) t)).xipos.getD c 0 ⟨j.maskIdxs[r], h3⟩) / totalMass j.model - entry tgt r := by
    funext s
    obtain ⟨V', v1, -, v3⟩ := hval (integrate env j.model (vecOf x) (oneDof k) s)
    rw [hV s] at v1
    cases v1
    obtain ⟨_, h⟩ := v3 r hr
    exact h
  rw [e] at d1
  have key := d1.unique d2
  rw [show (∑ l ∈ range j.model.nv, J.get r l * ((if angularDof j.model l then 1 / 2 else 1) * (oneDof k).get l)) =
      ∑ l ∈ range j.model.nv, (J.get r l * (if angularDof j.model l then 1 / 2 else 1)) * (oneDof k).get l from sum_congr rfl fun l _ => by ring,
    sum_oneDof _ hkn] at key
  rw [← key]
  split <;> ring

/-- **C110**, what holds: for robots with hinges and slides only, a position task's Jacobian consists of the selected rows of the linear part of the
world-aligned frame Jacobian.  Missing: free and ball joints, for which it is false (`C110_violated`). -/
theorem C110_position_partial {j : JaxComp ℝ} (hs : Simulates env G j.model) (hw : RobotWF G j.model) (hj : JacrevExact env)
    {w tgt : Arr ℝ} {lm : ℝ} {i : Nat} {ty : ObjType} {b : Nat} (hk : j.kind = .positionTask w lm i ty tgt) (hb : bodyOf j.model ty i = some b)
    (hm : ∀ a ∈ j.maskIdxs, a < 3) (ht : FitsVec tgt j.maskIdxs.length) (ha : ∀ k < j.model.nv, angularDof j.model k = false)
    {x : Fin j.model.nq → ℝ} (hu : UnitQuats j.model (vecOf x)) :
    ∃ J, evalJacobian env j (update env j.model (vecOf x)) = .ok J ∧
      ∃ rows, frameJacobianWorld j.model (update env j.model (vecOf x)) i ty = .ok rows ∧ rows.length = j.model.nv ∧
      ∀ r (hr : r < j.maskIdxs.length), ∃ h3 : j.maskIdxs[r] < 3, ∀ k < j.model.nv,
        J.get r k = (rows.getD k (0, 0)).1 ⟨j.maskIdxs[r], h3⟩ := by
  obtain ⟨J, hJ, rows, h1, h2, h3⟩ := C110_position hs hw hj hk hb hm ht hu
  refine ⟨J, hJ, rows, h1, h2, fun r hr => ?_⟩
  obtain ⟨h3', h⟩ := h3 r hr
  refine ⟨h3', fun k hkn => ?_⟩
  rw [h k hkn, ha k hkn]
  simp

end

/-! ### A buoy: one free body with a lamp at some distance -/

namespace Buoy

noncomputable def model : MjModel ℝ :=
  { (MjModel.empty : MjModel ℝ) with
    nq := 7, nv := 6, nbody := 2, jntType := [.free], jntQposadr := [0], jntDofadr := [0], jntRange := [(0, 0)], bodyParentid := [0, 0],
    bodyRootid := [0, 1], bodyWeldid := [0, 1], dofBodyid := [1, 1, 1, 1, 1, 1], bodyMass := [0, 3], siteBodyid := [1], bodyNames := ["world", "buoy"] }

noncomputable def geometry : Geometry where
  bodyPos := [0, 0]
  bodyQuat := [1, 1]
  bodyIpos := [0, ![0, 0, 1]]
  jntBodyid := [1]
  jntPos := [0]
  jntAxis := [0]
  qpos0 := fun _ => 0
  geomPos := []
  geomQuat := []
  sitePos := [![1, 0, 0]]
  siteQuat := [1]

noncomputable def env : Env ℝ :=
  { Rod.env 0 with kinematics := simKinematics geometry, comPos := simComPos geometry, makeConstraint := fun _ d => d }

theorem simulates : Simulates env geometry model := ⟨fun _ => rfl, fun _ => rfl, fun d => ⟨d.efcEq, d.efcPos, d.efcJ, rfl⟩, rfl⟩

theorem unitOne (l : List ℍ[ℝ]) (h : ∀ r ∈ l, r = 1) (i : Nat) : Quaternion.normSq (l.getD i 1) = 1 := by
  have : l.getD i 1 = 1 := by
    by_cases hi : i < l.length
    · rw [List.getD_eq_getElem _ _ hi]; exact h _ (List.getElem_mem hi)
    · rw [List.getD_eq_default _ _ (by omega)]
  rw [this]; simp

theorem robot : RobotWF geometry model where
  tree := by
    refine ⟨?_, by decide, rfl, by decide⟩
    intro b h0 hb
    have : b < 2 := hb
    interval_cases b; decide
  addr := ⟨by repeat' constructor, rfl⟩
  joints := by
    intro j hj
    have : j < 1 := hj
    interval_cases j; exact ⟨by decide, by decide⟩
  dofs := rfl
  axis := by
    intro j hj ht
    have : j < 1 := hj
    interval_cases j
    cases ht
  quat := unitOne _ (by simp [geometry])
  free := by
    intro j hj ht
    have : j < 1 := hj
    interval_cases j
    refine ⟨rfl, ?_⟩
    intro i hi
    have : i < 1 := hi
    interval_cases i; decide
  ball := by
    intro j i hji hi _ ht
    have hi' : i < 1 := hi
    omega
  roots := ⟨rfl, by decide⟩
  root := by
    intro b h0 hb hp
    have : b < 2 := hb
    interval_cases b
    exact absurd rfl hp
  mass := rfl
  objects := ⟨by decide, by decide⟩
  turns := ⟨unitOne _ (by simp [geometry]), unitOne _ (by simp [geometry])⟩

/-- The buoy upright, at a point of the sea. -/
noncomputable def x0 : Fin model.nq → ℝ := ![4, 5, 0, 1, 0, 0, 0]

theorem unit : UnitQuats model (vecOf x0) := by
  intro k adr h
  rcases k with _ | k
  · cases h
    rw [Quaternion.normSq_def']
    show (1 : ℝ) ^ 2 + 0 ^ 2 + 0 ^ 2 + 0 ^ 2 = 1
    norm_num
  · rw [List.getD_eq_default (l := model.jntType) _ (show 1 ≤ k + 1 by omega)] at h
    cases h

/-- Bring the lamp to the origin. -/
noncomputable def lamp : JaxComp ℝ where
  model := model
  dim := 3
  vectorGain := Arr.scalar 1
  gainFn := id
  maskIdxs := [0, 1, 2]
  kind := .positionTask (Arr.scalar 1) 0 0 .site (Arr.zeros 3)

theorem pose : bodyPose geometry model (vecOf x0).get 1 = ⟨1, ![4, 5, 0]⟩ := by
  have hj : jointsOfBody geometry model 1 = [0] := rfl
  rw [bodyPose, if_neg (by decide)]
  simp only [hj, List.foldl_cons, List.foldl_nil]
  have h1 : quatAt (vecOf x0).get (0 + 3) = 1 := rfl
  have h2 : vec3At (vecOf x0).get 0 = ![4, 5, 0] := by
    funext a; fin_cases a <;> rfl
  show (⟨normalizeQuat (quatAt (vecOf x0).get (0 + 3)), vec3At (vecOf x0).get 0⟩ : SE3 ℝ) = _
  rw [h1, h2, normalizeQuat_unit (by simp)]

/-- Turning the buoy about the vertical axis moves the lamp sideways. -/
theorem turn {rows : List (V3 ℝ × V3 ℝ)} (h : frameJacobianWorld model (update env model (vecOf x0)) 0 .site = .ok rows) :
    (rows.getD 5 (0, 0)).1 1 = 1 := by
  have hl : rows.length = 6 := frame_rows simulates robot h
  obtain ⟨b, pos, root, com, e1, e2, e3, e4, e⟩ := worldRows h
  cases e1
  have hp := (update_object simulates (vecOf x0) (t := .site) (i := 0) (b := 1) rfl).1
  have hp' : objPos (update env model (vecOf x0)) .site 0 = .ok ((bodyPose geometry model (vecOf x0).get 1).apply (offsetOf geometry .site 0)) := hp
  rw [hp'] at e2
  cases e2
  obtain ⟨root', com', k1, k2, hv⟩ := rows_velocity simulates robot unit (oneDof 5).get (b := 1) (by decide)
    ((bodyPose geometry model (vecOf x0).get 1).apply (offsetOf geometry .site 0))
  rw [show jnpGet model.bodyRootid ((1 : Nat) : Int) = _ from k1] at e3
  cases e3
  rw [k2] at e4
  cases e4
  rw [← e, velocity_oneDof (by omega)] at hv
  rw [hv, pose]
  have ha : Anc model.bodyParentid (geometry.jntBodyid.getD 0 0) 1 := Anc.self
  rw [show model.jntType.length = 1 from rfl, sum_range_one, if_pos ha]
  have hq : quatAt (vecOf x0).get 3 = 1 := rfl
  have htw : jointTwist geometry model (vecOf x0).get (oneDof 5).get 0 = (![0, 0, 1], -crossProduct ![0, 0, 1] ![4, 5, 0]) := by
    show (rotate (quatAt (vecOf x0).get 3) (vec3At (oneDof 5).get 3), vec3At (oneDof 5).get 0 -
      crossProduct (rotate (quatAt (vecOf x0).get 3) (vec3At (oneDof 5).get 3)) (vec3At (vecOf x0).get 0)) = _
    have h1 : vec3At (oneDof 5).get 3 = ![0, 0, 1] := by funext a; fin_cases a <;> simp [vec3At, oneDof]
    have h2 : vec3At (oneDof 5).get 0 = 0 := by funext a; fin_cases a <;> simp [vec3At, oneDof]
    have h3 : vec3At (vecOf x0).get 0 = ![4, 5, 0] := by funext a; fin_cases a <;> rfl
    rw [hq, h1, h2, h3, rotate_one, zero_sub]
  rw [htw]
  have ho : (⟨1, ![4, 5, 0]⟩ : SE3 ℝ).apply (offsetOf geometry .site 0) = ![5, 5, 0] := by
    show rotate 1 ![1, 0, 0] + ![4, 5, 0] = _
    rw [rotate_one]
    funext a; fin_cases a <;> simp <;> norm_num
  rw [ho]
  simp [pointVel, crossProduct]
  norm_num

end Buoy

section
open Buoy

/-- **C110** is false when the robot has a free or ball joint: turning the buoy about the vertical axis at 1 rad/s moves the lamp at 1 m/s, as the frame
Jacobian says, but the position task's Jacobian says 2 m/s. -/
theorem C110_violated : ∃ J rows, evalJacobian env lamp (update env model (vecOf x0)) = .ok J ∧
    frameJacobianWorld model (update env model (vecOf x0)) 0 .site = .ok rows ∧ (rows.getD 5 (0, 0)).1 1 = 1 ∧ J.get 1 5 = 2 := by
  obtain ⟨J, hJ, rows, h1, -, h3⟩ := C110_position (j := lamp) simulates robot (jacrevR_exact rfl) (i := 0) rfl (b := 1) rfl (by decide) (.inr (.inr rfl)) unit
  refine ⟨J, rows, hJ, h1, turn h1, ?_⟩
  obtain ⟨_, h⟩ := h3 1 (by decide)
  have h5 : J.get 1 5 = 2 * (rows.getD 5 (0, 0)).1 1 := h 5 (by decide)
  rw [h5, turn h1]
  norm_num

end

namespace Buoy

/-- The centre of mass of the buoy. -/
noncomputable def balance : JaxComp ℝ :=
  { lamp with kind := .comTask (Arr.scalar 1) 0 (Arr.zeros 3) }

/-- All hypotheses of `C110_com` hold. -/
example : ∃ J, evalJacobian env balance (update env model (vecOf x0)) = .ok J := by
  obtain ⟨J, h, -⟩ := C110_com (j := balance) simulates robot (jacrevR_exact rfl) rfl rfl (by
    show 1 / 10 ^ 15 ≤ ∑ b ∈ range 2, ([0, 3] : List ℝ).getD b 0
    simp [Finset.sum_range_succ]; norm_num) (by decide) (.inr (.inr rfl)) unit
  exact ⟨J, h⟩

end Buoy

end Mjinx.Props
