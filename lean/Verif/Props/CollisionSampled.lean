import Verif.Props.RobotSampled
import Verif.Props.CollisionFlow
import Verif.Spec.Watched

/-!
# Control steps of finite length avoid collisions
-/

set_option linter.unusedSectionVars false

namespace Mjinx.Props
open Mjinx Mjinx.Spec Finset
open scoped Matrix Quaternion

/-! ### Geometry -/

theorem len3_dot (u w : V3 ℝ) : |u ⬝ᵥ w| ≤ len3 u * len3 w := by
  rw [← Real.sqrt_sq_eq_abs, len3, len3, ← Real.sqrt_mul (by unfold sq3; positivity)]
  refine Real.sqrt_le_sqrt ?_
  simp only [dot3, sq3]
  nlinarith [sq_nonneg (u 0 * w 1 - u 1 * w 0), sq_nonneg (u 0 * w 2 - u 2 * w 0), sq_nonneg (u 1 * w 2 - u 2 * w 1)]

/-- A drifting vector seen along a fixed direction. -/
theorem drift_along {Ω r dt : ℝ} {f : ℝ → V3 ℝ} (h : Drifting Ω r f) {u : V3 ℝ} (hu : len3 u = 1) (hdt : 0 ≤ dt) :
    ∃ ρ, HasDerivAt (fun t => u ⬝ᵥ f t) ρ 0 ∧ |u ⬝ᵥ f dt - u ⬝ᵥ f 0 - dt * ρ| ≤ Ω ^ 2 * r * dt ^ 2 / 2 := by
  obtain ⟨g, ⟨f1, f2, a1, a2, b⟩, c0, c1, h2⟩ := h
  have e : (fun t => u ⬝ᵥ f t) = fun t => u 0 * (g t 0 + (c0 0 + t * c1 0)) + u 1 * (g t 1 + (c0 1 + t * c1 1)) + u 2 * (g t 2 + (c0 2 + t * c1 2)) := by
    funext t; rw [h2, dot3]; rfl
  have d1 : ∀ t, HasDerivAt (fun t => u ⬝ᵥ f t) (u ⬝ᵥ (f1 t + c1)) t := by
    intro t
    rw [e]
    have hc : ∀ a, HasDerivAt (fun t => u a * (g t a + (c0 a + t * c1 a))) (u a * (f1 t a + c1 a)) t := by
      intro a
      have h3 := ((hasDerivAt_id t).mul_const (c1 a)).const_add (c0 a)
      rw [one_mul] at h3
      exact ((a1 t a).add h3).const_mul (u a)
    refine (((hc 0).add (hc 1)).add (hc 2)).congr_deriv ?_
    rw [dot3]; rfl
  have d2 : ∀ t, HasDerivAt (fun t => u ⬝ᵥ (f1 t + c1)) (u ⬝ᵥ f2 t) t := by
    intro t
    have hc : ∀ a, HasDerivAt (fun t => u a * (f1 t a + c1 a)) (u a * f2 t a) t := fun a => ((a2 t a).add_const (c1 a)).const_mul (u a)
    have e : (fun t => u ⬝ᵥ (f1 t + c1)) = fun t => u 0 * (f1 t 0 + c1 0) + u 1 * (f1 t 1 + c1 1) + u 2 * (f1 t 2 + c1 2) := by
      funext t; rw [dot3]; rfl
    rw [e]
    refine (((hc 0).add (hc 1)).add (hc 2)).congr_deriv ?_
    rw [dot3]
  refine ⟨_, d1 0, second_order (φ := fun t => u ⬝ᵥ f t) (φ' := fun t => u ⬝ᵥ (f1 t + c1)) hdt (fun t _ => d1 t) fun t ht => ?_⟩
  have := (convex_univ (𝕜 := ℝ) (E := ℝ)).norm_image_sub_le_of_norm_hasDerivWithin_le (f := fun t => u ⬝ᵥ (f1 t + c1)) (f' := fun t => u ⬝ᵥ f2 t)
    (C := Ω ^ 2 * r) (fun s _ => (d2 s).hasDerivWithinAt)
    (fun s _ => (len3_dot u (f2 s)).trans (by rw [hu, one_mul]; exact (b s).2.2)) (Set.mem_univ 0) (Set.mem_univ t)
  rw [sub_zero, Real.norm_eq_abs, Real.norm_eq_abs, abs_of_nonneg ht.1] at this
  exact this

theorem drift_neg {Ω r : ℝ} {f : ℝ → V3 ℝ} (h : Drifting Ω r f) : Drifting Ω r (fun s => - f s) := by
  obtain ⟨g, ⟨f1, f2, a1, a2, b⟩, c0, c1, h2⟩ := h
  have hl : ∀ u : V3 ℝ, len3 (-u) = len3 u := fun u => by simp [len3, sq3]
  refine ⟨fun s => - g s, ⟨fun s => - f1 s, fun s => - f2 s, fun s a => (a1 s a).neg, fun s a => (a2 s a).neg, fun s => by simp only [hl]; exact b s⟩,
    - c0, - c1, fun s => ?_⟩
  simp only [h2]
  module

/-- The length of a drifting vector after `dt` seconds. -/
theorem drift_length {Ω r dt ρ : ℝ} {f : ℝ → V3 ℝ} (h : Drifting Ω r f) (h0 : f 0 ≠ 0) (hdt : 0 ≤ dt) (hρ : HasDerivAt (fun t => len3 (f t)) ρ 0) :
    len3 (f 0) + dt * ρ - Ω ^ 2 * r * dt ^ 2 / 2 ≤ len3 (f dt) := by
  have hl : 0 < len3 (f 0) := Real.sqrt_pos.2 (by have := sq3_pos (u := 0) (w := f 0) (Ne.symm h0); rwa [sub_zero] at this)
  have hu : len3 ((len3 (f 0))⁻¹ • f 0) = 1 := by
    rw [len3_smul, abs_of_pos (inv_pos.2 hl), inv_mul_cancel₀ hl.ne']
  have hle : ∀ t, ((len3 (f 0))⁻¹ • f 0) ⬝ᵥ f t ≤ len3 (f t) := fun t =>
    (le_abs_self _).trans ((len3_dot _ _).trans (by rw [hu, one_mul]))
  have heq : ((len3 (f 0))⁻¹ • f 0) ⬝ᵥ f 0 = len3 (f 0) := by
    have h1 : f 0 ⬝ᵥ f 0 = len3 (f 0) ^ 2 := by
      rw [len3, Real.sq_sqrt (by unfold sq3; positivity), dot3, sq3]; ring
    rw [smul_dotProduct, h1, smul_eq_mul, pow_two, ← mul_assoc, inv_mul_cancel₀ hl.ne', one_mul]
  obtain ⟨ρ', d1, d2⟩ := drift_along h hu hdt
  have hmin : IsLocalMin (fun t => len3 (f t) - ((len3 (f 0))⁻¹ • f 0) ⬝ᵥ f t) 0 := by
    refine Filter.Eventually.of_forall fun t => ?_
    dsimp only
    rw [heq, sub_self]
    exact sub_nonneg.2 (hle t)
  have h3 := hmin.hasDerivAt_eq_zero (hρ.sub d1)
  have h4 := (abs_le.1 d2).1
  have h5 := hle dt
  rw [heq] at h4
  have : ρ' = ρ := by linarith
  rw [this] at h4
  linarith

/-! ### Values of the barrier -/

section
variable {env : Env ℝ} {G : Geometry} {size : List ℝ} {j : JaxComp ℝ} {q : Vec ℝ} {s dMin : ℝ} {pairs : List (Int × Int)} {n : Nat}

theorem gapDim (h : GainOf (n : Int) (Arr.scalar dMin) dv) : dv.shape = [n] ∧ ∀ i < n, dv.get [i] = dMin := by
  obtain ⟨k, h1, h2, h3⟩ := h
  obtain rfl : n = k := by omega
  refine ⟨h2, fun i hi => ?_⟩
  rcases h3 with ⟨-, h⟩ | ⟨h, -⟩
  · exact h i hi
  · cases h

/-- The entries of `d_min_vec` beyond its length are irrelevant. -/
theorem value_of_canonical {dv : Arr ℝ} (hk : j.kind = .selfCollision s dv pairs n) (hdv : dv.shape = [n] ∧ ∀ i < n, dv.get [i] = dMin) {d : MjData ℝ}
    {V V' : Vec ℝ} (hV : evalValue env j d = .ok V)
    (hV' : evalValue env { j with kind := .selfCollision s (Arr.onesMul n (Arr.scalar dMin)) pairs n } d = .ok V') (hn : V'.len = n) :
    V.len = n ∧ ∀ i < n, V.get i = V'.get i := by
  have hfit : FitsVec (Arr.onesMul n (Arr.scalar dMin)) n := .inr (.inr rfl)
  have hfit' : FitsVec dv n := .inr (.inr hdv.1)
  obtain ⟨t, t1, t2⟩ := operand_fits hfit
  obtain ⟨t', t1', t2'⟩ := operand_fits hfit'
  unfold evalValue at hV hV'
  rw [hk] at hV
  simp only [bind, Except.bind, t1, t1', selfCollisionValue] at hV hV'
  split at hV
  · cases hV
  rename_i cs hcs
  rw [hcs] at hV'
  dsimp only at hV' hV
  split at hV
  · cases hV
  rename_i idx hidx
  rw [hidx] at hV'
  dsimp only at hV'
  have hlen : idx.length = n := by
    unfold closest at hidx
    split at hidx
    · cases hidx
    · rename_i hh
      cases hidx
      rw [List.length_take, (ascOrder_spec _).1]
      omega
  obtain ⟨r, r1, r2, r3, -⟩ := t2 ⟨idx.length, fun i => (cs.map fun c => c.val.dist).getD (idx.getD i 0) 0⟩ hlen
  obtain ⟨r', r1', r2', r3', -⟩ := t2' ⟨idx.length, fun i => (cs.map fun c => c.val.dist).getD (idx.getD i 0) 0⟩ hlen
  rw [r1] at hV'; cases hV'
  rw [r1'] at hV; cases hV
  refine ⟨r2', fun i hi => ?_⟩
  rw [r3 i hi, r3' i hi]
  congr 1
  have e1 : entry (Arr.onesMul n (Arr.scalar dMin)) i = dMin := by simp [entry, Arr.onesMul, Arr.scalar]
  rw [e1]
  unfold entry
  rw [hdv.1, if_neg (by simp)]
  split
  · rename_i h
    obtain rfl : n = 1 := by simpa using h
    exact hdv.2 0 (by norm_num)
  · exact hdv.2 i hi

/-- One step seen by a pair of spheres. -/
theorem sphere_step (hs : Simulates env G j.model) (hw : RobotWF G j.model) (ha : RailArm G j.model) (hc : CollidesSpheres env size j.model)
    (hg : OneGroup j.model 2 2 pairs) {g : Int × Int} (h : g ∈ pairs) {V : Nat → ℝ} {v : Vec ℝ} (hv : ∀ k < j.model.nv, |v.get k| ≤ V k) {dt : ℝ} (hdt : 0 ≤ dt)
    (hr : ∀ r ∈ size, 0 ≤ r) (hpos : 0 < (contactOf env j.model q g).dist) :
    (contactOf env j.model q g).dist + dt * rowRate env G j.model q v g - pairAcceleration G j.model V g * dt ^ 2 / 2 ≤
      (contactOf env j.model (integrate env j.model q v dt) g).dist := by
  obtain ⟨⟨a1, a2⟩, b1, b2⟩ := hg.inRange g h
  have hu := arm_unit ha q
  have P1 := fun q' => geom_pos (j := j) hs hg.bodies q' a1 a2
  have P2 := fun q' => geom_pos (j := j) hs hg.bodies q' b1 b2
  have hsz : ∀ k, 0 ≤ size.getD k 0 := by
    intro k
    by_cases hk : k < size.length
    · rw [List.getD_eq_getElem _ _ hk]; exact hr _ (List.getElem_mem _)
    · rw [List.getD_eq_default _ _ (by omega)]
  have hne : objPos (update env j.model q) .geom g.1 ≠ objPos (update env j.model q) .geom g.2 := by
    intro e
    rw [(P1 q).1, (P2 q).1] at e
    have e := Except.ok.inj e
    have : (contactOf env j.model q g).dist = gap ((update env j.model q).geomXpos.getD g.1.toNat 0) ((update env j.model q).geomXpos.getD g.2.toNat 0) -
        (size.getD g.1.toNat 0 + size.getD g.2.toNat 0) := by rw [sphere_contact hc hg h]; rfl
    rw [this, (P1 q).2.1, (P2 q).2.1, e] at hpos
    have e0 : ∀ y : V3 ℝ, gap y y = 0 := fun y => by simp [gap, sq3]
    rw [e0] at hpos
    linarith [hsz g.1.toNat, hsz g.2.toNat]
  obtain ⟨X1, X2, x1, x2, x3, x4, x5, x6⟩ := sphere_rate hs hw hc hu hg h hne v
  have f1 := arm_drift hs hw ha hv (q := q) (geomBody_lt hw hg.bodies a1 a2) (G.geomPos.getD g.1.toNat 0)
  have f2 := arm_drift hs hw ha hv (q := q) (geomBody_lt hw hg.bodies b1 b2) (G.geomPos.getD g.2.toNat 0)
  have e1 : (fun s => (bodyPose G j.model (integrate env j.model q v s).get (geomBody j.model g.1)).apply (G.geomPos.getD g.1.toNat 0)) = X1 := by
    funext t; exact Except.ok.inj ((P1 _).1.symm.trans (x1 t).1)
  have e2 : (fun s => (bodyPose G j.model (integrate env j.model q v s).get (geomBody j.model g.2)).apply (G.geomPos.getD g.2.toNat 0)) = X2 := by
    funext t; exact Except.ok.inj ((P2 _).1.symm.trans (x1 t).2)
  rw [e1] at f1
  rw [e2] at f2
  have hd : Drifting (turnSpeed j.model V) ((armLength G j.model + gap 0 (G.geomPos.getD g.1.toNat 0)) + (armLength G j.model + gap 0 (G.geomPos.getD g.2.toNat 0)))
      (fun s => X2 s - X1 s) := by
    have := (drift_neg f1).addDrift f2
    simpa only [neg_add_eq_sub] using this
  have h0 : X2 0 - X1 0 ≠ 0 := fun e => hne (by rw [x2, x3, sub_eq_zero.1 e])
  have := drift_length hd h0 hdt x6
  rw [x5, x4 dt]
  have e3 : ∀ t, len3 (X2 t - X1 t) = gap (X1 t) (X2 t) := fun _ => rfl
  simp only [e3] at this
  unfold pairAcceleration rowRate
  linarith

/-- Every watched pair has a row. -/
theorem pair_row {xs : List ℝ} {k : Nat} (hk : k < xs.length) : ∃ i < xs.length, (ascOrder xs)[i]? = some k := by
  have hp : (ascOrder xs).Perm (List.range xs.length) := List.mergeSort_perm _ _
  obtain ⟨i, hi, e⟩ := List.getElem_of_mem (hp.mem_iff.2 (List.mem_range.2 hk))
  exact ⟨i, by rw [← (ascOrder_spec xs).1]; exact hi, by rw [List.getElem?_eq_getElem hi, e]⟩

end

/-- One control step with a barrier that reports all watched pairs. -/
theorem watched_step {I : Type} {env : Env ℝ} {G : Geometry} {size : List ℝ} {pairs : List (Int × Int)} {osqp : QPSolver ℝ I} {ε : ℝ} (ho : FindsFeasibleUpTo ε osqp)
    {m : MjModel ℝ} (hs : Simulates env G m) (hw : RobotWF G m) (ha : RailArm G m) (hc : CollidesSpheres env size m) {ty : Nat} (hty : ty = 2 ∨ ty = 0)
    (hg : OneGroup m ty 2 pairs) {p : Nat} {dt : ℝ} (hdt : 0 ≤ dt) {V : Nat → ℝ} {L : Int × Int → ℝ} {γ b dMin : ℝ} (hb0 : 0 ≤ b)
    (hb : ∀ g ∈ pairs, ε + L g * dt / 2 ≤ γ * b)
    (hstep : ∀ g ∈ pairs, ∀ q v : Vec ℝ, (∀ k < m.nv, |v.get k| ≤ V k) → dMin - b ≤ (contactOf env m q g).dist →
      (contactOf env m q g).dist + dt * rowRate env G m q v g - L g * dt ^ 2 / 2 ≤ (contactOf env m (integrate env m q v dt) g).dist)
    {S : Robot ℝ} (hS : Sane m S) (hF : WatchesPairs m p dt dMin pairs γ S.world)
    (hV : SpeedAtMost m p ε V S.world) (hM : CanMove env m p S) (hin : ∀ g ∈ pairs, dMin - b ≤ (contactOf env m S.q g).dist) :
    ∀ g ∈ pairs, dMin - b ≤ (contactOf env m (controlStep env osqp m p dt S .tick).q g).dist := by
  rcases tick_either env osqp m p dt S with hq | ⟨J, r, hJ, hsol⟩
  · rw [hq]; exact hin
  obtain ⟨P, name, k, c, sdg, bodies, ex, hP, hPm, hmem, hcomp, hcm, hkind, hdim, hid, hgain⟩ := hF
  obtain ⟨hsz, hmove⟩ := hM J hJ
  obtain ⟨qp, ts, hts, hqm, hfeas⟩ := tick_moves_upTo (dt := dt) hS hJ hsol hP hPm hsz
  obtain ⟨u, hu⟩ := hmove P ts hP hts
  have hall := ((hfeas _).1 ε).1 (ho qp ⟨u, feasibleUpTo_zero.1 (((hfeas u).1 0).2 (allowedUpTo_zero.2 hu))⟩)
  obtain ⟨t, htm, c', hc', hta, j, hj, hjac, hval⟩ := entry_mem hts hmem
  rw [hcomp] at hc'; cases hc'
  obtain ⟨P', hP', hVk⟩ := hV
  rw [hP] at hP'; cases hP'
  obtain ⟨ops, hops⟩ := hS.reach
  rw [hops] at hJ hP hcomp
  have hC := compiled_entry hJ hP hmem hcomp hj
  have hjm : j.model = m := by
    have := hC.model
    rw [hcm] at this
    exact (Option.some.inj this).symm
  subst hjm
  have hv : ∀ k < j.model.nv, |(osqp qp).1.get k| ≤ V k := by
    intro k hk
    obtain ⟨l1, l2⟩ := hall.1 k (by rw [hPm]; exact hk)
    obtain ⟨l3, l4⟩ := hVk k hk
    exact abs_le.2 ⟨by linarith, by linarith⟩
  have hK := hC.kind
  rw [hkind, hdim] at hK
  obtain ⟨dv, hdv, hjk⟩ : ∃ dv, (dv.shape = [pairs.length] ∧ ∀ i < pairs.length, dv.get [i] = dMin) ∧ j.kind = .selfCollision sdg dv pairs pairs.length := by
    cases hjk : j.kind <;> rw [hjk] at hK <;> simp only [KindOf] at hK
    obtain ⟨rfl, h2, h3, rfl⟩ := hK
    cases h3
    exact ⟨_, gapDim h2, rfl⟩
  have hB := hall.2 t htm
  unfold Term.AllowsUpTo at hB
  rw [hta, hkind] at hB
  dsimp only at hB
  intro g hgp
  have hne : pairs ≠ [] := by rintro rfl; cases hgp
  let j' : JaxComp ℝ := { j with kind := .selfCollision sdg (Arr.onesMul pairs.length (Arr.scalar dMin)) pairs pairs.length }
  obtain ⟨J', V', h1, h2, h3, h4, h5⟩ := group_rows (j := j') (q := S.q) hs hw (arm_unit ha _) rfl hg.tables hg.bodies hg.inRange (group_uniform (j := j') hc hty hg S.q) hne le_rfl
  have hJ' : evalJacobian env j' (update env j.model S.q) = evalJacobian env j (update env j.model S.q) := by
    unfold evalJacobian
    rw [hjk]
  have e1 : J' = t.jac := Except.ok.inj (h1.symm.trans (hJ'.trans hjac))
  obtain ⟨w1, w2⟩ := value_of_canonical hjk hdv hval h2 h4
  obtain ⟨kk, hkl, hkg⟩ := List.getElem_of_mem hgp
  obtain ⟨i, hi, hik⟩ := pair_row (xs := pairs.map fun g => (contactOf env j.model S.q g).dist) (k := kk) (by rw [List.length_map]; exact hkl)
  rw [List.length_map] at hi
  obtain ⟨kk', g', hp1, hp2, hp3, hp4⟩ := h5 i hi
  obtain rfl : kk = kk' := Option.some.inj (hik.symm.trans hp1)
  obtain rfl : g = g' := by
    rw [List.getElem?_eq_getElem hkl, hkg] at hp2
    exact Option.some.inj hp2
  subst e1
  have hrow := hB i (by rw [h3]; exact hi)
  rw [hp4] at hrow
  unfold Term.rate at hrow
  rw [hta, hid, w2 i hi, hp3] at hrow
  simp only [id] at hrow
  obtain ⟨g1, g2⟩ := hgain i hi
  have hst := hstep g hgp S.q (osqp qp).1 hv (hin g hgp)
  rw [← hqm] at hst
  have hge := hin g hgp
  have hLb := hb g hgp
  change _ ≤ rowRate env G j.model S.q (osqp qp).1 g at hrow
  change - (gainAt c.attrs.gain i * ((contactOf env j.model S.q g).dist - dMin)) - ε ≤ _ at hrow
  generalize (contactOf env j.model (controlStep env osqp j.model p dt S .tick).q g).dist = y1 at *
  generalize (contactOf env j.model S.q g).dist = y0 at *
  generalize rowRate env G j.model S.q (osqp qp).1 g = ρ at *
  generalize gainAt c.attrs.gain i = γ' at *
  have h6 := mul_le_mul_of_nonneg_left hrow hdt
  have h7 := mul_nonneg (sub_nonneg.2 g2) (show 0 ≤ y0 - dMin + b by linarith)
  have h8 := mul_le_mul_of_nonneg_left hLb hdt
  have h9 := mul_nonneg (mul_nonneg (sub_nonneg.2 g1) hb0) hdt
  nlinarith

/-- Control programs with such a barrier. -/
theorem watched_run {I : Type} {env : Env ℝ} {G : Geometry} {size : List ℝ} {pairs : List (Int × Int)} {osqp : QPSolver ℝ I} {ε : ℝ} (ho : FindsFeasibleUpTo ε osqp)
    {m : MjModel ℝ} (hs : Simulates env G m) (hw : RobotWF G m) (ha : RailArm G m) (hc : CollidesSpheres env size m) {ty : Nat} (hty : ty = 2 ∨ ty = 0)
    (hg : OneGroup m ty 2 pairs) {p : Nat} {dt : ℝ} (hdt : 0 ≤ dt) {V : Nat → ℝ} {L : Int × Int → ℝ} {γ b dMin : ℝ} (hb0 : 0 ≤ b)
    (hb : ∀ g ∈ pairs, ε + L g * dt / 2 ≤ γ * b)
    (hstep : ∀ g ∈ pairs, ∀ q v : Vec ℝ, (∀ k < m.nv, |v.get k| ≤ V k) → dMin - b ≤ (contactOf env m q g).dist →
      (contactOf env m q g).dist + dt * rowRate env G m q v g - L g * dt ^ 2 / 2 ≤ (contactOf env m (integrate env m q v dt) g).dist)
    (acts : List (Act ℝ)) : ∀ S : Robot ℝ, Sane m S → CleanProgram S.world (callsOf p acts) →
    AtEveryTick env osqp m p dt (fun S => WatchesPairs m p dt dMin pairs γ S.world ∧ SpeedAtMost m p ε V S.world ∧
      ((∀ g ∈ pairs, dMin - b ≤ (contactOf env m S.q g).dist) → CanMove env m p S)) S acts →
    (∀ g ∈ pairs, dMin - b ≤ (contactOf env m S.q g).dist) →
    ∀ g ∈ pairs, dMin - b ≤ (contactOf env m (Spec.control env osqp m p dt S acts).q g).dist := by
  induction acts with
  | nil => intro S _ _ _ h; exact h
  | cons a acts ih =>
    intro S hS hcp ht hin
    obtain ⟨hS', hcp'⟩ := sane_step env osqp hw.addr p dt hS hcp
    refine ih _ hS' hcp' ht.2 ?_
    cases a with
    | call op => exact hin
    | tick =>
      obtain ⟨h1, h2, h3⟩ := ht.1 rfl
      exact watched_step ho hs hw ha hc hty hg hdt hb0 hb hstep hS h1 h2 (h3 hin) hin

private theorem size_nonneg' {size : List ℝ} (hr : ∀ r ∈ size, 0 ≤ r) (k : Nat) : 0 ≤ size.getD k 0 := by
  by_cases hk : k < size.length
  · rw [List.getD_eq_getElem _ _ hk]; exact hr _ (List.getElem_mem _)
  · rw [List.getD_eq_default _ _ (by omega)]

section
variable {env : Env ℝ} {G : Geometry} {size : List ℝ} {j : JaxComp ℝ} {q : Vec ℝ} {pairs : List (Int × Int)}

theorem balls_dist (hs : Simulates env G j.model) (hc : CollidesSpheres env size j.model) (hg : OneGroup j.model 2 2 pairs)
    {c : ℝ} (hcp : 0 < c) (hr : ∀ r ∈ size, 0 ≤ r) {g : Int × Int} (h : g ∈ pairs) :
    c ≤ (contactOf env j.model q g).dist ↔ BallsApart (update env j.model q) size c g := by
  obtain ⟨⟨a1, a2⟩, b1, b2⟩ := hg.inRange g h
  have e : (contactOf env j.model q g).dist = gap ((update env j.model q).geomXpos.getD g.1.toNat 0) ((update env j.model q).geomXpos.getD g.2.toNat 0) -
      (size.getD g.1.toNat 0 + size.getD g.2.toNat 0) := by rw [sphere_contact hc hg h]; rfl
  rw [e, balls_apart (size_nonneg' hr _) (size_nonneg' hr _) hcp, (geom_pos (j := j) hs hg.bodies q a1 a2).2.1, (geom_pos (j := j) hs hg.bodies q b1 b2).2.1]
  unfold BallsApart
  rw [(geom_pos (j := j) hs hg.bodies q a1 a2).1, (geom_pos (j := j) hs hg.bodies q b1 b2).1]
  simp only [Except.ok.injEq]
  constructor
  · rintro h x1 x2 rfl rfl; exact h
  · intro h; exact h _ _ rfl rfl

/-- The normal of a plane that belongs to the world. -/
private theorem floor_unit {r : ℍ[ℝ]} (h : Quaternion.normSq r = 1) : sq3 (normalOf (quatMat r)) = 1 := by
  have h4 := mul_eq_one_comm.1 (quatMat_rotation h).1
  have h5 := congrFun (congrFun h4 2) 2
  rw [Matrix.mul_apply, Fin.sum_univ_three] at h5
  simp only [Matrix.transpose_apply, Matrix.one_apply_eq] at h5
  unfold sq3 normalOf
  rw [← h5]; ring

private theorem one_rot (r : ℍ[ℝ]) : (SE3.one : SE3 ℝ).rot * r = r := one_mul r

theorem floor_dist (hs : Simulates env G j.model) (hw : RobotWF G j.model) (hc : CollidesSpheres env size j.model) (hg : OneGroup j.model 0 2 pairs)
    {c : ℝ} (hr : ∀ r ∈ size, 0 ≤ r) {g : Int × Int} (h : g ∈ pairs) (hfix : geomBody j.model g.1 = 0) :
    c ≤ (contactOf env j.model q g).dist ↔ BallAbove (update env j.model q) size c g := by
  obtain ⟨⟨a1, a2⟩, b1, b2⟩ := hg.inRange g h
  have e : (contactOf env j.model q g).dist = ((update env j.model q).geomXpos.getD g.2.toNat 0 - (update env j.model q).geomXpos.getD g.1.toNat 0) ⬝ᵥ
      normalOf ((update env j.model q).geomXmat.getD g.1.toNat 0) - size.getD g.2.toNat 0 := by rw [plane_contact hc (hg.types g h)]; rfl
  rw [e, (geom_pos (j := j) hs hg.bodies q a1 a2).2.1, (geom_pos (j := j) hs hg.bodies q b1 b2).2.1, (geom_pos (j := j) hs hg.bodies q a1 a2).2.2,
    ball_above (size_nonneg' hr _) (by rw [hfix, bodyPose_zero, one_rot]; exact floor_unit (hw.turns.1 _))]
  unfold BallAbove
  rw [(geom_pos (j := j) hs hg.bodies q a1 a2).1, (geom_pos (j := j) hs hg.bodies q b1 b2).1, geom_mat (j := j) hs hg.bodies q a1 a2]
  simp only [Except.ok.injEq]
  constructor
  · rintro h x1 R x2 rfl rfl rfl; exact h
  · intro h; exact h _ _ _ rfl rfl rfl

/-- One step seen by a sphere over a plane that belongs to the world. -/
theorem floor_step (hs : Simulates env G j.model) (hw : RobotWF G j.model) (ha : RailArm G j.model) (hc : CollidesSpheres env size j.model)
    (hg : OneGroup j.model 0 2 pairs) {g : Int × Int} (h : g ∈ pairs) (hfix : geomBody j.model g.1 = 0)
    {V : Nat → ℝ} {v : Vec ℝ} (hv : ∀ k < j.model.nv, |v.get k| ≤ V k) {dt : ℝ} (hdt : 0 ≤ dt) :
    (contactOf env j.model q g).dist + dt * rowRate env G j.model q v g - ballAcceleration G j.model V g.2 * dt ^ 2 / 2 ≤
      (contactOf env j.model (integrate env j.model q v dt) g).dist := by
  obtain ⟨⟨a1, a2⟩, b1, b2⟩ := hg.inRange g h
  have hu := arm_unit ha q
  have P1 := fun q' => (geom_pos (j := j) hs hg.bodies q' a1 a2)
  have P2 := fun q' => (geom_pos (j := j) hs hg.bodies q' b1 b2)
  have M1 := fun q' => geom_mat (j := j) hs hg.bodies q' a1 a2
  simp only [hfix, bodyPose_zero, one_rot] at P1 M1
  have D : ∀ q', (contactOf env j.model q' g).dist = normalOf (quatMat (G.geomQuat.getD g.1.toNat 1)) ⬝ᵥ
      ((bodyPose G j.model q'.get (geomBody j.model g.2)).apply (G.geomPos.getD g.2.toNat 0)) -
        (SE3.one.apply (G.geomPos.getD g.1.toNat 0)) ⬝ᵥ normalOf (quatMat (G.geomQuat.getD g.1.toNat 1)) - size.getD g.2.toNat 0 := by
    intro q'
    have e : (contactOf env j.model q' g).dist = ((update env j.model q').geomXpos.getD g.2.toNat 0 - (update env j.model q').geomXpos.getD g.1.toNat 0) ⬝ᵥ
        normalOf ((update env j.model q').geomXmat.getD g.1.toNat 0) - size.getD g.2.toNat 0 := by rw [plane_contact hc (hg.types g h)]; rfl
    rw [e, (P1 q').2.1, (P2 q').2.1, (P1 q').2.2, sub_dotProduct, dotProduct_comm (normalOf _)]
  obtain ⟨X1, X2, M, x1, x2, x3, x4, -, x6⟩ := plane_rate hs hw hc hu hg.bodies (hg.inRange g h) (hg.types g h) v
  have f2 := arm_drift hs hw ha hv (q := q) (geomBody_lt hw hg.bodies b1 b2) (G.geomPos.getD g.2.toNat 0)
  have e2 : (fun s => (bodyPose G j.model (integrate env j.model q v s).get (geomBody j.model g.2)).apply (G.geomPos.getD g.2.toNat 0)) = X2 := by
    funext t; exact Except.ok.inj ((P2 _).1.symm.trans (x1 t).2.2)
  have e1 : X1 = fun _ => SE3.one.apply (G.geomPos.getD g.1.toNat 0) := by
    funext t; exact (Except.ok.inj ((P1 _).1.symm.trans (x1 t).1)).symm
  have e3 : M = fun _ => quatMat (G.geomQuat.getD g.1.toNat 1) := by
    funext t; exact (Except.ok.inj ((M1 _).symm.trans (x1 t).2.1)).symm
  rw [e2] at f2
  subst e1 e3
  have hn : len3 (normalOf (quatMat (G.geomQuat.getD g.1.toNat 1))) = 1 := by rw [len3, floor_unit (hw.turns.1 _), Real.sqrt_one]
  obtain ⟨ρ, d1, d2⟩ := drift_along f2 hn hdt
  have d3 : HasDerivAt (fun t => (X2 t - SE3.one.apply (G.geomPos.getD g.1.toNat 0)) ⬝ᵥ normalOf (quatMat (G.geomQuat.getD g.1.toNat 1))) ρ 0 := by
    have := d1.sub_const ((SE3.one.apply (G.geomPos.getD g.1.toNat 0)) ⬝ᵥ normalOf (quatMat (G.geomQuat.getD g.1.toNat 1)))
    refine this.congr_of_eventuallyEq (Filter.Eventually.of_forall fun t => ?_)
    dsimp only
    rw [sub_dotProduct, dotProduct_comm (normalOf _)]
  have e4 : ρ = rowRate env G j.model q v g := d3.unique x6
  have q0 : (bodyPose G j.model q.get (geomBody j.model g.2)).apply (G.geomPos.getD g.2.toNat 0) = X2 0 := Except.ok.inj ((P2 _).1.symm.trans x4)
  rw [D, D, q0, congrFun e2 dt, ← e4]
  have := (abs_le.1 d2).1
  unfold ballAcceleration
  linarith

end

/-- **C112**: control programs with a self-collision barrier over pairs of spheres, on an arm with hinges, possibly on rails.  A program may mix calls of the API and
control steps.  If at every control step the problem contains a barrier that reports all watched pairs, with gains of at least `γ` and `gain * dt ≤ 1`,
the solver satisfies rows up to `ε`, and joint velocities are limited to `V`, then no two points of the spheres of a watched pair ever come closer than
`d_min - b`, where `ε + a * dt / 2 ≤ γ * b` with the acceleration `a` of the two spheres towards each other. -/
theorem C112_spheres {I : Type} {env : Env ℝ} {G : Geometry} {size : List ℝ} {pairs : List (Int × Int)} {osqp : QPSolver ℝ I} {ε : ℝ}
    (ho : FindsFeasibleUpTo ε osqp) {m : MjModel ℝ} (hs : Simulates env G m) (hw : RobotWF G m) (ha : RailArm G m) (hc : CollidesSpheres env size m)
    (hr : ∀ r ∈ size, 0 ≤ r) (hg : OneGroup m 2 2 pairs) {p : Nat} {dt : ℝ} (hdt : 0 ≤ dt) {V : Nat → ℝ} {γ b dMin : ℝ} (hb0 : 0 ≤ b) (hbd : b < dMin)
    (hb : ∀ g ∈ pairs, ε + pairAcceleration G m V g * dt / 2 ≤ γ * b)
    {acts : List (Act ℝ)} (hclean : CleanProgram World.init (callsOf p acts)) (x0 : Fin m.nq → ℝ) (s0 : LocalIKData ℝ)
    (hticks : AtEveryTick env osqp m p dt (fun S => WatchesPairs m p dt dMin pairs γ S.world ∧ SpeedAtMost m p ε V S.world ∧
      ((∀ g ∈ pairs, BallsApart (update env m S.q) size (dMin - b) g) → CanMove env m p S)) ⟨World.init, vecOf x0, s0⟩ acts)
    (hstart : ∀ g ∈ pairs, BallsApart (update env m (vecOf x0)) size (dMin - b) g) :
    ∀ g ∈ pairs, BallsApart (update env m (Spec.control env osqp m p dt ⟨World.init, vecOf x0, s0⟩ acts).q) size (dMin - b) g := by
  obtain ⟨j, rfl⟩ : ∃ j : JaxComp ℝ, j.model = m := ⟨{ Beads.barrier with model := m }, rfl⟩
  have hiff := fun (q : Vec ℝ) {g} (h : g ∈ pairs) => balls_dist (q := q) hs hc hg (sub_pos.2 hbd) hr h
  have hS := sane_start (m := j.model) (q0 := vecOf x0) rfl s0
  have hrun := watched_run (L := pairAcceleration G j.model V) ho hs hw ha hc (.inl rfl) hg hdt hb0 hb
    (fun g h q v hv hd => sphere_step hs hw ha hc hg h hv hdt hr (lt_of_lt_of_le (sub_pos.2 hbd) hd)) acts _ hS hclean
    (ticks_sane hw.addr (fun S _ ⟨h1, h2, h3⟩ => ⟨h1, h2, fun h => h3 fun g hgp => (hiff _ hgp).1 (h g hgp)⟩) acts _ hS hclean hticks)
    (fun g h => (hiff _ h).2 (hstart g h))
  exact fun g h => (hiff _ h).1 (hrun g h)

/-- **C112** (floors, partial): the same for pairs of a plane and a sphere that list the plane first, where the plane belongs to the world: no point of a watched sphere ever sinks
below the height `d_min - b`.  Missing: pairs that list the sphere first, where the Jacobian has the wrong sign (`C109_reversed`), and planes that move. -/
theorem C112_floors_partial {I : Type} {env : Env ℝ} {G : Geometry} {size : List ℝ} {pairs : List (Int × Int)} {osqp : QPSolver ℝ I} {ε : ℝ}
    (ho : FindsFeasibleUpTo ε osqp) {m : MjModel ℝ} (hs : Simulates env G m) (hw : RobotWF G m) (ha : RailArm G m) (hc : CollidesSpheres env size m)
    (hr : ∀ r ∈ size, 0 ≤ r) (hg : OneGroup m 0 2 pairs) (hfix : ∀ g ∈ pairs, geomBody m g.1 = 0)
    {p : Nat} {dt : ℝ} (hdt : 0 ≤ dt) {V : Nat → ℝ} {γ b dMin : ℝ} (hb0 : 0 ≤ b) (hb : ∀ g ∈ pairs, ε + ballAcceleration G m V g.2 * dt / 2 ≤ γ * b)
    {acts : List (Act ℝ)} (hclean : CleanProgram World.init (callsOf p acts)) (x0 : Fin m.nq → ℝ) (s0 : LocalIKData ℝ)
    (hticks : AtEveryTick env osqp m p dt (fun S => WatchesPairs m p dt dMin pairs γ S.world ∧ SpeedAtMost m p ε V S.world ∧
      ((∀ g ∈ pairs, BallAbove (update env m S.q) size (dMin - b) g) → CanMove env m p S)) ⟨World.init, vecOf x0, s0⟩ acts)
    (hstart : ∀ g ∈ pairs, BallAbove (update env m (vecOf x0)) size (dMin - b) g) :
    ∀ g ∈ pairs, BallAbove (update env m (Spec.control env osqp m p dt ⟨World.init, vecOf x0, s0⟩ acts).q) size (dMin - b) g := by
  obtain ⟨j, rfl⟩ : ∃ j : JaxComp ℝ, j.model = m := ⟨{ Beads.barrier with model := m }, rfl⟩
  have hiff := fun (q : Vec ℝ) {g} (h : g ∈ pairs) => floor_dist (q := q) (c := dMin - b) hs hw hc hg hr h (hfix g h)
  have hS := sane_start (m := j.model) (q0 := vecOf x0) rfl s0
  have hrun := watched_run (L := fun g => ballAcceleration G j.model V g.2) ho hs hw ha hc (.inr rfl) hg hdt hb0 hb
    (fun g h q v hv _ => floor_step hs hw ha hc hg h (hfix g h) hv hdt) acts _ hS hclean
    (ticks_sane hw.addr (fun S _ ⟨h1, h2, h3⟩ => ⟨h1, h2, fun h => h3 fun g hgp => (hiff _ hgp).1 (h g hgp)⟩) acts _ hS hclean hticks)
    (fun g h => (hiff _ h).2 (hstart g h))
  exact fun g h => (hiff _ h).1 (hrun g h)

end Mjinx.Props
