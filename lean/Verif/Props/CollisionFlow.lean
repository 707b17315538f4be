import Verif.Props.RobotFlow
import Verif.Lemmas.MinFlow
import Verif.Spec.CollisionFlow

/-!
# C111: continuous control avoids collisions
-/

set_option linter.unusedSectionVars false

namespace Mjinx.Props
open Spec Finset
open scoped Quaternion Matrix

theorem ascOrder_first {xs : List ℝ} {p : Nat} (h : (ascOrder xs)[0]? = some p) : ∀ k < xs.length, xs.getD p 0 ≤ xs.getD k 0 := by
  intro k hk
  obtain ⟨-, -, h3, h4⟩ := ascOrder_spec xs
  have hk' : xs.getD k 0 ∈ (ascOrder xs).map (fun i => xs.getD i 0) := by
    rw [h3.mem_iff, List.getD_eq_getElem _ _ hk]; exact List.getElem_mem hk
  cases ho : ascOrder xs with
  | nil => rw [ho] at h; cases h
  | cons a l =>
    rw [ho] at h h4 hk'
    cases h
    rw [List.map_cons] at h4 hk'
    rcases List.mem_cons.1 hk' with e | e
    · exact e.ge
    · exact (List.pairwise_cons.1 h4).1 _ e

section
variable {env : Env ℝ} {G : Geometry} {size : List ℝ} {j : JaxComp ℝ} {s dMin T : ℝ} {pairs : List (Int × Int)} {n : Nat}
  {x : ℝ → Fin j.model.nq → ℝ} {v : ℝ → Vec ℝ}

/-- The rate a row of the Jacobian gives for a pair. -/
noncomputable def rowRate (env : Env ℝ) (G : Geometry) (m : MjModel ℝ) (q v : Vec ℝ) (g : Int × Int) : ℝ :=
  (contactOf env m q g).normal ⬝ᵥ (pointVel (contactOf env m q g).pos (bodyTwist G m q.get v.get (geomBody m g.2)) -
    pointVel (contactOf env m q g).pos (bodyTwist G m q.get v.get (geomBody m g.1)))

/-- What feasibility says about the closest pair. -/
theorem closest_row (hs : Simulates env G j.model) (hw : RobotWF G j.model) (hc : CollidesSpheres env size j.model)
    (hk : j.kind = .selfCollision s (Arr.onesMul n (Arr.scalar dMin)) pairs n) {ty : Nat} (hty : ty = 2 ∨ ty = 0) (hg : OneGroup j.model ty 2 pairs)
    (hn1 : 1 ≤ n) (hn : n ≤ pairs.length) {ps : ℝ → JaxProblem ℝ} (hl : FeasibleFlow env j.model ps T x v) {t : ℝ} (ht : t ∈ Set.Ico 0 T)
    (hin : ∃ name, (name, j) ∈ (ps t).comps) :
    ∃ g ∈ pairs, (∀ g' ∈ pairs, (contactOf env j.model (vecOf (x t)) g).dist ≤ (contactOf env j.model (vecOf (x t)) g').dist) ∧
      - (j.vectorGain.get [0] * j.gainFn ((contactOf env j.model (vecOf (x t)) g).dist - dMin)) ≤ rowRate env G j.model (vecOf (x t)) (v t) g := by
  have hne : pairs ≠ [] := by rintro rfl; simp at hn; omega
  obtain ⟨J, V, h1, h2, h3, h4, h5⟩ := group_rows hs hw (hl.unit t ht) hk hg.tables hg.bodies hg.inRange (group_uniform hc hty hg _) hne hn
  have hb : CompiledBarrier j := by unfold CompiledBarrier; rw [hk]; trivial
  obtain ⟨J', b1, -, b3⟩ := barrier_row hl ht hin hb h2
  have e : J' = J := Except.ok.inj (b1.symm.trans h1)
  subst e
  obtain ⟨p, g, p1, p2, p3, p4⟩ := h5 0 (by omega)
  have hpl := (List.getElem?_eq_some_iff.1 p2).1
  refine ⟨g, List.mem_of_getElem? p2, ?_, ?_⟩
  · intro g' hg'
    obtain ⟨k, hk, rfl⟩ := List.getElem_of_mem hg'
    have := ascOrder_first p1 k (by rw [List.length_map]; exact hk)
    rw [List.getD_eq_getElem _ _ (by rw [List.length_map]; exact hpl), List.getD_eq_getElem _ _ (by rw [List.length_map]; exact hk),
      List.getElem_map, List.getElem_map, (List.getElem?_eq_some_iff.1 p2).2] at this
    exact this
  · have := b3 0 (by omega)
    rw [p3, p4] at this
    exact this

/-- A barrier over one group keeps the distances of all watched pairs, if they change continuously and, as long as they are not too small, at the rates of
the Jacobian. -/
theorem group_safe (hs : Simulates env G j.model) (hw : RobotWF G j.model) (hc : CollidesSpheres env size j.model)
    (hk : j.kind = .selfCollision s (Arr.onesMul n (Arr.scalar dMin)) pairs n) {ty : Nat} (hty : ty = 2 ∨ ty = 0) (hg : OneGroup j.model ty 2 pairs)
    (hn1 : 1 ≤ n) (hn : n ≤ pairs.length) {ps : ℝ → JaxProblem ℝ} (hl : FeasibleFlow env j.model ps T x v)
    (hin : ∀ t ∈ Set.Ico 0 T, ∃ name, (name, j) ∈ (ps t).comps) (hgain : 0 ≤ j.vectorGain.get [0]) (hφ : ∀ y < 0, j.gainFn y ≤ 0) {c : ℝ} (hc0 : 0 < c)
    (hcont : ∀ g ∈ pairs, ContinuousOn (fun t => (contactOf env j.model (vecOf (x t)) g).dist) (Set.Icc 0 T))
    (hrate : ∀ t ∈ Set.Ico 0 T, ∀ g ∈ pairs, dMin - c < (contactOf env j.model (vecOf (x t)) g).dist →
      HasDerivWithinAt (fun t => (contactOf env j.model (vecOf (x t)) g).dist) (rowRate env G j.model (vecOf (x t)) (v t) g) (Set.Ici t) t)
    (h0 : ∀ g ∈ pairs, dMin ≤ (contactOf env j.model (vecOf (x 0)) g).dist) :
    ∀ t ∈ Set.Icc 0 T, ∀ g ∈ pairs, dMin ≤ (contactOf env j.model (vecOf (x t)) g).dist := by
  have h := min_nonneg (S := pairs.toFinset) (h := fun g t => (contactOf env j.model (vecOf (x t)) g).dist - dMin)
    (h' := fun g t => rowRate env G j.model (vecOf (x t)) (v t) g) (T := T) hc0
    (fun g hg => (hcont g (List.mem_toFinset.1 hg)).sub continuousOn_const) ?_ (fun g hg => sub_nonneg.2 (h0 g (List.mem_toFinset.1 hg)))
  · exact fun t ht g hg => sub_nonneg.1 (h t ht g (List.mem_toFinset.2 hg))
  · intro t ht hlow
    refine ⟨fun g hg => (hrate t ht g (List.mem_toFinset.1 hg) (by have := hlow g hg; linarith)).sub_const _, ?_⟩
    obtain ⟨g, g1, g2, g3⟩ := closest_row hs hw hc hk hty hg hn1 hn hl ht (hin t ht)
    refine ⟨g, List.mem_toFinset.2 g1, fun g' hg' => sub_le_sub_right (g2 g' (List.mem_toFinset.1 hg')) _, fun hneg => ?_⟩
    have := mul_nonneg hgain (neg_nonneg.2 (hφ _ hneg))
    linarith

/-- With the default `gain_fn` the smallest distance approaches `d_min` at most exponentially. -/
theorem group_rate (hs : Simulates env G j.model) (hw : RobotWF G j.model) (hc : CollidesSpheres env size j.model)
    (hk : j.kind = .selfCollision s (Arr.onesMul n (Arr.scalar dMin)) pairs n) {ty : Nat} (hty : ty = 2 ∨ ty = 0) (hg : OneGroup j.model ty 2 pairs)
    (hn1 : 1 ≤ n) (hn : n ≤ pairs.length) {ps : ℝ → JaxProblem ℝ} (hl : FeasibleFlow env j.model ps T x v)
    (hin : ∀ t ∈ Set.Ico 0 T, ∃ name, (name, j) ∈ (ps t).comps) (hgain : 0 ≤ j.vectorGain.get [0]) (hid : j.gainFn = id) {c : ℝ} (hc0 : 0 < c)
    (hcont : ∀ g ∈ pairs, ContinuousOn (fun t => (contactOf env j.model (vecOf (x t)) g).dist) (Set.Icc 0 T))
    (hrate : ∀ t ∈ Set.Ico 0 T, ∀ g ∈ pairs, dMin - c < (contactOf env j.model (vecOf (x t)) g).dist →
      HasDerivWithinAt (fun t => (contactOf env j.model (vecOf (x t)) g).dist) (rowRate env G j.model (vecOf (x t)) (v t) g) (Set.Ici t) t)
    {δ : ℝ} (hδ : 0 ≤ δ) (h0 : ∀ g ∈ pairs, dMin + δ ≤ (contactOf env j.model (vecOf (x 0)) g).dist) :
    ∀ t ∈ Set.Icc 0 T, ∀ g ∈ pairs, dMin + Real.exp (- (j.vectorGain.get [0] * t)) * δ ≤ (contactOf env j.model (vecOf (x t)) g).dist := by
  have hsafe := group_safe hs hw hc hk hty hg hn1 hn hl hin hgain (fun y hy => by rw [hid]; exact hy.le) hc0 hcont hrate
    (fun g hg => by have := h0 g hg; linarith)
  intro t ht g hgm
  set γ := j.vectorGain.get [0] with hγ
  have h := min_stays (S := pairs.toFinset) (h := fun g t => Real.exp (γ * t) * ((contactOf env j.model (vecOf (x t)) g).dist - dMin))
    (h' := fun g t => Real.exp (γ * t) * (γ * ((contactOf env j.model (vecOf (x t)) g).dist - dMin) + rowRate env G j.model (vecOf (x t)) (v t) g))
    (a := 0) (b := t) (c := δ) (D := ∅) ht.1
    (fun g hg => ((Real.continuous_exp.comp (continuous_const.mul continuous_id)).continuousOn.mul
      ((hcont g (List.mem_toFinset.1 hg)).sub continuousOn_const)).mono (Set.Icc_subset_Icc_right ht.2)) ?_ Set.countable_empty ?_ ?_ g (List.mem_toFinset.2 hgm)
  · have h2 := mul_le_mul_of_nonneg_left h (Real.exp_pos (- (γ * t))).le
    rw [← mul_assoc, ← Real.exp_add, neg_add_cancel, Real.exp_zero, one_mul] at h2
    linarith
  · intro g' hg' τ hτ
    have hτ' : τ ∈ Set.Ico 0 T := ⟨hτ.1, lt_of_lt_of_le hτ.2 ht.2⟩
    have h1 : HasDerivAt (fun s : ℝ => Real.exp (γ * s)) (Real.exp (γ * τ) * (γ * 1)) τ := ((hasDerivAt_id τ).const_mul γ).exp
    have h2 := (hrate τ hτ' g' (List.mem_toFinset.1 hg') (by have := hsafe τ ⟨hτ'.1, hτ'.2.le⟩ g' (List.mem_toFinset.1 hg'); linarith)).sub_const dMin
    refine (h1.hasDerivWithinAt.mul h2).congr_deriv ?_
    ring
  · intro τ hτ _
    have hτ' : τ ∈ Set.Ico 0 T := ⟨hτ.1, lt_of_lt_of_le hτ.2 ht.2⟩
    obtain ⟨g, g1, g2, g3⟩ := closest_row hs hw hc hk hty hg hn1 hn hl hτ' (hin τ hτ')
    refine ⟨g, List.mem_toFinset.2 g1, fun g' hg' => ?_, ?_⟩
    · exact mul_le_mul_of_nonneg_left (sub_le_sub_right (g2 g' (List.mem_toFinset.1 hg')) _) (Real.exp_pos _).le
    · rw [hid] at g3
      refine mul_nonneg (Real.exp_pos _).le ?_
      have g3' : - (γ * ((contactOf env j.model (vecOf (x τ)) g).dist - dMin)) ≤ _ := g3
      linarith
  · intro g hg
    rw [mul_zero, Real.exp_zero, one_mul]
    have := h0 g (List.mem_toFinset.1 hg)
    linarith

/-! ### Spheres -/

theorem gap_continuous {α : Type} [TopologicalSpace α] {X Y : α → V3 ℝ} {S : Set α} (hX : ∀ a, ContinuousOn (fun y => X y a) S)
    (hY : ∀ a, ContinuousOn (fun y => Y y a) S) : ContinuousOn (fun y => gap (X y) (Y y)) S := by
  unfold gap sq3
  have := fun a => (hY a).sub (hX a)
  exact Real.continuous_sqrt.comp_continuousOn ((((this 0).pow 2).add ((this 1).pow 2)).add ((this 2).pow 2))

theorem gap_differentiable {n : Nat} {X Y : (Fin n → ℝ) → V3 ℝ} {x : Fin n → ℝ} (hX : ∀ a, DifferentiableAt ℝ (fun y => X y a) x)
    (hY : ∀ a, DifferentiableAt ℝ (fun y => Y y a) x) (hne : X x ≠ Y x) : DifferentiableAt ℝ (fun y => gap (X y) (Y y)) x := by
  unfold gap sq3
  have := fun a => (hY a).sub (hX a)
  refine DifferentiableAt.sqrt ((((this 0).pow 2).add ((this 1).pow 2)).add ((this 2).pow 2)) ?_
  exact (sq3_pos hne).ne'

/-- The centre of a geom as a function of the coordinates. -/
private noncomputable def centreOf (G : Geometry) (m : MjModel ℝ) (g : Int) (y : Fin m.nq → ℝ) : V3 ℝ :=
  (bodyPose G m (vecOf y).get (geomBody m g)).apply (G.geomPos.getD g.toNat 0)

private theorem centre_smooth {m : MjModel ℝ} {g : Int} {y : Fin m.nq → ℝ} (hu : UnitQuats m (vecOf y)) (a : Fin 3) :
    DifferentiableAt ℝ (fun y => centreOf G m g y a) y :=
  ((bodyPose_smooth (k := 1) (unit_nonzero hu) _).apply (p := fun _ => G.geomPos.getD g.toNat 0) (fun _ => contDiffAt_const) a).differentiableAt (by simp)

private theorem sphere_dist (hs : Simulates env G j.model) (hc : CollidesSpheres env size j.model) (hg : OneGroup j.model 2 2 pairs) {g : Int × Int} (h : g ∈ pairs)
    (y : Fin j.model.nq → ℝ) : (contactOf env j.model (vecOf y) g).dist =
      gap (centreOf G j.model g.1 y) (centreOf G j.model g.2 y) - (size.getD g.1.toNat 0 + size.getD g.2.toNat 0) := by
  obtain ⟨⟨a1, a2⟩, b1, b2⟩ := hg.inRange g h
  rw [sphere_contact hc hg h, (geom_pos (j := j) hs hg.bodies (vecOf y) a1 a2).2.1, (geom_pos (j := j) hs hg.bodies (vecOf y) b1 b2).2.1]
  rfl

private theorem sphere_cont (hs : Simulates env G j.model) (hc : CollidesSpheres env size j.model) (hg : OneGroup j.model 2 2 pairs) (hT : 0 < T)
    (hm : MovesWith env j.model T x v) {g : Int × Int} (h : g ∈ pairs) :
    ContinuousOn (fun t => (contactOf env j.model (vecOf (x t)) g).dist) (Set.Icc 0 T) := by
  have hu := unit_closed hT hm
  have hcen : ∀ g a, ContinuousOn (fun t => centreOf G j.model g (x t) a) (Set.Icc 0 T) := fun g a t ht =>
    ContinuousAt.comp_continuousWithinAt (f := x) (g := fun y => centreOf G j.model g y a) (centre_smooth (hu t ht) a).continuousAt (hm.cont t ht)
  simp only [sphere_dist hs hc hg h]
  exact (gap_continuous (hcen g.1) (hcen g.2)).sub continuousOn_const

private theorem sphere_path (hs : Simulates env G j.model) (hw : RobotWF G j.model) (hc : CollidesSpheres env size j.model) (hg : OneGroup j.model 2 2 pairs)
    (hm : MovesWith env j.model T x v) {t : ℝ} (ht : t ∈ Set.Ico 0 T) {g : Int × Int} (h : g ∈ pairs)
    (hpos : - (size.getD g.1.toNat 0 + size.getD g.2.toNat 0) < (contactOf env j.model (vecOf (x t)) g).dist) :
    HasDerivWithinAt (fun t => (contactOf env j.model (vecOf (x t)) g).dist) (rowRate env G j.model (vecOf (x t)) (v t) g) (Set.Ici t) t := by
  have hu := hm.unit t ht
  obtain ⟨⟨a1, a2⟩, b1, b2⟩ := hg.inRange g h
  have hne : centreOf G j.model g.1 (x t) ≠ centreOf G j.model g.2 (x t) := by
    intro e
    rw [sphere_dist hs hc hg h, e] at hpos
    simp [gap, sq3] at hpos
  have hF := (gap_differentiable (centre_smooth (G := G) (g := g.1) hu) (centre_smooth (G := G) (g := g.2) hu) hne)
  have P1 := fun q => (geom_pos (j := j) hs hg.bodies q a1 a2).1
  have P2 := fun q => (geom_pos (j := j) hs hg.bodies q b1 b2).1
  obtain ⟨X1, X2, x1, -, -, -, -, x5⟩ := sphere_rate hs hw hc hu hg h (by
    rw [P1, P2]
    intro e
    exact hne (Except.ok.inj e)) (v t)
  have e : (fun s => gap (X1 s) (X2 s)) = fun s => gap (centreOf G j.model g.1 fun k => (integrate env j.model (vecOf (x t)) (v t) s).get k)
      (centreOf G j.model g.2 fun k => (integrate env j.model (vecOf (x t)) (v t) s).get k) := by
    funext s
    rw [← Except.ok.inj ((P1 _).symm.trans (x1 s).1), ← Except.ok.inj ((P2 _).symm.trans (x1 s).2)]
    unfold centreOf
    rw [show vecOf (fun k : Fin j.model.nq => (integrate env j.model (vecOf (x t)) (v t) s).get k) = integrate env j.model (vecOf (x t)) (v t) s from
      (integrate_vecOf (env := env) hw.addr (q := vecOf (x t)) rfl (v t) s).symm]
  rw [e] at x5
  have h1 := path_rate (x := x) (F := fun y => gap (centreOf G j.model g.1 y) (centreOf G j.model g.2 y)) hs.quat hw.addr hm ht hF x5
  simp only [sphere_dist hs hc hg h]
  exact h1.sub_const _

private theorem size_nonneg (hr : ∀ r ∈ size, 0 ≤ r) (k : Nat) : 0 ≤ size.getD k 0 := by
  by_cases hk : k < size.length
  · rw [List.getD_eq_getElem _ _ hk]; exact hr _ (List.getElem_mem _)
  · rw [List.getD_eq_default _ _ (by omega)]

private theorem balls_iff {x : Fin j.model.nq → ℝ} (hs : Simulates env G j.model) (hc : CollidesSpheres env size j.model) (hg : OneGroup j.model 2 2 pairs)
    {c : ℝ} (hcp : 0 < c) (hr : ∀ r ∈ size, 0 ≤ r) {g : Int × Int} (h : g ∈ pairs) :
    c ≤ (contactOf env j.model (vecOf x) g).dist ↔ BallsApart (update env j.model (vecOf x)) size c g := by
  obtain ⟨⟨a1, a2⟩, b1, b2⟩ := hg.inRange g h
  rw [sphere_dist hs hc hg h, balls_apart (size_nonneg hr _) (size_nonneg hr _) hcp]
  unfold BallsApart
  rw [(geom_pos (j := j) hs hg.bodies (vecOf x) a1 a2).1, (geom_pos (j := j) hs hg.bodies (vecOf x) b1 b2).1]
  simp only [Except.ok.injEq]
  constructor
  · rintro h x1 x2 rfl rfl; exact h
  · intro h; exact h _ _ rfl rfl

/-- **C111**: continuous control with a self-collision barrier over pairs of spheres.  If at every moment the robot moves with a velocity that satisfies the constraints
of a problem containing the barrier, and no two points of the two spheres of a watched pair are closer than `d_min` at the start, the same holds
ever after.  The gain of the first row has to be nonnegative, `gain_fn` must not be positive on violations, at least one pair is reported. -/
theorem C111_spheres (hs : Simulates env G j.model) (hw : RobotWF G j.model) (hc : CollidesSpheres env size j.model)
    (hk : j.kind = .selfCollision s (Arr.onesMul n (Arr.scalar dMin)) pairs n) (hg : OneGroup j.model 2 2 pairs) (hn1 : 1 ≤ n) (hn : n ≤ pairs.length)
    (hd : 0 < dMin) (hr : ∀ r ∈ size, 0 ≤ r) (hgain : 0 ≤ j.vectorGain.get [0]) (hφ : ∀ y < 0, j.gainFn y ≤ 0)
    {ps : ℝ → JaxProblem ℝ} (hl : FeasibleFlow env j.model ps T x v) (hin : ∀ t ∈ Set.Ico 0 T, ∃ name, (name, j) ∈ (ps t).comps)
    (h0 : ∀ g ∈ pairs, BallsApart (update env j.model (vecOf (x 0))) size dMin g) :
    ∀ t ∈ Set.Icc 0 T, ∀ g ∈ pairs, BallsApart (update env j.model (vecOf (x t))) size dMin g := by
  have hiff := fun t {g} (h : g ∈ pairs) => balls_iff (x := x t) hs hc hg hd hr h
  by_cases hT : 0 < T
  · have h := group_safe hs hw hc hk (.inl rfl) hg hn1 hn hl hin hgain hφ hd (fun g h => sphere_cont hs hc hg hT hl.toMovesWith h)
      (fun t ht g h hp => sphere_path hs hw hc hg hl.toMovesWith ht h (by have h1 := size_nonneg hr g.1.toNat; have h2 := size_nonneg hr g.2.toNat; linarith))
      (fun g h => (hiff 0 h).2 (h0 g h))
    exact fun t ht g hg => (hiff t hg).1 (h t ht g hg)
  · intro t ht
    rw [show t = 0 from le_antisymm (by have := ht.2; linarith) ht.1]
    exact h0

/-- **C111** (rate): with the default `gain_fn` the watched spheres approach the distance `d_min` at most exponentially, with the gain of the first row. -/
theorem C111_spheres_rate (hs : Simulates env G j.model) (hw : RobotWF G j.model) (hc : CollidesSpheres env size j.model)
    (hk : j.kind = .selfCollision s (Arr.onesMul n (Arr.scalar dMin)) pairs n) (hg : OneGroup j.model 2 2 pairs) (hn1 : 1 ≤ n) (hn : n ≤ pairs.length)
    (hd : 0 < dMin) (hr : ∀ r ∈ size, 0 ≤ r) (hgain : 0 ≤ j.vectorGain.get [0]) (hid : j.gainFn = id)
    {ps : ℝ → JaxProblem ℝ} (hl : FeasibleFlow env j.model ps T x v) (hin : ∀ t ∈ Set.Ico 0 T, ∃ name, (name, j) ∈ (ps t).comps)
    {δ : ℝ} (hδ : 0 ≤ δ) (h0 : ∀ g ∈ pairs, BallsApart (update env j.model (vecOf (x 0))) size (dMin + δ) g) :
    ∀ t ∈ Set.Icc 0 T, ∀ g ∈ pairs,
      BallsApart (update env j.model (vecOf (x t))) size (dMin + Real.exp (- (j.vectorGain.get [0] * t)) * δ) g := by
  have hiff := fun t {g} (h : g ∈ pairs) {c : ℝ} (hcp : 0 < c) => balls_iff (x := x t) hs hc hg hcp hr h
  by_cases hT : 0 < T
  · have h := group_rate hs hw hc hk (.inl rfl) hg hn1 hn hl hin hgain hid hd (fun g h => sphere_cont hs hc hg hT hl.toMovesWith h)
      (fun t ht g h hp => sphere_path hs hw hc hg hl.toMovesWith ht h (by have h1 := size_nonneg hr g.1.toNat; have h2 := size_nonneg hr g.2.toNat; linarith))
      hδ (fun g h => (hiff 0 h (by linarith)).2 (h0 g h))
    exact fun t ht g hg => (hiff t hg (by have := mul_nonneg (Real.exp_pos (- (j.vectorGain.get [0] * t))).le hδ; linarith)).1 (h t ht g hg)
  · intro t ht
    rw [show t = 0 from le_antisymm (by have := ht.2; linarith) ht.1, mul_zero, neg_zero, Real.exp_zero, one_mul]
    exact h0

/-! ### Planes -/

private noncomputable def upOf (G : Geometry) (m : MjModel ℝ) (g : Int) (y : Fin m.nq → ℝ) : V3 ℝ :=
  rotate (bodyPose G m (vecOf y).get (geomBody m g)).rot (rotate (G.geomQuat.getD g.toNat 1) (Pi.single 2 1))

private noncomputable def heightOf (G : Geometry) (m : MjModel ℝ) (g : Int × Int) (y : Fin m.nq → ℝ) : ℝ :=
  (centreOf G m g.2 y - centreOf G m g.1 y) ⬝ᵥ upOf G m g.1 y

private theorem height_smooth {m : MjModel ℝ} {g : Int × Int} {y : Fin m.nq → ℝ} (hu : UnitQuats m (vecOf y)) : DifferentiableAt ℝ (heightOf G m g) y := by
  have h1 := fun a => centre_smooth (G := G) (g := g.1) hu a
  have h2 := fun a => centre_smooth (G := G) (g := g.2) hu a
  have h3 : ∀ a, DifferentiableAt ℝ (fun y => upOf G m g.1 y a) y := fun a =>
    ((bodyPose_smooth (k := 1) (unit_nonzero hu) _).rotate (p := fun _ => rotate (G.geomQuat.getD g.1.toNat 1) (Pi.single 2 1))
      (fun _ => contDiffAt_const) a).differentiableAt (by simp)
  unfold heightOf
  simp only [dotProduct, Fin.sum_univ_three, Pi.sub_apply]
  exact ((((h2 0).sub (h1 0)).mul (h3 0)).add (((h2 1).sub (h1 1)).mul (h3 1))).add (((h2 2).sub (h1 2)).mul (h3 2))

private theorem up_eq (R r : ℍ[ℝ]) : normalOf (quatMat (R * r)) = rotate R (rotate r (Pi.single 2 1)) := by
  funext a
  rw [← rotate_mul]
  show quatMat (R * r) a 2 = _
  rw [← quatMat_mulVec, Matrix.mulVec_single_one]
  rfl

private theorem plane_dist (hs : Simulates env G j.model) (hc : CollidesSpheres env size j.model) (hg : OneGroup j.model 0 2 pairs) {g : Int × Int} (h : g ∈ pairs)
    (y : Fin j.model.nq → ℝ) : (contactOf env j.model (vecOf y) g).dist = heightOf G j.model g y - size.getD g.2.toNat 0 := by
  obtain ⟨⟨a1, a2⟩, b1, b2⟩ := hg.inRange g h
  rw [plane_contact hc (hg.types g h), (geom_pos (j := j) hs hg.bodies (vecOf y) a1 a2).2.1, (geom_pos (j := j) hs hg.bodies (vecOf y) b1 b2).2.1,
    (geom_pos (j := j) hs hg.bodies (vecOf y) a1 a2).2.2]
  unfold heightOf upOf
  rw [← up_eq]
  rfl

private theorem plane_cont (hs : Simulates env G j.model) (hc : CollidesSpheres env size j.model) (hg : OneGroup j.model 0 2 pairs) (hT : 0 < T)
    (hm : MovesWith env j.model T x v) {g : Int × Int} (h : g ∈ pairs) :
    ContinuousOn (fun t => (contactOf env j.model (vecOf (x t)) g).dist) (Set.Icc 0 T) := by
  have hu := unit_closed hT hm
  simp only [plane_dist hs hc hg h]
  refine ContinuousOn.sub (fun t ht => ?_) continuousOn_const
  exact ContinuousAt.comp_continuousWithinAt (f := x) (g := heightOf G j.model g) (height_smooth (hu t ht)).continuousAt (hm.cont t ht)

private theorem plane_path (hs : Simulates env G j.model) (hw : RobotWF G j.model) (hc : CollidesSpheres env size j.model) (hg : OneGroup j.model 0 2 pairs)
    (hm : MovesWith env j.model T x v) {t : ℝ} (ht : t ∈ Set.Ico 0 T) {g : Int × Int} (h : g ∈ pairs) :
    HasDerivWithinAt (fun t => (contactOf env j.model (vecOf (x t)) g).dist) (rowRate env G j.model (vecOf (x t)) (v t) g) (Set.Ici t) t := by
  have hu := hm.unit t ht
  obtain ⟨⟨a1, a2⟩, b1, b2⟩ := hg.inRange g h
  have P1 := fun q => (geom_pos (j := j) hs hg.bodies q a1 a2).1
  have P2 := fun q => (geom_pos (j := j) hs hg.bodies q b1 b2).1
  have M1 := fun q => geom_mat (j := j) hs hg.bodies q a1 a2
  obtain ⟨X1, X2, M, x1, -, -, -, -, x5⟩ := plane_rate hs hw hc hu hg.bodies (hg.inRange g h) (hg.types g h) (v t)
  have e : (fun s => (X2 s - X1 s) ⬝ᵥ normalOf (M s)) = fun s => heightOf G j.model g fun k => (integrate env j.model (vecOf (x t)) (v t) s).get k := by
    funext s
    rw [← Except.ok.inj ((P1 _).symm.trans (x1 s).1), ← Except.ok.inj ((M1 _).symm.trans (x1 s).2.1), ← Except.ok.inj ((P2 _).symm.trans (x1 s).2.2), up_eq]
    unfold heightOf upOf centreOf
    rw [show vecOf (fun k : Fin j.model.nq => (integrate env j.model (vecOf (x t)) (v t) s).get k) = integrate env j.model (vecOf (x t)) (v t) s from
      (integrate_vecOf (env := env) hw.addr (q := vecOf (x t)) rfl (v t) s).symm]
  rw [e] at x5
  have h1 := path_rate (x := x) (F := heightOf G j.model g) hs.quat hw.addr hm ht (height_smooth hu) x5
  simp only [plane_dist hs hc hg h]
  exact h1.sub_const _
theorem ball_above {x1 x2 u : V3 ℝ} {r c : ℝ} (hr : 0 ≤ r) (hu : sq3 u = 1) :
    c ≤ (x2 - x1) ⬝ᵥ u - r ↔ ∀ y, gap x2 y ≤ r → c ≤ (y - x1) ⬝ᵥ u := by
  constructor
  · intro h y hy
    have h1 : |(y - x2) ⬝ᵥ u| ≤ gap x2 y := by
      refine Real.abs_le_sqrt ?_
      have e : sq3 (y - x2) = sq3 (y - x2) * sq3 u := by rw [hu, mul_one]
      rw [e, dot3]
      unfold sq3
      generalize y - x2 = w
      nlinarith [sq_nonneg (w 0 * u 1 - w 1 * u 0), sq_nonneg (w 0 * u 2 - w 2 * u 0), sq_nonneg (w 1 * u 2 - w 2 * u 1)]
    have h2 := (abs_le.1 h1).1
    have e : (y - x1) ⬝ᵥ u = (x2 - x1) ⬝ᵥ u + (y - x2) ⬝ᵥ u := by rw [← add_dotProduct]; congr 1; abel
    linarith
  · intro h
    have h1 := h (x2 + (-r) • u) (by rw [gap_shift _ _ _ hu, abs_neg, abs_of_nonneg hr])
    have e : (x2 + (-r) • u - x1) ⬝ᵥ u = (x2 - x1) ⬝ᵥ u - r := by
      have : u ⬝ᵥ u = 1 := by rw [dot3, ← hu]; unfold sq3; ring
      rw [show x2 + (-r) • u - x1 = (x2 - x1) + (-r) • u by abel, add_dotProduct, smul_dotProduct, this]
      simp; ring
    linarith

private theorem up_unit (hs : Simulates env G j.model) (hw : RobotWF G j.model) {y : Fin j.model.nq → ℝ} (hu : UnitQuats j.model (vecOf y)) {g : Int}
    (hb : geomBody j.model g < j.model.nbody) : sq3 (upOf G j.model g y) = 1 := by
  have h1 := (body_twist hw (integrate_moves hs.quat hw.addr hu (Vec.zero 0)) hu _ hb).2 0
  rw [start_pose hs hw hu _ hb] at h1
  have h2 := hw.turns.1 g.toNat
  unfold upOf
  rw [← up_eq]
  obtain ⟨h3, -⟩ := quatMat_rotation (q := (bodyPose G j.model (vecOf y).get (geomBody j.model g)).rot * G.geomQuat.getD g.toNat 1) (by rw [map_mul, h1, h2, one_mul])
  have h4 := mul_eq_one_comm.1 h3
  have h5 := congrFun (congrFun h4 2) 2
  rw [Matrix.mul_apply, Fin.sum_univ_three] at h5
  simp only [Matrix.transpose_apply, Matrix.one_apply_eq] at h5
  unfold sq3 normalOf
  rw [← h5]; ring

private theorem above_iff {x : Fin j.model.nq → ℝ} (hs : Simulates env G j.model) (hw : RobotWF G j.model) (hc : CollidesSpheres env size j.model) (hg : OneGroup j.model 0 2 pairs)
    (hu : UnitQuats j.model (vecOf x)) {c : ℝ} (hr : ∀ r ∈ size, 0 ≤ r) {g : Int × Int} (h : g ∈ pairs) :
    c ≤ (contactOf env j.model (vecOf x) g).dist ↔ BallAbove (update env j.model (vecOf x)) size c g := by
  obtain ⟨⟨a1, a2⟩, b1, b2⟩ := hg.inRange g h
  rw [plane_dist hs hc hg h, heightOf, ball_above (size_nonneg hr _) (up_unit hs hw hu (geomBody_lt hw hg.bodies a1 a2))]
  unfold BallAbove
  rw [(geom_pos (j := j) hs hg.bodies (vecOf x) a1 a2).1, (geom_pos (j := j) hs hg.bodies (vecOf x) b1 b2).1, geom_mat (j := j) hs hg.bodies (vecOf x) a1 a2]
  simp only [Except.ok.injEq]
  have hn : upOf G j.model g.1 x = fun a => quatMat ((bodyPose G j.model (vecOf x).get (geomBody j.model g.1)).rot * G.geomQuat.getD g.1.toNat 1) a 2 :=
    (up_eq _ _).symm
  rw [hn]
  constructor
  · rintro h x1 R x2 rfl rfl rfl; exact h
  · intro h; exact h _ _ _ rfl rfl rfl

/-- **C111** (planes, partial): the same for pairs of a plane and a sphere that list the plane first: every point of the spheres stays at least `d_min` above
the plane.  Missing: pairs that list the sphere first; there the Jacobian has the wrong sign (`C109_reversed`). -/
theorem C111_planes_partial (hs : Simulates env G j.model) (hw : RobotWF G j.model) (hc : CollidesSpheres env size j.model)
    (hk : j.kind = .selfCollision s (Arr.onesMul n (Arr.scalar dMin)) pairs n) (hg : OneGroup j.model 0 2 pairs) (hn1 : 1 ≤ n) (hn : n ≤ pairs.length)
    (hr : ∀ r ∈ size, 0 ≤ r) (hgain : 0 ≤ j.vectorGain.get [0]) (hφ : ∀ y < 0, j.gainFn y ≤ 0)
    {ps : ℝ → JaxProblem ℝ} (hl : FeasibleFlow env j.model ps T x v) (hin : ∀ t ∈ Set.Ico 0 T, ∃ name, (name, j) ∈ (ps t).comps)
    (h0 : ∀ g ∈ pairs, BallAbove (update env j.model (vecOf (x 0))) size dMin g) :
    ∀ t ∈ Set.Icc 0 T, ∀ g ∈ pairs, BallAbove (update env j.model (vecOf (x t))) size dMin g := by
  by_cases hT : 0 < T
  · have hiff := fun t (ht : t ∈ Set.Icc 0 T) {g} (h : g ∈ pairs) {c : ℝ} => above_iff (x := x t) (c := c) hs hw hc hg (unit_closed hT hl.toMovesWith t ht) hr h
    have h := group_safe hs hw hc hk (.inr rfl) hg hn1 hn hl hin hgain hφ one_pos (fun g h => plane_cont hs hc hg hT hl.toMovesWith h)
      (fun t ht g h _ => plane_path hs hw hc hg hl.toMovesWith ht h)
      (fun g h => (hiff 0 ⟨le_refl 0, hT.le⟩ h).2 (h0 g h))
    exact fun t ht g hg => (hiff t ht hg).1 (h t ht g hg)
  · intro t ht
    rw [show t = 0 from le_antisymm (by have := ht.2; linarith) ht.1]
    exact h0

/-- **C111** (planes, rate, partial): with the default `gain_fn` the spheres sink towards the height `d_min` at most exponentially.  Missing: as above. -/
theorem C111_planes_rate_partial (hs : Simulates env G j.model) (hw : RobotWF G j.model) (hc : CollidesSpheres env size j.model)
    (hk : j.kind = .selfCollision s (Arr.onesMul n (Arr.scalar dMin)) pairs n) (hg : OneGroup j.model 0 2 pairs) (hn1 : 1 ≤ n) (hn : n ≤ pairs.length)
    (hr : ∀ r ∈ size, 0 ≤ r) (hgain : 0 ≤ j.vectorGain.get [0]) (hid : j.gainFn = id)
    {ps : ℝ → JaxProblem ℝ} (hl : FeasibleFlow env j.model ps T x v) (hin : ∀ t ∈ Set.Ico 0 T, ∃ name, (name, j) ∈ (ps t).comps)
    {δ : ℝ} (hδ : 0 ≤ δ) (h0 : ∀ g ∈ pairs, BallAbove (update env j.model (vecOf (x 0))) size (dMin + δ) g) :
    ∀ t ∈ Set.Icc 0 T, ∀ g ∈ pairs,
      BallAbove (update env j.model (vecOf (x t))) size (dMin + Real.exp (- (j.vectorGain.get [0] * t)) * δ) g := by
  by_cases hT : 0 < T
  · have hiff := fun t (ht : t ∈ Set.Icc 0 T) {g} (h : g ∈ pairs) {c : ℝ} => above_iff (x := x t) (c := c) hs hw hc hg (unit_closed hT hl.toMovesWith t ht) hr h
    have h := group_rate hs hw hc hk (.inr rfl) hg hn1 hn hl hin hgain hid one_pos (fun g h => plane_cont hs hc hg hT hl.toMovesWith h)
      (fun t ht g h _ => plane_path hs hw hc hg hl.toMovesWith ht h)
      hδ (fun g h => (hiff 0 ⟨le_refl 0, hT.le⟩ h).2 (h0 g h))
    exact fun t ht g hg => (hiff t ht hg).1 (h t ht g hg)
  · intro t ht
    rw [show t = 0 from le_antisymm (by have := ht.2; linarith) ht.1, mul_zero, neg_zero, Real.exp_zero, one_mul]
    exact h0

end

namespace Beads

theorem vec_at {y : Fin model.nq → ℝ} (h : y (1 : Fin 2) = 0) : vecOf y = at0 (y (0 : Fin 2)) := by
  show (⟨2, _⟩ : Vec ℝ) = ⟨2, _⟩
  congr 1
  funext i
  rcases i with _ | _ | i
  · rfl
  · exact h
  · exact dif_neg (show ¬ i + 2 < 2 by omega)

theorem vec_move (t s : ℝ) : integrate env model (vecOf (path t)) (vel t) s = at0 (Real.exp (-t) + s * - Real.exp (-t)) := by
  rw [integrate_vecOf robot.addr rfl]
  refine vec_at ?_
  show (0 : ℝ) + s * 0 = 0
  simp

/-- The barrier of above with a gain for each row. -/
noncomputable def near : JaxComp ℝ := { barrier with vectorGain := ⟨[2], fun _ => 1⟩ }

theorem gap2 (x : ℝ) : gap ![0, 5, 0] ![x, 0, 1] = √(x ^ 2 + 26) := by
  unfold gap sq3
  congr 1
  simp; ring

theorem gap3 (x : ℝ) : gap ![0, 5, 0] ![x + 1, 0, 2] = √((x + 1) ^ 2 + 29) := by
  unfold gap sq3
  congr 1
  simp; ring

theorem root_rate {a b c x : ℝ} (hx : 0 ≤ x) (hb : 0 ≤ b) (hc : 25 ≤ c) (ha : a = x + b) :
    ∃ D, HasDerivAt (fun s : ℝ => √((x + s * -x + b) ^ 2 + c)) D 0 ∧ - x ≤ D ∧ D ≤ 0 ∧ (0 < x → D < 0) ∧ 5 ≤ √(a ^ 2 + c) := by
  subst ha
  have hpos : 0 < (x + 0 * -x + b) ^ 2 + c := by positivity
  have h1 : HasDerivAt (fun s : ℝ => x + s * -x + b) (1 * -x) 0 := (((hasDerivAt_id (0 : ℝ)).mul_const (-x)).const_add x).add_const b
  have h2 := ((h1.pow 2).add_const c).sqrt hpos.ne'
  have e0 : x + 0 * -x + b = x + b := by ring
  have hr : x + b ≤ √((x + b) ^ 2 + c) := Real.le_sqrt_of_sq_le (by linarith)
  have hr0 : 0 < √((x + b) ^ 2 + c) := Real.sqrt_pos.2 (by positivity)
  refine ⟨- (x * (x + b) / √((x + b) ^ 2 + c)), h2.congr_deriv ?_, ?_, ?_, ?_, ?_⟩
  · show ((2 : ℕ) : ℝ) * (x + 0 * -x + b) ^ (2 - 1) * (1 * -x) / (2 * √((x + 0 * -x + b) ^ 2 + c)) = _
    rw [e0]
    field_simp
    push_cast
    ring
  · rw [neg_le_neg_iff, div_le_iff₀ hr0]
    exact mul_le_mul_of_nonneg_left hr hx
  · rw [neg_nonpos]; positivity
  · intro h
    rw [neg_neg_iff_pos]
    positivity
  · rw [show (5 : ℝ) = √(5 ^ 2) by rw [Real.sqrt_sq]; norm_num]
    exact Real.sqrt_le_sqrt (by nlinarith [sq_nonneg (x + b)])

theorem near_row (t : ℝ) : ∃ J V, evalJacobian env near (update env model (vecOf (path t))) = .ok J ∧
    evalValue env near (update env model (vecOf (path t))) = .ok V ∧ J.rows = 2 ∧ J.cols = 2 ∧ V.len = 2 ∧
    ∀ i < 2, 3 ≤ V.get i ∧ - Real.exp (-t) ≤ rowDot J i (vel t).get ∧ rowDot J i (vel t).get < 0 := by
  have hv : vecOf (path t) = at0 (Real.exp (-t)) := vec_at rfl
  obtain ⟨J, V, h1, h2, h3, h4, h5⟩ := C108_spheres (j := near) (q := vecOf (path t)) simulates robot collides (unit _) rfl group (by decide) (by decide)
    (by rw [hv]; exact separate _)
  refine ⟨J, V, h1, h2, h3, ?_, h4, fun i hi => ?_⟩
  · obtain ⟨cs, c1, c2⟩ := uniform_contacts _ group.tables group.inRange (group_uniform (j := near) collides (.inl rfl) group (vecOf (path t)))
    obtain ⟨J', d1, d2⟩ := collision_jacobian_exists (j := near) simulates robot (unit _) rfl group.bodies group.inRange c1 (by decide)
      (by rw [c2, List.length_map]; decide)
    rw [Except.ok.inj (h1.symm.trans d1), d2]
    exact cdof_length simulates robot _
  · obtain ⟨g, hg, h⟩ := h5 i hi
    obtain ⟨X1, X2, x1, x2, x3, x4, x5⟩ := h (vel t)
    have hx := Real.exp_pos (-t)
    have hm : near.model = model := rfl
    simp only [hm, vec_move] at x1
    simp only [hm, hv] at x2 x3
    fin_cases hg
    · have e1 : ∀ s, X1 s = ![0, 5, 0] := fun s => Except.ok.inj ((x1 s).1.symm.trans (pos1 _))
      have e2 : ∀ s, X2 s = ![Real.exp (-t) + s * - Real.exp (-t), 0, 1] := fun s => Except.ok.inj ((x1 s).2.symm.trans (pos2 _))
      simp only [e1, e2, gap2] at x4 x5
      obtain ⟨D, d1, d2, d3, d4, d5⟩ := root_rate (a := Real.exp (-t)) (b := 0) (c := 26) hx.le le_rfl (by norm_num) (by ring)
      simp only [add_zero] at d1
      rw [x5.unique d1]
      refine ⟨?_, d2, d4 hx⟩
      rw [x4, zero_mul, add_zero]
      show 3 ≤ √(Real.exp (-t) ^ 2 + 26) - (1 / 2 + 1 / 2) - 1 / 10
      linarith
    · have e1 : ∀ s, X1 s = ![0, 5, 0] := fun s => Except.ok.inj ((x1 s).1.symm.trans (pos1 _))
      have e2 : ∀ s, X2 s = ![Real.exp (-t) + s * - Real.exp (-t) + 1, 0, 2] := fun s => Except.ok.inj ((x1 s).2.symm.trans (pos3 _))
      simp only [e1, e2, gap3] at x4 x5
      obtain ⟨D, d1, d2, d3, d4, d5⟩ := root_rate (a := Real.exp (-t) + 1) (b := 1) (c := 29) hx.le zero_le_one (by norm_num) rfl
      rw [x5.unique d1]
      refine ⟨?_, d2, d4 hx⟩
      rw [x4, zero_mul, add_zero]
      show 3 ≤ √((Real.exp (-t) + 1) ^ 2 + 29) - (1 / 2 + 1 / 4) - 1 / 10
      linarith

noncomputable def nearProb : JaxProblem ℝ := ⟨model, ⟨[2], fun _ => -1⟩, ⟨[2], fun _ => 1⟩, [("b", near)]⟩

theorem near_flow (T : ℝ) : FeasibleFlow env model (fun _ => nearProb) T path vel := by
  have key : ∀ t ∈ Set.Ico 0 T, WellSized env nearProb (update env model (vecOf (path t))) ∧
      ∃ qp, problemQP env model nearProb (update env model (vecOf (path t))) = .ok qp ∧ Feasible qp (vel t).get := by
    intro t ht
    obtain ⟨J, V, h1, h2, h3, h4, h5, h6⟩ := near_row t
    have hpos := Real.exp_pos (-t)
    have hle : Real.exp (-t) ≤ 1 := Real.exp_le_one_iff.2 (by have := ht.1; linarith)
    refine single_barrier (j := near) trivial h1 h2 (by rw [h5]; rfl) (by rw [h3, h5]) h4 ?_ ?_ ?_
    · intro hz
      have : rowDot J 0 (vel t).get = 0 := by
        unfold rowDot
        exact sum_eq_zero fun k hk => by rw [hz 0 (by omega) k (mem_range.1 hk), zero_mul]
      have := (h6 0 (by omega)).2.2
      linarith
    · intro i _
      show -1 ≤ (if i = 0 then - Real.exp (-t) else 0) ∧ (if i = 0 then - Real.exp (-t) else 0) ≤ 1
      split <;> constructor <;> linarith
    · intro i hi
      obtain ⟨k1, k2, k3⟩ := h6 i (by omega)
      show - ((1 : ℝ) * V.get i) ≤ _
      linarith
  exact ⟨moves T, fun _ _ => rfl, fun t ht => (key t ht).1, fun t ht => (key t ht).2⟩

theorem size_pos : ∀ r ∈ size, 0 ≤ r := by
  intro r hr
  fin_cases hr <;> norm_num

theorem start_apart : ∀ g ∈ [((1 : Int), (2 : Int)), (1, 3)], BallsApart (update env model (vecOf (path 0))) size (1 / 10 + 3) g := by
  have hv : vecOf (path 0) = at0 1 := by
    rw [vec_at rfl]
    show at0 (Real.exp (-0)) = _
    rw [neg_zero, Real.exp_zero]
  intro g hg x1 x2 e1 e2
  rw [hv] at e1 e2
  fin_cases hg
  · cases (pos1 _).symm.trans e1
    cases (pos2 _).symm.trans e2
    obtain ⟨D, -, -, -, -, d5⟩ := root_rate (a := 1) (x := 1) (b := 0) (c := 26) zero_le_one le_rfl (by norm_num) (by ring)
    refine (balls_apart (size_nonneg size_pos _) (size_nonneg size_pos _) (by norm_num)).1 ?_
    rw [gap2]
    show (1 / 10 + 3 : ℝ) ≤ √(1 ^ 2 + 26) - (1 / 2 + 1 / 2)
    exact le_trans (by norm_num) (sub_le_sub_right d5 _)
  · cases (pos1 _).symm.trans e1
    cases (pos3 _).symm.trans e2
    obtain ⟨D, -, -, -, -, d5⟩ := root_rate (a := 1 + 1) (x := 1) (b := 1) (c := 29) zero_le_one zero_le_one (by norm_num) rfl
    refine (balls_apart (size_nonneg size_pos _) (size_nonneg size_pos _) (by norm_num)).1 ?_
    rw [gap3]
    show (1 / 10 + 3 : ℝ) ≤ √((1 + 1) ^ 2 + 29) - (1 / 2 + 1 / 4)
    exact le_trans (by norm_num) (sub_le_sub_right d5 _)

/-- All hypotheses of `C111_spheres_rate` hold for this motion (those of `C111_spheres` are weaker). -/
example (T : ℝ) : ∀ t ∈ Set.Icc 0 T, ∀ g ∈ [((1 : Int), (2 : Int)), (1, 3)],
    BallsApart (update env model (vecOf (path t))) size (1 / 10 + Real.exp (- (1 * t)) * 3) g :=
  C111_spheres_rate (j := near) simulates robot collides rfl group (by decide) (by decide) (by norm_num) size_pos
    (by show (0 : ℝ) ≤ 1; norm_num) rfl (near_flow T) (fun _ _ => ⟨"b", List.mem_singleton.2 rfl⟩) (by norm_num) start_apart

example (T : ℝ) : ∀ t ∈ Set.Icc 0 T, ∀ g ∈ [((1 : Int), (2 : Int)), (1, 3)], BallsApart (update env model (vecOf (path t))) size (1 / 10) g :=
  C111_spheres (j := near) simulates robot collides rfl group (by decide) (by decide) (by norm_num) size_pos
    (by show (0 : ℝ) ≤ 1; norm_num) (fun y hy => hy.le) (near_flow T) (fun _ _ => ⟨"b", List.mem_singleton.2 rfl⟩)
    (fun g hg x1 x2 h1 h2 y1 y2 h3 h4 => le_trans (by norm_num) (start_apart g hg x1 x2 h1 h2 y1 y2 h3 h4))

end Beads

/-! ### A ball above the floor -/

namespace Lift

/-- A ball on a vertical rail above the floor. -/
noncomputable def model : MjModel ℝ :=
  { (MjModel.empty : MjModel ℝ) with
    nq := 1, nv := 1, nbody := 2, jntType := [.slide], jntQposadr := [0], jntDofadr := [0], jntRange := [(0, 0)],
    bodyParentid := [0, 0], bodyRootid := [0, 1], bodyWeldid := [0, 1], dofBodyid := [1], bodyMass := [0, 1],
    geomBodyid := [0, 1], geomType := [0, 2], geomDataid := [-1, -1], geomPriority := [0, 0], geomCondim := [3, 3], bodyNames := ["world", "ball"] }

noncomputable def geometry : Geometry where
  bodyPos := [0, ![0, 0, 1]]
  bodyQuat := [1, 1]
  bodyIpos := [0, 0]
  jntBodyid := [1]
  jntPos := [0]
  jntAxis := [![0, 0, 1]]
  qpos0 := fun _ => 0
  geomPos := [0, 0]
  geomQuat := [1, 1]
  sitePos := []
  siteQuat := []

noncomputable def size : List ℝ := [0, 1 / 2]

noncomputable def env : Env ℝ :=
  { Rod.env 0 with
    kinematics := simKinematics geometry, comPos := simComPos geometry, makeConstraint := fun _ d => d
    collide := fun _ d =>
      { known := fun _ _ => true, ncon := fun _ _ => 1
        contact := fun key g _ => if key.type1 = 2 then
          sphereSphere (d.geomXpos.getD g.1.toNat 0) (size.getD g.1.toNat 0) (d.geomXpos.getD g.2.toNat 0) (size.getD g.2.toNat 0)
          else planeSphere (d.geomXpos.getD g.1.toNat 0) (d.geomXmat.getD g.1.toNat 0) (d.geomXpos.getD g.2.toNat 0) (size.getD g.2.toNat 0) } }

theorem simulates : Simulates env geometry model := ⟨fun _ => rfl, fun _ => rfl, fun d => ⟨d.efcEq, d.efcPos, d.efcJ, rfl⟩, rfl⟩

theorem collides : CollidesSpheres env size model where
  known _ := ⟨rfl, rfl⟩
  ncon _ := ⟨rfl, rfl⟩
  spheres d key g h _ := by show (if key.type1 = 2 then _ else _) = _; rw [if_pos h]
  planes d key g h _ := by show (if key.type1 = 2 then _ else _) = _; rw [if_neg (by omega)]

theorem robot : RobotWF geometry model where
  tree := by
    refine ⟨?_, by decide, rfl, by decide⟩
    intro b h0 hb
    have : b < 2 := hb
    interval_cases b; decide
  addr := ⟨by repeat' constructor, rfl⟩
  joints := by
    intro j hj
    have : j < 1 := hj
    interval_cases j; exact ⟨by decide, by decide⟩
  dofs := rfl
  axis := by
    intro j hj ht
    have : j < 1 := hj
    interval_cases j
    cases ht
  quat := Buoy.unitOne _ (by simp [geometry])
  free := by
    intro j hj ht
    have : j < 1 := hj
    interval_cases j
    cases ht
  ball := by
    intro j i hji hi _ ht
    have hi' : i < 1 := hi
    omega
  roots := ⟨rfl, by decide⟩
  root := by
    intro b h0 hb hp
    have : b < 2 := hb
    interval_cases b
    exact absurd rfl hp
  mass := rfl
  objects := ⟨by decide, by simp [model, MjModel.empty]⟩
  turns := ⟨Buoy.unitOne _ (by simp [geometry]), Buoy.unitOne _ (by simp [geometry])⟩

theorem unit (q : Vec ℝ) : UnitQuats model q := by
  intro k adr h
  rcases k with _ | k
  · cases h
  · rw [List.getD_eq_default (l := model.jntType) _ (show 1 ≤ k + 1 by omega)] at h
    cases h

theorem group : OneGroup model 0 2 [(0, 1)] := by
  refine ⟨⟨rfl, rfl, rfl⟩, rfl, ?_, ?_, ?_⟩
  · intro g hg
    fin_cases hg; exact ⟨⟨by decide, by decide⟩, by decide, by decide⟩
  · intro g hg
    fin_cases hg; exact ⟨rfl, rfl⟩
  · intro g hg g' hg'
    fin_cases hg; fin_cases hg'; rfl

theorem pose (g : Nat → ℝ) : bodyPose geometry model g 1 = ⟨1, ![0, 0, 1 + g 0]⟩ := by
  have hj : jointsOfBody geometry model 1 = [0] := rfl
  rw [bodyPose, if_neg (by decide), hj]
  have hp : model.bodyParentid.getD 1 0 = 0 := rfl
  simp only [hp, dif_pos (show 0 < 1 by decide), bodyPose_zero, List.foldl_cons, List.foldl_nil]
  have e : jointMove geometry model g ((SE3.one : SE3 ℝ).mul ⟨geometry.bodyQuat.getD 1 1, geometry.bodyPos.getD 1 0⟩) 0 =
      ⟨1 * 1, (rotate 1 ![0, 0, 1] + 0) + (g 0 - 0) • rotate (1 * 1) ![0, 0, 1]⟩ := rfl
  rw [e, one_mul, rotate_one, SE3.mk.injEq]
  refine ⟨rfl, ?_⟩
  funext a
  fin_cases a <;> simp

/-- Keep the ball one decimetre above the floor. -/
noncomputable def barrier : JaxComp ℝ :=
  { model := model, vectorGain := ⟨[1], fun _ => 1⟩, gainFn := id, dim := 1, maskIdxs := [0],
    kind := .selfCollision 1 (Arr.onesMul 1 (Arr.scalar (1 / 10))) [(0, 1)] 1 }

theorem floor_pos (q : Vec ℝ) : objPos (update env model q) .geom 0 = .ok 0 ∧ objMat (update env model q) .geom 0 = .ok (quatMat 1) := by
  have h1 := (geom_pos (j := barrier) simulates rfl q (g := 0) (by decide) (by decide)).1
  have h2 := geom_mat (j := barrier) simulates rfl q (g := 0) (by decide) (by decide)
  have hb : geomBody barrier.model 0 = 0 := rfl
  rw [hb, bodyPose_zero] at h1 h2
  refine ⟨h1.trans ?_, h2.trans ?_⟩
  · congr 1
    show rotate 1 0 + 0 = _
    rw [rotate_one, zero_add]
  · congr 1
    show quatMat (1 * 1) = _
    rw [one_mul]

theorem ball_pos (q : Vec ℝ) : objPos (update env model q) .geom 1 = .ok ![0, 0, 1 + q.get 0] := by
  refine (geom_pos (j := barrier) simulates rfl q (g := 1) (by decide) (by decide)).1.trans ?_
  have hb : geomBody barrier.model 1 = 1 := rfl
  have hm : barrier.model = model := rfl
  rw [hb, hm, pose]
  congr 1
  show rotate 1 0 + ![0, 0, 1 + q.get 0] = _
  rw [rotate_one, zero_add]

theorem up : normalOf (quatMat 1) = ![0, 0, 1] := by
  have := up_eq 1 1
  rw [one_mul, rotate_one, rotate_one] at this
  rw [this]
  funext a
  fin_cases a <;> simp

/-- The ball sinks towards its lowest position. -/
noncomputable def path (t : ℝ) : Fin model.nq → ℝ := fun _ => Real.exp (-t)
noncomputable def vel (t : ℝ) : Vec ℝ := ⟨1, fun _ => - Real.exp (-t)⟩

theorem moves (T : ℝ) : MovesWith env model T path vel where
  cont := (continuous_pi fun _ => Real.continuous_exp.comp continuous_neg).continuousOn
  unit := fun t _ => unit _
  rate := by
    rintro t _ ⟨k, hk⟩
    obtain rfl : k = 0 := by have : k < 1 := hk; omega
    have e : (fun s => (integrate env model (vecOf (path t)) (vel t) s).get 0) = fun s => Real.exp (-t) + s * - Real.exp (-t) := rfl
    show HasDerivWithinAt (fun s => Real.exp (-s)) (deriv (fun s => (integrate env model (vecOf (path t)) (vel t) s).get 0) 0) _ _
    rw [e]
    have h1 := ((hasDerivAt_id (0 : ℝ)).mul_const (- Real.exp (-t))).const_add (Real.exp (-t))
    have h2 := ((hasDerivAt_id t).neg).exp
    rw [show deriv (fun s => Real.exp (-t) + s * - Real.exp (-t)) 0 = 1 * - Real.exp (-t) from h1.deriv]
    refine h2.hasDerivWithinAt.congr_deriv ?_
    show Real.exp (-t) * -1 = _
    ring

theorem row (t : ℝ) : ∃ J V, evalJacobian env barrier (update env model (vecOf (path t))) = .ok J ∧
    evalValue env barrier (update env model (vecOf (path t))) = .ok V ∧ J.rows = 1 ∧ J.cols = 1 ∧ V.len = 1 ∧
    V.get 0 = 2 / 5 + Real.exp (-t) ∧ rowDot J 0 (vel t).get = - Real.exp (-t) := by
  obtain ⟨J, V, h1, h2, h3, h4, h5⟩ := C109_planes_partial (j := barrier) (q := vecOf (path t)) simulates robot collides (unit _) rfl group (by decide) (by decide)
  refine ⟨J, V, h1, h2, h3, ?_, h4, ?_⟩
  · obtain ⟨cs, c1, c2⟩ := uniform_contacts _ group.tables group.inRange (group_uniform (j := barrier) collides (.inr rfl) group (vecOf (path t)))
    obtain ⟨J', d1, d2⟩ := collision_jacobian_exists (j := barrier) simulates robot (unit _) rfl group.bodies group.inRange c1 (by decide)
      (by rw [c2, List.length_map]; decide)
    rw [Except.ok.inj (h1.symm.trans d1), d2]
    exact cdof_length simulates robot _
  · obtain ⟨g, hg, h⟩ := h5 0 (by omega)
    obtain ⟨X1, X2, M, x1, x2, x3, x4, x5, x6⟩ := h (vel t)
    fin_cases hg
    have e1 : ∀ s, X1 s = 0 := fun s => Except.ok.inj ((x1 s).1.symm.trans (floor_pos _).1)
    have e2 : ∀ s, M s = quatMat 1 := fun s => Except.ok.inj ((x1 s).2.1.symm.trans (floor_pos _).2)
    have e3 : ∀ s, X2 s = ![0, 0, 1 + (Real.exp (-t) + s * - Real.exp (-t))] := fun s => Except.ok.inj ((x1 s).2.2.symm.trans (ball_pos _))
    have e4 : ∀ c : ℝ, (![0, 0, c] - 0 : V3 ℝ) ⬝ᵥ ![0, 0, 1] = c := by
      intro c; rw [dot3]; simp
    simp only [e1, e2, e3, up, e4] at x5 x6
    constructor
    · rw [x5]
      show 1 + (Real.exp (-t) + 0 * - Real.exp (-t)) - 1 / 2 - 1 / 10 = _
      ring
    · have h2 := (((hasDerivAt_id (0 : ℝ)).mul_const (- Real.exp (-t))).const_add (Real.exp (-t))).const_add 1
      rw [x6.unique h2, one_mul]

noncomputable def prob : JaxProblem ℝ := ⟨model, ⟨[1], fun _ => -1⟩, ⟨[1], fun _ => 1⟩, [("b", barrier)]⟩

theorem flow (T : ℝ) : FeasibleFlow env model (fun _ => prob) T path vel := by
  have key : ∀ t ∈ Set.Ico 0 T, WellSized env prob (update env model (vecOf (path t))) ∧
      ∃ qp, problemQP env model prob (update env model (vecOf (path t))) = .ok qp ∧ Feasible qp (vel t).get := by
    intro t ht
    obtain ⟨J, V, h1, h2, h3, h4, h5, h6, h7⟩ := row t
    have hpos := Real.exp_pos (-t)
    have hle : Real.exp (-t) ≤ 1 := Real.exp_le_one_iff.2 (by have := ht.1; linarith)
    refine single_barrier (j := barrier) trivial h1 h2 (by rw [h5]; rfl) (by rw [h3, h5]) h4 ?_ ?_ ?_
    · intro hz
      have : rowDot J 0 (vel t).get = 0 := by
        unfold rowDot
        exact sum_eq_zero fun k hk => by rw [hz 0 (by omega) k (mem_range.1 hk), zero_mul]
      linarith
    · intro i _
      show -1 ≤ - Real.exp (-t) ∧ - Real.exp (-t) ≤ 1
      constructor <;> linarith
    · intro i hi
      obtain rfl : i = 0 := by omega
      rw [h6, h7]
      show - ((1 : ℝ) * (2 / 5 + Real.exp (-t))) ≤ _
      linarith
  exact ⟨moves T, fun _ _ => rfl, fun t ht => (key t ht).1, fun t ht => (key t ht).2⟩

theorem size_pos : ∀ r ∈ size, 0 ≤ r := by
  intro r hr
  fin_cases hr <;> norm_num

theorem start_above : ∀ g ∈ [((0 : Int), (1 : Int))], BallAbove (update env model (vecOf (path 0))) size (1 / 10 + 1) g := by
  intro g hg x1 R x2 h1 h2 h3
  fin_cases hg
  cases (floor_pos _).1.symm.trans h1
  cases (floor_pos _).2.symm.trans h2
  cases (ball_pos _).symm.trans h3
  have hu : (fun a => quatMat 1 a 2) = ![0, 0, 1] := up
  rw [hu]
  refine (ball_above (size_nonneg size_pos _) (by simp [sq3])).1 ?_
  rw [dot3]
  show (1 / 10 + 1 : ℝ) ≤ (0 - 0) * 0 + (0 - 0) * 0 + (1 + Real.exp (-0) - 0) * 1 - 1 / 2
  rw [neg_zero, Real.exp_zero]
  norm_num

/-- All hypotheses of `C111_planes_rate_partial` and of `C111_planes_partial` hold for this motion. -/
example (T : ℝ) : ∀ t ∈ Set.Icc 0 T, ∀ g ∈ [((0 : Int), (1 : Int))],
    BallAbove (update env model (vecOf (path t))) size (1 / 10 + Real.exp (- (1 * t)) * 1) g :=
  C111_planes_rate_partial (j := barrier) simulates robot collides rfl group (by decide) (by decide) size_pos
    (by show (0 : ℝ) ≤ 1; norm_num) rfl (flow T) (fun _ _ => ⟨"b", List.mem_singleton.2 rfl⟩) zero_le_one start_above

example (T : ℝ) : ∀ t ∈ Set.Icc 0 T, ∀ g ∈ [((0 : Int), (1 : Int))], BallAbove (update env model (vecOf (path t))) size (1 / 10) g :=
  C111_planes_partial (j := barrier) simulates robot collides rfl group (by decide) (by decide) size_pos
    (by show (0 : ℝ) ≤ 1; norm_num) (fun y hy => hy.le) (flow T) (fun _ _ => ⟨"b", List.mem_singleton.2 rfl⟩)
    (fun g hg x1 R x2 h1 h2 h3 y h4 => le_trans (by norm_num) (start_above g hg x1 R x2 h1 h2 h3 y h4))

end Lift

/-! ### A ball and a floor with the larger id -/

namespace Sinker

/-- A ball on a vertical rail above a plate that is fixed to the world.  The body of the plate comes after the ball. -/
noncomputable def model : MjModel ℝ :=
  { (MjModel.empty : MjModel ℝ) with
    nq := 1, nv := 1, nbody := 3, jntType := [.slide], jntQposadr := [0], jntDofadr := [0], jntRange := [(0, 0)],
    bodyParentid := [0, 0, 0], bodyRootid := [0, 1, 2], bodyWeldid := [0, 1, 0], dofBodyid := [1], bodyMass := [0, 1, 1],
    geomBodyid := [1, 2], geomType := [2, 0], geomDataid := [-1, -1], geomPriority := [0, 0], geomCondim := [3, 3], bodyNames := ["world", "ball", "plate"] }

noncomputable def geometry : Geometry where
  bodyPos := [0, ![0, 0, 1], 0]
  bodyQuat := [1, 1, 1]
  bodyIpos := [0, 0, 0]
  jntBodyid := [1]
  jntPos := [0]
  jntAxis := [![0, 0, 1]]
  qpos0 := fun _ => 0
  geomPos := [0, 0]
  geomQuat := [1, 1]
  sitePos := []
  siteQuat := []

noncomputable def size : List ℝ := [1 / 2, 0]

noncomputable def env : Env ℝ :=
  { Rod.env 0 with
    kinematics := simKinematics geometry, comPos := simComPos geometry, makeConstraint := fun _ d => d
    collide := fun _ d =>
      { known := fun _ _ => true, ncon := fun _ _ => 1
        contact := fun key g _ => if key.type1 = 2 then
          sphereSphere (d.geomXpos.getD g.1.toNat 0) (size.getD g.1.toNat 0) (d.geomXpos.getD g.2.toNat 0) (size.getD g.2.toNat 0)
          else planeSphere (d.geomXpos.getD g.1.toNat 0) (d.geomXmat.getD g.1.toNat 0) (d.geomXpos.getD g.2.toNat 0) (size.getD g.2.toNat 0) } }

theorem simulates : Simulates env geometry model := ⟨fun _ => rfl, fun _ => rfl, fun d => ⟨d.efcEq, d.efcPos, d.efcJ, rfl⟩, rfl⟩

theorem collides : CollidesSpheres env size model where
  known _ := ⟨rfl, rfl⟩
  ncon _ := ⟨rfl, rfl⟩
  spheres d key g h _ := by show (if key.type1 = 2 then _ else _) = _; rw [if_pos h]
  planes d key g h _ := by show (if key.type1 = 2 then _ else _) = _; rw [if_neg (by omega)]

theorem robot : RobotWF geometry model where
  tree := by
    refine ⟨?_, by decide, rfl, by decide⟩
    intro b h0 hb
    have : b < 3 := hb
    interval_cases b <;> decide
  addr := ⟨by repeat' constructor, rfl⟩
  joints := by
    intro j hj
    have : j < 1 := hj
    interval_cases j; exact ⟨by decide, by decide⟩
  dofs := rfl
  axis := by
    intro j hj ht
    have : j < 1 := hj
    interval_cases j
    cases ht
  quat := Buoy.unitOne _ (by simp [geometry])
  free := by
    intro j hj ht
    have : j < 1 := hj
    interval_cases j
    cases ht
  ball := by
    intro j i hji hi _ ht
    have hi' : i < 1 := hi
    omega
  roots := ⟨rfl, by decide⟩
  root := by
    intro b h0 hb hp
    have : b < 3 := hb
    interval_cases b <;> exact absurd rfl hp
  mass := rfl
  objects := ⟨by decide, by simp [model, MjModel.empty]⟩
  turns := ⟨Buoy.unitOne _ (by simp [geometry]), Buoy.unitOne _ (by simp [geometry])⟩

theorem unit (q : Vec ℝ) : UnitQuats model q := by
  intro k adr h
  rcases k with _ | k
  · cases h
  · rw [List.getD_eq_default (l := model.jntType) _ (show 1 ≤ k + 1 by omega)] at h
    cases h

theorem group : OneGroup model 2 0 [(0, 1)] := by
  refine ⟨⟨rfl, rfl, rfl⟩, rfl, ?_, ?_, ?_⟩
  · intro g hg
    fin_cases hg; exact ⟨⟨by decide, by decide⟩, by decide, by decide⟩
  · intro g hg
    fin_cases hg; exact ⟨rfl, rfl⟩
  · intro g hg g' hg'
    fin_cases hg; fin_cases hg'; rfl

theorem pose (g : Nat → ℝ) : bodyPose geometry model g 1 = ⟨1, ![0, 0, 1 + g 0]⟩ := by
  have hj : jointsOfBody geometry model 1 = [0] := rfl
  rw [bodyPose, if_neg (by decide), hj]
  have hp : model.bodyParentid.getD 1 0 = 0 := rfl
  simp only [hp, dif_pos (show 0 < 1 by decide), bodyPose_zero, List.foldl_cons, List.foldl_nil]
  have e : jointMove geometry model g ((SE3.one : SE3 ℝ).mul ⟨geometry.bodyQuat.getD 1 1, geometry.bodyPos.getD 1 0⟩) 0 =
      ⟨1 * 1, (rotate 1 ![0, 0, 1] + 0) + (g 0 - 0) • rotate (1 * 1) ![0, 0, 1]⟩ := rfl
  rw [e, one_mul, rotate_one, SE3.mk.injEq]
  refine ⟨rfl, ?_⟩
  funext a
  fin_cases a <;> simp

theorem pose_plate (g : Nat → ℝ) : bodyPose geometry model g 2 = ⟨1, 0⟩ := by
  have hj : jointsOfBody geometry model 2 = [] := rfl
  rw [bodyPose, if_neg (by decide), hj]
  have hp : model.bodyParentid.getD 2 0 = 0 := rfl
  simp only [hp, dif_pos (show 0 < 2 by decide), bodyPose_zero, List.foldl_nil]
  have e : (SE3.one : SE3 ℝ).mul ⟨geometry.bodyQuat.getD 2 1, geometry.bodyPos.getD 2 0⟩ = ⟨1 * 1, rotate 1 0 + 0⟩ := rfl
  rw [e, one_mul, rotate_one, add_zero]

/-- Keep the ball one decimetre above the plate. -/
noncomputable def barrier : JaxComp ℝ :=
  { model := model, vectorGain := ⟨[1], fun _ => 1⟩, gainFn := id, dim := 1, maskIdxs := [0],
    kind := .selfCollision 1 (Arr.onesMul 1 (Arr.scalar (1 / 10))) [(0, 1)] 1 }

theorem floor_pos (q : Vec ℝ) : objPos (update env model q) .geom 1 = .ok 0 ∧ objMat (update env model q) .geom 1 = .ok (quatMat 1) := by
  have h1 := (geom_pos (j := barrier) simulates rfl q (g := 1) (by decide) (by decide)).1
  have h2 := geom_mat (j := barrier) simulates rfl q (g := 1) (by decide) (by decide)
  have hb : geomBody barrier.model 1 = 2 := rfl
  have hm : barrier.model = model := rfl
  rw [hb, hm, pose_plate] at h1 h2
  refine ⟨h1.trans ?_, h2.trans ?_⟩
  · congr 1
    show rotate 1 0 + 0 = _
    rw [rotate_one, zero_add]
  · congr 1
    show quatMat (1 * 1) = _
    rw [one_mul]

theorem ball_pos (q : Vec ℝ) : objPos (update env model q) .geom 0 = .ok ![0, 0, 1 + q.get 0] := by
  refine (geom_pos (j := barrier) simulates rfl q (g := 0) (by decide) (by decide)).1.trans ?_
  have hb : geomBody barrier.model 0 = 1 := rfl
  have hm : barrier.model = model := rfl
  rw [hb, hm, pose]
  congr 1
  show rotate 1 0 + ![0, 0, 1 + q.get 0] = _
  rw [rotate_one, zero_add]

/-- The ball sinks with constant speed. -/
noncomputable def path (t : ℝ) : Fin model.nq → ℝ := fun _ => -t
noncomputable def vel (_ : ℝ) : Vec ℝ := ⟨1, fun _ => -1⟩

theorem moves (T : ℝ) : MovesWith env model T path vel where
  cont := (continuous_pi fun _ => continuous_neg).continuousOn
  unit := fun t _ => unit _
  rate := by
    rintro t _ ⟨k, hk⟩
    obtain rfl : k = 0 := by have : k < 1 := hk; omega
    have e : (fun s => (integrate env model (vecOf (path t)) (vel t) s).get 0) = fun s => -t + s * -1 := rfl
    show HasDerivWithinAt (fun s => -s) (deriv (fun s => (integrate env model (vecOf (path t)) (vel t) s).get 0) 0) _ _
    rw [e]
    have h1 := ((hasDerivAt_id (0 : ℝ)).mul_const (-1)).const_add (-t)
    rw [show deriv (fun s => -t + s * -1) 0 = 1 * -1 from h1.deriv, one_mul]
    exact (hasDerivAt_neg t).hasDerivWithinAt

theorem row (t : ℝ) : ∃ J V, evalJacobian env barrier (update env model (vecOf (path t))) = .ok J ∧
    evalValue env barrier (update env model (vecOf (path t))) = .ok V ∧ J.rows = 1 ∧ J.cols = 1 ∧ V.len = 1 ∧
    V.get 0 = 2 / 5 - t ∧ rowDot J 0 (vel t).get = 1 := by
  obtain ⟨J, V, h1, h2, h3, h4, h⟩ := C109_reversed (j := barrier) (q := vecOf (path t)) simulates robot collides (unit _) rfl group
  refine ⟨J, V, h1, h2, h3, ?_, h4, ?_⟩
  · have hf : HasFunction (env.collide model (update env model (vecOf (path t)))) model (0, 1) := rfl
    obtain ⟨cs, c1, c2⟩ := computeCollisionPairs_ok (env.collide model (update env model (vecOf (path t)))) group.tables
      group.inRange (by simpa using hf)
    obtain ⟨J', d1, d2⟩ := collision_jacobian_exists (j := barrier) simulates robot (unit _) rfl group.bodies group.inRange c1 (by decide)
      (by rw [c2.length_eq]; exact le_refl 1)
    rw [Except.ok.inj (h1.symm.trans d1), d2]
    exact cdof_length simulates robot _
  · obtain ⟨X1, X2, M, x1, x2, x3, x4, x5, x6⟩ := h (vel t)
    have e1 : ∀ s, X1 s = 0 := fun s => Except.ok.inj ((x1 s).1.symm.trans (floor_pos _).1)
    have e2 : ∀ s, M s = quatMat 1 := fun s => Except.ok.inj ((x1 s).2.1.symm.trans (floor_pos _).2)
    have e3 : ∀ s, X2 s = ![0, 0, 1 + (-t + s * -1)] := fun s => Except.ok.inj ((x1 s).2.2.symm.trans (ball_pos _))
    have e4 : ∀ c : ℝ, (![0, 0, c] - 0 : V3 ℝ) ⬝ᵥ ![0, 0, 1] = c := by
      intro c; rw [dot3]; simp
    simp only [e1, e2, e3, Lift.up, e4] at x5 x6
    constructor
    · rw [x5]
      show 1 + (-t + 0 * -1) - 1 / 2 - 1 / 10 = _
      ring
    · have h2 := (((hasDerivAt_id (0 : ℝ)).mul_const (-1)).const_add (-t)).const_add 1
      have := x6.unique h2
      linarith

noncomputable def prob : JaxProblem ℝ := ⟨model, ⟨[1], fun _ => -1⟩, ⟨[1], fun _ => 1⟩, [("b", barrier)]⟩

theorem flow : FeasibleFlow env model (fun _ => prob) 1 path vel := by
  have key : ∀ t ∈ Set.Ico (0 : ℝ) 1, WellSized env prob (update env model (vecOf (path t))) ∧
      ∃ qp, problemQP env model prob (update env model (vecOf (path t))) = .ok qp ∧ Feasible qp (vel t).get := by
    intro t ht
    obtain ⟨J, V, h1, h2, h3, h4, h5, h6, h7⟩ := row t
    refine single_barrier (j := barrier) trivial h1 h2 (by rw [h5]; rfl) (by rw [h3, h5]) h4 ?_ ?_ ?_
    · intro hz
      have : rowDot J 0 (vel t).get = 0 := by
        unfold rowDot
        exact sum_eq_zero fun k hk => by rw [hz 0 (by omega) k (mem_range.1 hk), zero_mul]
      linarith
    · intro i _
      show (-1 : ℝ) ≤ -1 ∧ (-1 : ℝ) ≤ 1
      constructor <;> norm_num
    · intro i hi
      obtain rfl : i = 0 := by omega
      rw [h6, h7]
      show - ((1 : ℝ) * (2 / 5 - t)) ≤ _
      have := ht.2
      linarith
  exact ⟨moves 1, fun _ _ => rfl, fun t ht => (key t ht).1, fun t ht => (key t ht).2⟩

theorem above (t c : ℝ) : BallAbove (update env model (vecOf (path t))) size c (1, 0) ↔ c ≤ 1 / 2 - t := by
  have hu : (fun a => quatMat 1 a 2) = ![0, 0, 1] := Lift.up
  have key := ball_above (x1 := (0 : V3 ℝ)) (x2 := ![0, 0, 1 + -t]) (u := ![0, 0, 1]) (r := size.getD 0 0) (c := c)
    (by show (0 : ℝ) ≤ 1 / 2; norm_num) (by simp [sq3])
  rw [dot3] at key
  have e : (c ≤ (![0, 0, 1 + -t] - 0 : V3 ℝ) 0 * (![0, 0, 1] : V3 ℝ) 0 + (![0, 0, 1 + -t] - 0 : V3 ℝ) 1 * (![0, 0, 1] : V3 ℝ) 1 +
      (![0, 0, 1 + -t] - 0 : V3 ℝ) 2 * (![0, 0, 1] : V3 ℝ) 2 - size.getD 0 0) ↔ c ≤ 1 / 2 - t := by
    show (c ≤ (0 - 0) * 0 + (0 - 0) * 0 + (1 + -t - 0) * 1 - 1 / 2) ↔ _
    constructor <;> intro h <;> linarith
  rw [← e, key]
  constructor
  · intro h
    have := h 0 (quatMat 1) _ (floor_pos _).1 (floor_pos _).2 (ball_pos _)
    rw [hu] at this
    exact this
  · intro h x1 R x2 h1 h2 h3
    cases (floor_pos _).1.symm.trans h1
    cases (floor_pos _).2.symm.trans h2
    cases (ball_pos _).symm.trans h3
    rw [hu]
    exact h

end Sinker

/-- **C111 fails for planes with a larger id than the sphere**: a robot that follows velocities accepted by its collision barrier, all of whose
spheres start `d_min` above the plane, drives a sphere into the plane. -/
theorem C111_violated : ∃ (env : Env ℝ) (G : Geometry) (size : List ℝ) (j : JaxComp ℝ) (p : JaxProblem ℝ) (x : ℝ → Fin j.model.nq → ℝ) (v : ℝ → Vec ℝ),
    Simulates env G j.model ∧ RobotWF G j.model ∧ CollidesSpheres env size j.model ∧
    j.kind = .selfCollision 1 (Arr.onesMul 1 (Arr.scalar (1 / 10))) [(0, 1)] 1 ∧ OneGroup j.model 2 0 [(0, 1)] ∧
    j.vectorGain.get [0] = 1 ∧ j.gainFn = id ∧ FeasibleFlow env j.model (fun _ => p) 1 x v ∧ (∃ name, (name, j) ∈ p.comps) ∧
    BallAbove (update env j.model (vecOf (x 0))) size (1 / 10) (1, 0) ∧ ¬ BallAbove (update env j.model (vecOf (x 1))) size 0 (1, 0) := by
  refine ⟨Sinker.env, Sinker.geometry, Sinker.size, Sinker.barrier, Sinker.prob, Sinker.path, Sinker.vel, Sinker.simulates, Sinker.robot, Sinker.collides, rfl,
    Sinker.group, rfl, rfl, Sinker.flow, ⟨"b", List.mem_singleton.2 rfl⟩, (Sinker.above 0 _).2 (by norm_num), fun h => ?_⟩
  have := (Sinker.above 1 0).1 h
  norm_num at this

end Mjinx.Props
