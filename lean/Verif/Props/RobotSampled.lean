import Verif.Props.Sampled
import Verif.Props.RobotJacobian
import Verif.Lemmas.Turning
import Verif.Spec.Reach

/-!
# Control steps of finite length, for robots

The bounds on accelerations in `C98_position_limits` and `C99_converges` follow from the lengths of the links and the velocity limits.
-/

set_option linter.unusedSectionVars false

namespace Mjinx.Props
open Mjinx Mjinx.Spec Finset
open scoped Quaternion

variable {env : Env ℝ} {G : Geometry} {m : MjModel ℝ}

theorem arm_joint (ha : RailArm G m) : ∀ j < m.jntType.length, m.jntType.getD j .hinge = .hinge ∨ m.jntType.getD j .hinge = .slide := by
  intro j hj
  rw [List.getD_eq_getElem _ _ hj]
  exact ha.joints _ (List.getElem_mem hj)

theorem arm_scalar (ha : RailArm G m) : ∀ t ∈ m.jntType, t.scalar = true := by
  intro t ht
  rcases ha.joints t ht with rfl | rfl <;> rfl

theorem arm_quats (ha : RailArm G m) {k adr : Nat} : quatAdr (m.jntType.getD k .hinge) (m.jntQposadr.getD k 0) ≠ some adr := by
  by_cases hk : k < m.jntType.length
  · rcases arm_joint ha k hk with h | h <;> rw [h] <;> exact fun h => nomatch h
  · rw [List.getD_eq_default _ _ (not_lt.1 hk)]; exact fun h => nomatch h

theorem arm_unit (ha : RailArm G m) (q : Vec ℝ) : UnitQuats m q := fun _ _ h => absurd h (arm_quats ha)

theorem len3_gap (u : V3 ℝ) : len3 u = gap 0 u := by unfold len3 gap; rw [sub_zero]

/-- While the robot moves with bounded constant velocity, every point of a body drifts and turns within bounds. -/
theorem arm_drift (hs : Simulates env G m) (hw : RobotWF G m) (ha : RailArm G m) {V : Nat → ℝ} {q v : Vec ℝ} (hv : ∀ k < m.nv, |v.get k| ≤ V k)
    {b : Nat} (hb : b < m.nbody) (off : V3 ℝ) :
    Drifting (turnSpeed m V) (armLength G m + gap 0 off) (fun s => (bodyPose G m (integrate env m q v s).get b).apply off) := by
  have hm := integrate_moves hs.quat hw.addr (arm_unit ha q) v
  have hp : ∀ j, 0 ≤ 2 * len3 (G.jntPos.getD j 0) := fun j => mul_nonneg zero_le_two (len3_nonneg _)
  refine ((body_swings hw (arm_joint ha) ha.rails hm b hb).point off).mono (upTo_nonneg (turnRate_nonneg m _) _) ((upTo_le (turnRate_nonneg m _) _).trans ?_) ?_
  · refine sum_le_sum fun j hj => ?_
    have hj := mem_range.1 hj
    unfold turnRate
    split
    · refine hv _ ((integrate_scalar env hw.addr q v 0).2 j (mem_scalarJoints.2 ⟨hj, ?_⟩)).2.1
      rw [List.getD_eq_getElem _ _ hj]
      exact arm_scalar ha _ (List.getElem_mem hj)
    · exact le_rfl
  · have h1 : ∑ i ∈ range (b + 1), len3 (G.bodyPos.getD i 0) ≤ ∑ i ∈ range m.nbody, len3 (G.bodyPos.getD i 0) :=
      sum_le_sum_of_subset_of_nonneg (range_subset_range.2 hb) fun i _ _ => len3_nonneg _
    have h2 := upTo_le (G := G) (m := m) hp b
    simp only [len3_gap] at h1 h2 ⊢
    unfold armLength
    linarith

theorem turnSpeed_nonneg (hw : RobotWF G m) (ha : RailArm G m) {V : Nat → ℝ} (hV : ∀ k < m.nv, 0 ≤ V k) : 0 ≤ turnSpeed m V := by
  refine sum_nonneg fun j hj => ?_
  have hj := mem_range.1 hj
  split
  · refine hV _ ((integrate_scalar (Buoy.env) hw.addr ⟨0, fun _ => 0⟩ ⟨0, fun _ => 0⟩ 0).2 j (mem_scalarJoints.2 ⟨hj, ?_⟩)).2.1
    rw [List.getD_eq_getElem _ _ hj]
    exact arm_scalar ha _ (List.getElem_mem hj)
  · exact le_rfl

/-- Where the point is. -/
noncomputable def whereIs (G : Geometry) (m : MjModel ℝ) : Point → Vec ℝ → V3 ℝ
  | .object ot on, q => (bodyPose G m q.get ((bodyOf m ot ((m.names ot).idxOf on)).getD 0)).apply (placeOf G ot ((m.names ot).idxOf on))
  | .centreOfMass, q => massMean m ((List.range m.nbody).map fun c => (bodyPose G m q.get c).apply (G.bodyIpos.getD c 0))

theorem idxOf_unique {l : List String} {s : String} {k : Nat} (h : ∀ k', l[k']? = some s ↔ k' = k) : l.idxOf s = k := by
  have h1 := (h k).2 rfl
  have hlt : l.idxOf s < l.length := List.idxOf_lt_length_of_mem (List.mem_of_getElem? h1)
  refine (h _).1 ?_
  rw [List.getElem?_eq_getElem hlt, List.getElem_idxOf]

theorem placeOf_eq (ot : ObjType) (k : Nat) : placeOf G ot k = offsetOf G ot k := by cases ot <;> rfl

theorem placed_range {α : Type} (f : Nat → α) {n k : Nat} (h : k < n) : ((List.range n).map f)[k]? = some (f k) := by
  rw [List.getElem?_map, List.getElem?_range h]; rfl

theorem placed_getD {n b : Nat} (f : Nat → V3 ℝ) (h : b < n) : ((List.range n).map f).getD b 0 = f b := by
  rw [List.getD_eq_getElem?_getD, placed_range f h]; rfl

theorem object_placed (hs : Simulates env G m) {ot : ObjType} (hot : ot ≠ .other) {k b : Nat} (hb : bodyOf m ot k = some b) (q : Vec ℝ) :
    PlacedAt (update env m q) ot k ((bodyPose G m q.get b).apply (placeOf G ot k)) := by
  obtain ⟨e, p, J, hu⟩ := update_fields hs q
  rw [hu]
  cases ot with
  | geom =>
    obtain ⟨hi, hbi⟩ := List.getElem?_eq_some_iff.1 (show m.geomBodyid[k]? = some b from hb)
    have hg : m.geomBodyid.getD k 0 = b := by rw [List.getD_eq_getElem _ _ hi, hbi]
    exact hg ▸ placed_range (fun g => (bodyPose G m q.get (m.geomBodyid.getD g 0)).apply (G.geomPos.getD g 0)) hi
  | site =>
    obtain ⟨hi, hbi⟩ := List.getElem?_eq_some_iff.1 (show m.siteBodyid[k]? = some b from hb)
    have hg : m.siteBodyid.getD k 0 = b := by rw [List.getD_eq_getElem _ _ hi, hbi]
    exact hg ▸ placed_range (fun g => (bodyPose G m q.get (m.siteBodyid.getD g 0)).apply (G.sitePos.getD g 0)) hi
  | body =>
    simp only [bodyOf, Option.ite_none_right_eq_some, Option.some.injEq] at hb
    obtain ⟨hi, rfl⟩ := hb
    have e : (bodyPose G m q.get k).apply (placeOf G .body k) = (bodyPose G m q.get k).trans := by
      show rotate _ 0 + _ = _
      rw [rotate_zero, zero_add]
    rw [e]
    exact placed_range (fun b => (bodyPose G m q.get b).trans) hi
  | other => exact absurd rfl hot

theorem placed_unique {d : MjData ℝ} {ot : ObjType} {k : Nat} {x y : V3 ℝ} (hx : PlacedAt d ot k x) (hy : PlacedAt d ot k y) : x = y := by
  cases ot with
  | other => exact hx.elim
  | body | geom | site => exact Option.some.inj (Eq.trans (Eq.symm hx) hy)

theorem body_lt (hw : RobotWF G m) {ot : ObjType} {k b : Nat} (hb : bodyOf m ot k = some b) : b < m.nbody := by
  cases ot with
  | geom => exact hw.objects.1 _ (List.mem_of_getElem? hb)
  | site => exact hw.objects.2 _ (List.mem_of_getElem? hb)
  | body | other =>
    simp only [bodyOf, Option.ite_none_right_eq_some, Option.some.injEq] at hb
    obtain ⟨hi, rfl⟩ := hb
    exact hi

theorem sim_xipos (hs : Simulates env G m) (q : Vec ℝ) :
    (update env m q).subtreeCom = subtreeComs m ((List.range m.nbody).map fun c => (bodyPose G m q.get c).apply (G.bodyIpos.getD c 0)) := by
  obtain ⟨e, p, J, hup⟩ := update_fields hs q
  rw [hup]
  rfl

theorem point_is (hs : Simulates env G m) (hw : RobotWF G m) {pt : Point} (hpt : PartOf m pt) (q : Vec ℝ) (x : V3 ℝ) :
    IsAt env m q pt x ↔ x = whereIs G m pt q := by
  cases pt with
  | object ot on =>
    obtain ⟨hot, k, hk, b, hb⟩ := hpt
    have hi := idxOf_unique hk
    have hp := object_placed hs hot hb q
    have e : whereIs G m (.object ot on) q = (bodyPose G m q.get b).apply (placeOf G ot k) := by
      show (bodyPose G m q.get ((bodyOf m ot ((m.names ot).idxOf on)).getD 0)).apply (placeOf G ot ((m.names ot).idxOf on)) = _
      rw [hi, hb]; rfl
    rw [e]
    constructor
    · rintro ⟨k', h1, h2⟩
      obtain rfl := (hk k').1 h1
      exact placed_unique h2 hp
    · rintro rfl
      exact ⟨k, (hk k).2 rfl, hp⟩
  | centreOfMass =>
    have h := subtreeComs_root hw.tree (xipos := (List.range m.nbody).map fun c => (bodyPose G m q.get c).apply (G.bodyIpos.getD c 0)) (by simp) hw.mass hpt.2.2
    have e : (update env m q).subtreeCom[0]? = some (whereIs G m .centreOfMass q) := by rw [sim_xipos hs]; exact h
    constructor
    · intro hx; exact Option.some.inj (Eq.trans (Eq.symm hx) e)
    · rintro rfl; exact e

theorem point_located (hs : Simulates env G m) (hw : RobotWF G m) {pt : Point} (hpt : PartOf m pt) : Locates env m pt (whereIs G m pt) := by
  cases pt with
  | object ot on =>
    intro k hk q
    obtain ⟨k', h1, h2⟩ := (point_is hs hw hpt q _).2 rfl
    obtain ⟨-, k0, h0, -⟩ := hpt
    obtain rfl := (h0 k).1 hk
    obtain rfl := (h0 k').1 h1
    exact h2
  | centreOfMass => exact ⟨hpt.1, fun q => (point_is hs hw hpt q _).2 rfl⟩

theorem point_smooth_arm (ha : RailArm G m) {pt : Point} : SmoothPoint m (whereIs G m pt) := by
  have key : ∀ (q : Vec ℝ) (b : Nat) (off : V3 ℝ) (a : Fin 3),
      DifferentiableAt ℝ (fun x : Fin q.len → ℝ => (bodyPose G m (vecOf x).get b).apply off a) (coordsOf q) := fun q b off a =>
    ((bodyPose_smooth (k := 1) (fun j adr h => absurd h (arm_quats ha)) b).apply (p := fun _ => off) (fun a => contDiffAt_const) a).differentiableAt (by simp)
  intro q hq a
  cases pt with
  | object ot on => exact key q _ _ a
  | centreOfMass =>
    have e : (fun x : Fin q.len → ℝ => whereIs G m .centreOfMass (vecOf x) a) = fun x =>
        (∑ b ∈ range m.nbody, m.bodyMass.getD b 0 * (bodyPose G m (vecOf x).get b).apply (G.bodyIpos.getD b 0) a) / totalMass m := by
      funext x
      show massMean _ _ a = _
      unfold massMean
      congr 1
      refine sum_congr rfl fun b hb => ?_
      rw [placed_getD (fun c => (bodyPose G m (vecOf x).get c).apply (G.bodyIpos.getD c 0)) (mem_range.1 hb)]
    rw [e]
    have h : DifferentiableAt ℝ (fun x : Fin q.len → ℝ => ∑ b ∈ range m.nbody, m.bodyMass.getD b 0 *
        (bodyPose G m (vecOf x).get b).apply (G.bodyIpos.getD b 0) a) (coordsOf q) :=
      DifferentiableAt.fun_sum fun b _ => (key q b _ a).const_mul _
    simp only [div_eq_mul_inv]
    exact h.mul_const _

theorem point_drift (hs : Simulates env G m) (hw : RobotWF G m) (ha : RailArm G m) {pt : Point} (hpt : PartOf m pt) {V : Nat → ℝ} {q v : Vec ℝ}
    (hv : ∀ k < m.nv, |v.get k| ≤ V k) : Drifting (turnSpeed m V) (armLength G m + overhang G m pt) (fun s => whereIs G m pt (integrate env m q v s)) := by
  cases pt with
  | object ot on =>
    obtain ⟨hot, k, hk, b, hb⟩ := hpt
    have h := arm_drift hs hw ha hv (q := q) (body_lt hw hb) (placeOf G ot k)
    have e : (fun s => whereIs G m (.object ot on) (integrate env m q v s)) =
        fun s => (bodyPose G m (integrate env m q v s).get b).apply (placeOf G ot k) := by
      funext s
      show (bodyPose G m _ ((bodyOf m ot ((m.names ot).idxOf on)).getD 0)).apply (placeOf G ot ((m.names ot).idxOf on)) = _
      rw [idxOf_unique hk, hb]; rfl
    rw [e]
    have e2 : overhang G m (.object ot on) = gap 0 (placeOf G ot k) := by
      show gap 0 (placeOf G ot ((m.names ot).idxOf on)) = _
      rw [idxOf_unique hk]
    rw [e2]
    exact h
  | centreOfMass =>
    obtain ⟨-, hm0, hmass⟩ := hpt
    have hV : ∀ k < m.nv, 0 ≤ V k := fun k hk => (abs_nonneg _).trans (hv k hk)
    have hΩ := turnSpeed_nonneg hw ha hV
    have hM : 0 < totalMass m := lt_of_lt_of_le (by positivity) hmass
    have hmb : ∀ b, 0 ≤ m.bodyMass.getD b 0 := by
      intro b
      by_cases hb : b < m.bodyMass.length
      · rw [List.getD_eq_getElem _ _ hb]; exact hm0 _ (List.getElem_mem hb)
      · rw [List.getD_eq_default _ _ (not_lt.1 hb)]
    have h := drifting_sum hΩ m.nbody fun b hb =>
      (arm_drift hs hw ha hv (q := q) hb (G.bodyIpos.getD b 0)).smul (div_nonneg (hmb b) hM.le)
    have e : (fun s => whereIs G m .centreOfMass (integrate env m q v s)) = fun s =>
        ∑ b ∈ range m.nbody, (m.bodyMass.getD b 0 / totalMass m) • (bodyPose G m (integrate env m q v s).get b).apply (G.bodyIpos.getD b 0) := by
      funext s a
      show massMean _ _ a = _
      unfold massMean
      rw [Finset.sum_apply, sum_div]
      refine sum_congr rfl fun b hb => ?_
      rw [placed_getD (fun c => (bodyPose G m (integrate env m q v s).get c).apply (G.bodyIpos.getD c 0)) (mem_range.1 hb)]
      exact (div_mul_eq_mul_div _ _ _).symm
    rw [e]
    refine h.mono hΩ le_rfl ?_
    have h1 : ∀ b ∈ range m.nbody, m.bodyMass.getD b 0 / totalMass m * (armLength G m + gap 0 (G.bodyIpos.getD b 0)) ≤
        m.bodyMass.getD b 0 / totalMass m * (armLength G m + overhang G m .centreOfMass) := by
      intro b hb
      refine mul_le_mul_of_nonneg_left (add_le_add le_rfl ?_) (div_nonneg (hmb b) hM.le)
      exact single_le_sum (f := fun b => gap 0 (G.bodyIpos.getD b 0)) (fun i _ => gap_nonneg _ _) hb
    refine (sum_le_sum h1).trans (le_of_eq ?_)
    rw [← sum_mul, ← sum_div]
    show totalMass m / totalMass m * _ = _
    rw [div_self hM.ne', one_mul]

theorem point_acceleration (hs : Simulates env G m) (hw : RobotWF G m) (ha : RailArm G m) {pt : Point} (hpt : PartOf m pt) (V : Nat → ℝ) (dt : ℝ) :
    AccelerationAtMost env m V (maxAcceleration G m V pt) dt (whereIs G m pt) := by
  intro q v _ hv a
  obtain ⟨sp, h⟩ := (point_drift hs hw ha hpt hv (q := q)).speed a
  exact ⟨sp, fun t ht => h t ht.1⟩

theorem arm_exact (hs : Simulates env G m) (hw : RobotWF G m) (ha : RailArm G m) (hj : JacrevExact env) : ExactSim env m :=
  ⟨hs.quat, hj, sim_kept hs, fun _ => sim_qpos hs hw.addr (arm_unit ha _)⟩

/-- **C98** for robots: an arm with hinges, possibly on rails.  If at every control step the problem contains a position barrier for an object with gains of at
least `γ` and `gain * dt ≤ 1`, the solver satisfies rows up to `ε`, and joint velocities are limited to `V`, the object exceeds its position
limits by at most `b` ever after, where `ε + a * dt / 2 ≤ γ * b` with the centripetal acceleration `a` of the stretched arm. -/
theorem C98_robot {I : Type} {osqp : QPSolver ℝ I} {ε : ℝ} (ho : FindsFeasibleUpTo ε osqp) (hs : Simulates env G m) (hw : RobotWF G m) (ha : RailArm G m)
    (hj : JacrevExact env) {p : Nat} {dt : ℝ} (hdt : 0 ≤ dt)
    {ot : ObjType} {on lt : String} (hpt : PartOf m (.object ot on)) {mask : Option (Arr Int)} (hmask : FullMask 3 mask)
    {lo hi : Arr ℝ} (dlo : lo.ndim ≤ 1) (dhi : hi.ndim ≤ 1)
    {V : Nat → ℝ} {γ b : ℝ} (hb0 : 0 ≤ b) (hb : ε + maxAcceleration G m V (.object ot on) * dt / 2 ≤ γ * b)
    {acts : List (Act ℝ)} (hclean : CleanProgram World.init (callsOf p acts)) (x0 : Fin m.nq → ℝ) (s0 : LocalIKData ℝ)
    (hticks : AtEveryTick env osqp m p dt (fun S => Fenced m p dt ot on lt mask lo hi γ S.world ∧ SpeedAtMost m p ε V S.world ∧
      ((∀ x, IsAt env m S.q (.object ot on) x → InFence lt mask lo hi b x) → CanMove env m p S)) ⟨World.init, vecOf x0, s0⟩ acts)
    (hstart : ∀ x, IsAt env m (vecOf x0) (.object ot on) x → InFence lt mask lo hi b x) :
    ∀ x, IsAt env m (Spec.control env osqp m p dt ⟨World.init, vecOf x0, s0⟩ acts).q (.object ot on) x → InFence lt mask lo hi b x := by
  have hiff : ∀ q, (∀ x, IsAt env m q (.object ot on) x → InFence lt mask lo hi b x) ↔ InFence lt mask lo hi b (whereIs G m (.object ot on) q) := by
    intro q
    simp only [point_is hs hw hpt, forall_eq]
  simp only [hiff] at hticks hstart ⊢
  exact C98_position_limits ho hw.addr (arm_scalar ha) (arm_exact hs hw ha hj) hdt hmask dlo dhi (point_located hs hw hpt) (point_smooth_arm ha)
    (point_acceleration hs hw ha hpt V dt) hb0 hb hclean x0 s0 hticks hstart

/-- **C99** for robots: an arm with hinges, possibly on rails, and an object or the centre of mass.  The acceleration in the bound of `C99_converges` is the
centripetal acceleration of the stretched arm. -/
theorem C99_robot {I : Type} {osqp : QPSolver ℝ I} {δ ε : ℝ} (hopt : OptimalUpTo δ osqp) (ho : FindsFeasibleUpTo ε osqp)
    (hs : Simulates env G m) (hw : RobotWF G m) (ha : RailArm G m) (hj : JacrevExact env) {p : Nat} {dt : ℝ} (hdt : 0 ≤ dt)
    {pt : Point} (hpt : PartOf m pt) {mask : Option (Arr Int)} (hmask : FullMask 3 mask) {x : Arr ℝ} (hnd : x.ndim ≤ 1)
    {V : Nat → ℝ} {g : Nat → ℝ} (hg : ∀ r < (selectedAxes mask).length, 0 < g r ∧ g r * dt ≤ 1)
    {μ b : ℝ} (hμ : 0 < μ) (hb : 0 ≤ b) (hδ : 2 * δ ≤ (μ * b) ^ 2)
    {e : Nat → ℝ} (he : ∀ r < (selectedAxes mask).length, (b + maxAcceleration G m V pt * dt / 2) / g r ≤ e r)
    {acts : List (Act ℝ)} (hclean : CleanProgram World.init (callsOf p acts)) (x0 : Fin m.nq → ℝ) (s0 : LocalIKData ℝ)
    (hticks : AtEveryTick env osqp m p dt (fun S => Aimed m p pt mask x g μ S.world ∧ SpeedAtMost m p ε V S.world ∧
      ((∀ y, IsAt env m S.q pt y → OffBy mask x e y) → Compatible env m p S ∧ Works env osqp m p S)) ⟨World.init, vecOf x0, s0⟩ acts)
    (hstart : ∀ y, IsAt env m (vecOf x0) pt y → OffBy mask x e y) :
    ∀ y0 y, IsAt env m (vecOf x0) pt y0 → IsAt env m (Spec.control env osqp m p dt ⟨World.init, vecOf x0, s0⟩ acts).q pt y →
      ∀ r (h : r < (selectedAxes mask).length), |y (selectedAxes mask)[r] - entry x r| ≤
        (1 - g r * dt) ^ ticksIn acts * |y0 (selectedAxes mask)[r] - entry x r| + (b + maxAcceleration G m V pt * dt / 2) / g r := by
  have hiff : ∀ q, (∀ y, IsAt env m q pt y → OffBy mask x e y) ↔ OffBy mask x e (whereIs G m pt q) := by
    intro q
    simp only [point_is hs hw hpt, forall_eq]
  simp only [hiff] at hticks hstart
  have hL : 0 ≤ maxAcceleration G m V pt := by
    refine mul_nonneg (sq_nonneg _) (add_nonneg (add_nonneg (sum_nonneg fun _ _ => gap_nonneg _ _) (sum_nonneg fun _ _ =>
      mul_nonneg zero_le_two (gap_nonneg _ _))) ?_)
    cases pt with
    | object ot on => exact gap_nonneg _ _
    | centreOfMass => exact sum_nonneg fun _ _ => gap_nonneg _ _
  intro y0 y h0 h1
  rw [point_is hs hw hpt] at h0 h1
  subst h0 h1
  exact C99_converges hopt ho hw.addr (arm_scalar ha) (arm_exact hs hw ha hj) hdt hmask hnd (point_located hs hw hpt) (point_smooth_arm ha) hL
    (point_acceleration hs hw ha hpt V dt) hg hμ hb hδ he hclean x0 s0 hticks hstart

end Mjinx.Props
