import Verif.Props.Lie
import Verif.Lemmas.FromMat
import Verif.Model.Eval
import Verif.Spec.Examples
import Mathlib.Analysis.Calculus.Deriv.Prod
import Mathlib.Analysis.SpecialFunctions.Sqrt

/-!
# The frame task (C59, C60)
-/

namespace Mjinx.Props
open Spec Real
open scoped Quaternion Matrix
set_option linter.unusedSectionVars false

/-! ## C59 — the error vanishes exactly at the target -/

/-- Two poses that put every point at the same place. -/
def SamePose {K : Type} [Field K] (A B : SE3 K) : Prop := ∀ p, A.apply p = B.apply p

theorem sq3_imVec (q : ℍ[ℝ]) : sq3 (imVec q) = q.imI ^ 2 + q.imJ ^ 2 + q.imK ^ 2 := rfl

theorem so3LogFactor_ne {eps w n2 : ℝ} (h0 : 0 < eps) (h1 : eps ≤ 3 / 4) (hu : w ^ 2 + n2 = 1) : so3LogFactor eps w n2 ≠ 0 := by
  unfold so3LogFactor
  split
  · rename_i h
    have hw : w ≠ 0 := by
      rintro rfl
      have : n2 = 1 := by simpa using hu
      linarith
    have e : 2 / w - 2 / 3 * n2 / w ^ 3 = 2 * (3 * w ^ 2 - n2) / (3 * w ^ 3) := by field_simp
    rw [e]
    have hp : 0 < 3 * w ^ 2 - n2 := by nlinarith
    exact div_ne_zero (by positivity) (by positivity)
  · rename_i h
    have hn : 0 < √n2 := sqrt_pos.2 (by linarith)
    split
    · refine div_ne_zero (mul_ne_zero ?_ pi_ne_zero) hn.ne'
      split <;> norm_num
    · rename_i hw
      have hw' : 0 < |w| := by linarith [not_lt.1 hw]
      refine div_ne_zero (mul_ne_zero two_ne_zero ?_) hn.ne'
      rw [Ne, arctan_eq_zero_iff]
      refine div_ne_zero ?_ hw'.ne'
      split
      · simpa using hn.ne'
      · exact hn.ne'

/-- The rotation logarithm of a unit quaternion vanishes only for the identity (`1` or `-1`). -/
theorem so3LogR_eq_zero {eps : ℝ} (h0 : 0 < eps) (h1 : eps ≤ 3 / 4) {q : ℍ[ℝ]} (hu : Quaternion.normSq q = 1) :
    so3LogR eps q = 0 ↔ imVec q = 0 := by
  unfold so3LogR
  rw [smul_eq_zero]
  have : so3LogFactor eps q.re (sq3 (imVec q)) ≠ 0 := by
    apply so3LogFactor_ne h0 h1
    rw [sq3_imVec]
    rw [Quaternion.normSq_def'] at hu
    linarith
  simp [this]

theorem se3LogR_eq_zero {eps : ℝ} (h0 : 0 < eps) (h1 : eps ≤ 3 / 4) {T : SE3 ℝ} (hu : Quaternion.normSq T.rot = 1) :
    se3LogR eps T = (0, 0) ↔ imVec T.rot = 0 ∧ T.trans = 0 := by
  have hV : se3LogVinv eps (0 : V3 ℝ) = 1 := by
    have hS : skewSymmetric (0 : V3 ℝ) = 0 := by
      ext i j; fin_cases i <;> fin_cases j <;> simp [skewSymmetric]
    simp [se3LogVinv, hS, sq3, h0]
  constructor
  · intro h
    have h2 : so3LogR eps T.rot = 0 := congrArg Prod.snd h
    have h3 : (se3LogVinv eps (so3LogR eps T.rot)).mulVec T.trans = 0 := congrArg Prod.fst h
    rw [h2, hV, Matrix.one_mulVec] at h3
    exact ⟨(so3LogR_eq_zero h0 h1 hu).1 h2, h3⟩
  · rintro ⟨h2, h3⟩
    have := (so3LogR_eq_zero h0 h1 hu).2 h2
    simp [se3LogR, this, h3]

theorem normSq_quatInv {K : Type} [Field K] [LinearOrder K] [IsStrictOrderedRing K] (q : ℍ[K]) : Quaternion.normSq (quatInv q) = Quaternion.normSq q := by
  rw [quatInv, Quaternion.normSq_star]

/-- A unit quaternion whose rotation fixes every vector is `1` or `-1`. -/
theorem rotate_id {q : ℍ[ℝ]} (hu : Quaternion.normSq q = 1) : (∀ v, rotate q v = v) ↔ imVec q = 0 := by
  rw [Quaternion.normSq_def'] at hu
  constructor
  · intro h
    have h0 := congrFun (h ![1, 0, 0]) 0
    have h1 := congrFun (h ![0, 1, 0]) 1
    rw [rotate_apply0] at h0
    rw [rotate_apply1] at h1
    simp at h0 h1
    have e1 : q.imJ ^ 2 + q.imK ^ 2 = 0 := by nlinarith
    have e2 : q.imI ^ 2 + q.imK ^ 2 = 0 := by nlinarith
    have z1 : q.imJ = 0 := by nlinarith [sq_nonneg q.imJ, sq_nonneg q.imK]
    have z2 : q.imK = 0 := by nlinarith [sq_nonneg q.imJ, sq_nonneg q.imK]
    have z3 : q.imI = 0 := by nlinarith [sq_nonneg q.imI, sq_nonneg q.imK]
    funext i; fin_cases i <;> simp [imVec, z1, z2, z3]
  · intro h v
    have z1 : q.imI = 0 := congrFun h 0
    have z2 : q.imJ = 0 := congrFun h 1
    have z3 : q.imK = 0 := congrFun h 2
    have hre : q.re ^ 2 = 1 := by
      rw [z1, z2, z3] at hu; nlinarith
    funext i
    fin_cases i
    · show rotate q v 0 = v 0
      rw [rotate_apply0, z1, z2, z3, hre]; ring
    · show rotate q v 1 = v 1
      rw [rotate_apply1, z1, z2, z3, hre]; ring
    · show rotate q v 2 = v 2
      rw [rotate_apply2, z1, z2, z3, hre]; ring

theorem samePose_iff {A B : SE3 ℝ} (hA : Quaternion.normSq A.rot = 1) (hB : Quaternion.normSq B.rot = 1) :
    SamePose A B ↔ imVec (A.inv.mul B).rot = 0 ∧ (A.inv.mul B).trans = 0 := by
  have hu : Quaternion.normSq (A.inv.mul B).rot = 1 := by
    show Quaternion.normSq (quatInv A.rot * B.rot) = 1
    rw [map_mul, normSq_quatInv, hA, hB, one_mul]
  have hinv : ∀ p, A.inv.apply (A.apply p) = p := by
    intro p
    rw [← SE3.mul_apply]
    have : A.inv.mul A = SE3.one := se3_inv_mul_self hA
    rw [this]
    simp [SE3.apply, SE3.one, rotate_one]
  rw [← rotate_id hu]
  constructor
  · intro h
    have hid : ∀ p, (A.inv.mul B).apply p = p := by
      intro p
      rw [SE3.mul_apply, ← h p, hinv]
    have h0 := hid 0
    have hr0 : rotate (A.inv.mul B).rot 0 = 0 := by
      have := rotate_add (A.inv.mul B).rot 0 0
      simpa using this
    have ht : (A.inv.mul B).trans = 0 := by
      simpa [SE3.apply, hr0] using h0
    refine ⟨fun v => ?_, ht⟩
    have := hid v
    rwa [SE3.apply, ht, add_zero] at this
  · rintro ⟨h1, h2⟩ p
    have : (A.inv.mul B).apply p = p := by rw [SE3.apply, h1, h2, add_zero]
    rw [SE3.mul_apply] at this
    rw [← SE3.apply_inv hA (B.apply p), this]

/-- **C59**: without mask, the frame task's error (all six entries) is zero exactly when the object's frame and the target
put every point at the same place.  `eps` is jaxlie's threshold for the Taylor branch (1e-5 or 1e-10). -/
theorem C59_zero_iff_target {env : Env ℝ} {eps : ℝ} (hlog : env.se3Log = se3LogR eps) (h0 : 0 < eps) (h1 : eps ≤ 3 / 4)
    {j : JaxComp ℝ} {d : MjData ℝ} {w : Arr ℝ} {lm : ℝ} {i : Int} {ty : ObjType} {tgt : Arr ℝ}
    (hk : j.kind = .frameTask w lm i ty tgt) (hm : j.maskIdxs = List.range 6) {t : Vec ℝ} {T F : SE3 ℝ}
    (ht : tgt.toVec = .ok t) (hT : se3OfVec t = .ok T) (hF : objFrame env d ty i = .ok F)
    (hTu : Quaternion.normSq T.rot = 1) (hFu : Quaternion.normSq F.rot = 1) :
    ∃ e, evalValue env j d = .ok e ∧ e.len = 6 ∧ ((∀ k < 6, e.get k = 0) ↔ SamePose F T) := by
  refine ⟨(vec6 (env.se3Log (F.inv.mul T))).gather j.maskIdxs, ?_, ?_, ?_⟩
  · rw [evalValue, hk]
    simp only [bind, Except.bind, ht, hT, hF]
    rfl
  · rw [hm]; rfl
  · have hu : Quaternion.normSq (F.inv.mul T).rot = 1 := by
      show Quaternion.normSq (quatInv F.rot * T.rot) = 1
      rw [map_mul, normSq_quatInv, hFu, hTu, one_mul]
    rw [samePose_iff hFu hTu, ← se3LogR_eq_zero h0 h1 hu, ← hlog, hm]
    generalize env.se3Log (F.inv.mul T) = x
    have hg : ∀ k < 6, ((vec6 x).gather (List.range 6)).get k = (vec6 x).get k := by
      intro k hk
      simp only [Vec.gather, List.getElem?_range hk, Option.getD_some]
      congr 1
      have : (vec6 x).len = 6 := rfl
      omega
    constructor
    · intro h
      have h' : ∀ k < 6, (vec6 x).get k = 0 := fun k hk => by rw [← hg k hk]; exact h k hk
      apply Prod.ext
      · funext a
        have := h' a.val (by omega)
        simpa [vec6, Vec.append, vec3, a.2] using this
      · funext a
        have := h' (3 + a.val) (by omega)
        simpa [vec6, Vec.append, vec3, a.2] using this
    · intro h k hk
      rw [hg k hk, h]
      simp [vec6, Vec.append, vec3]

/-- **C59** (arrays): a target given as an array of seven numbers is read as position `(x, y, z)` followed by the
quaternion `(qw, qx, qy, qz)`. -/
theorem C59_array_order {K : Type} [Field K] [LinearOrder K] {c : Comp K} {t : TaskA K} {o : ObjA} {f : Arr K}
    (hk : c.attrs.kind = .frameTask t o f) {a : Arr K} (ha : a.shape = [7]) :
    ∃ c' f', updateTargetFrame (.array a) c = (.ok (), c') ∧ c'.attrs.kind = .frameTask t o f' ∧
      ∃ v, f'.toVec = .ok v ∧ se3OfVec v = .ok ⟨⟨a.get [3], a.get [4], a.get [5], a.get [6]⟩, ![a.get [0], a.get [1], a.get [2]]⟩ := by
  refine ⟨c.set { c.attrs with kind := .frameTask t o (frameOfArray a) }, frameOfArray a, ?_, rfl,
    ⟨7, fun i => (frameOfArray a).get [i]⟩, ?_, ?_⟩
  · unfold updateTargetFrame
    rw [hk]
    simp [Arr.lastDim, ha]
  · simp [Arr.toVec, frameOfArray, ha]
  · rfl

/-! ## C60 — the Jacobian of the error -/

theorem skew_z (k : ℝ) (b : V3 ℝ) (c : ℝ) :
    ((1 - (1 / 2 : ℝ) • skewSymmetric ![0, 0, k] + c • (skewSymmetric ![0, 0, k] * skewSymmetric ![0, 0, k])).mulVec b) 1 =
      b 1 - 1 / 2 * k * b 0 - c * k ^ 2 * b 1 := by
  simp [Matrix.mulVec, dotProduct, Fin.sum_univ_three, skewSymmetric, Matrix.add_apply,
    Matrix.sub_apply, Matrix.one_apply]
  ring

/-- The second translational entry of the logarithm along a curve of rotations about the third axis through the identity. -/
theorem log_deriv {eps : ℝ} (he : 0 < eps) {q : ℝ → ℍ[ℝ]} {t : ℝ → V3 ℝ} {w' c a0 a1 : ℝ} (hI : ∀ s, (q s).imI = 0) (hJ : ∀ s, (q s).imJ = 0)
    (hw : HasDerivAt (fun s => (q s).re) w' 0) (hw0 : (q 0).re = 1) (hz : HasDerivAt (fun s => (q s).imK) c 0) (hz0 : (q 0).imK = 0)
    (h0 : HasDerivAt (fun s => t s 0) a0 0) (h1 : HasDerivAt (fun s => t s 1) a1 0) :
    HasDerivAt (fun s => (se3LogR eps ⟨q s, t s⟩).1 1) (a1 - c * t 0 0) 0 := by
  let k : ℝ → ℝ := fun s => (2 / (q s).re - 2 / 3 * (q s).imK ^ 2 / (q s).re ^ 3) * (q s).imK
  have hk : HasDerivAt k (2 * c) 0 := by
    have := (((hasDerivAt_const (0 : ℝ) (2 : ℝ)).div hw (by rw [hw0]; norm_num)).sub
      (((hz.pow 2).const_mul (2 / 3)).div (hw.pow 3) (by rw [Pi.pow_apply, hw0]; norm_num))).mul hz
    refine HasDerivAt.congr_deriv (this.congr_of_eventuallyEq ?_) ?_
    · exact Filter.Eventually.of_forall (fun s => rfl)
    · simp [hw0, hz0]
  have hk0 : k 0 = 0 := by simp [k, hz0]
  have ez : ∀ᶠ s in nhds (0 : ℝ), (q s).imK ^ 2 < eps := by
    have : Filter.Tendsto (fun s => (q s).imK ^ 2) (nhds 0) (nhds (0 ^ 2)) := by
      have := (hz.continuousAt.tendsto).pow 2
      rwa [hz0] at this
    exact this.eventually_lt_const (by simpa using he)
  have ek : ∀ᶠ s in nhds (0 : ℝ), (k s) ^ 2 < eps := by
    have : Filter.Tendsto (fun s => (k s) ^ 2) (nhds 0) (nhds (0 ^ 2)) := by
      have := (hk.continuousAt.tendsto).pow 2
      rwa [hk0] at this
    exact this.eventually_lt_const (by simpa using he)
  have key : (fun s => (se3LogR eps ⟨q s, t s⟩).1 1) =ᶠ[nhds 0]
      (fun s => t s 1 - 1 / 2 * k s * t s 0 - 1 / 12 * k s ^ 2 * t s 1) := by
    filter_upwards [ez, ek] with s h1 h2
    have hsq : sq3 (imVec (q s)) = (q s).imK ^ 2 := by rw [sq3_imVec, hI, hJ]; ring
    have hom : so3LogR eps (q s) = ![0, 0, k s] := by
      unfold so3LogR
      rw [hsq, so3LogFactor, if_pos h1]
      funext i
      fin_cases i <;> simp [imVec, hI, hJ, k]
    show ((se3LogVinv eps (so3LogR eps (q s))).mulVec (t s)) 1 = _
    rw [hom]
    have : sq3 (![0, 0, k s] : V3 ℝ) = k s ^ 2 := by simp [sq3]
    unfold se3LogVinv
    rw [this]
    simp only [h2, if_true]
    exact skew_z _ _ _
  have hd := (h1.sub (((hk.const_mul (1 / 2)).mul h0))).sub (((hk.pow 2).const_mul (1 / 12)).mul h1)
  refine HasDerivAt.congr_deriv (hd.congr_of_eventuallyEq (key.trans (Filter.Eventually.of_forall (fun s => rfl)))) ?_
  simp [hk0]

/-- The logarithm of a pose without rotation. -/
theorem se3LogR_trans {eps : ℝ} (he : 0 < eps) (a : V3 ℝ) : se3LogR eps ⟨1, a⟩ = (a, 0) := by
  have h2 : so3LogR eps 1 = 0 := so3LogR_one eps
  have hS : skewSymmetric (0 : V3 ℝ) = 0 := by
    ext i j; fin_cases i <;> fin_cases j <;> simp [skewSymmetric]
  simp only [se3LogR, h2]
  simp [se3LogVinv, hS, sq3, he]

theorem so3ExpR_re (eps : ℝ) (om : V3 ℝ) : (so3ExpR eps om).re = so3ExpRe eps (sq3 om) := rfl
theorem so3ExpR_imI (eps : ℝ) (om : V3 ℝ) : (so3ExpR eps om).imI = so3ExpFactor eps (sq3 om) * om 0 := rfl
theorem so3ExpR_imJ (eps : ℝ) (om : V3 ℝ) : (so3ExpR eps om).imJ = so3ExpFactor eps (sq3 om) * om 1 := rfl
theorem so3ExpR_imK (eps : ℝ) (om : V3 ℝ) : (so3ExpR eps om).imK = so3ExpFactor eps (sq3 om) * om 2 := rfl

theorem so3ExpR_zero {eps : ℝ} (he : 0 < eps) : so3ExpR eps 0 = 1 := by
  have h : sq3 (0 : V3 ℝ) = 0 := by simp [sq3]
  ext
  · rw [so3ExpR_re, h, so3ExpRe, if_pos he]; simp
  · rw [so3ExpR_imI]; simp
  · rw [so3ExpR_imJ]; simp
  · rw [so3ExpR_imK]; simp

theorem se3ExpR_trans {eps : ℝ} (he : 0 < eps) (v : V3 ℝ) : se3ExpR eps (v, 0) = ⟨1, v⟩ := by
  have h : sq3 (0 : V3 ℝ) = 0 := by simp [sq3]
  simp only [se3ExpR, so3ExpR_zero he, h, he, if_true, rotate_one]

/-- Columns 0, 1, 2 of the Jacobian of `τ ↦ log(A exp τ)` for a pose `A` without rotation. -/
theorem jacZeroR_trans {eps : ℝ} (he : 0 < eps) (a : V3 ℝ) (i j : Fin 6) (hj : j.val < 3) :
    jacZeroR (fun tau => se3LogR eps ((⟨1, a⟩ : SE3 ℝ).mul (se3ExpR eps tau))) i j = if i = j then 1 else 0 := by
  have hu : ∀ s : ℝ, s • unitTwist j = ((fun b => if b.val = j.val then s else 0, 0) : Twist ℝ) := by
    intro s
    apply Prod.ext
    · funext b; simp [unitTwist]
    · funext b
      have : b.val + 3 ≠ j.val := by omega
      simp [unitTwist, this]
  have hf : ∀ s : ℝ, se3LogR eps ((⟨1, a⟩ : SE3 ℝ).mul (se3ExpR eps (s • unitTwist j))) = ((fun b => (if b.val = j.val then s else 0) + a b), 0) := by
    intro s
    rw [hu, se3ExpR_trans he]
    show se3LogR eps ⟨1 * 1, rotate 1 _ + a⟩ = _
    rw [mul_one, rotate_one, se3LogR_trans he]
    rfl
  unfold jacZeroR
  apply HasDerivAt.deriv
  simp only [hf, twistEntry]
  by_cases hi : i.val < 3
  · simp only [hi, dif_pos]
    by_cases hij : i = j
    · subst hij
      simpa using (hasDerivAt_id (0 : ℝ)).add_const (a ⟨i.val, hi⟩)
    · have : i.val ≠ j.val := fun h => hij (Fin.ext h)
      simp only [this, hij, if_false]
      exact hasDerivAt_const _ _
  · have hij : i ≠ j := by rintro rfl; exact hi hj
    simp only [hi, hij, if_false, dif_neg, not_false_iff]
    exact hasDerivAt_const _ _

/-- **C60** (what holds): the object has the orientation of the world and so has the target, and the velocity moves the object without
turning it.  Then the column of the Jacobian is the derivative of the error.

Missing: all other orientations and velocities, where it is false (`C60_wrong`). -/
theorem C60_translation_partial {env : Env ℝ} {eps : ℝ} (he : 0 < eps) (hlog : env.se3Log = se3LogR eps) (hexp : env.se3Exp = se3ExpR eps)
    (hjac : env.jacZero = jacZeroR) {j : JaxComp ℝ} {d : ℝ → MjData ℝ} {w : Arr ℝ} {lm : ℝ} {i : Int} {ty : ObjType} {tgt : Arr ℝ}
    (hk : j.kind = .frameTask w lm i ty tgt) (hm : ∀ r ∈ j.maskIdxs, r < 6) {t : Vec ℝ} {p : V3 ℝ} (ht : tgt.toVec = .ok t)
    (hT : se3OfVec t = .ok ⟨1, p⟩) {f : ℝ → V3 ℝ} (hF : ∀ s, objFrame env (d s) ty i = .ok ⟨1, f s⟩) {rows : List (V3 ℝ × V3 ℝ)}
    (hrows : frameJacobianLocal j.model (d 0) i ty = .ok rows) {k : Nat} {v : V3 ℝ} (hv : rows[k]? = some (v, 0)) (hd : HasDerivAt f v 0) :
    ∃ (J : Mat ℝ) (e : ℝ → Vec ℝ), evalJacobian env j (d 0) = .ok J ∧ (∀ s, evalValue env j (d s) = .ok (e s)) ∧
      ∀ r < j.maskIdxs.length, HasDerivAt (fun s => (e s).get r) (J.get r k) 0 := by
  let jlog := jacZeroR (fun tau => se3LogR eps (((⟨1, p⟩ : SE3 ℝ).inv.mul (⟨1, f 0⟩ : SE3 ℝ).inv).mul (se3ExpR eps tau)))
  let J0 : Mat ℝ := ⟨6, rows.length, fun i j => ∑ k ∈ Finset.range 6, (mat6 jlog).neg.get i k * (rowsMat rows).get k j⟩
  refine ⟨J0.gatherRows j.maskIdxs, fun s => (vec6 (env.se3Log ((⟨1, f s⟩ : SE3 ℝ).inv.mul ⟨1, p⟩))).gather j.maskIdxs, ?_, ?_, ?_⟩
  · rw [evalJacobian, hk]
    simp only [bind, Except.bind, ht, hT, hF, hrows, hlog, hexp, hjac]
    rfl
  · intro s
    rw [evalValue, hk]
    simp only [bind, Except.bind, ht, hT, hF]
    rfl
  · intro r hr
    obtain ⟨x, hx⟩ : ∃ x, j.maskIdxs[r]? = some x := ⟨_, List.getElem?_eq_getElem hr⟩
    have hx6 : x < 6 := hm x (List.mem_of_getElem? hx)
    have hmin : min x 5 = x := by omega
    have hA : (⟨1, p⟩ : SE3 ℝ).inv.mul (⟨1, f 0⟩ : SE3 ℝ).inv = ⟨1, - f 0 + - p⟩ := by
      simp [SE3.mul, SE3.inv, quatInv, rotate_one]
    have hE : ∀ s, (⟨1, f s⟩ : SE3 ℝ).inv.mul ⟨1, p⟩ = ⟨1, p + - f s⟩ := by
      intro s
      simp [SE3.mul, SE3.inv, quatInv, rotate_one]
    have hJ : (J0.gatherRows j.maskIdxs).get r k = if h : x < 3 then - v ⟨x, h⟩ else 0 := by
      show ∑ l ∈ Finset.range 6, (mat6 jlog).neg.get (min ((j.maskIdxs[r]?).getD 0) 5) l * (rowsMat rows).get l k = _
      rw [hx, Option.getD_some, hmin]
      have hcol : ∀ l (hl : l < 3), (mat6 jlog).neg.get x l = if x = l then -1 else 0 := by
        intro l hl
        have h6 : x < 6 ∧ l < 6 := ⟨hx6, by omega⟩
        show -(if h : x < 6 ∧ l < 6 then jlog ⟨x, h.1⟩ ⟨l, h.2⟩ else 0) = _
        rw [dif_pos h6]
        show -(jacZeroR (fun tau => se3LogR eps (((⟨1, p⟩ : SE3 ℝ).inv.mul (⟨1, f 0⟩ : SE3 ℝ).inv).mul (se3ExpR eps tau))) _ _) = _
        rw [hA, jacZeroR_trans he _ _ _ hl]
        by_cases h : x = l
        · simp [h]
        · have : (⟨x, h6.1⟩ : Fin 6) ≠ ⟨l, h6.2⟩ := fun e => h (Fin.ext_iff.1 e)
          simp [h, this]
      have hrow : ∀ l, (rowsMat rows).get l k = (vec6 ((v, 0) : V3 ℝ × V3 ℝ)).get l := by
        intro l
        show (vec6 (rows.getD k (0, 0))).get l = _
        rw [List.getD_eq_getElem?_getD, hv, Option.getD_some]
      simp only [hrow, Finset.sum_range_succ, Finset.sum_range_zero, zero_add]
      rw [hcol 0 (by omega), hcol 1 (by omega), hcol 2 (by omega)]
      have hz : ∀ l, 3 ≤ l → (vec6 ((v, 0) : V3 ℝ × V3 ℝ)).get l = 0 := by
        intro l hl
        have : ¬ l < 3 := by omega
        simp [vec6, Vec.append, vec3, this]
      rw [hz 3 (by omega), hz 4 (by omega), hz 5 (by omega)]
      have e0 : (vec6 ((v, 0) : V3 ℝ × V3 ℝ)).get 0 = v 0 := rfl
      have e1 : (vec6 ((v, 0) : V3 ℝ × V3 ℝ)).get 1 = v 1 := rfl
      have e2 : (vec6 ((v, 0) : V3 ℝ × V3 ℝ)).get 2 = v 2 := rfl
      rw [e0, e1, e2]
      by_cases h3 : x < 3
      · rw [dif_pos h3]
        obtain rfl | rfl | rfl : x = 0 ∨ x = 1 ∨ x = 2 := by omega
        · simp
        · simp
        · simp
      · rw [dif_neg h3, if_neg (by omega), if_neg (by omega), if_neg (by omega)]
        simp
    rw [hJ]
    have hval : ∀ s, ((vec6 (env.se3Log ((⟨1, f s⟩ : SE3 ℝ).inv.mul ⟨1, p⟩))).gather j.maskIdxs).get r =
        if h : x < 3 then p ⟨x, h⟩ + - f s ⟨x, h⟩ else 0 := by
      intro s
      show (vec6 (env.se3Log ((⟨1, f s⟩ : SE3 ℝ).inv.mul ⟨1, p⟩))).get (min ((j.maskIdxs[r]?).getD 0) 5) = _
      rw [hx, Option.getD_some, hmin, hlog, hE, se3LogR_trans he]
      by_cases h3 : x < 3
      · simp [vec6, Vec.append, vec3, h3]
      · simp [vec6, Vec.append, vec3, h3]
    simp only [hval]
    by_cases h3 : x < 3
    · simp only [h3, dif_pos]
      exact ((hasDerivAt_pi.1 hd ⟨x, h3⟩).neg).const_add _
    · simp only [h3, dif_neg, not_false_iff]
      exact hasDerivAt_const _ _

/-! An arm of length `ℓ` that turns about the vertical axis (one hinge); the data are what MuJoCo computes for it. -/
namespace Arm

/-- Rotation by `q` about the third axis. -/
noncomputable def rz (q : ℝ) : M3 ℝ := !![cos q, -sin q, 0; sin q, cos q, 0; 0, 0, 1]

noncomputable def data (l q : ℝ) : MjData ℝ where
  qpos := ⟨1, fun _ => q⟩
  xpos := [0, ![l * cos q, l * sin q, 0]]
  xquat := [1, rotOfMatR (rz q)]
  xmat := [1, rz q]
  geomXpos := []
  geomXmat := []
  siteXpos := []
  siteXmat := []
  xipos := [0, 0]
  subtreeCom := [0, 0]
  cdof := [(![0, 0, 1], 0)]
  efcEq := []
  efcPos := []
  efcJ := []

noncomputable def env (eps l : ℝ) : Env ℝ where
  kinematics := fun _ q => data l (q.get 0)
  comPos := fun _ d => d
  makeConstraint := fun _ d => d
  collide := fun _ _ => { known := fun _ _ => true, ncon := fun _ _ => 1, contact := fun _ _ _ => ⟨0, 0, 0⟩ }
  jacrev := fun f q => Mat.zero (f q).len q.len
  jacZero := jacZeroR
  rotOfMat := rotOfMatR
  so3Log := so3LogR eps
  se3Log := se3LogR eps
  se3Exp := se3ExpR eps
  quatIntegrate := quatIntegrateR

noncomputable def model : MjModel ℝ :=
  { (MjModel.empty : MjModel ℝ) with
    nq := 1, nv := 1, nbody := 2, jntType := [.hinge], jntQposadr := [0], jntDofadr := [0], jntRange := [(-3, 3)],
    bodyParentid := [0, 0], bodyRootid := [0, 1], bodyWeldid := [0, 1], dofBodyid := [1], bodyMass := [0, 1], bodyNames := ["world", "arm"] }

/-- A frame task for the arm whose target is the arm's pose at angle zero. -/
noncomputable def task (l : ℝ) : JaxComp ℝ where
  dim := 6
  model := model
  vectorGain := Arr.scalar 1
  gainFn := id
  maskIdxs := List.range 6
  kind := .frameTask (Arr.scalar 1) 0 1 .body ⟨[7], fun ix => [1, 0, 0, 0, l, 0, 0].getD (ix.headD 0) 0⟩

theorem rz_rotation (q : ℝ) : IsRotation (rz q) := by
  have h := sin_sq_add_cos_sq q
  constructor
  · ext i j
    fin_cases i <;> fin_cases j <;> simp [rz, Matrix.mul_apply, Fin.sum_univ_three] <;> nlinarith
  · simp [Matrix.det_fin_three, rz]
    nlinarith

theorem rz_im (q : ℝ) : (rotOfMatR (rz q)).imI = 0 ∧ (rotOfMatR (rz q)).imJ = 0 := by
  have h2 : ¬ rz q 2 2 < 0 := by simp [rz]
  have hs : ∀ (x : ℝ) (y : ℍ[ℝ]), (x • y).imI = x * y.imI ∧ (x • y).imJ = x * y.imJ := fun x y => ⟨rfl, rfl⟩
  rw [rotOfMatR, (hs _ _).1, (hs _ _).2]
  unfold fromMatrixCase
  simp only [if_neg h2]
  split <;> simp [rz]

theorem rz_rot {q : ℝ} (hq : 0 ≤ cos q) :
    (rotOfMatR (rz q)).re = √(2 + 2 * cos q) / 2 ∧ (rotOfMatR (rz q)).imK = sin q / √(2 + 2 * cos q) := by
  have ht : 1 + rz q 0 0 + rz q 1 1 + rz q 2 2 = 2 + 2 * cos q := by
    simp [rz]; ring
  have h0 : 0 < 2 + 2 * cos q := by linarith
  have h2 : ¬ rz q 2 2 < 0 := by simp [rz]
  have h3 : ¬ rz q 0 0 < - rz q 1 1 := by simp [rz]; linarith
  have hs : ∀ (x : ℝ) (y : ℍ[ℝ]), (x • y).re = x * y.re ∧ (x • y).imK = x * y.imK := fun x y => ⟨rfl, rfl⟩
  have hr : √(2 + 2 * cos q) ≠ 0 := (sqrt_pos.2 h0).ne'
  have hr2 := mul_self_sqrt h0.le
  rw [rotOfMatR, (hs _ _).1, (hs _ _).2]
  unfold fromMatrixCase
  simp only [if_neg h2, if_neg h3]
  rw [ht]
  constructor
  · field_simp
    rw [Real.sq_sqrt (by linarith)]
  · have : rz q 1 0 - rz q 0 1 = 2 * sin q := by simp [rz]; ring
    rw [this]
    field_simp

theorem cos_near : ∀ᶠ q in nhds (0 : ℝ), 0 ≤ cos q := by
  have h : Filter.Tendsto cos (nhds 0) (nhds (cos 0)) := continuous_cos.tendsto 0
  filter_upwards [h.eventually_const_lt (u := 0) (by simp)] with q hq
  exact hq.le

theorem sqrt4 : √(2 + 2 * cos 0) = 2 := by
  rw [cos_zero, show (2 : ℝ) + 2 * 1 = 2 ^ 2 by norm_num, Real.sqrt_sq (by norm_num)]

theorem rz_zero : rotOfMatR (rz 0) = 1 := by
  obtain ⟨h1, h2⟩ := rz_im 0
  obtain ⟨h3, h4⟩ := rz_rot (q := 0) (by simp)
  rw [sqrt4] at h3 h4
  ext
  · rw [h3]; simp
  · rw [h1]; simp
  · rw [h2]; simp
  · rw [h4]; simp

theorem hasDerivAt_sqrt4 : HasDerivAt (fun q => √(2 + 2 * cos q)) 0 0 := by
  have h := (((hasDerivAt_cos 0).const_mul 2).const_add 2).sqrt (by rw [cos_zero]; norm_num)
  refine h.congr_deriv ?_
  simp

theorem hasDerivAt_re : HasDerivAt (fun q => (rotOfMatR (rz q)).re) 0 0 := by
  have h := hasDerivAt_sqrt4.div_const 2
  simp only [zero_div] at h
  exact h.congr_of_eventuallyEq (cos_near.mono (fun q hq => (rz_rot hq).1))

theorem hasDerivAt_imK : HasDerivAt (fun q => (rotOfMatR (rz q)).imK) (1 / 2) 0 := by
  have h := (hasDerivAt_sin 0).div hasDerivAt_sqrt4 (by rw [sqrt4]; norm_num)
  refine (h.congr_of_eventuallyEq (cos_near.mono (fun q hq => (rz_rot hq).2))).congr_deriv ?_
  rw [sqrt4]; simp; norm_num

theorem frame (eps l q : ℝ) : objFrame (env eps l) (update (env eps l) model ⟨1, fun _ => q⟩) .body 1 =
    .ok ⟨rotOfMatR (rz q), ![l * cos q, l * sin q, 0]⟩ := rfl

theorem target (l : ℝ) : (⟨1, ![l, 0, 0]⟩ : SE3 ℝ) = ⟨⟨1, 0, 0, 0⟩, ![l, 0, 0]⟩ := by
  congr 1

/-- The true rate of the second entry of the error. -/
theorem rate {eps : ℝ} (he : 0 < eps) (l : ℝ) :
    HasDerivAt (fun q => (se3LogR eps ((⟨rotOfMatR (rz q), ![l * cos q, l * sin q, 0]⟩ : SE3 ℝ).inv.mul ⟨1, ![l, 0, 0]⟩)).1 1) (-l) 0 := by
  obtain ⟨c3, c4⟩ := rz_rot (q := 0) (by simp)
  rw [sqrt4] at c3 c4
  have c3' : (rotOfMatR (rz 0)).re = 1 := by rw [c3]; norm_num
  have c4' : (rotOfMatR (rz 0)).imK = 0 := by rw [c4]; simp
  have hre := hasDerivAt_re
  have him := hasDerivAt_imK
  have hA : HasDerivAt (fun q => (rotOfMatR (rz q)).re ^ 2 - (rotOfMatR (rz q)).imK ^ 2) 0 0 := by
    refine ((hre.pow 2).sub (him.pow 2)).congr_deriv ?_
    simp [c4']
  have hB : HasDerivAt (fun q => 2 * ((rotOfMatR (rz q)).re * (rotOfMatR (rz q)).imK)) 1 0 := by
    refine ((hre.mul him).const_mul 2).congr_deriv ?_
    simp [c3', c4']
  have hC : HasDerivAt (fun q => l - l * cos q) 0 0 := by
    refine (((hasDerivAt_cos 0).const_mul l).const_sub l).congr_deriv ?_
    simp
  have hS : HasDerivAt (fun q => l * sin q) l 0 := by
    refine ((hasDerivAt_sin 0).const_mul l).congr_deriv ?_
    simp
  let t : ℝ → V3 ℝ := fun q => rotate (quatInv (rotOfMatR (rz q))) ![l, 0, 0] + -(rotate (quatInv (rotOfMatR (rz q))) ![l * cos q, l * sin q, 0])
  have t0 : ∀ q, t q 0 = ((rotOfMatR (rz q)).re ^ 2 - (rotOfMatR (rz q)).imK ^ 2) * (l - l * cos q)
      - 2 * ((rotOfMatR (rz q)).re * (rotOfMatR (rz q)).imK) * (l * sin q) := by
    intro q
    obtain ⟨h1, h2⟩ := rz_im q
    simp only [t, Pi.add_apply, Pi.neg_apply, rotate_apply0, quatInv, Quaternion.re_star, Quaternion.imI_star, Quaternion.imJ_star,
      Quaternion.imK_star, h1, h2]
    simp
    ring
  have t1 : ∀ q, t q 1 = -(2 * ((rotOfMatR (rz q)).re * (rotOfMatR (rz q)).imK) * (l - l * cos q)
      + ((rotOfMatR (rz q)).re ^ 2 - (rotOfMatR (rz q)).imK ^ 2) * (l * sin q)) := by
    intro q
    obtain ⟨h1, h2⟩ := rz_im q
    simp only [t, Pi.add_apply, Pi.neg_apply, rotate_apply1, quatInv, Quaternion.re_star, Quaternion.imI_star, Quaternion.imJ_star,
      Quaternion.imK_star, h1, h2]
    simp
    ring
  have d0 := (hA.mul hC).sub (hB.mul hS)
  have d1 := ((hB.mul hC).add (hA.mul hS)).neg
  have key := log_deriv (eps := eps) he (q := fun q => quatInv (rotOfMatR (rz q)) * 1) (t := t) (w' := 0) (c := -(1 / 2)) (a0 := _) (a1 := _)
    (fun s => by simp [quatInv, (rz_im s).1]) (fun s => by simp [quatInv, (rz_im s).2])
    (by simpa [quatInv] using hre) (by simp [quatInv, c3']) (by
      refine him.neg.congr_of_eventuallyEq (Filter.Eventually.of_forall (fun s => ?_))
      simp [quatInv]) (by simp [quatInv, c4'])
    (d0.congr_of_eventuallyEq (Filter.Eventually.of_forall t0)) (d1.congr_of_eventuallyEq (Filter.Eventually.of_forall t1))
  refine key.congr_deriv ?_
  rw [t0 0]
  simp [c3', c4']

/-- The column of the code's inner Jacobian for a rotation about the third axis. -/
theorem jac_rot {eps : ℝ} (he : 0 < eps) (a : V3 ℝ) :
    jacZeroR (fun tau => se3LogR eps ((⟨1, a⟩ : SE3 ℝ).mul (se3ExpR eps tau))) 1 5 = - (a 0 / 2) := by
  have hu : ∀ s : ℝ, s • unitTwist 5 = ((0, ![0, 0, s]) : Twist ℝ) := by
    intro s
    apply Prod.ext
    · funext b; fin_cases b <;> simp [unitTwist]
    · funext b; fin_cases b <;> simp [unitTwist]
  have hq : ∀ s : ℝ, sq3 (![0, 0, s] : V3 ℝ) = s ^ 2 := by intro s; simp [sq3]
  have hI : ∀ s : ℝ, (so3ExpR eps ![0, 0, s]).imI = 0 := by intro s; rw [so3ExpR_imI]; simp
  have hJ : ∀ s : ℝ, (so3ExpR eps ![0, 0, s]).imJ = 0 := by intro s; rw [so3ExpR_imJ]; simp
  have es : ∀ᶠ s in nhds (0 : ℝ), s ^ 2 < eps := by
    have : Filter.Tendsto (fun s : ℝ => s ^ 2) (nhds 0) (nhds (0 ^ 2)) := (continuous_pow 2).tendsto 0
    exact this.eventually_lt_const (by simpa using he)
  have hre : HasDerivAt (fun s : ℝ => (so3ExpR eps ![0, 0, s]).re) 0 0 := by
    have h := (((hasDerivAt_const (0 : ℝ) (1 : ℝ)).sub (((hasDerivAt_id (0 : ℝ)).pow 2).div_const 8)).add
      (((((hasDerivAt_id (0 : ℝ)).pow 2).pow 2)).div_const 384))
    refine (h.congr_of_eventuallyEq ?_).congr_deriv (by simp)
    filter_upwards [es] with s h
    rw [so3ExpR_re, hq, so3ExpRe, if_pos h]; rfl
  have him : HasDerivAt (fun s : ℝ => (so3ExpR eps ![0, 0, s]).imK) (1 / 2) 0 := by
    have h := (((hasDerivAt_const (0 : ℝ) (1 / 2 : ℝ)).sub (((hasDerivAt_id (0 : ℝ)).pow 2).div_const 48)).add
      (((((hasDerivAt_id (0 : ℝ)).pow 2).pow 2)).div_const 3840)).mul (hasDerivAt_id (0 : ℝ))
    refine (h.congr_of_eventuallyEq ?_).congr_deriv (by simp)
    filter_upwards [es] with s h
    rw [so3ExpR_imK, hq, so3ExpFactor, if_pos h]; rfl
  have hz : so3ExpR eps ![0, 0, 0] = 1 := by
    rw [show (![0, 0, 0] : V3 ℝ) = 0 by funext i; fin_cases i <;> rfl]
    exact so3ExpR_zero he
  have hT : ∀ s : ℝ, (⟨1, a⟩ : SE3 ℝ).mul (se3ExpR eps (s • unitTwist 5)) = ⟨so3ExpR eps ![0, 0, s], a⟩ := by
    intro s
    rw [hu]
    have hr0 : ∀ q : ℍ[ℝ], rotate q 0 = 0 := fun q => by simpa using rotate_add q (0 : V3 ℝ) 0
    have : (se3ExpR eps ((0, ![0, 0, s]) : Twist ℝ)).trans = 0 := by
      simp only [se3ExpR]
      split
      · exact hr0 _
      · exact Matrix.mulVec_zero _
    show (⟨1 * so3ExpR eps ![0, 0, s], rotate 1 (se3ExpR eps ((0, ![0, 0, s]) : Twist ℝ)).trans + a⟩ : SE3 ℝ) = _
    rw [this, hr0, one_mul, zero_add]
  unfold jacZeroR
  apply HasDerivAt.deriv
  simp only [hT]
  have key := log_deriv (eps := eps) he (q := fun s => so3ExpR eps ![0, 0, s]) (t := fun _ => a) hI hJ hre (by rw [hz]; rfl) him (by rw [hz]; rfl)
    (hasDerivAt_const (0 : ℝ) (a 0)) (hasDerivAt_const (0 : ℝ) (a 1))
  refine key.congr_deriv ?_
  ring

end Arm

/-- **C60 is false**: an arm of length `ℓ` on a hinge, with the arm exactly at the target.  The second entry of the
error changes at the rate `-ℓ`, the Jacobian says `-2ℓ`. -/
theorem C60_wrong {eps : ℝ} (he : 0 < eps) (l : ℝ) :
    ∃ (J : Mat ℝ) (e : ℝ → Vec ℝ),
      evalJacobian (Arm.env eps l) (Arm.task l) (update (Arm.env eps l) Arm.model ⟨1, fun _ => 0⟩) = .ok J ∧
      (∀ q, evalValue (Arm.env eps l) (Arm.task l) (update (Arm.env eps l) Arm.model ⟨1, fun _ => q⟩) = .ok (e q)) ∧
      (∀ k < 6, (e 0).get k = 0) ∧ HasDerivAt (fun q => (e q).get 1) (-l) 0 ∧ J.get 1 0 = -(2 * l) := by
  let d0 := update (Arm.env eps l) Arm.model ⟨1, fun _ => 0⟩
  let T : SE3 ℝ := ⟨⟨1, 0, 0, 0⟩, ![l, 0, 0]⟩
  let F : ℝ → SE3 ℝ := fun q => ⟨rotOfMatR (Arm.rz q), ![l * cos q, l * sin q, 0]⟩
  let jlog := jacZeroR (fun tau => se3LogR eps ((T.inv.mul (F 0).inv).mul (se3ExpR eps tau)))
  obtain ⟨rows, hrows, hrow⟩ : ∃ rows, frameJacobianLocal Arm.model d0 1 .body = .ok rows ∧ rows = [(![0, l, 0], ![0, 0, 1])] := by
    refine ⟨_, rfl, ?_⟩
    have hd : dofMask Arm.model 1 = [true] := rfl
    rw [hd]
    show [((Arm.rz 0)ᵀ.mulVec (pointVel (![l * cos 0, l * sin 0, 0] - 0) (![0, 0, 1], 0)), Matrix.vecMul ![0, 0, 1] (Arm.rz 0)ᵀᵀ)] = _
    congr 1
    apply Prod.ext
    · funext i
      fin_cases i <;> simp [Matrix.mulVec, dotProduct, Fin.sum_univ_three, pointVel, crossProduct, Arm.rz]
    · funext i
      fin_cases i <;> simp [Matrix.vecMul, dotProduct, Fin.sum_univ_three, Arm.rz]
  let J0 : Mat ℝ := ⟨6, rows.length, fun i j => ∑ k ∈ Finset.range 6, (mat6 jlog).neg.get i k * (rowsMat rows).get k j⟩
  have hval : ∀ q, evalValue (Arm.env eps l) (Arm.task l) (update (Arm.env eps l) Arm.model ⟨1, fun _ => q⟩) =
      .ok ((vec6 (se3LogR eps ((F q).inv.mul T))).gather (List.range 6)) := fun q => rfl
  have hT1 : T = ⟨1, ![l, 0, 0]⟩ := (Arm.target l).symm
  refine ⟨J0.gatherRows (List.range 6), _, ?_, hval, ?_, ?_, ?_⟩
  · have : evalJacobian (Arm.env eps l) (Arm.task l) d0 = (do
        let fj ← frameJacobianLocal Arm.model d0 1 .body
        let J ← (mat6 jlog).neg.mul (rowsMat fj)
        return J.gatherRows (List.range 6)) := rfl
    rw [this, hrows]
    rfl
  · intro k hk
    have h0 : (F 0).inv.mul T = ⟨1, 0⟩ := by
      have h1 : F 0 = T := by
        rw [hT1]
        simp [F, Arm.rz_zero]
      rw [h1]
      exact se3_inv_mul_self (by rw [hT1]; simp)
    simp only [h0, se3LogR_trans he]
    show (vec6 ((0 : V3 ℝ), (0 : V3 ℝ))).get _ = 0
    simp [vec6, Vec.append, vec3]
  · have h := Arm.rate he l
    rw [← hT1] at h
    exact h
  · have hA : T.inv.mul (F 0).inv = ⟨1, ![-(2 * l), 0, 0]⟩ := by
      rw [hT1]
      simp only [F, Arm.rz_zero, SE3.mul, SE3.inv, quatInv, star_one, rotate_one, mul_one]
      congr 1
      funext i
      fin_cases i <;> simp
      ring
    show ∑ k ∈ Finset.range 6, (mat6 jlog).neg.get 1 k * (rowsMat rows).get k 0 = _
    have h1 : (mat6 jlog).neg.get 1 1 = -1 := by
      show -(jacZeroR (fun tau => se3LogR eps ((T.inv.mul (F 0).inv).mul (se3ExpR eps tau))) 1 1) = _
      rw [hA, jacZeroR_trans he _ _ _ (by decide)]
      simp
    have h5 : (mat6 jlog).neg.get 1 5 = - l := by
      show -(jacZeroR (fun tau => se3LogR eps ((T.inv.mul (F 0).inv).mul (se3ExpR eps tau))) 1 5) = _
      rw [hA, Arm.jac_rot he]
      simp
      ring
    have e : ∀ k, (rowsMat rows).get k 0 = (vec6 ((![0, l, 0], ![0, 0, 1]) : Twist ℝ)).get k := by
      intro k; rw [hrow]; rfl
    simp only [e, Finset.sum_range_succ, Finset.sum_range_zero, zero_add, h1, h5]
    simp [vec6, Vec.append, vec3]
    ring

/-! ## Examples -/

namespace Arm

theorem rz_unit (q : ℝ) : Quaternion.normSq (rotOfMatR (rz q)) = 1 := (rotOfMatR_spec (rz_rotation q)).1

/-- C59 for the arm at any angle; at a right angle the error is not zero. -/
example (q : ℝ) : ∃ e, evalValue (env (1 / 100000) 1) (task 1) (update (env (1 / 100000) 1) model ⟨1, fun _ => q⟩) = .ok e ∧
    e.len = 6 ∧ ((∀ k < 6, e.get k = 0) ↔ SamePose ⟨rotOfMatR (rz q), ![1 * cos q, 1 * sin q, 0]⟩ ⟨⟨1, 0, 0, 0⟩, ![1, 0, 0]⟩) :=
  C59_zero_iff_target (env := env (1 / 100000) 1) rfl (by norm_num) (by norm_num) (j := task 1) rfl rfl rfl rfl (frame _ _ q)
    (by rw [← congrArg SE3.rot (target 1)]; simp) (rz_unit q)

example : ¬ SamePose (⟨rotOfMatR (rz (π / 2)), ![1 * cos (π / 2), 1 * sin (π / 2), 0]⟩ : SE3 ℝ) ⟨⟨1, 0, 0, 0⟩, ![1, 0, 0]⟩ := by
  rw [← Arm.target]
  intro h
  have h0 := congrFun (h 0) 0
  have hr0 : ∀ q : ℍ[ℝ], rotate q 0 = 0 := fun q => by simpa using rotate_add q (0 : V3 ℝ) 0
  simp [SE3.apply, hr0] at h0

example : ∃ c : Comp ℚ, newFrameTask Ex.taskArgs "b1" .body = .ok c ∧ ∃ t o f, c.attrs.kind = .frameTask t o f ∧
    (⟨[7], fun ix => [1, 2, 3, 1, 0, 0, 0].getD (ix.headD 0) 0⟩ : Arr ℚ).shape = [7] := ⟨_, rfl, _, _, _, rfl, rfl⟩

end Arm

/-! A body on a slide along the second axis: the hypotheses of `C60_translation_partial`. -/
namespace Slider

noncomputable def data (q : ℝ) : MjData ℝ :=
  { Arm.data 0 0 with qpos := ⟨1, fun _ => q⟩, xpos := [0, ![0, q, 0]], cdof := [(0, ![0, 1, 0])] }

example : ∃ (J : Mat ℝ) (e : ℝ → Vec ℝ), evalJacobian (Arm.env 1 0) (Arm.task 3) (data 0) = .ok J ∧
    (∀ s, evalValue (Arm.env 1 0) (Arm.task 3) (data s) = .ok (e s)) ∧
      ∀ r < 6, HasDerivAt (fun s => (e s).get r) (J.get r 0) 0 := by
  have hf : ∀ s, objFrame (Arm.env 1 0) (data s) .body 1 = .ok ⟨1, ![0, s, 0]⟩ := by
    intro s
    rw [← Arm.rz_zero]
    rfl
  refine C60_translation_partial (env := Arm.env 1 0) (eps := 1) one_pos rfl rfl rfl (j := Arm.task 3) (d := data) rfl ?_ rfl
    (p := ![3, 0, 0]) (by rw [Arm.target]; rfl) hf (rows := _) rfl (k := 0) (v := ![0, 1, 0]) ?_ ?_
  · intro r hr; simpa [Arm.task] using hr
  · have hd : dofMask Arm.model 1 = [true] := rfl
    show some (maskRow ((dofMask Arm.model 1).getD 0 true) _) = _
    rw [hd]
    show some (((Arm.rz 0)ᵀ.mulVec (pointVel (![0, 0, 0] - 0) (0, ![0, 1, 0])), Matrix.vecMul 0 (Arm.rz 0)ᵀᵀ)) = _
    congr 1
    apply Prod.ext
    · funext i
      fin_cases i <;> simp [Matrix.mulVec, dotProduct, Fin.sum_univ_three, pointVel, crossProduct, Arm.rz]
    · simp
  · refine hasDerivAt_pi.2 (fun i => ?_)
    fin_cases i
    · exact hasDerivAt_const _ _
    · exact hasDerivAt_id _
    · exact hasDerivAt_const _ _

end Slider

end Mjinx.Props
