import Mathlib.Analysis.Real.Cardinality
import Mathlib.Topology.Order.LeftRightNhds
import Mathlib.Analysis.Calculus.Deriv.Slope
import Mathlib.Analysis.Calculus.Deriv.Inverse

/-!
# The smallest of several functions with one-sided derivatives
-/

namespace Mjinx
open Set
open scoped Topology

/-- A continuous function that, except at countably many points, immediately grows does not decrease. -/
theorem le_of_growing {g : ℝ → ℝ} {a b : ℝ} (hab : a ≤ b) (hc : ContinuousOn g (Icc a b)) {C : Set ℝ} (hC : C.Countable)
    (hg : ∀ t ∈ Ico a b, t ∉ C → ∀ᶠ x in 𝓝[>] t, g t ≤ g x) : g a ≤ g b := by
  by_contra hlt
  push Not at hlt
  have hsub : Ioo (g b) (g a) ⊆ g '' C := by
    intro y hy
    have hcomp : IsCompact {x ∈ Icc a b | y ≤ g x} := by
      have : IsClosed {x ∈ Icc a b | y ≤ g x} := hc.preimage_isClosed_of_isClosed isClosed_Icc (isClosed_Ici (a := y))
      exact isCompact_Icc.of_isClosed_subset this (fun x h => h.1)
    obtain ⟨t, ⟨ht, hty⟩, hmax⟩ := hcomp.exists_isMaxOn ⟨a, ⟨le_refl a, hab⟩, hy.2.le⟩ (continuousOn_id)
    have htb : t < b := lt_of_le_of_ne ht.2 fun h => by rw [h] at hty; linarith [hy.1]
    have hafter : ∀ x ∈ Ioc t b, g x < y := by
      intro x hx
      by_contra h
      push Not at h
      have : x ≤ t := hmax ⟨⟨by linarith [ht.1, hx.1], hx.2⟩, h⟩
      linarith [hx.1]
    have heq : g t = y := by
      refine le_antisymm ?_ hty
      have h1 : ContinuousWithinAt g (Ioc t b) t := (hc t ht).mono fun x hx => ⟨by linarith [ht.1, hx.1], hx.2⟩
      have hne : (𝓝[Ioc t b] t).NeBot := by rw [nhdsWithin_Ioc_eq_nhdsGT htb]; infer_instance
      exact le_of_tendsto h1 (Filter.eventually_of_mem self_mem_nhdsWithin fun x hx => (hafter x hx).le)
    by_cases htC : t ∈ C
    · exact ⟨t, htC, heq⟩
    · exfalso
      have h1 := hg t ⟨ht.1, htb⟩ htC
      have h2 : ∀ᶠ x in 𝓝[>] t, x ∈ Ioc t b := Ioc_mem_nhdsGT htb
      obtain ⟨x, hx1, hx2⟩ := (h1.and h2).exists
      linarith [hafter x hx2]
  have hcount := (hC.image g).mono hsub
  rw [Cardinal.Real.Ioo_countable_iff] at hcount
  linarith

/-- Two functions with derivatives from the right meet with different slopes only countably often. -/
theorem countable_crossings {f g f' g' : ℝ → ℝ} {a b : ℝ} (hf : ∀ t ∈ Ico a b, HasDerivWithinAt f (f' t) (Ici t) t)
    (hg : ∀ t ∈ Ico a b, HasDerivWithinAt g (g' t) (Ici t) t) : {t ∈ Ico a b | f t = g t ∧ f' t ≠ g' t}.Countable := by
  refine (countable_setOfPred_isolated_right_within (s := {t ∈ Ico a b | f t = g t ∧ f' t ≠ g' t})).mono ?_
  intro t ht
  refine ⟨ht, ?_⟩
  have h := HasDerivWithinAt.eventually_ne ((hf t ht.1).sub (hg t ht.1)) (c := 0) (sub_ne_zero.2 ht.2.2)
  rw [← Filter.empty_mem_iff_bot]
  rw [Ici_sdiff_left] at h
  have h2 : ∀ᶠ x in 𝓝[{t ∈ Ico a b | f t = g t ∧ f' t ≠ g' t} ∩ Ioi t] t, f x - g x ≠ 0 := nhdsWithin_mono t inter_subset_right h
  have h3 : ∀ᶠ x in 𝓝[{t ∈ Ico a b | f t = g t ∧ f' t ≠ g' t} ∩ Ioi t] t, f x = g x :=
    Filter.eventually_of_mem self_mem_nhdsWithin fun x hx => hx.1.2.1
  exact Filter.mem_of_superset (h2.and h3) fun x hx => hx.1 (sub_eq_zero.2 hx.2)

section
variable {ι : Type} {S : Finset ι} {h h' : ι → ℝ → ℝ}

theorem near_right {f : ℝ → ℝ} {f' t ε : ℝ} (hf : HasDerivWithinAt f f' (Ici t) t) (h0 : 0 ≤ f') (hε : 0 < ε) : ∀ᶠ x in 𝓝[>] t, f t - ε * (x - t) ≤ f x := by
  have h1 := (hasDerivWithinAt_iff_tendsto_slope' (by simp)).1 (hasDerivWithinAt_Ioi_iff_Ici.2 hf)
  have h2 : ∀ᶠ x in 𝓝[>] t, -ε < slope f t x := h1.eventually_const_lt (by linarith)
  filter_upwards [h2, self_mem_nhdsWithin] with x hx hxt
  have hpos : 0 < x - t := sub_pos.2 hxt
  rw [slope_def_field, lt_div_iff₀ hpos] at hx
  linarith

/-- If at every moment, except countably many, a smallest function does not decrease, the minimum does not decrease. -/
theorem min_stays {a b c : ℝ} (hab : a ≤ b) (hc : ∀ p ∈ S, ContinuousOn (h p) (Icc a b))
    (hd : ∀ p ∈ S, ∀ t ∈ Ico a b, HasDerivWithinAt (h p) (h' p t) (Ici t) t) {D : Set ℝ} (hD : D.Countable)
    (hmin : ∀ t ∈ Ico a b, t ∉ D → ∃ p ∈ S, (∀ q ∈ S, h p t ≤ h q t) ∧ 0 ≤ h' p t) (ha : ∀ p ∈ S, c ≤ h p a) : ∀ p ∈ S, c ≤ h p b := by
  intro p0 hp0
  have hne : S.Nonempty := ⟨p0, hp0⟩
  set m : ℝ → ℝ := fun t => S.inf' hne fun p => h p t with hm
  have hmc : ContinuousOn m (Icc a b) := ContinuousOn.finset_inf'_apply hne hc
  have hle : ∀ q ∈ S, ∀ t, m t ≤ h q t := fun q hq t => Finset.inf'_le _ hq
  have hcount : (D ∪ ⋃ p ∈ S, ⋃ q ∈ S, {t ∈ Ico a b | h p t = h q t ∧ h' p t ≠ h' q t}).Countable :=
    hD.union (S.countable_toSet.biUnion fun p hp => S.countable_toSet.biUnion fun q hq => countable_crossings (hd p hp) (hd q hq))
  have key : ∀ ε > 0, m a + ε * a ≤ m b + ε * b := by
    intro ε hε
    refine le_of_growing (g := fun t => m t + ε * t) hab (hmc.add (continuousOn_const.mul continuousOn_id)) hcount fun t ht htC => ?_
    rw [mem_union, not_or] at htC
    obtain ⟨p, hp, hpmin, hp0⟩ := hmin t ht htC.1
    have hmt : m t = h p t := le_antisymm (hle p hp t) ((Finset.le_inf'_iff hne _).2 hpmin)
    have hall : ∀ᶠ x in 𝓝[>] t, ∀ q ∈ S, m t - ε * (x - t) ≤ h q x := by
      rw [Finset.eventually_all]
      intro q hq
      by_cases he : h q t = h p t
      · have hs : h' q t = h' p t := by
          by_contra hn
          exact htC.2 (mem_biUnion hq (mem_biUnion hp ⟨ht, he, hn⟩))
        have := near_right (hd q hq t ht) (by rw [hs]; exact hp0) hε
        rw [hmt, ← he]
        exact this
      · have hlt : m t < h q t := by rw [hmt]; exact lt_of_le_of_ne (hpmin q hq) (Ne.symm he)
        have hcont := ((hd q hq t ht).continuousWithinAt.mono Ioi_subset_Ici_self : ContinuousWithinAt (h q) (Ioi t) t)
        filter_upwards [hcont.eventually_const_lt hlt, self_mem_nhdsWithin] with x hx hxt
        have hpos : 0 < x - t := sub_pos.2 hxt
        nlinarith
    filter_upwards [hall] with x hx
    have : m t - ε * (x - t) ≤ m x := (Finset.le_inf'_iff hne _).2 hx
    linarith
  have hma : c ≤ m a := (Finset.le_inf'_iff hne _).2 ha
  have hmb : m a ≤ m b := by
    refine le_of_forall_pos_le_add fun δ hδ => ?_
    by_cases hba : b - a = 0
    · have : a = b := by linarith
      rw [this]; linarith
    · have hpos : 0 < b - a := lt_of_le_of_ne (sub_nonneg.2 hab) (Ne.symm hba)
      have := key (δ / (b - a)) (div_pos hδ hpos)
      have e : δ / (b - a) * b - δ / (b - a) * a = δ := by field_simp
      linarith
  exact hma.trans (hmb.trans (hle p0 hp0 b))

/-- Functions that start nonnegative stay nonnegative, if a smallest one does not decrease while it is negative; derivatives are needed near zero only. -/
theorem min_nonneg {T c : ℝ} (hc0 : 0 < c) (hc : ∀ p ∈ S, ContinuousOn (h p) (Icc 0 T))
    (hd : ∀ t ∈ Ico 0 T, (∀ q ∈ S, -c < h q t) → (∀ q ∈ S, HasDerivWithinAt (h q) (h' q t) (Ici t) t) ∧
      ∃ p ∈ S, (∀ q ∈ S, h p t ≤ h q t) ∧ (h p t < 0 → 0 ≤ h' p t))
    (h0 : ∀ p ∈ S, 0 ≤ h p 0) : ∀ t ∈ Icc 0 T, ∀ p ∈ S, 0 ≤ h p t := by
  intro t1 ht1 p1 hp1
  by_contra hneg
  push Not at hneg
  have hsub : Icc 0 t1 ⊆ Icc 0 T := Icc_subset_Icc_right ht1.2
  have hclosed : IsClosed {s ∈ Icc 0 t1 | ∀ q ∈ S, 0 ≤ h q s} := by
    have : {s ∈ Icc 0 t1 | ∀ q ∈ S, 0 ≤ h q s} = Icc 0 t1 ∩ ⋂ q ∈ S, {s ∈ Icc 0 t1 | 0 ≤ h q s} := by
      ext s
      simp only [mem_inter_iff, mem_iInter]
      constructor
      · exact fun hs => ⟨hs.1, fun q hq => ⟨hs.1, hs.2 q hq⟩⟩
      · exact fun hs => ⟨hs.1, fun q hq => (hs.2 q hq).2⟩
    rw [this]
    exact isClosed_Icc.inter (isClosed_biInter fun q hq =>
      ((hc q hq).mono hsub).preimage_isClosed_of_isClosed isClosed_Icc (isClosed_Ici (a := 0)))
  have hcomp := isCompact_Icc.of_isClosed_subset hclosed fun x hx => hx.1
  obtain ⟨s, ⟨hs, hsn⟩, hmax⟩ := hcomp.exists_isMaxOn ⟨0, ⟨le_refl 0, ht1.1⟩, h0⟩ continuousOn_id
  have hst : s < t1 := lt_of_le_of_ne hs.2 fun he => by
    have := hsn p1 hp1
    rw [he] at this
    linarith
  have hnear : ∀ᶠ x in 𝓝[>] s, ∀ q ∈ S, -c < h q x := by
    rw [Finset.eventually_all]
    intro q hq
    have h1 : ContinuousWithinAt (h q) (Ioc s t1) s := (hc q hq s (hsub hs)).mono fun x hx => ⟨by linarith [hs.1, hx.1], hx.2.trans ht1.2⟩
    have h2 := h1.eventually_const_lt (show -c < h q s by linarith [hsn q hq])
    rwa [nhdsWithin_Ioc_eq_nhdsGT hst] at h2
  obtain ⟨u, hu, hball⟩ := mem_nhdsGT_iff_exists_Ioc_subset.1 hnear
  set e := min u t1 with he
  have hse : s < e := lt_min hu hst
  have het : e ≤ t1 := min_le_right _ _
  have hin : ∀ x ∈ Icc s e, ∀ q ∈ S, -c < h q x := by
    intro x hx q hq
    rcases eq_or_lt_of_le hx.1 with rfl | hlt
    · linarith [hsn q hq]
    · exact hball ⟨hlt, hx.2.trans (min_le_left _ _)⟩ q hq
  have hTx : ∀ x ∈ Ico s e, x ∈ Ico 0 T := fun x hx => ⟨hs.1.trans hx.1, lt_of_lt_of_le hx.2 (het.trans ht1.2)⟩
  have hend : ∀ q ∈ S, 0 ≤ h q e := by
    refine min_stays (h := h) (h' := h') hse.le (fun p hp => (hc p hp).mono fun x hx => ⟨hs.1.trans hx.1, hx.2.trans (het.trans ht1.2)⟩)
      (fun p hp t ht => (hd t (hTx t ht) (hin t ⟨ht.1, ht.2.le⟩)).1 p hp) (countable_singleton s) ?_ hsn
    intro t ht hts
    have hlt : s < t := lt_of_le_of_ne ht.1 fun h => hts h.symm
    obtain ⟨-, p, hp, hpm, hp'⟩ := hd t (hTx t ht) (hin t ⟨ht.1, ht.2.le⟩)
    refine ⟨p, hp, hpm, hp' ?_⟩
    by_contra hge
    push Not at hge
    have : t ≤ s := hmax ⟨⟨hs.1.trans hlt.le, ht.2.le.trans het⟩, fun q hq => hge.trans (hpm q hq)⟩
    linarith
  have : e ≤ s := hmax ⟨⟨hs.1.trans hse.le, het⟩, hend⟩
  linarith

end

end Mjinx
