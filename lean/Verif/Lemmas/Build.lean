import Verif.Lemmas.World

/-! Helper lemmas: what the build function computes, in terms of the specification. -/

set_option linter.unusedSectionVars false

namespace Mjinx
variable {K : Type} [Field K] [LinearOrder K]
open Spec

theorem sizeOf_ok {d : Int} {n : Nat} (h : sizeOf d = .ok n) : d = n := by
  unfold sizeOf at h
  split at h
  · cases h
  · cases h; omega

theorem vectorGain_spec {a : Attrs K} {g : Arr K} (h : vectorGain a = .ok g) :
    GainOf a.dim a.gain g := by
  unfold vectorGain at h
  split at h
  · cases h
  · split at h
    · rename_i hs
      split at h
      · cases h
      · rename_i n hn
        cases h
        exact ⟨n, sizeOf_ok hn, rfl, Or.inl ⟨hs, fun i _ => by simp [Arr.onesMul]⟩⟩
    · rename_i n hs
      split at h
      · cases h
      · rename_i hn
        cases h
        exact ⟨n, (not_not.1 hn).symm, hs, Or.inr ⟨hs, fun _ _ => rfl⟩⟩
    · cases h

theorem matrixCost_spec {d : Int} {cost w : Arr K} (h : matrixCost d cost = .ok w) :
    CostOf d cost w := by
  unfold matrixCost at h
  split at h
  · cases h
  · split at h
    · rename_i hs
      split at h
      · cases h
      · rename_i n hn
        cases h
        refine ⟨n, sizeOf_ok hn, rfl, Or.inl ⟨hs, fun i _ j _ => ?_⟩⟩
        by_cases hij : i = j <;> simp [Arr.eyeMul, hij]
    · rename_i n hs
      split at h
      · cases h
      · rename_i hn
        cases h
        refine ⟨n, (not_not.1 hn).symm, rfl, Or.inr (Or.inl ⟨hs, fun i _ j _ => ?_⟩)⟩
        by_cases hij : i = j <;> simp [Arr.diag, hij]
    · rename_i r c hs
      split at h
      · cases h
      · rename_i hn
        cases h
        have h1 : (r : Int) = d := by by_contra hh; exact hn (Or.inl hh)
        have h2 : (c : Int) = d := by by_contra hh; exact hn (Or.inr hh)
        have h3 : c = r := by omega
        subst h3
        exact ⟨c, h1.symm, hs, Or.inr (Or.inr ⟨hs, fun _ _ _ _ => rfl⟩)⟩
    · cases h

theorem softCost_spec {d : Int} {cost : Option (Arr K)} {w : Arr K}
    (h : softConstraintCost d cost = .ok w) : CostOf d (cost.getD (Arr.scalar 100)) w := by
  unfold softConstraintCost at h
  split at h
  · split at h
    · cases h
    · split at h
      · cases h
      · rename_i n hn
        cases h
        refine ⟨n, sizeOf_ok hn, rfl, Or.inl ⟨rfl, fun i _ j _ => ?_⟩⟩
        by_cases hij : i = j <;> simp [Arr.eyeMul, hij, Arr.scalar]
  · exact matrixCost_spec h

theorem buildKind_spec {a : Attrs K} {k : JaxKind K} (h : buildKind a = .ok k) :
    KindOf a.dim a.kind k := by
  unfold buildKind at h
  split at h
  · rename_i hk
    obtain ⟨w, hw, h⟩ := Except.bind_eq_ok h
    cases h; rw [hk]
    exact ⟨matrixCost_spec hw, rfl, rfl⟩
  · rename_i hk
    obtain ⟨w, hw, h⟩ := Except.bind_eq_ok h
    rw [hk]
    split at h
    · cases h
    · cases h
    · cases h
      exact ⟨matrixCost_spec hw, rfl, rfl, rfl⟩
  · rename_i hk
    obtain ⟨w, hw, h⟩ := Except.bind_eq_ok h
    cases h; rw [hk]
    exact ⟨matrixCost_spec hw, rfl, rfl, rfl, rfl⟩
  · rename_i hk
    obtain ⟨w, hw, h⟩ := Except.bind_eq_ok h
    cases h; rw [hk]
    exact ⟨matrixCost_spec hw, rfl, rfl, rfl, rfl⟩
  · rename_i hk
    rw [hk]
    split at h
    · cases h
    · cases h
    · cases h
    · cases h
      exact ⟨rfl, rfl, rfl, rfl⟩
  · rename_i hk
    rw [hk]
    split at h
    · cases h
    · rename_i hid
      cases h
      exact ⟨rfl, rfl, rfl, rfl, rfl, rfl, hid⟩
  · rename_i hk
    rw [hk]
    obtain ⟨d, hd, h'⟩ := Except.bind_eq_ok h
    obtain ⟨n, hn, h''⟩ := Except.bind_eq_ok h'
    clear h h'
    unfold getDim at hd
    split at hd
    · cases hd
    · cases hd
      split at h''
      · cases h''
      · cases h''
        exact ⟨rfl, ⟨n, sizeOf_ok hn, rfl, Or.inl ⟨rfl, fun i _ => by simp [Arr.onesMul]⟩⟩, rfl, rfl⟩
  · rename_i hk
    rw [hk]
    obtain ⟨w, hw, h⟩ := Except.bind_eq_ok h
    cases h
    exact ⟨rfl, rfl, softCost_spec hw⟩

/-- What a successful build returns and leaves behind. -/
theorem buildComponent_ok {m : MjModel K} {c c' : Comp K} {j : JaxComp K} (hm : c.attrs.model = some m)
    (h : buildComponent m c = (.ok j, c')) : CompilesTo c.attrs j ∧ ensureMask c = (.ok (), c') := by
  unfold buildComponent at h
  split at h
  · cases h
  · rename_i g hg
    split at h
    · cases h
    · rename_i c2 he
      split at h
      · cases h
      · rename_i k hk
        cases h
        obtain ⟨h1, h2, h3, h4, h5, h6, _, h7⟩ := ensureMask_ok he
        refine ⟨⟨hm, h2, vectorGain_spec hg, h5, ?_, ?_⟩, he⟩
        · rcases h7 with ⟨ha, rfl⟩ | ⟨ha, hb, rfl⟩
          · simp [ha]
          · simp [ha, Comp.set]
        · have := buildKind_spec hk
          rw [h2, h6] at this
          exact this

/-- Compiling a reachable component returns what its current attributes compile to. -/
theorem jaxComponent_spec {c c' : Comp K} {j : JaxComp K} (hc : CacheOK c)
    (h : jaxComponent c = (.ok j, c')) : CompilesTo c.attrs j := by
  unfold jaxComponent at h
  split at h
  · cases h
  · rename_i m hm
    split at h
    · cases h
    · split at h
      · split at h
        · cases h
        · rename_i j' c2 hb
          cases h
          exact (buildComponent_ok hm hb).1
      · rename_i hd hmod
        obtain ⟨m', j', h1, h2, h3, h4, h5, h6, h7, h8, h9, h10⟩ := hc (by simpa using hmod)
        rw [h3] at h
        cases h
        exact ⟨h8 ▸ h1, h7, vectorGain_spec h5, h9, by simp [h4, h10], buildKind_spec h6⟩

end Mjinx
