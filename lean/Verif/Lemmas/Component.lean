import Verif.Model.Component

/-! Helper lemmas about components: what a call can do to the cache. -/

set_option linter.unusedSectionVars false

namespace Mjinx
variable {K : Type} [Field K] [LinearOrder K]

/-- A call either leaves the object exactly as it was or marks it modified. -/
def Touched (c c' : Comp K) : Prop := c' = c ∨ c'.modified = true

theorem Touched.set (c c0 : Comp K) (a : Attrs K) : Touched c0 (c.set a) := Or.inr rfl

theorem Touched.refl (c : Comp K) : Touched c c := Or.inl rfl

theorem touched_ensureMask (c : Comp K) : Touched c (ensureMask c).2 := by
  unfold ensureMask; split
  · exact .refl _
  · split
    · exact .refl _
    · split
      · exact .refl _
      · exact .set _ _ _

theorem touched_updateGain (g : Arr K) (c : Comp K) : Touched c (updateGain g c).2 := by
  unfold updateGain; split <;> first | exact .refl _ | exact .set _ _ _

theorem touched_updateQLimit (u : Bool) (x : Arr K) (c : Comp K) :
    Touched c (updateQLimit u x c).2 := by
  unfold updateQLimit
  repeat' split
  all_goals first | exact .refl _ | exact .set _ _ _

theorem modified_updateQLimit {u : Bool} {x : Arr K} {c : Comp K} (h : c.modified = true) :
    (updateQLimit u x c).2.modified = true := by
  rcases touched_updateQLimit u x c with h1 | h1
  · rw [h1]; exact h
  · exact h1

theorem modified_fillLimit {u : Bool} {o : Option (Arr K)} {x : Arr K} {c : Comp K}
    (h : c.modified = true) : (fillLimit u o x c).2.modified = true := by
  unfold fillLimit; split
  · exact h
  · exact modified_updateQLimit h

theorem modified_updateModel (m : MjModel K) (c : Comp K) : (updateModel m c).2.modified = true := by
  unfold updateModel
  split
  · rfl
  · unfold updateModelJointTask
    dsimp only
    repeat' split
    all_goals rfl
  · unfold updateModelObj; dsimp only; split <;> rfl
  · unfold updateModelObj; dsimp only; split <;> rfl
  · unfold updateModelJointBarrier
    dsimp only
    split
    · rfl
    · split
      · rename_i h
        have := congrArg (fun r => r.2.modified) h
        exact this ▸ modified_fillLimit rfl
      · rename_i h
        have := congrArg (fun r => r.2.modified) h
        exact modified_fillLimit (this ▸ modified_fillLimit rfl)
  · unfold updateModelObj; dsimp only; split <;> rfl
  · unfold updateModelSelfCollision; dsimp only
    repeat' split
    all_goals rfl
  · unfold updateModelEquality; dsimp only; split <;> rfl

/-- Every call except `compile` leaves the object unchanged or marks it modified. -/
theorem touched_run (op : CompOp K) (c : Comp K) (h : ∀ _ : op = .compile, False) :
    Touched c (op.run c).2 := by
  cases op <;> simp only [CompOp.run]
  case updateGain => exact touched_updateGain _ _
  case updateCost => unfold updateCost; repeat' split
                     all_goals first | exact .refl _ | exact .set _ _ _
  case setLmDamping => unfold setLmDamping; repeat' split
                       all_goals first | exact .refl _ | exact .set _ _ _
  case setSafeDisplacementGain => unfold setSafeDisplacementGain; repeat' split
                                  all_goals first | exact .refl _ | exact .set _ _ _
  case updateTarget => unfold updateTarget; repeat' split
                       all_goals first | exact .refl _ | exact .set _ _ _
  case updateTargetFrame => unfold updateTargetFrame; repeat' split
                            all_goals first | exact .refl _ | exact .set _ _ _
  case updateQLimit => exact touched_updateQLimit _ _ _
  case updatePLimit => unfold updatePLimit; repeat' split
                       all_goals first | exact .refl _ | exact .set _ _ _
  case setActive => unfold setActive; repeat' split
                    all_goals first | exact .refl _ | exact .set _ _ _
  case setHard => unfold setHard; repeat' split
                  all_goals first | exact .refl _ | exact .set _ _ _
  case setDMin => unfold setDMin; repeat' split
                  all_goals first | exact .refl _ | exact .set _ _ _
  case setNClosest => unfold setNClosest; repeat' split
                      all_goals first | exact .refl _ | exact .set _ _ _
  case setCollisionBodies => unfold setCollisionBodies; repeat' split
                             all_goals first | exact .refl _ | exact .set _ _ _
  case updateModel => exact Or.inr (modified_updateModel _ _)
  case readMask => exact touched_ensureMask _
  case compile => exact (h rfl).elim

/-- The cache of an unmodified component is what its attributes compile to. -/
def CacheOK (c : Comp K) : Prop :=
  c.modified = false → ∃ m j, c.attrs.model = some m ∧ c.attrs.dim ≠ -1 ∧ c.cache = some j ∧
    c.attrs.mask.isSome ∧ vectorGain c.attrs = .ok j.vectorGain ∧ buildKind c.attrs = .ok j.kind ∧
    j.dim = c.attrs.dim ∧ j.model = m ∧ j.gainFn = c.attrs.gainFn ∧ j.maskIdxs = c.attrs.maskIdxs

theorem cacheOK_of_modified {c : Comp K} (h : c.modified = true) : CacheOK c := by
  intro h'; rw [h] at h'; cases h'

theorem CacheOK.touched {c c' : Comp K} (h : CacheOK c) (t : Touched c c') : CacheOK c' := by
  rcases t with rfl | t
  · exact h
  · exact cacheOK_of_modified t

/-- `ensureMask` fills the mask in and does not touch other attributes. -/
theorem ensureMask_ok {c c' : Comp K} (h : ensureMask c = (.ok (), c')) :
    c'.attrs.mask.isSome ∧ c'.attrs.dim = c.attrs.dim ∧ c'.attrs.model = c.attrs.model ∧
    c'.attrs.gain = c.attrs.gain ∧ c'.attrs.gainFn = c.attrs.gainFn ∧ c'.attrs.kind = c.attrs.kind ∧
    c'.attrs.name = c.attrs.name ∧
    ((c.attrs.mask.isSome ∧ c' = c) ∨
      (c.attrs.mask = none ∧ 0 ≤ c.attrs.dim ∧
        c' = c.set { c.attrs with mask := some (List.replicate c.attrs.dim.toNat 1),
                                  maskIdxs := List.range c.attrs.dim.toNat })) := by
  unfold ensureMask at h
  split at h
  · rename_i l hl
    cases h
    simp [hl]
  · rename_i hl
    split at h
    · cases h
    · split at h
      · cases h
      · rename_i n hn
        unfold sizeOf at hn
        split at hn
        · cases hn
        · cases hn
          cases h
          refine ⟨rfl, rfl, rfl, rfl, rfl, rfl, rfl, Or.inr ⟨hl, by omega, rfl⟩⟩

theorem ensureMask_err {c c' : Comp K} {e : Err} (h : ensureMask c = (.error e, c')) : c' = c := by
  unfold ensureMask at h
  split at h
  · cases h
  · split at h
    · cases h; rfl
    · split at h
      · cases h; rfl
      · cases h

theorem vectorGain_congr {a b : Attrs K} (h1 : a.dim = b.dim) (h2 : a.gain = b.gain) :
    vectorGain a = vectorGain b := by
  unfold vectorGain; rw [h1, h2]

theorem buildKind_congr {a b : Attrs K} (h1 : a.dim = b.dim) (h2 : a.kind = b.kind) :
    buildKind a = buildKind b := by
  unfold buildKind getDim; rw [h1, h2]

theorem cacheOK_compile (c : Comp K) (h : CacheOK c) : CacheOK (jaxComponent c).2 := by
  unfold jaxComponent
  split
  · exact h
  · rename_i m hm
    split
    · exact h
    · rename_i hd
      split
      · rename_i hmod
        unfold buildComponent
        split
        · rename_i e c' hb
          split at hb
          · cases hb; exact h
          · split at hb
            · rename_i e' c'' he
              cases hb
              rw [ensureMask_err he]; exact h
            · rename_i c'' he
              split at hb
              · cases hb
                exact h.touched (by have := touched_ensureMask c; rw [he] at this; exact this)
              · cases hb
        · rename_i j c' hb
          split at hb
          · cases hb
          · rename_i g hg
            split at hb
            · cases hb
            · rename_i c'' he
              obtain ⟨h1, h2, h3, h4, h5, h6, _, _⟩ := ensureMask_ok he
              split at hb
              · cases hb
              · rename_i k hk
                cases hb
                intro _
                refine ⟨m, _, by simpa [h3] using hm, by simpa [h2] using hd, rfl, h1,
                  (vectorGain_congr h2 h4).trans hg, hk, rfl, rfl, rfl, rfl⟩
      · split <;> exact h

theorem cacheOK_run (op : CompOp K) (c : Comp K) (h : CacheOK c) : CacheOK (op.run c).2 := by
  by_cases hc : op = .compile
  · subst hc
    exact cacheOK_compile c h
  · exact h.touched (touched_run op c (fun e => hc e))

end Mjinx
