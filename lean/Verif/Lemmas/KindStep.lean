import Verif.Lemmas.New
import Verif.Lemmas.Kind
import Verif.Lemmas.World

/-! # What calls other than model updates do to the class-specific attributes -/

namespace Mjinx
variable {K : Type} [Field K] [LinearOrder K]
set_option linter.unusedSectionVars false

/-- The possible class-specific attributes after a call that is not a model update. -/
inductive KindStep (a : Attrs K) : Kind K → Prop where
  | same : KindStep a a.kind
  | taskA (t : TaskA K) : KindStep a (a.kind.setTaskA t)
  | sdg (s : K) : KindStep a (a.kind.setSdg s)
  | com {t y} (x : Arr K) (n : Nat) : a.kind = .comTask t y → x.lastDim = .ok n → (n : Int) = a.dim →
      KindStep a (.comTask t x)
  | pos {t o y} (x : Arr K) (n : Nat) : a.kind = .positionTask t o y → x.lastDim = .ok n → (n : Int) = a.dim →
      KindStep a (.positionTask t o x)
  | joint {t fm y qi} (x : Arr K) : a.kind = .jointTask t fm y qi →
      (a.dim = -1 ∨ ∃ n : Nat, x.lastDim = .ok n ∧ (n : Int) = a.dim) → KindStep a (.jointTask t fm (some x) qi)
  | frame {t o y} (x : Arr K) : a.kind = .frameTask t o y → KindStep a (.frameTask t o x)
  | qlim {s fm lo hi qi} (lo' hi' : Option (Arr K)) : a.kind = .jointBarrier s fm lo hi qi →
      ((hi' = hi ∧ ∃ x, lo' = some x ∧ ∃ n : Nat, x.lastDim = .ok n ∧ (n : Int) = a.dim / 2) ∨
       (lo' = lo ∧ ∃ x, hi' = some x ∧ ∃ n : Nat, x.lastDim = .ok n ∧ (n : Int) = a.dim / 2)) →
      KindStep a (.jointBarrier s fm lo' hi' qi)
  | pmin {s o lo hi lt li} (x p : Arr K) : a.kind = .positionBarrier s o lo hi lt li →
      newPositionBound lt.includesMin a.maskIdxs.length x = .ok (some p) →
      KindStep a (.positionBarrier s o p hi lt li)
  | pmax {s o lo hi lt li} (x p : Arr K) : a.kind = .positionBarrier s o lo hi lt li →
      newPositionBound lt.includesMax a.maskIdxs.length x = .ok (some p) →
      KindStep a (.positionBarrier s o lo p lt li)
  | eqc {ac h s} (ac' h' : Bool) : a.kind = .modelEquality ac h s → KindStep a (.modelEquality ac' h' s)
  | coll {s d b e n p} (d' : K) (b' : List CollisionBody) (n' : Int) : a.kind = .selfCollision s d b e n p →
      KindStep a (.selfCollision s d' b' e n' p)

theorem run_kindStep (op : CompOp K) (c : Comp K) (h : ∀ m, op ≠ .updateModel m) :
    KindStep c.attrs (op.run c).2.attrs.kind := by
  cases op <;> simp only [CompOp.run]
  case updateGain => unfold updateGain; split <;> exact .same
  case updateCost =>
    unfold updateCost; repeat' split
    all_goals first | exact .same | exact .taskA _
  case setLmDamping =>
    unfold setLmDamping; split
    all_goals first | exact .same | exact .taskA _
  case setSafeDisplacementGain =>
    unfold setSafeDisplacementGain; split
    all_goals first | exact .same | exact .sdg _
  case updateTarget x =>
    unfold updateTarget
    split
    · rename_i t y hk
      split
      · exact .same
      · rename_i n hn
        split
        · exact .same
        · rename_i hd; exact .com x n hk hn (by simpa using hd)
    · rename_i t o y hk
      split
      · exact .same
      · rename_i n hn
        split
        · exact .same
        · rename_i hd; exact .pos x n hk hn (by simpa using hd)
    · rename_i t fm y qi hk
      split
      · rename_i hd; exact .joint x hk (.inl hd)
      · split
        · exact .same
        · rename_i n hn
          split
          · exact .same
          · rename_i hd; exact .joint x hk (.inr ⟨n, hn, by simpa using hd⟩)
    · exact .same
  case updateTargetFrame x =>
    unfold updateTargetFrame
    split
    · rename_i t o y hk
      split
      · exact .frame _ hk
      · split
        · exact .same
        · split
          · exact .same
          · exact .frame _ hk
    · exact .same
  case updateQLimit u x =>
    unfold updateQLimit
    split
    · rename_i s fm lo hi qi hk
      split
      · exact .same
      · rename_i n hn
        split
        · exact .same
        · rename_i d hd
          unfold getDim at hd
          split at hd
          · cases hd
          cases hd
          split
          · exact .same
          · rename_i hne
            have hne' : (n : Int) = c.attrs.dim / 2 := by simpa using hne
            split
            · exact .qlim _ _ hk (.inr ⟨rfl, x, rfl, n, hn, hne'⟩)
            · exact .qlim _ _ hk (.inl ⟨rfl, x, rfl, n, hn, hne'⟩)
    · exact .same
  case updatePLimit u x =>
    unfold updatePLimit
    split
    · rename_i s o lo hi lt li hk
      split
      · exact .same
      · exact .same
      · rename_i p hp
        cases u
        · exact .pmin x p hk hp
        · exact .pmax x p hk hp
    · exact .same
  case setActive => unfold setActive; split <;> first | exact .same | (rename_i hk; exact .eqc _ _ hk)
  case setHard => unfold setHard; split <;> first | exact .same | (rename_i hk; exact .eqc _ _ hk)
  case setDMin => unfold setDMin; split <;> first | exact .same | (rename_i hk; exact .coll _ _ _ hk)
  case setNClosest => unfold setNClosest; split <;> first | exact .same | (rename_i hk; exact .coll _ _ _ hk)
  case setCollisionBodies =>
    unfold setCollisionBodies; split <;> first | exact .same | (rename_i hk; exact .coll _ _ _ hk)
  case updateModel => exact (h _ rfl).elim
  case readMask => rcases maskFill_ensureMask c with h | ⟨_, _, h⟩ <;> rw [h] <;> exact .same
  case compile => rcases maskFill_jaxComponent c with h | ⟨_, _, h⟩ <;> rw [h] <;> exact .same

/-- Dimension, model and mask after a call that is not a model update. -/
theorem run_dim (op : CompOp K) (c : Comp K) (h : ∀ m, op ≠ .updateModel m) :
    (op.run c).2.attrs.dim = c.attrs.dim := by
  by_cases h' : op.isSetter
  · exact (setter_frame op c h').2.2.2.1
  · cases op <;> simp only [CompOp.isSetter, not_true_eq_false] at h' <;> simp only [CompOp.run]
    · exact (h _ rfl).elim
    · rcases maskFill_ensureMask c with h | ⟨_, _, h⟩ <;> rw [h]
    · rcases maskFill_jaxComponent c with h | ⟨_, _, h⟩ <;> rw [h]

theorem run_mask (op : CompOp K) (c : Comp K) (h : ∀ m, op ≠ .updateModel m) :
    ((op.run c).2.attrs.mask = c.attrs.mask ∧ (op.run c).2.attrs.maskIdxs = c.attrs.maskIdxs) ∨
    (c.attrs.mask = none ∧ (op.run c).2.attrs.mask = some (List.replicate c.attrs.dim.toNat 1) ∧
      (op.run c).2.attrs.maskIdxs = List.range c.attrs.dim.toNat) := by
  have key : ∀ {c' : Comp K}, MaskFill c.attrs c'.attrs →
      (c'.attrs.mask = c.attrs.mask ∧ c'.attrs.maskIdxs = c.attrs.maskIdxs) ∨
      (c.attrs.mask = none ∧ c'.attrs.mask = some (List.replicate c.attrs.dim.toNat 1) ∧
      c'.attrs.maskIdxs = List.range c.attrs.dim.toNat) := by
    intro c' h
    rcases h with h | ⟨h0, _, h⟩
    · rw [h]; exact .inl ⟨rfl, rfl⟩
    · rw [h]; exact .inr ⟨h0, rfl, rfl⟩
  by_cases h' : op.isSetter
  · obtain ⟨-, -, -, -, h5, h6⟩ := setter_frame op c h'
    exact .inl ⟨h5, h6⟩
  · cases op <;> simp only [CompOp.isSetter, not_true_eq_false] at h' <;> simp only [CompOp.run]
    · exact (h _ rfl).elim
    · exact key (maskFill_ensureMask c)
    · exact key (maskFill_jaxComponent c)

end Mjinx
