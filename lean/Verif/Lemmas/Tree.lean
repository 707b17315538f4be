import Verif.Model.Data
import Verif.Spec.Tree
import Mathlib.Algebra.BigOperators.Ring.Finset
import Mathlib.Data.List.GetD
import Mathlib.Algebra.BigOperators.Group.Finset.Piecewise

/-! Accumulation over the body tree. -/

namespace Mjinx
open Spec Finset
set_option linter.unusedSectionVars false

/-- There is a chain of parents from `b` to `j` on which all bodies before `j` are above `k`. -/
inductive AncAbove (parent : List Nat) (k j : Nat) : Nat → Prop where
  | self : AncAbove parent k j j
  | step {b : Nat} : k < b → AncAbove parent k j (parent.getD b 0) → AncAbove parent k j b

theorem ancAbove_zero {parent : List Nat} {j b : Nat} : AncAbove parent 0 j b ↔ Anc parent j b := by
  constructor
  · intro h
    induction h with
    | self => exact .self
    | step h _ ih => exact .step (by omega) ih
  · intro h
    induction h with
    | self => exact .self
    | step h _ ih => exact .step (by omega) ih

theorem ancAbove_top {parent : List Nat} {k j b : Nat} (hb : b ≤ k) : AncAbove parent k j b ↔ b = j := by
  constructor
  · intro h
    cases h with
    | self => rfl
    | step h _ => omega
  · rintro rfl; exact .self

theorem ancAbove_unique {parent : List Nat} {k j j' b : Nat} (h : AncAbove parent k j b) (hj : j ≤ k)
    (h' : AncAbove parent k j' b) (hj' : j' ≤ k) : j = j' := by
  induction h with
  | self => cases h' with
    | self => rfl
    | step h _ => omega
  | step hk _ ih => cases h' with
    | self => omega
    | step _ h' => exact ih h'

theorem ancAbove_mono {parent : List Nat} {k j b : Nat} (h : AncAbove parent (k + 1) j b) : AncAbove parent k j b := by
  induction h with
  | self => exact .self
  | step hk _ ih => exact .step (by omega) ih

theorem ancAbove_succ {parent : List Nat} {k j b : Nat} (hp : parent.getD (k + 1) 0 < k + 1) :
    AncAbove parent k j b ↔
      AncAbove parent (k + 1) j b ∨ (j = parent.getD (k + 1) 0 ∧ AncAbove parent (k + 1) (k + 1) b) := by
  constructor
  · intro h
    induction h with
    | self => exact .inl .self
    | @step b hk hr ih =>
      by_cases hb : b = k + 1
      · subst hb
        right
        refine ⟨?_, .self⟩
        cases hr with
        | self => rfl
        | step h _ => omega
      · rcases ih with ih | ⟨h1, h2⟩
        · exact .inl (.step (by omega) ih)
        · exact .inr ⟨h1, .step (by omega) h2⟩
  · rintro (h | ⟨rfl, h⟩)
    · exact ancAbove_mono h
    · have h' := ancAbove_mono h
      clear h
      induction h' with
      | self => exact .step (by omega) .self
      | step hk _ ih => exact .step hk ih

section
open Classical
variable {α : Type} [AddCommMonoid α]

theorem bodyTreeSum_spec (parent : List Nat) (n : Nat) (hp : ∀ i, 0 < i → i < n → parent.getD i 0 < i)
    (f : Nat → α) : ∀ (k : Nat) (x : List α), k < n → x.length = n →
    (∀ j < n, x.getD j 0 = ∑ b ∈ range n, if AncAbove parent k j b then f b else 0) →
    (bodyTreeSum parent k x).length = n ∧
      ∀ j < n, (bodyTreeSum parent k x).getD j 0 = ∑ b ∈ range n, if Anc parent j b then f b else 0
  | 0, x, _, hl, h => by
    refine ⟨hl, fun j hj => ?_⟩
    simp only [bodyTreeSum, h j hj, ancAbove_zero]
  | k + 1, x, hk, hl, h => by
    have hpk := hp (k + 1) (by omega) hk
    simp only [bodyTreeSum]
    apply bodyTreeSum_spec parent n hp f k _ (by omega) (by simpa using hl)
    intro j hj
    rw [List.getD_eq_getElem _ _ (by simpa [hl] using hj), List.getElem_set]
    split
    · rename_i hpj
      rw [h _ (by omega), h _ hk, ← sum_add_distrib]
      apply sum_congr rfl
      intro b _
      subst hpj
      by_cases h1 : AncAbove parent (k + 1) (parent.getD (k + 1) 0) b
      · have h2 : ¬ AncAbove parent (k + 1) (k + 1) b := fun h2 => by
          have := ancAbove_unique h1 (by omega) h2 (by omega); omega
        rw [if_pos h1, if_neg h2, add_zero, if_pos ((ancAbove_succ hpk).2 (.inl h1))]
      · by_cases h2 : AncAbove parent (k + 1) (k + 1) b
        · rw [if_neg h1, if_pos h2, zero_add, if_pos ((ancAbove_succ hpk).2 (.inr ⟨rfl, h2⟩))]
        · rw [if_neg h1, if_neg h2, zero_add, if_neg (fun h => ?_)]
          rcases (ancAbove_succ hpk).1 h with h | ⟨_, h⟩
          · exact h1 h
          · exact h2 h
    · rename_i hpj
      rw [← List.getD_eq_getElem _ 0 (by omega), h _ hj]
      apply sum_congr rfl
      intro b _
      have : AncAbove parent k j b ↔ AncAbove parent (k + 1) j b := by
        rw [ancAbove_succ hpk]
        constructor
        · rintro (h | ⟨h, _⟩)
          · exact h
          · exact absurd h.symm hpj
        · exact .inl
      simp only [this]

/-- Summing over the tree gives each body the sum over its subtree. -/
theorem treeSum {parent : List Nat} {n : Nat} (hn : 0 < n) (hp : ∀ i, 0 < i → i < n → parent.getD i 0 < i)
    (x : List α) (hl : x.length = n) :
    (bodyTreeSum parent (n - 1) x).length = n ∧
      ∀ j < n, (bodyTreeSum parent (n - 1) x).getD j 0 = ∑ b ∈ range n, if Anc parent j b then x.getD b 0 else 0 := by
  apply bodyTreeSum_spec parent n hp (fun b => x.getD b 0) (n - 1) x (by omega) hl
  intro j hj
  have : ∀ b ∈ range n, (if AncAbove parent (n - 1) j b then x.getD b 0 else 0) = if b = j then x.getD b 0 else 0 := by
    intro b hb
    rw [mem_range] at hb
    simp only [ancAbove_top (show b ≤ n - 1 by omega)]
  rw [sum_congr rfl this, sum_ite_eq' (range n) j, if_pos (mem_range.2 hj)]

theorem anc_zero {parent : List Nat} {n : Nat} (hp : ∀ i, 0 < i → i < n → parent.getD i 0 < i) :
    ∀ b < n, Anc parent 0 b := by
  intro b
  induction b using Nat.strong_induction_on with
  | _ b ih =>
    intro hb
    by_cases h0 : b = 0
    · subst h0; exact .self
    · have := hp b (by omega) hb
      exact .step h0 (ih _ this (by omega))

end

theorem npGet_some {α : Type} {l : List α} {i : Nat} {x : α} (h : l[i]? = some x) : npGet l (i : Int) = .ok x := by
  have h0 : ¬ (i : Int) < 0 := by omega
  simp only [npGet, if_neg h0, Int.toNat_natCast, h]

theorem jnpGet_some {α : Type} {l : List α} {i : Nat} {x : α} (h : l[i]? = some x) : jnpGet l (i : Int) = .ok x := by
  have h0 : ¬ ((i : Int) < 0) := by omega
  have hl : i < l.length := (List.getElem?_eq_some_iff.1 h).1
  have hm : min i (l.length - 1) = i := by omega
  simp only [jnpGet, if_neg h0, Int.toNat_natCast, hm, h]

theorem npGet_nat {α : Type} {l : List α} {i : Nat} {x : α} (h : npGet l (i : Int) = .ok x) : l[i]? = some x := by
  cases hl : l[i]? with
  | none =>
    have h0 : ¬ (i : Int) < 0 := by omega
    simp only [npGet, if_neg h0, Int.toNat_natCast, hl] at h
    cases h
  | some y => rw [npGet_some hl] at h; injection h with h; rw [h]

variable {K : Type} [Field K] [LinearOrder K]

theorem dofMask_length (m : MjModel K) (b : Int) : (dofMask m b).length = m.dofBodyid.length := by
  simp [dofMask]

open Classical in
/-- The mask marks exactly the degrees of freedom of ancestors. -/
theorem dofMask_iff {m : MjModel K} (hw : TreeWF m) (b : Nat) (hb : b < m.nbody) (k : Nat)
    (hk : k < m.dofBodyid.length) :
    (dofMask m b).getD k false = true ↔ Anc m.bodyParentid (m.dofBodyid.getD k 0) b := by
  have hd : m.dofBodyid.getD k 0 < m.nbody := by
    rw [List.getD_eq_getElem _ _ hk]; exact hw.dof _ (List.getElem_mem hk)
  obtain ⟨_, h⟩ := treeSum hw.pos hw.parent
    ((List.range m.nbody).map (fun (i : Nat) => if (i : Int) = (b : Int) then (1 : Int) else 0)) (by simp)
  have e : (dofMask m b).getD k false = decide ((bodyTreeSum m.bodyParentid (m.nbody - 1)
    ((List.range m.nbody).map (fun (i : Nat) => if (i : Int) = (b : Int) then (1 : Int) else 0))).getD
      (m.dofBodyid.getD k 0) 0 > 0) := by
    rw [List.getD_eq_getElem _ _ (by rw [dofMask_length]; exact hk), List.getD_eq_getElem (m.dofBodyid) _ hk]
    simp [dofMask]
  rw [e, h _ hd, decide_eq_true_iff]
  have : ∀ i ∈ range m.nbody, (if Anc m.bodyParentid (m.dofBodyid.getD k 0) i then
      ((List.range m.nbody).map (fun (i : Nat) => if (i : Int) = (b : Int) then (1 : Int) else 0)).getD i 0 else 0) =
      if i = b then (if Anc m.bodyParentid (m.dofBodyid.getD k 0) b then (1 : Int) else 0) else 0 := by
    intro i hi
    rw [mem_range] at hi
    have e2 : ((List.range m.nbody).map (fun (i : Nat) => if (i : Int) = (b : Int) then (1 : Int) else 0)).getD i 0 =
        if (i : Int) = (b : Int) then (1 : Int) else 0 := by
      rw [List.getD_eq_getElem _ _ (by simpa using hi)]
      simp only [List.getElem_map, List.getElem_range]
    rw [e2]
    by_cases hib : i = b
    · subst hib; simp
    · rw [if_neg hib, if_neg (show ¬ (i : Int) = (b : Int) by exact_mod_cast hib), ite_self]
  rw [sum_congr rfl this, sum_ite_eq' (range m.nbody) b, if_pos (mem_range.2 hb)]
  by_cases ha : Anc m.bodyParentid (m.dofBodyid.getD k 0) b
  · rw [if_pos ha]; exact ⟨fun _ => ha, fun _ => by decide⟩
  · rw [if_neg ha]; exact ⟨fun h => absurd h (by decide), fun h => absurd h ha⟩

end Mjinx
