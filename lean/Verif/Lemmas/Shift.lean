import Verif.Spec.Priority
import Verif.Lemmas.Structure
import Verif.Lemmas.Pipeline

/-! # Values and Jacobians of tasks whose target is moved -/

namespace Mjinx
open Spec Structure
variable {K : Type} [Field K] [LinearOrder K]
set_option linter.unusedSectionVars false

/-- Compiled tasks that differ in the target, and perhaps in cost, damping and gain, only. -/
def Moved (x x' : Arr K) (j j' : JaxComp K) : Prop :=
  j'.model = j.model ∧ j'.dim = j.dim ∧ j'.maskIdxs = j.maskIdxs ∧
  match j.kind, j'.kind with
  | .comTask _ _ y, .comTask _ _ y' => y = x ∧ y' = x'
  | .jointTask _ _ y qi, .jointTask _ _ y' qi' => y = x ∧ y' = x' ∧ qi' = qi
  | .positionTask _ _ i ty y, .positionTask _ _ i' ty' y' => y = x ∧ y' = x' ∧ i' = i ∧ ty' = ty
  | _, _ => False

/-- What the target is subtracted from. -/
def tracked (j : JaxComp K) (d : MjData K) : Except Err (Vec K) :=
  match j.kind with
  | .comTask .. => do
    let root ← npGet j.model.bodyRootid 0
    let com ← jnpGet d.subtreeCom root
    return (vec3 com).gather j.maskIdxs
  | .jointTask _ _ _ qi => .ok (d.qpos.gather qi)
  | .positionTask _ _ i ty _ => do
    let p ← objPos d ty i
    return (vec3 p).gather j.maskIdxs
  | _ => .error .indexError

/-- How many entries that has. -/
def trackedLen (j : JaxComp K) : Nat :=
  match j.kind with
  | .jointTask _ _ _ qi => qi.length
  | _ => j.maskIdxs.length

/-- The difference of the targets, broadcast. -/
def shift (n m : Nat) (x x' : Arr K) (i : Nat) : K :=
  if n = m ∨ n = 1 then x.get [i] - x'.get [i] else x.get [0] - x'.get [0]

theorem operand_of_shape {x : Arr K} {m : Nat} (h : x.shape = [m]) : x.operand = .ok ⟨m, fun i => x.get [i]⟩ := by
  unfold Arr.operand; rw [h]

variable {x x' : Arr K} {m : Nat} {j j' : JaxComp K}

theorem moved_value (h : Moved x x' j j') (hx : x.shape = [m]) (hx' : x'.shape = [m]) (env : Env K) (d : MjData K) :
    evalValue env j d = (tracked j d >>= fun a => subVec a ⟨m, fun i => x.get [i]⟩) ∧
      evalValue env j' d = (tracked j d >>= fun a => subVec a ⟨m, fun i => x'.get [i]⟩) := by
  obtain ⟨h1, -, h3, h⟩ := h
  unfold evalValue tracked
  cases e : j.kind <;> cases e' : j'.kind <;> simp only [e, e'] at h <;> dsimp only
  · obtain ⟨rfl, rfl⟩ := h
    simp only [operand_of_shape hx, operand_of_shape hx', h1, h3, bind, Except.bind]
    constructor <;> (cases npGet j.model.bodyRootid 0 with
      | error => rfl
      | ok r => dsimp only; cases jnpGet d.subtreeCom r <;> rfl)
  · obtain ⟨rfl, rfl, rfl⟩ := h
    simp only [operand_of_shape hx, operand_of_shape hx', bind, Except.bind]
    exact ⟨trivial, trivial⟩
  · obtain ⟨rfl, rfl, rfl, rfl⟩ := h
    simp only [operand_of_shape hx, operand_of_shape hx', h3, bind, Except.bind]
    constructor <;> (cases objPos d _ _ <;> rfl)

theorem tracked_len {d : MjData K} {a : Vec K} (h : tracked j d = .ok a) : a.len = trackedLen j := by
  unfold tracked at h
  unfold trackedLen
  cases e : j.kind <;> rw [e] at h <;> dsimp only at h ⊢
  · obtain ⟨r, -, h⟩ := Except.bind_eq_ok h
    obtain ⟨p, -, h⟩ := Except.bind_eq_ok h
    cases h; rfl
  · cases h; rfl
  · obtain ⟨p, -, h⟩ := Except.bind_eq_ok h
    cases h; rfl
  all_goals cases h

private theorem jnpGet_fixed {α : Type} {l l' : List α} (h : l.length = l'.length) {i : Int} {a : α} (ha : jnpGet l i = .ok a) : ∃ b, jnpGet l' i = .ok b := by
  rcases alike_jnpGet h i i with ⟨_, b, _, hb, _⟩ | ⟨e, he, _⟩ | he | he
  · exact ⟨b, hb⟩
  · rw [ha] at he; cases he
  · rw [ha] at he; cases he
  · unfold jnpGet at he
    dsimp only at he
    split at he <;> cases he

theorem tracked_fixed {d d' : MjData K} (hd : SameSizes d d') {a : Vec K} (h : tracked j d = .ok a) : ∃ b, tracked j d' = .ok b := by
  unfold tracked at h ⊢
  cases e : j.kind <;> rw [e] at h <;> dsimp only at h ⊢
  · obtain ⟨r, hr, h⟩ := Except.bind_eq_ok h
    obtain ⟨p, hp, h⟩ := Except.bind_eq_ok h
    obtain ⟨b, hb⟩ := jnpGet_fixed hd.subtreeCom hp
    simp only [hr, bind, Except.bind, hb]
    exact ⟨_, rfl⟩
  · exact ⟨_, rfl⟩
  · obtain ⟨p, hp, h⟩ := Except.bind_eq_ok h
    have : ∃ b, objPos d' ‹_› ‹_› = .ok b := by
      unfold objPos at hp ⊢
      split at hp
      · exact jnpGet_fixed hd.geomXpos hp
      · exact jnpGet_fixed hd.siteXpos hp
      · exact jnpGet_fixed hd.xpos hp
    obtain ⟨b, hb⟩ := this
    simp only [bind, Except.bind, hb]
    exact ⟨_, rfl⟩
  all_goals cases h

theorem sub_shift {a V : Vec K} (h : subVec a ⟨m, fun i => x.get [i]⟩ = .ok V) :
    ∃ V', subVec a ⟨m, fun i => x'.get [i]⟩ = .ok V' ∧ V'.len = V.len ∧ ∀ i, V'.get i = V.get i + shift a.len m x x' i := by
  unfold subVec Vec.zip at h ⊢
  unfold shift
  dsimp only at h ⊢
  split_ifs at h ⊢ with h1 h2 h3 <;> simp_all <;> subst h <;> simp

theorem sub_len {a b V : Vec K} (h : subVec a b = .ok V) : V.len = (if a.len = b.len then a.len else if a.len = 1 then b.len else a.len) := by
  unfold subVec Vec.zip at h
  split_ifs at h with h1 h2 h3 <;> cases h
  · rw [if_pos h1]
  · rw [if_neg h1, if_pos h2]
  · rw [if_neg h1, if_neg h2]

/-- The values differ by the difference of the targets. -/
theorem moved_shift (h : Moved x x' j j') (hx : x.shape = [m]) (hx' : x'.shape = [m]) {env : Env K} {d : MjData K} {V : Vec K} (hV : evalValue env j d = .ok V) :
    ∃ V', evalValue env j' d = .ok V' ∧ V'.len = V.len ∧ ∀ i, V'.get i = V.get i + shift (trackedLen j) m x x' i := by
  obtain ⟨e1, e2⟩ := moved_value h hx hx' env d
  rw [e1] at hV
  obtain ⟨a, ha, hV⟩ := Except.bind_eq_ok hV
  obtain ⟨V', h1, h2, h3⟩ := sub_shift (x' := x') hV
  refine ⟨V', ?_, h2, ?_⟩
  · rw [e2, ha]; exact h1
  · rw [← tracked_len ha]; exact h3

/-- If there is one entry per entry of the target, entry by entry. -/
theorem moved_entries (h : Moved x x' j j') (hx : x.shape = [m]) (hx' : x'.shape = [m]) {env : Env K} {d : MjData K} {V V' : Vec K} (hV : evalValue env j d = .ok V)
    (hV' : evalValue env j' d = .ok V') (hm : V.len = m) (i : Nat) : V'.get i = V.get i + (x.get [i] - x'.get [i]) := by
  obtain ⟨W, e1, -, e3⟩ := moved_shift h hx hx' hV
  obtain rfl := Except.ok.inj (hV'.symm.trans e1)
  rw [e3]
  congr 1
  obtain ⟨f1, -⟩ := moved_value h hx hx' env d
  rw [f1] at hV
  obtain ⟨a, ha, hV⟩ := Except.bind_eq_ok hV
  have hl := sub_len hV
  rw [tracked_len ha, hm] at hl
  dsimp only at hl
  unfold shift
  rw [if_pos]
  split_ifs at hl <;> tauto

/-- The values have the same length at all data of the same sizes. -/
theorem moved_fixed (h : Moved x x' j j') (hx : x.shape = [m]) (hx' : x'.shape = [m]) {env : Env K} {d d' : MjData K} (hd : SameSizes d d') {V : Vec K}
    (hV : evalValue env j d = .ok V) : ∃ V', evalValue env j d' = .ok V' ∧ V'.len = V.len := by
  have e1 := (moved_value h hx hx' env d).1
  have e2 := (moved_value h hx hx' env d').1
  rw [e1] at hV
  obtain ⟨a, ha, hV⟩ := Except.bind_eq_ok hV
  obtain ⟨b, hb⟩ := tracked_fixed hd ha
  have hl : a.len = b.len := (tracked_len ha).trans (tracked_len hb).symm
  have : ∃ V', subVec b ⟨m, fun i => x.get [i]⟩ = .ok V' ∧ V'.len = V.len := by
    unfold subVec Vec.zip at hV ⊢
    rw [← hl]
    split_ifs at hV ⊢ <;> cases hV <;> exact ⟨_, rfl, rfl⟩
  obtain ⟨V', h1, h2⟩ := this
  exact ⟨V', by rw [e2, hb]; exact h1, h2⟩

/-- The Jacobians are the same. -/
theorem moved_jacobian (h : Moved x x' j j') (hx : x.shape = [m]) (hx' : x'.shape = [m]) {env : Env K} (hf : FixedSizes env j.model) (hc : ForgetsConstants env)
    {d : MjData K} {A A' : Mat K} (hA : evalJacobian env j d = .ok A) (hA' : evalJacobian env j' d = .ok A') : A' = A := by
  have hauto : ∀ com, autoJacobian env j d com = .ok A → autoJacobian env j' d com = .ok A' → A' = A := by
    intro com h1 h2
    unfold autoJacobian at h1 h2
    obtain ⟨V, hV, h1⟩ := Except.bind_eq_ok h1
    obtain ⟨V', hV', h2⟩ := Except.bind_eq_ok h2
    rw [h.1] at hV' h2
    have hs : ∀ q : Vec K, q.len = d.qpos.len → SameSizes (if com then comUpdate env j.model d.qpos else env.kinematics j.model d.qpos)
        (if com then comUpdate env j.model q else env.kinematics j.model q) := by
      intro q hq
      split_ifs
      · exact comUpdate_sizes hf hq.symm
      · exact hf.kinematics _ _ hq.symm
    have hj := hc (fun q => ((evalValue env j (if com then comUpdate env j.model q else env.kinematics j.model q)).toOption).getD (Vec.zero 0))
      (fun q => ((evalValue env j' (if com then comUpdate env j.model q else env.kinematics j.model q)).toOption).getD (Vec.zero 0)) d.qpos (shift (trackedLen j) m x x') (by
        intro q hq
        obtain ⟨W, w1, w2⟩ := moved_fixed h hx hx' (hs q hq) hV
        obtain ⟨W', w3, w4, w5⟩ := moved_shift h hx hx' w1
        dsimp only at hV
        simp only [w1, w3, hV, Except.toOption, Option.getD_some]
        exact ⟨w2, w4.trans w2, w5⟩)
    dsimp only at h1 h2
    rw [hj, h1] at h2
    exact (Except.ok.inj h2).symm
  have hk := h.2.2.2
  unfold evalJacobian at hA hA'
  cases e : j.kind <;> cases e' : j'.kind <;> simp only [e, e'] at hk <;> simp only [e] at hA <;> simp only [e'] at hA'
  · exact hauto true hA hA'
  · rw [h.1, h.2.1, h.2.2.1, hA] at hA'
    exact (Except.ok.inj hA').symm
  · exact hauto false hA hA'

end Mjinx
