import Verif.Lemmas.Frame
import Verif.Spec.Problem

/-! Helper lemmas about problems. -/

set_option linter.unusedSectionVars false

namespace Mjinx
variable {K : Type} [Field K] [LinearOrder K]
open Spec

theorem dictGet_none_iff {β : Type} (l : List (String × β)) (k : String) :
    dictGet l k = none ↔ ∀ v, (k, v) ∉ l := by
  induction l with
  | nil => simp [dictGet]
  | cons x rest ih =>
    obtain ⟨k', v'⟩ := x
    by_cases h : k' = k
    · subst h
      simp only [dictGet, if_true, reduceCtorEq, false_iff]
      intro hh
      exact hh v' (List.mem_cons_self ..)
    · simp only [dictGet, h, if_false, ih]
      constructor
      · intro hh v hv
        rcases List.mem_cons.1 hv with h1 | h1
        · cases h1; exact h rfl
        · exact hh v h1
      · intro hh v hv; exact hh v (List.mem_cons_of_mem _ hv)

theorem dictGet_append {β : Type} (l r : List (String × β)) (k : String) :
    dictGet (l ++ r) k = (dictGet l k).or (dictGet r k) := by
  induction l with
  | nil => rfl
  | cons x rest ih =>
    obtain ⟨k', v'⟩ := x
    by_cases h : k' = k <;> simp [dictGet, h, ih]

theorem dictGet_filter {β : Type} (l : List (String × β)) (k n : String) :
    dictGet (l.filter (fun kv => kv.1 ≠ n)) k = if n = k then none else dictGet l k := by
  induction l with
  | nil => simp [dictGet]
  | cons x rest ih =>
    obtain ⟨k', v'⟩ := x
    by_cases h1 : k' = n
    · subst h1
      rw [List.filter_cons]
      simp only [ne_eq, not_true_eq_false, decide_false, Bool.false_eq_true, if_false]
      rw [show (rest.filter fun kv => decide ¬kv.1 = k') = rest.filter (fun kv => kv.1 ≠ k') from rfl, ih]
      by_cases h2 : k' = k <;> simp [dictGet, h2]
    · rw [List.filter_cons]
      simp only [ne_eq, h1, not_false_eq_true, decide_true, if_true, dictGet]
      rw [show (rest.filter fun kv => decide ¬kv.1 = n) = rest.filter (fun kv => kv.1 ≠ n) from rfl, ih]
      by_cases h2 : k' = k
      · subst h2; simp [Ne.symm h1]
      · simp [h2]

theorem dictGet_mem {β : Type} {l : List (String × β)} {k : String} {v : β} (h : dictGet l k = some v) :
    (k, v) ∈ l := by
  induction l with
  | nil => cases h
  | cons x rest ih =>
    obtain ⟨k', v'⟩ := x
    by_cases h' : k' = k
    · subst h'; simp only [dictGet, if_true, Option.some.injEq] at h; subst h; exact List.mem_cons_self ..
    · simp only [dictGet, h', if_false] at h; exact List.mem_cons_of_mem _ (ih h)

/-- The observable outcome of `add_component`. -/
theorem addComponent_cases (P : Prob K) (i : Nat) (c : Comp K) :
    (∃ e, (P.addComponent i c).1 = .error e ∧ (P.addComponent i c).2.1 = P) ∨
    ((P.addComponent i c).1 = .ok () ∧ dictGet P.comps c.attrs.name = none ∧
      (P.addComponent i c).2.1 = { P with comps := P.comps ++ [(c.attrs.name, i)] }) := by
  unfold Prob.addComponent
  split
  · exact Or.inl ⟨_, rfl, rfl⟩
  · rename_i hd
    split
    · exact Or.inl ⟨_, rfl, rfl⟩
    · rename_i h
      have hn := (updateModel_frame P.model c).1
      rw [h] at hn
      refine Or.inr ⟨rfl, hd, ?_⟩
      simp only at hn ⊢
      rw [hn]

theorem set_self {α : Type} {l : List α} {i : Nat} {x : α} (h : l[i]? = some x) : l.set i x = l := by
  apply List.ext_getElem?
  intro k
  by_cases hk : i = k
  · subst hk
    have := (List.getElem?_eq_some_iff.1 h).1
    simp [this]
    exact (List.getElem?_eq_some_iff.1 h).2.symm
  · simp [hk]

/-- The problems after a call. -/
theorem step_probs (w : World K) (op : Op K) :
    (step w op).2.probs = match op with
      | .newProblem m lo hi => match newProb m lo hi with
        | .error _ => w.probs
        | .ok P => w.probs ++ [P]
      | .updateVMin p v => match w.probs[p]? with
        | none => w.probs
        | some P => w.probs.set p (P.updateVMin v).2
      | .updateVMax p v => match w.probs[p]? with
        | none => w.probs
        | some P => w.probs.set p (P.updateVMax v).2
      | .add p i => match w.probs[p]?, w.comps[i]? with
        | some P, some c => w.probs.set p (P.addComponent i c).2.1
        | _, _ => w.probs
      | .remove p name => match w.probs[p]? with
        | none => w.probs
        | some P => w.probs.set p (P.removeComponent name)
      | _ => w.probs := by
  cases op with
  | newComp n => simp only [step]; cases n.run <;> rfl
  | comp i op => simp only [step]; cases w.comps[i]? <;> rfl
  | newProblem m lo hi => simp only [step]; cases newProb m lo hi <;> rfl
  | updateVMin p v => simp only [step]; cases w.probs[p]? <;> rfl
  | updateVMax p v => simp only [step]; cases w.probs[p]? <;> rfl
  | add p i => simp only [step]; cases w.probs[p]? <;> cases w.comps[i]? <;> rfl
  | remove p name => simp only [step]; cases w.probs[p]? <;> rfl
  | compile p => simp only [step]; cases w.probs[p]? <;> rfl
  | component p name => simp only [step]; cases w.probs[p]? <;> rfl
  | task p name => simp only [step]; cases w.probs[p]? <;> rfl
  | barrier p name => simp only [step]; cases w.probs[p]? <;> rfl

theorem updateVMin_comps (P : Prob K) (v : Arr K) : (P.updateVMin v).2.comps = P.comps := by
  unfold Prob.updateVMin; split <;> rfl
theorem updateVMax_comps (P : Prob K) (v : Arr K) : (P.updateVMax v).2.comps = P.comps := by
  unfold Prob.updateVMax; split <;> rfl

theorem getElem?_set_some {α : Type} {l : List α} {i k : Nat} {x y z : α} (hi : l[i]? = some x)
    (h : (l.set i y)[k]? = some z) : (k = i ∧ z = y) ∨ (k ≠ i ∧ l[k]? = some z) := by
  have hlt := (List.getElem?_eq_some_iff.1 hi).1
  by_cases hk : i = k
  · subst hk; simp [hlt] at h; exact Or.inl ⟨rfl, h.symm⟩
  · simp [hk] at h
    exact Or.inr ⟨fun e => hk e.symm, h⟩

/-- Generic invariant rule: a property of (index, component list, model, limits). -/
theorem newProb_comps {m : MjModel K} {lo hi : Arr K} {P : Prob K} (h : newProb m lo hi = .ok P) :
    P.comps = [] ∧ P.model = m ∧ expandVel m.nv lo = .ok P.vMin ∧ expandVel m.nv hi = .ok P.vMax := by
  unfold newProb at h
  split at h
  · cases h
  · rename_i a ha
    split at h
    · cases h
    · rename_i b hb
      cases h
      exact ⟨rfl, rfl, ha, hb⟩

/-- How the component list of problem `p` evolves, in terms of events. -/
theorem step_ordered (w : World K) (op : Op K) (p : Nat) (P' : Prob K)
    (h : (step w op).2.probs[p]? = some P') :
    (∃ P, w.probs[p]? = some P ∧
      P'.comps = (eventOf w op).foldl (orderedStep p) P.comps) ∨
    (w.probs[p]? = none ∧ P'.comps = [] ∧ eventOf w op = []) := by
  rw [step_probs] at h
  cases op <;> simp only at h
  case newProblem m lo hi =>
    have hev : eventOf w (.newProblem m lo hi) = [] := by
      unfold eventOf; split <;> simp_all
    rw [hev]
    split at h
    · exact Or.inl ⟨P', h, rfl⟩
    · rename_i P0 hP0
      by_cases hp : p < w.probs.length
      · rw [List.getElem?_append_left hp] at h
        exact Or.inl ⟨P', h, rfl⟩
      · have hnone : w.probs[p]? = none := List.getElem?_eq_none_iff.2 (by omega)
        rw [List.getElem?_append_right (by omega)] at h
        have : p - w.probs.length = 0 := by
          by_contra hne
          rw [List.getElem?_eq_none_iff.2 (by simp; omega)] at h; cases h
        rw [this] at h
        cases h
        exact Or.inr ⟨hnone, (newProb_comps hP0).1, rfl⟩
  case updateVMin q v =>
    have hev : eventOf w (.updateVMin q v) = [] := by unfold eventOf; split <;> simp_all
    rw [hev]
    split at h
    · exact Or.inl ⟨P', h, rfl⟩
    · rename_i P0 hP0
      rcases getElem?_set_some hP0 h with ⟨rfl, rfl⟩ | ⟨_, h⟩
      · exact Or.inl ⟨P0, hP0, updateVMin_comps ..⟩
      · exact Or.inl ⟨P', h, rfl⟩
  case updateVMax q v =>
    have hev : eventOf w (.updateVMax q v) = [] := by unfold eventOf; split <;> simp_all
    rw [hev]
    split at h
    · exact Or.inl ⟨P', h, rfl⟩
    · rename_i P0 hP0
      rcases getElem?_set_some hP0 h with ⟨rfl, rfl⟩ | ⟨_, h⟩
      · exact Or.inl ⟨P0, hP0, updateVMax_comps ..⟩
      · exact Or.inl ⟨P', h, rfl⟩
  case add q i =>
    cases hq : w.probs[q]? with
    | none =>
      rw [hq] at h; simp only at h
      have hev : eventOf w (.add q i) = [] := by
        unfold eventOf; simp only [step, hq]
      rw [hev]; exact Or.inl ⟨P', h, rfl⟩
    | some P0 =>
      cases hi : w.comps[i]? with
      | none =>
        rw [hq, hi] at h; simp only at h
        have hev : eventOf w (.add q i) = [] := by
          unfold eventOf; simp only [step, hq, hi]
        rw [hev]; exact Or.inl ⟨P', h, rfl⟩
      | some c =>
        rw [hq, hi] at h; simp only at h
        rcases addComponent_cases P0 i c with ⟨e, h1, h2⟩ | ⟨h1, h2, h3⟩
        · have hev : eventOf w (.add q i) = [] := by
            unfold eventOf; simp only [step, hq, hi, h1, Except.map]
          rw [hev]
          rw [h2, set_self hq] at h
          exact Or.inl ⟨P', h, rfl⟩
        · have hev : eventOf w (.add q i) = [.added q c.attrs.name i] := by
            unfold eventOf; simp only [step, hq, hi, h1, Except.map]
          rw [hev]
          rw [h3] at h
          rcases getElem?_set_some hq h with ⟨rfl, rfl⟩ | ⟨hne, h⟩
          · exact Or.inl ⟨P0, hq, by simp [orderedStep]⟩
          · exact Or.inl ⟨P', h, by simp [Ne.symm hne, orderedStep]⟩
  case remove q name =>
    cases hq : w.probs[q]? with
    | none =>
      rw [hq] at h; simp only at h
      have hev : eventOf w (.remove q name) = [] := by
        unfold eventOf; simp only [step, hq]
      rw [hev]; exact Or.inl ⟨P', h, rfl⟩
    | some P0 =>
      rw [hq] at h; simp only at h
      have hev : eventOf w (.remove q name) = [.removed q name] := by
        unfold eventOf; simp only [step, hq]
      rw [hev]
      rcases getElem?_set_some hq h with ⟨rfl, rfl⟩ | ⟨hne, h⟩
      · exact Or.inl ⟨P0, hq, by simp [Prob.removeComponent, orderedStep]⟩
      · exact Or.inl ⟨P', h, by simp [Ne.symm hne, orderedStep]⟩
  all_goals
    refine Or.inl ⟨P', h, ?_⟩
    unfold eventOf
    split <;> simp_all

/-- Events about a problem only occur while it exists. -/
theorem eventOf_exists (w : World K) (op : Op K) (p : Nat) (h : w.probs[p]? = none) :
    (∀ n i, Event.added p n i ∉ eventOf w op) ∧ (∀ n, Event.removed p n ∉ eventOf w op) := by
  cases op
  case add q i =>
    cases hq : w.probs[q]? with
    | none => constructor <;> intros <;> simp [eventOf, step, hq]
    | some P =>
      have hne : q ≠ p := by rintro rfl; rw [hq] at h; cases h
      unfold eventOf
      split
      · rename_i h1
        cases h1
        split <;> simp [Ne.symm hne]
      all_goals simp_all
  case remove q name =>
    cases hq : w.probs[q]? with
    | none => constructor <;> intros <;> simp [eventOf, step, hq]
    | some P =>
      have hne : q ≠ p := by rintro rfl; rw [hq] at h; cases h
      have hev : eventOf w (.remove q name) = [.removed q name] := by
        unfold eventOf; simp only [step, hq]
      rw [hev]
      simp [Ne.symm hne]
  all_goals
    unfold eventOf
    split <;> simp_all

theorem events_append (w : World K) (a b : List (Op K)) :
    events w (a ++ b) = events w a ++ events (run w a) b := by
  induction a generalizing w with
  | nil => rfl
  | cons op a ih => simp only [List.cons_append, events, ih, List.append_assoc]; rfl

theorem run_snoc (w : World K) (ops : List (Op K)) (op : Op K) :
    run w (ops ++ [op]) = (step (run w ops) op).2 := by rw [run_append]; rfl

/-- Problems only ever get created at the end of the list. -/
theorem ordered_spec (ops : List (Op K)) :
    (∀ p P, (run World.init ops).probs[p]? = some P → P.comps = ordered p (events World.init ops)) ∧
    (∀ p, (run World.init ops).probs[p]? = none →
      (∀ n i, Event.added p n i ∉ events World.init ops) ∧ (∀ n, Event.removed p n ∉ events World.init ops)) := by
  induction ops using List.reverseRecOn with
  | nil =>
    refine ⟨fun p P h => by simp [run, World.init] at h, fun p _ => ?_⟩
    simp [events]
  | append_singleton ops op ih =>
    obtain ⟨ih1, ih2⟩ := ih
    have hev : events World.init (ops ++ [op]) = events World.init ops ++ eventOf (run World.init ops) op := by
      rw [events_append]; simp [events]
    constructor
    · intro p P h
      rw [run_snoc] at h
      rw [hev]
      rcases step_ordered _ _ _ _ h with ⟨P0, h0, h1⟩ | ⟨h0, h1, h2⟩
      · rw [h1, ih1 p P0 h0]
        unfold ordered
        rw [List.foldl_append]
      · rw [h1, h2, List.append_nil]
        obtain ⟨ha, hb⟩ := ih2 p h0
        unfold ordered
        have : ∀ (l : List Event) (acc : List (String × Nat)), (∀ n i, Event.added p n i ∉ l) → (∀ n, Event.removed p n ∉ l) →
            l.foldl (orderedStep p) acc = acc := by
          intro l
          induction l with
          | nil => intros; rfl
          | cons e l ihl =>
            intro acc ha hb
            rw [List.foldl_cons]
            have ha' : ∀ n i, Event.added p n i ∉ l := fun n i hh => ha n i (List.mem_cons_of_mem _ hh)
            have hb' : ∀ n, Event.removed p n ∉ l := fun n hh => hb n (List.mem_cons_of_mem _ hh)
            cases e with
            | added p' n i =>
              have : p' ≠ p := by rintro rfl; exact ha n i (List.mem_cons_self ..)
              simp only [orderedStep, this, if_false]; exact ihl acc ha' hb'
            | removed p' n =>
              have : p' ≠ p := by rintro rfl; exact hb n (List.mem_cons_self ..)
              simp only [orderedStep, this, if_false]; exact ihl acc ha' hb'
        exact (this _ _ ha hb).symm
    · intro p h
      rw [run_snoc] at h
      rw [hev]
      have hlen : (run World.init ops).probs.length ≤ (step (run World.init ops) op).2.probs.length := by
        rw [step_probs]
        cases op <;> simp only
        all_goals first | rfl | skip
        all_goals (split <;> simp)
      have h0 : (run World.init ops).probs[p]? = none := by
        rw [List.getElem?_eq_none_iff] at h ⊢; omega
      obtain ⟨ha, hb⟩ := ih2 p h0
      obtain ⟨hc, hd⟩ := eventOf_exists (run World.init ops) op p h0
      exact ⟨fun n i hh => (List.mem_append.1 hh).elim (ha n i) (hc n i),
             fun n hh => (List.mem_append.1 hh).elim (hb n) (hd n)⟩

/-- Looking a name up in the ordered list is the same as asking for the last event. -/
theorem dictGet_ordered_step (p : Nat) (name : String) (cur : List (String × Nat)) (e : Event)
    (hfresh : ∀ n i, e = .added p n i → dictGet cur n = none) :
    dictGet (orderedStep p cur e) name = currentStep p name (dictGet cur name) e := by
  unfold orderedStep currentStep
  cases e with
  | added p' n i =>
    by_cases hp : p' = p
    · subst hp
      simp only [if_true, true_and]
      rw [dictGet_append]
      by_cases hn : n = name
      · subst hn
        rw [hfresh n i rfl]; simp [dictGet]
      · simp [dictGet, hn]
    · simp [hp]
  | removed p' n =>
    by_cases hp : p' = p
    · subst hp
      simp only [if_true, true_and]
      rw [dictGet_filter]
    · simp [hp]

end Mjinx
