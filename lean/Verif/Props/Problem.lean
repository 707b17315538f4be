import Verif.Lemmas.Problem
import Verif.Lemmas.New
import Verif.Spec.Examples

/-!
# C03-C07: problems as maps of components
-/

set_option linter.unusedSectionVars false

namespace Mjinx.Props
open Mjinx Spec
variable {K : Type} [Field K] [LinearOrder K]

/-- An `added` event only happens for a name the problem does not hold. -/
private theorem added_fresh {w : World K} {op : Op K} {p : Nat} {n : String} {i : Nat} {P : Prob K}
    (hP : w.probs[p]? = some P) (h : Event.added p n i ∈ eventOf w op) :
    eventOf w op = [.added p n i] ∧ dictGet P.comps n = none := by
  cases op
  case add q k =>
    cases hq : w.probs[q]? with
    | none => simp [eventOf, step, hq] at h
    | some P0 =>
      cases hk : w.comps[k]? with
      | none => simp [eventOf, step, hq, hk] at h
      | some c =>
        rcases addComponent_cases P0 k c with ⟨e, h1, h2⟩ | ⟨h1, h2, h3⟩
        · simp [eventOf, step, hq, hk, h1, Except.map] at h
        · have hev : eventOf w (.add q k) = [.added q c.attrs.name k] := by
            unfold eventOf; simp only [step, hq, hk, h1, Except.map]
          rw [hev] at h ⊢
          simp only [List.mem_singleton, Event.added.injEq] at h
          obtain ⟨rfl, rfl, rfl⟩ := h
          rw [hq] at hP; cases hP
          exact ⟨rfl, h2⟩
  case remove q name =>
    cases hq : w.probs[q]? with
    | none => simp [eventOf, step, hq] at h
    | some P0 => simp [eventOf, step, hq] at h
  all_goals
    exfalso
    unfold eventOf at h
    split at h <;> simp_all

/-- An event of a call is alone. -/
private theorem eventOf_cases (w : World K) (op : Op K) :
    eventOf w op = [] ∨ ∃ e, eventOf w op = [e] := by
  unfold eventOf
  split
  · split
    · exact Or.inr ⟨_, rfl⟩
    · exact Or.inl rfl
  · exact Or.inr ⟨_, rfl⟩
  · exact Or.inl rfl

/-- **C03.** After any program, a problem holds exactly the components that were added and not removed
since, in order of insertion. -/
theorem C03_insertion_order (ops : List (Op K)) {p : Nat} {P : Prob K}
    (h : (run World.init ops).probs[p]? = some P) :
    P.comps = ordered p (events World.init ops) :=
  (ordered_spec ops).1 p P h

/-- **C03.** Looking a name up gives the component of the last successful add of that name unless it
was removed since; names never added or removed since raise `ValueError`. -/
theorem C03_lookup (ops : List (Op K)) {p : Nat} {P : Prob K}
    (h : (run World.init ops).probs[p]? = some P) (name : String) :
    P.component name = match current p name (events World.init ops) with
      | some i => .ok i
      | none => .error .valueError := by
  have key : ∀ ops : List (Op K), ∀ p P, (run World.init ops).probs[p]? = some P →
      dictGet P.comps name = current p name (events World.init ops) := by
    intro ops
    induction ops using List.reverseRecOn with
    | nil => intro p P h; simp [run, World.init] at h
    | append_singleton ops op ih =>
      intro p P h
      have hev : events World.init (ops ++ [op]) =
          events World.init ops ++ eventOf (run World.init ops) op := by
        rw [events_append]; simp [events]
      rw [run_snoc] at h
      rw [hev]
      unfold current
      rw [List.foldl_append]
      rcases step_ordered _ _ _ _ h with ⟨P0, h0, h1⟩ | ⟨h0, h1, h2⟩
      · have ih' := ih p P0 h0
        unfold current at ih'
        rw [h1]
        rcases eventOf_cases (run World.init ops) op with he | ⟨e, he⟩
        · rw [he]; exact ih'
        · rw [he]
          simp only [List.foldl_cons, List.foldl_nil]
          rw [dictGet_ordered_step, ih']
          intro n i hee
          subst hee
          exact (added_fresh h0 (by rw [he]; exact List.mem_singleton.2 rfl)).2
      · rw [h1, h2]
        obtain ⟨ha, hb⟩ := (ordered_spec ops).2 p h0
        have : ∀ (l : List Event) (acc : Option Nat), (∀ n i, Event.added p n i ∉ l) →
            (∀ n, Event.removed p n ∉ l) → l.foldl (currentStep p name) acc = acc := by
          intro l
          induction l with
          | nil => intros; rfl
          | cons e l ihl =>
            intro acc ha hb
            rw [List.foldl_cons]
            have ha' : ∀ n i, Event.added p n i ∉ l := fun n i hh => ha n i (List.mem_cons_of_mem _ hh)
            have hb' : ∀ n, Event.removed p n ∉ l := fun n hh => hb n (List.mem_cons_of_mem _ hh)
            cases e with
            | added p' n i =>
              have : p' ≠ p := by rintro rfl; exact ha n i (List.mem_cons_self ..)
              simp only [currentStep, this, false_and, if_false]; exact ihl acc ha' hb'
            | removed p' n =>
              have : p' ≠ p := by rintro rfl; exact hb n (List.mem_cons_self ..)
              simp only [currentStep, this, false_and, if_false]; exact ihl acc ha' hb'
        rw [this _ _ ha hb]
        rfl
  unfold Prob.component
  rw [key ops p P h]
  cases current p name (events World.init ops) <;> rfl

/-- **C03.** The names in a problem are pairwise distinct. -/
theorem C03_names_distinct (ops : List (Op K)) {p : Nat} {P : Prob K}
    (h : (run World.init ops).probs[p]? = some P) : (P.comps.map Prod.fst).Nodup := by
  revert p P
  induction ops using List.reverseRecOn with
  | nil => intro p P h; simp [run, World.init] at h
  | append_singleton ops op ih =>
    intro p P h
    rw [run_snoc] at h
    rcases step_ordered _ _ _ _ h with ⟨P0, h0, h1⟩ | ⟨h0, h1, h2⟩
    · have ih' := ih h0
      rw [h1]
      rcases eventOf_cases (run World.init ops) op with he | ⟨e, he⟩
      · rw [he]; exact ih'
      · rw [he]
        simp only [List.foldl_cons, List.foldl_nil]
        cases e with
        | added p' n i =>
          by_cases hp : p' = p
          · subst hp
            have hf := (added_fresh (n := n) (i := i) h0 (by rw [he]; exact List.mem_singleton.2 rfl)).2
            simp only [orderedStep, if_true, List.map_append, List.map_cons, List.map_nil]
            rw [List.nodup_append]
            refine ⟨ih', by simp, ?_⟩
            intro a ha b hb
            rw [List.mem_singleton] at hb
            subst hb
            rintro rfl
            obtain ⟨⟨a', v⟩, hm, rfl⟩ := List.mem_map.1 ha
            exact (dictGet_none_iff _ _).1 hf v hm
          · simp only [orderedStep, hp, if_false]; exact ih'
        | removed p' n =>
          by_cases hp : p' = p
          · simp only [orderedStep, hp, if_true]
            exact List.Sublist.nodup (List.Sublist.map _ List.filter_sublist) ih'
          · simp only [orderedStep, hp, if_false]; exact ih'
    · rw [h1]; exact List.nodup_nil

/-- **C04.** If `add_component` raises, no problem changes: same components, same limits. -/
theorem C04_refused_add (w : World K) (p i : Nat) (e : Err) (h : (step w (.add p i)).1 = .error e) :
    (step w (.add p i)).2.probs = w.probs := by
  cases hp : w.probs[p]? with
  | none => simp [step, hp]
  | some P =>
    cases hi : w.comps[i]? with
    | none => simp [step, hp, hi]
    | some c =>
      simp only [step, hp, hi] at h ⊢
      rcases addComponent_cases P i c with ⟨e', h1, h2⟩ | ⟨h1, _, _⟩
      · rw [h2]; exact set_self hp
      · rw [h1] at h; cases h

/-- **C04.** If the name is already taken, `add_component` raises `ValueError` and nothing at all changes,
neither the problems nor the component. -/
theorem C04_duplicate_name (w : World K) (p i j : Nat) {P : Prob K} {c : Comp K}
    (hp : w.probs[p]? = some P) (hi : w.comps[i]? = some c) (hdup : (c.attrs.name, j) ∈ P.comps) :
    step w (.add p i) = (.error .valueError, w) := by
  have hd : ∃ k, dictGet P.comps c.attrs.name = some k := by
    cases hd : dictGet P.comps c.attrs.name with
    | none => exact absurd hdup ((dictGet_none_iff _ _).1 hd j)
    | some k => exact ⟨k, rfl⟩
  obtain ⟨k, hd⟩ := hd
  have : P.addComponent i c = (.error .valueError, P, c) := by
    unfold Prob.addComponent; rw [hd]
  simp only [step, hp, hi, this, Except.map, setComp]
  rw [set_self hp, set_self hi]

/-- References held by problems are never dangling. -/
theorem refs_valid {w : World K} (h : ReachableW w) :
    ∀ (p : Nat) (P : Prob K), w.probs[p]? = some P → ∀ ni ∈ P.comps, ni.2 < w.comps.length := by
  refine ReachableW.induct (P := fun w => ∀ (p : Nat) (P : Prob K), w.probs[p]? = some P → ∀ ni ∈ P.comps,
    ni.2 < w.comps.length) (by intro p P h; simp [World.init] at h) ?_ h
  intro op w ih p P hP ni hni
  have hlen : w.comps.length ≤ (step w op).2.comps.length := by
    cases op with
    | newComp n => simp only [step]; cases n.run <;> simp
    | comp i op => simp only [step]; cases w.comps[i]? <;> simp [setComp]
    | newProblem m lo hi => simp only [step]; cases newProb m lo hi <;> simp
    | updateVMin p v => simp only [step]; cases w.probs[p]? <;> simp
    | updateVMax p v => simp only [step]; cases w.probs[p]? <;> simp
    | add p i => simp only [step]; cases w.probs[p]? <;> cases w.comps[i]? <;> simp [setComp]
    | remove p name => simp only [step]; cases w.probs[p]? <;> simp
    | compile p =>
      simp only [step]
      cases w.probs[p]? with
      | none => simp
      | some P =>
        have : ∀ (l : List (String × Nat)) (h : List (Comp K)), (compileComps h l).2.length = h.length := by
          intro l
          induction l with
          | nil => intro h; rfl
          | cons x rest ih =>
            intro h
            obtain ⟨n, i⟩ := x
            cases hi : h[i]? with
            | none => simp only [compileComps, hi]
            | some c =>
              cases hj : jaxComponent c with
              | mk r c' =>
                cases r with
                | error e => simp only [compileComps, hi, hj, setComp, List.length_set]
                | ok j =>
                  have := ih (setComp h i c')
                  cases hr : compileComps (setComp h i c') rest with
                  | mk r2 h2 =>
                    rw [hr] at this
                    cases r2 <;> simp only [compileComps, hi, hj, hr] <;> simpa [setComp] using this
        simp only [compileProb]
        cases hc : compileComps w.comps P.comps with
        | mk r h' =>
          have := this P.comps w.comps
          rw [hc] at this
          cases r <;> simp only at this ⊢ <;> omega
    | component p name => simp only [step]; cases w.probs[p]? <;> simp
    | task p name => simp only [step]; cases w.probs[p]? <;> simp
    | barrier p name => simp only [step]; cases w.probs[p]? <;> simp
  rcases step_ordered w op p P hP with ⟨P0, h0, h1⟩ | ⟨_, h1, _⟩
  · have h0' := ih p P0 h0
    rw [h1] at hni
    rcases eventOf_cases w op with he | ⟨e, he⟩
    · rw [he] at hni
      exact lt_of_lt_of_le (h0' ni hni) hlen
    · rw [he] at hni
      simp only [List.foldl_cons, List.foldl_nil] at hni
      cases e with
      | added p' n i =>
        by_cases hp : p' = p
        · subst hp
          simp only [orderedStep, if_true, List.mem_append, List.mem_singleton] at hni
          rcases hni with hni | rfl
          · exact lt_of_lt_of_le (h0' ni hni) hlen
          · have hi : i < w.comps.length := by
              unfold eventOf at he
              split at he
              · split at he
                · rename_i c hc
                  simp only [List.cons.injEq, Event.added.injEq, and_true] at he
                  obtain ⟨-, -, rfl⟩ := he
                  exact (List.getElem?_eq_some_iff.1 hc).1
                · cases he
              · simp at he
              · cases he
            exact lt_of_lt_of_le hi hlen
        · simp only [orderedStep, hp, if_false] at hni
          exact lt_of_lt_of_le (h0' ni hni) hlen
      | removed p' n =>
        by_cases hp : p' = p
        · simp only [orderedStep, hp, if_true] at hni
          exact lt_of_lt_of_le (h0' ni (List.mem_filter.1 hni).1) hlen
        · simp only [orderedStep, hp, if_false] at hni
          exact lt_of_lt_of_le (h0' ni hni) hlen
  · rw [h1] at hni; cases hni

private theorem isTask_iff (k : Kind K) : k.isTask = true ↔ IsTask k := by
  cases k <;> simp [Kind.isTask, Kind.taskA?] <;> first | constructor | (intro h; cases h)

private theorem isBarrier_iff (k : Kind K) : k.isBarrier = true ↔ IsBarrier k := by
  cases k <;> simp [Kind.isBarrier] <;> first | constructor | (intro h; cases h)

/-- **C05.** `task(name)` returns the component registered under the name exactly when it is a task and
raises `ValueError` otherwise. -/
theorem C05_task_lookup {w : World K} (h : ReachableW w) {p : Nat} {P : Prob K}
    (hP : w.probs[p]? = some P) (name : String) :
    (∀ i, P.task w.comps name = .ok i ↔
      P.component name = .ok i ∧ ∃ c, w.comps[i]? = some c ∧ IsTask c.attrs.kind) ∧
    (∀ e, P.task w.comps name = .error e → e = .valueError) := by
  unfold Prob.task Prob.component
  cases hd : dictGet P.comps name with
  | none => simp
  | some k =>
    have hlt := refs_valid h p P hP _ (dictGet_mem hd)
    have hk : w.comps[k]? = some w.comps[k] := List.getElem?_eq_getElem hlt
    simp only [hk]
    by_cases ht : (w.comps[k]).attrs.kind.isTask
    · simp only [ht, if_true]
      constructor
      · intro i
        constructor
        · intro hh; cases hh; exact ⟨rfl, _, hk, (isTask_iff _).1 ht⟩
        · intro hh; exact hh.1
      · intro e he; cases he
    · simp only [ht]
      constructor
      · intro i
        constructor
        · intro hh; cases hh
        · rintro ⟨hi, c, hc, htc⟩
          cases hi
          rw [hk] at hc; cases hc
          exact absurd ((isTask_iff _).2 htc) ht
      · intro e he; simp at he; exact he.symm

/-- **C05.** `barrier(name)` returns the component registered under the name exactly when it is a barrier
and raises `ValueError` otherwise. -/
theorem C05_barrier_lookup {w : World K} (h : ReachableW w) {p : Nat} {P : Prob K}
    (hP : w.probs[p]? = some P) (name : String) :
    (∀ i, P.barrier w.comps name = .ok i ↔
      P.component name = .ok i ∧ ∃ c, w.comps[i]? = some c ∧ IsBarrier c.attrs.kind) ∧
    (∀ e, P.barrier w.comps name = .error e → e = .valueError) := by
  unfold Prob.barrier Prob.component
  cases hd : dictGet P.comps name with
  | none => simp
  | some k =>
    have hlt := refs_valid h p P hP _ (dictGet_mem hd)
    have hk : w.comps[k]? = some w.comps[k] := List.getElem?_eq_getElem hlt
    simp only [hk]
    by_cases ht : (w.comps[k]).attrs.kind.isBarrier
    · simp only [ht, if_true]
      constructor
      · intro i
        constructor
        · intro hh; cases hh; exact ⟨rfl, _, hk, (isBarrier_iff _).1 ht⟩
        · intro hh; exact hh.1
      · intro e he; cases he
    · simp only [ht]
      constructor
      · intro i
        constructor
        · intro hh; cases hh
        · rintro ⟨hi, c, hc, htc⟩
          cases hi
          rw [hk] at hc; cases hc
          exact absurd ((isBarrier_iff _).2 htc) ht
      · intro e he; simp at he; exact he.symm

private theorem expandVel_ok {n : Nat} {v x : Arr K} (h : expandVel n v = .ok x) : VelOf n v x := by
  unfold expandVel at h
  split at h
  · rename_i hs
    cases h
    exact ⟨rfl, Or.inl ⟨hs, fun i _ => by simp [Arr.onesMul]⟩⟩
  · rename_i k hs
    split at h
    · cases h
    · rename_i hk
      cases h
      have : k = n := not_not.1 hk
      subst this
      exact ⟨hs, Or.inr ⟨hs, fun _ _ => rfl⟩⟩
  · cases h

/-- **C06.** At every moment, both velocity limits are vectors with one entry per degree of freedom. -/
theorem C06_limits_shape {w : World K} (h : ReachableW w) {p : Nat} {P : Prob K}
    (hP : w.probs[p]? = some P) : P.vMin.shape = [P.model.nv] ∧ P.vMax.shape = [P.model.nv] := by
  revert p P
  refine ReachableW.induct (P := fun w => ∀ {p : Nat} {P : Prob K}, w.probs[p]? = some P →
    P.vMin.shape = [P.model.nv] ∧ P.vMax.shape = [P.model.nv]) (by intro p P h; simp [World.init] at h) ?_ h
  intro op w ih p P hP
  rw [step_probs] at hP
  cases op <;> simp only at hP
  case newProblem m lo hi =>
    split at hP
    · exact ih hP
    · rename_i P0 hP0
      by_cases hp : p < w.probs.length
      · rw [List.getElem?_append_left hp] at hP; exact ih hP
      · rw [List.getElem?_append_right (by omega)] at hP
        have : p - w.probs.length = 0 := by
          by_contra hne
          rw [List.getElem?_eq_none_iff.2 (by simp; omega)] at hP; cases hP
        rw [this] at hP
        cases hP
        obtain ⟨-, h2, h3, h4⟩ := newProb_comps hP0
        rw [h2]
        exact ⟨(expandVel_ok h3).1, (expandVel_ok h4).1⟩
  case updateVMin q v =>
    split at hP
    · exact ih hP
    · rename_i P0 hP0
      rcases getElem?_set_some hP0 hP with ⟨rfl, rfl⟩ | ⟨_, h⟩
      · unfold Prob.updateVMin
        split
        · exact ih hP0
        · rename_i x hx
          exact ⟨(expandVel_ok hx).1, (ih hP0).2⟩
      · exact ih h
  case updateVMax q v =>
    split at hP
    · exact ih hP
    · rename_i P0 hP0
      rcases getElem?_set_some hP0 hP with ⟨rfl, rfl⟩ | ⟨_, h⟩
      · unfold Prob.updateVMax
        split
        · exact ih hP0
        · rename_i x hx
          exact ⟨(ih hP0).1, (expandVel_ok hx).1⟩
      · exact ih h
  case add q i =>
    split at hP
    · rename_i P0 c hP0 hc
      rcases getElem?_set_some hP0 hP with ⟨rfl, rfl⟩ | ⟨_, h⟩
      · rcases addComponent_cases P0 i c with ⟨e, h1, h2⟩ | ⟨h1, _, h2⟩
        · rw [h2]; exact ih hP0
        · rw [h2]; have := ih hP0; exact this
      · exact ih h
    · exact ih hP
  case remove q name =>
    split at hP
    · exact ih hP
    · rename_i P0 hP0
      rcases getElem?_set_some hP0 hP with ⟨rfl, rfl⟩ | ⟨_, h⟩
      · have := ih hP0; exact this
      · exact ih h
  all_goals exact ih hP

/-- **C06.** A velocity limit update stores a scalar in every entry, stores a vector of length nv as
given, and otherwise raises `ValueError`; when it raises nothing changes, and it never touches the other
limit, the model or the components. -/
theorem C06_update (P : Prob K) (v : Arr K) :
    ((v.shape = [] ∨ v.shape = [P.model.nv]) ∧ (P.updateVMin v).1 = .ok () ∧
        VelOf P.model.nv v (P.updateVMin v).2.vMin ∧
        (P.updateVMin v).2 = { P with vMin := (P.updateVMin v).2.vMin } ∧
        (P.updateVMax v).1 = .ok () ∧ VelOf P.model.nv v (P.updateVMax v).2.vMax ∧
        (P.updateVMax v).2 = { P with vMax := (P.updateVMax v).2.vMax }) ∨
    (¬ (v.shape = [] ∨ v.shape = [P.model.nv]) ∧
      P.updateVMin v = (.error .valueError, P) ∧ P.updateVMax v = (.error .valueError, P)) := by
  cases hx : expandVel P.model.nv v with
  | ok x =>
    left
    have hv := expandVel_ok hx
    have hs : v.shape = [] ∨ v.shape = [P.model.nv] := by
      rcases hv.2 with ⟨h, _⟩ | ⟨h, _⟩
      · exact Or.inl h
      · exact Or.inr h
    simp only [Prob.updateVMin, Prob.updateVMax, hx]
    exact ⟨hs, trivial, hv, trivial, trivial, hv, trivial⟩
  | error e =>
    right
    have he : e = .valueError ∧ ¬ (v.shape = [] ∨ v.shape = [P.model.nv]) := by
      unfold expandVel at hx
      split at hx
      · cases hx
      · rename_i n hs
        split at hx
        · rename_i hn
          cases hx
          refine ⟨rfl, ?_⟩
          rw [hs]
          simp only [reduceCtorEq, List.cons.injEq, and_true, false_or]
          exact hn
        · cases hx
      · rename_i h1 h2
        cases hx
        refine ⟨rfl, ?_⟩
        rintro (h | h)
        · exact h1 h
        · exact h2 _ h
    obtain ⟨rfl, h2⟩ := he
    simp only [Prob.updateVMin, Prob.updateVMax, hx]
    exact ⟨h2, trivial, trivial⟩

/-! ### C07 -/

/-- **C07 is false in general**: a component added to two problems is re-bound to the second model, and
the first problem then compiles it with the other problem's model.  All three calls return normally. -/
theorem C07_shared_component_rebound :
    ∃ (ops : List (Op ℚ)) (J : JaxProblem ℚ) (w' : World ℚ) (j : JaxComp ℚ),
      step (run World.init ops) (.compile 0) = (.ok (.compiled J), w') ∧
      ("t", j) ∈ J.comps ∧ j.model.nv ≠ J.model.nv := by
  refine ⟨[.newComp (.comTask Ex.taskArgs), .newProblem Ex.model (Ex.scalar (-1)) (Ex.scalar 1),
    .newProblem Ex.model2 (Ex.scalar (-1)) (Ex.scalar 1), .add 0 0, .add 1 0], _, _, _, rfl,
    List.mem_singleton.2 rfl, ?_⟩
  decide

private theorem oneModel_append (M : Nat → MjModel K) (w : World K) (a b : List (Op K)) :
    OneModel M w (a ++ b) ↔ OneModel M w a ∧ OneModel M (run w a) b := by
  induction a generalizing w with
  | nil => simp [OneModel, run]
  | cons op a ih =>
    simp only [List.cons_append, OneModel, ih, and_assoc]
    rfl

private theorem heapFill_model {h h' : List (Comp K)} (hf : HeapFill h h') {i : Nat} {c' : Comp K}
    (hi : h'[i]? = some c') : ∃ c, h[i]? = some c ∧ c'.attrs.model = c.attrs.model := by
  have hlt : i < h.length := by
    rw [← hf.1]; exact (List.getElem?_eq_some_iff.1 hi).1
  obtain ⟨c2, h2, hm, _⟩ := hf.2 i h[i] (List.getElem?_eq_getElem hlt)
  rw [hi] at h2; cases h2
  refine ⟨h[i], List.getElem?_eq_getElem hlt, ?_⟩
  rcases hm with hm | ⟨_, _, hm⟩ <;> rw [hm]

private theorem oneModel_inv (M : Nat → MjModel K) (ops : List (Op K)) (h : OneModel M World.init ops) :
    (∀ i c, (run World.init ops).comps[i]? = some c → c.attrs.model = none ∨ c.attrs.model = some (M i)) ∧
    (∀ (p : Nat) (P : Prob K), (run World.init ops).probs[p]? = some P → ∀ ni ∈ P.comps, P.model = M ni.2) := by
  induction ops using List.reverseRecOn with
  | nil => exact ⟨fun i c h => by simp [run, World.init] at h, fun p P h => by simp [run, World.init] at h⟩
  | append_singleton ops op ih =>
    rw [oneModel_append] at h
    obtain ⟨h1, h2⟩ := h
    obtain ⟨ih1, ih2⟩ := ih h1
    have hreach : ReachableW (run World.init ops) := ⟨ops, rfl⟩
    rw [run_snoc]
    set w := run World.init ops with hw
    simp only [OneModel, and_true] at h2
    have upd : ∀ (m : MjModel K) (c : Comp K) i, m = M i → (c.attrs.model = none ∨ c.attrs.model = some (M i)) →
        ((updateModel m c).2.attrs.model = none ∨ (updateModel m c).2.attrs.model = some (M i)) := by
      intro m c i hm hc
      obtain ⟨-, -, -, h4⟩ := updateModel_frame m c
      rcases h4 with h4 | ⟨h4, _⟩
      · right; rw [h4, hm]
      · rw [h4]; exact hc
    constructor
    · intro i c hc
      cases op <;> simp only [step] at hc
      case newComp n =>
        cases hn : n.run with
        | error e => rw [hn] at hc; exact ih1 i c hc
        | ok c0 =>
          rw [hn] at hc
          simp only at hc
          by_cases hi : i < w.comps.length
          · rw [List.getElem?_append_left hi] at hc; exact ih1 i c hc
          · rw [List.getElem?_append_right (by omega)] at hc
            have : i - w.comps.length = 0 := by
              by_contra hne
              rw [List.getElem?_eq_none_iff.2 (by simp; omega)] at hc; cases hc
            rw [this] at hc; cases hc
            left
            exact model_none_of_new hn
      case comp k cop =>
        cases hk : w.comps[k]? with
        | none => rw [hk] at hc; exact ih1 i c hc
        | some c0 =>
          rw [hk] at hc
          simp only [setComp] at hc
          rcases getElem?_set_some hk hc with ⟨rfl, rfl⟩ | ⟨_, hc⟩
          · by_cases hu : ∃ m, cop = .updateModel m
            · obtain ⟨m, rfl⟩ := hu
              simp only at h2
              exact upd m c0 i h2 (ih1 i c0 hk)
            · rw [run_model cop c0 (fun m e => hu ⟨m, e⟩)]
              exact ih1 i c0 hk
          · exact ih1 i c hc
      case newProblem m lo hi => cases hn : newProb m lo hi <;> rw [hn] at hc <;> exact ih1 i c hc
      case updateVMin p v => cases hn : w.probs[p]? <;> rw [hn] at hc <;> exact ih1 i c hc
      case updateVMax p v => cases hn : w.probs[p]? <;> rw [hn] at hc <;> exact ih1 i c hc
      case add p k =>
        cases hp : w.probs[p]? with
        | none => rw [hp] at hc; exact ih1 i c hc
        | some P =>
          cases hk : w.comps[k]? with
          | none => rw [hp, hk] at hc; exact ih1 i c hc
          | some c0 =>
            rw [hp, hk] at hc
            simp only [setComp] at hc
            rcases getElem?_set_some hk hc with ⟨rfl, rfl⟩ | ⟨_, hc⟩
            · simp only at h2
              have := upd P.model c0 i (h2 P hp) (ih1 i c0 hk)
              unfold Prob.addComponent
              split
              · exact ih1 i c0 hk
              · split <;> (rename_i hh; rw [hh] at this; exact this)
            · exact ih1 i c hc
      case remove p name => cases hn : w.probs[p]? <;> rw [hn] at hc <;> exact ih1 i c hc
      case compile p =>
        cases hn : w.probs[p]? with
        | none => rw [hn] at hc; exact ih1 i c hc
        | some P =>
          rw [hn] at hc
          have hf := (compileComps_spec P.comps w.comps (cacheOK_world hreach)).2
          have hc' : (compileComps w.comps P.comps).2[i]? = some c := by
            simp only [compileProb] at hc
            cases hcc : compileComps w.comps P.comps with
            | mk r h' => rw [hcc] at hc; cases r <;> exact hc
          obtain ⟨c0, hc0, he⟩ := heapFill_model hf hc'
          rw [he]; exact ih1 i c0 hc0
      case component p name => cases hn : w.probs[p]? <;> rw [hn] at hc <;> exact ih1 i c hc
      case task p name => cases hn : w.probs[p]? <;> rw [hn] at hc <;> exact ih1 i c hc
      case barrier p name => cases hn : w.probs[p]? <;> rw [hn] at hc <;> exact ih1 i c hc
    · intro p P hP ni hni
      rw [step_probs] at hP
      cases op <;> simp only at hP
      case newProblem m lo hi =>
        split at hP
        · exact ih2 p P hP ni hni
        · rename_i P0 hP0
          by_cases hp : p < w.probs.length
          · rw [List.getElem?_append_left hp] at hP; exact ih2 p P hP ni hni
          · rw [List.getElem?_append_right (by omega)] at hP
            have : p - w.probs.length = 0 := by
              by_contra hne
              rw [List.getElem?_eq_none_iff.2 (by simp; omega)] at hP; cases hP
            rw [this] at hP
            cases hP
            rw [(newProb_comps hP0).1] at hni; cases hni
      case updateVMin q v =>
        split at hP
        · exact ih2 p P hP ni hni
        · rename_i P0 hP0
          rcases getElem?_set_some hP0 hP with ⟨rfl, rfl⟩ | ⟨_, h⟩
          · rw [updateVMin_comps] at hni
            have : (P0.updateVMin v).2.model = P0.model := by unfold Prob.updateVMin; split <;> rfl
            rw [this]; exact ih2 p P0 hP0 ni hni
          · exact ih2 p P h ni hni
      case updateVMax q v =>
        split at hP
        · exact ih2 p P hP ni hni
        · rename_i P0 hP0
          rcases getElem?_set_some hP0 hP with ⟨rfl, rfl⟩ | ⟨_, h⟩
          · rw [updateVMax_comps] at hni
            have : (P0.updateVMax v).2.model = P0.model := by unfold Prob.updateVMax; split <;> rfl
            rw [this]; exact ih2 p P0 hP0 ni hni
          · exact ih2 p P h ni hni
      case add q k =>
        split at hP
        · rename_i P0 c hP0 hc
          rcases getElem?_set_some hP0 hP with ⟨rfl, rfl⟩ | ⟨_, h⟩
          · rcases addComponent_cases P0 k c with ⟨e, _, h4⟩ | ⟨_, _, h4⟩
            · rw [h4] at hni ⊢; exact ih2 p P0 hP0 ni hni
            · rw [h4] at hni ⊢
              simp only [List.mem_append, List.mem_singleton] at hni
              rcases hni with hni | rfl
              · exact ih2 p P0 hP0 ni hni
              · simp only at h2; exact h2 P0 hP0
          · exact ih2 p P h ni hni
        · exact ih2 p P hP ni hni
      case remove q name =>
        split at hP
        · exact ih2 p P hP ni hni
        · rename_i P0 hP0
          rcases getElem?_set_some hP0 hP with ⟨rfl, rfl⟩ | ⟨_, h⟩
          · exact ih2 p P0 hP0 ni (List.mem_filter.1 hni).1
          · exact ih2 p P h ni hni
      all_goals exact ih2 p P hP ni hni

/-- **C07 (partial).** In every program in which each component only ever meets one model (it is added
only to problems with that model, and not given another model directly), every compiled component
carries the problem's model.  Missing for the full claim: components shared between problems with
different models, where it is false (`C07_shared_component_rebound`). -/
theorem C07_compiled_model_partial (M : Nat → MjModel K) (ops : List (Op K))
    (hone : OneModel M World.init ops) {p : Nat} {J : JaxProblem K} {w' : World K}
    (hJ : step (run World.init ops) (.compile p) = (.ok (.compiled J), w')) :
    ∀ nj ∈ J.comps, nj.2.model = J.model := by
  obtain ⟨inv1, inv2⟩ := oneModel_inv M ops hone
  have hreach : ReachableW (run World.init ops) := ⟨ops, rfl⟩
  cases hP : (run World.init ops).probs[p]? with
  | none => simp [step, hP] at hJ
  | some P =>
    obtain ⟨h1, -⟩ := compileComps_spec P.comps _ (cacheOK_world hreach)
    simp only [step, hP, compileProb] at hJ
    cases hc : compileComps (run World.init ops).comps P.comps with
    | mk r h' =>
      rw [hc] at hJ h1
      cases r with
      | error e => simp [Except.map] at hJ
      | ok js =>
        simp only [Except.map, Prod.mk.injEq, Except.ok.injEq, Res.compiled.injEq] at hJ
        obtain ⟨rfl, -⟩ := hJ
        have hf := compilePure_ok h1.symm
        intro nj hnj
        obtain ⟨k, hk, rfl⟩ := List.getElem_of_mem hnj
        have hlen := hf.length_eq
        have hk' : k < P.comps.length := by simp only at hk; omega
        have hrel := List.Forall₂.get hf hk' hk
        obtain ⟨-, hrel⟩ := hrel
        simp only [heapResult] at hrel
        split at hrel
        · cases hrel
        · rename_i c hc'
          have hm := (compileResult_spec hrel).model
          rcases inv1 _ _ hc' with h0 | h0
          · rw [h0] at hm; cases hm
          · rw [h0] at hm
            have := inv2 p P hP (P.comps.get ⟨k, hk'⟩) (List.get_mem ..)
            simp only at hm ⊢
            rw [this]
            exact (Option.some.inj hm).symm

/-! ### Instances -/

/-- A program with two adds, a duplicate add, a removal and a re-add. -/
def exProblemOps : List (Op ℚ) :=
  [.newComp (.comTask Ex.taskArgs), .newComp (.comTask { Ex.taskArgs with name := "u" }),
   .newComp (.jointBarrier Ex.barrierArgs none none none),
   .newProblem Ex.model (Ex.scalar (-1)) (Ex.scalar 1), .add 0 0, .add 0 1, .add 0 2, .add 0 0, .remove 0 "t", .add 0 0]

example : (run World.init exProblemOps).probs.map (·.comps) = [[("u", 1), ("b", 2), ("t", 0)]] := rfl

example : current 0 "t" (events World.init exProblemOps) = some 0 := rfl

example : ∃ P c, (run World.init exProblemOps).probs[0]? = some P ∧
    (run World.init exProblemOps).comps[0]? = some c ∧ (c.attrs.name, 0) ∈ P.comps := by
  refine ⟨_, _, rfl, rfl, ?_⟩
  show ("t", 0) ∈ [("u", 1), ("b", 2), ("t", 0)]
  decide

example : ∃ P : Prob ℚ, (run World.init exProblemOps).probs[0]? = some P ∧
    P.task (run World.init exProblemOps).comps "t" = .ok 0 ∧
    P.barrier (run World.init exProblemOps).comps "b" = .ok 2 ∧
    P.barrier (run World.init exProblemOps).comps "t" = .error .valueError := ⟨_, rfl, rfl, rfl, rfl⟩

example : OneModel (fun _ => Ex.model) World.init exProblemOps := by
  simp only [exProblemOps, OneModel]
  refine ⟨trivial, trivial, trivial, trivial, ?_, ?_, ?_, ?_, trivial, ?_, trivial⟩ <;>
  · intro P hP
    cases hP
    rfl

example : ∃ J w', step (run World.init exProblemOps) (.compile 0) = (.ok (.compiled J), w') ∧
    J.comps.map Prod.fst = ["u", "b", "t"] := ⟨_, _, rfl, rfl⟩

end Mjinx.Props
