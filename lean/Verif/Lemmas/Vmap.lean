import Verif.Spec.Vmap
import Verif.Lemmas.World

/-! # Axes trees -/

namespace Mjinx
open Spec
variable {S A B : Type}

/-- The axis an axes tree gives to the leaf at a path. -/
def axisOf : List String → PyTree S Int → Option Int
  | _, .none => none
  | _, .leaf i => some i
  | [], .node _ _ => none
  | f :: path, .node _ kids => match kids.get f with
    | some t => axisOf path t
    | none => none

def axisK (kids : Kids S Int) : List String → Option Int
  | [] => none
  | f :: path => match kids.get f with
    | some t => axisOf path t
    | none => none

theorem axisOf_node (s : S) (kids : Kids S Int) (p : List String) : axisOf p (.node s kids) = axisK kids p := by
  cases p <;> rfl

theorem axisOf_none (p : List String) : axisOf p (.none : PyTree S Int) = none := by cases p <;> rfl
theorem axisOf_leaf (p : List String) (i : Int) : axisOf p (.leaf i : PyTree S Int) = some i := by cases p <;> rfl

mutual
/-- The axes tree fits the tree. -/
def Fits : PyTree S Int → PyTree S A → Prop
  | .none, _ => True
  | .leaf _, _ => True
  | .node s kids, .node s' kids' => s = s' ∧ FitsK kids kids'
  | .node _ _, _ => False
def FitsK : Kids S Int → Kids S A → Prop
  | .nil, .nil => True
  | .cons n t rest, .cons n' t' rest' => n = n' ∧ Fits t t' ∧ FitsK rest rest'
  | _, _ => False
end

theorem pathsK_get : ∀ (kids : Kids S A) (x : List String × A), x ∈ kids.paths → ∃ f p, x.1 = f :: p ∧ kids.get f ≠ none
  | .nil, x, h => by simp [Kids.paths] at h
  | .cons n t rest, x, h => by
    rw [Kids.paths, List.mem_append] at h
    rcases h with h | h
    · obtain ⟨y, -, rfl⟩ := List.mem_map.1 h
      exact ⟨n, y.1, rfl, by simp [Kids.get]⟩
    · obtain ⟨f, p, h1, h2⟩ := pathsK_get rest x h
      refine ⟨f, p, h1, ?_⟩
      rw [Kids.get]; split
      · simp
      · exact h2

mutual
theorem flatten_fits : ∀ (ax : PyTree S Int) (t : PyTree S A), DistinctNames t → Fits ax t →
    flattenAxes ax t = .ok (t.paths.map (fun x => axisOf x.1 ax))
  | .none, t, _, _ => by simp [flattenAxes, axisOf_none]
  | .leaf i, t, _, _ => by simp [flattenAxes, axisOf_leaf]
  | .node s kids, .node s' kids', hd, hf => by
    unfold Fits at hf
    obtain ⟨rfl, hf⟩ := hf
    unfold DistinctNames at hd
    unfold flattenAxes
    rw [if_pos rfl, flatten_fitsK kids kids' hd hf]
    simp only [PyTree.paths, axisOf_node]
  | .node _ _, .none, _, hf => by unfold Fits at hf; exact hf.elim
  | .node _ _, .leaf _, _, hf => by unfold Fits at hf; exact hf.elim
theorem flatten_fitsK : ∀ (kids : Kids S Int) (kids' : Kids S A), DistinctNamesK kids' → FitsK kids kids' →
    flattenAxesK kids kids' = .ok (kids'.paths.map (fun x => axisK kids x.1))
  | .nil, .nil, _, _ => by simp [flattenAxesK, Kids.paths]
  | .cons n t rest, .cons n' t' rest', hd, hf => by
    unfold FitsK at hf
    obtain ⟨rfl, h1, h2⟩ := hf
    unfold DistinctNamesK at hd
    obtain ⟨d1, d2, d3⟩ := hd
    unfold flattenAxesK
    rw [if_pos rfl, flatten_fits t t' d2 h1, flatten_fitsK rest rest' d3 h2]
    simp only [Kids.paths, List.map_append, List.map_map]
    congr 2
    · apply List.map_congr_left
      intro x _
      simp [axisK, Kids.get]
    · apply List.map_congr_left
      intro x hx
      obtain ⟨f, p, e1, e2⟩ := pathsK_get rest' x hx
      rw [e1]
      have : n ≠ f := by rintro rfl; exact e2 d1
      simp [axisK, Kids.get, this]
  | .nil, .cons _ _ _, _, hf => by unfold FitsK at hf; exact hf.elim
  | .cons _ _ _, .nil, _, hf => by unfold FitsK at hf; exact hf.elim
end

mutual
theorem fits_blank : ∀ (t : PyTree S A), Fits (t.blank Int) t
  | .none => by unfold PyTree.blank Fits; trivial
  | .leaf _ => by unfold PyTree.blank Fits; trivial
  | .node s kids => by unfold PyTree.blank Fits; exact ⟨rfl, fits_blankK kids⟩
theorem fits_blankK : ∀ (kids : Kids S A), FitsK (kids.blank Int) kids
  | .nil => by unfold Kids.blank FitsK; trivial
  | .cons n t rest => by unfold Kids.blank FitsK; exact ⟨rfl, fits_blank t, fits_blankK rest⟩
end

theorem get_blank (f : String) : ∀ (kids : Kids S A), (kids.blank B).get f = (kids.get f).map (·.blank B)
  | .nil => by simp [Kids.blank, Kids.get]
  | .cons n t rest => by
    rw [Kids.blank, Kids.get, Kids.get]
    split
    · rfl
    · exact get_blank f rest

theorem axisOf_blank : ∀ (p : List String) (t : PyTree S A), axisOf p (t.blank Int) = none
  | [], t => by cases t <;> simp [PyTree.blank, axisOf]
  | f :: p, t => by
    cases t with
    | none => simp [PyTree.blank, axisOf]
    | leaf a => simp [PyTree.blank, axisOf]
    | node s kids =>
      rw [PyTree.blank, axisOf, get_blank]
      cases kids.get f with
      | none => rfl
      | some t => exact axisOf_blank p t

theorem get_set (f g : String) (x : PyTree S A) : ∀ (kids : Kids S A),
    (kids.set f x).get g = if g = f then (kids.get f).map (fun _ => x) else kids.get g
  | .nil => by simp [Kids.set, Kids.get]
  | .cons n t rest => by
    rw [Kids.set]
    by_cases h1 : n = f
    · subst h1
      rw [if_pos rfl]
      by_cases h2 : g = n
      · subst h2; simp [Kids.get]
      · have : n ≠ g := fun h => h2 h.symm
        simp [Kids.get, h2, this]
    · rw [if_neg h1, Kids.get, get_set f g x rest]
      by_cases h2 : g = f
      · subst h2; simp [h1, Kids.get]
      · simp [h2, Kids.get]

/-- An assignment sets the axis of everything below the path and nothing else. -/
theorem axisOf_write : ∀ (path : List String) (a : Int) (t t' : PyTree S Int), t.write path a = .ok t' →
    ∀ p, axisOf p t' = if path.isPrefixOf p then some a else axisOf p t
  | [], a, t, t', h, p => by
    simp only [PyTree.write] at h
    cases h
    simp [axisOf_leaf]
  | f :: path, a, t, t', h, p => by
    cases t with
    | none => simp [PyTree.write] at h
    | leaf => simp [PyTree.write] at h
    | node s kids =>
      simp only [PyTree.write] at h
      split at h
      · rename_i c hc
        split at h
        · rename_i c' hc'
          cases h
          rw [axisOf_node, axisOf_node]
          cases p with
          | nil => simp [axisK]
          | cons g p =>
            simp only [axisK, get_set, List.isPrefixOf_cons_cons]
            by_cases hg : g = f
            · subst hg
              simp only [if_true, hc, Option.map_some, beq_self_eq_true, Bool.true_and]
              exact axisOf_write path a c c' hc' p
            · have : (f == g) = false := by simpa using fun h => hg h.symm
              simp [hg, this]
        · cases h
      · cases h

theorem fits_set {f : String} {c c' : PyTree S Int} : ∀ (kids : Kids S Int) (kids' : Kids S A), FitsK kids kids' →
    kids.get f = some c → (∀ t' : PyTree S A, Fits c t' → Fits c' t') → FitsK (kids.set f c') kids'
  | .nil, _, _, h, _ => by simp [Kids.get] at h
  | .cons n t rest, .cons n' t' rest', hf, h, hc => by
    unfold FitsK at hf
    obtain ⟨rfl, h1, h2⟩ := hf
    rw [Kids.get] at h
    rw [Kids.set]
    split at h
    · rename_i e
      cases h
      rw [if_pos e]; unfold FitsK
      exact ⟨rfl, hc _ h1, h2⟩
    · rename_i e
      rw [if_neg e]; unfold FitsK
      exact ⟨rfl, h1, fits_set rest rest' h2 h hc⟩
  | .cons _ _ _, .nil, hf, _, _ => by unfold FitsK at hf; exact hf.elim

theorem fits_write : ∀ (path : List String) (a : Int) (ax ax' : PyTree S Int), ax.write path a = .ok ax' →
    ∀ (t : PyTree S A), Fits ax t → Fits ax' t
  | [], a, ax, ax', h, t, _ => by
    simp only [PyTree.write] at h
    cases h
    unfold Fits; trivial
  | f :: path, a, ax, ax', h, t, hf => by
    cases ax with
    | none => simp [PyTree.write] at h
    | leaf => simp [PyTree.write] at h
    | node s kids =>
      simp only [PyTree.write] at h
      split at h
      · rename_i c hc
        split at h
        · rename_i c' hc'
          cases h
          cases t with
          | none => unfold Fits at hf; exact hf.elim
          | leaf => unfold Fits at hf; exact hf.elim
          | node s' kids' =>
            unfold Fits at hf ⊢
            exact ⟨hf.1, fits_set kids kids' hf.2 hc (fun t' ht' => fits_write path a c c' hc' t' ht')⟩
        · cases h
      · cases h

theorem lastWrite_snoc (ws : List (List String × Int)) (w : List String × Int) (p : List String) :
    lastWrite (ws ++ [w]) p = if w.1.isPrefixOf p then some w.2 else lastWrite ws p := by
  unfold lastWrite
  rw [List.reverse_append]
  simp only [List.reverse_cons, List.reverse_nil, List.nil_append, List.singleton_append, List.find?_cons]
  cases w.1.isPrefixOf p <;> rfl

theorem writes_snoc (w : List String × Int) : ∀ (ws : List (List String × Int)) (t : PyTree S Int),
    t.writes (ws ++ [w]) = (t.writes ws).bind (fun t' => t'.write w.1 w.2)
  | [], t => by
    simp only [List.nil_append, PyTree.writes, Except.bind]
    cases t.write w.1 w.2 <;> rfl
  | v :: ws, t => by
    simp only [List.cons_append, PyTree.writes]
    cases t.write v.1 v.2 with
    | error e => rfl
    | ok t' => exact writes_snoc w ws t'

theorem writes_spec (t : PyTree S A) : ∀ (ws : List (List String × Int)) (ax : PyTree S Int), (t.blank Int).writes ws = .ok ax →
    Fits ax t ∧ ∀ p, axisOf p ax = lastWrite ws p := by
  intro ws
  induction ws using List.reverseRecOn with
  | nil =>
    intro ax h
    cases h
    exact ⟨fits_blank t, fun p => by rw [axisOf_blank]; rfl⟩
  | append_singleton ws w ih =>
    intro ax h
    rw [writes_snoc] at h
    obtain ⟨ax0, h1, h2⟩ := Except.bind_eq_ok h
    obtain ⟨i1, i2⟩ := ih ax0 h1
    refine ⟨fits_write _ _ _ _ h2 t i1, fun p => ?_⟩
    rw [axisOf_write _ _ _ _ h2, lastWrite_snoc, i2]

/-! Structure -/

mutual
theorem paths_shape : ∀ (t : PyTree S A), (shapeOf t).paths.map (fun x => x.1) = t.paths.map (fun x => x.1)
  | .none => by simp [shapeOf, PyTree.paths]
  | .leaf _ => by simp [shapeOf, PyTree.paths]
  | .node s kids => by simp only [shapeOf, PyTree.paths]; exact paths_shapeK kids
theorem paths_shapeK : ∀ (kids : Kids S A), (shapeOfK kids).paths.map (fun x => x.1) = kids.paths.map (fun x => x.1)
  | .nil => by simp [shapeOfK, Kids.paths]
  | .cons n t rest => by
    simp only [shapeOfK, Kids.paths, List.map_append, List.map_map]
    rw [paths_shapeK rest]
    have := congrArg (List.map (fun p => n :: p)) (paths_shape t)
    simp only [List.map_map] at this
    exact congrArg (· ++ _) this
end

mutual
theorem flatten_shape : ∀ (ax : PyTree S Int) (t : PyTree S A), flattenAxes ax (shapeOf t) = flattenAxes ax t
  | .none, t => by
    have := congrArg List.length (paths_shape t)
    simp only [List.length_map] at this
    simp [flattenAxes, List.map_const', this]
  | .leaf i, t => by
    have := congrArg List.length (paths_shape t)
    simp only [List.length_map] at this
    simp [flattenAxes, List.map_const', this]
  | .node s kids, .none => by simp [shapeOf, flattenAxes]
  | .node s kids, .leaf _ => by simp [shapeOf, flattenAxes]
  | .node s kids, .node s' kids' => by
    simp only [shapeOf, flattenAxes]
    rw [flatten_shapeK kids kids']
theorem flatten_shapeK : ∀ (ax : Kids S Int) (t : Kids S A), flattenAxesK ax (shapeOfK t) = flattenAxesK ax t
  | .nil, .nil => by simp [shapeOfK, flattenAxesK]
  | .nil, .cons _ _ _ => by simp [shapeOfK, flattenAxesK]
  | .cons _ _ _, .nil => by simp [shapeOfK, flattenAxesK]
  | .cons n t rest, .cons n' t' rest' => by
    simp only [shapeOfK, flattenAxesK]
    rw [flatten_shape t t', flatten_shapeK rest rest']
end

theorem shape_ofList : ∀ (l : List (String × PyTree S A)), shapeOfK (Kids.ofList l) = Kids.ofList (l.map (fun x => (x.1, shapeOf x.2)))
  | [] => by simp [Kids.ofList, shapeOfK]
  | x :: l => by
    obtain ⟨n, t⟩ := x
    simp only [Kids.ofList, shapeOfK, List.map_cons]
    rw [shape_ofList l]

theorem get_ofList (f : String) : ∀ (l : List (String × PyTree S A)), (Kids.ofList l).get f = (l.find? (fun x => x.1 = f)).map (fun x => x.2)
  | [] => by simp [Kids.ofList, Kids.get]
  | x :: l => by
    obtain ⟨n, t⟩ := x
    rw [Kids.ofList, Kids.get, List.find?_cons]
    by_cases h : n = f
    · simp [h]
    · simp [h, get_ofList f l]

theorem distinct_ofList : ∀ (l : List (String × PyTree S A)), (l.map (fun x => x.1)).Nodup → (∀ x ∈ l, DistinctNames x.2) →
    DistinctNamesK (Kids.ofList l)
  | [], _, _ => by unfold Kids.ofList DistinctNamesK; trivial
  | x :: l, hn, hd => by
    obtain ⟨n, t⟩ := x
    unfold Kids.ofList DistinctNamesK
    simp only [List.map_cons, List.nodup_cons] at hn
    refine ⟨?_, hd (n, t) (by simp), distinct_ofList l hn.2 (fun x hx => hd x (by simp [hx]))⟩
    rw [get_ofList]
    simp only [Option.map_eq_none_iff, List.find?_eq_none, decide_eq_true_eq]
    intro x hx e
    exact hn.1 (List.mem_map.2 ⟨x, hx, e⟩)

/-- Fitting axes fit entry by entry. -/
theorem flattenK_get {f : String} {c : PyTree S Int} : ∀ (kids : Kids S Int) (kids' : Kids S A) {xs : List (Option Int)},
    flattenAxesK kids kids' = .ok xs → kids.get f = some c → ∃ c' ys, kids'.get f = some c' ∧ flattenAxes c c' = .ok ys
  | .nil, _, _, _, h => by simp [Kids.get] at h
  | .cons n t rest, .nil, _, h, _ => by simp [flattenAxesK] at h
  | .cons n t rest, .cons n' t' rest', xs, h, hg => by
    unfold flattenAxesK at h
    split at h
    · rename_i e
      subst e
      cases h1 : flattenAxes t t' with
      | error e => rw [h1] at h; cases flattenAxesK rest rest' <;> cases h
      | ok ys =>
        cases h2 : flattenAxesK rest rest' with
        | error e => rw [h1, h2] at h; cases h
        | ok zs =>
          rw [Kids.get] at hg ⊢
          split at hg
          · rename_i e
            cases hg
            exact ⟨t', ys, by rw [if_pos e], h1⟩
          · rename_i e
            rw [if_neg e]
            exact flattenK_get rest rest' h2 hg
    · cases h

/-! Assignments that succeed -/

theorem write_below_blank : ∀ (path : List String) (t : PyTree S A) (x : List String × A), x ∈ t.paths → path.isPrefixOf x.1 →
    DistinctNames t → ∀ a, ∃ ax, (t.blank Int).write path a = .ok ax
  | [], t, x, _, _, _, a => ⟨.leaf a, by simp [PyTree.write]⟩
  | f :: path, t, x, hx, hp, hd, a => by
    cases t with
    | none => simp [PyTree.paths] at hx
    | leaf => simp [PyTree.paths] at hx; subst hx; simp at hp
    | node s kids =>
      rw [PyTree.paths] at hx
      unfold DistinctNames at hd
      have key : ∀ (kids : Kids S A), DistinctNamesK kids → x ∈ kids.paths → ∃ c y, kids.get f = some c ∧ y ∈ c.paths ∧
          path.isPrefixOf y.1 ∧ DistinctNames c := by
        intro kids hd hx
        induction kids using Kids.rec (motive_1 := fun _ => True) with
        | none => trivial
        | leaf => trivial
        | node => trivial
        | nil => simp [Kids.paths] at hx
        | cons n t rest _ ih =>
          unfold DistinctNamesK at hd
          rw [Kids.paths, List.mem_append] at hx
          rcases hx with hx | hx
          · obtain ⟨y, hy, rfl⟩ := List.mem_map.1 hx
            simp only [List.isPrefixOf_cons_cons, Bool.and_eq_true, beq_iff_eq] at hp
            exact ⟨t, y, by rw [Kids.get, if_pos hp.1.symm], hy, hp.2, hd.2.1⟩
          · obtain ⟨g, p, e1, e2⟩ := pathsK_get rest x hx
            obtain ⟨c, y, h1, h2⟩ := ih hd.2.2 hx
            have : n ≠ f := by rintro rfl; rw [hd.1] at h1; cases h1
            exact ⟨c, y, by rw [Kids.get, if_neg this]; exact h1, h2⟩
      obtain ⟨c, y, h1, h2, h3, h4⟩ := key kids hd hx
      obtain ⟨ax, hax⟩ := write_below_blank path c y h2 h3 h4 a
      rw [PyTree.blank, PyTree.write, get_blank, h1]
      simp only [Option.map_some, hax]
      exact ⟨_, rfl⟩

/-- An assignment does not prevent a later one that is not below it. -/
theorem write_after : ∀ (path' path : List String) (a : Int) (ax ax1 : PyTree S Int), ax.write path a = .ok ax1 →
    (path.isPrefixOf path' = false ∨ path = path') → ∀ b, (∃ ax', ax.write path' b = .ok ax') → ∃ ax', ax1.write path' b = .ok ax'
  | [], path, a, ax, ax1, _, _, b, _ => ⟨.leaf b, by simp [PyTree.write]⟩
  | g :: path', [], a, ax, ax1, _, hp, b, _ => by simp at hp
  | g :: path', f :: path, a, ax, ax1, h, hp, b, hb => by
    cases ax with
    | none => simp [PyTree.write] at h
    | leaf => simp [PyTree.write] at h
    | node s kids =>
      simp only [PyTree.write] at h hb
      split at h
      · rename_i c hc
        split at h
        · rename_i c' hc'
          cases h
          rw [PyTree.write, get_set]
          by_cases hg : g = f
          · subst hg
            rw [hc] at hb
            rw [if_pos rfl, hc]
            obtain ⟨ax', hb⟩ := hb
            cases hw : c.write path' b with
            | error e => simp only [hw] at hb; cases hb
            | ok c2 =>
              obtain ⟨c3, h3⟩ := write_after path' path a c c' hc' (by simpa using hp) b ⟨c2, hw⟩
              simp only [Option.map_some, h3]
              exact ⟨_, rfl⟩
          · rw [if_neg hg]
            obtain ⟨ax', hb⟩ := hb
            cases hk : kids.get g with
            | none => rw [hk] at hb; cases hb
            | some c2 =>
              rw [hk] at hb
              cases hw : c2.write path' b with
              | error e => simp only [hw] at hb; cases hb
              | ok c3 => simp only [hw]; exact ⟨_, rfl⟩
        · cases h
      · cases h

theorem writes_ok : ∀ (ws : List (List String × Int)) (ax : PyTree S Int),
    (∀ w ∈ ws, ∀ b, ∃ ax', ax.write w.1 b = .ok ax') → ws.Pairwise (fun v w => v.1.isPrefixOf w.1 = false ∨ v.1 = w.1) →
    ∃ ax', ax.writes ws = .ok ax'
  | [], ax, _, _ => ⟨ax, rfl⟩
  | w :: ws, ax, h, hp => by
    rw [List.pairwise_cons] at hp
    obtain ⟨ax1, h1⟩ := h w (by simp) w.2
    obtain ⟨ax', h2⟩ := writes_ok ws ax1
      (fun v hv b => write_after v.1 w.1 w.2 ax ax1 h1 (hp.1 v hv) b (h v (by simp [hv]) b)) hp.2
    exact ⟨ax', by rw [PyTree.writes, h1]; exact h2⟩

/-! ### Labels of nodes -/

/-- The label of the node at a path. -/
def labelAt : List String → PyTree S A → Option S
  | [], .node s _ => some s
  | f :: p, .node _ kids =>
    match kids.get f with
    | some t => labelAt p t
    | none => none
  | _, _ => none

theorem labelAt_blank : ∀ (p : List String) (t : PyTree S A), labelAt p (t.blank B) = labelAt p t
  | p, .none => by cases p <;> rfl
  | p, .leaf _ => by cases p <;> rfl
  | [], .node s kids => rfl
  | f :: p, .node s kids => by
    rw [PyTree.blank, labelAt, labelAt, get_blank]
    cases kids.get f with
    | none => rfl
    | some t => exact labelAt_blank p t

theorem labelAt_write : ∀ (path p : List String) (a : Int) (t t' : PyTree S Int), t.write path a = .ok t' →
    path.isPrefixOf p = false → labelAt p t' = labelAt p t
  | [], p, a, t, t', _, hp => by simp at hp
  | f :: path, p, a, t, t', h, hp => by
    cases t with
    | none => simp [PyTree.write] at h
    | leaf => simp [PyTree.write] at h
    | node s kids =>
      simp only [PyTree.write] at h
      split at h
      · rename_i c hc
        split at h
        · rename_i c' hc'
          cases h
          cases p with
          | nil => rfl
          | cons g p =>
            simp only [labelAt, get_set]
            by_cases hg : g = f
            · subst hg
              simp only [List.isPrefixOf_cons_cons, beq_self_eq_true, Bool.true_and] at hp
              simp only [if_true, hc, Option.map_some]
              exact labelAt_write path p a c c' hc' hp
            · simp [hg]
        · cases h
      · cases h

theorem labelAt_writes (p : List String) : ∀ (ws : List (List String × Int)) (t t' : PyTree S Int), t.writes ws = .ok t' →
    (∀ w ∈ ws, w.1.isPrefixOf p = false) → labelAt p t' = labelAt p t
  | [], t, t', h, _ => by simp only [PyTree.writes] at h; cases h; rfl
  | (q, a) :: ws, t, t', h, hp => by
    simp only [PyTree.writes] at h
    split at h
    · rename_i t1 h1
      rw [labelAt_writes p ws t1 t' h (fun w hw => hp w (by simp [hw])), labelAt_write q p a t t1 h1 (hp (q, a) (by simp))]
    · cases h

/-- Accepted axes have the labels of the argument. -/
theorem labelAt_flatten : ∀ (p : List String) (ax : PyTree S Int) (t : PyTree S A) {xs : List (Option Int)} {s : S},
    flattenAxes ax t = .ok xs → labelAt p ax = some s → labelAt p t = some s
  | p, .none, _, _, _, _, h => by cases p <;> simp [labelAt] at h
  | p, .leaf _, _, _, _, _, h => by cases p <;> simp [labelAt] at h
  | p, .node s kids, .none, _, _, h, _ => by simp [flattenAxes] at h
  | p, .node s kids, .leaf _, _, _, h, _ => by simp [flattenAxes] at h
  | [], .node s kids, .node s' kids', _, _, h, hl => by
    unfold flattenAxes at h
    split at h
    · rename_i e; subst e; exact hl
    · cases h
  | f :: p, .node s kids, .node s' kids', _, _, h, hl => by
    unfold flattenAxes at h
    split at h
    · simp only [labelAt] at hl ⊢
      cases hg : kids.get f with
      | none => rw [hg] at hl; cases hl
      | some c =>
        rw [hg] at hl
        obtain ⟨c', ys, h1, h2⟩ := flattenK_get kids kids' h hg
        rw [h1]
        exact labelAt_flatten p c c' h2 hl
    · cases h

mutual
theorem flatten_error : ∀ (ax : PyTree S Int) (t : PyTree S A) {e : Err}, flattenAxes ax t = .error e → e = .valueError
  | .none, _, _, h => by simp [flattenAxes] at h
  | .leaf _, _, _, h => by simp [flattenAxes] at h
  | .node _ _, .none, _, h => by simp [flattenAxes] at h; exact h.symm
  | .node _ _, .leaf _, _, h => by simp [flattenAxes] at h; exact h.symm
  | .node s kids, .node s' kids', _, h => by
    unfold flattenAxes at h
    split at h
    · exact flattenK_error kids kids' h
    · cases h; rfl
theorem flattenK_error : ∀ (ax : Kids S Int) (t : Kids S A) {e : Err}, flattenAxesK ax t = .error e → e = .valueError
  | .nil, .nil, _, h => by simp [flattenAxesK] at h
  | .nil, .cons _ _ _, _, h => by simp [flattenAxesK] at h; exact h.symm
  | .cons _ _ _, .nil, _, h => by simp [flattenAxesK] at h; exact h.symm
  | .cons n t rest, .cons n' t' rest', e, h => by
    unfold flattenAxesK at h
    split at h
    · cases h1 : flattenAxes t t' with
      | error e1 =>
        have := flatten_error t t' h1
        rw [h1] at h
        cases h2 : flattenAxesK rest rest' <;> rw [h2] at h <;> cases h <;> exact this
      | ok ys =>
        cases h2 : flattenAxesK rest rest' with
        | error e => rw [h1, h2] at h; cases h; exact flattenK_error rest rest' h2
        | ok zs => rw [h1, h2] at h; cases h
    · cases h; rfl
end

/-! ### Paths of leaves -/

theorem pathsK_of_get {f : String} {t : PyTree S A} {x : List String × A} : ∀ (kids : Kids S A), kids.get f = some t → x ∈ t.paths →
    (f :: x.1, x.2) ∈ kids.paths
  | .nil, h, _ => by simp [Kids.get] at h
  | .cons n t' rest, h, hx => by
    rw [Kids.paths, List.mem_append]
    rw [Kids.get] at h
    split at h
    · rename_i e
      cases h; subst e
      exact Or.inl (List.mem_map.2 ⟨x, hx, rfl⟩)
    · exact Or.inr (pathsK_of_get rest h hx)

end Mjinx
