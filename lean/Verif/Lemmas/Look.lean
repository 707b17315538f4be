import Verif.Spec.Look
import Verif.Lemmas.Visualize

/-! Markers as a dictionary: what the calls do to one entry. -/

namespace Mjinx.Vis
set_option linter.unusedSectionVars false
variable {K : Type} [Field K]

theorem dictSet_lookup {α : Type} (d : List (String × α)) (k : String) (v : α) (name : String) :
    (dictSet d k v).lookup name = if name = k then some v else d.lookup name := by
  unfold dictSet
  by_cases h : d.any (fun x => x.1 == k) = true
  · rw [if_pos h]
    induction d with
    | nil => simp at h
    | cons x xs ih =>
      obtain ⟨a, b⟩ := x
      by_cases hk : a = k
      · subst hk
        by_cases hn : name = a
        · subst hn; simp
        · have hb : (name == a) = false := by simpa using hn
          rw [if_neg hn]
          simp only [List.map_cons, beq_self_eq_true, if_true, List.lookup, hb]
          clear ih h
          induction xs with
          | nil => rfl
          | cons y ys ih2 =>
            obtain ⟨c, e⟩ := y
            by_cases hc : c = a
            · subst hc
              simp only [List.map_cons, beq_self_eq_true, if_true, List.lookup, hb]
              exact ih2
            · have hcb : (c == a) = false := by simpa using hc
              simp only [List.map_cons, hcb, Bool.false_eq_true, if_false, List.lookup]
              cases name == c
              · exact ih2
              · rfl
      · have hkb : (a == k) = false := by simpa using hk
        have h' : xs.any (fun x => x.1 == k) = true := by simpa [hkb] using h
        have := ih h'
        simp only [List.map_cons, hkb, Bool.false_eq_true, if_false, List.lookup]
        by_cases hn : name = a
        · subst hn
          rw [if_neg hk]
          simp
        · have hb : (name == a) = false := by simpa using hn
          simp only [hb]
          exact this
  · rw [if_neg h]
    have hall : ∀ x ∈ d, x.1 ≠ k := by
      intro x hx he
      exact h (List.any_eq_true.2 ⟨x, hx, by simpa using he⟩)
    clear h
    induction d with
    | nil =>
      by_cases hn : name = k
      · subst hn; simp
      · have hb : (name == k) = false := by simpa using hn
        simp [List.lookup, hb, hn]
    | cons x xs ih =>
      obtain ⟨a, b⟩ := x
      simp only [List.cons_append, List.lookup]
      have hk : a ≠ k := hall (a, b) (by simp)
      by_cases hn : name = a
      · subst hn; simp [hk]
      · have hb : (name == a) = false := by simpa using hn
        simp only [hb]
        exact ih (fun x hx => hall x (by simp [hx]))

theorem addLoop_lookup {a : MarkerArgs K} {base n : Nat} {mk : Nat → Marker K} (hm : ∀ j, newMarker a base n j = .ok (mk j))
    (name : String) : ∀ k i d, (∀ j, i ≤ j → j < i + k → nameAt a.name j = .ok (nameD a.name j)) →
    ((addLoop a base n (List.range' i k) d).2).lookup name =
      match (List.range' i k).reverse.find? (fun j => nameD a.name j == name) with
      | some j => some (mk j)
      | none => d.lookup name
  | 0, i, d, _ => by simp [List.range', addLoop]
  | k + 1, i, d, h => by
    simp only [List.range'_succ, addLoop, h i le_rfl (by omega), hm i, List.reverse_cons, List.find?_append]
    rw [addLoop_lookup hm name k (i + 1) _ (fun j h1 h2 => h j (by omega) (by omega)), dictSet_lookup]
    cases hf : (List.range' (i + 1) k).reverse.find? (fun j => nameD a.name j == name) with
    | some j => simp
    | none =>
      by_cases he : name = nameD a.name i
      · have hb : (nameD a.name i == name) = true := by simpa using he.symm
        simp [List.find?, he]
      · have hb : (nameD a.name i == name) = false := by simpa using fun h => he h.symm
        simp [List.find?, hb, he]

/-- The look of a marker. -/
def Marker.look (m : Marker K) : Look K := ⟨m.type, m.size, m.pos, m.rot, m.rgba⟩

theorem share_eq {n i : Nat} (h : i < n) : (linspace n i : K) = share n i := by
  unfold linspace share
  by_cases h1 : n = 1
  · simp [h1]
  · rw [if_neg (by omega), if_neg h1, Nat.cast_sub (by omega)]
    simp

theorem newMarker_look {a : MarkerArgs K} {base i : Nat} (h : i < a.n.toNat) {m : Marker K}
    (hm : newMarker a base a.n.toNat i = .ok m) : m.look = newLook a i := by
  unfold newMarker mix at hm
  split at hm
  · cases hm
    unfold newLook Marker.look sizeArray
    simp only [share_eq h, one_mul]
    cases a.size <;> rfl
  · cases hm

theorem accepted_iff (a : MarkerArgs K) (v : State K) : Accepted a ↔ (addMarkers a v).1 = .ok () := by
  unfold Accepted
  constructor
  · rintro ⟨h0, hn, hc⟩
    have hav : ∀ j, 0 ≤ j → j < 0 + a.n.toNat → nameAt a.name j = .ok (nameD a.name j) := by
      intro j _ hj
      apply nameAt_lt
      intro l hl
      rw [hl] at hn
      by_cases h1 : a.n = 1
      · have := List.length_pos_iff.2 (hn.2 h1)
        omega
      · have := hn.1 (by omega)
        omega
    have hnok : namesOk a.name a.n = true := by
      unfold namesOk
      cases hnm : a.name with
      | one s => rw [hnm] at hn; simpa using hn
      | many l =>
        rw [hnm] at hn
        simp only [Bool.or_eq_true, decide_eq_true_eq, beq_iff_eq]
        by_cases h1 : a.n ≤ 1
        · exact Or.inl h1
        · exact Or.inr (hn.1 (by omega))
    unfold addMarkers
    rw [if_pos hnok, if_neg (by omega), List.range_eq_range']
    have hl : (addLoop a v.nMarkers a.n.toNat (List.range' 0 a.n.toNat) v.markers).1 = .ok () := by
      by_cases hz : a.n.toNat = 0
      · rw [hz]; rfl
      · refine addLoop_ok (fun i => ?_) _ _ _ hav
        unfold newMarker mix
        rw [if_pos (hc (by omega))]
        exact ⟨_, rfl⟩
    cases hx : addLoop a v.nMarkers a.n.toNat (List.range' 0 a.n.toNat) v.markers with
    | mk r d =>
      rw [hx] at hl
      cases r with
      | error e => cases hl
      | ok u => rfl
  · intro h
    have hnok : namesOk a.name a.n = true := by
      by_contra hc
      unfold addMarkers at h
      rw [if_neg hc] at h
      cases h
    rcases addMarkers_cases a v with ⟨e, he⟩ | ⟨h0, hav, hl, -⟩
    · rw [he] at h; cases h
    · refine ⟨h0, ?_, ?_⟩
      · cases hnm : a.name with
        | one s => rw [hnm] at hnok; simpa [namesOk] using hnok
        | many l =>
          rw [hnm] at hnok
          simp only [namesOk, Bool.or_eq_true, decide_eq_true_eq, beq_iff_eq] at hnok
          refine ⟨fun h1 => ?_, ?_⟩
          · rcases hnok with h | h
            · omega
            · exact h
          · rintro h1 rfl
            have := hav 0 (by omega)
            rw [hnm] at this
            cases this
      · intro h1
        by_contra hc
        obtain ⟨k, hk⟩ : ∃ k, a.n.toNat = k + 1 := ⟨a.n.toNat - 1, by omega⟩
        rw [hk] at hl
        simp only [List.range'_succ, addLoop, hav 0 (by omega)] at hl
        have : newMarker a v.nMarkers (k + 1) 0 = .error .valueError := by
          unfold newMarker mix
          rw [if_neg hc]
          rfl
        rw [this] at hl
        cases hl

theorem givenNames_getD {a : MarkerArgs K} {i : Nat} (h : i < a.n.toNat) : (givenNames a).getD i "" = nameD a.name i := by
  rw [givenNames_eq]
  simp [List.getD, h]

theorem lookup_map_snd {α β : Type} (name : String) (f : String → α → β) : ∀ d : List (String × α),
    (d.map (fun x => (x.1, f x.1 x.2))).lookup name = (d.lookup name).map (f name)
  | [] => rfl
  | (a, b) :: xs => by
    simp only [List.map_cons, List.lookup]
    by_cases h : name = a
    · subst h; simp
    · have hb : (name == a) = false := by simpa using h
      simp only [hb]
      exact lookup_map_snd name f xs

theorem lookup_none {α : Type} {name : String} : ∀ {d : List (String × α)}, d.any (fun x => x.1 == name) = false → d.lookup name = none
  | [], _ => rfl
  | (a, b) :: xs, h => by
    simp only [List.any_cons, Bool.or_eq_false_iff] at h
    have : (name == a) = false := by
      have := h.1
      simp only [beq_eq_false_iff_ne] at this ⊢
      exact fun e => this e.symm
    simp only [List.lookup, this]
    exact lookup_none h.2

theorem setMarker_lookup (n : String) (f : Marker K → Marker K) (v : State K) (name : String) :
    ((((setMarker n f v).toOption).getD v).markers).lookup name =
      if n = name then (v.markers.lookup name).map f else v.markers.lookup name := by
  unfold setMarker
  by_cases h : v.markers.any (fun x => x.1 == n) = true
  · rw [if_pos h]
    show (v.markers.map (fun x => if x.1 == n then (x.1, f x.2) else x)).lookup name = _
    have : (fun x : String × Marker K => if x.1 == n then (x.1, f x.2) else x) =
        fun x => (x.1, if x.1 == n then f x.2 else x.2) := by
      funext x
      split <;> rfl
    rw [this, lookup_map_snd name (fun k m => if k == n then f m else m)]
    by_cases hn : n = name
    · subst hn; simp
    · have hb : (name == n) = false := by simpa using fun h => hn h.symm
      simp [hb, hn]
  · rw [if_neg h]
    show v.markers.lookup name = _
    by_cases hn : n = name
    · subst hn
      rw [lookup_none (Bool.not_eq_true _ ▸ h)]
      simp
    · rw [if_neg hn]

theorem lookStep_spec (name : String) (v : State K) (op : Op K) :
    ((step v op).markers.lookup name).map Marker.look = lookStep name ((v.markers.lookup name).map Marker.look) op := by
  cases op with
  | add a =>
    show (((addMarkers a v).2).markers.lookup name).map Marker.look = _
    unfold lookStep
    simp only
    by_cases hacc : Accepted a
    · rw [if_pos hacc]
      have hok := (accepted_iff a v).1 hacc
      rcases addMarkers_cases a v with ⟨e, he⟩ | ⟨h0, hav, hl, he⟩
      · rw [he] at hok; cases hok
      · rw [he]
        show ((addLoop a v.nMarkers a.n.toNat (List.range' 0 a.n.toNat) v.markers).2.lookup name).map Marker.look = _
        by_cases hz : a.n.toNat = 0
        · rw [hz]; rfl
        · rcases newMarker_ok a v.nMarkers a.n.toNat with hm | ⟨e, hm⟩
          · choose mk hmk using hm
            rw [addLoop_lookup hmk name _ _ _ (fun j _ h => hav j (by omega)), ← List.range_eq_range']
            have hcong : (List.range a.n.toNat).reverse.find? (fun i => (givenNames a).getD i "" == name) =
                (List.range a.n.toNat).reverse.find? (fun j => nameD a.name j == name) := by
              apply List.find?_congr
              intro i hi
              rw [givenNames_getD (by simpa using hi)]
            rw [hcong]
            cases hf : (List.range a.n.toNat).reverse.find? (fun j => nameD a.name j == name) with
            | none => rfl
            | some j =>
              have : j < a.n.toNat := by simpa using List.mem_of_find?_eq_some hf
              simp only [Option.map_some]
              rw [newMarker_look this (hmk j)]
          · exfalso
            obtain ⟨k, hk⟩ : ∃ k, a.n.toNat = k + 1 := ⟨a.n.toNat - 1, by omega⟩
            rw [hk] at hl hm
            simp only [List.range'_succ, addLoop, hav 0 (by omega), hm 0] at hl
            cases hl
    · rw [if_neg hacc]
      rcases addMarkers_cases a v with ⟨e, he⟩ | ⟨h0, hav, hl, he⟩
      · rw [he]
      · exact absurd ((accepted_iff a v).2 (by rw [he])) hacc
  | setPos n p =>
    show (((((setMarker n (fun m => { m with pos := p }) v).toOption).getD v).markers).lookup name).map Marker.look = _
    rw [setMarker_lookup]
    unfold lookStep
    by_cases hn : n = name
    · simp only [hn, if_true, Option.map_map]
      rfl
    · simp only [hn, if_false]
  | setRot n p =>
    show (((((setMarker n (fun m => { m with rot := p }) v).toOption).getD v).markers).lookup name).map Marker.look = _
    rw [setMarker_lookup]
    unfold lookStep
    by_cases hn : n = name
    · simp only [hn, if_true, Option.map_map]
      rfl
    · simp only [hn, if_false]
  | update q g =>
    cases hu : update q g v with
    | error e =>
      rw [step_update_error hu, (updateRaised_keep q g v).1]
      rfl
    | ok v' =>
      rw [step_update_ok hu, (update_keep hu).1]
      rfl

theorem look_run (name : String) : ∀ (ops : List (Op K)) (v : State K),
    ((run v ops).markers.lookup name).map Marker.look = ops.foldl (lookStep name) ((v.markers.lookup name).map Marker.look)
  | [], _ => rfl
  | op :: ops, v => by
    show ((run (step v op) ops).markers.lookup name).map Marker.look = ops.foldl (lookStep name) (lookStep name _ op)
    rw [look_run name ops, lookStep_spec]

theorem acceptedNames_eq : ∀ (ops : List (Op K)) (v : State K), addedNames v ops = acceptedNames ops
  | [], _ => rfl
  | .add a :: ops, v => by
    rw [addedNames, acceptedNames_eq ops]
    unfold acceptedNames
    rw [List.flatMap_cons]
    congr 1
    by_cases h : Accepted a
    · simp only [if_pos h, (accepted_iff a v).1 h]
    · simp only [if_neg h]
      cases hr : (addMarkers a v).1 with
      | error e => rfl
      | ok u => exact absurd ((accepted_iff a v).2 hr) h
  | .setPos _ _ :: ops, v => by rw [addedNames, acceptedNames_eq ops]; exacts [rfl, nofun]
  | .setRot _ _ :: ops, v => by rw [addedNames, acceptedNames_eq ops]; exacts [rfl, nofun]
  | .update _ _ :: ops, v => by rw [addedNames, acceptedNames_eq ops]; exacts [rfl, nofun]
  termination_by ops => ops

theorem mem_of_lookup {α : Type} {name : String} {m : α} : ∀ {d : List (String × α)}, d.lookup name = some m → (name, m) ∈ d
  | [], h => by cases h
  | (a, b) :: xs, h => by
    simp only [List.lookup] at h
    by_cases hn : name = a
    · subst hn
      simp only [beq_self_eq_true, Option.some.injEq] at h
      simp [h]
    · have hb : (name == a) = false := by simpa using hn
      simp only [hb] at h
      exact List.mem_cons_of_mem _ (mem_of_lookup h)

theorem lookup_of_mem {α : Type} {name : String} {m : α} : ∀ {d : List (String × α)}, (d.map Prod.fst).Nodup → (name, m) ∈ d →
    d.lookup name = some m
  | (a, b) :: xs, hnd, h => by
    simp only [List.map_cons, List.nodup_cons] at hnd
    rcases List.mem_cons.1 h with h' | h'
    · cases h'; simp [List.lookup]
    · have hn : name ≠ a := by
        rintro rfl
        exact hnd.1 (List.mem_map_of_mem (f := Prod.fst) h')
      have hb : (name == a) = false := by simpa using hn
      simp only [List.lookup, hb]
      exact lookup_of_mem hnd.2 h'

theorem drawable_shows {m : Marker K} {d : Drawn K} (h : Drawable m d) : Shows d m.look :=
  ⟨h.2.2.2.1, h.2.2.2.2.1, h.2.2.2.2.2.1, h.2.2.2.2.2.2.1, h.2.2.2.2.2.2.2⟩

theorem fits_iff (m : Marker K) : m.look.Fits ↔ ∃ d, initGeom m = .ok d := by
  constructor
  · rintro ⟨h1, h2, h3, h4⟩
    unfold initGeom
    have : ∃ l, rotMatrix m.rot = .ok l ∧ l.length = 9 := by
      rcases h4 with h4 | ⟨r, c, h4, h5⟩
      · refine ⟨ravel2 3 3 (m3Entry (quatMatrix (m.rot.get [0]) (m.rot.get [1]) (m.rot.get [2]) (m.rot.get [3]))), ?_, rfl⟩
        unfold rotMatrix
        rw [show m.rot.shape = [4] from h4]
        rfl
      · refine ⟨ravel2 r c (fun i j => m.rot.get [i, j]), ?_, by rw [ravel2_length, h5]⟩
        unfold rotMatrix
        rw [show m.rot.shape = [r, c] from h4]
    obtain ⟨l, hl, hl9⟩ := this
    rw [hl]
    simp only [bind, Except.bind]
    rw [if_pos ⟨h1, h2, hl9, h3⟩]
    exact ⟨_, rfl⟩
  · rintro ⟨d, hd⟩
    have := (drawable_iff m d).1 hd
    obtain ⟨h1, h2, h3, -, -, -, -, h4⟩ := this
    refine ⟨h1, h2, h3, ?_⟩
    rcases h4.2 with h | ⟨r, c, h, h', -⟩
    · exact Or.inl h.1
    · exact Or.inr ⟨r, c, h, h'⟩

end Mjinx.Vis
