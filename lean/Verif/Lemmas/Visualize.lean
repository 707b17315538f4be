import Verif.Spec.Visualize
import Mathlib.Data.List.Nodup
import Mathlib.Data.List.GetD
import Mathlib.Tactic.Ring
import Mathlib.Tactic.Linarith

/-! Lemmas about markers and scenes. -/

namespace Mjinx.Vis
set_option linter.unusedSectionVars false
variable {K : Type} [Field K]

theorem dictSet_keys {α : Type} (d : List (String × α)) (k : String) (v : α) :
    (dictSet d k v).map Prod.fst = if k ∈ d.map Prod.fst then d.map Prod.fst else d.map Prod.fst ++ [k] := by
  unfold dictSet
  by_cases h : d.any (fun x => x.1 == k)
  · have hm : k ∈ d.map Prod.fst := by
      obtain ⟨x, hx, he⟩ := List.any_eq_true.1 h
      exact List.mem_map.2 ⟨x, hx, by simpa using he⟩
    rw [if_pos h, if_pos hm, List.map_map]
    apply List.map_congr_left
    intro x _
    by_cases hx : x.1 = k
    · simp [hx]
    · simp [hx]
  · have hm : k ∉ d.map Prod.fst := by
      intro hm
      obtain ⟨x, hx, he⟩ := List.mem_map.1 hm
      exact h (List.any_eq_true.2 ⟨x, hx, by simpa using he⟩)
    rw [if_neg h, if_neg hm]
    simp

theorem dictSet_fresh {α : Type} {d : List (String × α)} {k : String} (h : k ∉ d.map Prod.fst) (v : α) :
    dictSet d k v = d ++ [(k, v)] := by
  unfold dictSet
  rw [if_neg]
  intro ha
  obtain ⟨x, hx, he⟩ := List.any_eq_true.1 ha
  exact h (List.mem_map.2 ⟨x, hx, by simpa using he⟩)

theorem dictSet_mem {α : Type} {d : List (String × α)} {k : String} {v : α} {x : String × α} (h : x ∈ dictSet d k v) :
    x = (k, v) ∨ x ∈ d := by
  unfold dictSet at h
  split at h
  · obtain ⟨y, hy, he⟩ := List.mem_map.1 h
    split at he
    · exact Or.inl he.symm
    · exact Or.inr (he ▸ hy)
  · rcases List.mem_append.1 h with h | h
    · exact Or.inr h
    · exact Or.inl (by simpa using h)

theorem dictSet_nodup {α : Type} {d : List (String × α)} {k : String} (v : α) (h : (d.map Prod.fst).Nodup) :
    ((dictSet d k v).map Prod.fst).Nodup := by
  rw [dictSet_keys]
  split
  · exact h
  · rename_i hk
    exact List.nodup_append.2 ⟨h, by simp, by rintro a ha b hb rfl; simp at hb; exact hk (hb ▸ ha)⟩

/-- Distinct ids in a dictionary, relationally: equal ids only for equal keys. -/
def IdsDistinct (d : List (String × Marker K)) : Prop :=
  ∀ x ∈ d, ∀ y ∈ d, x.2.id = y.2.id → x = y

theorem dictSet_ids {d : List (String × Marker K)} {k : String} {m : Marker K} (h : IdsDistinct d) (hb : ∀ x ∈ d, x.2.id < m.id) :
    IdsDistinct (dictSet d k m) := by
  intro x hx y hy he
  rcases dictSet_mem hx with rfl | hx' <;> rcases dictSet_mem hy with rfl | hy'
  · rfl
  · exact absurd he (hb y hy').ne'
  · exact absurd he (hb x hx').ne
  · exact h x hx' y hy' he

theorem newMarker_id {a : MarkerArgs K} {base n i : Nat} {m : Marker K} (h : newMarker a base n i = .ok m) : m.id = base + i := by
  unfold newMarker at h
  cases hc : mix (linspace n i) a.colorBegin (a.colorEnd.getD a.colorBegin) with
  | error e => rw [hc] at h; cases h
  | ok c => rw [hc] at h; cases h; rfl

theorem newMarker_ok (a : MarkerArgs K) (base n : Nat) : (∀ i, ∃ m, newMarker a base n i = .ok m) ∨ (∃ e, ∀ i, newMarker a base n i = .error e) := by
  by_cases h : a.colorBegin.length = (a.colorEnd.getD a.colorBegin).length
  · left; intro i
    unfold newMarker mix
    rw [if_pos h]
    exact ⟨_, rfl⟩
  · right; refine ⟨.valueError, fun i => ?_⟩
    unfold newMarker mix
    rw [if_neg h]
    rfl

/-- The invariant kept by the loop that adds markers, from index `i` on. -/
theorem addLoop_inv (a : MarkerArgs K) (base n : Nat) : ∀ k i d, (d.map Prod.fst).Nodup → IdsDistinct d → (∀ x ∈ d, x.2.id < base + i) →
    let d' := (addLoop a base n (List.range' i k) d).2
    (d'.map Prod.fst).Nodup ∧ IdsDistinct d' ∧ ∀ x ∈ d', x.2.id < base + i + k
  | 0, i, d, h1, h2, h3 => ⟨h1, h2, by simpa [List.range', addLoop] using h3⟩
  | k + 1, i, d, h1, h2, h3 => by
    simp only [List.range'_succ, addLoop]
    cases hn : nameAt a.name i with
    | error e => exact ⟨h1, h2, fun x hx => by have := h3 x hx; omega⟩
    | ok s =>
      cases hm : newMarker a base n i with
      | error e => exact ⟨h1, h2, fun x hx => by have := h3 x hx; omega⟩
      | ok m =>
        have hid := newMarker_id hm
        have := addLoop_inv a base n k (i + 1) (dictSet d s m) (dictSet_nodup m h1)
          (dictSet_ids h2 (fun x hx => by rw [hid]; exact h3 x hx)) (by
            intro x hx
            rcases dictSet_mem hx with rfl | hx'
            · show m.id < _
              omega
            · have := h3 x hx'; omega)
        refine ⟨this.1, this.2.1, fun x hx => ?_⟩
        have := this.2.2 x hx
        omega

/-- The name of the `i`-th marker. -/
def nameD (nm : Names) (i : Nat) : String := match nm with | .one s => s | .many l => l.getD i ""

theorem givenNames_eq (a : MarkerArgs K) : givenNames a = (List.range a.n.toNat).map (nameD a.name) := rfl

theorem nameAt_lt {nm : Names} {i : Nat} (h : ∀ l, nm = .many l → i < l.length) : nameAt nm i = .ok (nameD nm i) := by
  cases nm with
  | one s => rfl
  | many l =>
    have := h l rfl
    have e : l[i]? = some l[i] := List.getElem?_eq_getElem this
    have hneg : ¬ ((i : Int) < 0) := by omega
    simp only [nameAt, npGet, hneg, if_false, Int.toNat_natCast, e, nameD]
    rw [List.getD_eq_getElem l "" this]

theorem addLoop_ok {a : MarkerArgs K} {base n : Nat} (hm : ∀ i, ∃ m, newMarker a base n i = .ok m) : ∀ k i d,
    (∀ j, i ≤ j → j < i + k → nameAt a.name j = .ok (nameD a.name j)) →
    (addLoop a base n (List.range' i k) d).1 = .ok ()
  | 0, _, _, _ => rfl
  | k + 1, i, d, h => by
    obtain ⟨m, hm'⟩ := hm i
    simp only [List.range'_succ, addLoop, h i le_rfl (by omega), hm']
    exact addLoop_ok hm k (i + 1) _ (fun j h1 h2 => h j (by omega) (by omega))

/-- With new names, the loop appends the markers with consecutive ids. -/
theorem addLoop_fresh {a : MarkerArgs K} {base n : Nat} : ∀ k i d,
    (addLoop a base n (List.range' i k) d).1 = .ok () →
    (∀ j, i ≤ j → j < i + k → nameAt a.name j = .ok (nameD a.name j)) →
    (d.map Prod.fst ++ (List.range' i k).map (nameD a.name)).Nodup →
    ((addLoop a base n (List.range' i k) d).2).map (fun x => (x.1, x.2.id)) =
      d.map (fun x => (x.1, x.2.id)) ++ (List.range' i k).map (fun j => (nameD a.name j, base + j))
  | 0, i, d, _, _, _ => by simp [List.range', addLoop]
  | k + 1, i, d, hok, hn, hnd => by
    simp only [List.range'_succ, addLoop, hn i le_rfl (by omega)] at hok ⊢
    cases hm : newMarker a base n i with
    | error e => rw [hm] at hok; cases hok
    | ok m =>
      rw [hm] at hok
      simp only at hok ⊢
      have hf : nameD a.name i ∉ d.map Prod.fst := by
        intro hmem
        rw [List.nodup_append] at hnd
        exact hnd.2.2 _ hmem (nameD a.name i) (by simp [List.range'_succ]) rfl
      rw [dictSet_fresh hf] at hok ⊢
      rw [addLoop_fresh k (i + 1) _ hok (fun j h1 h2 => hn j (by omega) (by omega))]
      · simp [newMarker_id hm]
      · simpa [List.range'_succ, List.append_assoc] using hnd

/-- The names are available whenever the check of `add_markers` passes and the call does not fail. -/
theorem names_avail {a : MarkerArgs K} (h : namesOk a.name a.n = true) (hn : a.n.toNat ≠ 1) {j : Nat} (hj : j < a.n.toNat) :
    nameAt a.name j = .ok (nameD a.name j) := by
  apply nameAt_lt
  intro l hl
  rw [hl] at h
  simp only [namesOk, Bool.or_eq_true, decide_eq_true_eq, beq_iff_eq] at h
  omega

theorem addMarkers_cases (a : MarkerArgs K) (v : State K) :
    (∃ e, addMarkers a v = (.error e, v)) ∨
    (0 ≤ a.n ∧ (∀ j < a.n.toNat, nameAt a.name j = .ok (nameD a.name j)) ∧
      (addLoop a v.nMarkers a.n.toNat (List.range' 0 a.n.toNat) v.markers).1 = .ok () ∧
      addMarkers a v = (.ok (), { v with
        markers := (addLoop a v.nMarkers a.n.toNat (List.range' 0 a.n.toNat) v.markers).2, nMarkers := v.nMarkers + a.n.toNat,
        viewer := v.viewer.map (·.grow a.n.toNat), renderer := v.renderer.map (·.grow a.n.toNat) })) := by
  unfold addMarkers
  by_cases h1 : namesOk a.name a.n = true
  · rw [if_pos h1]
    by_cases h2 : a.n < 0
    · rw [if_pos h2]; exact Or.inl ⟨_, rfl⟩
    · rw [if_neg h2, List.range_eq_range']
      by_cases hn : a.n.toNat = 1
      · rw [hn]
        simp only [List.range', addLoop]
        cases hname : nameAt a.name 0 with
        | error e => left; exact ⟨e, rfl⟩
        | ok s =>
          have hs : nameD a.name 0 = s := by
            cases hnm : a.name with
            | one t => rw [hnm] at hname; cases hname; rfl
            | many l =>
              rw [hnm] at hname
              cases l with
              | nil => cases hname
              | cons x xs => cases hname; rfl
          cases hm : newMarker a v.nMarkers 1 0 with
          | error e => left; exact ⟨e, rfl⟩
          | ok m =>
            right
            refine ⟨by omega, ?_, rfl, rfl⟩
            intro j hj
            obtain rfl : j = 0 := by omega
            rw [hname, hs]
      · have hav : ∀ j < a.n.toNat, nameAt a.name j = .ok (nameD a.name j) := fun j hj => names_avail h1 hn hj
        rcases newMarker_ok a v.nMarkers a.n.toNat with hok | ⟨e, he⟩
        · right
          have hl := addLoop_ok hok a.n.toNat 0 v.markers (fun j _ h => hav j (by omega))
          refine ⟨by omega, hav, hl, ?_⟩
          cases hx : addLoop a v.nMarkers a.n.toNat (List.range' 0 a.n.toNat) v.markers with
          | mk r d => rw [hx] at hl; cases r with
            | error e => cases hl
            | ok u => rfl
        · by_cases h0 : a.n.toNat = 0
          · right
            refine ⟨by omega, hav, by rw [h0]; rfl, by rw [h0]; rfl⟩
          · left
            obtain ⟨k, hk⟩ := Nat.exists_eq_succ_of_ne_zero h0
            refine ⟨e, ?_⟩
            have : addLoop a v.nMarkers a.n.toNat (List.range' 0 a.n.toNat) v.markers = (.error e, v.markers) := by
              rw [show List.range' 0 a.n.toNat = 0 :: List.range' 1 k by rw [hk]; rfl]
              simp only [addLoop, hav 0 (by omega), he 0]
            rw [this]
  · rw [if_neg h1]; exact Or.inl ⟨_, rfl⟩

/-- What holds in every reachable state. -/
structure Inv (N : Option Nat) (v : State K) : Prop where
  names : (v.markers.map Prod.fst).Nodup
  distinct : IdsDistinct v.markers
  bound : ∀ x ∈ v.markers, x.2.id < v.nMarkers
  viewer : v.viewer.map (fun s => (s.ngeom, s.geoms.length)) = N.map (fun n => ((v.nMarkers : Int), n))

theorem setMarker_ok {name : String} {f : Marker K → Marker K} {v v' : State K} (h : setMarker name f v = .ok v') :
    v' = { v with markers := v.markers.map (fun x => if x.1 == name then (x.1, f x.2) else x) } := by
  unfold setMarker at h
  split at h
  · cases h; rfl
  · cases h

theorem drawOne_len {n : Nat} {s s' : Scene K} {m : Marker K} (h : drawOne n s m = .ok s') :
    s'.ngeom = s.ngeom ∧ s'.geoms.length = s.geoms.length := by
  unfold drawOne at h
  cases hk : pyIndex s.geoms.length (slotIndex s n m) with
  | error e => rw [hk] at h; cases h
  | ok k =>
    rw [hk] at h
    cases hd : initGeom m with
    | error e => rw [hd] at h; cases h
    | ok d => rw [hd] at h; cases h; exact ⟨rfl, by simp⟩

theorem drawMarkers_len {n : Nat} : ∀ {ms : List (Marker K)} {s s' : Scene K}, drawMarkers n ms s = .ok s' →
    s'.ngeom = s.ngeom ∧ s'.geoms.length = s.geoms.length
  | [], s, s', h => by cases h; exact ⟨rfl, rfl⟩
  | m :: ms, s, s', h => by
    unfold drawMarkers at h
    rw [List.foldlM_cons] at h
    cases h1 : drawOne n s m with
    | error e => rw [h1] at h; cases h
    | ok s1 =>
      rw [h1] at h
      have a := drawOne_len h1
      have b := drawMarkers_len (ms := ms) (s := s1) h
      exact ⟨b.1.trans a.1, b.2.trans a.2⟩

theorem updateRenderer_keep {g : Nat} {v v' : State K} (h : updateRenderer g v = .ok v') :
    v'.markers = v.markers ∧ v'.nMarkers = v.nMarkers ∧ v'.viewer = v.viewer := by
  unfold updateRenderer at h
  split at h
  · cases h; exact ⟨rfl, rfl, rfl⟩
  · rename_i s _
    cases hd : drawMarkers v.nMarkers (v.markers.map Prod.snd) (updateScene g s) with
    | error e => rw [hd] at h; cases h
    | ok s' => rw [hd] at h; cases h; exact ⟨rfl, rfl, rfl⟩

theorem updateViewer_keep {v v' : State K} (h : updateViewer v = .ok v') :
    v'.markers = v.markers ∧ v'.nMarkers = v.nMarkers ∧
      v'.viewer.map (fun s => (s.ngeom, s.geoms.length)) = v.viewer.map (fun s => (s.ngeom, s.geoms.length)) ∧
      v'.renderer = v.renderer ∧ v'.frames = v.frames := by
  unfold updateViewer at h
  split at h
  · cases h; exact ⟨rfl, rfl, rfl, rfl, rfl⟩
  · rename_i s hs
    cases hd : drawMarkers v.nMarkers (v.markers.map Prod.snd) s with
    | error e => rw [hd] at h; cases h
    | ok s' =>
      rw [hd] at h; cases h
      refine ⟨rfl, rfl, ?_, rfl, rfl⟩
      have := drawMarkers_len hd
      rw [hs]
      simp [this.1, this.2]

theorem update_parts {q : List K} {g : Nat} {v v' : State K} (h : update q g v = .ok v') :
    ∃ qp v1, assignQpos v.nq q = .ok qp ∧ updateViewer { v with qpos := qp } = .ok v1 ∧ updateRenderer g v1 = .ok v' := by
  unfold update at h
  cases h0 : assignQpos v.nq q with
  | error e => rw [h0] at h; cases h
  | ok qp =>
    rw [h0] at h
    cases h1 : updateViewer { v with qpos := qp } with
    | error e => simp only [bind, Except.bind, h1] at h; cases h
    | ok v1 =>
      simp only [bind, Except.bind, h1] at h
      exact ⟨qp, v1, rfl, h1, h⟩

theorem update_keep {q : List K} {g : Nat} {v v' : State K} (h : update q g v = .ok v') :
    v'.markers = v.markers ∧ v'.nMarkers = v.nMarkers ∧
      v'.viewer.map (fun s => (s.ngeom, s.geoms.length)) = v.viewer.map (fun s => (s.ngeom, s.geoms.length)) := by
  obtain ⟨qp, v1, -, h1, h2⟩ := update_parts h
  have a := updateViewer_keep h1
  have b := updateRenderer_keep h2
  exact ⟨b.1.trans a.1, b.2.1.trans a.2.1, by rw [b.2.2]; exact a.2.2.1⟩

theorem drawnUntil_len {n : Nat} : ∀ (ms : List (Marker K)) (s : Scene K),
    (drawnUntil n ms s).ngeom = s.ngeom ∧ (drawnUntil n ms s).geoms.length = s.geoms.length
  | [], _ => ⟨rfl, rfl⟩
  | m :: ms, s => by
    unfold drawnUntil
    split
    · exact ⟨rfl, rfl⟩
    · rename_i s' h
      have a := drawOne_len h
      have b := drawnUntil_len (n := n) ms s'
      exact ⟨b.1.trans a.1, b.2.trans a.2⟩

theorem updateRaised_keep (q : List K) (g : Nat) (v : State K) :
    (updateRaised q g v).markers = v.markers ∧ (updateRaised q g v).nMarkers = v.nMarkers ∧
      (updateRaised q g v).viewer.map (fun s => (s.ngeom, s.geoms.length)) = v.viewer.map (fun s => (s.ngeom, s.geoms.length)) ∧
      (updateRaised q g v).frames = v.frames ∧ (updateRaised q g v).renderer.isSome = v.renderer.isSome ∧ (updateRaised q g v).nq = v.nq := by
  unfold updateRaised
  split
  · exact ⟨rfl, rfl, rfl, rfl, rfl, rfl⟩
  · split
    · refine ⟨rfl, rfl, ?_, rfl, rfl, rfl⟩
      show (v.viewer.map _).map _ = _
      rw [Option.map_map]
      congr 1
      funext s
      have := drawnUntil_len (n := v.nMarkers) (v.markers.map Prod.snd) s
      simp [this.1, this.2]
    · rename_i v1 h
      obtain ⟨a, b, c, d, e⟩ := updateViewer_keep h
      refine ⟨a, b, c, e, ?_, ?_⟩
      · show (v1.renderer.map _).isSome = _
        rw [Option.isSome_map, d]
      · show v1.nq = _
        unfold updateViewer at h
        split at h
        · cases h; rfl
        · rename_i s hs
          cases hd : drawMarkers v.nMarkers (v.markers.map Prod.snd) s with
          | error e => simp only [hd] at h; cases h
          | ok s' => simp only [hd] at h; cases h; rfl

/-- The visualizer after a call of `update`. -/
theorem step_update_ok {q : List K} {g : Nat} {v v' : State K} (h : update q g v = .ok v') : step v (.update q g) = v' := by
  show (match update q g v with | .ok v' => v' | .error _ => updateRaised q g v) = v'
  rw [h]

theorem step_update_error {q : List K} {g : Nat} {v : State K} {e : Err} (h : update q g v = .error e) :
    step v (.update q g) = updateRaised q g v := by
  show (match update q g v with | .ok v' => v' | .error _ => updateRaised q g v) = _
  rw [h]

theorem inv_setMarker {N : Option Nat} {name : String} {f : Marker K → Marker K} (hf : ∀ m, (f m).id = m.id) {v : State K}
    (h : Inv N v) : Inv N (((setMarker name f v).toOption).getD v) := by
  cases hs : setMarker name f v with
  | error e => exact h
  | ok v' =>
    show Inv N v'
    rw [setMarker_ok hs]
    have hkeep : ∀ x : String × Marker K, (if x.1 == name then (x.1, f x.2) else x).1 = x.1 ∧
        (if x.1 == name then (x.1, f x.2) else x).2.id = x.2.id := by
      intro x; split <;> simp [hf]
    constructor
    · show ((v.markers.map _).map Prod.fst).Nodup
      rw [List.map_map]
      have : (Prod.fst ∘ fun x : String × Marker K => if x.1 == name then (x.1, f x.2) else x) = Prod.fst :=
        funext (fun x => (hkeep x).1)
      rw [this]; exact h.names
    · intro x hx y hy he
      obtain ⟨x0, hx0, rfl⟩ := List.mem_map.1 hx
      obtain ⟨y0, hy0, rfl⟩ := List.mem_map.1 hy
      rw [(hkeep x0).2, (hkeep y0).2] at he
      rw [h.distinct x0 hx0 y0 hy0 he]
    · intro x hx
      obtain ⟨x0, hx0, rfl⟩ := List.mem_map.1 hx
      rw [(hkeep x0).2]; exact h.bound x0 hx0
    · exact h.viewer

theorem inv_step {N : Option Nat} {v : State K} (h : Inv N v) (op : Op K) : Inv N (step v op) := by
  cases op with
  | add a =>
    show Inv N (addMarkers a v).2
    rcases addMarkers_cases a v with ⟨e, he⟩ | ⟨-, -, -, he⟩
    · rw [he]; exact h
    · rw [he]
      have := addLoop_inv a v.nMarkers a.n.toNat a.n.toNat 0 v.markers h.names h.distinct (by simpa using h.bound)
      refine ⟨this.1, this.2.1, by simpa using this.2.2, ?_⟩
      have hv := h.viewer
      show (v.viewer.map (·.grow a.n.toNat)).map _ = _
      cases N with
      | none =>
        cases hvv : v.viewer with
        | none => rfl
        | some s => rw [hvv] at hv; cases hv
      | some n =>
        cases hvv : v.viewer with
        | none => rw [hvv] at hv; cases hv
        | some s =>
          rw [hvv] at hv
          simp only [Option.map_some, Option.some.injEq, Prod.mk.injEq] at hv
          simp [Scene.grow, hv.1, hv.2]
  | setPos n p => exact inv_setMarker (f := fun m => { m with pos := p }) (fun _ => rfl) h
  | setRot n r => exact inv_setMarker (f := fun m => { m with rot := r }) (fun _ => rfl) h
  | update q g =>
    cases hu : update q g v with
    | error e =>
      rw [step_update_error hu]
      obtain ⟨h1, h2, h3, -⟩ := updateRaised_keep q g v
      exact ⟨by rw [h1]; exact h.names, by rw [h1]; exact h.distinct, by rw [h1, h2]; exact h.bound, by rw [h3, h2]; exact h.viewer⟩
    | ok v' =>
      rw [step_update_ok hu]
      obtain ⟨h1, h2, h3⟩ := update_keep hu
      exact ⟨by rw [h1]; exact h.names, by rw [h1]; exact h.distinct, by rw [h1, h2]; exact h.bound, by rw [h3, h2]; exact h.viewer⟩

theorem inv_init (viewer renderer : Option Nat) (nq : Nat) : Inv viewer (State.init viewer renderer nq : State K) := by
  refine ⟨by simp [State.init], ?_, by simp [State.init], ?_⟩
  · intro x hx; simp [State.init] at hx
  · cases viewer <;> simp [State.init]

theorem inv_run {N : Option Nat} : ∀ (ops : List (Op K)) {v : State K}, Inv N v → Inv N (run v ops)
  | [], _, h => h
  | op :: ops, _, h => inv_run ops (inv_step h op)

theorem pyIndex_nonneg {n : Nat} {i : Int} (h0 : 0 ≤ i) (h1 : i < n) : pyIndex n i = .ok i.toNat := by
  unfold pyIndex
  have : ¬ i < 0 := by omega
  simp [this, h0, h1]

theorem updateScene_eq {g : Nat} {s : Scene K} (h : g ≤ s.geoms.length) :
    updateScene g s = { ngeom := g, geoms := (List.range g).map (fun (k : Nat) => .model k) ++ s.geoms.drop g } := by
  unfold updateScene
  rw [Nat.min_eq_left h]

theorem updateScene_len (g : Nat) (s : Scene K) : (updateScene g s).geoms.length = s.geoms.length := by
  simp [updateScene]

/-- Drawing markers with distinct ids whose slots exist: every marker is in its slot, the other slots are unchanged. -/
theorem drawMarkers_spec {n : Nat} : ∀ (ms : List (Marker K)) (s : Scene K), (∀ m ∈ ms, ∃ d, initGeom m = .ok d) →
    (∀ m ∈ ms, 0 ≤ slotIndex s n m ∧ slotIndex s n m < s.geoms.length) → (ms.map Marker.id).Nodup →
    ∃ s', drawMarkers n ms s = .ok s' ∧ s'.ngeom = s.ngeom ∧ s'.geoms.length = s.geoms.length ∧
      (∀ m ∈ ms, ∀ d, initGeom m = .ok d → s'.geoms[(slotIndex s n m).toNat]? = some (.marker d)) ∧
      ∀ k : Nat, (∀ m ∈ ms, (slotIndex s n m).toNat ≠ k) → s'.geoms[k]? = s.geoms[k]?
  | [], s, _, _, _ => ⟨s, rfl, rfl, rfl, by simp, fun _ _ => rfl⟩
  | m :: ms, s, hd, hb, hnd => by
    obtain ⟨d, hm⟩ := hd m (by simp)
    have hbm := hb m (by simp)
    let s1 : Scene K := { s with geoms := s.geoms.set (slotIndex s n m).toNat (.marker d) }
    have h1 : drawOne n s m = .ok s1 := by
      unfold drawOne
      rw [pyIndex_nonneg hbm.1 hbm.2]
      simp only [bind, Except.bind, hm]
      rfl
    have hsl : ∀ x, slotIndex s1 n x = slotIndex s n x := fun _ => rfl
    obtain ⟨s', h2, h3, h4, h5, h6⟩ := drawMarkers_spec (n := n) ms s1 (fun x hx => hd x (by simp [hx]))
      (fun x hx => by rw [hsl]; simpa [s1] using hb x (by simp [hx])) (List.nodup_cons.1 (by simpa using hnd)).2
    refine ⟨s', ?_, h3, by rw [h4]; simp [s1], ?_, ?_⟩
    · unfold drawMarkers
      rw [List.foldlM_cons, h1]
      exact h2
    · intro x hx dx hdx
      rcases List.mem_cons.1 hx with rfl | hx'
      · rw [h6 (slotIndex s n x).toNat ?_]
        · rw [hm] at hdx; cases hdx
          simp only [s1]
          rw [List.getElem?_set_self (by omega)]
        · intro y hy he
          have hne : y.id ≠ x.id := by
            intro e
            have := (List.nodup_cons.1 (by simpa using hnd : (x.id :: ms.map Marker.id).Nodup)).1
            exact this (e ▸ List.mem_map_of_mem hy)
          have hy' := hb y (by simp [hy])
          rw [hsl] at he
          unfold slotIndex at he hbm hy'
          omega
      · exact h5 x hx' dx hdx
    · intro k hk
      rw [h6 k (fun x hx => hk x (by simp [hx]))]
      simp only [s1]
      exact List.getElem?_set_ne (hk m (by simp))

theorem nodup_ids {d : List (String × Marker K)} (h : (d.map Prod.fst).Nodup) (h2 : IdsDistinct d) :
    ((d.map Prod.snd).map Marker.id).Nodup := by
  rw [List.map_map]
  exact List.Nodup.map_on (fun x hx y hy he => h2 x hx y hy he) (List.Nodup.of_map _ h)

theorem drawMarkers_drawable {n : Nat} : ∀ {ms : List (Marker K)} {s s' : Scene K}, drawMarkers n ms s = .ok s' →
    ∀ m ∈ ms, ∃ d, initGeom m = .ok d
  | [], _, _, _, m, hm => by cases hm
  | m :: ms, s, s', h, m', hm => by
    unfold drawMarkers at h
    rw [List.foldlM_cons] at h
    cases h1 : drawOne n s m with
    | error e => rw [h1] at h; cases h
    | ok s1 =>
      rw [h1] at h
      rcases List.mem_cons.1 hm with rfl | hm
      · unfold drawOne at h1
        cases hk : pyIndex s.geoms.length (slotIndex s n m') with
        | error e => rw [hk] at h1; cases h1
        | ok k =>
          rw [hk] at h1
          cases hd : initGeom m' with
          | error e => rw [hd] at h1; cases h1
          | ok d => exact ⟨d, rfl⟩
      · exact drawMarkers_drawable (ms := ms) (s := s1) h m' hm

theorem ravel2_succ (r c : Nat) (f : Nat → Nat → K) : ravel2 (r + 1) c f = ravel2 r c f ++ (List.range c).map (fun j => f r j) := by
  simp [ravel2, List.range_succ, List.flatMap_append]

theorem ravel2_length (r c : Nat) (f : Nat → Nat → K) : (ravel2 r c f).length = r * c := by
  simp [ravel2, List.length_flatMap]

theorem ravel2_get (c : Nat) (f : Nat → Nat → K) : ∀ (r : Nat) {i j : Nat}, i < r → j < c → (ravel2 r c f)[c * i + j]? = some (f i j)
  | 0, i, j, hi, hj => by omega
  | r + 1, i, j, hi, hj => by
    rw [ravel2_succ]
    by_cases h : i < r
    · have : c * i + j < (ravel2 r c f).length := by
        rw [ravel2_length]
        calc c * i + j < c * i + c := by omega
          _ = c * (i + 1) := by ring
          _ ≤ c * r := Nat.mul_le_mul_left _ h
          _ = r * c := Nat.mul_comm _ _
      rw [List.getElem?_append_left this, ravel2_get c f r h hj]
    · obtain rfl : i = r := by omega
      rw [List.getElem?_append_right (by rw [ravel2_length, Nat.mul_comm i c]; omega), ravel2_length, Nat.mul_comm i c]
      simp [hj]

theorem ravel2_unique {r c : Nat} {f : Nat → Nat → K} {l : List K} (hl : l.length = r * c)
    (h : ∀ i < r, ∀ j < c, l[c * i + j]? = some (f i j)) : l = ravel2 r c f := by
  apply List.ext_getElem?
  intro n
  by_cases hn : n < r * c
  · have hc : 0 < c := by
      rcases Nat.eq_zero_or_pos c with rfl | h'
      · simp at hn
      · exact h'
    have hi : n / c < r := (Nat.div_lt_iff_lt_mul hc).2 hn
    have hj : n % c < c := Nat.mod_lt _ hc
    have e := Nat.div_add_mod n c
    rw [← e, h _ hi _ hj, ravel2_get c f r hi hj]
  · rw [List.getElem?_eq_none (by omega), List.getElem?_eq_none (by rw [ravel2_length]; omega)]

/-- `rot_matrix` returns nine numbers exactly if they are the matrix of the orientation. -/
theorem matrixOf_iff (rot : Arr K) (l : List K) : (rotMatrix rot = .ok l ∧ l.length = 9) ↔ MatrixOf rot l := by
  unfold rotMatrix MatrixOf
  split
  · rename_i n hn
    rw [hn]
    by_cases h4 : n = 4
    · subst h4
      simp only [ne_eq, not_true_eq_false, if_false, Except.ok.injEq, true_and]
      constructor
      · rintro ⟨rfl, -⟩
        refine ⟨rfl, .inl ?_⟩
        intro u i
        fin_cases i <;>
          simp [ravel2, m3Entry, quatMatrix, turned, crossProduct, List.range_succ, Matrix.vecHead, Matrix.vecTail] <;> ring
      · rintro ⟨hl, h | ⟨r, c, h, -⟩⟩
        · refine ⟨?_, hl⟩
          match l, hl with
          | [a0, a1, a2, a3, a4, a5, a6, a7, a8], _ =>
            have e0 := fun i => h ![1, 0, 0] i
            have e1 := fun i => h ![0, 1, 0] i
            have e2 := fun i => h ![0, 0, 1] i
            have f00 := e0 0; have f10 := e0 1; have f20 := e0 2
            have f01 := e1 0; have f11 := e1 1; have f21 := e1 2
            have f02 := e2 0; have f12 := e2 1; have f22 := e2 2
            simp [turned, crossProduct] at f00 f10 f20 f01 f11 f21 f02 f12 f22
            simp [ravel2, m3Entry, quatMatrix, List.range_succ, f00, f10, f20, f01, f11, f21, f02, f12, f22]
            refine ⟨?_, ?_, ?_, ?_, ?_, ?_, ?_, ?_, ?_⟩ <;> ring
        · cases h
    · simp [h4]
  · rename_i r c hrc
    rw [hrc]
    simp only [Except.ok.injEq]
    constructor
    · rintro ⟨rfl, h9⟩
      refine ⟨h9, .inr ⟨r, c, rfl, ?_, fun i hi j hj => ravel2_get c _ r hi hj⟩⟩
      rw [← ravel2_length r c (fun i j => rot.get [i, j]), h9]
    · rintro ⟨h9, ⟨h, -⟩ | ⟨r', c', h, hm, he⟩⟩
      · cases h
      · cases h
        exact ⟨(ravel2_unique (by rw [h9, hm]) he).symm, h9⟩
  · rename_i h1 h2
    constructor
    · rintro ⟨h, -⟩; cases h
    · rintro ⟨-, ⟨h, -⟩ | ⟨r, c, h, -⟩⟩
      · exact absurd h (h1 4)
      · exact absurd h (h2 r c)

theorem drawable_iff (m : Marker K) (d : Drawn K) : initGeom m = .ok d ↔ Drawable m d := by
  unfold initGeom Drawable
  rw [← matrixOf_iff]
  cases hr : rotMatrix m.rot with
  | error e => simp [bind, Except.bind]
  | ok mat =>
    simp only [bind, Except.bind, pure, Except.pure]
    obtain ⟨dt, ds, dp, dm, dc⟩ := d
    split
    · rename_i h
      obtain ⟨h1, h2, h3, h4⟩ := h
      simp only [Except.ok.injEq, Drawn.mk.injEq, h1, h2, h4, true_and]
      constructor
      · rintro ⟨rfl, rfl, rfl, rfl, rfl⟩; exact ⟨rfl, rfl, rfl, rfl, rfl, h3⟩
      · rintro ⟨rfl, rfl, rfl, rfl, rfl, -⟩; exact ⟨rfl, rfl, rfl, rfl, rfl⟩
    · rename_i h
      constructor
      · intro h; cases h
      · rintro ⟨h1, h2, h3, -, -, -, -, h4, h5⟩
        cases h4
        exact absurd ⟨h1, h2, h5, h3⟩ h
end Mjinx.Vis
