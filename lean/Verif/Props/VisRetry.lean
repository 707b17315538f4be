import Verif.Props.Visualize
import Verif.Props.VisualizeModel

/-!
# C114: an update that raises leaves no trace
-/

namespace Mjinx.Props
open Vis
set_option linter.unusedSectionVars false
variable {K : Type} [Field K]

private theorem drawOne_other {n : Nat} {s t s' : Scene K} {m : Marker K} (hn : s.ngeom = t.ngeom) (hl : s.geoms.length = t.geoms.length)
    (h : drawOne n s m = .ok s') :
    ∃ k d, pyIndex s.geoms.length (slotIndex s n m) = .ok k ∧ s' = { s with geoms := s.geoms.set k (.marker d) } ∧
      drawOne n t m = .ok { t with geoms := t.geoms.set k (.marker d) } := by
  have hslot : slotIndex t n m = slotIndex s n m := by unfold slotIndex; rw [hn]
  unfold drawOne at h ⊢
  rw [hslot, ← hl]
  cases hk : pyIndex s.geoms.length (slotIndex s n m) with
  | error e => rw [hk] at h; cases h
  | ok k =>
    rw [hk] at h
    cases hd : initGeom m with
    | error e => rw [hd] at h; cases h
    | ok d => rw [hd] at h; cases h; exact ⟨k, d, rfl, rfl, rfl⟩

private theorem drawOne_error {n : Nat} {s t : Scene K} {m : Marker K} {e : Err} (hn : s.ngeom = t.ngeom) (hl : s.geoms.length = t.geoms.length)
    (h : drawOne n s m = .error e) : drawOne n t m = .error e := by
  have hslot : slotIndex t n m = slotIndex s n m := by unfold slotIndex; rw [hn]
  unfold drawOne at h ⊢
  rw [hslot, ← hl]
  cases hk : pyIndex s.geoms.length (slotIndex s n m) with
  | error e => rw [hk] at h; cases h; rfl
  | ok k =>
    rw [hk] at h
    cases hd : initGeom m with
    | error e => rw [hd] at h; cases h; rfl
    | ok d => rw [hd] at h; cases h

/-- Two scenes of the same size: drawing succeeds on both or on none; afterwards they agree where they agreed before or something was drawn. -/
private theorem draw_two {n : Nat} : ∀ (ms : List (Marker K)) (s t : Scene K), s.ngeom = t.ngeom → s.geoms.length = t.geoms.length →
    (∃ e, drawMarkers n ms s = .error e ∧ drawMarkers n ms t = .error e) ∨
    ∃ s' t', drawMarkers n ms s = .ok s' ∧ drawMarkers n ms t = .ok t' ∧
      ∀ k : Nat, s.geoms[k]? = t.geoms[k]? ∨ (∃ m ∈ ms, pyIndex s.geoms.length (slotIndex s n m) = .ok k) → s'.geoms[k]? = t'.geoms[k]?
  | [], s, t, _, _ => Or.inr ⟨s, t, rfl, rfl, by
      rintro k (h | ⟨m, hm, -⟩)
      · exact h
      · cases hm⟩
  | m :: ms, s, t, hn, hl => by
    unfold drawMarkers
    rw [List.foldlM_cons, List.foldlM_cons]
    cases h1 : drawOne n s m with
    | error e => exact Or.inl ⟨e, rfl, by rw [drawOne_error hn hl h1]; rfl⟩
    | ok s1 =>
      obtain ⟨k1, d, hk1, rfl, h2⟩ := drawOne_other hn hl h1
      rw [h2]
      have hlen : (s.geoms.set k1 (.marker d)).length = (t.geoms.set k1 (.marker d)).length := by simp [hl]
      rcases draw_two (n := n) ms { s with geoms := s.geoms.set k1 (.marker d) } { t with geoms := t.geoms.set k1 (.marker d) } hn hlen with
        ⟨e, a, b⟩ | ⟨s', t', a, b, c⟩
      · exact Or.inl ⟨e, a, b⟩
      · refine Or.inr ⟨s', t', a, b, ?_⟩
        intro k hk
        apply c
        by_cases hkk : k1 = k
        · left
          show (s.geoms.set k1 _)[k]? = (t.geoms.set k1 _)[k]?
          rw [List.getElem?_set, List.getElem?_set, hl]
          simp [hkk]
        · rcases hk with h | ⟨m', hm', hp⟩
          · left
            show (s.geoms.set k1 _)[k]? = (t.geoms.set k1 _)[k]?
            rw [List.getElem?_set, List.getElem?_set, if_neg hkk, if_neg hkk, h]
          · rcases List.mem_cons.1 hm' with rfl | hm'
            · rw [hk1] at hp; cases hp; exact absurd rfl hkk
            · right
              refine ⟨m', hm', ?_⟩
              show pyIndex (s.geoms.set k1 (.marker d)).length (slotIndex s n m') = .ok k
              rw [List.length_set]
              exact hp

/-- Interrupted drawing changes slots of markers only. -/
private theorem drawnUntil_other {n : Nat} : ∀ (ms : List (Marker K)) (s : Scene K) (k : Nat),
    (∀ m ∈ ms, pyIndex s.geoms.length (slotIndex s n m) ≠ .ok k) → (drawnUntil n ms s).geoms[k]? = s.geoms[k]?
  | [], _, _, _ => rfl
  | m :: ms, s, k, h => by
    unfold drawnUntil
    split
    · rfl
    · rename_i s' h1
      obtain ⟨k1, d, hk1, rfl, -⟩ := drawOne_other (t := s) rfl rfl h1
      rw [drawnUntil_other ms]
      · show (s.geoms.set k1 _)[k]? = _
        rw [List.getElem?_set, if_neg]
        rintro rfl
        exact h m List.mem_cons_self hk1
      · intro m' hm'
        show pyIndex (s.geoms.set k1 (.marker d)).length (slotIndex s n m') ≠ .ok k
        rw [List.length_set]
        exact h m' (List.mem_cons_of_mem _ hm')

/-- Two visualizers that will show the same from the next successful update on. -/
private structure Alike (v w : State K) : Prop where
  markers : w.markers = v.markers
  number : w.nMarkers = v.nMarkers
  nq : w.nq = v.nq
  frames : w.frames = v.frames
  noViewer : w.viewer = none ↔ v.viewer = none
  viewer : ∀ s t, v.viewer = some s → w.viewer = some t →
    s.ngeom = t.ngeom ∧ s.geoms.length = t.geoms.length ∧ ∀ k, v.nMarkers ≤ k → s.geoms[k]? = t.geoms[k]?
  noRenderer : w.renderer = none ↔ v.renderer = none
  renderer : ∀ s t, v.renderer = some s → w.renderer = some t → s.geoms.length = t.geoms.length

private theorem alike_refl (v : State K) : Alike v v where
  markers := rfl
  number := rfl
  nq := rfl
  frames := rfl
  noViewer := Iff.rfl
  viewer := by intro s t hs ht; rw [hs] at ht; cases ht; exact ⟨rfl, rfl, fun _ _ => rfl⟩
  noRenderer := Iff.rfl
  renderer := by intro s t hs ht; rw [hs] at ht; cases ht; rfl

/-- All ids below the number of markers are used, and the viewer shows as many slots. -/
private structure Full (v : State K) : Prop where
  all : ∀ i, i < v.nMarkers ↔ ∃ x ∈ v.markers, x.2.id = i
  viewer : ∀ s, v.viewer = some s → s.ngeom = v.nMarkers

private theorem updateViewer_alike {v w : State K} (hv : Full v) (h : Alike v w) (qp : List K) :
    (∃ e, updateViewer { v with qpos := qp } = .error e ∧ updateViewer { w with qpos := qp } = .error e) ∨
    ∃ v1, updateViewer { v with qpos := qp } = .ok v1 ∧ updateViewer { w with qpos := qp } = .ok { w with qpos := qp, viewer := v1.viewer } ∧
      v1 = { v with qpos := qp, viewer := v1.viewer } := by
  unfold updateViewer
  cases hs : v.viewer with
  | none =>
    have ht := h.noViewer.2 hs
    refine Or.inr ⟨{ v with qpos := qp }, ?_, ?_, ?_⟩
    · rw [hs]
    · simp only [ht]
      rw [hs, ← ht]
    · rfl
  | some s =>
    obtain ⟨t, ht⟩ : ∃ t, w.viewer = some t := by
      cases ht : w.viewer with
      | none => rw [h.noViewer.1 ht] at hs; cases hs
      | some t => exact ⟨t, rfl⟩
    obtain ⟨a, b, c⟩ := h.viewer s t hs ht
    simp only [ht, h.number, h.markers]
    rcases draw_two (n := v.nMarkers) (v.markers.map Prod.snd) s t a b with ⟨e, x, y⟩ | ⟨s', t', x, y, z⟩
    · exact Or.inl ⟨e, by rw [x]; rfl, by rw [y]; rfl⟩
    · right
      have hx := drawMarkers_len x
      have hy := drawMarkers_len y
      have hst : s' = t' := by
        have hg : s'.geoms = t'.geoms := by
          apply List.ext_getElem?
          intro k
          apply z
          by_cases hk : v.nMarkers ≤ k
          · exact Or.inl (c k hk)
          · by_cases hkl : k < s.geoms.length
            · right
              obtain ⟨xm, hxm, hid⟩ := (hv.all k).1 (by omega)
              refine ⟨xm.2, List.mem_map_of_mem hxm, ?_⟩
              have : slotIndex s v.nMarkers xm.2 = k := by
                unfold slotIndex
                rw [hv.viewer s hs, hid]
                ring
              rw [this, pyIndex_nonneg (by omega) (by omega)]
              simp
            · left
              rw [List.getElem?_eq_none (by omega), List.getElem?_eq_none (by omega)]
        cases s'; cases t'
        simp only at hg hx hy
        rw [hg, hx.1, hy.1, a]
      subst hst
      exact ⟨{ v with qpos := qp, viewer := some s' }, by rw [x]; rfl, by rw [y]; rfl, rfl⟩

private theorem updateRenderer_alike {g : Nat} {v w : State K} (hm : w.markers = v.markers) (hn : w.nMarkers = v.nMarkers)
    (hf : w.frames = v.frames) (h0 : w.renderer = none ↔ v.renderer = none)
    (h : ∀ s t, v.renderer = some s → w.renderer = some t → s.geoms.length = t.geoms.length) :
    (∃ e, updateRenderer g v = .error e ∧ updateRenderer g w = .error e) ∨
    ∃ v' r, updateRenderer g v = .ok v' ∧ updateRenderer g w = .ok { w with renderer := r, frames := v'.frames } ∧
      v' = { v with renderer := v'.renderer, frames := v'.frames } ∧
      (r = none ↔ v'.renderer = none) ∧ ∀ s t, v'.renderer = some s → r = some t → s.geoms.length = t.geoms.length := by
  unfold updateRenderer
  cases hs : v.renderer with
  | none =>
    have ht := h0.2 hs
    refine Or.inr ⟨v, none, rfl, ?_, rfl, by simp [hs], by simp⟩
    simp only [ht]
    rw [← hf, ← ht]
  | some s =>
    obtain ⟨t, ht⟩ : ∃ t, w.renderer = some t := by
      cases ht : w.renderer with
      | none => rw [h0.1 ht] at hs; cases hs
      | some t => exact ⟨t, rfl⟩
    have hl := h s t hs ht
    simp only [ht, hm, hn]
    have hlen : (updateScene g s).geoms.length = (updateScene g t).geoms.length := by
      rw [updateScene_len, updateScene_len, hl]
    rcases draw_two (n := v.nMarkers) (v.markers.map Prod.snd) (updateScene g s) (updateScene g t) (by simp [updateScene, hl]) hlen with ⟨e, x, y⟩ | ⟨s', t', x, y, z⟩
    · exact Or.inl ⟨e, by rw [x]; rfl, by rw [y]; rfl⟩
    · right
      have hx := drawMarkers_len x
      have hy := drawMarkers_len y
      have hshown : s'.shown = t'.shown := by
        unfold Scene.shown
        rw [hx.1, hy.1]
        have hng : (updateScene g t).ngeom = (updateScene g s).ngeom := by simp [updateScene, hl]
        rw [hng]
        apply List.ext_getElem?
        intro k
        rw [List.getElem?_take, List.getElem?_take]
        split
        · rename_i hk
          apply z
          left
          have hk : k < min g s.geoms.length := by
            have : (updateScene g s).ngeom.toNat = min g s.geoms.length := Int.toNat_natCast _
            omega
          simp only [updateScene, ← hl]
          rw [List.getElem?_append_left (by simpa using hk), List.getElem?_append_left (by simpa using hk)]
        · rfl
      refine ⟨{ v with renderer := some s', frames := v.frames ++ [s'.shown] }, some t', by rw [x]; rfl, ?_, rfl, by simp, ?_⟩
      · rw [y]
        show Except.ok _ = Except.ok _
        rw [hf, hshown]
      · intro s1 t1 h1 h2
        cases h1; cases h2
        rw [hx.2, hy.2, hlen]

/-- Updates of alike visualizers. -/
private theorem update_alike {v w : State K} (hv : Full v) (h : Alike v w) (q : List K) (g : Nat) :
    (∃ e, update q g v = .error e ∧ update q g w = .error e) ∨
    ∃ v' w', update q g v = .ok v' ∧ update q g w = .ok w' ∧ Alike v' w' ∧ w'.viewer = v'.viewer ∧ w'.qpos = v'.qpos := by
  unfold update
  have hnq := h.nq
  rw [show assignQpos w.nq q = assignQpos v.nq q by rw [hnq]]
  cases hq : assignQpos v.nq q with
  | error e => exact Or.inl ⟨e, rfl, rfl⟩
  | ok qp =>
    simp only [bind, Except.bind]
    rcases updateViewer_alike hv h qp with ⟨e, a, b⟩ | ⟨v1, a, b, c⟩
    · exact Or.inl ⟨e, by rw [a], by rw [b]⟩
    · rw [a, b]
      simp only
      rcases updateRenderer_alike (g := g) (v := v1) (w := { w with qpos := qp, viewer := v1.viewer })
        (by rw [c]; exact h.markers) (by rw [c]; exact h.number) (by rw [c]; exact h.frames) (by rw [c]; exact h.noRenderer)
        (by rw [c]; exact h.renderer) with ⟨e, x, y⟩ | ⟨v', r, x, y, z, n0, n1⟩
      · exact Or.inl ⟨e, x, y⟩
      · right
        refine ⟨v', _, x, y, ?_, ?_, ?_⟩
        · constructor
          · show w.markers = _; rw [z, c]; exact h.markers
          · show w.nMarkers = _; rw [z, c]; exact h.number
          · show w.nq = _; rw [z, c]; exact h.nq
          · rfl
          · show v1.viewer = none ↔ _; rw [z]
          · intro s t hs ht
            have : v1.viewer = some t := ht
            rw [z] at hs
            rw [show v1.viewer = some s from hs] at this
            cases this
            exact ⟨rfl, rfl, fun _ _ => rfl⟩
          · exact n0
          · exact n1
        · show v1.viewer = _; rw [z]
        · show qp = _; rw [z, c]

/-- A raising update leaves the visualizer alike. -/
private theorem raised_alike {v w : State K} (hv : Full v) (h : Alike v w) (q : List K) (g : Nat) : Alike (updateRaised q g v) w := by
  have hlow : ∀ (s : Scene K), v.viewer = some s → ∀ k, v.nMarkers ≤ k → ∀ m ∈ v.markers.map Prod.snd,
      pyIndex s.geoms.length (slotIndex s v.nMarkers m) ≠ .ok k := by
    intro s hs k hk m hm he
    obtain ⟨x, hx, rfl⟩ := List.mem_map.1 hm
    have hid : x.2.id < v.nMarkers := (hv.all _).2 ⟨x, hx, rfl⟩
    have hslot : slotIndex s v.nMarkers x.2 = x.2.id := by
      unfold slotIndex
      rw [hv.viewer s hs]
      ring
    rw [hslot] at he
    unfold pyIndex at he
    have : ¬ ((x.2.id : Int) < 0) := by omega
    simp only [this, if_false] at he
    split at he
    · cases he
      omega
    · cases he
  unfold updateRaised
  split
  · exact h
  · rename_i qp _
    split
    · constructor
      · exact h.markers
      · exact h.number
      · exact h.nq
      · exact h.frames
      · show _ ↔ v.viewer.map _ = none
        rw [Option.map_eq_none_iff]
        exact h.noViewer
      · intro s t hs ht
        obtain ⟨s0, hs0, rfl⟩ := Option.map_eq_some_iff.1 (show v.viewer.map _ = some s from hs)
        obtain ⟨a, b, c⟩ := h.viewer s0 t hs0 ht
        have hlen := drawnUntil_len (n := v.nMarkers) (v.markers.map Prod.snd) s0
        refine ⟨hlen.1.trans a, hlen.2.trans b, ?_⟩
        intro k hk
        rw [drawnUntil_other _ _ _ (hlow s0 hs0 k hk)]
        exact c k hk
      · exact h.noRenderer
      · exact h.renderer
    · rename_i v1 h1
      rcases updateViewer_alike hv h qp with ⟨e, a, b⟩ | ⟨v1', a, b, c⟩
      · rw [a] at h1; cases h1
      · rw [a] at h1
        cases h1
        constructor
        · show _ = v1.markers; rw [c]; exact h.markers
        · show _ = v1.nMarkers; rw [c]; exact h.number
        · show _ = v1.nq; rw [c]; exact h.nq
        · show _ = v1.frames; rw [c]; exact h.frames
        · have hk := (updateViewer_keep a).2.2.1
          show _ ↔ v1.viewer = none
          rw [h.noViewer]
          show v.viewer = none ↔ v1.viewer = none
          cases hx : v.viewer with
          | none => simp only [hx] at hk; cases hy : v1.viewer with
            | none => simp
            | some _ => rw [hy] at hk; cases hk
          | some _ => simp only [hx] at hk; cases hy : v1.viewer with
            | none => rw [hy] at hk; cases hk
            | some _ => simp
        · intro s t hs ht
          have hs' : v1.viewer = some s := hs
          cases hx : v.viewer with
          | none => rw [h.noViewer.2 hx] at ht; cases ht
          | some s0 =>
            obtain ⟨x, y, z⟩ := h.viewer s0 t hx ht
            unfold updateViewer at a
            simp only [hx] at a
            cases hd : drawMarkers v.nMarkers (v.markers.map Prod.snd) s0 with
            | error e => rw [hd] at a; cases a
            | ok s1 =>
              rw [hd] at a
              cases a
              cases hs'
              have hlen := drawMarkers_len hd
              refine ⟨hlen.1.trans x, hlen.2.trans y, ?_⟩
              intro k hk
              have hk' : v.nMarkers ≤ k := hk
              have key : ∀ (ms : List (Marker K)) (s0 s1 : Scene K), drawMarkers v.nMarkers ms s0 = .ok s1 → drawnUntil v.nMarkers ms s0 = s1 := by
                intro ms
                induction ms with
                | nil => intro s0 s1 h; cases h; rfl
                | cons m ms ih =>
                  intro s0 s1 h
                  unfold drawMarkers at h
                  rw [List.foldlM_cons] at h
                  unfold drawnUntil
                  cases h1 : drawOne v.nMarkers s0 m with
                  | error e => rw [h1] at h; cases h
                  | ok s2 => rw [h1] at h; exact ih s2 s1 h
              rw [← key _ _ _ hd, drawnUntil_other _ _ _ (hlow s0 hx k hk')]
              exact z k hk'
        · show _ ↔ v1.renderer.map _ = none
          rw [Option.map_eq_none_iff, c]
          exact h.noRenderer
        · intro s t hs ht
          obtain ⟨s0, hs0, rfl⟩ := Option.map_eq_some_iff.1 (show v1.renderer.map _ = some s from hs)
          have hl := (drawnUntil_len (n := v1.nMarkers) (v1.markers.map Prod.snd) (updateScene g s0)).2
          rw [hl, updateScene_len]
          rw [c] at hs0
          exact h.renderer s0 t hs0 ht

/-- Other calls do the same to alike visualizers. -/
private theorem step_alike {v w : State K} (h : Alike v w) (op : Op K) (hop : ∀ q g, op ≠ .update q g) : Alike (step v op) (step w op) := by
  have hset : ∀ n (f : Marker K → Marker K), Alike (((setMarker n f v).toOption).getD v) (((setMarker n f w).toOption).getD w) := by
    intro n f
    unfold setMarker
    rw [h.markers]
    split
    · exact ⟨rfl, h.number, h.nq, h.frames, h.noViewer, h.viewer, h.noRenderer, h.renderer⟩
    · exact h
  cases op with
  | add a =>
    show Alike (addMarkers a v).2 (addMarkers a w).2
    unfold addMarkers
    rw [h.markers, h.number]
    split
    · split
      · exact h
      · split
        · rename_i d hd
          exact ⟨rfl, rfl, h.nq, h.frames, h.noViewer, h.viewer, h.noRenderer, h.renderer⟩
        · refine ⟨rfl, rfl, h.nq, h.frames, ?_, ?_, ?_, ?_⟩
          · show w.viewer.map _ = none ↔ v.viewer.map _ = none
            rw [Option.map_eq_none_iff, Option.map_eq_none_iff]
            exact h.noViewer
          · intro s t hs ht
            obtain ⟨s0, hs0, rfl⟩ := Option.map_eq_some_iff.1 (show v.viewer.map _ = some s from hs)
            obtain ⟨t0, ht0, rfl⟩ := Option.map_eq_some_iff.1 (show w.viewer.map _ = some t from ht)
            obtain ⟨x, y, z⟩ := h.viewer s0 t0 hs0 ht0
            refine ⟨by simp [Scene.grow, x], y, ?_⟩
            intro k hk
            have hk' : v.nMarkers + a.n.toNat ≤ k := hk
            exact z k (by omega)
          · show w.renderer.map _ = none ↔ v.renderer.map _ = none
            rw [Option.map_eq_none_iff, Option.map_eq_none_iff]
            exact h.noRenderer
          · intro s t hs ht
            obtain ⟨s0, hs0, rfl⟩ := Option.map_eq_some_iff.1 (show v.renderer.map _ = some s from hs)
            obtain ⟨t0, ht0, rfl⟩ := Option.map_eq_some_iff.1 (show w.renderer.map _ = some t from ht)
            exact h.renderer s0 t0 hs0 ht0
    · exact h
  | setPos n p => exact hset n _
  | setRot n p => exact hset n _
  | update q g => exact absurd rfl (hop q g)

private theorem full_of {v : State K} {N : Option Nat} {l : List String} (hi : Inv N v) (h : v.markers.map (fun x => (x.1, x.2.id)) = l.zipIdx)
    (hn : v.nMarkers = l.length) : Full v := by
  constructor
  · intro i
    constructor
    · intro hlt
      have hm : (l[i]'(by omega), i) ∈ v.markers.map (fun x => (x.1, x.2.id)) := by
        rw [h]
        exact List.mk_mem_zipIdx_iff_getElem?.2 (List.getElem?_eq_getElem (by omega))
      obtain ⟨x, hx, he⟩ := List.mem_map.1 hm
      exact ⟨x, hx, (Prod.mk.inj he).2⟩
    · rintro ⟨x, hx, rfl⟩
      exact hi.bound x hx
  · intro s hs
    have := hi.viewer
    rw [hs] at this
    cases N with
    | none => cases this
    | some n =>
      simp only [Option.map_some, Option.some.injEq, Prod.mk.injEq] at this
      exact this.1

private theorem alike_run {N : Option Nat} : ∀ (ops : List (Op K)) (v w : State K) (l : List String), Inv N v →
    v.markers.map (fun x => (x.1, x.2.id)) = l.zipIdx → v.nMarkers = l.length → (l ++ addedNames v ops).Nodup → Alike v w →
    Alike (run v ops) (run w (withoutRaised v ops)) ∧ Full (run v ops) := by
  intro ops
  induction ops with
  | nil => intro v w l hi hm hn _ h; exact ⟨h, full_of hi hm hn⟩
  | cons op ops ih =>
    intro v w l hi hm hn hnd h
    have hsplit : addedNames v (op :: ops) = addedNames v [op] ++ addedNames (step v op) ops := by
      cases op <;> simp [addedNames]
    rw [hsplit, ← List.append_assoc] at hnd
    obtain ⟨hm', hn'⟩ := ids_run [op] v l hm hn hnd.of_append_left
    have hi' := inv_step hi op
    have hv := full_of hi hm hn
    by_cases hop : ∀ q g, op ≠ .update q g
    · have hw : withoutRaised v (op :: ops) = op :: withoutRaised (step v op) ops := by
        cases op with
        | update q g => exact absurd rfl (hop q g)
        | _ => rfl
      rw [hw]
      exact ih (step v op) (step w op) _ hi' hm' hn' hnd (step_alike h op hop)
    · push Not at hop
      obtain ⟨q, g, rfl⟩ := hop
      rcases update_alike hv h q g with ⟨e, a, b⟩ | ⟨v', w', a, b, c, -⟩
      · have hw : withoutRaised v (.update q g :: ops) = withoutRaised (step v (.update q g)) ops := by
          rw [withoutRaised, a]
        rw [hw]
        refine ih (step v (.update q g)) w _ hi' hm' hn' hnd ?_
        rw [step_update_error a]
        exact raised_alike hv h q g
      · have hw : withoutRaised v (.update q g :: ops) = .update q g :: withoutRaised (step v (.update q g)) ops := by
          rw [withoutRaised, a]
        rw [hw]
        refine ih (step v (.update q g)) (step w (.update q g)) _ hi' hm' hn' hnd ?_
        rw [step_update_ok a, step_update_ok b]
        exact c

/-- **C114**: an update that raises (wrong number of coordinates, a marker that cannot be drawn, no room) leaves no trace.  Take any history in which
no marker name is used twice, and the same history without the updates that raised.  Then the recorded frames and the markers are the same;
the next update raises in both or in none; and if it succeeds, viewer, configuration and frames are the same afterwards. -/
theorem C114_no_trace (viewer renderer : Option Nat) (nq : Nat) (ops : List (Op K))
    (hfresh : (addedNames (State.init viewer renderer nq) ops).Nodup) (q : List K) (g : Nat) :
    let v := run (State.init viewer renderer nq) ops
    let w := run (State.init viewer renderer nq) (withoutRaised (State.init viewer renderer nq) ops)
    w.frames = v.frames ∧ w.markers = v.markers ∧
      ((∃ e, update q g v = .error e ∧ update q g w = .error e) ∨
        ∃ v' w', update q g v = .ok v' ∧ update q g w = .ok w' ∧ w'.viewer = v'.viewer ∧ w'.frames = v'.frames ∧ w'.qpos = v'.qpos ∧
          w'.markers = v'.markers) := by
  intro v w
  obtain ⟨h, hv⟩ := alike_run ops (State.init viewer renderer nq) (State.init viewer renderer nq : State K) [] (inv_init viewer renderer nq)
    rfl rfl hfresh (alike_refl _)
  refine ⟨h.frames, h.markers, ?_⟩
  rcases update_alike hv h q g with ⟨e, a, b⟩ | ⟨v', w', a, b, c, d, e⟩
  · exact Or.inl ⟨e, a, b⟩
  · exact Or.inr ⟨v', w', a, b, d, c.frames, e, c.markers⟩

namespace RetryEx

/-- One grey marker. -/
def ball (name : String) : MarkerArgs ℚ := ⟨.one name, .inl 1, 1, [0, 0, 0], none, 2, 1⟩

/-- The second marker gets a position with one coordinate, so the update raises after it has drawn the first one; then the position is repaired. -/
def broken : List (Op ℚ) := [.add (ball "a"), .add (ball "b"), .setPos "b" [1], .update [7] 0, .setPos "b" [0, 0, 1]]

end RetryEx

open RetryEx in
/-- The hypotheses are met: the update of `broken` raises and is left out, the viewer has then drawn one of two markers, and the next update succeeds. -/
example : (addedNames (State.init (some 3) none 1) broken).Nodup ∧
    (withoutRaised (State.init (some 3) none 1) broken).length = 4 ∧
    ((run (State.init (some 3) none 1) broken).viewer.map fun s => s.geoms.map fun | .marker _ => true | _ => false) = some [true, false, false] ∧
    ∃ v', update [5] 0 (run (State.init (some 3) none 1) broken) = .ok v' :=
  ⟨by decide, rfl, rfl, _, rfl⟩

open RetryEx in
/-- **C114 needs fresh names**: if a name is used again after the update that raised, the viewer goes on showing what that update drew. -/
theorem C114_reused_name_trace :
    let ops := broken ++ [.add (ball "a"), .update [5] 0]
    let shows := fun (v : State ℚ) => v.viewer.map fun s => s.shown.map fun | .marker _ => true | _ => false
    shows (run (State.init (some 3) none 1) ops) = some [true, true, true] ∧
      shows (run (State.init (some 3) none 1) (withoutRaised (State.init (some 3) none 1) ops)) = some [false, true, true] :=
  ⟨rfl, rfl⟩

/-- **C114 (configuration)**: an update that raises because of the drawing has already set the configuration; one that raises because of the number of
coordinates has changed nothing. -/
theorem C114_configuration {v : State K} {q : List K} {g : Nat} {e : Err} (h : update q g v = .error e) :
    (q.length = v.nq → (step v (.update q g)).qpos = q) ∧ (q.length ≠ v.nq → q.length ≠ 1 → step v (.update q g) = v) := by
  rw [step_update_error h]
  unfold updateRaised assignQpos
  constructor
  · intro hl
    rw [if_pos hl]
    dsimp only
    split
    · rfl
    · rename_i v1 h1
      show v1.qpos = q
      unfold updateViewer at h1
      dsimp only at h1
      split at h1
      · cases h1; rfl
      · simp only [bind, Except.bind] at h1
        split at h1
        · cases h1
        · cases h1; rfl
  · intro hl h1
    rw [if_neg hl, if_neg h1]

open RetryEx in
/-- The update in `broken` raises with a configuration of the right length. -/
example : ∃ (v : State ℚ) (q : List ℚ) (g : Nat) (e : Err), update q g v = .error e ∧ q.length = v.nq ∧ v.qpos ≠ q := by
  refine ⟨run (State.init (some 3) none 1) (broken.take 3), [7], 0, _, rfl, rfl, by decide⟩

end Mjinx.Props
