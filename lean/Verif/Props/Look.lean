import Verif.Lemmas.Look
import Verif.Props.Visualize

/-!
# Markers are shown as last set (C105)
-/

namespace Mjinx.Props
open Vis
set_option linter.unusedSectionVars false
variable {K : Type} [Field K]

theorem drawMarkers_update {q : List K} {g : Nat} {v v' : State K} {s : Scene K} (hs : v.viewer = some s) (h : update q g v = .ok v') :
    ∃ s', drawMarkers v.nMarkers (v.markers.map Prod.snd) s = .ok s' ∧ v'.viewer = some s' := by
  obtain ⟨qp, v1, -, h1, h2⟩ := update_parts h
  unfold updateViewer at h1
  simp only [hs] at h1
  cases hd : drawMarkers v.nMarkers (v.markers.map Prod.snd) s with
  | error e => rw [hd] at h1; cases h1
  | ok s' =>
    rw [hd] at h1
    cases h1
    exact ⟨s', rfl, (updateRenderer_keep h2).2.2⟩

/-- **C105** (present): after any history, a marker with the given name is present exactly if an accepted call added it, and it
looks as it was last set: as added last, with the position and orientation written last since. -/
theorem C105_present (viewer renderer : Option Nat) (nq : Nat) (ops : List (Op K)) (name : String) (l : Look K) :
    (∃ m : Marker K, (name, m) ∈ (run (State.init viewer renderer nq) ops).markers ∧ l = ⟨m.type, m.size, m.pos, m.rot, m.rgba⟩) ↔
      lookOf name ops = some l := by
  have hl := look_run name ops (State.init viewer renderer nq : State K)
  have hinv := inv_run ops (inv_init (K := K) viewer renderer nq)
  have h0 : ((State.init viewer renderer nq : State K).markers.lookup name).map Marker.look = none := rfl
  rw [h0] at hl
  change _ = lookOf name ops at hl
  rw [← hl]
  constructor
  · rintro ⟨m, hm, rfl⟩
    rw [lookup_of_mem hinv.names hm]
    rfl
  · intro h
    obtain ⟨m, hm, rfl⟩ := Option.map_eq_some_iff.1 h
    exact ⟨m, mem_of_lookup hm, rfl⟩

/-- **C105** (shown): after any history in which no name is given twice, and with enough slots in the viewer, every successful
`update` leaves in the viewer exactly the markers added, in the order of addition, each as it was last set. -/
theorem C105_shown (N : Nat) (renderer : Option Nat) (nq : Nat) (ops : List (Op K)) (hfresh : (acceptedNames ops).Nodup)
    (hroom : (acceptedNames ops).length ≤ N) (q : List K) (g : Nat) {v' : State K}
    (hu : update q g (run (State.init (some N) renderer nq) ops) = .ok v') :
    ∃ s, v'.viewer = some s ∧ s.shown.length = (acceptedNames ops).length ∧
      ∀ (k : Nat) (name : String), (acceptedNames ops)[k]? = some name →
        ∃ l d, lookOf name ops = some l ∧ s.shown[k]? = some (.marker d) ∧ Shows d l := by
  have hnames := acceptedNames_eq ops (State.init (some N) renderer nq : State K)
  obtain ⟨hids, hlen⟩ := C62_consecutive (K := K) (some N) renderer nq ops (by rw [hnames]; exact hfresh)
  rw [hnames] at hids hlen
  have hinv := inv_run ops (inv_init (K := K) (some N) renderer nq)
  have hpres := fun name l => C105_present (K := K) (some N) renderer nq ops name l
  revert hu hids hlen hinv hpres
  generalize run (State.init (some N) renderer nq : State K) ops = v
  intro hu hids hlen hinv hpres
  obtain ⟨s, hs⟩ : ∃ s, v.viewer = some s := by
    cases hvv : v.viewer with
    | none => have := hinv.viewer; rw [hvv] at this; cases this
    | some s => exact ⟨s, rfl⟩
  obtain ⟨s', hd, hv'⟩ := drawMarkers_update hs hu
  have hdr := drawMarkers_drawable hd
  obtain ⟨v2, s2, h1, h2, -, h4, h5⟩ : ∃ v2 s2, updateViewer v = .ok v2 ∧ v2.viewer = some s2 ∧ v2.markers = v.markers ∧
      s2.shown.length = v.nMarkers ∧ ∀ x ∈ v.markers, ∀ d, Drawable x.2 d → s2.shown[x.2.id]? = some (.marker d) := by
    have hview := hinv.viewer
    rw [hs] at hview
    simp only [Option.map_some, Option.some.injEq, Prod.mk.injEq] at hview
    have hslot : ∀ m : Marker K, slotIndex s v.nMarkers m = m.id := by
      intro m; unfold slotIndex; rw [hview.1]; ring
    obtain ⟨t, e1, e2, e3, e4, -⟩ := drawMarkers_spec (n := v.nMarkers) (v.markers.map Prod.snd) s hdr
      (by
        intro m hm
        obtain ⟨x, hx, rfl⟩ := List.mem_map.1 hm
        have := hinv.bound x hx
        rw [hslot]
        omega)
      (nodup_ids hinv.names hinv.distinct)
    rw [hd] at e1
    cases e1
    refine ⟨{ v with viewer := some s' }, s', ?_, rfl, rfl, ?_, ?_⟩
    · unfold updateViewer
      rw [hs]
      simp only [hd]
      rfl
    · unfold Scene.shown
      rw [List.length_take, e3, e2, hview.1, hview.2]
      simp only [Int.toNat_natCast]
      omega
    · intro x hx d hxd
      have hb := hinv.bound x hx
      have := e4 x.2 (List.mem_map_of_mem hx) d ((drawable_iff _ _).2 hxd)
      rw [hslot, Int.toNat_natCast] at this
      unfold Scene.shown
      rw [e2, hview.1, Int.toNat_natCast, List.getElem?_take]
      simpa [hb] using this
  have hss : s2 = s' := by
    unfold updateViewer at h1
    simp only [hs, hd] at h1
    cases h1
    cases h2
    rfl
  subst hss
  refine ⟨s2, hv', by rw [h4, hlen], ?_⟩
  intro k name hk
  have hmem : (name, k) ∈ v.markers.map (fun x => (x.1, x.2.id)) := by
    rw [hids]
    exact List.mk_mem_zipIdx_iff_getElem?.2 hk
  obtain ⟨x, hx, he⟩ := List.mem_map.1 hmem
  obtain ⟨hx1, hx2⟩ := Prod.mk.inj he
  obtain ⟨d, hd'⟩ := hdr x.2 (List.mem_map_of_mem hx)
  have hdraw := (drawable_iff _ _).1 hd'
  refine ⟨x.2.look, d, (hpres name x.2.look).1 ⟨x.2, by rw [← hx1]; exact hx, rfl⟩, ?_, drawable_shows hdraw⟩
  rw [← hx2]
  exact h5 x hx d hdraw

/-- **C105** (when updating works): with enough slots in the viewer and without recording, `update` succeeds exactly if the
configuration has the right length (or is one number) and every marker has a size, position and colour of the length MuJoCo
expects and an orientation with four or three by three entries (or some other nine). -/
theorem C105_succeeds (N : Nat) (nq : Nat) (ops : List (Op K)) (hroom : (acceptedNames ops).length ≤ N) (q : List K) (g : Nat) :
    (∃ v', update q g (run (State.init (some N) none nq) ops) = .ok v') ↔
      (q.length = nq ∨ q.length = 1) ∧ ∀ name l, lookOf name ops = some l → l.Fits := by
  have hnq : (run (State.init (some N) none nq : State K) ops).nq = nq ∧
      (run (State.init (some N) none nq : State K) ops).renderer = none ∧
      (run (State.init (some N) none nq : State K) ops).nMarkers = (acceptedNames ops).length := by
    have key : ∀ (ops : List (Op K)) (v : State K), v.renderer = none →
        (run v ops).nq = v.nq ∧ (run v ops).renderer = none ∧ (run v ops).nMarkers = v.nMarkers + (acceptedNames ops).length := by
      intro ops
      induction ops with
      | nil => intro v hv; exact ⟨rfl, hv, rfl⟩
      | cons op ops ih =>
        intro v hv
        have hstep : (step v op).nq = v.nq ∧ (step v op).renderer = none ∧
            (step v op).nMarkers = v.nMarkers + (acceptedNames [op]).length := by
          cases op with
          | add a =>
            show ((addMarkers a v).2).nq = _ ∧ ((addMarkers a v).2).renderer = _ ∧ ((addMarkers a v).2).nMarkers = _
            have hacc := accepted_iff a v
            rcases addMarkers_cases a v with ⟨e, he⟩ | ⟨h0, hav, hl, he⟩
            · rw [he] at hacc ⊢
              have : ¬ Accepted a := fun h => by cases hacc.1 h
              refine ⟨rfl, hv, ?_⟩
              simp [acceptedNames, this]
            · rw [he] at hacc ⊢
              have : Accepted a := hacc.2 rfl
              refine ⟨rfl, by rw [hv]; rfl, ?_⟩
              simp [acceptedNames, this, givenNames]
          | setPos n p =>
            show (((setMarker n _ v).toOption).getD v).nq = _ ∧ (((setMarker n _ v).toOption).getD v).renderer = _ ∧
              (((setMarker n _ v).toOption).getD v).nMarkers = _
            cases hs : setMarker n (fun m => { m with pos := p }) v with
            | error e => exact ⟨rfl, hv, rfl⟩
            | ok w => rw [setMarker_ok hs]; exact ⟨rfl, hv, rfl⟩
          | setRot n p =>
            show (((setMarker n _ v).toOption).getD v).nq = _ ∧ (((setMarker n _ v).toOption).getD v).renderer = _ ∧
              (((setMarker n _ v).toOption).getD v).nMarkers = _
            cases hs : setMarker n (fun m => { m with rot := p }) v with
            | error e => exact ⟨rfl, hv, rfl⟩
            | ok w => rw [setMarker_ok hs]; exact ⟨rfl, hv, rfl⟩
          | update q g =>
            cases hu : update q g v with
            | error e =>
              rw [step_update_error hu]
              obtain ⟨-, k2, -, -, k5, k6⟩ := updateRaised_keep q g v
              refine ⟨k6, ?_, k2⟩
              rw [hv] at k5
              simpa using k5
            | ok w =>
              rw [step_update_ok hu]
              obtain ⟨qp, v1, -, h1, h2⟩ := update_parts hu
              have hr : v1.renderer = none := (updateViewer_keep h1).2.2.2.1.trans hv
              unfold updateRenderer at h2
              rw [hr] at h2
              cases h2
              refine ⟨?_, hr, ?_⟩
              · unfold updateViewer at h1
                split at h1
                · cases h1; rfl
                · rename_i s _
                  cases hd : drawMarkers v.nMarkers (v.markers.map Prod.snd) s with
                  | error e => simp only [hd] at h1; cases h1
                  | ok s' => simp only [hd] at h1; cases h1; rfl
              · exact (updateViewer_keep h1).2.1
        obtain ⟨a1, a2, a3⟩ := ih (step v op) hstep.2.1
        refine ⟨a1.trans hstep.1, a2, ?_⟩
        show (run (step v op) ops).nMarkers = _
        rw [a3, hstep.2.2]
        have : (acceptedNames (op :: ops)).length = (acceptedNames [op]).length + (acceptedNames ops).length := by
          unfold acceptedNames
          rw [List.flatMap_cons, List.flatMap_cons]
          simp
        omega
    have := key ops (State.init (some N) none nq) rfl
    refine ⟨this.1, this.2.1, by rw [this.2.2]; show 0 + _ = _; omega⟩
  have hinv := inv_run ops (inv_init (K := K) (some N) none nq)
  have hpres := fun name l => C105_present (K := K) (some N) none nq ops name l
  revert hnq hinv hpres
  generalize run (State.init (some N) none nq : State K) ops = v
  intro ⟨hq, hr, hn⟩ hinv hpres
  obtain ⟨s, hs⟩ : ∃ s, v.viewer = some s := by
    cases hvv : v.viewer with
    | none => have := hinv.viewer; rw [hvv] at this; cases this
    | some s => exact ⟨s, rfl⟩
  constructor
  · rintro ⟨v', hu⟩
    refine ⟨?_, ?_⟩
    · obtain ⟨qp, v1, h0, -, -⟩ := update_parts hu
      unfold assignQpos at h0
      rw [hq] at h0
      by_cases h1 : q.length = nq
      · exact Or.inl h1
      · by_cases h2 : q.length = 1
        · exact Or.inr h2
        · rw [if_neg h1, if_neg h2] at h0; cases h0
    · intro name l hl
      obtain ⟨m, hm, rfl⟩ := (hpres name l).2 hl
      obtain ⟨s', hd, -⟩ := drawMarkers_update hs hu
      exact (fits_iff m).2 (drawMarkers_drawable hd m (List.mem_map.2 ⟨_, hm, rfl⟩))
  · rintro ⟨h1, h2⟩
    obtain ⟨qp, hqp⟩ : ∃ qp, assignQpos v.nq q = .ok qp := by
      unfold assignQpos
      rw [hq]
      by_cases h : q.length = nq
      · rw [if_pos h]; exact ⟨_, rfl⟩
      · rw [if_neg h, if_pos (h1.resolve_left h)]; exact ⟨_, rfl⟩
    have hview := hinv.viewer
    rw [hs] at hview
    simp only [Option.map_some, Option.some.injEq, Prod.mk.injEq] at hview
    have hslot : ∀ m : Marker K, slotIndex s v.nMarkers m = m.id := by
      intro m; unfold slotIndex; rw [hview.1]; ring
    obtain ⟨t, e1, -⟩ := drawMarkers_spec (n := v.nMarkers) (v.markers.map Prod.snd) s
      (by
        intro m hm
        obtain ⟨x, hx, rfl⟩ := List.mem_map.1 hm
        exact (fits_iff x.2).1 (h2 x.1 x.2.look ((hpres x.1 x.2.look).1 ⟨x.2, hx, rfl⟩)))
      (by
        intro m hm
        obtain ⟨x, hx, rfl⟩ := List.mem_map.1 hm
        have := hinv.bound x hx
        rw [hslot]
        omega)
      (nodup_ids hinv.names hinv.distinct)
    refine ⟨{ v with qpos := qp, viewer := some t }, ?_⟩
    unfold update
    rw [hqp]
    simp only [bind, Except.bind, updateViewer, hs, e1, pure, Except.pure, updateRenderer, hr]

namespace LookEx
open VisEx

/-- Two markers, one of them moved, a refused call, a third marker, an update. -/
def hist : List (Op ℚ) := [.add args, .setPos "left" [1, 2, 3], .add bad, .add one, .update [0] 5]

theorem acc_args : Accepted args := by
  refine ⟨by decide, ?_, by decide⟩
  show (1 < (2 : Int) → (2 : Int) = 2) ∧ ((2 : Int) = 1 → _)
  exact ⟨fun _ => rfl, by decide⟩

theorem acc_one : Accepted one := ⟨by decide, (by decide : (1 : Int) ≤ 1), by decide⟩

theorem acc_bad : ¬ Accepted bad := fun h => by
  have : (2 : Int) ≤ 1 := h.2.1
  omega

theorem names_hist : acceptedNames hist = ["left", "right", "goal"] := by
  simp [acceptedNames, hist, acc_args, acc_one, acc_bad]
  rfl

theorem look_left : lookOf "left" hist = some { newLook args 0 with
    pos := [1, 2, 3] } := by
  simp only [lookOf, hist, List.foldl, lookStep, if_pos acc_args, if_neg acc_bad, if_pos acc_one]
  rfl

/-- The hypotheses of `C105_shown` hold, and what is shown of the marker `left` is a ball of radius 1/10 where it was put. -/
example : (acceptedNames hist).Nodup ∧ (acceptedNames hist).length ≤ 100 ∧
    (∃ v', update [0] 5 (run (State.init (some 100) (some 100) 1) hist) = .ok v') ∧
    ∃ l, lookOf "left" hist = some l ∧ l.size = [1 / 10, 1 / 10, 1 / 10] ∧ l.pos = [1, 2, 3] := by
  rw [names_hist]
  exact ⟨by decide, by decide, ⟨_, rfl⟩, _, look_left, rfl, rfl⟩

end LookEx

/-! ## C62 — recordings with more markers than geometries -/

theorem pyIndex_neg {n : Nat} {i : Int} (h0 : i < 0) (h1 : 0 ≤ i + n) : pyIndex n i = .ok (i + n).toNat := by
  unfold pyIndex
  have h2 : i + n < n := by omega
  simp [h0, h1]

/-- Drawing markers whose slots, counted from the front or from the back, exist and are different. -/
theorem drawMarkers_wrap {n : Nat} (slot : Marker K → Nat) : ∀ (ms : List (Marker K)) (s : Scene K), (∀ m ∈ ms, ∃ d, initGeom m = .ok d) →
    (∀ m ∈ ms, pyIndex s.geoms.length (slotIndex s n m) = .ok (slot m) ∧ slot m < s.geoms.length) →
    (ms.map slot).Nodup →
    ∃ s', drawMarkers n ms s = .ok s' ∧ s'.ngeom = s.ngeom ∧ s'.geoms.length = s.geoms.length ∧
      (∀ m ∈ ms, ∀ d, initGeom m = .ok d → s'.geoms[slot m]? = some (.marker d))
  | [], s, _, _, _ => ⟨s, rfl, rfl, rfl, by simp⟩
  | m :: ms, s, hd, hb, hnd => by
    have key : ∀ (ms : List (Marker K)) (s : Scene K), (∀ m ∈ ms, ∃ d, initGeom m = .ok d) →
        (∀ m ∈ ms, pyIndex s.geoms.length (slotIndex s n m) = .ok (slot m) ∧ slot m < s.geoms.length) →
        (ms.map slot).Nodup →
        ∃ s', drawMarkers n ms s = .ok s' ∧ s'.ngeom = s.ngeom ∧ s'.geoms.length = s.geoms.length ∧
          (∀ m ∈ ms, ∀ d, initGeom m = .ok d → s'.geoms[slot m]? = some (.marker d)) ∧
          ∀ k, (∀ m ∈ ms, slot m ≠ k) → s'.geoms[k]? = s.geoms[k]? := by
      intro ms
      induction ms with
      | nil => intro s _ _ _; exact ⟨s, rfl, rfl, rfl, by simp, fun _ _ => rfl⟩
      | cons m ms ih =>
        intro s hd hb hnd
        obtain ⟨d, hm⟩ := hd m (by simp)
        have hbm := hb m (by simp)
        let s1 : Scene K := { s with geoms := s.geoms.set (slot m) (.marker d) }
        have h1 : drawOne n s m = .ok s1 := by
          unfold drawOne
          rw [hbm.1]
          simp only [bind, Except.bind, hm]
          rfl
        have hl1 : s1.geoms.length = s.geoms.length := by simp [s1]
        have hnd' := List.nodup_cons.1 (by simpa using hnd : (slot m :: ms.map slot).Nodup)
        obtain ⟨s', h2, h3, h4, h5, h6⟩ := ih s1 (fun x hx => hd x (by simp [hx]))
          (fun x hx => by rw [hl1]; exact hb x (by simp [hx])) hnd'.2
        refine ⟨s', ?_, h3, by rw [h4, hl1], ?_, ?_⟩
        · unfold drawMarkers
          rw [List.foldlM_cons, h1]
          exact h2
        · intro x hx dx hdx
          rcases List.mem_cons.1 hx with rfl | hx'
          · rw [h6 (slot x) (fun y hy he => hnd'.1 (he ▸ List.mem_map_of_mem hy))]
            rw [hm] at hdx; cases hdx
            exact List.getElem?_set_self hbm.2
          · exact h5 x hx' dx hdx
        · intro k hk
          rw [h6 k (fun x hx => hk x (by simp [hx]))]
          exact List.getElem?_set_ne (hk m (by simp))
    obtain ⟨s', h1, h2, h3, h4, -⟩ := key (m :: ms) s hd hb hnd
    exact ⟨s', h1, h2, h3, h4⟩

/-- **C62 is false in recordings, also for the markers themselves**: if there are more markers than geometries of the model in
the scene, recording goes on without an error, but the frame shows only the last `g` markers: the places of the others are taken
from the end of the scene, which is not shown. -/
theorem C62_recording_loses_markers (N nq : Nat) (ops : List (Op K)) (hfresh : (acceptedNames ops).Nodup) (q : List K) (g : Nat)
    (hg : g < (acceptedNames ops).length) (hq : q.length = nq) (hfit : ∀ name l, lookOf name ops = some l → l.Fits)
    (v : State K) (hv : v = run (State.init none (some N) nq) ops) (hvq : v.nq = nq) {s : Scene K} (hs : v.renderer = some s)
    (hroom : (acceptedNames ops).length ≤ s.geoms.length) :
    ∃ v' frame, update q g v = .ok v' ∧ v'.frames = v.frames ++ [frame] ∧ frame.length = g ∧
      ∀ (k : Nat) (name : String), k < g → (acceptedNames ops)[(acceptedNames ops).length - g + k]? = some name →
        ∃ l d, lookOf name ops = some l ∧ frame[k]? = some (.marker d) ∧ Shows d l := by
  have hnames := acceptedNames_eq ops (State.init none (some N) nq : State K)
  obtain ⟨hids, hlen⟩ := C62_consecutive (K := K) none (some N) nq ops (by rw [hnames]; exact hfresh)
  rw [hnames] at hids hlen
  have hinv := inv_run ops (inv_init (K := K) none (some N) nq)
  have hpres := fun name l => C105_present (K := K) none (some N) nq ops name l
  rw [← hv] at hids hlen hinv hpres
  have hview : v.viewer = none := by
    cases hvv : v.viewer with
    | none => rfl
    | some s => have := hinv.viewer; rw [hvv] at this; cases this
  have hlen2 : (updateScene g s).geoms.length = s.geoms.length := updateScene_len g s
  have hgN : g ≤ s.geoms.length := by omega
  have hslot : ∀ m : Marker K, slotIndex (updateScene g s) v.nMarkers m = (g : Int) - v.nMarkers + m.id := by
    intro m; rw [updateScene_eq hgN]; rfl
  have hdraw : ∀ m ∈ v.markers.map Prod.snd, ∃ d, initGeom m = .ok d := by
    intro m hm
    obtain ⟨x, hx, rfl⟩ := List.mem_map.1 hm
    exact (fits_iff x.2).1 (hfit x.1 x.2.look ((hpres x.1 x.2.look).1 ⟨x.2, hx, rfl⟩))
  have hnd := nodup_ids hinv.names hinv.distinct
  have hb : ∀ m ∈ v.markers.map Prod.snd, m.id < v.nMarkers := by
    intro m hm
    obtain ⟨x, hx, rfl⟩ := List.mem_map.1 hm
    exact hinv.bound x hx
  let slot : Marker K → Nat := fun m =>
    if m.id < v.nMarkers - g then s.geoms.length - (v.nMarkers - g) + m.id else m.id - (v.nMarkers - g)
  obtain ⟨t, e1, e2, e3, e4⟩ := drawMarkers_wrap (n := v.nMarkers) slot (v.markers.map Prod.snd) (updateScene g s) hdraw
    (by
      intro m hm
      have := hb m hm
      rw [hslot, hlen2]
      by_cases h : m.id < v.nMarkers - g
      · simp only [slot, if_pos h]
        refine ⟨?_, by omega⟩
        rw [pyIndex_neg (by omega) (by omega)]
        congr 1
        omega
      · simp only [slot, if_neg h]
        refine ⟨?_, by omega⟩
        rw [pyIndex_nonneg (by omega) (by omega)]
        congr 1
        omega)
    (by
      have : (v.markers.map Prod.snd).map slot = ((v.markers.map Prod.snd).map Marker.id).map
          (fun i => if i < v.nMarkers - g then s.geoms.length - (v.nMarkers - g) + i else i - (v.nMarkers - g)) := by
        simp only [List.map_map]; rfl
      rw [this]
      refine List.Nodup.map_on ?_ hnd
      intro x hx y hy he
      obtain ⟨m, hm, rfl⟩ := List.mem_map.1 hx
      obtain ⟨m', hm', rfl⟩ := List.mem_map.1 hy
      have h1 := hb m hm
      have h2 := hb m' hm'
      split at he <;> split at he <;> omega)
  have hng : t.ngeom = g := by rw [e2, updateScene_eq hgN]
  have hup : update q g v = .ok { v with
      qpos := q
      renderer := some t
      frames := v.frames ++ [t.shown] } := by
    unfold update assignQpos
    rw [hvq, if_pos hq]
    simp only [bind, Except.bind, updateViewer, hview, updateRenderer, hs, e1, pure, Except.pure]
  refine ⟨_, t.shown, hup, rfl, ?_, ?_⟩
  · unfold Scene.shown
    rw [List.length_take, e3, hlen2, hng, Int.toNat_natCast]
    omega
  · intro k name hk hname
    have hmem : (name, (acceptedNames ops).length - g + k) ∈ v.markers.map (fun x => (x.1, x.2.id)) := by
      rw [hids]
      exact List.mk_mem_zipIdx_iff_getElem?.2 hname
    obtain ⟨x, hx, he⟩ := List.mem_map.1 hmem
    obtain ⟨hx1, hx2⟩ := Prod.mk.inj he
    obtain ⟨d, hd'⟩ := hdraw x.2 (List.mem_map_of_mem hx)
    refine ⟨x.2.look, d, (hpres name x.2.look).1 ⟨x.2, by rw [← hx1]; exact hx, rfl⟩, ?_, drawable_shows ((drawable_iff _ _).1 hd')⟩
    have hxs : slot x.2 = k := by
      simp only [slot]
      rw [if_neg (by omega)]
      omega
    have := e4 x.2 (List.mem_map_of_mem hx) d hd'
    rw [hxs] at this
    unfold Scene.shown
    rw [List.getElem?_take, hng, Int.toNat_natCast, if_pos hk]
    exact this

namespace LookEx
open VisEx

theorem look_other {name : String} (h1 : name ≠ "left") (h2 : name ≠ "right") (h3 : name ≠ "goal") : lookOf name hist = none := by
  simp [lookOf, hist, lookStep, acc_bad, givenNames, args, one, List.range_succ, h1.symm, h2.symm, h3.symm]

/-- The hypotheses of `C62_recording_loses_markers` hold: three markers, two geometries. -/
example : (acceptedNames hist).Nodup ∧ 2 < (acceptedNames hist).length ∧ (∀ name l, lookOf name hist = some l → l.Fits) ∧
    ∃ s, (run (State.init none (some 12) 1) hist).renderer = some s ∧ s.geoms.length = 12 := by
  rw [names_hist]
  refine ⟨by decide, by decide, ?_, _, rfl, rfl⟩
  intro name l hl
  by_cases h1 : name = "left"
  · subst h1
    rw [look_left] at hl
    cases hl
    exact ⟨rfl, rfl, rfl, Or.inl rfl⟩
  · by_cases h2 : name = "right"
    · subst h2
      have : lookOf "right" hist = some (newLook args 1) := by
        simp only [lookOf, hist, List.foldl, lookStep, if_pos acc_args, if_neg acc_bad, if_pos acc_one]
        rfl
      rw [this] at hl
      cases hl
      exact ⟨rfl, rfl, rfl, Or.inl rfl⟩
    · by_cases h3 : name = "goal"
      · subst h3
        have : lookOf "goal" hist = some (newLook one 0) := by
          simp only [lookOf, hist, List.foldl, lookStep, if_pos acc_args, if_neg acc_bad, if_pos acc_one]
          rfl
        rw [this] at hl
        cases hl
        exact ⟨rfl, rfl, rfl, Or.inl rfl⟩
      · rw [look_other h1 h2 h3] at hl
        cases hl

end LookEx

end Mjinx.Props
