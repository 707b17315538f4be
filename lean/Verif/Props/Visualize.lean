import Verif.Lemmas.Visualize
import Verif.Lemmas.Rot
import Mathlib.Algebra.Order.Ring.Rat
import Mathlib.Algebra.Field.Rat
import Mathlib.LinearAlgebra.Matrix.Determinant.Basic
import Mathlib.Tactic.FieldSimp
import Mathlib.Tactic.NormNum

/-!
# The visualizer (C62–C66)
-/

namespace Mjinx.Props
open Vis
open scoped Quaternion Matrix
set_option linter.unusedSectionVars false
variable {K : Type} [Field K]

/-! ## C62 — marker ids and slots -/

theorem ids_run : ∀ (ops : List (Op K)) (v : State K) (l0 : List String), v.markers.map (fun x => (x.1, x.2.id)) = l0.zipIdx →
    v.nMarkers = l0.length → (l0 ++ addedNames v ops).Nodup →
    (run v ops).markers.map (fun x => (x.1, x.2.id)) = (l0 ++ addedNames v ops).zipIdx ∧
      (run v ops).nMarkers = (l0 ++ addedNames v ops).length
  | [], v, l0, h, hn, _ => by simp [run, addedNames, h, hn]
  | .add a :: ops, v, l0, h, hn, hnd => by
    have hkeys : v.markers.map Prod.fst = l0 := by
      have := congrArg (List.map Prod.fst) h
      simpa [List.map_map, Function.comp_def] using this
    rcases addMarkers_cases a v with ⟨e, he⟩ | ⟨h0, hav, hl, he⟩
    · have hs : step v (.add a) = v := by show (addMarkers a v).2 = v; rw [he]
      have ha : addedNames v (.add a :: ops) = addedNames v ops := by
        rw [addedNames, he, hs]; rfl
      rw [ha] at hnd ⊢
      have := ids_run ops v l0 h hn hnd
      show (run (step v (.add a)) ops).markers.map _ = _ ∧ (run (step v (.add a)) ops).nMarkers = _
      rw [hs]; exact this
    · have ha : addedNames v (.add a :: ops) = givenNames a ++ addedNames (step v (.add a)) ops := by
        rw [addedNames, he]
      rw [ha] at hnd ⊢
      have hg : givenNames a = (List.range' 0 a.n.toNat).map (nameD a.name) := by
        rw [givenNames_eq, List.range_eq_range']
      have hnd1 : (v.markers.map Prod.fst ++ (List.range' 0 a.n.toNat).map (nameD a.name)).Nodup := by
        rw [hkeys, ← hg]
        rw [← List.append_assoc] at hnd
        exact hnd.of_append_left
      have hf := addLoop_fresh a.n.toNat 0 v.markers hl (fun j _ hj => hav j (by omega)) hnd1
      have hm : (step v (.add a)).markers.map (fun x => (x.1, x.2.id)) = (l0 ++ givenNames a).zipIdx := by
        show ((addMarkers a v).2).markers.map _ = _
        rw [he]
        show (addLoop a v.nMarkers a.n.toNat (List.range' 0 a.n.toNat) v.markers).2.map _ = _
        rw [hf, h, List.zipIdx_append, hg, hn]
        congr 1
        rw [List.zipIdx_map]
        apply List.ext_getElem
        · simp
        · intro i h1 h2
          simp
      have hn' : (step v (.add a)).nMarkers = (l0 ++ givenNames a).length := by
        show ((addMarkers a v).2).nMarkers = _
        rw [he, List.length_append, hg]
        simp [hn]
      have := ids_run ops (step v (.add a)) (l0 ++ givenNames a) hm hn' (by rw [List.append_assoc]; exact hnd)
      rw [List.append_assoc] at this
      exact this
  | .setPos n p :: ops, v, l0, h, hn, hnd => by
    have hs : ∀ (f : Marker K → Marker K), (∀ m, (f m).id = m.id) → ∀ w : State K, w = ((setMarker n f v).toOption).getD v →
        w.markers.map (fun x => (x.1, x.2.id)) = l0.zipIdx ∧ w.nMarkers = l0.length := by
      intro f hf w hw
      cases hx : setMarker n f v with
      | error e => rw [hx] at hw; cases hw; exact ⟨h, hn⟩
      | ok v' =>
        rw [hx] at hw
        have : w = v' := hw
        rw [this, setMarker_ok hx]
        refine ⟨?_, hn⟩
        rw [List.map_map, ← h]
        apply List.map_congr_left
        intro x _
        by_cases hxn : x.1 = n <;> simp [hxn, hf]
    obtain ⟨a, b⟩ := hs (fun m => { m with pos := p }) (fun _ => rfl) (step v (.setPos n p)) rfl
    exact ids_run ops _ l0 a b hnd
  | .setRot n p :: ops, v, l0, h, hn, hnd => by
    have hs : ∀ (f : Marker K → Marker K), (∀ m, (f m).id = m.id) → ∀ w : State K, w = ((setMarker n f v).toOption).getD v →
        w.markers.map (fun x => (x.1, x.2.id)) = l0.zipIdx ∧ w.nMarkers = l0.length := by
      intro f hf w hw
      cases hx : setMarker n f v with
      | error e => rw [hx] at hw; cases hw; exact ⟨h, hn⟩
      | ok v' =>
        rw [hx] at hw
        have : w = v' := hw
        rw [this, setMarker_ok hx]
        refine ⟨?_, hn⟩
        rw [List.map_map, ← h]
        apply List.map_congr_left
        intro x _
        by_cases hxn : x.1 = n <;> simp [hxn, hf]
    obtain ⟨a, b⟩ := hs (fun m => { m with rot := p }) (fun _ => rfl) (step v (.setRot n p)) rfl
    exact ids_run ops _ l0 a b hnd
  | .update q g :: ops, v, l0, h, hn, hnd => by
    have hs : (step v (.update q g)).markers = v.markers ∧ (step v (.update q g)).nMarkers = v.nMarkers := by
      cases hx : update q g v with
      | error e => rw [step_update_error hx]; exact ⟨(updateRaised_keep q g v).1, (updateRaised_keep q g v).2.1⟩
      | ok v' => rw [step_update_ok hx]; exact ⟨(update_keep hx).1, (update_keep hx).2.1⟩
    exact ids_run ops _ l0 (by rw [hs.1]; exact h) (by rw [hs.2]; exact hn) hnd

/-- **C62** (ids): if no name is used twice, then after any history the markers are exactly those added, in the order of
addition, and the ids are `0, 1, 2, …`. -/
theorem C62_consecutive (viewer renderer : Option Nat) (nq : Nat) (ops : List (Op K))
    (h : (addedNames (State.init viewer renderer nq) ops).Nodup) :
    let v := run (State.init viewer renderer nq) ops
    v.markers.map (fun x => (x.1, x.2.id)) = (addedNames (State.init viewer renderer nq) ops).zipIdx ∧
      v.nMarkers = (addedNames (State.init viewer renderer nq) ops).length := by
  simpa using ids_run ops (State.init viewer renderer nq) [] (by simp [State.init]) (by simp [State.init]) (by simpa using h)

/-- **C62** (unique): after any history, also with names used again, no two markers share an id, and every id is below the
number of markers added. -/
theorem C62_unique (viewer renderer : Option Nat) (nq : Nat) (ops : List (Op K)) :
    (ids (run (State.init viewer renderer nq) ops)).Nodup ∧
      ∀ i ∈ ids (run (State.init viewer renderer nq) ops), i < (run (State.init viewer renderer nq) ops).nMarkers := by
  have h := inv_run ops (inv_init (K := K) viewer renderer nq)
  refine ⟨by simpa [ids, List.map_map, Function.comp_def] using nodup_ids h.names h.distinct, ?_⟩
  intro i hi
  obtain ⟨x, hx, rfl⟩ := List.mem_map.1 hi
  exact h.bound x hx

/-- **C62** (slots in the viewer): after any history, if the scene of the viewer has room for the markers and the markers'
arrays have the right sizes, drawing succeeds, the scene shows as many slots as markers were added, and every marker is in the slot of its id. -/
theorem C62_viewer_slots (N : Nat) (renderer : Option Nat) (nq : Nat) (ops : List (Op K)) (v : State K)
    (hv : v = run (State.init (some N) renderer nq) ops) (hroom : v.nMarkers ≤ N)
    (hd : ∀ x ∈ v.markers, ∃ d, Drawable x.2 d) :
    ∃ v' s', updateViewer v = .ok v' ∧ v'.viewer = some s' ∧ v'.markers = v.markers ∧ s'.shown.length = v.nMarkers ∧
      ∀ x ∈ v.markers, ∀ d, Drawable x.2 d → s'.shown[x.2.id]? = some (.marker d) := by
  have h := inv_run ops (inv_init (K := K) (some N) renderer nq)
  rw [← hv] at h
  obtain ⟨s, hs⟩ : ∃ s, v.viewer = some s := by
    cases hvv : v.viewer with
    | none => have := h.viewer; rw [hvv] at this; cases this
    | some s => exact ⟨s, rfl⟩
  have hview := h.viewer
  rw [hs] at hview
  simp only [Option.map_some, Option.some.injEq, Prod.mk.injEq] at hview
  have hslot : ∀ m : Marker K, slotIndex s v.nMarkers m = m.id := by
    intro m; unfold slotIndex; rw [hview.1]; ring
  obtain ⟨s', h1, h2, h3, h4, -⟩ := drawMarkers_spec (n := v.nMarkers) (v.markers.map Prod.snd) s
    (by intro m hm; obtain ⟨x, hx, rfl⟩ := List.mem_map.1 hm; obtain ⟨d, hd'⟩ := hd x hx; exact ⟨d, (drawable_iff _ _).2 hd'⟩)
    (by
      intro m hm
      obtain ⟨x, hx, rfl⟩ := List.mem_map.1 hm
      have := h.bound x hx
      rw [hslot]
      omega)
    (nodup_ids h.names h.distinct)
  refine ⟨{ v with viewer := some s' }, s', ?_, rfl, rfl, ?_, ?_⟩
  · unfold updateViewer
    rw [hs]
    simp only [h1]
    rfl
  · unfold Scene.shown
    rw [List.length_take, h3, h2, hview.1, hview.2]
    simp [hroom]
  · intro x hx d hxd
    have hb := h.bound x hx
    have := h4 x.2 (List.mem_map_of_mem hx) d ((drawable_iff _ _).2 hxd)
    rw [hslot, Int.toNat_natCast] at this
    unfold Scene.shown
    rw [h2, hview.1, Int.toNat_natCast, List.getElem?_take]
    simpa [hb] using this

/-- **C62** (refusals): in every state, with a viewer or when recording, `update` raises if the size, position, colour or
orientation of some marker does not have the size MuJoCo expects. -/
theorem C62_refuses (v : State K) (hscene : v.viewer.isSome ∨ v.renderer.isSome) {x : String × Marker K} (hx : x ∈ v.markers)
    (hd : ∀ d, ¬ Drawable x.2 d) (q : List K) (g : Nat) : ∃ e, update q g v = .error e := by
  cases hu : update q g v with
  | error e => exact ⟨e, rfl⟩
  | ok v' =>
    exfalso
    obtain ⟨qp, v1, -, h1, h2⟩ := update_parts hu
    have hm : x.2 ∈ v.markers.map Prod.snd := List.mem_map_of_mem hx
    have key : ∃ (s s' : Scene K), drawMarkers v.nMarkers (v.markers.map Prod.snd) s = .ok s' := by
      rcases hscene with h | h
      · obtain ⟨s, hs⟩ := Option.isSome_iff_exists.1 h
        unfold updateViewer at h1
        simp only [hs] at h1
        cases hd : drawMarkers v.nMarkers (v.markers.map Prod.snd) s with
        | error e => rw [hd] at h1; cases h1
        | ok s' => exact ⟨s, s', hd⟩
      · obtain ⟨s, hs⟩ := Option.isSome_iff_exists.1 h
        obtain ⟨a1, a2, a3, a4, a5⟩ := updateViewer_keep h1
        unfold updateRenderer at h2
        rw [show v1.renderer = some s from a4.trans hs] at h2
        simp only at h2
        cases hd : drawMarkers v1.nMarkers (v1.markers.map Prod.snd) (updateScene g s) with
        | error e => rw [hd] at h2; cases h2
        | ok s' => rw [a1, a2] at hd; exact ⟨_, s', hd⟩
    obtain ⟨s, s', h⟩ := key
    obtain ⟨d, hd'⟩ := drawMarkers_drawable h _ hm
    exact hd d ((drawable_iff _ _).1 hd')

/-- **C62 is false in recordings**: `update_scene` has put the `g` geometries of the model in the scene and the markers are
written over the last of them.  The frame shows `g` things; with all markers present (`n` of them, `n ≤ g`), the last `n`
geometries of the model are missing. -/
theorem C62_recording_replaces_model (viewer : Option Nat) (N nq : Nat) (ops : List (Op K)) (v v' : State K) (q : List K) (g : Nat)
    (hv : v = run (State.init viewer (some N) nq) ops)
    (hfresh : (addedNames (State.init viewer (some N) nq) ops).Nodup) (hg : v.nMarkers ≤ g) {s : Scene K} (hs : v.renderer = some s) (hgN : g ≤ s.geoms.length)
    (hu : update q g v = .ok v') :
    ∃ frame, v'.frames = v.frames ++ [frame] ∧ frame.length = g ∧ (∀ k, k < g - v.nMarkers → frame[k]? = some (.model k)) ∧
      ∀ k, g - v.nMarkers ≤ k → Slot.model k ∉ frame := by
  have h := inv_run ops (inv_init (K := K) viewer (some N) nq)
  rw [← hv] at h
  have hids := (C62_consecutive viewer (some N) nq ops hfresh).1
  have hlen := (C62_consecutive viewer (some N) nq ops hfresh).2
  rw [← hv] at hids hlen
  obtain ⟨qp, v1, -, h1, hu'⟩ := update_parts hu
  obtain ⟨a1, a2, -, a4, a5⟩ := updateViewer_keep h1
  unfold updateRenderer at hu'
  have hr : v1.renderer = some s := a4.trans hs
  rw [hr] at hu'
  simp only at hu'
  cases hd : drawMarkers v1.nMarkers (v1.markers.map Prod.snd) (updateScene g s) with
  | error e => rw [hd] at hu'; cases hu'
  | ok s' =>
    rw [hd] at hu'; cases hu'
    have hm : v1.markers = v.markers := a1
    have hnm : v1.nMarkers = v.nMarkers := a2
    rw [hm, hnm] at hd
    have hlen2 : (updateScene g s).geoms.length = s.geoms.length := by
      exact updateScene_len g s
    have hslot : ∀ m : Marker K, slotIndex (updateScene g s) v.nMarkers m = (g : Int) - v.nMarkers + m.id := by
      intro m; rw [updateScene_eq hgN]; rfl
    have hdraw : ∀ m ∈ v.markers.map Prod.snd, ∃ d, initGeom m = .ok d := by
      have key : ∀ (ms : List (Marker K)) (t t' : Scene K), drawMarkers v.nMarkers ms t = .ok t' → ∀ m ∈ ms, ∃ d, initGeom m = .ok d := by
        intro ms
        induction ms with
        | nil => intro t t' _ m hm; cases hm
        | cons x xs ih =>
          intro t t' ht m hm
          unfold drawMarkers at ht
          rw [List.foldlM_cons] at ht
          cases h1 : drawOne v.nMarkers t x with
          | error e => rw [h1] at ht; cases ht
          | ok t1 =>
            rw [h1] at ht
            rcases List.mem_cons.1 hm with rfl | hm
            · unfold drawOne at h1
              cases hk : pyIndex t.geoms.length (slotIndex t v.nMarkers m) with
              | error e => rw [hk] at h1; cases h1
              | ok k =>
                rw [hk] at h1
                cases hd : initGeom m with
                | error e => rw [hd] at h1; cases h1
                | ok d => exact ⟨d, rfl⟩
            · exact ih t1 t' ht m hm
      exact key _ _ _ hd
    obtain ⟨t', e1, e2, e3, e4, e5⟩ := drawMarkers_spec (n := v.nMarkers) (v.markers.map Prod.snd) (updateScene g s) hdraw
      (by
        intro m hmm
        obtain ⟨x, hx, rfl⟩ := List.mem_map.1 hmm
        have := h.bound x hx
        rw [hslot, hlen2]
        omega)
      (nodup_ids h.names h.distinct)
    rw [hd] at e1; cases e1
    have hshown : s'.shown = s'.geoms.take g := by
      unfold Scene.shown; rw [e2, updateScene_eq hgN]; rfl
    have hget : ∀ k < g, (updateScene g s).geoms[k]? = some (.model k) := by
      intro k hk
      rw [updateScene_eq hgN]
      rw [List.getElem?_append_left (by simpa using hk)]
      simp [hk]
    have hlow : ∀ k, k < g - v.nMarkers → s'.shown[k]? = some (.model k) := by
      intro k hk
      rw [hshown, List.getElem?_take, if_pos (by omega), e5 k, hget k (by omega)]
      intro m hmm he
      rw [hslot] at he
      omega
    have hhigh : ∀ k, g - v.nMarkers ≤ k → k < g → ∃ d, s'.shown[k]? = some (.marker d) := by
      intro k hk1 hk2
      have hk : k - (g - v.nMarkers) < v.nMarkers := by omega
      obtain ⟨nm, hnm⟩ : ∃ nm, (nm, k - (g - v.nMarkers)) ∈ v.markers.map (fun x => (x.1, x.2.id)) := by
        rw [hids]
        have hk' : k - (g - v.nMarkers) < (addedNames (State.init viewer (some N) nq) ops).length := by rw [← hlen]; exact hk
        exact ⟨_, List.mk_mem_zipIdx_iff_getElem?.2 (List.getElem?_eq_getElem hk')⟩
      obtain ⟨x, hx, he⟩ := List.mem_map.1 hnm
      have hid : x.2.id = k - (g - v.nMarkers) := (Prod.mk.inj he).2
      obtain ⟨d, hd'⟩ := hdraw x.2 (List.mem_map_of_mem hx)
      refine ⟨d, ?_⟩
      have := e4 x.2 (List.mem_map_of_mem hx) d hd'
      rw [hslot, hid] at this
      rw [hshown, List.getElem?_take, if_pos hk2]
      have hcast : ((g : Int) - v.nMarkers + ((k - (g - v.nMarkers) : Nat) : Int)).toNat = k := by omega
      rw [hcast] at this
      exact this
    refine ⟨s'.shown, by rw [a5], ?_, hlow, ?_⟩
    · rw [hshown, List.length_take, e3, hlen2]
      omega
    · intro k hk hmem
      obtain ⟨j, hj⟩ := List.getElem?_of_mem hmem
      have hjg : j < g := by
        rw [hshown, List.getElem?_take] at hj
        by_contra hc
        rw [if_neg hc] at hj
        cases hj
      by_cases hjl : j < g - v.nMarkers
      · rw [hlow j hjl] at hj
        cases hj
        omega
      · obtain ⟨d, hd'⟩ := hhigh j (by omega) hjg
        rw [hd'] at hj
        cases hj

/-- **C62** (names used again): adding a marker under a name that is already used replaces the marker, but the ids go on: the
ids then have a gap and one shown slot of the viewer belongs to no marker. -/
theorem C62_reused_name_gap (N : Nat) (s : String) (a : MarkerArgs K) (ha : a.name = .one s) (hn : a.n = 1) (hc : a.colorEnd = none) :
    let v := run (State.init (some N) none 0) [.add a, .add a]
    ids v = [1] ∧ v.nMarkers = 2 ∧ v.viewer.map (fun x => x.ngeom) = some 2 := by
  have h1 : ∀ w : State K, addMarkers a w = (.ok (), { w with
      markers := dictSet w.markers s ⟨w.nMarkers + 0, a.type, sizeArray a.size, [0, 0, 0], ⟨[4], fun ix => if ix = [0] then 1 else 0⟩,
        List.zipWith (fun x y => linspace 1 0 * x + (1 - linspace 1 0) * y) a.colorBegin a.colorBegin ++ [a.alpha]⟩,
      nMarkers := w.nMarkers + 1, viewer := w.viewer.map (·.grow 1), renderer := w.renderer.map (·.grow 1) }) := by
    intro w
    unfold addMarkers
    rw [hn, ha]
    simp only [namesOk]
    have : (List.range (1 : Int).toNat) = [0] := rfl
    rw [this]
    simp only [addLoop, ha, nameAt, newMarker, hc, Option.getD_none, mix]
    rfl
  simp only [run, List.foldl, step, h1]
  simp [State.init, dictSet, ids, Scene.grow]

namespace VisEx

/-- Two spheres from red to blue. -/
def args : MarkerArgs ℚ := ⟨.many ["left", "right"], .inl (1 / 10), 1 / 2, [1, 0, 0], some [0, 0, 1], 2, 2⟩

/-- One more. -/
def one : MarkerArgs ℚ := ⟨.one "goal", .inl (1 / 10), 1, [0, 1, 0], none, 2, 1⟩

/-- A call that is refused: two markers, one name. -/
def bad : MarkerArgs ℚ := ⟨.one "goal", .inl (1 / 10), 1, [0, 1, 0], none, 2, 2⟩

/-- A history with a viewer and a renderer. -/
def ops : List (Op ℚ) := [.add args, .setPos "left" [1, 2, 3], .add bad, .add one, .update [0] 5]

def start : State ℚ := State.init (some 100) (some 100) 1

example : addedNames start ops = ["left", "right", "goal"] := rfl
example : (addedNames start ops).Nodup := by decide

/-- The hypotheses of `C62_viewer_slots` hold of this history. -/
example : (run start ops).nMarkers = 3 ∧ ∀ x ∈ (run start ops).markers, ∃ d, Drawable x.2 d := by
  refine ⟨rfl, ?_⟩
  intro x hx
  have h : (run start ops).markers.map (fun x => (Except.toBool (initGeom x.2))) = [true, true, true] := rfl
  have hb : Except.toBool (initGeom x.2) = true := by
    have := List.mem_map_of_mem (f := fun x : String × Marker ℚ => (Except.toBool (initGeom x.2))) hx
    rw [h] at this
    simpa using this
  cases hi : initGeom x.2 with
  | error e => rw [hi] at hb; cases hb
  | ok d => exact ⟨d, (drawable_iff _ _).1 hi⟩

/-- The hypotheses of `C62_refuses` hold after a position with two entries was written. -/
example : (run start (ops ++ [.setPos "goal" [1, 2]])).viewer.isSome ∧
    ∃ x ∈ (run start (ops ++ [.setPos "goal" [1, 2]])).markers, ∀ d, ¬ Drawable x.2 d := by
  refine ⟨rfl, (run start (ops ++ [.setPos "goal" [1, 2]])).markers.getLast (by decide), List.getLast_mem _, ?_⟩
  rintro d ⟨-, h, -⟩
  cases h

/-- The hypotheses of `C62_recording_replaces_model` hold: `update` with five geometries succeeds. -/
example : ∃ v', update [0] 5 (run start ops) = .ok v' ∧ (run start ops).nMarkers ≤ 5 := by
  refine ⟨_, rfl, by decide⟩

end VisEx

/-! ## C63 — marker rotation -/

/-- **C63**: a unit quaternion `(w, x, y, z)` is turned into nine numbers, row by row, of an orthogonal matrix of determinant one
that rotates every vector as the quaternion does. -/
theorem C63_rotation {w x y z : K} (hu : w ^ 2 + x ^ 2 + y ^ 2 + z ^ 2 = 1) (rot : Arr K) (hs : rot.shape = [4])
    (h0 : rot.get [0] = w) (h1 : rot.get [1] = x) (h2 : rot.get [2] = y) (h3 : rot.get [3] = z) :
    ∃ (l : List K) (R : M3 K), rotMatrix rot = .ok l ∧ l.length = 9 ∧ (∀ i j : Fin 3, l[3 * i.val + j.val]? = some (R i j)) ∧
      R * Rᵀ = 1 ∧ R.det = 1 ∧ ∀ u, R.mulVec u = rotate ⟨w, x, y, z⟩ u := by
  have hw : w ^ 2 = 1 - x ^ 2 - y ^ 2 - z ^ 2 := by rw [← hu]; ring
  refine ⟨ravel2 3 3 (m3Entry (quatMatrix w x y z)), quatMatrix w x y z, ?_, rfl, ?_, ?_, ?_, ?_⟩
  · unfold rotMatrix
    rw [hs]
    simp only [ne_eq, not_true_eq_false, if_false, h0, h1, h2, h3]
  · intro i j
    fin_cases i <;> fin_cases j <;> rfl
  · ext i j
    fin_cases i <;> fin_cases j <;>
      simp [quatMatrix, Matrix.mul_apply, Fin.sum_univ_three, Matrix.transpose_apply] <;> ring_nf <;> (try rw [hw]) <;> ring
  · rw [Matrix.det_fin_three]
    simp [quatMatrix]
    ring_nf
    rw [hw]
    ring
  · intro u
    have e : ∀ q : ℍ[K], q.re = w → q.imI = x → q.imJ = y → q.imK = z → (quatMatrix w x y z).mulVec u = rotate q u := by
      intro q a b c d
      funext i
      fin_cases i
      · show (quatMatrix w x y z).mulVec u 0 = rotate q u 0
        rw [rotate_apply0, a, b, c, d, hw]
        simp [quatMatrix, Matrix.mulVec, dotProduct, Fin.sum_univ_three]
        ring
      · show (quatMatrix w x y z).mulVec u 1 = rotate q u 1
        rw [rotate_apply1, a, b, c, d, hw]
        simp [quatMatrix, Matrix.mulVec, dotProduct, Fin.sum_univ_three]
        ring
      · show (quatMatrix w x y z).mulVec u 2 = rotate q u 2
        rw [rotate_apply2, a, b, c, d, hw]
        simp [quatMatrix, Matrix.mulVec, dotProduct, Fin.sum_univ_three]
        ring
    exact e _ rfl rfl rfl rfl

/-- **C63** (refusals): an array that is neither four numbers nor two-dimensional is refused, a matrix is passed on row by row. -/
theorem C63_shapes (rot : Arr K) :
    ((∃ l, rotMatrix rot = .ok l) ↔ rot.shape = [4] ∨ ∃ r c, rot.shape = [r, c]) ∧
      ∀ r c, rot.shape = [r, c] → ∃ l, rotMatrix rot = .ok l ∧ l.length = r * c ∧ (r = 3 → c = 3 → ∀ i < 3, ∀ j < 3, l[3 * i + j]? = some (rot.get [i, j])) := by
  constructor
  · unfold rotMatrix
    split
    · rename_i n hn
      rw [hn]
      by_cases h4 : n = 4
      · subst h4; simp
      · simp [h4]
    · rename_i r c hrc
      rw [hrc]; simp
    · rename_i h1 h2
      constructor
      · rintro ⟨l, h⟩; cases h
      · rintro (h | ⟨r, c, h⟩)
        · exact absurd h (h1 4)
        · exact absurd h (h2 r c)
  · intro r c h
    refine ⟨ravel2 r c (fun i j => rot.get [i, j]), ?_, ?_, ?_⟩
    · unfold rotMatrix; rw [h]
    · unfold ravel2
      rw [List.length_flatMap]
      simp
    · rintro rfl rfl i hi j hj
      obtain rfl | rfl | rfl : i = 0 ∨ i = 1 ∨ i = 2 := by omega
      all_goals
        obtain rfl | rfl | rfl : j = 0 ∨ j = 1 ∨ j = 2 := by omega
        all_goals rfl

example : ((3 / 5 : ℚ)) ^ 2 + 0 ^ 2 + (4 / 5) ^ 2 + 0 ^ 2 = 1 := by norm_num

/-- A quaternion of the wrong length is refused. -/
example : rotMatrix (⟨[3], fun _ => 0⟩ : Arr ℚ) = .error .valueError := rfl

/-! ## C64 — marker colours -/

/-- The colour at `t` on the way from `b` (at 0) to `e` (at 1). -/
def lerp (t : K) (b e : List K) : List K := List.zipWith (fun x y => x + t * (y - x)) b e

theorem addLoop_list {a : MarkerArgs K} {base n : Nat} {mk : Nat → Marker K} (hm : ∀ j, newMarker a base n j = .ok (mk j)) : ∀ k i d,
    (∀ j, i ≤ j → j < i + k → nameAt a.name j = .ok (nameD a.name j)) →
    (d.map Prod.fst ++ (List.range' i k).map (nameD a.name)).Nodup →
    (addLoop a base n (List.range' i k) d).2 = d ++ (List.range' i k).map (fun j => (nameD a.name j, mk j))
  | 0, i, d, _, _ => by simp [List.range', addLoop]
  | k + 1, i, d, hn, hnd => by
    simp only [List.range'_succ, addLoop, hn i le_rfl (by omega), hm i]
    have hf : nameD a.name i ∉ d.map Prod.fst := by
      intro hmem
      rw [List.nodup_append] at hnd
      exact hnd.2.2 _ hmem (nameD a.name i) (by simp [List.range'_succ]) rfl
    rw [dictSet_fresh hf, addLoop_list hm k (i + 1) _ (fun j h1 h2 => hn j (by omega) (by omega))]
    · simp
    · simpa [List.range'_succ, List.append_assoc] using hnd

theorem newMarker_rgba {a : MarkerArgs K} {base n i : Nat} {m : Marker K} (h : newMarker a base n i = .ok m) :
    a.colorBegin.length = (a.colorEnd.getD a.colorBegin).length ∧
      m.rgba = lerp (1 - linspace n i) a.colorBegin (a.colorEnd.getD a.colorBegin) ++ [a.alpha] := by
  unfold newMarker mix at h
  split at h
  · rename_i hl
    cases h
    refine ⟨hl, ?_⟩
    have hf : (fun x y : K => linspace n i * x + (1 - linspace n i) * y) = fun x y => x + (1 - linspace n i) * (y - x) := by
      funext x y; ring
    show List.zipWith _ _ _ ++ [a.alpha] = _
    rw [hf]; rfl
  · cases h

/-- The colours after a successful call with new names. -/
theorem addMarkers_colors {a : MarkerArgs K} {v v' : State K} (h : addMarkers a v = (.ok (), v'))
    (hnew : (v.markers.map Prod.fst ++ givenNames a).Nodup) {i : Nat} (hi : i < a.n.toNat) :
    ∃ m, ((givenNames a).getD i "", m) ∈ v'.markers ∧ a.colorBegin.length = (a.colorEnd.getD a.colorBegin).length ∧
      m.rgba = lerp (1 - linspace a.n.toNat i) a.colorBegin (a.colorEnd.getD a.colorBegin) ++ [a.alpha] := by
  rcases addMarkers_cases a v with ⟨e, he⟩ | ⟨-, hav, hl, he⟩
  · rw [he] at h; cases h
  · rw [he] at h; cases h
    have hg : givenNames a = (List.range' 0 a.n.toNat).map (nameD a.name) := by
      rw [givenNames_eq, List.range_eq_range']
    rcases newMarker_ok a v.nMarkers a.n.toNat with hok | ⟨e, hbad⟩
    · obtain ⟨m, hm⟩ := hok i
      choose mk hmk using hok
      have := addLoop_list hmk a.n.toNat 0 v.markers (fun j _ hj => hav j (by omega)) (by rw [← hg]; exact hnew)
      refine ⟨m, ?_, newMarker_rgba hm⟩
      show _ ∈ (addLoop a v.nMarkers a.n.toNat (List.range' 0 a.n.toNat) v.markers).2
      rw [this]
      apply List.mem_append_right
      rw [List.mem_map]
      refine ⟨i, by simpa [List.mem_range'] using hi, ?_⟩
      have e1 : mk i = m := by have := hmk i; rw [hm] at this; cases this; rfl
      rw [e1]
      congr 1
      rw [givenNames_eq, List.getD_eq_getElem _ "" (by simpa using hi)]
      simp
    · exfalso
      obtain ⟨k, hk⟩ : ∃ k, a.n.toNat = k + 1 := ⟨a.n.toNat - 1, by omega⟩
      rw [hk] at hl hav hbad
      rw [show List.range' 0 (k + 1) = 0 :: List.range' 1 k from rfl] at hl
      simp only [addLoop, hav 0 (by omega), hbad 0] at hl
      cases hl

/-- **C64** (what the code does): with `n > 1` markers under new names, the `i`-th has the colour that lies at `1 - i/(n-1)` on the way
from `color_begin` to `color_end`: the colours run backwards. -/
theorem C64_reversed {a : MarkerArgs K} {v v' : State K} (h : addMarkers a v = (.ok (), v')) (n : Nat) (hn : a.n = n) (h2 : 1 < n)
    (hnew : (v.markers.map Prod.fst ++ givenNames a).Nodup) {e : List K} (he : a.colorEnd = some e) {i : Nat} (hi : i < n) :
    ∃ m, ((givenNames a).getD i "", m) ∈ v'.markers ∧ m.rgba = lerp (1 - (i : K) / ((n - 1 : Nat) : K)) a.colorBegin e ++ [a.alpha] := by
  have hn' : a.n.toNat = n := by rw [hn]; rfl
  obtain ⟨m, h1, -, h3⟩ := addMarkers_colors h hnew (i := i) (by omega)
  refine ⟨m, h1, ?_⟩
  rw [h3, he, hn']
  unfold linspace
  rw [if_neg (by omega)]
  rfl

/-- **C64 is false**: the first marker has the colour `color_end`. -/
theorem C64_first_is_end {a : MarkerArgs K} {v v' : State K} (h : addMarkers a v = (.ok (), v')) (hn : 1 < a.n)
    (hnew : (v.markers.map Prod.fst ++ givenNames a).Nodup) {e : List K} (he : a.colorEnd = some e) :
    ∃ m, ((givenNames a).getD 0 "", m) ∈ v'.markers ∧ m.rgba = e ++ [a.alpha] := by
  obtain ⟨m, h1, h2, h3⟩ := addMarkers_colors h hnew (i := 0) (by omega)
  refine ⟨m, h1, ?_⟩
  rw [he] at h2 h3
  rw [h3]
  congr 1
  have hz : (linspace a.n.toNat 0 : K) = 0 := by unfold linspace; split <;> simp
  rw [hz, sub_zero]
  unfold lerp
  have hl : a.colorBegin.length = e.length := h2
  apply List.ext_getElem
  · simp [hl]
  · intro j h1 h2
    simp

/-- **C64** (what holds): with one colour only, every marker gets that colour.

Missing: the order of interpolation, which the code reverses (`C64_reversed`). -/
theorem C64_single_color_partial {a : MarkerArgs K} {v v' : State K} (h : addMarkers a v = (.ok (), v'))
    (hnew : (v.markers.map Prod.fst ++ givenNames a).Nodup) (he : a.colorEnd = none ∨ a.colorEnd = some a.colorBegin) {i : Nat} (hi : i < a.n.toNat) :
    ∃ m, ((givenNames a).getD i "", m) ∈ v'.markers ∧ m.rgba = a.colorBegin ++ [a.alpha] := by
  obtain ⟨m, h1, -, h3⟩ := addMarkers_colors h hnew hi
  refine ⟨m, h1, ?_⟩
  have hc : a.colorEnd.getD a.colorBegin = a.colorBegin := by rcases he with he | he <;> rw [he] <;> rfl
  rw [h3, hc]
  congr 1
  unfold lerp
  apply List.ext_getElem
  · simp
  · intro j h1 h2
    simp

namespace VisEx

/-- The hypotheses of the three theorems are met by a first call. -/
example : ∃ v', addMarkers args start = (.ok (), v') ∧ (start.markers.map Prod.fst ++ givenNames args).Nodup :=
  ⟨_, rfl, by decide⟩

example : ∃ v', addMarkers one start = (.ok (), v') ∧ (start.markers.map Prod.fst ++ givenNames one).Nodup :=
  ⟨_, rfl, by decide⟩

end VisEx

end Mjinx.Props
