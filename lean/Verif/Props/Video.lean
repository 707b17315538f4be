import Verif.Spec.Video
import Verif.Props.VisualizeModel

/-!
# C95: videos
-/

namespace Mjinx.Props
open Vis
set_option linter.unusedSectionVars false
variable {K : Type} [Field K]

private theorem step_frames (v : State K) (op : Op K) (h : ∀ q g, op ≠ .update q g) :
    (step v op).frames = v.frames ∧ (step v op).renderer.isSome = v.renderer.isSome := by
  cases op with
  | add a =>
    show (addMarkers a v).2.frames = _ ∧ (addMarkers a v).2.renderer.isSome = _
    rcases addMarkers_cases a v with ⟨e, he⟩ | ⟨-, -, -, he⟩
    · rw [he]; exact ⟨rfl, rfl⟩
    · rw [he]; exact ⟨rfl, by simp⟩
  | setPos nm p =>
    show (((setMarker nm _ v).toOption).getD v).frames = _ ∧ (((setMarker nm _ v).toOption).getD v).renderer.isSome = _
    unfold setMarker
    split <;> exact ⟨rfl, rfl⟩
  | setRot nm p =>
    show (((setMarker nm _ v).toOption).getD v).frames = _ ∧ (((setMarker nm _ v).toOption).getD v).renderer.isSome = _
    unfold setMarker
    split <;> exact ⟨rfl, rfl⟩
  | update q g => exact absurd rfl (h q g)

private theorem update_picture {q : List K} {g : Nat} {v v' : State K} (h : update q g v = .ok v') :
    v'.frames = v.frames ++ v'.renderer.toList.map Scene.shown := by
  obtain ⟨qp, v1, h0, h1, h2⟩ := update_parts h
  have hv1 : v1.frames = v.frames := by
    unfold updateViewer at h1
    cases hv : v.viewer with
    | none => rw [hv] at h1; cases h1; rfl
    | some s =>
      rw [hv] at h1
      simp only at h1
      cases hd : drawMarkers v.nMarkers (v.markers.map Prod.snd) s with
      | error e => simp only [hd] at h1; cases h1
      | ok s' => simp only [hd] at h1; cases h1; rfl
  unfold updateRenderer at h2
  cases hv : v1.renderer with
  | none => rw [hv] at h2; cases h2; rw [hv, hv1]; simp
  | some s =>
    rw [hv] at h2
    simp only at h2
    cases hd : drawMarkers v1.nMarkers (v1.markers.map Prod.snd) (updateScene g s) with
    | error e => simp only [hd] at h2; cases h2
    | ok s' => simp only [hd] at h2; cases h2; simp [hv1]

/-- The recorded frames are the pictures of the successful updates. -/
theorem frames_pictures : ∀ (ops : List (Op K)) (v : State K), (run v ops).frames = v.frames ++ pictures v ops := by
  intro ops
  induction ops with
  | nil => intro v; simp [run, pictures]
  | cons op ops ih =>
    intro v
    show (run (step v op) ops).frames = _
    rw [ih]
    cases op with
    | update q g =>
      rw [pictures]
      cases hu : update q g v with
      | error e =>
        rw [step_update_error hu, (updateRaised_keep q g v).2.2.2.1]
      | ok v' =>
        rw [step_update_ok hu, update_picture hu, List.append_assoc]
    | _ => rw [(step_frames v _ (by intro q g h; cases h)).1]; rfl

private theorem run_renderer : ∀ (ops : List (Op K)) (v : State K), (run v ops).renderer.isSome = v.renderer.isSome := by
  intro ops
  induction ops with
  | nil => intro v; rfl
  | cons op ops ih =>
    intro v
    show (run (step v op) ops).renderer.isSome = _
    rw [ih]
    cases op with
    | update q g =>
      cases hu : update q g v with
      | error e => rw [step_update_error hu]; exact (updateRaised_keep q g v).2.2.2.2.1
      | ok v' => rw [step_update_ok hu]; exact update_renderer hu
    | _ => exact (step_frames v _ (by intro q g h; cases h)).2

private theorem stepS_vis (s : Session K) (hs : s.closed = false) (op : Op K) :
    (stepS s (.vis op)).2 = { s with vis := step s.vis op } := by
  cases op with
  | update q g =>
    show (updateS q g s).2 = _
    unfold updateS
    rw [if_neg (by simp [hs])]
    cases hu : update q g s.vis with
    | error e => rw [step_update_error hu]
    | ok v => rw [step_update_ok hu]
  | _ => rfl

private theorem stepS_save (s : Session K) (clock : String) (fps : K) :
    (stepS s (.save clock fps)).2.vis = s.vis ∧ (stepS s (.save clock fps)).2.filename = s.filename ∧
      (stepS s (.save clock fps)).2.closed = s.closed := by
  show (saveVideo clock fps s).2.vis = _ ∧ (saveVideo clock fps s).2.filename = _ ∧ (saveVideo clock fps s).2.closed = _
  unfold saveVideo
  split
  · split
    · exact ⟨rfl, rfl, rfl⟩
    · split <;> exact ⟨rfl, rfl, rfl⟩
  · exact ⟨rfl, rfl, rfl⟩

/-- Until it is closed, a visualizer draws what it would draw without the calls of `save_video`. -/
theorem runS_open : ∀ (ops : List (SOp K)) (s : Session K), s.closed = false → .close ∉ ops →
    (runS s ops).vis = run s.vis (drawing ops) ∧ (runS s ops).filename = s.filename ∧ (runS s ops).closed = false := by
  intro ops
  induction ops with
  | nil => intro s hs _; exact ⟨rfl, rfl, hs⟩
  | cons op ops ih =>
    intro s hs hc
    have hc' : SOp.close ∉ ops := fun h => hc (List.mem_cons_of_mem _ h)
    cases op with
    | close => exact absurd List.mem_cons_self hc
    | save clock fps =>
      obtain ⟨a, b, c⟩ := stepS_save s clock fps
      obtain ⟨x, y, z⟩ := ih (stepS s (.save clock fps)).2 (by rw [c, hs]) hc'
      refine ⟨?_, y.trans b, z⟩
      show (runS (stepS s (.save clock fps)).2 ops).vis = _
      rw [x, a]
      rfl
    | vis op =>
      have h := stepS_vis s hs op
      obtain ⟨x, y, z⟩ := ih (stepS s (.vis op)).2 (by rw [h]; exact hs) hc'
      refine ⟨?_, y.trans (by rw [h]), z⟩
      show (runS (stepS s (.vis op)).2 ops).vis = _
      rw [x, h]
      rfl

private theorem replace_find {α : Type} (k k' : String) (v : α) : ∀ d : List (String × α),
    ((d.map fun x => if x.1 == k then (k, v) else x).find? (fun x => x.1 == k')).map Prod.snd =
      if k' = k ∧ d.any (fun x => x.1 == k) then some v else (d.find? (fun x => x.1 == k')).map Prod.snd := by
  intro d
  induction d with
  | nil => simp
  | cons x d ih =>
    rw [List.map_cons, List.find?_cons, List.find?_cons, List.any_cons]
    by_cases hx : x.1 = k
    · have e : (x.1 == k) = true := by simp [hx]
      rw [e]
      by_cases hk : k' = k
      · subst hk
        simp
      · have e2 : (k == k') = false := by simpa using fun h => hk h.symm
        have e3 : (x.1 == k') = false := by rw [hx]; exact e2
        simp only [if_true, e2, e3]
        rw [ih]
        simp [hk]
    · have e : (x.1 == k) = false := by simpa using hx
      rw [e]
      by_cases hx' : x.1 = k'
      · have e2 : (x.1 == k') = true := by simp [hx']
        have hk : ¬ k' = k := fun h => hx (hx'.trans h)
        simp [e2, hk]
      · have e2 : (x.1 == k') = false := by simpa using hx'
        simp only [Bool.false_eq_true, if_false, e2, Bool.false_or]
        exact ih

private theorem dictSet_find {α : Type} (d : List (String × α)) (k k' : String) (v : α) :
    ((dictSet d k v).find? (fun x => x.1 == k')).map Prod.snd = if k' = k then some v else (d.find? (fun x => x.1 == k')).map Prod.snd := by
  unfold dictSet
  split
  · rename_i h
    rw [replace_find]
    simp only [h, and_true]
  · rename_i h
    rw [List.find?_append]
    by_cases hk : k' = k
    · subst hk
      have : d.find? (fun x => x.1 == k') = none := by
        rw [List.find?_eq_none]
        intro x hx hx'
        exact h (List.any_eq_true.2 ⟨x, hx, hx'⟩)
      rw [this]
      simp
    · rw [if_neg hk]
      have hne : ¬ k = k' := fun h => hk h.symm
      simp [hne]

/-- **C95**: a recording visualizer that has not been closed saves under its file name (or the time, if it has none) exactly the pictures shown
after each successful update since it was made, in order, however often it has saved before; other files stay as they were.  Without any successful
update, saving raises and writes nothing. -/
theorem C95_saved (viewer : Option Nat) (slots nq : Nat) (filename : String) {ops : List (SOp K)} (hc : .close ∉ ops) (clock : String) (fps : K) :
    let s := runS (Session.init viewer (some slots) nq filename) ops
    let shown := pictures (State.init viewer (some slots) nq) (drawing ops)
    let name := (if filename = "" then clock else filename) ++ ".mp4"
    (shown = [] → saveVideo clock fps s = (.error (.of .indexError), s)) ∧
    (shown ≠ [] → (saveVideo clock fps s).1 = .ok () ∧
      fileNamed (saveVideo clock fps s).2.files name = some (fps, shown) ∧
      ∀ other, other ≠ name → fileNamed (saveVideo clock fps s).2.files other = fileNamed s.files other) := by
  intro s shown name
  obtain ⟨h1, h2, h3⟩ := runS_open ops (Session.init viewer (some slots) nq filename) rfl hc
  have hf : s.vis.frames = shown := by
    show (runS _ ops).vis.frames = _
    rw [h1, frames_pictures]
    rfl
  have hr : s.vis.renderer.isSome = true := by
    show (runS _ ops).vis.renderer.isSome = _
    rw [h1, run_renderer]
    rfl
  have hcl : s.closed = false := h3
  have hn : videoName s.filename clock = name := by
    show videoName (runS _ ops).filename clock = _
    rw [h2]
    show (if filename.length ≠ 0 then _ else _) = (if filename = "" then clock else filename) ++ ".mp4"
    by_cases hfn : filename = ""
    · subst hfn; rfl
    · rw [if_neg hfn]
      exact if_pos fun h => hfn (String.length_eq_zero_iff.1 h)
  unfold saveVideo
  rw [if_pos hr, if_neg (by simp [hcl]), hf, hn]
  constructor
  · intro h
    rw [if_pos (by simp [h])]
  · intro h
    rw [if_neg (by simpa using h)]
    refine ⟨rfl, ?_, ?_⟩
    · show ((dictSet _ _ _).find? _).map _ = _
      rw [dictSet_find, if_pos rfl]
    · intro other ho
      show ((dictSet _ _ _).find? _).map _ = _
      rw [dictSet_find, if_neg ho]
      rfl

/-- **C95** (not recording): a visualizer that does not record never writes a file, and saving and closing never raise. -/
theorem C95_not_recording (viewer : Option Nat) (nq : Nat) (filename : String) (ops : List (SOp K)) (clock : String) (fps : K) :
    let s := runS (Session.init viewer none nq filename) ops
    s.files = [] ∧ (saveVideo clock fps s).1 = .ok () ∧ (saveVideo clock fps s).2.warnings = s.warnings + 1 ∧ (Vis.close s).1 = .ok () := by
  have key : ∀ (ops : List (SOp K)) (s : Session K), s.vis.renderer.isSome = false → s.closed = false →
      (runS s ops).vis.renderer.isSome = false ∧ (runS s ops).files = s.files := by
    intro ops
    induction ops with
    | nil => intro s h _; exact ⟨h, rfl⟩
    | cons op ops ih =>
      intro s h hc
      have hstep : (stepS s op).2.vis.renderer.isSome = false ∧ (stepS s op).2.files = s.files ∧ (stepS s op).2.closed = false := by
        cases op with
        | vis op =>
          rw [stepS_vis s hc op]
          refine ⟨?_, rfl, hc⟩
          show (step s.vis op).renderer.isSome = false
          exact (run_renderer [op] s.vis).trans h
        | save clock fps =>
          show (saveVideo clock fps s).2.vis.renderer.isSome = false ∧ (saveVideo clock fps s).2.files = s.files ∧ (saveVideo clock fps s).2.closed = false
          unfold saveVideo
          rw [if_neg (by simp [h])]
          exact ⟨h, rfl, hc⟩
        | close =>
          show (Vis.close s).2.vis.renderer.isSome = false ∧ (Vis.close s).2.files = s.files ∧ (Vis.close s).2.closed = false
          unfold Vis.close
          rw [if_neg (by simp [h])]
          exact ⟨h, rfl, hc⟩
      obtain ⟨a, b⟩ := ih _ hstep.1 hstep.2.2
      exact ⟨a, b.trans hstep.2.1⟩
  intro s
  obtain ⟨a, b⟩ := key ops (Session.init viewer none nq filename) rfl rfl
  have a' : ¬ s.vis.renderer.isSome = true := by
    show ¬ (runS _ ops).vis.renderer.isSome = true
    rw [a]; simp
  refine ⟨b, ?_, ?_, ?_⟩
  · unfold saveVideo; rw [if_neg a']
  · unfold saveVideo; rw [if_neg a']
  · unfold Vis.close; rw [if_neg a']

/-- **C95** (closing): the first `close` of a recording visualizer succeeds; from then on every `update`, `save_video` and `close` raises, whatever else is
called, and no file is written or changed any more. -/
theorem C95_closed (viewer : Option Nat) (slots nq : Nat) (filename : String) {ops : List (SOp K)} (hc : .close ∉ ops) (later : List (SOp K)) :
    let s := runS (Session.init viewer (some slots) nq filename) ops
    let t := runS (Vis.close s).2 later
    (Vis.close s).1 = .ok () ∧ t.files = s.files ∧ (∀ q g, (updateS q g t).1 ≠ .ok ()) ∧
      (∀ clock fps, saveVideo clock fps t = (.error (.of .attributeError), t)) ∧ Vis.close t = (.error (.of .attributeError), t) := by
  intro s t
  obtain ⟨h1, -, h3⟩ := runS_open ops (Session.init viewer (some slots) nq filename) rfl hc
  have hr : s.vis.renderer.isSome = true := by
    show (runS _ ops).vis.renderer.isSome = _
    rw [h1, run_renderer]
    rfl
  have hcl : ¬ s.closed = true := by
    show ¬ (runS _ ops).closed = true
    rw [h3]; simp
  have key : ∀ (ops : List (SOp K)) (s : Session K), s.vis.renderer.isSome = true → s.closed = true →
      (runS s ops).vis.renderer.isSome = true ∧ (runS s ops).closed = true ∧ (runS s ops).files = s.files := by
    intro ops
    induction ops with
    | nil => intro s h h'; exact ⟨h, h', rfl⟩
    | cons op ops ih =>
      intro s h hc
      have hstep : (stepS s op).2.vis.renderer.isSome = true ∧ (stepS s op).2.closed = true ∧ (stepS s op).2.files = s.files := by
        cases op with
        | vis op =>
          cases op with
          | update q g =>
            show (updateS q g s).2.vis.renderer.isSome = true ∧ (updateS q g s).2.closed = true ∧ (updateS q g s).2.files = s.files
            unfold updateS
            rw [if_pos hc]
            split
            · exact ⟨h, hc, rfl⟩
            · split
              · exact ⟨(updateRaised_keep q g s.vis).2.2.2.2.1.trans h, hc, rfl⟩
              · rename_i v hv
                refine ⟨?_, hc, rfl⟩
                show v.renderer.isSome = true
                rw [(updateViewer_keep hv).2.2.2.1]
                exact h
          | add a => exact ⟨(run_renderer [.add a] s.vis).trans h, hc, rfl⟩
          | setPos n p => exact ⟨(run_renderer [.setPos n p] s.vis).trans h, hc, rfl⟩
          | setRot n r => exact ⟨(run_renderer [.setRot n r] s.vis).trans h, hc, rfl⟩
        | save clock fps =>
          show (saveVideo clock fps s).2.vis.renderer.isSome = true ∧ (saveVideo clock fps s).2.closed = true ∧ (saveVideo clock fps s).2.files = s.files
          unfold saveVideo
          rw [if_pos h, if_pos hc]
          exact ⟨h, hc, rfl⟩
        | close =>
          show (Vis.close s).2.vis.renderer.isSome = true ∧ (Vis.close s).2.closed = true ∧ (Vis.close s).2.files = s.files
          unfold Vis.close
          rw [if_pos h, if_pos hc]
          exact ⟨h, hc, rfl⟩
      obtain ⟨a, b, c⟩ := ih _ hstep.1 hstep.2.1
      exact ⟨a, b, c.trans hstep.2.2⟩
  have hclose : Vis.close s = (.ok (), { s with closed := true, vis := { s.vis with frames := [] } }) := by
    unfold Vis.close
    rw [if_pos hr, if_neg hcl]
  obtain ⟨a, b, c⟩ := key later (Vis.close s).2 (by rw [hclose]; exact hr) (by rw [hclose])
  have a' : t.vis.renderer.isSome = true := a
  have b' : t.closed = true := b
  refine ⟨by rw [hclose], ?_, ?_, ?_, ?_⟩
  · show (runS (Vis.close s).2 later).files = _
    rw [c, hclose]
  · intro q g
    unfold updateS
    rw [if_pos b']
    split
    · simp
    · split <;> simp
  · intro clock fps
    unfold saveVideo
    rw [if_pos a', if_pos b']
  · unfold Vis.close
    rw [if_pos a', if_pos b']

namespace VideoEx

/-- Two good updates, one of the wrong length, a save in between. -/
def ops : List (SOp ℚ) := [.vis (.update [1] 0), .save "noon" 30, .vis (.update [1, 2] 0), .vis (.update [3] 0)]

end VideoEx

/-- The file saved afterwards has two frames; then the visualizer is closed and refuses a further update. -/
example : (pictures (State.init none (some 0) 1) (drawing VideoEx.ops)).length = 2 ∧ SOp.close ∉ VideoEx.ops ∧
    (fileNamed (saveVideo "noon" 30 (runS (Session.init none (some 0) 1 "run") VideoEx.ops)).2.files "run.mp4").map (fun x => x.2.length) = some 2 ∧
    (updateS [1] 0 (Vis.close (runS (Session.init none (some 0) 1 "run") VideoEx.ops)).2).1 = .error .runtimeError := by
  refine ⟨rfl, ?_, rfl, rfl⟩
  unfold VideoEx.ops
  intro h
  simp at h

end Mjinx.Props
