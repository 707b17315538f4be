import Verif.Lemmas.Visualize

/-!
# The visualizer's XML edits (C65, C66)
-/

namespace Mjinx.Props
open Vis
set_option linter.unusedSectionVars false

/-! ## C65 — flattening -/

theorem eraseP_mid {α : Type} {p : α → Bool} {l r : List α} {x : α} (hl : ∀ y ∈ l, p y = false) (hx : p x = true) :
    (l ++ x :: r).eraseP p = l ++ r := by
  induction l with
  | nil => simp [List.eraseP_cons_of_pos, hx]
  | cons y ys ih =>
    have hy : ¬ p y = true := by rw [hl y (by simp)]; simp
    rw [List.cons_append, List.eraseP_cons_of_neg hy, ih (fun z hz => hl z (by simp [hz]))]
    rfl

/-- The loop: what was kept so far, what is still to be visited, what was moved so far. -/
theorem flattenLoop_spec : ∀ (cs kept moved : List Xml),
    ((kept ++ cs).map Xml.id).Nodup →
    flattenLoop cs (kept ++ cs ++ moved) =
      kept ++ cs.filter (fun c => c.tag != "body") ++ moved ++ (cs.filter (fun c => c.tag == "body")).flatMap Xml.children
  | [], kept, moved, _ => by simp [flattenLoop]
  | c :: cs, kept, moved, hnd => by
    rw [flattenLoop]
    have hk : ∀ y ∈ kept, (y.id == c.id) = false := by
      intro y hy
      rw [List.map_append, List.nodup_append] at hnd
      have := hnd.2.2 y.id (List.mem_map_of_mem hy) c.id (by simp)
      simpa using this
    by_cases hb : c.tag = "body"
    · rw [if_pos hb]
      have e : kept ++ c :: cs ++ moved ++ c.children = kept ++ c :: (cs ++ moved ++ c.children) := by simp
      rw [e, eraseP_mid hk (by simp)]
      have hnd' : ((kept ++ cs).map Xml.id).Nodup := by
        refine List.Nodup.sublist ?_ hnd
        exact List.Sublist.map _ (List.Sublist.append_left (List.sublist_cons_self _ _) _)
      have := flattenLoop_spec cs kept (moved ++ c.children) hnd'
      rw [show kept ++ (cs ++ moved ++ c.children) = kept ++ cs ++ (moved ++ c.children) by simp, this]
      simp [hb]
    · rw [if_neg hb]
      have := flattenLoop_spec cs (kept ++ [c]) moved (by simpa using hnd)
      rw [show kept ++ c :: cs ++ moved = kept ++ [c] ++ cs ++ moved by simp, this]
      simp [hb]

/-- **C65**: after the removal of the top-level body tags, `worldbody` contains the elements that were not bodies, in order, followed
by everything that was directly inside the bodies, in order. -/
theorem C65_worldbody (cs : List Xml) (h : DistinctIds cs) : flattenBodies cs = flattened cs := by
  have h' : (([] ++ cs).map Xml.id).Nodup := by
    unfold DistinctIds at h
    rw [List.map_append] at h
    simpa using h.of_append_left
  have := flattenLoop_spec cs [] [] h'
  simpa [flattenBodies, flattened] using this

mutual
theorem updateNode_none (f : List Xml → List Xml) : ∀ x : Xml, "worldbody" ∉ tagsNode x → updateNode f x = none
  | .node i t a cs, h => by
    rw [tagsNode, List.mem_cons, not_or] at h
    rw [updateNode, if_neg (Ne.symm h.1), updateList_none f cs h.2]
    rfl
theorem updateList_none (f : List Xml → List Xml) : ∀ cs : List Xml, "worldbody" ∉ tagsList cs → updateList f cs = none
  | [], _ => rfl
  | c :: cs, h => by
    rw [tagsList, List.mem_append, not_or] at h
    rw [updateList, updateNode_none f c h.1, updateList_none f cs h.2]
    rfl
end

/-- **C65** (document): the first `worldbody` is the only element changed; a document without `worldbody` is not changed. -/
theorem C65_document (pre post : List Xml) (i : Nat) (a : List (String × String)) (cs : List Xml) (hpre : "worldbody" ∉ tagsList pre)
    (h : DistinctIds cs) :
    flattenDoc (pre ++ .node i "worldbody" a cs :: post) = pre ++ .node i "worldbody" a (flattened cs) :: post := by
  have key : ∀ pre : List Xml, "worldbody" ∉ tagsList pre →
      updateList flattenBodies (pre ++ .node i "worldbody" a cs :: post) = some (pre ++ .node i "worldbody" a (flattened cs) :: post) := by
    intro pre
    induction pre with
    | nil =>
      intro _
      rw [List.nil_append, updateList, updateNode, if_pos rfl, C65_worldbody cs h]
      rfl
    | cons c pre ih =>
      intro hp
      rw [tagsList, List.mem_append, not_or] at hp
      rw [List.cons_append, updateList, updateNode_none _ c hp.1, ih hp.2]
      rfl
  unfold flattenDoc
  rw [key pre hpre]
  rfl

theorem C65_no_worldbody (cs : List Xml) (h : "worldbody" ∉ tagsList cs) : flattenDoc cs = cs := by
  unfold flattenDoc
  rw [updateList_none _ _ h]
  rfl

/-- The order and number: nothing is lost and nothing added (each element of the result was one of those, and vice versa). -/
theorem C65_members (cs : List Xml) (h : DistinctIds cs) (x : Xml) :
    x ∈ flattenBodies cs ↔ (x ∈ cs ∧ x.tag ≠ "body") ∨ ∃ b ∈ cs, b.tag = "body" ∧ x ∈ b.children := by
  rw [C65_worldbody cs h]
  simp [flattened, and_assoc]

/-- A world with a light, two bodies and a camera between them. -/
def world : List Xml :=
  [.node 1 "light" [] [], .node 2 "body" [] [.node 3 "body" [] [.node 4 "geom" [] []], .node 5 "joint" [] []], .node 6 "camera" [] [],
   .node 7 "body" [] [.node 8 "site" [] []]]

example : DistinctIds world := by unfold DistinctIds; decide
example : (flattened world).map Xml.id = [1, 6, 3, 5, 8] := rfl

/-! ## C66 — asset names -/

theorem rfind_append {s t : List Char} {c : Char} (h : c ∉ t) : rfind (s ++ c :: t) c = s.length := by
  unfold rfind
  have e : (s ++ c :: t).reverse = t.reverse ++ c :: s.reverse := by simp
  have hn : List.findIdx? (· == c) t.reverse = none := by
    rw [List.findIdx?_eq_none_iff]
    intro x hx
    rw [List.mem_reverse] at hx
    have : x ≠ c := fun he => h (he ▸ hx)
    simpa using this
  rw [e, List.findIdx?_append, hn]
  simp only [List.findIdx?_cons, beq_self_eq_true, if_true, Option.none_or, Option.map_some]
  simp only [List.length_append, List.length_cons, List.length_reverse]
  push_cast
  ring

/-- **C66**: `stem-hash.ext` becomes `stem.ext`, for every stem (it may contain dashes and dots), every hash without dash, and every
extension without dash and dot. -/
theorem C66_restored (stem hash ext : List Char) (h1 : '-' ∉ hash) (h2 : '-' ∉ ext) (h3 : '.' ∉ ext) :
    stripHash (String.ofList (stem ++ '-' :: hash ++ '.' :: ext)) = String.ofList (stem ++ '.' :: ext) := by
  unfold stripHash
  simp only [String.toList_ofList]
  have e1 : rfind (stem ++ '-' :: hash ++ '.' :: ext) '-' = stem.length := by
    rw [show stem ++ '-' :: hash ++ '.' :: ext = stem ++ '-' :: (hash ++ '.' :: ext) by simp]
    apply rfind_append
    simp [h1, h2]
  have e2 : rfind (stem ++ '-' :: hash ++ '.' :: ext) '.' = (stem ++ '-' :: hash).length := rfind_append h3
  rw [e1, e2]
  have b : ∀ (n k : Nat), k ≤ n → sliceBound n (k : Int) = k := by
    intro n k hk
    unfold sliceBound
    rw [if_neg (by omega)]
    omega
  rw [b _ _ (by simp), b _ _ (by simp)]
  congr 1
  rw [List.append_assoc, List.take_left', ← List.append_assoc, List.drop_left']
  · rfl
  · rfl

example : stripHash "arm-link-0a1b.v2.stl" = "arm-link.stl" := by decide
example : String.ofList ("arm-link".toList ++ '-' :: "0a1b.v2".toList ++ '.' :: "stl".toList) = "arm-link-0a1b.v2.stl" ∧
    '-' ∉ "0a1b.v2".toList ∧ '-' ∉ "stl".toList ∧ '.' ∉ "stl".toList := by decide

/-- **C66** (outside the property): a name without dash is not left alone; its last character is doubled in front of the extension
(`rfind` gives `-1`): `link.stl` becomes `link.st.stl`. -/
theorem C66_without_dash (stem ext : List Char) (c : Char) (h1 : '-' ∉ stem) (h2 : '-' ∉ ext) (h3 : '.' ∉ ext) (hc : c ≠ '-') (hd : c ≠ '.') :
    stripHash (String.ofList (stem ++ '.' :: ext ++ [c])) = String.ofList (stem ++ '.' :: ext ++ '.' :: ext ++ [c]) := by
  unfold stripHash
  simp only [String.toList_ofList]
  have e1 : rfind (stem ++ '.' :: ext ++ [c]) '-' = -1 := by
    unfold rfind
    have : List.findIdx? (· == '-') (stem ++ '.' :: ext ++ [c]).reverse = none := by
      rw [List.findIdx?_eq_none_iff]
      intro x hx
      simp only [List.mem_reverse, List.mem_append, List.mem_cons, List.not_mem_nil, or_false] at hx
      have : x ≠ '-' := by
        rintro rfl
        rcases hx with (hx | hx | hx) | hx
        · exact h1 hx
        · cases hx
        · exact h2 hx
        · exact hc hx.symm
      simpa using this
    rw [this]
  have e2 : rfind (stem ++ '.' :: ext ++ [c]) '.' = stem.length := by
    rw [show stem ++ '.' :: ext ++ [c] = stem ++ '.' :: (ext ++ [c]) by simp]
    apply rfind_append
    simp [h3, Ne.symm hd]
  rw [e1, e2]
  have b1 : sliceBound (stem ++ '.' :: ext ++ [c]).length (-1) = (stem ++ '.' :: ext).length := by
    unfold sliceBound
    simp only [List.length_append, List.length_cons, List.length_nil]
    rw [if_pos (by omega)]
    omega
  have b2 : sliceBound (stem ++ '.' :: ext ++ [c]).length (stem.length : Int) = stem.length := by
    unfold sliceBound
    rw [if_neg (by omega)]
    simp only [List.length_append, List.length_cons, List.length_nil]
    omega
  rw [b1, b2, List.take_left', show stem ++ '.' :: ext ++ [c] = stem ++ ('.' :: ext ++ [c]) by simp, List.drop_left']
  · simp
  · rfl
  · rfl

example : stripHash "link.stl" = "link.st.stl" := by decide

/-! ## C72 — assets -/

theorem stripHash_ne_empty {s : String} (h : s ≠ "") : stripHash s ≠ "" := by
  have hl : s.toList ≠ [] := by
    intro he
    apply h
    rw [← String.ofList_toList (s := s), he]
  have hlen : 0 < s.toList.length := List.length_pos_iff.2 hl
  intro he
  have h2 := congrArg String.toList he
  unfold stripHash at h2
  simp only [String.toList_ofList] at h2
  have h3 := congrArg List.length h2
  simp only [List.length_append, List.length_drop] at h3
  have hb : sliceBound s.toList.length (rfind s.toList '.') < s.toList.length := by
    unfold rfind
    cases hf : s.toList.reverse.findIdx? (· == '.') with
    | none => simp only [sliceBound]; omega
    | some i =>
      have : i < s.toList.reverse.length := (List.findIdx?_eq_some_iff_getElem.1 hf).1
      rw [List.length_reverse] at this
      simp only [sliceBound]
      omega
  have h0 : ("" : String).toList.length = 0 := rfl
  omega

mutual
theorem tagsNode_rename : ∀ x : Xml, tagsNode (renameNode x) = tagsNode x
  | .node i t a cs => by rw [renameNode, tagsNode, tagsNode, tagsList_rename cs]
theorem tagsList_rename : ∀ cs : List Xml, tagsList (renameList cs) = tagsList cs
  | [] => rfl
  | c :: cs => by rw [renameList, tagsList, tagsList, tagsNode_rename c, tagsList_rename cs]
end

/-- The content of `name` in the first listed directory that has it. -/
def FirstContent (dirs : List Dir) (name : String) (b : List Nat) : Prop :=
  ∃ pre d post, dirs = pre ++ d :: post ∧ (∀ e ∈ pre, ∀ f ∈ e, f.1 ≠ name) ∧ ∃ p r, d = p ++ (name, b) :: r ∧ ∀ f ∈ p, f.1 ≠ name

theorem findAsset_spec {dirs : List Dir} {name : String} {b : List Nat} (h : findAsset dirs name = .ok b) : FirstContent dirs name b := by
  unfold findAsset at h
  cases hd : dirs.find? (fun d => d.any (fun f => f.1 == name)) with
  | none => rw [hd] at h; cases h
  | some d =>
    rw [hd] at h
    simp only at h
    cases hf : d.find? (fun f => f.1 == name) with
    | none => rw [hf] at h; cases h
    | some f =>
      rw [hf] at h; cases h
      obtain ⟨-, pre, post, hdirs, hpre⟩ := List.find?_eq_some_iff_append.1 hd
      obtain ⟨hfn, p, r, hdp, hp⟩ := List.find?_eq_some_iff_append.1 hf
      have hname : f.1 = name := by simpa using hfn
      refine ⟨pre, d, post, hdirs, ?_, p, r, by rw [hdp, ← hname], ?_⟩
      · intro e he g hg hc
        have := hpre e he
        simp only [Bool.not_eq_true', List.any_eq_false] at this
        exact this g hg (by simpa using hc)
      · intro g hg hc
        have := hp g hg
        simp [hc] at this

theorem findAsset_error {dirs : List Dir} {name : String} : (∃ e, findAsset dirs name = .error e) ↔ ∀ d ∈ dirs, ∀ f ∈ d, f.1 ≠ name := by
  constructor
  · rintro ⟨e, h⟩ d hd f hf hc
    unfold findAsset at h
    cases hx : dirs.find? (fun d => d.any (fun f => f.1 == name)) with
    | none =>
      have := List.find?_eq_none.1 hx d hd
      exact this (List.any_eq_true.2 ⟨f, hf, by simpa using hc⟩)
    | some d' =>
      rw [hx] at h
      simp only at h
      have hany := List.find?_some hx
      cases hf' : d'.find? (fun f => f.1 == name) with
      | none =>
        obtain ⟨g, hg, hgn⟩ := List.any_eq_true.1 hany
        exact List.find?_eq_none.1 hf' g hg hgn
      | some g => rw [hf'] at h; cases h
  · intro h
    refine ⟨.valueError, ?_⟩
    unfold findAsset
    rw [List.find?_eq_none.2]
    intro d hd ha
    obtain ⟨f, hf, hfn⟩ := List.any_eq_true.1 ha
    exact h d hd f hf (by simpa using hfn)

theorem collectAssets_spec {dirs : List Dir} : ∀ {ss : List String} {acc assets}, collectAssets dirs ss acc = .ok assets →
    (acc.map Prod.fst).Nodup → (∀ x ∈ acc, FirstContent dirs x.1 x.2) →
    (assets.map Prod.fst).Nodup ∧ (∀ x ∈ assets, FirstContent dirs x.1 x.2) ∧
      ∀ k, k ∈ assets.map Prod.fst ↔ k ∈ acc.map Prod.fst ∨ k ∈ ss.map stripHash
  | [], acc, assets, h, h1, h2 => by cases h; exact ⟨h1, h2, by simp⟩
  | s :: ss, acc, assets, h, h1, h2 => by
    rw [collectAssets] at h
    cases hf : findAsset dirs (stripHash s) with
    | error e => rw [hf] at h; cases h
    | ok b =>
      rw [hf] at h
      obtain ⟨r1, r2, r3⟩ := collectAssets_spec h (dictSet_nodup b h1) (by
        intro x hx
        rcases dictSet_mem hx with rfl | hx'
        · exact findAsset_spec hf
        · exact h2 x hx')
      refine ⟨r1, r2, fun k => ?_⟩
      rw [r3 k, dictSet_keys]
      by_cases hk : stripHash s ∈ acc.map Prod.fst
      · rw [if_pos hk, List.map_cons, List.mem_cons]
        constructor
        · rintro (h | h)
          · exact Or.inl h
          · exact Or.inr (Or.inr h)
        · rintro (h | h | h)
          · exact Or.inl h
          · exact Or.inl (h ▸ hk)
          · exact Or.inr h
      · rw [if_neg hk, List.map_cons, List.mem_cons, List.mem_append, List.mem_singleton]
        tauto

theorem collectAssets_error {dirs : List Dir} : ∀ {ss : List String} {acc}, (∃ e, collectAssets dirs ss acc = .error e) ↔
    ∃ s ∈ ss, ∀ d ∈ dirs, ∀ f ∈ d, f.1 ≠ stripHash s
  | [], acc => by simp [collectAssets]
  | s :: ss, acc => by
    rw [collectAssets]
    cases hf : findAsset dirs (stripHash s) with
    | error e =>
      simp only [Except.error.injEq, exists_eq', true_iff]
      exact ⟨s, by simp, findAsset_error.1 ⟨e, hf⟩⟩
    | ok b =>
      have hno : ¬ ∀ d ∈ dirs, ∀ f ∈ d, f.1 ≠ stripHash s := by
        intro h
        obtain ⟨e, he⟩ := findAsset_error.2 h
        rw [hf] at he; cases he
      simp only [collectAssets_error (ss := ss)]
      constructor
      · rintro ⟨t, ht, h⟩; exact ⟨t, by simp [ht], h⟩
      · rintro ⟨t, ht, h⟩
        rcases List.mem_cons.1 ht with rfl | ht
        · exact absurd h hno
        · exact ⟨t, ht, h⟩

theorem fileOf_iff {a : List (String × String)} (ha : (a.map Prod.fst).Nodup) (s : String) :
    fileOf a = some s ↔ s ≠ "" ∧ ("file", s) ∈ a := by
  have key : ∀ s', a.find? (fun x => x.1 == "file") = some ("file", s') ↔ ("file", s') ∈ a := by
    intro s'
    induction a with
    | nil => simp
    | cons y ys ih =>
      rw [List.map_cons, List.nodup_cons] at ha
      by_cases hy : y.1 = "file"
      · rw [List.find?_cons_of_pos (by simpa using hy), List.mem_cons]
        constructor
        · intro h; cases h; exact .inl rfl
        · rintro (h | h)
          · rw [h]
          · exact absurd (List.mem_map.2 ⟨_, h, hy.symm⟩) ha.1
      · rw [List.find?_cons_of_neg (by simpa using hy), ih ha.2, List.mem_cons]
        constructor
        · exact .inr
        · rintro (h | h)
          · rw [← h] at hy; exact absurd rfl hy
          · exact h
  unfold fileOf
  cases hf : a.find? (fun x => x.1 == "file") with
  | none =>
    refine ⟨fun h => (by cases h), fun ⟨_, h⟩ => ?_⟩
    rw [← key, hf] at h; cases h
  | some x =>
    have hx : x.1 = "file" := by simpa using List.find?_some hf
    obtain ⟨k, t⟩ := x
    simp only at hx
    subst hx
    have hm := (key t).1 hf
    simp only
    constructor
    · intro h
      split at h
      · cases h
      · rename_i hne; cases h; exact ⟨hne, hm⟩
    · rintro ⟨hs, h⟩
      rw [← key, hf] at h
      cases h
      rw [if_neg hs]

mutual
theorem filesNode_mem {tag s : String} : ∀ x : Xml, s ∈ filesNode tag x ↔ ∃ y ∈ elementsNode x, y.tag = tag ∧ fileOf y.attrs = some s
  | .node i t a cs => by
    rw [filesNode, elementsNode, List.mem_append, filesList_mem cs]
    by_cases h : t = tag
    · simp [h, Xml.tag, Xml.attrs]
    · simp [h, Xml.tag]
theorem filesList_mem {tag s : String} : ∀ cs : List Xml, s ∈ filesList tag cs ↔ ∃ y ∈ elements cs, y.tag = tag ∧ fileOf y.attrs = some s
  | [] => by simp [filesList, elements]
  | c :: cs => by
    rw [filesList, elements, List.mem_append, filesNode_mem c, filesList_mem cs]
    simp only [List.mem_append]
    constructor
    · rintro (⟨y, hy, h⟩ | ⟨y, hy, h⟩)
      · exact ⟨y, .inl hy, h⟩
      · exact ⟨y, .inr hy, h⟩
    · rintro ⟨y, hy | hy, h⟩
      · exact .inl ⟨y, hy, h⟩
      · exact .inr ⟨y, hy, h⟩
end

theorem files_refers {cs : List Xml} (hd : DistinctAttrs cs) (s : String) :
    s ∈ filesList "mesh" cs ++ filesList "texture" cs ↔ ∃ x ∈ elements cs, RefersTo x s := by
  rw [List.mem_append, filesList_mem, filesList_mem]
  unfold RefersTo
  constructor
  · rintro (⟨y, hy, h, hf⟩ | ⟨y, hy, h, hf⟩)
    · exact ⟨y, hy, .inl h, (fileOf_iff (hd y hy) s).1 hf⟩
    · exact ⟨y, hy, .inr h, (fileOf_iff (hd y hy) s).1 hf⟩
  · rintro ⟨y, hy, h | h, hf⟩
    · exact .inl ⟨y, hy, h, (fileOf_iff (hd y hy) s).2 hf⟩
    · exact .inr ⟨y, hy, h, (fileOf_iff (hd y hy) s).2 hf⟩

theorem setFile_eq {a : List (String × String)} (ha : (a.map Prod.fst).Nodup) :
    setFile a = a.map (fun kv => if kv.1 = "file" ∧ kv.2 ≠ "" then (kv.1, stripHash kv.2) else kv) := by
  unfold setFile
  cases hf : fileOf a with
  | none =>
    symm
    simp only
    conv_rhs => rw [← List.map_id a]
    apply List.map_congr_left
    rintro ⟨k, v⟩ hx
    rw [if_neg]
    · rfl
    · rintro ⟨h, hv⟩
      simp only at h hv
      subst h
      rw [(fileOf_iff ha v).2 ⟨hv, hx⟩] at hf
      cases hf
  | some s =>
    simp only
    apply List.map_congr_left
    rintro ⟨k, v⟩ hx
    by_cases h : k = "file"
    · subst h
      obtain ⟨hs, hm⟩ := (fileOf_iff ha s).1 hf
      have : v = s := by
        have := List.inj_on_of_nodup_map ha hx hm rfl
        cases this; rfl
      subst this
      simp [hs]
    · simp [h]

mutual
theorem elements_renameNode : ∀ x : Xml, (∀ y ∈ elementsNode x, (y.attrs.map Prod.fst).Nodup) →
    List.Forall₂ (SameExceptFile stripHash) (elementsNode x) (elementsNode (renameNode x))
  | .node i t a cs, hd => by
    rw [renameNode, elementsNode, elementsNode]
    rw [elementsNode] at hd
    refine .cons ⟨rfl, rfl, ?_, ?_⟩ (elements_renameList cs (fun y hy => hd y (by simp [hy])))
    · show (renameList cs).length = cs.length
      exact renameList_length cs
    · have ha : (a.map Prod.fst).Nodup := hd (.node i t a cs) (by simp)
      show (if t = "mesh" ∨ t = "texture" then setFile a else a) = a.map _
      by_cases h : t = "mesh" ∨ t = "texture"
      · rw [if_pos h, setFile_eq ha]
        simp only [Xml.tag, h, true_and]
      · rw [if_neg h]
        simp [Xml.tag, h]
theorem elements_renameList : ∀ cs : List Xml, (∀ y ∈ elements cs, (y.attrs.map Prod.fst).Nodup) →
    List.Forall₂ (SameExceptFile stripHash) (elements cs) (elements (renameList cs))
  | [], _ => .nil
  | c :: cs, hd => by
    rw [renameList, elements, elements]
    rw [elements] at hd
    exact List.rel_append (elements_renameNode c (fun y hy => hd y (by simp [hy]))) (elements_renameList cs (fun y hy => hd y (by simp [hy])))
theorem renameList_length : ∀ cs : List Xml, (renameList cs).length = cs.length
  | [] => rfl
  | c :: cs => by rw [renameList, List.length_cons, List.length_cons, renameList_length cs]
end

/-- **C72** (success): if the call succeeds, the document is the flattened one, element by element, except that every mesh and
texture refers to the restored name; the assets contain, under exactly the restored names of the files that meshes and textures
refer to, the content of the file of that name in the first directory (in the order they are walked) that has one. -/
theorem C72_assets {dirs : List Dir} {cs cs' : List Xml} {assets : List (String × List Nat)} (h : removeHighLevelBodyTags dirs cs = .ok (cs', assets))
    (hd : DistinctAttrs (flattenDoc cs)) :
    List.Forall₂ (SameExceptFile stripHash) (elements (flattenDoc cs)) (elements cs') ∧
    (assets.map Prod.fst).Nodup ∧ (∀ k, k ∈ assets.map Prod.fst ↔ ∃ x ∈ elements (flattenDoc cs), ∃ s, RefersTo x s ∧ k = stripHash s) ∧
    ∀ x ∈ assets, FirstContent dirs x.1 x.2 := by
  unfold removeHighLevelBodyTags at h
  simp only at h
  cases hc : collectAssets dirs (filesList "mesh" (flattenDoc cs) ++ filesList "texture" (flattenDoc cs)) [] with
  | error e => rw [hc] at h; cases h
  | ok as =>
    rw [hc] at h; cases h
    obtain ⟨r1, r2, r3⟩ := collectAssets_spec hc (by simp) (by simp)
    refine ⟨elements_renameList _ hd, r1, fun k => ?_, r2⟩
    rw [r3 k]
    simp only [List.mem_map]
    simp only [files_refers hd]
    constructor
    · rintro (h | ⟨s, ⟨x, hx, h⟩, rfl⟩)
      · simp at h
      · exact ⟨x, hx, s, h, rfl⟩
    · rintro ⟨x, hx, s, h, rfl⟩
      exact .inr ⟨s, ⟨x, hx, h⟩, rfl⟩

/-- **C72** (failure): the call fails exactly when the restored name of some file a mesh or texture refers to is in no
directory. -/
theorem C72_missing (dirs : List Dir) (cs : List Xml) (hd : DistinctAttrs (flattenDoc cs)) :
    (∃ e, removeHighLevelBodyTags dirs cs = .error e) ↔
      ∃ x ∈ elements (flattenDoc cs), ∃ s, RefersTo x s ∧ ∀ d ∈ dirs, ∀ f ∈ d, f.1 ≠ stripHash s := by
  have key := collectAssets_error (dirs := dirs) (ss := filesList "mesh" (flattenDoc cs) ++ filesList "texture" (flattenDoc cs)) (acc := [])
  simp only [files_refers hd] at key
  have : (∃ x ∈ elements (flattenDoc cs), ∃ s, RefersTo x s ∧ ∀ d ∈ dirs, ∀ f ∈ d, f.1 ≠ stripHash s) ↔
      ∃ s, (∃ x ∈ elements (flattenDoc cs), RefersTo x s) ∧ ∀ d ∈ dirs, ∀ f ∈ d, f.1 ≠ stripHash s :=
    ⟨fun ⟨x, hx, s, h, h'⟩ => ⟨s, ⟨x, hx, h⟩, h'⟩, fun ⟨s, ⟨x, hx, h⟩, h'⟩ => ⟨x, hx, s, h, h'⟩⟩
  rw [this, ← key]
  unfold removeHighLevelBodyTags
  simp only
  cases hc : collectAssets dirs (filesList "mesh" (flattenDoc cs) ++ filesList "texture" (flattenDoc cs)) [] with
  | error e => simp
  | ok as => simp

/-- A document with a mesh and a texture, and two directories that both have the mesh. -/
def doc : List Xml :=
  [.node 10 "asset" [] [.node 11 "mesh" [("name", "m"), ("file", "link-ff.stl")] [], .node 12 "texture" [("file", "wood-1c.png")] []],
   .node 13 "worldbody" [] world]

def dirs : List Dir := [[("readme.md", [0])], [("link.stl", [1, 2]), ("wood.png", [3])], [("link.stl", [9])]]

example : (removeHighLevelBodyTags dirs doc).toOption.map Prod.snd = some [("link.stl", [1, 2]), ("wood.png", [3])] := by decide

/-- Attributes of the flattened document have distinct names. -/
theorem doc_distinct : DistinctAttrs (flattenDoc doc) := by
  intro x hx
  have h : (elements (flattenDoc doc)).map (fun x => decide ((x.attrs.map Prod.fst).Nodup)) =
      List.replicate (elements (flattenDoc doc)).length true := by decide
  have := List.mem_map_of_mem (f := fun x : Xml => decide ((x.attrs.map Prod.fst).Nodup)) hx
  rw [h] at this
  exact of_decide_eq_true (List.eq_of_mem_replicate this)

example : ∃ e, removeHighLevelBodyTags [[("link.stl", [1, 2])]] doc = .error e := by
  refine (C72_missing _ _ doc_distinct).2 ⟨.node 12 "texture" [("file", "wood-1c.png")] [], ?_, "wood-1c.png", ?_, by decide⟩
  · simp [doc, flattenDoc, updateList, updateNode, elements, elementsNode]
  · exact ⟨.inr rfl, by decide, by decide⟩

end Mjinx.Props
