import Verif.Lemmas.Visualize
import Std.Data.String.ToNat
import Mathlib.Algebra.Order.Ring.Rat
import Mathlib.Algebra.Field.Rat
import Mathlib.Tactic.NormNum

/-!
# The visualizer's model of many copies (C73–C76)
-/

namespace Mjinx.Props
open Vis
set_option linter.unusedSectionVars false
variable {K : Type} [Field K]

/-! ## C73 — which geometries are shown -/

/-- The group of a geometry: its own, or the one of its default class. -/
def effectiveGroup (m : Mjcf K) (g : VGeom K) : Option Int :=
  g.group.or (g.dclass.bind (fun (d : Nat) => m.classes[d]?.bind VClass.group))

/-- A geometry is to be shown if it has no group or the requested one. -/
def Wanted (m : Mjcf K) (grp : Int) (g : VGeom K) : Prop := ∀ x, effectiveGroup m g = some x → x = grp

instance (m : Mjcf K) (grp : Int) (g : VGeom K) : Decidable (Wanted m grp g) :=
  decidable_of_iff (effectiveGroup m g = none ∨ effectiveGroup m g = some grp) (by
    unfold Wanted
    cases effectiveGroup m g <;> simp)

/-- Classes referred to exist. -/
def ClassesWF (m : Mjcf K) : Prop := ∀ g ∈ m.geoms, ∀ d, g.dclass = some d → d < m.classes.length

theorem editClass_groups (alpha : K) (cls : List (VClass K)) (g : VGeom K) :
    (editClass alpha cls g).map VClass.group = cls.map VClass.group := by
  unfold editClass
  split
  · rfl
  · split
    · rfl
    · rename_i d _
      apply List.ext_getElem?
      intro i
      rw [List.getElem?_map, List.getElem?_map, List.getElem?_modify]
      cases cls[i]? with
      | none => rfl
      | some c => by_cases h : d = i <;> simp [h]

theorem dropped_congr {c1 c2 : List (VClass K)} (h : c1.map VClass.group = c2.map VClass.group) (grp : Int) (g : VGeom K) :
    dropped c1 grp g = dropped c2 grp g := by
  have : groupOf c1 g = groupOf c2 g := by
    unfold groupOf
    split
    · rfl
    · unfold classOf
      cases g.dclass with
      | none => rfl
      | some d =>
        have := congrArg (fun (l : List (Option Int)) => l[d]?) h
        simp only [List.getElem?_map] at this
        simp only [Option.bind_some]
        cases h1 : c1[d]? <;> cases h2 : c2[d]? <;> simp_all
  unfold dropped
  rw [this]

theorem editGeoms_geoms (alpha : K) (grp : Int) (base : List (VClass K)) : ∀ (gs : List (VGeom K)) (cls : List (VClass K)),
    cls.map VClass.group = base.map VClass.group →
    (editGeoms alpha grp cls gs).2 = (gs.filter (fun g => !dropped base grp g)).map (editGeom alpha)
  | [], _, _ => rfl
  | g :: gs, cls, h => by
    rw [editGeoms, dropped_congr h grp g]
    by_cases hd : dropped base grp g = true
    · rw [if_pos hd, editGeoms_geoms alpha grp base gs cls h, List.filter_cons_of_neg (by simp [hd])]
    · rw [if_neg hd, List.filter_cons_of_pos (by simpa using hd)]
      simp only [List.map_cons]
      rw [editGeoms_geoms alpha grp base gs _ (by rw [editClass_groups, h])]

theorem attachAll_classes (m : Mjcf K) : ∀ n, (attachAll m n).classes = (List.replicate n m.classes).flatten
  | 0 => rfl
  | n + 1 => by
    rw [attachAll]
    simp only
    rw [attachAll_classes m n, List.replicate_succ', List.flatten_append]
    simp only [attached, stripped]
    split <;> simp

/-- The geometries of copy `i` before editing. -/
def copyGeoms (m : Mjcf K) (i : Nat) : List (VGeom K) :=
  m.geoms.map (fun g => { g with name := prefixed i g.name, dclass := g.dclass.map (· + i * m.classes.length) })

theorem attachAll_geoms (m : Mjcf K) : ∀ n, (attachAll m n).geoms = (List.range n).flatMap (copyGeoms m)
  | 0 => rfl
  | n + 1 => by
    rw [attachAll]
    simp only
    rw [attachAll_geoms m n, List.range_succ, List.flatMap_append, attachAll_classes]
    simp [attached, copyGeoms]

theorem getElem?_flatten_replicate {α : Type} (l : List α) : ∀ (n i d : Nat), i < n → d < l.length →
    (List.replicate n l).flatten[d + i * l.length]? = l[d]?
  | 0, i, d, hi, _ => absurd hi (by omega)
  | n + 1, 0, d, _, hd => by
    rw [List.replicate_succ, List.flatten_cons, List.getElem?_append_left (by simpa using hd)]
    simp
  | n + 1, i + 1, d, hi, hd => by
    rw [List.replicate_succ, List.flatten_cons, List.getElem?_append_right (by rw [Nat.succ_mul]; omega)]
    rw [← getElem?_flatten_replicate l n i d (by omega) hd]
    congr 1
    rw [Nat.succ_mul]
    omega

theorem dropped_copy (m : Mjcf K) (n i : Nat) (hi : i < n) (grp : Int) (g : VGeom K) (hw : ∀ d, g.dclass = some d → d < m.classes.length) (nm : String) :
    dropped (List.replicate n m.classes).flatten grp { g with name := nm, dclass := g.dclass.map (· + i * m.classes.length) } = !decide (Wanted m grp g) := by
  have hg : groupOf (List.replicate n m.classes).flatten { g with name := nm, dclass := g.dclass.map (· + i * m.classes.length) } = effectiveGroup m g := by
    unfold groupOf effectiveGroup classOf
    cases hgr : g.group with
    | some x => simp
    | none =>
      cases hd : g.dclass with
      | none => simp
      | some d =>
        simp only [Option.map_some, Option.bind_some, Option.none_or]
        rw [getElem?_flatten_replicate m.classes n i d hi (hw d hd)]
  unfold dropped
  rw [hg]
  have : Wanted m grp g ↔ effectiveGroup m g = none ∨ effectiveGroup m g = some grp := by
    unfold Wanted
    cases effectiveGroup m g <;> simp
  cases he : effectiveGroup m g with
  | none => simp [this, he]
  | some x =>
    by_cases hx : x = grp <;> simp [this, he, hx]

/-- **C73**: the combined model contains, copy after copy and in the order of the file, exactly the geometries whose group (own, or else
that of the class) is the requested one or is not given; and none of them collides. -/
theorem C73_geoms (alpha : K) (grp : Int) (n : Nat) (m : Mjcf K) (h : ClassesWF m) :
    (editModel alpha grp n m).geoms.map VGeom.name =
        (List.range n).flatMap (fun i => (m.geoms.filter (fun g => decide (Wanted m grp g))).map (fun g => prefixed i g.name)) ∧
      ∀ g ∈ (editModel alpha grp n m).geoms, g.contype = some 0 ∧ g.conaffinity = some 0 := by
  have e : (editModel alpha grp n m).geoms =
      ((attachAll m n).geoms.filter (fun g => !dropped (attachAll m n).classes grp g)).map (editGeom alpha) :=
    editGeoms_geoms alpha grp _ _ _ rfl
  constructor
  · rw [e, attachAll_geoms, attachAll_classes, List.map_map]
    have hname : (VGeom.name ∘ editGeom alpha : VGeom K → String) = VGeom.name := rfl
    rw [hname, List.filter_flatMap, List.map_flatMap]
    apply List.flatMap_congr
    intro i hi
    rw [List.mem_range] at hi
    unfold copyGeoms
    rw [List.filter_map, List.map_map]
    rw [List.filter_congr (q := fun g => decide (Wanted m grp g))]
    · rfl
    · intro g hg
      simp only [Function.comp]
      rw [dropped_copy m n i hi grp g (h g hg)]
      simp
  · rw [e]
    intro g hg
    obtain ⟨g0, -, rfl⟩ := List.mem_map.1 hg
    exact ⟨rfl, rfl⟩

/-! ## C74 — transparency -/

/-- The class colours after the loop: the opacity of a class is multiplied once for every kept geometry that has this class and no own colour. -/
theorem editGeoms_classes (alpha : K) (grp : Int) (base : List (VClass K)) : ∀ (gs : List (VGeom K)) (cls : List (VClass K)),
    cls.map VClass.group = base.map VClass.group → ∀ d : Nat,
    (editGeoms alpha grp cls gs).1[d]?.map VClass.rgba =
      cls[d]?.map (fun c => c.rgba.map (scaleAlpha (alpha ^ (gs.filter (fun g => !dropped base grp g && g.rgba.isNone && g.dclass == some d)).length)))
  | [], cls, _, d => by
    have : ∀ c : List K, scaleAlpha 1 c = c := by
      intro c; unfold scaleAlpha
      apply List.ext_getElem?
      intro i
      rw [List.getElem?_modify]
      cases c[i]? <;> simp
    simp only [editGeoms, List.filter_nil, List.length_nil, pow_zero]
    cases cls[d]? with
    | none => rfl
    | some c => cases hc : c.rgba <;> simp [hc, this]
  | g :: gs, cls, h, d => by
    have hmul : ∀ (a b : K) (c : List K), scaleAlpha a (scaleAlpha b c) = scaleAlpha (a * b) c := by
      intro a b c; unfold scaleAlpha
      apply List.ext_getElem?
      intro i
      rw [List.getElem?_modify, List.getElem?_modify, List.getElem?_modify]
      cases c[i]? with
      | none => rfl
      | some x => by_cases h : 3 = i <;> simp [h]; ring
    rw [editGeoms, dropped_congr h grp g]
    by_cases hd : dropped base grp g = true
    · rw [if_pos hd, editGeoms_classes alpha grp base gs cls h, List.filter_cons_of_neg (by simp [hd])]
    · rw [if_neg hd]
      simp only
      rw [editGeoms_classes alpha grp base gs _ (by rw [editClass_groups, h])]
      by_cases hu : g.rgba = none ∧ g.dclass = some d
      · rw [List.filter_cons_of_pos (by simp [hd, hu.1, hu.2])]
        unfold editClass
        rw [hu.1, hu.2]
        simp only
        rw [List.getElem?_modify]
        cases cls[d]? with
        | none => rfl
        | some c =>
          simp only [if_true, Option.map_eq_map, Option.map_some, List.length_cons, Option.map_map, Function.comp_def, hmul, pow_succ]
      · rw [List.filter_cons_of_neg (by
          simp only [Bool.and_eq_true, Bool.not_eq_true', Option.isNone_iff_eq_none, beq_iff_eq]
          rintro ⟨⟨-, h1⟩, h2⟩; exact hu ⟨h1, h2⟩)]
        have : (editClass alpha cls g)[d]? = cls[d]? := by
          unfold editClass
          cases hr : g.rgba with
          | some c => rfl
          | none =>
            cases hc : g.dclass with
            | none => rfl
            | some d' =>
              have hne : d' ≠ d := fun he => hu ⟨hr, by rw [hc, he]⟩
              simp only
              rw [List.getElem?_modify]
              simp [hne]
        rw [this]

/-- The colour with opacity multiplied by `a`. -/
def fade (a : K) (c : List K) : List K := c.modify 3 (· * a)

/-- The colour a geometry is drawn with: its own, or the one of its class. -/
def shownColor (m : Mjcf K) (g : VGeom K) : Option (List K) :=
  g.rgba.or (g.dclass.bind (fun (d : Nat) => m.classes[d]?.bind VClass.rgba))

/-- The number of wanted geometries that take their colour from class `d`. -/
def users (m : Mjcf K) (grp : Int) (d : Nat) : Nat :=
  (m.geoms.filter (fun g => decide (Wanted m grp g) && g.rgba.isNone && g.dclass == some d)).length

theorem users_copies (m : Mjcf K) (grp : Int) (n i d : Nat) (h : ClassesWF m) (hi : i < n) (hd : d < m.classes.length) :
    ((attachAll m n).geoms.filter (fun g => !dropped (attachAll m n).classes grp g && g.rgba.isNone && g.dclass == some (d + i * m.classes.length))).length =
      users m grp d := by
  rw [attachAll_geoms, attachAll_classes, List.filter_flatMap, List.length_flatMap]
  have hcopy : ∀ j, j < n → ((copyGeoms m j).filter (fun g => !dropped (List.replicate n m.classes).flatten grp g && g.rgba.isNone &&
      g.dclass == some (d + i * m.classes.length))).length = if j = i then users m grp d else 0 := by
    intro j hj
    unfold copyGeoms
    rw [List.filter_map, List.length_map]
    have hdc : ∀ g ∈ m.geoms, (g.dclass.map (· + j * m.classes.length) == some (d + i * m.classes.length)) = (decide (j = i) && g.dclass == some d) := by
      intro g hg
      cases hdc : g.dclass with
      | none => simp
      | some d' =>
        have hd' := h g hg d' hdc
        have key : d' + j * m.classes.length = d + i * m.classes.length ↔ j = i ∧ d' = d := by
          constructor
          · intro he
            have h1 := congrArg (· / m.classes.length) he
            have hpos : 0 < m.classes.length := by omega
            simp only [Nat.add_mul_div_right _ _ hpos, Nat.div_eq_of_lt hd', Nat.div_eq_of_lt hd] at h1
            have hji : j = i := by omega
            subst hji
            exact ⟨rfl, by omega⟩
          · rintro ⟨rfl, rfl⟩; rfl
        rw [Bool.eq_iff_iff]
        simp [key]
    by_cases hji : j = i
    · rw [if_pos hji]
      unfold users
      congr 1
      apply List.filter_congr
      intro g hg
      simp only [Function.comp]
      rw [dropped_copy m n j hj grp g (h g hg), hdc g hg]
      simp [hji]
    · rw [if_neg hji, List.length_eq_zero_iff, List.filter_eq_nil_iff]
      intro g hg
      simp only [Function.comp]
      rw [hdc g hg]
      simp [hji]
  rw [List.map_congr_left (g := fun j => if j = i then users m grp d else 0) (fun j hj => hcopy j (List.mem_range.1 hj))]
  clear hcopy
  induction n with
  | zero => omega
  | succ n ih =>
    rw [List.range_succ, List.map_append, List.sum_append]
    by_cases hin : i = n
    · subst hin
      have : (List.range i).map (fun j => if j = i then users m grp d else 0) = (List.range i).map (fun _ => 0) := by
        apply List.map_congr_left
        intro j hj
        rw [List.mem_range] at hj
        rw [if_neg (by omega)]
      rw [this]; simp
    · rw [ih (by omega)]
      simp [Ne.symm hin]

/-- **C74** (class colours, what the code does): the colour of a class of copy `i` has its opacity multiplied by `alpha` once for every shown
geometry of the copy that takes its colour from the class. -/
theorem C74_class_power (alpha : K) (grp : Int) (n : Nat) (m : Mjcf K) (h : ClassesWF m) {i d : Nat} (hi : i < n) (hd : d < m.classes.length) :
    (editModel alpha grp n m).classes[d + i * m.classes.length]?.map VClass.rgba =
      m.classes[d]?.map (fun c => c.rgba.map (fade (alpha ^ users m grp d))) := by
  have := editGeoms_classes alpha grp (attachAll m n).classes (attachAll m n).geoms (attachAll m n).classes rfl (d + i * m.classes.length)
  rw [users_copies m grp n i d h hi hd] at this
  have hc : (attachAll m n).classes[d + i * m.classes.length]? = m.classes[d]? := by
    rw [attachAll_classes, getElem?_flatten_replicate m.classes n i d hi hd]
  rw [hc] at this
  exact this

/-- The geometry of copy `i` in the combined model. -/
def copyOf (m : Mjcf K) (alpha : K) (i : Nat) (g : VGeom K) : VGeom K :=
  { name := prefixed i g.name, group := g.group, dclass := g.dclass.map (· + i * m.classes.length), rgba := g.rgba.map (fade alpha),
    contype := some 0, conaffinity := some 0 }

/-- The combined model contains the wanted geometries of every copy. -/
theorem mem_copies (alpha : K) (grp : Int) (n : Nat) (m : Mjcf K) (h : ClassesWF m) {i : Nat} (hi : i < n) {g : VGeom K} (hg : g ∈ m.geoms)
    (hw : Wanted m grp g) : copyOf m alpha i g ∈ (editModel alpha grp n m).geoms := by
  have e : (editModel alpha grp n m).geoms =
      ((attachAll m n).geoms.filter (fun g => !dropped (attachAll m n).classes grp g)).map (editGeom alpha) :=
    editGeoms_geoms alpha grp _ _ _ rfl
  rw [e, List.mem_map]
  refine ⟨{ g with name := prefixed i g.name, dclass := g.dclass.map (· + i * m.classes.length) }, ?_, rfl⟩
  rw [List.mem_filter]
  constructor
  · rw [attachAll_geoms, List.mem_flatMap]
    exact ⟨i, List.mem_range.2 hi, List.mem_map.2 ⟨g, hg, rfl⟩⟩
  · rw [attachAll_classes, dropped_copy m n i hi grp g (h g hg)]
    simpa using hw

theorem shownColor_copy (alpha : K) (grp : Int) (n : Nat) (m : Mjcf K) (h : ClassesWF m) {i : Nat} (hi : i < n) {g : VGeom K} (hg : g ∈ m.geoms)
    {d : Nat} (hr : g.rgba = none) (hd : g.dclass = some d) :
    shownColor (editModel alpha grp n m) (copyOf m alpha i g) = (shownColor m g).map (fade (alpha ^ users m grp d)) := by
  have hp := C74_class_power alpha grp n m h hi (h g hg d hd)
  unfold shownColor copyOf
  rw [hr, hd]
  simp only [Option.map_none, Option.none_or, Option.map_some, Option.bind_some]
  cases h1 : (editModel alpha grp n m).classes[d + i * m.classes.length]? <;> cases h2 : m.classes[d]? <;> simp_all

/-- **C74** (what holds): a shown geometry of every copy is drawn with its original colour with the opacity multiplied by `alpha`, if it has
its own colour, or if it is the only shown geometry that takes its colour from its class.

Missing: geometries that share the colour of a class, see `C74_shared_class_wrong`. -/
theorem C74_opacity_partial (alpha : K) (grp : Int) (n : Nat) (m : Mjcf K) (h : ClassesWF m) {i : Nat} (hi : i < n) {g : VGeom K} (hg : g ∈ m.geoms)
    (hw : Wanted m grp g) (hown : g.rgba ≠ none ∨ ∃ d, g.dclass = some d ∧ users m grp d = 1) :
    copyOf m alpha i g ∈ (editModel alpha grp n m).geoms ∧
      shownColor (editModel alpha grp n m) (copyOf m alpha i g) = (shownColor m g).map (fade alpha) := by
  refine ⟨mem_copies alpha grp n m h hi hg hw, ?_⟩
  cases hr : g.rgba with
  | some c =>
    unfold shownColor copyOf
    rw [hr]
    rfl
  | none =>
    rcases hown with h1 | ⟨d, hd, hu⟩
    · exact absurd hr h1
    · rw [shownColor_copy alpha grp n m h hi hg hr hd, hu, pow_one]

/-- **C74 is false** when `k` shown geometries take their colour from the same class: all of them are drawn with opacity multiplied by
`alpha ^ k`. -/
theorem C74_shared_class_wrong (alpha : K) (grp : Int) (n : Nat) (m : Mjcf K) (h : ClassesWF m) {i : Nat} (hi : i < n) {g : VGeom K} (hg : g ∈ m.geoms)
    (hw : Wanted m grp g) (hr : g.rgba = none) {d : Nat} (hd : g.dclass = some d) {r gr b a : K} (hc : m.classes[d]?.bind VClass.rgba = some [r, gr, b, a]) :
    copyOf m alpha i g ∈ (editModel alpha grp n m).geoms ∧ shownColor m g = some [r, gr, b, a] ∧
      shownColor (editModel alpha grp n m) (copyOf m alpha i g) = some [r, gr, b, a * alpha ^ users m grp d] := by
  have hs : shownColor m g = some [r, gr, b, a] := by
    unfold shownColor; rw [hr, hd]; simpa using hc
  refine ⟨mem_copies alpha grp n m h hi hg hw, hs, ?_⟩
  rw [shownColor_copy alpha grp n m h hi hg hr hd, hs]
  rfl

/-- **C74** (materials): every material of every copy has its opacity multiplied by `alpha`; a material without colour becomes white with
opacity `alpha`. -/
theorem C74_materials (alpha : K) (grp : Int) (n : Nat) (m : Mjcf K) :
    (editModel alpha grp n m).materials =
      (List.range n).flatMap (fun _ => m.materials.map (fun c => some (match c with | some c => fade alpha c | none => [1, 1, 1, alpha]))) := by
  have hm : ∀ n, (attachAll m n).materials = (List.range n).flatMap (fun _ => m.materials) := by
    intro n
    induction n with
    | zero => rfl
    | succ n ih =>
      rw [attachAll]
      simp only
      rw [ih, List.range_succ, List.flatMap_append]
      simp only [attached, stripped]
      split <;> simp
  show (attachAll m n).materials.map (editMaterial alpha) = _
  rw [hm, List.map_flatMap]
  congr 1
  funext _
  apply List.map_congr_left
  intro c _
  cases c <;> rfl

/-! ## C75 — the copies are told apart -/

theorem prefixed_inj {i j : Nat} {s t : String} (h : prefixed i s = prefixed j t) : i = j ∧ s = t := by
  have h1 := congrArg String.toList h
  simp only [prefixed, getPrefix, String.toList_append] at h1
  have e : ("/" : String).toList = ['/'] := rfl
  rw [e] at h1
  have hdig : ∀ k : Nat, '/' ∉ (toString k).toList := by
    intro k hk
    have : (toString k).toList = Nat.toDigits 10 k := by
      show (Nat.repr k).toList = _
      simp [Nat.repr]
    rw [this] at hk
    have := Nat.isDigit_of_mem_toDigits (by decide) (by decide) hk
    revert this; decide
  simp only [List.append_assoc, List.cons_append, List.nil_append, List.append_cancel_left_eq] at h1
  have key : ∀ (a b c d : List Char), '/' ∉ a → '/' ∉ b → a ++ '/' :: c = b ++ '/' :: d → a = b ∧ c = d := by
    intro a
    induction a with
    | nil =>
      intro b c d _ hb he
      cases b with
      | nil => simpa using he
      | cons y b => simp only [List.nil_append, List.cons_append, List.cons.injEq] at he; exact absurd (List.mem_cons.2 (Or.inl he.1)) hb
    | cons x a ih =>
      intro b c d ha hb he
      cases b with
      | nil => simp only [List.nil_append, List.cons_append, List.cons.injEq] at he; exact absurd (List.mem_cons.2 (Or.inl he.1.symm)) ha
      | cons y b =>
        simp only [List.cons_append, List.cons.injEq] at he
        obtain ⟨r1, r2⟩ := ih b c d (fun hm => ha (by simp [hm])) (fun hm => hb (by simp [hm])) he.2
        exact ⟨by rw [he.1, r1], r2⟩
  obtain ⟨r1, r2⟩ := key _ _ _ _ (hdig i) (hdig j) h1
  exact ⟨Nat.repr_injective (String.toList_inj.1 r1), String.toList_inj.1 r2⟩

/-- **C75** (names): the names of the shown geometries of all copies are different, if those of one model are. -/
theorem C75_names_distinct (alpha : K) (grp : Int) (n : Nat) (m : Mjcf K) (h : ClassesWF m) (hnd : (m.geoms.map VGeom.name).Nodup) :
    ((editModel alpha grp n m).geoms.map VGeom.name).Nodup := by
  rw [(C73_geoms alpha grp n m h).1, List.nodup_flatMap]
  constructor
  · intro i _
    have : (m.geoms.filter (fun g => decide (Wanted m grp g))).map (fun g => prefixed i g.name) =
        ((m.geoms.filter (fun g => decide (Wanted m grp g))).map VGeom.name).map (prefixed i) := by simp [List.map_map, Function.comp_def]
    rw [this]
    apply List.Nodup.map (fun a b hab => (prefixed_inj hab).2)
    exact List.Nodup.sublist (List.Sublist.map _ List.filter_sublist) hnd
  · refine List.Nodup.pairwise_of_forall_ne List.nodup_range ?_
    intro i _ j _ hij x h1 h2
    obtain ⟨g1, -, rfl⟩ := List.mem_map.1 h1
    obtain ⟨g2, -, he⟩ := List.mem_map.1 h2
    exact hij (prefixed_inj he).1.symm

/-- **C75** (lights and cameras): the combined model has the lights and cameras of the file once, those of the first copy. -/
theorem C75_lights (alpha : K) (grp : Int) (n : Nat) (m : Mjcf K) (hn : 0 < n) :
    (editModel alpha grp n m).lights = m.lights.map (prefixed 0) ∧ (editModel alpha grp n m).cameras = m.cameras.map (prefixed 0) := by
  show (attachAll m n).lights = _ ∧ (attachAll m n).cameras = _
  obtain ⟨k, rfl⟩ : ∃ k, n = k + 1 := ⟨n - 1, by omega⟩
  clear hn
  induction k with
  | zero => exact ⟨by simp [attachAll, attached, stripped], by simp [attachAll, attached, stripped]⟩
  | succ k ih =>
    rw [attachAll]
    simp only
    rw [ih.1, ih.2]
    simp [attached, stripped]

/-- **C75** (prefixes): different copies have different prefixes. -/
theorem C75_prefix_injective {i j : Nat} (h : getPrefix i = getPrefix j) : i = j := by
  have : prefixed i "" = prefixed j "" := by unfold prefixed; rw [h]
  exact (prefixed_inj this).1

/-! ## C76 — updates -/

/-- **C76**: after a successful update the configuration is the given one (one number is given to every coordinate), one frame is added
if the visualizer records and none otherwise, and markers are not changed. -/
theorem C76_update {q : List K} {g : Nat} {v v' : State K} (h : update q g v = .ok v') :
    v'.qpos.length = v.nq ∧ (q.length = v.nq → v'.qpos = q) ∧ (q.length ≠ v.nq → ∃ x, q = [x] ∧ v'.qpos = List.replicate v.nq x) ∧
      v'.nq = v.nq ∧ v'.markers = v.markers ∧ v'.nMarkers = v.nMarkers ∧
      (v.renderer = none → v'.frames = v.frames) ∧ (v.renderer ≠ none → ∃ f, v'.frames = v.frames ++ [f]) := by
  obtain ⟨qp, v1, h0, h1, h2⟩ := update_parts h
  have hk := update_keep h
  have hv1 : v1.qpos = qp ∧ v1.nq = v.nq ∧ v1.renderer = v.renderer ∧ v1.frames = v.frames := by
    unfold updateViewer at h1
    cases hv : v.viewer with
    | none => rw [hv] at h1; cases h1; exact ⟨rfl, rfl, rfl, rfl⟩
    | some s =>
      rw [hv] at h1
      simp only at h1
      cases hd : drawMarkers v.nMarkers (v.markers.map Prod.snd) s with
      | error e => simp only [hd] at h1; cases h1
      | ok s' => simp only [hd] at h1; cases h1; exact ⟨rfl, rfl, rfl, rfl⟩
  have hv2 : v'.qpos = qp ∧ v'.nq = v.nq ∧ (v.renderer = none → v'.frames = v.frames) ∧ (v.renderer ≠ none → ∃ f, v'.frames = v.frames ++ [f]) := by
    obtain ⟨a1, a2, a3, a4⟩ := hv1
    unfold updateRenderer at h2
    cases hv : v1.renderer with
    | none =>
      rw [hv] at h2; cases h2
      exact ⟨a1, a2, fun _ => a4, fun hne => absurd (a3.symm.trans hv) hne⟩
    | some s =>
      rw [hv] at h2
      simp only at h2
      cases hd : drawMarkers v1.nMarkers (v1.markers.map Prod.snd) (updateScene g s) with
      | error e => simp only [hd] at h2; cases h2
      | ok s' =>
        simp only [hd] at h2; cases h2
        exact ⟨a1, a2, fun hne => absurd (hne.symm.trans (a3.symm.trans hv)) (by simp), fun _ => ⟨_, by rw [← a4]⟩⟩
  obtain ⟨b1, b2, b3, b4⟩ := hv2
  unfold assignQpos at h0
  refine ⟨?_, ?_, ?_, b2, hk.1, hk.2.1, b3, b4⟩
  · rw [b1]
    split at h0
    · cases h0; assumption
    · split at h0
      · cases h0; simp
      · cases h0
  · intro hl
    rw [if_pos hl] at h0; cases h0; exact b1
  · intro hl
    rw [if_neg hl] at h0
    split at h0
    · rename_i h1'
      obtain ⟨x, rfl⟩ := List.length_eq_one_iff.1 h1'
      cases h0
      exact ⟨x, rfl, b1⟩
    · cases h0

theorem update_renderer {q : List K} {g : Nat} {v v' : State K} (h : update q g v = .ok v') : v'.renderer.isSome = v.renderer.isSome := by
  obtain ⟨qp, v1, h0, h1, h2⟩ := update_parts h
  have a : v1.renderer = v.renderer := (updateViewer_keep h1).2.2.2.1
  unfold updateRenderer at h2
  cases hv : v1.renderer with
  | none => rw [hv] at h2; cases h2; rw [← a]
  | some s =>
    rw [hv] at h2
    simp only at h2
    cases hd : drawMarkers v1.nMarkers (v1.markers.map Prod.snd) (updateScene g s) with
    | error e => simp only [hd] at h2; cases h2
    | ok s' => simp only [hd] at h2; cases h2; rw [← a, hv]; rfl

/-- The calls of a history that were updates and succeeded. -/
def goodUpdates (v : State K) : List (Op K) → List (List K)
  | [] => []
  | .update q g :: ops => (match update q g v with | .ok _ => [q] | .error _ => []) ++ goodUpdates (step v (.update q g)) ops
  | op :: ops => goodUpdates (step v op) ops

/-- **C76** (history): a recording visualizer has one frame per successful update, another one has none. -/
theorem C76_frames (viewer renderer : Option Nat) (nq : Nat) (ops : List (Op K)) :
    (run (State.init viewer renderer nq) ops).frames.length =
      if renderer.isSome then (goodUpdates (State.init viewer renderer nq) ops).length else 0 := by
  have key : ∀ (ops : List (Op K)) (v : State K), (run v ops).frames.length = v.frames.length + if v.renderer.isSome then (goodUpdates v ops).length else 0 := by
    intro ops
    induction ops with
    | nil => intro v; simp [run, goodUpdates]
    | cons op ops ih =>
      intro v
      show (run (step v op) ops).frames.length = _
      rw [ih]
      cases op with
      | add a =>
        have h1 : (step v (.add a)).frames = v.frames ∧ (step v (.add a)).renderer.isSome = v.renderer.isSome := by
          show (addMarkers a v).2.frames = _ ∧ (addMarkers a v).2.renderer.isSome = _
          rcases addMarkers_cases a v with ⟨e, he⟩ | ⟨-, -, -, he⟩
          · rw [he]; exact ⟨rfl, rfl⟩
          · rw [he]; exact ⟨rfl, by simp⟩
        rw [h1.1, h1.2]; rfl
      | setPos nm p =>
        have h1 : (step v (.setPos nm p)).frames = v.frames ∧ (step v (.setPos nm p)).renderer = v.renderer := by
          show (((setMarker nm _ v).toOption).getD v).frames = _ ∧ (((setMarker nm _ v).toOption).getD v).renderer = _
          unfold setMarker
          split <;> exact ⟨rfl, rfl⟩
        rw [h1.1, h1.2]; rfl
      | setRot nm p =>
        have h1 : (step v (.setRot nm p)).frames = v.frames ∧ (step v (.setRot nm p)).renderer = v.renderer := by
          show (((setMarker nm _ v).toOption).getD v).frames = _ ∧ (((setMarker nm _ v).toOption).getD v).renderer = _
          unfold setMarker
          split <;> exact ⟨rfl, rfl⟩
        rw [h1.1, h1.2]; rfl
      | update q g =>
        rw [goodUpdates]
        cases hu : update q g v with
        | error e =>
          obtain ⟨-, -, -, k4, k5, -⟩ := updateRaised_keep q g v
          rw [step_update_error hu, k4, k5]; rfl
        | ok v' =>
          rw [step_update_ok hu]
          have hf := C76_update hu
          have hr := update_renderer hu
          cases hv : v.renderer with
          | none =>
            have h2 : v'.renderer.isSome = false := by rw [hr, hv]; rfl
            rw [hf.2.2.2.2.2.2.1 hv, h2]
            simp
          | some s =>
            have h2 : v'.renderer.isSome = true := by rw [hr, hv]; rfl
            obtain ⟨f, hf'⟩ := hf.2.2.2.2.2.2.2 (by rw [hv]; simp)
            rw [hf', h2]
            simp
            omega
  rw [key]
  cases renderer <;> simp [State.init]

namespace VisEx

/-- A model with a visual class (group 2, red) used twice, a collision geometry (group 3) and one with its own colour and no group. -/
def mjcf : Mjcf ℚ where
  lights := ["sun"]
  cameras := ["cam"]
  materials := [none, some [1, 0, 0, 1]]
  classes := [⟨some 2, some [1, 0, 0, 1]⟩, ⟨some 3, none⟩]
  geoms := [⟨"a", none, some 0, none, none, none⟩, ⟨"b", none, some 0, none, none, none⟩, ⟨"c", none, some 1, none, none, none⟩,
    ⟨"d", none, none, some [0, 1, 0, 1], none, none⟩, ⟨"e", some 1, some 0, none, none, none⟩]

example : ClassesWF mjcf := by
  intro g hg d hd
  simp only [mjcf, List.mem_cons, List.not_mem_nil, or_false] at hg
  rcases hg with rfl | rfl | rfl | rfl | rfl <;> simp_all [mjcf] <;> omega

/-- `a`, `b` and `d` are shown, `c` and `e` belong to other groups. -/
example : (mjcf.geoms.filter (fun g => decide (Wanted mjcf 2 g))).map VGeom.name = ["a", "b", "d"] := rfl

/-- Two copies. -/
example : (editModel (1 / 2) 2 2 mjcf).geoms.map VGeom.name = ["manip0/a", "manip0/b", "manip0/d", "manip1/a", "manip1/b", "manip1/d"] := by
  decide

/-- `a` and `b` share the colour of their class (opacity is multiplied twice); `d` has its own. -/
example : users mjcf 2 0 = 2 := rfl
example : (mjcf.geoms.map VGeom.name).Nodup := by decide

/-- With `alpha = 1/2` the two are drawn with opacity 1/4. -/
example : shownColor (editModel (1 / 2) 2 2 mjcf) (copyOf mjcf (1 / 2) 0 ⟨"a", none, some 0, none, none, none⟩) = some [1, 0, 0, 1 * (1 / 2) ^ 2] := by
  have hwf : ClassesWF mjcf := by
    intro g hg d hd
    simp only [mjcf, List.mem_cons, List.not_mem_nil, or_false] at hg
    rcases hg with rfl | rfl | rfl | rfl | rfl <;> simp_all [mjcf] <;> omega
  exact (C74_shared_class_wrong (1 / 2) 2 2 mjcf hwf (i := 0) (by omega) (g := ⟨"a", none, some 0, none, none, none⟩) (by simp [mjcf])
    (by decide) rfl (d := 0) rfl (r := 1) (gr := 0) (b := 0) (a := 1) rfl).2.2

/-- A history with one successful and one refused update (`nq = 2`, so three numbers are refused). -/
example : goodUpdates (State.init none (some 10) 2 : State ℚ) [.update [1, 2] 3, .update [1, 2, 3] 3] = [[1, 2]] := rfl

end VisEx

end Mjinx.Props
