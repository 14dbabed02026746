import Verif.Spec.Xsdata
import Verif.Lemmas.Xsdata
import Verif.Props.Schema
/-
C111: the document shows every value of the song's objects. Vocabulary: Spec/Xsdata.lean.
-/

namespace VgmX
open Spec Spec.Dao

/-! ### Turns -/

theorem mem_takeTurns {α : Type} {run : List (List α)} {x : α} (h : x ∈ takeTurns run) :
    ∃ v ∈ run, x ∈ v := by
  unfold takeTurns at h
  obtain ⟨j, _, h⟩ := List.mem_flatMap.mp h
  obtain ⟨v, hv, h⟩ := List.mem_filterMap.mp h
  exact ⟨v, hv, List.mem_of_getElem? h⟩

theorem mem_nextValues {α : Type} {run : List (List α)} {l : List (Bool × List α)} {x : α}
    (h : x ∈ nextValues run l) : ∃ v ∈ run ++ l.map (·.2), x ∈ v := by
  induction l generalizing run with
  | nil => simpa using mem_takeTurns h
  | cons y l ih =>
    obtain ⟨b, w⟩ := y
    cases b with
    | true =>
      obtain ⟨v, hv, hx⟩ := ih h
      exact ⟨v, by simpa using hv, hx⟩
    | false =>
      rw [nextValues, List.mem_append, List.mem_append] at h
      rcases h with (h | h) | h
      · obtain ⟨v, hv, hx⟩ := mem_takeTurns h
        exact ⟨v, List.mem_append_left _ hv, hx⟩
      · exact ⟨w, by simp, h⟩
      · obtain ⟨v, hv, hx⟩ := ih h
        exact ⟨v, by simp at hv ⊢; exact Or.inr (Or.inr hv), hx⟩

theorem filter_none {α : Type} {p : α → Bool} {l : List α} (h : ∀ x ∈ l, p x = false) :
    l.filter p = [] := by
  rw [List.filter_eq_nil_iff]
  intro x hx; simp [h x hx]

theorem le_longest {α : Type} {run : List (List α)} {v : List α} (h : v ∈ run) :
    v.length ≤ longest run := by
  induction run with
  | nil => simp at h
  | cons w run ih =>
    unfold longest at ih ⊢
    rw [List.foldr_cons]
    rcases List.mem_cons.mp h with rfl | h
    · exact Nat.le_max_left _ _
    · exact Nat.le_trans (ih h) (Nat.le_max_right _ _)

theorem flatMap_range_get {α : Type} (v : List α) (n : Nat) (h : v.length ≤ n) :
    (List.range n).flatMap (fun j => (v[j]?).toList) = v := by
  induction v generalizing n with
  | nil =>
    rw [List.flatMap_eq_nil_iff]
    intro j _; rfl
  | cons a v ih =>
    obtain ⟨m, rfl⟩ : ∃ m, n = m + 1 := ⟨n - 1, by simp at h; omega⟩
    rw [List.range_succ_eq_map, List.flatMap_cons, List.flatMap_map]
    simp only [List.getElem?_cons_zero, List.getElem?_cons_succ]
    rw [ih m (by simp at h; omega)]
    rfl

/-- In a run, the items of the only field that `p` picks come out in their order. -/
theorem filter_takeTurns {α : Type} (p : α → Bool) (r₁ r₂ : List (List α)) (v : List α)
    (h₁ : ∀ w ∈ r₁, ∀ x ∈ w, p x = false) (h₂ : ∀ w ∈ r₂, ∀ x ∈ w, p x = false)
    (hv : ∀ x ∈ v, p x = true) : (takeTurns (r₁ ++ v :: r₂)).filter p = v := by
  unfold takeTurns
  rw [List.filter_flatMap]
  have hn : ∀ (r : List (List α)), (∀ w ∈ r, ∀ x ∈ w, p x = false) → ∀ j : Nat,
      (r.filterMap (fun w => w[j]?)).filter p = [] := by
    intro r hr j
    refine filter_none ?_
    intro x hx
    obtain ⟨w, hw, hx⟩ := List.mem_filterMap.mp hx
    exact hr w hw x (List.mem_of_getElem? hx)
  have : ∀ j : Nat, ((r₁ ++ v :: r₂).filterMap (fun w => w[j]?)).filter p = (v[j]?).toList := by
    intro j
    rw [List.filterMap_append, List.filter_append, hn r₁ h₁ j, List.filterMap_cons]
    cases hj : v[j]? with
    | none => simp only [hn r₂ h₂ j]; rfl
    | some x =>
      simp only [List.filter_cons, hv x (List.mem_of_getElem? hj), hn r₂ h₂ j]
      rfl
  simp only [this]
  exact flatMap_range_get v _ (le_longest (by simp))

theorem filter_nextValues_none {α : Type} (p : α → Bool) (run : List (List α))
    (l : List (Bool × List α)) (h₁ : ∀ w ∈ run, ∀ x ∈ w, p x = false)
    (h₂ : ∀ w ∈ l, ∀ x ∈ w.2, p x = false) : (nextValues run l).filter p = [] := by
  refine filter_none ?_
  intro x hx
  obtain ⟨v, hv, hx⟩ := mem_nextValues hx
  rcases List.mem_append.mp hv with h | h
  · exact h₁ v h x hx
  · obtain ⟨w, hw, rfl⟩ := List.mem_map.mp h
    exact h₂ w hw x hx

theorem filter_takeTurns_none {α : Type} (p : α → Bool) (run : List (List α))
    (h₁ : ∀ w ∈ run, ∀ x ∈ w, p x = false) : (takeTurns run).filter p = [] :=
  filter_nextValues_none p run [] h₁ (by simp)

theorem filter_nextValues_run {α : Type} (p : α → Bool) (r₁ r₂ : List (List α)) (v : List α)
    (l : List (Bool × List α))
    (h₁ : ∀ w ∈ r₁, ∀ x ∈ w, p x = false) (h₂ : ∀ w ∈ r₂, ∀ x ∈ w, p x = false)
    (hv : ∀ x ∈ v, p x = true) (h : ∀ w ∈ l, ∀ x ∈ w.2, p x = false) :
    (nextValues (r₁ ++ v :: r₂) l).filter p = v := by
  induction l generalizing r₂ with
  | nil => exact filter_takeTurns p r₁ r₂ v h₁ h₂ hv
  | cons y l ih =>
    obtain ⟨b, w⟩ := y
    have hw := h (b, w) (by simp)
    have hl : ∀ w ∈ l, ∀ x ∈ w.2, p x = false := fun w hw => h w (by simp [hw])
    cases b with
    | true =>
      rw [nextValues, List.append_assoc, List.cons_append]
      refine ih _ ?_ hl
      intro u hu
      rcases List.mem_append.mp hu with hu | hu
      · exact h₂ u hu
      · rw [List.mem_singleton] at hu; subst hu; exact hw
    | false =>
      rw [nextValues, List.filter_append, List.filter_append, filter_takeTurns p r₁ r₂ v h₁ h₂ hv,
        filter_none hw, filter_nextValues_none p [] l (by simp) hl]
      simp

/-- Of the values of all fields, sequential or not, the items of the only field that `p` picks come
out in their order. -/
theorem filter_nextValues {α : Type} (p : α → Bool) (run : List (List α))
    (l₁ l₂ : List (Bool × List α)) (b : Bool) (v : List α)
    (hr : ∀ w ∈ run, ∀ x ∈ w, p x = false)
    (h₁ : ∀ w ∈ l₁, ∀ x ∈ w.2, p x = false) (h₂ : ∀ w ∈ l₂, ∀ x ∈ w.2, p x = false)
    (hv : ∀ x ∈ v, p x = true) : (nextValues run (l₁ ++ (b, v) :: l₂)).filter p = v := by
  induction l₁ generalizing run with
  | nil =>
    cases b with
    | true =>
      rw [List.nil_append, nextValues]
      exact filter_nextValues_run p run [] v l₂ hr (by simp) hv h₂
    | false =>
      rw [List.nil_append, nextValues, List.filter_append, List.filter_append,
        filter_takeTurns_none p run hr, filter_nextValues_none p [] l₂ (by simp) h₂,
        List.filter_eq_self.mpr hv]
      simp
  | cons y l₁ ih =>
    obtain ⟨b', w⟩ := y
    have hw := h₁ (b', w) (by simp)
    have hl : ∀ w ∈ l₁, ∀ x ∈ w.2, p x = false := fun w hw => h₁ w (by simp [hw])
    cases b' with
    | true =>
      rw [List.cons_append, nextValues]
      refine ih _ ?_ hl
      intro u hu
      rcases List.mem_append.mp hu with hu | hu
      · exact hr u hu
      · rw [List.mem_singleton] at hu; subst hu; exact hw
    | false =>
      rw [List.cons_append, nextValues, List.filter_append, List.filter_append,
        filter_takeTurns_none p run hr, filter_none hw, ih [] (by simp) hl]
      simp

/-- Runs of one sequential field: concatenation. -/
theorem nextValues_concat {α : Type} (l : List (Bool × List α)) (x : Bool × List α)
    (h : ∀ y ∈ l, y.1 = false) : nextValues [] (l ++ [x]) = (l ++ [x]).flatMap (·.2) := by
  induction l with
  | nil =>
    obtain ⟨b, v⟩ := x
    cases b with
    | true => simp [nextValues, takeTurns_one]
    | false => simp [nextValues, takeTurns, longest]
  | cons y l ih =>
    obtain ⟨b, v⟩ := y
    cases h (b, v) (by simp)
    rw [List.cons_append, nextValues, ih (fun y hy => h y (by simp [hy])), List.flatMap_cons]
    rfl

/-! ### The tables -/

theorem elems_names_nodup (c : DaoClass) : (c.elems.map (fun f => f.name.toList)).Nodup := by
  cases c <;> decide +kernel

theorem elems_tagOf (c : DaoClass) : ∀ f ∈ c.elems, c.tagOf f.py = f.name.toList := by
  cases c <;> decide +kernel

theorem attrs_nodup (c : DaoClass) : (c.attrs.map (fun a => a.name.toList)).Nodup := by
  cases c <;> decide +kernel

/-- Outside the device lists at most the last field is sequential. -/
theorem elems_plainInit (c : DaoClass) (h : c ≠ .trackFilterDeviceChainDevices) :
    ∃ l x, c.elems = l ++ [x] ∧ ∀ f ∈ l, f.sequential = false := by
  have key : ∀ c : DaoClass, c ≠ .trackFilterDeviceChainDevices →
      c.elems ≠ [] ∧ ∀ f ∈ c.elems.dropLast, f.sequential = false := by
    intro c h
    cases c <;> first | decide +kernel | exact absurd rfl h
  obtain ⟨hn, hd⟩ := key c h
  exact ⟨_, _, (List.dropLast_append_getLast hn).symm, hd⟩

/-! ### Elements of objects -/

theorem textOf_given : ∀ (fs : DFields) (n : String) (t : Str),
    fs.textOf n = some t ↔ given fs n = .text t
  | .nil, n, t => by simp [DFields.textOf, given]
  | .cons py v rest, n, t => by
    have ih := textOf_given rest n t
    by_cases hp : py = n
    · subst hp
      cases v <;> simp [DFields.textOf, given]
    · cases v <;> simp only [DFields.textOf, given, beq_iff_eq, hp, if_false] <;> exact ih

/-- The elements for a field are those of its value. -/
theorem valueOf_given (c : DaoClass) : ∀ (fs : DFields) (f : ElemField), f ∈ c.elems →
    valueOf (fs.elems c) f.py = (given fs f.py).elems f.name.toList
  | .nil, f, _ => by simp [DFields.elems, valueOf, given, DVal.elems]
  | .cons py v rest, f, hf => by
    have ih := valueOf_given c rest f hf
    by_cases hp : py = f.py
    · subst hp
      rw [DFields.elems, given, if_pos rfl, elems_tagOf c f hf]
      simp [valueOf]
    · rw [DFields.elems, given, if_neg hp, ← ih]
      unfold valueOf
      rw [List.find?_cons]
      have : (py == f.py) = false := by simpa using hp
      simp only [this]

mutual
theorem elems_tag : ∀ (v : DVal) (tag : Str), ∀ x ∈ v.elems tag, tagName x = tag
  | .none, tag, x, h => by simp [DVal.elems] at h
  | .text t, tag, x, h => by simp [DVal.elems] at h; rw [h]; rfl
  | .obj c fs, tag, x, h => by simp [DVal.elems] at h; rw [h]; rfl
  | .list l, tag, x, h => by rw [DVal.elems] at h; exact elems_tagAll l tag x h
theorem elems_tagAll : ∀ (l : DVals) (tag : Str), ∀ x ∈ l.elems tag, tagName x = tag
  | .nil, tag, x, h => by simp [DVals.elems] at h
  | .cons v rest, tag, x, h => by
    rw [DVals.elems, List.mem_append] at h
    rcases h with h | h
    · exact elems_tag v tag x h
    · exact elems_tagAll rest tag x h
end

theorem attrsOf_shown (c : DaoClass) (fs : DFields) : AttrsShown c fs (c.attrsOf fs) := by
  constructor
  · have hs : ((c.attrsOf fs).map Prod.fst).Sublist (c.attrs.map (fun a => a.name.toList)) := by
      unfold DaoClass.attrsOf
      generalize c.attrs = l
      induction l with
      | nil => exact List.Sublist.refl _
      | cons a l ih =>
        rw [List.filterMap_cons]
        cases hd : a.default with
        | some d => simp only [List.map_cons]; exact ih.cons_cons _
        | none =>
          cases ht : fs.textOf a.name with
          | none => simp only [Option.map_none, List.map_cons]; exact ih.cons _
          | some t => simp only [Option.map_some, List.map_cons]; exact ih.cons_cons _
    exact hs.nodup (attrs_nodup c)
  · intro n t
    unfold DaoClass.attrsOf
    rw [List.mem_filterMap]
    constructor
    · rintro ⟨a, ha, h⟩
      refine ⟨a, ha, ?_⟩
      cases hd : a.default with
      | some d =>
        simp only [hd, Option.some.injEq, Prod.mk.injEq] at h
        exact ⟨h.1, Or.inl ⟨d, rfl, h.2⟩⟩
      | none =>
        simp only [hd] at h
        cases ht : fs.textOf a.name with
        | none => simp [ht] at h
        | some t' =>
          simp only [ht, Option.map_some, Option.some.injEq, Prod.mk.injEq] at h
          exact ⟨h.1, Or.inr ⟨rfl, (textOf_given _ _ _).mp (h.2 ▸ ht)⟩⟩
    · rintro ⟨a, ha, hn, h⟩
      refine ⟨a, ha, ?_⟩
      rcases h with ⟨s, hd, hs⟩ | ⟨hd, hg⟩
      · simp only [hd, hn, hs]
      · simp only [hd, (textOf_given _ _ _).mpr hg, Option.map_some, hn]

/-- The child elements with the name of a field are those of the value given for it. -/
theorem named_kids (c : DaoClass) (fs : DFields) (tag : Str) (a : List (Str × Str)) (f : ElemField)
    (hf : f ∈ c.elems) :
    named f.name (.node tag a (.ofList (nextValues []
      (c.elems.map (fun f => (f.sequential, valueOf (fs.elems c) f.py)))))) =
      (given fs f.py).elems f.name.toList := by
  unfold named
  rw [kids, kidsList_ofList]
  obtain ⟨l₁, l₂, hs⟩ := List.append_of_mem hf
  have hnd := elems_names_nodup c
  have hmem : ∀ g ∈ c.elems, ∀ x ∈ valueOf (fs.elems c) g.py, tagName x = g.name.toList := by
    intro g hg x hx
    rw [valueOf_given c fs g hg] at hx
    exact elems_tag _ _ x hx
  rw [hs, List.map_append, List.map_cons, List.nodup_append, List.nodup_cons] at hnd
  have hne : ∀ g, g ∈ l₁ ∨ g ∈ l₂ → g.name.toList ≠ f.name.toList := by
    intro g hg e
    rcases hg with hg | hg
    · exact hnd.2.2 _ (List.mem_map_of_mem hg) _ (by simp) e
    · exact hnd.2.1.1 (e ▸ List.mem_map_of_mem (f := fun f => f.name.toList) hg)
  rw [← valueOf_given c fs f hf]
  rw [show c.elems.map (fun f => (f.sequential, valueOf (fs.elems c) f.py)) =
    l₁.map (fun f => (f.sequential, valueOf (fs.elems c) f.py)) ++
      (f.sequential, valueOf (fs.elems c) f.py) ::
      l₂.map (fun f => (f.sequential, valueOf (fs.elems c) f.py)) by
    rw [hs, List.map_append, List.map_cons]]
  have hoff : ∀ g, g ∈ l₁ ∨ g ∈ l₂ → ∀ x ∈ valueOf (fs.elems c) g.py,
      (tagName x == f.name.toList) = false := by
    intro g hg x hx
    rw [hmem g (by rw [hs]; rcases hg with h | h <;> simp [h]) x hx]
    simpa using hne g hg
  refine filter_nextValues _ [] _ _ _ _ (by simp) ?_ ?_ ?_
  · intro w hw
    obtain ⟨g, hg, rfl⟩ := List.mem_map.mp hw
    exact hoff g (Or.inl hg)
  · intro w hw
    obtain ⟨g, hg, rfl⟩ := List.mem_map.mp hw
    exact hoff g (Or.inr hg)
  · intro x hx
    rw [hmem f hf x hx]
    simp

mutual
/-- The elements of a value show its items, one each, in order. -/
theorem shows_elems : ∀ (v : DVal) (tag : Str), List.Forall₂ Displays (items v) (v.elems tag)
  | .none, tag => by rw [items, DVal.elems]; exact .nil
  | .text t, tag => by rw [items, DVal.elems]; exact .cons (.text _ _) .nil
  | .obj c fs, tag => by
    rw [items, DVal.elems]
    refine .cons (.obj c fs _ ⟨_, _, _, rfl⟩ (attrsOf_shown c fs) ?_ ?_ ?_) .nil
    · intro f hf
      rw [named_kids c fs tag _ f hf]
      exact shows_given fs f.py f.name.toList
    · intro k hk
      rw [kids, kidsList_ofList] at hk
      obtain ⟨v, hv, hx⟩ := mem_nextValues hk
      rw [List.nil_append, List.map_map] at hv
      obtain ⟨f, hf, rfl⟩ := List.mem_map.mp hv
      refine ⟨f, hf, ?_⟩
      have hx : k ∈ valueOf (fs.elems c) f.py := hx
      rw [valueOf_given c fs f hf] at hx
      exact elems_tag _ _ k hx
    · intro hc
      have e : c.elems.flatMap (fun f => named f.name (.node tag (c.attrsOf fs) (.ofList (nextValues []
          (c.elems.map (fun f => (f.sequential, valueOf (fs.elems c) f.py))))))) =
          c.elems.flatMap (fun f => valueOf (fs.elems c) f.py) := by
        refine List.flatMap_congr ?_
        intro f hf
        rw [named_kids c fs tag _ f hf, valueOf_given c fs f hf]
      rw [e, kids, kidsList_ofList]
      obtain ⟨l, x, hl, hs⟩ := elems_plainInit c hc
      rw [hl, List.map_append, List.map_cons, List.map_nil, nextValues_concat, List.flatMap_append,
        List.flatMap_append, List.flatMap_map]
      · rfl
      · intro y hy
        obtain ⟨f, hf, rfl⟩ := List.mem_map.mp hy
        exact hs f hf
  | .list l, tag => by rw [items, DVal.elems]; exact shows_elemsAll l tag
theorem shows_elemsAll : ∀ (l : DVals) (tag : Str),
    List.Forall₂ Displays (itemsOfAll l) (l.elems tag)
  | .nil, tag => by rw [itemsOfAll, DVals.elems]; exact .nil
  | .cons v rest, tag => by
    rw [itemsOfAll, DVals.elems]
    exact List.rel_append (shows_elems v tag) (shows_elemsAll rest tag)
theorem shows_given : ∀ (fs : DFields) (n : String) (tag : Str),
    List.Forall₂ Displays (items (given fs n)) ((given fs n).elems tag)
  | .nil, n, tag => by rw [given, items, DVal.elems]; exact .nil
  | .cons py v rest, n, tag => by
    rw [given]
    split
    · exact shows_elems v tag
    · exact shows_given rest n tag
end

/-- C111: Whatever data objects are rendered, each thing that they consist of has its own element,
named after its field, in order. -/
theorem c111_object (v : DVal) (tag : List Char) :
    List.Forall₂ Displays (items v) (v.elems tag) ∧ ∀ x ∈ v.elems tag, tagName x = tag :=
  ⟨shows_elems v tag, elems_tag v tag⟩

/-- C111: The element of a song displays the objects that the serializer makes of it, all the way
down. -/
theorem c111_song (s : Song) :
    renderRoot (songObj s) = some (render s).xml ∧ Displays (songObj s) (render s).xml := by
  refine ⟨by rw [renderRoot, elems_song]; rfl, ?_⟩
  have h := shows_elems (songObj s) "RenoiseSong".toList
  rw [elems_song] at h
  have hi : items (songObj s) = [songObj s] := by
    unfold songObj dObj
    rw [items]
  rw [hi] at h
  cases h with
  | cons h _ => exact h

/-- C111: So does the document, as XML readers see it. -/
theorem c111_document (s : Song) (hc : CarriedSong s) :
    ∃ x, parseXml (songXml (render s)) = some x ∧ tagName x = "RenoiseSong".toList ∧
      Displays (songObj s) x := by
  refine ⟨(render s).xml, ?_, rfl, (c111_song s).2⟩
  unfold songXml
  exact parseXml_document _ (cok_song (render_carried hc)).wf

/-- `Displays` says something: an element that displays this master track shows its name and nothing
that was not set, and has the attribute of its class. -/
example : ∀ x, Displays (masterTrackObj { name := some "Mix".toList }) x →
    (named "Name" x).map content = [some "Mix".toList] ∧ named "TrackDelay" x = [] ∧
    ("type".toList, "SequencerMasterTrack".toList) ∈ attrs x := by
  intro x h
  unfold masterTrackObj dObj at h
  cases h with
  | obj _ _ _ _ ha hf _ _ =>
    refine ⟨?_, ?_, ?_⟩
    · have h := hf ⟨"name", "Name", false⟩ (by decide)
      have e : items (given (DFields.ofList
          [ ("name", dOpt (some "Mix".toList))
          , ("color", .text "220,220,220".toList)
          , ("color_blend", dNat 0)
          , ("state", .text "Active".toList)
          , ("soloed", dBool false)
          , ("filter_devices", devicesObj "master_track_mixer_device" .masterTrackMixerDevice) ])
          "name") = [.text "Mix".toList] := by
        simp [DFields.ofList, given, dOpt, items]
      rw [e] at h
      cases hn : named "Name" x with
      | nil => rw [hn] at h; cases h
      | cons k r =>
        rw [hn] at h
        cases h with
        | cons h1 h2 =>
          cases h2
          cases h1
          rfl
    · have h := hf ⟨"track_delay", "TrackDelay", false⟩ (by decide)
      simp only [DFields.ofList, given] at h
      simp [items] at h
      exact h
    · exact (ha.iff _ _).mpr ⟨⟨"type", some "SequencerMasterTrack"⟩, by decide, rfl,
        Or.inl ⟨_, rfl, rfl⟩⟩

/-- Why the devices of a track are excepted: different kinds of devices take turns. -/
example : (renderRoot (dObj .trackFilterDeviceChainDevices
      [("lfo_device", dList [.text "L1".toList, .text "L2".toList]),
       ("comb_device", dList [.text "C1".toList])])).map (fun x => (kids x).map content) =
    some [some "C1".toList, some "L1".toList, some "L2".toList] ∧
  (renderRoot (dObj .trackFilterDeviceChainDevices
      [("lfo_device", dList [.text "L1".toList]),
       ("comb_device", dList [.text "C1".toList, .text "C2".toList])])).map
        (fun x => (kids x).map content) =
    some [some "C1".toList, some "L1".toList, some "C2".toList] := by
  decide +kernel

/-- While tracks never do: the send tracks come after all others. -/
example : (renderRoot (dObj .renoiseSongTracks
      [("sequencer_send_track", dList [.text "S1".toList, .text "S2".toList]),
       ("sequencer_track", dList [.text "T1".toList, .text "T2".toList]),
       ("sequencer_master_track", dList [.text "M".toList])])).map (fun x => (kids x).map content) =
    some (["T1", "T2", "M", "S1", "S2"].map (fun t => some t.toList)) := by
  decide +kernel

end VgmX
