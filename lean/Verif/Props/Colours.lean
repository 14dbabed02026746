import Verif.Spec.Colours
import Verif.Props.Xrns
/-
C115: the colours of the documents, whoever shares a configuration with whom.
-/

namespace VgmX
open Spec

/-- References refer to something. -/
def Studio.Sound (p : Studio) : Prop :=
  (∀ o ∈ p.confs, o.tracks < p.lists.length) ∧ (∀ c ∈ p.sers, c < p.confs.length) ∧ 0 < p.confs.length

theorem Studio.sound_start : Studio.start.Sound := by unfold Studio.Sound; decide

theorem Studio.Sound.setConfs {p : Studio} (h : p.Sound) (c : Nat) (o : ColourConf)
    (lists : List (List Str)) (hl : p.lists.length ≤ lists.length) (ho : o.tracks < lists.length) :
    ({ p with lists := lists, confs := p.confs.set c o } : Studio).Sound := by
  refine ⟨?_, ?_, ?_⟩
  · intro x hx
    rcases List.mem_or_eq_of_mem_set hx with hx | rfl
    · exact Nat.lt_of_lt_of_le (h.1 x hx) hl
    · exact ho
  · intro x hx; simpa using h.2.1 x hx
  · simpa using h.2.2

theorem Studio.Sound.setLists {p : Studio} (h : p.Sound) (j : Nat) (l : List Str) :
    ({ p with lists := p.lists.set j l } : Studio).Sound :=
  ⟨fun o ho => by simpa using h.1 o ho, h.2.1, h.2.2⟩

theorem Studio.Sound.call {p : Studio} (h : p.Sound) (x : StudioCall) : (p.call x).2.Sound := by
  cases x with
  | newConf =>
    refine ⟨?_, ?_, ?_⟩
    · intro o ho
      show o.tracks < (p.lists ++ [trackColors]).length
      rw [List.length_append]
      rcases List.mem_append.mp ho with ho | ho
      · exact Nat.lt_of_lt_of_le (h.1 o ho) (Nat.le_add_right _ _)
      · rw [List.mem_singleton] at ho; subst ho; exact Nat.lt_succ_self _
    · intro c hc
      show c < (p.confs ++ [_]).length
      have := h.2.1 c hc
      rw [List.length_append]; omega
    · show 0 < (p.confs ++ [_]).length
      simp
  | newSer c =>
    unfold Studio.call
    dsimp only
    split
    · rename_i hc
      refine ⟨h.1, ?_, h.2.2⟩
      intro x hx
      rcases List.mem_append.mp hx with hx | hx
      · exact h.2.1 x hx
      · rw [List.mem_singleton] at hx; subst hx; exact hc
    · exact h
  | setConf s c =>
    unfold Studio.call
    dsimp only
    split
    · rename_i hc
      refine ⟨h.1, ?_, h.2.2⟩
      intro x hx
      rcases List.mem_or_eq_of_mem_set hx with hx | rfl
      · exact h.2.1 x hx
      · exact hc.2
    · exact h
  | assign c l =>
    unfold Studio.call
    dsimp only
    split
    · exact h
    · exact h.setConfs _ _ _ (by simp) (by simp)
  | share c d =>
    unfold Studio.call
    dsimp only
    split
    · rename_i o o' _ hd
      exact h.setConfs _ _ _ (Nat.le_refl _) (h.1 o' (List.mem_of_getElem? hd))
    · exact h
  | setItem c i v =>
    unfold Studio.call
    dsimp only
    split
    · exact h
    · split
      · exact h.setLists _ _
      · exact h
  | append c v =>
    unfold Studio.call
    dsimp only
    split
    · exact h
    · exact h.setLists _ _
  | delItem c i =>
    unfold Studio.call
    dsimp only
    split
    · exact h
    · split
      · exact h.setLists _ _
      · exact h
  | setMaster c v =>
    unfold Studio.call
    dsimp only
    split
    · exact h
    · rename_i o ho
      exact h.setConfs _ _ _ (Nat.le_refl _) (h.1 o (List.mem_of_getElem? ho))
  | setSend c v =>
    unfold Studio.call
    dsimp only
    split
    · exact h
    · rename_i o ho
      exact h.setConfs _ _ _ (Nat.le_refl _) (h.1 o (List.mem_of_getElem? ho))
  | render s song =>
    unfold Studio.call
    dsimp only
    split <;> exact h
  | write song => exact h

theorem Studio.Sound.calls {p : Studio} (h : p.Sound) : ∀ cs, (p.calls cs).Sound
  | [] => h
  | x :: cs => (h.call x).calls cs

/-- Nobody else has the list of configuration `c`. -/
def Studio.Own (p : Studio) (c : Nat) (o : ColourConf) : Prop :=
  p.confs[c]? = some o ∧ ∀ d o', d ≠ c → p.confs[d]? = some o' → o'.tracks ≠ o.tracks

theorem Studio.Own.call {p : Studio} {c : Nat} {o : ColourConf} (hs : p.Sound) (h : p.Own c o)
    (x : StudioCall) (hx : recolours c x = false) :
    (p.call x).2.Own c o ∧ (p.call x).2.lists[o.tracks]? = p.lists[o.tracks]? := by
  have hot : o.tracks < p.lists.length := hs.1 o (List.mem_of_getElem? h.1)
  have hcl : c < p.confs.length := (List.getElem?_eq_some_iff.mp h.1).1
  -- another configuration is replaced
  have other : ∀ (d : Nat) (n : ColourConf), d ≠ c → n.tracks ≠ o.tracks →
      ({ p with confs := p.confs.set d n } : Studio).Own c o := by
    intro d n hd hn
    refine ⟨by show (p.confs.set d n)[c]? = _; rw [List.getElem?_set_ne hd]; exact h.1, ?_⟩
    intro e o' he ho'
    replace ho' : (p.confs.set d n)[e]? = some o' := ho'
    by_cases hde : d = e
    · subst hde
      have hlt : d < p.confs.length := by
        have := (List.getElem?_eq_some_iff.mp ho').1
        simpa using this
      rw [List.getElem?_set_self hlt] at ho'
      cases ho'
      exact hn
    · rw [List.getElem?_set_ne hde] at ho'
      exact h.2 e o' he ho'
  cases x with
  | newConf =>
    refine ⟨⟨?_, ?_⟩, ?_⟩
    · show (p.confs ++ [_])[c]? = _
      rw [List.getElem?_append_left hcl]; exact h.1
    · intro d o' hd ho'
      replace ho' : (p.confs ++ [({ tracks := p.lists.length } : ColourConf)])[d]? = some o' := ho'
      by_cases hlt : d < p.confs.length
      · rw [List.getElem?_append_left hlt] at ho'; exact h.2 d o' hd ho'
      · rw [List.getElem?_append_right (by omega)] at ho'
        have := List.mem_of_getElem? ho'
        rw [List.mem_singleton] at this
        subst this
        show p.lists.length ≠ _
        omega
    · show (p.lists ++ [_])[_]? = _
      rw [List.getElem?_append_left hot]
  | newSer d =>
    unfold Studio.call
    dsimp only
    split
    · exact ⟨h, rfl⟩
    · exact ⟨h, rfl⟩
  | setConf s d =>
    unfold Studio.call
    dsimp only
    split
    · exact ⟨h, rfl⟩
    · exact ⟨h, rfl⟩
  | assign d l =>
    have hd : d ≠ c := by simpa [recolours] using hx
    unfold Studio.call
    dsimp only
    split
    · exact ⟨h, rfl⟩
    · rename_i n hn
      refine ⟨?_, by rw [List.getElem?_append_left hot]⟩
      exact other d _ hd (by show p.lists.length ≠ _; omega)
  | share d e =>
    have hd : d ≠ c ∧ e ≠ c := by simpa [recolours] using hx
    unfold Studio.call
    dsimp only
    split
    · rename_i n n' _ hn'
      exact ⟨other d _ hd.1 (h.2 e n' hd.2 hn'), rfl⟩
    · exact ⟨h, rfl⟩
  | setItem d i v =>
    have hd : d ≠ c := by simpa [recolours] using hx
    unfold Studio.call
    dsimp only
    split
    · exact ⟨h, rfl⟩
    · rename_i n hn
      split
      · exact ⟨h, by rw [List.getElem?_set_ne (h.2 d n hd hn)]⟩
      · exact ⟨h, rfl⟩
  | append d v =>
    have hd : d ≠ c := by simpa [recolours] using hx
    unfold Studio.call
    dsimp only
    split
    · exact ⟨h, rfl⟩
    · rename_i n hn
      exact ⟨h, by rw [List.getElem?_set_ne (h.2 d n hd hn)]⟩
  | delItem d i =>
    have hd : d ≠ c := by simpa [recolours] using hx
    unfold Studio.call
    dsimp only
    split
    · exact ⟨h, rfl⟩
    · rename_i n hn
      split
      · exact ⟨h, by rw [List.getElem?_set_ne (h.2 d n hd hn)]⟩
      · exact ⟨h, rfl⟩
  | setMaster d v =>
    have hd : d ≠ c := by simpa [recolours] using hx
    unfold Studio.call
    dsimp only
    split
    · exact ⟨h, rfl⟩
    · rename_i n hn
      exact ⟨other d _ hd (h.2 d n hd hn), rfl⟩
  | setSend d v =>
    have hd : d ≠ c := by simpa [recolours] using hx
    unfold Studio.call
    dsimp only
    split
    · exact ⟨h, rfl⟩
    · rename_i n hn
      exact ⟨other d _ hd (h.2 d n hd hn), rfl⟩
  | render s song =>
    unfold Studio.call
    dsimp only
    split <;> exact ⟨h, rfl⟩
  | write song => exact ⟨h, rfl⟩

theorem Studio.Own.calls {c : Nat} {o : ColourConf} : ∀ (cs : List StudioCall) {p : Studio},
    p.Sound → p.Own c o → (∀ x ∈ cs, recolours c x = false) →
    (p.calls cs).Own c o ∧ (p.calls cs).lists[o.tracks]? = p.lists[o.tracks]?
  | [], _, _, h, _ => ⟨h, rfl⟩
  | x :: cs, p, hs, h, hx => by
    obtain ⟨h1, h2⟩ := h.call hs x (hx x (by simp))
    obtain ⟨h3, h4⟩ := Studio.Own.calls cs (hs.call x) h1 (fun y hy => hx y (by simp [hy]))
    exact ⟨h3, h4.trans h2⟩

theorem coloursOf_own {p : Studio} {c : Nat} {o : ColourConf} {l : List Str} (h : p.Own c o)
    (hl : p.lists[o.tracks]? = some l) : coloursOf p c = some ⟨l, o.master, o.send⟩ := by
  unfold coloursOf
  rw [h.1]
  dsimp only
  rw [hl]

/-! ### Rendering -/

/-- The colours of a document. -/
theorem renderWith_painted (k : Colours) (s : Song) :
    Painted k (renderWith k.tracks k.master k.send s) := by
  refine ⟨?_, ?_, ?_⟩
  · intro i t ht
    simp only [renderWith, renderSeqTracks_eq, List.getElem?_mapIdx] at ht
    obtain ⟨u, _, rfl⟩ := Option.map_eq_some_iff.mp ht
    rfl
  · intro t ht
    obtain ⟨u, _, rfl⟩ := List.mem_map.mp ht
    rfl
  · intro t ht
    obtain ⟨u, _, rfl⟩ := List.mem_map.mp ht
    rfl

theorem renderWith_standard (s : Song) :
    renderWith standardColours.tracks standardColours.master standardColours.send s = render s := rfl

theorem renderWith_uncoloured (tracks : List Str) (master send : Str) (s : Song) :
    uncoloured (renderWith tracks master send s) = uncoloured (render s) := by
  have h : ∀ cs : List Str, (renderSeqTracks s.tracks.tracks cs).map
      (fun t => ({ t with color := none } : DaoTrack)) =
      s.tracks.tracks.map (fun t => renderTrack t none) := by
    intro cs
    rw [renderSeqTracks_eq]
    apply List.ext_getElem?
    intro i
    simp only [List.getElem?_map, List.getElem?_mapIdx, Option.map_map]
    cases s.tracks.tracks[i]? <;> rfl
  unfold uncoloured
  simp only [renderWith, render, renderTracks, h, List.map_map]
  rfl

theorem Studio.rendered_colours {p : Studio} {c : Nat} {k : Colours} (h : coloursOf p c = some k)
    (song : Song) : p.rendered c song = .document (renderWith k.tracks k.master k.send song) := by
  unfold coloursOf at h
  unfold Studio.rendered
  cases ho : p.confs[c]? with
  | none => rw [ho] at h; cases h
  | some o =>
    rw [ho] at h
    dsimp only at h ⊢
    cases hl : p.lists[o.tracks]? with
    | none => rw [hl] at h; cases h
    | some l => rw [hl] at h; cases h; rfl

theorem Studio.Sound.colours {p : Studio} (hs : p.Sound) {c : Nat} (hc : c < p.confs.length) :
    ∃ k, coloursOf p c = some k := by
  have h1 := List.getElem?_eq_getElem hc
  have h2 := hs.1 _ (List.mem_of_getElem? h1)
  exact ⟨_, by unfold coloursOf; rw [h1]; dsimp only; rw [List.getElem?_eq_getElem h2]⟩

/-- C115. Whatever the caller has done: a serializer renders every song, into a document whose tracks
have the colours its configuration says at this time - the `i`-th track the `i`-th colour, tracks
for which there is none no colour -, and which but for the colours is the one C42 is about.
Rendering changes nothing, so rendering again gives the same. -/
theorem c115_document (cs : List StudioCall) (s c : Nat) (song : Song)
    (hs : (Studio.start.calls cs).sers[s]? = some c) :
    let p := Studio.start.calls cs
    ∃ k d, coloursOf p c = some k ∧ p.call (.render s song) = (.document d, p) ∧ Painted k d ∧
      uncoloured d = uncoloured (render song) := by
  intro p
  have hp : p.Sound := Studio.sound_start.calls cs
  obtain ⟨k, hk⟩ := hp.colours (hp.2.1 c (List.mem_of_getElem? hs))
  refine ⟨k, _, hk, ?_, renderWith_painted k song, renderWith_uncoloured _ _ _ _⟩
  unfold Studio.call
  dsimp only
  rw [show p.sers[s]? = some c from hs]
  dsimp only
  rw [Studio.rendered_colours hk]

/-- C115. As long as the caller leaves the default configuration alone, whatever is done to others,
the documents that are written to files are those C42 is about, colours included. -/
theorem c115_write (cs : List StudioCall) (h : ∀ x ∈ cs, recolours 0 x = false) (song : Song) :
    ((Studio.start.calls cs).call (.write song)).1 = .document (render song) := by
  obtain ⟨h1, h2⟩ := Studio.Own.calls cs Studio.sound_start
    (c := 0) (o := { tracks := 0 }) ⟨rfl, fun d o' hd ho' => by
      match d, hd with
      | d + 1, _ => cases ho'⟩ h
  exact (Studio.rendered_colours (coloursOf_own h1 (h2.trans rfl)) song).trans
    (congrArg _ (renderWith_standard song))

/-- C115. Colours assigned to a configuration of one's own are seen by nobody else's: a new
configuration has the standard colours, and says what is said to it alone. -/
theorem c115_own (cs : List StudioCall) (c : Nat)
    (h : ((Studio.start.calls cs).call .newConf).1 = .made c) :
    let p := Studio.start.calls cs
    let q := (p.call .newConf).2
    coloursOf p c = none ∧ coloursOf q c = some standardColours ∧
    (∀ d, d ≠ c → coloursOf q d = coloursOf p d) ∧
    ∀ cs', (∀ x ∈ cs', recolours c x = false) → coloursOf (q.calls cs') c = some standardColours := by
  intro p q
  have hp : p.Sound := Studio.sound_start.calls cs
  have hc : p.confs.length = c := StudioGot.made.inj h
  subst hc
  have hown : q.Own p.confs.length { tracks := p.lists.length } := by
    refine ⟨by show (p.confs ++ [_])[_]? = _; simp, ?_⟩
    intro d o' hd ho'
    replace ho' : (p.confs ++ [({ tracks := p.lists.length } : ColourConf)])[d]? = some o' := ho'
    have hlt := (List.getElem?_eq_some_iff.mp ho').1
    rw [List.length_append, List.length_singleton] at hlt
    rw [List.getElem?_append_left (by omega)] at ho'
    have := hp.1 o' (List.mem_of_getElem? ho')
    show o'.tracks ≠ p.lists.length
    omega
  have hl : q.lists[p.lists.length]? = some trackColors := by
    show (p.lists ++ [trackColors])[p.lists.length]? = _
    simp
  refine ⟨?_, ?_, ?_, ?_⟩
  · unfold coloursOf
    rw [List.getElem?_eq_none (Nat.le_refl _)]
  · exact coloursOf_own hown hl
  · intro d hd
    unfold coloursOf
    have hq : q.confs[d]? = p.confs[d]? := by
      show (p.confs ++ [({ tracks := p.lists.length } : ColourConf)])[d]? = _
      by_cases hlt : d < p.confs.length
      · rw [List.getElem?_append_left hlt]
      · rw [List.getElem?_eq_none (by simp; omega), List.getElem?_eq_none (by omega)]
    rw [hq]
    cases ho : p.confs[d]? with
    | none => rfl
    | some o =>
      dsimp only
      have := hp.1 o (List.mem_of_getElem? ho)
      rw [show q.lists[o.tracks]? = p.lists[o.tracks]? by
        show (p.lists ++ [trackColors])[o.tracks]? = _
        rw [List.getElem?_append_left this]]
  · intro cs' hcs'
    obtain ⟨h1, h2⟩ := Studio.Own.calls cs' (hp.call .newConf) hown hcs'
    exact coloursOf_own h1 (h2.trans hl)

theorem Studio.call_ser {p : Studio} {s c : Nat} (h : p.sers[s]? = some c) (x : StudioCall)
    (hx : reconfigures s x = false) : (p.call x).2.sers[s]? = some c := by
  have hlt := (List.getElem?_eq_some_iff.mp h).1
  cases x with
  | newConf => exact h
  | newSer d =>
    unfold Studio.call
    dsimp only
    split
    · show (p.sers ++ [_])[s]? = _
      rw [List.getElem?_append_left hlt]; exact h
    · exact h
  | setConf t d =>
    have ht : t ≠ s := by simpa [reconfigures] using hx
    unfold Studio.call
    dsimp only
    split
    · show (p.sers.set t d)[s]? = _
      rw [List.getElem?_set_ne ht]; exact h
    · exact h
  | assign d l => unfold Studio.call; dsimp only; split <;> exact h
  | share d e => unfold Studio.call; dsimp only; split <;> exact h
  | setItem d i v => unfold Studio.call; dsimp only; split; exact h; split <;> exact h
  | append d v => unfold Studio.call; dsimp only; split <;> exact h
  | delItem d i => unfold Studio.call; dsimp only; split; exact h; split <;> exact h
  | setMaster d v => unfold Studio.call; dsimp only; split <;> exact h
  | setSend d v => unfold Studio.call; dsimp only; split <;> exact h
  | render t song => unfold Studio.call; dsimp only; split <;> exact h
  | write song => exact h

theorem Studio.calls_ser {s c : Nat} : ∀ (cs : List StudioCall) {p : Studio}, p.sers[s]? = some c →
    (∀ x ∈ cs, reconfigures s x = false) → (p.calls cs).sers[s]? = some c
  | [], _, h, _ => h
  | x :: cs, _, h, hx =>
    Studio.calls_ser cs (Studio.call_ser h x (hx x (by simp))) (fun y hy => hx y (by simp [hy]))

/-- C115. A serializer keeps the configuration it was made with (not a copy), until it is given
another. Those made without one all have the same, and the export to a file too: at any time they
render a song exactly as the export does. -/
theorem c115_shared (cs : List StudioCall) (c : Option Nat) (s : Nat)
    (h : ((Studio.start.calls cs).call (.newSer c)).1 = .made s) (cs' : List StudioCall)
    (hcs : ∀ x ∈ cs', reconfigures s x = false) :
    let q := ((Studio.start.calls cs).call (.newSer c)).2.calls cs'
    q.sers[s]? = some (c.getD 0) ∧
    (c = none → ∀ song, (q.call (.render s song)).1 = (q.call (.write song)).1) := by
  intro q
  have hq : q.sers[s]? = some (c.getD 0) := by
    refine Studio.calls_ser cs' ?_ hcs
    generalize Studio.start.calls cs = p at h ⊢
    unfold Studio.call at h ⊢
    dsimp only at h ⊢
    split at h
    · rename_i hc
      rw [if_pos hc]
      cases h
      simp
    · cases h
  refine ⟨hq, ?_⟩
  rintro rfl song
  show (match q.sers[s]? with
    | none => (StudioGot.unbound, q)
    | some c => (q.rendered c song, q)).1 = q.rendered 0 song
  rw [hq]
  rfl

/-- The list of configuration `c` is replaced. -/
theorem coloursOf_setList {p : Studio} {c : Nat} {o : ColourConf} {l l' : List Str}
    (ho : p.confs[c]? = some o) (hl : p.lists[o.tracks]? = some l) :
    coloursOf { p with lists := p.lists.set o.tracks l' } c = some ⟨l', o.master, o.send⟩ := by
  unfold coloursOf
  dsimp only
  rw [ho]
  dsimp only
  rw [List.getElem?_set_self (List.getElem?_eq_some_iff.mp hl).1]

theorem coloursOf_some {p : Studio} {c : Nat} {k : Colours} (h : coloursOf p c = some k) :
    ∃ o, p.confs[c]? = some o ∧ p.lists[o.tracks]? = some k.tracks ∧ k.master = o.master ∧
      k.send = o.send := by
  unfold coloursOf at h
  cases ho : p.confs[c]? with
  | none => rw [ho] at h; cases h
  | some o =>
    rw [ho] at h
    dsimp only at h
    cases hl : p.lists[o.tracks]? with
    | none => rw [hl] at h; cases h
    | some l => rw [hl] at h; cases h; exact ⟨o, rfl, hl, rfl, rfl⟩

/-- C115. What is said to a configuration: assigning its colours, changing its list. `IndexError`,
which changes nothing, exactly if there is no such colour. -/
theorem c115_effects (cs : List StudioCall) (c : Nat) (k : Colours)
    (h : coloursOf (Studio.start.calls cs) c = some k) :
    let p := Studio.start.calls cs
    (∀ l, coloursOf (p.call (.assign c l)).2 c = some { k with tracks := l }) ∧
    (∀ d k', coloursOf p d = some k' →
      coloursOf (p.call (.share c d)).2 c = some { k with tracks := k'.tracks }) ∧
    (∀ v, coloursOf (p.call (.setMaster c v)).2 c = some { k with master := v }) ∧
    (∀ v, coloursOf (p.call (.setSend c v)).2 c = some { k with send := v }) ∧
    (∀ v, coloursOf (p.call (.append c v)).2 c = some { k with tracks := k.tracks ++ [v] }) ∧
    (∀ i v, (i < k.tracks.length →
        coloursOf (p.call (.setItem c i v)).2 c = some { k with tracks := k.tracks.set i v }) ∧
      (k.tracks.length ≤ i → p.call (.setItem c i v) = (.raised .index, p))) ∧
    (∀ i, (i < k.tracks.length →
        coloursOf (p.call (.delItem c i)).2 c = some { k with tracks := k.tracks.eraseIdx i }) ∧
      (k.tracks.length ≤ i → p.call (.delItem c i) = (.raised .index, p))) := by
  intro p
  obtain ⟨o, ho, hl, hm, hn⟩ := coloursOf_some h
  replace ho : p.confs[c]? = some o := ho
  replace hl : p.lists[o.tracks]? = some k.tracks := hl
  have hlt := (List.getElem?_eq_some_iff.mp ho).1
  obtain ⟨kt, km, kn⟩ := k
  dsimp only at hl hm hn
  subst hm hn
  refine ⟨?_, ?_, ?_, ?_, ?_, ?_, ?_⟩
  · intro l
    simp only [Studio.call, ho, coloursOf, List.getElem?_set_self hlt, List.getElem?_concat_length]
  · intro d k' hd
    obtain ⟨o', ho', hl', _, _⟩ := coloursOf_some hd
    simp only [Studio.call, ho, ho', coloursOf, List.getElem?_set_self hlt, hl']
  · intro v
    simp only [Studio.call, ho, coloursOf, List.getElem?_set_self hlt, hl]
  · intro v
    simp only [Studio.call, ho, coloursOf, List.getElem?_set_self hlt, hl]
  · intro v
    simp only [Studio.call, ho, hl, Option.getD_some]
    exact coloursOf_setList ho hl
  · intro i v
    simp only [Studio.call, ho, hl, Option.getD_some]
    constructor
    · intro hi
      rw [if_pos hi]
      exact coloursOf_setList ho hl
    · intro hi
      rw [if_neg (by omega)]
  · intro i
    simp only [Studio.call, ho, hl, Option.getD_some]
    constructor
    · intro hi
      rw [if_pos hi]
      exact coloursOf_setList ho hl
    · intro hi
      rw [if_neg (by omega)]

/-- Two configurations of the caller's, with one list between them; the second is the one of a
serializer. -/
def colourSession : List StudioCall :=
  [.newSer none, .newConf, .newConf, .share 1 2, .newSer (some 2), .setItem 1 0 "1,2,3".toList,
   .setMaster 1 "0,0,0".toList]

example : (Studio.start.calls colourSession).sers[1]? = some 2 ∧
    (coloursOf (Studio.start.calls colourSession) 2).map (·.tracks[0]?) =
      some (some "1,2,3".toList) ∧
    (∀ x ∈ colourSession, recolours 0 x = false ∧ reconfigures 0 x = false) := by decide +kernel

/-- The default configuration changed through one serializer: the export to files changes. -/
example : ∃ song, ((Studio.start.calls [.newSer none, .setItem 0 0 "1,2,3".toList]).call
    (.write song)).1 ≠ .document (render song) :=
  ⟨{ globals := { beatsPerMin := 120 }
     instruments := []
     tracks := Tracks.new 1
     patternPool := ⟨[], 1, 64⟩
     patternSequence := [] }, by decide +kernel⟩

end VgmX
