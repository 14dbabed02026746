import Mathlib.Data.List.TakeWhile
import Verif.Spec.Mix
import Verif.Props.Optimise
import Verif.Props.Relate
/-
Properties C89 and C90: recordings that differ in which channels they have, or in the order of
what happens at the same time on different channels.
-/

namespace VgmX
open Spec

/-- The key events of channel `c`. -/
def chEvents (h : List Event) (c : Nat) : List KeyEvent := (keyEvents h).filter (·.ch = c)

/-- What `h'` keeps of `h`: all key events of the channels in `keep`, and no others. -/
structure Keep (keep : Nat → Bool) (h h' : List Event) : Prop where
  same : ∀ c < 8, keep c = true → chEvents h' c = chEvents h c
  no : ∀ e ∈ keyEvents h', keep e.ch = true

theorem keyEvents_ch {h : List Event} {e : KeyEvent} (he : e ∈ keyEvents h) : e.ch < 8 := by
  obtain ⟨i, v, _, rfl⟩ := (mem_keyEvents h e).mp he
  exact Nat.mod_lt _ (by decide)

theorem Keep.sub {keep : Nat → Bool} {h h' : List Event} (hk : Keep keep h h') {e : KeyEvent}
    (he : e ∈ keyEvents h') : e ∈ keyEvents h := by
  have : e ∈ chEvents h' e.ch := List.mem_filter.mpr ⟨he, by simp⟩
  rw [hk.same _ (keyEvents_ch he) (hk.no e he)] at this
  exact (List.mem_filter.mp this).1

/-- The renumbering: where the instruments of `h'` are among those of `h`. -/
def whereIn (h h' : List Event) (i : Nat) : Nat :=
  match (instruments h')[i]? with
  | some p => (instruments h).idxOf p
  | none => i

theorem whereIn_patch {h h' : List Event} {p : Patch} (hp : p ∈ instruments h') :
    whereIn h h' ((instruments h').idxOf p) = (instruments h).idxOf p := by
  unfold whereIn
  rw [List.getElem?_idxOf hp]

theorem keep_instruments {keep : Nat → Bool} {h h' : List Event} (hk : Keep keep h h')
    {p : Patch} (hp : p ∈ instruments h') : p ∈ instruments h := by
  obtain ⟨e, he, ho, rfl⟩ := (mem_instruments h' p).mp hp
  exact (mem_instruments h _).mpr ⟨e, hk.sub he, ho, rfl⟩

theorem keep_renumbering {keep : Nat → Bool} {h h' : List Event} (hk : Keep keep h h')
    (hb : ByteHistory h) (hb' : ByteHistory h') :
    Renumbering (whereIn h h') (run h').configs (run h).configs := by
  rw [configs_run h hb, configs_run h' hb']
  refine ⟨fun i x hx => ?_, fun i j hi hj e => ?_⟩
  · rw [List.getElem?_mapIdx] at hx
    obtain ⟨p, hp, rfl⟩ := Option.map_eq_some_iff.mp hx
    have hm : p ∈ instruments h := keep_instruments hk (List.mem_of_getElem? hp)
    refine ⟨⟨whereIn h h' i, p.base, p.operators, p.channel⟩, ?_, rfl, rfl, rfl⟩
    rw [List.getElem?_mapIdx]
    have : whereIn h h' i = (instruments h).idxOf p := by unfold whereIn; rw [hp]
    rw [this, List.getElem?_idxOf hm]
    rfl
  · rw [List.length_mapIdx] at hi hj
    have gi := List.getElem?_eq_getElem hi
    have gj := List.getElem?_eq_getElem hj
    unfold whereIn at e
    rw [gi, gj] at e
    dsimp only at e
    have mi : (instruments h')[i] ∈ instruments h := keep_instruments hk (List.getElem_mem hi)
    have mj : (instruments h')[j] ∈ instruments h := keep_instruments hk (List.getElem_mem hj)
    have e1 := List.getElem?_idxOf mi
    have e2 := List.getElem?_idxOf mj
    rw [e, e2] at e1
    have hn := eraseDups_nodup (patchesKeyedOn h')
    have e3 := Option.some.inj e1
    exact (List.getElem?_inj hi hn).mp (by
      show (instruments h')[i]? = (instruments h')[j]?
      rw [gi, gj, e3])

theorem keep_noteOf {keep : Nat → Bool} {h h' : List Event} (_ : Keep keep h h')
    {e : KeyEvent} (he : e ∈ keyEvents h') :
    noteOf h e = renumbered (whereIn h h') (noteOf h' e) := by
  unfold noteOf renumbered
  by_cases ho : e.isOn
  · have hp : e.patch ∈ instruments h' := (mem_instruments h' _).mpr ⟨e, he, ho, rfl⟩
    simp only [if_pos ho, whereIn_patch hp, Int.toNat_natCast]
    rw [if_neg (by omega)]
  · simp only [if_neg ho]; rfl

/-- The key-ons that are recorded. -/
theorem recorded_on (h : List Event) : (recorded h).filter (fun e => decide e.isOn) =
    (keyEvents h).filter (fun e => decide (e.isOn ∧ 0 < e.time)) := by
  have hz := c21_time_zero_lost h
  rw [recorded_dropWhile] at hz ⊢
  conv => rhs; rw [← List.takeWhile_append_dropWhile
    (p := fun e : KeyEvent => !decide (e.isOn ∧ 0 < e.time)) (l := keyEvents h)]
  rw [List.filter_append]
  have h1 : ((keyEvents h).takeWhile (fun e => !decide (e.isOn ∧ 0 < e.time))).filter
      (fun e => decide (e.isOn ∧ 0 < e.time)) = [] := by
    rw [List.filter_eq_nil_iff]
    intro e he
    have := List.mem_takeWhile_imp he
    simpa only [Bool.not_eq_true', decide_eq_false_iff_not, decide_eq_true_eq] using this
  rw [h1, List.nil_append]
  apply List.filter_congr
  intro e he
  rw [decide_eq_decide]
  exact ⟨fun ho => ⟨ho, hz e he⟩, fun ho => ho.1⟩

/-- From the first key-on (after time 0) on, everything is recorded. -/
theorem recorded_later (h : List Event) (u : Nat) (hu : ∃ e ∈ keyEvents h, e.isOn ∧ 0 < e.time ∧ e.time ≤ u)
    : (recorded h).filter (fun e => decide (u < e.time)) =
    (keyEvents h).filter (fun e => decide (u < e.time)) := by
  rw [recorded_dropWhile]
  have hs := (keyEvents_times h).1
  have hcat := List.takeWhile_append_dropWhile
    (p := fun e : KeyEvent => !decide (e.isOn ∧ 0 < e.time)) (l := keyEvents h)
  conv => rhs; rw [← hcat]
  rw [List.filter_append]
  have h1 : ((keyEvents h).takeWhile (fun e => !decide (e.isOn ∧ 0 < e.time))).filter
      (fun e => decide (u < e.time)) = [] := by
    rw [List.filter_eq_nil_iff]
    intro e he
    obtain ⟨o, ho, h1, h2, h3⟩ := hu
    rw [← hcat] at ho hs
    have hle := (List.pairwise_append.mp hs).2.2
    rcases List.mem_append.mp ho with ho | ho
    · have := List.mem_takeWhile_imp ho
      simp [h1, h2] at this
    · have := hle e he o ho
      simp; omega
  rw [h1, List.nil_append]

theorem isOnNote_noteOf (h : List Event) (e : KeyEvent) :
    isOnNote (noteOf h e) = decide e.isOn := by
  unfold isOnNote noteOf
  rw [decide_eq_decide]
  by_cases ho : e.isOn <;> simp [ho]

theorem keep_notes {keep : Nat → Bool} {h h' : List Event} (hk : Keep keep h h') {c : Nat}
    (hc : c < 8) (hkc : keep c = true) :
    (Spec.keyPresses h c).filter isOnNote =
      ((Spec.keyPresses h' c).filter isOnNote).map (renumbered (whereIn h h')) := by
  have key : ∀ h, (Spec.keyPresses h c).filter isOnNote =
      ((chEvents h c).filter (fun e => decide (e.isOn ∧ 0 < e.time))).map (noteOf h) := by
    intro h
    unfold Spec.keyPresses chEvents
    rw [List.filter_map]
    congr 1
    have : (isOnNote ∘ noteOf h) = fun e => decide e.isOn := funext (isOnNote_noteOf h)
    rw [this, List.filter_filter, List.filter_filter]
    have := congrArg (List.filter (fun e => decide (e.ch = c))) (recorded_on h)
    rw [List.filter_filter, List.filter_filter] at this
    calc _ = _ := List.filter_congr (fun e _ => Bool.and_comm _ _)
      _ = _ := this
      _ = _ := List.filter_congr (fun e _ => Bool.and_comm _ _)
  rw [key h, key h', hk.same c hc hkc, List.map_map]
  apply List.map_congr_left
  intro e he
  have : e ∈ chEvents h' c := by rw [hk.same c hc hkc]; exact (List.mem_filter.mp he).1
  exact keep_noteOf hk (List.mem_filter.mp this).1

theorem keep_later {keep : Nat → Bool} {h h' : List Event} (hk : Keep keep h h') {c : Nat}
    (hc : c < 8) (hkc : keep c = true) (u : Nat)
    (hu : ∃ e ∈ keyEvents h', e.isOn ∧ 0 < e.time ∧ e.time ≤ u) :
    (Spec.keyPresses h c).filter (fun n => decide (u < n.sample)) =
      ((Spec.keyPresses h' c).filter (fun n => decide (u < n.sample))).map
        (renumbered (whereIn h h')) := by
  have key : ∀ h, (∃ e ∈ keyEvents h, e.isOn ∧ 0 < e.time ∧ e.time ≤ u) →
      (Spec.keyPresses h c).filter (fun n => decide (u < n.sample)) =
      ((chEvents h c).filter (fun e => decide (u < e.time))).map (noteOf h) := by
    intro h hu
    unfold Spec.keyPresses chEvents
    rw [List.filter_map]
    congr 1
    have : ((fun n : Note => decide (u < n.sample)) ∘ noteOf h) = fun e => decide (u < e.time) := rfl
    rw [this, List.filter_filter, List.filter_filter]
    have := congrArg (List.filter (fun e => decide (e.ch = c))) (recorded_later h u hu)
    rw [List.filter_filter, List.filter_filter] at this
    calc _ = _ := List.filter_congr (fun e _ => Bool.and_comm _ _)
      _ = _ := this
      _ = _ := List.filter_congr (fun e _ => Bool.and_comm _ _)
  obtain ⟨o, ho, h1⟩ := hu
  rw [key h ⟨o, hk.sub ho, h1⟩, key h' ⟨o, ho, h1⟩, hk.same c hc hkc, List.map_map]
  apply List.map_congr_left
  intro e he
  have : e ∈ chEvents h' c := by rw [hk.same c hc hkc]; exact (List.mem_filter.mp he).1
  exact keep_noteOf hk (List.mem_filter.mp this).1

theorem keyOnAt_iff (h : List Event) (u : Nat) :
    KeyOnAt h u ↔ ∃ e ∈ keyEvents h, e.isOn ∧ e.time = u := by
  constructor
  · rintro ⟨i, v, hi, hv, rfl⟩
    exact ⟨_, (mem_keyEvents h _).mpr ⟨i, v, hi, rfl⟩, hv, rfl⟩
  · rintro ⟨e, he, ho, rfl⟩
    obtain ⟨i, v, hi, rfl⟩ := (mem_keyEvents h e).mp he
    exact ⟨i, v, hi, ho, rfl⟩

/-- What is left is the same but for the numbers of the instruments, and what is lost is at most
key-offs no later than the first key-on that is left. -/
theorem keep_run {keep : Nat → Bool} {h h' : List Event} (hb : ByteHistory h)
    (hb' : ByteHistory h') (hk : Keep keep h h') :
    ∃ f, Renumbering f (run h').configs (run h).configs ∧
      ∀ c < 8, keep c = true →
        ((run h).keyPressesOf c).filter isOnNote =
          (((run h').keyPressesOf c).filter isOnNote).map (renumbered f) ∧
        ∀ u v, KeyOnAt h' v → 0 < v → v ≤ u →
          ((run h).keyPressesOf c).filter (fun n => decide (u < n.sample)) =
            (((run h').keyPressesOf c).filter (fun n => decide (u < n.sample))).map
              (renumbered f) := by
  refine ⟨whereIn h h', keep_renumbering hk hb hb', fun c hc hkc => ?_⟩
  rw [keyPresses_run h hb c hc, keyPresses_run h' hb' c hc]
  refine ⟨keep_notes hk hc hkc, fun u v hv h0 huv => ?_⟩
  obtain ⟨e, he, ho, rfl⟩ := (keyOnAt_iff h' v).mp hv
  exact keep_later hk hc hkc u ⟨e, he, ho, h0, huv⟩

/-! ### The song -/

theorem lineOf_renumbered (f : Nat → Nat) (n : Note) :
    (lineOf (renumbered f n)).note = (lineOf n).note ∧
    (lineOf (renumbered f n)).pan = (lineOf n).pan ∧
    ((lineOf (renumbered f n)).instrument = none ↔ (lineOf n).instrument = none) ∧
    (lineOf (renumbered f n)).instrument.bind (readBase 16) =
      ((lineOf n).instrument.bind (readBase 16)).map f := by
  by_cases hn : n.configId < 0
  · have e : renumbered f n = n := by simp [renumbered, hn]
    have hi : (lineOf n).instrument = none := by
      show instrColumn n = none
      unfold instrColumn; rw [if_neg (by omega)]
    rw [e, hi]
    simp
  · have hc : (renumbered f n).configId = (f n.configId.toNat : Nat) := by
      simp [renumbered, hn]
    have hi : (lineOf n).instrument = some (hex2 n.configId.toNat) := by
      show instrColumn n = _
      unfold instrColumn; rw [if_pos (by omega)]
    have hi' : (lineOf (renumbered f n)).instrument = some (hex2 (f n.configId.toNat)) := by
      show instrColumn _ = _
      unfold instrColumn; rw [hc, if_pos (by omega)]; rfl
    refine ⟨?_, rfl, ?_, ?_⟩
    · show (Note.xrnsNote _).toOption.getD [] = (Note.xrnsNote _).toOption.getD []
      unfold Note.xrnsNote
      rw [if_neg hn, if_neg (by rw [hc]; omega)]
      rfl
    · rw [hi, hi']; simp
    · rw [hi, hi']; simp [readBase_hex2]

theorem keep_song {keep : Nat → Bool} {h h' : List Event} (hb : ByteHistory h)
    (hb' : ByteHistory h') (hk : Keep keep h h') (t : Nat) (ht : 0 < t) (hm : t < maxTicks) :
    ∃ d d' f, exportXrns (run h) t = .ok d ∧ exportXrns (run h') t = .ok d' ∧
      Renumbering f (run h').configs (run h).configs ∧
      d'.globalSongData = d.globalSongData ∧
      ∀ c < 8, keep c = true → ∀ u row, KeyOnAt h' u → 0 < u → u / t < row →
        SameCell f (rowOf d c row) (rowOf d' c row) := by
  obtain ⟨d, e, hd⟩ := cell_eq h hb t ht hm
  obtain ⟨d', e', hd'⟩ := cell_eq h' hb' t ht hm
  obtain ⟨f, hf, hn⟩ := keep_run hb hb' hk
  refine ⟨d, d', f, e, e', hf, ?_, ?_⟩
  · obtain ⟨p, _, x⟩ := export_run h hb t ht hm
    obtain ⟨p', _, x'⟩ := export_run _ hb' t ht hm
    rw [x] at e; rw [x'] at e'
    cases e; cases e'
    rfl
  · intro c hc hkc u row hu h0 hrow
    have hl := (hn c hc hkc).2 u u hu h0 (Nat.le_refl _)
    unfold rowOf
    rw [hd _ _ _ hc (Nat.mod_lt _ (by omega)), hd' _ _ _ hc (Nat.mod_lt _ (by omega)),
      Nat.div_add_mod]
    have cut : ∀ L : List Note, onRow L t row =
        onRow (L.filter (fun n => decide (u < n.sample))) t row := by
      intro L
      unfold onRow
      rw [List.filter_filter]
      apply List.filter_congr
      intro n _
      by_cases hr : n.sample / t = row
      · have : u < n.sample := by
          by_contra hlt
          have := Nat.div_le_div_right (c := t) (Nat.le_of_not_lt hlt)
          omega
        simp [hr, this]
      · simp [hr]
    rw [cut ((run h).keyPressesOf c), cut ((run h').keyPressesOf c), hl]
    have hon : onRow ((((run h').keyPressesOf c).filter (fun n => decide (u < n.sample))).map
          (renumbered f)) t row
        = (onRow (((run h').keyPressesOf c).filter (fun n => decide (u < n.sample))) t row).map
          (renumbered f) := by
      unfold onRow
      rw [List.filter_map]
      rfl
    rw [hon, List.getLast?_map]
    cases (onRow (((run h').keyPressesOf c).filter (fun n => decide (u < n.sample))) t row).getLast? with
    | none => exact .inl ⟨rfl, rfl⟩
    | some n =>
      obtain ⟨a1, a2, a3, a4⟩ := lineOf_renumbered f n
      exact .inr ⟨_, _, rfl, rfl, a1, a2, a3, a4⟩

/-! ### C89: leaving out channels -/

theorem chEvents_snoc (h : List Event) (e : Event) (c : Nat) :
    chEvents (h ++ [e]) c = chEvents h c ++
      (match e with
       | .write r v => if r = 8 ∧ v % 8 = c then [keyEventAt h v] else []
       | .wait _ => []) := by
  unfold chEvents
  rw [keyEvents_snoc, List.filter_append]
  congr 1
  cases e with
  | wait n => rfl
  | write r v =>
    dsimp only
    by_cases h8 : r = 8
    · rw [if_pos h8]
      by_cases hv : v % 8 = c
      · simp [h8, hv, keyEventAt]
      · simp [h8, hv, keyEventAt]
    · simp [h8]

theorem only_append (keep : Nat → Bool) (a b : List Event) :
    only keep (a ++ b) = only keep a ++ only keep b := by unfold only; rw [List.filter_append]

theorem only_write (keep : Nat → Bool) (r v : Nat) : only keep [.write r v] =
    if (if r = 8 then keep (v % 8) else if 0x20 ≤ r then keep (r % 8) else true) = true
    then [.write r v] else [] := by
  unfold only
  rw [List.filter_cons]
  rfl

theorem agree_only (keep : Nat → Bool) {c : Nat} (hc : c < 8) (hk : keep c = true)
    (h : List Event) : AgreeOn c (only keep h) h := by
  induction h using list_snoc_ind with
  | nil => exact ⟨rfl, fun _ _ _ => rfl⟩
  | snoc h e ih =>
    rw [only_append]
    by_cases ho : only keep [e] = [e]
    · rw [ho]; exact ih.append [e]
    · cases e with
      | wait n => exact absurd rfl ho
      | write r v =>
        rw [only_write] at ho ⊢
        have hn : ¬ (if r = 8 then keep (v % 8) else if 0x20 ≤ r then keep (r % 8) else true)
            = true := fun hh => ho (if_pos hh)
        rw [if_neg hn, List.append_nil]
        have hcon : ¬ Concerns r c := by
          intro hcon
          apply hn
          rcases hcon with rfl | rfl | rfl | ⟨rfl, _⟩ | ⟨h1, h2⟩
          · rfl
          · rfl
          · rfl
          · rfl
          · rw [if_neg (by omega), if_pos h1, h2]; exact hk
        have := agree_write (v := v) (p := h) hcon
        exact ⟨ih.1.trans this.1.symm, fun s f hl => (ih.2 s f hl).trans (this.2 s f hl).symm⟩

theorem keep_only (keep : Nat → Bool) (h : List Event) : Keep keep h (only keep h) := by
  constructor
  · intro c hc hk
    induction h using list_snoc_ind with
    | nil => rfl
    | snoc h e ih =>
      rw [only_append, chEvents_snoc]
      cases e with
      | wait n =>
        have : only keep [.wait n] = [.wait n] := rfl
        rw [this, chEvents_snoc, ih]
      | write r v =>
        by_cases h8 : r = 8
        · subst h8
          by_cases hv : keep (v % 8) = true
          · have : only keep [.write 8 v] = [.write 8 v] := by simp [only, hv]
            rw [this, chEvents_snoc, ih]
            congr 1
            dsimp only
            split
            · rename_i hh
              rw [keyEventAt_agree (agree_only keep (Nat.mod_lt _ (by decide)) hv h)]
            · rfl
          · have : only keep [.write 8 v] = [] := by simp [only, hv]
            rw [this, List.append_nil, ih]
            have : ¬ (8 = 8 ∧ v % 8 = c) := by
              rintro ⟨_, hvc⟩; rw [hvc] at hv; exact hv hk
            dsimp only
            rw [if_neg this, List.append_nil]
        · have hno : ∀ p, chEvents (p ++ only keep [.write r v]) c = chEvents p c := by
            intro p
            have : only keep [.write r v] = [.write r v] ∨ only keep [.write r v] = [] := by
              rw [only_write]
              generalize (if r = 8 then keep (v % 8) else if 0x20 ≤ r then keep (r % 8) else true) = b
              cases b
              · exact .inr rfl
              · exact .inl rfl
            rcases this with e | e <;> rw [e]
            · rw [chEvents_snoc]; simp [h8]
            · rw [List.append_nil]
          rw [hno, ih]
          simp [h8]
  · intro e he
    obtain ⟨i, v, hi, rfl⟩ := (mem_keyEvents _ e).mp he
    have := List.mem_of_getElem? hi
    unfold only at this
    have := (List.mem_filter.mp this).2
    show keep (v % 8) = true
    simpa using this

theorem only_byte {keep : Nat → Bool} {h : List Event} (hb : ByteHistory h) :
    ByteHistory (only keep h) := fun e he => hb e (List.mem_filter.mp he).1

/-- C89. If channels are left out of a recording, the instruments that are left are instruments of
the whole recording, and on the channels that are left the notes are the same, but for the
numbering of the instruments; all that can be missing are key-offs no later than the first key-on
that is left. -/
theorem c89_notes (keep : Nat → Bool) (h : List Event) (hb : ByteHistory h) :
    ∃ f, Renumbering f (run (only keep h)).configs (run h).configs ∧
      ∀ c < 8, keep c = true →
        ((run h).keyPressesOf c).filter isOnNote =
          (((run (only keep h)).keyPressesOf c).filter isOnNote).map (renumbered f) ∧
        ∀ u v, KeyOnAt (only keep h) v → 0 < v → v ≤ u →
          ((run h).keyPressesOf c).filter (fun n => decide (u < n.sample)) =
            (((run (only keep h)).keyPressesOf c).filter (fun n => decide (u < n.sample))).map
              (renumbered f) :=
  keep_run hb (only_byte hb) (keep_only keep h)

/-- C89. On the channels left out there is nothing. -/
theorem c89_silent (keep : Nat → Bool) (h : List Event) (hb : ByteHistory h) (c : Nat) (hc : c < 8)
    (hk : keep c = false) : (run (only keep h)).keyPressesOf c = [] := by
  rw [keyPresses_run _ (only_byte hb) c hc]
  unfold Spec.keyPresses
  rw [List.map_eq_nil_iff, List.filter_eq_nil_iff]
  intro e he hce
  have := (keep_only keep h).no e (mem_keyEvents_of_recorded he)
  rw [of_decide_eq_true hce, hk] at this
  cases this

/-- C89, for the song: below the row of the first key-on that is left, the cells of the channels
that are left are the same, but for the numbering of the instruments. -/
theorem c89_song (keep : Nat → Bool) (h : List Event) (hb : ByteHistory h) (t : Nat) (ht : 0 < t)
    (hm : t < maxTicks) :
    ∃ d d' f, exportXrns (run h) t = .ok d ∧ exportXrns (run (only keep h)) t = .ok d' ∧
      Renumbering f (run (only keep h)).configs (run h).configs ∧
      d'.globalSongData = d.globalSongData ∧
      ∀ c < 8, keep c = true → ∀ u row, KeyOnAt (only keep h) u → 0 < u → u / t < row →
        SameCell f (rowOf d c row) (rowOf d' c row) :=
  keep_song hb (only_byte hb) (keep_only keep h) t ht hm

/-! ### C90: the order of simultaneous events -/

theorem chEvents_agree {p q : List Event} (hk : ∀ c < 8, chEvents p c = chEvents q c)
    (t : List Event) (ha : ∀ c < 8, AgreeOn c p q) :
    ∀ c < 8, chEvents (p ++ t) c = chEvents (q ++ t) c := by
  induction t using list_snoc_ind with
  | nil => simpa using hk
  | snoc t e ih =>
    intro c hc
    rw [← List.append_assoc, ← List.append_assoc, chEvents_snoc, chEvents_snoc, ih c hc]
    cases e with
    | wait n => rfl
    | write r v =>
      dsimp only
      split
      · rw [keyEventAt_agree ((ha _ (Nat.mod_lt _ (by decide))).append t)]
      · rfl

theorem AgreeOn.symm {c : Nat} {p q : List Event} (h : AgreeOn c p q) : AgreeOn c q p :=
  ⟨h.1.symm, fun r f hl => (h.2 r f hl).symm⟩

theorem AgreeOn.trans {c : Nat} {p q r : List Event} (h : AgreeOn c p q) (h' : AgreeOn c q r) :
    AgreeOn c p r := ⟨h.1.trans h'.1, fun r f hl => (h.2 r f hl).trans (h'.2 r f hl)⟩

theorem not_concerns_eight (c : Nat) : ¬ Concerns 8 c := by
  unfold Concerns; omega

/-- Different registers can be written in any order. -/
theorem agree_swap {r q v w : Nat} (hne : r ≠ q) (c : Nat) (p : List Event) :
    AgreeOn c (p ++ [.write r v] ++ [.write q w]) (p ++ [.write q w] ++ [.write r v]) := by
  refine ⟨by simp only [time_append]; simp [time], fun s f _ => ?_⟩
  simp only [lastVal_append, writesTo_one]
  by_cases h1 : q = s
  · subst h1
    rw [if_neg (show ¬ (r = q ∧ f v = true) from fun h => hne h.1)]
    simp
  · rw [if_neg (show ¬ (q = s ∧ f w = true) from fun h => h1 h.1)]
    simp

theorem swap_write {p : List Event} {r v q w : Nat} (hi : Independent (.write r v) (.write q w)) :
    (∀ c, AgreeOn c (p ++ [.write r v] ++ [.write q w]) (p ++ [.write q w] ++ [.write r v])) ∧
    ∀ c, chEvents (p ++ [.write r v] ++ [.write q w]) c =
      chEvents (p ++ [.write q w] ++ [.write r v]) c := by
  unfold Independent at hi
  refine ⟨fun c => ?_, fun c => ?_⟩
  · by_cases hrq : r = q
    · subst hrq
      by_cases h8 : r = 8
      · subst h8
        have n8 := not_concerns_eight c
        exact ((agree_write n8).trans (agree_write n8)).trans
          ((agree_write n8).trans (agree_write n8)).symm
      · simp [h8] at hi
    · exact agree_swap hrq c p
  · rw [chEvents_snoc, chEvents_snoc, chEvents_snoc, chEvents_snoc, List.append_assoc,
      List.append_assoc]
    congr 1
    dsimp only
    by_cases hr : r = 8
    · by_cases hq : q = 8
      · subst hr hq
        simp only [and_self, if_true] at hi
        have e1 : keyEventAt (p ++ [.write 8 v]) w = keyEventAt p w :=
          keyEventAt_agree (agree_write (not_concerns_eight _))
        have e2 : keyEventAt (p ++ [.write 8 w]) v = keyEventAt p v :=
          keyEventAt_agree (agree_write (not_concerns_eight _))
        rw [e1, e2]
        by_cases hv : v % 8 = c
        · have hw : ¬ w % 8 = c := by omega
          simp [hv, hw]
        · simp [hv]
      · subst hr
        simp only [hq, and_false, if_false, if_true] at hi
        have e2 : keyEventAt (p ++ [.write q w]) v = keyEventAt p v :=
          keyEventAt_agree (agree_write hi)
        rw [e2]
        simp [hq]
    · by_cases hq : q = 8
      · subst hq
        simp only [hr, false_and, if_false, if_true] at hi
        have e1 : keyEventAt (p ++ [.write r v]) w = keyEventAt p w :=
          keyEventAt_agree (agree_write hi)
        rw [e1]
        simp [hr]
      · simp [hr, hq]

theorem reordered_chEvents {h h' : List Event} (hr : Reordered h h') :
    ∀ c < 8, chEvents h' c = chEvents h c := by
  induction hr with
  | none => exact fun _ _ => rfl
  | @swap p q a b _ hi ih =>
    intro c hc
    rw [← ih c hc]
    cases a with
    | wait n => cases hi
    | write r v =>
      cases b with
      | wait n => cases hi
      | write s w =>
        have e1 : p ++ .write r v :: .write s w :: q = p ++ [.write r v] ++ [.write s w] ++ q := by
          simp
        have e2 : p ++ .write s w :: .write r v :: q = p ++ [.write s w] ++ [.write r v] ++ q := by
          simp
        rw [e1, e2]
        obtain ⟨g1, g2⟩ := swap_write (p := p) hi
        exact (chEvents_agree (fun c _ => g2 c) q (fun c _ => g1 c) c hc).symm

theorem reordered_byte {h h' : List Event} (hr : Reordered h h') (hb : ByteHistory h) :
    ByteHistory h' := by
  induction hr with
  | none => exact hb
  | swap _ _ ih =>
    intro e he
    apply ih
    simp only [List.mem_append, List.mem_cons] at he ⊢
    tauto

theorem keep_reordered {h h' : List Event} (hr : Reordered h h') :
    Keep (fun _ => true) h h' := ⟨fun c hc _ => reordered_chEvents hr c hc, fun _ _ => rfl⟩

theorem reordered_mem {h h' : List Event} (hr : Reordered h h') (e : KeyEvent) :
    e ∈ keyEvents h' ↔ e ∈ keyEvents h := by
  constructor
  · exact (keep_reordered hr).sub
  · intro he
    have : e ∈ chEvents h e.ch := List.mem_filter.mpr ⟨he, by simp⟩
    rw [← reordered_chEvents hr _ (keyEvents_ch he)] at this
    exact (List.mem_filter.mp this).1

/-- C90. The order of what happens at the same time on different channels makes no difference
except to the numbering of the instruments, and to key-offs no later than the first key-on: the
instruments are the same in another order, the notes are the same, the ticks and the estimate are
the same. -/
theorem c90_notes (h h' : List Event) (hb : ByteHistory h) (hr : Reordered h h') :
    (∃ f, Renumbering f (run h').configs (run h).configs ∧
      (run h').configs.length = (run h).configs.length ∧
      ∀ c < 8,
        ((run h).keyPressesOf c).filter isOnNote =
          (((run h').keyPressesOf c).filter isOnNote).map (renumbered f) ∧
        ∀ u v, KeyOnAt h v → 0 < v → v ≤ u →
          ((run h).keyPressesOf c).filter (fun n => decide (u < n.sample)) =
            (((run h').keyPressesOf c).filter (fun n => decide (u < n.sample))).map
              (renumbered f)) ∧
    (run h').ticks = (run h).ticks ∧ (run h').ticksPerNote = (run h).ticksPerNote := by
  have hb' := reordered_byte hr hb
  have hmem := reordered_mem hr
  obtain ⟨f, h1, h2⟩ := keep_run hb hb' (keep_reordered hr)
  have ht : (run h').ticks = (run h).ticks := by
    rw [alike_ticks hb hb' id (fun _ _ h => h) (by
      intro t
      constructor
      · rintro ⟨e, he, hx⟩; exact ⟨e, (hmem e).mp he, hx⟩
      · rintro ⟨e, he, hx⟩; exact ⟨e, (hmem e).mpr he, hx⟩), List.map_id]
  refine ⟨⟨f, h1, ?_, fun c hc => ⟨(h2 c hc rfl).1, fun u v hv => ?_⟩⟩, ht, ticksPerNote_congr ht⟩
  · have hp : ∀ p, p ∈ instruments h' ↔ p ∈ instruments h := by
      intro p
      simp only [mem_instruments, hmem]
    have : (instruments h').Perm (instruments h) :=
      (List.perm_ext_iff_of_nodup (eraseDups_nodup _) (eraseDups_nodup _)).mpr hp
    rw [configs_run h hb, configs_run h' hb', List.length_mapIdx, List.length_mapIdx,
      this.length_eq]
  · refine (h2 c hc rfl).2 u v ?_
    obtain ⟨e, he, ho⟩ := (keyOnAt_iff h v).mp hv
    exact (keyOnAt_iff h' v).mpr ⟨e, (hmem e).mpr he, ho⟩

/-- C90, for the song. -/
theorem c90_song (h h' : List Event) (hb : ByteHistory h) (hr : Reordered h h') (t : Nat)
    (ht : 0 < t) (hm : t < maxTicks) :
    ∃ d d' f, exportXrns (run h) t = .ok d ∧ exportXrns (run h') t = .ok d' ∧
      Renumbering f (run h').configs (run h).configs ∧
      d'.globalSongData = d.globalSongData ∧
      ∀ c < 8, ∀ u row, KeyOnAt h u → 0 < u → u / t < row →
        SameCell f (rowOf d c row) (rowOf d' c row) := by
  obtain ⟨d, d', f, h1, h2, h3, h4, h5⟩ :=
    keep_song hb (reordered_byte hr hb) (keep_reordered hr) t ht hm
  refine ⟨d, d', f, h1, h2, h3, h4, fun c hc u row hu => h5 c hc rfl u row ?_⟩
  obtain ⟨e, he, ho⟩ := (keyOnAt_iff h u).mp hu
  exact (keyOnAt_iff h' u).mpr ⟨e, (reordered_mem hr e).mpr he, ho⟩

/-! ### Examples -/

/-- Two channels; channel 1 starts with the patch that channel 2 uses later, and both play at the
same time. -/
def duo : List Event :=
  [.write 0x29 0x4A, .wait 100, .write 0x08 0x19, .write 0x60 9, .wait 10, .write 0x62 40,
   .write 0x08 0x1A, .wait 20, .write 0x62 0, .write 0x08 0x1A, .write 0x08 0x01, .wait 5,
   .write 0x08 0x02]

/-- Without channel 1 two notes and a key-off are left on channel 2, and its instruments change
places: what were 1 and 0 are now 0 and 1. -/
example : ByteHistory duo ∧
    ((run duo).keyPressesOf 2).map (·.configId) = [1, 0, -1] ∧
    ((run (only (· != 1) duo)).keyPressesOf 2).map (·.configId) = [0, 1, -1] ∧
    ((run (only (· != 1) duo)).keyPressesOf 1) = [] ∧
    (110 ∈ (run (only (· != 1) duo)).ticks) := by decide +kernel

/-- Two key-ons at the same time, in two orders. -/
example : Reordered [.write 0x62 40, .wait 9, .write 0x08 0x19, .write 0x08 0x1A]
    [.write 0x62 40, .wait 9, .write 0x08 0x1A, .write 0x08 0x19] :=
  .swap (p := [.write 0x62 40, .wait 9]) (q := []) .none (by decide)

example : (run [.write 0x62 40, .wait 9, .write 0x08 0x19, .write 0x08 0x1A]).configs ≠
    (run [.write 0x62 40, .wait 9, .write 0x08 0x1A, .write 0x08 0x19]).configs ∧
    (run [.write 0x62 40, .wait 9, .write 0x08 0x19, .write 0x08 0x1A]).configs.length = 2 := by
  decide +kernel

/-- A key-off at the time of the first key-on does depend on the order. -/
theorem c90_first_instant : ∃ h h' : List Event, ByteHistory h ∧ Reordered h h' ∧
    (run h').keyPressesOf 2 ≠ (run h).keyPressesOf 2 :=
  ⟨[.wait 9, .write 0x08 0x19, .write 0x08 0x02], [.wait 9, .write 0x08 0x02, .write 0x08 0x19],
    by decide, .swap (p := [.wait 9]) (q := []) .none (by decide), by decide +kernel⟩

end VgmX
