import Verif.Spec.FeedersExport
import Verif.Props.FeedersOut
import Verif.Props.WatchExport
/-
Property C127: exporting while several threads feed the state.
-/

namespace VgmX
open Spec

theorem among_grows (calls : List (List Event)) (order : List Nat) {a b : Nat} (hab : a ≤ b) :
    (fedBy calls (order.take a)).configs <+: (fedBy calls (order.take b)).configs ∧
    ∀ ch, (fedBy calls (order.take a)).keyPressesOf ch <+: (fedBy calls (order.take b)).keyPressesOf ch := by
  obtain ⟨more, he⟩ := List.take_prefix_take_left (l := order) hab
  have := c124_grows calls (order.take a) more
  rw [he] at this
  exact ⟨this.1, this.2.1⟩

theorem among_end (calls : List (List Event)) (order : List Nat) (a : Nat) :
    (fedBy calls (order.take a)).configs <+: (fedBy calls order).configs ∧
    ∀ ch, (fedBy calls (order.take a)).keyPressesOf ch <+: (fedBy calls order).keyPressesOf ch := by
  have := c124_grows calls (order.take a) (order.drop a)
  rw [List.take_append_drop] at this
  exact ⟨this.1, this.2.1⟩

theorem among_notes (calls : List (List Event)) (order : List Nat) {at_ : Nat → Nat} (ho : InOrder at_) :
    NotesGrow (looksAmong calls order at_) :=
  fun i j hij ch => (among_grows calls order (ho i j hij)).2 ch

theorem among_cut (calls : List (List Event)) (order : List Nat) (at_ m : Nat → Nat) (s : State) (ch : Nat)
    (hc : ch < 8) (n : Note) (hn : n ∈ (cutAt s (looksAmong calls order at_) m).keyPressesOf ch) :
    n ∈ (fedBy calls order).keyPressesOf ch := by
  rw [cutAt_notes _ _ _ _ hc] at hn
  exact ((among_end calls order _).2 ch).subset hn

/-- C127. The CSV table that is written while several threads feed the state is the table of the notes
that were there at certain moments during the export, perhaps another for each channel. No error
happens. -/
theorem c127_csv (calls : List (List Event)) (order : List Nat) (at_ : Nat → Nat) (ho : InOrder at_)
    (ticks : Int) (hz : ticks ≠ 0) (hT : (calls.map time).sum < 2 ^ 1023) :
    let look := looksAmong calls order at_
    ∃ (m : Nat → Nat) (J : Nat) (out : List Str), (∀ ch < 8, m ch < J) ∧
      extractTracksLive look (notesAmong calls order) ticks = some ((out, none), J) ∧
      extractTracks (cutAt (fedBy calls order) look m) ticks = some (out, none) := by
  intro look
  obtain ⟨m, J, ⟨out, err⟩, h1, h2, h3⟩ := csv_cut_of (among_notes calls order ho) (fedBy calls order)
    (fun i ch => (among_end calls order (at_ i)).2 ch) ticks
  have h3' := h3
  unfold extractTracks at h3'
  rw [blankRow_eq] at h3'
  have := csvLoop_ok ticks hz _ _ _ _ _
    (fun c hc n hn => fed_name calls order c n (among_cut calls order at_ m _ c hc n hn))
    (fun c hc n hn => lt_of_le_of_lt
      (fed_note calls order c n (among_cut calls order at_ m _ c hc n hn)).2.2.1 hT) _ h3'
  simp only at this
  subst this
  exact ⟨m, J, out, h1, h2, h3⟩

/-- C127. The song that is made while several threads feed the state is that of the instruments that
were there at its beginning and of the notes that were there at certain moments during the export. For a
positive ticks-per-note it is made without an error, and each cell shows the last of those notes on its
row. -/
theorem c127_song (calls : List (List Event)) (order : List Nat) (at_ : Nat → Nat) (ho : InOrder at_) :
    let look := looksAmong calls order at_
    ∃ (m : Nat → Nat) (J : Nat), (∀ ch < 8, m ch < J) ∧
      ∀ t : Nat, 0 < t → t < maxTicks →
        ∃ song, exportSongLive look (notesAmong calls order) t = (.ok song, J) ∧
          song.instruments.length = (look 0).configs.length ∧
          ∀ p c r, c < 8 → r < 64 →
            let notes := (look (m c)).keyPressesOf c
            (columnsAt (render song) p c r = none ↔ ∀ n ∈ notes, n.sample / t ≠ 64 * p + r) ∧
            ∀ n, (onRow notes t (64 * p + r)).getLast? = some n →
              ∃ col, columnsAt (render song) p c r = some [col] ∧ Shows col n := by
  intro look
  obtain ⟨m, J, _, m1, m2⟩ := notesLive_cut (among_notes calls order ho) (fedBy calls order)
    (fun i ch => (among_end calls order (at_ i)).2 ch) 8 0 1 (by omega)
  have hsong : ∀ t, exportSongLive look (notesAmong calls order) t =
      (exportSong (cutAt (look 0) look m) t, J) := fun t => by
    unfold exportSongLive cutAt
    rw [show notesAmong calls order = allNotes (fedBy calls order) from rfl, m2,
      ← List.range_eq_range']
  refine ⟨m, J, fun ch hc => (m1 ch (Nat.zero_le _) (by omega)).2, fun t ht hm => ?_⟩
  obtain ⟨pool, hi, e⟩ := exportSong_ok (cutAt (look 0) look m) t ht _ (bpm_pos t ht hm)
    (fun ch hc n hn => fed_xrns_name calls order ch n (among_cut calls order at_ m _ ch hc n hn))
  refine ⟨_, (hsong t).trans (by rw [e]), by simp; rfl, ?_⟩
  intro p c r hc hr notes
  have hno : (cutAt (look 0) look m).keyPressesOf c = notes := cutAt_notes _ _ _ _ hc
  unfold columnsAt
  rw [linesOf_render, find_lookup, lookup_track hi p c r hc hr, hno]
  constructor
  · rw [Option.map_eq_none_iff, Option.map_eq_none_iff, List.getLast?_eq_none_iff]
    unfold onRow
    rw [List.filter_eq_nil_iff]
    simp
  · intro n hn
    rw [hn]
    refine ⟨_, rfl, ?_⟩
    have hmem : n ∈ (fedBy calls order).keyPressesOf c :=
      ((among_end calls order _).2 c).subset (List.mem_filter.mp (List.mem_of_getLast? hn)).1
    obtain ⟨name, hname⟩ := fed_xrns_name calls order c n hmem
    exact lineOf_shows n name hname (fed_note calls order c n hmem).1

/-- C127. The instruments file that is written while several threads feed the state is that of some
moment during its writing, and reads back as the instruments of that moment. -/
theorem c127_instruments (calls : List (List Event)) (order : List Nat) (at_ : Nat → Nat)
    (ho : InOrder at_) :
    let look := looksAmong calls order at_
    ∃ m J text, m < J ∧ instrumentsLive look (fedBy calls order).configs.length = (.ok text, J) ∧
      readInstrumentFile text = some ((look m).configs.map fun c =>
        (c.id, ⟨c.base, c.channel, c.operators⟩)) := by
  intro look
  obtain ⟨m, J, mJ, e⟩ := instr_cut_of (look := look)
    (fun i j hij => (among_grows calls order (ho i j hij)).1)
    (fedBy calls order).configs.length (fun i => (among_end calls order (at_ i)).1.length_le)
  obtain ⟨text, _, h1, _, _, h3, _⟩ :=
    instrumentsText_good { look 0 with configs := (look m).configs }
      (fun c hc => by
        obtain ⟨a, b, d⟩ := (fed_sound calls order).instr c ((among_end calls order _).1.subset hc)
        exact ⟨a, b, d⟩)
  exact ⟨m, J, text, mJ, e.trans (by rw [h1]), h3⟩

/-- C127. Who writes the instruments after the tracks gets files that fit: at the number of the
instrument of every note in the tracks there is an instrument in the file, the one that is there in the
end. -/
theorem c127_fit (calls : List (List Event)) (order : List Nat) (at_ later : Nat → Nat)
    (hl : InOrder later) (m : Nat → Nat) (hle : ∀ ch < 8, at_ (m ch) ≤ later 0) :
    ∃ text l J, instrumentsLive (looksAmong calls order later) (fedBy calls order).configs.length =
        (.ok text, J) ∧ readInstrumentFile text = some l ∧
      ∀ ch < 8, ∀ n ∈ (cutAt (fedBy calls order) (looksAmong calls order at_) m).keyPressesOf ch,
        n.configId = -1 ∨ ∃ (k : Nat) (c : Config), n.configId = k ∧
          (fedBy calls order).configs[k]? = some c ∧
          l[k]? = some (c.id, ⟨c.base, c.channel, c.operators⟩) := by
  obtain ⟨m', J, text, _, e1, e2⟩ := c127_instruments calls order later hl
  refine ⟨text, _, J, e1, e2, fun ch hc n hn => ?_⟩
  rw [cutAt_notes _ _ _ _ hc] at hn
  obtain ⟨h1, h2, _⟩ := fed_note calls (order.take (at_ (m ch))) ch n hn
  by_cases h0 : n.configId = -1
  · exact .inl h0
  · obtain ⟨k, hk⟩ : ∃ k : Nat, n.configId = k := ⟨n.configId.toNat, by omega⟩
    have hk2 : k < (fedBy calls (order.take (at_ (m ch)))).configs.length := by omega
    have g1 := (among_grows calls order (Nat.le_trans (hle ch hc) (hl 0 m' (Nat.zero_le _)))).1
    have h3 : (fedBy calls (order.take (later m'))).configs[k]? =
        some (fedBy calls (order.take (at_ (m ch)))).configs[k] :=
      List.prefix_iff_getElem?.mp g1 k hk2
    have hk3 := (List.getElem?_eq_some_iff.mp h3).1
    have h4 := List.prefix_iff_getElem?.mp (among_end calls order (later m')).1 k hk3
    refine .inr ⟨k, _, hk, h4, ?_⟩
    show (List.map _ (fedBy calls (order.take (later m'))).configs)[k]? = _
    rw [List.getElem?_map, List.getElem?_eq_getElem hk3]
    rfl

/-- Two threads that feed, and an export that begins when one note is there and sees the other in its
course. -/
example :
    let calls : List (List Event) := [[.wait 5, .write 8 0x78], [.wait 3000, .write 8 0x79]]
    let order := steps 0 93 ++ steps 1 93
    let at_ : Nat → Nat := fun i => 93 + 31 * i
    let look := looksAmong calls order at_
    ((look 0).keyPressesOf 0).length = 1 ∧ ((look 1).keyPressesOf 1).length = 0 ∧
    ((look 9).keyPressesOf 1).length = 1 ∧ notesAmong calls order = 2 ∧
    allOver ((Feeders.start calls).after order) = true ∧ (calls.map time).sum = 3005 := by
  decide +kernel

end VgmX
