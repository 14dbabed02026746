import Verif.Spec.EndToEnd
import Verif.Props.Main
import Verif.Props.Csv
/-
From the bytes of the input file to the cells of the track file (C64), and agreement of the
two track exports (C65).
-/

namespace VgmX
open Spec

theorem shownPitch_eq (octave note : Nat) (hn : note ≤ 15) : shownPitch octave note =
    12 * octave + (if note = 15 then 1 else if note % 4 = 3 ∧ note ≠ 11 then note - note / 4
          else 1 + (note - note / 4)) := by
  unfold shownPitch keyCodePitch
  split
  · omega
  · split
    · subst note; rfl
    · split
      · rw [if_pos ⟨by assumption, by assumption⟩]; omega
      · rw [if_neg (by omega)]; omega

theorem mem_recorded {h : List Event} {e : KeyEvent} (he : e ∈ recorded h) : e ∈ keyEvents h := by
  unfold recorded at he
  obtain ⟨i, _, hi⟩ := List.mem_filterMap.mp he
  split at hi
  · exact List.mem_of_getElem? hi
  · cases hi

theorem shows_event (h : List Event) (e : KeyEvent) (he : e ∈ recorded h)
    (col : DaoNoteColumn) (hs : Shows col (noteOf h e)) : ShowsEvent h e col := by
  obtain ⟨j, v, hj, rfl⟩ := (mem_keyEvents h e).mp (mem_recorded he)
  have hkc : (noteOf h (keyEventAt (h.take j) v)).note ≤ 15 := by
    simp only [noteOf, keyEventAt, noteConfig]; omega
  refine ⟨?_, ?_, hs.panning⟩
  · intro hoff
    have hid : (noteOf h (keyEventAt (h.take j) v)).configId = -1 := by
      simp only [noteOf]; rw [if_neg hoff]
    have h1 := hs.note
    have h2 := hs.instrument
    rw [if_pos hid] at h2
    unfold Note.xrnsNote at h1
    rw [if_pos (by omega)] at h1
    exact ⟨(Except.ok.inj h1).symm, h2⟩
  · intro hon
    have hid : (noteOf h (keyEventAt (h.take j) v)).configId =
        ((instruments h).idxOf (keyEventAt (h.take j) v).patch : Nat) := by
      simp only [noteOf]; rw [if_pos hon]
    obtain ⟨s, h1, h2⟩ := xrns_pitch (noteOf h (keyEventAt (h.take j) v)) (by omega) hkc
    rw [hs.note] at h1
    cases h1
    refine ⟨?_, ?_⟩
    · rw [h2]
      rw [shownPitch_eq _ _ (by exact hkc)]
      rfl
    · have h3 := hs.instrument
      rw [if_neg (by omega)] at h3
      obtain ⟨s, e1, e2, _⟩ := h3
      refine ⟨s, _, e1, e2, ?_⟩
      rw [hid, Int.toNat_natCast]
      have hmem : (keyEventAt (h.take j) v).patch ∈ instruments h :=
        (mem_instruments h _).mpr ⟨_, mem_recorded he, hon, rfl⟩
      exact List.getElem?_idxOf hmem

theorem presses_events (h : List Event) (hb : ByteHistory h) (c : Nat) (hc : c < 8) (t row : Nat) :
    onRow ((run h).keyPressesOf c) t row = (eventsAt h t c row).map (noteOf h) := by
  rw [c22_key_presses h hb c hc]
  unfold onRow eventsAt
  rw [List.filter_map, List.filter_filter]
  congr 1
  apply List.filter_congr
  intro e _
  rw [Bool.eq_iff_iff]
  simp only [Function.comp_apply, Bool.and_eq_true, decide_eq_true_eq]
  show e.time / t = row ∧ e.ch = c ↔ _
  constructor
  · rintro ⟨h1, h2⟩; exact ⟨h2, by exact_mod_cast h1⟩
  · rintro ⟨h1, h2⟩; exact ⟨by exact_mod_cast h2, h1⟩

/-- C64. Whenever a song is exported, for whatever ticks-per-note, it tells what happened on
the chip. -/
theorem c64_song (h : List Event) (hb : ByteHistory h) (t : Int) (d : DaoSong)
    (hd : exportXrns (run h) t = .ok d) : Tells h t d := by
  intro p c r hc hr
  rcases lt_trichotomy t 0 with ht | ht | ht
  · obtain ⟨k, rfl⟩ : ∃ k : Nat, t = -(k : Int) := ⟨t.natAbs, by omega⟩
    by_cases hm : k < maxTicks
    · obtain ⟨h1, h2⟩ := c44_negative h hb k (by omega) hm
      have hnone : ∀ c < 8, (run h).keyPressesOf c = [] := by
        intro c hc
        by_contra hne
        rw [h1.mpr ⟨c, hc, hne⟩] at hd
        cases hd
      obtain ⟨d', e, hp, _⟩ := h2 hnone
      rw [hd] at e
      cases e
      have hev : eventsAt h (-(k : Int)) c (64 * p + r) = [] := by
        have := hnone c hc
        rw [c22_key_presses h hb c hc, List.map_eq_nil_iff, List.filter_eq_nil_iff] at this
        unfold eventsAt
        rw [List.filter_eq_nil_iff]
        intro e he
        have := this e he
        simp only [decide_eq_true_eq] at this ⊢
        exact fun hh => this hh.1
      rw [hev]
      refine ⟨⟨fun _ => rfl, fun _ => ?_⟩, ?_⟩
      · simp [columnsAt, linesOf, hp]
      · intro e he; cases he
    · rw [(c44_other (run h) k (by omega)).2.2] at hd; cases hd
  · subst ht
    obtain ⟨k, hk⟩ : ∃ k, maxTicks ≤ k := ⟨_, le_refl _⟩
    rw [(c44_other (run h) k hk).1] at hd; cases hd
  · obtain ⟨k, rfl⟩ : ∃ k : Nat, t = (k : Int) := ⟨t.natAbs, by omega⟩
    by_cases hm : k < maxTicks
    · obtain ⟨d', e, hcell⟩ := c36_cells h hb k (by omega) hm
      rw [hd] at e
      cases e
      obtain ⟨h1, h2⟩ := hcell p c r hc hr
      have hrow := presses_events h hb c hc k (64 * p + r)
      constructor
      · rw [h1]
        have : (∀ n ∈ (run h).keyPressesOf c, n.sample / k ≠ 64 * p + r) ↔
            onRow ((run h).keyPressesOf c) k (64 * p + r) = [] := by
          unfold onRow; rw [List.filter_eq_nil_iff]; simp
        rw [this, hrow, List.map_eq_nil_iff]
      · intro e he
        have hn : (onRow ((run h).keyPressesOf c) k (64 * p + r)).getLast? = some (noteOf h e) := by
          rw [hrow, List.getLast?_map, he]; rfl
        obtain ⟨col, hcol, hsh⟩ := h2 _ hn
        refine ⟨col, hcol, shows_event h e ?_ col hsh⟩
        exact (List.mem_filter.mp (List.mem_of_getLast? he)).1
    · rw [(c44_other (run h) k (by omega)).2.1] at hd; cases hd

/-- C64. Whenever the program returns and was asked for a track file: the input is a readable
VGM file, and the track file reads as a song that tells what the register writes of the input
did. (For songs whose XML document is below two gigabytes.) -/
theorem c64_track_file (env : Env) (vgm instr : Option Str) (tr : Str) (ticks : Option Int)
    (w : World) (hc : ClockReading env.now) (htr : tr ≠ [])
    (hok : (main env vgm instr (some tr) ticks w).1 = .ok ()) :
    ∃ v content cs t d bt, vgm = some v ∧ w.fs v = some content ∧
      Readable env.gunzip content cs ∧ TicksInUse ticks (run (history cs)).ticksPerNote t ∧
      (main env vgm instr (some tr) ticks w).2.fs tr = some bt ∧
      ((songXml d).length < maxDocument → readSongFile bt = some d) ∧
      Tells (history cs) t d := by
  by_cases h : ∃ name content cs, vgm = some name ∧ Proper name ∧ env.openErr name false = none ∧
      w.fs name = some content ∧ env.argsFile ≠ none ∧ Readable env.gunzip content cs
  swap
  · exfalso
    obtain ⟨e, s, hall⟩ := main_unreadable env vgm instr (some tr) ticks w.fs (by
      intro name content cs h1 h2 h3 h4 h5 h6
      exact h ⟨name, content, cs, h1, h2, h3, h4, h5, h6⟩)
    rw [(hall w (fun _ _ => rfl)).result] at hok
    cases hok
  obtain ⟨v, content, cs, rfl, h2, h3, h4, h5, h6⟩ := h
  obtain ⟨a, ha⟩ := Option.ne_none_iff_exists'.mp h5
  obtain ⟨hb, t, text, ht, htext, hall⟩ :=
    main_readable env v instr (some tr) ticks content cs a h2 h3 ha h6
  have hd := hall w h4
  have hres := hd.result
  rw [hok] at hres
  have hfs := hd.fs
  obtain ⟨ups, out, hie⟩ : ∃ ups out, instrEffect env instr text = (.ok (), ups, out) := by
    unfold bothEffect at hres
    generalize instrEffect env instr text = x at hres
    obtain ⟨r, ups, out⟩ := x
    cases r with
    | ok u => exact ⟨ups, out, rfl⟩
    | error e => simp at hres
  rw [hie] at hres hfs
  simp only [bothEffect] at hres hfs
  obtain ⟨d, bt, hd1, hd2, hte⟩ : ∃ d bt, exportXrns (run (history cs)) t = .ok d ∧
      writeSong env.zip64 env.now d = (.ok (), bt) ∧
      (trackEffect env (some tr) (exportXrns (run (history cs)) t)).2.1 = [(tr, bt)] := by
    cases tr with
    | nil => exact absurd rfl htr
    | cons c cs' =>
      cases hx : exportXrns (run (history cs)) t with
      | error e => rw [hx] at hres; simp [trackEffect] at hres
      | ok d =>
        rw [hx] at hres
        simp only [trackEffect] at hres ⊢
        cases ho : env.openErr (c :: cs') true with
        | some e => rw [ho] at hres; simp at hres
        | none =>
          rw [ho] at hres
          simp only at hres ⊢
          refine ⟨d, (writeSong env.zip64 env.now d).2, rfl, ?_, rfl⟩
          exact Prod.ext hres.symm rfl
  rw [hte] at hfs
  refine ⟨v, content, cs, t, d, bt, rfl, h4, h6, ht, ?_, ?_, c64_song _ hb t d hd1⟩
  · rw [hfs]
    simp [writeFiles]
  · intro hs
    have h := c63_either env.zip64 env.now hc _ t d hd1 hs
    rw [hd2] at h
    rcases h with ⟨_, _, h⟩ | ⟨⟨e, h⟩, _⟩
    · exact h
    · cases h

/-! ### C65 -/

theorem dropWhile_ne {p : Char → Bool} {a : Char} {s rest : Str} (hs : ∀ c ∈ s, p c = true)
    (ha : p a = false) : (s ++ a :: rest).dropWhile p = a :: rest := by
  rw [List.dropWhile_append_of_pos hs, List.dropWhile_cons_of_neg (by simp [ha])]

theorem intStr_chars (z : Int) : ∀ c ∈ intStr z, c = '-' ∨ isDec c = true := by
  intro c hc
  cases z with
  | ofNat n => exact .inr (natStr_dec n c hc)
  | negSucc n =>
    rcases List.mem_cons.mp hc with hc | hc
    · exact .inl hc
    · exact .inr (natStr_dec _ c hc)

theorem kfText_chars (k : Nat) : ∀ c ∈ kfText k, c = '-' ∨ isDec c = true := by
  intro c hc
  unfold kfText at hc
  split at hc
  · simp only [List.mem_cons] at hc
    rcases hc with hc | hc
    · exact .inl hc
    · unfold padLeft at hc
      rcases List.mem_append.mp hc with hc | hc
      · rw [List.mem_replicate] at hc; rw [hc.2]; exact .inr (by decide)
      · generalize roundHalfEven (roundDouble ((k : Rat) * roundDouble (16 / 10))) = z at hc
        exact intStr_chars z c hc
  · cases hc

theorem noteLookup_both (k : Nat) (hk : k ≤ 15) : ∃ l a, noteLookup k = .ok [l, a] ∧
    noteLookupXrns k = .ok [l, if a = ' ' then '-' else '#'] ∧ (a = ' ' ∨ a = '#' ∨ a = '?') ∧
    l ≠ '[' ∧ l ≠ ']' ∧ ([l, a] = ['C', ' '] ↔ k = 14) := by
  have hc : k = 0 ∨ k = 1 ∨ k = 2 ∨ k = 3 ∨ k = 4 ∨ k = 5 ∨ k = 6 ∨ k = 7 ∨ k = 8 ∨ k = 9 ∨
    k = 10 ∨ k = 11 ∨ k = 12 ∨ k = 13 ∨ k = 14 ∨ k = 15 := by omega
  rcases hc with rfl | rfl | rfl | rfl | rfl | rfl | rfl | rfl | rfl | rfl | rfl | rfl | rfl |
    rfl | rfl | rfl <;> exact ⟨_, _, rfl, rfl, by decide, by decide, by decide, by decide⟩

theorem same_note (n : Note) (hid : 0 ≤ n.configId) (hn : n.note ≤ 15) (cell : Str)
    (hcell : n.str = .ok cell) (col : DaoNoteColumn) (hs : Shows col n) : SameNote cell col := by
  obtain ⟨l, a, h1, h2, ha, hl1, hl2, h14⟩ := noteLookup_both n.note hn
  have e1 : n.str = .ok (l :: a :: '-' :: (natStr n.octave ++ (kfText n.keyFraction ++
      (' ' :: '[' :: (natStr n.configId.toNat ++ (']' :: ' ' :: panText n.right n.left)))))) := by
    obtain ⟨l', a', e, _, h⟩ := str_on n hid hn
    rw [h1] at e
    cases e
    exact h
  rw [hcell] at e1
  have e1 := Except.ok.inj e1
  have e2 := hs.note
  unfold Note.xrnsNote at e2
  rw [if_neg (by omega), h2] at e2
  have e2 : [l, if a = ' ' then '-' else '#'] ++
    natStr (if n.note = 14 then n.octave + 1 else n.octave) = col.note := Except.ok.inj e2
  have htake : cell.take 2 = [l, a] := by rw [e1]; rfl
  have hdec : ∀ c, isDec c = true → c ≠ '[' ∧ c ≠ ']' := by
    intro c hc
    constructor <;> (rintro rfl; revert hc; decide)
  have hpre : ∀ c ∈ l :: a :: '-' :: (natStr n.octave ++ (kfText n.keyFraction ++ [' '])),
      c ≠ '[' ∧ c ≠ ']' := by
    intro c hc
    simp only [List.mem_cons, List.mem_append, List.not_mem_nil, or_false] at hc
    rcases hc with rfl | rfl | rfl | hc | hc | rfl
    · exact ⟨hl1, hl2⟩
    · rcases ha with rfl | rfl | rfl <;> decide
    · decide
    · exact hdec c (natStr_dec _ c hc)
    · rcases kfText_chars _ c hc with rfl | hc
      · decide
      · exact hdec c hc
    · decide
  refine ⟨⟨l, a, htake, ha, ?_⟩, ⟨n.octave, ?_, ?_⟩, ?_, ?_⟩
  · rw [← e2]; rfl
  · rw [e1]
    unfold octaveOfCsv
    simp only [List.drop_succ_cons, List.drop_zero]
    rw [takeWhile_dec (natStr_dec _) (kfText_head _ _), readBase_natStr]
  · rw [← e2, htake]
    unfold octaveOfName
    simp only [List.cons_append, List.nil_append, List.drop_succ_cons, List.drop_zero]
    rw [readBase_natStr]
    simp only [h14]
  · have hi := hs.instrument
    rw [if_neg (by omega)] at hi
    obtain ⟨s, h3, h4, _⟩ := hi
    refine ⟨n.configId.toNat, s, ?_, h3, h4⟩
    have : cell = (l :: a :: '-' :: (natStr n.octave ++ (kfText n.keyFraction ++ [' ']))) ++
        '[' :: (natStr n.configId.toNat ++ (']' :: ' ' :: panText n.right n.left)) := by
      rw [e1]; simp
    rw [this]
    unfold instrumentOfCsv
    rw [dropWhile_ne (fun c hc => by simpa using (hpre c hc).1) (by decide)]
    simp only [List.drop_succ_cons, List.drop_zero]
    rw [takeWhile_dec (natStr_dec _) (by intro c hc; simp at hc; subst hc; decide), readBase_natStr]
  · have : cell = (l :: a :: '-' :: (natStr n.octave ++ (kfText n.keyFraction ++ [' '])) ++
        '[' :: natStr n.configId.toNat) ++ ']' :: (' ' :: panText n.right n.left) := by
      rw [e1]; simp
    rw [this]
    unfold panningOfCsv
    rw [dropWhile_ne ?_ (by decide)]
    · simp only [List.drop_succ_cons, List.drop_zero]
      rw [hs.panning]
      cases n.left <;> cases n.right <;> decide
    · intro c hc
      rcases List.mem_append.mp hc with hc | hc
      · simpa using (hpre c hc).2
      · rcases List.mem_cons.mp hc with rfl | hc
        · decide
        · simpa using (hdec c (natStr_dec _ c hc)).2

/-- C65. The CSV export and the song export agree: for every row the CSV has, its cell is
empty iff the song's is; it is `Key Off` iff the song has `Off`, and otherwise both show the
same note. -/
theorem c65_agree (h : List Event) (hb : ByteHistory h) (t : Nat) (ht : 0 < t)
    (hm : t < maxTicks) (hT : time h < 2 ^ 1023) :
    ∃ d out table, exportXrns (run h) t = .ok d ∧ extractTracks (run h) t = some (out, none) ∧
      csvTable out.flatten = some (headerFields :: table) ∧
      ∀ (r : Nat) (fields : List Str), table[r]? = some fields → ∀ c < 8,
        ∃ cell, fields[5 + c]? = some cell ∧
          ((cell = [] ∧ columnsAt d (r / 64) c (r % 64) = none) ∨
            ∃ col, columnsAt d (r / 64) c (r % 64) = some [col] ∧
              ((cell = ['K', 'e', 'y', ' ', 'O', 'f', 'f'] ∧ col.note = ['O', 'f', 'f'] ∧
                  col.instrument = none) ∨
                SameNote cell col)) := by
  obtain ⟨d, hd, hcells⟩ := c36_cells h hb t ht hm
  obtain ⟨out, table, h1, h2, h3⟩ := c46_cells h hb t ht hT
  refine ⟨d, out, table, hd, h1, h2, ?_⟩
  intro r fields hf c hc
  obtain ⟨cell, hcell, hempty, hsome⟩ := h3 r fields hf c hc
  obtain ⟨xempty, xsome⟩ := hcells (r / 64) c (r % 64) hc (by omega)
  rw [show 64 * (r / 64) + r % 64 = r by omega] at xempty xsome
  refine ⟨cell, hcell, ?_⟩
  cases hl : (onRow ((run h).keyPressesOf c) t r).getLast? with
  | none =>
    left
    have : ∀ n ∈ (run h).keyPressesOf c, n.sample / t ≠ r := by
      rw [List.getLast?_eq_none_iff] at hl
      unfold onRow at hl
      rw [List.filter_eq_nil_iff] at hl
      simpa using hl
    exact ⟨hempty.mpr this, xempty.mpr this⟩
  | some n =>
    right
    obtain ⟨col, hcol, hsh⟩ := xsome n hl
    refine ⟨col, hcol, ?_⟩
    have hstr := hsome n hl
    have hmem : n ∈ (run h).keyPressesOf c := (List.mem_filter.mp (List.mem_of_getLast? hl)).1
    obtain ⟨_, hnote, _, hid, _⟩ := (c25_ranges h hb).2.2.2 c hc n hmem
    by_cases h0 : n.configId = -1
    · left
      have h4 := hsh.note
      have h5 := hsh.instrument
      rw [if_pos h0] at h5
      unfold Note.xrnsNote at h4
      unfold Note.str at hstr
      rw [if_pos (by omega)] at h4 hstr
      exact ⟨(Except.ok.inj hstr).symm, (Except.ok.inj h4).symm, h5⟩
    · right
      exact same_note n (by omega) hnote cell hstr col hsh

/-- The two forms exclude each other. -/
theorem c65_exclusive (cell : Str) (col : DaoNoteColumn) (hs : SameNote cell col) :
    cell ≠ ['K', 'e', 'y', ' ', 'O', 'f', 'f'] ∧ col.note ≠ ['O', 'f', 'f'] ∧ cell ≠ [] := by
  obtain ⟨l, a, h1, h2, h3⟩ := hs.name
  refine ⟨?_, ?_, ?_⟩
  · rintro rfl
    simp at h1
    rcases h2 with h | h | h <;> rw [h] at h1 <;> exact absurd h1.2 (by decide)
  · intro e
    rw [e] at h3
    simp only [List.take, List.cons.injEq, and_true] at h3
    have := h3.2
    split at this <;> exact absurd this (by decide)
  · rintro rfl; cases h1

/-! The sample meets the hypotheses, and rows 2 and 3 have events. -/

example : (eventsAt sample 50 1 2).length = 1 ∧ (eventsAt sample 50 1 3).length = 2 := by
  decide +kernel

example : ByteHistory sample ∧ 50 < maxTicks ∧ time sample < 2 ^ 1023 := by
  refine ⟨by decide +kernel, by decide +kernel, ?_⟩
  have : time sample = 157 := by decide +kernel
  rw [this]
  calc 157 < 2 ^ 8 := by decide
    _ ≤ 2 ^ 1023 := Nat.pow_le_pow_right (by decide) (by decide)

/-- C64 applies to the sample: the program's track file tells what its register writes did. -/
example : ∃ d bt, (main sampleEnv (some "in.vgm".toList) (some "i".toList) (some "t".toList)
      (some 50) sampleWorld).2.fs "t".toList = some bt ∧
    ((songXml d).length < maxDocument → readSongFile bt = some d) ∧ ∃ cs t, Tells (history cs) t d := by
  obtain ⟨_, _, cs, t, d, bt, _, _, _, _, h1, h2, h3⟩ := c64_track_file sampleEnv
    (some "in.vgm".toList) (some "i".toList) "t".toList (some 50) sampleWorld exampleNow_clock.1
    (by decide) sample_runs.1
  exact ⟨d, bt, h1, h2, cs, t, h3⟩

end VgmX
