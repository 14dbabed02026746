import Verif.Spec.Alike
import Verif.Props.EndToEnd
/-
Properties C76-C78: inputs that differ in ways that should not matter, or should matter in a
known way only. Vocabulary: Spec/Alike.lean.
-/

namespace VgmX
open Spec

/-! ### C76: the key events decide -/

theorem alike_ticks {h h' : List Event} (hb : ByteHistory h) (hb' : ByteHistory h')
    (g : Nat → Nat) (hg : ∀ a b, a < b → g a < g b)
    (hk : ∀ t, (∃ e ∈ keyEvents h', e.isOn ∧ e.time = t) ↔ ∃ e ∈ keyEvents h, e.isOn ∧ g e.time = t) :
    (run h').ticks = (run h).ticks.map g := by
  have hmem : ∀ (h : List Event), ByteHistory h → ∀ t, t ∈ (run h).ticks ↔
      ∃ e ∈ keyEvents h, e.isOn ∧ e.time = t := by
    intro h hb t
    have hperm := pySorted_perm (fun a b => decide (a < b)) (run h).noteBeats
    have : t ∈ (run h).ticks ↔ t ∈ (run h).noteBeats := hperm.mem_iff
    rw [this, (inv_run h hb).beats]
  apply sorted_ext _ _ (c23_ticks h' hb').1
  · rw [List.pairwise_map]
    exact (c23_ticks h hb).1.imp (fun h => hg _ _ h)
  · intro t
    rw [hmem h' hb', hk, List.mem_map]
    constructor
    · rintro ⟨e, he, ho, rfl⟩
      exact ⟨e.time, (hmem h hb _).mpr ⟨e, he, ho, rfl⟩, rfl⟩
    · rintro ⟨u, hu, rfl⟩
      obtain ⟨e, he, ho, rfl⟩ := (hmem h hb _).mp hu
      exact ⟨e, he, ho, rfl⟩

/-- C76. Two histories with the same key events (time, channel, settings of the chip) have the
same instruments, notes and ticks. -/
theorem c76_key_events (h h' : List Event) (hb : ByteHistory h) (hb' : ByteHistory h')
    (hk : keyEvents h' = keyEvents h) :
    (run h').configs = (run h).configs ∧
    (∀ c < 8, (run h').keyPressesOf c = (run h).keyPressesOf c) ∧
    (run h').ticks = (run h).ticks := by
  refine ⟨?_, ?_, ?_⟩
  · rw [configs_run h hb, configs_run h' hb', instruments_congr hk]
  · intro c hc
    rw [keyPresses_run h hb c hc, keyPresses_run h' hb' c hc, keyPresses_congr hk]
  · rw [alike_ticks hb hb' id (fun _ _ h => h) (by intro t; rw [hk]; rfl), List.map_id]

/-- The key events in terms of the timed writes. -/
def keyEventsOf (w : List (Nat × Nat × Nat)) : List KeyEvent :=
  (List.range w.length).filterMap fun i =>
    match w[i]? with
    | some (t, r, v) =>
      if r = 8 then
        some { keyEventAt ((w.take i).map (fun x => .write x.2.1 x.2.2)) v with time := t }
      else none
    | none => none

theorem keyEventsOf_snoc (w : List (Nat × Nat × Nat)) (t r v : Nat) :
    keyEventsOf (w ++ [(t, r, v)]) = keyEventsOf w ++
      (if r = 8 then [{ keyEventAt (w.map (fun x => .write x.2.1 x.2.2)) v with time := t }]
       else []) := by
  unfold keyEventsOf
  rw [List.length_append, List.length_singleton, List.range_succ, List.filterMap_append]
  congr 1
  · apply filterMap_congr'
    intro i hi
    rw [List.mem_range] at hi
    rw [List.getElem?_append_left hi, List.take_append_of_le_length (by omega)]
  · by_cases h8 : r = 8 <;> simp [h8]

theorem timedWrites_snoc (h : List Event) (e : Event) (now : Nat) :
    timedWrites now (h ++ [e]) = timedWrites now h ++
      (match e with
       | .write r v => [(now + time h, r, v)]
       | .wait _ => []) := by
  induction h generalizing now with
  | nil => cases e <;> simp [timedWrites, time]
  | cons x h ih =>
    cases x with
    | wait n =>
      simp only [List.cons_append, timedWrites, ih]
      cases e <;> simp [time, Nat.add_assoc]
    | write r v =>
      simp only [List.cons_append, timedWrites, ih]
      cases e <;> simp [time]

theorem keyEventAt_congr {p q : List Event} (hw : ∀ r f, writesTo p r f = writesTo q r f) (v : Nat) :
    keyEventAt p v = { keyEventAt q v with time := time p } := by
  have hr : ∀ r, regVal p r = regVal q r := fun r => by simp only [regVal, hw]
  simp only [keyEventAt, Spec.base, Spec.channel, channelWith, operatorWith, noteConfig, hr, hw]

theorem writesTo_timed (h : List Event) (r : Nat) (f : Nat → Bool) :
    writesTo h r f = writesTo ((timedWrites 0 h).map (fun x => .write x.2.1 x.2.2)) r f := by
  generalize 0 = now
  induction h generalizing now with
  | nil => rfl
  | cons x h ih =>
    cases x with
    | wait n => simpa [timedWrites, writesTo] using ih (now + n)
    | write q v =>
      have := ih now
      simp only [writesTo] at this
      simp only [timedWrites, writesTo, List.map_cons, List.filterMap_cons, this]

theorem keyEvents_timed (h : List Event) : keyEvents h = keyEventsOf (timedWrites 0 h) := by
  induction h using list_snoc_ind with
  | nil => rfl
  | snoc h e ih =>
    rw [keyEvents_snoc, timedWrites_snoc, ih]
    cases e with
    | wait n => simp
    | write r v =>
      simp only [keyEventsOf_snoc]
      by_cases h8 : r = 8
      · simp only [h8, if_true, Nat.zero_add]
        rw [keyEventAt_congr (writesTo_timed h) v]
      · simp [h8]

/-- C76. How the waits are encoded or split, what comes between the register writes, and how
long the recording goes on after the last one, has no effect: two histories with the same
register writes at the same times have the same instruments, notes and ticks. -/
theorem c76_timed_writes (h h' : List Event) (hb : ByteHistory h) (hb' : ByteHistory h')
    (hw : timedWrites 0 h' = timedWrites 0 h) :
    (run h').configs = (run h).configs ∧
    (∀ c < 8, (run h').keyPressesOf c = (run h).keyPressesOf c) ∧
    (run h').ticks = (run h).ticks :=
  c76_key_events h h' hb hb' (by rw [keyEvents_timed h', hw, ← keyEvents_timed h])

theorem forExcept_congr {α β : Type} {f g : β → α → Except PyErr β} {l : List α}
    (h : ∀ a ∈ l, ∀ b, f b a = g b a) (b : β) : forExcept f b l = forExcept g b l := by
  induction l generalizing b with
  | nil => rfl
  | cons a l ih =>
    unfold forExcept
    rw [h a (by simp) b]
    cases g b a with
    | error e => rfl
    | ok b' => exact ih (fun x hx => h x (by simp [hx])) b'

theorem exportXrns_congr {s s' : State} (h1 : s'.configs = s.configs)
    (h2 : ∀ c < 8, s'.keyPressesOf c = s.keyPressesOf c) (t : Int) :
    exportXrns s' t = exportXrns s t := by
  have : exportSong s' t = exportSong s t := by
    unfold exportSong
    rw [h1]
    cases bpmOf t with
    | error e => rfl
    | ok bpm =>
      simp only
      rw [forExcept_congr (g := fun pool ch =>
        forExcept (exportNote t ch) pool (s.keyPressesOf ch))]
      intro c hc b
      rw [h2 c (List.mem_range.mp hc)]
  unfold exportXrns
  rw [this]

theorem estimates_congr {s s' : State} (h : s'.ticks = s.ticks) : s'.estimates = s.estimates := by
  unfold State.estimates
  rw [h]

theorem ticksPerNote_congr {s s' : State} (h : s'.ticks = s.ticks) :
    s'.ticksPerNote = s.ticksPerNote := by
  unfold State.ticksPerNote
  rw [estimates_congr h]

theorem ticksReport_congr {s s' : State} (h : s'.ticks = s.ticks) :
    s'.ticksReport = s.ticksReport := by
  unfold State.ticksReport
  rw [estimates_congr h]

theorem extractTracks_congr {s s' : State}
    (h : ∀ c < 8, s'.keyPressesOf c = s.keyPressesOf c) (t : Int) :
    extractTracks s' t = extractTracks s t := by
  unfold extractTracks
  rw [List.map_congr_left (g := fun ch => (s.keyPressesOf ch).length)
      (fun c hc => by rw [h c (List.mem_range.mp hc)]),
    List.map_congr_left (g := fun ch => Slot.take (s.keyPressesOf ch))
      (fun c hc => by rw [h c (List.mem_range.mp hc)])]

/-- Two histories with the same key events give the same song, CSV table, instrument file and
tempo estimate, for every ticks-per-note. -/
theorem alike_exports (h h' : List Event) (hb : ByteHistory h) (hb' : ByteHistory h')
    (hk : keyEvents h' = keyEvents h) :
    (∀ t, exportXrns (run h') t = exportXrns (run h) t) ∧
    (∀ t, extractTracks (run h') t = extractTracks (run h) t) ∧
    instrumentsText (run h') = instrumentsText (run h) ∧
    (run h').ticksPerNote = (run h).ticksPerNote := by
  obtain ⟨e1, e2, e3⟩ := c76_key_events h h' hb hb' hk
  refine ⟨exportXrns_congr e1 e2, extractTracks_congr e2, ?_, ticksPerNote_congr e3⟩
  unfold instrumentsText instrumentsJs
  rw [e1]

/-- C76, for the exporters: the same song, the same CSV table, the same instrument file, the
same tempo estimate, for every ticks-per-note. -/
theorem c76_exports (h h' : List Event) (hb : ByteHistory h) (hb' : ByteHistory h')
    (hw : timedWrites 0 h' = timedWrites 0 h) :
    (∀ t, exportXrns (run h') t = exportXrns (run h) t) ∧
    (∀ t, extractTracks (run h') t = extractTracks (run h) t) ∧
    instrumentsText (run h') = instrumentsText (run h) ∧
    (run h').ticksPerNote = (run h).ticksPerNote :=
  alike_exports h h' hb hb' (by rw [keyEvents_timed h', hw, ← keyEvents_timed h])

/-- The program on two readable input files with the same key events. -/
theorem alike_program (env : Env) (vgm : Str) (instr track : Option Str) (ticks : Option Int)
    (w w' : World) (content content' : Bytes) (cs cs' : List Cmd) (hn : vgm ≠ [] ∧ vgm ≠ ['-'])
    (ho : env.openErr vgm false = none) (ha : env.argsFile ≠ none)
    (hc : w.fs vgm = some content) (hc' : w'.fs vgm = some content')
    (hr : Readable env.gunzip content cs) (hr' : Readable env.gunzip content' cs')
    (hk : keyEvents (history cs') = keyEvents (history cs)) :
    let x := main env (some vgm) instr track ticks w
    let x' := main env (some vgm) instr track ticks w'
    x'.1 = x.1 ∧
    (∃ out, x.2.stdout = w.stdout ++ out ∧ x'.2.stdout = w'.stdout ++ out) ∧
    ∀ n, w'.fs n = w.fs n → x'.2.fs n = x.2.fs n := by
  obtain ⟨a, ha⟩ := Option.ne_none_iff_exists'.mp ha
  obtain ⟨hb, t, text, ht, htext, hall⟩ :=
    main_readable env vgm instr track ticks content cs a hn ho ha hr
  obtain ⟨hb', t', text', ht', htext', hall'⟩ :=
    main_readable env vgm instr track ticks content' cs' a hn ho ha hr'
  obtain ⟨e1, e2, e3⟩ := c76_key_events _ _ hb hb' hk
  have et : t' = t := by
    rw [ticksPerNote_congr e3] at ht'
    exact ticksInUse_unique ht' ht
  have etext : text' = text := by
    have : instrumentsText (run (history cs')) = instrumentsText (run (history cs)) := by
      unfold instrumentsText instrumentsJs
      rw [e1]
    rw [this, htext] at htext'
    exact (Except.ok.inj htext').symm
  subst et etext
  have hd := hall w hc
  have hd' := hall' w' hc'
  simp only at hd hd'
  rw [exportXrns_congr e1 e2] at hd'
  have hp : preamble env a ticks (run (history cs')) t' = preamble env a ticks (run (history cs)) t' := by
    unfold preamble ticksOutput
    rw [ticksReport_congr e3]
  rw [hp] at hd'
  refine ⟨hd'.result.trans hd.result.symm, ⟨_, hd.stdout, hd'.stdout⟩, ?_⟩
  intro n hn
  rw [hd.fs, hd'.fs]
  exact writeFiles_agree _ _ _ _ (.inl hn)

/-- C76, for the program: if two readable input files have the same register writes at the same
times, then running the program on one or the other ends the same way, prints the same, and
leaves every file the same that was the same before. -/
theorem c76_program (env : Env) (vgm : Str) (instr track : Option Str) (ticks : Option Int)
    (w w' : World) (content content' : Bytes) (cs cs' : List Cmd) (hn : vgm ≠ [] ∧ vgm ≠ ['-'])
    (ho : env.openErr vgm false = none) (ha : env.argsFile ≠ none)
    (hc : w.fs vgm = some content) (hc' : w'.fs vgm = some content')
    (hr : Readable env.gunzip content cs) (hr' : Readable env.gunzip content' cs')
    (hw : timedWrites 0 (history cs') = timedWrites 0 (history cs)) :
    let x := main env (some vgm) instr track ticks w
    let x' := main env (some vgm) instr track ticks w'
    x'.1 = x.1 ∧
    (∃ out, x.2.stdout = w.stdout ++ out ∧ x'.2.stdout = w'.stdout ++ out) ∧
    ∀ n, w'.fs n = w.fs n → x'.2.fs n = x.2.fs n :=
  alike_program env vgm instr track ticks w w' content content' cs cs' hn ho ha hc hc' hr hr'
    (by rw [keyEvents_timed (history cs'), hw, ← keyEvents_timed (history cs)])

/-- Two ways to write the sample: other waits, and a wait at the end. -/
example : timedWrites 0 (sample.flatMap (fun
      | .wait n => [.wait (n / 2), .wait 0, .wait (n - n / 2)]
      | e => [e]) ++ [.wait 1000]) = timedWrites 0 sample ∧
    timedWrites 0 sample ≠ [] := by decide +kernel

/-! ### Key events that differ in time or channel only -/

theorem recorded_dropWhile (h : List Event) : recorded h =
    (keyEvents h).dropWhile (fun e => !decide (e.isOn ∧ 0 < e.time)) := by
  have := dropWhile_filterMap (fun e : KeyEvent => decide (e.isOn ∧ 0 < e.time)) (keyEvents h)
  unfold recorded
  exact this

theorem instruments_map {h h' : List Event} (g : KeyEvent → KeyEvent)
    (hg : ∀ e, (g e).patch = e.patch) (hk : keyEvents h' = (keyEvents h).map g) :
    instruments h' = instruments h := by
  have ho : ∀ e, (g e).isOn ↔ e.isOn := fun e => by simp [KeyEvent.isOn, hg]
  unfold instruments patchesKeyedOn
  rw [hk, List.filter_map, List.map_map]
  congr 1
  rw [show ((fun e => e.patch) ∘ g) = KeyEvent.patch from funext fun e => hg e]
  congr 1
  apply List.filter_congr
  intro e _
  simp [ho]

theorem configs_map {h h' : List Event} (hb : ByteHistory h) (hb' : ByteHistory h')
    (g : KeyEvent → KeyEvent) (hg : ∀ e, (g e).patch = e.patch)
    (hk : keyEvents h' = (keyEvents h).map g) : (run h').configs = (run h).configs := by
  rw [configs_run h hb, configs_run h' hb', instruments_map g hg hk]

/-! ### C77: silence in front -/

theorem writesTo_silence (d : Nat) (h : List Event) (r : Nat) (f : Nat → Bool) :
    writesTo (.wait d :: h) r f = writesTo h r f := rfl

theorem keyEvents_silence (d : Nat) (h : List Event) :
    keyEvents (.wait d :: h) = (keyEvents h).map (fun e => { e with time := e.time + d }) := by
  induction h using list_snoc_ind with
  | nil => rfl
  | snoc h e ih =>
    rw [← List.cons_append, keyEvents_snoc, keyEvents_snoc, ih, List.map_append]
    congr 1
    cases e with
    | wait n => rfl
    | write r v =>
      by_cases h8 : r = 8
      · simp only [h8, if_true, List.map_cons, List.map_nil, List.cons.injEq, and_true]
        rw [keyEventAt_congr (writesTo_silence d h) v]
        simp [time, keyEventAt, Nat.add_comm]
      · simp [h8]

theorem silence_byte {d : Nat} {h : List Event} (hb : ByteHistory h) :
    ByteHistory (.wait d :: h) := by
  intro e he
  rcases List.mem_cons.mp he with rfl | he
  · trivial
  · exact hb e he

theorem noteOf_silence (d : Nat) (h : List Event) (e : KeyEvent) :
    noteOf (.wait d :: h) { e with time := e.time + d } = later d (noteOf h e) := by
  have := instruments_map (h := h) (h' := .wait d :: h) (fun e => { e with time := e.time + d })
    (fun _ => rfl) (keyEvents_silence d h)
  simp only [noteOf, later, this]
  rfl

/-- C77. Silence in front changes neither the instruments nor, but for the delay, the times of
the key-ons. -/
theorem c77_instruments (h : List Event) (hb : ByteHistory h) (d : Nat) :
    (run (.wait d :: h)).configs = (run h).configs ∧
    (run (.wait d :: h)).ticks = (run h).ticks.map (· + d) := by
  refine ⟨configs_map hb (silence_byte hb) (fun e => { e with time := e.time + d }) (fun _ => rfl)
    (keyEvents_silence d h), ?_⟩
  apply alike_ticks hb (silence_byte hb) (· + d) (fun a b h => by simpa using h)
  intro t
  rw [keyEvents_silence]
  simp only [List.mem_map]
  constructor
  · rintro ⟨_, ⟨e, he, rfl⟩, ho, rfl⟩; exact ⟨e, he, ho, rfl⟩
  · rintro ⟨e, he, ho, rfl⟩; exact ⟨_, ⟨e, he, rfl⟩, ho, rfl⟩

/-- C77. Unless the recording starts with a key-on at its very first moment, silence in front
only delays the notes. -/
theorem c77_notes (h : List Event) (hb : ByteHistory h) (d : Nat) (hs : ¬ KeyOnAtStart h)
    (c : Nat) (hc : c < 8) :
    (run (.wait d :: h)).keyPressesOf c = ((run h).keyPressesOf c).map (later d) := by
  rw [c22_key_presses _ (silence_byte hb) c hc, c22_key_presses h hb c hc, recorded_dropWhile,
    recorded_dropWhile, keyEvents_silence, List.dropWhile_map, List.filter_map, List.map_map,
    List.map_map]
  have e1 : (fun e => noteOf (.wait d :: h) ((fun e : KeyEvent => { e with time := e.time + d }) e))
      = fun e => later d (noteOf h e) := funext fun e => noteOf_silence d h e
  show List.map (fun e => noteOf (.wait d :: h)
    ((fun e : KeyEvent => { e with time := e.time + d }) e)) _ = _
  rw [e1]
  show _ = List.map (fun e => later d (noteOf h e)) _
  congr 1
  show List.filter (fun e : KeyEvent => decide (e.ch = c)) _ = _
  congr 1
  have : ∀ l : List KeyEvent, (∀ e ∈ l, e.isOn → 0 < e.time) →
      l.dropWhile ((fun e : KeyEvent => !decide (e.isOn ∧ 0 < e.time)) ∘
        fun e => { e with time := e.time + d })
        = l.dropWhile (fun e => !decide (e.isOn ∧ 0 < e.time)) := by
    intro l
    induction l with
    | nil => intro _; rfl
    | cons e l ih =>
      intro hl
      have h1 : ((fun e : KeyEvent => !decide (e.isOn ∧ 0 < e.time)) ∘
          fun e => { e with time := e.time + d }) e = !decide (e.isOn ∧ 0 < e.time) := by
        simp only [Function.comp_apply]
        congr 1
        apply decide_eq_decide.mpr
        show e.isOn ∧ 0 < e.time + d ↔ _
        constructor
        · rintro ⟨a, _⟩; exact ⟨a, hl e (by simp) a⟩
        · rintro ⟨a, _⟩; exact ⟨a, by omega⟩
      rw [List.dropWhile_cons, List.dropWhile_cons, h1, ih (fun x hx => hl x (by simp [hx]))]
  apply this
  intro e he ho
  obtain ⟨i, v, hi, rfl⟩ := (mem_keyEvents h e).mp he
  apply Nat.pos_of_ne_zero
  intro h0
  exact hs ⟨i, v, hi, ho, h0⟩

/-- C77. With some silence in front, every key event from the first key-on on is recorded, even
those at the very start, which are lost without (C21). -/
theorem c77_nothing_lost (h : List Event) (hb : ByteHistory h) (d : Nat) (hd : 0 < d)
    (c : Nat) (hc : c < 8) :
    (run (.wait d :: h)).keyPressesOf c =
      (((keyEvents h).dropWhile (fun e => !decide e.isOn)).filter (fun e => e.ch = c)).map
        (fun e => later d (noteOf h e)) := by
  rw [c22_key_presses _ (silence_byte hb) c hc, recorded_dropWhile, keyEvents_silence,
    List.dropWhile_map, List.filter_map, List.map_map]
  have e1 : (fun e => noteOf (.wait d :: h) ((fun e : KeyEvent => { e with time := e.time + d }) e))
      = fun e => later d (noteOf h e) := funext fun e => noteOf_silence d h e
  show List.map (fun e => noteOf (.wait d :: h)
    ((fun e : KeyEvent => { e with time := e.time + d }) e)) _ = _
  rw [e1]
  congr 1
  show List.filter (fun e : KeyEvent => decide (e.ch = c)) _ = _
  congr 2
  funext e
  simp only [Function.comp_apply]
  congr 1
  apply decide_eq_decide.mpr
  show e.isOn ∧ 0 < e.time + d ↔ _
  constructor
  · exact fun h => h.1
  · exact fun h => ⟨h, by omega⟩

theorem score_shift (T : List Nat) (d s : Nat) : score (T.map (· + d)) s = score T s := by
  unfold score unmatchedTicks unmatchedShifted
  rw [List.filter_map, List.filter_map, List.length_map, List.length_map]
  congr 2
  · apply List.filter_congr
    intro t _
    simp only [Function.comp_apply, List.mem_map, forall_exists_index, and_imp,
      forall_apply_eq_imp_iff₂]
    apply decide_eq_decide.mpr
    constructor
    · intro h u hu e; exact h u hu (by omega)
    · intro h u hu e; exact h u hu (by omega)
  · apply List.filter_congr
    intro u _
    have hmem : ∀ x, x ∈ T.map (· + d) ↔ ∃ y ∈ T, y + d = x := fun x => List.mem_map
    simp only [Function.comp_apply]
    apply decide_eq_decide.mpr
    simp only [hmem]
    constructor
    · rintro ⟨h1, _, ⟨t, ht, rfl⟩, h2⟩
      exact ⟨fun hm => h1 ⟨_, hm, by omega⟩, t, ht, by omega⟩
    · rintro ⟨h1, t, ht, h2⟩
      refine ⟨?_, _, ⟨t, ht, rfl⟩, by omega⟩
      rintro ⟨x, hx, e⟩
      exact h1 (by rwa [show u + s = x by omega])

/-- C77. The tempo estimate is not affected by silence in front, as long as no key-on leaves the
part of the recording that is looked at (the first 32000 samples). -/
theorem c77_estimate (h : List Event) (hb : ByteHistory h) (d : Nat)
    (hk : ∀ t, KeyOnAt h t → t < 32000 → t + d < 32000) :
    (run (.wait d :: h)).ticksPerNote = (run h).ticksPerNote := by
  obtain ⟨b, hr, _⟩ := c26_range h hb
  obtain ⟨T, hs, hT⟩ := c28_ticks_exist h hb
  have hbest := (c28_best h hb T hs hT b).mp hr
  rw [hr]
  have hT' : ∀ t, t ∈ T.map (· + d) ↔ t < 32000 ∧ KeyOnAt (.wait d :: h) t := by
    intro t
    have hkey : KeyOnAt (.wait d :: h) t ↔ ∃ u, KeyOnAt h u ∧ u + d = t := by
      have hm : ∀ t, KeyOnAt (.wait d :: h) t ↔ t ∈ (run (.wait d :: h)).ticks := fun t =>
        ((c23_ticks _ (silence_byte hb)).2 t).symm
      rw [hm, (c77_instruments h hb d).2, List.mem_map]
      constructor
      · rintro ⟨u, hu, rfl⟩; exact ⟨u, ((c23_ticks h hb).2 u).mp hu, rfl⟩
      · rintro ⟨u, hu, rfl⟩; exact ⟨u, ((c23_ticks h hb).2 u).mpr hu, rfl⟩
    rw [hkey, List.mem_map]
    constructor
    · rintro ⟨u, hu, rfl⟩
      have := (hT u).mp hu
      exact ⟨hk u this.2 this.1, u, this.2, rfl⟩
    · rintro ⟨hl, u, hu, rfl⟩
      exact ⟨u, (hT u).mpr ⟨by omega, hu⟩, rfl⟩
  rw [c28_best _ (silence_byte hb) (T.map (· + d))
    (by rw [List.pairwise_map]; exact hs.imp (fun h => by omega)) hT']
  obtain ⟨b1, b2, b3, b4⟩ := hbest
  refine ⟨b1, b2, ?_, ?_⟩
  · intro c; rw [score_shift, score_shift]; exact b3 c
  · intro c; rw [score_shift, score_shift]; exact b4 c

/-- The cell of a song, exactly. -/
theorem cell_eq (h : List Event) (hb : ByteHistory h) (t : Nat) (ht : 0 < t) (hm : t < maxTicks) :
    ∃ d, exportXrns (run h) t = .ok d ∧ ∀ p c r, c < 8 → r < 64 →
      columnsAt d p c r = (onRow ((run h).keyPressesOf c) t (64 * p + r)).getLast?.map
        (fun n => [⟨(lineOf n).note, (lineOf n).instrument, (lineOf n).pan⟩]) := by
  obtain ⟨pool, hi, e⟩ := export_run h hb t ht hm
  refine ⟨_, e, ?_⟩
  intro p c r hc hr
  unfold columnsAt
  rw [linesOf_render, find_lookup, lookup_track hi p c r hc hr, Option.map_map]
  rfl

/-- C77. Silence of `k` rows in front moves the song down by `k` rows: those rows are empty and
every later cell is what it was `k` rows above. -/
theorem c77_song (h : List Event) (hb : ByteHistory h) (t k : Nat) (ht : 0 < t) (hm : t < maxTicks)
    (hs : ¬ KeyOnAtStart h) :
    ∃ d d', exportXrns (run h) t = .ok d ∧ exportXrns (run (.wait (k * t) :: h)) t = .ok d' ∧
      d'.globalSongData = d.globalSongData ∧ d'.instruments = d.instruments ∧
      ∀ c < 8,
        (∀ row < k, columnsAt d' (row / 64) c (row % 64) = none) ∧
        ∀ row, columnsAt d' ((row + k) / 64) c ((row + k) % 64)
          = columnsAt d (row / 64) c (row % 64) := by
  obtain ⟨d, e, hd⟩ := cell_eq h hb t ht hm
  obtain ⟨d', e', hd'⟩ := cell_eq _ (silence_byte (d := k * t) hb) t ht hm
  refine ⟨d, d', e, e', ?_, ?_, ?_⟩
  · obtain ⟨p, _, x⟩ := export_run h hb t ht hm
    obtain ⟨p', _, x'⟩ := export_run _ (silence_byte (d := k * t) hb) t ht hm
    rw [x] at e; rw [x'] at e'
    cases e; cases e'
    rfl
  · obtain ⟨p, _, x⟩ := export_run h hb t ht hm
    obtain ⟨p', _, x'⟩ := export_run _ (silence_byte (d := k * t) hb) t ht hm
    rw [x] at e; rw [x'] at e'
    cases e; cases e'
    simp only [render]
    rw [(c77_instruments h hb (k * t)).1]
  · intro c hc
    have hrow : ∀ row, onRow ((run (.wait (k * t) :: h)).keyPressesOf c) t row =
        (((run h).keyPressesOf c).filter (fun n => decide (n.sample / t + k = row))).map
          (later (k * t)) := by
      intro row
      rw [c77_notes h hb _ hs c hc]
      unfold onRow
      rw [List.filter_map]
      congr 1
      apply List.filter_congr
      intro n _
      simp only [Function.comp_apply]
      apply decide_eq_decide.mpr
      show (n.sample + k * t) / t = row ↔ _
      rw [Nat.add_mul_div_right _ _ ht]
    constructor
    · intro row hlt
      rw [hd' _ _ _ hc (Nat.mod_lt _ (by omega)), Nat.div_add_mod, hrow]
      have : ((run h).keyPressesOf c).filter (fun n => decide (n.sample / t + k = row)) = [] := by
        rw [List.filter_eq_nil_iff]
        intro n _
        simp only [decide_eq_true_eq]
        generalize n.sample / t = x
        omega
      rw [this]
      rfl
    · intro row
      rw [hd' _ _ _ hc (Nat.mod_lt _ (by omega)), hd _ _ _ hc (Nat.mod_lt _ (by omega)),
        Nat.div_add_mod, Nat.div_add_mod, hrow, List.getLast?_map, Option.map_map]
      have : ((run h).keyPressesOf c).filter (fun n => decide (n.sample / t + k = row + k))
          = onRow ((run h).keyPressesOf c) t row := by
        unfold onRow
        apply List.filter_congr
        intro n _
        apply decide_eq_decide.mpr
        omega
      rw [this]
      rfl

theorem keyOnAtStart_iff (h : List Event) :
    KeyOnAtStart h ↔ ∃ e ∈ keyEvents h, e.isOn ∧ e.time = 0 := by
  constructor
  · rintro ⟨i, v, hi, ho, h0⟩
    exact ⟨_, (mem_keyEvents h _).mpr ⟨i, v, hi, rfl⟩, ho, h0⟩
  · rintro ⟨e, he, ho, h0⟩
    obtain ⟨i, v, hi, rfl⟩ := (mem_keyEvents h e).mp he
    exact ⟨i, v, hi, ho, h0⟩

instance (h : List Event) : Decidable (KeyOnAtStart h) := decidable_of_iff _ (keyOnAtStart_iff h).symm

/-- C77, the excluded case: with a key-on at the first moment, silence in front adds a note. -/
theorem c77_start_excluded : ∃ h, ByteHistory h ∧ KeyOnAtStart h ∧
    (run h).keyPressesOf 0 = [] ∧ ((run (.wait 1 :: h)).keyPressesOf 0).length = 1 :=
  ⟨[.write 8 0x78], by decide, by decide +kernel, by decide +kernel, by decide +kernel⟩

example : ¬ KeyOnAtStart sample ∧ (run sample).keyPressesOf 1 ≠ [] := by decide +kernel

example : ∀ t, KeyOnAt steady t → t < 32000 → t + 20000 < 32000 := by
  intro t ht _
  have := ((c23_ticks steady steady_byte).2 t).mpr ht
  have e : (run steady).ticks = [100, 2100, 4100] := by decide +kernel
  rw [e] at this
  simp at this
  omega

/-! ### C78: channels are alike -/

theorem writesTo_low (f : Nat → Nat) (h : List Event) (q : Nat) (hq : q < 0x20)
    (h8 : q ≠ 8) (p : Nat → Bool) : writesTo (h.map (onChannel f)) q p = writesTo h q p := by
  unfold writesTo
  rw [List.filterMap_map]
  apply filterMap_congr'
  intro e _
  cases e with
  | wait n => rfl
  | write r v =>
    simp only [Function.comp_apply, onChannel]
    by_cases h1 : r = 8
    · simp only [h1, if_true]
      rw [if_neg (by omega), if_neg (by omega)]
    · rw [if_neg h1]
      by_cases h2 : 0x20 ≤ r
      · rw [if_pos h2]
        simp only
        rw [if_neg (by omega), if_neg (by omega)]
      · rw [if_neg h2]

theorem writesTo_high (f : Nat → Nat) (h : List Event) (hf : Renames f h) (b c : Nat)
    (hb : b % 8 = 0) (hb2 : 0x20 ≤ b) (hc : c < 8) (p : Nat → Bool) :
    writesTo (h.map (onChannel f)) (b + f c) p = writesTo h (b + c) p := by
  unfold writesTo
  rw [List.filterMap_map]
  apply filterMap_congr'
  intro e _
  have hfc := hf.lt c hc
  cases e with
  | wait n => rfl
  | write r v =>
    simp only [Function.comp_apply, onChannel]
    by_cases h1 : r = 8
    · simp only [h1, if_true]
      rw [if_neg (by omega), if_neg (by omega)]
    · rw [if_neg h1]
      by_cases h2 : 0x20 ≤ r
      · rw [if_pos h2]
        simp only
        have hfr := hf.lt (r % 8) (by omega)
        have hiff : r / 8 * 8 + f (r % 8) = b + f c ↔ r = b + c := by
          constructor
          · intro e
            have := hf.inj (r % 8) (by omega) c hc (by omega)
            omega
          · intro e
            have e1 : r % 8 = c := by omega
            rw [e1]
            omega
        simp only [hiff]
      · rw [if_neg h2]
        simp only
        rw [if_neg (by omega), if_neg (by omega)]

theorem time_onChannel (f : Nat → Nat) (h : List Event) : time (h.map (onChannel f)) = time h := by
  unfold time
  rw [List.map_map]
  congr 1
  apply List.map_congr_left
  intro e _
  cases e with
  | wait n => rfl
  | write r v =>
    simp only [Function.comp_apply, onChannel]
    by_cases h1 : r = 8
    · simp [h1]
    · by_cases h2 : 0x20 ≤ r <;> simp [h1, h2]

theorem keyEventAt_onChannel (f : Nat → Nat) (h : List Event) (hf : Renames f h) (v : Nat) :
    keyEventAt (h.map (onChannel f)) (v / 8 * 8 + f (v % 8)) =
      { keyEventAt h v with ch := f (keyEventAt h v).ch } := by
  have hc : v % 8 < 8 := Nat.mod_lt _ (by omega)
  have hfc := hf.lt _ hc
  have e1 : (v / 8 * 8 + f (v % 8)) % 8 = f (v % 8) := by omega
  have e2 : (v / 8 * 8 + f (v % 8)) / 8 = v / 8 := by omega
  have hlow : ∀ q, q < 0x20 → q ≠ 8 → regVal (h.map (onChannel f)) q = regVal h q := by
    intro q h1 h2
    unfold regVal
    rw [writesTo_low f h q h1 h2]
  have hhigh : ∀ b, b % 8 = 0 → 0x20 ≤ b →
      regVal (h.map (onChannel f)) (b + f (v % 8)) = regVal h (b + v % 8) := by
    intro b h1 h2
    unfold regVal
    rw [writesTo_high f h hf b _ h1 h2 hc]
  have hn : (f (v % 8) = 7 ∧ 128 ≤ regVal h 0x0F) ↔ (v % 8 = 7 ∧ 128 ≤ regVal h 0x0F) := by
    rcases hf.noise with h7 | hno
    · constructor
      · rintro ⟨a, b⟩; exact ⟨hf.inj _ hc 7 (by omega) (by omega), b⟩
      · rintro ⟨a, b⟩; exact ⟨by rw [a]; exact h7, b⟩
    · have h0 : regVal h 0x0F = 0 := by
        have : writesTo h 0x0F = [] := by
          unfold writesTo
          rw [List.filterMap_eq_nil_iff]
          intro e he
          cases e with
          | wait n => rfl
          | write r w =>
            simp only
            rw [if_neg]
            rintro ⟨rfl, _⟩
            exact hno w he
        simp [regVal, this]
      rw [h0]
      omega
  have hnf : (if f (v % 8) = 7 then regVal h 0x0F % 32 else 0)
      = if v % 8 = 7 then regVal h 0x0F % 32 else 0 := by
    rcases hf.noise with h7 | hno
    · have : f (v % 8) = 7 ↔ v % 8 = 7 :=
        ⟨fun a => hf.inj _ hc 7 (by omega) (by omega), fun a => by rw [a]; exact h7⟩
      simp only [this]
    · have h0 : regVal h 0x0F = 0 := by
        have : writesTo h 0x0F = [] := by
          unfold writesTo
          rw [List.filterMap_eq_nil_iff]
          intro e he
          cases e with
          | wait n => rfl
          | write r w =>
            simp only
            rw [if_neg]
            rintro ⟨rfl, _⟩
            exact hno w he
        simp [regVal, this]
      rw [h0]
      simp
  simp only [keyEventAt, e1, e2, time_onChannel, Spec.base, Spec.channel, channelWith,
    operatorWith, noteConfig, hlow 0x1B (by omega) (by omega), hlow 0x18 (by omega) (by omega),
    hlow 0x0F (by omega) (by omega), writesTo_low f h 0x19 (by omega) (by omega),
    hhigh 0x20 rfl (by omega), hhigh 0x28 rfl (by omega), hhigh 0x30 rfl (by omega),
    hhigh 0x38 rfl (by omega), hn, hnf]
  simp only [hhigh (0x40 + 8 * 0) rfl (by omega), hhigh (0x40 + 8 * 1) rfl (by omega),
    hhigh (0x40 + 8 * 2) rfl (by omega), hhigh (0x40 + 8 * 3) rfl (by omega),
    hhigh (0x60 + 8 * 0) rfl (by omega), hhigh (0x60 + 8 * 1) rfl (by omega),
    hhigh (0x60 + 8 * 2) rfl (by omega), hhigh (0x60 + 8 * 3) rfl (by omega),
    hhigh (0x80 + 8 * 0) rfl (by omega), hhigh (0x80 + 8 * 1) rfl (by omega),
    hhigh (0x80 + 8 * 2) rfl (by omega), hhigh (0x80 + 8 * 3) rfl (by omega),
    hhigh (0xA0 + 8 * 0) rfl (by omega), hhigh (0xA0 + 8 * 1) rfl (by omega),
    hhigh (0xA0 + 8 * 2) rfl (by omega), hhigh (0xA0 + 8 * 3) rfl (by omega),
    hhigh (0xC0 + 8 * 0) rfl (by omega), hhigh (0xC0 + 8 * 1) rfl (by omega),
    hhigh (0xC0 + 8 * 2) rfl (by omega), hhigh (0xC0 + 8 * 3) rfl (by omega),
    hhigh (0xE0 + 8 * 0) rfl (by omega), hhigh (0xE0 + 8 * 1) rfl (by omega),
    hhigh (0xE0 + 8 * 2) rfl (by omega), hhigh (0xE0 + 8 * 3) rfl (by omega)]

theorem Spec.Renames.sub {f : Nat → Nat} {h h' : List Event} (hf : Renames f h) (hs : ∀ e ∈ h', e ∈ h) :
    Renames f h' :=
  ⟨hf.lt, hf.inj, hf.noise.imp id (fun hn v hv => hn v (hs _ hv))⟩

theorem keyEvents_onChannel (f : Nat → Nat) (h : List Event) (hf : Renames f h) :
    keyEvents (h.map (onChannel f)) = (keyEvents h).map (fun e => { e with ch := f e.ch }) := by
  induction h using list_snoc_ind with
  | nil => rfl
  | snoc h e ih =>
    have hf' : Renames f h := hf.sub (fun e he => by simp [he])
    rw [List.map_append, List.map_cons, List.map_nil, keyEvents_snoc, keyEvents_snoc, ih hf',
      List.map_append]
    congr 1
    cases e with
    | wait n => rfl
    | write r v =>
      by_cases h8 : r = 8
      · simp only [h8, onChannel, if_true, keyEventAt_onChannel f h hf', List.map_cons, List.map_nil]
      · by_cases h2 : 0x20 ≤ r
        · simp only [onChannel, h8, h2, if_true, if_false, List.map_nil]
          rw [if_neg (by omega)]
        · simp [onChannel, h8, h2]

theorem onChannel_byte {f : Nat → Nat} {h : List Event} (hf : Renames f h) (hb : ByteHistory h) :
    ByteHistory (h.map (onChannel f)) := by
  intro e he
  obtain ⟨x, hx, rfl⟩ := List.mem_map.mp he
  have := hb x hx
  cases x with
  | wait n => trivial
  | write r v =>
    obtain ⟨h1, h2⟩ := this
    have hv := hf.lt (v % 8) (by omega)
    have hr := hf.lt (r % 8) (by omega)
    simp only [onChannel]
    by_cases h8 : r = 8
    · rw [if_pos h8]; exact ⟨by omega, by omega⟩
    · rw [if_neg h8]
      by_cases h3 : 0x20 ≤ r
      · rw [if_pos h3]; exact ⟨by omega, h2⟩
      · rw [if_neg h3]; exact ⟨h1, h2⟩

/-- C78. No channel is special but for the noise generator of channel 7: the same music on other
channels gives the same instruments, with the same numbers, the same ticks, and on each channel
the notes of the channel it was moved from. -/
theorem c78_channels (f : Nat → Nat) (h : List Event) (hb : ByteHistory h) (hf : Renames f h) :
    (run (h.map (onChannel f))).configs = (run h).configs ∧
    (run (h.map (onChannel f))).ticks = (run h).ticks ∧
    (run (h.map (onChannel f))).ticksPerNote = (run h).ticksPerNote ∧
    ∀ c < 8, (run (h.map (onChannel f))).keyPressesOf (f c) = (run h).keyPressesOf c := by
  have hb' := onChannel_byte hf hb
  have hk := keyEvents_onChannel f h hf
  have hi := instruments_map (fun e => { e with ch := f e.ch }) (fun _ => rfl) hk
  have ht : (run (h.map (onChannel f))).ticks = (run h).ticks := by
    rw [alike_ticks hb hb' id (fun _ _ h => h) ?_, List.map_id]
    intro t
    rw [hk]
    simp only [List.mem_map]
    constructor
    · rintro ⟨_, ⟨e, he, rfl⟩, ho, rfl⟩; exact ⟨e, he, ho, rfl⟩
    · rintro ⟨e, he, ho, rfl⟩; exact ⟨_, ⟨e, he, rfl⟩, ho, rfl⟩
  refine ⟨configs_map hb hb' (fun e => { e with ch := f e.ch }) (fun _ => rfl) hk, ht, ticksPerNote_congr ht, ?_⟩
  intro c hc
  rw [c22_key_presses _ hb' _ (hf.lt c hc), c22_key_presses h hb c hc, recorded_dropWhile,
    recorded_dropWhile, hk, List.dropWhile_map, List.filter_map, List.map_map]
  have e1 : (fun e => noteOf (h.map (onChannel f)) ((fun e : KeyEvent => { e with ch := f e.ch }) e))
      = fun e => noteOf h e := by
    funext e
    simp only [noteOf, hi]
    rfl
  show List.map (fun e => noteOf (h.map (onChannel f))
    ((fun e : KeyEvent => { e with ch := f e.ch }) e)) _ = _
  rw [e1]
  congr 1
  apply List.filter_congr
  intro e he
  have hmem : e ∈ keyEvents h := (List.dropWhile_sublist _).subset he
  obtain ⟨i, v, _, rfl⟩ := (mem_keyEvents h e).mp hmem
  simp only [Function.comp_apply]
  apply decide_eq_decide.mpr
  constructor
  · exact fun a => hf.inj _ (Nat.mod_lt _ (by omega)) c hc a
  · exact fun a => congrArg f a

/-- C78, for the song: track `f c` holds what track `c` held. -/
theorem c78_song (f : Nat → Nat) (h : List Event) (hb : ByteHistory h) (hf : Renames f h)
    (t : Nat) (ht : 0 < t) (hm : t < maxTicks) :
    ∃ d d', exportXrns (run h) t = .ok d ∧ exportXrns (run (h.map (onChannel f))) t = .ok d' ∧
      d'.globalSongData = d.globalSongData ∧ d'.instruments = d.instruments ∧
      ∀ p c r, c < 8 → r < 64 → columnsAt d' p (f c) r = columnsAt d p c r := by
  obtain ⟨d, e, hd⟩ := cell_eq h hb t ht hm
  obtain ⟨d', e', hd'⟩ := cell_eq _ (onChannel_byte hf hb) t ht hm
  obtain ⟨h1, _, _, h4⟩ := c78_channels f h hb hf
  refine ⟨d, d', e, e', ?_, ?_, ?_⟩
  · obtain ⟨p, _, x⟩ := export_run h hb t ht hm
    obtain ⟨p', _, x'⟩ := export_run _ (onChannel_byte hf hb) t ht hm
    rw [x] at e; rw [x'] at e'
    cases e; cases e'
    rfl
  · obtain ⟨p, _, x⟩ := export_run h hb t ht hm
    obtain ⟨p', _, x'⟩ := export_run _ (onChannel_byte hf hb) t ht hm
    rw [x] at e; rw [x'] at e'
    cases e; cases e'
    simp only [render]
    rw [h1]
  · intro p c r hc hr
    rw [hd' p _ r (hf.lt c hc) hr, hd p c r hc hr, h4 c hc]

/-- The sample, with channels 0 and 1 exchanged. -/
example : Renames (fun c => if c = 0 then 1 else if c = 1 then 0 else c) sample ∧
    (run (sample.map (onChannel (fun c => if c = 0 then 1 else if c = 1 then 0 else c)))).keyPressesOf 0
      ≠ [] :=
  ⟨⟨by decide, by decide, .inl (by decide)⟩, by decide +kernel⟩

/-- C78, the excluded case: music that uses the noise generator cannot move from channel 7 to
another channel. -/
theorem c78_noise_excluded : ∃ h, ByteHistory h ∧
    (run (h.map (onChannel (fun c => if c = 6 then 7 else if c = 7 then 6 else c)))).configs
      ≠ (run h).configs :=
  ⟨[.write 0x0F 0x81, .wait 1, .write 8 0x7F], by decide, by decide +kernel⟩

end VgmX
