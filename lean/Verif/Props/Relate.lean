import Verif.Spec.Relate
import Verif.Props.Alike
/-
Properties C83-C86: recordings that are slowed down, transposed, continued, and exports on a
coarser grid. Vocabulary: Spec/Relate.lean.
-/

namespace VgmX
open Spec

/-! ### C83: slower -/

theorem writesTo_slowed (k : Nat) (h : List Event) (r : Nat) (f : Nat → Bool) :
    writesTo (h.map (slowed k)) r f = writesTo h r f := by
  unfold writesTo
  rw [List.filterMap_map]
  apply filterMap_congr'
  intro e _
  cases e <;> rfl

theorem time_slowed (k : Nat) (h : List Event) : time (h.map (slowed k)) = k * time h := by
  unfold time
  rw [List.map_map]
  induction h with
  | nil => rfl
  | cons e h ih =>
    simp only [List.map_cons, List.sum_cons, ih, Nat.mul_add]
    cases e <;> simp [slowed]

theorem keyEvents_slowed (k : Nat) (h : List Event) :
    keyEvents (h.map (slowed k)) = (keyEvents h).map (fun e => { e with time := k * e.time }) := by
  induction h using list_snoc_ind with
  | nil => rfl
  | snoc h e ih =>
    rw [List.map_append, List.map_singleton, keyEvents_snoc, keyEvents_snoc, ih, List.map_append]
    congr 1
    cases e with
    | wait n => rfl
    | write r v =>
      simp only [slowed]
      by_cases h8 : r = 8
      · simp only [h8, if_true, List.map_cons, List.map_nil, List.cons.injEq, and_true]
        rw [keyEventAt_congr (writesTo_slowed k h) v, time_slowed]
        rfl
      · simp [h8]

theorem slowed_byte {k : Nat} {h : List Event} (hb : ByteHistory h) :
    ByteHistory (h.map (slowed k)) := by
  intro e he
  obtain ⟨e, h1, rfl⟩ := List.mem_map.mp he
  have := hb e h1
  cases e with
  | wait n => trivial
  | write r v => exact this

theorem noteOf_slowed (k : Nat) (h : List Event) (e : KeyEvent) :
    noteOf (h.map (slowed k)) { e with time := k * e.time } = Spec.Note.slowed k (noteOf h e) := by
  have := instruments_map (h := h) (h' := h.map (slowed k)) (fun e => { e with time := k * e.time })
    (fun _ => rfl) (keyEvents_slowed k h)
  simp only [noteOf, Spec.Note.slowed, this]
  rfl

/-- C83. A recording that is `k` times as slow has the same instruments, and the same notes and
key-on times, `k` times as late. -/
theorem c83_notes (h : List Event) (hb : ByteHistory h) (k : Nat) (hk : 0 < k) :
    (run (h.map (slowed k))).configs = (run h).configs ∧
    (run (h.map (slowed k))).ticks = (run h).ticks.map (k * ·) ∧
    ∀ c < 8, (run (h.map (slowed k))).keyPressesOf c
      = ((run h).keyPressesOf c).map (Spec.Note.slowed k) := by
  refine ⟨configs_map hb (slowed_byte hb) (fun e => { e with time := k * e.time }) (fun _ => rfl)
    (keyEvents_slowed k h), ?_, ?_⟩
  · apply alike_ticks hb (slowed_byte hb) (k * ·) (fun a b h => Nat.mul_lt_mul_of_pos_left h hk)
    intro t
    rw [keyEvents_slowed]
    simp only [List.mem_map]
    constructor
    · rintro ⟨_, ⟨e, he, rfl⟩, ho, rfl⟩; exact ⟨e, he, ho, rfl⟩
    · rintro ⟨e, he, ho, rfl⟩; exact ⟨_, ⟨e, he, rfl⟩, ho, rfl⟩
  · intro c hc
    rw [c22_key_presses _ (slowed_byte hb) c hc, c22_key_presses h hb c hc, recorded_dropWhile,
      recorded_dropWhile, keyEvents_slowed, List.dropWhile_map, List.filter_map, List.map_map,
      List.map_map]
    have e1 : (fun e => noteOf (h.map (slowed k)) ((fun e : KeyEvent => { e with time := k * e.time }) e))
        = fun e => Spec.Note.slowed k (noteOf h e) := funext fun e => noteOf_slowed k h e
    show List.map (fun e => noteOf (h.map (slowed k))
      ((fun e : KeyEvent => { e with time := k * e.time }) e)) _ = _
    rw [e1]
    show _ = List.map (fun e => Spec.Note.slowed k (noteOf h e)) _
    congr 1
    show List.filter (fun e : KeyEvent => decide (e.ch = c)) _ = _
    congr 2
    funext e
    simp only [Function.comp_apply]
    congr 1
    apply decide_eq_decide.mpr
    have : 0 < k * e.time ↔ 0 < e.time := by
      rw [Nat.mul_pos_iff_of_pos_left hk]
    exact and_congr Iff.rfl this

theorem forExcept_map {α α' β : Type} (g : α → α') (f : β → α' → Except PyErr β) (l : List α)
    (b : β) : forExcept f b (l.map g) = forExcept (fun b a => f b (g a)) b l := by
  induction l generalizing b with
  | nil => rfl
  | cons a l ih =>
    simp only [List.map_cons, forExcept]
    cases f b (g a) with
    | error e => rfl
    | ok b' => exact ih b'

theorem exportNote_slowed (k t : Nat) (hk : 0 < k) (c : Nat) (pool : PatternPool) (n : Note) :
    exportNote ((k * t : Nat) : Int) c pool (Spec.Note.slowed k n) = exportNote (t : Int) c pool n := by
  have h : Int.fdiv ((k * n.sample : Nat) : Int) ((k * t : Nat) : Int)
      = Int.fdiv (n.sample : Int) (t : Int) := by
    rw [Int.fdiv_eq_ediv_of_nonneg _ (by omega), Int.fdiv_eq_ediv_of_nonneg _ (by omega)]
    rw [← Int.natCast_ediv, ← Int.natCast_ediv, Nat.mul_div_mul_left _ _ hk]
  unfold exportNote
  simp only [Spec.Note.slowed, h]
  rfl

/-- C83. Exported with `k` times as many ticks per note it gives the same song, but for the
tempo. -/
theorem c83_song (h : List Event) (hb : ByteHistory h) (k t : Nat) (hk : 0 < k) (ht : 0 < t)
    (hm : k * t < maxTicks) :
    ∃ d d', exportXrns (run h) t = .ok d ∧
      exportXrns (run (h.map (slowed k))) ((k * t : Nat) : Int) = .ok d' ∧
      d' = { d with globalSongData :=
        { d.globalSongData with beatsPerMin := d'.globalSongData.beatsPerMin } } := by
  have hm1 : t < maxTicks := Nat.lt_of_le_of_lt (Nat.le_mul_of_pos_left t hk) hm
  have hb1 := bpm_pos t ht hm1
  have hb2 := bpm_pos (k * t) (Nat.mul_pos hk ht) hm
  obtain ⟨e1, _, e3⟩ := c83_notes h hb k hk
  obtain ⟨d, hd, _⟩ := cell_eq h hb t ht hm1
  have hp : forExcept (fun pool ch =>
        forExcept (exportNote ((k * t : Nat) : Int) ch) pool ((run (h.map (slowed k))).keyPressesOf ch))
        (Song.new 8 (run h).configs.length).patternPool (List.range 8)
      = forExcept (fun pool ch =>
        forExcept (exportNote (t : Int) ch) pool ((run h).keyPressesOf ch))
        (Song.new 8 (run h).configs.length).patternPool (List.range 8) := by
    apply forExcept_congr
    intro c hc b
    rw [e3 c (List.mem_range.mp hc), forExcept_map]
    apply forExcept_congr
    intro n _ b
    exact exportNote_slowed k t hk c b n
  unfold exportXrns exportSong at hd ⊢
  simp only [hb1] at hd
  simp only [hb1, hb2, e1, hp]
  cases hf : forExcept (fun pool ch =>
        forExcept (exportNote (t : Int) ch) pool ((run h).keyPressesOf ch))
        (Song.new 8 (run h).configs.length).patternPool (List.range 8) with
  | error e => rw [hf] at hd; cases hd
  | ok pool =>
    refine ⟨_, _, rfl, rfl, ?_⟩
    have hfold : ∀ (l : List Nat) (s : Song) (b : Int),
        l.foldl Song.addPattern { s with globals := { s.globals with beatsPerMin := b } }
          = { l.foldl Song.addPattern s with
              globals := { (l.foldl Song.addPattern s).globals with beatsPerMin := b } } := by
      intro l
      induction l with
      | nil => intro s b; rfl
      | cons x l ih => intro s b; exact ih (s.addPattern x) b
    have := hfold (List.range pool.patterns.length)
      { Song.new 8 (run h).configs.length with patternPool := pool }
    have g1 := this ((661500 / t - (if t ∈ badTicks then 1 else 0) : Nat) : Int)
    have g2 := this ((661500 / (k * t) - (if k * t ∈ badTicks then 1 else 0) : Nat) : Int)
    dsimp only at g1 g2 ⊢
    rw [g1, g2]
    rfl

/-- The sample, three times as slow: its notes at 300, 450 and 471 fall on rows 2, 3 and 3 of 150
samples. -/
example : ((run (sample.map (slowed 3))).keyPressesOf 1).map (·.sample) = [300, 450, 471] ∧
    3 * 50 < maxTicks := by
  refine ⟨by decide +kernel, by decide +kernel⟩

/-! ### C84: octaves higher -/

theorem writesTo_raised (k : Nat) (h : List Event) (r : Nat) (hr : ¬ isKeyCode r) (f : Nat → Bool) :
    writesTo (h.map (raised k)) r f = writesTo h r f := by
  unfold writesTo
  rw [List.filterMap_map]
  apply filterMap_congr'
  intro e _
  cases e with
  | wait n => rfl
  | write q v =>
    simp only [Function.comp_apply, raised]
    by_cases hq : isKeyCode q
    · rw [if_pos hq]
      have : q ≠ r := by rintro rfl; exact hr hq
      simp [this]
    · rw [if_neg hq]

theorem writesTo_raised_key (k : Nat) (h : List Event) (r : Nat) (hr : isKeyCode r) :
    writesTo (h.map (raised k)) r = (writesTo h r).map (· + 16 * k) := by
  unfold writesTo
  rw [List.filterMap_map, List.map_filterMap]
  apply filterMap_congr'
  intro e _
  cases e with
  | wait n => rfl
  | write q v =>
    simp only [Function.comp_apply, raised]
    by_cases hq : q = r
    · subst hq; rw [if_pos hr]; simp
    · by_cases hq' : isKeyCode q
      · rw [if_pos hq']; simp [hq]
      · rw [if_neg hq']; simp [hq]

theorem time_raised (k : Nat) (h : List Event) : time (h.map (raised k)) = time h := by
  unfold time
  rw [List.map_map]
  congr 1
  apply List.map_congr_left
  intro e _
  cases e with
  | wait n => rfl
  | write r v =>
    simp only [Function.comp_apply, raised]
    by_cases hq : isKeyCode r
    · rw [if_pos hq]
    · rw [if_neg hq]

theorem raised_byte {k : Nat} {h : List Event} (hb : ByteHistory h) (hr : CanRaise k h) :
    ByteHistory (h.map (raised k)) := by
  intro e he
  obtain ⟨e, h1, rfl⟩ := List.mem_map.mp he
  have := hb e h1
  cases e with
  | wait n => trivial
  | write r v =>
    simp only [raised]
    by_cases hq : isKeyCode r
    · rw [if_pos hq]
      have hc := hr r v h1 hq
      unfold Event.IsByte at this ⊢
      omega
    · rw [if_neg hq]; exact this

/-- The key event `k` octaves higher. -/
def KeyEvent.up (k : Nat) (e : KeyEvent) : KeyEvent :=
  { e with noteConfig := { e.noteConfig with octave := e.noteConfig.octave + k } }

theorem key_eq {h h' : List Event} {c m k : Nat} (h0 : time h' = time h)
    (h1 : Spec.base h' = Spec.base h) (h2 : Spec.channel h' c = Spec.channel h c)
    (h3 : noteConfig h' c = { noteConfig h c with octave := (noteConfig h c).octave + k }) :
    (⟨time h', c, ⟨Spec.base h', Spec.channel h' c, m⟩, noteConfig h' c⟩ : KeyEvent)
      = KeyEvent.up k ⟨time h, c, ⟨Spec.base h, Spec.channel h c, m⟩, noteConfig h c⟩ := by
  rw [h0, h1, h2, h3]
  rfl

theorem keyEventAt_raised {k : Nat} {h : List Event} {v : Nat} (hr : CanRaise k h)
    (hf : ∃ u, Event.write (0x28 + v % 8) u ∈ h) :
    keyEventAt (h.map (raised k)) v = KeyEvent.up k (keyEventAt h v) := by
  have h1 : ∀ r, ¬ isKeyCode r → regVal (h.map (raised k)) r = regVal h r := fun r hr => by
    simp only [regVal, writesTo_raised k h r hr]
  have hc : v % 8 < 8 := Nat.mod_lt _ (by omega)
  unfold keyEventAt
  generalize v % 8 = c at *
  have hkc : isKeyCode (0x28 + c) := ⟨by omega, by omega⟩
  have h2 : regVal (h.map (raised k)) (0x28 + c) = regVal h (0x28 + c) + 16 * k ∧
      regVal h (0x28 + c) / 16 % 8 + k < 8 := by
    unfold regVal
    rw [writesTo_raised_key k h _ hkc]
    rw [List.getLast?_map]
    obtain ⟨u, hu⟩ := hf
    have hu' : u ∈ writesTo h (0x28 + c) := by
      unfold writesTo
      rw [List.mem_filterMap]
      exact ⟨_, hu, by simp⟩
    cases hl : (writesTo h (0x28 + c)).getLast? with
    | none => rw [List.getLast?_eq_none_iff] at hl; rw [hl] at hu'; cases hu'
    | some x =>
      have hx := List.mem_of_getLast? hl
      unfold writesTo at hx
      obtain ⟨e, he, hxe⟩ := List.mem_filterMap.mp hx
      cases e with
      | wait n => cases hxe
      | write q w =>
        simp only [and_true] at hxe
        split at hxe
        · rename_i hq; cases hxe; subst hq; exact ⟨rfl, hr _ _ he hkc⟩
        · cases hxe
  have k1 : ¬ isKeyCode 0x1B := by decide
  have k2 : ¬ isKeyCode 0x18 := by decide
  have k3 : ¬ isKeyCode 0x19 := by decide
  have k4 : ¬ isKeyCode 0x0F := by decide
  have k5 : ¬ isKeyCode (0x20 + c) := by unfold isKeyCode; omega
  have k6 : ¬ isKeyCode (0x30 + c) := by unfold isKeyCode; omega
  have k7 : ¬ isKeyCode (0x38 + c) := by unfold isKeyCode; omega
  have k8 : ∀ b j : Nat, 0x40 ≤ b → ¬ isKeyCode (b + 8 * j + c) := by
    intro b j hb; unfold isKeyCode; omega
  have hop : ∀ j, operatorWith (· % 16) (h.map (raised k)) c j = operatorWith (· % 16) h c j := by
    intro j
    simp only [operatorWith, h1 _ (k8 0x40 j (by omega)), h1 _ (k8 0x60 j (by omega)),
      h1 _ (k8 0x80 j (by omega)), h1 _ (k8 0xA0 j (by omega)), h1 _ (k8 0xC0 j (by omega)),
      h1 _ (k8 0xE0 j (by omega))]
  have hbase : Spec.base (h.map (raised k)) = Spec.base h := by
    simp only [Spec.base, h1 _ k1, h1 _ k2, writesTo_raised k h _ k3]
  have hch : Spec.channel (h.map (raised k)) c = Spec.channel h c := by
    simp only [Spec.channel, channelWith, hop, h1 _ k4, h1 _ k5, h1 _ k7]
  have hn : noteConfig (h.map (raised k)) c
      = { noteConfig h c with octave := (noteConfig h c).octave + k } := by
    simp only [noteConfig, h1 _ k5, h1 _ k6, h2.1, NoteConfig.mk.injEq, true_and, and_true]
    omega
  exact key_eq (time_raised k h) hbase hch hn

theorem keyEvents_raised {k : Nat} {h : List Event} (hr : CanRaise k h) (hf : KeyCodeFirst h) :
    keyEvents (h.map (raised k)) = (keyEvents h).map (KeyEvent.up k) := by
  induction h using list_snoc_ind with
  | nil => rfl
  | snoc h e ih =>
    have hr' : CanRaise k h := fun r v hm => hr r v (List.mem_append_left _ hm)
    have hf' : KeyCodeFirst h := by
      intro i v hi
      have hlt : i < h.length := by
        rcases Nat.lt_or_ge i h.length with hl | hl
        · exact hl
        · rw [List.getElem?_eq_none hl] at hi; cases hi
      obtain ⟨j, u, hj, hu⟩ := hf i v (by rw [List.getElem?_append_left hlt]; exact hi)
      exact ⟨j, u, hj, by rwa [List.getElem?_append_left (by omega)] at hu⟩
    rw [List.map_append, List.map_singleton, keyEvents_snoc, keyEvents_snoc, ih hr' hf',
      List.map_append]
    congr 1
    cases e with
    | wait n => rfl
    | write r v =>
      by_cases h8 : r = 8
      · subst h8
        have : raised k (.write 8 v) = .write 8 v := by
          simp only [raised]; rw [if_neg (by decide)]
        rw [this]
        simp only [if_true, List.map_cons, List.map_nil, List.cons.injEq, and_true]
        apply keyEventAt_raised hr'
        obtain ⟨j, u, hj, hu⟩ := hf h.length v (by simp)
        rw [List.getElem?_append_left hj] at hu
        exact ⟨u, List.mem_of_getElem? hu⟩
      · simp only [raised]
        by_cases hq : isKeyCode r
        · rw [if_pos hq]; simp [h8]
        · rw [if_neg hq]; simp [h8]

theorem noteOf_raised {k : Nat} {h : List Event} (hr : CanRaise k h) (hf : KeyCodeFirst h)
    (e : KeyEvent) :
    noteOf (h.map (raised k)) (KeyEvent.up k e) = Spec.Note.raised k (noteOf h e) := by
  have := instruments_map (h := h) (h' := h.map (raised k)) (KeyEvent.up k)
    (fun _ => rfl) (keyEvents_raised hr hf)
  simp only [noteOf, Spec.Note.raised, this]
  rfl

/-- C84. Raising every key code by `k` octaves raises every note by `k` octaves and changes
nothing else. -/
theorem c84_notes (h : List Event) (hb : ByteHistory h) (k : Nat) (hr : CanRaise k h)
    (hf : KeyCodeFirst h) :
    (run (h.map (raised k))).configs = (run h).configs ∧
    (run (h.map (raised k))).ticks = (run h).ticks ∧
    ∀ c < 8, (run (h.map (raised k))).keyPressesOf c
      = ((run h).keyPressesOf c).map (Spec.Note.raised k) := by
  have hb' := raised_byte hb hr
  refine ⟨configs_map hb hb' (KeyEvent.up k) (fun _ => rfl) (keyEvents_raised hr hf), ?_, ?_⟩
  · have := alike_ticks hb hb' id (fun _ _ h => h) (by
      intro t
      rw [keyEvents_raised hr hf]
      simp only [List.mem_map]
      constructor
      · rintro ⟨_, ⟨e, he, rfl⟩, ho, rfl⟩; exact ⟨e, he, ho, rfl⟩
      · rintro ⟨e, he, ho, rfl⟩; exact ⟨_, ⟨e, he, rfl⟩, ho, rfl⟩)
    rw [this, List.map_id]
  · intro c hc
    rw [c22_key_presses _ hb' c hc, c22_key_presses h hb c hc, recorded_dropWhile,
      recorded_dropWhile, keyEvents_raised hr hf, List.dropWhile_map, List.filter_map,
      List.map_map, List.map_map]
    have e1 : (fun e => noteOf (h.map (raised k)) (KeyEvent.up k e))
        = fun e => Spec.Note.raised k (noteOf h e) := funext fun e => noteOf_raised hr hf e
    show List.map (fun e => noteOf (h.map (raised k)) (KeyEvent.up k e)) _ = _
    rw [e1]
    rfl

/-- C84, for the song: the same cells are filled, with the same instruments and panning; key-offs
stay key-offs, and every other note is `12 k` semitones higher. Nothing else is different. -/
theorem c84_song (h : List Event) (hb : ByteHistory h) (k t : Nat) (hr : CanRaise k h)
    (hf : KeyCodeFirst h) (ht : 0 < t) (hm : t < maxTicks) :
    ∃ d d', exportXrns (run h) t = .ok d ∧ exportXrns (run (h.map (raised k))) t = .ok d' ∧
      d'.globalSongData = d.globalSongData ∧ d'.instruments = d.instruments ∧
      ∀ c < 8, ∀ row,
        (rowOf d c row = none ∧ rowOf d' c row = none) ∨
        ∃ col col', rowOf d c row = some [col] ∧ rowOf d' c row = some [col'] ∧
          col'.instrument = col.instrument ∧ col'.panning = col.panning ∧
          ((col.note = "Off".toList ∧ col'.note = "Off".toList) ∨
            ∃ x, pitchOfName col.note = some x ∧ pitchOfName col'.note = some (x + 12 * k)) := by
  have hb' := raised_byte hb hr
  obtain ⟨e1, _, e3⟩ := c84_notes h hb k hr hf
  obtain ⟨d, e, hd⟩ := cell_eq h hb t ht hm
  obtain ⟨d', e', hd'⟩ := cell_eq _ hb' t ht hm
  refine ⟨d, d', e, e', ?_, ?_, ?_⟩
  · obtain ⟨p, _, x⟩ := export_run h hb t ht hm
    obtain ⟨p', _, x'⟩ := export_run _ hb' t ht hm
    rw [x] at e; rw [x'] at e'
    cases e; cases e'
    rfl
  · obtain ⟨p, _, x⟩ := export_run h hb t ht hm
    obtain ⟨p', _, x'⟩ := export_run _ hb' t ht hm
    rw [x] at e; rw [x'] at e'
    cases e; cases e'
    simp only [render]
    rw [e1]
  · intro c hc row
    unfold rowOf
    rw [hd _ _ _ hc (Nat.mod_lt _ (by omega)), hd' _ _ _ hc (Nat.mod_lt _ (by omega)),
      Nat.div_add_mod, e3 c hc]
    have hon : onRow (((run h).keyPressesOf c).map (Spec.Note.raised k)) t row
        = (onRow ((run h).keyPressesOf c) t row).map (Spec.Note.raised k) := by
      unfold onRow
      rw [List.filter_map]
      rfl
    rw [hon, List.getLast?_map]
    cases hl : (onRow ((run h).keyPressesOf c) t row).getLast? with
    | none => exact .inl ⟨rfl, rfl⟩
    | some n =>
      have hmem : n ∈ (run h).keyPressesOf c :=
        (List.mem_filter.mp (List.mem_of_getLast? hl)).1
      have hnote := ((c25_ranges h hb).2.2.2 c hc n hmem).2.1
      refine .inr ⟨_, _, rfl, rfl, rfl, rfl, ?_⟩
      by_cases hid : n.configId < 0
      · have off : ∀ m : Note, m.configId < 0 → (lineOf m).note = "Off".toList := by
          intro m hm
          simp only [lineOf, Note.xrnsNote]; rw [if_pos hm]; rfl
        exact .inl ⟨off n hid, off (Spec.Note.raised k n) hid⟩
      · refine .inr ?_
        obtain ⟨s, hs, hp⟩ := xrns_pitch n (by omega) (by omega)
        obtain ⟨s', hs', hp'⟩ := xrns_pitch (Spec.Note.raised k n)
          (show 0 ≤ n.configId by omega) (show n.note ≤ 15 by omega)
        have hl : (lineOf n).note = s := by simp only [lineOf, hs]; rfl
        have hl' : (lineOf (Spec.Note.raised k n)).note = s' := by simp only [lineOf, hs']; rfl
        refine ⟨_, (congrArg pitchOfName hl).trans hp, ?_⟩
        show pitchOfName (lineOf (Spec.Note.raised k n)).note = _
        rw [hl', hp']
        have key : ∀ q, 12 * (n.octave + k) + q = 12 * n.octave + q + 12 * k := by intro q; omega
        exact congrArg some (key _)

/-- The sample can be raised by three octaves, from A-4 to A-7. -/
example : ByteHistory sample ∧ CanRaise 3 sample ∧ KeyCodeFirst sample ∧
    (run sample).keyPressesOf 1 ≠ [] := by
  refine ⟨sample_byte, ?_, ?_, by decide +kernel⟩
  · intro r v hm hk
    simp [sample, isKeyCode] at hm hk
    omega
  · intro i v hi
    refine ⟨1, 0x4A, ?_, ?_⟩
    · match i, hi with
      | 3, _ | 7, _ | 9, _ => omega
    · match i, hi with
      | 3, hi | 7, hi | 9, hi => cases hi; rfl

/-! ### C85: a coarser grid -/

theorem last_coarse {α : Type} (q : α → Nat) (k r : Nat) (L : List α)
    (hs : L.Pairwise (fun a b => q a ≤ q b)) (n : α)
    (hn : (L.filter (fun m => decide (q m / k = r))).getLast? = some n) :
    (L.filter (fun m => decide (q m = q n))).getLast? = some n ∧
    ∀ m ∈ L, q m / k = r → q m ≤ q n := by
  induction L using list_snoc_ind with
  | nil => cases hn
  | snoc L x ih =>
    rw [List.pairwise_append] at hs
    obtain ⟨hs1, _, hs2⟩ := hs
    rw [List.filter_append, List.filter_singleton] at hn ⊢
    by_cases hx : q x / k = r
    · simp only [hx, decide_true, cond_true, List.getLast?_append, List.getLast?_singleton,
        Option.some_or, Option.some.injEq] at hn
      subst hn
      simp only [decide_true, cond_true, List.getLast?_append, List.getLast?_singleton,
        Option.some_or, true_and]
      intro m hm _
      rcases List.mem_append.mp hm with hm | hm
      · exact hs2 m hm x (by simp)
      · rw [List.mem_singleton.mp hm]
    · simp only [hx, decide_false, cond_false, List.append_nil] at hn
      obtain ⟨h1, h2⟩ := ih hs1 hn
      have hnr : q n / k = r := by
        have := (List.mem_filter.mp (List.mem_of_getLast? hn)).2
        simpa using this
      have : q x ≠ q n := fun e => hx (by rw [e]; exact hnr)
      simp only [this, decide_false, cond_false, List.append_nil]
      refine ⟨h1, fun m hm hr => ?_⟩
      rcases List.mem_append.mp hm with hm | hm
      · exact h2 m hm hr
      · rw [List.mem_singleton.mp hm] at hr; exact absurd hr hx

/-- C85. On a grid `k` times as coarse, a row shows what the last non-empty one of the `k` rows
that it covers shows on the fine grid, and is empty if they are all empty. -/
theorem c85_coarser (h : List Event) (hb : ByteHistory h) (k t : Nat) (hk : 0 < k) (ht : 0 < t)
    (hm : k * t < maxTicks) :
    ∃ d d', exportXrns (run h) t = .ok d ∧ exportXrns (run h) ((k * t : Nat) : Int) = .ok d' ∧
      d'.instruments = d.instruments ∧
      ∀ c < 8, ∀ row,
        (rowOf d' c row = none ↔ ∀ j < k, rowOf d c (k * row + j) = none) ∧
        ∀ j < k, rowOf d c (k * row + j) ≠ none →
          (∀ i, j < i → i < k → rowOf d c (k * row + i) = none) →
          rowOf d' c row = rowOf d c (k * row + j) := by
  have hm1 : t < maxTicks := Nat.lt_of_le_of_lt (Nat.le_mul_of_pos_left t hk) hm
  have ht2 : 0 < k * t := Nat.mul_pos hk ht
  obtain ⟨d, e, hd⟩ := cell_eq h hb t ht hm1
  obtain ⟨d', e', hd'⟩ := cell_eq h hb (k * t) ht2 hm
  refine ⟨d, d', e, e', ?_, ?_⟩
  · obtain ⟨p, _, x⟩ := export_run h hb t ht hm1
    obtain ⟨p', _, x'⟩ := export_run h hb (k * t) ht2 hm
    rw [x] at e; rw [x'] at e'
    cases e; cases e'
    rfl
  · intro c hc row
    have hR : ∀ row, rowOf d c row = (onRow ((run h).keyPressesOf c) t row).getLast?.map
        (fun n => [⟨(lineOf n).note, (lineOf n).instrument, (lineOf n).pan⟩]) := by
      intro row
      unfold rowOf
      rw [hd _ _ _ hc (Nat.mod_lt _ (by omega)), Nat.div_add_mod]
    have hR' : rowOf d' c row = (((run h).keyPressesOf c).filter
        (fun m => decide (m.sample / t / k = row))).getLast?.map
        (fun n => [⟨(lineOf n).note, (lineOf n).instrument, (lineOf n).pan⟩]) := by
      unfold rowOf
      rw [hd' _ _ _ hc (Nat.mod_lt _ (by omega)), Nat.div_add_mod]
      unfold onRow
      congr 2
      apply List.filter_congr
      intro n _
      rw [Nat.div_div_eq_div_mul, Nat.mul_comm t k]
    have hs : ((run h).keyPressesOf c).Pairwise (fun a b => a.sample / t ≤ b.sample / t) :=
      (c22_chronological h hb c hc).imp (fun h => Nat.div_le_div_right h)
    generalize (run h).keyPressesOf c = L at hR hR' hs
    have hnone : ∀ row, rowOf d c row = none ↔ ∀ n ∈ L, n.sample / t ≠ row := by
      intro row
      rw [hR, Option.map_eq_none_iff, List.getLast?_eq_none_iff]
      unfold onRow
      rw [List.filter_eq_nil_iff]
      simp
    have hnone' : rowOf d' c row = none ↔ ∀ n ∈ L, n.sample / t / k ≠ row := by
      rw [hR', Option.map_eq_none_iff, List.getLast?_eq_none_iff, List.filter_eq_nil_iff]
      simp
    have hdm : ∀ x : Nat, x / k = row ↔ ∃ j < k, x = k * row + j := by
      intro x
      constructor
      · rintro rfl; exact ⟨x % k, Nat.mod_lt _ hk, (Nat.div_add_mod x k).symm⟩
      · rintro ⟨j, hj, rfl⟩
        rw [Nat.mul_add_div hk, Nat.div_eq_of_lt hj, Nat.add_zero]
    refine ⟨?_, ?_⟩
    · rw [hnone']
      constructor
      · intro hall j hj
        rw [hnone]
        intro n hn hx
        exact hall n hn ((hdm _).mpr ⟨j, hj, hx⟩)
      · intro hall n hn hx
        obtain ⟨j, hj, hx⟩ := (hdm _).mp hx
        exact (hnone _).mp (hall j hj) n hn hx
    · intro j hj hne hlast
      have hex : ∃ m ∈ L, m.sample / t = k * row + j := by
        by_contra hcon
        apply hne
        rw [hnone]
        intro n hn hx
        exact hcon ⟨n, hn, hx⟩
      obtain ⟨m, hmL, hmx⟩ := hex
      have hmf : m ∈ L.filter (fun m => decide (m.sample / t / k = row)) := by
        rw [List.mem_filter]
        exact ⟨hmL, by simpa using (hdm _).mpr ⟨j, hj, hmx⟩⟩
      cases hl : (L.filter (fun m => decide (m.sample / t / k = row))).getLast? with
      | none => rw [List.getLast?_eq_none_iff] at hl; rw [hl] at hmf; cases hmf
      | some n =>
        obtain ⟨h1, h2⟩ := last_coarse (fun n => n.sample / t) k row L hs n hl
        have hnm := List.mem_filter.mp (List.mem_of_getLast? hl)
        obtain ⟨i, hi, hix⟩ := (hdm (n.sample / t)).mp (by simpa using hnm.2)
        have hle := h2 m hmL ((hdm _).mpr ⟨j, hj, hmx⟩)
        have hij : i = j := by
          rcases Nat.lt_trichotomy i j with hlt | heq | hgt
          · omega
          · exact heq
          · exact absurd hix ((hnone _).mp (hlast i hgt hi) n hnm.1)
        subst hij
        rw [hR', hl, hR]
        unfold onRow
        rw [hix] at h1
        rw [h1]

/-- On the coarser grid of 100 samples the notes at 100, 150 and 157 share row 1, whose fine rows
are 2 and 3. -/
example : (onRow ((run sample).keyPressesOf 1) 100 1).length = 3 ∧ 2 * 50 < maxTicks := by
  refine ⟨by decide +kernel, by decide +kernel⟩

/-! ### C86: going on -/

theorem keyEvents_append (h t : List Event) :
    ∃ new, keyEvents (h ++ t) = keyEvents h ++ new ∧ ∀ e ∈ new, time h ≤ e.time := by
  induction t using list_snoc_ind with
  | nil => exact ⟨[], by simp, by simp⟩
  | snoc t e ih =>
    obtain ⟨new, h1, h2⟩ := ih
    rw [← List.append_assoc, keyEvents_snoc, h1, List.append_assoc]
    refine ⟨_, rfl, ?_⟩
    intro x hx
    rcases List.mem_append.mp hx with hx | hx
    · exact h2 x hx
    · cases e with
      | wait n => cases hx
      | write r v =>
        by_cases h8 : r = 8
        · simp only [h8, if_true, List.mem_singleton] at hx
          subst hx
          show time h ≤ time (h ++ t)
          rw [time_append]; omega
        · simp [h8] at hx

theorem noteOf_append {h t : List Event} {e : KeyEvent} (he : e ∈ keyEvents h) :
    noteOf (h ++ t) e = noteOf h e := by
  unfold noteOf
  by_cases ho : e.isOn
  · have hp : e.patch ∈ instruments h := by
      unfold instruments
      rw [List.mem_eraseDups]
      unfold patchesKeyedOn
      rw [List.mem_map]
      exact ⟨e, List.mem_filter.mpr ⟨he, by simpa using ho⟩, rfl⟩
    obtain ⟨l, hl⟩ := patchesKeyedOn_append h t
    have : (instruments (h ++ t)).idxOf e.patch = (instruments h).idxOf e.patch := by
      unfold instruments at hp ⊢
      rw [hl, List.eraseDups_append, List.idxOf_append_of_mem hp]
    rw [this]
  · simp only [if_neg ho]

/-- C86. If a recording goes on, the instruments and notes so far stay as they are, with their
numbers; new ones are added at the end, and new notes are no earlier than the end so far. -/
theorem c86_notes (h t : List Event) (hb : ByteHistory (h ++ t)) :
    (run h).configs <+: (run (h ++ t)).configs ∧
    ∀ c < 8, ∃ new, (run (h ++ t)).keyPressesOf c = (run h).keyPressesOf c ++ new ∧
      ∀ n ∈ new, time h ≤ n.sample := by
  have hb' : ByteHistory h := fun e he => hb e (by simp [he])
  refine ⟨c19_grows h t hb, ?_⟩
  intro c hc
  obtain ⟨new, h1, h2⟩ := keyEvents_append h t
  have hrec : ∃ new', recorded (h ++ t) = recorded h ++ new' ∧ ∀ e ∈ new', time h ≤ e.time := by
    rw [recorded_dropWhile, recorded_dropWhile, h1, List.dropWhile_append]
    by_cases hall : (List.dropWhile (fun e : KeyEvent => !decide (e.isOn ∧ 0 < e.time))
        (keyEvents h)).isEmpty = true
    · rw [if_pos hall, List.isEmpty_iff.mp hall]
      exact ⟨_, rfl, fun e he => h2 e ((List.dropWhile_sublist _).mem he)⟩
    · rw [if_neg hall]
      exact ⟨_, rfl, h2⟩
  obtain ⟨new', h3, h4⟩ := hrec
  rw [c22_key_presses _ hb c hc, c22_key_presses h hb' c hc, h3, List.filter_append,
    List.map_append]
  refine ⟨(new'.filter (fun e => decide (e.ch = c))).map (noteOf (h ++ t)), ?_, ?_⟩
  · congr 1
    apply List.map_congr_left
    intro e he
    exact noteOf_append ((recorded_sublist h).mem (List.mem_filter.mp he).1)
  · intro n hn
    obtain ⟨e, he, rfl⟩ := List.mem_map.mp hn
    exact h4 e (List.mem_filter.mp he).1

/-- C86. So do the key-on times. -/
theorem c86_ticks (h t : List Event) (hb : ByteHistory (h ++ t)) :
    (run h).ticks <+: (run (h ++ t)).ticks := by
  have hb' : ByteHistory h := fun e he => hb e (by simp [he])
  have hmem : ∀ (h : List Event), ByteHistory h → ∀ t, t ∈ (run h).ticks ↔
      ∃ e ∈ keyEvents h, e.isOn ∧ e.time = t := by
    intro h hb t
    have hperm := pySorted_perm (fun a b => decide (a < b)) (run h).noteBeats
    have : t ∈ (run h).ticks ↔ t ∈ (run h).noteBeats := hperm.mem_iff
    rw [this, (inv_run h hb).beats]
  obtain ⟨new, h1, h2⟩ := keyEvents_append h t
  have hle : ∀ x ∈ (run h).ticks, x ≤ time h := by
    intro x hx
    obtain ⟨e, he, _, rfl⟩ := (hmem h hb' x).mp hx
    obtain ⟨i, v, _, rfl⟩ := (mem_keyEvents h e).mp he
    show time (h.take i) ≤ time h
    conv => rhs; rw [← List.take_append_drop i h]
    rw [time_append]; omega
  have hnew : ∀ x ∈ (run (h ++ t)).ticks, x ∉ (run h).ticks → time h ≤ x := by
    intro x hx hn
    obtain ⟨e, he, ho, rfl⟩ := (hmem _ hb x).mp hx
    rw [h1] at he
    rcases List.mem_append.mp he with he | he
    · exact absurd ((hmem h hb' _).mpr ⟨e, he, ho, rfl⟩) hn
    · exact h2 e he
  refine ⟨(run (h ++ t)).ticks.filter (fun x => decide (x ∉ (run h).ticks)), ?_⟩
  apply sorted_ext _ _ _ (c23_ticks _ hb).1
  · intro x
    rw [List.mem_append, List.mem_filter]
    constructor
    · rintro (hx | hx)
      · obtain ⟨e, he, ho, rfl⟩ := (hmem h hb' x).mp hx
        exact (hmem _ hb _).mpr ⟨e, by rw [h1]; exact List.mem_append_left _ he, ho, rfl⟩
      · exact hx.1
    · intro hx
      by_cases hm : x ∈ (run h).ticks
      · exact .inl hm
      · exact .inr ⟨hx, by simpa using hm⟩
  · rw [List.pairwise_append]
    refine ⟨(c23_ticks h hb').1, (c23_ticks _ hb).1.filter _, ?_⟩
    intro a ha b hbm
    obtain ⟨hb1, hb2⟩ := List.mem_filter.mp hbm
    have hb2 : b ∉ (run h).ticks := by simpa using hb2
    have := hle a ha
    have := hnew b hb1 hb2
    rcases Nat.lt_or_ge a b with hlt | hge
    · exact hlt
    · exact absurd (by have : a = b := by omega
                       rw [← this]; exact ha) hb2

/-- C86, for the song: the rows before the one in which the recording so far ends stay as they
are, that row at least does not become empty, and the tempo stays. -/
theorem c86_song (h t : List Event) (hb : ByteHistory (h ++ t)) (k : Nat) (hk : 0 < k)
    (hm : k < maxTicks) :
    ∃ d d', exportXrns (run h) k = .ok d ∧ exportXrns (run (h ++ t)) k = .ok d' ∧
      d'.globalSongData = d.globalSongData ∧ d.instruments <+: d'.instruments ∧
      ∀ c < 8, (∀ row < time h / k, rowOf d' c row = rowOf d c row) ∧
        (rowOf d c (time h / k) ≠ none → rowOf d' c (time h / k) ≠ none) ∧
        ∀ row > time h / k, rowOf d c row = none := by
  have hb' : ByteHistory h := fun e he => hb e (by simp [he])
  obtain ⟨e1, e3⟩ := c86_notes h t hb
  obtain ⟨d, e, hd⟩ := cell_eq h hb' k hk hm
  obtain ⟨d', e', hd'⟩ := cell_eq _ hb k hk hm
  refine ⟨d, d', e, e', ?_, ?_, ?_⟩
  · obtain ⟨p, _, x⟩ := export_run h hb' k hk hm
    obtain ⟨p', _, x'⟩ := export_run _ hb k hk hm
    rw [x] at e; rw [x'] at e'
    cases e; cases e'
    rfl
  · obtain ⟨p, _, x⟩ := export_run h hb' k hk hm
    obtain ⟨p', _, x'⟩ := export_run _ hb k hk hm
    rw [x] at e; rw [x'] at e'
    cases e; cases e'
    simp only [render, List.map_replicate]
    rw [List.prefix_replicate_iff]
    simp
    exact e1.length_le
  · intro c hc
    obtain ⟨new, hnew, hlate⟩ := e3 c hc
    have hR : ∀ row, rowOf d c row = (onRow ((run h).keyPressesOf c) k row).getLast?.map
        (fun n => [⟨(lineOf n).note, (lineOf n).instrument, (lineOf n).pan⟩]) := by
      intro row
      unfold rowOf
      rw [hd _ _ _ hc (Nat.mod_lt _ (by omega)), Nat.div_add_mod]
    have hR' : ∀ row, rowOf d' c row = (onRow ((run h).keyPressesOf c) k row
          ++ onRow new k row).getLast?.map
        (fun n => [⟨(lineOf n).note, (lineOf n).instrument, (lineOf n).pan⟩]) := by
      intro row
      unfold rowOf
      rw [hd' _ _ _ hc (Nat.mod_lt _ (by omega)), Nat.div_add_mod, hnew]
      unfold onRow
      rw [List.filter_append]
    refine ⟨?_, ?_, ?_⟩
    · intro row hlt
      have : onRow new k row = [] := by
        unfold onRow
        rw [List.filter_eq_nil_iff]
        intro n hn
        have := Nat.div_le_div_right (c := k) (hlate n hn)
        simp
        omega
      rw [hR, hR', this, List.append_nil]
    · rw [hR, hR']
      intro hne he
      apply hne
      rw [Option.map_eq_none_iff, List.getLast?_eq_none_iff] at he ⊢
      exact (List.append_eq_nil_iff.mp he).1
    · intro row hgt
      rw [hR, Option.map_eq_none_iff, List.getLast?_eq_none_iff]
      unfold onRow
      rw [List.filter_eq_nil_iff]
      intro n hn
      obtain ⟨i, v, h1, _, h3, _⟩ := c24_note_capture h hb' c hc n hn
      have : n.sample ≤ time h := by
        rw [h3]
        conv => rhs; rw [← List.take_append_drop i h]
        rw [time_append]; omega
      have := Nat.div_le_div_right (c := k) this
      simp
      omega

/-- The sample, going on with a new instrument on another channel. -/
example : ByteHistory (sample ++ [.wait 500, .write 0x61 9, .write 8 0x7A]) ∧
    (run (sample ++ [.wait 500, .write 0x61 9, .write 8 0x7A])).ticks = [100, 150, 657] ∧
    (run sample).ticks = [100, 150] ∧ time sample / 50 = 3 := by decide +kernel

end VgmX
