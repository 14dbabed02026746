import Verif.Spec.Score
import Verif.Props.EndToEnd
import Verif.Props.Parts
import Mathlib.Tactic.IntervalCases
/-
Property C119: a score that is written as a recording is got back. Vocabulary: Spec/Score.lean.
-/

namespace VgmX
open Spec

/-! ### The settings before a key -/

/-- The writes as events. -/
def writesOf (l : List (Nat × Nat)) : List Event := l.map fun x => .write x.1 x.2

theorem writesTo_writesOf (l : List (Nat × Nat)) (r : Nat) (f : Nat → Bool) :
    writesTo (writesOf l) r f = (l.filter (fun x => decide (x.1 = r ∧ f x.2))).map (·.2) := by
  induction l with
  | nil => rfl
  | cons x l ih =>
    unfold writesTo writesOf at ih ⊢
    rw [List.map_cons, List.filterMap_cons, List.filter_cons, ih]
    by_cases h : x.1 = r ∧ f x.2 = true
    · simp [h]
    · simp [h]

theorem regVal_writesOf (h : List Event) (l : List (Nat × Nat)) (hn : (l.map (·.1)).Nodup)
    (r v : Nat) (hm : (r, v) ∈ l) : regVal (h ++ writesOf l) r = v := by
  have hf : l.filter (fun x => decide (x.1 = r ∧ (fun _ => true) x.2)) = [(r, v)] := by
    induction l with
    | nil => cases hm
    | cons x l ih =>
      rw [List.map_cons, List.nodup_cons] at hn
      rw [List.filter_cons]
      rcases List.mem_cons.mp hm with rfl | hm
      · rw [if_pos (by simp)]
        have : l.filter (fun x => decide (x.1 = r ∧ (fun _ => true) x.2)) = [] := by
          rw [List.filter_eq_nil_iff]
          intro y hy he
          apply hn.1
          rw [List.mem_map]
          exact ⟨y, hy, by simpa using he⟩
        rw [this]
      · rw [if_neg]
        · exact ih hn.2 hm
        · intro he
          apply hn.1
          have : x.1 = r := by simpa using he
          rw [this, List.mem_map]
          exact ⟨_, hm, rfl⟩
  unfold regVal
  rw [writesTo_append', writesTo_writesOf, hf]
  simp

theorem regVal_other (h : List Event) (l : List (Nat × Nat)) (r : Nat) (hm : ∀ x ∈ l, x.1 ≠ r) :
    regVal (h ++ writesOf l) r = regVal h r := by
  unfold regVal
  have hf : l.filter (fun x => decide (x.1 = r ∧ (fun _ => true) x.2)) = [] := by
    rw [List.filter_eq_nil_iff]
    intro x hx he
    exact hm x hx (by simpa using he)
  rw [writesTo_append', writesTo_writesOf, hf]
  simp

theorem four_operators {l : List OperatorConfig} (h : l.length = 4) :
    ∃ a b c d, l = [a, b, c, d] := by
  match l, h with
  | [a, b, c, d], _ => exact ⟨a, b, c, d, rfl⟩

theorem settings_nodup (s : Stroke) (hs : StrokeFits s) : ((settings s).map (·.1)).Nodup := by
  obtain ⟨a, b, c, d, e⟩ := four_operators hs.four
  have hc := hs.ch
  unfold settings operatorWrites
  rw [e]
  generalize s.ch = ch at hc
  interval_cases ch <;> simp

theorem settings_regs (s : Stroke) (hs : StrokeFits s) :
    ∀ x ∈ settings s, x.1 ≠ 0x19 ∧ x.1 ≠ 0x08 ∧ x.1 < 256 := by
  obtain ⟨a, b, c, d, e⟩ := four_operators hs.four
  have hc := hs.ch
  unfold settings operatorWrites
  rw [e]
  generalize s.ch = ch at hc
  interval_cases ch <;> simp

/-- Everything before the key of a stroke. -/
def upToKey (s : Stroke) : List Event :=
  (waits s.wait).map .wait ++ writesOf (settings s ++ [(0x19, s.patch.base.ampMd),
    (0x19, 128 + s.patch.base.phsMd)])

theorem regVal_upToKey (h : List Event) (s : Stroke) (hs : StrokeFits s) (r v : Nat)
    (hm : (r, v) ∈ settings s) : regVal (h ++ upToKey s) r = v := by
  have e : h ++ upToKey s = (h ++ (waits s.wait).map .wait ++ writesOf (settings s)) ++
      writesOf [(0x19, s.patch.base.ampMd), (0x19, 128 + s.patch.base.phsMd)] := by
    simp [upToKey, writesOf]
  rw [e, regVal_other]
  · exact regVal_writesOf _ _ (settings_nodup s hs) r v hm
  · intro x hx
    have := (settings_regs s hs _ hm).1
    simp only [List.mem_cons, List.not_mem_nil, or_false] at hx
    rcases hx with rfl | rfl <;> exact fun h => this h.symm

theorem low_upToKey (h : List Event) (s : Stroke) (hs : StrokeFits s) :
    (writesTo (h ++ upToKey s) 0x19 (fun v => decide (v < 128))).getLast?.getD 0
      = s.patch.base.ampMd := by
  have e : h ++ upToKey s = (h ++ (waits s.wait).map .wait ++ writesOf (settings s)) ++
      writesOf [(0x19, s.patch.base.ampMd), (0x19, 128 + s.patch.base.phsMd)] := by
    simp [upToKey, writesOf]
  rw [e, writesTo_append', writesTo_writesOf]
  simp [hs.ampMd]

theorem high_upToKey (h : List Event) (s : Stroke) (hs : StrokeFits s) :
    (writesTo (h ++ upToKey s) 0x19 (fun v => decide (128 ≤ v))).getLast?.getD 0
      = 128 + s.patch.base.phsMd := by
  have e : h ++ upToKey s = (h ++ (waits s.wait).map .wait ++ writesOf (settings s)) ++
      writesOf [(0x19, s.patch.base.ampMd), (0x19, 128 + s.patch.base.phsMd)] := by
    simp [upToKey, writesOf]
  have := hs.ampMd
  rw [e, writesTo_append', writesTo_writesOf]
  simp [show ¬ 128 ≤ s.patch.base.ampMd by omega]

theorem bit_le (b : Bool) (n : Nat) : bit b n = if b then n else 0 := rfl

theorem operator_upToKey (h : List Event) (s : Stroke) (hs : StrokeFits s) (k : Nat)
    (o : OperatorConfig) (ho : s.patch.channel.operators[k]? = some o) :
    operatorWith (· % 16) (h ++ upToKey s) s.ch k = o := by
  have hm : ∀ x ∈ operatorWrites s.ch k o, x ∈ settings s := by
    intro x hx
    unfold settings
    rw [List.mem_append]
    right
    rw [List.mem_flatten]
    refine ⟨_, ?_, hx⟩
    rw [List.mem_iff_getElem?]
    refine ⟨k, ?_⟩
    rw [List.getElem?_mapIdx, ho]
    rfl
  have hf := hs.each o (List.mem_of_getElem? ho)
  unfold operatorWith
  rw [regVal_upToKey h s hs _ _ (hm (0x40 + 8 * k + s.ch, 16 * o.firstDetune + o.multiply)
      (by simp [operatorWrites])),
    regVal_upToKey h s hs _ _ (hm (0x60 + 8 * k + s.ch, o.totalLevel) (by simp [operatorWrites])),
    regVal_upToKey h s hs _ _ (hm (0x80 + 8 * k + s.ch, 64 * o.keyScale + o.attackRate)
      (by simp [operatorWrites])),
    regVal_upToKey h s hs _ _ (hm (0xA0 + 8 * k + s.ch, bit o.ase 128 + o.firstDecayRate)
      (by simp [operatorWrites])),
    regVal_upToKey h s hs _ _ (hm (0xC0 + 8 * k + s.ch, 64 * o.secondDetune + o.secondDecayRate)
      (by simp [operatorWrites])),
    regVal_upToKey h s hs _ _ (hm (0xE0 + 8 * k + s.ch, 16 * o.firstDecayLevel + o.releaseRate)
      (by simp [operatorWrites]))]
  obtain ⟨h1, h2, h3, h4, h5, h6, h7, h8, h9, h10⟩ := hf
  cases o with
  | mk tl ar d1r d1l d2r rr ks mul dt1 dt2 ase =>
    simp only at h1 h2 h3 h4 h5 h6 h7 h8 h9 h10
    simp only [OperatorConfig.mk.injEq]
    cases ase <;> simp only [bit, if_true, Bool.false_eq_true, if_false, decide_eq_true_eq,
      decide_eq_false_iff_not] <;> omega

theorem base_upToKey (h : List Event) (s : Stroke) (hs : StrokeFits s) :
    Spec.base (h ++ upToKey s) = s.patch.base := by
  unfold Spec.base
  rw [low_upToKey h s hs, high_upToKey h s hs,
    regVal_upToKey h s hs 0x18 s.patch.base.lfo (by simp [settings]),
    regVal_upToKey h s hs 0x1B (waveCode s.patch.base.waveform) (by simp [settings])]
  have := hs.phsMd
  rw [show (128 + s.patch.base.phsMd) % 128 = s.patch.base.phsMd by omega]
  cases s.patch.base with
  | mk w l a p => cases w <;> rfl

theorem channel_upToKey (h : List Event) (s : Stroke) (hs : StrokeFits s) :
    Spec.channel (h ++ upToKey s) s.ch = s.patch.channel := by
  obtain ⟨a, b, c, d, e⟩ := four_operators hs.four
  have ha := operator_upToKey h s hs 0 a (by rw [e]; rfl)
  have hb := operator_upToKey h s hs 1 b (by rw [e]; rfl)
  have hc := operator_upToKey h s hs 2 c (by rw [e]; rfl)
  have hd := operator_upToKey h s hs 3 d (by rw [e]; rfl)
  have h20 := regVal_upToKey h s hs (0x20 + s.ch) 
    (bit s.pitch.right 128 + bit s.pitch.left 64 + 8 * s.patch.channel.fb
      + s.patch.channel.connection) (by simp [settings])
  have h38 := regVal_upToKey h s hs (0x38 + s.ch)
    (16 * s.patch.channel.pms + s.patch.channel.ams) (by simp [settings])
  have hn : decide (s.ch = 7 ∧ 128 ≤ regVal (h ++ upToKey s) 0x0F) = s.patch.channel.noise ∧
      (if s.ch = 7 then regVal (h ++ upToKey s) 0x0F % 32 else 0) = s.patch.channel.noiseFreq := by
    by_cases h7 : s.ch = 7
    · have := regVal_upToKey h s hs 0x0F (bit s.patch.channel.noise 128 + s.patch.channel.noiseFreq)
        (by simp [settings, h7])
      have h5 := hs.noiseFreq
      rw [this]
      cases s.patch.channel.noise <;> simp [h7, bit] <;> omega
    · have := hs.noise h7
      simp [h7, this]
  unfold Spec.channel channelWith
  rw [ha, hb, hc, hd, h20, h38, hn.1, hn.2]
  have h1 := hs.fb
  have h2 := hs.connection
  have h3 := hs.pms
  have h4 := hs.ams
  generalize s.patch.channel = ch at *
  cases ch with
  | mk ops fb ams pms con noise nf =>
    simp only at *
    simp only [ChannelConfig.mk.injEq, e, true_and, and_true]
    unfold bit
    cases s.pitch.right <;> cases s.pitch.left <;> simp <;> omega

theorem note_upToKey (h : List Event) (s : Stroke) (hs : StrokeFits s) :
    Spec.noteConfig (h ++ upToKey s) s.ch = s.pitch := by
  have h20 := regVal_upToKey h s hs (0x20 + s.ch) 
    (bit s.pitch.right 128 + bit s.pitch.left 64 + 8 * s.patch.channel.fb
      + s.patch.channel.connection) (by simp [settings])
  have h28 := regVal_upToKey h s hs (0x28 + s.ch) (16 * s.pitch.octave + s.pitch.note)
    (by simp [settings])
  have h30 := regVal_upToKey h s hs (0x30 + s.ch) (4 * s.pitch.keyFraction) (by simp [settings])
  unfold Spec.noteConfig
  rw [h20, h28, h30]
  have h1 := hs.fb
  have h2 := hs.connection
  have h3 := hs.octave
  have h4 := hs.note
  generalize s.pitch = p at *
  cases p with
  | mk r l o n k =>
    simp only at *
    simp only [NoteConfig.mk.injEq]
    unfold bit
    cases r <;> cases l <;> simp <;> omega

/-! ### The key events of a score -/

theorem keyEvents_noKey (p t : List Event) (ht : ∀ v, Event.write 8 v ∉ t) :
    keyEvents (p ++ t) = keyEvents p := by
  induction t using list_snoc_ind with
  | nil => simp
  | snoc t e ih =>
    rw [← List.append_assoc, keyEvents_snoc, ih (fun v hv => ht v (by simp [hv]))]
    cases e with
    | wait n => simp
    | write r v =>
      have : r ≠ 8 := by rintro rfl; exact ht v (by simp)
      simp [this]

theorem upToKey_noKey (s : Stroke) (hs : StrokeFits s) : ∀ v, Event.write 8 v ∉ upToKey s := by
  intro v hv
  simp only [upToKey, writesOf, List.mem_cons, List.mem_map, List.mem_append, reduceCtorEq,
    and_false, exists_false, false_or, List.not_mem_nil, or_false, Event.write.injEq] at hv
  obtain ⟨x, hx | rfl | rfl, h8, _⟩ := hv
  · exact (settings_regs s hs x hx).2.1 h8
  · simp at h8
  · simp at h8

theorem time_writesOf (l : List (Nat × Nat)) : time (writesOf l) = 0 := by
  unfold time writesOf
  rw [List.map_map]
  induction l with
  | nil => rfl
  | cons x l ih => rw [List.map_cons, List.sum_cons, ih]; rfl

theorem sum_waits (n : Nat) : (waits n).sum = n := by
  unfold waits
  rw [List.sum_append, List.sum_replicate]
  simp
  omega

theorem time_waits (l : List Nat) : time (l.map .wait) = l.sum := by
  unfold time
  rw [List.map_map]
  induction l with
  | nil => rfl
  | cons n l ih => rw [List.map_cons, List.sum_cons, List.sum_cons, ih]; rfl

theorem time_upToKey (s : Stroke) : time (upToKey s) = s.wait := by
  unfold upToKey
  rw [time_append, time_writesOf, time_waits, sum_waits]
  rfl

theorem play_append (l l' : List Stroke) : play (l ++ l') = play l ++ play l' := by
  unfold play
  rw [List.flatMap_append]

theorem play_one (s : Stroke) : play [s] = upToKey s ++
    [.write 8 (8 * s.patch.operators + s.ch)] := by
  simp [play, upToKey, writesOf, strokeWrites]

/-- The key event of a stroke. -/
def eventOfStroke (x : Nat × Stroke) : KeyEvent := ⟨x.1, x.2.ch, x.2.patch, x.2.pitch⟩

theorem keyEvents_stroke (p : List Event) (s : Stroke) (hs : StrokeFits s) :
    keyEvents (p ++ play [s]) = keyEvents p ++ [eventOfStroke (time p + s.wait, s)] := by
  have h8 := hs.ch
  have ho := hs.operators
  rw [play_one, ← List.append_assoc, keyEvents_snoc, keyEvents_noKey _ _ (upToKey_noKey s hs)]
  congr 1
  simp only [if_true]
  congr 1
  unfold keyEventAt
  rw [show (8 * s.patch.operators + s.ch) % 8 = s.ch by omega,
    show (8 * s.patch.operators + s.ch) / 8 % 16 = s.patch.operators by omega,
    base_upToKey p s hs, channel_upToKey p s hs, note_upToKey p s hs, time_append, time_upToKey]
  rfl

theorem keyEvents_play_from (p : List Event) (l : List Stroke) (hl : ∀ s ∈ l, StrokeFits s) :
    keyEvents (p ++ play l) = keyEvents p ++ (timed (time p) l).map eventOfStroke := by
  induction l generalizing p with
  | nil => simp [play, timed]
  | cons s l ih =>
    have hs := hl s (by simp)
    have e : play (s :: l) = play [s] ++ play l := play_append [s] l
    have ht : time (p ++ play [s]) = time p + s.wait := by
      rw [time_append, play_one, time_append, time_upToKey]
      rfl
    rw [e, ← List.append_assoc, ih _ (fun s hs => hl s (by simp [hs])), keyEvents_stroke p s hs, ht]
    simp [timed]

theorem keyEvents_play (l : List Stroke) (hl : ∀ s ∈ l, StrokeFits s) :
    keyEvents (play l) = (timed 0 l).map eventOfStroke := by
  have := keyEvents_play_from [] l hl
  simpa [keyEvents, time] using this

theorem timed_strokes (now : Nat) (l : List Stroke) : (timed now l).map (·.2) = l := by
  induction l generalizing now with
  | nil => rfl
  | cons s l ih => rw [timed, List.map_cons, ih]

theorem instruments_play (l : List Stroke) (hl : ∀ s ∈ l, StrokeFits s) :
    instruments (play l) = scoreInstruments l := by
  unfold instruments patchesKeyedOn scoreInstruments
  rw [keyEvents_play l hl]
  conv_rhs => rw [← timed_strokes 0 l]
  rw [List.filter_map, List.filter_map, List.map_map, List.map_map]
  rfl

theorem settings_bytes (s : Stroke) (hs : StrokeFits s) : ∀ x ∈ settings s, x.2 < 256 := by
  obtain ⟨a, b, c, d, e⟩ := four_operators hs.four
  have ho := hs.each
  rw [e] at ho
  have bits : ∀ b n, bit b n ≤ n := by
    intro b n
    unfold bit
    split_ifs <;> omega
  have b1 := bits s.pitch.right 128
  have b2 := bits s.pitch.left 64
  have b3 := bits s.patch.channel.noise 128
  have hop : ∀ o ∈ [a, b, c, d], ∀ k, ∀ x ∈ operatorWrites s.ch k o, x.2 < 256 := by
    intro o hm k x hx
    obtain ⟨h1, h2, h3, h4, h5, h6, h7, h8, h9, h10⟩ := ho o hm
    have b4 := bits o.ase 128
    simp only [operatorWrites, List.mem_cons, List.not_mem_nil, or_false] at hx
    rcases hx with rfl | rfl | rfl | rfl | rfl | rfl <;> simp only <;> omega
  intro x hx
  unfold settings at hx
  rw [e] at hx
  obtain ⟨h2, h3, h4, h5, h6, h7, h8, h9, h10, h11, h12, h13, h14, h15, h16, h17⟩ := hs
  have hw : waveCode s.patch.base.waveform < 256 := by
    cases s.patch.base.waveform <;> decide
  rcases List.mem_append.mp hx with hx | hx
  · rcases List.mem_append.mp hx with hx | hx
    · simp only [List.mem_cons, List.not_mem_nil, or_false] at hx
      rcases hx with rfl | rfl | rfl | rfl | rfl | rfl <;> simp only <;> omega
    · split_ifs at hx
      · cases List.mem_singleton.mp hx
        simp only
        omega
      · cases hx
  · simp only [List.mapIdx_cons, List.mapIdx_nil, List.flatten_cons, List.flatten_nil,
      List.append_nil, List.mem_append] at hx
    rcases hx with hx | hx | hx | hx
    · exact hop a (by simp) _ x hx
    · exact hop b (by simp) _ x hx
    · exact hop c (by simp) _ x hx
    · exact hop d (by simp) _ x hx

theorem stroke_bytes (s : Stroke) (hs : StrokeFits s) :
    ∀ x ∈ strokeWrites s, x.1 < 256 ∧ x.2 < 256 := by
  intro x hx
  unfold strokeWrites at hx
  rcases List.mem_append.mp hx with hx | hx
  · exact ⟨(settings_regs s hs x hx).2.2, settings_bytes s hs x hx⟩
  · have h1 := hs.ampMd
    have h2 := hs.phsMd
    have h3 := hs.operators
    have h4 := hs.ch
    simp only [List.mem_cons, List.not_mem_nil, or_false] at hx
    rcases hx with rfl | rfl | rfl <;> simp only <;> omega

theorem byteHistory_play (l : List Stroke) (hl : ∀ s ∈ l, StrokeFits s) : ByteHistory (play l) := by
  intro e he
  unfold play at he
  obtain ⟨s, hs, he⟩ := List.mem_flatMap.mp he
  rcases List.mem_append.mp he with he | he
  · obtain ⟨n, _, rfl⟩ := List.mem_map.mp he
    trivial
  · obtain ⟨x, hx, rfl⟩ := List.mem_map.mp he
    exact stroke_bytes s (hl s hs) x hx

theorem recorded_play (l : List Stroke) (hl : ∀ x ∈ l, StrokeFits x) :
    recorded (play l) = (heard l).map eventOfStroke := by
  rw [recorded_dropWhile, keyEvents_play l hl, List.dropWhile_map]
  congr 1

theorem noteOf_play (l : List Stroke) (hl : ∀ x ∈ l, StrokeFits x) (x : Nat × Stroke) :
    noteOf (play l) (eventOfStroke x) = strokeNote l x := by
  unfold strokeNote noteOf
  rw [instruments_play _ hl]
  rfl

/-- C119. A score written as a recording: the extractor finds the instruments of the score, and in
every channel the notes of the score, from the first key-on after the start on. -/
theorem c119_score (l : List Stroke) (hl : ∀ x ∈ l, StrokeFits x) :
    (run (play l)).configs = (scoreInstruments l).mapIdx
        (fun i p => ⟨i, p.base, p.operators, p.channel⟩) ∧
    ∀ c < 8, (run (play l)).keyPressesOf c =
      ((heard l).filter (fun x => decide (x.2.ch = c))).map (strokeNote l) := by
  have hb := byteHistory_play l hl
  refine ⟨?_, ?_⟩
  · rw [configs_run _ hb, instruments_play _ hl]
  · intro c hc
    rw [c22_key_presses _ hb c hc, recorded_play l hl, List.filter_map, List.map_map]
    apply List.map_congr_left
    intro x _
    exact noteOf_play l hl x

/-- C119. If it begins with a key-on after the start, nothing is lost. -/
theorem c119_all (s : Stroke) (l : List Stroke) (hon : s.patch.operators ≠ 0) (hw : 0 < s.wait) :
    heard (s :: l) = timed 0 (s :: l) := by
  unfold heard
  rw [timed, List.dropWhile_cons, if_neg]
  simp [hon]
  omega

/-! ### The score as a file -/

/-- The commands of the score. -/
def playCmds (l : List Stroke) : List (Cmd × Bytes) :=
  l.flatMap fun s =>
    (waits s.wait).map (fun n =>
      (.wait 0x61 (some n), [0x61, (n % 256).toUInt8, (n / 256).toUInt8])) ++
    (strokeWrites s).map (fun x => (.ym2151 0x54 x.1 x.2, [0x54, x.1.toUInt8, x.2.toUInt8]))

theorem playCmds_encodes (l : List Stroke) (hl : ∀ s ∈ l, StrokeFits s) :
    ∀ p ∈ playCmds l, Encodes p.1 p.2 := by
  intro p hp
  obtain ⟨s, hs, hp⟩ := List.mem_flatMap.mp hp
  rcases List.mem_append.mp hp with hp | hp
  · obtain ⟨n, hn, rfl⟩ := List.mem_map.mp hp
    have h := Encodes.wait16 (n % 256).toUInt8 (n / 256).toUInt8
    have hw : n < 65536 := by
      rcases List.mem_append.mp hn with hn | hn
      · rw [(List.mem_replicate.mp hn).2]; decide
      · rw [List.mem_singleton.mp hn]; omega
    have e : (n % 256).toUInt8.toNat + 256 * (n / 256).toUInt8.toNat = n := by
      simp only [Nat.toUInt8_eq, UInt8.toNat_ofNat']
      omega
    rw [e] at h
    exact h
  · obtain ⟨x, hx, rfl⟩ := List.mem_map.mp hp
    have h := Encodes.ym2151 x.1.toUInt8 x.2.toUInt8
    have hb := stroke_bytes s (hl s hs) x hx
    have e1 : x.1.toUInt8.toNat = x.1 := by
      simp only [Nat.toUInt8_eq, UInt8.toNat_ofNat']; omega
    have e2 : x.2.toUInt8.toNat = x.2 := by
      simp only [Nat.toUInt8_eq, UInt8.toNat_ofNat']; omega
    rw [e1, e2] at h
    exact h

theorem playBytes_eq (l : List Stroke) :
    playBytes l = (playCmds l ++ [(Cmd.eos 0x66, ([0x66] : Bytes))]).flatMap (·.2) := by
  unfold playBytes playCmds
  rw [List.flatMap_append, List.flatMap_assoc]
  congr 1
  congr 1
  funext s
  rw [List.flatMap_append, List.flatMap_map, List.flatMap_map]

theorem history_play (l : List Stroke) :
    history ((playCmds l ++ [(Cmd.eos 0x66, ([0x66] : Bytes))]).map (·.1)) = play l := by
  unfold history
  rw [List.map_append, List.filterMap_append]
  have : List.filterMap eventOf (List.map (·.1) [(Cmd.eos 0x66, ([0x66] : Bytes))]) = [] := rfl
  rw [this, List.append_nil]
  unfold playCmds play
  induction l with
  | nil => rfl
  | cons s l ih =>
    rw [List.flatMap_cons, List.flatMap_cons, List.map_append, List.filterMap_append, ih]
    congr 1
    rw [List.map_append, List.map_map, List.map_map, List.filterMap_append, List.filterMap_map,
      List.filterMap_map, ← List.filterMap_eq_map, ← List.filterMap_eq_map]
    rfl

/-- C119. The score behind any header that says where it begins is a readable file, and what the
extractor reads from it is the score. -/
theorem c119_file (gunzip : Bytes → Except PyErr Bytes) (header : Bytes) (l : List Stroke)
    (hl : ∀ s ∈ l, StrokeFits s) (hm : header.take 4 = vgmMagic)
    (hh : headerLen (header ++ playBytes l) ≤ header.length)
    (hd : dataStart (header ++ playBytes l) = header.length) :
    ∃ cs, Readable gunzip (header ++ playBytes l) cs ∧ history cs = play l := by
  refine ⟨_, ⟨header ++ playBytes l, .inl ⟨?_, rfl⟩, ?_, ?_, ?_⟩, history_play l⟩
  · have h4 : 4 ≤ header.length := by
      have := congrArg List.length hm
      simp [vgmMagic] at this
      omega
    rw [List.take_append_of_le_length (by omega)]
    intro h
    have := congrArg (List.take 2) hm
    rw [List.take_take] at this
    simp only [Nat.min_eq_left (by decide : 2 ≤ 4)] at this
    rw [h] at this
    revert this
    decide
  · have h4 : 4 ≤ header.length := by
      have := congrArg List.length hm
      simp [vgmMagic] at this
      omega
    rw [List.take_append_of_le_length h4, hm]
  · rw [List.length_append]; omega
  · rw [hd, playBytes_eq]
    have := c03_prefix (playCmds l ++ [(Cmd.eos 0x66, ([0x66] : Bytes))]) (by
      intro p hp
      rcases List.mem_append.mp hp with hp | hp
      · exact playCmds_encodes l hl p hp
      · cases List.mem_singleton.mp hp
        exact .eos) header [] [] .stop (runs_stop_nil _ rfl)
    simpa using this

/-! ### The song of the score -/

theorem eventsAt_play (l : List Stroke) (hl : ∀ s ∈ l, StrokeFits s) (t : Int) (c row : Nat) :
    eventsAt (play l) t c row = (strokesAt l t c row).map eventOfStroke := by
  unfold eventsAt strokesAt
  rw [recorded_play l hl, List.filter_map]
  rfl

theorem tellsScore_of (l : List Stroke) (hl : ∀ s ∈ l, StrokeFits s) (t : Int) (d : DaoSong)
    (h : Tells (play l) t d) : TellsScore l t d := by
  intro p c r hc hr
  obtain ⟨h1, h2⟩ := h p c r hc hr
  rw [eventsAt_play l hl] at h1 h2
  refine ⟨by rw [h1, List.map_eq_nil_iff], ?_⟩
  intro x hx
  obtain ⟨col, e, hs⟩ := h2 (eventOfStroke x) (by rw [List.getLast?_map, hx]; rfl)
  refine ⟨col, e, fun h0 => hs.off (fun h' => h' h0), ?_, hs.panning⟩
  intro ho
  obtain ⟨h3, s, k, h4, h5, h6⟩ := hs.on ho
  rw [instruments_play l hl] at h6
  exact ⟨h3, s, k, h4, h5, h6⟩

/-- C119. The song made from it, at any number of ticks per row at which there is one: every cell
tells the last stroke of its channel and row, and nothing where there is none. -/
theorem c119_song (l : List Stroke) (hl : ∀ s ∈ l, StrokeFits s) (t : Int) (d : DaoSong)
    (hd : exportXrns (run (play l)) t = .ok d) : TellsScore l t d := by
  exact tellsScore_of l hl t d (c64_song _ (byteHistory_play l hl) t d hd)

/-- C119. The program as a whole: given the score as a file, and asked for a track file, whenever
it returns the track file reads as a song that tells the score. (For songs whose XML document is
below two gigabytes.) -/
theorem c119_program (env : Env) (v : Str) (instr : Option Str) (tr : Str) (ticks : Option Int)
    (w : World) (hc : ClockReading env.now) (htr : tr ≠ []) (header : Bytes) (l : List Stroke)
    (hl : ∀ s ∈ l, StrokeFits s) (hm : header.take 4 = vgmMagic)
    (hh : headerLen (header ++ playBytes l) ≤ header.length)
    (hs : dataStart (header ++ playBytes l) = header.length)
    (hf : w.fs v = some (header ++ playBytes l))
    (hok : (main env (some v) instr (some tr) ticks w).1 = .ok ()) :
    ∃ t d bt, TicksInUse ticks (run (play l)).ticksPerNote t ∧
      (main env (some v) instr (some tr) ticks w).2.fs tr = some bt ∧
      ((songXml d).length < maxDocument → readSongFile bt = some d) ∧ TellsScore l t d := by
  obtain ⟨v', content, cs, t, d, bt, h1, h2, h3, h4, h5, h6, h7⟩ :=
    c64_track_file env (some v) instr tr ticks w hc htr hok
  cases h1
  rw [hf] at h2
  cases h2
  obtain ⟨cs', h8, h9⟩ := c119_file env.gunzip header l hl hm hh hs
  cases readable_unique h3 h8
  rw [h9] at h4 h7
  exact ⟨t, d, bt, h4, h5, h6, tellsScore_of l hl t d h7⟩

/-! ### A case -/

/-- C119. There is such a header: this one is, whatever the score. -/
theorem c119_header (l : List Stroke) : sampleHeader.take 4 = vgmMagic ∧
    headerLen (sampleHeader ++ playBytes l) ≤ sampleHeader.length ∧
    dataStart (sampleHeader ++ playBytes l) = sampleHeader.length := by
  generalize playBytes l = b
  have e : ∀ o, o < 64 → (sampleHeader ++ b).getD o 0 = sampleHeader.getD o 0 := by
    intro o ho
    rw [List.getD_eq_getElem?_getD, List.getD_eq_getElem?_getD, List.getElem?_append_left ho]
  have hv : version (sampleHeader ++ b) = 151 := by
    unfold version byteAt
    rw [e 8 (by decide), e 9 (by decide), e 10 (by decide), e 11 (by decide)]
    rfl
  have hw : word (sampleHeader ++ b) 0x34 = 12 := by
    unfold word
    rw [List.drop_append_of_le_length (by decide), List.take_append_of_le_length (by decide)]
    decide
  refine ⟨rfl, ?_, ?_⟩
  · unfold headerLen
    rw [hv]
    decide
  · unfold dataStart
    rw [hv, hw]
    decide

/-- Two notes of two instruments on two channels, the second with the noise generator, and a release. -/
def sampleScore : List Stroke :=
  [⟨100, 0, ⟨⟨.square, 200, 5, 100⟩, ⟨[{ totalLevel := 20, attackRate := 31, ase := true },
      { multiply := 3, firstDetune := 7 }, { keyScale := 3, secondDetune := 2, secondDecayRate := 9 }, {}],
      4, 1, 6, 5, false, 0⟩, 15⟩, ⟨true, false, 4, 8, 13⟩⟩,
   ⟨600, 7, ⟨⟨.noise, 200, 127, 127⟩, ⟨[{}, {}, {}, { releaseRate := 15, firstDecayLevel := 3 }],
      7, 3, 7, 7, true, 31⟩, 8⟩, ⟨true, true, 7, 14, 63⟩⟩,
   ⟨100000, 0, ⟨{}, ⟨[{}, {}, {}, {}], 0, 0, 0, 0, false, 0⟩, 0⟩, {}⟩]

theorem sample_fits : ∀ s ∈ sampleScore, StrokeFits s := by
  have op : ∀ o : OperatorConfig, decide (o.totalLevel < 128 ∧ o.attackRate < 32 ∧
      o.firstDecayRate < 32 ∧ o.firstDecayLevel < 16 ∧ o.secondDecayRate < 16 ∧ o.releaseRate < 16 ∧
      o.keyScale < 4 ∧ o.multiply < 16 ∧ o.firstDetune < 8 ∧ o.secondDetune < 4) = true →
      OperatorFits o := by
    intro o h
    obtain ⟨h1, h2, h3, h4, h5, h6, h7, h8, h9, h10⟩ := of_decide_eq_true h
    exact ⟨h1, h2, h3, h4, h5, h6, h7, h8, h9, h10⟩
  intro s hs
  simp only [sampleScore, List.mem_cons, List.not_mem_nil, or_false] at hs
  rcases hs with rfl | rfl | rfl
  all_goals
    refine ⟨by decide, by decide, by decide, by decide, by decide, rfl, ?_, by decide,
      by decide, by decide, by decide, by decide, by decide, by decide, by decide, by decide⟩
    intro o ho
    simp only [List.mem_cons, List.not_mem_nil, or_false] at ho
    rcases ho with rfl | rfl | rfl | rfl <;> exact op _ (by decide)

example : heard sampleScore = timed 0 sampleScore ∧
    (run (play sampleScore)).keyPressesOf 0 = [⟨0, true, false, 4, 8, 13, 100⟩,
      ⟨-1, false, false, 0, 0, 0, 100700⟩] ∧
    (run (play sampleScore)).keyPressesOf 7 = [⟨1, true, true, 7, 14, 63, 700⟩] := by
  refine ⟨c119_all _ _ (by decide) (by decide), ?_, ?_⟩
  · rw [(c119_score _ sample_fits).2 0 (by decide)]
    decide +kernel
  · rw [(c119_score _ sample_fits).2 7 (by decide)]
    decide +kernel

end VgmX
