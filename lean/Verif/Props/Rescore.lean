import Verif.Props.Score
/-
Property C120: the score of a recording. Vocabulary: Spec/Score.lean.
-/

namespace VgmX
open Spec

theorem keyEvent_fits (h : List Event) (hb : ByteHistory h) (e : KeyEvent) (he : e ∈ keyEvents h)
    (w : Nat) : StrokeFits ⟨w, e.ch, e.patch, e.noteConfig⟩ := by
  obtain ⟨i, v, hv, rfl⟩ := (mem_keyEvents h e).mp he
  have hbt : ByteHistory (h.take i) := fun e he => hb e (List.mem_of_mem_take he)
  have hv' : v < 256 := (hb _ (List.mem_of_getElem? hv)).2
  obtain ⟨b1, b2, b3⟩ := base_inRange _ hbt
  obtain ⟨_, c2, c3, c4, c5, c6, c7⟩ := channel_inRange _ hbt (v % 8)
  refine ⟨Nat.mod_lt _ (by decide), ?_, ?_, ?_, ?_, rfl, ?_, ?_, ?_, ?_, ?_, ?_, ?_, ?_, ?_, ?_⟩
  · simp only [keyEventAt]; omega
  · simp only [keyEventAt]; omega
  · simp only [keyEventAt]; omega
  · simp only [keyEventAt]; omega
  · intro o ho
    simp only [keyEventAt] at ho
    obtain ⟨h1, h2, h3, h4, h5, h6, h7, h8, h9, h10⟩ := c2 o ho
    refine ⟨?_, ?_, ?_, ?_, ?_, ?_, ?_, ?_, ?_, ?_⟩ <;> try omega
    simp only [Spec.channel, channelWith, List.mem_cons, List.not_mem_nil, or_false] at ho
    rcases ho with rfl | rfl | rfl | rfl <;> simp only [operatorWith] <;> omega
  · simp only [keyEventAt]; omega
  · simp only [keyEventAt]; omega
  · simp only [keyEventAt]; omega
  · simp only [keyEventAt]; omega
  · simp only [keyEventAt]; omega
  · intro h7
    simp only [keyEventAt] at h7 ⊢
    simp [Spec.channel, channelWith, h7]
  · simp only [keyEventAt, Spec.noteConfig]; omega
  · simp only [keyEventAt, Spec.noteConfig]; omega
  · have := regVal_lt _ hbt (0x30 + v % 8)
    simp only [keyEventAt, Spec.noteConfig]; omega

theorem scoreFrom_spec (es : List KeyEvent) (now : Nat)
    (hp : es.Pairwise (fun a b => a.time ≤ b.time)) (hn : ∀ e ∈ es, now ≤ e.time) :
    (timed now (scoreFrom now es)).map eventOfStroke = es := by
  induction es generalizing now with
  | nil => rfl
  | cons e es ih =>
    rw [List.pairwise_cons] at hp
    have h1 : now + (e.time - now) = e.time := by
      have := hn e (by simp)
      omega
    rw [scoreFrom, timed, List.map_cons]
    simp only [h1]
    rw [ih e.time hp.2 hp.1]
    rfl

theorem mem_scoreFrom {es : List KeyEvent} {now : Nat} {s : Stroke} (h : s ∈ scoreFrom now es) :
    ∃ e ∈ es, ∃ w, s = ⟨w, e.ch, e.patch, e.noteConfig⟩ := by
  induction es generalizing now with
  | nil => cases h
  | cons e es ih =>
    rcases List.mem_cons.mp h with rfl | h
    · exact ⟨e, by simp, _, rfl⟩
    · obtain ⟨e', he, w, rfl⟩ := ih h
      exact ⟨e', by simp [he], w, rfl⟩

/-- C120. The strokes of a recording are within the fields of the chip. -/
theorem c120_fits (h : List Event) (hb : ByteHistory h) : ∀ s ∈ scoreOf h, StrokeFits s := by
  intro s hs
  obtain ⟨e, he, w, rfl⟩ := mem_scoreFrom hs
  exact keyEvent_fits h hb e he w

theorem keyEvents_rescore (h : List Event) (hb : ByteHistory h) :
    keyEvents (play (scoreOf h)) = keyEvents h := by
  rw [keyEvents_play _ (c120_fits h hb)]
  exact scoreFrom_spec _ 0 (keyEvents_times h).1 (fun _ _ => Nat.zero_le _)

/-- C120. A recording and its score, written as a recording, have the same results. -/
theorem c120_results (h : List Event) (hb : ByteHistory h) :
    (run (play (scoreOf h))).configs = (run h).configs ∧
    (∀ c < 8, (run (play (scoreOf h))).keyPressesOf c = (run h).keyPressesOf c) ∧
    (run (play (scoreOf h))).ticks = (run h).ticks :=
  c76_key_events h _ hb (byteHistory_play _ (c120_fits h hb)) (keyEvents_rescore h hb)

/-- C120. And the same exports. -/
theorem c120_exports (h : List Event) (hb : ByteHistory h) :
    (∀ t, exportXrns (run (play (scoreOf h))) t = exportXrns (run h) t) ∧
    (∀ t, extractTracks (run (play (scoreOf h))) t = extractTracks (run h) t) ∧
    instrumentsText (run (play (scoreOf h))) = instrumentsText (run h) ∧
    (run (play (scoreOf h))).ticksPerNote = (run h).ticksPerNote :=
  alike_exports h _ hb (byteHistory_play _ (c120_fits h hb)) (keyEvents_rescore h hb)

theorem scoreFrom_timed (l : List Stroke) (now : Nat) :
    scoreFrom now ((timed now l).map eventOfStroke) = l := by
  induction l generalizing now with
  | nil => rfl
  | cons s l ih =>
    rw [timed, List.map_cons, scoreFrom]
    simp only [eventOfStroke]
    rw [Nat.add_sub_cancel_left]
    congr 1
    exact ih _

/-- C120. The score of a score written as a recording is the score: a recording has one score
only, and every score within the fields of the chip is that of some recording. -/
theorem c120_unique (l : List Stroke) (hl : ∀ s ∈ l, StrokeFits s) : scoreOf (play l) = l := by
  unfold scoreOf
  rw [keyEvents_play l hl]
  exact scoreFrom_timed l 0

/-- C120. The instruments and the notes of any recording are those of its score. -/
theorem c120_score (h : List Event) (hb : ByteHistory h) :
    (run h).configs = (scoreInstruments (scoreOf h)).mapIdx
        (fun i p => ⟨i, p.base, p.operators, p.channel⟩) ∧
    ∀ c < 8, (run h).keyPressesOf c =
      ((heard (scoreOf h)).filter (fun x => decide (x.2.ch = c))).map (strokeNote (scoreOf h)) := by
  obtain ⟨h1, h2⟩ := c119_score (scoreOf h) (c120_fits h hb)
  obtain ⟨e1, e2, _⟩ := c120_results h hb
  exact ⟨e1 ▸ h1, fun c hc => (e2 c hc) ▸ h2 c hc⟩

/-- C120. For the program: a readable input file can be replaced by its score, written as a file;
the result, what is printed and the outputs are the same. -/
theorem c120_program (env : Env) (vgm : Str) (instr track : Option Str) (ticks : Option Int)
    (w w' : World) (content : Bytes) (cs : List Cmd) (hn : vgm ≠ [] ∧ vgm ≠ ['-'])
    (ho : env.openErr vgm false = none) (ha : env.argsFile ≠ none)
    (hc : w.fs vgm = some content) (hr : Readable env.gunzip content cs)
    (hc' : w'.fs vgm = some (sampleHeader ++ playBytes (scoreOf (history cs)))) :
    let x := main env (some vgm) instr track ticks w
    let x' := main env (some vgm) instr track ticks w'
    x'.1 = x.1 ∧
    (∃ out, x.2.stdout = w.stdout ++ out ∧ x'.2.stdout = w'.stdout ++ out) ∧
    ∀ n, w'.fs n = w.fs n → x'.2.fs n = x.2.fs n := by
  obtain ⟨a, ha'⟩ := Option.ne_none_iff_exists'.mp ha
  obtain ⟨hb, _⟩ := main_readable env vgm instr track ticks content cs a hn ho ha' hr
  obtain ⟨g1, g2, g3⟩ := c119_header (scoreOf (history cs))
  obtain ⟨cs', hr', he⟩ := c119_file env.gunzip sampleHeader _ (c120_fits _ hb) g1 g2 g3
  exact alike_program env vgm instr track ticks w w' content _ cs cs' hn ho ha hc hc' hr hr'
    (by rw [he]; exact keyEvents_rescore _ hb)

/-- The recording `sample`, as a score. -/
example : (scoreOf sample).map (fun s => (s.wait, s.ch, s.patch.operators, s.patch.base.phsMd,
    s.pitch.octave, s.pitch.note)) = [(100, 1, 3, 0, 4, 10), (50, 1, 3, 72, 4, 10), (7, 1, 0, 72, 4, 10)] := by
  decide +kernel

/-- A file as in `c120_program`. -/
example (gunzip : Bytes → Except PyErr Bytes) :
    ∃ cs, Readable gunzip (sampleHeader ++ playBytes sampleScore) cs ∧
      scoreOf (history cs) = sampleScore := by
  obtain ⟨g1, g2, g3⟩ := c119_header sampleScore
  obtain ⟨cs, h1, h2⟩ := c119_file gunzip sampleHeader _ sample_fits g1 g2 g3
  exact ⟨cs, h1, by rw [h2]; exact c120_unique _ sample_fits⟩

end VgmX
