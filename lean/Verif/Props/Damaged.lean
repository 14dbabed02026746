import Verif.Props.Main
/-
Property C70: damaged compressed files. `(inflate content) = (d, some e)` says that of the gzip
file `content` the bytes `d` can be decompressed, and that the read that needs more raises `e`
(`EOFError` if the file is cut off, `BadGzipFile` for a wrong checksum or garbage, `zlib.error`).
-/

namespace VgmX
open Spec

/-- C70. The loop over the commands of a damaged file never ends as if the file were complete: it
yields the commands `cs` and raises the error of the decompressor. `cs` is what every intact file
that begins with the readable part `d` yields first (up to position `p'`), and it is all of it: the
next command of every longer file ends behind `d`. -/
theorem c70_iterate (d : Bytes) (p : Nat) (e : PyErr) :
    ∃ cs p', FRuns ⟨d, p, some e⟩ cs (.raised e) ∧
      (∀ cs' o', FRuns ⟨d, p, some e⟩ cs' o' → cs' = cs ∧ o' = .raised e) ∧
      (∀ x, Yields ⟨d ++ x, p⟩ cs ⟨d ++ x, p'⟩) ∧ (p' = p ∨ p' ≤ d.length) ∧
      ∀ x, x ≠ [] → ∀ c s, next ⟨d ++ x, p'⟩ = (some (.ok c), s) → d.length < s.pos := by
  obtain ⟨cs, p', h1, h2, h3, _, h4⟩ := fruns_damaged d e _ p (Nat.le_refl _)
  exact ⟨cs, p', h1, fun cs' o' h => fruns_unique h h1, h2, h3, h4⟩

/-- C70. So processing a damaged file raises the error of the decompressor, wherever it is: also
in data behind the last command, and also if only the checksum is wrong. -/
theorem c70_process (d : Bytes) (p : Nat) (e : PyErr) :
    fprocessVgm ⟨d, p, some e⟩ = .error e := fprocess_damaged d p e

/-- C70. Opening a damaged file: what decides is the readable part. The reader is returned if it
reaches beyond the header and to the first command, and is then the one of an intact file. -/
theorem c70_open (inflate : Bytes → Bytes × Option PyErr) (k : Clocks) (c d : Bytes) (e : PyErr)
    (hz : c.take 2 = gzipMagic) (hi : inflate c = (d, some e)) :
    ((freader inflate k c).1 = .ok none ↔ 4 ≤ d.length ∧ d.take 4 ≠ vgmMagic) ∧
    (∀ v, (freader inflate k c).1 = .ok (some v) ↔
      d.take 4 = vgmMagic ∧ headerLen d ≤ d.length ∧ dataStart d ≤ d.length ∧
      v = ⟨⟨d, dataStart d, some e⟩, word d 4, version d, dataStart d⟩) ∧
    (∀ e', (freader inflate k c).1 = .error e' → e' = e) := by
  obtain ⟨k', hk⟩ := freader_damaged inflate k c d e hz hi
  rw [hk]
  have hlen : d.take 4 = vgmMagic → 4 ≤ d.length := by
    intro h
    have := congrArg List.length h
    rw [List.length_take] at this
    have h4 : vgmMagic.length = 4 := rfl
    omega
  by_cases hl : d.length < 4
  · simp only [if_pos hl]
    refine ⟨by simp; omega, ?_, ?_⟩
    · intro v
      constructor
      · intro h; simp at h
      · intro h; have := hlen h.1; omega
    · intro e' h; exact (Except.error.inj h).symm
  · simp only [if_neg hl]
    by_cases hm : d.take 4 = vgmMagic
    · simp only [if_neg (fun h => h hm : ¬ d.take 4 ≠ vgmMagic)]
      by_cases hn : needed d ≤ d.length
      · simp only [if_pos hn]
        have h1 : headerLen d ≤ d.length := by unfold needed at hn; omega
        have h2 : dataStart d ≤ d.length := by unfold needed at hn; omega
        refine ⟨by simp [hm], ?_, ?_⟩
        · intro v
          constructor
          · intro h; exact ⟨hm, h1, h2, (Option.some.inj (Except.ok.inj h)).symm⟩
          · intro h; rw [h.2.2.2]
        · intro e' h; simp at h
      · simp only [if_neg hn]
        refine ⟨by simp [hm], ?_, ?_⟩
        · intro v
          constructor
          · intro h; simp at h
          · intro h; exact absurd (by unfold needed; omega) hn
        · intro e' h; exact (Except.error.inj h).symm
    · simp only [if_pos hm]
      refine ⟨by simp [hm]; omega, ?_, ?_⟩
      · intro v
        constructor
        · intro h; simp at h
        · intro h; exact absurd h.1 hm
      · intro e' h; simp at h

/-- C70. Files that are intact or not compressed are read as Model/Reader says, so the properties
C01-C11 hold of them. -/
theorem c70_undamaged (inflate : Bytes → Bytes × Option PyErr) (k : Clocks) (c : Bytes)
    (h : c.take 2 = gzipMagic → (inflate c).2 = none) :
    ((freader inflate k c).1 = .ok none ↔ (reader (eager inflate) k c).1 = .ok none) ∧
    (∀ e, (freader inflate k c).1 = .error e ↔ (reader (eager inflate) k c).1 = .error e) ∧
    (∀ v, (reader (eager inflate) k c).1 = .ok (some v) →
      ∃ fv, (freader inflate k c).1 = .ok (some fv) ∧ fv.eofOffset = v.eofOffset ∧
        fv.version = v.version ∧ fv.dataStart = v.dataStart ∧
        (∀ cs o, FRuns fv.stream cs o ↔ Runs v.stream cs o) ∧
        fprocessVgm fv.stream = processVgm v.stream) ∧
    (freader inflate k c).2 = (reader (eager inflate) k c).2 := by
  rw [freader_sound inflate k c h]
  rcases hr : reader (eager inflate) k c with ⟨r, k'⟩
  refine ⟨?_, ?_, ?_, rfl⟩
  · match r with
    | .error e => simp [Except.map]
    | .ok none => simp [Except.map]
    | .ok (some v) => simp [Except.map]
  · intro e
    cases r <;> simp [Except.map]
  · intro v hv
    simp only at hv
    subst hv
    refine ⟨v.sound, rfl, rfl, rfl, rfl, ?_, fprocess_sound v.stream⟩
    intro cs o
    constructor
    · intro hf
      obtain ⟨cs', o', hr', _⟩ := c01_terminates v.stream
      obtain ⟨rfl, rfl⟩ := fruns_unique hf (fruns_sound_of_runs hr')
      exact hr'
    · exact fruns_sound_of_runs

/-- The body of `main` on a damaged file. -/
theorem mainBody_damaged (env : Env) (name : Str) (instr track : Option Str) (ticks : Option Int)
    (id : Nat) (w : World) (a : Str) (content d : Bytes) (e : PyErr) (ha : env.argsFile = some a)
    (hf : w.fs name = some content) (hz : content.take 2 = gzipMagic)
    (hi : env.inflate content = (d, some e)) :
    ∃ k, mainBody env instr track ticks (.file id name) w =
      (.error (if 4 ≤ d.length ∧ d.take 4 ≠ vgmMagic then .type else e),
        { w with stdout := w.stdout ++ ("Opening file: ".toList ++ a ++ ['\n']), clocks := k }) := by
  obtain ⟨k', hk⟩ := freader_damaged env.inflate
    (w.print ("Opening file: ".toList ++ a ++ ['\n'])).clocks content d e hz hi
  have hc : ((w.print ("Opening file: ".toList ++ a ++ ['\n'])).fs name).getD [] = content := by
    show (w.fs name).getD [] = content
    rw [hf]; rfl
  have hcase : ∀ r : Except PyErr (Option FVgm),
      freader env.inflate (w.print ("Opening file: ".toList ++ a ++ ['\n'])).clocks content = (r, k') →
      ∀ E : PyErr, (r = .error E ∨ (r = .ok none ∧ E = .type) ∨
        ∃ v, r = .ok (some v) ∧ fprocessVgm v.stream = .error E) →
      mainBody env instr track ticks (.file id name) w = (.error E,
        { w with stdout := w.stdout ++ ("Opening file: ".toList ++ a ++ ['\n']), clocks := k' }) := by
    intro r hr E hE
    unfold mainBody
    simp only [ha, readerOn]
    rw [hc, hr]
    rcases hE with rfl | ⟨rfl, rfl⟩ | ⟨v, rfl, hv⟩
    · rfl
    · rfl
    · simp only
      rw [hv]
      rfl
  refine ⟨k', hcase _ hk _ ?_⟩
  clear hcase hk hc
  by_cases hl : d.length < 4
  · left
    rw [if_pos hl, if_neg (show ¬ (4 ≤ d.length ∧ d.take 4 ≠ vgmMagic) from fun h => by omega)]
  · rw [if_neg hl]
    by_cases hm : d.take 4 = vgmMagic
    · rw [if_neg (show ¬ d.take 4 ≠ vgmMagic from fun h => h hm),
        if_neg (show ¬ (4 ≤ d.length ∧ d.take 4 ≠ vgmMagic) from fun h => h.2 hm)]
      by_cases hn : needed d ≤ d.length
      · rw [if_pos hn]
        exact .inr (.inr ⟨_, rfl, fprocess_damaged _ _ _⟩)
      · rw [if_neg hn]
        exact .inl rfl
    · rw [if_pos (show d.take 4 ≠ vgmMagic from hm),
        if_pos (show 4 ≤ d.length ∧ d.take 4 ≠ vgmMagic from ⟨by omega, hm⟩)]
      exact .inr (.inl ⟨rfl, rfl⟩)

/-- C70. The whole program on a damaged compressed file: it raises the decompressor's error (or
`TypeError` if the file does not even begin as a VGM file), prints only that it opens the file, and
changes no file. -/
theorem c70_main (env : Env) (name : Str) (instr track : Option Str) (ticks : Option Int) (w : World)
    (a : Str) (content d : Bytes) (e : PyErr) (h1 : name ≠ []) (h2 : name ≠ ['-'])
    (ha : env.argsFile = some a) (ho : env.openErr name false = none)
    (hf : w.fs name = some content) (hz : content.take 2 = gzipMagic)
    (hi : env.inflate content = (d, some e)) :
    (main env (some name) instr track ticks w).1 =
      .error (if 4 ≤ d.length ∧ d.take 4 ≠ vgmMagic then .type else e) ∧
    (main env (some name) instr track ticks w).2.fs = w.fs ∧
    (main env (some name) instr track ticks w).2.stdout =
      w.stdout ++ ("Opening file: ".toList ++ a ++ ['\n']) := by
  unfold main
  rw [smartOpen_proper env name _ ⟨h1, h2⟩, openFile_rb, ho, hf]
  simp only
  obtain ⟨k, hk⟩ := mainBody_damaged env name instr track ticks w.nextId
    { w with
      trace := w.trace ++ [.opened w.nextId name ['r', 'b']]
      nextId := w.nextId + 1 } a content d e ha hf hz hi
  rw [hk]
  exact ⟨rfl, rfl, rfl⟩

/-- The contrast: an uncompressed file that is cut off can be taken for a shorter recording; the
same bytes as the readable part of a damaged compressed file never are. -/
theorem c70_contrast : ∃ full cut : Bytes, cut <+: full ∧ cut ≠ full ∧
    (∃ s t, processVgm ⟨full, 0⟩ = .ok s ∧ processVgm ⟨cut, 0⟩ = .ok t ∧
      s.samples = 1470 ∧ t.samples = 735) ∧
    ∀ e, fprocessVgm ⟨cut, 0, some e⟩ = .error e := by
  refine ⟨[0x62, 0x62], [0x62], ⟨[0x62], rfl⟩, by simp,
    ⟨(State.init.beat 735).beat 735, State.init.beat 735, by decide +kernel, by decide +kernel,
      by decide +kernel, by decide +kernel⟩,
    fun e => fprocess_damaged _ _ e⟩

/-! A file that is cut off in the middle of a command: the first wait is delivered. -/

example : FRuns ⟨[0x62, 0x61, 0x10], 0, some .eof⟩ [.wait 0x62 (some 735)] (.raised .eof) :=
  .yield (s' := ⟨[0x62, 0x61, 0x10], 1, some .eof⟩) (by decide +kernel)
    (.raise (s' := ⟨[0x62, 0x61, 0x10], 2, some .eof⟩) (by decide +kernel))

example : Yields ⟨[0x62, 0x61, 0x10] ++ [0x00], 0⟩ [.wait 0x62 (some 735)]
    ⟨[0x62, 0x61, 0x10] ++ [0x00], 1⟩ := .cons (by decide +kernel) .nil

/-! The hypotheses of `c70_open` and `c70_main`: a header, and a decompressor that finds the file
cut off behind it. -/

example : ([0x1f, 0x8b, 8, 0] : Bytes).take 2 = gzipMagic ∧ sampleHeader.take 4 = vgmMagic ∧
    headerLen sampleHeader ≤ sampleHeader.length ∧ dataStart sampleHeader ≤ sampleHeader.length ∧
    (freader (fun _ => (sampleHeader, some .eof)) (fun _ => none) [0x1f, 0x8b, 8, 0]).1
      = .ok (some ⟨⟨sampleHeader, dataStart sampleHeader, some .eof⟩, word sampleHeader 4,
          version sampleHeader, dataStart sampleHeader⟩) := by decide +kernel

end VgmX
