import Verif.Spec.Main
import Verif.Lemmas.Damaged
import Verif.Props.Header
import Verif.Props.Process
import Verif.Props.Json
import Verif.Props.Xrns
import Verif.Props.Writer
/-
Properties C51-C55 and C58-C61: the whole program.
-/

namespace VgmX
open Spec

/-! ### Reading the input -/

theorem reader_some {gunzip : Bytes → Except PyErr Bytes} {clocks k : Clocks} {c : Bytes} {v : Vgm}
    (h : reader gunzip clocks c = (.ok (some v), k)) :
    ∃ plain : Bytes, ((c.take 2 ≠ gzipMagic ∧ plain = c) ∨
      (c.take 2 = gzipMagic ∧ gunzip c = .ok plain)) ∧
      plain.take 4 = vgmMagic ∧ headerLen plain ≤ plain.length ∧
      v.stream = ⟨plain, dataStart plain⟩ := by
  have plainCase : ∀ (g : Bytes → Except PyErr Bytes) (c : Bytes), c.take 2 ≠ gzipMagic →
      reader g clocks c = (.ok (some v), k) → c.take 4 = vgmMagic ∧ headerLen c ≤ c.length ∧
      v.stream = ⟨c, dataStart c⟩ := by
    intro g c hz h
    rw [reader_plain g clocks c hz] at h
    by_cases hm : c.take 4 = vgmMagic
    · rw [if_neg (fun e => e hm)] at h
      by_cases hl : headerLen c ≤ c.length
      · rw [init_ok clocks c hl] at h
        simp only [Prod.mk.injEq, Except.ok.injEq, Option.some.injEq] at h
        exact ⟨hm, hl, by rw [← h.1]⟩
      · have := init_short clocks c (by omega)
        cases hx : Vgm.init clocks ⟨c, 4⟩ with
        | mk a b =>
          rw [hx] at this h
          simp only at this
          subst this
          simp at h
    · rw [if_pos hm] at h
      simp at h
  by_cases hz : c.take 2 = gzipMagic
  · cases hg : gunzip c with
    | error e => rw [c08_corrupt gunzip clocks c e hz hg] at h; simp at h
    | ok plain =>
      by_cases hp : plain.take 2 = gzipMagic
      · rw [c08_nested_rejected gunzip clocks c plain hz hg hp] at h; simp at h
      · rw [c08_transparent gunzip gunzip clocks c plain hz hg hp] at h
        exact ⟨plain, .inr ⟨hz, rfl⟩, plainCase _ plain hp h⟩
  · exact ⟨c, .inl ⟨hz, rfl⟩, plainCase _ c hz h⟩

theorem reader_readable {gunzip : Bytes → Except PyErr Bytes} (clocks : Clocks) {c : Bytes}
    {cs : List Cmd} (h : Readable gunzip c cs) :
    ∃ v k, reader gunzip clocks c = (.ok (some v), k) ∧ Runs v.stream cs .stop := by
  obtain ⟨plain, hsrc, hm, hl, hr⟩ := h
  rcases hsrc with ⟨hz, rfl⟩ | ⟨hz, hg⟩
  · obtain ⟨v, k, h1, _, _, _, _, _, h2⟩ := c06_header gunzip clocks plain hm hl
    exact ⟨v, k, h1, by rw [h2]; exact hr⟩
  · obtain ⟨v, k, h1, _, _, _, _, _, h2⟩ := c06_header gunzip clocks plain hm hl
    exact ⟨v, k, by rw [c08_transparent gunzip gunzip clocks c plain hz hg (magic_not_gzip plain hm)]; exact h1,
      by rw [h2]; exact hr⟩

/-- A file can be read in one way only. -/
theorem readable_unique {gunzip : Bytes → Except PyErr Bytes} {c : Bytes} {cs cs' : List Cmd}
    (h : Readable gunzip c cs) (h' : Readable gunzip c cs') : cs = cs' := by
  obtain ⟨v, k, h1, h2⟩ := reader_readable (fun _ => none) h
  obtain ⟨v', k', h1', h2'⟩ := reader_readable (fun _ => none) h'
  rw [h1] at h1'
  simp only [Prod.mk.injEq, Except.ok.injEq, Option.some.injEq] at h1'
  obtain ⟨rfl, _⟩ := h1'
  obtain ⟨_, _, _, _, hu⟩ := c01_terminates v.stream
  have e1 := hu _ _ h2
  have e2 := hu _ _ h2'
  exact e1.1.trans e2.1.symm

/-- What `reader` returns does not depend on the clock table. -/
theorem reader_clocks (gunzip : Bytes → Except PyErr Bytes) (k k' : Clocks) (c : Bytes) :
    (reader gunzip k c).1 = (reader gunzip k' c).1 := by
  have plainCase : ∀ (c : Bytes), c.take 2 ≠ gzipMagic →
      (reader gunzip k c).1 = (reader gunzip k' c).1 := by
    intro c hz
    rw [reader_plain gunzip k c hz, reader_plain gunzip k' c hz]
    by_cases hm : c.take 4 = vgmMagic
    · rw [if_neg (fun e => e hm), if_neg (fun e => e hm)]
      by_cases hl : headerLen c ≤ c.length
      · rw [init_ok k c hl, init_ok k' c hl]
      · have h1 := init_short k c (by omega)
        have h2 := init_short k' c (by omega)
        cases hx : Vgm.init k ⟨c, 4⟩ with
        | mk a b =>
          cases hy : Vgm.init k' ⟨c, 4⟩ with
          | mk a' b' =>
            rw [hx] at h1
            rw [hy] at h2
            simp only at h1 h2
            subst h1 h2
            rfl
    · rw [if_pos hm, if_pos hm]
  by_cases hz : c.take 2 = gzipMagic
  · cases hg : gunzip c with
    | error e => rw [c08_corrupt gunzip k c e hz hg, c08_corrupt gunzip k' c e hz hg]
    | ok plain =>
      by_cases hp : plain.take 2 = gzipMagic
      · rw [c08_nested_rejected gunzip k c plain hz hg hp,
          c08_nested_rejected gunzip k' c plain hz hg hp]
      · rw [c08_transparent gunzip gunzip k c plain hz hg hp,
          c08_transparent gunzip gunzip k' c plain hz hg hp]
        exact plainCase plain hp
  · exact plainCase c hz

/-- Opening and processing a readable file. -/
theorem input_readable {inflate : Bytes → Bytes × Option PyErr} (k : Clocks) {c : Bytes}
    {cs : List Cmd} (h : Readable (eager inflate) c cs) :
    ByteHistory (history cs) ∧ ∃ v k', freader inflate k c = (.ok (some v), k') ∧
      fprocessVgm v.stream = .ok (run (history cs)) := by
  obtain ⟨v, k', h1, h2⟩ := reader_readable k h
  refine ⟨runs_byteHistory h2, v.sound, k', ?_, ?_⟩
  · rw [freader_sound, h1]
    · rfl
    · intro hz
      obtain ⟨plain, hsrc, _⟩ := h
      rcases hsrc with ⟨hz', _⟩ | ⟨_, hg⟩
      · exact absurd hz hz'
      · unfold eager at hg
        rcases hi : inflate c with ⟨d, o⟩
        rw [hi] at hg
        cases o with
        | none => rfl
        | some e => simp at hg
  · show fprocessVgm v.stream.sound = _
    rw [fprocess_sound, processVgm_runs h2]
    rfl

/-- Processing a file that was opened, to its end. -/
theorem input_processed {inflate : Bytes → Bytes × Option PyErr} {k k' : Clocks} {c : Bytes}
    {v : FVgm} {s : State} (h : freader inflate k c = (.ok (some v), k'))
    (hs : fprocessVgm v.stream = .ok s) :
    ∃ cs, Readable (eager inflate) c cs ∧ ByteHistory (history cs) ∧ s = run (history cs) := by
  by_cases hd : c.take 2 = gzipMagic → (inflate c).2 = none
  · rw [freader_sound inflate k c hd] at h
    rcases hr : reader (eager inflate) k c with ⟨r, k1⟩
    rw [hr] at h
    match r with
    | .error e => simp [Except.map] at h
    | .ok none => simp [Except.map] at h
    | .ok (some v0) =>
      simp only [Except.map, Option.map, Prod.mk.injEq, Except.ok.injEq, Option.some.injEq] at h
      obtain ⟨rfl, _⟩ := h
      obtain ⟨plain, hsrc, hm, hl, hst⟩ := reader_some hr
      obtain ⟨cs, o, hruns, _⟩ := c01_terminates v0.stream
      have hs' : fprocessVgm v0.stream.sound = .ok s := hs
      rw [fprocess_sound, processVgm_runs hruns] at hs'
      cases o with
      | raised e => simp [Outcome.result] at hs'
      | stop =>
        simp only [Outcome.result, Except.ok.injEq] at hs'
        exact ⟨cs, ⟨plain, hsrc, hm, hl, by rw [← hst]; exact hruns⟩, runs_byteHistory hruns,
          hs'.symm⟩
  · have hz : c.take 2 = gzipMagic := Decidable.byContradiction fun h => hd fun h' => absurd h' h
    rcases hi : inflate c with ⟨d, o⟩
    cases o with
    | none => exact absurd (fun _ => by rw [hi]) hd
    | some e =>
      obtain ⟨k1, hk⟩ := freader_damaged inflate k c d e hz hi
      rw [hk] at h
      simp only [Prod.mk.injEq] at h
      obtain ⟨h, _⟩ := h
      split at h
      · simp at h
      · split at h
        · simp at h
        · split at h
          · simp only [Except.ok.injEq, Option.some.injEq] at h
            subst h
            rw [fprocess_damaged] at hs
            simp at hs
          · simp at h

/-- What opening a file returns does not depend on the clock table. -/
theorem freader_clocks (inflate : Bytes → Bytes × Option PyErr) (k k' : Clocks) (c : Bytes) :
    (freader inflate k c).1 = (freader inflate k' c).1 := by
  by_cases hd : c.take 2 = gzipMagic → (inflate c).2 = none
  · rw [freader_sound inflate k c hd, freader_sound inflate k' c hd, reader_clocks _ k k' c]
  · have hz : c.take 2 = gzipMagic := Decidable.byContradiction fun h => hd fun h' => absurd h' h
    rcases hi : inflate c with ⟨d, o⟩
    cases o with
    | none => exact absurd (fun _ => by rw [hi]) hd
    | some e =>
      obtain ⟨k1, hk⟩ := freader_damaged inflate k c d e hz hi
      obtain ⟨k2, hk'⟩ := freader_damaged inflate k' c d e hz hi
      rw [hk, hk']

theorem ticksInUse_unique {g : Option Int} {e : Except PyErr Nat} {t t' : Int}
    (h : TicksInUse g e t) (h' : TicksInUse g e t') : t = t' := by
  rcases h with ⟨a, rfl, ha, rfl⟩ | ⟨hg, n, hn, rfl⟩ <;>
    rcases h' with ⟨b, hb, hb0, rfl⟩ | ⟨hg', m, hm, rfl⟩
  · exact Option.some.inj hb
  · rcases hg' with h | h
    · cases h
    · exact absurd (Option.some.inj h) ha
  · subst hb
    rcases hg with h | h
    · cases h
    · exact absurd (Option.some.inj h) hb0
  · rw [hn] at hm; cases hm; rfl

/-- What the choice of the ticks-per-note prints. -/
def ticksOutput (_env : Env) (ticks : Option Int) (s : State) : Str :=
  if ticks = none ∨ ticks = some 0 then "Calculating Ticks Per Note".toList ++ s.ticksReport else []

theorem mainTicks_spec (env : Env) (ticks : Option Int) (h : List Event) (hb : ByteHistory h)
    (w : World) : ∃ t, TicksInUse ticks (run h).ticksPerNote t ∧
      mainTicks env ticks (run h) w = (.ok t, w.print (ticksOutput env ticks (run h))) := by
  obtain ⟨n, hn, _⟩ := c26_range h hb
  have hest : ((run h).ticksPerNote.map Int.ofNat) = .ok (n : Int) := by rw [hn]; rfl
  unfold mainTicks ticksOutput
  cases ticks with
  | none =>
    refine ⟨n, .inr ⟨.inl rfl, n, hn, rfl⟩, ?_⟩
    rw [hest]
    simp only [World.print, List.append_assoc, true_or, if_true]
  | some t =>
    by_cases ht : t = 0
    · subst ht
      refine ⟨n, .inr ⟨.inr rfl, n, hn, rfl⟩, ?_⟩
      rw [hest]
      simp [World.print, List.append_assoc]
    · exact ⟨t, .inl ⟨t, rfl, ht, rfl⟩, by simp [ht, World.print]⟩

/-- The two environments agree about the input. -/
structure Alike (env env' : Env) : Prop where
  args : env'.argsFile = env.argsFile
  stdin : env'.stdinRead = env.stdinRead
  inflate : env'.inflate = env.inflate
  openErr : env'.openErr = env.openErr

/-- The body of `main` on an input that cannot be read: it raises and changes no file; the
exception and what is printed depend on the content of the input only. -/
theorem mainBody_unreadable_now (env : Env) (instr track : Option Str) (ticks : Option Int)
    (f : Handle) (content : Bytes)
    (h : ∀ id name cs, f = .file id name → ¬ Readable env.gunzip content cs) :
    ∃ e s, ∀ (env' : Env), Alike env env' → ∀ w : World, (∀ id name, f = .file id name → (w.fs name).getD [] = content) →
      ∃ k, mainBody env' instr track ticks f w
        = (.error e, { w with stdout := w.stdout ++ s, clocks := k }) := by
  cases ha : env.argsFile with
  | none =>
    refine ⟨.name, [], fun env' hE w _ => ⟨w.clocks, ?_⟩⟩
    unfold mainBody
    simp only [hE.args, ha]
    simp
  | some a =>
    cases f with
    | stdin =>
      cases hs : env.stdinRead with
      | error e =>
        refine ⟨e, "Opening file: ".toList ++ a ++ ['\n'], fun env' hE w _ => ⟨w.clocks, ?_⟩⟩
        unfold mainBody
        simp only [hE.args, hE.stdin, ha, readerOn, hs]
        rfl
      | ok x =>
        refine ⟨.type, "Opening file: ".toList ++ a ++ ['\n'], fun env' hE w _ => ⟨w.clocks, ?_⟩⟩
        unfold mainBody
        simp only [hE.args, hE.stdin, ha, readerOn, hs]
        rfl
    | stdout =>
      cases hs : env.stdinRead with
      | error e =>
        refine ⟨e, "Opening file: ".toList ++ a ++ ['\n'], fun env' hE w _ => ⟨w.clocks, ?_⟩⟩
        unfold mainBody
        simp only [hE.args, hE.stdin, ha, readerOn, hs]
        rfl
      | ok x =>
        refine ⟨.type, "Opening file: ".toList ++ a ++ ['\n'], fun env' hE w _ => ⟨w.clocks, ?_⟩⟩
        unfold mainBody
        simp only [hE.args, hE.stdin, ha, readerOn, hs]
        rfl
    | file id name =>
      have key : ∀ w : World, (w.fs name).getD [] = content →
          ∃ k, freader env.inflate (w.print ("Opening file: ".toList ++ a ++ ['\n'])).clocks
            (((w.print ("Opening file: ".toList ++ a ++ ['\n'])).fs name).getD [])
            = ((freader env.inflate (fun _ => none) content).1, k) := by
        intro w hw
        refine ⟨_, Prod.ext ?_ rfl⟩
        have : ((w.print ("Opening file: ".toList ++ a ++ ['\n'])).fs name).getD [] = content := hw
        rw [this]
        exact freader_clocks _ _ _ _
      cases hr : freader env.inflate (fun _ => none) content with
      | mk r k0 =>
        rw [hr] at key
        simp only at key
        cases r with
        | error e =>
          refine ⟨e, "Opening file: ".toList ++ a ++ ['\n'], fun env' hE w hw => ?_⟩
          obtain ⟨k, hk⟩ := key w (hw id name rfl)
          refine ⟨k, ?_⟩
          unfold mainBody
          simp only [hE.args, hE.inflate, ha, readerOn]
          rw [hk]
          rfl
        | ok o =>
          cases o with
          | none =>
            refine ⟨.type, "Opening file: ".toList ++ a ++ ['\n'], fun env' hE w hw => ?_⟩
            obtain ⟨k, hk⟩ := key w (hw id name rfl)
            refine ⟨k, ?_⟩
            unfold mainBody
            simp only [hE.args, hE.inflate, ha, readerOn]
            rw [hk]
            rfl
          | some v =>
            cases hp : fprocessVgm v.stream with
            | error e =>
              refine ⟨e, "Opening file: ".toList ++ a ++ ['\n'], fun env' hE w hw => ?_⟩
              obtain ⟨k, hk⟩ := key w (hw id name rfl)
              refine ⟨k, ?_⟩
              unfold mainBody
              simp only [hE.args, hE.inflate, ha, readerOn]
              rw [hk]
              simp only
              rw [hp]
              rfl
            | ok st =>
              obtain ⟨cs, hread, _⟩ := input_processed hr hp
              exact absurd hread (h id name cs rfl)

theorem mainBody_unreadable (env : Env) (instr track : Option Str) (ticks : Option Int)
    (f : Handle) (content : Bytes)
    (h : ∀ id name cs, f = .file id name → ¬ Readable env.gunzip content cs) :
    ∃ e s, ∀ w : World, (∀ id name, f = .file id name → (w.fs name).getD [] = content) →
      ∃ k, mainBody env instr track ticks f w
        = (.error e, { w with stdout := w.stdout ++ s, clocks := k }) := by
  obtain ⟨e, s, h⟩ := mainBody_unreadable_now env instr track ticks f content h
  exact ⟨e, s, h env ⟨rfl, rfl, rfl, rfl⟩⟩

/-- What `main` prints before the outputs. -/
def preamble (env : Env) (a : Str) (ticks : Option Int) (s : State) (t : Int) : Str :=
  "Opening file: ".toList ++ a ++ ['\n'] ++ ticksOutput env ticks s ++
    ("Ticks per Note: ".toList ++ intStr t ++ ['\n'])

/-- The body of `main` on a readable file. -/
theorem mainBody_readable (env : Env) (instr track : Option Str) (ticks : Option Int) (id : Nat)
    (name : Str) (w : World) (cs : List Cmd) (a : Str) (ha : env.argsFile = some a)
    (h : Readable env.gunzip ((w.fs name).getD []) cs) :
    ByteHistory (history cs) ∧
    ∃ t k, TicksInUse ticks (run (history cs)).ticksPerNote t ∧
      mainBody env instr track ticks (.file id name) w
        = mainOutputs env instr track (run (history cs)) t
            { w with
              stdout := w.stdout ++ preamble env a ticks (run (history cs)) t
              clocks := k } := by
  obtain ⟨hb, v, k, h1, h2⟩ := input_readable
    (w.print ("Opening file: ".toList ++ a ++ ['\n'])).clocks h
  refine ⟨hb, ?_⟩
  unfold mainBody
  rw [ha]
  simp only [readerOn]
  have hfs : (w.print ("Opening file: ".toList ++ a ++ ['\n'])).fs = w.fs := rfl
  rw [hfs, h1]
  simp only
  rw [h2]
  simp only
  obtain ⟨t, e1, e2⟩ := mainTicks_spec env ticks (history cs) hb
    ⟨w.fs, (w.print ("Opening file: ".toList ++ a ++ ['\n'])).stdout, k, w.trace, w.nextId⟩
  refine ⟨t, k, e1, ?_⟩
  simp only [World.print] at e2 ⊢
  rw [e2]
  unfold preamble
  generalize "Opening file: ".toList = A
  generalize "Ticks per Note: ".toList = B
  simp only [List.append_assoc]

/-! ### Opening and closing: C53 -/

theorem openFile_error {env : Env} {w w1 : World} {name mode : Str} {e : PyErr}
    (h : openFile env w name mode = (.error e, w1)) : w1 = w := by
  unfold openFile at h
  split at h <;> (try split at h) <;> simp_all

theorem openFile_ok {env : Env} {w w1 : World} {name mode : Str} {fh : Handle}
    (h : openFile env w name mode = (.ok fh, w1)) :
    fh = .file w.nextId name ∧ w1.trace = w.trace ++ [.opened w.nextId name mode] ∧
      w1.nextId = w.nextId + 1 ∧ w1.stdout = w.stdout ∧ w1.clocks = w.clocks ∧
      ∀ n, n ≠ name → w1.fs n = w.fs n := by
  unfold openFile at h
  split at h <;> (try split at h) <;>
    simp_all only [Prod.mk.injEq, Except.ok.injEq, reduceCtorEq, false_and, true_and]
  all_goals
    obtain ⟨rfl, rfl⟩ := h
    refine ⟨rfl, rfl, rfl, rfl, ?_⟩
    intro n hn
    first | rfl | simp [setFile, hn]

/-- A file name that `smart_open` opens: not empty and not `-`. -/
def Proper (name : Str) : Prop := name ≠ [] ∧ name ≠ ['-']

instance (name : Str) : Decidable (Proper name) := by unfold Proper; infer_instance

theorem nameTruthy_some (name : Str) : nameTruthy (some name) = decide (name ≠ []) := by
  cases name <;> simp [nameTruthy]

theorem smartOpen_proper {α : Type} (env : Env) (name mode : Str) (hn : Proper name)
    (body : Handle → World → Except PyErr α × World) (w : World) :
    smartOpen env (some name) mode body w =
      match openFile env w name mode with
      | (.error e, w1) => (.error e, w1)
      | (.ok fh, w1) => ((body fh w1).1, (body fh w1).2.close fh) := by
  unfold smartOpen
  have h1 : (nameTruthy (some name) && (some name != some ['-'])) = true := by
    rw [nameTruthy_some]
    simp [hn.1, hn.2]
  rw [if_pos h1]
  simp only [Option.getD_some]
  cases ho : openFile env w name mode with
  | mk r w1 =>
    cases r with
    | error e => rfl
    | ok fh =>
      obtain ⟨rfl, _⟩ := openFile_ok ho
      simp

theorem smartOpen_std {α : Type} (env : Env) (filename : Option Str) (mode : Str)
    (hn : ∀ name, filename = some name → ¬ Proper name)
    (body : Handle → World → Except PyErr α × World) (w : World) :
    smartOpen env filename mode body w =
      if mode.head? = some 'w' then body .stdout w
      else if mode.head? = some 'r' then body .stdin w
      else (.error (.other 0), w) := by
  unfold smartOpen
  have h1 : ¬ (nameTruthy filename && (filename != some ['-'])) = true := by
    cases filename with
    | none => simp [nameTruthy]
    | some name =>
      have := hn name rfl
      rw [nameTruthy_some]
      unfold Proper at this
      simp
      intro h2
      exact Classical.byContradiction (fun h3 => this ⟨h2, h3⟩)
  rw [if_neg h1]
  simp

/-- C53. `smart_open` on a file: if it cannot be opened the body is not run. Otherwise the
body gets the new file, its result or exception is passed on, and the file is closed once,
right after the body. On `None`, `""` and `-` the body gets a standard stream, according to
the mode, which is not closed; with another mode the body is not run. -/
theorem c53_smart_open {α : Type} (env : Env) (filename : Option Str) (mode : Str)
    (body : Handle → World → Except PyErr α × World) (w : World) :
    (∀ name, filename = some name → Proper name →
      (∃ e, openFile env w name mode = (.error e, w) ∧
        smartOpen env filename mode body w = (.error e, w)) ∨
      (∃ w1, openFile env w name mode = (.ok (.file w.nextId name), w1) ∧
        w1.trace = w.trace ++ [.opened w.nextId name mode] ∧
        (smartOpen env filename mode body w).1 = (body (.file w.nextId name) w1).1 ∧
        (smartOpen env filename mode body w).2.trace
          = (body (.file w.nextId name) w1).2.trace ++ [.closed w.nextId] ∧
        (smartOpen env filename mode body w).2.fs = (body (.file w.nextId name) w1).2.fs)) ∧
    ((∀ name, filename = some name → ¬ Proper name) →
      smartOpen env filename mode body w =
        match mode.head? with
        | some 'w' => body .stdout w
        | some 'r' => body .stdin w
        | _ => (.error (.other 0), w)) := by
  constructor
  · intro name hf hn
    subst hf
    rw [smartOpen_proper env name mode hn]
    cases ho : openFile env w name mode with
    | mk r w1 =>
      cases r with
      | error e =>
        have := openFile_error ho
        subst this
        exact .inl ⟨e, rfl, rfl⟩
      | ok fh =>
        obtain ⟨rfl, h2, _⟩ := openFile_ok ho
        exact .inr ⟨w1, rfl, h2, rfl, rfl, rfl⟩
  · intro hn
    rw [smartOpen_std env filename mode hn]
    cases hm : mode.head? with
    | none => simp
    | some c =>
      by_cases h1 : c = 'w'
      · subst h1; simp
      · by_cases h2 : c = 'r'
        · subst h2; simp
        · simp [h1, h2]

/-! ### The outputs -/

theorem instruments_js (h : List Event) (hb : ByteHistory h) :
    ∃ js, instrumentsJs (run h) = .ok js ∧ instrumentsText (run h) = .ok (js ++ ['\n']) := by
  obtain ⟨text, e, _⟩ := c49_read_back h hb
  unfold instrumentsText at e ⊢
  cases hj : instrumentsJs (run h) with
  | error x => rw [hj] at e; simp at e
  | ok js => exact ⟨js, rfl, rfl⟩

theorem asciiBytes_append (s t : Str) : asciiBytes (s ++ t) = asciiBytes s ++ asciiBytes t := by
  simp [asciiBytes]

/-- The message before the instruments are written. -/
def instrMessage (name : Str) : Str :=
  "Writing instruments to ".toList ++ name ++ "...\n".toList

/-- The message before the tracks are written. -/
def trackMessage (name : Str) : Str := "Writing xrns ".toList ++ name ++ "...\n".toList

theorem setFile_setFile (fs : Str → Option Bytes) (n : Str) (a b : Bytes) :
    setFile (setFile fs n a) n b = setFile fs n b := by
  funext x
  simp only [setFile]
  split <;> rfl

theorem setFile_self (fs : Str → Option Bytes) (n : Str) (a : Bytes) : setFile fs n a n = some a := by
  simp [setFile]

theorem extractInstruments_file (env : Env) (name : Str) (hn : Proper name) (s : State) (js : Str)
    (hj : instrumentsJs s = .ok js) (w : World) :
    extractInstruments env (some name) s w =
      match env.openErr name true with
      | some e => (.error e, w.print (instrMessage name))
      | none => (.ok (),
          { fs := setFile w.fs name (asciiBytes (js ++ ['\n']))
            stdout := w.stdout ++ instrMessage name
            clocks := w.clocks
            trace := w.trace ++ [.opened w.nextId name ['w'], .closed w.nextId]
            nextId := w.nextId + 1 }) := by
  unfold extractInstruments
  rw [hj]
  simp only [smartOpen_proper env name ['w'] hn, nameStr, openFile, List.head?_cons]
  have hm : "Writing instruments to ".toList ++ name ++ "...\n".toList = instrMessage name := rfl
  rw [hm]
  cases env.openErr name true with
  | some e => rfl
  | none =>
    simp only [World.write, World.close, World.print, setFile_setFile, setFile_self,
      Option.getD_some, List.nil_append, asciiBytes_append, List.append_assoc, List.cons_append]

theorem extractInstruments_stdout (env : Env) (s : State) (js : Str)
    (hj : instrumentsJs s = .ok js) (w : World) :
    extractInstruments env (some ['-']) s w =
      (.ok (), w.print (instrMessage ['-'] ++ (js ++ ['\n']))) := by
  have hp : ∀ name : Str, some ['-'] = some name → ¬ Proper name := by
    intro n e
    have e' : ['-'] = n := Option.some.inj e
    rw [← e']
    exact fun hx => hx.2 rfl
  unfold extractInstruments
  rw [hj]
  simp only [smartOpen_std env (some ['-']) ['w'] hp, nameStr]
  have hm : "Writing instruments to ".toList ++ ['-'] ++ "...\n".toList = instrMessage ['-'] := rfl
  rw [hm]
  simp only [World.write, World.print, List.head?_cons, if_true, List.append_assoc]

theorem extractTracks_eq (env : Env) (name : Str) (s : State) (t : Int) (w : World) :
    extractTracksToXrns env s name t w =
      match exportXrns s t with
      | .error e => (.error e, w.print (trackMessage name))
      | .ok d =>
        match env.openErr name true with
        | some e => (.error e, w.print (trackMessage name))
        | none =>
          ((writeSong env.zip64 env.now d).1,
              { fs := setFile w.fs name (writeSong env.zip64 env.now d).2
                stdout := w.stdout ++ trackMessage name
                clocks := w.clocks
                trace := w.trace ++ [.opened w.nextId name ['w', 'b'], .closed w.nextId]
                nextId := w.nextId + 1 }) := by
  unfold extractTracksToXrns exportXrns
  cases exportSong s t with
  | error e => rfl
  | ok song =>
    simp only [openFile, List.head?_cons]
    have hm : "Writing xrns ".toList ++ name ++ "...\n".toList = trackMessage name := rfl
    rw [hm]
    cases env.openErr name true with
    | some e => rfl
    | none =>
      simp only
      generalize writeSong env.zip64 env.now (render song) = x
      obtain ⟨r, b⟩ := x
      simp [World.close, World.print, setFile_setFile]

/-- `f` ends with `r` and writes the files `ups`, whatever the world is like; it prints
something, and closes the files it opens. -/
def Does (f : World → Except PyErr Unit × World) (r : Except PyErr Unit)
    (ups : List (Str × Bytes)) (out : Str) : Prop :=
  ∃ (tr : Nat → List Action) (m : Nat),
    (∀ k, Nested (tr k) ∧ openedIds (tr k) = List.range' k m) ∧
    ∀ w, f w = (r,
      { fs := writeFiles w.fs ups
        stdout := w.stdout ++ out
        clocks := w.clocks
        trace := w.trace ++ tr w.nextId
        nextId := w.nextId + m })

theorem does_nothing : Does (fun w => (.ok (), w)) (.ok ()) [] [] :=
  ⟨fun _ => [], 0, fun _ => ⟨.nil, rfl⟩, fun w => by simp [writeFiles]⟩

theorem does_print (r : Except PyErr Unit) (s : Str) : Does (fun w => (r, w.print s)) r [] s :=
  ⟨fun _ => [], 0, fun _ => ⟨.nil, rfl⟩, fun w => by simp [writeFiles, World.print]⟩

theorem writeFiles_append (fs : Str → Option Bytes) (a b : List (Str × Bytes)) :
    writeFiles fs (a ++ b) = writeFiles (writeFiles fs a) b := by
  simp [writeFiles]

theorem does_write (r : Except PyErr Unit) (name mode : Str) (b : Bytes) (s : Str) :
    Does (fun w => (r,
      { fs := setFile w.fs name b
        stdout := w.stdout ++ s
        clocks := w.clocks
        trace := w.trace ++ [.opened w.nextId name mode, .closed w.nextId]
        nextId := w.nextId + 1 })) r [(name, b)] s :=
  ⟨fun k => [.opened k name mode, .closed k], 1, fun k => ⟨.wrap k name mode .nil, rfl⟩,
    fun _ => rfl⟩

/-- The instruments: what happens and what is written. -/
def instrEffect (env : Env) (instr : Option Str) (text : Str) :
    Except PyErr Unit × List (Str × Bytes) × Str :=
  match instr with
  | none => (.ok (), [], [])
  | some [] => (.ok (), [], [])
  | some name =>
    if name = ['-'] then (.ok (), [], instrMessage name ++ text)
    else match env.openErr name true with
      | some e => (.error e, [], instrMessage name)
      | none => (.ok (), [(name, asciiBytes text)], instrMessage name)

/-- The tracks: what happens and what is written. -/
def trackEffect (env : Env) (track : Option Str) (song : Except PyErr DaoSong) :
    Except PyErr Unit × List (Str × Bytes) × Str :=
  match track with
  | none => (.ok (), [], [])
  | some [] => (.ok (), [], [])
  | some name =>
    match song with
    | .error e => (.error e, [], trackMessage name)
    | .ok d =>
      match env.openErr name true with
      | some e => (.error e, [], trackMessage name)
      | none =>
        ((writeSong env.zip64 env.now d).1, [(name, (writeSong env.zip64 env.now d).2)],
          trackMessage name)

theorem instr_does (env : Env) (instr : Option Str) (s : State) (js : Str)
    (hj : instrumentsJs s = .ok js) :
    Does (fun w => if nameTruthy instr then extractInstruments env instr s w else (.ok (), w))
      (instrEffect env instr (js ++ ['\n'])).1 (instrEffect env instr (js ++ ['\n'])).2.1
      (instrEffect env instr (js ++ ['\n'])).2.2 := by
  cases instr with
  | none => exact does_nothing
  | some name =>
    cases name with
    | nil => exact does_nothing
    | cons c cs =>
      simp only [nameTruthy, if_true]
      by_cases hd : c :: cs = ['-']
      · rw [hd]
        have : (fun w => extractInstruments env (some ['-']) s w)
            = fun w => (.ok (), w.print (instrMessage ['-'] ++ (js ++ ['\n']))) := by
          funext w; exact extractInstruments_stdout env s js hj w
        rw [this]
        exact does_print _ _
      · have hp : Proper (c :: cs) := ⟨by simp, hd⟩
        have e := funext (f := extractInstruments env (some (c :: cs)) s)
          (fun w => extractInstruments_file env (c :: cs) hp s js hj w)
        show Does (extractInstruments env (some (c :: cs)) s) _ _ _
        rw [e]
        simp only [instrEffect, if_neg hd]
        cases env.openErr (c :: cs) true with
        | some e => exact does_print _ _
        | none => exact does_write _ _ _ _ _

theorem track_does (env : Env) (track : Option Str) (s : State) (t : Int) :
    Does (fun w => match track with
        | some (c :: cs) => extractTracksToXrns env s (c :: cs) t w
        | _ => (.ok (), w))
      (trackEffect env track (exportXrns s t)).1 (trackEffect env track (exportXrns s t)).2.1
      (trackEffect env track (exportXrns s t)).2.2 := by
  cases track with
  | none => exact does_nothing
  | some name =>
    cases name with
    | nil => exact does_nothing
    | cons c cs =>
      simp only
      have e := funext (f := extractTracksToXrns env s (c :: cs) t)
        (fun w => extractTracks_eq env (c :: cs) s t w)
      show Does (extractTracksToXrns env s (c :: cs) t) _ _ _
      rw [e]
      simp only [trackEffect]
      cases exportXrns s t with
      | error e => exact does_print _ _
      | ok d =>
        simp only
        cases env.openErr (c :: cs) true with
        | some e => exact does_print _ _
        | none => exact does_write _ _ _ _ _

/-- Both outputs: the tracks only if the instruments did not fail. -/
def bothEffect (a b : Except PyErr Unit × List (Str × Bytes) × Str) :
    Except PyErr Unit × List (Str × Bytes) × Str :=
  match a.1 with
  | .error e => (.error e, a.2)
  | .ok () => (b.1, a.2.1 ++ b.2.1, a.2.2 ++ b.2.2)

theorem outputs_does (env : Env) (instr track : Option Str) (s : State) (t : Int) (js : Str)
    (hj : instrumentsJs s = .ok js) :
    let e := bothEffect (instrEffect env instr (js ++ ['\n'])) (trackEffect env track (exportXrns s t))
    Does (mainOutputs env instr track s t) e.1 e.2.1 e.2.2 := by
  obtain ⟨tr1, m1, hn1, h1⟩ := instr_does env instr s js hj
  obtain ⟨tr2, m2, hn2, h2⟩ := track_does env track s t
  generalize instrEffect env instr (js ++ ['\n']) = A at *
  generalize trackEffect env track (exportXrns s t) = B at *
  obtain ⟨r1, u1, o1⟩ := A
  obtain ⟨r2, u2, o2⟩ := B
  simp only at h1 h2
  cases r1 with
  | error e =>
    refine ⟨tr1, m1, hn1, ?_⟩
    intro w
    have := h1 w
    unfold mainOutputs
    rw [this]
    rfl
  | ok x =>
    cases x
    refine ⟨fun k => tr1 k ++ tr2 (k + m1), m1 + m2, ?_, ?_⟩
    · intro k
      refine ⟨.append (hn1 k).1 (hn2 _).1, ?_⟩
      have e1 := (hn1 k).2
      have e2 := (hn2 (k + m1)).2
      unfold openedIds at e1 e2 ⊢
      rw [List.filterMap_append, e1, e2, List.range'_append_1]
    · intro w
      have := h1 w
      unfold mainOutputs
      rw [this]
      simp only
      have := h2 { fs := writeFiles w.fs u1
                   stdout := w.stdout ++ o1
                   clocks := w.clocks
                   trace := w.trace ++ tr1 w.nextId
                   nextId := w.nextId + m1 }
      refine Eq.trans this ?_
      simp only [bothEffect, writeFiles_append, List.append_assoc, Nat.add_assoc]

/-! ### The whole program -/

/-- The result `x` of a program started in `w`: it ended with `r`, wrote `ups`, printed `out`,
and closed every file it opened. -/
structure Did (x : Except PyErr Unit × World) (w : World) (r : Except PyErr Unit)
    (ups : List (Str × Bytes)) (out : Str) : Prop where
  result : x.1 = r
  fs : x.2.fs = writeFiles w.fs ups
  stdout : x.2.stdout = w.stdout ++ out
  trace : ∃ t m, x.2.trace = w.trace ++ t ∧ Nested t ∧ openedIds t = List.range' w.nextId m ∧
    x.2.nextId = w.nextId + m

theorem openFile_rb (env : Env) (w : World) (name : Str) :
    openFile env w name ['r', 'b'] =
      match env.openErr name false, w.fs name with
      | some e, _ => (.error e, w)
      | none, none => (.error .fileNotFound, w)
      | none, some _ => (.ok (.file w.nextId name),
          { w with
            trace := w.trace ++ [.opened w.nextId name ['r', 'b']]
            nextId := w.nextId + 1 }) := by
  simp only [openFile, List.head?_cons]
  rfl

theorem openedIds_wrap (k : Nat) (name mode : Str) (t : List Action) (m : Nat)
    (h : openedIds t = List.range' (k + 1) m) :
    openedIds (.opened k name mode :: t ++ [.closed k]) = List.range' k (m + 1) := by
  unfold openedIds at *
  rw [List.filterMap_append]
  simp only [List.filterMap_cons, List.filterMap_nil, h, List.append_nil]
  rfl

/-- `main` on a readable input. -/
theorem main_readable (env : Env) (vgm : Str) (instr track : Option Str) (ticks : Option Int)
    (content : Bytes) (cs : List Cmd) (a : Str) (hn : Proper vgm)
    (ho : env.openErr vgm false = none) (ha : env.argsFile = some a)
    (h : Readable env.gunzip content cs) :
    ByteHistory (history cs) ∧
    ∃ t text, TicksInUse ticks (run (history cs)).ticksPerNote t ∧
      instrumentsText (run (history cs)) = .ok text ∧
      ∀ w : World, w.fs vgm = some content →
        let e := bothEffect (instrEffect env instr text)
          (trackEffect env track (exportXrns (run (history cs)) t))
        Did (main env (some vgm) instr track ticks w) w e.1 e.2.1
          (preamble env a ticks (run (history cs)) t ++ e.2.2) := by
  obtain ⟨v, k0, _, h2⟩ := reader_readable (fun _ => none) h
  have hb := runs_byteHistory h2
  obtain ⟨js, hj, htext⟩ := instruments_js (history cs) hb
  obtain ⟨t, ht, _⟩ := mainTicks_spec env ticks (history cs) hb ⟨fun _ => none, [], fun _ => none, [], 0⟩
  refine ⟨hb, t, _, ht, htext, ?_⟩
  intro w hf
  obtain ⟨tr, m, htr, hdo⟩ := outputs_does env instr track (run (history cs)) t js hj
  unfold main
  rw [smartOpen_proper env vgm _ hn, openFile_rb, ho, hf]
  simp only
  obtain ⟨_, t', k, ht', hbody⟩ := mainBody_readable env instr track ticks w.nextId vgm
    { w with
      trace := w.trace ++ [.opened w.nextId vgm ['r', 'b']]
      nextId := w.nextId + 1 } cs a ha (by simp only [hf, Option.getD_some]; exact h)
  have htt := ticksInUse_unique ht ht'
  subst htt
  rw [hbody, hdo]
  refine ⟨rfl, rfl, ?_, ?_⟩
  · simp only [World.close, List.append_assoc]
  · refine ⟨.opened w.nextId vgm ['r', 'b'] :: tr (w.nextId + 1) ++ [.closed w.nextId], m + 1, ?_,
      .wrap _ _ _ (htr _).1, openedIds_wrap _ _ _ _ _ (htr _).2, ?_⟩
    · simp [World.close]
    · simp only [World.close]; omega

/-- `main` on anything else: no readable input, or `args` does not exist. -/
theorem main_unreadable_now (env : Env) (vgm : Option Str) (instr track : Option Str)
    (ticks : Option Int) (fs : Str → Option Bytes)
    (h : ∀ name content cs, vgm = some name → Proper name → env.openErr name false = none →
      fs name = some content → env.argsFile ≠ none → ¬ Readable env.gunzip content cs) :
    ∃ e s, ∀ (env' : Env), Alike env env' → ∀ (w : World), (∀ name, vgm = some name → w.fs name = fs name) →
      Did (main env' vgm instr track ticks w) w (.error e) [] s := by
  by_cases hp : ∃ name, vgm = some name ∧ Proper name
  · obtain ⟨name, rfl, hn⟩ := hp
    cases ho : env.openErr name false with
    | some e =>
      refine ⟨e, [], fun env' hE w hw => ?_⟩
      unfold main
      rw [smartOpen_proper env' name _ hn, openFile_rb, hE.openErr, ho]
      exact ⟨rfl, rfl, by simp, [], 0, by simp, .nil, rfl, rfl⟩
    | none =>
      cases hf : fs name with
      | none =>
        refine ⟨.fileNotFound, [], fun env' hE w hw => ?_⟩
        unfold main
        rw [smartOpen_proper env' name _ hn, openFile_rb, hE.openErr, ho, hw name rfl, hf]
        exact ⟨rfl, rfl, by simp, [], 0, by simp, .nil, rfl, rfl⟩
      | some content =>
        have key : ∃ e s, ∀ (env' : Env), Alike env env' → ∀ (id : Nat) (w : World), (w.fs name).getD [] = content →
            ∃ k, mainBody env' instr track ticks (.file id name) w
              = (.error e, { w with stdout := w.stdout ++ s, clocks := k }) := by
          cases ha : env.argsFile with
          | none =>
            refine ⟨.name, [], fun env' hE id w _ => ⟨w.clocks, ?_⟩⟩
            unfold mainBody
            simp only [hE.args, ha]
            simp
          | some a =>
            have hnr : ∀ cs, ¬ Readable env.gunzip content cs :=
              fun cs => h name content cs rfl hn ho hf (by rw [ha]; simp)
            obtain ⟨e, s, hall⟩ := mainBody_unreadable_now env instr track ticks (.file 0 name) content
              (fun _ _ cs _ => hnr cs)
            refine ⟨e, s, fun env' hE id w hw => ?_⟩
            have hid : mainBody env' instr track ticks (.file id name)
                = mainBody env' instr track ticks (.file 0 name) := rfl
            rw [hid]
            exact hall env' hE w (by intro _ n e; cases e; exact hw)
        obtain ⟨e, s, hall⟩ := key
        refine ⟨e, s, fun env' hE w hw => ?_⟩
        have hw' := (hw name rfl).trans hf
        unfold main
        rw [smartOpen_proper env' name _ hn, openFile_rb, hE.openErr, ho, hw']
        simp only
        obtain ⟨k, hbody⟩ := hall env' hE w.nextId
          { w with
            trace := w.trace ++ [.opened w.nextId name ['r', 'b']]
            nextId := w.nextId + 1 } (by simp [hw'])
        rw [hbody]
        refine ⟨rfl, rfl, rfl, ?_⟩
        refine ⟨.opened w.nextId name ['r', 'b'] :: [] ++ [.closed w.nextId], 1, ?_,
          .wrap _ _ _ .nil, rfl, rfl⟩
        simp [World.close]
  · have hnp : ∀ name, vgm = some name → ¬ Proper name := fun name e hx => hp ⟨name, e, hx⟩
    obtain ⟨e, s, hall⟩ := mainBody_unreadable_now env instr track ticks .stdin []
      (fun _ _ _ e => by cases e)
    refine ⟨e, s, fun env' hE w _ => ?_⟩
    unfold main
    rw [smartOpen_std env' vgm _ hnp]
    obtain ⟨k, hbody⟩ := hall env' hE w (by intro _ _ e; cases e)
    simp only [List.head?_cons]
    rw [if_neg (by decide), if_pos trivial, hbody]
    exact ⟨rfl, rfl, rfl, [], 0, by simp, .nil, rfl, rfl⟩

theorem main_unreadable (env : Env) (vgm : Option Str) (instr track : Option Str)
    (ticks : Option Int) (fs : Str → Option Bytes)
    (h : ∀ name content cs, vgm = some name → Proper name → env.openErr name false = none →
      fs name = some content → env.argsFile ≠ none → ¬ Readable env.gunzip content cs) :
    ∃ e s, ∀ w : World, (∀ name, vgm = some name → w.fs name = fs name) →
      Did (main env vgm instr track ticks w) w (.error e) [] s := by
  obtain ⟨e, s, h⟩ := main_unreadable_now env vgm instr track ticks fs h
  exact ⟨e, s, h env ⟨rfl, rfl, rfl, rfl⟩⟩

/-! ### C51, C52 -/

/-- C51. If `main` returns, or any file is different afterwards, then the input was an
existing file that can be read to its end. So for an input that is missing, not a VGM file, cut
off or otherwise malformed the program raises and leaves every file as it was. -/
theorem c51_readable_only (env : Env) (vgm instr track : Option Str) (ticks : Option Int) (w : World)
    (h : (main env vgm instr track ticks w).1 = .ok () ∨
      ∃ n, (main env vgm instr track ticks w).2.fs n ≠ w.fs n) :
    ∃ name content cs, vgm = some name ∧ name ≠ [] ∧ name ≠ ['-'] ∧ w.fs name = some content ∧
      Readable env.gunzip content cs := by
  by_contra hno
  obtain ⟨e, s, hall⟩ := main_unreadable env vgm instr track ticks w.fs (by
    intro name content cs h1 h2 _ h4 _ h5
    exact hno ⟨name, content, cs, h1, h2.1, h2.2, h4, h5⟩)
  have hd := hall w (fun _ _ => rfl)
  rcases h with h | ⟨n, hn⟩
  · rw [hd.result] at h; cases h
  · apply hn
    rw [hd.fs]
    rfl

/-- C52. With `-` or no name as input the program raises and changes no file, whatever standard
input holds. -/
theorem c52_stdin_never_works (env : Env) (vgm instr track : Option Str) (ticks : Option Int)
    (w : World) (hv : vgm = none ∨ vgm = some [] ∨ vgm = some ['-']) :
    (∃ e, (main env vgm instr track ticks w).1 = .error e) ∧
    (main env vgm instr track ticks w).2.fs = w.fs := by
  obtain ⟨e, s, hall⟩ := main_unreadable env vgm instr track ticks w.fs (by
    intro name content cs h1 h2 _ h4 _ h5
    rcases hv with h | h | h <;> rw [h] at h1
    · cases h1
    · exact h2.1 (Option.some.inj h1).symm
    · exact h2.2 (Option.some.inj h1).symm)
  have hd := hall w (fun _ _ => rfl)
  exact ⟨⟨e, hd.result⟩, hd.fs⟩

/-! ### C53 for the program -/

/-- Any run of `main` is one of the two kinds. -/
theorem main_did (env : Env) (vgm instr track : Option Str) (ticks : Option Int) (w : World) :
    ∃ r ups out, Did (main env vgm instr track ticks w) w r ups out := by
  by_cases h : ∃ name content cs, vgm = some name ∧ Proper name ∧ env.openErr name false = none ∧
      w.fs name = some content ∧ env.argsFile ≠ none ∧ Readable env.gunzip content cs
  · obtain ⟨name, content, cs, rfl, h2, h3, h4, h5, h6⟩ := h
    obtain ⟨a, ha⟩ := Option.ne_none_iff_exists'.mp h5
    obtain ⟨_, t, text, _, _, hall⟩ := main_readable env name instr track ticks content cs a h2 h3 ha h6
    exact ⟨_, _, _, hall w h4⟩
  · obtain ⟨e, s, hall⟩ := main_unreadable env vgm instr track ticks w.fs (by
      intro name content cs h1 h2 h3 h4 h5 h6
      exact h ⟨name, content, cs, h1, h2, h3, h4, h5, h6⟩)
    exact ⟨_, _, _, hall w (fun _ _ => rfl)⟩

/-- C53. However the program ends, every file it opened has been closed, once and in the
opposite order, and no other file. -/
theorem c53_main (env : Env) (vgm instr track : Option Str) (ticks : Option Int) (w : World) :
    ∃ t, (main env vgm instr track ticks w).2.trace = w.trace ++ t ∧ Nested t ∧
      (openedIds t).Nodup ∧ (closedIds t).Perm (openedIds t) := by
  obtain ⟨r, ups, out, hd⟩ := main_did env vgm instr track ticks w
  obtain ⟨t, m, h1, h2, h3, _⟩ := hd.trace
  refine ⟨t, h1, h2, by rw [h3]; exact List.nodup_range', ?_⟩
  clear h1 h3 hd
  induction h2 with
  | nil => exact List.Perm.refl _
  | wrap id name mode _ ih =>
    unfold openedIds closedIds at *
    simp only [List.filterMap_append, List.filterMap_cons, List.filterMap_nil, List.append_nil]
    exact (List.perm_append_singleton _ _).trans (List.Perm.cons _ ih)
  | append _ _ ih1 ih2 =>
    unfold openedIds closedIds at *
    simp only [List.filterMap_append]
    exact List.Perm.append ih1 ih2

/-! ### What is written -/

theorem writeFiles_cons (fs : Str → Option Bytes) (u : Str × Bytes) (l : List (Str × Bytes)) :
    writeFiles fs (u :: l) = writeFiles (fun n => if n = u.1 then some u.2 else fs n) l := rfl

theorem writeFiles_other (l : List (Str × Bytes)) (fs : Str → Option Bytes) (n : Str)
    (h : ∀ u ∈ l, u.1 ≠ n) : writeFiles fs l n = fs n := by
  induction l generalizing fs with
  | nil => rfl
  | cons u l ih =>
    rw [writeFiles_cons, ih _ (fun x hx => h x (List.mem_cons_of_mem _ hx))]
    exact if_neg (fun e => h u List.mem_cons_self e.symm)

theorem writeFiles_agree (l : List (Str × Bytes)) (fs fs' : Str → Option Bytes) (n : Str)
    (h : fs n = fs' n ∨ ∃ u ∈ l, u.1 = n) : writeFiles fs l n = writeFiles fs' l n := by
  induction l generalizing fs fs' with
  | nil =>
    rcases h with h | ⟨u, hu, _⟩
    · exact h
    · cases hu
  | cons u l ih =>
    rw [writeFiles_cons, writeFiles_cons]
    apply ih
    by_cases hn : n = u.1
    · left; simp only [if_pos hn]
    · rcases h with h | ⟨x, hx, he⟩
      · left; simp only [if_neg hn]; exact h
      · rcases List.mem_cons.mp hx with rfl | hx
        · exact absurd he.symm hn
        · exact .inr ⟨x, hx, he⟩

theorem writeFiles_some (l : List (Str × Bytes)) (fs : Str → Option Bytes) (n : Str)
    (h : fs n ≠ none ∨ ∃ u ∈ l, u.1 = n) : writeFiles fs l n ≠ none := by
  induction l generalizing fs with
  | nil =>
    rcases h with h | ⟨u, hu, _⟩
    · exact h
    · cases hu
  | cons u l ih =>
    rw [writeFiles_cons]
    apply ih
    by_cases hn : n = u.1
    · left; simp [if_pos hn]
    · rcases h with h | ⟨x, hx, he⟩
      · left; simp only [if_neg hn]; exact h
      · rcases List.mem_cons.mp hx with rfl | hx
        · exact absurd he.symm hn
        · exact .inr ⟨x, hx, he⟩

theorem writeFiles_idem (l : List (Str × Bytes)) (fs : Str → Option Bytes) :
    writeFiles (writeFiles fs l) l = writeFiles fs l := by
  funext n
  by_cases h : ∃ u ∈ l, u.1 = n
  · exact writeFiles_agree l _ _ n (.inr h)
  · have h' : ∀ u ∈ l, u.1 ≠ n := fun u hu e => h ⟨u, hu, e⟩
    rw [writeFiles_other l _ n h']

theorem instrEffect_names (env : Env) (instr : Option Str) (text : Str) :
    ∀ u ∈ (instrEffect env instr text).2.1, instr = some u.1 ∧ u.1 ≠ [] ∧ u.1 ≠ ['-'] ∧
      u.2 = asciiBytes text := by
  intro u hu
  unfold instrEffect at hu
  split at hu
  · simp at hu
  · simp at hu
  · rename_i name hne
    by_cases hd : name = ['-']
    · rw [if_pos hd] at hu; simp at hu
    · rw [if_neg hd] at hu
      split at hu
      · simp at hu
      · simp only [List.mem_singleton] at hu
        subst hu
        exact ⟨rfl, fun e => hne e, hd, rfl⟩

theorem trackEffect_names (env : Env) (track : Option Str) (song : Except PyErr DaoSong) :
    ∀ u ∈ (trackEffect env track song).2.1, track = some u.1 ∧ u.1 ≠ [] ∧
      ∃ d, song = .ok d ∧ writeSong env.zip64 env.now d = ((trackEffect env track song).1, u.2) := by
  intro u hu
  cases track with
  | none => simp [trackEffect] at hu
  | some name =>
    cases name with
    | nil => simp [trackEffect] at hu
    | cons c cs =>
      cases song with
      | error e => simp [trackEffect] at hu
      | ok d =>
        simp only [trackEffect] at hu ⊢
        cases ho : env.openErr (c :: cs) true with
        | some e => rw [ho] at hu; simp at hu
        | none =>
          rw [ho] at hu
          simp only at hu ⊢
          simp only [List.mem_singleton] at hu
          subst hu
          exact ⟨rfl, by simp, d, rfl, rfl⟩

theorem bothEffect_names (env : Env) (instr track : Option Str) (text : Str)
    (song : Except PyErr DaoSong) :
    ∀ u ∈ (bothEffect (instrEffect env instr text) (trackEffect env track song)).2.1,
      IsOutput instr track u.1 := by
  intro u hu
  unfold bothEffect at hu
  cases hr : (instrEffect env instr text).1 with
  | error e =>
    rw [hr] at hu
    obtain ⟨h1, h2, h3, _⟩ := instrEffect_names env instr text u hu
    exact .inl ⟨h1, h2, h3⟩
  | ok x =>
    rw [hr] at hu
    rcases List.mem_append.mp hu with hu | hu
    · obtain ⟨h1, h2, h3, _⟩ := instrEffect_names env instr text u hu
      exact .inl ⟨h1, h2, h3⟩
    · obtain ⟨h1, h2, _⟩ := trackEffect_names env track song u hu
      exact .inr ⟨h1, h2⟩

theorem bothEffect_written (env : Env) (instr track : Option Str) (text : Str)
    (song : Except PyErr DaoSong) (n : Str) (hn : IsOutput instr track n)
    (hok : (bothEffect (instrEffect env instr text) (trackEffect env track song)).1 = .ok ()) :
    ∃ u ∈ (bothEffect (instrEffect env instr text) (trackEffect env track song)).2.1, u.1 = n := by
  unfold bothEffect at hok ⊢
  cases hr : (instrEffect env instr text).1 with
  | error e => rw [hr] at hok; simp at hok
  | ok x =>
    rw [hr] at hok
    simp only at hok ⊢
    rcases hn with ⟨rfl, h2, h3⟩ | ⟨rfl, h2⟩
    · refine ⟨(n, asciiBytes text), List.mem_append_left _ ?_, rfl⟩
      cases n with
      | nil => exact absurd rfl h2
      | cons c cs =>
        simp only [instrEffect, if_neg h3] at hr ⊢
        cases ho : env.openErr (c :: cs) true with
        | some e => rw [ho] at hr; simp at hr
        | none => simp
    · cases n with
      | nil => exact absurd rfl h2
      | cons c cs =>
        cases song with
        | error e => simp [trackEffect] at hok
        | ok d =>
          simp only [trackEffect] at hok ⊢
          cases ho : env.openErr (c :: cs) true with
          | some e => rw [ho] at hok; simp at hok
          | none =>
            exact ⟨(c :: cs, (writeSong env.zip64 env.now d).2), List.mem_append_right _ (by simp), rfl⟩

/-- What `main` does depends on the content of the input, and on nothing else in the world. -/
theorem main_uniform (env : Env) (vgm instr track : Option Str) (ticks : Option Int)
    (fs : Str → Option Bytes) :
    ∃ r ups out, (∀ u ∈ ups, IsOutput instr track u.1) ∧
      (r = .ok () → ∀ n, IsOutput instr track n → ∃ u ∈ ups, u.1 = n) ∧
      ∀ w : World, (∀ name, vgm = some name → w.fs name = fs name) →
        Did (main env vgm instr track ticks w) w r ups out := by
  by_cases h : ∃ name content cs, vgm = some name ∧ Proper name ∧ env.openErr name false = none ∧
      fs name = some content ∧ env.argsFile ≠ none ∧ Readable env.gunzip content cs
  · obtain ⟨name, content, cs, rfl, h2, h3, h4, h5, h6⟩ := h
    obtain ⟨a, ha⟩ := Option.ne_none_iff_exists'.mp h5
    obtain ⟨_, t, text, _, _, hall⟩ := main_readable env name instr track ticks content cs a h2 h3 ha h6
    exact ⟨_, _, _, bothEffect_names _ _ _ _ _, fun hok n hn => bothEffect_written _ _ _ _ _ n hn hok,
      fun w hw => hall w ((hw name rfl).trans h4)⟩
  · obtain ⟨e, s, hall⟩ := main_unreadable env vgm instr track ticks fs (by
      intro name content cs h1 h2 h3 h4 h5 h6
      exact h ⟨name, content, cs, h1, h2, h3, h4, h5, h6⟩)
    exact ⟨_, _, _, by simp, fun h => by (exact absurd h (by simp)), hall⟩

/-- C58. The program changes no file but the outputs it was asked for. -/
theorem c58_frame (env : Env) (vgm instr track : Option Str) (ticks : Option Int) (w : World)
    (n : Str) (hn : ¬ ((instr = some n ∧ n ≠ [] ∧ n ≠ ['-']) ∨ (track = some n ∧ n ≠ []))) :
    (main env vgm instr track ticks w).2.fs n = w.fs n := by
  obtain ⟨r, ups, out, h1, _, h2⟩ := main_uniform env vgm instr track ticks w.fs
  rw [(h2 w (fun _ _ => rfl)).fs]
  exact writeFiles_other _ _ _ (fun u hu e => hn (e ▸ h1 u hu))

/-- C60. The result, the printed text and the written files depend on the content of the
input only: not on the other files (old outputs), on what was printed before, or on VGM files
opened before in the same process (the shared clock table). -/
theorem c60_deterministic (env : Env) (vgm instr track : Option Str) (ticks : Option Int)
    (w w' : World) (hw : ∀ name, vgm = some name → w'.fs name = w.fs name) :
    let x := main env vgm instr track ticks w
    let x' := main env vgm instr track ticks w'
    x.1 = x'.1 ∧
    (∃ out, x.2.stdout = w.stdout ++ out ∧ x'.2.stdout = w'.stdout ++ out) ∧
    (x.1 = .ok () → ∀ n, ((instr = some n ∧ n ≠ [] ∧ n ≠ ['-']) ∨ (track = some n ∧ n ≠ [])) →
      x.2.fs n = x'.2.fs n ∧ x.2.fs n ≠ none) := by
  obtain ⟨r, ups, out, h1, h3, h2⟩ := main_uniform env vgm instr track ticks w.fs
  have hd := h2 w (fun _ _ => rfl)
  have hd' := h2 w' hw
  refine ⟨hd.result.trans hd'.result.symm, ⟨out, hd.stdout, hd'.stdout⟩, ?_⟩
  intro hok n hn
  rw [hd.result] at hok
  obtain ⟨u, hu, rfl⟩ := h3 hok n hn
  rw [hd.fs, hd'.fs]
  refine ⟨writeFiles_agree _ _ _ _ (.inr ⟨u, hu, rfl⟩), ?_⟩
  exact writeFiles_some _ _ _ (.inr ⟨u, hu, rfl⟩)

/-- C60. Running the program again gives the same result and the same files, if no output
replaces the input. -/
theorem c60_rerun (env : Env) (vgm instr track : Option Str) (ticks : Option Int)
    (w : World) (hv : vgm ≠ none → vgm ≠ instr ∧ vgm ≠ track) :
    let w1 := (main env vgm instr track ticks w).2
    (main env vgm instr track ticks w1).1 = (main env vgm instr track ticks w).1 ∧
    (main env vgm instr track ticks w1).2.fs = w1.fs := by
  obtain ⟨r, ups, out, h1, h3, h2⟩ := main_uniform env vgm instr track ticks w.fs
  have hd := h2 w (fun _ _ => rfl)
  have hd' := h2 (main env vgm instr track ticks w).2 (by
    intro name hname
    apply c58_frame
    have hv := hv (by rw [hname]; simp)
    rintro (⟨h, _⟩ | ⟨h, _⟩)
    · exact hv.1 (hname.trans h.symm)
    · exact hv.2 (hname.trans h.symm))
  refine ⟨hd'.result.trans hd.result.symm, ?_⟩
  rw [hd'.fs, hd.fs, writeFiles_idem]

/-! ### C54: the ticks-per-note -/

theorem main_outputs (env : Env) (vgm : Str) (instr track : Option Str) (ticks : Option Int)
    (content : Bytes) (cs : List Cmd) (w : World) (hv : vgm ≠ [] ∧ vgm ≠ ['-'])
    (hf : w.fs vgm = some content) (hr : Readable env.gunzip content cs)
    (ho : ∀ n b, env.openErr n b = none) (ha : env.argsFile ≠ none) :
    ∃ t text, TicksInUse ticks (run (history cs)).ticksPerNote t ∧
      instrumentsText (run (history cs)) = .ok text ∧
      ((track = none ∨ track = some []) →
        (main env (some vgm) instr track ticks w).1 = .ok () ∧
        ∀ n, (main env (some vgm) instr track ticks w).2.fs n =
          if instr = some n ∧ n ≠ [] ∧ n ≠ ['-'] then some (asciiBytes text) else w.fs n) ∧
      (∀ name d bytes, track = some name → name ≠ [] →
        exportXrns (run (history cs)) t = .ok d → writeSong env.zip64 env.now d = (.ok (), bytes) →
        (main env (some vgm) instr track ticks w).1 = .ok () ∧
        ∀ n, (main env (some vgm) instr track ticks w).2.fs n =
          if n = name then some bytes
          else if instr = some n ∧ n ≠ [] ∧ n ≠ ['-'] then some (asciiBytes text) else w.fs n) ∧
      (∀ name e, track = some name → name ≠ [] →
        exportXrns (run (history cs)) t = .error e →
        (main env (some vgm) instr track ticks w).1 = .error e ∧
        ∀ n, (main env (some vgm) instr track ticks w).2.fs n =
          if instr = some n ∧ n ≠ [] ∧ n ≠ ['-'] then some (asciiBytes text) else w.fs n) := by
  obtain ⟨a, ha⟩ := Option.ne_none_iff_exists'.mp ha
  obtain ⟨_, t, text, ht, htext, hall⟩ :=
    main_readable env vgm instr track ticks content cs a hv (ho _ _) ha hr
  have hd := hall w hf
  have hi : (instrEffect env instr text).1 = .ok () ∧ ∀ n,
      writeFiles w.fs (instrEffect env instr text).2.1 n =
        if instr = some n ∧ n ≠ [] ∧ n ≠ ['-'] then some (asciiBytes text) else w.fs n := by
    unfold instrEffect
    cases instr with
    | none => simp [writeFiles]
    | some i =>
      cases i with
      | nil =>
        refine ⟨rfl, fun n => ?_⟩
        rw [if_neg (by rintro ⟨h, h2, _⟩; exact h2 (Option.some.inj h).symm)]
        rfl
      | cons c cs =>
        by_cases hd : c :: cs = ['-']
        · simp only [if_pos hd]
          refine ⟨trivial, fun n => ?_⟩
          rw [if_neg (by rintro ⟨h, _, h2⟩; exact h2 ((Option.some.inj h).symm.trans hd))]
          rfl
        · simp only [if_neg hd, ho]
          refine ⟨trivial, fun n => ?_⟩
          simp only [writeFiles, List.foldl_cons, List.foldl_nil]
          by_cases hn : n = c :: cs
          · subst hn; rw [if_pos rfl, if_pos ⟨rfl, by simp, hd⟩]
          · rw [if_neg hn, if_neg (by rintro ⟨h, _⟩; exact hn (Option.some.inj h).symm)]
  refine ⟨t, text, ht, htext, ?_, ?_, ?_⟩
  · intro htr
    have hte : trackEffect env track (exportXrns (run (history cs)) t) = (.ok (), [], []) := by
      rcases htr with rfl | rfl <;> rfl
    rw [hte] at hd
    refine ⟨?_, fun n => ?_⟩
    · rw [hd.result]; unfold bothEffect; rw [hi.1]
    · rw [hd.fs]; unfold bothEffect; rw [hi.1]
      simp only [List.append_nil]
      exact hi.2 n
  · intro name d bytes htr hne hd1 hd2
    have hte : trackEffect env track (exportXrns (run (history cs)) t)
        = (.ok (), [(name, bytes)], trackMessage name) := by
      subst htr
      cases name with
      | nil => exact absurd rfl hne
      | cons c cs => simp only [trackEffect, hd1, ho, hd2]
    rw [hte] at hd
    refine ⟨?_, fun n => ?_⟩
    · rw [hd.result]; unfold bothEffect; rw [hi.1]
    · rw [hd.fs]; unfold bothEffect; rw [hi.1]
      simp only [writeFiles_append]
      rw [writeFiles_cons]
      simp only [writeFiles, List.foldl_nil]
      have := hi.2 n
      simp only [writeFiles] at this
      rw [this]
  · intro name e htr hne hd1
    have hte : trackEffect env track (exportXrns (run (history cs)) t)
        = (.error e, [], trackMessage name) := by
      subst htr
      cases name with
      | nil => exact absurd rfl hne
      | cons c cs => simp only [trackEffect, hd1]
    rw [hte] at hd
    refine ⟨?_, fun n => ?_⟩
    · rw [hd.result]; unfold bothEffect; rw [hi.1]
    · rw [hd.fs]; unfold bothEffect; rw [hi.1]
      simp only [List.append_nil]
      exact hi.2 n

/-- C54. A readable input, no file that cannot be opened: the ticks-per-note is the given one
unless that is missing or zero, when it is the estimate; the track file holds the song for it,
the instrument file is the list of instruments (also if the song cannot be made), and no other
file changes. If both have the same name, the song wins. -/
theorem c54_outputs (env : Env) (vgm : Str) (instr track : Option Str) (ticks : Option Int)
    (content : Bytes) (cs : List Cmd) (w : World) (hv : vgm ≠ [] ∧ vgm ≠ ['-'])
    (hf : w.fs vgm = some content) (hr : Readable env.gunzip content cs)
    (ho : ∀ n b, env.openErr n b = none) (ha : env.argsFile ≠ none)
    (hc : ClockReading env.now) (hy : ZipYear env.now) :
    ∃ t text, TicksInUse ticks (run (history cs)).ticksPerNote t ∧
      instrumentsText (run (history cs)) = .ok text ∧
      ((track = none ∨ track = some []) →
        (main env (some vgm) instr track ticks w).1 = .ok () ∧
        ∀ n, (main env (some vgm) instr track ticks w).2.fs n =
          if instr = some n ∧ n ≠ [] ∧ n ≠ ['-'] then some (asciiBytes text) else w.fs n) ∧
      (∀ name d, track = some name → name ≠ [] →
        exportXrns (run (history cs)) t = .ok d → (songXml d).length < maxDocument →
        (main env (some vgm) instr track ticks w).1 = .ok () ∧
        ∃ bytes, readSongFile bytes = some d ∧
        ∀ n, (main env (some vgm) instr track ticks w).2.fs n =
          if n = name then some bytes
          else if instr = some n ∧ n ≠ [] ∧ n ≠ ['-'] then some (asciiBytes text) else w.fs n) ∧
      (∀ name e, track = some name → name ≠ [] →
        exportXrns (run (history cs)) t = .error e →
        (main env (some vgm) instr track ticks w).1 = .error e ∧
        ∀ n, (main env (some vgm) instr track ticks w).2.fs n =
          if instr = some n ∧ n ≠ [] ∧ n ≠ ['-'] then some (asciiBytes text) else w.fs n) := by
  obtain ⟨t, text, h1, h2, h3, h4, h5⟩ :=
    main_outputs env vgm instr track ticks content cs w hv hf hr ho ha
  refine ⟨t, text, h1, h2, h3, ?_, h5⟩
  intro name d htr hne hd hs
  obtain ⟨w1, w2⟩ := c63_file env.zip64 env.now hc hy _ t d hd hs
  obtain ⟨r1, r2⟩ := h4 name d _ htr hne hd (Prod.ext w1 rfl)
  exact ⟨r1, _, w2, r2⟩

/-- C54. The instrument file does not depend on the ticks-per-note, nor on the track file. -/
theorem c54_independent (env : Env) (vgm : Option Str) (i : Str) (track track' : Option Str)
    (ticks ticks' : Option Int) (w : World) (hi : track ≠ some i) (hi' : track' ≠ some i) :
    (main env vgm (some i) track ticks w).2.fs i = (main env vgm (some i) track' ticks' w).2.fs i := by
  by_cases h : ∃ name content cs, vgm = some name ∧ Proper name ∧ env.openErr name false = none ∧
      w.fs name = some content ∧ env.argsFile ≠ none ∧ Readable env.gunzip content cs
  · obtain ⟨name, content, cs, rfl, h2, h3, h4, h5, h6⟩ := h
    obtain ⟨a, ha⟩ := Option.ne_none_iff_exists'.mp h5
    have key : ∀ (track : Option Str) (ticks : Option Int), track ≠ some i →
        ∃ text, instrumentsText (run (history cs)) = .ok text ∧
        (main env (some name) (some i) track ticks w).2.fs i
          = writeFiles w.fs (instrEffect env (some i) text).2.1 i := by
      intro track ticks hi
      obtain ⟨_, t, text, _, ht, hall⟩ :=
        main_readable env name (some i) track ticks content cs a h2 h3 ha h6
      refine ⟨text, ht, ?_⟩
      rw [(hall w h4).fs]
      unfold bothEffect
      cases (instrEffect env (some i) text).1 with
      | error e => rfl
      | ok x =>
        simp only [writeFiles_append]
        apply writeFiles_other
        intro u hu e
        exact hi ((trackEffect_names env track _ u hu).1.trans (by rw [e]))
    obtain ⟨x, hx, e1⟩ := key track ticks hi
    obtain ⟨y, hy, e2⟩ := key track' ticks' hi'
    rw [hx] at hy
    cases hy
    rw [e1, e2]
  · have key : ∀ (track : Option Str) (ticks : Option Int),
        (main env vgm (some i) track ticks w).2.fs = w.fs := by
      intro track ticks
      obtain ⟨e, s, hall⟩ := main_unreadable env vgm (some i) track ticks w.fs (by
        intro name content cs h1 h2 h3 h4 h5 h6
        exact h ⟨name, content, cs, h1, h2, h3, h4, h5, h6⟩)
      exact (hall w (fun _ _ => rfl)).fs
    rw [key, key]

/-! ### C60: the clock -/

/-- C60. The clock, which the program does not ask for but `zipfile` does, does not matter
either, except for the time stamp in the track file: if only the time is different, the result
and the printed text are the same, the files other than the track file are the same byte for
byte, and both track files read as the same song. (For clocks a zip archive can hold and songs
below two gigabytes.) -/
theorem c60_clock (env : Env) (now : DateTime) (vgm instr track : Option Str)
    (ticks : Option Int) (w : World) (hc : ClockReading env.now) (hy : ZipYear env.now)
    (hc' : ClockReading now) (hy' : ZipYear now)
    (hsmall : ∀ v content cs t d, vgm = some v → w.fs v = some content →
      Readable env.gunzip content cs → TicksInUse ticks (run (history cs)).ticksPerNote t →
      exportXrns (run (history cs)) t = .ok d → (songXml d).length < maxDocument) :
    let x := main env vgm instr track ticks w
    let x' := main { env with now := now } vgm instr track ticks w
    x.1 = x'.1 ∧ x.2.stdout = x'.2.stdout ∧
    ∀ n, x.2.fs n = x'.2.fs n ∨
      (track = some n ∧ ∃ b b' d, x.2.fs n = some b ∧ x'.2.fs n = some b' ∧
        readSongFile b = some d ∧ readSongFile b' = some d) := by
  intro x x'
  by_cases h : ∃ name content cs, vgm = some name ∧ Proper name ∧ env.openErr name false = none ∧
      w.fs name = some content ∧ env.argsFile ≠ none ∧ Readable env.gunzip content cs
  · obtain ⟨name, content, cs, rfl, h2, h3, h4, h5, h6⟩ := h
    obtain ⟨a, ha⟩ := Option.ne_none_iff_exists'.mp h5
    obtain ⟨_, t, text, ht, htext, hall⟩ :=
      main_readable env name instr track ticks content cs a h2 h3 ha h6
    obtain ⟨_, t', text', ht', htext', hall'⟩ :=
      main_readable { env with now := now } name instr track ticks content cs a h2 h3 ha h6
    have htt := ticksInUse_unique ht ht'
    subst htt
    rw [htext] at htext'
    cases htext'
    have hd := hall w h4
    have hd' := hall' w h4
    have hi : instrEffect { env with now := now } instr text = instrEffect env instr text := rfl
    have hp : preamble { env with now := now } a ticks (run (history cs)) t
        = preamble env a ticks (run (history cs)) t := rfl
    rw [hi, hp] at hd'
    -- the two effects of the tracks
    have htr : trackEffect { env with now := now } track (exportXrns (run (history cs)) t)
          = trackEffect env track (exportXrns (run (history cs)) t) ∨
        ∃ n b b' d, track = some n ∧ readSongFile b = some d ∧ readSongFile b' = some d ∧
          trackEffect env track (exportXrns (run (history cs)) t) =
            (.ok (), [(n, b)], trackMessage n) ∧
          trackEffect { env with now := now } track (exportXrns (run (history cs)) t) =
            (.ok (), [(n, b')], trackMessage n) := by
      cases track with
      | none => exact .inl rfl
      | some n =>
        cases n with
        | nil => exact .inl rfl
        | cons c l =>
          cases hx : exportXrns (run (history cs)) t with
          | error e => exact .inl rfl
          | ok d =>
            have hs := hsmall name content cs t d rfl h4 h6 ht hx
            obtain ⟨a1, a2⟩ := c63_file env.zip64 env.now hc hy _ t d hx hs
            obtain ⟨b1, b2⟩ := c63_file env.zip64 now hc' hy' _ t d hx hs
            simp only [trackEffect]
            cases env.openErr (c :: l) true with
            | some e => exact .inl rfl
            | none =>
              refine .inr ⟨c :: l, _, _, d, rfl, a2, b2, ?_, ?_⟩
              · rw [a1]
              · rw [b1]
    rcases htr with htr | ⟨n, b, b', d, rfl, hb, hb', e1, e2⟩
    · rw [htr] at hd'
      refine ⟨hd.result.trans hd'.result.symm, hd.stdout.trans hd'.stdout.symm, fun n => .inl ?_⟩
      exact congrFun (hd.fs.trans hd'.fs.symm) n
    · rw [e1] at hd
      rw [e2] at hd'
      cases hr : (instrEffect env instr text).1 with
      | error e =>
        have q : ∀ y, bothEffect (instrEffect env instr text) y =
            (.error e, (instrEffect env instr text).2) := by
          intro y; unfold bothEffect; rw [hr]
        rw [q] at hd hd'
        refine ⟨hd.result.trans hd'.result.symm, hd.stdout.trans hd'.stdout.symm, fun n => .inl ?_⟩
        exact congrFun (hd.fs.trans hd'.fs.symm) n
      | ok u =>
        have q : ∀ y : Except PyErr Unit × List (Str × Bytes) × Str,
            bothEffect (instrEffect env instr text) y =
            (y.1, (instrEffect env instr text).2.1 ++ y.2.1,
              (instrEffect env instr text).2.2 ++ y.2.2) := by
          intro y; unfold bothEffect; rw [hr]
        rw [q] at hd hd'
        refine ⟨hd.result.trans hd'.result.symm, hd.stdout.trans hd'.stdout.symm, fun m => ?_⟩
        have f1 : x.2.fs m = _ := congrFun hd.fs m
        have f2 : x'.2.fs m = _ := congrFun hd'.fs m
        simp only [writeFiles_append] at f1 f2
        rw [writeFiles_cons] at f1 f2
        simp only [writeFiles, List.foldl_nil] at f1 f2
        by_cases hm : m = n
        · subst hm
          rw [if_pos rfl] at f1 f2
          exact .inr ⟨rfl, b, b', d, f1, f2, hb, hb'⟩
        · rw [if_neg hm] at f1 f2
          exact .inl (f1.trans f2.symm)
  · obtain ⟨e, s, hall⟩ := main_unreadable_now env vgm instr track ticks w.fs (by
      intro name content cs h1 h2 h3 h4 h5 h6
      exact h ⟨name, content, cs, h1, h2, h3, h4, h5, h6⟩)
    have hd := hall env ⟨rfl, rfl, rfl, rfl⟩ w (fun _ _ => rfl)
    have hd' := hall { env with now := now } ⟨rfl, rfl, rfl, rfl⟩ w (fun _ _ => rfl)
    exact ⟨hd.result.trans hd'.result.symm, hd.stdout.trans hd'.stdout.symm,
      fun n => .inl (congrFun (hd.fs.trans hd'.fs.symm) n)⟩

/-! ### C59: no half-written file -/

theorem main_complete (env : Env) (vgm instr track : Option Str) (ticks : Option Int) (w : World)
    (n : Str) (hn : (main env vgm instr track ticks w).2.fs n ≠ w.fs n) :
    ∃ v content cs t text, vgm = some v ∧ w.fs v = some content ∧
      Readable env.gunzip content cs ∧ TicksInUse ticks (run (history cs)).ticksPerNote t ∧
      instrumentsText (run (history cs)) = .ok text ∧
      ((instr = some n ∧ (main env vgm instr track ticks w).2.fs n = some (asciiBytes text)) ∨
       (track = some n ∧ (main env vgm instr track ticks w).1 = .ok () ∧
          ∃ d bytes, exportXrns (run (history cs)) t = .ok d ∧ writeSong env.zip64 env.now d = (.ok (), bytes) ∧
            (main env vgm instr track ticks w).2.fs n = some bytes) ∨
       (track = some n ∧ ∃ d bytes e, exportXrns (run (history cs)) t = .ok d ∧
          writeSong env.zip64 env.now d = (.error e, bytes) ∧
          (main env vgm instr track ticks w).1 = .error e ∧
          (main env vgm instr track ticks w).2.fs n = some bytes)) := by
  by_cases h : ∃ name content cs, vgm = some name ∧ Proper name ∧ env.openErr name false = none ∧
      w.fs name = some content ∧ env.argsFile ≠ none ∧ Readable env.gunzip content cs
  · obtain ⟨name, content, cs, rfl, h2, h3, h4, h5, h6⟩ := h
    obtain ⟨a, ha⟩ := Option.ne_none_iff_exists'.mp h5
    obtain ⟨_, t, text, ht, htext, hall⟩ :=
      main_readable env name instr track ticks content cs a h2 h3 ha h6
    refine ⟨name, content, cs, t, text, rfl, h4, h6, ht, htext, ?_⟩
    have hd := hall w h4
    have hfs := hd.fs
    have hres := hd.result
    have last : ∀ l, (∀ u ∈ l, instr = some u.1 ∧ u.2 = asciiBytes text) →
        writeFiles w.fs l n ≠ w.fs n → instr = some n ∧ writeFiles w.fs l n = some (asciiBytes text) := by
      intro l
      generalize w.fs = fs
      induction l generalizing fs with
      | nil => intro _ hx; exact absurd rfl hx
      | cons u l ih =>
        intro hu hx
        rw [writeFiles_cons] at hx ⊢
        obtain ⟨u1, u2⟩ := hu u List.mem_cons_self
        by_cases hl : ∃ x ∈ l, x.1 = n
        · obtain ⟨x, hx1, hx2⟩ := hl
          refine ⟨(hu x (List.mem_cons_of_mem _ hx1)).1.trans (by rw [hx2]), ?_⟩
          rw [writeFiles_agree l _ (fun _ => none) n (.inr ⟨x, hx1, hx2⟩)]
          exact (ih (fun _ => none) (fun y hy => hu y (List.mem_cons_of_mem _ hy))
            (writeFiles_some _ _ _ (.inr ⟨x, hx1, hx2⟩))).2
        · rw [writeFiles_other l _ n (fun x hx1 e => hl ⟨x, hx1, e⟩)] at hx ⊢
          by_cases hun : n = u.1
          · rw [if_pos hun, u2]; exact ⟨u1.trans (by rw [hun]), rfl⟩
          · rw [if_neg hun] at hx; exact absurd rfl hx
    unfold bothEffect at hfs hres
    cases hr : (instrEffect env instr text).1 with
    | error e =>
      rw [hr] at hfs
      rw [hfs] at hn
      left
      rw [hfs]
      exact last _ (fun u hu => by
        obtain ⟨x1, _, _, x2⟩ := instrEffect_names env instr text u hu; exact ⟨x1, x2⟩) hn
    | ok x =>
      rw [hr] at hfs hres
      simp only [writeFiles_append] at hfs hres
      by_cases hl : ∃ u ∈ (trackEffect env track (exportXrns (run (history cs)) t)).2.1, u.1 = n
      · have hsingle : ∃ b, (trackEffect env track (exportXrns (run (history cs)) t)).2.1 = [(n, b)] := by
          obtain ⟨u, hu, rfl⟩ := hl
          unfold trackEffect at hu ⊢
          split at hu
          · simp at hu
          · simp at hu
          · split at hu
            · simp at hu
            · split at hu
              · simp at hu
              · simp only [List.mem_singleton] at hu; subst hu; exact ⟨_, rfl⟩
        obtain ⟨b, hb⟩ := hsingle
        obtain ⟨h1, _, h3⟩ := trackEffect_names env track _ (n, b) (by rw [hb]; simp)
        have hval : (main env (some name) instr track ticks w).2.fs n = some b := by
          rw [hfs, hb, writeFiles_cons]
          simp [writeFiles]
        obtain ⟨d, h5, h6⟩ := h3
        cases hr : (trackEffect env track (exportXrns (run (history cs)) t)).1 with
        | ok x => exact .inr (.inl ⟨h1, hres.trans hr, d, b, h5, h6.trans (by rw [hr]), hval⟩)
        | error e =>
          exact .inr (.inr ⟨h1, d, b, e, h5, h6.trans (by rw [hr]), hres.trans hr, hval⟩)
      · left
        have hfs := congrFun hfs n
        rw [writeFiles_other _ _ n (fun u hu e => hl ⟨u, hu, e⟩)] at hfs
        rw [hfs] at hn ⊢
        exact last _ (fun u hu => by
          obtain ⟨x1, _, _, x2⟩ := instrEffect_names env instr text u hu; exact ⟨x1, x2⟩) hn
  · exfalso
    obtain ⟨e, s, hall⟩ := main_unreadable env vgm instr track ticks w.fs (by
      intro name content cs h1 h2 h3 h4 h5 h6
      exact h ⟨name, content, cs, h1, h2, h3, h4, h5, h6⟩)
    exact hn (by rw [(hall w (fun _ _ => rfl)).fs]; rfl)

/-- C59. However the program ends: a file that changed is an output file, and holds the
complete list of instruments or the complete song — or, if the clock shows a year that a zip
archive cannot hold, the program raises and the track file is an archive without entries. -/
theorem c59_complete (env : Env) (vgm instr track : Option Str) (ticks : Option Int) (w : World)
    (hc : ClockReading env.now) (n : Str)
    (hn : (main env vgm instr track ticks w).2.fs n ≠ w.fs n) :
    ∃ v content cs t text bytes, vgm = some v ∧ w.fs v = some content ∧
      Readable env.gunzip content cs ∧ TicksInUse ticks (run (history cs)).ticksPerNote t ∧
      instrumentsText (run (history cs)) = .ok text ∧
      (main env vgm instr track ticks w).2.fs n = some bytes ∧
      ((instr = some n ∧ bytes = asciiBytes text) ∨
       (track = some n ∧ ∃ d, exportXrns (run (history cs)) t = .ok d ∧
        ((songXml d).length < maxDocument →
          ((main env vgm instr track ticks w).1 = .ok () ∧ readSongFile bytes = some d) ∨
          ((∃ e, (main env vgm instr track ticks w).1 = .error e) ∧ ¬ ZipYear env.now ∧
            unzip bytes = some [])))) := by
  obtain ⟨v, content, cs, t, text, h1, h2, h3, h4, h5, h6⟩ :=
    main_complete env vgm instr track ticks w n hn
  rcases h6 with ⟨h6, h7⟩ | ⟨h6, h7, d, bytes, h8, h9, h10⟩ | ⟨h6, d, bytes, e, h8, h9, h7, h10⟩
  · exact ⟨v, content, cs, t, text, _, h1, h2, h3, h4, h5, h7, .inl ⟨h6, rfl⟩⟩
  · refine ⟨v, content, cs, t, text, bytes, h1, h2, h3, h4, h5, h10, .inr ⟨h6, d, h8, ?_⟩⟩
    intro hs
    have h := c63_either env.zip64 env.now hc _ t d h8 hs
    rw [h9] at h
    rcases h with ⟨_, _, h⟩ | ⟨⟨e, h⟩, _⟩
    · exact .inl ⟨h7, h⟩
    · cases h
  · refine ⟨v, content, cs, t, text, bytes, h1, h2, h3, h4, h5, h10, .inr ⟨h6, d, h8, ?_⟩⟩
    intro hs
    have h := c63_either env.zip64 env.now hc _ t d h8 hs
    rw [h9] at h
    rcases h with ⟨h, _⟩ | ⟨_, h⟩
    · cases h
    · exact .inr ⟨⟨e, h7⟩, h⟩

/-! ### C55: the two outputs agree -/

theorem asciiText_asciiBytes (s : Str) (h : ∀ c ∈ s, c.toNat < 128) :
    asciiText (asciiBytes s) = s := by
  unfold asciiText asciiBytes
  rw [List.map_map]
  conv_rhs => rw [← List.map_id s]
  apply List.map_congr_left
  intro c hc
  have := h c hc
  simp only [Function.comp, UInt8.toNat_ofNat', id]
  rw [Nat.mod_eq_of_lt (by omega)]
  exact Char.ofNat_toNat c

/-- The song that `exportXrns` makes, whatever the ticks-per-note: as many instruments as were
extracted, and in a row of channel `c` with instrument number `s`, that number is the one of a
key press of the channel on that row. -/
theorem song_instruments (h : List Event) (hb : ByteHistory h) (t : Int) (d : DaoSong)
    (hd : exportXrns (run h) t = .ok d) :
    d.instruments.length = (run h).configs.length ∧
    ∀ p c r cols col s, c < 8 → r < 64 → columnsAt d p c r = some cols → col ∈ cols →
      col.instrument = some s →
      0 < t ∧ ∃ n ∈ (run h).keyPressesOf c, (n.sample : Int) / t = 64 * p + r ∧ 0 ≤ n.configId ∧
        readBase 16 s = some n.configId.toNat := by
  constructor
  · unfold exportXrns at hd
    split at hd
    · cases hd
    · rename_i song hs
      cases hd
      have : song.instruments = List.replicate (run h).configs.length {} := by
        have hadd : ∀ (l : List Nat) (x : Song), (l.foldl Song.addPattern x).instruments = x.instruments := by
          intro l
          induction l with
          | nil => intro x; rfl
          | cons a l ih => intro x; rw [List.foldl_cons, ih]; rfl
        unfold exportSong at hs
        cases hbp : bpmOf t with
        | error e => rw [hbp] at hs; cases hs
        | ok bpm =>
          rw [hbp] at hs
          simp only at hs
          split at hs
          · cases hs
          · cases hs
            rw [hadd]
            rfl
      simp [render, this]
  intro p c r cols col s hc hr hcols hcol hs
  rcases lt_trichotomy t 0 with h0 | h0 | h0
  · exfalso
    obtain ⟨k, rfl⟩ : ∃ k : Nat, t = -(k : Int) := ⟨t.natAbs, by omega⟩
    by_cases hm : k < maxTicks
    · obtain ⟨h1, h2⟩ := c44_negative h hb k (by omega) hm
      by_cases hex : ∃ c < 8, (run h).keyPressesOf c ≠ []
      · rw [h1.mpr hex] at hd; cases hd
      · obtain ⟨d', e1, e2, _⟩ := h2 (by
          intro c hc
          by_contra hne
          exact hex ⟨c, hc, hne⟩)
        rw [hd] at e1
        cases e1
        simp [columnsAt, linesOf, e2] at hcols
    · rw [(c44_other (run h) k (by omega)).2.2] at hd; cases hd
  · subst h0
    rw [(c44_other (run h) maxTicks le_rfl).1] at hd; cases hd
  · refine ⟨h0, ?_⟩
    obtain ⟨k, rfl⟩ : ∃ k : Nat, t = (k : Int) := ⟨t.natAbs, by omega⟩
    by_cases hm : k < maxTicks
    · obtain ⟨d', e1, e2⟩ := c36_cells h hb k (by omega) hm
      rw [hd] at e1
      cases e1
      obtain ⟨e3, e4⟩ := e2 p c r hc hr
      cases hlast : (onRow ((run h).keyPressesOf c) k (64 * p + r)).getLast? with
      | none =>
        rw [List.getLast?_eq_none_iff] at hlast
        unfold onRow at hlast
        rw [List.filter_eq_nil_iff] at hlast
        rw [e3.mpr (by intro n hn; simpa using hlast n hn)] at hcols
        cases hcols
      | some n =>
        obtain ⟨col', e5, e6⟩ := e4 n hlast
        rw [e5] at hcols
        cases hcols
        simp only [List.mem_singleton] at hcol
        subst hcol
        have hmem := List.mem_filter.mp (List.mem_of_getLast? hlast)
        have hins := e6.instrument
        by_cases hid : n.configId = -1
        · rw [if_pos hid, hs] at hins; cases hins
        · rw [if_neg hid] at hins
          obtain ⟨s', x1, x2, _⟩ := hins
          rw [hs] at x1
          cases x1
          refine ⟨n, hmem.1, ?_, ?_, x2⟩
          · have := of_decide_eq_true hmem.2
            exact_mod_cast this
          · have := ((c25_ranges h hb).2.2.2 c hc n hmem.1).2.2.2.1
            omega
    · rw [(c44_other (run h) k (by omega)).2.1] at hd; cases hd

/-- C55. Whenever the program returns and was asked for both outputs (with different names):
the instrument file reads as a list of patches with their numbers, the track file reads as a
song with as many instruments, and every instrument number in the song is the position in that list of the
patch the chip had, on that channel, when a key was pressed on that row. -/
theorem c55_agree (env : Env) (vgm : Option Str) (i tr : Str) (ticks : Option Int) (w : World)
    (hc : ClockReading env.now)
    (hi : i ≠ [] ∧ i ≠ ['-']) (htr : tr ≠ []) (hne : i ≠ tr)
    (hok : (main env vgm (some i) (some tr) ticks w).1 = .ok ()) :
    ∃ v content cs t d bi bt L, vgm = some v ∧ w.fs v = some content ∧
      Readable env.gunzip content cs ∧ TicksInUse ticks (run (history cs)).ticksPerNote t ∧
      (main env vgm (some i) (some tr) ticks w).2.fs i = some bi ∧
      (main env vgm (some i) (some tr) ticks w).2.fs tr = some bt ∧
      ((songXml d).length < maxDocument → readSongFile bt = some d) ∧
      readInstrumentFile (asciiText bi) = some L ∧
      L.length = d.instruments.length ∧
      ∀ p c r cols col s, c < 8 → r < 64 → columnsAt d p c r = some cols → col ∈ cols →
        col.instrument = some s →
        ∃ k j x, readBase 16 s = some k ∧ (history cs)[j]? = some (.write 8 x) ∧ x % 8 = c ∧
          x / 8 % 16 ≠ 0 ∧ 0 < t ∧ (time ((history cs).take j) : Int) / t = 64 * p + r ∧
          L[k]? = some (k, ⟨Spec.base ((history cs).take j), Spec.channel ((history cs).take j) c,
            x / 8 % 16⟩) := by
  by_cases h : ∃ name content cs, vgm = some name ∧ Proper name ∧ env.openErr name false = none ∧
      w.fs name = some content ∧ env.argsFile ≠ none ∧ Readable env.gunzip content cs
  swap
  · exfalso
    obtain ⟨e, s, hall⟩ := main_unreadable env vgm (some i) (some tr) ticks w.fs (by
      intro name content cs h1 h2 h3 h4 h5 h6
      exact h ⟨name, content, cs, h1, h2, h3, h4, h5, h6⟩)
    rw [(hall w (fun _ _ => rfl)).result] at hok
    cases hok
  obtain ⟨v, content, cs, rfl, h2, h3, h4, h5, h6⟩ := h
  obtain ⟨a, ha⟩ := Option.ne_none_iff_exists'.mp h5
  obtain ⟨hb, t, text, ht, htext, hall⟩ :=
    main_readable env v (some i) (some tr) ticks content cs a h2 h3 ha h6
  have hd := hall w h4
  have hres := hd.result
  rw [hok] at hres
  have hfs := hd.fs
  have hie : instrEffect env (some i) text = (.ok (), [(i, asciiBytes text)], instrMessage i) := by
    cases i with
    | nil => exact absurd rfl hi.1
    | cons c cs =>
      unfold bothEffect at hres
      simp only [instrEffect, if_neg hi.2] at hres ⊢
      cases ho : env.openErr (c :: cs) true with
      | some e => rw [ho] at hres; simp at hres
      | none => rfl
  rw [hie] at hres hfs
  simp only [bothEffect] at hres hfs
  obtain ⟨d, bt, hd1, hd2, hte⟩ : ∃ d bt, exportXrns (run (history cs)) t = .ok d ∧
      writeSong env.zip64 env.now d = (.ok (), bt) ∧
      (trackEffect env (some tr) (exportXrns (run (history cs)) t)).2.1 = [(tr, bt)] := by
    cases tr with
    | nil => exact absurd rfl htr
    | cons c cs' =>
      cases hx : exportXrns (run (history cs)) t with
      | error e => rw [hx] at hres; simp [trackEffect] at hres
      | ok d =>
        rw [hx] at hres
        simp only [trackEffect] at hres ⊢
        cases ho : env.openErr (c :: cs') true with
        | some e => rw [ho] at hres; simp at hres
        | none =>
          rw [ho] at hres
          simp only at hres ⊢
          refine ⟨d, (writeSong env.zip64 env.now d).2, rfl, ?_, rfl⟩
          exact Prod.ext hres.symm rfl
  rw [hte] at hfs
  obtain ⟨text', e1, e2, e3⟩ := c49_read_back (history cs) hb
  rw [htext] at e1
  cases e1
  refine ⟨v, content, cs, t, d, asciiBytes text, bt, (instruments (history cs)).mapIdx (fun i p => (i, p)), rfl, h4, h6, ht, ?_, ?_, ?_, ?_, ?_, ?_⟩
  · rw [hfs]
    simp only [writeFiles, List.foldl_cons, List.foldl_nil, List.cons_append, List.nil_append]
    rw [if_neg hne]
    simp
  · rw [hfs]
    simp [writeFiles]
  · intro hs
    have h := c63_either env.zip64 env.now hc _ t d hd1 hs
    rw [hd2] at h
    rcases h with ⟨_, _, h⟩ | ⟨⟨e, h⟩, _⟩
    · exact h
    · cases h
  · rw [asciiText_asciiBytes text e2]; exact e3
  · rw [(song_instruments (history cs) hb t d hd1).1, configs_run (history cs) hb]
    simp
  · intro p c r cols col s hc hr hcols hcol hs
    obtain ⟨ht0, n, hn, hrow, hid, hk⟩ :=
      (song_instruments (history cs) hb t d hd1).2 p c r cols col s hc hr hcols hcol hs
    obtain ⟨j, x, hj, hx, hx2, hsmp, hcfg⟩ := c17_note_instrument (history cs) hb c hc n hn hid
    refine ⟨n.configId.toNat, j, x, hk, hj, hx, hx2, ht0, by rw [← hsmp]; exact hrow, ?_⟩
    rw [configs_run (history cs) hb, List.getElem?_mapIdx] at hcfg
    obtain ⟨q, hq, e⟩ := Option.map_eq_some_iff.mp hcfg
    rw [List.getElem?_mapIdx, hq]
    simp only [Option.map_some, Option.some.injEq, Prod.mk.injEq, true_and]
    cases q
    simp_all

/-! ### C61: standard output -/

/-- C61. With `-i -` the instruments go to standard output, after other messages, and what
the program prints is therefore not a JSON text; no file changes on account of it. -/
theorem c61_instruments_stdout (env : Env) (vgm : Str) (ticks : Option Int)
    (content : Bytes) (cs : List Cmd) (w : World) (hv : vgm ≠ [] ∧ vgm ≠ ['-'])
    (hf : w.fs vgm = some content) (hr : Readable env.gunzip content cs)
    (ho : env.openErr vgm false = none) (ha : env.argsFile ≠ none) :
    ∃ text messages, instrumentsText (run (history cs)) = .ok text ∧
      (main env (some vgm) (some ['-']) none ticks w).1 = .ok () ∧
      (main env (some vgm) (some ['-']) none ticks w).2.fs = w.fs ∧
      (main env (some vgm) (some ['-']) none ticks w).2.stdout = w.stdout ++ messages ++ text ∧
      parseJson (messages ++ text) = none := by
  obtain ⟨a, ha⟩ := Option.ne_none_iff_exists'.mp ha
  obtain ⟨_, t, text, ht, htext, hall⟩ :=
    main_readable env vgm (some ['-']) none ticks content cs a hv ho ha hr
  have hd := hall w hf
  refine ⟨text, preamble env a ticks (run (history cs)) t ++ instrMessage ['-'], htext,
    hd.result, hd.fs, ?_, ?_⟩
  · rw [hd.stdout]
    simp [bothEffect, instrEffect, trackEffect]
  · have hO : ∃ rest, preamble env a ticks (run (history cs)) t ++ instrMessage ['-'] ++ text
        = 'O' :: rest := by
      unfold preamble
      have : "Opening file: ".toList = 'O' :: "pening file: ".toList := by decide
      rw [this]
      simp only [List.cons_append]
      exact ⟨_, rfl⟩
    obtain ⟨rest, hrest⟩ := hO
    rw [hrest]
    have : lexStep .idle 'O' = none := by decide
    simp [parseJson, lex, lexRun, this]

/-- C61. With `-t -` no standard stream is involved: the song goes to a file named `-`. -/
theorem c61_track_dash (env : Env) (vgm : Str) (ticks : Option Int)
    (content : Bytes) (cs : List Cmd) (w : World) (hv : vgm ≠ [] ∧ vgm ≠ ['-'])
    (hf : w.fs vgm = some content) (hr : Readable env.gunzip content cs)
    (ho : ∀ n b, env.openErr n b = none) (ha : env.argsFile ≠ none)
    (hc : ClockReading env.now) (hy : ZipYear env.now) (t : Int) (d : DaoSong)
    (ht : TicksInUse ticks (run (history cs)).ticksPerNote t)
    (hd : exportXrns (run (history cs)) t = .ok d) (hs : (songXml d).length < maxDocument) :
    (main env (some vgm) none (some ['-']) ticks w).1 = .ok () ∧
    ∃ bytes, (main env (some vgm) none (some ['-']) ticks w).2.fs ['-'] = some bytes ∧
      readSongFile bytes = some d := by
  obtain ⟨t', text, ht', _, _, h, _⟩ :=
    c54_outputs env vgm none (some ['-']) ticks content cs w hv hf hr ho ha hc hy
  have := ticksInUse_unique ht ht'
  subst this
  obtain ⟨h1, bytes, hb, h2⟩ := h ['-'] d rfl (by simp) hd hs
  refine ⟨h1, bytes, ?_, hb⟩
  rw [h2, if_pos rfl]

/-- C61. Used as a library (no global `args`), `main` raises `NameError` for every input that
can be opened, and writes nothing. -/
theorem c61_library (env : Env) (vgm : Str) (instr track : Option Str) (ticks : Option Int)
    (content : Bytes) (w : World) (hv : vgm ≠ [] ∧ vgm ≠ ['-'])
    (hf : w.fs vgm = some content) (ho : env.openErr vgm false = none)
    (ha : env.argsFile = none) :
    (main env (some vgm) instr track ticks w).1 = .error .name ∧
    (main env (some vgm) instr track ticks w).2.fs = w.fs := by
  unfold main
  rw [smartOpen_proper env vgm _ hv, openFile_rb, ho, hf]
  simp only [mainBody, ha]
  exact ⟨trivial, rfl⟩

/-! ### An example that meets the hypotheses -/

/-- Set a register, wait 100 samples, press a key on channel 1, wait 50, press it with another
setting, wait 7, release it: the history `sample`. -/
def sampleFile : Bytes :=
  sampleHeader ++ [0x54, 0x61, 40, 0x54, 0x29, 0x4A, 0x61, 100, 0, 0x54, 0x08, 0x19, 0x54, 0x19, 200,
    0x54, 0x61, 41, 0x61, 50, 0, 0x54, 0x08, 0x19, 0x61, 7, 0, 0x54, 0x08, 0x01, 0x66]

def sampleCmds : List Cmd :=
  [.ym2151 0x54 0x61 40, .ym2151 0x54 0x29 0x4A, .wait 0x61 (some 100), .ym2151 0x54 8 0x19,
   .ym2151 0x54 0x19 200, .ym2151 0x54 0x61 41, .wait 0x61 (some 50), .ym2151 0x54 8 0x19,
   .wait 0x61 (some 7), .ym2151 0x54 8 1, .eos 0x66]

theorem sample_readable (gunzip : Bytes → Except PyErr Bytes) :
    Readable gunzip sampleFile sampleCmds := by
  refine ⟨sampleFile, .inl ⟨by decide +kernel, rfl⟩, by decide +kernel, by decide +kernel, ?_⟩
  exact (runs_iff_iter _ 200 _ _ (by decide +kernel)).mp (by decide +kernel)

theorem sample_history : history sampleCmds = sample := by decide +kernel

def sampleEnv : Env where
  inflate := fun _ => ([], some .eof)
  now := exampleNow
  zip64 := fun _ _ _ => (.error .struct, [])
  openErr := fun _ _ => none
  stdinRead := .ok []
  argsFile := some "in.vgm".toList

def sampleWorld : World where
  fs := fun n => if n = "in.vgm".toList then some sampleFile else none
  stdout := []
  clocks := fun _ => none
  trace := []
  nextId := 0

/-- The hypotheses of C51, C54, C55, C59, C60 and C61 are met together: 50 ticks per note. -/
theorem sample_runs : (main sampleEnv (some "in.vgm".toList) (some "i".toList) (some "t".toList)
    (some 50) sampleWorld).1 = .ok () ∧
    ∃ d bytes, exportXrns (run sample) 50 = .ok d ∧ d.patterns.length = 1 ∧
      (songXml d).length < 10000 ∧
      (main sampleEnv (some "in.vgm".toList) (some "i".toList) (some "t".toList)
        (some 50) sampleWorld).2.fs "t".toList = some bytes ∧ readSongFile bytes = some d := by
  obtain ⟨d, hd, _⟩ := c36_cells sample sample_byte 50 (by decide) (by decide +kernel)
  obtain ⟨t, text, ht, _, _, h, _⟩ := c54_outputs sampleEnv "in.vgm".toList (some "i".toList)
    (some "t".toList) (some 50) sampleFile sampleCmds sampleWorld (by decide) (by decide +kernel)
    (sample_readable _) (fun _ _ => rfl) (by simp [sampleEnv]) exampleNow_clock.1 exampleNow_clock.2
  have : t = 50 := by
    rcases ht with ⟨g, h1, _, rfl⟩ | ⟨h1 | h1, _⟩
    · exact (Option.some.inj h1).symm
    · cases h1
    · cases h1
  subst this
  rw [sample_history] at h
  have hx : (match exportXrns (run sample) 50 with
    | .ok d => decide (d.patterns.length = 1 ∧ (songXml d).length < 10000)
    | .error _ => false) = true := by decide +kernel
  have hd' : exportXrns (run sample) 50 = .ok d := hd
  rw [hd'] at hx
  obtain ⟨x1, x2⟩ := of_decide_eq_true hx
  obtain ⟨h1, bytes, h3, h2⟩ := h "t".toList d rfl (by decide) hd (by unfold maxDocument; omega)
  refine ⟨h1, d, bytes, hd', x1, x2, ?_, h3⟩
  rw [h2, if_pos rfl]

end VgmX
