import Verif.Model.Alias
import Verif.Props.Main
/-
Property C100: names that mean the same file.
Vocabulary: Spec/Main.lean. `canon name` is the file that `name` means.
-/

namespace VgmX
open Spec

/-- The files by name. -/
def byName (canon : Str → Str) (w : World) : World := { w with fs := fun n => w.fs (canon n) }

/-- The writes, to the files that the names mean. -/
def toFiles (canon : Str → Str) (ups : List (Str × Bytes)) : List (Str × Bytes) :=
  ups.map (fun u => (canon u.1, u.2))

/-! ### The outputs -/

theorem smartOpenA_proper {α : Type} (canon : Str → Str) (env : Env) (name mode : Str)
    (hn : Proper name) (body : Handle → World → Except PyErr α × World) (w : World) :
    smartOpenA canon env (some name) mode body w =
      match openFileA canon env w name mode with
      | (.error e, w1) => (.error e, w1)
      | (.ok fh, w1) => ((body fh w1).1,
          if fh ≠ .stdout ∧ fh ≠ .stdin then (body fh w1).2.close fh else (body fh w1).2) := by
  unfold smartOpenA
  have h1 : (nameTruthy (some name) && (some name != some ['-'])) = true := by
    rw [nameTruthy_some]
    simp [hn.1, hn.2]
  rw [if_pos h1]
  simp only [Option.getD_some]
  cases openFileA canon env w name mode with
  | mk r w1 => cases r <;> rfl

theorem smartOpenA_std {α : Type} (canon : Str → Str) (env : Env) (filename : Option Str)
    (mode : Str) (hn : ∀ name, filename = some name → ¬ Proper name)
    (body : Handle → World → Except PyErr α × World) (w : World) :
    smartOpenA canon env filename mode body w = smartOpen env filename mode body w := by
  have h1 : ¬ (nameTruthy filename && (filename != some ['-'])) = true := by
    cases filename with
    | none => simp [nameTruthy]
    | some name =>
      have := hn name rfl
      rw [nameTruthy_some]
      unfold Proper at this
      simp
      intro h2
      exact Classical.byContradiction (fun h3 => this ⟨h2, h3⟩)
  unfold smartOpenA smartOpen
  rw [if_neg h1, if_neg h1]

theorem extractInstrumentsA_file (canon : Str → Str) (env : Env) (name : Str) (hn : Proper name)
    (s : State) (js : Str) (hj : instrumentsJs s = .ok js) (w : World) :
    extractInstrumentsA canon env (some name) s w =
      match env.openErr name true with
      | some e => (.error e, w.print (instrMessage name))
      | none => (.ok (),
          { fs := setFile w.fs (canon name) (asciiBytes (js ++ ['\n']))
            stdout := w.stdout ++ instrMessage name
            clocks := w.clocks
            trace := w.trace ++ [.opened w.nextId name ['w'], .closed w.nextId]
            nextId := w.nextId + 1 }) := by
  unfold extractInstrumentsA
  rw [hj]
  simp only [smartOpenA_proper canon env name ['w'] hn, nameStr, openFileA, List.head?_cons]
  have hm : "Writing instruments to ".toList ++ name ++ "...\n".toList = instrMessage name := rfl
  rw [hm]
  cases env.openErr name true with
  | some e => rfl
  | none =>
    simp [World.writeA, World.close, World.print, setFile_setFile, setFile_self,
      Option.getD_some, List.nil_append, asciiBytes_append]

theorem extractInstrumentsA_stdout (canon : Str → Str) (env : Env) (s : State) (js : Str)
    (hj : instrumentsJs s = .ok js) (w : World) :
    extractInstrumentsA canon env (some ['-']) s w =
      (.ok (), w.print (instrMessage ['-'] ++ (js ++ ['\n']))) := by
  have hp : ∀ name : Str, some ['-'] = some name → ¬ Proper name := by
    intro n e
    have e' : ['-'] = n := Option.some.inj e
    rw [← e']
    exact fun hx => hx.2 rfl
  unfold extractInstrumentsA
  rw [hj]
  simp only [smartOpenA_std canon env (some ['-']) ['w'] hp,
    smartOpen_std env (some ['-']) ['w'] hp, nameStr]
  have hm : "Writing instruments to ".toList ++ ['-'] ++ "...\n".toList = instrMessage ['-'] := rfl
  rw [hm]
  simp only [World.writeA, World.print, List.head?_cons, if_true, List.append_assoc]

theorem extractTracksA_eq (canon : Str → Str) (env : Env) (name : Str) (s : State) (t : Int)
    (w : World) :
    extractTracksToXrnsA canon env s name t w =
      match exportXrns s t with
      | .error e => (.error e, w.print (trackMessage name))
      | .ok d =>
        match env.openErr name true with
        | some e => (.error e, w.print (trackMessage name))
        | none =>
          ((writeSong env.zip64 env.now d).1,
              { fs := setFile w.fs (canon name) (writeSong env.zip64 env.now d).2
                stdout := w.stdout ++ trackMessage name
                clocks := w.clocks
                trace := w.trace ++ [.opened w.nextId name ['w', 'b'], .closed w.nextId]
                nextId := w.nextId + 1 }) := by
  unfold extractTracksToXrnsA exportXrns
  cases exportSong s t with
  | error e => rfl
  | ok song =>
    simp only [openFileA, List.head?_cons]
    have hm : "Writing xrns ".toList ++ name ++ "...\n".toList = trackMessage name := rfl
    rw [hm]
    cases env.openErr name true with
    | some e => rfl
    | none =>
      simp only
      generalize writeSong env.zip64 env.now (render song) = x
      obtain ⟨r, b⟩ := x
      simp [World.close, World.print, setFile_setFile]

theorem does_writeA (canon : Str → Str) (r : Except PyErr Unit) (name mode : Str) (b : Bytes)
    (s : Str) :
    Does (fun w => (r,
      { fs := setFile w.fs (canon name) b
        stdout := w.stdout ++ s
        clocks := w.clocks
        trace := w.trace ++ [.opened w.nextId name mode, .closed w.nextId]
        nextId := w.nextId + 1 })) r (toFiles canon [(name, b)]) s :=
  ⟨fun k => [.opened k name mode, .closed k], 1, fun k => ⟨.wrap k name mode .nil, rfl⟩,
    fun _ => rfl⟩

theorem instrA_does (canon : Str → Str) (env : Env) (instr : Option Str) (s : State) (js : Str)
    (hj : instrumentsJs s = .ok js) :
    Does (fun w => if nameTruthy instr then extractInstrumentsA canon env instr s w
        else (.ok (), w))
      (instrEffect env instr (js ++ ['\n'])).1
      (toFiles canon (instrEffect env instr (js ++ ['\n'])).2.1)
      (instrEffect env instr (js ++ ['\n'])).2.2 := by
  cases instr with
  | none => exact does_nothing
  | some name =>
    cases name with
    | nil => exact does_nothing
    | cons c cs =>
      simp only [nameTruthy, if_true]
      by_cases hd : c :: cs = ['-']
      · rw [hd]
        have : (fun w => extractInstrumentsA canon env (some ['-']) s w)
            = fun w => (.ok (), w.print (instrMessage ['-'] ++ (js ++ ['\n']))) := by
          funext w; exact extractInstrumentsA_stdout canon env s js hj w
        rw [this]
        exact does_print _ _
      · have hp : Proper (c :: cs) := ⟨by simp, hd⟩
        have e := funext (f := extractInstrumentsA canon env (some (c :: cs)) s)
          (fun w => extractInstrumentsA_file canon env (c :: cs) hp s js hj w)
        show Does (extractInstrumentsA canon env (some (c :: cs)) s) _ _ _
        rw [e]
        simp only [instrEffect, if_neg hd]
        cases env.openErr (c :: cs) true with
        | some e => exact does_print _ _
        | none => exact does_writeA canon _ _ _ _ _

theorem trackA_does (canon : Str → Str) (env : Env) (track : Option Str) (s : State) (t : Int) :
    Does (fun w => match track with
        | some (c :: cs) => extractTracksToXrnsA canon env s (c :: cs) t w
        | _ => (.ok (), w))
      (trackEffect env track (exportXrns s t)).1
      (toFiles canon (trackEffect env track (exportXrns s t)).2.1)
      (trackEffect env track (exportXrns s t)).2.2 := by
  cases track with
  | none => exact does_nothing
  | some name =>
    cases name with
    | nil => exact does_nothing
    | cons c cs =>
      simp only
      have e := funext (f := extractTracksToXrnsA canon env s (c :: cs) t)
        (fun w => extractTracksA_eq canon env (c :: cs) s t w)
      show Does (extractTracksToXrnsA canon env s (c :: cs) t) _ _ _
      rw [e]
      simp only [trackEffect]
      cases exportXrns s t with
      | error e => exact does_print _ _
      | ok d =>
        simp only
        cases env.openErr (c :: cs) true with
        | some e => exact does_print _ _
        | none => exact does_writeA canon _ _ _ _ _

theorem outputsA_does (canon : Str → Str) (env : Env) (instr track : Option Str) (s : State)
    (t : Int) (js : Str) (hj : instrumentsJs s = .ok js) :
    let e := bothEffect (instrEffect env instr (js ++ ['\n'])) (trackEffect env track (exportXrns s t))
    Does (mainOutputsA canon env instr track s t) e.1 (toFiles canon e.2.1) e.2.2 := by
  obtain ⟨tr1, m1, hn1, h1⟩ := instrA_does canon env instr s js hj
  obtain ⟨tr2, m2, hn2, h2⟩ := trackA_does canon env track s t
  generalize instrEffect env instr (js ++ ['\n']) = A at *
  generalize trackEffect env track (exportXrns s t) = B at *
  obtain ⟨r1, u1, o1⟩ := A
  obtain ⟨r2, u2, o2⟩ := B
  simp only at h1 h2
  cases r1 with
  | error e =>
    refine ⟨tr1, m1, hn1, ?_⟩
    intro w
    have := h1 w
    unfold mainOutputsA
    rw [this]
    rfl
  | ok x =>
    cases x
    refine ⟨fun k => tr1 k ++ tr2 (k + m1), m1 + m2, ?_, ?_⟩
    · intro k
      refine ⟨.append (hn1 k).1 (hn2 _).1, ?_⟩
      have e1 := (hn1 k).2
      have e2 := (hn2 (k + m1)).2
      unfold openedIds at e1 e2 ⊢
      rw [List.filterMap_append, e1, e2, List.range'_append_1]
    · intro w
      have := h1 w
      unfold mainOutputsA
      rw [this]
      simp only
      have := h2 { fs := writeFiles w.fs (toFiles canon u1)
                   stdout := w.stdout ++ o1
                   clocks := w.clocks
                   trace := w.trace ++ tr1 w.nextId
                   nextId := w.nextId + m1 }
      refine Eq.trans this ?_
      simp only [bothEffect, toFiles, List.map_append, writeFiles_append, List.append_assoc,
        Nat.add_assoc]

/-! ### The whole program -/

theorem mainBodyA_readable (canon : Str → Str) (env : Env) (instr track : Option Str)
    (ticks : Option Int) (id : Nat) (name : Str) (w : World) (cs : List Cmd) (a : Str)
    (ha : env.argsFile = some a)
    (h : Readable env.gunzip ((w.fs (canon name)).getD []) cs) :
    ByteHistory (history cs) ∧
    ∃ t k, TicksInUse ticks (run (history cs)).ticksPerNote t ∧
      mainBodyA canon env instr track ticks (.file id name) w
        = mainOutputsA canon env instr track (run (history cs)) t
            { w with
              stdout := w.stdout ++ preamble env a ticks (run (history cs)) t
              clocks := k } := by
  obtain ⟨hb, v, k, h1, h2⟩ := input_readable
    (w.print ("Opening file: ".toList ++ a ++ ['\n'])).clocks h
  refine ⟨hb, ?_⟩
  unfold mainBodyA
  rw [ha]
  simp only [readerOnA]
  have hfs : (w.print ("Opening file: ".toList ++ a ++ ['\n'])).fs = w.fs := rfl
  rw [hfs, h1]
  simp only
  rw [h2]
  simp only
  obtain ⟨t, e1, e2⟩ := mainTicks_spec env ticks (history cs) hb
    ⟨w.fs, (w.print ("Opening file: ".toList ++ a ++ ['\n'])).stdout, k, w.trace, w.nextId⟩
  refine ⟨t, k, e1, ?_⟩
  simp only [World.print] at e2 ⊢
  rw [e2]
  unfold preamble
  generalize "Opening file: ".toList = A
  generalize "Ticks per Note: ".toList = B
  simp only [List.append_assoc]

/-- If the body of `main` fails before the outputs, it does so whatever the names mean. -/
theorem mainBodyA_unreadable (canon : Str → Str) (env : Env) (instr track : Option Str)
    (ticks : Option Int) (f : Handle) (w : World)
    (h : ∀ id name cs, f = .file id name → env.argsFile ≠ none →
      ¬ Readable env.gunzip ((w.fs (canon name)).getD []) cs) :
    ∃ e s k, mainBodyA canon env instr track ticks f w
        = (.error e, { w with stdout := w.stdout ++ s, clocks := k }) ∧
      mainBody env instr track ticks f (byName canon w)
        = (.error e, { byName canon w with stdout := w.stdout ++ s, clocks := k }) := by
  unfold mainBodyA mainBody
  cases ha : env.argsFile with
  | none => exact ⟨.name, [], w.clocks, by simp [byName], by simp [byName]⟩
  | some a =>
    simp only
    have hstd : ∀ g : Handle, (∀ id name, g ≠ .file id name) → ∃ e s k,
        (match readerOnA canon env (w.print ("Opening file: ".toList ++ a ++ ['\n'])) g with
          | (.error e, w) => (.error e, w)
          | (.ok none, w) => (.error .type, w)
          | (.ok (some vgm), w) =>
            match fprocessVgm vgm.stream with
            | .error e => (.error e, w)
            | .ok s =>
              match mainTicks env ticks s w with
              | (.error e, w) => (.error e, w)
              | (.ok ticks, w) =>
                mainOutputsA canon env instr track s ticks
                  (w.print ("Ticks per Note: ".toList ++ intStr ticks ++ ['\n'])))
          = ((.error e : Except PyErr Unit), { w with stdout := w.stdout ++ s, clocks := k }) ∧
        (match readerOn env ((byName canon w).print ("Opening file: ".toList ++ a ++ ['\n'])) g with
          | (.error e, w) => (.error e, w)
          | (.ok none, w) => (.error .type, w)
          | (.ok (some vgm), w) =>
            match fprocessVgm vgm.stream with
            | .error e => (.error e, w)
            | .ok s =>
              match mainTicks env ticks s w with
              | (.error e, w) => (.error e, w)
              | (.ok ticks, w) =>
                mainOutputs env instr track s ticks
                  (w.print ("Ticks per Note: ".toList ++ intStr ticks ++ ['\n'])))
          = ((.error e : Except PyErr Unit),
              { byName canon w with stdout := w.stdout ++ s, clocks := k }) := by
      intro g hg
      have e1 : readerOnA canon env (w.print ("Opening file: ".toList ++ a ++ ['\n'])) g =
          match env.stdinRead with
          | .error e => (.error e, w.print ("Opening file: ".toList ++ a ++ ['\n']))
          | .ok _ => (.ok none, w.print ("Opening file: ".toList ++ a ++ ['\n'])) := by
        cases g with
        | file id name => exact absurd rfl (hg id name)
        | stdin => rfl
        | stdout => rfl
      have e2 : readerOn env ((byName canon w).print ("Opening file: ".toList ++ a ++ ['\n'])) g =
          match env.stdinRead with
          | .error e => (.error e, (byName canon w).print ("Opening file: ".toList ++ a ++ ['\n']))
          | .ok _ => (.ok none, (byName canon w).print ("Opening file: ".toList ++ a ++ ['\n'])) := by
        cases g with
        | file id name => exact absurd rfl (hg id name)
        | stdin => rfl
        | stdout => rfl
      rw [e1, e2]
      cases env.stdinRead with
      | error e => exact ⟨e, _, w.clocks, rfl, rfl⟩
      | ok x => exact ⟨.type, _, w.clocks, rfl, rfl⟩
    cases f with
    | stdin => exact hstd _ (by simp)
    | stdout => exact hstd _ (by simp)
    | file id name =>
      have hr : ∀ cs, ¬ Readable env.gunzip ((w.fs (canon name)).getD []) cs :=
        fun cs => h id name cs rfl (by rw [ha]; simp)
      simp only [readerOnA, readerOn]
      have e1 : ((byName canon w).print ("Opening file: ".toList ++ a ++ ['\n'])).fs name
          = w.fs (canon name) := rfl
      have e2 : (w.print ("Opening file: ".toList ++ a ++ ['\n'])).fs (canon name)
          = w.fs (canon name) := rfl
      have e3 : ((byName canon w).print ("Opening file: ".toList ++ a ++ ['\n'])).clocks
          = w.clocks := rfl
      have e4 : (w.print ("Opening file: ".toList ++ a ++ ['\n'])).clocks = w.clocks := rfl
      rw [e1, e2, e3, e4]
      cases hrd : freader env.inflate w.clocks ((w.fs (canon name)).getD []) with
      | mk r k =>
        cases r with
        | error e => exact ⟨e, _, k, rfl, rfl⟩
        | ok o =>
          cases o with
          | none => exact ⟨.type, _, k, rfl, rfl⟩
          | some v =>
            cases hp : fprocessVgm v.stream with
            | error e => exact ⟨e, _, k, by simp only [hp]; rfl, by simp only [hp]; rfl⟩
            | ok st =>
              obtain ⟨cs, hread, _⟩ := input_processed hrd hp
              exact absurd hread (hr cs)

theorem openFileA_rb (canon : Str → Str) (env : Env) (w : World) (name : Str) :
    openFileA canon env w name ['r', 'b'] =
      match env.openErr name false, w.fs (canon name) with
      | some e, _ => (.error e, w)
      | none, none => (.error .fileNotFound, w)
      | none, some _ => (.ok (.file w.nextId name),
          { w with
            trace := w.trace ++ [.opened w.nextId name ['r', 'b']]
            nextId := w.nextId + 1 }) := by
  simp only [openFileA, List.head?_cons]
  rfl

/-- `main` on a readable input. -/
theorem mainA_readable (canon : Str → Str) (env : Env) (vgm : Str) (instr track : Option Str)
    (ticks : Option Int) (content : Bytes) (cs : List Cmd) (a : Str) (hn : Proper vgm)
    (ho : env.openErr vgm false = none) (ha : env.argsFile = some a)
    (h : Readable env.gunzip content cs) (w : World) (hf : w.fs (canon vgm) = some content) :
    ∃ t text, TicksInUse ticks (run (history cs)).ticksPerNote t ∧
      instrumentsText (run (history cs)) = .ok text ∧
      let e := bothEffect (instrEffect env instr text)
        (trackEffect env track (exportXrns (run (history cs)) t))
      let out := preamble env a ticks (run (history cs)) t ++ e.2.2
      Did (main env (some vgm) instr track ticks (byName canon w)) (byName canon w) e.1 e.2.1 out ∧
      Did (mainA canon env (some vgm) instr track ticks w) w e.1 (toFiles canon e.2.1) out := by
  obtain ⟨hb, t, text, ht, htext, hall⟩ :=
    main_readable env vgm instr track ticks content cs a hn ho ha h
  refine ⟨t, text, ht, htext, hall (byName canon w) hf, ?_⟩
  obtain ⟨js, hj, htext'⟩ := instruments_js (history cs) hb
  have : js ++ ['\n'] = text := Except.ok.inj (htext'.symm.trans htext)
  subst this
  obtain ⟨tr, m, htr, hdo⟩ := outputsA_does canon env instr track (run (history cs)) t js hj
  unfold mainA
  rw [smartOpenA_proper canon env vgm _ hn, openFileA_rb, ho, hf]
  simp only
  obtain ⟨_, t', k, ht', hbody⟩ := mainBodyA_readable canon env instr track ticks w.nextId vgm
    { w with
      trace := w.trace ++ [.opened w.nextId vgm ['r', 'b']]
      nextId := w.nextId + 1 } cs a ha (by simp only [hf, Option.getD_some]; exact h)
  have htt := ticksInUse_unique ht ht'
  subst htt
  rw [if_pos (by simp), hbody, hdo]
  refine ⟨rfl, rfl, ?_, ?_⟩
  · simp only [World.close, List.append_assoc]
  · refine ⟨.opened w.nextId vgm ['r', 'b'] :: tr (w.nextId + 1) ++ [.closed w.nextId], m + 1, ?_,
      .wrap _ _ _ (htr _).1, openedIds_wrap _ _ _ _ _ (htr _).2, ?_⟩
    · simp [World.close]
    · simp only [World.close]; omega

/-- `main` on anything else. -/
theorem mainA_unreadable (canon : Str → Str) (env : Env) (vgm : Option Str)
    (instr track : Option Str) (ticks : Option Int) (w : World)
    (h : ∀ name content cs, vgm = some name → Proper name → env.openErr name false = none →
      w.fs (canon name) = some content → env.argsFile ≠ none →
      ¬ Readable env.gunzip content cs) :
    ∃ e out, Did (main env vgm instr track ticks (byName canon w)) (byName canon w) (.error e) [] out ∧
      Did (mainA canon env vgm instr track ticks w) w (.error e) [] out := by
  by_cases hp : ∃ name, vgm = some name ∧ Proper name
  · obtain ⟨name, rfl, hn⟩ := hp
    unfold main mainA
    rw [smartOpen_proper env name _ hn, openFile_rb, smartOpenA_proper canon env name _ hn,
      openFileA_rb]
    cases ho : env.openErr name false with
    | some e =>
      exact ⟨e, [], ⟨rfl, rfl, by simp, [], 0, by simp, .nil, rfl, rfl⟩,
        ⟨rfl, rfl, by simp, [], 0, by simp, .nil, rfl, rfl⟩⟩
    | none =>
      have hbn : (byName canon w).fs name = w.fs (canon name) := rfl
      rw [hbn]
      cases hf : w.fs (canon name) with
      | none =>
        exact ⟨.fileNotFound, [], ⟨rfl, rfl, by simp, [], 0, by simp, .nil, rfl, rfl⟩,
          ⟨rfl, rfl, by simp, [], 0, by simp, .nil, rfl, rfl⟩⟩
      | some content =>
        simp only
        obtain ⟨e, s, k, h1, h2⟩ := mainBodyA_unreadable canon env instr track ticks
          (.file w.nextId name)
          { w with
            trace := w.trace ++ [.opened w.nextId name ['r', 'b']]
            nextId := w.nextId + 1 } (by
              intro id n cs he ha
              cases he
              simp only [hf, Option.getD_some]
              exact h name content cs rfl hn ho hf ha)
        have h2' : mainBody env instr track ticks (.file (byName canon w).nextId name)
          { byName canon w with
            trace := (byName canon w).trace ++ [.opened (byName canon w).nextId name ['r', 'b']]
            nextId := (byName canon w).nextId + 1 } = _ := h2
        rw [h1, h2', if_pos (by simp)]
        refine ⟨e, s, ⟨rfl, rfl, rfl, ?_⟩, ⟨rfl, rfl, rfl, ?_⟩⟩ <;>
        refine ⟨.opened w.nextId name ['r', 'b'] :: [] ++ [.closed w.nextId], 1, ?_,
          .wrap _ _ _ .nil, rfl, rfl⟩ <;>
        simp [World.close, byName]
  · have hnp : ∀ name, vgm = some name → ¬ Proper name := fun name e hx => hp ⟨name, e, hx⟩
    unfold main mainA
    rw [smartOpenA_std canon env vgm _ hnp, smartOpen_std env vgm _ hnp, smartOpen_std env vgm _ hnp]
    obtain ⟨e, s, k, h1, h2⟩ := mainBodyA_unreadable canon env instr track ticks .stdin w
      (fun _ _ _ e => by cases e)
    simp only [List.head?_cons]
    rw [if_neg (by decide), if_pos trivial, if_neg (by decide), if_pos trivial, h1, h2]
    exact ⟨e, s, ⟨rfl, rfl, rfl, [], 0, by simp, .nil, rfl, rfl⟩,
      ⟨rfl, rfl, rfl, [], 0, by simp, .nil, rfl, rfl⟩⟩

/-- Any run. -/
theorem mainA_twin (canon : Str → Str) (env : Env) (vgm instr track : Option Str)
    (ticks : Option Int) (w : World) :
    ∃ r ups out, (∀ u ∈ ups, IsOutput instr track u.1) ∧
      Did (main env vgm instr track ticks (byName canon w)) (byName canon w) r ups out ∧
      Did (mainA canon env vgm instr track ticks w) w r (toFiles canon ups) out := by
  by_cases h : ∃ name content cs, vgm = some name ∧ Proper name ∧ env.openErr name false = none ∧
      w.fs (canon name) = some content ∧ env.argsFile ≠ none ∧ Readable env.gunzip content cs
  · obtain ⟨name, content, cs, rfl, h2, h3, h4, h5, h6⟩ := h
    obtain ⟨a, ha⟩ := Option.ne_none_iff_exists'.mp h5
    obtain ⟨t, text, _, _, h⟩ :=
      mainA_readable canon env name instr track ticks content cs a h2 h3 ha h6 w h4
    exact ⟨_, _, _, bothEffect_names _ _ _ _ _, h⟩
  · obtain ⟨e, out, h⟩ := mainA_unreadable canon env vgm instr track ticks w (by
      intro name content cs h1 h2 h3 h4 h5 h6
      exact h ⟨name, content, cs, h1, h2, h3, h4, h5, h6⟩)
    exact ⟨_, [], _, by simp, h⟩

/-! ### C100 -/

theorem toFiles_other (canon : Str → Str) (ups : List (Str × Bytes)) (fs : Str → Option Bytes)
    (n : Str) (h : ∀ u ∈ ups, canon u.1 = canon n → u.1 = n) :
    writeFiles fs (toFiles canon ups) (canon n) = writeFiles (fun m => fs (canon m)) ups n := by
  unfold toFiles
  induction ups generalizing fs with
  | nil => rfl
  | cons u l ih =>
    rw [List.map_cons, writeFiles_cons, writeFiles_cons,
      ih _ (fun x hx => h x (List.mem_cons_of_mem _ hx))]
    have hu := h u List.mem_cons_self
    have : (if canon n = canon u.1 then some u.2 else fs (canon n))
        = if n = u.1 then some u.2 else fs (canon n) := by
      by_cases he : n = u.1
      · rw [if_pos he, if_pos (by rw [he])]
      · rw [if_neg he, if_neg (fun h' => he (hu h'.symm).symm)]
    by_cases hl : ∃ x ∈ l, x.1 = n
    · exact writeFiles_agree _ _ _ _ (.inr hl)
    · exact writeFiles_agree _ _ _ _ (.inl this)

/-- C100. Whatever the names mean: the program ends with the same result and prints the same as if
every name meant a file of its own (holding what the name gives to read), and it closes every
file it opened. -/
theorem c100_same (canon : Str → Str) (env : Env) (vgm instr track : Option Str)
    (ticks : Option Int) (w : World) :
    let w' : World := { w with fs := fun n => w.fs (canon n) }
    (mainA canon env vgm instr track ticks w).1 = (main env vgm instr track ticks w').1 ∧
    (mainA canon env vgm instr track ticks w).2.stdout
      = (main env vgm instr track ticks w').2.stdout ∧
    ∃ t, (mainA canon env vgm instr track ticks w).2.trace = w.trace ++ t ∧ Nested t := by
  obtain ⟨r, ups, out, _, h1, h2⟩ := mainA_twin canon env vgm instr track ticks w
  obtain ⟨t, m, h3, h4, _⟩ := h2.trace
  exact ⟨h2.result.trans h1.result.symm, h2.stdout.trans h1.stdout.symm, t, h3, h4⟩

/-- C100. A file that no output means is as before: in particular the input, if no output is
another name of it. -/
theorem c100_frame (canon : Str → Str) (env : Env) (vgm instr track : Option Str)
    (ticks : Option Int) (w : World) (f : Str)
    (hf : ∀ n, IsOutput instr track n → canon n ≠ f) :
    (mainA canon env vgm instr track ticks w).2.fs f = w.fs f := by
  obtain ⟨r, ups, out, hu, _, h2⟩ := mainA_twin canon env vgm instr track ticks w
  rw [h2.fs]
  refine writeFiles_other _ _ _ (fun u hm e => ?_)
  obtain ⟨v, hv, rfl⟩ := List.mem_map.mp hm
  exact hf v.1 (hu v hv) e

/-- C100. Under a name that shares its file with no output of another name, one finds afterwards
what one would find if every name meant a file of its own. -/
theorem c100_names (canon : Str → Str) (env : Env) (vgm instr track : Option Str)
    (ticks : Option Int) (w : World) (n : Str)
    (hn : ∀ o, IsOutput instr track o → canon o = canon n → o = n) :
    (mainA canon env vgm instr track ticks w).2.fs (canon n) =
      (main env vgm instr track ticks { w with fs := fun n => w.fs (canon n) }).2.fs n := by
  obtain ⟨r, ups, out, hu, h1, h2⟩ := mainA_twin canon env vgm instr track ticks w
  rw [h2.fs, toFiles_other canon ups w.fs n (fun u hm => hn u.1 (hu u hm))]
  exact (congrFun h1.fs n).symm

/-- C100. A readable input, no file that cannot be opened: whichever names mean the same file, also
that of the input, the file of the track name holds the song, that of the instrument name the
instruments unless it is the same file, and all others are as before. If the song cannot be made,
the instruments are there nevertheless. -/
theorem c100_outputs (canon : Str → Str) (env : Env) (vgm : Str) (instr track : Option Str)
    (ticks : Option Int) (content : Bytes) (cs : List Cmd) (w : World)
    (hv : vgm ≠ [] ∧ vgm ≠ ['-'])
    (hf : w.fs (canon vgm) = some content) (hr : Readable env.gunzip content cs)
    (ho : ∀ n b, env.openErr n b = none) (ha : env.argsFile ≠ none)
    (hc : ClockReading env.now) (hy : ZipYear env.now) :
    ∃ t text, TicksInUse ticks (run (history cs)).ticksPerNote t ∧
      instrumentsText (run (history cs)) = .ok text ∧
      ((track = none ∨ track = some []) →
        (mainA canon env (some vgm) instr track ticks w).1 = .ok () ∧
        ∀ f, (mainA canon env (some vgm) instr track ticks w).2.fs f =
          if ∃ i, instr = some i ∧ i ≠ [] ∧ i ≠ ['-'] ∧ canon i = f then some (asciiBytes text)
          else w.fs f) ∧
      (∀ name d, track = some name → name ≠ [] →
        exportXrns (run (history cs)) t = .ok d → (songXml d).length < maxDocument →
        (mainA canon env (some vgm) instr track ticks w).1 = .ok () ∧
        ∃ bytes, readSongFile bytes = some d ∧
        ∀ f, (mainA canon env (some vgm) instr track ticks w).2.fs f =
          if f = canon name then some bytes
          else if ∃ i, instr = some i ∧ i ≠ [] ∧ i ≠ ['-'] ∧ canon i = f
            then some (asciiBytes text) else w.fs f) ∧
      (∀ name e, track = some name → name ≠ [] →
        exportXrns (run (history cs)) t = .error e →
        (mainA canon env (some vgm) instr track ticks w).1 = .error e ∧
        ∀ f, (mainA canon env (some vgm) instr track ticks w).2.fs f =
          if ∃ i, instr = some i ∧ i ≠ [] ∧ i ≠ ['-'] ∧ canon i = f then some (asciiBytes text)
          else w.fs f) := by
  obtain ⟨a, ha⟩ := Option.ne_none_iff_exists'.mp ha
  obtain ⟨t, text, ht, htext, _, hd⟩ :=
    mainA_readable canon env vgm instr track ticks content cs a hv (ho _ _) ha hr w hf
  have hi : (instrEffect env instr text).1 = .ok () ∧ ∀ f,
      writeFiles w.fs (toFiles canon (instrEffect env instr text).2.1) f =
        if ∃ i, instr = some i ∧ i ≠ [] ∧ i ≠ ['-'] ∧ canon i = f then some (asciiBytes text)
        else w.fs f := by
    unfold instrEffect
    cases instr with
    | none => simp [writeFiles, toFiles]
    | some i =>
      cases i with
      | nil =>
        refine ⟨rfl, fun f => ?_⟩
        rw [if_neg (by rintro ⟨i, h, h2, _⟩; exact h2 (Option.some.inj h).symm)]
        rfl
      | cons c cs =>
        by_cases hd : c :: cs = ['-']
        · simp only [if_pos hd]
          refine ⟨trivial, fun f => ?_⟩
          rw [if_neg (by rintro ⟨i, h, _, h2, _⟩; exact h2 ((Option.some.inj h).symm.trans hd))]
          rfl
        · simp only [if_neg hd, ho]
          refine ⟨trivial, fun f => ?_⟩
          simp only [writeFiles, toFiles, List.map_cons, List.map_nil, List.foldl_cons,
            List.foldl_nil]
          by_cases hn : f = canon (c :: cs)
          · rw [if_pos hn, if_pos ⟨_, rfl, by simp, hd, hn.symm⟩]
          · rw [if_neg hn, if_neg (by
              rintro ⟨i, h, _, _, h2⟩
              rw [← Option.some.inj h] at h2
              exact hn h2.symm)]
  refine ⟨t, text, ht, htext, ?_, ?_, ?_⟩
  · intro htr
    have hte : trackEffect env track (exportXrns (run (history cs)) t) = (.ok (), [], []) := by
      rcases htr with rfl | rfl <;> rfl
    rw [hte] at hd
    refine ⟨?_, fun n => ?_⟩
    · rw [hd.result]; unfold bothEffect; rw [hi.1]
    · rw [hd.fs]; unfold bothEffect; rw [hi.1]
      simp only [List.append_nil]
      exact hi.2 n
  · intro name d htr hne hd1 hs
    obtain ⟨w1, w2⟩ := c63_file env.zip64 env.now hc hy _ t d hd1 hs
    have hd2 : writeSong env.zip64 env.now d = (.ok (), _) := Prod.ext w1 rfl
    have hte : trackEffect env track (exportXrns (run (history cs)) t)
        = (.ok (), [(name, (writeSong env.zip64 env.now d).2)], trackMessage name) := by
      subst htr
      cases name with
      | nil => exact absurd rfl hne
      | cons c cs => simp only [trackEffect, hd1, ho, w1]
    rw [hte] at hd
    refine ⟨?_, _, w2, fun n => ?_⟩
    · rw [hd.result]; unfold bothEffect; rw [hi.1]
    · rw [hd.fs]; unfold bothEffect; rw [hi.1]
      have e : toFiles canon ((instrEffect env instr text).2.1 ++
          [(name, (writeSong env.zip64 env.now d).2)])
          = toFiles canon (instrEffect env instr text).2.1 ++
            [(canon name, (writeSong env.zip64 env.now d).2)] := by
        simp [toFiles]
      simp only [e, writeFiles_append]
      rw [writeFiles_cons]
      have := hi.2 n
      simp only [writeFiles, List.foldl_nil] at this ⊢
      rw [this]
  · intro name e htr hne hd1
    have hte : trackEffect env track (exportXrns (run (history cs)) t)
        = (.error e, [], trackMessage name) := by
      subst htr
      cases name with
      | nil => exact absurd rfl hne
      | cons c cs => simp only [trackEffect, hd1]
    rw [hte] at hd
    refine ⟨?_, fun n => ?_⟩
    · rw [hd.result]; unfold bothEffect; rw [hi.1]
    · rw [hd.fs]; unfold bothEffect; rw [hi.1]
      simp only [List.append_nil]
      exact hi.2 n

theorem mainA_complete (canon : Str → Str) (env : Env) (vgm instr track : Option Str)
    (ticks : Option Int) (w : World) (f : Str)
    (hf : (mainA canon env vgm instr track ticks w).2.fs f ≠ w.fs f) :
    ∃ v content cs t text bytes, vgm = some v ∧ w.fs (canon v) = some content ∧
      Readable env.gunzip content cs ∧ TicksInUse ticks (run (history cs)).ticksPerNote t ∧
      instrumentsText (run (history cs)) = .ok text ∧
      (mainA canon env vgm instr track ticks w).2.fs f = some bytes ∧
      ((∃ n, instr = some n ∧ canon n = f ∧ bytes = asciiBytes text) ∨
       (∃ n d, track = some n ∧ canon n = f ∧ exportXrns (run (history cs)) t = .ok d ∧
        writeSong env.zip64 env.now d
          = ((mainA canon env vgm instr track ticks w).1, bytes))) := by
  by_cases h : ∃ name content cs, vgm = some name ∧ Proper name ∧ env.openErr name false = none ∧
      w.fs (canon name) = some content ∧ env.argsFile ≠ none ∧ Readable env.gunzip content cs
  · obtain ⟨name, content, cs, rfl, h2, h3, h4, h5, h6⟩ := h
    obtain ⟨a, ha⟩ := Option.ne_none_iff_exists'.mp h5
    obtain ⟨t, text, ht, htext, _, hd⟩ :=
      mainA_readable canon env name instr track ticks content cs a h2 h3 ha h6 w h4
    refine ⟨name, content, cs, t, text, ?_⟩
    have key : ∀ (l : List (Str × Bytes)) (fs : Str → Option Bytes) (P : Bytes → Prop),
        (∀ u ∈ l, u.1 = f → P u.2) → writeFiles fs l f ≠ fs f →
        ∃ b, writeFiles fs l f = some b ∧ P b := by
      intro l
      induction l with
      | nil => intro fs P _ hx; exact absurd rfl hx
      | cons u l ih =>
        intro fs P hP hx
        rw [writeFiles_cons] at hx ⊢
        by_cases hl : writeFiles (fun n => if n = u.1 then some u.2 else fs n) l f
            = (if f = u.1 then some u.2 else fs f)
        · rw [hl] at hx ⊢
          by_cases he : f = u.1
          · rw [if_pos he]; exact ⟨_, rfl, hP u List.mem_cons_self he.symm⟩
          · rw [if_neg he] at hx; exact absurd rfl hx
        · exact ih _ P (fun x hx => hP x (List.mem_cons_of_mem _ hx)) hl
    rw [hd.fs] at hf ⊢
    rw [hd.result]
    obtain ⟨b, hb1, hb2⟩ := key _ _
      (fun bytes => (∃ n, instr = some n ∧ canon n = f ∧ bytes = asciiBytes text) ∨
       (∃ n d, track = some n ∧ canon n = f ∧ exportXrns (run (history cs)) t = .ok d ∧
        writeSong env.zip64 env.now d
          = ((bothEffect (instrEffect env instr text)
              (trackEffect env track (exportXrns (run (history cs)) t))).1, bytes))) (by
        intro u hu he
        obtain ⟨x, hx, rfl⟩ := List.mem_map.mp hu
        unfold bothEffect at hx ⊢
        cases hr : (instrEffect env instr text).1 with
        | error e =>
          rw [hr] at hx
          obtain ⟨x1, _, _, x2⟩ := instrEffect_names env instr text x hx
          exact .inl ⟨x.1, x1, he, x2⟩
        | ok _ =>
          rw [hr] at hx
          rcases List.mem_append.mp hx with hx | hx
          · obtain ⟨x1, _, _, x2⟩ := instrEffect_names env instr text x hx
            exact .inl ⟨x.1, x1, he, x2⟩
          · obtain ⟨x1, _, d, x2, x3⟩ := trackEffect_names env track _ x hx
            exact .inr ⟨x.1, d, x1, he, x2, x3⟩) hf
    exact ⟨b, rfl, h4, h6, ht, htext, hb1, hb2⟩
  · exfalso
    obtain ⟨e, out, _, hd⟩ := mainA_unreadable canon env vgm instr track ticks w (by
      intro name content cs h1 h2 h3 h4 h5 h6
      exact h ⟨name, content, cs, h1, h2, h3, h4, h5, h6⟩)
    exact hf (by rw [hd.fs]; rfl)

/-- C100. However the program ends: a file that changed is the file of an output name, and holds the
complete list of instruments or the complete song — or, if the clock shows a year that a zip
archive cannot hold, the program raises and the file is an archive without entries. -/
theorem c100_complete (canon : Str → Str) (env : Env) (vgm instr track : Option Str)
    (ticks : Option Int) (w : World) (hc : ClockReading env.now) (f : Str)
    (hf : (mainA canon env vgm instr track ticks w).2.fs f ≠ w.fs f) :
    ∃ v content cs t text bytes, vgm = some v ∧ w.fs (canon v) = some content ∧
      Readable env.gunzip content cs ∧ TicksInUse ticks (run (history cs)).ticksPerNote t ∧
      instrumentsText (run (history cs)) = .ok text ∧
      (mainA canon env vgm instr track ticks w).2.fs f = some bytes ∧
      ((∃ n, instr = some n ∧ canon n = f ∧ bytes = asciiBytes text) ∨
       (∃ n d, track = some n ∧ canon n = f ∧ exportXrns (run (history cs)) t = .ok d ∧
        ((songXml d).length < maxDocument →
          ((mainA canon env vgm instr track ticks w).1 = .ok () ∧ readSongFile bytes = some d) ∨
          ((∃ e, (mainA canon env vgm instr track ticks w).1 = .error e) ∧ ¬ ZipYear env.now ∧
            unzip bytes = some [])))) := by
  obtain ⟨v, content, cs, t, text, bytes, h1, h2, h3, h4, h5, h6, h7⟩ :=
    mainA_complete canon env vgm instr track ticks w f hf
  refine ⟨v, content, cs, t, text, bytes, h1, h2, h3, h4, h5, h6, ?_⟩
  rcases h7 with h7 | ⟨n, d, h7, h8, h9, h10⟩
  · exact .inl h7
  · refine .inr ⟨n, d, h7, h8, h9, fun hs => ?_⟩
    have h := c63_either env.zip64 env.now hc _ t d h9 hs
    rw [h10] at h
    rcases h with ⟨a, _, b⟩ | ⟨a, b⟩
    · exact .inl ⟨a, b⟩
    · exact .inr ⟨a, b⟩

/-- `./t` means `t`, and `link` means the recording itself. -/
def sampleLinks (n : Str) : Str :=
  if n = "./t".toList then "t".toList else if n = "link".toList then "in.vgm".toList else n

theorem sampleLinks_runs (instr track : Str) (h : track ≠ []) :
    let x := mainA sampleLinks sampleEnv (some "in.vgm".toList) (some instr) (some track) (some 50)
      sampleWorld
    x.1 = .ok () ∧ ∃ d bytes text, exportXrns (run sample) 50 = .ok d ∧
      readSongFile bytes = some d ∧ instrumentsText (run sample) = .ok text ∧
      ∀ f, x.2.fs f = if f = sampleLinks track then some bytes
        else if ∃ i, some instr = some i ∧ i ≠ [] ∧ i ≠ ['-'] ∧ sampleLinks i = f
          then some (asciiBytes text) else sampleWorld.fs f := by
  obtain ⟨d, hd, _⟩ := c36_cells sample sample_byte 50 (by decide) (by decide +kernel)
  obtain ⟨t, text, ht, htext, _, hx, _⟩ := c100_outputs sampleLinks sampleEnv "in.vgm".toList
    (some instr) (some track) (some 50) sampleFile sampleCmds sampleWorld (by decide)
    (by decide +kernel) (sample_readable _) (fun _ _ => rfl) (by simp [sampleEnv])
    exampleNow_clock.1 exampleNow_clock.2
  have : t = 50 := by
    rcases ht with ⟨g, h1, _, rfl⟩ | ⟨h1 | h1, _⟩
    · exact (Option.some.inj h1).symm
    · cases h1
    · cases h1
  subst this
  rw [sample_history] at hx htext
  have hs : (match exportXrns (run sample) 50 with
    | .ok d => decide ((songXml d).length < 10000)
    | .error _ => false) = true := by decide +kernel
  have hd' : exportXrns (run sample) 50 = .ok d := hd
  rw [hd'] at hs
  have hs := of_decide_eq_true hs
  obtain ⟨h1, bytes, h3, h2⟩ := hx track d rfl h hd (by unfold maxDocument; omega)
  exact ⟨h1, d, bytes, text, hd', h3, htext, h2⟩

/-- The song written over the recording under another name, the instruments to `./t`; then both
outputs to one file under two names: the song wins. -/
example :
    (let x := mainA sampleLinks sampleEnv (some "in.vgm".toList) (some "./t".toList)
      (some "link".toList) (some 50) sampleWorld
    x.1 = .ok () ∧ ∃ d bytes text, exportXrns (run sample) 50 = .ok d ∧
      readSongFile bytes = some d ∧ x.2.fs "in.vgm".toList = some bytes ∧
      x.2.fs "t".toList = some (asciiBytes text) ∧ x.2.fs "./t".toList = none) ∧
    (let x := mainA sampleLinks sampleEnv (some "in.vgm".toList) (some "./t".toList)
      (some "t".toList) (some 50) sampleWorld
    x.1 = .ok () ∧ ∃ d bytes, exportXrns (run sample) 50 = .ok d ∧
      readSongFile bytes = some d ∧ x.2.fs "t".toList = some bytes) := by
  constructor
  · obtain ⟨h1, d, bytes, text, h2, h3, _, h4⟩ :=
      sampleLinks_runs "./t".toList "link".toList (by decide)
    refine ⟨h1, d, bytes, text, h2, h3, ?_, ?_, ?_⟩
    · rw [h4, if_pos (by decide)]
    · rw [h4, if_neg (by decide), if_pos ⟨_, rfl, by decide, by decide, by decide⟩]
    · rw [h4, if_neg (by decide), if_neg (by
        rintro ⟨i, e, _, _, h⟩
        rw [← Option.some.inj e] at h
        exact absurd h (by decide))]
      decide
  · obtain ⟨h1, d, bytes, text, h2, h3, _, h4⟩ :=
      sampleLinks_runs "./t".toList "t".toList (by decide)
    exact ⟨h1, d, bytes, h2, h3, by rw [h4, if_pos (by decide)]⟩

end VgmX
