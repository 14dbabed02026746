import Verif.Props.Main
import Verif.Lemmas.Crash
/-
Property C67: the process is killed while it writes.
-/

namespace VgmX
open Spec

/-! ### The operations of `main` -/

/-- The operations for the track file, if there is one. -/
def trackPart (env : Env) (track : Option Str) (s : State) (t : Int) : List FsOp :=
  match track with
  | some (c :: cs) => trackOps env s (c :: cs) t
  | _ => []

theorem outputsOps_eq (env : Env) (instr track : Option Str) (s : State) (t : Int) (w : World)
    (js : Str) (hj : instrumentsJs s = .ok js) :
    outputsOps env instr track s t w =
      (instrEffect env instr (js ++ ['\n'])).2.1.flatMap
        (fun u => .create u.1 :: puts u.1 0 u.2) ++
      match (instrEffect env instr (js ++ ['\n'])).1 with
      | .error _ => []
      | .ok () => trackPart env track s t := by
  obtain ⟨tr, m, _, h⟩ := instr_does env instr s js hj
  have h := congrArg Prod.fst (h w)
  simp only at h
  unfold outputsOps
  have hr : (if nameTruthy instr = true then (extractInstruments env instr s w).1 else .ok ())
      = (instrEffect env instr (js ++ ['\n'])).1 := by
    rw [← h]; split <;> rfl
  rw [hr]
  congr 1
  cases instr with
  | none => rfl
  | some name =>
    cases name with
    | nil => rfl
    | cons c cs =>
      simp only [nameTruthy, if_true, instrOps, hj, instrEffect]
      by_cases hd : c :: cs = ['-']
      · rw [if_pos hd, if_pos (.inr hd)]; rfl
      · rw [if_neg hd, if_neg (by simp [hd])]
        cases env.openErr (c :: cs) true with
        | some e => rfl
        | none => simp

theorem bodyOps_cases (env : Env) (instr track : Option Str) (ticks : Option Int)
    (f : Handle) (w : World) :
    bodyOps env instr track ticks f w = [] ∨
      ∃ id name cs t w', f = .file id name ∧ env.argsFile ≠ none ∧
        Readable env.gunzip ((w.fs name).getD []) cs ∧ ByteHistory (history cs) ∧
        TicksInUse ticks (run (history cs)).ticksPerNote t ∧
        bodyOps env instr track ticks f w
          = outputsOps env instr track (run (history cs)) t w' := by
  unfold bodyOps
  cases ha : env.argsFile with
  | none => exact .inl rfl
  | some a =>
    simp only
    cases hr : readerOn env w f with
    | mk r w1 =>
      match r with
      | .error e => exact .inl rfl
      | .ok none => exact .inl rfl
      | .ok (some v) =>
        simp only
        cases f with
        | stdin =>
          unfold readerOn at hr
          split at hr
          · rename_i h; cases h
          · split at hr <;> simp at hr
        | stdout =>
          unfold readerOn at hr
          split at hr
          · rename_i h; cases h
          · split at hr <;> simp at hr
        | file id name =>
          simp only [readerOn] at hr
          cases hx : freader env.inflate w.clocks ((w.fs name).getD []) with
          | mk r k =>
            rw [hx] at hr
            simp only [Prod.mk.injEq] at hr
            obtain ⟨rfl, rfl⟩ := hr
            cases hp : fprocessVgm v.stream with
            | error e => exact .inl rfl
            | ok st =>
              obtain ⟨cs, hread, hb, rfl⟩ := input_processed hx hp
              simp only
              obtain ⟨t, ht, e⟩ := mainTicks_spec env ticks (history cs) hb
                { w with clocks := k }
              right
              refine ⟨id, name, cs, t,
                { w with clocks := k }.print (ticksOutput env ticks (run (history cs))), rfl, by simp, hread, hb, ht, ?_⟩
              rw [e]

/-- The operations of a run: none, or those of the two outputs, the instruments first. -/
theorem mainOps_shape (env : Env) (vgm instr track : Option Str) (ticks : Option Int) (w : World) :
    ∃ A B : List FsOp, mainOps env vgm instr track ticks w = A ++ B ∧
      (main env vgm instr track ticks w).2.fs = applyOps (A ++ B) w.fs ∧
      (A = [] ∨ ∃ i text h, ByteHistory h ∧ instr = some i ∧ Proper i ∧
        instrumentsText (run h) = .ok text ∧ A = .create i :: puts i 0 (asciiBytes text)) ∧
      (B = [] ∨ ∃ tr d, track = some tr ∧ tr ≠ [] ∧ SongOf env vgm ticks w d ∧
        B = .create tr ::
          zipOps env.zip64 env.now tr (utf8 "Song.xml".toList) (utf8 (songXml d))) ∧
      (A = [] → (∃ i, instr = some i ∧ Proper i) → B = []) ∧
      ((main env vgm instr track ticks w).1 = .ok () →
        ((∃ i, instr = some i ∧ Proper i) → A ≠ []) ∧
        ((∃ tr, track = some tr ∧ tr ≠ []) → B ≠ [])) := by
  by_cases h : ∃ name content cs, vgm = some name ∧ Proper name ∧ env.openErr name false = none ∧
      w.fs name = some content ∧ env.argsFile ≠ none ∧ Readable env.gunzip content cs
  · obtain ⟨name, content, cs, rfl, h2, h3, h4, h5, h6⟩ := h
    obtain ⟨a, ha⟩ := Option.ne_none_iff_exists'.mp h5
    obtain ⟨hb, t, text, ht, htext, hall⟩ :=
      main_readable env name instr track ticks content cs a h2 h3 ha h6
    have hdid := hall w h4
    obtain ⟨js, hj, hjt⟩ := instruments_js (history cs) hb
    rw [htext] at hjt
    cases hjt
    have hops : ∃ w', mainOps env (some name) instr track ticks w
        = outputsOps env instr track (run (history cs)) t w' := by
      unfold mainOps
      have h1 : (nameTruthy (some name) && (some name != some ['-'])) = true := by
        rw [nameTruthy_some]
        simp [h2.1, h2.2]
      rw [if_pos h1, Option.getD_some, openFile_rb, h3, h4]
      simp only
      generalize hw1 : ({ w with
        trace := w.trace ++ [.opened w.nextId name ['r', 'b']]
        nextId := w.nextId + 1 } : World) = w1
      have hfs : w1.fs = w.fs := by rw [← hw1]
      unfold bodyOps
      obtain ⟨_, v, k, r1, r2⟩ := input_readable w1.clocks h6
      rw [ha]
      simp only [readerOn]
      rw [hfs, h4, Option.getD_some, r1]
      simp only
      rw [r2]
      simp only
      obtain ⟨t', ht', e⟩ := mainTicks_spec env ticks (history cs) hb { w1 with clocks := k }
      rw [ticksInUse_unique ht' ht] at e
      rw [← hfs, e]
      exact ⟨_, rfl⟩
    obtain ⟨w', hops⟩ := hops
    rw [outputsOps_eq env instr track _ t w' js hj] at hops
    -- the effect of the instruments
    have hA : (∃ e, (instrEffect env instr (js ++ ['\n'])).1 = .error e ∧
          (instrEffect env instr (js ++ ['\n'])).2.1 = [] ∧ ∃ i, instr = some i ∧ Proper i) ∨
        ((instrEffect env instr (js ++ ['\n'])).1 = .ok () ∧
          (instrEffect env instr (js ++ ['\n'])).2.1 = [] ∧ ¬ ∃ i, instr = some i ∧ Proper i) ∨
        ((instrEffect env instr (js ++ ['\n'])).1 = .ok () ∧ ∃ i, instr = some i ∧ Proper i ∧
          (instrEffect env instr (js ++ ['\n'])).2.1 = [(i, asciiBytes (js ++ ['\n']))]) := by
      cases instr with
      | none => exact .inr (.inl ⟨rfl, rfl, by simp⟩)
      | some n =>
        cases n with
        | nil => exact .inr (.inl ⟨rfl, rfl, by simp [Proper]⟩)
        | cons c cs =>
          by_cases hd : c :: cs = ['-']
          · rw [hd]
            exact .inr (.inl ⟨rfl, rfl, by simp [Proper]⟩)
          · have hp : Proper (c :: cs) := ⟨by simp, hd⟩
            simp only [instrEffect, if_neg hd]
            cases env.openErr (c :: cs) true with
            | some e => exact .inl ⟨e, rfl, rfl, _, rfl, hp⟩
            | none => exact .inr (.inr ⟨rfl, _, rfl, hp, rfl⟩)
    -- the effect of the tracks
    have hB : ∃ B, trackPart env track (run (history cs)) t = B ∧
        ((B = [] ∧ (trackEffect env track (exportXrns (run (history cs)) t)).2.1 = [] ∧
            ((trackEffect env track (exportXrns (run (history cs)) t)).1 = .ok () →
              ¬ ∃ tr, track = some tr ∧ tr ≠ [])) ∨
          ∃ tr d, track = some tr ∧ tr ≠ [] ∧ exportXrns (run (history cs)) t = .ok d ∧
            B = .create tr ::
              zipOps env.zip64 env.now tr (utf8 "Song.xml".toList) (utf8 (songXml d)) ∧
            (trackEffect env track (exportXrns (run (history cs)) t)).2.1
              = [(tr, (writeSong env.zip64 env.now d).2)]) := by
      match track with
      | none => exact ⟨[], rfl, .inl ⟨rfl, rfl, by simp⟩⟩
      | some [] => exact ⟨[], rfl, .inl ⟨rfl, rfl, by simp⟩⟩
      | some (c :: cs') =>
        refine ⟨_, rfl, ?_⟩
        simp only [trackPart, trackOps, exportXrns]
        cases hs : exportSong (run (history cs)) t with
        | error e => exact .inl ⟨rfl, rfl, by simp [trackEffect]⟩
        | ok song =>
          simp only [trackEffect]
          cases env.openErr (c :: cs') true with
          | some e => exact .inl ⟨rfl, rfl, by simp⟩
          | none => exact .inr ⟨_, _, rfl, by simp, rfl, rfl, rfl⟩
    obtain ⟨B, eB, hB⟩ := hB
    rw [eB] at hops
    have one : ∀ (n : Str) (b : Bytes) (fs : Str → Option Bytes),
        applyOps (.create n :: puts n 0 b) fs = setFile fs n b := by
      intro n b fs
      funext x
      by_cases hx : x = n
      · subst hx
        have := applyOps_new x b b.length fs
        rw [List.take_of_length_le (by rw [List.length_cons, puts_length]),
          List.take_length] at this
        rw [this, setFile_self]
      · rw [applyOps_other _ _ (by
          intro o ho
          rcases List.mem_cons.mp ho with rfl | ho
          · exact fun e => hx e.symm
          · rw [puts_name _ _ _ o ho]; exact fun e => hx e.symm)]
        simp [setFile, hx]
    have two : ∀ (n : Str) (d : DaoSong) (fs : Str → Option Bytes),
        applyOps (.create n ::
          zipOps env.zip64 env.now n (utf8 "Song.xml".toList) (utf8 (songXml d))) fs
          = setFile fs n (writeSong env.zip64 env.now d).2 := by
      intro n d fs
      funext x
      by_cases hx : x = n
      · subst hx
        rw [applyOps_create, zip_complete _ _ _ _ _ (setFile_self _ _ _), setFile_self]
        rfl
      · rw [applyOps_other _ _ (by
          intro o ho
          rcases List.mem_cons.mp ho with rfl | ho
          · exact fun e => hx e.symm
          · rw [zipOps_name _ _ _ _ _ o ho]; exact fun e => hx e.symm)]
        simp [setFile, hx]
    have hBfs : ∀ fs, applyOps B fs =
        writeFiles fs (trackEffect env track (exportXrns (run (history cs)) t)).2.1 := by
      intro fs
      rcases hB with ⟨h1, h2, _⟩ | ⟨tr, d, _, _, _, h1, h2⟩
      · rw [h1, h2]; rfl
      · rw [h1, h2, two]; rfl
    have hBshape : B = [] ∨ ∃ tr d, track = some tr ∧ tr ≠ [] ∧
        SongOf env (some name) ticks w d ∧
        B = .create tr ::
          zipOps env.zip64 env.now tr (utf8 "Song.xml".toList) (utf8 (songXml d)) := by
      rcases hB with ⟨h1, _⟩ | ⟨tr, d, h1, h2, h3, h4, _⟩
      · exact .inl h1
      · exact .inr ⟨tr, d, h1, h2, ⟨name, content, cs, t, rfl, by assumption, h6, ht, h3⟩, h4⟩
    have hBok : (trackEffect env track (exportXrns (run (history cs)) t)).1 = .ok () →
        (∃ tr, track = some tr ∧ tr ≠ []) → B ≠ [] := by
      intro hok htr
      rcases hB with ⟨_, _, h3⟩ | ⟨tr, d, _, _, _, h4, _⟩
      · exact absurd htr (h3 hok)
      · rw [h4]; simp
    rcases hA with ⟨e, a1, a2, a3⟩ | ⟨a1, a2, a3⟩ | ⟨a1, i, a2, a3, a4⟩
    · refine ⟨[], [], ?_, ?_, .inl rfl, .inl rfl, fun _ _ => rfl, ?_⟩
      · rw [hops, a1, a2]; rfl
      · rw [hdid.fs]; unfold bothEffect; rw [a1]; simp only [a2]; rfl
      · intro hok
        rw [hdid.result] at hok
        unfold bothEffect at hok
        rw [a1] at hok
        cases hok
    · refine ⟨[], B, ?_, ?_, .inl rfl, hBshape, fun _ h => absurd h a3, ?_⟩
      · rw [hops, a1, a2]; rfl
      · rw [hdid.fs]; unfold bothEffect; rw [a1]
        simp only [a2, List.nil_append]
        exact (hBfs w.fs).symm
      · intro hok
        rw [hdid.result] at hok
        unfold bothEffect at hok
        rw [a1] at hok
        exact ⟨fun h => absurd h a3, hBok hok⟩
    · refine ⟨.create i :: puts i 0 (asciiBytes (js ++ ['\n'])), B, ?_, ?_,
        .inr ⟨i, _, _, hb, a2, a3, htext, rfl⟩, hBshape, fun h => by simp at h, ?_⟩
      · rw [hops, a1, a4]; simp
      · rw [hdid.fs]; unfold bothEffect; rw [a1]
        simp only [a4]
        rw [writeFiles_append, applyOps_append, hBfs, one]
        rfl
      · intro hok
        rw [hdid.result] at hok
        unfold bothEffect at hok
        rw [a1] at hok
        exact ⟨fun _ => by simp, hBok hok⟩
  · obtain ⟨e, s, hall⟩ := main_unreadable env vgm instr track ticks w.fs (by
      intro name content cs h1 h2 h3 h4 h5 h6
      exact h ⟨name, content, cs, h1, h2, h3, h4, h5, h6⟩)
    have hdid := hall w (fun _ _ => rfl)
    refine ⟨[], [], ?_, hdid.fs, .inl rfl, .inl rfl, fun _ _ => rfl, ?_⟩
    · unfold mainOps
      split
      · rename_i hn
        obtain ⟨name, rfl, hp⟩ : ∃ name, vgm = some name ∧ Proper name := by
          cases vgm with
          | none => simp [nameTruthy] at hn
          | some name =>
            refine ⟨name, rfl, ?_⟩
            rw [nameTruthy_some] at hn
            simp at hn
            exact hn
        rw [Option.getD_some, openFile_rb]
        cases ho : env.openErr name false with
        | some e => rfl
        | none =>
          cases hf : w.fs name with
          | none => rfl
          | some content =>
            simp only
            rcases bodyOps_cases env instr track ticks (.file w.nextId name)
              { w with
                trace := w.trace ++ [.opened w.nextId name ['r', 'b']]
                nextId := w.nextId + 1 } with h0 | ⟨id, n, cs, t, w', h1, h2, h3, _⟩
            · rw [h0]; rfl
            · cases h1
              simp only [hf, Option.getD_some] at h3
              exact absurd ⟨name, content, cs, rfl, hp, ho, hf, h2, h3⟩ h
      · rcases bodyOps_cases env instr track ticks .stdin w with h0 | ⟨id, n, cs, t, w', h1, _⟩
        · rw [h0]; rfl
        · cases h1
    · intro hok
      rw [hdid.result] at hok
      cases hok

/-- C67. All the operations together leave what `main` leaves: for every input, every file. So
a process that is killed late enough has written everything. -/
theorem c67_complete (env : Env) (vgm instr track : Option Str) (ticks : Option Int) (w : World) :
    ∃ n, ∀ k, n ≤ k → killedAfter k env vgm instr track ticks w
      = (main env vgm instr track ticks w).2.fs := by
  obtain ⟨A, B, h1, h2, _⟩ := mainOps_shape env vgm instr track ticks w
  refine ⟨(A ++ B).length, fun k hk => ?_⟩
  unfold killedAfter
  rw [h1, h2, List.take_of_length_le hk]

/-- C67. Whenever the process is killed, only the output files can be different: the input and
all other files are as they were. -/
theorem c67_others (k : Nat) (env : Env) (vgm instr track : Option Str) (ticks : Option Int)
    (w : World) (n : Str) (hn : ¬ IsOutput instr track n) :
    killedAfter k env vgm instr track ticks w n = w.fs n := by
  obtain ⟨A, B, h1, _, hA, hB, _⟩ := mainOps_shape env vgm instr track ticks w
  unfold killedAfter
  rw [h1]
  apply applyOps_other
  intro o ho e
  apply hn
  rcases List.mem_append.mp (List.mem_of_mem_take ho) with ho | ho
  · rcases hA with rfl | ⟨i, text, h, _, hi, hp, _, rfl⟩
    · simp at ho
    · have : o.name = i := by
        rcases List.mem_cons.mp ho with rfl | ho
        · rfl
        · exact puts_name _ _ _ o ho
      rw [← e, this]
      exact .inl ⟨hi, hp.1, hp.2⟩
  · rcases hB with rfl | ⟨tr, d, htr, hne, _, rfl⟩
    · simp at ho
    · have : o.name = tr := by
        rcases List.mem_cons.mp ho with rfl | ho
        · rfl
        · exact zipOps_name _ _ _ _ _ o ho
      rw [← e, this]
      exact .inr ⟨htr, hne⟩

/-- A file that only the first list of operations is about. -/
theorem killed_first {A B : List FsOp} {n : Str} (hB : ∀ o ∈ B, o.name ≠ n) (k : Nat)
    (fs : Str → Option Bytes) :
    applyOps ((A ++ B).take k) fs n = applyOps (A.take k) fs n := by
  rw [List.take_append, applyOps_append]
  exact applyOps_other _ _ (fun o ho => hB o (List.mem_of_mem_take ho)) _

/-- A file that only the second list of operations is about. -/
theorem killed_second {A B : List FsOp} {n : Str} (hA : ∀ o ∈ A, o.name ≠ n) (k : Nat)
    (fs : Str → Option Bytes) :
    ∃ j, applyOps ((A ++ B).take k) fs n = applyOps (B.take j) (applyOps (A.take k) fs) n ∧
      applyOps (A.take k) fs n = fs n ∧ (j ≠ 0 → A.take k = A) := by
  refine ⟨k - A.length, ?_, ?_, ?_⟩
  · rw [List.take_append, applyOps_append]
  · exact applyOps_other _ _ (fun o ho => hA o (List.mem_of_mem_take ho)) _
  · intro hj
    exact List.take_of_length_le (by omega)

theorem create_names {n m : Str} {ops : List FsOp} (h : ∀ o ∈ ops, o.name = n) (hne : n ≠ m) :
    ∀ o ∈ FsOp.create n :: ops, o.name ≠ m := by
  intro o ho
  rcases List.mem_cons.mp ho with rfl | ho
  · exact hne
  · rw [h o ho]; exact hne

theorem asciiText_append (a b : Bytes) : asciiText (a ++ b) = asciiText a ++ asciiText b := by
  simp [asciiText]

/-- C67. Whenever the process is killed, the instrument file is as before, or it is a beginning
of the file that a full run writes; and if it reads as an instrument file, then it holds all the
instruments of the full run, not just some of them. -/
theorem c67_instruments (k : Nat) (env : Env) (vgm track : Option Str) (ticks : Option Int)
    (w : World) (i : Str) (htr : track ≠ some i) :
    killedAfter k env vgm (some i) track ticks w i = w.fs i ∨
    ∃ part whole, killedAfter k env vgm (some i) track ticks w i = some part ∧
      (main env vgm (some i) track ticks w).2.fs i = some whole ∧ part <+: whole ∧
      ∀ l, readInstrumentFile (asciiText part) = some l →
        readInstrumentFile (asciiText whole) = some l := by
  obtain ⟨A, B, h1, h2, hA, hB, _⟩ := mainOps_shape env vgm (some i) track ticks w
  unfold killedAfter
  rw [h1, h2]
  have hBn : ∀ o ∈ B, o.name ≠ i := by
    rcases hB with rfl | ⟨tr, d, htr', hne, _, rfl⟩
    · simp
    · exact create_names (zipOps_name _ _ _ _ _) (by rintro rfl; exact htr htr')
  rw [killed_first hBn, applyOps_append, applyOps_other B i hBn]
  rcases hA with rfl | ⟨j, text, h, hb, hi, hp, htext, rfl⟩
  · left; simp [applyOps]
  · cases hi
    cases k with
    | zero => left; simp [applyOps]
    | succ k =>
      right
      have hfull := applyOps_new i (asciiBytes text) (asciiBytes text).length w.fs
      rw [List.take_of_length_le (by rw [List.length_cons, puts_length]), List.take_length] at hfull
      refine ⟨_, _, applyOps_new i (asciiBytes text) k w.fs, hfull, List.take_prefix _ _, ?_⟩
      intro l hl
      obtain ⟨text', e1, hasc, hread⟩ := c49_read_back h hb
      rw [htext] at e1
      cases e1
      rw [asciiText_asciiBytes _ hasc]
      have hsplit : text = asciiText ((asciiBytes text).take k) ++
          asciiText ((asciiBytes text).drop k) := by
        rw [← asciiText_append, List.take_append_drop, asciiText_asciiBytes _ hasc]
      unfold readInstrumentFile at hl
      cases hpj : parseJson (asciiText ((asciiBytes text).take k)) with
      | none => rw [hpj] at hl; simp at hl
      | some v =>
        rw [hpj] at hl
        cases v with
        | arr js =>
          simp only at hl
          cases hq : parseJson text with
          | none => unfold readInstrumentFile at hread; rw [hq] at hread; simp at hread
          | some v =>
            have := parse_prefix (q := asciiText ((asciiBytes text).drop k)) hpj
              (by rw [← hsplit]; exact hq)
            unfold readInstrumentFile
            rw [hq, this]
            exact hl
        | num n => simp at hl
        | bool n => simp at hl
        | str n => simp at hl
        | obj n => simp at hl

theorem songXml_long (d : DaoSong) : 22 ≤ (songXml d).length := by
  unfold songXml xmlDocument
  simp only [List.length_append]
  have : 22 ≤ "<?xml version=\"1.0\" encoding=\"UTF-8\"?>\n".toList.length := by decide
  omega

/-- C67. Whenever the process is killed, the track file is as before, or it is the complete file
of a full run, or it does not read as a track file: no reader takes a file that was cut off for
a song. (Songs below two gigabytes.) -/
theorem c67_track (k : Nat) (env : Env) (vgm instr : Option Str) (ticks : Option Int)
    (w : World) (tr : Str) (hi : instr ≠ some tr)
    (hs : ∀ d, SongOf env vgm ticks w d → (songXml d).length < maxDocument) :
    killedAfter k env vgm instr (some tr) ticks w tr = w.fs tr ∨
    killedAfter k env vgm instr (some tr) ticks w tr
      = (main env vgm instr (some tr) ticks w).2.fs tr ∨
    ∃ b, killedAfter k env vgm instr (some tr) ticks w tr = some b ∧ readSongFile b = none := by
  obtain ⟨A, B, h1, h2, hA, hB, _⟩ := mainOps_shape env vgm instr (some tr) ticks w
  unfold killedAfter
  rw [h1, h2]
  have hAn : ∀ o ∈ A, o.name ≠ tr := by
    rcases hA with rfl | ⟨i, text, h, hb, hi', hp, htext, rfl⟩
    · simp
    · exact create_names (puts_name _ _ _) (by rintro rfl; exact hi hi')
  obtain ⟨j, e1, e2, _⟩ := killed_second (B := B) hAn k w.fs
  rw [e1]
  rcases hB with rfl | ⟨tr', d, htr, hne, hd, rfl⟩
  · left; simp [applyOps]; exact e2
  · cases htr
    cases j with
    | zero => left; simp [applyOps]; exact e2
    | succ j =>
      right
      obtain ⟨_, _, cs, t, _, _, _, _, hx⟩ := id hd
      obtain ⟨_, hchars⟩ := c63_document _ t d hx
      have hasc : ∀ c ∈ songXml d, c.toNat < 128 := fun c hc => docChar_ascii (hchars c hc)
      have hu := utf8_ascii _ hasc
      have hbytes : ∀ x ∈ utf8 (songXml d), x ≠ 0 ∧ x ≠ 5 := by
        intro x hx
        rw [hu] at hx
        obtain ⟨c, hc, rfl⟩ := List.mem_map.mp hx
        have h128 := hasc c hc
        have h10 : 10 ≤ c.toNat := by
          rcases hchars c hc with h | rfl
          · omega
          · decide
        constructor <;>
        · intro e
          have := congrArg UInt8.toNat e
          simp at this
          omega
      have hlen : (utf8 (songXml d)).length = (songXml d).length := by rw [hu, List.length_map]
      rw [List.take_succ_cons, applyOps_create, applyOps_append, applyOps_create,
        zip_complete _ _ _ _ _ (setFile_self _ _ _)]
      obtain ⟨b, hb, hz⟩ := zip_prefix env.zip64 env.now tr (utf8 (songXml d)) hbytes
        (by rw [hlen]; exact songXml_long d) (by rw [hlen]; exact hs d hd) j
        (setFile (applyOps (A.take k) w.fs) tr []) (setFile_self _ _ _)
      rw [hb]
      rcases hz with hz | rfl
      · right
        exact ⟨b, rfl, by unfold readSongFile; rw [hz]⟩
      · left; rfl

/-- C67. The instruments come first: if the process is killed when the track file has been
touched, the instrument file is the complete one. -/
theorem c67_order (k : Nat) (env : Env) (vgm : Option Str) (ticks : Option Int)
    (w : World) (i tr : Str) (hi : i ≠ [] ∧ i ≠ ['-']) (hne : i ≠ tr)
    (h : killedAfter k env vgm (some i) (some tr) ticks w tr ≠ w.fs tr) :
    killedAfter k env vgm (some i) (some tr) ticks w i
      = (main env vgm (some i) (some tr) ticks w).2.fs i ∧
    ∃ whole l, killedAfter k env vgm (some i) (some tr) ticks w i = some whole ∧
      readInstrumentFile (asciiText whole) = some l := by
  obtain ⟨A, B, h1, h2, hA, hB, hfirst, _⟩ := mainOps_shape env vgm (some i) (some tr) ticks w
  unfold killedAfter at *
  rw [h1] at h ⊢
  rw [h2]
  rcases hA with rfl | ⟨i', text, hist, hb, hi', hp, htext, rfl⟩
  · rw [hfirst rfl ⟨i, rfl, hi⟩] at h
    simp [applyOps] at h
  · cases hi'
    have hBn : ∀ o ∈ B, o.name ≠ i := by
      rcases hB with rfl | ⟨tr', d, htr', _, _, rfl⟩
      · simp
      · cases htr'
        exact create_names (zipOps_name _ _ _ _ _) (fun e => hne e.symm)
    obtain ⟨j, e1, e2, e3⟩ := killed_second (A := .create i :: puts i 0 (asciiBytes text)) (B := B)
      (n := tr) (create_names (puts_name _ _ _) hne) k w.fs
    have hj : j ≠ 0 := by
      rintro rfl
      apply h
      rw [e1]
      simpa [applyOps] using e2
    have e3 := e3 hj
    rw [killed_first hBn, e3, applyOps_append, applyOps_other B i hBn]
    refine ⟨rfl, ?_⟩
    have hfull := applyOps_new i (asciiBytes text) (asciiBytes text).length w.fs
    rw [List.take_of_length_le (by rw [List.length_cons, puts_length]), List.take_length] at hfull
    obtain ⟨text', t1, hasc, hread⟩ := c49_read_back hist hb
    rw [htext] at t1
    cases t1
    exact ⟨_, _, hfull, by rw [asciiText_asciiBytes _ hasc]; exact hread⟩

/-- C67. Outputs are not replaced in one step: in every run that ends well, there is a moment at
which each output file is empty, whatever it held before. Killed then, the program has lost the
old file and not yet written the new one. -/
theorem c67_window (env : Env) (vgm instr track : Option Str) (ticks : Option Int)
    (w : World) (h : (main env vgm instr track ticks w).1 = .ok ()) (n : Str)
    (hn : IsOutput instr track n) :
    ∃ k, killedAfter k env vgm instr track ticks w n = some [] := by
  obtain ⟨A, B, h1, h2, hA, hB, _, hok⟩ := mainOps_shape env vgm instr track ticks w
  obtain ⟨hok1, hok2⟩ := hok h
  unfold killedAfter
  rw [h1]
  rcases hn with ⟨hi, hn1, hn2⟩ | ⟨htr, hn1⟩
  · rcases hA with rfl | ⟨i, text, hist, hb, hi', hp, htext, rfl⟩
    · exact absurd rfl (hok1 ⟨n, hi, hn1, hn2⟩)
    · rw [hi] at hi'
      cases hi'
      refine ⟨1, ?_⟩
      simp [applyOps, FsOp.apply, setFile]
  · rcases hB with rfl | ⟨tr', d, htr', _, _, rfl⟩
    · exact absurd rfl (hok2 ⟨n, htr, hn1⟩)
    · rw [htr] at htr'
      cases htr'
      refine ⟨A.length + 1, ?_⟩
      rw [List.take_append, List.take_of_length_le (by omega), Nat.add_sub_cancel_left,
        applyOps_append]
      simp [applyOps, FsOp.apply, setFile]

/-! ### An example that meets the hypotheses -/

/-- The sample world, with an older instrument file. -/
def crashWorld : World :=
  { sampleWorld with
    fs := fun n => if n = "i".toList then some (asciiBytes "[]\n".toList) else sampleWorld.fs n }

/-- Killed after the first operation: the old instrument file is gone. -/
example : killedAfter 1 sampleEnv (some "in.vgm".toList) (some "i".toList) (some "t".toList)
    (some 50) crashWorld "i".toList = some [] := by decide +kernel

/-- Killed after 11 operations: ten characters of the new one are there, no track file yet. -/
example : (killedAfter 11 sampleEnv (some "in.vgm".toList) (some "i".toList) (some "t".toList)
      (some 50) crashWorld "i".toList).map asciiText = some "[\n\t{\n\t\t\"id".toList ∧
    killedAfter 11 sampleEnv (some "in.vgm".toList) (some "i".toList) (some "t".toList)
      (some 50) crashWorld "t".toList = none := by decide +kernel

/-- The song of the sample is small enough for `c67_track`. -/
theorem crash_small : ∀ d, SongOf sampleEnv (some "in.vgm".toList) (some 50) sampleWorld d →
    (songXml d).length < maxDocument := by
  rintro d ⟨name, content, cs, t, h1, h2, h3, h4, h5⟩
  cases h1
  have hc : content = sampleFile := by
    have : sampleWorld.fs "in.vgm".toList = some sampleFile := by decide +kernel
    rw [this] at h2
    exact (Option.some.inj h2).symm
  subst hc
  have hcs := readable_unique h3 (sample_readable _)
  subst hcs
  have : t = 50 := by
    rcases h4 with ⟨g, h1, _, rfl⟩ | ⟨h1 | h1, _⟩
    · exact (Option.some.inj h1).symm
    · cases h1
    · cases h1
  subst this
  rw [sample_history] at h5
  obtain ⟨_, d', _, e1, _, e3, _⟩ := sample_runs
  rw [e1] at h5
  cases h5
  unfold maxDocument
  omega

end VgmX
