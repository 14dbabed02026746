import Verif.Props.Disk
import Verif.Props.IoFaults
import Verif.Lemmas.FaultsAnyText
import Verif.Lemmas.DamageData
/-
Property C105: whichever writes fail, a damaged output is not mistaken for the result.
-/

namespace VgmX
open Spec

variable {D : Device}

/-! ### What failing writes leave of an archive is no song file -/

theorem song_noDecl {s : State} {ticks : Int} {d : DaoSong} (h : exportXrns s ticks = .ok d) :
    ∃ x : Xml, x.WF ∧ songXml d = xmlDocument x := by
  unfold exportXrns at h
  cases hx : exportSong s ticks with
  | error e => rw [hx] at h; cases h
  | ok song =>
    rw [hx] at h
    injection h with h
    subst h
    exact ⟨_, (ok_song (exportSong_texts hx)).wf, rfl⟩

theorem leaves_text (x : Xml) (hx : x.WF) (text : Str) (ht : text = xmlDocument x)
    (hasc : ∀ c ∈ text, c.toNat < 128) (sb1 : ∀ x ∈ utf8 text, x ≠ 0 ∧ x ≠ 5)
    (sb2 : (utf8 text).length = text.length)
    (hs : text.length < maxDocument) (t : DateTime) {c : Bytes}
    (hc : Leaves t (utf8 text) c) : readSongFile c = none := by
  have sbt : ∀ k, ∀ x ∈ (utf8 text).take k, x ≠ 0 ∧ x ≠ 5 :=
    fun k x hx => sb1 x (List.mem_of_mem_take hx)
  have hdecl := noDecl_document x hx
  rw [← ht] at hdecl
  clear ht
  cases hc with
  | start j m => exact damage_start _ _ _ _
  | early m => exact readSongFile_none (cut_early t _ _ sb1 m)
  | empty k j m => exact damage_empty (mixed_header _ _ _ _ _) _ (sbt k) _ _
  | late k m hkm =>
    by_cases hm : m < 76
    · exact readSongFile_none (damage_late t _ _ _ _ (sbt k) m hm)
    · have hk : k < text.length := by
        rcases hkm with h | h
        · exact absurd h hm
        · rw [← sb2]; exact h
      have hn : text.length < 2 ^ 31 := by unfold maxDocument at hs; omega
      have hd := damage_data t text (crc32 (utf8 text)) k hasc hdecl hn hk
      rw [List.take_of_length_le (i := m) (by rw [central_length]; omega)]
      have l1 := local_length t (crc32 (utf8 text)) text.length
      rw [List.length_append, l1, List.length_take, sb2, Nat.min_eq_left (Nat.le_of_lt hk)] at hd
      rw [sb2, ← List.append_assoc]
      exact hd

theorem leaves_none {s : State} {ticks : Int} {d : DaoSong} (h : exportXrns s ticks = .ok d)
    (hs : (songXml d).length < maxDocument) (t : DateTime) {c : Bytes}
    (hc : Leaves t (utf8 (songXml d)) c) : readSongFile c = none := by
  obtain ⟨x, hx, ht⟩ := song_noDecl h
  obtain ⟨sb1, sb2⟩ := song_bytes h
  exact leaves_text x hx _ ht
    (fun c hc => docChar_ascii ((c63_document _ _ d h).2 c hc)) sb1 sb2 hs t hc

/-! ### The parts of the program -/

/-- A file written by `withWriter`, given what the body leaves. -/
theorem withWriter_any (env : Env) (name mode : Str) (hm : mode.head? = some 'w')
    (body : Open D → Except PyErr Unit × Open D) (hk : Stable body) (w : FWorld D)
    (ho : env.openErr name true = none) (P : Bytes → Prop)
    (hP : P (body (opened name w)).2.content) (hwf : Wf (body (opened name w)).2) :
    ∃ c, (withWriter env name mode body w).2.fs name = some c ∧ P c := by
  rw [withWriter_eq env name mode hm, ho]
  dsimp only
  have hn : (body (opened name w)).2.name = name := (hk (opened name w)).1
  refine ⟨(body (opened name w)).2.content, ?_, hP⟩
  have hsome := hwf.1
  unfold Open.content
  rw [hn] at hsome ⊢
  cases h : (body (opened name w)).2.fs name with
  | none => exact absurd h hsome
  | some c => rfl

/-- One output on this device (`x`, from `w`), beside the same output on a perfect one (`y`, from
`v`). `left` says what is in the file. -/
def Part (left : Bytes → Bytes → Prop) (name : Option Str)
    (x : Except PyErr Unit × FWorld D) (y : Except PyErr Unit × World) (w : FWorld D)
    (v : World) : Prop :=
  (x.1 = .ok () → y.1 = .ok ()) ∧ ((x.2.fs = w.fs ∧ y.2.fs = v.fs) ∨
  ∃ n whole c, name = some n ∧ y.2.fs = setFile v.fs n whole ∧ x.2.fs = setFile w.fs n c ∧
    left whole c)

theorem instruments_part (b : Buffers) (env : Env) (instr : Option Str) (s : State) (js : Str)
    (hj : instrumentsJs s = .ok js) (w : FWorld D) (v : World) :
    Part (fun whole c => whole = asciiBytes (js ++ ['\n']) ∧ c <+: whole) (instrFile instr)
      (if nameTruthy instr then extractInstrumentsF b env instr s w else (.ok (), w))
      (if nameTruthy instr then extractInstruments env instr s v else (.ok (), v)) w v := by
  cases instr with
  | none => exact ⟨fun _ => rfl, .inl ⟨rfl, rfl⟩⟩
  | some name =>
    cases name with
    | nil => exact ⟨fun _ => rfl, .inl ⟨rfl, rfl⟩⟩
    | cons c cs =>
      simp only [nameTruthy, if_true]
      by_cases hd : c :: cs = ['-']
      · rw [hd, extractInstruments_stdout env s js hj]
        have hx : extractInstrumentsF b env (some ['-']) s w =
            (.ok (), (w.print ("Writing instruments to ".toList ++ nameStr (some ['-']) ++
              "...\n".toList)).print js |>.print ['\n']) := by
          unfold extractInstrumentsF
          rw [hj]
          rfl
        rw [hx]
        exact ⟨fun _ => rfl, .inl ⟨rfl, rfl⟩⟩
      · have hp : Proper (c :: cs) := ⟨by simp, hd⟩
        have hF := instruments_follows b env (some (c :: cs)) s w
        have hoth := hF.2
        rw [extractInstruments_file env _ hp s js hj]
        generalize hname : c :: cs = name at *
        have hif : (nameTruthy (some name) && some name != some ['-']) = true := by
          rw [nameTruthy_some]; simp [hp.1, hp.2]
        cases ho : env.openErr name true with
        | some e =>
          have hx : (extractInstrumentsF b env (some name) s w).1 = .error e ∧
              (extractInstrumentsF b env (some name) s w).2.fs = w.fs := by
            unfold extractInstrumentsF
            rw [hj]
            dsimp only
            rw [if_pos hif, withWriter_eq _ _ _ rfl]
            rw [Option.getD_some, ho]
            exact ⟨rfl, rfl⟩
          refine ⟨fun h => ?_, .inl ⟨hx.2, rfl⟩⟩
          rw [hx.1] at h
          cases h
        | none =>
          refine ⟨fun _ => rfl, .inr ?_⟩
          have hI : ∃ c, (extractInstrumentsF b env (some name) s w).2.fs name = some c ∧
              c <+: asciiBytes js ++ asciiBytes ['\n'] := by
            unfold extractInstrumentsF
            rw [hj]
            dsimp only
            rw [if_pos hif]
            simp only [Option.getD_some]
            have h3 := textFile_begun b (asciiBytes js) (asciiBytes ['\n'])
              (s := opened name (w.print ("Writing instruments to ".toList ++ nameStr (some name) ++
                "...\n".toList)))
              ⟨[], writing_opened (by simp [opened, setFile]) rfl rfl, rfl⟩
            exact withWriter_any env name ['w'] rfl
              (tryFinally (andThen (Open.textWrite b (asciiBytes js))
                (Open.textWrite b (asciiBytes ['\n']))) (Open.textClose b))
              (Stable.tryFinally (Stable.andThen (textWrite_keeps _ _) (textWrite_keeps _ _))
                (textClose_keeps _))
              (w.print ("Writing instruments to ".toList ++ nameStr (some name) ++ "...\n".toList))
              ho (fun c => c <+: asciiBytes js ++ asciiBytes ['\n']) h3.content h3.wf
          obtain ⟨c', hc, hr⟩ := hI
          rw [← asciiBytes_append] at hr
          exact ⟨name, asciiBytes (js ++ ['\n']), c', by simp [instrFile, hp.1, hp.2], rfl,
            setFile_of hc (fun m hm => hoth m (fun h => hm (Option.some.inj h.1).symm)), rfl, hr⟩

/-- The song, in `main`. -/
def trackPartAny (b : Buffers) (env : Env) (track : Option Str) (s : State) (t : Int)
    (w : FWorld D) : Except PyErr Unit × FWorld D :=
  match track with
  | some (c :: cs) => extractTracksF b env s (c :: cs) t w
  | _ => (.ok (), w)

theorem mainOutputsF_afterAny (b : Buffers) (env : Env) (instr track : Option Str) (s : State)
    (t : Int) (w : FWorld D) : ∃ X, X = (if nameTruthy instr then
      extractInstrumentsF b env instr s w else (.ok (), w)) ∧
      mainOutputsF b env instr track s t w = after X (trackPartAny b env track s t X.2) := by
  refine ⟨_, rfl, ?_⟩
  unfold mainOutputsF
  generalize (if nameTruthy instr then extractInstrumentsF b env instr s w else (.ok (), w)) = X
  obtain ⟨r, w1⟩ := X
  cases r <;> rfl

theorem tracks_part (b : Buffers) (env : Env) (track : Option Str) (s : State)
    (t : Int) (hs : ∀ d, exportXrns s t = .ok d → (songXml d).length < maxDocument)
    (w : FWorld D) (v : World) :
    ((trackPartAny b env track s t w).2.fs = w.fs ∧ (trackPlain env track s t v).2.fs = v.fs) ∨
    ∃ n whole c, trackFile track = some n ∧ (trackPlain env track s t v).2.fs = setFile v.fs n whole ∧
      (trackPartAny b env track s t w).2.fs = setFile w.fs n c ∧
      (c = whole ∨ readSongFile c = none) := by
  unfold trackPartAny trackPlain
  cases track with
  | none => exact .inl ⟨rfl, rfl⟩
  | some name =>
    cases name with
    | nil => exact .inl ⟨rfl, rfl⟩
    | cons c cs =>
      dsimp only
      have hoth := (tracks_follows b env s (c :: cs) t w).2
      have hn : trackFile (some (c :: cs)) = some (c :: cs) := by simp [trackFile]
      rw [hn]
      generalize c :: cs = name at *
      clear hn
      rw [extractTracks_eq]
      cases hsong : exportSong s t with
      | error e =>
        left
        unfold extractTracksF exportXrns
        rw [hsong]
        exact ⟨rfl, rfl⟩
      | ok song =>
        have hd : exportXrns s t = .ok (render song) := by unfold exportXrns; rw [hsong]
        rw [hd]
        dsimp only
        cases ho : env.openErr name true with
        | some e =>
          left
          unfold extractTracksF
          rw [hsong]
          dsimp only
          rw [withWriter_eq _ _ _ rfl, ho]
          exact ⟨rfl, rfl⟩
        | none =>
          right
          obtain ⟨sb1, sb2⟩ := song_bytes hd
          have hlen := hs _ hd
          have hz : ¬ zip64Needed (utf8 (songXml (render song))).length := by
            rw [sb2]
            unfold maxDocument at hlen
            unfold zip64Needed; omega
          have hW : writeSong env.zip64 env.now (render song) = zipSingle env.zip64 env.now
            (utf8 "Song.xml".toList) (utf8 (songXml (render song))) := rfl
          have hI : ∃ c, (extractTracksF b env s name t w).2.fs name = some c ∧
              (c = (writeSong env.zip64 env.now (render song)).2 ∨ readSongFile c = none) := by
            rw [hW]
            unfold extractTracksF
            rw [hsong]
            dsimp only
            obtain ⟨h1, h2⟩ := zipFile_any b env.zip64 env.now (utf8 (songXml (render song))) hz
              (s := opened name (w.print ("Writing xrns ".toList ++ name ++ "...\n".toList)))
              (writing_opened (by simp [opened, setFile]) rfl rfl)
            exact withWriter_any env name ['w', 'b'] rfl
              (tryFinally (zipFileF b env.zip64 env.now (utf8 "Song.xml".toList)
                (utf8 (songXml (render song)))) Open.flush)
              (Stable.tryFinally (zipFileF_keeps _ _ _ _ _) flush_keeps)
              (w.print ("Writing xrns ".toList ++ name ++ "...\n".toList)) ho
              (fun c => c = (zipSingle env.zip64 env.now (utf8 "Song.xml".toList)
                (utf8 (songXml (render song)))).2 ∨ readSongFile c = none)
              (h2.imp id (leaves_none hd hlen env.now)) h1
          obtain ⟨c', hc, hr⟩ := hI
          exact ⟨name, _, c', rfl, rfl, setFile_of hc (fun m hm => hoth m hm), hr⟩

/-! ### The program -/

/-- A run of the program, on the device (`x`, from `w`) and on a perfect one (`y`): either both fail
before any output, or both come to the outputs. -/
def ComesAny (b : Buffers) (env : Env) (instr track : Option Str) (w : FWorld D)
    (songs : DaoSong → Prop) (x : Except PyErr Unit × FWorld D)
    (y : Except PyErr Unit × World) : Prop :=
  (∃ e, x.1 = .error e ∧ y.1 = .error e ∧ x.2.fs = w.fs ∧ y.2.fs = w.fs) ∨
  ∃ h t, ∃ w1 : FWorld D, ByteHistory h ∧ w1.fs = w.fs ∧
    (∀ d, exportXrns (run h) t = .ok d → songs d) ∧
    x.1 = (mainOutputsF b env instr track (run h) t w1).1 ∧
    x.2.fs = (mainOutputsF b env instr track (run h) t w1).2.fs ∧
    y.1 = (mainOutputs env instr track (run h) t w1.toWorld).1 ∧
    y.2.fs = (mainOutputs env instr track (run h) t w1.toWorld).2.fs

theorem mainBody_comesAny (b : Buffers) (env : Env) (instr track : Option Str) (ticks : Option Int)
    (f : Handle) (w : FWorld D) :
    ComesAny b env instr track w
      (fun d => ∃ id name content cs t, f = .file id name ∧ w.fs name = content ∧
        Readable env.gunzip (content.getD []) cs ∧
        TicksInUse ticks (run (history cs)).ticksPerNote t ∧
        exportXrns (run (history cs)) t = .ok d)
      (mainBodyF b env instr track ticks f w) (mainBody env instr track ticks f w.toWorld) := by
  unfold mainBodyF mainBody
  cases env.argsFile with
  | none => exact .inl ⟨_, rfl, rfl, rfl, rfl⟩
  | some a =>
    dsimp only
    have hw : ∀ p, (FWorld.print w p).toWorld = w.toWorld.print p := fun _ => rfl
    rw [hw]
    generalize hm : "Opening file: ".toList ++ a ++ ['\n'] = message
    clear hm
    have h1 := readerOn_same env (w.toWorld.print message) f
    rcases hr : readerOn env (w.toWorld.print message) f with ⟨r, w1⟩
    rw [hr] at h1
    obtain ⟨g1, _, _⟩ := h1
    have e1 : w1.fs = w.fs := g1
    rcases r with e | _ | vgm
    · exact .inl ⟨_, rfl, rfl, e1, e1⟩
    · exact .inl ⟨_, rfl, rfl, e1, e1⟩
    · dsimp only
      cases hp : fprocessVgm vgm.stream with
      | error e => exact .inl ⟨_, rfl, rfl, e1, e1⟩
      | ok s =>
        dsimp only
        cases f with
        | stdin =>
          unfold readerOn at hr
          split at hr
          · rename_i h; cases h
          · split at hr <;> simp at hr
        | stdout =>
          unfold readerOn at hr
          split at hr
          · rename_i h; cases h
          · split at hr <;> simp at hr
        | file id name =>
          simp only [readerOn] at hr
          cases hx : freader env.inflate w.clocks ((w.fs name).getD []) with
          | mk r k =>
            have hr' : (fun x : Except PyErr (Option FVgm) × Clocks =>
                (x.1, ({ w.toWorld.print message with clocks := x.2 } : World)))
                (freader env.inflate w.clocks ((w.fs name).getD [])) = (.ok (some vgm), w1) := hr
            rw [hx] at hr'
            simp only [Prod.mk.injEq] at hr'
            obtain ⟨rfl, rfl⟩ := hr'
            obtain ⟨cs, hread, hb, rfl⟩ := input_processed hx hp
            obtain ⟨t, ht, e⟩ := mainTicks_spec env ticks (history cs) hb
              { w.toWorld.print message with clocks := k }
            rw [e]
            dsimp only
            right
            refine ⟨history cs, t, _, hb, ?_, ?_, rfl, rfl, rfl, rfl⟩
            · rfl
            · intro d hd
              exact ⟨id, name, _, cs, t, rfl, rfl, hread, ht, hd⟩

theorem ComesAny.imp {b : Buffers} {env : Env} {instr track : Option Str} {w w' : FWorld D}
    {p q : DaoSong → Prop} {x x' : Except PyErr Unit × FWorld D}
    {y y' : Except PyErr Unit × World} (h : ComesAny b env instr track w p x y)
    (hpq : ∀ d, p d → q d) (h0 : w.fs = w'.fs) (hx : x'.1 = x.1)
    (hx2 : x'.2.fs = x.2.fs) (hy : y'.1 = y.1) (hy2 : y'.2.fs = y.2.fs) :
    ComesAny b env instr track w' q x' y' := by
  unfold ComesAny at *
  rw [hx, hx2, hy, hy2, ← h0]
  rcases h with h | ⟨s, t, w1, a1, a2, a4, a5⟩
  · exact .inl h
  · exact .inr ⟨s, t, w1, a1, a2, fun d hd => hpq d (a4 d hd), a5⟩

theorem main_comesAny (b : Buffers) (env : Env) (vgm instr track : Option Str) (ticks : Option Int)
    (w : FWorld D) :
    ComesAny b env instr track w (SongOf env vgm ticks w.toWorld)
      (mainF b env vgm instr track ticks w) (main env vgm instr track ticks w.toWorld) := by
  unfold mainF main smartOpen
  by_cases hp : (nameTruthy vgm && vgm != some ['-']) = true
  · rw [if_pos hp, if_pos hp, openFile_rb]
    cases env.openErr (vgm.getD []) false with
    | some e => exact .inl ⟨_, rfl, rfl, rfl, rfl⟩
    | none =>
      cases hc : w.fs (vgm.getD []) with
      | none => exact .inl ⟨_, rfl, rfl, rfl, rfl⟩
      | some c =>
        dsimp only
        generalize hW : (FWorld.mk _ _ _ : FWorld D) = W
        have h := mainBody_comesAny b env instr track ticks (.file w.nextId (vgm.getD [])) W
        have hW' : W.toWorld = { w.toWorld with
          trace := w.trace ++ [.opened w.nextId (vgm.getD []) ['r', 'b']]
          nextId := w.nextId + 1 } := by rw [← hW]
        rw [← hW']
        have hfs : W.fs = w.fs := by rw [hW']
        refine h.imp ?_ hfs rfl rfl rfl ?_
        · rintro d ⟨id, name, content, cs, t, h1, h2, h3, h4, h5⟩
          have hn : vgm.getD [] = name := by cases h1; rfl
          rw [hfs, ← hn, hc] at h2
          subst h2
          refine ⟨name, c, cs, t, ?_, by rw [← hn]; exact hc, h3, h4, h5⟩
          cases vgm with
          | none => simp [nameTruthy] at hp
          | some n => rw [← hn]; rfl
        · generalize mainBody env instr track ticks (.file w.nextId (vgm.getD [])) W.toWorld = y
          obtain ⟨r', w1'⟩ := y
          dsimp only
          rw [if_pos (by simp)]
          rfl
  · rw [if_neg hp, if_neg hp, if_neg (by decide), if_pos (by decide)]
    have h := mainBody_comesAny b env instr track ticks .stdin w
    refine h.imp ?_ rfl rfl rfl rfl ?_
    · rintro d ⟨id, name, content, cs, t, h1, _⟩; cases h1
    · generalize mainBody env instr track ticks .stdin w.toWorld = y
      obtain ⟨r', w1'⟩ := y
      dsimp only
      rw [if_neg (by simp)]

theorem setFile_other {fs : Str → Option Bytes} {n m : Str} {c : Bytes} (h : m ≠ n) :
    setFile fs n c m = fs m := by simp [setFile, h]

/-- C105. Whichever writes fail, and whatever they have written before they failed: the song file
is as before, or the one of a run on a perfect system, or no song file for the reader of
`Spec.readSongFile`. (Songs below two gigabytes.) -/
theorem c105_track (b : Buffers) (env : Env) (vgm instr : Option Str) (ticks : Option Int)
    (w : FWorld D) (tr : Str) (hi : instr ≠ some tr)
    (hs : ∀ d, SongOf env vgm ticks w.toWorld d → (songXml d).length < maxDocument) :
    (mainF b env vgm instr (some tr) ticks w).2.fs tr = w.fs tr ∨
    (mainF b env vgm instr (some tr) ticks w).2.fs tr
      = (main env vgm instr (some tr) ticks w.toWorld).2.fs tr ∨
    ∃ c, (mainF b env vgm instr (some tr) ticks w).2.fs tr = some c ∧ readSongFile c = none := by
  rcases main_comesAny b env vgm instr (some tr) ticks w with ⟨e, _, _, h3, _⟩ |
    ⟨h, t, w1, hb, h0, h4, _, h6, _, h8⟩
  · left; rw [h3]
  · rw [h6, h8, ← h0]
    clear h6 h8
    obtain ⟨js, hj, _⟩ := instruments_js h hb
    obtain ⟨X, hX, eX⟩ := mainOutputsF_afterAny b env instr (some tr) (run h) t w1
    obtain ⟨Y, hY, eY⟩ := mainOutputs_after env instr (some tr) (run h) t w1.toWorld
    have hI := instruments_part b env instr (run h) js hj w1 w1.toWorld
    rw [← hX, ← hY] at hI
    rw [eX, eY]
    clear hX hY eX eY
    have hT := tracks_part b env (some tr) (run h) t (fun d hd => hs d (h4 d hd)) X.2 Y.2
    obtain ⟨hok, hI⟩ := hI
    have hXt : X.2.fs tr = w1.fs tr := by
      rcases hI with ⟨h, _⟩ | ⟨n, whole, c, hn, _, h, _⟩
      · rw [h]
      · rw [h, setFile_other]
        rintro rfl
        apply hi
        unfold instrFile at hn
        split at hn
        · split at hn
          · cases hn
          · exact hn
        · cases hn
    unfold after
    cases hx : X.1 with
    | error e => exact .inl hXt
    | ok u =>
      rw [hok hx]
      dsimp only
      rcases hT with ⟨h1, _⟩ | ⟨n, whole, c, hn, h1, h2, h3⟩
      · left; rw [h1]; exact hXt
      · have : n = tr := by
          simp only [trackFile] at hn
          split at hn
          · cases hn
          · injection hn with hn; exact hn.symm
        subst this
        right
        rw [h1, h2]
        rcases h3 with rfl | h3
        · left; simp [setFile]
        · right; exact ⟨c, by simp [setFile], h3⟩

/-- C105. Whichever writes fail: the instrument file is as before, or a beginning of what a run
on a perfect system writes; and if it reads as an instrument file, then it holds all the
instruments of that run. -/
theorem c105_instruments (b : Buffers) (env : Env) (vgm track : Option Str) (ticks : Option Int)
    (w : FWorld D) (i : Str) (htr : track ≠ some i) :
    (mainF b env vgm (some i) track ticks w).2.fs i = w.fs i ∨
    ∃ part whole, (mainF b env vgm (some i) track ticks w).2.fs i = some part ∧
      (main env vgm (some i) track ticks w.toWorld).2.fs i = some whole ∧ part <+: whole ∧
      ∀ l, readInstrumentFile (asciiText part) = some l →
        readInstrumentFile (asciiText whole) = some l := by
  rcases main_comesAny b env vgm (some i) track ticks w with ⟨e, _, _, h3, _⟩ |
    ⟨h, t, w1, hb, h0, _, _, h6, _, h8⟩
  · left; rw [h3]
  · rw [h6, h8, ← h0]
    clear h6 h8
    obtain ⟨js, hj, htext⟩ := instruments_js h hb
    obtain ⟨X, hX, eX⟩ := mainOutputsF_afterAny b env (some i) track (run h) t w1
    obtain ⟨Y, hY, eY⟩ := mainOutputs_after env (some i) track (run h) t w1.toWorld
    have hI := instruments_part b env (some i) (run h) js hj w1 w1.toWorld
    rw [← hX, ← hY] at hI
    rw [eX, eY]
    clear hX hY eX eY
    have hXi : (after X (trackPartAny b env track (run h) t X.2)).2.fs i = X.2.fs i := by
      unfold after
      cases X.1 with
      | error e => rfl
      | ok u =>
        dsimp only
        unfold trackPartAny
        split
        · exact (tracks_follows b env (run h) _ t X.2).2 i (fun e => htr (by rw [e]))
        · rfl
    have hYi : (after Y (trackPlain env track (run h) t Y.2)).2.fs i = Y.2.fs i := by
      unfold after
      cases Y.1 with
      | error e => rfl
      | ok u =>
        dsimp only
        unfold trackPlain
        split
        · rw [extractTracks_eq]
          cases exportXrns (run h) t with
          | error e => rfl
          | ok d =>
            dsimp only
            split
            · rfl
            · exact setFile_other (fun e => htr (by rw [e]))
        · rfl
    rw [hXi, hYi]
    obtain ⟨_, hI⟩ := hI
    rcases hI with ⟨h1, _⟩ | ⟨n, whole, c, hn, h1, h2, rfl, hp⟩
    · left; rw [h1]
    · right
      have : n = i := by
        unfold instrFile at hn
        dsimp only at hn
        split at hn
        · cases hn
        · cases hn; rfl
      subst this
      refine ⟨c, _, by rw [h2]; simp [setFile], by rw [h1]; simp [setFile], hp, ?_⟩
      intro l hl
      obtain ⟨text', e1, hasc, hread⟩ := c49_read_back h hb
      rw [htext] at e1
      cases e1
      generalize js ++ ['\n'] = text at *
      obtain ⟨q, hq⟩ := hp
      rw [asciiText_asciiBytes _ hasc]
      have hsplit : text = asciiText c ++ asciiText q := by
        rw [← asciiText_append, hq, asciiText_asciiBytes _ hasc]
      unfold readInstrumentFile at hl
      cases hpj : parseJson (asciiText c) with
      | none => rw [hpj] at hl; simp at hl
      | some v =>
        rw [hpj] at hl
        cases v with
        | arr js =>
          simp only at hl
          cases hq : parseJson text with
          | none => unfold readInstrumentFile at hread; rw [hq] at hread; simp at hread
          | some v =>
            have := parse_prefix (q := asciiText q) hpj (by rw [← hsplit]; exact hq)
            unfold readInstrumentFile
            rw [hq, this]
            exact hl
        | num n => simp at hl
        | bool n => simp at hl
        | str n => simp at hl
        | obj n => simp at hl

/-! ### Reads, moves and prints may fail as well -/

theorem trackPlain_other (env : Env) (track : Option Str) (s : State) (t : Int) (w : World)
    (i : Str) (h : track ≠ some i) : (trackPlain env track s t w).2.fs i = w.fs i := by
  unfold trackPlain
  split
  · rw [extractTracks_eq]
    cases exportXrns s t with
    | error e => rfl
    | ok d =>
      dsimp only
      split
      · rfl
      · exact setFile_other (fun e => h (by rw [e]))
  · rfl

theorem outputs_noTrack (env : Env) (instr track : Option Str) (s : State) (t : Int) (w : World)
    (i : Str) (h : track ≠ some i) :
    (mainOutputs env instr track s t w).2.fs i = (mainOutputs env instr none s t w).2.fs i := by
  obtain ⟨Y, hY, e⟩ := mainOutputs_after env instr track s t w
  obtain ⟨Y', hY', e'⟩ := mainOutputs_after env instr none s t w
  rw [← hY] at hY'
  subst hY'
  rw [e, e']
  unfold after
  cases Y'.1 with
  | error e => rfl
  | ok u =>
    dsimp only
    rw [trackPlain_other env track s t _ i h, trackPlain_other env none s t _ i (by simp)]

theorem body_noTrack (env : Env) (instr track : Option Str) (ticks : Option Int) (f : Handle)
    (w : World) (i : Str) (h : track ≠ some i) :
    (mainBody env instr track ticks f w).2.fs i = (mainBody env instr none ticks f w).2.fs i := by
  unfold mainBody
  cases env.argsFile with
  | none => rfl
  | some a =>
    dsimp only
    generalize readerOn env _ f = x
    obtain ⟨r, w1⟩ := x
    rcases r with e | _ | v
    · rfl
    · rfl
    · dsimp only
      cases fprocessVgm v.stream with
      | error e => rfl
      | ok s =>
        dsimp only
        generalize mainTicks env ticks s w1 = y
        obtain ⟨r, w2⟩ := y
        cases r with
        | error e => rfl
        | ok t => exact outputs_noTrack env instr track s t _ i h

/-- What is in the other files does not depend on whether a song is asked for. -/
theorem main_noTrack (env : Env) (vgm instr track : Option Str) (ticks : Option Int)
    (w : World) (i : Str) (h : track ≠ some i) :
    (main env vgm instr track ticks w).2.fs i = (main env vgm instr none ticks w).2.fs i := by
  have hc : ∀ (f : Handle) (w1 : World),
      (mainBody env instr track ticks f w1).2.fs i = (mainBody env instr none ticks f w1).2.fs i :=
    fun f w1 => body_noTrack env instr track ticks f w1 i h
  have hcl : ∀ (x y : Except PyErr Unit × World) (fh : Handle), x.2.fs i = y.2.fs i →
      (if fh ≠ .stdout ∧ fh ≠ .stdin then x.2.close fh else x.2).fs i =
        (if fh ≠ .stdout ∧ fh ≠ .stdin then y.2.close fh else y.2).fs i := by
    intro x y fh h
    have he : ∀ z : World, (z.close fh).fs = z.fs := fun z => by cases fh <;> rfl
    split
    · rw [he, he]; exact h
    · exact h
  unfold main smartOpen
  split
  · generalize openFile env w (vgm.getD []) ['r', 'b'] = x
    obtain ⟨r, w1⟩ := x
    cases r with
    | error e => rfl
    | ok fh => exact hcl _ _ fh (hc fh w1)
  · split
    · exact hcl _ _ .stdout (hc _ w)
    · split
      · exact hcl _ _ .stdin (hc _ w)
      · rfl

/-- C105. Whatever is refused (reads, moves, prints, writes, a write also in the middle): the song
file is as before, or the one of a run on a perfect system, or no song file. -/
theorem c105_io_track (b : Buffers) (env : Env) (vgm : Str) (instr : Option Str)
    (ticks : Option Int) (w : FWorld D) (f : FStream) (a : ResF D)
    (o : Option (Refused × PyErr)) (hp : Proper vgm) (tr : Str) (hi : instr ≠ some tr)
    (hs : ∀ d, SongOf env (some vgm) ticks w.toWorld d → (songXml d).length < maxDocument)
    (h : (mainIoF b env vgm instr (some tr) ticks w).Ends f a o) :
    a.2.fs tr = w.fs tr ∨
    a.2.fs tr = (main env (some vgm) instr (some tr) ticks w.toWorld).2.fs tr ∨
    ∃ c, a.2.fs tr = some c ∧ readSongFile c = none := by
  have hm := (main_meetsF hp).ends h
  cases o with
  | none =>
    rw [hm.1 rfl]
    exact c105_track b env (some vgm) instr ticks w tr hi hs
  | some o =>
    obtain ⟨kind, e⟩ := o
    left
    rcases (hm.2 _ _ rfl).2 with h2 | h2
    · rw [h2.1]
    · rw [h2.2]
      refine c80_others b env (some vgm) instr none ticks w tr (fun h => ?_)
      rcases h with h | h
      · exact hi h.1
      · cases h.1

/-- C105. Whatever is refused: the instrument file is as before, or a beginning of what a run
on a perfect system writes; and if it reads as an instrument file, then it holds all the
instruments of that run. -/
theorem c105_io_instruments (b : Buffers) (env : Env) (vgm : Str) (track : Option Str)
    (ticks : Option Int) (w : FWorld D) (f : FStream) (a : ResF D)
    (o : Option (Refused × PyErr)) (hp : Proper vgm) (i : Str) (htr : track ≠ some i)
    (h : (mainIoF b env vgm (some i) track ticks w).Ends f a o) :
    a.2.fs i = w.fs i ∨
    ∃ part whole, a.2.fs i = some part ∧
      (main env (some vgm) (some i) track ticks w.toWorld).2.fs i = some whole ∧ part <+: whole ∧
      ∀ l, readInstrumentFile (asciiText part) = some l →
        readInstrumentFile (asciiText whole) = some l := by
  have hm := (main_meetsF hp).ends h
  cases o with
  | none =>
    rw [hm.1 rfl]
    exact c105_instruments b env (some vgm) track ticks w i htr
  | some o =>
    obtain ⟨kind, e⟩ := o
    rcases (hm.2 _ _ rfl).2 with h2 | h2
    · left; rw [h2.1]
    · rw [h2.2, main_noTrack env (some vgm) (some i) track ticks w.toWorld i htr]
      exact c105_instruments b env (some vgm) none ticks w i (by simp)

/-! ### Examples that meet the hypotheses -/

/-- A device whose write number `n` (counting down from the state) fails, the others take at most
1000 bytes. -/
def flaky : Device where
  St := Nat
  write := fun left _ _ n => (if left = 0 then .error (.other 5) else .ok (min n 1000),
    if left = 0 then 1000000 else left - 1)
  emptied := fun left _ => left

/-- The sample world on it. -/
def flakyWorld (n : Nat) : FWorld flaky := { toWorld := sampleWorld, dev := n, failed := false }

/-- The sample run with tiny buffers, its write number `n` failing. -/
def flakyRun (n : Nat) : Except PyErr Unit × FWorld flaky :=
  mainF ⟨16, 16⟩ sampleEnv (some "in.vgm".toList) (some "i".toList) (some "t".toList)
    (some 50) (flakyWorld n)

/-- The second write fails: 1000 bytes of the instruments and no song. The fourth: the header of the
song is lost, an archive without entries is left. The eighth: a part of the song is lost, and a
directory written after what is there. The sixteenth: there is none, the run succeeds. -/
example : (flakyRun 1).1 = .error (.other 5) ∧
    ((flakyRun 1).2.fs "i".toList).map List.length = some 1000 ∧
    (flakyRun 1).2.fs "t".toList = none ∧
    (flakyRun 3).1 = .error (.other 5) ∧
    ((flakyRun 3).2.fs "t".toList).bind unzip = some [] ∧
    (flakyRun 7).1 = .error (.other 5) ∧
    ((flakyRun 7).2.fs "t".toList).map List.length = some 3114 ∧
    (flakyRun 15).1 = .ok () ∧ (flakyRun 15).2.failed = false := by decide +kernel

theorem sample_no_t : sampleWorld.fs "t".toList = none := by decide

/-- The hypotheses of `c105_track` hold for the sample run, whichever write fails. -/
example (n : Nat) : (flakyRun n).2.fs "t".toList = none ∨
    (flakyRun n).2.fs "t".toList = (main sampleEnv (some "in.vgm".toList) (some "i".toList)
      (some "t".toList) (some 50) sampleWorld).2.fs "t".toList ∨
    ∃ c, (flakyRun n).2.fs "t".toList = some c ∧ readSongFile c = none := by
  have h := c105_track ⟨16, 16⟩ sampleEnv (some "in.vgm".toList) (some "i".toList) (some 50)
    (flakyWorld n) "t".toList (by decide) crash_small
  have e : (flakyWorld n).toWorld = sampleWorld := rfl
  unfold flakyRun
  generalize mainF _ _ _ _ _ _ _ = x at h ⊢
  rw [e, sample_no_t] at h
  exact h

/-- Those of `c105_io_track`: on the full disk, with the operation number 45 to be refused. -/
example : (sampleTrouble 3000 45).1.2.fs "t".toList = none ∨
    (sampleTrouble 3000 45).1.2.fs "t".toList = (main sampleEnv (some "in.vgm".toList)
      (some "i".toList) (some "t".toList) (some 50) sampleWorld).2.fs "t".toList ∨
    ∃ c, (sampleTrouble 3000 45).1.2.fs "t".toList = some c ∧ readSongFile c = none := by
  have h := Io.ends_refuse (.other 5) (mainIoF usualBuffers sampleEnv "in.vgm".toList
    (some "i".toList) (some "t".toList) (some 50) (diskWorld 3000)) 45 ⟨[], 0, none⟩
  unfold sampleTrouble
  generalize Io.refuse _ _ _ _ = x at h ⊢
  have h := c105_io_track _ _ _ _ _ _ _ _ _ (by decide) "t".toList (by decide) crash_small h
  have e : (diskWorld 3000).toWorld = sampleWorld := rfl
  rw [e, sample_no_t] at h
  exact h

end VgmX
