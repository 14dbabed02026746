import Verif.Props.Crash
import Verif.Lemmas.FaultsZip
/-
Property C80: writes that fail.
-/

namespace VgmX
open Spec

variable {D : Device}

/-! ### A file written -/

/-- The files opened from `w` to `w'` are all closed. -/
def Closes (w w' : World) : Prop :=
  ∃ t m, w'.trace = w.trace ++ t ∧ Nested t ∧ openedIds t = List.range' w.nextId m ∧
    w'.nextId = w.nextId + m

theorem Closes.same {w w' : World} (h1 : w'.trace = w.trace) (h2 : w'.nextId = w.nextId) :
    Closes w w' := ⟨[], 0, by simp [h1], .nil, rfl, by simp [h2]⟩

theorem Closes.trans {a b c : World} (h : Closes a b) (h' : Closes b c) : Closes a c := by
  obtain ⟨t, m, h1, h2, h3, h4⟩ := h
  obtain ⟨t', m', h1', h2', h3', h4'⟩ := h'
  refine ⟨t ++ t', m + m', by rw [h1', h1, List.append_assoc], .append h2 h2', ?_, by omega⟩
  unfold openedIds at *
  rw [List.filterMap_append, h3, h3', h4, List.range'_append_1]

/-- How a part of the program on a failing device (`x`, from `w`) is related to the same part
without failures (`y`): the same if nothing failed; an exception if something did. -/
structure Follows (x : Except PyErr Unit × FWorld D) (y : Except PyErr Unit × World)
    (w : FWorld D) : Prop where
  agree : x.2.failed = false → x.1 = y.1 ∧ x.2.toWorld = y.2
  raised : x.2.failed = w.failed ∨ (∃ e, x.1 = .error e) ∧ x.2.failed = true
  closes : Closes w.toWorld x.2.toWorld

theorem Follows.plain {w w' : FWorld D} {r : Except PyErr Unit} {y : Except PyErr Unit × World}
    (hy : y = (r, w'.toWorld)) (hf : w'.failed = w.failed) (h1 : w'.trace = w.trace)
    (h2 : w'.nextId = w.nextId) : Follows (r, w') y w :=
  ⟨fun _ => by rw [hy]; exact ⟨rfl, rfl⟩, .inl hf, .same h1 h2⟩

theorem openFile_w (env : Env) (w : World) (name mode : Str) (hm : mode.head? = some 'w') :
    openFile env w name mode =
      match env.openErr name true with
      | some e => (.error e, w)
      | none => (.ok (.file w.nextId name),
          { w with
            fs := setFile w.fs name []
            trace := w.trace ++ [.opened w.nextId name mode]
            nextId := w.nextId + 1 }) := by
  simp only [openFile, hm]
  rfl

/-- The file just opened for writing. -/
def opened (name : Str) (w : FWorld D) : Open D := {
  fs := setFile w.fs name [], dev := D.emptied w.dev ((w.fs name).getD []).length,
  failed := w.failed, name := name, pos := 0, buf := [], text := [] }

theorem withWriter_eq (env : Env) (name mode : Str) (hm : mode.head? = some 'w')
    (body : Open D → Except PyErr Unit × Open D) (w : FWorld D) :
    withWriter env name mode body w =
      match env.openErr name true with
      | some e => (.error e, w)
      | none => ((body (opened name w)).1,
          { fs := (body (opened name w)).2.fs
            stdout := w.stdout
            clocks := w.clocks
            trace := w.trace ++ [.opened w.nextId name mode, .closed w.nextId]
            nextId := w.nextId + 1
            dev := (body (opened name w)).2.dev
            failed := (body (opened name w)).2.failed }) := by
  unfold withWriter
  rw [openFile_w env _ name mode hm]
  cases env.openErr name true with
  | some e => rfl
  | none =>
    show ((body (opened name w)).1, _) = ((body (opened name w)).1, _)
    congr 1
    simp only [World.close, List.append_assoc, List.cons_append, List.nil_append]
    rfl

theorem fresh_opened (name : Str) (w : FWorld D) : Fresh (opened name w) := by
  refine ⟨⟨by simp [opened, setFile], by simp [opened]⟩, ?_, rfl⟩
  simp [Open.view, Open.content, opened, setFile, overwrite]

/-- What `withWriter` does, given what its body does to a fresh file. -/
theorem withWriter_follows (env : Env) (name mode : Str) (hm : mode.head? = some 'w')
    (body : Open D → Except PyErr Unit × Open D) (hk : Stable body) (r0 : Except PyErr Unit)
    (c0 : Bytes)
    (hb : ∀ s : Open D, Fresh s → s.text = [] → (body s).2.failed = false →
      (body s).1 = r0 ∧ (body s).2.content = c0 ∧ Wf (body s).2)
    (w : FWorld D) :
    Follows (withWriter env name mode body w)
      (match env.openErr name true with
        | some e => (.error e, w.toWorld)
        | none => (r0,
          { w.toWorld with
            fs := setFile w.fs name c0
            trace := w.trace ++ [.opened w.nextId name mode, .closed w.nextId]
            nextId := w.nextId + 1 })) w ∧
    (∀ n, n ≠ name → (withWriter env name mode body w).2.fs n = w.fs n) := by
  rw [withWriter_eq env name mode hm]
  cases ho : env.openErr name true with
  | some e => exact ⟨.plain rfl rfl rfl rfl, fun _ _ => rfl⟩
  | none =>
    dsimp only
    have hx := hb _ (fresh_opened name w) rfl
    have hkS := hk (opened name w)
    have hn : (opened name w).name = name := rfl
    have hfs : (opened name w).fs = setFile w.fs name [] := rfl
    have hfl : (opened name w).failed = w.failed := rfl
    generalize opened name w = S at hx hkS hn hfs hfl ⊢
    generalize body S = x at hx hkS ⊢
    obtain ⟨r, s⟩ := x
    dsimp only at hx hkS ⊢
    have hoth : ∀ n, n ≠ name → s.fs n = w.fs n := by
      intro n hne
      rw [hkS.2.1 n (by rw [hn]; exact hne), hfs]
      simp [setFile, hne]
    refine ⟨⟨?_, ?_, ?_⟩, ?_⟩
    · intro hf
      obtain ⟨h1, h2, h3⟩ := hx hf
      refine ⟨h1, ?_⟩
      have : s.fs = setFile w.fs name c0 := by
        funext n
        by_cases hne : n = name
        · subst hne
          have hsn : s.name = n := hkS.1.trans hn
          have h3' := h3.1
          unfold Open.content at h2
          rw [hsn] at h2 h3'
          simp only [setFile, if_true]
          cases hc : s.fs n with
          | none => exact absurd hc h3'
          | some c => rw [hc] at h2; rw [← h2]; rfl
        · rw [hoth n hne]; simp [setFile, hne]
      rw [this]
    · rcases hkS.2.2 with h | h
      · exact .inl (h.trans hfl)
      · exact .inr h
    · exact ⟨[.opened w.nextId name mode, .closed w.nextId], 1, rfl, .wrap _ _ _ .nil, rfl, rfl⟩
    · intro n hne
      exact hoth n hne

/-! ### The two outputs -/

theorem view_of_flushed {s : Open D} (hw : Wf s) (hf : s.flush.2.failed = false) :
    s.flush.1 = .ok () ∧ s.flush.2.content = s.view ∧ Wf s.flush.2 := by
  obtain ⟨h, h'⟩ := flush_did hw hf
  exact ⟨h.ok, h', h.wf⟩

/-- Writing two texts to a new file and closing it. -/
theorem texts_done (b : Buffers) (x y : Bytes) (s : Open D) (hs : Fresh s) (ht : s.text = [])
    (hf : (tryFinally (andThen (Open.textWrite b x) (Open.textWrite b y)) (Open.textClose b)
      s).2.failed = false) :
    (tryFinally (andThen (Open.textWrite b x) (Open.textWrite b y)) (Open.textClose b) s).1
      = .ok () ∧
    (tryFinally (andThen (Open.textWrite b x) (Open.textWrite b y)) (Open.textClose b) s).2.content
      = x ++ y ∧
    Wf (tryFinally (andThen (Open.textWrite b x) (Open.textWrite b y)) (Open.textClose b) s).2 := by
  have key : ∀ (hf : (andThen (Open.textWrite b x) (Open.textWrite b y) s).2.failed = false),
      (andThen (Open.textWrite b x) (Open.textWrite b y) s).1 = .ok () ∧
      Wf (andThen (Open.textWrite b x) (Open.textWrite b y) s).2 ∧
      (andThen (Open.textWrite b x) (Open.textWrite b y) s).2.full = x ++ y := by
    intro hf
    have d1 := textWrite_did b x hs.wf
    obtain ⟨f1, f2, e⟩ := andThen_split (textWrite_keeps b y) hf (fun h => (d1 h).1)
    obtain ⟨a1, a2, a3, a4, a5⟩ := d1 f1
    obtain ⟨b1, b2, b3, b4, b5⟩ := textWrite_did b y a2 f2
    rw [e]
    refine ⟨b1, b2, ?_⟩
    have h0 : s.full = [] := by unfold Open.full; rw [ht, overwrite_nil, hs.view]
    have h0' : s.fullTell = 0 := by unfold Open.fullTell; rw [ht, hs.tell]; rfl
    rw [b3, a3, a4, h0, h0']
    simp [overwrite]
  obtain ⟨f1, f2, e⟩ := tryFinally_split (textClose_keeps b) hf
    (fun h h' => (textClose_did b (key h).2.1 h').1)
  obtain ⟨k1, k2, k3⟩ := key f1
  obtain ⟨c1, c2, c3, c4⟩ := textClose_did b k2 f2
  rw [e]
  exact ⟨k1, c2.trans k3, c4⟩

/-- Writing an archive to a new file and closing it. -/
theorem zip_done (b : Buffers) (zip64 : DateTime → Bytes → Bytes → Except PyErr Unit × Bytes)
    (t : DateTime) (entry data : Bytes) (s : Open D) (hs : Fresh s)
    (hf : (tryFinally (zipFileF b zip64 t entry data) Open.flush s).2.failed = false) :
    (tryFinally (zipFileF b zip64 t entry data) Open.flush s).1
      = (zipSingle zip64 t entry data).1 ∧
    (tryFinally (zipFileF b zip64 t entry data) Open.flush s).2.content
      = (zipSingle zip64 t entry data).2 ∧
    Wf (tryFinally (zipFileF b zip64 t entry data) Open.flush s).2 := by
  have d := zipFileF_did b zip64 t entry data hs
  obtain ⟨f1, f2, e⟩ := tryFinally_split flush_keeps hf
    (fun h h' => (view_of_flushed (d h).2.1 h').1)
  obtain ⟨d1, d2, d3, d4⟩ := d f1
  obtain ⟨v1, v2, v3⟩ := view_of_flushed d2 f2
  rw [e]
  exact ⟨d1, v2.trans d3, v3⟩

theorem instruments_follows (b : Buffers) (env : Env) (instr : Option Str) (s : State)
    (w : FWorld D) :
    Follows (extractInstrumentsF b env instr s w) (extractInstruments env instr s w.toWorld) w ∧
    ∀ n, ¬ (instr = some n ∧ n ≠ [] ∧ n ≠ ['-']) →
      (extractInstrumentsF b env instr s w).2.fs n = w.fs n := by
  unfold extractInstrumentsF
  cases hj : instrumentsJs s with
  | error e =>
    refine ⟨.plain ?_ rfl rfl rfl, fun _ _ => rfl⟩
    unfold extractInstruments
    rw [hj]
    rfl
  | ok js =>
    dsimp only
    by_cases hp : (nameTruthy instr && instr != some ['-']) = true
    · rw [if_pos hp]
      obtain ⟨name, rfl, hn⟩ : ∃ name, instr = some name ∧ Proper name := by
        cases instr with
        | none => simp [nameTruthy] at hp
        | some name =>
          refine ⟨name, rfl, ?_⟩
          rw [nameTruthy_some] at hp
          unfold Proper
          simpa using hp
      have h := withWriter_follows (D := D) env name ['w'] rfl
        (tryFinally (andThen (Open.textWrite b (asciiBytes js))
          (Open.textWrite b (asciiBytes ['\n']))) (Open.textClose b))
        (Stable.tryFinally (Stable.andThen (textWrite_keeps _ _) (textWrite_keeps _ _))
          (textClose_keeps _)) (.ok ()) (asciiBytes js ++ asciiBytes ['\n'])
        (fun s hs ht hf => texts_done b _ _ s hs ht hf)
        (w.print (instrMessage name))
      refine ⟨?_, fun n hne => ?_⟩
      · rw [extractInstruments_file env name hn s js hj]
        have h1 := h.1
        refine ⟨fun hf => ?_, h1.raised, h1.closes⟩
        have := h1.agree hf
        cases ho : env.openErr name true with
        | some e => rw [ho] at this; exact this
        | none =>
          rw [ho] at this
          rw [asciiBytes_append]
          exact this
      · exact h.2 n (by rintro rfl; exact hne ⟨rfl, hn⟩)
    · rw [if_neg hp]
      refine ⟨.plain ?_ rfl rfl rfl, fun _ _ => rfl⟩
      unfold extractInstruments
      rw [hj]
      dsimp only
      unfold smartOpen
      rw [if_neg hp]
      rfl

theorem tracks_follows (b : Buffers) (env : Env) (s : State) (name : Str) (t : Int)
    (w : FWorld D) :
    Follows (extractTracksF b env s name t w) (extractTracksToXrns env s name t w.toWorld) w ∧
    ∀ n, n ≠ name → (extractTracksF b env s name t w).2.fs n = w.fs n := by
  rw [extractTracks_eq]
  unfold extractTracksF exportXrns
  cases hs : exportSong s t with
  | error e => exact ⟨.plain rfl rfl rfl rfl, fun _ _ => rfl⟩
  | ok song =>
    have h := withWriter_follows (D := D) env name ['w', 'b'] rfl
      (tryFinally
        (zipFileF b env.zip64 env.now (utf8 "Song.xml".toList) (utf8 (songXml (render song))))
        Open.flush)
      (Stable.tryFinally (zipFileF_keeps _ _ _ _ _) flush_keeps)
      (writeSong env.zip64 env.now (render song)).1 (writeSong env.zip64 env.now (render song)).2
      (fun s hs _ hf => zip_done b _ _ _ _ s hs hf)
      (w.print (trackMessage name))
    refine ⟨?_, h.2⟩
    have h1 := h.1
    refine ⟨fun hf => ?_, h1.raised, h1.closes⟩
    have := h1.agree hf
    cases ho : env.openErr name true with
    | some e => rw [ho] at this; exact this
    | none => rw [ho] at this; exact this

theorem Follows.andThen {x : Except PyErr Unit × FWorld D} {y : Except PyErr Unit × World}
    {w : FWorld D} {f : FWorld D → Except PyErr Unit × FWorld D}
    {g : World → Except PyErr Unit × World} (h : Follows x y w)
    (hf : ∀ w, Follows (f w) (g w.toWorld) w) :
    Follows (match x.1 with
        | .error e => (.error e, x.2)
        | .ok () => f x.2)
      (match y.1 with
        | .error e => (.error e, y.2)
        | .ok () => g y.2) w := by
  obtain ⟨r, w1⟩ := x
  have h1 := h.agree
  have h2 := h.raised
  have h3 := h.closes
  cases r with
  | error e =>
    refine ⟨fun hn => ?_, ?_, h3⟩
    · have := h1 hn
      dsimp only at this ⊢
      rw [← this.1]
      exact ⟨rfl, this.2⟩
    · rcases h2 with h2 | h2
      · exact .inl h2
      · exact .inr ⟨⟨e, rfl⟩, h2.2⟩
  | ok _ =>
    dsimp only at h1 h2 h3 ⊢
    have h2' : w1.failed = w.failed := by
      rcases h2 with h2 | ⟨⟨e, he⟩, _⟩
      · exact h2
      · cases he
    have hfw := hf w1
    refine ⟨fun hn => ?_, ?_, h3.trans hfw.closes⟩
    · have hw1 : w1.failed = false := by
        rcases hfw.raised with h | h
        · rw [← h]; exact hn
        · rw [h.2] at hn; cases hn
      have := h1 hw1
      rw [← this.1, ← this.2]
      exact hfw.agree hn
    · rw [← h2']
      exact hfw.raised

theorem outputs_follows (b : Buffers) (env : Env) (instr track : Option Str) (s : State) (t : Int)
    (w : FWorld D) :
    Follows (mainOutputsF b env instr track s t w) (mainOutputs env instr track s t w.toWorld) w ∧
    (∀ n, ¬ IsOutput instr track n → (mainOutputsF b env instr track s t w).2.fs n = w.fs n) ∧
    (∀ i tr, instr = some i → i ≠ [] → i ≠ ['-'] → track = some tr → i ≠ tr → w.failed = false →
      (mainOutputsF b env instr track s t w).2.fs tr ≠ w.fs tr →
      (mainOutputsF b env instr track s t w).2.fs i
        = (mainOutputs env instr track s t w.toWorld).2.fs i) := by
  unfold mainOutputsF mainOutputs
  have hX : ∃ x : Except PyErr Unit × FWorld D,
      (if nameTruthy instr then extractInstrumentsF b env instr s w else (.ok (), w)) = x ∧
      Follows x (if nameTruthy instr then extractInstruments env instr s w.toWorld
        else (.ok (), w.toWorld)) w ∧
      ∀ n, ¬ (instr = some n ∧ n ≠ [] ∧ n ≠ ['-']) → x.2.fs n = w.fs n := by
    refine ⟨_, rfl, ?_, ?_⟩
    · split
      · exact (instruments_follows b env instr s w).1
      · exact .plain rfl rfl rfl rfl
    · intro n hn
      split
      · exact (instruments_follows b env instr s w).2 n hn
      · rfl
  obtain ⟨x, hx, hx1, hx2⟩ := hX
  rw [hx]
  generalize (if nameTruthy instr then extractInstruments env instr s w.toWorld
        else (.ok (), w.toWorld)) = y at hx1 ⊢
  clear hx
  have hT : ∀ w : FWorld D, Follows
      (match track with
        | some (c :: cs) => extractTracksF b env s (c :: cs) t w
        | _ => (.ok (), w))
      (match track with
        | some (c :: cs) => extractTracksToXrns env s (c :: cs) t w.toWorld
        | _ => (.ok (), w.toWorld)) w := by
    intro w
    split
    · exact (tracks_follows b env s _ t w).1
    · exact .plain rfl rfl rfl rfl
  have hO : ∀ (w : FWorld D) n, ¬ (track = some n ∧ n ≠ []) →
      (match track with
        | some (c :: cs) => extractTracksF b env s (c :: cs) t w
        | _ => (.ok (), w)).2.fs n = w.fs n := by
    intro w n hn
    split
    · rename_i c cs
      exact (tracks_follows b env s _ t w).2 n (by rintro rfl; exact hn ⟨rfl, by simp⟩)
    · rfl
  have hO' : ∀ (w : World) n, ¬ (track = some n ∧ n ≠ []) →
      (match track with
        | some (c :: cs) => extractTracksToXrns env s (c :: cs) t w
        | _ => (.ok (), w)).2.fs n = w.fs n := by
    intro w n hn
    split
    · rename_i c cs
      rw [extractTracks_eq]
      have hne : n ≠ c :: cs := by rintro rfl; exact hn ⟨rfl, by simp⟩
      cases exportXrns s t with
      | error e => rfl
      | ok d =>
        cases env.openErr (c :: cs) true with
        | some e => rfl
        | none => simp [setFile, hne]
    · rfl
  refine ⟨?_, ?_, ?_⟩
  · have := hx1.andThen (g := fun w => match track with
        | some (c :: cs) => extractTracksToXrns env s (c :: cs) t w
        | _ => (.ok (), w)) hT
    obtain ⟨r, w1⟩ := x
    obtain ⟨r', w1'⟩ := y
    exact this
  · intro n hn
    obtain ⟨r, w1⟩ := x
    have hi := hx2 n (fun h => hn (.inl h))
    cases r with
    | error e => exact hi
    | ok _ => exact (hO w1 n (fun h => hn (.inr h))).trans hi
  · intro i tr hi hi1 hi2 htr hne hwf hch
    obtain ⟨r, w1⟩ := x
    cases r with
    | error e =>
      exact absurd (hx2 tr (by rintro ⟨h, _⟩; rw [hi] at h; exact hne (Option.some.inj h))) hch
    | ok _ =>
      have hw1 : w1.failed = false := by
        rcases hx1.raised with h | ⟨⟨e, h⟩, _⟩
        · exact h.trans hwf
        · cases h
      obtain ⟨e1, e2⟩ := hx1.agree hw1
      dsimp only at e1 e2 ⊢
      rw [← e1]
      have hti : ¬ (track = some i ∧ i ≠ []) := by
        rintro ⟨h, _⟩; rw [htr] at h; exact hne (Option.some.inj h).symm
      refine (hO w1 i hti).trans ?_
      refine Eq.trans ?_ (hO' y.2 i hti).symm
      rw [← e2]

/-! ### The program -/

theorem readerOn_same (env : Env) (w : World) (f : Handle) :
    (readerOn env w f).2.fs = w.fs ∧ (readerOn env w f).2.trace = w.trace ∧
    (readerOn env w f).2.nextId = w.nextId := by
  unfold readerOn
  split
  · exact ⟨rfl, rfl, rfl⟩
  · split <;> exact ⟨rfl, rfl, rfl⟩

theorem mainTicks_same (env : Env) (ticks : Option Int) (s : State) (w : World) :
    (mainTicks env ticks s w).2.fs = w.fs ∧ (mainTicks env ticks s w).2.trace = w.trace ∧
    (mainTicks env ticks s w).2.nextId = w.nextId := by
  unfold mainTicks
  dsimp only
  split
  · split <;> exact ⟨rfl, rfl, rfl⟩
  · exact ⟨rfl, rfl, rfl⟩

/-- What is said about the whole program, for a part of it. -/
structure RunsF (instr track : Option Str) (x : Except PyErr Unit × FWorld D)
    (y : Except PyErr Unit × World) (w : FWorld D) : Prop extends Follows x y w where
  others : ∀ n, ¬ IsOutput instr track n → x.2.fs n = w.fs n
  order : ∀ i tr, instr = some i → i ≠ [] → i ≠ ['-'] → track = some tr → i ≠ tr →
    w.failed = false → x.2.fs tr ≠ w.fs tr → x.2.fs i = y.2.fs i

theorem RunsF.plain {instr track : Option Str} {w w' : FWorld D} {r : Except PyErr Unit}
    {y : Except PyErr Unit × World}
    (hy : y = (r, w'.toWorld)) (hf : w'.failed = w.failed) (h0 : w'.fs = w.fs)
    (h1 : w'.trace = w.trace) (h2 : w'.nextId = w.nextId) : RunsF instr track (r, w') y w :=
  ⟨.plain hy hf h1 h2, fun n _ => by rw [h0], fun _ tr _ _ _ _ _ _ h => absurd (by rw [h0]) h⟩

theorem RunsF.from {instr track : Option Str} {x : Except PyErr Unit × FWorld D}
    {y : Except PyErr Unit × World} {w w' : FWorld D} (h : RunsF instr track x y w')
    (hf : w'.failed = w.failed) (h0 : w'.fs = w.fs)
    (h1 : w'.trace = w.trace) (h2 : w'.nextId = w.nextId) : RunsF instr track x y w := by
  refine ⟨⟨h.agree, by rw [← hf]; exact h.raised, ?_⟩, ?_, ?_⟩
  · exact (Closes.same h1 h2).trans h.closes
  · rw [← h0]; exact h.others
  · rw [← h0, ← hf]; exact h.order

theorem mainBody_runs (b : Buffers) (env : Env) (instr track : Option Str) (ticks : Option Int)
    (f : Handle) (w : FWorld D) :
    RunsF instr track (mainBodyF b env instr track ticks f w)
      (mainBody env instr track ticks f w.toWorld) w := by
  unfold mainBodyF mainBody
  cases env.argsFile with
  | none => exact .plain rfl rfl rfl rfl rfl
  | some a =>
    dsimp only
    have hw : ∀ p, (FWorld.print w p).toWorld = w.toWorld.print p := fun _ => rfl
    rw [hw]
    have h1 := readerOn_same env (w.toWorld.print ("Opening file: ".toList ++ a ++ ['\n'])) f
    generalize readerOn env (w.toWorld.print ("Opening file: ".toList ++ a ++ ['\n'])) f = x
      at h1 ⊢
    obtain ⟨r, w1⟩ := x
    obtain ⟨g1, g2, g3⟩ := h1
    dsimp only at g1 g2 g3
    have e1 : w1.fs = w.fs := g1
    have e2 : w1.trace = w.trace := g2
    have e3 : w1.nextId = w.nextId := g3
    rcases r with e | _ | vgm
    · exact .plain rfl rfl e1 e2 e3
    · exact .plain rfl rfl e1 e2 e3
    · dsimp only
      cases fprocessVgm vgm.stream with
      | error e => exact .plain rfl rfl e1 e2 e3
      | ok s =>
        dsimp only
        have h2 := mainTicks_same env ticks s w1
        generalize mainTicks env ticks s w1 = x at h2 ⊢
        obtain ⟨r, w2⟩ := x
        obtain ⟨g1, g2, g3⟩ := h2
        dsimp only at g1 g2 g3
        cases r with
        | error e => exact .plain rfl rfl (g1.trans e1) (g2.trans e2) (g3.trans e3)
        | ok t =>
          dsimp only
          have h := outputs_follows b env instr track s t
            { w with toWorld := w2.print ("Ticks per Note: ".toList ++ intStr t ++ ['\n']) }
          exact RunsF.from ⟨h.1, h.2.1, h.2.2⟩ rfl (g1.trans e1) (g2.trans e2) (g3.trans e3)

theorem main_runs (b : Buffers) (env : Env) (vgm instr track : Option Str) (ticks : Option Int)
    (w : FWorld D) :
    RunsF instr track (mainF b env vgm instr track ticks w)
      (main env vgm instr track ticks w.toWorld) w := by
  unfold mainF main smartOpen
  by_cases hp : (nameTruthy vgm && vgm != some ['-']) = true
  · rw [if_pos hp, if_pos hp, openFile_rb]
    cases env.openErr (vgm.getD []) false with
    | some e => exact .plain rfl rfl rfl rfl rfl
    | none =>
      cases w.fs (vgm.getD []) with
      | none => exact .plain rfl rfl rfl rfl rfl
      | some c =>
        dsimp only
        generalize hW : (FWorld.mk _ _ _ : FWorld D) = W
        have h := mainBody_runs b env instr track ticks (.file w.nextId (vgm.getD [])) W
        have hW' : W.toWorld = { w.toWorld with
          trace := w.trace ++ [.opened w.nextId (vgm.getD []) ['r', 'b']]
          nextId := w.nextId + 1 } := by rw [← hW]
        have hWf : W.failed = w.failed := by rw [← hW]
        rw [← hW']
        have hfs : W.fs = w.fs := by rw [hW']
        generalize mainBodyF b env instr track ticks (.file w.nextId (vgm.getD [])) W = x at h ⊢
        generalize mainBody env instr track ticks (.file w.nextId (vgm.getD [])) W.toWorld = y
          at h ⊢
        obtain ⟨r, w1⟩ := x
        obtain ⟨r', w1'⟩ := y
        dsimp only
        rw [if_pos (by simp)]
        refine ⟨⟨fun hf => ?_, ?_, ?_⟩, ?_, ?_⟩
        · obtain ⟨a1, a2⟩ := h.agree hf
          dsimp only at a1 a2 ⊢
          rw [a1, a2]
          exact ⟨rfl, rfl⟩
        · rw [← hWf]; exact h.raised
        · obtain ⟨t, m, h1, h2, h3, h4⟩ := h.closes
          dsimp only at h1 h2 h3 h4
          rw [hW'] at h1 h3 h4
          refine ⟨.opened w.nextId (vgm.getD []) ['r', 'b'] :: t ++ [.closed w.nextId], m + 1, ?_,
            .wrap _ _ _ h2, openedIds_wrap _ _ _ _ _ h3, ?_⟩
          · simp [World.close, h1]
          · simp only [World.close, h4]; omega
        · rw [← hfs]; exact h.others
        · rw [← hfs, ← hWf]; exact h.order
  · rw [if_neg hp, if_neg hp, if_neg (by decide), if_pos (by decide)]
    have h := mainBody_runs b env instr track ticks .stdin w
    generalize mainBody env instr track ticks .stdin w.toWorld = y at h ⊢
    obtain ⟨r', w1'⟩ := y
    dsimp only
    rw [if_neg (by simp)]
    exact h

/-- C80. On a device whose writes fail when it likes, with buffers of any sizes: if no write has
failed, the program has done exactly what it does on a perfect device. If some write has failed,
it ends with an exception. -/
theorem c80_faults (b : Buffers) (env : Env) (vgm instr track : Option Str) (ticks : Option Int)
    (w : FWorld D) (hw : w.failed = false) :
    ((mainF b env vgm instr track ticks w).2.failed = false →
      ((mainF b env vgm instr track ticks w).1, (mainF b env vgm instr track ticks w).2.toWorld)
        = main env vgm instr track ticks w.toWorld) ∧
    ((mainF b env vgm instr track ticks w).2.failed = true →
      ∃ e, (mainF b env vgm instr track ticks w).1 = .error e) := by
  have h := main_runs b env vgm instr track ticks w
  constructor
  · intro hf
    obtain ⟨h1, h2⟩ := h.agree hf
    rw [h1, h2]
  · intro hf
    rcases h.raised with e | e
    · rw [hf, hw] at e; cases e
    · exact e.1

/-- C80. So a run that returns normally has written its files completely: they are, and
everything else is, as without failures. -/
theorem c80_success (b : Buffers) (env : Env) (vgm instr track : Option Str) (ticks : Option Int)
    (w : FWorld D) (hw : w.failed = false)
    (h : (mainF b env vgm instr track ticks w).1 = .ok ()) :
    (mainF b env vgm instr track ticks w).2.toWorld
      = (main env vgm instr track ticks w.toWorld).2 ∧
    (main env vgm instr track ticks w.toWorld).1 = .ok () := by
  obtain ⟨h1, h2⟩ := c80_faults b env vgm instr track ticks w hw
  cases hf : (mainF b env vgm instr track ticks w).2.failed with
  | true => obtain ⟨e, he⟩ := h2 hf; rw [h] at he; cases he
  | false =>
    have := h1 hf
    rw [← this]
    exact ⟨rfl, h⟩

/-- C80. Whatever fails, only the output files can be different: the input and all other files are
as they were. -/
theorem c80_others (b : Buffers) (env : Env) (vgm instr track : Option Str) (ticks : Option Int)
    (w : FWorld D) (n : Str) (hn : ¬ IsOutput instr track n) :
    (mainF b env vgm instr track ticks w).2.fs n = w.fs n :=
  (main_runs b env vgm instr track ticks w).others n hn

/-- C80. The song file is not touched unless the instruments have been written completely. -/
theorem c80_order (b : Buffers) (env : Env) (vgm : Option Str) (ticks : Option Int)
    (w : FWorld D) (hw : w.failed = false) (i tr : Str) (hi : i ≠ [] ∧ i ≠ ['-']) (hne : i ≠ tr)
    (h : (mainF b env vgm (some i) (some tr) ticks w).2.fs tr ≠ w.fs tr) :
    (mainF b env vgm (some i) (some tr) ticks w).2.fs i
      = (main env vgm (some i) (some tr) ticks w.toWorld).2.fs i :=
  (main_runs b env vgm (some i) (some tr) ticks w).order i tr rfl hi.1 hi.2 rfl hne hw h

theorem nested_perm {t : List Action} (h : Nested t) : (closedIds t).Perm (openedIds t) := by
  induction h with
  | nil => exact List.Perm.refl _
  | wrap id name mode _ ih =>
    unfold openedIds closedIds at *
    simp only [List.filterMap_append, List.filterMap_cons, List.filterMap_nil, List.append_nil]
    exact (List.perm_append_singleton _ _).trans (List.Perm.cons _ ih)
  | append _ _ ih1 ih2 =>
    unfold openedIds closedIds at *
    simp only [List.filterMap_append]
    exact List.Perm.append ih1 ih2

/-- C80. Whatever fails, every file opened has been closed, once and in the opposite order, and no
other file. -/
theorem c80_closed (b : Buffers) (env : Env) (vgm instr track : Option Str) (ticks : Option Int)
    (w : FWorld D) :
    ∃ t, (mainF b env vgm instr track ticks w).2.trace = w.trace ++ t ∧ Nested t ∧
      (openedIds t).Nodup ∧ (closedIds t).Perm (openedIds t) := by
  obtain ⟨t, m, h1, h2, h3, _⟩ := (main_runs b env vgm instr track ticks w).closes
  exact ⟨t, h1, h2, by rw [h3]; exact List.nodup_range', nested_perm h2⟩

end VgmX
