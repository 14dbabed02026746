import Verif.Spec.Threads
import Verif.Props.Header
import Verif.Props.Process
/-
C116: threads of one process that read files of their own.
-/

namespace VgmX
open Spec

/-! ### What a thread will come to -/

/-- The loop from here. -/
def goOn (v : Vgm) (f : Stream) (s : State) : Except PyErr (Vgm × State) :=
  match (processStream (f.data.length - f.pos + 1) f s).getD (.error .dangling) with
  | .error e => .error e
  | .ok s => .ok (v, s)

/-- From `if self.version >= 150`. -/
def restResult (f : Stream) (eof ver : Nat) : Except PyErr (Vgm × State) :=
  if 150 ≤ ver then
    match read32 f with
    | (.error e, _) => .error e
    | (.ok off, f) =>
      goOn ⟨f.seek (0x34 + off), eof, ver, 0x34 + off⟩ (f.seek (0x34 + off)) State.init
  else goOn ⟨f.seek 0x40, eof, ver, 0x40⟩ (f.seek 0x40) State.init

/-- From `self.file.seek(0x30)`. -/
def seekResult (f : Stream) (eof ver : Nat) : Except PyErr (Vgm × State) :=
  match read32 (f.seek 0x30) with
  | (.error e, _) => .error e
  | (.ok _, f) => restResult f eof ver

/-- From the beginning of `__init__`. -/
def headerResult (f : Stream) : Except PyErr (Vgm × State) :=
  match read32 f with
  | (.error e, _) => .error e
  | (.ok eof, f) =>
  match readBcd f with
  | (.error e, _) => .error e
  | (.ok ver, f) =>
  match read32 f with
  | (.error e, _) => .error e
  | (.ok _, f) =>
  match read32 f with
  | (.error e, _) => .error e
  | (.ok _, f) => seekResult f eof ver

def enterResult (header : Bytes) (f : Stream) : Except PyErr (Vgm × State) :=
  if header ≠ [0x56, 0x67, 0x6d, 0x20] then .error .type else headerResult f

/-- What the thread will come to. -/
def Thread.result (gunzip : Bytes → Except PyErr Bytes) : Thread → Except PyErr (Vgm × State)
  | .begin content =>
    if ((Stream.mk content 0).read 4).1.take 2 = [0x1f, 0x8b] then
      match gunzip content with
      | .error e => .error e
      | .ok plain => enterResult ((Stream.mk plain 0).read 4).1 ((Stream.mk plain 0).read 4).2
    else enterResult ((Stream.mk content 0).read 4).1 ((Stream.mk content 0).read 4).2
  | .header f => headerResult f
  | .put2413 f eof ver _ => seekResult f eof ver
  | .seek2151 f eof ver => seekResult f eof ver
  | .put2151 f eof ver _ => restResult f eof ver
  | .old f eof ver => restResult f eof ver
  | .copy f eof ver _ => restResult f eof ver
  | .rest f eof ver => restResult f eof ver
  | .loop v f s => goOn v f s
  | .finished v s => .ok (v, s)
  | .raised e => .error e

theorem enter_result (gunzip : Bytes → Except PyErr Bytes) (h : Bytes) (f : Stream) :
    (Thread.enter h f).result gunzip = enterResult h f := by
  unfold Thread.enter enterResult
  split <;> rfl

theorem goOn_next {v : Vgm} {f f' : Stream} {s : State} {c : Cmd}
    (h : next f = (some (.ok c), f')) :
    goOn v f s = match s.process1 c with
      | .error e => .error e
      | .ok s' => goOn v f' s' := by
  obtain ⟨p1, p2, p3⟩ := c01_progress _ _ _ h
  unfold goOn
  rw [processStream, h]
  dsimp only
  cases hp : s.process1 c with
  | error e => rfl
  | ok s' =>
    dsimp only
    obtain ⟨cs, o, hr, _⟩ := c01_terminates f'
    rw [processStream_runs hr _ (by rw [p2]; omega), processStream_runs hr _ (by omega)]

/-- A step does not change what a thread will come to, whatever is in the dictionary. -/
theorem Thread.step_result (gunzip : Bytes → Except PyErr Bytes) (k : Clocks) (t : Thread)
    (hk : ∀ f eof ver, t = .old f eof ver → k "ym2413" ≠ none) :
    (t.step gunzip k).1.result gunzip = t.result gunzip := by
  cases t with
  | «begin» c =>
    simp only [Thread.step, Thread.result]
    by_cases hz : ((Stream.mk c 0).read 4).1.take 2 = [0x1f, 0x8b]
    · rw [if_pos hz, if_pos hz]
      cases gunzip c with
      | error e => rfl
      | ok p => exact enter_result _ _ _
    · rw [if_neg hz, if_neg hz]
      exact enter_result _ _ _
  | header f =>
    simp only [Thread.step, Thread.result, headerResult]
    cases h1 : read32 f with | mk r1 f1 =>
    cases r1 with
    | error e => rfl
    | ok eof =>
    dsimp only
    cases h2 : readBcd f1 with | mk r2 f2 =>
    cases r2 with
    | error e => rfl
    | ok ver =>
    dsimp only
    cases h3 : read32 f2 with | mk r3 f3 =>
    cases r3 with
    | error e => rfl
    | ok x3 =>
    dsimp only
    cases h4 : read32 f3 with | mk r4 f4 =>
    cases r4 with
    | error e => rfl
    | ok x4 => rfl
  | put2413 f eof ver v => rfl
  | seek2151 f eof ver =>
    simp only [Thread.step, Thread.result, seekResult]
    cases h1 : read32 (f.seek 0x30) with | mk r1 f1 =>
    cases r1 <;> rfl
  | put2151 f eof ver v => rfl
  | old f eof ver =>
    simp only [Thread.step, Thread.result]
    by_cases hv : ver < 110
    · rw [if_pos hv]
      cases hc : k "ym2413" with
      | none => exact absurd hc (hk f eof ver rfl)
      | some v => rfl
    · rw [if_neg hv]
  | copy f eof ver v => rfl
  | rest f eof ver =>
    simp only [Thread.step, Thread.result, restResult]
    by_cases hv : 150 ≤ ver
    · rw [if_pos hv, if_pos hv]
      cases h1 : read32 f with | mk r1 f1 =>
      cases r1 <;> rfl
    · rw [if_neg hv, if_neg hv]
  | loop v f s =>
    unfold Thread.step
    simp only [Thread.result]
    cases hn : next f with
    | mk r f' =>
      cases r with
      | none =>
        unfold goOn
        rw [processStream, hn]
        rfl
      | some r =>
        cases r with
        | error e =>
          unfold goOn
          rw [processStream, hn]
          rfl
        | ok c =>
          rw [goOn_next hn]
          dsimp only
          cases s.process1 c with
          | error e => rfl
          | ok s' => rfl
  | finished v s => rfl
  | raised e => rfl

/-- What a thread that has not begun will come to is what comes of the file alone. -/
theorem begin_result (gunzip : Bytes → Except PyErr Bytes) (k : Clocks) (c : Bytes) :
    (Thread.begin c).result gunzip = aloneResult gunzip k c := by
  have hproc : ∀ (v : Vgm), goOn v v.stream State.init =
      match processVgm v.stream with
      | .error e => .error e
      | .ok s => .ok (v, s) := fun v => rfl
  have hinit : ∀ f : Stream, headerResult f =
      match (Vgm.init k f).1 with
      | .error e => .error e
      | .ok v =>
        match processVgm v.stream with
        | .error e => .error e
        | .ok s => .ok (v, s) := by
    intro f
    unfold headerResult Vgm.init
    cases h1 : read32 f with | mk r1 f1 =>
    cases r1 with
    | error e => rfl
    | ok eof =>
    dsimp only
    cases h2 : readBcd f1 with | mk r2 f2 =>
    cases r2 with
    | error e => rfl
    | ok ver =>
    dsimp only
    cases h3 : read32 f2 with | mk r3 f3 =>
    cases r3 with
    | error e => rfl
    | ok x3 =>
    dsimp only
    cases h4 : read32 f3 with | mk r4 f4 =>
    cases r4 with
    | error e => rfl
    | ok x4 =>
    dsimp only
    unfold seekResult
    cases h5 : read32 (f4.seek 0x30) with | mk r5 f5 =>
    cases r5 with
    | error e => rfl
    | ok x5 =>
    dsimp only
    unfold restResult
    by_cases hv : 150 ≤ ver
    · rw [if_pos hv, if_pos hv]
      cases h6 : read32 f5 with | mk r6 f6 =>
      cases r6 with
      | error e => rfl
      | ok x6 => rfl
    · rw [if_neg hv, if_neg hv]
      rfl
  have henter : ∀ (h : Bytes) (f : Stream), enterResult h f =
      match (if h ≠ [0x56, 0x67, 0x6d, 0x20] then ((.ok none, k) : Except PyErr (Option Vgm) × Clocks)
        else match Vgm.init k f with
          | (.error e, c) => (.error e, c)
          | (.ok v, c) => (.ok (some v), c)).1 with
      | .error e => .error e
      | .ok none => .error .type
      | .ok (some v) =>
        match processVgm v.stream with
        | .error e => .error e
        | .ok s => .ok (v, s) := by
    intro h f
    unfold enterResult
    split
    · rfl
    · rw [hinit]
      cases hi : Vgm.init k f with | mk r k' =>
      cases r <;> rfl
  unfold aloneResult reader Thread.result
  dsimp only
  split
  · cases hg : gunzip c with
    | error e => rfl
    | ok p => exact henter _ _
  · exact henter _ _

/-! ### What is in the dictionary -/

section
variable (gunzip : Bytes → Except PyErr Bytes) (files : List Bytes)

/-- A YM2413 clock of one of the files. -/
def Clock2413 (n : Nat) : Prop := ∃ p, InFiles gunzip files p ∧ n = word p 0x10

/-- What can be found as the YM2151 clock: the word at 0x30 of a file, or, if one of them is older
than 1.10, the word at 0x10 of a file. -/
def Clock2151 (n : Nat) : Prop :=
  (∃ p, InFiles gunzip files p ∧ n = word p 0x30) ∨
  ((∃ q, InFiles gunzip files q ∧ version q < 110) ∧ Clock2413 gunzip files n)

/-- The thread works on one of the files. -/
def Thread.Stems : Thread → Prop
  | .begin c => c ∈ files
  | .header f => ∃ p, InFiles gunzip files p ∧ f = ⟨p, 4⟩
  | .put2413 f _ ver v =>
    ∃ p, InFiles gunzip files p ∧ f.data = p ∧ ver = version p ∧ v = word p 0x10
  | .seek2151 f _ ver => ∃ p, InFiles gunzip files p ∧ f.data = p ∧ ver = version p
  | .put2151 _ _ ver v => ∃ p, InFiles gunzip files p ∧ ver = version p ∧ v = word p 0x30
  | .old _ _ ver => ∃ p, InFiles gunzip files p ∧ ver = version p
  | .copy _ _ _ v => (∃ q, InFiles gunzip files q ∧ version q < 110) ∧ Clock2413 gunzip files v
  | _ => True

/-- The thread has assigned `clocks["ym2413"]`. -/
def Thread.past2413 : Thread → Bool
  | .seek2151 .. | .put2151 .. | .old .. | .copy .. | .rest .. | .loop .. | .finished .. => true
  | _ => false

/-- The thread has assigned `clocks["ym2151"]`. -/
def Thread.past2151 : Thread → Bool
  | .old .. | .copy .. | .rest .. | .loop .. | .finished .. => true
  | _ => false

/-- The dictionary has a YM2413 clock of one of the files. -/
def Good2413 (k : Clocks) : Prop := ∃ n, k "ym2413" = some n ∧ Clock2413 gunzip files n

def Good2151 (k : Clocks) : Prop := ∃ n, k "ym2151" = some n ∧ Clock2151 gunzip files n

theorem read32_cases (c : Bytes) (p : Nat) :
    (∃ e f, read32 ⟨c, p⟩ = (.error e, f)) ∨ read32 ⟨c, p⟩ = (.ok (word c p), ⟨c, p + 4⟩) := by
  by_cases h : p + 4 ≤ c.length
  · exact .inr (read32_at c p h)
  · left
    have := read32_short c p (by omega)
    cases hx : read32 ⟨c, p⟩ with
    | mk a b => rw [hx] at this; exact ⟨.eof, b, by rw [show a = .error .eof from this]⟩

theorem readBcd_cases (c : Bytes) :
    (∃ e f, readBcd ⟨c, 8⟩ = (.error e, f)) ∨ readBcd ⟨c, 8⟩ = (.ok (version c), ⟨c, 12⟩) := by
  by_cases h : 12 ≤ c.length
  · exact .inr (readBcd_at c h)
  · left
    have := readBcd_short c (by omega)
    cases hx : readBcd ⟨c, 8⟩ with
    | mk a b => rw [hx] at this; exact ⟨.eof, b, by rw [show a = .error .eof from this]⟩

theorem enter_stems {p : Bytes} (h : p.take 4 = vgmMagic → InFiles gunzip files p) :
    (Thread.enter ((Stream.mk p 0).read 4).1 ((Stream.mk p 0).read 4).2).Stems gunzip files ∧
    (Thread.enter ((Stream.mk p 0).read 4).1 ((Stream.mk p 0).read 4).2).past2413 = false ∧
    (Thread.enter ((Stream.mk p 0).read 4).1 ((Stream.mk p 0).read 4).2).past2151 = false := by
  unfold Thread.enter
  have h4 : ((Stream.mk p 0).read 4).1 = p.take 4 := by simp [Stream.read]
  rw [h4]
  by_cases hm : p.take 4 = vgmMagic
  · rw [if_neg (by intro hn; exact hn hm)]
    refine ⟨⟨p, h hm, ?_⟩, rfl, rfl⟩
    have hlen : 4 ≤ p.length := by
      have := congrArg List.length hm
      simp [vgmMagic] at this
      omega
    rw [read_full _ 4 (by simp only; omega)]
  · rw [if_pos (show p.take 4 ≠ [86, 103, 109, 32] from hm)]
    exact ⟨trivial, rfl, rfl⟩

/-- What a step of one thread means for the dictionary. -/
structure StepFacts (k k' : Clocks) (t' : Thread) : Prop where
  stems : t'.Stems gunzip files
  first : k' "ym2413" = k "ym2413" ∨ Good2413 gunzip files k'
  second : k' "ym2151" = k "ym2151" ∨ Good2151 gunzip files k'
  after1 : t'.past2413 = true → Good2413 gunzip files k'
  after2 : t'.past2151 = true → Good2151 gunzip files k'
  others : ∀ x, x ≠ "ym2413" → x ≠ "ym2151" → k' x = k x

theorem Thread.step_facts (k : Clocks) (t : Thread) (ht : t.Stems gunzip files)
    (h1 : t.past2413 = true → Good2413 gunzip files k)
    (h2 : t.past2151 = true → Good2151 gunzip files k) :
    StepFacts gunzip files k (t.step gunzip k).2 (t.step gunzip k).1 := by
  -- a step that leaves the dictionary alone
  have same : ∀ t' : Thread, t'.Stems gunzip files → (t'.past2413 = true → t.past2413 = true) →
      (t'.past2151 = true → t.past2151 = true) → StepFacts gunzip files k k t' :=
    fun t' h a b => ⟨h, .inl rfl, .inl rfl, fun x => h1 (a x), fun x => h2 (b x), fun _ _ _ => rfl⟩
  have stop : ∀ e, StepFacts gunzip files k k (.raised e) :=
    fun e => same _ trivial (fun h => by cases h) (fun h => by cases h)
  cases t with
  | «begin» c =>
    have hc : c ∈ files := ht
    have h4 : ((Stream.mk c 0).read 4).1.take 2 = c.take 2 := by simp [Stream.read, List.take_take]
    simp only [Thread.step]
    rw [h4]
    by_cases hz : c.take 2 = [0x1f, 0x8b]
    · rw [if_pos hz]
      cases hg : gunzip c with
      | error e => exact stop e
      | ok p =>
        obtain ⟨a, b, d⟩ := enter_stems gunzip files (p := p)
          (fun hm => ⟨hm, c, hc, .inr ⟨hz, hg⟩⟩)
        exact same _ a (fun h => by rw [b] at h; cases h) (fun h => by rw [d] at h; cases h)
    · rw [if_neg hz]
      obtain ⟨a, b, d⟩ := enter_stems gunzip files (p := c) (fun hm => ⟨hm, c, hc, .inl ⟨hz, rfl⟩⟩)
      exact same _ a (fun h => by rw [b] at h; cases h) (fun h => by rw [d] at h; cases h)
  | header f =>
    obtain ⟨p, hp, rfl⟩ := ht
    simp only [Thread.step]
    rcases read32_cases p 4 with ⟨e, g, h⟩ | h
    · rw [h]; exact stop e
    rw [h]; dsimp only
    rcases readBcd_cases p with ⟨e, g, h⟩ | h
    · rw [h]; exact stop e
    rw [h]; dsimp only
    rcases read32_cases p 12 with ⟨e, g, h⟩ | h
    · rw [h]; exact stop e
    rw [h]; dsimp only
    rcases read32_cases p 16 with ⟨e, g, h⟩ | h
    · rw [h]; exact stop e
    rw [h]; dsimp only
    exact same _ ⟨p, hp, rfl, rfl, rfl⟩ (fun h => by cases h) (fun h => by cases h)
  | put2413 f eof ver v =>
    obtain ⟨p, hp, hf, hver, hv⟩ := ht
    have hg : Good2413 gunzip files (k.set "ym2413" v) :=
      ⟨v, by simp [Clocks.set], p, hp, hv⟩
    refine ⟨⟨p, hp, hf, hver⟩, .inr hg, .inl ?_, fun _ => hg, fun h => (by cases h), ?_⟩
    · show Clocks.set k "ym2413" v "ym2151" = _
      simp [Clocks.set]
    · intro x hx _
      show Clocks.set k "ym2413" v x = _
      simp [Clocks.set, hx]
  | seek2151 f eof ver =>
    obtain ⟨p, hp, hf, hver⟩ := ht
    obtain ⟨d, pos⟩ := f
    dsimp only at hf
    subst hf
    simp only [Thread.step, Stream.seek]
    rcases read32_cases d 0x30 with ⟨e, g, h⟩ | h
    · rw [h]; exact stop e
    rw [h]; dsimp only
    exact same _ ⟨d, hp, hver, rfl⟩ (fun _ => rfl) (fun h => by cases h)
  | put2151 f eof ver v =>
    obtain ⟨p, hp, hver, hv⟩ := ht
    have hg : Good2151 gunzip files (k.set "ym2151" v) :=
      ⟨v, by simp [Clocks.set], .inl ⟨p, hp, hv⟩⟩
    have he : (k.set "ym2151" v) "ym2413" = k "ym2413" := by simp [Clocks.set]
    refine ⟨⟨p, hp, hver⟩, .inl he, .inr hg, fun _ => ?_, fun _ => hg, ?_⟩
    · obtain ⟨n, hn, hc⟩ := h1 rfl
      exact ⟨n, he.trans hn, hc⟩
    · intro x _ hx
      show Clocks.set k "ym2151" v x = _
      simp [Clocks.set, hx]
  | old f eof ver =>
    obtain ⟨p, hp, hver⟩ := ht
    simp only [Thread.step]
    by_cases hv : ver < 110
    · rw [if_pos hv]
      obtain ⟨n, hn, hc⟩ := h1 rfl
      rw [hn]
      exact same _ ⟨⟨p, hp, hver ▸ hv⟩, hc⟩ (fun _ => rfl) (fun _ => rfl)
    · rw [if_neg hv]
      exact same _ trivial (fun _ => rfl) (fun _ => rfl)
  | copy f eof ver v =>
    obtain ⟨hq, hc⟩ := ht
    have hg : Good2151 gunzip files (k.set "ym2151" v) :=
      ⟨v, by simp [Clocks.set], .inr ⟨hq, hc⟩⟩
    have he : (k.set "ym2151" v) "ym2413" = k "ym2413" := by simp [Clocks.set]
    refine ⟨trivial, .inl he, .inr hg, fun _ => ?_, fun _ => hg, ?_⟩
    · obtain ⟨n, hn, hc⟩ := h1 rfl
      exact ⟨n, he.trans hn, hc⟩
    · intro x _ hx
      show Clocks.set k "ym2151" v x = _
      simp [Clocks.set, hx]
  | rest f eof ver =>
    simp only [Thread.step]
    by_cases hv : 150 ≤ ver
    · rw [if_pos hv]
      cases h1' : read32 f with | mk r g =>
      cases r with
      | error e => exact stop e
      | ok off => exact same _ trivial (fun _ => rfl) (fun _ => rfl)
    · rw [if_neg hv]
      exact same _ trivial (fun _ => rfl) (fun _ => rfl)
  | loop v f s =>
    simp only [Thread.step]
    cases hn : next f with | mk r g =>
    cases r with
    | none => exact same _ trivial (fun _ => rfl) (fun _ => rfl)
    | some r =>
      cases r with
      | error e => exact stop e
      | ok c =>
        dsimp only
        cases s.process1 c with
        | error e => exact stop e
        | ok s' => exact same _ trivial (fun _ => rfl) (fun _ => rfl)
  | finished v s => exact same _ trivial (fun _ => rfl) (fun _ => rfl)
  | raised e => exact stop e

/-! ### All threads together -/

/-- What holds at any time. -/
structure Crew.Inv (k0 : Clocks) (w : Crew) : Prop where
  stems : ∀ t ∈ w.threads, t.Stems gunzip files
  first : w.clocks "ym2413" = k0 "ym2413" ∨ Good2413 gunzip files w.clocks
  second : w.clocks "ym2151" = k0 "ym2151" ∨ Good2151 gunzip files w.clocks
  after1 : ∀ t ∈ w.threads, t.past2413 = true → Good2413 gunzip files w.clocks
  after2 : ∀ t ∈ w.threads, t.past2151 = true → Good2151 gunzip files w.clocks
  others : ∀ x, x ≠ "ym2413" → x ≠ "ym2151" → w.clocks x = k0 x
  results : w.threads.map (·.result gunzip) = files.map (fun c => (Thread.begin c).result gunzip)

theorem Good2413.of_eq {k k' : Clocks} (h : Good2413 gunzip files k) (e : k' "ym2413" = k "ym2413") :
    Good2413 gunzip files k' := by
  obtain ⟨n, hn, hc⟩ := h
  exact ⟨n, e.trans hn, hc⟩

theorem Good2151.of_eq {k k' : Clocks} (h : Good2151 gunzip files k) (e : k' "ym2151" = k "ym2151") :
    Good2151 gunzip files k' := by
  obtain ⟨n, hn, hc⟩ := h
  exact ⟨n, e.trans hn, hc⟩

theorem Crew.inv_start (k0 : Clocks) : (Crew.start k0 files).Inv gunzip files k0 := by
  have hb : ∀ t ∈ (Crew.start k0 files).threads, ∃ c ∈ files, t = .begin c := by
    intro t ht
    obtain ⟨c, hc, rfl⟩ := List.mem_map.mp ht
    exact ⟨c, hc, rfl⟩
  refine ⟨?_, .inl rfl, .inl rfl, ?_, ?_, fun _ _ _ => rfl, ?_⟩
  · intro t ht; obtain ⟨c, hc, rfl⟩ := hb t ht; exact hc
  · intro t ht h; obtain ⟨c, hc, rfl⟩ := hb t ht; cases h
  · intro t ht h; obtain ⟨c, hc, rfl⟩ := hb t ht; cases h
  · show (files.map Thread.begin).map _ = _
    rw [List.map_map]; rfl

theorem Crew.Inv.step {k0 : Clocks} {w : Crew} (h : w.Inv gunzip files k0) (i : Nat) :
    (w.step gunzip i).Inv gunzip files k0 := by
  unfold Crew.step
  cases ht : w.threads[i]? with
  | none => exact h
  | some t =>
    dsimp only
    have hm := List.mem_of_getElem? ht
    have f := t.step_facts gunzip files w.clocks (h.stems t hm) (h.after1 t hm) (h.after2 t hm)
    have keep1 : Good2413 gunzip files w.clocks →
        Good2413 gunzip files (t.step gunzip w.clocks).2 := fun g =>
      f.first.elim (fun e => g.of_eq gunzip files e) id
    have keep2 : Good2151 gunzip files w.clocks →
        Good2151 gunzip files (t.step gunzip w.clocks).2 := fun g =>
      f.second.elim (fun e => g.of_eq gunzip files e) id
    refine ⟨?_, ?_, ?_, ?_, ?_, ?_, ?_⟩
    · intro u hu
      rcases List.mem_or_eq_of_mem_set hu with hu | rfl
      · exact h.stems u hu
      · exact f.stems
    · rcases f.first with e | g
      · rcases h.first with e' | g'
        · exact .inl (e.trans e')
        · exact .inr (keep1 g')
      · exact .inr g
    · rcases f.second with e | g
      · rcases h.second with e' | g'
        · exact .inl (e.trans e')
        · exact .inr (keep2 g')
      · exact .inr g
    · intro u hu hp
      rcases List.mem_or_eq_of_mem_set hu with hu | rfl
      · exact keep1 (h.after1 u hu hp)
      · exact f.after1 hp
    · intro u hu hp
      rcases List.mem_or_eq_of_mem_set hu with hu | rfl
      · exact keep2 (h.after2 u hu hp)
      · exact f.after2 hp
    · intro x hx hy
      exact (f.others x hx hy).trans (h.others x hx hy)
    · show (w.threads.set i _).map _ = _
      rw [← h.results, List.map_set, Thread.step_result gunzip w.clocks t (by
        intro f eof ver e hn
        subst e
        obtain ⟨n, hn', _⟩ := h.after1 _ hm rfl
        rw [hn] at hn'
        cases hn')]
      apply List.ext_getElem?
      intro j
      by_cases hj : i = j
      · subst hj
        have hlt := (List.getElem?_eq_some_iff.mp ht).1
        rw [List.getElem?_set_self (by simpa using hlt), List.getElem?_map, ht]
        rfl
      · rw [List.getElem?_set_ne hj]

theorem Crew.Inv.run {k0 : Clocks} : ∀ (is : List Nat) {w : Crew}, w.Inv gunzip files k0 →
    (w.run gunzip is).Inv gunzip files k0
  | [], _, h => h
  | i :: is, _, h => Crew.Inv.run is (h.step gunzip files i)

/-! ### Every thread comes to its end -/

/-- How many steps a thread has at most. -/
def Thread.left : Thread → Nat
  | .begin c =>
    match gunzip c with
    | .error _ => c.length + 10
    | .ok p => max c.length p.length + 10
  | .header f => f.data.length + 9
  | .put2413 f _ _ _ => f.data.length + 8
  | .seek2151 f _ _ => f.data.length + 7
  | .put2151 f _ _ _ => f.data.length + 6
  | .old f _ _ => f.data.length + 5
  | .copy f _ _ _ => f.data.length + 4
  | .rest f _ _ => f.data.length + 3
  | .loop _ f _ => f.data.length - f.pos + 1
  | .finished _ _ => 0
  | .raised _ => 0

theorem read32_data (f : Stream) : (read32 f).2.data = f.data := by
  unfold read32
  dsimp only
  split <;> rfl

theorem readBcd_data (f : Stream) : (readBcd f).2.data = f.data := by
  unfold readBcd
  dsimp only
  split <;> rfl

theorem enter_left (h : Bytes) (f : Stream) :
    (Thread.enter h f).left gunzip ≤ f.data.length + 9 := by
  unfold Thread.enter
  split
  · exact Nat.zero_le _
  · exact Nat.le_refl _

theorem Thread.step_left (k : Clocks) (t : Thread) :
    (t.step gunzip k).1.left gunzip ≤ t.left gunzip - 1 := by
  have hread : ∀ f : Stream, ((f.read 4).2).data = f.data := fun _ => rfl
  cases t with
  | «begin» c =>
    simp only [Thread.step]
    by_cases hz : ((Stream.mk c 0).read 4).1.take 2 = [0x1f, 0x8b]
    · rw [if_pos hz]
      unfold Thread.left
      dsimp only
      cases hg : gunzip c with
      | error e => exact Nat.zero_le _
      | ok p =>
        dsimp only
        have := enter_left gunzip ((Stream.mk p 0).read 4).1 ((Stream.mk p 0).read 4).2
        have h2 : (((Stream.mk p 0).read 4).2).data.length = p.length := rfl
        rw [h2] at this
        exact Nat.le_trans this (by omega)
    · rw [if_neg hz]
      have this : _ ≤ c.length + 9 :=
        enter_left gunzip ((Stream.mk c 0).read 4).1 ((Stream.mk c 0).read 4).2
      refine Nat.le_trans this ?_
      unfold Thread.left
      dsimp only
      cases hg : gunzip c with
      | error e => exact Nat.le_refl _
      | ok p =>
        dsimp only
        exact Nat.le_sub_of_add_le (Nat.add_le_add_right (Nat.le_max_left c.length p.length) 10)
  | header f =>
    simp only [Thread.step]
    have d1 := read32_data f
    cases h1 : read32 f with | mk r1 f1 =>
    rw [h1] at d1
    cases r1 with
    | error e => exact Nat.zero_le _
    | ok eof =>
    dsimp only at d1 ⊢
    have d2 := readBcd_data f1
    cases h2 : readBcd f1 with | mk r2 f2 =>
    rw [h2] at d2
    cases r2 with
    | error e => exact Nat.zero_le _
    | ok ver =>
    dsimp only at d2 ⊢
    have d3 := read32_data f2
    cases h3 : read32 f2 with | mk r3 f3 =>
    rw [h3] at d3
    cases r3 with
    | error e => exact Nat.zero_le _
    | ok x3 =>
    dsimp only at d3 ⊢
    have d4 := read32_data f3
    cases h4 : read32 f3 with | mk r4 f4 =>
    rw [h4] at d4
    cases r4 with
    | error e => exact Nat.zero_le _
    | ok x4 =>
    dsimp only at d4 ⊢
    simp only [Thread.left, d4, d3, d2, d1]
    omega
  | put2413 f eof ver v => simp only [Thread.step, Thread.left]; omega
  | seek2151 f eof ver =>
    simp only [Thread.step]
    have d1 := read32_data (f.seek 0x30)
    cases h1 : read32 (f.seek 0x30) with | mk r1 f1 =>
    rw [h1] at d1
    cases r1 with
    | error e => exact Nat.zero_le _
    | ok v =>
      dsimp only at d1 ⊢
      simp only [Thread.left, d1, Stream.seek]
      omega
  | put2151 f eof ver v => simp only [Thread.step, Thread.left]; omega
  | old f eof ver =>
    simp only [Thread.step]
    by_cases hv : ver < 110
    · rw [if_pos hv]
      cases k "ym2413" with
      | none => exact Nat.zero_le _
      | some v => simp only [Thread.left]; omega
    · rw [if_neg hv]; simp only [Thread.left]; omega
  | copy f eof ver v => simp only [Thread.step, Thread.left]; omega
  | rest f eof ver =>
    simp only [Thread.step]
    by_cases hv : 150 ≤ ver
    · rw [if_pos hv]
      have d1 := read32_data f
      cases h1 : read32 f with | mk r1 f1 =>
      rw [h1] at d1
      cases r1 with
      | error e => exact Nat.zero_le _
      | ok off =>
        dsimp only at d1 ⊢
        simp only [Thread.left, Stream.seek, d1]
        omega
    · rw [if_neg hv]
      simp only [Thread.left, Stream.seek]
      omega
  | loop v f s =>
    simp only [Thread.step]
    cases hn : next f with | mk r g =>
    cases r with
    | none => exact Nat.zero_le _
    | some r =>
      cases r with
      | error e => exact Nat.zero_le _
      | ok c =>
        dsimp only
        cases s.process1 c with
        | error e => exact Nat.zero_le _
        | ok s' =>
          obtain ⟨p1, p2, p3⟩ := c01_progress _ _ _ hn
          simp only [Thread.left, p2]
          omega
  | finished v s => exact Nat.zero_le _
  | raised e => exact Nat.zero_le _

theorem ended_of_left {t : Thread} (h : t.left gunzip = 0) : ∃ r, ended t = some r := by
  cases t with
  | «begin» c =>
    exfalso
    unfold Thread.left at h
    dsimp only at h
    split at h <;> omega
  | finished v s => exact ⟨_, rfl⟩
  | raised e => exact ⟨_, rfl⟩
  | _ => simp [Thread.left] at h

theorem Crew.run_left (i : Nat) : ∀ (is : List Nat) (w : Crew) (t : Thread), w.threads[i]? = some t →
    ∃ t', (w.run gunzip is).threads[i]? = some t' ∧ t'.left gunzip ≤ t.left gunzip - is.count i
  | [], _, t, h => ⟨t, h, by simp⟩
  | j :: is, w, t, h => by
    by_cases hj : j = i
    · subst hj
      have hlt := (List.getElem?_eq_some_iff.mp h).1
      have hs : (w.step gunzip j).threads[j]? = some (t.step gunzip w.clocks).1 := by
        unfold Crew.step
        rw [h]
        dsimp only
        rw [List.getElem?_set_self hlt]
      obtain ⟨t', h1, h2⟩ := Crew.run_left j is _ _ hs
      have := t.step_left gunzip w.clocks
      refine ⟨t', h1, ?_⟩
      rw [List.count_cons_self]
      omega
    · have hs : (w.step gunzip j).threads[i]? = some t := by
        unfold Crew.step
        cases hw : w.threads[j]? with
        | none => exact h
        | some u =>
          dsimp only
          rw [List.getElem?_set_ne hj]
          exact h
      obtain ⟨t', h1, h2⟩ := Crew.run_left i is _ _ hs
      refine ⟨t', h1, ?_⟩
      rw [List.count_cons_of_ne hj]
      exact h2

end

/-! ### C116 -/

/-- C116. However the threads take turns, and whatever was in the dictionary before: a thread that has
come to its end has got from its file what it would have got without the others - the same reader,
the same state, or the same exception. -/
theorem c116_alone (gunzip : Bytes → Except PyErr Bytes) (k k' : Clocks) (files : List Bytes)
    (schedule : List Nat) (i : Nat) (c : Bytes) (hc : files[i]? = some c) (t : Thread)
    (ht : ((Crew.start k files).run gunzip schedule).threads[i]? = some t)
    (r : Except PyErr (Vgm × State)) (hr : ended t = some r) : r = aloneResult gunzip k' c := by
  have h := ((Crew.inv_start gunzip files k).run gunzip files schedule).results
  have := congrArg (·[i]?) h
  simp only [List.getElem?_map, ht, hc, Option.map_some, Option.some.injEq] at this
  rw [← begin_result gunzip k' c, ← this]
  cases t with
  | finished v s => cases hr; rfl
  | raised e => cases hr; rfl
  | _ => cases hr

/-- C116. And it does come to its end: after as many steps of its own as its file tells, whatever the
others do; no thread ever waits for another. -/
theorem c116_progress (gunzip : Bytes → Except PyErr Bytes) (c : Bytes) :
    ∃ N, ∀ (k : Clocks) (files : List Bytes) (schedule : List Nat) (i : Nat), files[i]? = some c →
      N ≤ schedule.count i →
      ∃ t, ((Crew.start k files).run gunzip schedule).threads[i]? = some t ∧
        ended t = some (aloneResult gunzip k c) := by
  refine ⟨(Thread.begin c).left gunzip, ?_⟩
  intro k files schedule i hc hn
  have hs : (Crew.start k files).threads[i]? = some (.begin c) := by
    show (files.map Thread.begin)[i]? = _
    rw [List.getElem?_map, hc]; rfl
  obtain ⟨t, ht, hl⟩ := Crew.run_left gunzip i schedule _ _ hs
  obtain ⟨r, hr⟩ := ended_of_left gunzip (t := t) (by omega)
  exact ⟨t, ht, by rw [hr, c116_alone gunzip k k files schedule i c hc t ht r hr]⟩

/-- C116. At any time `clock` and `supports` of every reader, which all look into one dictionary, go by
what one of the files says: for the YM2413 the word at 0x10, for the YM2151 the word at 0x30, or, if
one of the files is older than 1.10, the word at 0x10 - of any of the files, unless there has been
no reader yet. -/
theorem c116_clocks (gunzip : Bytes → Except PyErr Bytes) (k : Clocks) (files : List Bytes)
    (schedule : List Nat) :
    let w := (Crew.start k files).run gunzip schedule
    (w.clocks "ym2413" = k "ym2413" ∨
      ∃ p, InFiles gunzip files p ∧ w.clocks "ym2413" = some (word p 0x10)) ∧
    (w.clocks "ym2151" = k "ym2151" ∨
      (∃ p, InFiles gunzip files p ∧ w.clocks "ym2151" = some (word p 0x30)) ∨
      ∃ p q, InFiles gunzip files p ∧ InFiles gunzip files q ∧ version q < 110 ∧
        w.clocks "ym2151" = some (word p 0x10)) ∧
    (∀ x, x ≠ "ym2413" → x ≠ "ym2151" → w.clocks x = k x) := by
  intro w
  have h := (Crew.inv_start gunzip files k).run gunzip files schedule
  refine ⟨?_, ?_, h.others⟩
  · rcases h.first with e | ⟨n, hn, p, hp, rfl⟩
    · exact .inl e
    · exact .inr ⟨p, hp, hn⟩
  · rcases h.second with e | ⟨n, hn, ⟨p, hp, rfl⟩ | ⟨⟨q, hq, hv⟩, p, hp, rfl⟩⟩
    · exact .inl e
    · exact .inr (.inl ⟨p, hp, hn⟩)
    · exact .inr (.inr ⟨p, q, hp, hq, hv, hn⟩)

/-- C116. If all files are of version 1.10 or later and have the same YM2151 clock, then every reader
says so from when there is one, whatever the others do. -/
theorem c116_same (gunzip : Bytes → Except PyErr Bytes) (k : Clocks) (files : List Bytes) (m : Nat)
    (hm : ∀ p, InFiles gunzip files p → 110 ≤ version p ∧ ym2151Clock p = m)
    (schedule : List Nat) (t : Thread)
    (ht : t ∈ ((Crew.start k files).run gunzip schedule).threads) (v : Vgm)
    (hv : readerOf t = some v) :
    clock ((Crew.start k files).run gunzip schedule).clocks "ym2151" = .ok m ∧
    supports ((Crew.start k files).run gunzip schedule).clocks "ym2151" = decide (0 < m) := by
  have h := (Crew.inv_start gunzip files k).run gunzip files schedule
  have hp : t.past2151 = true := by
    cases t with
    | loop v f s => rfl
    | finished v s => rfl
    | _ => cases hv
  obtain ⟨n, hn, ⟨p, hp, rfl⟩ | ⟨⟨q, hq, hv⟩, _⟩⟩ := h.after2 t ht hp
  · obtain ⟨h1, h2⟩ := hm p hp
    have : word p 0x30 = m := by
      rw [← h2]
      unfold ym2151Clock
      rw [if_neg (by omega)]
    rw [this] at hn
    unfold clock supports
    rw [hn]
    exact ⟨rfl, rfl⟩
  · have := (hm q hq).1
    omega

/-- A file of version 1.00 with the YM2413 clock 5, and one of version 1.51 with the clocks 9 and 7. -/
def threadFiles : List Bytes :=
  [vgmMagic ++ [0, 0, 0, 0, 0, 1, 0, 0, 0, 0, 0, 0, 5, 0, 0, 0] ++ List.replicate 28 0 ++
     [1, 0, 0, 0] ++ List.replicate 12 0 ++ [0x62, 0x66],
   vgmMagic ++ [0, 0, 0, 0, 0x51, 1, 0, 0, 0, 0, 0, 0, 9, 0, 0, 0] ++ List.replicate 28 0 ++
     [7, 0, 0, 0, 12, 0, 0, 0] ++ List.replicate 8 0 ++ [0x63, 0x66]]

/-- The second thread assigns its YM2413 clock between two statements of the first. -/
def threadSchedule : List Nat :=
  [0, 0, 0, 1, 1, 1, 1, 1, 1, 1, 1, 1, 1, 1, 1, 0, 0, 0, 0, 0, 0, 0, 0, 0]

/-- The thread has got a state. -/
def Thread.isFinished : Thread → Bool
  | .finished _ _ => true
  | _ => false

/-- C116. What cannot be relied on: with threads, the clock that all readers report may be neither
that of the one file nor that of the other, even when all have come to their end. (Without, it is
that of the file opened last: C09.) -/
theorem c116_mixed : ∃ (files : List Bytes) (schedule : List Nat),
    let w := (Crew.start (fun _ => none) files).run (fun _ => .error .eof) schedule
    (∀ t ∈ w.threads, ∃ v s, ended t = some (.ok (v, s))) ∧
    ∃ n, clock w.clocks "ym2151" = .ok n ∧ ∀ p ∈ files, ym2151Clock p ≠ n := by
  refine ⟨threadFiles, threadSchedule, ?_, 9, by decide +kernel, by decide +kernel⟩
  intro t ht
  have h : ∀ t ∈ ((Crew.start (fun _ => none) threadFiles).run (fun _ => .error .eof)
      threadSchedule).threads, t.isFinished = true := by
    rw [← List.all_eq_true]
    decide +kernel
  have := h t ht
  cases t with
  | finished v s => exact ⟨v, s, rfl⟩
  | _ => cases this

example : InFiles (fun _ => .error .eof) threadFiles threadFiles[0] :=
  ⟨by decide +kernel, _, List.getElem_mem _, .inl ⟨by decide +kernel, rfl⟩⟩

/-- The hypothesis of `c116_same`, for two threads reading files of version 1.51 with the clock 7. -/
example : ∀ p, InFiles (fun _ => .error .eof) [threadFiles[1], threadFiles[1]] p →
    110 ≤ version p ∧ ym2151Clock p = 7 := by
  rintro p ⟨_, c, hc, h⟩
  have hc : c = threadFiles[1] := by simpa using hc
  subst hc
  rcases h with ⟨_, rfl⟩ | ⟨h, _⟩
  · decide +kernel
  · exact absurd h (by decide +kernel)

end VgmX
