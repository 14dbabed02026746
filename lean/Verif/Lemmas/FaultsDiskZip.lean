import Verif.Lemmas.FaultsDisk
/-
Lemmas about writing an archive to a disk with a number of free bytes.
-/

namespace VgmX
open Spec

/-- `seek` to the end. -/
theorem seek_appends {p : Nat} {s : Open disk} (ha : App s) (ht : s.text = [])
    (hp : p = (s.content ++ s.buf).length) :
    Appends (s.seek p) s [] ∧ ((s.seek p).1 = .ok () → (s.seek p).2.buf = []) ∧
    (s.seek p).2.text = [] ∧ (s.seek p).2.content ++ (s.seek p).2.buf = s.content ++ s.buf ∧
    ∀ c, Stuck s c → Stuck (s.seek p).2 c := by
  obtain ⟨h1, h2⟩ := flush_appends ha ht
  obtain ⟨f1, f2, f3, _, f4, f5, f6⟩ := disk_flush ha
  have hst := flush_stays s
  unfold Open.seek
  generalize s.flush = x at h1 h2 f1 f2 f3 f4 f5 f6 hst ⊢
  obtain ⟨r, s1⟩ := x
  dsimp only at f1 f2 f3 f4 f5 f6 hst
  cases r with
  | error e =>
    refine ⟨h1, fun h => (by cases h), f2.trans ht, f4, hst⟩
  | ok _ =>
    obtain ⟨b1, b2⟩ := h2 rfl
    dsimp only at b1 b2
    have hc : p = s1.content.length := by rw [hp, ← f4, b1, List.append_nil]
    have hA : App ({ s1 with pos := p } : Open disk) := ⟨⟨f1.wf.1, Nat.le_of_eq hc⟩, hc⟩
    refine ⟨⟨hA, h1.name, h1.room, h1.done⟩, fun _ => b1, b2, f4, ?_⟩
    intro c hc
    have := hst c hc
    exact ⟨hA, this.full, this.content⟩

theorem fail_appends {s : Open disk} (ha : App s) :
    Appends ((.ok (), s) : Except PyErr Unit × Open disk) s [] :=
  ⟨ha, rfl, rfl, .inl ⟨rfl, rfl, by simp⟩⟩

/-- What `ZipFile.close` writes. -/
def closing (t : DateTime) (entry data : Bytes) (start : Nat) (added : Bool) : Bytes :=
  (if added then zipCentralHeader t entry (crc32 data) data.length else []) ++
    zipEndRecord (if added then 1 else 0)
      (if added then (zipCentralHeader t entry (crc32 data) data.length).length else 0) start

theorem zipClose_appends (b : Buffers) (t : DateTime) (entry data : Bytes) (start : Nat)
    (added : Bool) {s : Open disk} (ha : App s) (ht : s.text = [])
    (hs : start = (s.content ++ s.buf).length) :
    Appends (zipClose b t entry data start added s) s (closing t entry data start added) ∧
    (∀ c, Stuck s c → Stuck (zipClose b t entry data start added s).2 c) := by
  unfold zipClose closing
  generalize hE : zipEndRecord (if added then 1 else 0)
    (if added then (zipCentralHeader t entry (crc32 data) data.length).length else 0) start = E
  obtain ⟨k1, k2, k3, k4, k5⟩ := seek_appends ha ht hs
  have hmid : ∀ s : Open disk, App s → s.text = [] →
      Appends ((fun s => if added then
          andThen (Open.write b ((zipCentralHeader t entry (crc32 data) data.length).take 46))
            (Open.write b entry) s else (.ok (), s)) s) s
        (if added then zipCentralHeader t entry (crc32 data) data.length else []) ∧
      ((fun s => if added then
          andThen (Open.write b ((zipCentralHeader t entry (crc32 data) data.length).take 46))
            (Open.write b entry) s else (.ok (), s)) s).2.text = [] := by
    intro s ha ht
    cases added with
    | false => exact ⟨fail_appends ha, ht⟩
    | true =>
      have w1 := write_appends b ((zipCentralHeader t entry (crc32 data) data.length).take 46) ha ht
      have w1t : (s.write b ((zipCentralHeader t entry (crc32 data) data.length).take 46)).2.text
          = [] := (disk_write b _ ha).2.1.trans ht
      have w2 := write_appends b entry w1.app w1t
      have := Appends.andThen w1 (fun _ => w2)
      rw [central_take] at this
      refine ⟨this, ?_⟩
      have w2t := (disk_write b entry w1.app).2.1.trans w1t
      dsimp only
      rw [if_pos rfl]
      unfold andThen
      generalize s.write b ((zipCentralHeader t entry (crc32 data) data.length).take 46) = x
        at w1t w2t ⊢
      obtain ⟨r, s1⟩ := x
      cases r with
      | error e => exact w1t
      | ok _ => exact w2t
  have hmid' : Stays (fun s => if added then
          andThen (Open.write b ((zipCentralHeader t entry (crc32 data) data.length).take 46))
            (Open.write b entry) s else (.ok (), s)) := by
    cases added with
    | false => exact fun s c h => h
    | true => exact Stays.andThen (write_stays b _) (write_stays b _)
  generalize (fun s : Open disk => if added then
      andThen (Open.write b ((zipCentralHeader t entry (crc32 data) data.length).take 46))
        (Open.write b entry) s else (.ok (), s)) = mid at hmid hmid' ⊢
  generalize (if added then zipCentralHeader t entry (crc32 data) data.length else []) = C
    at hmid ⊢
  constructor
  · have := Appends.andThen (f := andThen mid (andThen (Open.write b E) Open.flush)) k1
      (q := C ++ (E ++ [])) (fun _ => by
        obtain ⟨m1, m2⟩ := hmid (s.seek start).2 k1.app k3
        refine Appends.andThen m1 (fun _ => ?_)
        have w := write_appends b E m1.app m2
        exact Appends.andThen w
          (fun _ => (flush_appends w.app ((disk_write b E m1.app).2.1.trans m2)).1))
    simpa using this
  · intro c hc
    have hrest := Stays.andThen hmid' (Stays.andThen (write_stays b E) flush_stays)
    have h1 := k5 c hc
    unfold andThen
    generalize s.seek start = x at h1 ⊢
    obtain ⟨r, s1⟩ := x
    cases r with
    | error e => exact h1
    | ok _ => exact hrest s1 c h1

/-- Writing over the beginning of the file needs no room. -/
theorem disk_raw_inside {bytes : Bytes} {s : Open disk} (hw : Wf s) (hne : bytes ≠ [])
    (hin : s.pos + bytes.length ≤ s.content.length) :
    (s.raw bytes) = (.ok bytes.length, { s with
      fs := setFile s.fs s.name (overwrite s.content s.pos bytes), pos := s.pos + bytes.length }) := by
  have hpos : 0 < bytes.length := List.length_pos_iff.mpr hne
  have hd : disk.write s.dev s.content.length s.pos bytes.length = (.ok bytes.length, s.dev) := by
    have key : ∀ free len p n : Nat, 0 < n → p + n ≤ len →
        disk.write free len p n = (.ok n, free) := by
      intro free len p n h1 h2
      show (if min n ((len - p) + free) = 0 then (.error (.other 28), free)
        else (.ok (min n ((len - p) + free)), free - (p + min n ((len - p) + free) - len)) :
          Except PyErr Nat × Nat) = _
      have : min n ((len - p) + free) = n := by omega
      rw [this, if_neg (by omega)]
      have : p + n - len = 0 := by omega
      rw [this]
      rfl
    exact key s.dev _ _ _ hpos hin
  unfold Open.raw
  rw [hd]
  dsimp only
  have : max 1 (min bytes.length bytes.length) = bytes.length := by omega
  rw [this, List.take_length]

theorem flush_inside {s : Open disk} (hw : Wf s) (hin : s.pos + s.buf.length ≤ s.content.length)
    (hne : s.buf ≠ []) :
    s.flush = (.ok (), { s with
      fs := setFile s.fs s.name (overwrite s.content s.pos s.buf), pos := s.pos + s.buf.length,
      buf := [] }) := by
  have hpos : 0 < s.buf.length := List.length_pos_iff.mpr hne
  unfold Open.flush
  obtain ⟨n, hn⟩ : ∃ n, s.buf.length = n + 1 := ⟨s.buf.length - 1, by omega⟩
  rw [hn]
  unfold Open.drain
  rw [if_neg (by omega), disk_raw_inside hw hne hin]
  dsimp only
  rw [List.drop_length]
  cases n with
  | zero => unfold Open.drain; simp only [hn]
  | succ n => unfold Open.drain; rw [if_pos (by simp)]; simp only [hn]

/-- The header written again, when the buffer can be flushed. -/
theorem header_again (b : Buffers) (H : Bytes) {s s1 : Open disk} (hfl : s.flush = (.ok (), s1))
    (ha : App s1) (hb : s1.buf = []) (hne : H ≠ []) (hin : H.length ≤ s1.content.length)
    (hsz : H.length ≤ b.size) :
    ∃ s2, andThen (Open.seek 0) (andThen (Open.write b H) (Open.seek s1.content.length)) s
        = (.ok (), s2) ∧ App s2 ∧ s2.content = H ++ s1.content.drop H.length ∧ s2.buf = [] ∧
      s2.text = s1.text ∧ s2.free = s1.free ∧ s2.failed = s1.failed ∧ s2.name = s1.name := by
  have h1 : s.seek 0 = (.ok (), { s1 with pos := 0 }) := by unfold Open.seek; rw [hfl]
  have h2 : Open.write b H { s1 with pos := 0 } = (.ok (), { s1 with pos := 0, buf := H }) := by
    unfold Open.write
    dsimp only
    rw [hb, if_pos (by simpa using hsz)]
    rfl
  have hc : ∀ p f, Open.content ({ s1 with pos := p, buf := f } : Open disk) = s1.content :=
    fun _ _ => rfl
  have h3 := flush_inside (s := { s1 with pos := 0, buf := H })
    ⟨ha.wf.1, Nat.zero_le _⟩ (by rw [hc]; dsimp only; omega) hne
  have hov : overwrite s1.content 0 H = H ++ s1.content.drop H.length := by simp [overwrite]
  refine ⟨{ s1 with
    fs := setFile s1.fs s1.name (overwrite s1.content 0 H), pos := s1.content.length,
    buf := [] }, ?_, ⟨⟨?_, ?_⟩, ?_⟩, ?_, rfl, rfl, rfl, rfl, rfl⟩
  · unfold andThen
    rw [h1]
    dsimp only
    rw [h2]
    dsimp only
    unfold Open.seek
    rw [h3]
    rfl
  · simp [setFile]
  · simp [Open.content, setFile, overwrite_length]
  · simp only [Open.content, setFile, if_true, Option.getD_some]
    rw [overwrite_length (Nat.zero_le _)]
    unfold Open.content at hin
    omega
  · simp only [Open.content, setFile, if_true, Option.getD_some]
    exact hov

/-- How writing an archive ends. -/
inductive ZipLeft (t : DateTime) (entry data whole : Bytes) (room : Nat) : Bytes → Prop
  /-- the first header, with the checksum missing, and data -/
  | early : ZipLeft t entry data whole room
      ((zipHeader0 t entry data.length ++ data).take room)
  /-- the data are cut, but the header is written again -/
  | header : 30 + entry.length ≤ room → ZipLeft t entry data whole room
      (zipLocalHeader t entry (crc32 data) data.length ++ data.take (room - (30 + entry.length)))
  /-- the rest is cut -/
  | late : (30 + entry.length + data.length ≤ room ∨ whole.length = 22) →
      ZipLeft t entry data whole room (whole.take room)

theorem flush_text {s : Open disk} (ht : s.text = []) : s.flush.2.text = [] := by
  have h := (drain_kept 0 s.buf.length s.buf s).2.2
  unfold Open.flush
  rcases hx : Open.drain 0 s.buf.length s.buf s with ⟨r, rest, s'⟩
  rw [hx] at h
  exact h.trans ht

theorem write_text (b : Buffers) (bytes : Bytes) {s : Open disk} (ht : s.text = []) :
    (s.write b bytes).2.text = [] := by
  unfold Open.write
  split
  · exact ht
  · have h := flush_text ht
    rcases hx : s.flush with ⟨r, s1⟩
    rw [hx] at h
    cases r with
    | error e => exact h
    | ok _ =>
      have h' := (drain_kept b.size bytes.length bytes s1).2.2
      dsimp only
      rcases hy : Open.drain b.size bytes.length bytes s1 with ⟨r2, rest, s2⟩
      rw [hy] at h'
      cases r2 <;> exact h'.trans h

theorem seek_text (p : Nat) {s : Open disk} (ht : s.text = []) : (s.seek p).2.text = [] := by
  have h := flush_text ht
  unfold Open.seek
  rcases hx : s.flush with ⟨r, s1⟩
  rw [hx] at h
  cases r <;> exact h

theorem andThen_text {a f : Open disk → Except PyErr Unit × Open disk}
    (ha : ∀ s : Open disk, s.text = [] → (a s).2.text = [])
    (hf : ∀ s : Open disk, s.text = [] → (f s).2.text = []) (s : Open disk) (ht : s.text = []) :
    (andThen a f s).2.text = [] := by
  have h := ha s ht
  unfold andThen
  rcases hx : a s with ⟨r, s1⟩
  rw [hx] at h
  cases r with
  | error e => exact h
  | ok _ => exact hf s1 h

theorem zipClose_text (b : Buffers) (t : DateTime) (entry data : Bytes) (start : Nat)
    (added : Bool) {s : Open disk} (ht : s.text = []) :
    (zipClose b t entry data start added s).2.text = [] := by
  unfold zipClose
  refine andThen_text (fun s h => seek_text _ h) (andThen_text ?_ (andThen_text
    (fun s h => write_text b _ h) (fun s h => flush_text h))) s ht
  intro s h
  split
  · exact andThen_text (fun s h => write_text b _ h) (fun s h => write_text b _ h) s h
  · exact h

/-- The end of the two `with` blocks. -/
def finish (b : Buffers) (t : DateTime) (entry data : Bytes) (r : Except PyErr Unit) (start : Nat)
    (added : Bool) (s : Open disk) : Except PyErr Unit × Open disk :=
  tryFinally (fun s =>
    match zipClose b t entry data start added s with
    | (.error e, s) => (.error e, s)
    | (.ok (), s) => (r, s)) Open.flush s

theorem finish_eq (b : Buffers) (t : DateTime) (entry data : Bytes) (r : Except PyErr Unit)
    (start : Nat) (added : Bool) (s : Open disk) :
    finish b t entry data r start added s =
      match (zipClose b t entry data start added s).2.flush with
      | (.error e, s2) => (.error e, s2)
      | (.ok (), s2) =>
        (match (zipClose b t entry data start added s).1 with
          | .error e => .error e
          | .ok () => r, s2) := by
  unfold finish tryFinally
  dsimp only
  generalize zipClose b t entry data start added s = y
  obtain ⟨e | ⟨⟩, s1⟩ := y
  · dsimp only
    generalize s1.flush = z
    obtain ⟨e' | ⟨⟩, s2⟩ := z <;> rfl
  · dsimp only
    generalize s1.flush = z
    obtain ⟨e' | ⟨⟩, s2⟩ := z <;> rfl

theorem finish_spec (b : Buffers) (t : DateTime) (entry data : Bytes) (r : Except PyErr Unit)
    (start : Nat) (added : Bool) {s : Open disk} (ha : App s) (ht : s.text = [])
    (hs : start = (s.content ++ s.buf).length) (whole : Bytes)
    (hwh : whole = s.content ++ s.buf ++ closing t entry data start added) :
    let x := finish b t entry data r start added s
    Wf x.2 ∧ ((∃ e, r = .error e) → ∃ e, x.1 = .error e) ∧
    (∀ c, Stuck s c → Stuck x.2 c) ∧
    ((x.1 = r ∧ x.2.content = whole ∧ x.2.free + whole.length = s.free + s.content.length) ∨
      ((∃ e, x.1 = .error e) ∧ x.2.free = 0 ∧ s.free + s.content.length < whole.length ∧
        x.2.content = whole.take (s.free + s.content.length))) := by
  obtain ⟨h1, h2⟩ := zipClose_appends b t entry data start added ha ht hs
  have hall : s.all = s.content ++ s.buf := by unfold Open.all; rw [ht, List.append_nil]
  have htx : (zipClose b t entry data start added s).2.text = [] := zipClose_text b t entry data start added ht
  dsimp only
  rw [finish_eq]
  generalize zipClose b t entry data start added s = x at h1 h2 htx ⊢
  obtain ⟨r1, s1⟩ := x
  dsimp only at h2 htx ⊢
  have d := h1.done
  rw [hall, ← hwh] at d
  have room := h1.room
  dsimp only at d room
  have hst := flush_stays s1
  have hpre : ∀ c : Bytes, c <+: whole → c.length < whole.length →
      c.length = s.free + s.content.length →
      s.free + s.content.length < whole.length ∧ c = whole.take (s.free + s.content.length) := by
    intro c p1 p2 p3
    rw [← p3]
    exact ⟨p2, List.prefix_iff_eq_take.mp p1⟩
  rcases d with ⟨d1, d2, d3⟩ | ⟨⟨e, d1⟩, d2, d3, d4, d5⟩
  · subst d1
    obtain ⟨g1, g2⟩ := flush_appends h1.app htx
    rcases hx : s1.flush with ⟨r2, s2⟩
    rw [hx] at g1 g2 hst
    have groom := g1.room
    dsimp only at g2 hst groom
    rcases g1.done with ⟨e1, e2, e3⟩ | ⟨⟨e, e1⟩, e2, e3, e4, e5⟩
    · dsimp only at e1 e2 e3
      subst e1
      obtain ⟨q1, q2⟩ := g2 rfl
      have hw : s2.content = whole := by
        have : s2.all = s2.content := by unfold Open.all; rw [q1, q2]; simp
        rw [← this, e3, d3]; simp
      refine ⟨g1.app.wf, id, fun c hc => hst c (h2 c hc), .inl ⟨rfl, hw, ?_⟩⟩
      dsimp only
      rw [← hw]
      omega
    · dsimp only at e1 e2 e3 e4 e5
      subst e1
      rw [d3, List.append_nil] at e4 e5
      obtain ⟨p1, p2⟩ := hpre _ e4 e5 (by omega)
      exact ⟨g1.app.wf, fun _ => ⟨e, rfl⟩, fun c hc => hst c (h2 c hc),
        .inr ⟨⟨e, rfl⟩, e3, p1, p2⟩⟩
  · subst d1
    have hst1 := hst s1.content ⟨h1.app, d3, rfl⟩
    obtain ⟨p1, p2⟩ := hpre _ d4 d5 (by omega)
    rcases hx : s1.flush with ⟨r2, s2⟩
    rw [hx] at hst hst1
    dsimp only at hst
    cases r2 with
    | error e' =>
      exact ⟨hst1.app.wf, fun _ => ⟨e', rfl⟩, fun c hc => hst c (h2 c hc),
        .inr ⟨⟨e', rfl⟩, hst1.full, p1, hst1.content.trans p2⟩⟩
    | ok _ =>
      exact ⟨hst1.app.wf, fun _ => ⟨e, rfl⟩, fun c hc => hst c (h2 c hc),
        .inr ⟨⟨e, rfl⟩, hst1.full, p1, hst1.content.trans p2⟩⟩

theorem flush_empty {s : Open disk} (hb : s.buf = []) : s.flush = (.ok (), s) := by
  unfold Open.flush
  rw [hb]
  simp only [Open.drain, List.length_nil]
  rw [← hb]

theorem seek_fresh {s : Open disk} (hb : s.buf = []) (hp : s.pos = 0) :
    s.seek 0 = (.ok (), s) := by
  unfold Open.seek
  rw [flush_empty hb]
  dsimp only
  rw [← hp]

/-- Writing an archive to a new file on a disk with `s.free` free bytes. -/
theorem zip_filled (b : Buffers) (zip64 : DateTime → Bytes → Bytes → Except PyErr Unit × Bytes)
    (t : DateTime) (entry data : Bytes) {s : Open disk} (ha : App s) (hc : s.content = [])
    (hb : s.buf = []) (ht : s.text = []) (hsz : 30 + entry.length ≤ b.size)
    (hz : ¬ zip64Needed data.length) :
    let x := tryFinally (zipFileF b zip64 t entry data) Open.flush s
    let whole := (zipSingle zip64 t entry data).2
    Wf x.2 ∧ ((x.1 = (zipSingle zip64 t entry data).1 ∧ x.2.content = whole ∧
      x.2.free + whole.length = s.free) ∨
    ((∃ e, x.1 = .error e) ∧ x.2.free = 0 ∧ s.free < whole.length ∧
      ZipLeft t entry data whole s.free x.2.content)) := by
  intro x whole
  have hwd : whole = (zipSingle zip64 t entry data).2 := rfl
  clear_value whole
  have hcl : s.content.length = 0 := by rw [hc]; rfl
  have hx : x = finish b t entry data (zipWritestr b t entry data s).1.1
      (zipWritestr b t entry data s).2.1 (zipWritestr b t entry data s).2.2
      (zipWritestr b t entry data s).1.2 := by
    show tryFinally (zipFileF b zip64 t entry data) Open.flush s = _
    unfold finish tryFinally zipFileF
    rw [if_neg (fun h => hz h.2.2)]
    generalize zipWritestr b t entry data s = y
    obtain ⟨⟨r, s1⟩, st, ad⟩ := y
    dsimp only
    generalize zipClose b t entry data st ad s1 = y
    obtain ⟨e | ⟨⟩, s1⟩ := y <;> rfl
  clear_value x
  subst hx
  have hdate : (t.year < 1980 ∨ 65536 ≤ dosDate t ∨ 65536 ≤ dosTime t) →
      (zipWritestr b t entry data s) =
        ((.error (if t.year < 1980 then .value else .struct), s), 0, false) ∧
      zipSingle zip64 t entry data =
        (.error (if t.year < 1980 then .value else .struct), zipEndRecord 0 0 0) := by
    intro hd
    unfold zipWritestr zipSingle
    by_cases h1 : t.year < 1980
    · rw [if_pos h1, if_pos h1, if_pos h1]; exact ⟨rfl, rfl⟩
    · rw [if_neg h1, if_neg h1, if_neg h1]
      have h2 : 65536 ≤ dosDate t ∨ 65536 ≤ dosTime t := hd.resolve_left h1
      have hsk : s.seek 0 = (.ok (), s) := seek_fresh hb (by rw [ha.pos, hcl])
      rw [hsk]
      dsimp only
      rw [if_pos h2, if_pos h2]
      exact ⟨rfl, rfl⟩
  by_cases hd : t.year < 1980 ∨ 65536 ≤ dosDate t ∨ 65536 ≤ dosTime t
  · obtain ⟨e1, e2⟩ := hdate hd
    have hw : whole = zipEndRecord 0 0 0 := by rw [hwd, e2]
    rw [e1]
    dsimp only
    obtain ⟨f0, f1, f2, f3⟩ := finish_spec b t entry data
      (.error (if t.year < 1980 then .value else .struct)) 0 false ha ht
      (by rw [hc, hb]; rfl) whole (by rw [hw, hc, hb]; rfl)
    rw [hcl, Nat.add_zero] at f3
    refine ⟨f0, ?_⟩
    rcases f3 with ⟨g1, g2, g3⟩ | ⟨g1, g2, g3, g4⟩
    · left
      rw [e2]
      exact ⟨g1, g2, g3⟩
    · right
      refine ⟨g1, g2, g3, ?_⟩
      rw [g4]
      exact .late (.inr (by rw [hw]; exact end_length _ _ _))
  · have hy : ¬ t.year < 1980 := fun h => hd (.inl h)
    have hd' : ¬ (65536 ≤ dosDate t ∨ 65536 ≤ dosTime t) := fun h => hd (.inr h)
    obtain ⟨l0, l1⟩ := header_lengths t entry (crc32 data) data.length data.length
    have hE : zipWritestr b t entry data s = zipEntry b t entry data s := by
      unfold zipWritestr
      rw [if_neg hy]
      have hsk : s.seek 0 = (.ok (), s) := seek_fresh hb (by rw [ha.pos, hcl])
      rw [hsk]
      dsimp only
      rw [if_neg hd']
    have hZ : zipSingle zip64 t entry data = (.ok (),
        zipLocalHeader t entry (crc32 data) data.length ++ data ++
          closing t entry data (30 + entry.length + data.length) true) := by
      unfold zipSingle closing
      rw [if_neg hy, if_neg hd', if_neg hz]
      simp only [if_true]
      rw [List.append_assoc _ (zipCentralHeader _ _ _ _), List.length_append, l1]
    have hw : whole = zipLocalHeader t entry (crc32 data) data.length ++ data ++
          closing t entry data (30 + entry.length + data.length) true := by
      rw [hwd, hZ]
    have hwl : 30 + entry.length + data.length ≤ whole.length := by
      rw [hw, List.length_append, List.length_append, l1]; omega
    have hwl' : 30 + entry.length + data.length < whole.length := by
      rw [hw, List.length_append, List.length_append, l1]
      unfold closing
      rw [List.length_append, end_length]; omega
    rw [hE, hZ]
    unfold zipEntry
    generalize hHd : zipLocalHeader t entry (crc32 data) data.length = H at l1 hw ⊢
    generalize hHd0 : zipHeader0 t entry data.length = H0 at l0 ⊢
    have hHne : H ≠ [] := by rintro rfl; simp at l1; omega
    have w0 : s.write b H0 = (.ok (), { s with buf := H0 }) := by
      unfold Open.write
      rw [hb, if_pos (by simp [l0]; exact hsz)]
      rfl
    rw [w0]
    dsimp only
    have hA : App ({ s with buf := H0 } : Open disk) := ⟨ha.wf, ha.pos⟩
    have hc0 : Open.content ({ s with buf := H0 } : Open disk) = [] := hc
    have hf0 : Open.free ({ s with buf := H0 } : Open disk) = s.free := rfl
    have ht0 : ({ s with buf := H0 } : Open disk).text = [] := ht
    have hb0 : ({ s with buf := H0 } : Open disk).buf = H0 := rfl
    clear w0
    generalize ({ s with buf := H0 } : Open disk) = S at hA hc0 hf0 ht0 hb0 ⊢
    obtain ⟨d1, d2, d3, _, d4, d5⟩ := disk_write b data hA
    rw [hc0, hb0, List.nil_append] at d5
    rw [hc0, hf0] at d4
    rw [ht0] at d2
    generalize Open.write b data S = y at d1 d2 d3 d4 d5 ⊢
    obtain ⟨r, s1⟩ := y
    dsimp only at d1 d2 d3 d4 d5 ⊢
    simp only [List.length_nil, Nat.add_zero] at d4
    have htell : s1.tell = (s1.content ++ s1.buf).length := by
      unfold Open.tell; rw [d1.pos, List.length_append]
    -- the buffer cannot be flushed: nothing more is written
    have stuckCase : (∃ e, s1.flush.1 = .error e) → s1.content ++ s1.buf <+: H0 ++ data →
        ∃ e, andThen (Open.seek 0) (andThen (Open.write b H) (Open.seek s1.tell)) s1
            = (.error e, s1.flush.2) ∧
          Wf (finish b t entry data (.error e) s1.tell false s1.flush.2).2 ∧
          ((∃ e', (finish b t entry data (.error e) s1.tell false s1.flush.2).1 = .error e') ∧
          (finish b t entry data (.error e) s1.tell false s1.flush.2).2.free = 0 ∧
          s.free < whole.length ∧ ZipLeft t entry data whole s.free
            (finish b t entry data (.error e) s1.tell false s1.flush.2).2.content) := by
      intro hfe hpre
      obtain ⟨f1, f2, f3, _, f4, f5, f6⟩ := disk_flush d1
      have hse : ∃ e, andThen (Open.seek 0) (andThen (Open.write b H) (Open.seek s1.tell)) s1
          = (.error e, s1.flush.2) := by
        obtain ⟨e, he⟩ := hfe
        refine ⟨e, ?_⟩
        unfold andThen Open.seek
        rcases hx : s1.flush with ⟨r2, s2⟩
        rw [hx] at he
        dsimp only at he
        subst he
        rfl
      obtain ⟨e, hse⟩ := hse
      have hwf : Wf (finish b t entry data (.error e) s1.tell false s1.flush.2).2 :=
        (finish_spec b t entry data (.error e) s1.tell false f1
          (f2.trans d2) (by rw [f4]; exact htell) _ rfl).1
      refine ⟨e, hse, hwf, ?_⟩
      rcases f6 with ⟨g1, _⟩ | ⟨_, _, g3, g4⟩
      · obtain ⟨e, he⟩ := hfe; rw [g1] at he; cases he
      · obtain ⟨_, k1, k2, _⟩ := finish_spec b t entry data (.error e) s1.tell false f1
          (f2.trans d2) (by rw [f4]; exact htell) _ rfl
        have hst := k2 s1.flush.2.content ⟨f1, g3, rfl⟩
        have hlen : s1.flush.2.content.length = s.free := by omega
        have hpx : s1.flush.2.content <+: H0 ++ data :=
          (List.prefix_append _ _).trans (by rw [f4]; exact hpre)
        have hlt : s1.flush.2.content.length ≤ (H0 ++ data).length := hpx.length_le
        rw [List.length_append, l0] at hlt
        refine ⟨k1 ⟨e, rfl⟩, hst.full, by omega, ?_⟩
        rw [hst.content, List.prefix_iff_eq_take.mp hpx, hlen, ← hHd0]
        exact .early
    rcases d5 with ⟨a1, a2, a3⟩ | ⟨⟨e, a1⟩, a2, a3, _, a5⟩
    · -- all data written or in the buffer
      subst a1
      have hts : s1.tell = 30 + entry.length + data.length := by
        rw [htell, a3, List.length_append, l0]
      obtain ⟨f1, f2, f3, _, f4, f5, f6⟩ := disk_flush d1
      rcases f6 with ⟨g1, g2, g3⟩ | ⟨g1, g2, g3, g4⟩
      · rw [g3, List.append_nil, a3] at f4
        obtain ⟨s2, e1, e2, e3, e4, e5, e6, e7, e8⟩ := header_again b H (s := s1)
          (s1 := s1.flush.2) (by rw [← g1]) f1 g3 hHne
          (by rw [f4, List.length_append, l0, l1]; omega) (by rw [l1]; exact hsz)
        have hl : s1.flush.2.content.length = s1.tell := by
          rw [f4, hts, List.length_append, l0]
        rw [hl] at e1
        rw [e1]
        dsimp only
        have hcont : s2.content = H ++ data := by
          rw [e3, f4, l1, ← l0, List.drop_left]
        obtain ⟨k0, k1, k2, k3⟩ := finish_spec b t entry data (.ok ()) s1.tell true e2
          (e5.trans (f2.trans d2))
          (by rw [hcont, e4, List.append_nil, hts, List.length_append, l1]) whole
          (by rw [hw, hcont, e4, List.append_nil, hts])
        have hroom : s2.free + s2.content.length = s.free := by
          rw [e6, hcont, List.length_append, l1]
          rw [f4, List.length_append, l0] at f5
          omega
        rw [hroom] at k3
        refine ⟨k0, ?_⟩
        rcases k3 with ⟨m1, m2, m3⟩ | ⟨m1, m2, m3, m4⟩
        · left
          exact ⟨m1, m2, m3⟩
        · right
          refine ⟨m1, m2, m3, ?_⟩
          rw [m4]
          refine .late (.inl ?_)
          rw [← hroom, hcont, List.length_append, l1]
          omega
      · obtain ⟨e, hse, hwf, hfin⟩ := stuckCase g1 ⟨[], by rw [a3, List.append_nil]⟩
        rw [hse]
        exact ⟨hwf, .inr hfin⟩
    · subst a1
      rcases a5 with ⟨b1, b2⟩ | ⟨b1, m, b2, b3⟩
      · suffices hfe : ∃ e, s1.flush.1 = .error e by
          obtain ⟨e, hse, hwf, hfin⟩ := stuckCase hfe (by rw [b2]; exact List.prefix_append _ _)
          rw [hse]
          exact ⟨hwf, .inr hfin⟩
        obtain ⟨f1, f2, f3, ⟨q, fq⟩, f4, f5, f6⟩ := disk_flush d1
        rcases f6 with ⟨g1, g2, g3⟩ | ⟨g1, g2, g3, g4⟩
        · exfalso
          rw [g3, List.append_nil] at f4
          rw [f4, List.length_append] at f5
          have := List.length_pos_iff.mpr b1
          omega
        · exact g1
      · -- the data are cut
        have hfl : s1.flush = (.ok (), s1) := flush_empty b1
        have hcl1 : s1.content.length = 30 + entry.length + m := by
          rw [b3, List.length_append, l0, List.length_take]; omega
        obtain ⟨s2, e1, e2, e3, e4, e5, e6, e7, e8⟩ := header_again b H hfl d1 b1 hHne
          (by omega) (by rw [l1]; exact hsz)
        have hl : s1.content.length = s1.tell := by rw [htell, b1, List.append_nil]
        rw [hl] at e1
        rw [e1]
        dsimp only
        have hcont : s2.content = H ++ data.take m := by
          rw [e3, b3, l1, ← l0, List.drop_left]
        have hl2 : s2.content.length = 30 + entry.length + m := by
          rw [hcont, List.length_append, l1, List.length_take]; omega
        obtain ⟨k0, k1, k2, k3⟩ := finish_spec b t entry data (.error e) s1.tell true e2
          (e5.trans d2) (by rw [e4, List.append_nil, ← hl, hcl1, hl2]) _ rfl
        have hst := k2 s2.content ⟨e2, e6.trans a3, rfl⟩
        have hm : s.free = 30 + entry.length + m := by omega
        refine ⟨k0, .inr ⟨k1 ⟨e, rfl⟩, hst.full, by omega, ?_⟩⟩
        rw [hst.content, hcont, ← hHd]
        have : m = s.free - (30 + entry.length) := by omega
        rw [this]
        exact .header (by omega)

end VgmX
