import Verif.Model.Faults
/-
Lemmas about the buffers on a device whose writes can fail.
-/

namespace VgmX

/-! ### Overwriting -/

theorem overwrite_nil (c : Bytes) (p : Nat) : overwrite c p [] = c := by
  simp [overwrite, List.take_append_drop]

theorem overwrite_length {c : Bytes} {p : Nat} (h : p ≤ c.length) (b : Bytes) :
    (overwrite c p b).length = max c.length (p + b.length) := by
  simp only [overwrite, List.length_append, List.length_take, List.length_drop]
  omega

theorem overwrite_append {c : Bytes} {p : Nat} (h : p ≤ c.length) (a b : Bytes) :
    overwrite (overwrite c p a) (p + a.length) b = overwrite c p (a ++ b) := by
  have h1 : (c.take p).length = p := by simp [Nat.min_eq_left h]
  unfold overwrite
  have h2 : (List.take p c ++ a ++ List.drop (p + a.length) c).take (p + a.length)
      = List.take p c ++ a := by
    have e : (List.take p c ++ a).length = p + a.length := by rw [List.length_append, h1]
    rw [← e, List.take_left]
  have h3 : (List.take p c ++ a ++ List.drop (p + a.length) c).drop (p + a.length + b.length)
      = c.drop (p + a.length + b.length) := by
    rw [List.drop_append]
    have : (List.take p c ++ a).length = p + a.length := by rw [List.length_append, h1]
    rw [this, List.drop_of_length_le (by rw [this]; omega), List.drop_drop, List.nil_append]
    congr 1
    omega
  rw [h2, h3]
  simp [Nat.add_assoc]

theorem overwrite_end (c b : Bytes) : overwrite c c.length b = c ++ b := by
  simp [overwrite]

theorem overwrite_front {a c : Bytes} (b : Bytes) (h : a.length = b.length) :
    overwrite (a ++ c) 0 b = b ++ c := by
  simp [overwrite, ← h]

/-! ### What every operation keeps -/

variable {D : Device}

/-- The name stays, other files stay, and a failing write raises (and is remembered). -/
def Kept (r : Except PyErr Unit) (s s' : Open D) : Prop :=
  s'.name = s.name ∧ (∀ n, n ≠ s.name → s'.fs n = s.fs n) ∧
    (s'.failed = s.failed ∨ (∃ e, r = .error e) ∧ s'.failed = true)

theorem Kept.refl (r : Except PyErr Unit) (s : Open D) : Kept r s s :=
  ⟨rfl, fun _ _ => rfl, .inl rfl⟩

/-- A failure is not forgotten. -/
theorem Kept.mono {r : Except PyErr Unit} {s s' : Open D} (h : Kept r s s')
    (hf : s'.failed = false) : s.failed = false := by
  rcases h.2.2 with h | ⟨_, h⟩
  · rw [← h]; exact hf
  · rw [h] at hf; cases hf

theorem Kept.seq {r r' : Except PyErr Unit} {s s' s'' : Open D} (h : Kept (.ok ()) s s')
    (h' : Kept r s' s'') (hr : r' = r) : Kept r' s s'' := by
  subst hr
  refine ⟨h'.1.trans h.1, fun n hn => ?_, ?_⟩
  · rw [h'.2.1 n (by rw [h.1]; exact hn), h.2.1 n hn]
  · rcases h.2.2 with e | ⟨⟨e, he⟩, _⟩
    · rw [← e]; exact h'.2.2
    · cases he

theorem Kept.fin {r r1 r2 : Except PyErr Unit} {s s' s'' : Open D} (h : Kept r1 s s')
    (h' : Kept r2 s' s'') (hr : ((∃ e, r2 = .error e) ∧ r = r2) ∨ (r2 = .ok () ∧ r = r1)) :
    Kept r s s'' := by
  refine ⟨h'.1.trans h.1, fun n hn => ?_, ?_⟩
  · rw [h'.2.1 n (by rw [h.1]; exact hn), h.2.1 n hn]
  · rcases h.2.2 with a | ⟨⟨e, he⟩, a⟩
    · rw [← a]
      rcases h'.2.2 with b | ⟨⟨e, he⟩, b⟩
      · exact .inl b
      · right
        rcases hr with ⟨_, rfl⟩ | ⟨hr, _⟩
        · exact ⟨⟨e, he⟩, b⟩
        · rw [he] at hr; cases hr
    · right
      constructor
      · rcases hr with ⟨⟨e', he'⟩, rfl⟩ | ⟨_, rfl⟩
        · exact ⟨e', he'⟩
        · exact ⟨e, he⟩
      · rcases h'.2.2 with b | ⟨_, b⟩
        · rw [b]; exact a
        · exact b

/-- An operation that keeps. -/
def Stable (a : Open D → Except PyErr Unit × Open D) : Prop := ∀ s, Kept (a s).1 s (a s).2

theorem Stable.andThen {a b : Open D → Except PyErr Unit × Open D} (ha : Stable a) (hb : Stable b) :
    Stable (andThen a b) := by
  intro s
  have h := ha s
  unfold VgmX.andThen
  rcases hx : a s with ⟨r, s'⟩
  rw [hx] at h
  cases r with
  | error e => exact h
  | ok u => exact Kept.seq h (hb s') rfl

theorem Stable.tryFinally {a b : Open D → Except PyErr Unit × Open D} (ha : Stable a)
    (hb : Stable b) : Stable (tryFinally a b) := by
  intro s
  have h := ha s
  unfold VgmX.tryFinally
  rcases hx : a s with ⟨r, s'⟩
  rw [hx] at h
  have h' := hb s'
  simp only
  rcases hy : b s' with ⟨r', s''⟩
  rw [hy] at h'
  cases r' with
  | error e => exact Kept.fin h h' (.inl ⟨⟨e, rfl⟩, rfl⟩)
  | ok u => exact Kept.fin h h' (.inr ⟨rfl, rfl⟩)

theorem andThen_ok {a b : Open D → Except PyErr Unit × Open D} {s : Open D} {r : Except PyErr Unit}
    {s' : Open D} (ha : a s = (.ok (), s')) (hb : b s' = (r, s'')) :
    andThen a b s = (r, s'') := by
  unfold andThen; rw [ha]; exact hb

theorem raw_kept (bytes : Bytes) (s : Open D) :
    (s.raw bytes).2.name = s.name ∧ (∀ n, n ≠ s.name → (s.raw bytes).2.fs n = s.fs n) ∧
    (s.raw bytes).2.buf = s.buf ∧ (s.raw bytes).2.text = s.text ∧
    ((∃ k, (s.raw bytes).1 = .ok k ∧ (s.raw bytes).2.failed = s.failed) ∨
      (∃ e, (s.raw bytes).1 = .error e) ∧ (s.raw bytes).2.failed = true) := by
  unfold Open.raw
  rcases D.write s.dev s.content.length s.pos bytes.length with ⟨r, dev⟩
  cases r with
  | error e => exact ⟨rfl, fun _ _ => rfl, rfl, rfl, .inr ⟨⟨e, rfl⟩, rfl⟩⟩
  | ok k =>
    refine ⟨rfl, fun n hn => ?_, rfl, rfl, .inl ⟨_, rfl, rfl⟩⟩
    simp [setFile, hn]

theorem drain_kept (stop : Nat) : ∀ (fuel : Nat) (bytes : Bytes) (s : Open D),
    Kept (Open.drain stop fuel bytes s).1 s (Open.drain stop fuel bytes s).2.2 ∧
    (Open.drain stop fuel bytes s).2.2.buf = s.buf ∧
    (Open.drain stop fuel bytes s).2.2.text = s.text
  | 0, _, s => ⟨Kept.refl _ s, rfl, rfl⟩
  | fuel + 1, bytes, s => by
    unfold Open.drain
    by_cases h : bytes.length ≤ stop
    · rw [if_pos h]; exact ⟨Kept.refl _ s, rfl, rfl⟩
    · rw [if_neg h]
      have hr := raw_kept bytes s
      rcases hx : s.raw bytes with ⟨r, s'⟩
      rw [hx] at hr
      cases r with
      | error e =>
        refine ⟨⟨hr.1, hr.2.1, .inr ⟨⟨e, rfl⟩, ?_⟩⟩, hr.2.2.1, hr.2.2.2.1⟩
        rcases hr.2.2.2.2 with ⟨k, hk, _⟩ | h
        · cases hk
        · exact h.2
      | ok k =>
        have ih := drain_kept stop fuel (bytes.drop k) s'
        refine ⟨Kept.seq ⟨hr.1, hr.2.1, ?_⟩ ih.1 rfl, ih.2.1.trans hr.2.2.1,
          ih.2.2.trans hr.2.2.2.1⟩
        rcases hr.2.2.2.2 with ⟨_, _, h⟩ | ⟨⟨e, he⟩, _⟩
        · exact .inl h
        · cases he

theorem flush_keeps : Stable (D := D) Open.flush := by
  intro s
  have h := (drain_kept 0 s.buf.length s.buf s).1
  unfold Open.flush
  rcases hx : Open.drain 0 s.buf.length s.buf s with ⟨r, rest, s'⟩
  rw [hx] at h
  exact h

theorem write_keeps (b : Buffers) (bytes : Bytes) : Stable (D := D) (Open.write b bytes) := by
  intro s
  unfold Open.write
  split
  · exact Kept.refl _ s
  · have h := flush_keeps s
    rcases hx : s.flush with ⟨r, s'⟩
    rw [hx] at h
    cases r with
    | error e => exact h
    | ok u =>
      have h' := (drain_kept b.size bytes.length bytes s').1
      simp only
      rcases hy : Open.drain b.size bytes.length bytes s' with ⟨r', rest, s''⟩
      rw [hy] at h'
      cases r' with
      | error e => exact Kept.seq h h' rfl
      | ok u => exact Kept.seq h h' rfl

theorem seek_keeps (p : Nat) : Stable (D := D) (Open.seek p) := by
  intro s
  have h := flush_keeps s
  unfold Open.seek
  rcases hx : s.flush with ⟨r, s'⟩
  rw [hx] at h
  cases r with
  | error e => exact h
  | ok u => exact h

theorem textFlush_keeps (b : Buffers) : Stable (D := D) (Open.textFlush b) := by
  intro s
  unfold Open.textFlush
  split
  · exact Kept.refl _ s
  · exact write_keeps b s.text { s with text := [] }

theorem textWrite_keeps (b : Buffers) (bytes : Bytes) :
    Stable (D := D) (Open.textWrite b bytes) := by
  unfold Open.textWrite
  apply Stable.andThen
  · intro s
    dsimp only
    split
    · exact textFlush_keeps b s
    · exact Kept.refl _ s
  · intro s
    dsimp only
    split
    · exact textFlush_keeps b { s with text := s.text ++ bytes }
    · exact Kept.refl _ s

theorem textClose_keeps (b : Buffers) : Stable (D := D) (Open.textClose b) :=
  Stable.tryFinally (Stable.andThen (textFlush_keeps b) flush_keeps) flush_keeps

theorem zipEntry_keeps (b : Buffers) (t : DateTime) (entry data : Bytes) (s : Open D) :
    Kept (zipEntry b t entry data s).1.1 s (zipEntry b t entry data s).1.2 := by
  unfold zipEntry
  have h1 := write_keeps b (zipHeader0 t entry data.length) s
  rcases hy : s.write b (zipHeader0 t entry data.length) with ⟨r1, s2⟩
  rw [hy] at h1
  cases r1 with
  | error e => exact h1
  | ok u =>
    have h2 := write_keeps b data s2
    simp only
    rcases hz : s2.write b data with ⟨r2, s3⟩
    rw [hz] at h2
    simp only
    have h3 := Stable.andThen (seek_keeps 0) (Stable.andThen
      (write_keeps b (zipLocalHeader t entry (Spec.crc32 data) data.length))
      (seek_keeps s3.tell)) s3
    rcases hw : andThen (Open.seek 0) (andThen
      (Open.write b (zipLocalHeader t entry (Spec.crc32 data) data.length))
      (Open.seek s3.tell)) s3 with ⟨r3, s4⟩
    rw [hw] at h3
    cases r3 with
    | error e => exact Kept.seq h1 (Kept.fin h2 h3 (.inl ⟨⟨e, rfl⟩, rfl⟩)) rfl
    | ok u => exact Kept.seq h1 (Kept.fin h2 h3 (.inr ⟨rfl, rfl⟩)) rfl

theorem zipWritestr_keeps (b : Buffers) (t : DateTime) (entry data : Bytes) (s : Open D) :
    Kept (zipWritestr b t entry data s).1.1 s (zipWritestr b t entry data s).1.2 := by
  unfold zipWritestr
  split
  · exact Kept.refl _ s
  · have h := seek_keeps 0 s
    rcases hx : s.seek 0 with ⟨r, s1⟩
    rw [hx] at h
    cases r with
    | error e => exact h
    | ok u =>
      simp only
      split
      · exact Kept.seq h (Kept.refl _ s1) rfl
      · exact Kept.seq h (zipEntry_keeps b t entry data s1) rfl

theorem zipClose_keeps (b : Buffers) (t : DateTime) (entry data : Bytes) (start : Nat)
    (added : Bool) : Stable (D := D) (zipClose b t entry data start added) := by
  unfold zipClose
  apply Stable.andThen (seek_keeps _)
  apply Stable.andThen
  · intro s
    dsimp only
    split
    · exact Stable.andThen (write_keeps _ _) (write_keeps _ _) s
    · exact Kept.refl _ s
  · exact Stable.andThen (write_keeps _ _) flush_keeps

theorem zipFileF_keeps (b : Buffers)
    (zip64 : DateTime → Bytes → Bytes → Except PyErr Unit × Bytes) (t : DateTime)
    (entry data : Bytes) : Stable (D := D) (zipFileF b zip64 t entry data) := by
  intro s
  unfold zipFileF
  split
  · exact Stable.andThen (write_keeps _ _) (fun s => Kept.refl _ s) s
  · have h := zipWritestr_keeps b t entry data s
    rcases hx : zipWritestr b t entry data s with ⟨⟨r, s1⟩, start, added⟩
    rw [hx] at h
    simp only
    have h1 := zipClose_keeps b t entry data start added s1
    rcases hy : zipClose b t entry data start added s1 with ⟨r1, s2⟩
    rw [hy] at h1
    cases r1 with
    | error e => exact Kept.fin h h1 (.inl ⟨⟨e, rfl⟩, rfl⟩)
    | ok u => exact Kept.fin h h1 (.inr ⟨rfl, rfl⟩)

/-! ### What the operations do if no write fails -/

/-- The open file exists and the position is in it. -/
def Wf (s : Open D) : Prop := s.fs s.name ≠ none ∧ s.pos ≤ s.content.length

/-- The content once the buffer is written. -/
def Open.view (s : Open D) : Bytes := overwrite s.content s.pos s.buf

theorem raw_ok {bytes : Bytes} {s : Open D} (hw : Wf s) (hne : bytes ≠ []) :
    ∀ k, (s.raw bytes).1 = .ok k → 1 ≤ k ∧ k ≤ bytes.length ∧
      (s.raw bytes).2.content = overwrite s.content s.pos (bytes.take k) ∧
      (s.raw bytes).2.pos = s.pos + k ∧ Wf (s.raw bytes).2 := by
  intro k hk
  unfold Open.raw at hk ⊢
  generalize D.write s.dev s.content.length s.pos bytes.length = x at hk ⊢
  rcases x with ⟨r, dev⟩
  cases r with
  | error e => cases hk
  | ok j =>
    simp only [Except.ok.injEq] at hk
    have h1 : 0 < bytes.length := List.length_pos_iff.mpr hne
    have hl : k ≤ bytes.length := by omega
    subst hk
    refine ⟨by omega, hl, ?_, rfl, ?_, ?_⟩
    · simp [Open.content, setFile]
    · simp [setFile]
    · show s.pos + _ ≤ (Open.content _).length
      simp only [Open.content, setFile, if_true, Option.getD_some]
      have := overwrite_length hw.2 (bytes.take (max 1 (min j bytes.length)))
      unfold Open.content at this
      rw [this, List.length_take]
      omega

theorem drain_ok (stop : Nat) : ∀ (fuel : Nat) (bytes : Bytes) (s : Open D), bytes.length ≤ fuel →
    Wf s → (Open.drain stop fuel bytes s).2.2.failed = false →
    (Open.drain stop fuel bytes s).1 = .ok () ∧ Wf (Open.drain stop fuel bytes s).2.2 ∧
    (Open.drain stop fuel bytes s).2.1.length ≤ stop ∧
    overwrite (Open.drain stop fuel bytes s).2.2.content (Open.drain stop fuel bytes s).2.2.pos
      (Open.drain stop fuel bytes s).2.1 = overwrite s.content s.pos bytes ∧
    (Open.drain stop fuel bytes s).2.2.pos + (Open.drain stop fuel bytes s).2.1.length
      = s.pos + bytes.length
  | 0, bytes, s, hb, hw, _ => by
    have : bytes = [] := List.eq_nil_of_length_eq_zero (by omega)
    subst this
    exact ⟨rfl, hw, Nat.zero_le _, rfl, rfl⟩
  | fuel + 1, bytes, s, hb, hw, hf => by
    unfold Open.drain at hf ⊢
    by_cases h : bytes.length ≤ stop
    · rw [if_pos h]; exact ⟨rfl, hw, h, rfl, rfl⟩
    · rw [if_neg h] at hf ⊢
      have hr := raw_ok (bytes := bytes) (s := s) hw (by intro e; subst e; simp at h)
      have hrk := raw_kept bytes s
      rcases hx : s.raw bytes with ⟨r, s1⟩
      rw [hx] at hf hr hrk
      cases r with
      | error e =>
        rcases hrk.2.2.2.2 with ⟨_, h, _⟩ | ⟨_, h⟩
        · cases h
        · simp only at hf h; rw [h] at hf; cases hf
      | ok k' =>
        obtain ⟨hk1, hk2, hc, hp, hw1⟩ := hr k' rfl
        simp only at hf hk1 hk2 hc hp hw1 ⊢
        have hl : (bytes.take k').length = k' := by simp [hk2]
        obtain ⟨i1, i2, i3, i4, i5⟩ := drain_ok stop fuel (bytes.drop k') s1
          (by rw [List.length_drop]; omega) hw1 hf
        refine ⟨i1, i2, i3, ?_, ?_⟩
        · rw [i4, hc, hp]
          have := overwrite_append hw.2 (bytes.take k') (bytes.drop k')
          rw [hl, List.take_append_drop] at this
          exact this
        · rw [i5, hp, List.length_drop]; omega

theorem flush_ok {s : Open D} (hw : Wf s) (hf : s.flush.2.failed = false) :
    s.flush.1 = .ok () ∧ Wf s.flush.2 ∧ s.flush.2.buf = [] ∧ s.flush.2.content = s.view ∧
    s.flush.2.pos = s.tell ∧ s.flush.2.text = s.text ∧ s.flush.2.name = s.name := by
  have h := drain_ok 0 s.buf.length s.buf s (Nat.le_refl _) hw
  have h' := drain_kept 0 s.buf.length s.buf s
  have h'' := (flush_keeps s).1
  unfold Open.flush at hf h'' ⊢
  rcases hx : Open.drain 0 s.buf.length s.buf s with ⟨r, rest, s1⟩
  rw [hx] at h h' hf h''
  obtain ⟨i1, i2, i3, i4, i5⟩ := h hf
  have hr : rest = [] := List.eq_nil_of_length_eq_zero (by simpa using i3)
  subst hr
  rw [overwrite_nil] at i4
  refine ⟨i1, i2, rfl, i4, ?_, h'.2.2, h''⟩
  simpa [Open.tell] using i5

theorem write_ok (b : Buffers) (bytes : Bytes) {s : Open D} (hw : Wf s)
    (hf : (s.write b bytes).2.failed = false) :
    (s.write b bytes).1 = .ok () ∧ Wf (s.write b bytes).2 ∧
    (s.write b bytes).2.view = overwrite s.view s.tell bytes ∧
    (s.write b bytes).2.tell = s.tell + bytes.length ∧
    (s.write b bytes).2.text = s.text ∧ (s.write b bytes).2.name = s.name := by
  have hk := (write_keeps b bytes s).1
  unfold Open.write at hf hk ⊢
  by_cases h : bytes.length ≤ b.size - s.buf.length
  · rw [if_pos h]
    refine ⟨rfl, hw, ?_, ?_, rfl, rfl⟩
    · exact (overwrite_append hw.2 s.buf bytes).symm
    · simp [Open.tell, Nat.add_assoc]
  · rw [if_neg h] at hf hk ⊢
    have h1 := flush_ok hw
    have hk1 := flush_keeps s
    rcases hx : s.flush with ⟨r, s1⟩
    rw [hx] at h1 hf hk1 hk
    cases r with
    | error e => exact absurd (h1 hf).1 (by simp)
    | ok u =>
      simp only at hf hk ⊢
      have h2 := drain_ok b.size bytes.length bytes s1 (Nat.le_refl _)
      have hk2 := drain_kept b.size bytes.length bytes s1
      rcases hy : Open.drain b.size bytes.length bytes s1 with ⟨r', rest, s2⟩
      rw [hy] at h2 hf hk2 hk
      have hf2 : s2.failed = false := by cases r' <;> exact hf
      obtain ⟨i1, i2, i3, i4, i5, i6, i7⟩ := h1 (hk2.1.mono hf2)
      obtain ⟨j1, j2, j3, j4, j5⟩ := h2 i2 hf2
      cases r' with
      | error e => simp at j1
      | ok u =>
        simp only at i3 i4 i5 i6 i7 j4 j5 hk ⊢
        refine ⟨trivial, j2, ?_, ?_, hk2.2.2.trans i6, hk⟩
        · rw [← i4, ← i5]; exact j4
        · rw [← i5]; exact j5

theorem seek_ok {p : Nat} {s : Open D} (hw : Wf s) (hp : p ≤ s.view.length)
    (hf : (s.seek p).2.failed = false) :
    (s.seek p).1 = .ok () ∧ Wf (s.seek p).2 ∧ (s.seek p).2.view = s.view ∧
    (s.seek p).2.tell = p ∧ (s.seek p).2.text = s.text ∧ (s.seek p).2.name = s.name := by
  have h1 := flush_ok hw
  unfold Open.seek at hf ⊢
  rcases hx : s.flush with ⟨r, s1⟩
  rw [hx] at h1 hf
  have hf1 : s1.failed = false := by cases r <;> exact hf
  obtain ⟨i1, i2, i3, i4, i5, i6, i7⟩ := h1 hf1
  cases r with
  | error e => simp at i1
  | ok u =>
    simp only at i2 i3 i4 i5 i6 i7 ⊢
    refine ⟨trivial, ⟨i2.1, ?_⟩, ?_, ?_, i6, i7⟩
    · show p ≤ s1.content.length
      rw [i4]; exact hp
    · show overwrite s1.content p s1.buf = _
      rw [i3, overwrite_nil, i4]
    · show p + s1.buf.length = p
      rw [i3]; rfl

/-- What an operation does if no write fails: it returns, and content and position are these. -/
structure Wrote (r : Except PyErr Unit) (s' : Open D) (name : Str) (view : Bytes) (tell : Nat)
    (text : Bytes) : Prop where
  ok : r = .ok ()
  wf : Wf s'
  view : s'.view = view
  tell : s'.tell = tell
  text : s'.text = text
  name : s'.name = name

theorem write_did (b : Buffers) (bytes : Bytes) {s : Open D} (hw : Wf s)
    (hf : (s.write b bytes).2.failed = false) :
    Wrote (s.write b bytes).1 (s.write b bytes).2 s.name (overwrite s.view s.tell bytes)
      (s.tell + bytes.length) s.text := by
  obtain ⟨h1, h2, h3, h4, h5, h6⟩ := write_ok b bytes hw hf
  exact ⟨h1, h2, h3, h4, h5, h6⟩

theorem seek_did {p : Nat} {s : Open D} (hw : Wf s) (hp : p ≤ s.view.length)
    (hf : (s.seek p).2.failed = false) :
    Wrote (s.seek p).1 (s.seek p).2 s.name s.view p s.text := by
  obtain ⟨h1, h2, h3, h4, h5, h6⟩ := seek_ok hw hp hf
  exact ⟨h1, h2, h3, h4, h5, h6⟩

theorem flush_did {s : Open D} (hw : Wf s) (hf : s.flush.2.failed = false) :
    Wrote s.flush.1 s.flush.2 s.name s.view s.tell s.text ∧ s.flush.2.content = s.view := by
  obtain ⟨h1, h2, h3, h4, h5, h6, h7⟩ := flush_ok hw hf
  refine ⟨⟨h1, h2, ?_, ?_, h6, h7⟩, h4⟩
  · unfold Open.view; rw [h3, overwrite_nil, h4]; rfl
  · unfold Open.tell; rw [h3, h5]; rfl

/-- The second of two operations. -/
theorem andThen_split {a b : Open D → Except PyErr Unit × Open D} {s : Open D} (hb : Stable b)
    (hf : (andThen a b s).2.failed = false)
    (ha : (a s).2.failed = false → (a s).1 = .ok ()) :
    (a s).2.failed = false ∧ (b (a s).2).2.failed = false ∧ andThen a b s = b (a s).2 := by
  unfold andThen at hf ⊢
  rcases hx : a s with ⟨r, s'⟩
  rw [hx] at hf ha
  cases r with
  | error e => exact absurd (ha hf) (by simp)
  | ok u => exact ⟨(hb s').mono hf, hf, rfl⟩

/-- `finally`. -/
theorem tryFinally_split {a b : Open D → Except PyErr Unit × Open D} {s : Open D} (hb : Stable b)
    (hf : (tryFinally a b s).2.failed = false)
    (hok : (a s).2.failed = false → (b (a s).2).2.failed = false → (b (a s).2).1 = .ok ()) :
    (a s).2.failed = false ∧ (b (a s).2).2.failed = false ∧
      tryFinally a b s = ((a s).1, (b (a s).2).2) := by
  unfold tryFinally at hf ⊢
  rcases hx : a s with ⟨r, s'⟩
  rw [hx] at hf hok
  simp only at hf hok ⊢
  rcases hy : b s' with ⟨r', s''⟩
  have hk := hb s'
  rw [hy] at hf hok hk
  have hf' : s''.failed = false := by cases r' <;> exact hf
  have h1 := hok (hk.mono hf') hf'
  simp only at h1
  subst h1
  exact ⟨hk.mono hf', hf', rfl⟩

/-- Text: what is pending counts as written. -/
theorem textFlush_did (b : Buffers) {s : Open D} (hw : Wf s)
    (hf : (s.textFlush b).2.failed = false) :
    Wrote (s.textFlush b).1 (s.textFlush b).2 s.name (overwrite s.view s.tell s.text)
      (s.tell + s.text.length) [] := by
  unfold Open.textFlush at hf ⊢
  by_cases h : s.text = []
  · rw [if_pos h]
    refine ⟨rfl, hw, ?_, ?_, h, rfl⟩
    · rw [h, overwrite_nil]
    · rw [h]; rfl
  · rw [if_neg h] at hf ⊢
    exact write_did b s.text (s := { s with text := [] }) hw hf

/-- The content with what is pending. -/
def Open.full (s : Open D) : Bytes := overwrite s.view s.tell s.text

/-- The position with what is pending. -/
def Open.fullTell (s : Open D) : Nat := s.tell + s.text.length

theorem view_length {s : Open D} (hw : Wf s) : s.tell ≤ s.view.length := by
  unfold Open.tell Open.view
  rw [overwrite_length hw.2]
  omega

theorem textWrite_did (b : Buffers) (bytes : Bytes) {s : Open D} (hw : Wf s)
    (hf : (s.textWrite b bytes).2.failed = false) :
    (s.textWrite b bytes).1 = .ok () ∧ Wf (s.textWrite b bytes).2 ∧
    (s.textWrite b bytes).2.full = overwrite s.full s.fullTell bytes ∧
    (s.textWrite b bytes).2.fullTell = s.fullTell + bytes.length ∧
    (s.textWrite b bytes).2.name = s.name := by
  unfold Open.textWrite at hf ⊢
  -- first part
  have h1 : ∀ s : Open D, Wf s →
      ((fun s : Open D => if s.text.length + bytes.length > b.chunk then s.textFlush b
        else (.ok (), s)) s).2.failed = false →
      ((fun s : Open D => if s.text.length + bytes.length > b.chunk then s.textFlush b
        else (.ok (), s)) s).1 = .ok () ∧
      Wf ((fun s : Open D => if s.text.length + bytes.length > b.chunk then s.textFlush b
        else (.ok (), s)) s).2 ∧
      ((fun s : Open D => if s.text.length + bytes.length > b.chunk then s.textFlush b
        else (.ok (), s)) s).2.full = s.full ∧
      ((fun s : Open D => if s.text.length + bytes.length > b.chunk then s.textFlush b
        else (.ok (), s)) s).2.fullTell = s.fullTell ∧
      ((fun s : Open D => if s.text.length + bytes.length > b.chunk then s.textFlush b
        else (.ok (), s)) s).2.name = s.name := by
    intro s hw hf
    dsimp only at hf ⊢
    by_cases h : s.text.length + bytes.length > b.chunk
    · rw [if_pos h] at hf ⊢
      have d := textFlush_did b hw hf
      refine ⟨d.ok, d.wf, ?_, ?_, d.name⟩
      · unfold Open.full; rw [d.view, d.tell, d.text, overwrite_nil]
      · unfold Open.fullTell; rw [d.tell, d.text]; rfl
    · rw [if_neg h]
      exact ⟨rfl, hw, rfl, rfl, rfl⟩
  have h2 : ∀ s : Open D, Wf s →
      ((fun s : Open D =>
        let s := { s with text := s.text ++ bytes }
        if s.text.length ≥ b.chunk then s.textFlush b else (.ok (), s)) s).2.failed = false →
      ((fun s : Open D =>
        let s := { s with text := s.text ++ bytes }
        if s.text.length ≥ b.chunk then s.textFlush b else (.ok (), s)) s).1 = .ok () ∧
      Wf ((fun s : Open D =>
        let s := { s with text := s.text ++ bytes }
        if s.text.length ≥ b.chunk then s.textFlush b else (.ok (), s)) s).2 ∧
      ((fun s : Open D =>
        let s := { s with text := s.text ++ bytes }
        if s.text.length ≥ b.chunk then s.textFlush b else (.ok (), s)) s).2.full
          = overwrite s.full s.fullTell bytes ∧
      ((fun s : Open D =>
        let s := { s with text := s.text ++ bytes }
        if s.text.length ≥ b.chunk then s.textFlush b else (.ok (), s)) s).2.fullTell
          = s.fullTell + bytes.length ∧
      ((fun s : Open D =>
        let s := { s with text := s.text ++ bytes }
        if s.text.length ≥ b.chunk then s.textFlush b else (.ok (), s)) s).2.name = s.name := by
    intro s hw hf
    have hv : overwrite s.full s.fullTell bytes = overwrite s.view s.tell (s.text ++ bytes) :=
      overwrite_append (view_length hw) s.text bytes
    dsimp only at hf ⊢
    split at hf
    · rename_i h
      rw [if_pos h]
      have d := textFlush_did b (s := { s with text := s.text ++ bytes }) hw hf
      refine ⟨d.ok, d.wf, ?_, ?_, d.name⟩
      · unfold Open.full
        rw [d.view, d.tell, d.text, overwrite_nil]
        exact hv.symm
      · unfold Open.fullTell
        rw [d.tell, d.text]
        show s.tell + (s.text ++ bytes).length + 0 = _
        rw [List.length_append]; omega
    · rename_i h
      rw [if_neg h]
      refine ⟨rfl, hw, ?_, ?_, rfl⟩
      · exact hv.symm
      · unfold Open.fullTell
        show s.tell + (s.text ++ bytes).length = _
        rw [List.length_append]; omega
  have hk2 : Stable (D := D) (fun s : Open D =>
        let s := { s with text := s.text ++ bytes }
        if s.text.length ≥ b.chunk then s.textFlush b else (.ok (), s)) := by
    intro s
    dsimp only
    split
    · exact textFlush_keeps b { s with text := s.text ++ bytes }
    · exact Kept.refl _ s
  obtain ⟨f1, f2, e⟩ := andThen_split hk2 hf (fun h => (h1 s hw h).1)
  obtain ⟨_, w1, v1, t1, n1⟩ := h1 s hw f1
  obtain ⟨r2, w2, v2, t2, n2⟩ := h2 _ w1 f2
  rw [e]
  exact ⟨r2, w2, by rw [v2, v1, t1], by rw [t2, t1], n2.trans n1⟩

theorem textClose_did (b : Buffers) {s : Open D} (hw : Wf s)
    (hf : (s.textClose b).2.failed = false) :
    (s.textClose b).1 = .ok () ∧ (s.textClose b).2.content = s.full ∧
    (s.textClose b).2.name = s.name ∧ Wf (s.textClose b).2 := by
  unfold Open.textClose at hf ⊢
  have key : ∀ (hf : (andThen (Open.textFlush b) Open.flush s).2.failed = false),
      (andThen (Open.textFlush b) Open.flush s).1 = .ok () ∧
      Wf (andThen (Open.textFlush b) Open.flush s).2 ∧
      (andThen (Open.textFlush b) Open.flush s).2.view = s.full ∧
      (andThen (Open.textFlush b) Open.flush s).2.name = s.name := by
    intro hf
    obtain ⟨f1, f2, e⟩ := andThen_split flush_keeps hf (fun h => (textFlush_did b hw h).ok)
    have d1 := textFlush_did b hw f1
    have d2 := (flush_did d1.wf f2).1
    rw [e]
    exact ⟨d2.ok, d2.wf, by rw [d2.view, d1.view]; rfl, d2.name.trans d1.name⟩
  obtain ⟨f1, f2, e⟩ := tryFinally_split flush_keeps hf
    (fun h h' => (flush_did (key h).2.1 h').1.ok)
  obtain ⟨k1, k2, k3, k4⟩ := key f1
  obtain ⟨d, c⟩ := flush_did k2 f2
  rw [e]
  exact ⟨k1, c.trans k3, d.name.trans k4, d.wf⟩

end VgmX
