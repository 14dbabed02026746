import Verif.Spec.Disk
import Verif.Lemmas.FaultsZip
/-
Lemmas about writing to a disk with a number of free bytes.
-/

namespace VgmX
open Spec

/-- The free bytes. -/
def Open.free (s : Open disk) : Nat := s.dev

/-- At the end of the file. -/
structure App (s : Open disk) : Prop where
  wf : Wf s
  pos : s.pos = s.content.length

theorem disk_none (len n : Nat) :
    disk.write (0 : Nat) len len n = (.error (.other 28), (0 : Nat)) := by
  show (if min n ((len - len) + 0) = 0 then (.error (.other 28), 0)
    else (.ok (min n ((len - len) + 0)), 0 - (len + min n ((len - len) + 0) - len)) :
      Except PyErr Nat × Nat) = _
  rw [if_pos (by omega)]

theorem disk_some (free len n : Nat) (h : free ≠ 0) (hn : 0 < n) :
    disk.write free len len n = (.ok (min n free), (free - min n free : Nat)) := by
  show (if min n ((len - len) + free) = 0 then (.error (.other 28), free)
    else (.ok (min n ((len - len) + free)), free - (len + min n ((len - len) + free) - len)) :
      Except PyErr Nat × Nat) = _
  rw [Nat.sub_self, Nat.zero_add, if_neg (by omega), Nat.add_sub_cancel_left]

/-- `write(2)` at the end of the file. -/
theorem disk_raw {bytes : Bytes} {s : Open disk} (ha : App s) (hne : bytes ≠ []) :
    (s.free = 0 ∧ ∃ e, s.raw bytes = (.error e, { s with failed := true })) ∨
    ∃ k, 1 ≤ k ∧ k ≤ bytes.length ∧ (s.raw bytes).1 = .ok k ∧ App (s.raw bytes).2 ∧
      (s.raw bytes).2.content = s.content ++ bytes.take k ∧
      (s.raw bytes).2.free + k = s.free ∧ (s.raw bytes).2.failed = s.failed := by
  have hpos : 0 < bytes.length := List.length_pos_iff.mpr hne
  by_cases h0 : s.free = 0
  · left
    refine ⟨h0, .other 28, ?_⟩
    have h0' : s.dev = (0 : Nat) := h0
    unfold Open.raw
    rw [ha.pos, h0', disk_none]
  · right
    have hraw := raw_ok ha.wf hne
    have hk := raw_kept bytes s
    have hw : disk.write s.dev s.content.length s.pos bytes.length
        = (.ok (min bytes.length s.free), (s.free - min bytes.length s.free : Nat)) := by
      rw [ha.pos]
      exact disk_some s.free _ _ h0 hpos
    have h1 : (s.raw bytes).1 = .ok (min bytes.length s.free) ∧
        (s.raw bytes).2.free = s.free - min bytes.length s.free ∧
        (s.raw bytes).2.failed = s.failed := by
      unfold Open.raw
      rw [hw]
      refine ⟨?_, rfl, rfl⟩
      dsimp only
      congr 1
      omega
    obtain ⟨r1, r2, r3, r4, r5⟩ := hraw _ h1.1
    rw [ha.pos, overwrite_end] at r3
    refine ⟨_, r1, r2, h1.1, ⟨r5, ?_⟩, r3, by omega, h1.2.2⟩
    rw [r4, r3, ha.pos, List.length_append, List.length_take]
    omega

theorem disk_drain (stop : Nat) : ∀ (fuel : Nat) (bytes : Bytes) (s : Open disk),
    bytes.length ≤ fuel → App s →
    ∃ m, m ≤ bytes.length ∧ App (Open.drain stop fuel bytes s).2.2 ∧
      (Open.drain stop fuel bytes s).2.1 = bytes.drop m ∧
      (Open.drain stop fuel bytes s).2.2.content = s.content ++ bytes.take m ∧
      (Open.drain stop fuel bytes s).2.2.free + m = s.free ∧
      (((Open.drain stop fuel bytes s).1 = .ok () ∧
          (Open.drain stop fuel bytes s).2.2.failed = s.failed ∧ bytes.length ≤ m + stop) ∨
        ((∃ e, (Open.drain stop fuel bytes s).1 = .error e) ∧
          (Open.drain stop fuel bytes s).2.2.failed = true ∧
          (Open.drain stop fuel bytes s).2.2.free = 0 ∧ m + stop < bytes.length))
  | 0, bytes, s, hl, ha => by
    refine ⟨0, Nat.zero_le _, ha, by simp [Open.drain], by simp [Open.drain], by simp [Open.drain],
      .inl ⟨rfl, rfl, by omega⟩⟩
  | fuel + 1, bytes, s, hl, ha => by
    unfold Open.drain
    by_cases hs : bytes.length ≤ stop
    · rw [if_pos hs]
      exact ⟨0, Nat.zero_le _, ha, by simp, by simp, by simp, .inl ⟨rfl, rfl, by omega⟩⟩
    · rw [if_neg hs]
      have hne : bytes ≠ [] := by rintro rfl; simp at hs
      rcases disk_raw ha hne with ⟨h0, e, he⟩ | ⟨k, k1, k2, h1, h2, h3, h4, h5⟩
      · rw [he]
        refine ⟨0, Nat.zero_le _, ⟨ha.wf, ha.pos⟩, by simp, ?_, ?_,
          .inr ⟨⟨e, rfl⟩, rfl, h0, by omega⟩⟩
        · simp [Open.content]
        · rfl
      · rcases hx : s.raw bytes with ⟨r, s'⟩
        rw [hx] at h1 h2 h3 h4 h5
        dsimp only at h1 h2 h3 h4 h5
        subst h1
        dsimp only
        obtain ⟨m, m1, m2, m3, m4, m5, m6⟩ := disk_drain stop fuel (bytes.drop k) s'
          (by rw [List.length_drop]; omega) h2
        rw [List.length_drop] at m1 m6
        refine ⟨k + m, by omega, m2, ?_, ?_, by omega, ?_⟩
        · rw [m3, List.drop_drop]
        · rw [m4, h3, List.append_assoc, List.take_add]
        · rcases m6 with ⟨a, b, c⟩ | ⟨a, b, c, d⟩
          · exact .inl ⟨a, b.trans h5, by omega⟩
          · exact .inr ⟨a, b, c, by omega⟩

/-- Everything written to the file so far. -/
def Open.all (s : Open disk) : Bytes := s.content ++ s.buf ++ s.text

theorem disk_flush {s : Open disk} (ha : App s) :
    App s.flush.2 ∧ s.flush.2.text = s.text ∧ s.flush.2.name = s.name ∧
    (∃ x, s.flush.2.content = s.content ++ x) ∧
    s.flush.2.content ++ s.flush.2.buf = s.content ++ s.buf ∧
    s.flush.2.free + s.flush.2.content.length = s.free + s.content.length ∧
    ((s.flush.1 = .ok () ∧ s.flush.2.failed = s.failed ∧ s.flush.2.buf = []) ∨
      ((∃ e, s.flush.1 = .error e) ∧ s.flush.2.failed = true ∧ s.flush.2.free = 0 ∧
        s.flush.2.buf ≠ [])) := by
  obtain ⟨m, m1, m2, m3, m4, m5, m6⟩ := disk_drain 0 s.buf.length s.buf s (Nat.le_refl _) ha
  have hk := drain_kept 0 s.buf.length s.buf s
  unfold Open.flush
  rcases hx : Open.drain 0 s.buf.length s.buf s with ⟨r, rest, s'⟩
  rw [hx] at m2 m3 m4 m5 m6 hk
  dsimp only at m2 m3 m4 m5 m6 hk ⊢
  have hc : Open.content { s' with buf := rest } = s'.content := rfl
  refine ⟨⟨m2.wf, m2.pos⟩, hk.2.2, hk.1.1, ⟨_, m4⟩, ?_, ?_, ?_⟩
  · rw [hc, m3, m4, List.append_assoc, List.take_append_drop]
  · rw [hc, m4, List.length_append, List.length_take]
    show s'.free + _ = _
    omega
  · rcases m6 with ⟨a, b, c⟩ | ⟨a, b, c, d⟩
    · exact .inl ⟨a, b, by rw [m3]; exact List.drop_eq_nil_of_le (by omega)⟩
    · refine .inr ⟨a, b, c, ?_⟩
      rw [m3]
      intro h
      have := List.drop_eq_nil_iff.mp h
      omega

/-- `f.write(bytes)` at the end of the file: done; or the buffer could not be flushed; or the
bytes could be written only in part. -/
theorem disk_write (b : Buffers) (bytes : Bytes) {s : Open disk} (ha : App s) :
    App (s.write b bytes).2 ∧ (s.write b bytes).2.text = s.text ∧
    (s.write b bytes).2.name = s.name ∧
    (∃ x, (s.write b bytes).2.content = s.content ++ x) ∧
    (s.write b bytes).2.free + (s.write b bytes).2.content.length = s.free + s.content.length ∧
    (((s.write b bytes).1 = .ok () ∧ (s.write b bytes).2.failed = s.failed ∧
        (s.write b bytes).2.content ++ (s.write b bytes).2.buf = s.content ++ s.buf ++ bytes) ∨
      ((∃ e, (s.write b bytes).1 = .error e) ∧ (s.write b bytes).2.failed = true ∧
        (s.write b bytes).2.free = 0 ∧ b.size < s.buf.length + bytes.length ∧
        (((s.write b bytes).2.buf ≠ [] ∧
            (s.write b bytes).2.content ++ (s.write b bytes).2.buf = s.content ++ s.buf) ∨
          ((s.write b bytes).2.buf = [] ∧ ∃ m, m < bytes.length ∧
            (s.write b bytes).2.content = s.content ++ s.buf ++ bytes.take m)))) := by
  have hk := (write_keeps b bytes s).1
  unfold Open.write at hk ⊢
  by_cases hfit : bytes.length ≤ b.size - s.buf.length
  · rw [if_pos hfit] at hk ⊢
    refine ⟨⟨ha.wf, ha.pos⟩, rfl, rfl, ⟨[], (List.append_nil _).symm⟩, rfl,
      .inl ⟨rfl, rfl, ?_⟩⟩
    show s.content ++ (s.buf ++ bytes) = _
    rw [List.append_assoc]
  · rw [if_neg hfit] at hk ⊢
    obtain ⟨f1, f2, f3, ⟨x, fx⟩, f4, f5, f6⟩ := disk_flush ha
    rcases hx : s.flush with ⟨r, s1⟩
    rw [hx] at f1 f2 f3 fx f4 f5 f6 hk
    dsimp only at f1 f2 f3 fx f4 f5 f6
    rcases f6 with ⟨a1, a2, a3⟩ | ⟨⟨e, a1⟩, a2, a3, a4⟩
    · subst a1
      dsimp only at hk ⊢
      rw [a3, List.append_nil] at f4
      obtain ⟨m, m1, m2, m3, m4, m5, m6⟩ := disk_drain b.size bytes.length bytes s1
        (Nat.le_refl _) f1
      have hd := drain_kept b.size bytes.length bytes s1
      rcases hy : Open.drain b.size bytes.length bytes s1 with ⟨r, rest, s2⟩
      rw [hy] at m2 m3 m4 m5 m6 hk hd
      dsimp only at m2 m3 m4 m5 m6 hk hd
      rcases m6 with ⟨c1, c2, c3⟩ | ⟨⟨e, c1⟩, c2, c3, c4⟩
      · subst c1
        have hc : Open.content { s2 with buf := rest } = s2.content := rfl
        refine ⟨⟨m2.wf, m2.pos⟩, hd.2.2.trans f2, hk, ⟨_, m4.trans (by rw [fx, List.append_assoc])⟩, ?_,
          .inl ⟨rfl, c2.trans a2, ?_⟩⟩
        · dsimp only
          rw [hc, m4, List.length_append, List.length_take]
          show s2.free + _ = _
          omega
        · dsimp only
          rw [hc, m3, m4, List.append_assoc, List.take_append_drop, f4]
      · subst c1
        refine ⟨m2, hd.2.2.trans f2, hk, ⟨_, m4.trans (by rw [fx, List.append_assoc])⟩, ?_,
          .inr ⟨⟨e, rfl⟩, c2, c3, by omega, .inr ⟨?_, m, ?_, ?_⟩⟩⟩
        · dsimp only
          rw [m4, List.length_append, List.length_take]
          omega
        · exact hd.2.1.trans a3
        · omega
        · rw [m4, f4]
    · subst a1
      exact ⟨f1, f2, f3, ⟨x, fx⟩, f5, .inr ⟨⟨e, rfl⟩, a2, a3, by omega, .inl ⟨a4, f4⟩⟩⟩

/-! ### A full disk -/

/-- No room is left; the file is `c`. -/
structure Stuck (s : Open disk) (c : Bytes) : Prop where
  app : App s
  full : s.free = 0
  content : s.content = c

/-- On a full disk this does not change the file. -/
def Stays (a : Open disk → Except PyErr Unit × Open disk) : Prop :=
  ∀ s c, Stuck s c → Stuck (a s).2 c

theorem Stays.andThen {a b : Open disk → Except PyErr Unit × Open disk} (ha : Stays a)
    (hb : Stays b) : Stays (andThen a b) := by
  intro s c h
  have h1 := ha s c h
  unfold VgmX.andThen
  rcases hx : a s with ⟨r, s'⟩
  rw [hx] at h1
  cases r with
  | error e => exact h1
  | ok _ => exact hb s' c h1

theorem Stays.tryFinally {a b : Open disk → Except PyErr Unit × Open disk} (ha : Stays a)
    (hb : Stays b) : Stays (tryFinally a b) := by
  intro s c h
  have h1 := hb _ c (ha s c h)
  unfold VgmX.tryFinally
  rcases hx : a s with ⟨r, s'⟩
  rw [hx] at h1
  dsimp only at h1 ⊢
  rcases hy : b s' with ⟨r', s''⟩
  rw [hy] at h1
  cases r' <;> exact h1

theorem stuck_of {s s' : Open disk} {c : Bytes} {x : Bytes} (h : Stuck s c) (ha : App s')
    (hf : s'.free + s'.content.length = s.free + s.content.length)
    (hp : s'.content = s.content ++ x) : Stuck s' c := by
  have h0 := h.full
  have hl : s'.content.length = s.content.length + x.length := by rw [hp, List.length_append]
  have hx : x = [] := List.eq_nil_of_length_eq_zero (by omega)
  refine ⟨ha, by omega, ?_⟩
  rw [hp, hx, List.append_nil, h.content]

theorem flush_stays : Stays Open.flush := by
  intro s c h
  obtain ⟨f1, f2, f3, ⟨x, fx⟩, f4, f5, f6⟩ := disk_flush h.app
  exact stuck_of h f1 f5 fx

theorem write_stays (b : Buffers) (bytes : Bytes) : Stays (Open.write b bytes) := by
  intro s c h
  obtain ⟨f1, f2, f3, ⟨x, fx⟩, f4, f5⟩ := disk_write b bytes h.app
  exact stuck_of h f1 f4 fx

theorem textFlush_stays (b : Buffers) : Stays (Open.textFlush b) := by
  intro s c h
  unfold Open.textFlush
  split
  · exact h
  · exact write_stays b s.text { s with text := [] } c ⟨⟨h.app.wf, h.app.pos⟩, h.full, h.content⟩

theorem textClose_stays (b : Buffers) : Stays (Open.textClose b) :=
  .tryFinally (.andThen (textFlush_stays b) flush_stays) flush_stays

/-! ### Texts -/

/-- An operation that adds `bytes` to what has been written, or fails because the disk is full;
then the file holds the first part of that. -/
structure Appends (x : Except PyErr Unit × Open disk) (s : Open disk) (bytes : Bytes) : Prop where
  app : App x.2
  name : x.2.name = s.name
  room : x.2.free + x.2.content.length = s.free + s.content.length
  done : (x.1 = .ok () ∧ x.2.failed = s.failed ∧ x.2.all = s.all ++ bytes) ∨
    ((∃ e, x.1 = .error e) ∧ x.2.failed = true ∧ x.2.free = 0 ∧ x.2.content <+: s.all ++ bytes ∧
      x.2.content.length < (s.all ++ bytes).length)

theorem Appends.andThen {a f : Open disk → Except PyErr Unit × Open disk} {s : Open disk}
    {p q : Bytes} (h : Appends (a s) s p)
    (hf : (a s).1 = .ok () → Appends (f (a s).2) (a s).2 q) :
    Appends (andThen a f s) s (p ++ q) := by
  unfold VgmX.andThen
  generalize a s = x at h hf ⊢
  obtain ⟨r, s1⟩ := x
  rcases h.done with ⟨a1, a2, a3⟩ | ⟨⟨e, a1⟩, a2, a3, a4, a5⟩
  · dsimp only at a1 a2 a3
    subst a1
    have h' := hf rfl
    refine ⟨h'.app, h'.name.trans h.name, h'.room.trans h.room, ?_⟩
    dsimp only
    rw [← List.append_assoc, ← a3, ← a2]
    exact h'.done
  · dsimp only at a1 a2 a3 a4 a5
    subst a1
    refine ⟨h.app, h.name, h.room, .inr ⟨⟨e, rfl⟩, a2, a3, ?_, ?_⟩⟩
    · rw [← List.append_assoc]; exact a4.trans (List.prefix_append _ _)
    · rw [← List.append_assoc, List.length_append]; dsimp only; omega

theorem write_appends (b : Buffers) (bytes : Bytes) {s : Open disk} (ha : App s)
    (ht : s.text = []) : Appends (s.write b bytes) s bytes := by
  obtain ⟨f1, f2, f3, _, f4, f5⟩ := disk_write b bytes ha
  refine ⟨f1, f3, f4, ?_⟩
  unfold Open.all
  rw [f2, ht, List.append_nil, List.append_nil]
  rcases f5 with ⟨a1, a2, a3⟩ | ⟨a1, a2, a3, _, a4⟩
  · exact .inl ⟨a1, a2, a3⟩
  · refine .inr ⟨a1, a2, a3, ?_⟩
    rcases a4 with ⟨b1, b2⟩ | ⟨b1, m, b2, b3⟩
    · rw [← b2, List.append_assoc]
      refine ⟨List.prefix_append _ _, ?_⟩
      have := List.length_pos_iff.mpr b1
      rw [List.length_append, List.length_append]
      omega
    · rw [b3]
      refine ⟨(List.prefix_append_right_inj _).mpr (List.take_prefix _ _), ?_⟩
      simp only [List.length_append, List.length_take]
      omega

theorem flush_appends {s : Open disk} (ha : App s) (ht : s.text = []) :
    Appends s.flush s [] ∧ (s.flush.1 = .ok () → s.flush.2.buf = [] ∧ s.flush.2.text = []) := by
  obtain ⟨f1, f2, f3, _, f4, f5, f6⟩ := disk_flush ha
  constructor
  · refine ⟨f1, f3, f5, ?_⟩
    unfold Open.all
    rw [f2, ht, List.append_nil, List.append_nil, List.append_nil]
    rcases f6 with ⟨a1, a2, a3⟩ | ⟨a1, a2, a3, a4⟩
    · exact .inl ⟨a1, a2, f4⟩
    · refine .inr ⟨a1, a2, a3, ?_⟩
      rw [← f4]
      refine ⟨List.prefix_append _ _, ?_⟩
      have := List.length_pos_iff.mpr a4
      rw [List.length_append]
      omega
  · intro h
    rcases f6 with ⟨a1, a2, a3⟩ | ⟨⟨e, a1⟩, _⟩
    · exact ⟨a3, f2.trans ht⟩
    · rw [h] at a1; cases a1

theorem textFlush_appends (b : Buffers) {s : Open disk} (ha : App s) :
    Appends (s.textFlush b) s [] ∧ (s.textFlush b).2.text = [] := by
  unfold Open.textFlush
  by_cases h : s.text = []
  · rw [if_pos h]
    exact ⟨⟨ha, rfl, rfl, .inl ⟨rfl, rfl, by simp⟩⟩, h⟩
  · rw [if_neg h]
    have hA : App ({ s with text := [] } : Open disk) := ⟨ha.wf, ha.pos⟩
    have h' := write_appends b s.text hA rfl
    have e : ({ s with text := [] } : Open disk).all ++ s.text = s.all ++ [] := by
      simp [Open.all, Open.content]
    refine ⟨⟨h'.app, h'.name, h'.room, ?_⟩, ?_⟩
    · rw [← e]; exact h'.done
    · exact (disk_write b s.text hA).2.1

theorem textWrite_appends (b : Buffers) (bytes : Bytes) {s : Open disk} (ha : App s) :
    Appends (s.textWrite b bytes) s bytes := by
  unfold Open.textWrite
  have h1 : Appends (if s.text.length + bytes.length > b.chunk then s.textFlush b else (.ok (), s))
      s [] := by
    split
    · exact (textFlush_appends b ha).1
    · exact ⟨ha, rfl, rfl, .inl ⟨rfl, rfl, by simp⟩⟩
  refine Appends.andThen (p := []) (q := bytes) h1 ?_
  intro _
  dsimp only
  generalize (if s.text.length + bytes.length > b.chunk then s.textFlush b else (.ok (), s)) = x
    at h1 ⊢
  obtain ⟨r, s1⟩ := x
  have hA : App ({ s1 with text := s1.text ++ bytes } : Open disk) := ⟨h1.app.wf, h1.app.pos⟩
  have e : ({ s1 with text := s1.text ++ bytes } : Open disk).all = s1.all ++ bytes := by
    simp [Open.all, Open.content]
  dsimp only
  split
  · have h' := (textFlush_appends b hA).1
    refine ⟨h'.app, h'.name, h'.room, ?_⟩
    have := h'.done
    rw [List.append_nil, e] at this
    exact this
  · exact ⟨hA, rfl, rfl, .inl ⟨rfl, rfl, e⟩⟩

/-- How writing the content `whole` to a new file ends, with room for `room` bytes. -/
structure Filled (x : Except PyErr Unit × Open disk) (whole : Bytes) (room : Nat) : Prop where
  wf : Wf x.2
  done : (x.1 = .ok () ∧ x.2.content = whole ∧ x.2.free + whole.length = room) ∨
    ((∃ e, x.1 = .error e) ∧ x.2.content = whole.take room ∧ room < whole.length ∧ x.2.free = 0)

/-- `with open(..) as f` around something that adds to the file. -/
theorem textClose_filled (b : Buffers) {a : Open disk → Except PyErr Unit × Open disk}
    {s : Open disk} {whole : Bytes} (h : Appends (a s) s whole) (h0 : s.all = [])
    (hc : s.content = []) :
    Filled (tryFinally a (Open.textClose b) s) whole s.free := by
  unfold tryFinally
  generalize a s = x at *
  have hroom := h.room
  rw [hc] at hroom
  have hpre : ∀ c : Bytes, c <+: whole → c.length < whole.length → c.length = s.free →
      c = whole.take s.free ∧ s.free < whole.length := by
    intro c h1 h2 h3
    rw [← h3]
    exact ⟨List.prefix_iff_eq_take.mp h1, h2⟩
  obtain ⟨r, s1⟩ := x
  dsimp only
  rcases h.done with ⟨a1, a2, a3⟩ | ⟨⟨e, a1⟩, a2, a3, a4, a5⟩
  · dsimp only at a1 a2 a3 hroom
    subst a1
    rw [h0, List.nil_append] at a3
    -- the text, then the buffer
    obtain ⟨t1, t2⟩ := textFlush_appends b h.app
    have hseq := Appends.andThen (q := []) t1 (fun _ => (flush_appends t1.app t2).1)
    have hend : (andThen (Open.textFlush b) Open.flush s1).1 = .ok () →
        (andThen (Open.textFlush b) Open.flush s1).2.buf = [] ∧
        (andThen (Open.textFlush b) Open.flush s1).2.text = [] := by
      unfold andThen
      have hfl := (flush_appends t1.app t2).2
      rcases hx : s1.textFlush b with ⟨r, s2⟩
      rw [hx] at hfl
      cases r with
      | error e => intro h; cases h
      | ok _ => exact hfl
    dsimp only at hseq
    unfold Open.textClose tryFinally
    generalize andThen (Open.textFlush b) Open.flush s1 = y at hseq hend ⊢
    obtain ⟨r2, s2⟩ := y
    rcases hseq.done with ⟨b1, b2, b3⟩ | ⟨⟨e, b1⟩, b2, b3, b4, b5⟩
    · dsimp only at b1 b2 b3 hend ⊢
      subst b1
      obtain ⟨c1, c2⟩ := hend rfl
      have hflush : s2.flush = (.ok (), s2) := by
        unfold Open.flush
        rw [c1]
        cases s2
        dsimp only at c1
        subst c1
        rfl
      rw [hflush]
      have hw : s2.content = whole := by
        have : s2.all = s2.content := by unfold Open.all; rw [c1, c2]; simp
        rw [← this, b3, a3]; simp
      refine ⟨hseq.app.wf, .inl ⟨rfl, hw, ?_⟩⟩
      have := hseq.room
      dsimp only at this ⊢
      rw [hw] at this
      simp only [List.length_nil] at hroom
      omega
    · dsimp only at b1 b2 b3 b4 b5 ⊢
      subst b1
      have hst := flush_stays s2 s2.content ⟨hseq.app, b3, rfl⟩
      rw [a3] at b4 b5
      have := hseq.room
      dsimp only at this
      simp only [List.length_nil] at hroom
      simp only [List.append_nil] at b4 b5
      obtain ⟨p1, p2⟩ := hpre _ b4 b5 (by omega)
      rcases hy : s2.flush with ⟨r3, s3⟩
      rw [hy] at hst
      cases r3 with
      | error e' => exact ⟨hst.app.wf, .inr ⟨⟨_, rfl⟩, hst.content.trans p1, p2, hst.full⟩⟩
      | ok _ => exact ⟨hst.app.wf, .inr ⟨⟨_, rfl⟩, hst.content.trans p1, p2, hst.full⟩⟩
  · dsimp only at a1 a2 a3 a4 a5 hroom
    subst a1
    have hst := textClose_stays b s1 s1.content ⟨h.app, a3, rfl⟩
    rw [h0, List.nil_append] at a4 a5
    simp only [List.length_nil] at hroom
    obtain ⟨p1, p2⟩ := hpre _ a4 a5 (by omega)
    rcases hy : s1.textClose b with ⟨r3, s3⟩
    rw [hy] at hst
    cases r3 with
    | error e' => exact ⟨hst.app.wf, .inr ⟨⟨_, rfl⟩, hst.content.trans p1, p2, hst.full⟩⟩
    | ok _ => exact ⟨hst.app.wf, .inr ⟨⟨_, rfl⟩, hst.content.trans p1, p2, hst.full⟩⟩

end VgmX
