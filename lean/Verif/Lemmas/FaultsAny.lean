import Verif.Lemmas.FaultsZip
import Verif.Lemmas.Damage
/-
What is in the open file, whichever writes fail.
-/

namespace VgmX
open Spec

variable {D : Device}

theorem drain_any (stop : Nat) : ∀ (fuel : Nat) (bytes : Bytes) (s : Open D), bytes.length ≤ fuel →
    Wf s → ∃ k ≤ bytes.length,
      (Open.drain stop fuel bytes s).2.1 = bytes.drop k ∧
      (Open.drain stop fuel bytes s).2.2.content = overwrite s.content s.pos (bytes.take k) ∧
      (Open.drain stop fuel bytes s).2.2.pos = s.pos + k ∧
      Wf (Open.drain stop fuel bytes s).2.2 ∧
      ((Open.drain stop fuel bytes s).1 = .ok () → bytes.length - k ≤ stop) ∧
      (∀ e, (Open.drain stop fuel bytes s).1 = .error e → k < bytes.length)
  | 0, bytes, s, hb, hw => by
    have : bytes = [] := List.eq_nil_of_length_eq_zero (by omega)
    subst this
    refine ⟨0, Nat.le_refl _, rfl, ?_, rfl, hw, fun _ => Nat.zero_le _, fun e h => by cases h⟩
    rw [List.take_nil, overwrite_nil]; rfl
  | fuel + 1, bytes, s, hb, hw => by
    unfold Open.drain
    by_cases h : bytes.length ≤ stop
    · rw [if_pos h]
      refine ⟨0, Nat.zero_le _, rfl, ?_, rfl, hw, fun _ => by omega, fun e h => by cases h⟩
      rw [List.take_zero, overwrite_nil]
    · rw [if_neg h]
      have hr := raw_ok (bytes := bytes) (s := s) hw (by intro e; subst e; simp at h)
      have he : ∀ e, (s.raw bytes).1 = .error e → (s.raw bytes).2.content = s.content ∧
          (s.raw bytes).2.pos = s.pos ∧ Wf (s.raw bytes).2 := by
        intro e he
        unfold Open.raw at he ⊢
        generalize D.write s.dev s.content.length s.pos bytes.length = x at he ⊢
        obtain ⟨r, dev⟩ := x
        cases r with
        | error e' => exact ⟨rfl, rfl, hw⟩
        | ok k => cases he
      rcases hx : s.raw bytes with ⟨r, s1⟩
      rw [hx] at hr he
      cases r with
      | error e =>
        obtain ⟨h1, h2, h3⟩ := he e rfl
        refine ⟨0, Nat.zero_le _, rfl, ?_, h2, h3, fun h => (by cases h), fun _ _ => by omega⟩
        rw [List.take_zero, overwrite_nil]; exact h1
      | ok k' =>
        obtain ⟨hk1, hk2, hc, hp, hw1⟩ := hr k' rfl
        simp only at hk1 hk2 hc hp hw1 ⊢
        have hl : (bytes.take k').length = k' := by simp [hk2]
        obtain ⟨j, j1, j2, j3, j4, j5, j6, j7⟩ := drain_any stop fuel (bytes.drop k') s1
          (by rw [List.length_drop]; omega) hw1
        rw [List.length_drop] at j1 j6 j7
        refine ⟨k' + j, by omega, ?_, ?_, ?_, j5, fun h => ?_, fun e h => ?_⟩
        · rw [j2, List.drop_drop]
        · rw [j3, hc, hp]
          have := overwrite_append hw.2 (bytes.take k') ((bytes.drop k').take j)
          rw [hl] at this
          rw [this, ← List.take_add]
        · rw [j4, hp]; omega
        · have := j6 h; omega
        · have := j7 e h; omega

/-- From the content `c`, the bytes `x` are being written at `p`: some are in the file, the others
in the buffer. -/
structure Writing (s : Open D) (c : Bytes) (p : Nat) (x : Bytes) : Prop where
  wf : Wf s
  pos : p ≤ c.length
  split : ∃ k ≤ x.length, s.content = overwrite c p (x.take k) ∧ s.pos = p + k ∧ s.buf = x.drop k

theorem Writing.tell {s : Open D} {c x : Bytes} {p : Nat} (h : Writing s c p x) :
    s.tell = p + x.length := by
  obtain ⟨k, hk, _, h2, h3⟩ := h.split
  unfold Open.tell
  rw [h2, h3, List.length_drop]; omega

theorem flush_writing {s : Open D} {c x : Bytes} {p : Nat} (h : Writing s c p x) :
    Writing s.flush.2 c p x ∧ (s.flush.1 = .ok () → s.flush.2.buf = [] ∧
      s.flush.2.content = overwrite c p x ∧ s.flush.2.pos = p + x.length) := by
  obtain ⟨k, hk, h1, h2, h3⟩ := h.split
  obtain ⟨j, j1, j2, j3, j4, j5, j6, _⟩ := drain_any 0 s.buf.length s.buf s (Nat.le_refl _) h.wf
  unfold Open.flush
  rcases hx : Open.drain 0 s.buf.length s.buf s with ⟨r, rest, s1⟩
  rw [hx] at j2 j3 j4 j5 j6
  have hb : s.buf.length = x.length - k := by rw [h3, List.length_drop]
  have hc : s1.content = overwrite c p (x.take (k + j)) := by
    have hl : (x.take k).length = k := by rw [List.length_take]; omega
    have := overwrite_append h.pos (x.take k) ((x.drop k).take j)
    rw [hl] at this
    rw [j3, h1, h2, h3, this, ← List.take_add]
  dsimp only at j2 j4 j6 ⊢
  refine ⟨⟨j5, h.pos, k + j, by omega, hc, ?_, ?_⟩, ?_⟩
  · show s1.pos = _
    rw [j4, h2]; omega
  · show rest = _
    rw [j2, h3, List.drop_drop]
  · rintro rfl
    have hj := j6 rfl
    refine ⟨?_, ?_, ?_⟩
    · show rest = _
      rw [j2]; exact List.drop_of_length_le (by omega)
    · show s1.content = _
      rw [hc, List.take_of_length_le (by omega)]
    · show s1.pos = _
      rw [j4, h2]; omega

theorem write_writing (b : Buffers) (bytes : Bytes) {s : Open D} {c x : Bytes} {p : Nat}
    (h : Writing s c p x) :
    ((s.write b bytes).1 = .ok () → Writing (s.write b bytes).2 c p (x ++ bytes)) ∧
    (∀ e, (s.write b bytes).1 = .error e →
      ∃ j < bytes.length, Writing (s.write b bytes).2 c p (x ++ bytes.take j)) := by
  unfold Open.write
  by_cases hfit : bytes.length ≤ b.size - s.buf.length
  · rw [if_pos hfit]
    refine ⟨fun _ => ?_, fun e h => by cases h⟩
    obtain ⟨k, hk, h1, h2, h3⟩ := h.split
    refine ⟨h.wf, h.pos, k, by rw [List.length_append]; omega, ?_, h2, ?_⟩
    · rw [List.take_append_of_le_length hk]; exact h1
    · rw [List.drop_append_of_le_length hk, ← h3]
  · rw [if_neg hfit]
    obtain ⟨f1, f2⟩ := flush_writing h
    rcases hx : s.flush with ⟨r, s1⟩
    rw [hx] at f1 f2
    cases r with
    | error e =>
      refine ⟨fun h => (by cases h), fun e' _ => ⟨0, by omega, ?_⟩⟩
      rw [List.take_zero, List.append_nil]; exact f1
    | ok u =>
      obtain ⟨g1, g2, g3⟩ := f2 rfl
      obtain ⟨j, j1, j2, j3, j4, j5, j6, j7⟩ := drain_any b.size bytes.length bytes s1
        (Nat.le_refl _) f1.wf
      have kb := (drain_kept b.size bytes.length bytes s1).2.1
      dsimp only at g1 g2 g3 ⊢
      rcases hy : Open.drain b.size bytes.length bytes s1 with ⟨r', rest, s2⟩
      rw [hy] at j2 j3 j4 j5 j6 j7 kb
      dsimp only at j2 j3 j4 j5 j6 j7 kb
      have hc : s2.content = overwrite c p (x ++ bytes.take j) := by
        rw [j3, g2, g3, overwrite_append h.pos]
      cases r' with
      | error e =>
        refine ⟨fun h => (by cases h), fun e' _ => ⟨j, j7 e rfl, ?_⟩⟩
        have hl : (bytes.take j).length = j := by rw [List.length_take]; omega
        refine ⟨j5, h.pos, x.length + j, by rw [List.length_append, hl], ?_, ?_, ?_⟩
        · rw [List.take_of_length_le (by rw [List.length_append, hl])]; exact hc
        · rw [j4, g3]; omega
        · rw [List.drop_of_length_le (by rw [List.length_append, hl]), kb]; exact g1
      | ok u =>
        refine ⟨fun _ => ?_, fun e h => by cases h⟩
        refine ⟨j5, h.pos, x.length + j, by rw [List.length_append]; omega, ?_, ?_, ?_⟩
        · rw [List.take_append, List.take_of_length_le (by omega), Nat.add_sub_cancel_left]
          exact hc
        · show s2.pos = _
          rw [j4, g3]; omega
        · show rest = _
          rw [List.drop_append, List.drop_of_length_le (by omega), Nat.add_sub_cancel_left, j2]
          rfl

theorem seek_writing (q : Nat) {s : Open D} {c x : Bytes} {p : Nat} (h : Writing s c p x)
    (hq : q ≤ (overwrite c p x).length) :
    ((s.seek q).1 = .ok () → Writing (s.seek q).2 (overwrite c p x) q []) ∧
    (∀ e, (s.seek q).1 = .error e → Writing (s.seek q).2 c p x) := by
  obtain ⟨f1, f2⟩ := flush_writing h
  unfold Open.seek
  rcases hx : s.flush with ⟨r, s1⟩
  rw [hx] at f1 f2
  cases r with
  | error e => exact ⟨fun h => (by cases h), fun _ _ => f1⟩
  | ok u =>
    obtain ⟨g1, g2, g3⟩ := f2 rfl
    refine ⟨fun _ => ?_, fun e h => by cases h⟩
    have hc : (Open.content { s1 with pos := q }) = overwrite c p x := g2
    refine ⟨⟨f1.wf.1, ?_⟩, hq, 0, Nat.le_refl _, ?_, rfl, g1⟩
    · rw [hc]; exact hq
    · rw [hc, List.take_nil, overwrite_nil]

/-- An operation that writes these bytes, or a part of them and raises. -/
def Hands (f : Open D → Except PyErr Unit × Open D) (T : Bytes) : Prop :=
  ∀ (s : Open D) (c : Bytes) (p : Nat) (x : Bytes), Writing s c p x →
    ∃ m, Writing (f s).2 c p (x ++ T.take m) ∧ ((f s).1 = .ok () → T.take m = T)

theorem hands_write (b : Buffers) (bytes : Bytes) : Hands (D := D) (Open.write b bytes) bytes := by
  intro s c p x h
  obtain ⟨h1, h2⟩ := write_writing b bytes h
  cases hr : (s.write b bytes).1 with
  | ok u => exact ⟨bytes.length, by rw [List.take_length]; exact h1 hr, fun _ => List.take_length⟩
  | error e =>
    obtain ⟨j, _, hj⟩ := h2 e hr
    exact ⟨j, hj, fun h => by cases h⟩

theorem hands_flush : Hands (D := D) Open.flush [] := by
  intro s c p x h
  exact ⟨0, by rw [List.take_nil, List.append_nil]; exact (flush_writing h).1, fun _ => rfl⟩

theorem Hands.andThen {f g : Open D → Except PyErr Unit × Open D} {A B : Bytes} (hf : Hands f A)
    (hg : Hands g B) : Hands (VgmX.andThen f g) (A ++ B) := by
  intro s c p x h
  obtain ⟨m, h1, h2⟩ := hf s c p x h
  unfold VgmX.andThen
  rcases hx : f s with ⟨r, s1⟩
  rw [hx] at h1 h2
  cases r with
  | error e =>
    refine ⟨min m A.length, ?_, fun h => by cases h⟩
    rw [List.take_append_of_le_length (by omega)]
    have : A.take (min m A.length) = A.take m := by
      by_cases hm : m ≤ A.length
      · rw [Nat.min_eq_left hm]
      · rw [Nat.min_eq_right (by omega), List.take_of_length_le (by omega),
          List.take_of_length_le (by omega)]
    rw [this]; exact h1
  | ok u =>
    rw [h2 rfl] at h1
    obtain ⟨n, h3, h4⟩ := hg s1 c p (x ++ A) h1
    refine ⟨A.length + n, ?_, fun h => ?_⟩
    · rw [List.take_append, List.take_of_length_le (by omega), Nat.add_sub_cancel_left,
        ← List.append_assoc]
      exact h3
    · rw [List.take_append, List.take_of_length_le (by omega), Nat.add_sub_cancel_left, h4 h]

/-- Whatever of the pending bytes will be written, this holds of the content. -/
def Fate (P : Bytes → Prop) (s : Open D) : Prop :=
  ∃ c p x, Writing s c p x ∧ ∀ k, P (overwrite c p (x.take k))

theorem Fate.content {P : Bytes → Prop} {s : Open D} (h : Fate P s) : P s.content := by
  obtain ⟨c, p, x, hw, hP⟩ := h
  obtain ⟨k, _, h1, _⟩ := hw.split
  rw [h1]; exact hP k

theorem Fate.flush {P : Bytes → Prop} {s : Open D} (h : Fate P s) : Fate P s.flush.2 := by
  obtain ⟨c, p, x, hw, hP⟩ := h
  exact ⟨c, p, x, (flush_writing hw).1, hP⟩

/-! ### The archive -/

/-- What failing writes leave of an archive with the document `data`. -/
inductive Leaves (t : DateTime) (data : Bytes) : Bytes → Prop
  | start (j m : Nat) : Leaves t data (overwrite
      ((zipHeader0 t (utf8 "Song.xml".toList) data.length).take j) 0 ((zipEndRecord 0 0 0).take m))
  | early (m : Nat) : Leaves t data
      ((zipHeader0 t (utf8 "Song.xml".toList) data.length ++ data).take m)
  | empty (k j m : Nat) : Leaves t data (overwrite
      (zipHeader0 t (utf8 "Song.xml".toList) data.length) 0
      ((zipLocalHeader t (utf8 "Song.xml".toList) (crc32 data) data.length).take j) ++ data.take k ++
      (zipEndRecord 0 0 (38 + k)).take m)
  | late (k m : Nat) (h : m < 76 ∨ k < data.length) : Leaves t data
      (zipLocalHeader t (utf8 "Song.xml".toList) (crc32 data) data.length ++ data.take k ++
      (zipCentralHeader t (utf8 "Song.xml".toList) (crc32 data) data.length ++ zipEndRecord 1
        (zipCentralHeader t (utf8 "Song.xml".toList) (crc32 data) data.length).length
        (38 + k)).take m)

/-- How far the entry was written. -/
inductive Entry (t : DateTime) (data : Bytes) (s : Open D) : Nat → Bool → Prop
  | none (j : Nat) (h : Writing s [] 0
      ((zipHeader0 t (utf8 "Song.xml".toList) data.length).take j)) : Entry t data s 0 false
  | data (k : Nat) (hk : k ≤ data.length) (h : Writing s [] 0
      (zipHeader0 t (utf8 "Song.xml".toList) data.length ++ data.take k)) :
      Entry t data s (38 + k) false
  | header (k j : Nat) (hk : k ≤ data.length) (h : Writing s
      (zipHeader0 t (utf8 "Song.xml".toList) data.length ++ data.take k) 0
      ((zipLocalHeader t (utf8 "Song.xml".toList) (crc32 data) data.length).take j)) :
      Entry t data s (38 + k) false
  | added (k : Nat) (hk : k ≤ data.length) (h : Writing s
      (zipLocalHeader t (utf8 "Song.xml".toList) (crc32 data) data.length ++ data.take k) (38 + k)
      []) : Entry t data s (38 + k) true

theorem overwrite_start (x : Bytes) : overwrite [] 0 x = x := by simp [overwrite]

theorem overwrite_head {h x : Bytes} (c : Bytes) (hx : x.length ≤ h.length) :
    overwrite (h ++ c) 0 x = overwrite h 0 x ++ c := by
  unfold overwrite
  rw [List.take_zero, List.take_zero, List.nil_append, Nat.zero_add,
    List.drop_append_of_le_length hx]
  simp

theorem zipEntry_any (b : Buffers) (t : DateTime) (data : Bytes) {s : Open D}
    (hs : Writing s [] 0 []) :
    Entry t data (zipEntry b t (utf8 "Song.xml".toList) data s).1.2
      (zipEntry b t (utf8 "Song.xml".toList) data s).2.1
      (zipEntry b t (utf8 "Song.xml".toList) data s).2.2 := by
  have lH0 := header0_length t data.length
  have lH := local_length t (crc32 data) data.length
  unfold zipEntry
  obtain ⟨a1, a2⟩ := write_writing b (zipHeader0 t (utf8 "Song.xml".toList) data.length) hs
  rcases hx : s.write b (zipHeader0 t (utf8 "Song.xml".toList) data.length) with ⟨r1, s1⟩
  rw [hx] at a1 a2
  cases r1 with
  | error e =>
    obtain ⟨j, _, hj⟩ := a2 e rfl
    exact .none j hj
  | ok u =>
    have w1 := a1 rfl
    rw [List.nil_append] at w1
    dsimp only at w1 ⊢
    obtain ⟨b1, b2⟩ := write_writing b data w1
    rcases hy : s1.write b data with ⟨r2, s2⟩
    rw [hy] at b1 b2
    have w2 : ∃ k ≤ data.length, Writing s2 [] 0
        (zipHeader0 t (utf8 "Song.xml".toList) data.length ++ data.take k) := by
      cases r2 with
      | error e =>
        obtain ⟨j, hj, h⟩ := b2 e rfl
        exact ⟨j, by omega, h⟩
      | ok u => exact ⟨data.length, Nat.le_refl _, by rw [List.take_length]; exact b1 rfl⟩
    obtain ⟨k, hk, w2⟩ := w2
    have ht : s2.tell = 38 + k := by
      rw [w2.tell, List.length_append, lH0, List.length_take]; omega
    dsimp only
    rw [ht]
    obtain ⟨c1, c2⟩ := seek_writing 0 w2 (Nat.zero_le _)
    unfold andThen
    rcases hz : s2.seek 0 with ⟨r3, s3⟩
    rw [hz] at c1 c2
    cases r3 with
    | error e => exact .data k hk (c2 e rfl)
    | ok u =>
      have w3 := c1 rfl
      rw [overwrite_start] at w3
      dsimp only at w3 ⊢
      obtain ⟨d1, d2⟩ := write_writing b
        (zipLocalHeader t (utf8 "Song.xml".toList) (crc32 data) data.length) w3
      rcases hu : s3.write b (zipLocalHeader t (utf8 "Song.xml".toList) (crc32 data) data.length)
        with ⟨r4, s4⟩
      rw [hu] at d1 d2
      cases r4 with
      | error e =>
        obtain ⟨j, _, h⟩ := d2 e rfl
        exact .header k j hk h
      | ok u =>
        have w4 := d1 rfl
        rw [List.nil_append] at w4
        dsimp only at w4 ⊢
        have hov : overwrite (zipHeader0 t (utf8 "Song.xml".toList) data.length ++ data.take k) 0
            (zipLocalHeader t (utf8 "Song.xml".toList) (crc32 data) data.length)
            = zipLocalHeader t (utf8 "Song.xml".toList) (crc32 data) data.length ++ data.take k :=
          overwrite_front _ (by rw [lH0, lH])
        obtain ⟨e1, e2⟩ := seek_writing (38 + k) w4 (by
          rw [hov, List.length_append, lH, List.length_take]; omega)
        rcases hv : s4.seek (38 + k) with ⟨r5, s5⟩
        rw [hv] at e1 e2
        cases r5 with
        | error e =>
          refine .header k 38 hk ?_
          have e3 := e2 e rfl
          rw [← List.take_of_length_le (i := 38) (l := zipLocalHeader t (utf8 "Song.xml".toList)
            (crc32 data) data.length) (by omega)] at e3
          exact e3
        | ok u =>
          have w5 := e1 rfl
          rw [hov] at w5
          exact .added k hk w5

theorem zipWritestr_any (b : Buffers) (t : DateTime) (data : Bytes) {s : Open D}
    (hs : Writing s [] 0 []) :
    Entry t data (zipWritestr b t (utf8 "Song.xml".toList) data s).1.2
      (zipWritestr b t (utf8 "Song.xml".toList) data s).2.1
      (zipWritestr b t (utf8 "Song.xml".toList) data s).2.2 := by
  unfold zipWritestr
  split
  · exact .none 0 hs
  · obtain ⟨c1, c2⟩ := seek_writing 0 hs (Nat.zero_le _)
    rcases hz : s.seek 0 with ⟨r, s1⟩
    rw [hz] at c1 c2
    cases r with
    | error e => exact .none 0 (c2 e rfl)
    | ok u =>
      have w1 := c1 rfl
      rw [overwrite_start] at w1
      dsimp only at w1 ⊢
      split
      · exact .none 0 w1
      · exact zipEntry_any b t data w1

/-- The bytes that close the archive. -/
def zipTail (t : DateTime) (data : Bytes) (start : Nat) (added : Bool) : Bytes :=
  if added then zipCentralHeader t (utf8 "Song.xml".toList) (crc32 data) data.length ++
    zipEndRecord 1 (zipCentralHeader t (utf8 "Song.xml".toList) (crc32 data) data.length).length
      start
  else zipEndRecord 0 0 start

theorem zipClose_any (b : Buffers) (t : DateTime) (data : Bytes) (start : Nat) (added : Bool)
    {s : Open D} {c x : Bytes} {p : Nat} (h : Writing s c p x)
    (hs : start ≤ (overwrite c p x).length) :
    Writing (zipClose b t (utf8 "Song.xml".toList) data start added s).2 c p x ∨
    ∃ m, Writing (zipClose b t (utf8 "Song.xml".toList) data start added s).2 (overwrite c p x)
      start ((zipTail t data start added).take m) := by
  unfold zipClose
  have hT : Hands (D := D) (andThen
      (fun s => if added then
          andThen
            (Open.write b ((zipCentralHeader t (utf8 "Song.xml".toList) (crc32 data)
              data.length).take 46))
            (Open.write b (utf8 "Song.xml".toList)) s
        else (.ok (), s))
      (andThen
        (Open.write b (zipEndRecord (if added then 1 else 0)
          (if added then (zipCentralHeader t (utf8 "Song.xml".toList) (crc32 data)
            data.length).length else 0)
          start))
        Open.flush)) (zipTail t data start added) := by
    cases added with
    | true =>
      have hC := central_take t (utf8 "Song.xml".toList) (crc32 data) data.length
      have h1 := Hands.andThen (hands_write (D := D) b
        ((zipCentralHeader t (utf8 "Song.xml".toList) (crc32 data) data.length).take 46))
        (hands_write b (utf8 "Song.xml".toList))
      rw [hC] at h1
      have h2 := Hands.andThen h1 (Hands.andThen (hands_write (D := D) b (zipEndRecord 1
        (zipCentralHeader t (utf8 "Song.xml".toList) (crc32 data) data.length).length start))
        hands_flush)
      rw [List.append_nil] at h2
      exact h2
    | false =>
      have h1 : Hands (D := D) (fun s => (.ok (), s)) [] := by
        intro s c p x h
        exact ⟨0, by rw [List.take_nil, List.append_nil]; exact h, fun _ => rfl⟩
      have h2 := Hands.andThen h1 (Hands.andThen (hands_write (D := D) b (zipEndRecord 0 0 start))
        hands_flush)
      rw [List.append_nil, List.nil_append] at h2
      exact h2
  obtain ⟨e1, e2⟩ := seek_writing start h hs
  unfold andThen at *
  rcases hv : s.seek start with ⟨r, s1⟩
  rw [hv] at e1 e2
  cases r with
  | error e => exact .inl (e2 e rfl)
  | ok u =>
    right
    obtain ⟨m, h1, _⟩ := hT s1 _ _ _ (e1 rfl)
    rw [List.nil_append] at h1
    exact ⟨m, h1⟩

/-- Whatever fails, the archive is complete or one of `Leaves`. -/
theorem zip_any (b : Buffers) (zip64 : DateTime → Bytes → Bytes → Except PyErr Unit × Bytes)
    (t : DateTime) (data : Bytes) (hz : ¬ zip64Needed data.length) {s : Open D}
    (hs : Writing s [] 0 []) :
    Fate (fun c => c = (zipSingle zip64 t (utf8 "Song.xml".toList) data).2 ∨ Leaves t data c)
      (zipFileF b zip64 t (utf8 "Song.xml".toList) data s).2 := by
  have lH0 := header0_length t data.length
  have lH := local_length t (crc32 data) data.length
  have hyear : ∀ (k : Nat), (zipWritestr b t (utf8 "Song.xml".toList) data s).2.2 = true →
      (zipSingle zip64 t (utf8 "Song.xml".toList) data).2 =
        zipLocalHeader t (utf8 "Song.xml".toList) (crc32 data) data.length ++ data ++
        (zipCentralHeader t (utf8 "Song.xml".toList) (crc32 data) data.length ++ zipEndRecord 1
          (zipCentralHeader t (utf8 "Song.xml".toList) (crc32 data) data.length).length
          (38 + data.length)) := by
    intro k h
    unfold zipWritestr at h
    unfold zipSingle
    split at h
    · cases h
    · rename_i h1
      rcases hv : s.seek 0 with ⟨r, s1⟩
      rw [hv] at h
      cases r with
      | error e => cases h
      | ok u =>
        dsimp only at h
        split at h
        · cases h
        · rename_i h2
          rw [if_neg h1, if_neg h2, if_neg hz]
          dsimp only
          rw [List.length_append, lH, List.append_assoc (_ ++ data)]
  unfold zipFileF
  rw [if_neg (fun h => hz h.2.2)]
  have hE := zipWritestr_any b t data hs
  rcases hx : zipWritestr b t (utf8 "Song.xml".toList) data s with ⟨⟨r, s1⟩, start, added⟩
  rw [hx] at hE hyear
  dsimp only at hE hyear ⊢
  suffices h : Fate (fun c => c = (zipSingle zip64 t (utf8 "Song.xml".toList) data).2 ∨
      Leaves t data c) (zipClose b t (utf8 "Song.xml".toList) data start added s1).2 by
    rcases hy : zipClose b t (utf8 "Song.xml".toList) data start added s1 with ⟨r1, s2⟩
    rw [hy] at h
    cases r1 <;> exact h
  cases hE with
  | none j h =>
    rcases zipClose_any b t data 0 false h (Nat.zero_le _) with h' | ⟨m, h'⟩
    · refine ⟨_, _, _, h', fun k => .inr ?_⟩
      rw [overwrite_start, List.take_take]
      have e : (zipHeader0 t (utf8 "Song.xml".toList) data.length).take (min k j) =
          (zipHeader0 t (utf8 "Song.xml".toList) data.length ++ data).take (min (min k j) 38) := by
        rw [List.take_append_of_le_length (l₁ := zipHeader0 t (utf8 "Song.xml".toList) data.length)
          (by omega)]
        by_cases h38 : min k j ≤ 38
        · rw [Nat.min_eq_left h38]
        · rw [Nat.min_eq_right (a := min k j) (b := 38) (by omega),
            List.take_of_length_le (i := min k j) (by omega),
            List.take_of_length_le (i := 38) (by omega)]
      rw [e]
      exact .early _
    · refine ⟨_, _, _, h', fun k => .inr ?_⟩
      rw [overwrite_start, List.take_take]
      exact .start j _
  | data k hk h =>
    rcases zipClose_any b t data (38 + k) false h (by
        rw [overwrite_start, List.length_append, lH0, List.length_take]; omega) with h' | ⟨m, h'⟩
    · refine ⟨_, _, _, h', fun i => .inr ?_⟩
      rw [overwrite_start]
      have e : (zipHeader0 t (utf8 "Song.xml".toList) data.length ++ data.take k).take i =
          (zipHeader0 t (utf8 "Song.xml".toList) data.length ++ data).take (min i (38 + k)) := by
        have : zipHeader0 t (utf8 "Song.xml".toList) data.length ++ data.take k =
            (zipHeader0 t (utf8 "Song.xml".toList) data.length ++ data).take (38 + k) := by
          rw [List.take_append, List.take_of_length_le (i := 38 + k) (by omega), lH0,
            Nat.add_sub_cancel_left]
        rw [this, List.take_take]
      rw [e]
      exact .early _
    · refine ⟨_, _, _, h', fun i => .inr ?_⟩
      rw [overwrite_start, List.take_take]
      have hl : 38 + k = (zipHeader0 t (utf8 "Song.xml".toList) data.length ++
          data.take k).length := by
        rw [List.length_append, lH0, List.length_take]; omega
      have e : overwrite (zipHeader0 t (utf8 "Song.xml".toList) data.length ++ data.take k) (38 + k)
          ((zipTail t data (38 + k) false).take (min i m)) =
          overwrite (zipHeader0 t (utf8 "Song.xml".toList) data.length) 0
            ((zipLocalHeader t (utf8 "Song.xml".toList) (crc32 data) data.length).take 0) ++
            data.take k ++ (zipEndRecord 0 0 (38 + k)).take (min i m) := by
        rw [List.take_zero, overwrite_nil]
        conv_lhs => rw [hl, overwrite_end]
        rw [← hl]
        rfl
      rw [e]
      exact .empty k 0 _
  | header k j hk h =>
    have hov : ∀ j, overwrite (zipHeader0 t (utf8 "Song.xml".toList) data.length ++ data.take k) 0
        ((zipLocalHeader t (utf8 "Song.xml".toList) (crc32 data) data.length).take j) =
        overwrite (zipHeader0 t (utf8 "Song.xml".toList) data.length) 0
          ((zipLocalHeader t (utf8 "Song.xml".toList) (crc32 data) data.length).take j) ++
          data.take k := by
      intro j
      exact overwrite_head _ (by rw [List.length_take]; omega)
    have hl : ∀ j, (overwrite (zipHeader0 t (utf8 "Song.xml".toList) data.length ++ data.take k) 0
        ((zipLocalHeader t (utf8 "Song.xml".toList) (crc32 data) data.length).take j)).length
        = 38 + k := by
      intro j
      rw [overwrite_length (Nat.zero_le _), List.length_append, lH0, List.length_take,
        List.length_take]
      omega
    rcases zipClose_any b t data (38 + k) false h (by rw [hl]) with h' | ⟨m, h'⟩
    · refine ⟨_, _, _, h', fun i => .inr ?_⟩
      rw [List.take_take, hov]
      have := Leaves.empty (t := t) (data := data) k (min i j) 0
      rw [List.take_zero, List.append_nil] at this
      exact this
    · refine ⟨_, _, _, h', fun i => .inr ?_⟩
      have e := hl j
      rw [List.take_take]
      have e2 : overwrite (overwrite (zipHeader0 t (utf8 "Song.xml".toList) data.length ++
          data.take k) 0 ((zipLocalHeader t (utf8 "Song.xml".toList) (crc32 data)
          data.length).take j)) (38 + k) ((zipTail t data (38 + k) false).take (min i m)) =
          overwrite (zipHeader0 t (utf8 "Song.xml".toList) data.length ++
          data.take k) 0 ((zipLocalHeader t (utf8 "Song.xml".toList) (crc32 data)
          data.length).take j) ++ (zipEndRecord 0 0 (38 + k)).take (min i m) := by
        conv_lhs => rw [← e, overwrite_end]
        rw [e]
        rfl
      rw [e2, hov]
      exact .empty k j _
  | added k hk h =>
    have hl : (zipLocalHeader t (utf8 "Song.xml".toList) (crc32 data) data.length ++
        data.take k).length = 38 + k := by
      rw [List.length_append, lH, List.length_take]; omega
    rcases zipClose_any b t data (38 + k) true h (by
        rw [overwrite_nil, hl]) with h' | ⟨m, h'⟩
    · refine ⟨_, _, _, h', fun i => .inr ?_⟩
      rw [List.take_nil, overwrite_nil]
      have := Leaves.late (t := t) (data := data) k 0 (.inl (by omega))
      rw [List.take_zero, List.append_nil] at this
      exact this
    · refine ⟨_, _, _, h', fun i => ?_⟩
      rw [List.take_take, overwrite_nil]
      have e2 : overwrite (zipLocalHeader t (utf8 "Song.xml".toList) (crc32 data) data.length ++
          data.take k) (38 + k) ((zipTail t data (38 + k) true).take (min i m)) =
          zipLocalHeader t (utf8 "Song.xml".toList) (crc32 data) data.length ++ data.take k ++
          (zipTail t data (38 + k) true).take (min i m) := by
        conv_lhs => rw [← hl, overwrite_end]
        rw [hl]
      rw [e2]
      by_cases hm : min i m < 76 ∨ k < data.length
      · exact .inr (.late k _ hm)
      · left
        have hk' : k = data.length := by omega
        rw [hyear 0 rfl, hk', List.take_length, List.take_of_length_le]
        · rfl
        · have := central_length t (crc32 data) data.length (38 + data.length)
          unfold zipTail
          rw [if_pos rfl, this]
          omega

end VgmX
