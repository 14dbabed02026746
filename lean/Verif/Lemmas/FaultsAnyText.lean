import Verif.Lemmas.FaultsAny
/-
The text file, whichever writes fail: it is a beginning of what should be in it.
-/

namespace VgmX
open Spec

variable {D : Device}

theorem flush_keepsText (s : Open D) : s.flush.2.text = s.text := by
  have h := (drain_kept 0 s.buf.length s.buf s).2.2
  unfold Open.flush
  rcases hx : Open.drain 0 s.buf.length s.buf s with ⟨r, rest, s'⟩
  rw [hx] at h
  exact h

theorem write_keepsText (b : Buffers) (bytes : Bytes) (s : Open D) :
    (s.write b bytes).2.text = s.text := by
  unfold Open.write
  split
  · rfl
  · have h := flush_keepsText s
    rcases hx : s.flush with ⟨r, s'⟩
    rw [hx] at h
    cases r with
    | error e => exact h
    | ok u =>
      have h2 := (drain_kept b.size bytes.length bytes s').2.2
      dsimp only at h ⊢
      rcases hy : Open.drain b.size bytes.length bytes s' with ⟨r', rest, s2⟩
      rw [hy] at h2
      cases r' with
      | error e => exact h2.trans h
      | ok u => exact h2.trans h

/-- Just these bytes have been handed over. -/
def Exactly (L : Bytes) (s : Open D) : Prop := ∃ x, Writing s [] 0 x ∧ x ++ s.text = L

/-- A beginning of these bytes has been handed over. -/
def Begun (L : Bytes) (s : Open D) : Prop := ∃ x, Writing s [] 0 x ∧ x ++ s.text <+: L

theorem Exactly.begun {L : Bytes} {s : Open D} (h : Exactly L s) : Begun L s := by
  obtain ⟨x, h1, rfl⟩ := h
  exact ⟨x, h1, List.prefix_rfl⟩

theorem Begun.mono {L M : Bytes} {s : Open D} (h : Begun L s) : Begun (L ++ M) s := by
  obtain ⟨x, h1, h2⟩ := h
  exact ⟨x, h1, h2.trans (List.prefix_append _ _)⟩

theorem Begun.content {L : Bytes} {s : Open D} (h : Begun L s) : s.content <+: L := by
  obtain ⟨x, h1, h2⟩ := h
  obtain ⟨k, _, h3, _⟩ := h1.split
  rw [h3, overwrite_start]
  exact ((List.take_prefix _ _).trans (List.prefix_append _ _)).trans h2

theorem Begun.wf {L : Bytes} {s : Open D} (h : Begun L s) : Wf s := by
  obtain ⟨x, h1, _⟩ := h
  exact h1.wf

theorem Begun.flush {L : Bytes} {s : Open D} (h : Begun L s) : Begun L s.flush.2 := by
  obtain ⟨x, h1, h2⟩ := h
  exact ⟨x, (flush_writing h1).1, by rw [flush_keepsText]; exact h2⟩

theorem textFlush_exactly (b : Buffers) {L : Bytes} {s : Open D} (h : Exactly L s) :
    ((s.textFlush b).1 = .ok () → Exactly L (s.textFlush b).2) ∧ Begun L (s.textFlush b).2 := by
  unfold Open.textFlush
  split
  · exact ⟨fun _ => h, h.begun⟩
  · obtain ⟨x, h1, h2⟩ := h
    have h1' : Writing { s with text := [] } [] 0 x := ⟨h1.wf, h1.pos, h1.split⟩
    obtain ⟨g1, g2⟩ := write_writing b s.text h1'
    have ht := write_keepsText b s.text { s with text := [] }
    have g3 : (Open.write b s.text { s with text := [] }).1 = .ok () →
        Exactly L (Open.write b s.text { s with text := [] }).2 := fun hr =>
      ⟨_, g1 hr, by rw [ht, h2]; exact List.append_nil _⟩
    refine ⟨g3, ?_⟩
    cases hr : (Open.write b s.text { s with text := [] }).1 with
    | ok u => exact (g3 hr).begun
    | error e =>
      obtain ⟨j, _, hj⟩ := g2 e hr
      refine ⟨_, hj, ?_⟩
      rw [ht, ← h2]
      show x ++ s.text.take j ++ [] <+: _
      rw [List.append_nil]
      exact (List.prefix_append_right_inj x).mpr (List.take_prefix _ _)

theorem textFlush_begun (b : Buffers) {L : Bytes} {s : Open D} (h : Begun L s) :
    Begun L (s.textFlush b).2 := by
  obtain ⟨x, h1, M, h2⟩ := h
  have h := (textFlush_exactly b (s := s) ⟨x, h1, rfl⟩).2
  rw [← h2]
  exact h.mono

theorem textWrite_exactly (b : Buffers) (bytes : Bytes) {L : Bytes} {s : Open D}
    (h : Exactly L s) :
    ((s.textWrite b bytes).1 = .ok () → Exactly (L ++ bytes) (s.textWrite b bytes).2) ∧
    Begun (L ++ bytes) (s.textWrite b bytes).2 := by
  unfold Open.textWrite andThen
  dsimp only
  have h1 : ∀ x, x = (if s.text.length + bytes.length > b.chunk then s.textFlush b
      else (.ok (), s)) → (x.1 = .ok () → Exactly L x.2) ∧ Begun L x.2 := by
    rintro x rfl
    split
    · exact textFlush_exactly b h
    · exact ⟨fun _ => h, h.begun⟩
  obtain ⟨g1, g2⟩ := h1 _ rfl
  generalize (if s.text.length + bytes.length > b.chunk then s.textFlush b
      else (.ok (), s)) = x at g1 g2 ⊢
  obtain ⟨r, s1⟩ := x
  cases r with
  | error e => exact ⟨fun h => (by cases h), g2.mono⟩
  | ok u =>
    obtain ⟨x, w1, rfl⟩ := g1 rfl
    have h2 : Exactly (x ++ s1.text ++ bytes) { s1 with text := s1.text ++ bytes } :=
      ⟨x, ⟨w1.wf, w1.pos, w1.split⟩, by simp⟩
    dsimp only
    split
    · exact textFlush_exactly b h2
    · exact ⟨fun _ => h2, h2.begun⟩

/-- The writes of `extract_instruments`, and the end of its `with`. -/
theorem textFile_begun (b : Buffers) (A B : Bytes) {s : Open D} (h : Exactly [] s) :
    Begun (A ++ B) (tryFinally (andThen (Open.textWrite b A) (Open.textWrite b B))
      (Open.textClose b) s).2 := by
  have h1 : Begun (A ++ B) (andThen (Open.textWrite b A) (Open.textWrite b B) s).2 := by
    obtain ⟨g1, g2⟩ := textWrite_exactly b A h
    unfold andThen
    rcases hx : s.textWrite b A with ⟨r, s1⟩
    rw [hx] at g1 g2
    cases r with
    | error e => exact g2.mono
    | ok u => exact (textWrite_exactly b B (g1 rfl)).2
  have h2 : ∀ s : Open D, Begun (A ++ B) s → Begun (A ++ B) (s.textClose b).2 := by
    intro s h
    have h3 : Begun (A ++ B) (andThen (Open.textFlush b) Open.flush s).2 := by
      have g := textFlush_begun b h
      unfold andThen
      rcases hx : s.textFlush b with ⟨r, s1⟩
      rw [hx] at g
      cases r with
      | error e => exact g
      | ok u => exact g.flush
    unfold Open.textClose tryFinally
    rcases hx : andThen (Open.textFlush b) Open.flush s with ⟨r, s1⟩
    rw [hx] at h3
    have h4 := h3.flush
    dsimp only at h4 ⊢
    rcases hy : s1.flush with ⟨r', s2⟩
    rw [hy] at h4
    cases r' <;> exact h4
  unfold tryFinally
  rcases hx : andThen (Open.textWrite b A) (Open.textWrite b B) s with ⟨r, s1⟩
  rw [hx] at h1
  have h4 := h2 s1 h1
  dsimp only at h4 ⊢
  rcases hy : s1.textClose b with ⟨r', s2⟩
  rw [hy] at h4
  cases r' <;> exact h4

/-- The archive, with the end of its `with`. -/
theorem zipFile_any (b : Buffers) (zip64 : DateTime → Bytes → Bytes → Except PyErr Unit × Bytes)
    (t : DateTime) (data : Bytes) (hz : ¬ zip64Needed data.length) {s : Open D}
    (hs : Writing s [] 0 []) :
    Wf (tryFinally (zipFileF b zip64 t (utf8 "Song.xml".toList) data) Open.flush s).2 ∧
    ((tryFinally (zipFileF b zip64 t (utf8 "Song.xml".toList) data) Open.flush s).2.content
        = (zipSingle zip64 t (utf8 "Song.xml".toList) data).2 ∨
      Leaves t data
        (tryFinally (zipFileF b zip64 t (utf8 "Song.xml".toList) data) Open.flush s).2.content) := by
  have h := zip_any b zip64 t data hz hs
  unfold tryFinally
  rcases hx : zipFileF b zip64 t (utf8 "Song.xml".toList) data s with ⟨r, s1⟩
  rw [hx] at h
  have h1 := h.flush
  dsimp only at h1 ⊢
  rcases hy : s1.flush with ⟨r', s2⟩
  rw [hy] at h1
  have hw : Wf s2 := by
    obtain ⟨_, _, _, hw, _⟩ := h1
    exact hw.wf
  cases r' <;> exact ⟨hw, h1.content⟩

theorem writing_opened {s : Open D} (hf : s.fs s.name = some []) (hp : s.pos = 0)
    (hb : s.buf = []) : Writing s [] 0 [] := by
  have hc : s.content = [] := by unfold Open.content; rw [hf]; rfl
  refine ⟨⟨by rw [hf]; simp, by omega⟩, Nat.le_refl _, 0, Nat.le_refl _, ?_, hp, hb⟩
  rw [hc]; rfl

end VgmX
