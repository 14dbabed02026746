import Verif.Lemmas.Faults
import Verif.Lemmas.Crash
/-
The archive on a device whose writes can fail.
-/

namespace VgmX

variable {D : Device}

theorem central_take (t : DateTime) (entry : Bytes) (crc size : Nat) :
    (zipCentralHeader t entry crc size).take 46 ++ entry = zipCentralHeader t entry crc size := by
  have h : ∀ a : Bytes, a.length = 46 → (a ++ entry).take 46 ++ entry = a ++ entry := by
    intro a ha
    rw [← ha, List.take_left]
  unfold zipCentralHeader
  apply h
  simp only [zipCommon, List.length_append, length_pack]

theorem central_length' (t : DateTime) (entry : Bytes) (crc size : Nat) :
    (zipCentralHeader t entry crc size).length = 46 + entry.length := by
  simp only [zipCentralHeader, zipCommon, List.length_append, length_pack]

theorem header_lengths (t : DateTime) (entry : Bytes) (crc size size' : Nat) :
    (zipHeader0 t entry size').length = 30 + entry.length ∧
    (zipLocalHeader t entry crc size).length = 30 + entry.length := by
  constructor
  · simp only [zipHeader0, List.length_append, length_pack]
  · simp only [zipLocalHeader, zipCommon, List.length_append, length_pack]

/-- A file just opened. -/
structure Fresh (s : Open D) : Prop where
  wf : Wf s
  view : s.view = []
  tell : s.tell = 0

theorem zipClose_did (b : Buffers) (t : DateTime) (entry data : Bytes) (start : Nat) (added : Bool)
    {s : Open D} (hw : Wf s) (hs : start = s.view.length)
    (hf : (zipClose b t entry data start added s).2.failed = false) :
    (zipClose b t entry data start added s).1 = .ok () ∧
    Wf (zipClose b t entry data start added s).2 ∧
    (zipClose b t entry data start added s).2.view = s.view ++
      (if added then zipCentralHeader t entry (Spec.crc32 data) data.length else []) ++
      zipEndRecord (if added then 1 else 0)
        (if added then (zipCentralHeader t entry (Spec.crc32 data) data.length).length else 0)
        start ∧
    (zipClose b t entry data start added s).2.name = s.name := by
  unfold zipClose at hf ⊢
  generalize hE : zipEndRecord (if added then 1 else 0)
        (if added then (zipCentralHeader t entry (Spec.crc32 data) data.length).length else 0)
        start = E at hf ⊢
  have hC := central_take t entry (Spec.crc32 data) data.length
  generalize zipCentralHeader t entry (Spec.crc32 data) data.length = C at hf hC ⊢
  have kC : Stable (D := D) (fun s => if added then
      andThen (Open.write b (C.take 46)) (Open.write b entry) s else (.ok (), s)) := by
    intro s
    dsimp only
    split
    · exact Stable.andThen (write_keeps _ _) (write_keeps _ _) s
    · exact Kept.refl _ s
  have kE : Stable (D := D) (andThen (Open.write b E) Open.flush) :=
    Stable.andThen (write_keeps _ _) flush_keeps
  obtain ⟨f1, f2, e1⟩ := andThen_split (kC.andThen kE) hf
    (fun h => (seek_did hw (by omega) h).ok)
  have d1 := seek_did hw (by omega) f1
  rw [e1]
  generalize (Open.seek start s).2 = s1 at f1 f2 d1 ⊢
  -- the directory
  have hdir : ∀ hf : ((fun s : Open D => if added then
        andThen (Open.write b (C.take 46)) (Open.write b entry) s else (.ok (), s)) s1).2.failed
          = false,
      Wrote ((fun s : Open D => if added then
        andThen (Open.write b (C.take 46)) (Open.write b entry) s else (.ok (), s)) s1).1
        ((fun s : Open D => if added then
        andThen (Open.write b (C.take 46)) (Open.write b entry) s else (.ok (), s)) s1).2
        s.name (s.view ++ if added then C else [])
        (start + (if added then C else []).length) s1.text := by
    intro hf
    dsimp only at hf ⊢
    cases added with
    | false =>
      refine ⟨rfl, d1.wf, ?_, ?_, rfl, d1.name⟩
      · simpa using d1.view
      · simpa using d1.tell
    | true =>
      simp only [if_true] at hf ⊢
      obtain ⟨g1, g2, e⟩ := andThen_split (write_keeps b entry) hf
        (fun h => (write_did b _ d1.wf h).ok)
      have c1 := write_did b _ d1.wf g1
      have c2 := write_did b _ c1.wf g2
      rw [e]
      refine ⟨c2.ok, c2.wf, ?_, ?_, c2.text.trans c1.text, c2.name.trans (c1.name.trans d1.name)⟩
      · rw [c2.view, c1.view, c1.tell, overwrite_append (view_length d1.wf), hC, d1.view, d1.tell, hs,
          overwrite_end]
      · have hl := congrArg List.length hC
        rw [List.length_append] at hl
        rw [c2.tell, c1.tell, d1.tell]; omega
  obtain ⟨f3, f4, e2⟩ := andThen_split kE f2 (fun h => (hdir h).ok)
  have d2 := hdir f3
  rw [e2]
  generalize ((fun s : Open D => if added then
        andThen (Open.write b (C.take 46)) (Open.write b entry) s else (.ok (), s)) s1).2 = s2
    at f3 f4 d2 ⊢
  obtain ⟨f5, f6, e3⟩ := andThen_split flush_keeps f4 (fun h => (write_did b _ d2.wf h).ok)
  have d3 := write_did b _ d2.wf f5
  have d4 := (flush_did d3.wf f6).1
  rw [e3]
  refine ⟨d4.ok, d4.wf, ?_, d4.name.trans (d3.name.trans d2.name)⟩
  have hl : start + (if added then C else []).length = (s.view ++ if added then C else []).length := by
    rw [List.length_append, hs]
  rw [d4.view, d3.view, d2.view, d2.tell, hl, overwrite_end]

theorem zipEntry_did (b : Buffers) (t : DateTime) (entry data : Bytes) {s : Open D}
    (hs : Fresh s) (hf : (zipEntry b t entry data s).1.2.failed = false) :
    Wf (zipEntry b t entry data s).1.2 ∧ (zipEntry b t entry data s).1.2.name = s.name ∧
    (zipEntry b t entry data s).2.1 = (zipEntry b t entry data s).1.2.view.length ∧
    (zipEntry b t entry data s).1.1 = .ok () ∧ (zipEntry b t entry data s).2.2 = true ∧
    (zipEntry b t entry data s).1.2.view
      = zipLocalHeader t entry (Spec.crc32 data) data.length ++ data := by
  unfold zipEntry at hf ⊢
  obtain ⟨l0, l1⟩ := header_lengths t entry (Spec.crc32 data) data.length data.length
  generalize zipHeader0 t entry data.length = H0 at hf l0 ⊢
  generalize zipLocalHeader t entry (Spec.crc32 data) data.length = H at hf l1 ⊢
  have d1 := write_did b H0 hs.wf
  rcases hx : s.write b H0 with ⟨r1, s1⟩
  rw [hx] at hf d1
  simp only at d1
  cases r1 with
  | error e => exact absurd (d1 hf).ok (by simp)
  | ok u =>
    simp only at hf ⊢
    have d2 := write_did b data (s := s1)
    have k2 := write_keeps b data s1
    rcases hy : s1.write b data with ⟨r2, s2⟩
    rw [hy] at hf d2 k2
    simp only at hf d2 k2 ⊢
    have k3 := Stable.andThen (seek_keeps (D := D) 0) (Stable.andThen (write_keeps b H)
      (seek_keeps s2.tell)) s2
    rcases hz : andThen (Open.seek 0) (andThen (Open.write b H) (Open.seek s2.tell)) s2 with
      ⟨r3, s3⟩
    rw [hz] at hf k3
    have f3 : s3.failed = false := by cases r3 <;> exact hf
    have f2 := k3.mono f3
    have d1 := d1 (k2.mono f2)
    have d2 := d2 d1.wf f2
    have v2 : s2.view = H0 ++ data := by
      rw [d2.view, d1.view, d1.tell, overwrite_append (view_length hs.wf), hs.view, hs.tell]
      simp [overwrite]
    have t2 : s2.tell = (H0 ++ data).length := by
      rw [d2.tell, d1.tell, hs.tell, List.length_append, Nat.zero_add]
    -- back to the header and forth again
    have f3' : (andThen (Open.seek 0) (andThen (Open.write b H) (Open.seek s2.tell)) s2).2.failed
        = false := by rw [hz]; exact f3
    obtain ⟨g1, g2, e1⟩ := andThen_split (Stable.andThen (write_keeps b H) (seek_keeps s2.tell)) f3'
      (fun h => (seek_did d2.wf (Nat.zero_le _) h).ok)
    have c1 := seek_did d2.wf (Nat.zero_le _) g1
    obtain ⟨g3, g4, e2⟩ := andThen_split (seek_keeps s2.tell) g2 (fun h => (write_did b H c1.wf h).ok)
    have c2 := write_did b H c1.wf g3
    have v3 : (Open.write b H (Open.seek 0 s2).2).2.view = H ++ data := by
      rw [c2.view, c1.view, c1.tell, v2, overwrite_front H (by omega)]
    have c3 := seek_did c2.wf (p := s2.tell) (by
      rw [v3, t2, List.length_append, List.length_append]; omega) g4
    rw [hz] at e1
    rw [e2] at e1
    have hr : r3 = .ok () := by
      have := congrArg Prod.fst e1
      exact this.trans c3.ok
    have hs3 : s3 = (Open.seek s2.tell (Open.write b H (Open.seek 0 s2).2).2).2 :=
      congrArg Prod.snd e1
    subst hr
    simp only
    refine ⟨by rw [hs3]; exact c3.wf, ?_, ?_, ?_, trivial, ?_⟩
    · rw [hs3, c3.name, c2.name, c1.name, d2.name, d1.name]
    · rw [hs3, c3.view, v3, t2, List.length_append, List.length_append]; omega
    · exact d2.ok
    · rw [hs3, c3.view, v3]

theorem zipWritestr_did (b : Buffers) (t : DateTime) (entry data : Bytes) {s : Open D}
    (hs : Fresh s) (hf : (zipWritestr b t entry data s).1.2.failed = false) :
    Wf (zipWritestr b t entry data s).1.2 ∧ (zipWritestr b t entry data s).1.2.name = s.name ∧
    (zipWritestr b t entry data s).2.1 = (zipWritestr b t entry data s).1.2.view.length ∧
    if t.year < 1980 ∨ 65536 ≤ dosDate t ∨ 65536 ≤ dosTime t then
      (zipWritestr b t entry data s).1.1 = .error (if t.year < 1980 then .value else .struct) ∧
      (zipWritestr b t entry data s).2.2 = false ∧
      (zipWritestr b t entry data s).1.2.view = []
    else
      (zipWritestr b t entry data s).1.1 = .ok () ∧ (zipWritestr b t entry data s).2.2 = true ∧
      (zipWritestr b t entry data s).1.2.view
        = zipLocalHeader t entry (Spec.crc32 data) data.length ++ data := by
  unfold zipWritestr at hf ⊢
  by_cases h1 : t.year < 1980
  · rw [if_pos h1, if_pos (.inl h1)]
    refine ⟨hs.wf, rfl, ?_, ?_, rfl, hs.view⟩
    · rw [hs.view]; rfl
    · rw [if_pos h1]
  · rw [if_neg h1] at hf ⊢
    have d1 := seek_did (p := 0) hs.wf (Nat.zero_le _)
    have k1 := seek_keeps 0 s
    rcases hx : s.seek 0 with ⟨r, s1⟩
    rw [hx] at hf d1 k1
    simp only at d1 k1
    cases r with
    | error e => exact absurd (d1 hf).ok (by simp)
    | ok u =>
      simp only at hf ⊢
      by_cases h2 : 65536 ≤ dosDate t ∨ 65536 ≤ dosTime t
      · rw [if_pos h2] at hf ⊢
        rw [if_pos (.inr h2)]
        have d1 := d1 hf
        refine ⟨d1.wf, d1.name, ?_, ?_, rfl, ?_⟩
        · rw [d1.view, hs.view]; rfl
        · rw [if_neg h1]
        · rw [d1.view, hs.view]
      · rw [if_neg h2] at hf ⊢
        rw [if_neg (by rintro (h | h); exacts [h1 h, h2 h])]
        have d1 := d1 ((zipEntry_keeps b t entry data s1).mono hf)
        have := zipEntry_did b t entry data (s := s1)
          ⟨d1.wf, by rw [d1.view, hs.view], d1.tell⟩ hf
        obtain ⟨a1, a2, a3, a4, a5, a6⟩ := this
        exact ⟨a1, a2.trans d1.name, a3, a4, a5, a6⟩

/-- If no write fails, the archive is that of `zipSingle`. -/
theorem zipFileF_did (b : Buffers)
    (zip64 : DateTime → Bytes → Bytes → Except PyErr Unit × Bytes) (t : DateTime)
    (entry data : Bytes) {s : Open D} (hs : Fresh s)
    (hf : (zipFileF b zip64 t entry data s).2.failed = false) :
    (zipFileF b zip64 t entry data s).1 = (zipSingle zip64 t entry data).1 ∧
    Wf (zipFileF b zip64 t entry data s).2 ∧
    (zipFileF b zip64 t entry data s).2.view = (zipSingle zip64 t entry data).2 ∧
    (zipFileF b zip64 t entry data s).2.name = s.name := by
  unfold zipFileF at hf ⊢
  by_cases hz : 1980 ≤ t.year ∧ ¬ (65536 ≤ dosDate t ∨ 65536 ≤ dosTime t) ∧
      zip64Needed data.length
  · rw [if_pos hz] at hf ⊢
    obtain ⟨f1, f2, e⟩ := andThen_split (fun s => Kept.refl _ s) hf
      (fun h => (write_did b _ hs.wf h).ok)
    have d := write_did b (zip64 t entry data).2 hs.wf f1
    rw [e]
    unfold zipSingle
    rw [if_neg (by omega), if_neg hz.2.1, if_pos hz.2.2]
    refine ⟨rfl, d.wf, ?_, d.name⟩
    show Open.view _ = _
    rw [d.view, hs.view, hs.tell]
    simp [overwrite]
  · rw [if_neg hz] at hf ⊢
    have d1 := zipWritestr_did b t entry data hs
    rcases hx : zipWritestr b t entry data s with ⟨⟨r, s1⟩, start, added⟩
    rw [hx] at hf d1
    simp only at hf d1 ⊢
    have k2 := zipClose_keeps b t entry data start added s1
    have d2 := zipClose_did b t entry data start added (s := s1)
    rcases hy : zipClose b t entry data start added s1 with ⟨r2, s2⟩
    rw [hy] at hf k2 d2
    simp only at k2 d2
    have f2 : s2.failed = false := by cases r2 <;> exact hf
    obtain ⟨w1, n1, st, hv⟩ := d1 (k2.mono f2)
    obtain ⟨o2, w2, v2, n2⟩ := d2 w1 st f2
    subst o2
    simp only
    refine ⟨?_, w2, ?_, n2.trans n1⟩
    · unfold zipSingle
      split at hv
      · rename_i h
        rw [hv.1]
        by_cases h1 : t.year < 1980
        · rw [if_pos h1, if_pos h1]
        · rw [if_neg h1, if_neg h1, if_pos (h.resolve_left h1)]
      · rename_i h
        have h1 : ¬ t.year < 1980 := fun x => h (.inl x)
        have h2 : ¬ (65536 ≤ dosDate t ∨ 65536 ≤ dosTime t) := fun x => h (.inr x)
        rw [hv.1, if_neg h1, if_neg h2, if_neg (fun x => hz ⟨by omega, h2, x⟩)]
    · unfold zipSingle
      split at hv
      · rename_i h
        obtain ⟨_, ha, hv⟩ := hv
        rw [v2, st, ha, hv]
        by_cases h1 : t.year < 1980
        · rw [if_pos h1]; rfl
        · rw [if_neg h1, if_pos (h.resolve_left h1)]; rfl
      · rename_i h
        obtain ⟨_, ha, hv⟩ := hv
        have h1 : ¬ t.year < 1980 := fun x => h (.inl x)
        have h2 : ¬ (65536 ≤ dosDate t ∨ 65536 ≤ dosTime t) := fun x => h (.inr x)
        rw [v2, st, ha, hv, if_neg h1, if_neg h2, if_neg (fun x => hz ⟨by omega, h2, x⟩)]
        rfl

end VgmX
