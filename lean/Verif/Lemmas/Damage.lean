import Verif.Lemmas.Crash
import Verif.Lemmas.Faults
import Verif.Lemmas.XmlEnd
/-
The archives that failing writes leave do not read as songs.
-/

namespace VgmX
open Spec

theorem readSongFile_none {b : Bytes} (h : unzip b = none) : readSongFile b = none := by
  unfold readSongFile; rw [h]

/-- An archive without entries is no song. -/
theorem readSongFile_empty {b : Bytes} (h : ∀ es, unzip b = some es → es = []) :
    readSongFile b = none := by
  unfold readSongFile
  cases hu : unzip b with
  | none => rfl
  | some es => rw [h es hu]

theorem readEntries_zero {b : Bytes} {n o p : Nat} {es : List ZipEntry}
    (h : readEntries b n o = some (es, p)) (hn : n = 0) : es = [] := by
  subst hn
  simp only [readEntries, Option.some.injEq, Prod.mk.injEq] at h
  exact h.1.symm

theorem emptyEnd_bytes (o : Nat) : ∃ o0 o1 o2 o3 : UInt8, zipEndRecord 0 0 o =
    [0x50, 0x4B, 5, 6, 0, 0, 0, 0, 0, 0, 0, 0, 0, 0, 0, 0, o0, o1, o2, o3, 0, 0] :=
  ⟨_, _, _, _, rfl⟩

theorem emptyEnd_zero : zipEndRecord 0 0 0 =
    [0x50, 0x4B, 5, 6, 0, 0, 0, 0, 0, 0, 0, 0, 0, 0, 0, 0, 0, 0, 0, 0, 0, 0] := by decide

theorem byteAt_overwrite (c x : Bytes) (i : Nat) :
    byteAt (overwrite c 0 x) i = if i < x.length then byteAt x i else byteAt c i := by
  unfold overwrite
  simp only [List.take_zero, List.nil_append, Nat.zero_add]
  split
  · rename_i h; rw [byteAt_left h]
  · rename_i h
    obtain ⟨j, rfl⟩ : ∃ j, i = x.length + j := ⟨i - x.length, by omega⟩
    rw [byteAt_right, byteAt_drop]

theorem take_most (e : Bytes) (m n : Nat) (h : e.length = n) : ∃ m' ≤ n, e.take m = e.take m' := by
  by_cases hm : m ≤ n
  · exact ⟨m, hm, rfl⟩
  · refine ⟨n, Nat.le_refl _, ?_⟩
    rw [List.take_of_length_le (by omega), List.take_of_length_le (by omega)]

/-- The first header, cut off, with the record of an empty archive over it. -/
theorem damage_start (t : DateTime) (size j m : Nat) :
    readSongFile (overwrite ((zipHeader0 t (utf8 "Song.xml".toList) size).take j) 0
      ((zipEndRecord 0 0 0).take m)) = none := by
  obtain ⟨m', hm', em⟩ := take_most (zipEndRecord 0 0 0) m 22 (end_length _ _ _)
  rw [em]
  clear em m
  apply readSongFile_empty
  intro es hu
  obtain ⟨t0, t1, d0, d1, s0, s1, s2, s3, e⟩ := header0_bytes t size
  rw [e, emptyEnd_zero] at hu
  generalize hH : [0x50, 0x4B, 3, 4, 20, 0, 0, 0, 0, 0, t0, t1, d0, d1, 0, 0, 0, 0, 0, 0, 0, 0,
       s0, s1, s2, s3, 8, 0, 0, 0, 0x53, 0x6F, 0x6E, 0x67, 0x2E, 0x78, 0x6D, 0x6C] = H at hu
  generalize hE : ([0x50, 0x4B, 5, 6, 0, 0, 0, 0, 0, 0, 0, 0, 0, 0, 0, 0, 0, 0, 0, 0, 0, 0] : Bytes)
    = E at hu
  have lH : H.length = 38 := by rw [← hH]; rfl
  have lE : E.length = 22 := by rw [← hE]; rfl
  obtain ⟨p, hlen, ⟨h0, h1, h2, h3⟩, _, _, ⟨h8, h9⟩, hr⟩ := unzip_bytes hu
  apply readEntries_zero hr
  rw [overwrite_length (Nat.zero_le _), List.length_take, List.length_take, lH, lE] at hlen
  have hat : ∀ i < p + 22, byteAt (overwrite (H.take j) 0 (E.take m')) i
      = if i < m' then byteAt E i else byteAt H i := by
    intro i hi
    rw [byteAt_overwrite, List.length_take, lE]
    by_cases hm : i < m'
    · rw [if_pos hm, if_pos (by omega), byteAt_take hm]
    · rw [if_neg hm, if_neg (by omega), byteAt_take (by omega)]
  rw [hat _ (by omega)] at h0 h1 h2 h3
  rw [hat _ (by omega), hat _ (by omega)] at h8 h9
  rw [hat _ (by omega), hat _ (by omega)]
  clear hat hr hu
  have hp : p ≤ 16 := by omega
  have ne : ∀ {a c : Nat}, a = c → Nat.beq a c = false → False :=
    fun h hf => Nat.ne_of_beq_eq_false hf h
  by_cases hm : p < m'
  · rw [if_pos hm] at h0
    have : p = 0 := by
      rw [← hE] at h0
      clear hlen h1 h2 h3 h8 h9
      interval_cases p <;> first | rfl | exact (ne h0 rfl).elim
    subst this
    have a8 : (if 0 + 8 < m' then byteAt E (0 + 8) else byteAt H (0 + 8)) = 0 := by
      rw [← hE, ← hH]; split <;> rfl
    have a9 : (if 0 + 9 < m' then byteAt E (0 + 9) else byteAt H (0 + 9)) = 0 := by
      rw [← hE, ← hH]; split <;> rfl
    omega
  · rw [if_neg (by omega)] at h0 h1 h2 h3
    rw [if_neg (by omega), if_neg (by omega)]
    clear h8 h9 hlen
    rw [← hH] at h0 h1 h2 h3 ⊢
    clear hH hE
    have hm0 : p ≠ 0 ∨ p = 0 := by omega
    interval_cases p <;> first
      | rfl
      | exact (ne h0 rfl).elim
      | exact (ne h1 rfl).elim
      | exact (ne h2 rfl).elim
      | exact (ne h3 rfl).elim

/-- A header of the entry, whatever its checksum and sizes. -/
def SomeHeader (h : Bytes) : Prop :=
  ∃ t0 t1 d0 d1 r0 r1 r2 r3 s0 s1 s2 s3 z0 z1 z2 z3 : UInt8, h =
    [0x50, 0x4B, 3, 4, 20, 0, 0, 0, 0, 0, t0, t1, d0, d1, r0, r1, r2, r3, s0, s1, s2, s3,
     z0, z1, z2, z3, 8, 0, 0, 0, 0x53, 0x6F, 0x6E, 0x67, 0x2E, 0x78, 0x6D, 0x6C]

theorem mixed_header (t : DateTime) (crc size size' j : Nat) :
    SomeHeader (overwrite (zipHeader0 t (utf8 "Song.xml".toList) size') 0
      ((zipLocalHeader t (utf8 "Song.xml".toList) crc size).take j)) := by
  obtain ⟨j', hj', e⟩ := take_most (zipLocalHeader t (utf8 "Song.xml".toList) crc size) j 38
    (local_length _ _ _)
  rw [e]
  obtain ⟨t0, t1, d0, d1, s0, s1, s2, s3, e⟩ := header0_bytes t size'
  obtain ⟨t0', t1', d0', d1', r0, r1, r2, r3, s0', s1', s2', s3', e'⟩ := header_bytes t crc size
  rw [e, e']
  clear e e'
  interval_cases j' <;> exact ⟨_, _, _, _, _, _, _, _, _, _, _, _, _, _, _, _, rfl⟩

theorem some_header (t : DateTime) (crc size : Nat) :
    SomeHeader (zipLocalHeader t (utf8 "Song.xml".toList) crc size) := by
  obtain ⟨t0', t1', d0', d1', r0, r1, r2, r3, s0', s1', s2', s3', e'⟩ := header_bytes t crc size
  rw [e']
  exact ⟨_, _, _, _, _, _, _, _, _, _, _, _, _, _, _, _, rfl⟩

theorem SomeHeader.len {h : Bytes} (hh : SomeHeader h) : h.length = 38 := by
  obtain ⟨_, _, _, _, _, _, _, _, _, _, _, _, _, _, _, _, rfl⟩ := hh; rfl

/-- A header, data, and less than an end record. -/
theorem short_tail {h : Bytes} (hh : SomeHeader h) (data : Bytes)
    (hd : ∀ x ∈ data, x ≠ 0 ∧ x ≠ 5) (T : Bytes) (hT : T.length < 22)
    (hz : T ≠ [] → byteAt T (T.length - 1) = 0 → byteAt T (T.length - 2) = 0 → 6 ≤ T.length)
    (hs0 : byteAt T 0 ≠ 5) (hs1 : byteAt T 1 ≠ 5) :
    unzip (h ++ data ++ T) = none := by
  have hl := hh.len
  cases hu : unzip (h ++ data ++ T) with
  | none => rfl
  | some es =>
    exfalso
    obtain ⟨p, hlen, ⟨h0, h1, h2, h3⟩, ⟨h4, _, _, _⟩, ⟨h20, h21⟩, _, hr⟩ := unzip_bytes hu
    rw [List.length_append, List.length_append, hl] at hlen
    have atT : ∀ i, byteAt (h ++ data ++ T) (38 + data.length + i) = byteAt T i := by
      intro i
      have : 38 + data.length + i = (h ++ data).length + i := by rw [List.length_append, hl]
      rw [this, byteAt_right]
    have atD : ∀ i < data.length, ∃ x ∈ data, byteAt (h ++ data ++ T) (38 + i) = x.toNat := by
      intro i hi
      rw [byteAt_left (by rw [List.length_append, hl]; omega), ← hl, byteAt_right]
      exact byteAt_mem hi
    have atH : ∀ i < 38, byteAt (h ++ data ++ T) i = byteAt h i := by
      intro i hi
      rw [List.append_assoc, byteAt_left (by omega)]
    have at37 : byteAt h 37 ≠ 0 := by
      obtain ⟨_, _, _, _, _, _, _, _, _, _, _, _, _, _, _, _, rfl⟩ := hh
      exact Nat.ne_of_beq_eq_false rfl
    have h6 : 6 ≤ T.length := by
      by_cases hne : T = []
      · exfalso
        rw [hne, List.length_nil] at hlen
        by_cases hk : data.length = 0
        · rw [show p + 21 = 37 by omega, atH 37 (by omega)] at h21
          exact at37 h21
        · obtain ⟨x, hx, ex⟩ := atD (data.length - 1) (by omega)
          rw [show p + 21 = 38 + (data.length - 1) by omega, ex] at h21
          exact (hd x hx).1 (UInt8.toNat.inj h21)
      · have h1 : 0 < T.length := List.length_pos_iff.mpr hne
        rw [show p + 21 = 38 + data.length + (T.length - 1) by omega, atT] at h21
        by_cases h2 : T.length = 1
        · refine hz hne h21 ?_
          rw [h2] at h21 ⊢
          exact h21
        · rw [show p + 20 = 38 + data.length + (T.length - 2) by omega, atT] at h20
          exact hz hne h21 h20
    by_cases hp : 38 ≤ p
    · by_cases hin : p + 2 < 38 + data.length
      · obtain ⟨x, hx, ex⟩ := atD (p + 2 - 38) (by omega)
        rw [show p + 2 = 38 + (p + 2 - 38) by omega, ex] at h2
        exact (hd x hx).2 (UInt8.toNat.inj h2)
      · have : T.length = 20 ∨ T.length = 21 := by omega
        rcases this with e | e
        · rw [show p + 2 = 38 + data.length + 0 by omega, atT] at h2
          exact hs0 h2
        · rw [show p + 2 = 38 + data.length + 1 by omega, atT] at h2
          exact hs1 h2
    · have hp22 : 22 ≤ p := by omega
      have hp38 : p < 38 := by omega
      rw [atH _ (by omega)] at h0
      have k1 : p ≤ 26 → byteAt h (p + 1) = 0x4B ∧ byteAt h (p + 2) = 5 ∧ byteAt h (p + 3) = 6 ∧
          byteAt h (p + 4) = 0 := by
        intro h26
        rw [atH _ (by omega)] at h1 h2 h3 h4
        exact ⟨h1, h2, h3, h4⟩
      clear atT atD atH h1 h2 h3 h4 hr hu hlen h20 h21
      obtain ⟨_, _, _, _, _, _, _, _, _, _, _, _, _, _, _, _, rfl⟩ := hh
      have ne : ∀ {a c : Nat}, a = c → Nat.beq a c = false → False :=
        fun h hf => Nat.ne_of_beq_eq_false hf h
      interval_cases p <;> first
        | exact ne h0 rfl
        | exact ne (k1 (by decide)).1 rfl
        | exact ne (k1 (by decide)).2.1 rfl
        | exact ne (k1 (by decide)).2.2.1 rfl
        | exact ne (k1 (by decide)).2.2.2 rfl

/-- A header, data, and the record of an empty archive, or part of it. -/
theorem damage_empty {h : Bytes} (hh : SomeHeader h) (data : Bytes)
    (hd : ∀ x ∈ data, x ≠ 0 ∧ x ≠ 5) (o m : Nat) :
    readSongFile (h ++ data ++ (zipEndRecord 0 0 o).take m) = none := by
  obtain ⟨m', hm', em⟩ := take_most (zipEndRecord 0 0 o) m 22 (end_length _ _ _)
  rw [em]
  clear em m
  obtain ⟨o0, o1, o2, o3, e⟩ := emptyEnd_bytes o
  rw [e]
  clear e
  by_cases h22 : m' = 22
  · subst h22
    apply readSongFile_empty
    intro es hu
    obtain ⟨p, hlen, _, _, _, _, hr⟩ := unzip_bytes hu
    apply readEntries_zero hr
    rw [List.length_append, List.length_take] at hlen
    have hp : p = (h ++ data).length := by
      simp only [List.length_cons, List.length_nil] at hlen; omega
    rw [hp, byteAt_right, byteAt_right]
    rfl
  · apply readSongFile_none
    apply short_tail hh data hd
    · rw [List.length_take]; simp only [List.length_cons, List.length_nil]; omega
    · have ne : ∀ {a c : Nat}, a = c → Nat.beq a c = false → False :=
        fun h hf => Nat.ne_of_beq_eq_false hf h
      have : m' < 22 := by omega
      clear hm' h22
      intro h1 h2 h3
      interval_cases m' <;> first
        | exact absurd rfl h1
        | exact (ne h2 rfl).elim
        | exact (ne h3 rfl).elim
        | (simp only [List.length_take, List.length_cons, List.length_nil]; omega)
    · have : m' < 22 := by omega
      clear hm' h22
      interval_cases m' <;> exact Nat.ne_of_beq_eq_false rfl
    · have : m' < 22 := by omega
      clear hm' h22
      interval_cases m' <;> exact Nat.ne_of_beq_eq_false rfl

/-- A header, data and a directory that is cut off. -/
theorem damage_late (t : DateTime) (crc size o : Nat) (data : Bytes)
    (hd : ∀ x ∈ data, x ≠ 0 ∧ x ≠ 5) (m : Nat) (hm : m < 76) :
    unzip (zipLocalHeader t (utf8 "Song.xml".toList) crc size ++ data ++
      (zipCentralHeader t (utf8 "Song.xml".toList) crc size ++ zipEndRecord 1
        (zipCentralHeader t (utf8 "Song.xml".toList) crc size).length o).take m) = none := by
  by_cases hlong : 22 ≤ data.length
  · exact cut_late t crc size o data hlong hd m hm
  by_cases h22 : m < 22
  · obtain ⟨t0, t1, d0, d1, r0, r1, r2, r3, s0, s1, s2, s3, o0, o1, o2, o3, e⟩ :=
      central_bytes t crc size o
    rw [e]
    clear e
    apply short_tail (some_header _ _ _) data hd
    · rw [List.length_take]; simp only [List.length_cons, List.length_nil]; omega
    · have ne : ∀ {a c : Nat}, a = c → Nat.beq a c = false → False :=
        fun h hf => Nat.ne_of_beq_eq_false hf h
      intro h1 h2 h3
      clear hm
      interval_cases m <;> first
        | exact absurd rfl h1
        | exact (ne h2 rfl).elim
        | exact (ne h3 rfl).elim
        | (simp only [List.length_take, List.length_cons, List.length_nil]; omega)
    · clear hm
      interval_cases m <;> exact Nat.ne_of_beq_eq_false rfl
    · clear hm
      interval_cases m <;> exact Nat.ne_of_beq_eq_false rfl
  · -- as in `cut_late`, which does not use the length here
    obtain ⟨t0, t1, d0, d1, r0, r1, r2, r3, s0, s1, s2, s3, o0, o1, o2, o3, e⟩ :=
      central_bytes t crc size o
    obtain ⟨_, _, _, _, _, _, _, _, _, _, _, _, eh⟩ := header_bytes t crc size
    rw [e]
    have hh0 : byteAt (zipLocalHeader t (utf8 "Song.xml".toList) crc size) 2 = 3 := by rw [eh]; rfl
    have hh8 : byteAt (zipLocalHeader t (utf8 "Song.xml".toList) crc size) 8 = 0 := by rw [eh]; rfl
    have hl : (zipLocalHeader t (utf8 "Song.xml".toList) crc size).length = 38 := by rw [eh]; rfl
    clear eh e
    generalize zipLocalHeader t (utf8 "Song.xml".toList) crc size = H at *
    generalize hR : [0x50, 0x4B, 1, 2, 20, 3, 20, 0, 0, 0, 0, 0, t0, t1, d0, d1, r0, r1, r2, r3,
         s0, s1, s2, s3, s0, s1, s2, s3, 8, 0, 0, 0, 0, 0, 0, 0, 0, 0, 0, 0, 0x80, 1,
         0, 0, 0, 0, 0x53, 0x6F, 0x6E, 0x67, 0x2E, 0x78, 0x6D, 0x6C,
         0x50, 0x4B, 5, 6, 0, 0, 0, 0, 1, 0, 1, 0, 54, 0, 0, 0, o0, o1, o2, o3, 0, 0] = R
    have hRl : R.length = 76 := by rw [← hR]; rfl
    generalize hb : H ++ data ++ R.take m = b
    cases hu : unzip b with
    | none => rfl
    | some es =>
      exfalso
      obtain ⟨p, hlen, ⟨h0, h1, h2, h3⟩, ⟨h4, h5, h6, h7⟩, ⟨h20, h21⟩, _, hr⟩ := unzip_bytes hu
      have hlen' : p + 22 = 38 + data.length + m := by
        rw [← hlen, ← hb, List.length_append, List.length_append, hl, List.length_take, hRl]
        omega
      have hat : ∀ i, i < m → byteAt b (38 + data.length + i) = byteAt R i := by
        intro i hi
        have : 38 + data.length + i = (H ++ data).length + i := by
          rw [List.length_append, hl]
        rw [this, ← hb, byteAt_right, byteAt_take hi]
      have hb2 : byteAt b 2 = 3 := by
        rw [← hb, List.append_assoc, byteAt_left (by omega), hh0]
      have hb8 : byteAt b 8 = 0 := by
        rw [← hb, List.append_assoc, byteAt_left (by omega), hh8]
      obtain ⟨j, rfl⟩ : ∃ j, m = j + 22 := ⟨m - 22, by omega⟩
      have hpj : p = 38 + data.length + j := by omega
      have hsig := readEntries_sig hr
      have at' : ∀ i < 22, byteAt b (p + i) = byteAt R (j + i) := by
        intro i hi
        rw [hpj, Nat.add_assoc, hat (j + i) (by omega)]
      have h0 := (at' 0 (by omega)).symm.trans h0
      rw [at' _ (by omega)] at h1 h2 h3 h4 h5 h6 h7 h20 h21
      rw [at' 16 (by omega), at' 17 (by omega), at' 18 (by omega), at' 19 (by omega)] at hsig
      clear hat at' hr hu hlen
      have hj : j < 54 := by omega
      rw [← hR] at h0 h1 h2 h3 h4 h5 h6 h7 h20 h21 hsig
      clear hR hRl
      have hlo : ∀ o, (o = p ∨ byteAt b o = 0x50 ∧ byteAt b (o + 2) = 1) → o = 0 ∨ o = 8 → False := by
        rintro o (h | h) (rfl | rfl)
        · omega
        · omega
        · rw [hb2] at h; omega
        · rw [hb8] at h; omega
      clear hb2 hb8 hb hh0 hh8
      have ne : ∀ {a c : Nat}, a = c → Nat.beq a c = false → False :=
        fun h hf => Nat.ne_of_beq_eq_false hf h
      interval_cases j <;> first
        | exact ne h0 rfl
        | exact ne h2 rfl
        | exact ne h4 rfl
        | exact ne h20 rfl
        | exact ne h21 rfl
        | exact absurd (h0.symm.trans h4) (by decide)
        | exact hlo _ hsig (.inl rfl)
        | exact hlo _ hsig (.inr rfl)

end VgmX
