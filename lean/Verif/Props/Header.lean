import Verif.Props.Reader
/-
Properties C06-C09: header decoding, file recognition, compression, the clock table.
Vocabulary: Spec/Vgm.lean.
-/

namespace VgmX
open Spec

/-! ### Header reads at a known position -/

theorem read32_at (c : Bytes) (p : Nat) (h : p + 4 ≤ c.length) :
    read32 ⟨c, p⟩ = (.ok (word c p), ⟨c, p + 4⟩) := by
  simp only [read32, read_full ⟨c, p⟩ 4 (by simp only; omega), Stream.rest]
  rw [if_neg (by simp; omega)]
  simp only [word, leValue_eq]

theorem read32_short (c : Bytes) (p : Nat) (h : c.length < p + 4) :
    (read32 ⟨c, p⟩).1 = .error .eof := by
  have hl : ((Stream.mk c p).read 4).1.length ≠ 4 := by simp [Stream.read]; omega
  unfold read32
  simp only [if_pos hl]

theorem bcdValue_four (c : Bytes) (h : 12 ≤ c.length) :
    bcdValue ((c.drop 8).take 4) = version c := by
  have e : (c.drop 8).take 4 = [c.getD 8 0, c.getD 9 0, c.getD 10 0, c.getD 11 0] := by
    match c, h with
    | _ :: _ :: _ :: _ :: _ :: _ :: _ :: _ :: a :: b :: x :: y :: t, _ => rfl
  rw [e]
  have hs : ∀ n : Nat, n >>> 4 = n / 16 := fun n => Nat.shiftRight_eq_div_pow n 4
  have ha : ∀ n : Nat, n &&& 15 = n % 16 := fun n => Nat.and_two_pow_sub_one_eq_mod n 4
  simp only [bcdValue, List.reverse_cons, List.reverse_nil, List.nil_append, List.cons_append,
    List.foldl_cons, List.foldl_nil, hs, ha, version, byteAt]
  omega

theorem readBcd_at (c : Bytes) (h : 12 ≤ c.length) :
    readBcd ⟨c, 8⟩ = (.ok (version c), ⟨c, 12⟩) := by
  simp only [readBcd, read_full ⟨c, 8⟩ 4 (by simp only; omega), Stream.rest]
  rw [if_neg (by simp; omega), bcdValue_four c h]

theorem readBcd_short (c : Bytes) (h : c.length < 12) : (readBcd ⟨c, 8⟩).1 = .error .eof := by
  have hl : ((Stream.mk c 8).read 4).1.length ≠ 4 := by simp [Stream.read]; omega
  unfold readBcd
  simp only [if_pos hl]

/-- The clock table after a successful open. -/
def openedClocks (clocks : Clocks) (c : Bytes) : Clocks :=
  (clocks.set "ym2413" (word c 0x10)).set "ym2151" (ym2151Clock c)

theorem set_set (k : Clocks) (s : String) (a b : Nat) : (k.set s a).set s b = k.set s b := by
  funext x
  simp only [Clocks.set]
  split <;> rfl

theorem init_ok (clocks : Clocks) (c : Bytes) (h : headerLen c ≤ c.length) :
    Vgm.init clocks ⟨c, 4⟩ =
      (.ok ⟨⟨c, dataStart c⟩, word c 4, version c, dataStart c⟩, openedClocks clocks c) := by
  have h34 : 0x34 ≤ c.length := by unfold headerLen at h; split at h <;> omega
  unfold Vgm.init
  rw [read32_at c 4 (by omega)]
  simp only
  rw [readBcd_at c (by omega)]
  simp only
  rw [read32_at c 12 (by omega)]
  simp only
  rw [read32_at c 16 (by omega)]
  simp only [Stream.seek]
  rw [read32_at c 0x30 (by omega)]
  simp only
  have hclk : (if version c < 110 then ((clocks.set "ym2413" (word c 16)).set "ym2151" (word c 48)).set
        "ym2151" (word c 16) else (clocks.set "ym2413" (word c 16)).set "ym2151" (word c 48))
      = openedClocks clocks c := by
    unfold openedClocks ym2151Clock
    by_cases hv : version c < 110
    · rw [if_pos hv, if_pos hv, set_set]
    · rw [if_neg hv, if_neg hv]
  rw [hclk]
  by_cases hv : 150 ≤ version c
  · rw [if_pos hv, read32_at c 0x34 (by unfold headerLen at h; rw [if_pos hv] at h; omega)]
    simp only [dataStart, if_pos hv]
  · rw [if_neg hv]
    simp only [dataStart, if_neg hv]

theorem init_short (clocks : Clocks) (c : Bytes) (h : c.length < headerLen c) :
    (Vgm.init clocks ⟨c, 4⟩).1 = .error .eof := by
  unfold Vgm.init
  by_cases h8 : c.length < 8
  · have := read32_short c 4 (by omega)
    cases hx : read32 ⟨c, 4⟩ with
    | mk a b => rw [hx] at this; simp only at this; subst this; rfl
  rw [read32_at c 4 (by omega)]
  simp only
  by_cases h12 : c.length < 12
  · have := readBcd_short c h12
    cases hx : readBcd ⟨c, 8⟩ with
    | mk a b => rw [hx] at this; simp only at this; subst this; rfl
  rw [readBcd_at c (by omega)]
  simp only
  by_cases h16 : c.length < 16
  · have := read32_short c 12 (by omega)
    cases hx : read32 ⟨c, 12⟩ with
    | mk a b => rw [hx] at this; simp only at this; subst this; rfl
  rw [read32_at c 12 (by omega)]
  simp only
  by_cases h20 : c.length < 20
  · have := read32_short c 16 (by omega)
    cases hx : read32 ⟨c, 16⟩ with
    | mk a b => rw [hx] at this; simp only at this; subst this; rfl
  rw [read32_at c 16 (by omega)]
  simp only [Stream.seek]
  by_cases h34 : c.length < 0x34
  · have := read32_short c 0x30 (by omega)
    cases hx : read32 ⟨c, 0x30⟩ with
    | mk a b => rw [hx] at this; simp only at this; subst this; rfl
  rw [read32_at c 0x30 (by omega)]
  simp only
  have hv : 150 ≤ version c := by
    unfold headerLen at h
    by_cases hv : 150 ≤ version c
    · exact hv
    · rw [if_neg hv] at h; omega
  rw [if_pos hv]
  unfold headerLen at h
  rw [if_pos hv] at h
  have := read32_short c 0x34 (by omega)
  cases hx : read32 ⟨c, 0x34⟩ with
  | mk a b => rw [hx] at this; simp only at this; subst this; rfl

theorem reader_plain (gunzip : Bytes → Except PyErr Bytes) (clocks : Clocks) (c : Bytes)
    (hz : c.take 2 ≠ gzipMagic) :
    reader gunzip clocks c =
      if c.take 4 ≠ vgmMagic then (.ok none, clocks)
      else
        match Vgm.init clocks ⟨c, 4⟩ with
        | (.error e, k) => (.error e, k)
        | (.ok v, k) => (.ok (some v), k) := by
  have h4 : ((Stream.mk c 0).read 4).1 = c.take 4 := by simp [Stream.read]
  have hs : c.take 4 = vgmMagic → ((Stream.mk c 0).read 4).2 = ⟨c, 4⟩ := by
    intro h
    have : c.length ≥ 4 := by
      have := congrArg List.length h
      simp [vgmMagic] at this
      omega
    rw [read_full _ 4 (by simp only; omega)]
  unfold reader
  simp only [h4]
  have hz' : (c.take 4).take 2 ≠ gzipMagic := by simpa [List.take_take] using hz
  have hz'' : ¬ (c.take 4).take 2 = [0x1f, 0x8b] := hz'
  rw [if_neg hz'']
  by_cases hm : c.take 4 = vgmMagic
  · have hm' : ¬ c.take 4 ≠ [0x56, 0x67, 0x6d, 0x20] := by intro h; exact h hm
    rw [if_neg hm', if_neg (by intro h; exact h hm), hs hm]
    rfl
  · have hm' : c.take 4 ≠ [0x56, 0x67, 0x6d, 0x20] := hm
    rw [if_pos hm', if_pos hm]

theorem magic_not_gzip (c : Bytes) (h : c.take 4 = vgmMagic) : c.take 2 ≠ gzipMagic := by
  have : (c.take 4).take 2 = c.take 2 := by rw [List.take_take]; rfl
  rw [← this, h]
  decide

/-! ### C06 -/

/-- C06. A VGM file with a complete header is opened with exactly the header fields of the
file format, positioned at the start of its data. -/
theorem c06_header (gunzip : Bytes → Except PyErr Bytes) (clocks : Clocks) (c : Bytes)
    (hm : c.take 4 = vgmMagic) (hlen : headerLen c ≤ c.length) :
    ∃ v k, reader gunzip clocks c = (.ok (some v), k) ∧
      v.size = word c 4 + 4 ∧
      v.version = version c ∧
      clock k "ym2151" = .ok (ym2151Clock c) ∧
      supports k "ym2151" = decide (0 < ym2151Clock c) ∧
      clock k "ym2413" = .ok (word c 0x10) ∧
      v.stream = ⟨c, dataStart c⟩ := by
  refine ⟨⟨⟨c, dataStart c⟩, word c 4, version c, dataStart c⟩, openedClocks clocks c,
    ?_, rfl, rfl, ?_, ?_, ?_, rfl⟩
  · rw [reader_plain gunzip clocks c (magic_not_gzip c hm), if_neg (by intro h; exact h hm),
      init_ok clocks c hlen]
  · simp [clock, openedClocks, Clocks.set]
  · simp [supports, openedClocks, Clocks.set]
  · simp [clock, openedClocks, Clocks.set]

/-- Little-endian BCD bytes of a number below 10^8. -/
def bcdBytes (n : Nat) : Bytes :=
  [UInt8.ofNat (n / 10 % 10 * 16 + n % 10),
   UInt8.ofNat (n / 1000 % 10 * 16 + n / 100 % 10),
   UInt8.ofNat (n / 100000 % 10 * 16 + n / 10000 % 10),
   UInt8.ofNat (n / 10000000 % 10 * 16 + n / 1000000 % 10)]

/-- C06. Every version number below 10^8 is read back from its BCD encoding. -/
theorem c06_bcd (n : Nat) (hn : n < 10 ^ 8) (pre post : Bytes) (hp : pre.length = 8) :
    version (pre ++ bcdBytes n ++ post) = n := by
  have hb : ∀ i, byteAt (pre ++ bcdBytes n ++ post) (8 + i) = byteAt (bcdBytes n ++ post) i := by
    intro i
    simp only [byteAt, List.append_assoc, List.getD]
    rw [List.getElem?_append_right (by omega), hp, Nat.add_sub_cancel_left]
  have h0 : byteAt (pre ++ bcdBytes n ++ post) 8 = (n / 10 % 10 * 16 + n % 10) % 2 ^ 8 := hb 0
  have h1 : byteAt (pre ++ bcdBytes n ++ post) 9 = (n / 1000 % 10 * 16 + n / 100 % 10) % 2 ^ 8 :=
    hb 1
  have h2 : byteAt (pre ++ bcdBytes n ++ post) 10 =
      (n / 100000 % 10 * 16 + n / 10000 % 10) % 2 ^ 8 := hb 2
  have h3 : byteAt (pre ++ bcdBytes n ++ post) 11 =
      (n / 10000000 % 10 * 16 + n / 1000000 % 10) % 2 ^ 8 := hb 3
  unfold version
  rw [h0, h1, h2, h3]
  have hhi : ∀ a b, (a % 10 * 16 + b % 10) % 2 ^ 8 / 16 = a % 10 := by intro a b; omega
  have hlo : ∀ a b, (a % 10 * 16 + b % 10) % 2 ^ 8 % 16 = b % 10 := by intro a b; omega
  simp only [hhi, hlo]
  clear h0 h1 h2 h3 hhi hlo hb
  have e2 : n / 100 = n / 10 / 10 := by rw [Nat.div_div_eq_div_mul]
  have e3 : n / 1000 = n / 10 / 10 / 10 := by simp only [Nat.div_div_eq_div_mul]
  have e4 : n / 10000 = n / 10 / 10 / 10 / 10 := by simp only [Nat.div_div_eq_div_mul]
  have e5 : n / 100000 = n / 10 / 10 / 10 / 10 / 10 := by simp only [Nat.div_div_eq_div_mul]
  have e6 : n / 1000000 = n / 10 / 10 / 10 / 10 / 10 / 10 := by
    simp only [Nat.div_div_eq_div_mul]
  have e7 : n / 10000000 = n / 10 / 10 / 10 / 10 / 10 / 10 / 10 := by
    simp only [Nat.div_div_eq_div_mul]
  rw [e2, e3, e4, e5, e6, e7]
  clear e2 e3 e4 e5 e6 e7
  omega

example : bcdBytes 171 = [0x71, 0x01, 0, 0] ∧
    version (List.replicate 8 0 ++ bcdBytes 171 ++ [7]) = 171 := by decide +kernel

/-- A minimal header used in the examples: version 1.51, YM2151 clock 3579545, data offset
12 (so the data starts at 0x40). -/
def sampleHeader : Bytes :=
  [0x56, 0x67, 0x6d, 0x20, 0, 1, 0, 0, 0x51, 1, 0, 0] ++ List.replicate 36 0 ++
    [0x99, 0x9e, 0x36, 0] ++ [12, 0, 0, 0] ++ List.replicate 8 0

example : sampleHeader.take 4 = vgmMagic ∧ headerLen sampleHeader ≤ sampleHeader.length ∧
    version sampleHeader = 151 ∧ ym2151Clock sampleHeader = 3579545 ∧
    dataStart sampleHeader = 0x40 := by decide +kernel

/-! ### C07 -/

/-- C07. For a file that is not gzip-compressed, `reader` returns `None` exactly if the magic
is missing, raises exactly if the header is cut off (and then `EOFError`), and otherwise
returns a reader at the data offset. -/
theorem c07_accepts (gunzip : Bytes → Except PyErr Bytes) (clocks : Clocks) (c : Bytes)
    (hz : c.take 2 ≠ gzipMagic) :
    ((reader gunzip clocks c).1 = .ok none ↔ c.take 4 ≠ vgmMagic) ∧
    ((∃ e, (reader gunzip clocks c).1 = .error e) ↔
      c.take 4 = vgmMagic ∧ c.length < headerLen c) ∧
    (∀ e, (reader gunzip clocks c).1 = .error e → e = .eof) ∧
    ((∃ v, (reader gunzip clocks c).1 = .ok (some v) ∧ v.stream = ⟨c, dataStart c⟩) ↔
      c.take 4 = vgmMagic ∧ headerLen c ≤ c.length) := by
  rw [reader_plain gunzip clocks c hz]
  by_cases hm : c.take 4 = vgmMagic
  · rw [if_neg (by intro h; exact h hm)]
    by_cases hl : headerLen c ≤ c.length
    · rw [init_ok clocks c hl]
      refine ⟨?_, ?_, ?_, ?_⟩
      · simp [hm]
      · simp [hm, hl]
      · simp
      · simp [hm, hl]
    · have hs := init_short clocks c (by omega)
      cases hx : Vgm.init clocks ⟨c, 4⟩ with
      | mk a b =>
        rw [hx] at hs
        simp only at hs
        subst hs
        refine ⟨?_, ?_, ?_, ?_⟩
        · simp [hm]
        · simp [hm]; omega
        · simp
        · simp [hl]
  · rw [if_pos hm]
    simp [hm]

example : sampleHeader.take 2 ≠ gzipMagic ∧ (sampleHeader.take 0x36).take 4 = vgmMagic ∧
    (sampleHeader.take 0x36).length < headerLen (sampleHeader.take 0x36) := by decide +kernel

/-! ### C08 -/

/-- C08. A gzip file is read exactly as its decompressed content, unless that is itself gzip. -/
theorem c08_transparent (gunzip gunzip' : Bytes → Except PyErr Bytes) (clocks : Clocks)
    (c plain : Bytes) (hz : c.take 2 = gzipMagic) (hg : gunzip c = .ok plain)
    (hp : plain.take 2 ≠ gzipMagic) :
    reader gunzip clocks c = reader gunzip' clocks plain := by
  have h4 : ((Stream.mk c 0).read 4).1 = c.take 4 := by simp [Stream.read]
  have h4p : ((Stream.mk plain 0).read 4).1 = plain.take 4 := by simp [Stream.read]
  have hz' : (c.take 4).take 2 = [0x1f, 0x8b] := by
    rw [List.take_take]; exact hz
  have hp' : ¬ (plain.take 4).take 2 = [0x1f, 0x8b] := by
    rw [List.take_take]; exact hp
  unfold reader
  simp only [h4, h4p]
  rw [if_pos hz', hg, if_neg hp']
  rw [← h4p]

/-- C08. Nested compression is not undone: the file is not recognised. -/
theorem c08_nested_rejected (gunzip : Bytes → Except PyErr Bytes) (clocks : Clocks)
    (c plain : Bytes) (hz : c.take 2 = gzipMagic) (hg : gunzip c = .ok plain)
    (hp : plain.take 2 = gzipMagic) : reader gunzip clocks c = (.ok none, clocks) := by
  have h4 : ((Stream.mk c 0).read 4).1 = c.take 4 := by simp [Stream.read]
  have h4p : ((Stream.mk plain 0).read 4).1 = plain.take 4 := by simp [Stream.read]
  have hz' : (c.take 4).take 2 = [0x1f, 0x8b] := by
    rw [List.take_take]; exact hz
  have hne : plain.take 4 ≠ [0x56, 0x67, 0x6d, 0x20] := by
    intro h
    have : (plain.take 4).take 2 = plain.take 2 := by rw [List.take_take]; rfl
    rw [hp, h] at this
    exact absurd this (by decide)
  unfold reader
  simp only [h4]
  rw [if_pos hz', hg]
  simp only [h4p]
  rw [if_pos hne]

/-- C08. The decompressor has no influence on a file without the gzip magic. -/
theorem c08_not_consulted (g g' : Bytes → Except PyErr Bytes) (clocks : Clocks) (c : Bytes)
    (hz : c.take 2 ≠ gzipMagic) : reader g clocks c = reader g' clocks c := by
  rw [reader_plain g clocks c hz, reader_plain g' clocks c hz]

/-- C08. An error of the decompressor is passed on. -/
theorem c08_corrupt (gunzip : Bytes → Except PyErr Bytes) (clocks : Clocks) (c : Bytes) (e : PyErr)
    (hz : c.take 2 = gzipMagic) (hg : gunzip c = .error e) :
    reader gunzip clocks c = (.error e, clocks) := by
  have h4 : ((Stream.mk c 0).read 4).1 = c.take 4 := by simp [Stream.read]
  have hz' : (c.take 4).take 2 = [0x1f, 0x8b] := by
    rw [List.take_take]; exact hz
  unfold reader
  simp only [h4]
  rw [if_pos hz', hg]

example : (([0x1f, 0x8b, 8, 0] : Bytes).take 2 = gzipMagic) ∧ sampleHeader.take 2 ≠ gzipMagic := by
  decide +kernel

/-! ### C09 -/

/-- Opening files one after the other in one process; the clock table lives on. -/
def openAll (gunzip : Bytes → Except PyErr Bytes) : Clocks → List Bytes →
    List (Except PyErr (Option Vgm)) × Clocks
  | k, [] => ([], k)
  | k, c :: cs =>
    let (r, k') := reader gunzip k c
    let (rs, k'') := openAll gunzip k' cs
    (r :: rs, k'')

/-- C09, what holds: after opening VGM files, the clock that *every* reader reports is that
of the file opened last. -/
theorem c09_last_wins_partial (gunzip : Bytes → Except PyErr Bytes) (k : Clocks) (cs : List Bytes) (c : Bytes)
    (hm : c.take 4 = vgmMagic) (hlen : headerLen c ≤ c.length) :
    clock (openAll gunzip k (cs ++ [c])).2 "ym2151" = .ok (ym2151Clock c) ∧
    supports (openAll gunzip k (cs ++ [c])).2 "ym2151" = decide (0 < ym2151Clock c) := by
  induction cs generalizing k with
  | nil =>
    obtain ⟨v, k', h1, _, _, h2, h3, _, _⟩ := c06_header gunzip k c hm hlen
    simp [openAll, h1, h2, h3]
  | cons d cs ih =>
    simp only [List.cons_append, openAll]
    exact ih _

/-- C09, when it holds: with a single file open, the reader reports its own clock, whatever
the table held before. -/
theorem c09_single_partial (gunzip : Bytes → Except PyErr Bytes) (k k' : Clocks) (c : Bytes)
    (hm : c.take 4 = vgmMagic) (hlen : headerLen c ≤ c.length) :
    clock (reader gunzip k c).2 "ym2151" = clock (reader gunzip k' c).2 "ym2151" := by
  obtain ⟨v, k1, h1, _, _, h2, _, _, _⟩ := c06_header gunzip k c hm hlen
  obtain ⟨w, k2, g1, _, _, g2, _, _, _⟩ := c06_header gunzip k' c hm hlen
  rw [h1, g1]
  simp only [h2, g2]

/-- Another header, version 1.00, clock 1000000 at 0x10. -/
def otherHeader : Bytes :=
  [0x56, 0x67, 0x6d, 0x20, 0, 1, 0, 0, 0, 1, 0, 0] ++ List.replicate 4 0 ++ [0x40, 0x42, 0x0f, 0] ++
    List.replicate 44 0

/-- C09 is false: the first reader reports the second file's clock. -/
theorem c09_isolation_refuted : ∃ a b : Bytes,
    a.take 4 = vgmMagic ∧ headerLen a ≤ a.length ∧ b.take 4 = vgmMagic ∧ headerLen b ≤ b.length ∧
    ∀ gunzip k, clock (openAll gunzip k [a, b]).2 "ym2151" ≠ .ok (ym2151Clock a) := by
  refine ⟨sampleHeader, otherHeader, by decide, by decide +kernel, by decide, by decide +kernel, ?_⟩
  intro gunzip k
  have := (c09_last_wins_partial gunzip k [sampleHeader] otherHeader (by decide)
    (by decide +kernel)).1
  rw [show [sampleHeader, otherHeader] = [sampleHeader] ++ [otherHeader] from rfl, this]
  decide +kernel

/-- C09: even a file that fails to open leaves its traces in the table. -/
theorem c09_failed_open_leaks (gunzip : Bytes → Except PyErr Bytes) (k : Clocks) :
    ∃ c, (reader gunzip k c).1 = .error .eof ∧ clock (reader gunzip k c).2 "ym2413" = .ok 1000000 := by
  refine ⟨otherHeader.take 0x30, ?_, ?_⟩
  · have := (c07_accepts gunzip k (otherHeader.take 0x30) (by decide)).2
    obtain ⟨e, he⟩ := this.1.mpr ⟨by decide, by decide +kernel⟩
    rw [he, this.2.1 e he]
  · rw [reader_plain gunzip k _ (by decide), if_neg (by decide)]
    rfl

end VgmX
