import Verif.Model.Zip
import Verif.Lemmas.Reader
/-
The reader of Spec/Zip reads back what the writer of Model/Zip writes.
-/

namespace VgmX
open Spec

theorem leNat_pack (k n : Nat) : leNat (pack k n) = n % 256 ^ k := by
  induction k generalizing n with
  | zero => simp [pack, leNat, Nat.mod_one]
  | succ k ih =>
    have e : pack (k + 1) n = UInt8.ofNat n :: pack k (n / 256) := by
      unfold pack
      rw [List.range_succ_eq_map, List.map_cons, List.map_map]
      simp only [Nat.pow_zero, Nat.div_one, List.cons.injEq, true_and]
      apply List.map_congr_left
      intro i _
      simp only [Function.comp, Nat.pow_succ]
      rw [Nat.div_div_eq_div_mul, Nat.mul_comm]
    rw [e, leNat, ih, Nat.pow_succ, Nat.mul_comm (256 ^ k) 256, Nat.mod_mul]
    simp

theorem leValue_pack (k n : Nat) (h : n < 256 ^ k) : leValue (pack k n) = n := by
  rw [leValue_eq, leNat_pack, Nat.mod_eq_of_lt h]

theorem slice_mid (a b c : Bytes) : slice (a ++ b ++ c) a.length b.length = some b := by
  unfold slice
  rw [if_pos (by simp), List.append_assoc, List.drop_left, List.take_left]

theorem slice_at (x a b c : Bytes) (p k : Nat) (hx : x = a ++ b ++ c) (hp : p = a.length)
    (hk : k = b.length) : slice x p k = some b := by
  subst hx hp hk; exact slice_mid a b c

/-- The fixed parts of the headers. -/
def localFixed (t : DateTime) (crc size nameLen : Nat) : Bytes :=
  pack 4 0x04034B50 ++ zipCommon t crc size nameLen ++ pack 2 0

/-- See `localFixed`. -/
def centralFixed (t : DateTime) (crc size nameLen : Nat) : Bytes :=
  pack 4 0x02014B50 ++ pack 1 20 ++ pack 1 3 ++ zipCommon t crc size nameLen
    ++ pack 2 0 ++ pack 2 0 ++ pack 2 0 ++ pack 2 0 ++ pack 4 (0o600 <<< 16) ++ pack 4 0


section Fields
set_option linter.unusedSimpArgs false
variable (n s o : Nat) (t : DateTime) (crc size nl : Nat)


theorem leAt_at (x a b c : Bytes) (p k : Nat) (hx : x = a ++ b ++ c) (hp : p = a.length)
    (hk : k = b.length) : leAt x p k = leValue b := by
  subst hx hp hk
  unfold leAt
  rw [List.append_assoc, List.drop_left, List.take_left]

theorem length_pack (k n : Nat) : (pack k n).length = k := by simp [pack]

theorem leAt_pack (x a c : Bytes) (p k n : Nat) (hx : x = a ++ pack k n ++ c) (hp : p = a.length)
    (hn : n < 256 ^ k) : leAt x p k = n := by
  rw [leAt_at x a (pack k n) c p k hx hp (length_pack k n).symm, leValue_pack k n hn]

theorem cf_sig : leAt (centralFixed t crc size nl) 0 4 = 0x02014B50 :=
  leAt_pack _ ([])
    (pack 1 20 ++ pack 1 3 ++ pack 1 20 ++ pack 1 0 ++ pack 2 0 ++ pack 2 0 ++ pack 2 (dosTime t) ++ pack 2 (dosDate t) ++ pack 4 crc ++ pack 4 size ++ pack 4 size ++ pack 2 nl ++ pack 2 0 ++ pack 2 0 ++ pack 2 0 ++ pack 2 0 ++ pack 4 (0o600 <<< 16) ++ pack 4 0) 0 4 0x02014B50
    (by simp only [centralFixed, zipCommon, List.append_assoc, List.nil_append, List.append_nil])
    (by simp only [List.length_append, length_pack, List.length_nil]) (by decide)
theorem cf_nl (h : nl < 256 ^ 2) : leAt (centralFixed t crc size nl) 28 2 = nl :=
  leAt_pack _ (pack 4 0x02014B50 ++ pack 1 20 ++ pack 1 3 ++ pack 1 20 ++ pack 1 0 ++ pack 2 0 ++ pack 2 0 ++ pack 2 (dosTime t) ++ pack 2 (dosDate t) ++ pack 4 crc ++ pack 4 size ++ pack 4 size)
    (pack 2 0 ++ pack 2 0 ++ pack 2 0 ++ pack 2 0 ++ pack 4 (0o600 <<< 16) ++ pack 4 0) 28 2 nl
    (by simp only [centralFixed, zipCommon, List.append_assoc, List.nil_append, List.append_nil])
    (by simp only [List.length_append, length_pack, List.length_nil]) h
theorem cf_xl : leAt (centralFixed t crc size nl) 30 2 = 0 :=
  leAt_pack _ (pack 4 0x02014B50 ++ pack 1 20 ++ pack 1 3 ++ pack 1 20 ++ pack 1 0 ++ pack 2 0 ++ pack 2 0 ++ pack 2 (dosTime t) ++ pack 2 (dosDate t) ++ pack 4 crc ++ pack 4 size ++ pack 4 size ++ pack 2 nl)
    (pack 2 0 ++ pack 2 0 ++ pack 2 0 ++ pack 4 (0o600 <<< 16) ++ pack 4 0) 30 2 0
    (by simp only [centralFixed, zipCommon, List.append_assoc, List.nil_append, List.append_nil])
    (by simp only [List.length_append, length_pack, List.length_nil]) (by decide)
theorem cf_cl : leAt (centralFixed t crc size nl) 32 2 = 0 :=
  leAt_pack _ (pack 4 0x02014B50 ++ pack 1 20 ++ pack 1 3 ++ pack 1 20 ++ pack 1 0 ++ pack 2 0 ++ pack 2 0 ++ pack 2 (dosTime t) ++ pack 2 (dosDate t) ++ pack 4 crc ++ pack 4 size ++ pack 4 size ++ pack 2 nl ++ pack 2 0)
    (pack 2 0 ++ pack 2 0 ++ pack 4 (0o600 <<< 16) ++ pack 4 0) 32 2 0
    (by simp only [centralFixed, zipCommon, List.append_assoc, List.nil_append, List.append_nil])
    (by simp only [List.length_append, length_pack, List.length_nil]) (by decide)
theorem cf_size (h : size < 256 ^ 4) : leAt (centralFixed t crc size nl) 24 4 = size :=
  leAt_pack _ (pack 4 0x02014B50 ++ pack 1 20 ++ pack 1 3 ++ pack 1 20 ++ pack 1 0 ++ pack 2 0 ++ pack 2 0 ++ pack 2 (dosTime t) ++ pack 2 (dosDate t) ++ pack 4 crc ++ pack 4 size)
    (pack 2 nl ++ pack 2 0 ++ pack 2 0 ++ pack 2 0 ++ pack 2 0 ++ pack 4 (0o600 <<< 16) ++ pack 4 0) 24 4 size
    (by simp only [centralFixed, zipCommon, List.append_assoc, List.nil_append, List.append_nil])
    (by simp only [List.length_append, length_pack, List.length_nil]) h
theorem cf_off : leAt (centralFixed t crc size nl) 42 4 = 0 :=
  leAt_pack _ (pack 4 0x02014B50 ++ pack 1 20 ++ pack 1 3 ++ pack 1 20 ++ pack 1 0 ++ pack 2 0 ++ pack 2 0 ++ pack 2 (dosTime t) ++ pack 2 (dosDate t) ++ pack 4 crc ++ pack 4 size ++ pack 4 size ++ pack 2 nl ++ pack 2 0 ++ pack 2 0 ++ pack 2 0 ++ pack 2 0 ++ pack 4 (0o600 <<< 16))
    ([]) 42 4 0
    (by simp only [centralFixed, zipCommon, List.append_assoc, List.nil_append, List.append_nil])
    (by simp only [List.length_append, length_pack, List.length_nil]) (by decide)
theorem cf_flags : leAt (centralFixed t crc size nl) 8 2 = 0 :=
  leAt_pack _ (pack 4 0x02014B50 ++ pack 1 20 ++ pack 1 3 ++ pack 1 20 ++ pack 1 0)
    (pack 2 0 ++ pack 2 (dosTime t) ++ pack 2 (dosDate t) ++ pack 4 crc ++ pack 4 size ++ pack 4 size ++ pack 2 nl ++ pack 2 0 ++ pack 2 0 ++ pack 2 0 ++ pack 2 0 ++ pack 4 (0o600 <<< 16) ++ pack 4 0) 8 2 0
    (by simp only [centralFixed, zipCommon, List.append_assoc, List.nil_append, List.append_nil])
    (by simp only [List.length_append, length_pack, List.length_nil]) (by decide)
theorem cf_method : leAt (centralFixed t crc size nl) 10 2 = 0 :=
  leAt_pack _ (pack 4 0x02014B50 ++ pack 1 20 ++ pack 1 3 ++ pack 1 20 ++ pack 1 0 ++ pack 2 0)
    (pack 2 (dosTime t) ++ pack 2 (dosDate t) ++ pack 4 crc ++ pack 4 size ++ pack 4 size ++ pack 2 nl ++ pack 2 0 ++ pack 2 0 ++ pack 2 0 ++ pack 2 0 ++ pack 4 (0o600 <<< 16) ++ pack 4 0) 10 2 0
    (by simp only [centralFixed, zipCommon, List.append_assoc, List.nil_append, List.append_nil])
    (by simp only [List.length_append, length_pack, List.length_nil]) (by decide)
theorem cf_csize (h : size < 256 ^ 4) : leAt (centralFixed t crc size nl) 20 4 = size :=
  leAt_pack _ (pack 4 0x02014B50 ++ pack 1 20 ++ pack 1 3 ++ pack 1 20 ++ pack 1 0 ++ pack 2 0 ++ pack 2 0 ++ pack 2 (dosTime t) ++ pack 2 (dosDate t) ++ pack 4 crc)
    (pack 4 size ++ pack 2 nl ++ pack 2 0 ++ pack 2 0 ++ pack 2 0 ++ pack 2 0 ++ pack 4 (0o600 <<< 16) ++ pack 4 0) 20 4 size
    (by simp only [centralFixed, zipCommon, List.append_assoc, List.nil_append, List.append_nil])
    (by simp only [List.length_append, length_pack, List.length_nil]) h
theorem cf_crc (h : crc < 256 ^ 4) : leAt (centralFixed t crc size nl) 16 4 = crc :=
  leAt_pack _ (pack 4 0x02014B50 ++ pack 1 20 ++ pack 1 3 ++ pack 1 20 ++ pack 1 0 ++ pack 2 0 ++ pack 2 0 ++ pack 2 (dosTime t) ++ pack 2 (dosDate t))
    (pack 4 size ++ pack 4 size ++ pack 2 nl ++ pack 2 0 ++ pack 2 0 ++ pack 2 0 ++ pack 2 0 ++ pack 4 (0o600 <<< 16) ++ pack 4 0) 16 4 crc
    (by simp only [centralFixed, zipCommon, List.append_assoc, List.nil_append, List.append_nil])
    (by simp only [List.length_append, length_pack, List.length_nil]) h
theorem cf_date (h : (dosDate t) < 256 ^ 2) : leAt (centralFixed t crc size nl) 14 2 = (dosDate t) :=
  leAt_pack _ (pack 4 0x02014B50 ++ pack 1 20 ++ pack 1 3 ++ pack 1 20 ++ pack 1 0 ++ pack 2 0 ++ pack 2 0 ++ pack 2 (dosTime t))
    (pack 4 crc ++ pack 4 size ++ pack 4 size ++ pack 2 nl ++ pack 2 0 ++ pack 2 0 ++ pack 2 0 ++ pack 2 0 ++ pack 4 (0o600 <<< 16) ++ pack 4 0) 14 2 (dosDate t)
    (by simp only [centralFixed, zipCommon, List.append_assoc, List.nil_append, List.append_nil])
    (by simp only [List.length_append, length_pack, List.length_nil]) h
theorem cf_time (h : (dosTime t) < 256 ^ 2) : leAt (centralFixed t crc size nl) 12 2 = (dosTime t) :=
  leAt_pack _ (pack 4 0x02014B50 ++ pack 1 20 ++ pack 1 3 ++ pack 1 20 ++ pack 1 0 ++ pack 2 0 ++ pack 2 0)
    (pack 2 (dosDate t) ++ pack 4 crc ++ pack 4 size ++ pack 4 size ++ pack 2 nl ++ pack 2 0 ++ pack 2 0 ++ pack 2 0 ++ pack 2 0 ++ pack 4 (0o600 <<< 16) ++ pack 4 0) 12 2 (dosTime t)
    (by simp only [centralFixed, zipCommon, List.append_assoc, List.nil_append, List.append_nil])
    (by simp only [List.length_append, length_pack, List.length_nil]) h
theorem lf_sig : leAt (localFixed t crc size nl) 0 4 = 0x04034B50 :=
  leAt_pack _ ([])
    (pack 1 20 ++ pack 1 0 ++ pack 2 0 ++ pack 2 0 ++ pack 2 (dosTime t) ++ pack 2 (dosDate t) ++ pack 4 crc ++ pack 4 size ++ pack 4 size ++ pack 2 nl ++ pack 2 0) 0 4 0x04034B50
    (by simp only [localFixed, zipCommon, List.append_assoc, List.nil_append, List.append_nil])
    (by simp only [List.length_append, length_pack, List.length_nil]) (by decide)
theorem lf_nl (h : nl < 256 ^ 2) : leAt (localFixed t crc size nl) 26 2 = nl :=
  leAt_pack _ (pack 4 0x04034B50 ++ pack 1 20 ++ pack 1 0 ++ pack 2 0 ++ pack 2 0 ++ pack 2 (dosTime t) ++ pack 2 (dosDate t) ++ pack 4 crc ++ pack 4 size ++ pack 4 size)
    (pack 2 0) 26 2 nl
    (by simp only [localFixed, zipCommon, List.append_assoc, List.nil_append, List.append_nil])
    (by simp only [List.length_append, length_pack, List.length_nil]) h
theorem lf_xl : leAt (localFixed t crc size nl) 28 2 = 0 :=
  leAt_pack _ (pack 4 0x04034B50 ++ pack 1 20 ++ pack 1 0 ++ pack 2 0 ++ pack 2 0 ++ pack 2 (dosTime t) ++ pack 2 (dosDate t) ++ pack 4 crc ++ pack 4 size ++ pack 4 size ++ pack 2 nl)
    ([]) 28 2 0
    (by simp only [localFixed, zipCommon, List.append_assoc, List.nil_append, List.append_nil])
    (by simp only [List.length_append, length_pack, List.length_nil]) (by decide)
theorem end_sig : leAt (zipEndRecord n s o) 0 4 = 0x06054B50 :=
  leAt_pack _ ([])
    (pack 2 0 ++ pack 2 0 ++ pack 2 n ++ pack 2 n ++ pack 4 s ++ pack 4 o ++ pack 2 0) 0 4 0x06054B50
    (by simp only [zipEndRecord, zipCommon, List.append_assoc, List.nil_append, List.append_nil])
    (by simp only [List.length_append, length_pack, List.length_nil]) (by decide)
theorem end_d1 : leAt (zipEndRecord n s o) 4 2 = 0 :=
  leAt_pack _ (pack 4 0x06054B50)
    (pack 2 0 ++ pack 2 n ++ pack 2 n ++ pack 4 s ++ pack 4 o ++ pack 2 0) 4 2 0
    (by simp only [zipEndRecord, zipCommon, List.append_assoc, List.nil_append, List.append_nil])
    (by simp only [List.length_append, length_pack, List.length_nil]) (by decide)
theorem end_d2 : leAt (zipEndRecord n s o) 6 2 = 0 :=
  leAt_pack _ (pack 4 0x06054B50 ++ pack 2 0)
    (pack 2 n ++ pack 2 n ++ pack 4 s ++ pack 4 o ++ pack 2 0) 6 2 0
    (by simp only [zipEndRecord, zipCommon, List.append_assoc, List.nil_append, List.append_nil])
    (by simp only [List.length_append, length_pack, List.length_nil]) (by decide)
theorem end_count1 (h : n < 256 ^ 2) : leAt (zipEndRecord n s o) 8 2 = n :=
  leAt_pack _ (pack 4 0x06054B50 ++ pack 2 0 ++ pack 2 0)
    (pack 2 n ++ pack 4 s ++ pack 4 o ++ pack 2 0) 8 2 n
    (by simp only [zipEndRecord, zipCommon, List.append_assoc, List.nil_append, List.append_nil])
    (by simp only [List.length_append, length_pack, List.length_nil]) h
theorem end_count (h : n < 256 ^ 2) : leAt (zipEndRecord n s o) 10 2 = n :=
  leAt_pack _ (pack 4 0x06054B50 ++ pack 2 0 ++ pack 2 0 ++ pack 2 n)
    (pack 4 s ++ pack 4 o ++ pack 2 0) 10 2 n
    (by simp only [zipEndRecord, zipCommon, List.append_assoc, List.nil_append, List.append_nil])
    (by simp only [List.length_append, length_pack, List.length_nil]) h
theorem end_size (h : s < 256 ^ 4) : leAt (zipEndRecord n s o) 12 4 = s :=
  leAt_pack _ (pack 4 0x06054B50 ++ pack 2 0 ++ pack 2 0 ++ pack 2 n ++ pack 2 n)
    (pack 4 o ++ pack 2 0) 12 4 s
    (by simp only [zipEndRecord, zipCommon, List.append_assoc, List.nil_append, List.append_nil])
    (by simp only [List.length_append, length_pack, List.length_nil]) h
theorem end_offset (h : o < 256 ^ 4) : leAt (zipEndRecord n s o) 16 4 = o :=
  leAt_pack _ (pack 4 0x06054B50 ++ pack 2 0 ++ pack 2 0 ++ pack 2 n ++ pack 2 n ++ pack 4 s)
    (pack 2 0) 16 4 o
    (by simp only [zipEndRecord, zipCommon, List.append_assoc, List.nil_append, List.append_nil])
    (by simp only [List.length_append, length_pack, List.length_nil]) h
theorem end_comment : leAt (zipEndRecord n s o) 20 2 = 0 :=
  leAt_pack _ (pack 4 0x06054B50 ++ pack 2 0 ++ pack 2 0 ++ pack 2 n ++ pack 2 n ++ pack 4 s ++ pack 4 o)
    ([]) 20 2 0
    (by simp only [zipEndRecord, zipCommon, List.append_assoc, List.nil_append, List.append_nil])
    (by simp only [List.length_append, length_pack, List.length_nil]) (by decide)

theorem cf_lf : ((centralFixed t crc size nl).drop 6).take 24 = ((localFixed t crc size nl).drop 4).take 24 := by
  have a : centralFixed t crc size nl = (pack 4 0x02014B50 ++ pack 1 20 ++ pack 1 3) ++
      (zipCommon t crc size nl ++ pack 2 0 ++ pack 2 0 ++ pack 2 0 ++ pack 2 0 ++ pack 4 (0o600 <<< 16) ++ pack 4 0) := by
    simp only [centralFixed, List.append_assoc]
  have b : localFixed t crc size nl = pack 4 0x04034B50 ++ (zipCommon t crc size nl ++ pack 2 0) := by
    simp only [localFixed, List.append_assoc]
  have l : (zipCommon t crc size nl).length = 24 := by
    simp only [zipCommon, List.length_append, length_pack]
  rw [a, b, List.drop_left' (by simp only [List.length_append, length_pack]),
    List.drop_left' (by simp only [length_pack])]
  simp only [List.append_assoc]
  rw [List.take_left' l, List.take_left' l]
end Fields

theorem crc32_lt (b : Bytes) : crc32 b < 2 ^ 32 := UInt32.toNat_lt _

theorem guard_true {p : Prop} [Decidable p] (h : p) : (guard p : Option Unit) = some () := by
  simp [guard, h]

/-- One stored entry is read back. -/
theorem unzip_single (t : DateTime) (name data : Bytes)
    (hn : name.length < 65536) (hs : data.length < 2 ^ 31) (hd : dosDate t < 65536)
    (ht : dosTime t < 65536) :
    let l := zipLocalHeader t name (crc32 data) data.length ++ data
    let c := zipCentralHeader t name (crc32 data) data.length
    unzip (l ++ c ++ zipEndRecord 1 c.length l.length) =
      some [⟨name, data, dosDate t, dosTime t⟩] := by
  intro l c
  have gt : ∀ [Decidable True], (guard True : Option Unit) = some () := guard_true trivial
  have hcl : c.length = 46 + name.length := by
    simp only [c, zipCentralHeader, zipCommon, List.length_append, length_pack]
  have hll : l.length = 30 + name.length + data.length := by
    simp only [l, zipLocalHeader, zipCommon, List.length_append, length_pack]
  have hc : c = centralFixed t (crc32 data) data.length name.length ++ name := rfl
  have hl : l = localFixed t (crc32 data) data.length name.length ++ name ++ data := rfl
  clear_value l c
  have hel : (zipEndRecord 1 c.length l.length).length = 22 := by
    simp only [zipEndRecord, List.length_append, length_pack]
  have hcf : (centralFixed t (crc32 data) data.length name.length).length = 46 := by
    simp only [centralFixed, zipCommon, List.length_append, length_pack]
  have hlf : (localFixed t (crc32 data) data.length name.length).length = 30 := by
    simp only [localFixed, zipCommon, List.length_append, length_pack]
  have hcl4 : c.length < 256 ^ 4 := by omega
  have hll4 : l.length < 256 ^ 4 := by omega
  have e0 := end_sig 1 c.length l.length
  have e1 := end_d1 1 c.length l.length
  have e2 := end_d2 1 c.length l.length
  have e3 := end_count1 1 c.length l.length (by decide)
  have e4 := end_count 1 c.length l.length (by decide)
  have e5 := end_size 1 c.length l.length hcl4
  have e6 := end_offset 1 c.length l.length hll4
  have e7 := end_comment 1 c.length l.length
  have hcrc : crc32 data < 256 ^ 4 := by have := crc32_lt data; omega
  have hs4 : data.length < 256 ^ 4 := by omega
  have hn2 : name.length < 256 ^ 2 := by omega
  have c0 := cf_sig t (crc32 data) data.length name.length
  have c1 := cf_nl t (crc32 data) data.length name.length hn2
  have c2 := cf_xl t (crc32 data) data.length name.length
  have c3 := cf_cl t (crc32 data) data.length name.length
  have c4 := cf_size t (crc32 data) data.length name.length hs4
  have c5 := cf_off t (crc32 data) data.length name.length
  have c6 := cf_flags t (crc32 data) data.length name.length
  have c7 := cf_method t (crc32 data) data.length name.length
  have c8 := cf_csize t (crc32 data) data.length name.length hs4
  have c9 := cf_crc t (crc32 data) data.length name.length hcrc
  have c10 := cf_date t (crc32 data) data.length name.length (by omega)
  have c11 := cf_time t (crc32 data) data.length name.length (by omega)
  have l0 := lf_sig t (crc32 data) data.length name.length
  have l1 := lf_nl t (crc32 data) data.length name.length hn2
  have l2 := lf_xl t (crc32 data) data.length name.length
  have cl := cf_lf t (crc32 data) data.length name.length
  generalize zipEndRecord 1 c.length l.length = E at *
  generalize centralFixed t (crc32 data) data.length name.length = C at *
  generalize localFixed t (crc32 data) data.length name.length = L at *
  have hb : l ++ c ++ E = l ++ (C ++ name) ++ E := by rw [hc]
  have hb2 : l ++ c ++ E = (L ++ name ++ data) ++ (C ++ name) ++ E := by rw [hc, hl]
  have hentry : readEntry (l ++ c ++ E) l.length =
      some (⟨name, data, dosDate t, dosTime t⟩, l.length + 46 + name.length) := by
    unfold readEntry
    rw [slice_at _ l C (name ++ E) l.length 46 (by rw [hb]; simp) rfl hcf.symm]
    simp only [Option.bind_eq_bind, Option.bind_some, c0, c1, c2, c3, c4, c5, gt]
    rw [slice_at _ (l ++ C) name E (l.length + 46) name.length (by rw [hb]; simp) (by simp [hcf]) rfl,
      slice_at _ [] L (name ++ data ++ (C ++ name) ++ E) 0 30 (by rw [hb2]; simp) rfl hlf.symm]
    simp only [Option.bind_some, l0, l1, l2, c6, c7, c8, c9, c10, c11, cl, gt, and_self]
    rw [slice_at _ L name (data ++ (C ++ name) ++ E) (0 + 30) name.length (by rw [hb2]; simp)
      (by rw [hlf]) rfl,
      slice_at _ (L ++ name) data ((C ++ name) ++ E) (0 + 30 + name.length + 0) data.length
      (by rw [hb2]; simp) (by simp [hlf]) rfl]
    simp only [Option.bind_some, gt]
    simp
  have hlen : (l ++ c ++ E).length - 22 = l.length + c.length := by simp [hel]; omega
  unfold unzip
  rw [if_pos (by simp [hel]; omega)]
  have hdrop : (l ++ c ++ E).drop (l.length + c.length) = E := by
    rw [← List.length_append, List.drop_left]
  simp only [hlen, hdrop, e0, e1, e2, e3, e4, e5, e6, e7, Option.bind_eq_bind, gt, and_self,
    Option.bind_some, readEntries, hentry]
  rw [guard_true ⟨by rw [hcl]; omega, by omega⟩]
  rfl

end VgmX
