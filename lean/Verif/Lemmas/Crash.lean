import Verif.Model.Crash
import Verif.Lemmas.Zip
import Verif.Lemmas.Json
import Verif.Spec.SongFile
import Mathlib.Tactic.IntervalCases
/-
What is in a file if only some of the bytes have been written.
-/

namespace VgmX
open Spec

/-! Operations on one file. -/

/-- The file an operation is about. -/
def FsOp.name : FsOp → Str
  | .create n => n
  | .put n _ _ => n

theorem applyOps_append (a b : List FsOp) (fs : Str → Option Bytes) :
    applyOps (a ++ b) fs = applyOps b (applyOps a fs) := by
  simp [applyOps]

theorem applyOps_other (ops : List FsOp) (n : Str) (h : ∀ o ∈ ops, o.name ≠ n)
    (fs : Str → Option Bytes) : applyOps ops fs n = fs n := by
  induction ops generalizing fs with
  | nil => rfl
  | cons o ops ih =>
    have h1 := h o List.mem_cons_self
    show applyOps ops (FsOp.apply fs o) n = _
    rw [ih (fun o ho => h o (List.mem_cons_of_mem _ ho))]
    cases o with
    | create m =>
      simp only [FsOp.apply, setFile]
      rw [if_neg (fun e => h1 e.symm)]
    | put m p b =>
      simp only [FsOp.apply, setFile]
      rw [if_neg (fun e => h1 e.symm)]

theorem puts_cons (n : Str) (pos : Nat) (b : UInt8) (bs : Bytes) :
    puts n pos (b :: bs) = .put n pos b :: puts n (pos + 1) bs := by
  unfold puts
  rw [List.zipIdx_cons, List.map_cons]
  congr 1
  rw [List.zipIdx_succ, List.map_map]
  apply List.map_congr_left
  intro x _
  simp only [Function.comp]
  congr 1
  omega

theorem puts_name (n : Str) (pos : Nat) (bs : Bytes) : ∀ o ∈ puts n pos bs, o.name = n := by
  intro o ho
  obtain ⟨x, _, rfl⟩ := List.mem_map.mp ho
  rfl

theorem puts_length (n : Str) (pos : Nat) (bs : Bytes) : (puts n pos bs).length = bs.length := by
  simp [puts]

theorem puts_take (n : Str) (pos : Nat) (bs : Bytes) (k : Nat) :
    (puts n pos bs).take k = puts n pos (bs.take k) := by
  induction bs generalizing pos k with
  | nil => simp [puts]
  | cons b bs ih =>
    cases k with
    | zero => simp [puts]
    | succ k => rw [puts_cons, List.take_succ_cons, ih, List.take_succ_cons, puts_cons]

theorem putByte_at (c : Bytes) (pos : Nat) (h : pos ≤ c.length) (b : UInt8) :
    putByte c pos b = c.take pos ++ b :: c.drop (pos + 1) := by
  unfold putByte
  split
  · rename_i hlt
    rw [List.set_eq_take_append_cons_drop, if_pos hlt]
  · have : pos = c.length := by omega
    subst this
    simp

/-- A write replaces what it covers. -/
theorem applyOps_puts (n : Str) (bs : Bytes) (pos : Nat) (fs : Str → Option Bytes) (c : Bytes)
    (hc : fs n = some c) (hp : pos ≤ c.length) :
    applyOps (puts n pos bs) fs n = some (c.take pos ++ bs ++ c.drop (pos + bs.length)) := by
  induction bs generalizing pos fs c with
  | nil => simp [puts, applyOps, hc]
  | cons b bs ih =>
    rw [puts_cons]
    show applyOps (puts n (pos + 1) bs) (FsOp.apply fs (.put n pos b)) n = _
    have e : FsOp.apply fs (.put n pos b) n = some (c.take pos ++ b :: c.drop (pos + 1)) := by
      simp only [FsOp.apply, setFile, if_true, hc, Option.getD_some]
      rw [putByte_at c pos hp]
    rw [ih (pos + 1) _ _ e (by
      simp only [List.length_append, List.length_take, List.length_cons]; omega)]
    congr 1
    have hl : (c.take pos).length = pos := by simp; omega
    have h1 : (c.take pos ++ b :: c.drop (pos + 1)).take (pos + 1) = c.take pos ++ [b] := by
      rw [List.take_append, hl, List.take_of_length_le (by omega)]
      simp
    have h2 : (c.take pos ++ b :: c.drop (pos + 1)).drop (pos + 1 + bs.length)
        = c.drop (pos + (b :: bs).length) := by
      rw [List.drop_append, hl, List.drop_eq_nil_of_le (by omega), List.nil_append,
        show pos + 1 + bs.length - pos = bs.length + 1 by omega, List.drop_succ_cons,
        List.drop_drop]
      congr 1
      simp only [List.length_cons]; omega
    rw [h1, h2]
    simp

theorem applyOps_create (n : Str) (ops : List FsOp) (fs : Str → Option Bytes) :
    applyOps (.create n :: ops) fs = applyOps ops (setFile fs n []) := rfl

/-- A new file of which the first bytes are written. -/
theorem applyOps_new (n : Str) (bs : Bytes) (k : Nat) (fs : Str → Option Bytes) :
    applyOps ((.create n :: puts n 0 bs).take (k + 1)) fs n = some (bs.take k) := by
  rw [List.take_succ_cons, applyOps_create, puts_take,
    applyOps_puts n _ 0 _ [] (by simp [setFile]) (by simp)]
  simp

/-! Unfinished archives. -/

/-- What an archive ends with. -/
theorem unzip_end {b : Bytes} {es : List ZipEntry} (h : unzip b = some es) :
    ∃ e : Bytes, 22 ≤ b.length ∧ e = b.drop (b.length - 22) ∧
      leAt e 0 4 = 0x06054B50 ∧ leAt e 4 2 = 0 ∧ leAt e 6 2 = 0 ∧ leAt e 8 2 = leAt e 10 2 ∧
      leAt e 20 2 = 0 ∧ readEntries b (leAt e 10 2) (leAt e 16 4) = some (es, b.length - 22) := by
  unfold unzip at h
  split at h
  · rename_i h22
    refine ⟨_, h22, rfl, ?_⟩
    simp only [bind, Option.bind, guard, pure, failure] at h
    split at h
    · exact absurd h (by simp)
    rename_i h1
    split at h
    · exact absurd h (by simp)
    rename_i h2
    split at h
    · exact absurd h (by simp)
    rename_i x hx
    dsimp only at h
    split at h
    · exact absurd h (by simp)
    rename_i h3
    simp only [Option.some.injEq] at h
    split at h1
    · rename_i g1
      split at h2
      · rename_i g2
        split at h3
        · rename_i g3
          refine ⟨g1, g2.1, g2.2.1, g2.2.2.1, g2.2.2.2, ?_⟩
          rw [hx]
          obtain ⟨x1, x2⟩ := x
          simp only at g3 h
          rw [h, g3.1]
        · exact absurd h3 (by simp)
      · exact absurd h2 (by simp)
    · exact absurd h1 (by simp)
  · exact absurd h (by simp)

theorem byteAt_lt (b : Bytes) (i : Nat) : byteAt b i < 256 := UInt8.toNat_lt _

theorem byteAt_drop (b : Bytes) (p i : Nat) : byteAt (b.drop p) i = byteAt b (p + i) := by
  unfold byteAt
  rw [List.getD_eq_getElem?_getD, List.getD_eq_getElem?_getD, List.getElem?_drop]

theorem byteAt_left {a b : Bytes} {i : Nat} (h : i < a.length) :
    byteAt (a ++ b) i = byteAt a i := by
  unfold byteAt
  rw [List.getD_eq_getElem?_getD, List.getD_eq_getElem?_getD, List.getElem?_append_left h]

theorem byteAt_right (a b : Bytes) (i : Nat) : byteAt (a ++ b) (a.length + i) = byteAt b i := by
  unfold byteAt
  rw [List.getD_eq_getElem?_getD, List.getD_eq_getElem?_getD,
    List.getElem?_append_right (by omega), Nat.add_sub_cancel_left]

theorem byteAt_take {a : Bytes} {i k : Nat} (h : i < k) : byteAt (a.take k) i = byteAt a i := by
  unfold byteAt
  rw [List.getD_eq_getElem?_getD, List.getD_eq_getElem?_getD, List.getElem?_take, if_pos h]

theorem byteAt_mem {a : Bytes} {i : Nat} (h : i < a.length) : ∃ x ∈ a, byteAt a i = x.toNat := by
  refine ⟨a[i], List.getElem_mem h, ?_⟩
  unfold byteAt
  rw [List.getD_eq_getElem?_getD, List.getElem?_eq_getElem h]
  rfl

theorem leNat_two (c : Bytes) : leNat (c.take 2) = byteAt c 0 + 256 * byteAt c 1 := by
  have key : ∀ l : Bytes, leNat (l.take 1) = byteAt l 0 := by
    intro l
    cases l with
    | nil => rfl
    | cons x l => exact Nat.add_zero _
  cases c with
  | nil => rfl
  | cons x l =>
    show x.toNat + 256 * leNat (l.take 1) = _
    rw [key]
    rfl

theorem leNat_four (c : Bytes) : leNat (c.take 4) = byteAt c 0 + 256 * byteAt c 1 +
    65536 * byteAt c 2 + 16777216 * byteAt c 3 := by
  match c with
  | [] => rfl
  | [x] =>
    have : leNat ([x].take 4) = x.toNat + 256 * 0 := rfl
    have e0 : byteAt [x] 0 = x.toNat := rfl
    have e1 : byteAt [x] 1 = 0 := rfl
    have e2 : byteAt [x] 2 = 0 := rfl
    have e3 : byteAt [x] 3 = 0 := rfl
    rw [this, e0, e1, e2, e3]
  | x :: y :: r =>
    have h := leNat_two r
    have : leNat ((x :: y :: r).take 4) = x.toNat + 256 * (y.toNat + 256 * leNat (r.take 2)) := rfl
    have e0 : byteAt (x :: y :: r) 0 = x.toNat := rfl
    have e1 : byteAt (x :: y :: r) 1 = y.toNat := rfl
    have e2 : byteAt (x :: y :: r) 2 = byteAt r 0 := rfl
    have e3 : byteAt (x :: y :: r) 3 = byteAt r 1 := rfl
    rw [this, e0, e1, e2, e3, h]
    generalize x.toNat = a
    generalize y.toNat = b
    generalize byteAt r 0 = c
    generalize byteAt r 1 = d
    omega

theorem leAt_two (b : Bytes) (p : Nat) : leAt b p 2 = byteAt b p + 256 * byteAt b (p + 1) := by
  unfold leAt
  rw [leValue_eq, leNat_two, byteAt_drop, byteAt_drop, Nat.add_zero]

theorem leAt_four (b : Bytes) (p : Nat) : leAt b p 4 = byteAt b p + 256 * byteAt b (p + 1) +
    65536 * byteAt b (p + 2) + 16777216 * byteAt b (p + 3) := by
  unfold leAt
  rw [leValue_eq, leNat_four, byteAt_drop, byteAt_drop, byteAt_drop, byteAt_drop, Nat.add_zero]

/-- What an archive ends with, byte by byte. -/
theorem unzip_bytes {b : Bytes} {es : List ZipEntry} (h : unzip b = some es) :
    ∃ p, b.length = p + 22 ∧
      (byteAt b p = 0x50 ∧ byteAt b (p + 1) = 0x4B ∧ byteAt b (p + 2) = 5 ∧
        byteAt b (p + 3) = 6) ∧
      (byteAt b (p + 4) = 0 ∧ byteAt b (p + 5) = 0 ∧ byteAt b (p + 6) = 0 ∧
        byteAt b (p + 7) = 0) ∧
      (byteAt b (p + 20) = 0 ∧ byteAt b (p + 21) = 0) ∧
      (byteAt b (p + 8) = byteAt b (p + 10) ∧ byteAt b (p + 9) = byteAt b (p + 11)) ∧
      readEntries b (byteAt b (p + 10) + 256 * byteAt b (p + 11))
        (byteAt b (p + 16) + 256 * byteAt b (p + 17) + 65536 * byteAt b (p + 18) +
          16777216 * byteAt b (p + 19)) = some (es, p) := by
  obtain ⟨e, h22, he, h0, h4, h6, h8, h20, hr⟩ := unzip_end h
  refine ⟨b.length - 22, by omega, ?_⟩
  have hb : ∀ i, byteAt e i = byteAt b (b.length - 22 + i) := by
    intro i; rw [he, byteAt_drop]
  have lt : ∀ i, byteAt b i < 256 := byteAt_lt b
  rw [leAt_four, hb, hb, hb, hb] at h0
  rw [leAt_two, hb, hb] at h4 h6 h20
  rw [leAt_two, leAt_two, hb, hb, hb, hb] at h8
  rw [leAt_two, leAt_four, hb, hb, hb, hb, hb, hb] at hr
  generalize b.length - 22 = p at *
  simp only [Nat.add_zero, Nat.zero_add, Nat.add_assoc, Nat.reduceAdd] at h0 h4 h6 h8 h20 hr ⊢
  have l0 := lt p
  have l1 := lt (p + 1)
  have l2 := lt (p + 2)
  have l3 := lt (p + 3)
  have l8 := lt (p + 8)
  have l9 := lt (p + 9)
  have l10 := lt (p + 10)
  have l11 := lt (p + 11)
  exact ⟨⟨by omega, by omega, by omega, by omega⟩, ⟨by omega, by omega, by omega, by omega⟩,
    ⟨by omega, by omega⟩, ⟨by omega, by omega⟩, hr⟩

theorem readEntries_sig {b : Bytes} {n o p : Nat} {es : List ZipEntry}
    (h : readEntries b n o = some (es, p)) :
    o = p ∨ (byteAt b o = 0x50 ∧ byteAt b (o + 2) = 1) := by
  cases n with
  | zero =>
    simp only [readEntries, Option.some.injEq, Prod.mk.injEq] at h
    exact .inl h.2
  | succ n =>
    right
    simp only [readEntries, bind, Option.bind] at h
    split at h
    · exact absurd h (by simp)
    rename_i x hx
    unfold readEntry at hx
    simp only [bind, Option.bind, guard, pure, failure] at hx
    split at hx
    · exact absurd hx (by simp)
    rename_i c hc
    dsimp only at hx
    split at hx
    · exact absurd hx (by simp)
    rename_i h1
    split at h1
    · rename_i h2
      unfold slice at hc
      split at hc
      · simp only [Option.some.injEq] at hc
        rw [leAt_four, ← hc] at h2
        have e : ∀ i < 46, byteAt ((b.drop o).take 46) i = byteAt b (o + i) := by
          intro i hi
          rw [byteAt_take hi, byteAt_drop]
        rw [e 0 (by omega), e (0 + 1) (by omega), e (0 + 2) (by omega), e (0 + 3) (by omega)] at h2
        have l0 := byteAt_lt b (o + 0)
        have l1 := byteAt_lt b (o + (0 + 1))
        have l2 := byteAt_lt b (o + (0 + 2))
        have l3 := byteAt_lt b (o + (0 + 3))
        simp only [Nat.add_zero, Nat.zero_add] at *
        constructor <;> omega
      · exact absurd hc (by simp)
    · exact absurd h1 (by simp)

/-- The name of the entry. -/
theorem songName : utf8 "Song.xml".toList = [0x53, 0x6F, 0x6E, 0x67, 0x2E, 0x78, 0x6D, 0x6C] := by
  decide +kernel

theorem header0_bytes (t : DateTime) (size : Nat) : ∃ t0 t1 d0 d1 s0 s1 s2 s3 : UInt8,
    zipHeader0 t (utf8 "Song.xml".toList) size =
      [0x50, 0x4B, 3, 4, 20, 0, 0, 0, 0, 0, t0, t1, d0, d1, 0, 0, 0, 0, 0, 0, 0, 0,
       s0, s1, s2, s3, 8, 0, 0, 0, 0x53, 0x6F, 0x6E, 0x67, 0x2E, 0x78, 0x6D, 0x6C] := by
  rw [songName]
  exact ⟨_, _, _, _, _, _, _, _, rfl⟩

theorem header_bytes (t : DateTime) (crc size : Nat) :
    ∃ t0 t1 d0 d1 r0 r1 r2 r3 s0 s1 s2 s3 : UInt8,
    zipLocalHeader t (utf8 "Song.xml".toList) crc size =
      [0x50, 0x4B, 3, 4, 20, 0, 0, 0, 0, 0, t0, t1, d0, d1, r0, r1, r2, r3, s0, s1, s2, s3,
       s0, s1, s2, s3, 8, 0, 0, 0, 0x53, 0x6F, 0x6E, 0x67, 0x2E, 0x78, 0x6D, 0x6C] := by
  rw [songName]
  exact ⟨_, _, _, _, _, _, _, _, _, _, _, _, rfl⟩

theorem central_bytes (t : DateTime) (crc size o : Nat) :
    ∃ t0 t1 d0 d1 r0 r1 r2 r3 s0 s1 s2 s3 o0 o1 o2 o3 : UInt8,
    zipCentralHeader t (utf8 "Song.xml".toList) crc size ++ zipEndRecord 1
        (zipCentralHeader t (utf8 "Song.xml".toList) crc size).length o =
      [0x50, 0x4B, 1, 2, 20, 3, 20, 0, 0, 0, 0, 0, t0, t1, d0, d1, r0, r1, r2, r3,
       s0, s1, s2, s3, s0, s1, s2, s3, 8, 0, 0, 0, 0, 0, 0, 0, 0, 0, 0, 0, 0x80, 1,
       0, 0, 0, 0, 0x53, 0x6F, 0x6E, 0x67, 0x2E, 0x78, 0x6D, 0x6C,
       0x50, 0x4B, 5, 6, 0, 0, 0, 0, 1, 0, 1, 0, 54, 0, 0, 0, o0, o1, o2, o3, 0, 0] := by
  rw [songName]
  have a1 : pack 4 0x02014B50 = [0x50, 0x4B, 1, 2] := by decide
  have a2 : pack 4 0x06054B50 = [0x50, 0x4B, 5, 6] := by decide
  have a3 : pack 4 (0o600 <<< 16) = [0, 0, 0x80, 1] := by decide
  have a4 : pack 1 20 = [20] := by decide
  have a5 : pack 1 3 = [3] := by decide
  have a6 : pack 1 0 = [0] := by decide
  have a7 : pack 2 0 = [0, 0] := by decide
  have a8 : pack 4 0 = [0, 0, 0, 0] := by decide
  have a9 : pack 2 1 = [1, 0] := by decide
  have a10 : pack 4 54 = [54, 0, 0, 0] := by decide
  have a11 : pack 2 8 = [8, 0] := by decide
  have two : ∀ n, ∃ a b, pack 2 n = [a, b] := fun n => ⟨_, _, rfl⟩
  have four : ∀ n, ∃ a b c d, pack 4 n = [a, b, c, d] := fun n => ⟨_, _, _, _, rfl⟩
  obtain ⟨t0, t1, et⟩ := two (dosTime t)
  obtain ⟨d0, d1, ed⟩ := two (dosDate t)
  obtain ⟨r0, r1, r2, r3, er⟩ := four crc
  obtain ⟨s0, s1, s2, s3, es⟩ := four size
  obtain ⟨o0, o1, o2, o3, eo⟩ := four o
  have hc : zipCentralHeader t [0x53, 0x6F, 0x6E, 0x67, 0x2E, 0x78, 0x6D, 0x6C] crc size =
      [0x50, 0x4B, 1, 2, 20, 3, 20, 0, 0, 0, 0, 0, t0, t1, d0, d1, r0, r1, r2, r3,
       s0, s1, s2, s3, s0, s1, s2, s3, 8, 0, 0, 0, 0, 0, 0, 0, 0, 0, 0, 0, 0x80, 1,
       0, 0, 0, 0, 0x53, 0x6F, 0x6E, 0x67, 0x2E, 0x78, 0x6D, 0x6C] := by
    unfold zipCentralHeader zipCommon
    simp only [List.length_cons, List.length_nil, Nat.zero_add, Nat.reduceAdd]
    rw [a1, a3, a4, a5, a6, a7, a8, a11, et, ed, er, es]
    rfl
  refine ⟨t0, t1, d0, d1, r0, r1, r2, r3, s0, s1, s2, s3, o0, o1, o2, o3, ?_⟩
  rw [hc]
  unfold zipEndRecord
  simp only [List.length_cons, List.length_nil, Nat.zero_add, Nat.reduceAdd]
  rw [a2, a7, a9, a10, eo]
  rfl

/-- A file cut off in the local header or in the data is not an archive. -/
theorem cut_early (t : DateTime) (size : Nat) (data : Bytes) (hd : ∀ x ∈ data, x ≠ 0 ∧ x ≠ 5)
    (k : Nat) : unzip ((zipHeader0 t (utf8 "Song.xml".toList) size ++ data).take k) = none := by
  obtain ⟨t0, t1, d0, d1, s0, s1, s2, s3, e⟩ := header0_bytes t size
  rw [e]
  generalize hH : [0x50, 0x4B, 3, 4, 20, 0, 0, 0, 0, 0, t0, t1, d0, d1, 0, 0, 0, 0, 0, 0, 0, 0,
       s0, s1, s2, s3, 8, 0, 0, 0, 0x53, 0x6F, 0x6E, 0x67, 0x2E, 0x78, 0x6D, 0x6C] = H
  have hl : H.length = 38 := by rw [← hH]; rfl
  generalize hb : (H ++ data).take k = b
  cases hu : unzip b with
  | none => rfl
  | some es =>
    exfalso
    obtain ⟨p, hlen, ⟨h0, h1, h2, h3⟩, _, ⟨_, h21⟩, _⟩ := unzip_bytes hu
    have hle : p + 22 ≤ 38 + data.length ∧ p + 22 ≤ k := by
      rw [← hlen, ← hb, List.length_take, List.length_append, hl]
      omega
    have hat : ∀ i, i < p + 22 → byteAt b i = byteAt (H ++ data) i := by
      intro i hi; rw [← hb, byteAt_take (by omega)]
    rw [hat _ (by omega)] at h0 h2 h21
    by_cases hp : 17 ≤ p
    · have e1 : p + 21 = H.length + (p - 17) := by omega
      rw [e1, byteAt_right] at h21
      obtain ⟨x, hx, ex⟩ := byteAt_mem (a := data) (i := p - 17) (by omega)
      have := (hd x hx).1
      rw [ex] at h21
      exact this (UInt8.toNat.inj h21)
    · by_cases hp2 : 9 ≤ p
      · rw [byteAt_left (by omega), ← hH] at h21
        have : p = 9 ∨ p = 10 ∨ p = 11 ∨ p = 12 ∨ p = 13 ∨ p = 14 ∨ p = 15 ∨ p = 16 := by omega
        rcases this with rfl | rfl | rfl | rfl | rfl | rfl | rfl | rfl <;>
          simp [byteAt] at h21
      · rw [byteAt_left (by omega), ← hH] at h0 h2
        have : p = 0 ∨ p = 1 ∨ p = 2 ∨ p = 3 ∨ p = 4 ∨ p = 5 ∨ p = 6 ∨ p = 7 ∨ p = 8 := by omega
        rcases this with rfl | rfl | rfl | rfl | rfl | rfl | rfl | rfl | rfl <;>
          first | (simp [byteAt] at h0; done) | (simp [byteAt] at h2; done)

/-- A file that ends with the data is not an archive. -/
theorem cut_data (head data : Bytes) (hne : data ≠ []) (hd : ∀ x ∈ data, x ≠ 0 ∧ x ≠ 5) :
    unzip (head ++ data) = none := by
  cases hu : unzip (head ++ data) with
  | none => rfl
  | some es =>
    exfalso
    obtain ⟨p, hlen, _, _, ⟨_, h21⟩, _⟩ := unzip_bytes hu
    have h1 : 0 < data.length := List.length_pos_iff.mpr hne
    rw [List.length_append] at hlen
    have e1 : p + 21 = head.length + (data.length - 1) := by omega
    rw [e1, byteAt_right] at h21
    obtain ⟨x, hx, ex⟩ := byteAt_mem (a := data) (i := data.length - 1) (by omega)
    rw [ex] at h21
    exact (hd x hx).1 (UInt8.toNat.inj h21)

/-- A file cut off in the central directory or in the end record is not an archive. -/
theorem cut_late (t : DateTime) (crc size o : Nat) (data : Bytes) (hlong : 22 ≤ data.length)
    (hd : ∀ x ∈ data, x ≠ 0 ∧ x ≠ 5) (k : Nat) (hk : k < 76) :
    unzip (zipLocalHeader t (utf8 "Song.xml".toList) crc size ++ data ++
      (zipCentralHeader t (utf8 "Song.xml".toList) crc size ++ zipEndRecord 1
        (zipCentralHeader t (utf8 "Song.xml".toList) crc size).length o).take k) = none := by
  obtain ⟨t0, t1, d0, d1, r0, r1, r2, r3, s0, s1, s2, s3, o0, o1, o2, o3, e⟩ :=
    central_bytes t crc size o
  obtain ⟨_, _, _, _, _, _, _, _, _, _, _, _, eh⟩ := header_bytes t crc size
  rw [e]
  have hh0 : byteAt (zipLocalHeader t (utf8 "Song.xml".toList) crc size) 2 = 3 := by rw [eh]; rfl
  have hh8 : byteAt (zipLocalHeader t (utf8 "Song.xml".toList) crc size) 8 = 0 := by rw [eh]; rfl
  have hl : (zipLocalHeader t (utf8 "Song.xml".toList) crc size).length = 38 := by rw [eh]; rfl
  clear eh e
  generalize zipLocalHeader t (utf8 "Song.xml".toList) crc size = H at *
  generalize hR : [0x50, 0x4B, 1, 2, 20, 3, 20, 0, 0, 0, 0, 0, t0, t1, d0, d1, r0, r1, r2, r3,
       s0, s1, s2, s3, s0, s1, s2, s3, 8, 0, 0, 0, 0, 0, 0, 0, 0, 0, 0, 0, 0x80, 1,
       0, 0, 0, 0, 0x53, 0x6F, 0x6E, 0x67, 0x2E, 0x78, 0x6D, 0x6C,
       0x50, 0x4B, 5, 6, 0, 0, 0, 0, 1, 0, 1, 0, 54, 0, 0, 0, o0, o1, o2, o3, 0, 0] = R
  have hRl : R.length = 76 := by rw [← hR]; rfl
  generalize hb : H ++ data ++ R.take k = b
  cases hu : unzip b with
  | none => rfl
  | some es =>
    exfalso
    obtain ⟨p, hlen, ⟨h0, h1, h2, h3⟩, ⟨h4, h5, h6, h7⟩, ⟨h20, h21⟩, _, hr⟩ := unzip_bytes hu
    have hlen' : p + 22 = 38 + data.length + k := by
      rw [← hlen, ← hb, List.length_append, List.length_append, hl, List.length_take, hRl]
      omega
    have hat : ∀ i, i < k → byteAt b (38 + data.length + i) = byteAt R i := by
      intro i hi
      have : 38 + data.length + i = (H ++ data).length + i := by
        rw [List.length_append, hl]
      rw [this, ← hb, byteAt_right, byteAt_take hi]
    have hdata : ∀ i, 38 ≤ i → i < 38 + data.length → byteAt b i ≠ 5 := by
      intro i h38 hi
      rw [← hb, byteAt_left (by rw [List.length_append, hl]; exact hi),
        show i = H.length + (i - 38) by omega, byteAt_right]
      obtain ⟨x, hx, ex⟩ := byteAt_mem (a := data) (i := i - 38) (by omega)
      rw [ex]
      exact fun h => (hd x hx).2 (UInt8.toNat.inj h)
    have hb2 : byteAt b 2 = 3 := by
      rw [← hb, List.append_assoc, byteAt_left (by omega), hh0]
    have hb8 : byteAt b 8 = 0 := by
      rw [← hb, List.append_assoc, byteAt_left (by omega), hh8]
    by_cases hk22 : k < 22
    · by_cases hin : p + 2 < 38 + data.length
      · exact hdata (p + 2) (by omega) hin h2
      · have : k = 20 ∨ k = 21 := by omega
        rcases this with rfl | rfl
        · rw [show p + 2 = 38 + data.length + 0 by omega, hat 0 (by omega), ← hR] at h2
          simp [byteAt] at h2
        · rw [show p + 2 = 38 + data.length + 1 by omega, hat 1 (by omega), ← hR] at h2
          simp [byteAt] at h2
    · obtain ⟨j, rfl⟩ : ∃ j, k = j + 22 := ⟨k - 22, by omega⟩
      have hpj : p = 38 + data.length + j := by omega
      have hsig := readEntries_sig hr
      have at' : ∀ i < 22, byteAt b (p + i) = byteAt R (j + i) := by
        intro i hi
        rw [hpj, Nat.add_assoc, hat (j + i) (by omega)]
      have h0 := (at' 0 (by omega)).symm.trans h0
      rw [at' _ (by omega)] at h1 h2 h3 h4 h5 h6 h7 h20 h21
      rw [at' 16 (by omega), at' 17 (by omega), at' 18 (by omega), at' 19 (by omega)] at hsig
      clear hat at' hr hu hlen
      have hj : j < 54 := by omega
      rw [← hR] at h0 h1 h2 h3 h4 h5 h6 h7 h20 h21 hsig
      clear hR hRl
      have hlo : ∀ o, (o = p ∨ byteAt b o = 0x50 ∧ byteAt b (o + 2) = 1) → o = 0 ∨ o = 8 → False := by
        rintro o (h | h) (rfl | rfl)
        · omega
        · omega
        · rw [hb2] at h; omega
        · rw [hb8] at h; omega
      clear hb2 hb8 hdata hb hh0 hh8
      have ne : ∀ {a c : Nat}, a = c → Nat.beq a c = false → False :=
        fun h hf => Nat.ne_of_beq_eq_false hf h
      interval_cases j <;> first
        | exact ne h0 rfl
        | exact ne h2 rfl
        | exact ne h4 rfl
        | exact ne h20 rfl
        | exact ne h21 rfl
        | exact absurd (h0.symm.trans h4) (by decide)
        | exact hlo _ hsig (.inl rfl)
        | exact hlo _ hsig (.inr rfl)

/-- The first operations of a list on one file, then those of another list. -/
theorem take_two (a b : List FsOp) (k : Nat) :
    (∃ j, j < a.length ∧ (a ++ b).take k = a.take j) ∨ ∃ j, (a ++ b).take k = a ++ b.take j := by
  rw [List.take_append]
  by_cases h : k < a.length
  · refine .inl ⟨k, h, ?_⟩
    rw [show k - a.length = 0 by omega, List.take_zero, List.append_nil]
  · refine .inr ⟨k - a.length, ?_⟩
    rw [List.take_of_length_le (by omega)]

theorem unzip_short {b : Bytes} (h : b.length < 22) : unzip b = none := by
  unfold unzip
  rw [if_neg (by omega)]

theorem end_length (n s o : Nat) : (zipEndRecord n s o).length = 22 := by
  simp [zipEndRecord, length_pack]

theorem local_length (t : DateTime) (crc size : Nat) :
    (zipLocalHeader t (utf8 "Song.xml".toList) crc size).length = 38 := by
  obtain ⟨_, _, _, _, _, _, _, _, _, _, _, _, e⟩ := header_bytes t crc size
  rw [e]; rfl

theorem header0_length (t : DateTime) (size : Nat) :
    (zipHeader0 t (utf8 "Song.xml".toList) size).length = 38 := by
  obtain ⟨_, _, _, _, _, _, _, _, e⟩ := header0_bytes t size
  rw [e]; rfl

theorem central_length (t : DateTime) (crc size o : Nat) :
    (zipCentralHeader t (utf8 "Song.xml".toList) crc size ++ zipEndRecord 1
        (zipCentralHeader t (utf8 "Song.xml".toList) crc size).length o).length = 76 := by
  obtain ⟨_, _, _, _, _, _, _, _, _, _, _, _, _, _, _, _, e⟩ := central_bytes t crc size o
  rw [e]; rfl

/-- After any number of the operations that write an archive, the file is not an archive, or
it is complete. -/
theorem zip_prefix (zip64 : DateTime → Bytes → Bytes → Except PyErr Unit × Bytes) (t : DateTime)
    (n : Str) (data : Bytes) (hd : ∀ x ∈ data, x ≠ 0 ∧ x ≠ 5) (hlong : 22 ≤ data.length)
    (hz : data.length < maxDocument) (k : Nat) (fs : Str → Option Bytes) (hf : fs n = some []) :
    ∃ b, applyOps ((zipOps zip64 t n (utf8 "Song.xml".toList) data).take k) fs n = some b ∧
      (unzip b = none ∨ b = (zipSingle zip64 t (utf8 "Song.xml".toList) data).2) := by
  have hz' : ¬ zip64Needed data.length := by
    have : data.length < 2045222520 := hz
    unfold zip64Needed; omega
  have bad : ∀ k, ∃ b, applyOps ((puts n 0 (zipEndRecord 0 0 0)).take k) fs n = some b ∧
      (unzip b = none ∨ b = zipEndRecord 0 0 0) := by
    intro k
    refine ⟨(zipEndRecord 0 0 0).take k, ?_, ?_⟩
    · rw [puts_take, applyOps_puts n _ 0 fs [] hf (by simp)]
      simp
    · by_cases hk : k < 22
      · left
        apply unzip_short
        rw [List.length_take]
        omega
      · right
        rw [List.take_of_length_le (by rw [end_length]; omega)]
  unfold zipOps zipSingle
  split
  · exact bad k
  · split
    · exact bad k
    · show ∃ b, applyOps ((puts n 0 (zipHeader0 t (utf8 "Song.xml".toList) data.length ++ data) ++
        puts n 0 (zipLocalHeader t (utf8 "Song.xml".toList) (crc32 data) data.length) ++
        puts n (zipLocalHeader t (utf8 "Song.xml".toList) (crc32 data) data.length
          ++ data).length _).take k) fs n = some b ∧ (unzip b = none ∨ b =
          zipLocalHeader t (utf8 "Song.xml".toList) (crc32 data) data.length ++ data ++
          zipCentralHeader t (utf8 "Song.xml".toList) (crc32 data) data.length ++
          zipEndRecord 1 (zipCentralHeader t (utf8 "Song.xml".toList) (crc32 data)
            data.length).length (zipLocalHeader t (utf8 "Song.xml".toList) (crc32 data)
            data.length ++ data).length)
      have c1 := cut_early t data.length data hd
      have c3 := cut_late t (crc32 data) data.length
        (zipLocalHeader t (utf8 "Song.xml".toList) (crc32 data) data.length ++ data).length
        data hlong hd
      have l0 := header0_length t data.length
      have l1 := local_length t (crc32 data) data.length
      have l2 := central_length t (crc32 data) data.length
        (zipLocalHeader t (utf8 "Song.xml".toList) (crc32 data) data.length ++ data).length
      rw [List.append_assoc (_ ++ data)]
      generalize zipHeader0 t (utf8 "Song.xml".toList) data.length = H0 at *
      generalize zipLocalHeader t (utf8 "Song.xml".toList) (crc32 data) data.length = H at *
      generalize zipCentralHeader t (utf8 "Song.xml".toList) (crc32 data) data.length ++
        zipEndRecord 1 (zipCentralHeader t (utf8 "Song.xml".toList) (crc32 data)
            data.length).length (H ++ data).length = R at *
      have s1 : applyOps (puts n 0 (H0 ++ data)) fs n = some (H0 ++ data) := by
        rw [applyOps_puts n _ 0 fs [] hf (by simp)]; simp
      rcases take_two (puts n 0 (H0 ++ data) ++ puts n 0 H) (puts n (H ++ data).length R) k with
        ⟨j, _, e⟩ | ⟨j, e⟩
      · rw [e]
        rcases take_two (puts n 0 (H0 ++ data)) (puts n 0 H) j with ⟨i, _, e⟩ | ⟨i, e⟩
        · rw [e]
          refine ⟨(H0 ++ data).take i, ?_, .inl (c1 i)⟩
          rw [puts_take, applyOps_puts n _ 0 fs [] hf (by simp)]
          simp
        · rw [e, applyOps_append, puts_take, applyOps_puts n _ 0 _ _ s1 (by simp)]
          refine ⟨_, rfl, .inl ?_⟩
          rw [List.take_zero, List.nil_append, Nat.zero_add, List.drop_append,
            show (List.take i H).length - H0.length = 0 by
              rw [List.length_take, l0, l1]; omega, List.drop_zero, ← List.append_assoc]
          exact cut_data _ _ (by rintro rfl; simp at hlong) hd
      · have s2 : applyOps (puts n 0 (H0 ++ data) ++ puts n 0 H) fs n = some (H ++ data) := by
          rw [applyOps_append, applyOps_puts n _ 0 _ _ s1 (by simp), List.take_zero,
            List.nil_append, Nat.zero_add, List.drop_append, l1, l0, Nat.sub_self,
            List.drop_zero, List.drop_eq_nil_of_le (by omega), List.nil_append]
        rw [e, applyOps_append, puts_take, applyOps_puts n _ _ _ _ s2 (by omega)]
        refine ⟨_, rfl, ?_⟩
        rw [List.take_length, List.drop_eq_nil_of_le (by omega), List.append_nil]
        by_cases hj : j < 76
        · exact .inl (c3 j hj)
        · right
          rw [List.take_of_length_le (by omega)]

/-- All operations together write the archive. -/
theorem zip_complete (zip64 : DateTime → Bytes → Bytes → Except PyErr Unit × Bytes) (t : DateTime)
    (n : Str) (data : Bytes) (fs : Str → Option Bytes) (hf : fs n = some []) :
    applyOps (zipOps zip64 t n (utf8 "Song.xml".toList) data) fs n =
      some (zipSingle zip64 t (utf8 "Song.xml".toList) data).2 := by
  unfold zipOps zipSingle
  split
  · rw [applyOps_puts n _ 0 fs [] hf (by simp)]; simp
  split
  · rw [applyOps_puts n _ 0 fs [] hf (by simp)]; simp
  split
  · rw [applyOps_puts n _ 0 fs [] hf (by simp)]; simp
  · show applyOps (puts n 0 (zipHeader0 t (utf8 "Song.xml".toList) data.length ++ data) ++
        puts n 0 (zipLocalHeader t (utf8 "Song.xml".toList) (crc32 data) data.length) ++
        puts n (zipLocalHeader t (utf8 "Song.xml".toList) (crc32 data) data.length
          ++ data).length _) fs n = some (
          zipLocalHeader t (utf8 "Song.xml".toList) (crc32 data) data.length ++ data ++
          zipCentralHeader t (utf8 "Song.xml".toList) (crc32 data) data.length ++
          zipEndRecord 1 (zipCentralHeader t (utf8 "Song.xml".toList) (crc32 data)
            data.length).length (zipLocalHeader t (utf8 "Song.xml".toList) (crc32 data)
            data.length ++ data).length)
    have l0 := header0_length t data.length
    have l1 := local_length t (crc32 data) data.length
    rw [List.append_assoc (_ ++ data)]
    generalize zipHeader0 t (utf8 "Song.xml".toList) data.length = H0 at *
    generalize zipLocalHeader t (utf8 "Song.xml".toList) (crc32 data) data.length = H at *
    have s1 : applyOps (puts n 0 (H0 ++ data)) fs n = some (H0 ++ data) := by
      rw [applyOps_puts n _ 0 fs [] hf (by simp)]; simp
    have s2 : applyOps (puts n 0 (H0 ++ data) ++ puts n 0 H) fs n = some (H ++ data) := by
      rw [applyOps_append, applyOps_puts n _ 0 _ _ s1 (by simp), List.take_zero,
        List.nil_append, Nat.zero_add, List.drop_append, l1, l0, Nat.sub_self,
        List.drop_zero, List.drop_eq_nil_of_le (by omega), List.nil_append]
    rw [applyOps_append, applyOps_puts n _ _ _ _ s2 (by omega), List.take_length,
      List.drop_eq_nil_of_le (by omega), List.append_nil]

theorem zipOps_name (zip64 : DateTime → Bytes → Bytes → Except PyErr Unit × Bytes) (t : DateTime)
    (n : Str) (entry data : Bytes) : ∀ o ∈ zipOps zip64 t n entry data, o.name = n := by
  intro o ho
  unfold zipOps at ho
  split at ho
  · exact puts_name _ _ _ o ho
  split at ho
  · exact puts_name _ _ _ o ho
  split at ho
  · exact puts_name _ _ _ o ho
  · simp only [List.mem_append] at ho
    rcases ho with (ho | ho) | ho <;> exact puts_name _ _ _ o ho

/-! Unfinished JSON. -/

theorem pValue_nil (k : Nat) : pValue k [] = none := by cases k <;> rfl

/-- Tokens behind a value do not change it. -/
theorem parse_more : (k : Nat) →
    (∀ ts v r, pValue k ts = some (v, r) → ∀ k', k ≤ k' → ∀ x,
      pValue k' (ts ++ x) = some (v, r ++ x)) ∧
    (∀ ts v r, pElems k ts = some (v, r) → ∀ k', k ≤ k' → ∀ x,
      pElems k' (ts ++ x) = some (v, r ++ x)) ∧
    (∀ ts v r, pFields k ts = some (v, r) → ∀ k', k ≤ k' → ∀ x,
      pFields k' (ts ++ x) = some (v, r ++ x))
  | 0 => by
    refine ⟨?_, ?_, ?_⟩ <;> intro ts v r h
    · simp [pValue] at h
    · simp [pElems] at h
    · cases ts <;> simp [pFields] at h
  | k + 1 => by
    obtain ⟨hv, he, hf⟩ := parse_more k
    refine ⟨?_, ?_, ?_⟩
    · intro ts v r h k' hk x
      obtain ⟨k', rfl⟩ : ∃ j, k' = j + 1 := ⟨k' - 1, by omega⟩
      have hk : k ≤ k' := by omega
      match ts with
      | [] => simp [pValue] at h
      | .num n :: ts => simp only [pValue, Option.some.injEq, Prod.mk.injEq] at h; simp [pValue, h]
      | .str n :: ts => simp only [pValue, Option.some.injEq, Prod.mk.injEq] at h; simp [pValue, h]
      | .word n :: ts =>
        simp only [pValue] at h
        simp only [List.cons_append, pValue]
        split at h
        · rename_i h1; simp only [Option.some.injEq, Prod.mk.injEq] at h; rw [if_pos h1]; simp [h]
        · rename_i h1
          rw [if_neg h1]
          split at h
          · rename_i h1; simp only [Option.some.injEq, Prod.mk.injEq] at h; rw [if_pos h1]; simp [h]
          · simp at h
      | .rbrace :: ts => simp [pValue] at h
      | .rbrack :: ts => simp [pValue] at h
      | .colon :: ts => simp [pValue] at h
      | .comma :: ts => simp [pValue] at h
      | .lbrack :: .rbrack :: ts =>
        simp only [pValue, Option.some.injEq, Prod.mk.injEq] at h; simp [pValue, h]
      | .lbrace :: .rbrace :: ts =>
        simp only [pValue, Option.some.injEq, Prod.mk.injEq] at h; simp [pValue, h]
      | [.lbrack] => cases k <;> simp [pValue, pElems, pValue_nil] at h
      | [.lbrace] => cases k <;> simp [pValue, pFields] at h
      | .lbrack :: a :: ts =>
        by_cases ha : a = .rbrack
        · subst ha; simp only [pValue, Option.some.injEq, Prod.mk.injEq] at h; simp [pValue, h]
        · have e : ∀ k ts, pValue (k + 1) (.lbrack :: a :: ts) =
              (pElems k (a :: ts)).map (fun x => (.arr x.1, x.2)) := by
            intro k ts; cases a <;> first | rfl | exact absurd rfl ha
          rw [e] at h
          rw [List.cons_append, List.cons_append, e]
          cases hp : pElems k (a :: ts) with
          | none => rw [hp] at h; simp at h
          | some y =>
            rw [hp] at h
            have := he _ _ _ hp k' hk x
            rw [List.cons_append] at this
            rw [this]
            simp only [Option.map_some, Option.some.injEq, Prod.mk.injEq] at h ⊢
            rw [h.1, h.2]; exact ⟨rfl, rfl⟩
      | .lbrace :: a :: ts =>
        by_cases ha : a = .rbrace
        · subst ha; simp only [pValue, Option.some.injEq, Prod.mk.injEq] at h; simp [pValue, h]
        · have e : ∀ k ts, pValue (k + 1) (.lbrace :: a :: ts) =
              (pFields k (a :: ts)).map (fun x => (.obj x.1, x.2)) := by
            intro k ts; cases a <;> first | rfl | exact absurd rfl ha
          rw [e] at h
          rw [List.cons_append, List.cons_append, e]
          cases hp : pFields k (a :: ts) with
          | none => rw [hp] at h; simp at h
          | some y =>
            rw [hp] at h
            have := hf _ _ _ hp k' hk x
            rw [List.cons_append] at this
            rw [this]
            simp only [Option.map_some, Option.some.injEq, Prod.mk.injEq] at h ⊢
            rw [h.1, h.2]; exact ⟨rfl, rfl⟩
    · intro ts v r h k' hk x
      obtain ⟨k', rfl⟩ : ∃ j, k' = j + 1 := ⟨k' - 1, by omega⟩
      have hk : k ≤ k' := by omega
      simp only [pElems] at h ⊢
      cases hp : pValue k ts with
      | none => rw [hp] at h; simp at h
      | some y =>
        obtain ⟨a, r1⟩ := y
        rw [hp] at h
        rw [hv _ _ _ hp k' hk x]
        match r1 with
        | [] => simp at h
        | .comma :: r1 =>
          simp only [List.cons_append] at h ⊢
          cases hq : pElems k r1 with
          | none => rw [hq] at h; simp at h
          | some y =>
            rw [hq] at h
            rw [he _ _ _ hq k' hk x]
            simp only [Option.map_some, Option.some.injEq, Prod.mk.injEq] at h ⊢
            rw [h.1, h.2]; exact ⟨rfl, rfl⟩
        | .rbrack :: r1 =>
          simp only [List.cons_append, Option.some.injEq, Prod.mk.injEq] at h ⊢
          rw [h.1, h.2]; exact ⟨rfl, rfl⟩
        | .num _ :: _ => simp at h
        | .str _ :: _ => simp at h
        | .word _ :: _ => simp at h
        | .lbrace :: _ => simp at h
        | .rbrace :: _ => simp at h
        | .lbrack :: _ => simp at h
        | .colon :: _ => simp at h
    · intro ts v r h k' hk x
      obtain ⟨k', rfl⟩ : ∃ j, k' = j + 1 := ⟨k' - 1, by omega⟩
      have hk : k ≤ k' := by omega
      match ts with
      | .str key :: .colon :: ts =>
        simp only [pFields, List.cons_append] at h ⊢
        cases hp : pValue k ts with
        | none => rw [hp] at h; simp at h
        | some y =>
          obtain ⟨a, r1⟩ := y
          rw [hp] at h
          rw [hv _ _ _ hp k' hk x]
          match r1 with
          | [] => simp at h
          | .comma :: r1 =>
            simp only [List.cons_append] at h ⊢
            cases hq : pFields k r1 with
            | none => rw [hq] at h; simp at h
            | some y =>
              rw [hq] at h
              rw [hf _ _ _ hq k' hk x]
              simp only [Option.map_some, Option.some.injEq, Prod.mk.injEq] at h ⊢
              rw [h.1, h.2]; exact ⟨rfl, rfl⟩
          | .rbrace :: r1 =>
            simp only [List.cons_append, Option.some.injEq, Prod.mk.injEq] at h ⊢
            rw [h.1, h.2]; exact ⟨rfl, rfl⟩
          | .num _ :: _ => simp at h
          | .str _ :: _ => simp at h
          | .word _ :: _ => simp at h
          | .lbrace :: _ => simp at h
          | .rbrack :: _ => simp at h
          | .lbrack :: _ => simp at h
          | .colon :: _ => simp at h
      | [] => simp [pFields] at h
      | [.str key] => simp [pFields] at h
      | .str key :: .num _ :: _ => simp [pFields] at h
      | .str key :: .str _ :: _ => simp [pFields] at h
      | .str key :: .word _ :: _ => simp [pFields] at h
      | .str key :: .lbrace :: _ => simp [pFields] at h
      | .str key :: .rbrace :: _ => simp [pFields] at h
      | .str key :: .lbrack :: _ => simp [pFields] at h
      | .str key :: .rbrack :: _ => simp [pFields] at h
      | .str key :: .comma :: _ => simp [pFields] at h
      | .num _ :: _ => simp [pFields] at h
      | .word _ :: _ => simp [pFields] at h
      | .lbrace :: _ => simp [pFields] at h
      | .rbrace :: _ => simp [pFields] at h
      | .lbrack :: _ => simp [pFields] at h
      | .rbrack :: _ => simp [pFields] at h
      | .comma :: _ => simp [pFields] at h
      | .colon :: _ => simp [pFields] at h

/-- What is behind a value is the rest of the tokens; a list ends with a bracket. -/
theorem parse_rest : (k : Nat) →
    (∀ ts v r, pValue k ts = some (v, r) → (∃ p, ts = p ++ r) ∧
      ∀ l, v = .arr l → ∃ p, ts = p ++ .rbrack :: r) ∧
    (∀ ts v r, pElems k ts = some (v, r) → ∃ p, ts = p ++ .rbrack :: r) ∧
    (∀ ts v r, pFields k ts = some (v, r) → ∃ p, ts = p ++ r)
  | 0 => by
    refine ⟨?_, ?_, ?_⟩ <;> intro ts v r h
    · simp [pValue] at h
    · simp [pElems] at h
    · cases ts <;> simp [pFields] at h
  | k + 1 => by
    obtain ⟨hv, he, hf⟩ := parse_rest k
    refine ⟨?_, ?_, ?_⟩
    · intro ts v r h
      match ts with
      | [] => simp [pValue] at h
      | .num n :: ts =>
        simp only [pValue, Option.some.injEq, Prod.mk.injEq] at h
        exact ⟨⟨[_], by rw [h.2]; rfl⟩, fun l e => by rw [← h.1] at e; cases e⟩
      | .str n :: ts =>
        simp only [pValue, Option.some.injEq, Prod.mk.injEq] at h
        exact ⟨⟨[_], by rw [h.2]; rfl⟩, fun l e => by rw [← h.1] at e; cases e⟩
      | .word n :: ts =>
        simp only [pValue] at h
        split at h
        · simp only [Option.some.injEq, Prod.mk.injEq] at h
          exact ⟨⟨[_], by rw [h.2]; rfl⟩, fun l e => by rw [← h.1] at e; cases e⟩
        · split at h
          · simp only [Option.some.injEq, Prod.mk.injEq] at h
            exact ⟨⟨[_], by rw [h.2]; rfl⟩, fun l e => by rw [← h.1] at e; cases e⟩
          · simp at h
      | .rbrace :: ts => simp [pValue] at h
      | .rbrack :: ts => simp [pValue] at h
      | .colon :: ts => simp [pValue] at h
      | .comma :: ts => simp [pValue] at h
      | [.lbrack] => cases k <;> simp [pValue, pElems, pValue_nil] at h
      | [.lbrace] => cases k <;> simp [pValue, pFields] at h
      | .lbrack :: a :: ts =>
        by_cases ha : a = .rbrack
        · subst ha
          simp only [pValue, Option.some.injEq, Prod.mk.injEq] at h
          exact ⟨⟨[_, _], by rw [h.2]; rfl⟩, fun l e => ⟨[.lbrack], by rw [h.2]; rfl⟩⟩
        · have e : ∀ k ts, pValue (k + 1) (.lbrack :: a :: ts) =
              (pElems k (a :: ts)).map (fun x => (.arr x.1, x.2)) := by
            intro k ts; cases a <;> first | rfl | exact absurd rfl ha
          rw [e] at h
          cases hp : pElems k (a :: ts) with
          | none => rw [hp] at h; simp at h
          | some y =>
            rw [hp] at h
            obtain ⟨p, e1⟩ := he _ _ _ hp
            simp only [Option.map_some, Option.some.injEq, Prod.mk.injEq] at h
            rw [h.2] at e1
            rw [e1]
            exact ⟨⟨.lbrack :: p ++ [.rbrack], by simp⟩, fun l e => ⟨.lbrack :: p, rfl⟩⟩
      | .lbrace :: a :: ts =>
        by_cases ha : a = .rbrace
        · subst ha
          simp only [pValue, Option.some.injEq, Prod.mk.injEq] at h
          exact ⟨⟨[_, _], by rw [h.2]; rfl⟩, fun l e => by rw [← h.1] at e; cases e⟩
        · have e : ∀ k ts, pValue (k + 1) (.lbrace :: a :: ts) =
              (pFields k (a :: ts)).map (fun x => (.obj x.1, x.2)) := by
            intro k ts; cases a <;> first | rfl | exact absurd rfl ha
          rw [e] at h
          cases hp : pFields k (a :: ts) with
          | none => rw [hp] at h; simp at h
          | some y =>
            rw [hp] at h
            obtain ⟨p, e1⟩ := hf _ _ _ hp
            simp only [Option.map_some, Option.some.injEq, Prod.mk.injEq] at h
            rw [h.2] at e1
            rw [e1]
            exact ⟨⟨.lbrace :: p, rfl⟩, fun l e => by rw [← h.1] at e; cases e⟩
    · intro ts v r h
      simp only [pElems] at h
      cases hp : pValue k ts with
      | none => rw [hp] at h; simp at h
      | some y =>
        obtain ⟨a, r1⟩ := y
        obtain ⟨⟨p, e⟩, _⟩ := hv _ _ _ hp
        rw [hp] at h
        match r1 with
        | [] => simp at h
        | .comma :: r1 =>
          simp only at h
          cases hq : pElems k r1 with
          | none => rw [hq] at h; simp at h
          | some y =>
            rw [hq] at h
            simp only [Option.map_some, Option.some.injEq, Prod.mk.injEq] at h
            obtain ⟨q, e2⟩ := he r1 y.1 y.2 hq
            exact ⟨p ++ .comma :: q, by rw [e, e2, h.2]; simp⟩
        | .rbrack :: r1 =>
          simp only [Option.some.injEq, Prod.mk.injEq] at h
          exact ⟨p, by rw [e, h.2]⟩
        | .num _ :: _ => simp at h
        | .str _ :: _ => simp at h
        | .word _ :: _ => simp at h
        | .lbrace :: _ => simp at h
        | .rbrace :: _ => simp at h
        | .lbrack :: _ => simp at h
        | .colon :: _ => simp at h
    · intro ts v r h
      unfold pFields at h
      split at h
      · rename_i k1 key ts1 e0
        simp at *
      · rename_i k1 key ts1 _
        cases hp : pValue k ts1 with
        | none => simp_all
        | some y =>
          obtain ⟨a, r1⟩ := y
          obtain ⟨⟨p, e⟩, _⟩ := hv _ _ _ hp
          have hk : k1 = k := by omega
          rw [hk, hp] at h
          match r1 with
          | [] => simp at h
          | .comma :: r1 =>
            simp only at h
            cases hq : pFields k r1 with
            | none => rw [hq] at h; simp at h
            | some y =>
              rw [hq] at h
              simp only [Option.map_some, Option.some.injEq, Prod.mk.injEq] at h
              obtain ⟨q, e2⟩ := hf r1 y.1 y.2 hq
              exact ⟨.str key :: .colon :: p ++ .comma :: q, by rw [e, e2, h.2]; simp⟩
          | .rbrace :: r1 =>
            simp only [Option.some.injEq, Prod.mk.injEq] at h
            exact ⟨.str key :: .colon :: p ++ [.rbrace], by rw [e, h.2]; simp⟩
          | .num _ :: _ => simp at h
          | .str _ :: _ => simp at h
          | .word _ :: _ => simp at h
          | .lbrace :: _ => simp at h
          | .rbrack :: _ => simp at h
          | .lbrack :: _ => simp at h
          | .colon :: _ => simp at h
      · simp at h

/-- If the beginning of a JSON text is itself a list, it is the same list. -/
theorem parse_prefix {p q : Str} {l : JsonList} {v : Json} (hp : parseJson p = some (.arr l))
    (hq : parseJson (p ++ q) = some v) : v = .arr l := by
  unfold parseJson at hp hq
  cases hl : lex p with
  | none => rw [hl] at hp; simp at hp
  | some ts =>
    rw [hl] at hp
    simp only at hp
    cases hv : pValue (ts.length + 1) ts with
    | none => rw [hv] at hp; simp at hp
    | some x =>
      obtain ⟨v1, r1⟩ := x
      rw [hv] at hp
      cases r1 with
      | cons a r1 => simp at hp
      | nil =>
        simp only [Option.some.injEq] at hp
        subst hp
        obtain ⟨pre, hpre⟩ := ((parse_rest _).1 _ _ _ hv).2 l rfl
        -- the tokenizer is between tokens
        have hidle : lexRun .idle p = some (ts, .idle) := by
          unfold lex at hl
          cases hr : lexRun .idle p with
          | none => rw [hr] at hl; simp at hl
          | some y =>
            obtain ⟨o, m⟩ := y
            rw [hr] at hl
            cases m with
            | idle => simp only [Option.some.injEq] at hl; rw [hl]
            | inStr a => simp at hl
            | inNum n =>
              simp only [Option.some.injEq] at hl
              rw [hpre] at hl
              have := congrArg List.getLast? hl
              simp at this
            | inWord a =>
              simp only [Option.some.injEq] at hl
              rw [hpre] at hl
              have := congrArg List.getLast? hl
              simp at this
        have hmore : ∃ x, lex (p ++ q) = some (ts ++ x) ∨ lex (p ++ q) = none := by
          unfold lex
          rw [lexRun_append, hidle]
          cases hr : lexRun .idle q with
          | none => exact ⟨[], .inr (by simp [hr])⟩
          | some y =>
            obtain ⟨o, m⟩ := y
            cases m with
            | idle => exact ⟨o, .inl (by simp [hr])⟩
            | inStr a => exact ⟨[], .inr (by simp [hr])⟩
            | inNum n => exact ⟨o ++ [.num n], .inl (by simp [hr])⟩
            | inWord a => exact ⟨o ++ [.word a.reverse], .inl (by simp [hr])⟩
        obtain ⟨x, hx | hx⟩ := hmore
        · rw [hx] at hq
          simp only at hq
          have := (parse_more _).1 _ _ _ hv ((ts ++ x).length + 1)
            (by simp only [List.length_append]; omega) x
          rw [this] at hq
          cases x with
          | nil => simp only [List.append_nil, Option.some.injEq] at hq; exact hq.symm
          | cons a x => simp at hq
        · rw [hx] at hq; simp at hq

end VgmX
