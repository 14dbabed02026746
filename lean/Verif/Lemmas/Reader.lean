import Verif.Spec.Vgm
/-
The reader as a function of the remaining bytes.
-/

namespace VgmX
open Spec

theorem leValue_zipIdx (b : Bytes) (k : Nat) :
    ((b.zipIdx k).map fun x => x.1.toNat * 256 ^ x.2).sum = 256 ^ k * leNat b := by
  induction b generalizing k with
  | nil => simp [leNat]
  | cons a b ih =>
    rw [List.zipIdx_cons, List.map_cons, List.sum_cons, ih (k + 1)]
    simp only [leNat, Nat.pow_succ]
    rw [Nat.mul_add, Nat.mul_comm (a.toNat), ← Nat.mul_assoc]

/-- The model's little-endian conversion is the specification's. -/
theorem leValue_eq (b : Bytes) : leValue b = leNat b := by
  unfold leValue
  rw [leValue_zipIdx b 0]
  simp

/-- The bytes after the current position. -/
def Stream.rest (s : Stream) : Bytes := s.data.drop s.pos

theorem read_fst (s : Stream) (n : Nat) : (s.read n).1 = s.rest.take n := rfl

theorem read_rest (s : Stream) (n : Nat) : (s.read n).2.rest = s.rest.drop n := by
  simp only [Stream.read, Stream.rest, List.length_take, List.length_drop, List.drop_drop]
  by_cases h : n ≤ s.data.length - s.pos
  · rw [Nat.min_eq_left h]
  · rw [Nat.min_eq_right (by omega), List.drop_eq_nil_of_le (by omega),
      List.drop_eq_nil_of_le (by omega)]

theorem read_data (s : Stream) (n : Nat) : (s.read n).2.data = s.data := rfl

theorem read_pos (s : Stream) (n : Nat) : (s.read n).2.pos = s.pos + min n s.rest.length := by
  simp [Stream.read, Stream.rest]

/-- Kinds of commands, by opcode. -/
inductive Kind where
  | nop
  | fixed (n : Nat)
  | ym
  | wait16
  | waitc (n : Option Nat)
  | eos
  | block
  | ram
  deriving DecidableEq, Repr

def classify (cmdId : Nat) : Kind :=
  if cmdId < 0x30
      ∨ cmdId = 0x60
      ∨ (0x64 ≤ cmdId ∧ cmdId ≤ 0x65)
      ∨ (0x69 ≤ cmdId ∧ cmdId < 0x70)
      ∨ (0x80 ≤ cmdId ∧ cmdId < 0x90)
      ∨ (0x96 ≤ cmdId ∧ cmdId < 0xA0) then .nop
  else if 30 ≤ cmdId ∧ cmdId < 0x40 then .fixed 1
  else if cmdId < 0x4F then .fixed 2
  else if cmdId < 0x51 then .fixed 1
  else if cmdId < 0x54 then .fixed 2
  else if cmdId = 0x54 then .ym
  else if cmdId < 0x60 then .fixed 2
  else if cmdId = 0x61 then .wait16
  else if cmdId = 0x62 then .waitc (some 735)
  else if cmdId = 0x63 then .waitc (some 882)
  else if cmdId = 0x66 then .eos
  else if cmdId = 0x67 then .block
  else if cmdId = 0x68 then .ram
  else if cmdId < 0x80 then .waitc none
  else if cmdId < 0x92 then .fixed 4
  else if cmdId = 0x92 then .fixed 5
  else if cmdId = 0x93 then .fixed 10
  else if cmdId = 0x94 then .fixed 1
  else if cmdId = 0x95 then .fixed 4
  else if cmdId < 0xC0 then .fixed 2
  else if cmdId < 0xE0 then .fixed 3
  else .fixed 4

def exec (cmdId : Nat) (f : Stream) : Kind → Except PyErr Cmd × Stream
  | .nop => (.ok (.plain cmdId none), f)
  | .fixed n => plainRead cmdId f n
  | .ym =>
    match read8 f with
    | (.error e, f1) => (.error e, f1)
    | (.ok reg, f1) =>
      match read8 f1 with
      | (.error e, f2) => (.error e, f2)
      | (.ok value, f2) => (.ok (.ym2151 cmdId reg value), f2)
  | .wait16 =>
    match read16 f with
    | (.error e, f1) => (.error e, f1)
    | (.ok n, f1) => (.ok (mkWait cmdId (some n)), f1)
  | .waitc n => (.ok (mkWait cmdId n), f)
  | .eos => (.ok (.eos cmdId), f)
  | .block =>
    let (buffer, f1) := f.read 6
    if buffer.length ≠ 6 then (.error .struct, f1)
    else plainRead cmdId f1 (leNat (buffer.drop 2))
  | .ram =>
    let (buffer, f1) := f.read 11
    if buffer.length ≠ 11 then (.error .struct, f1)
    else
      let ssB := leNat ((buffer.drop 8).take 1)
      let ssH := leNat ((buffer.drop 9).take 2)
      plainRead cmdId f1 (ssH * 256 + ssB)

theorem command_eq_exec (op : Nat) (s : Stream) : command op s = exec op s (classify op) := by
  unfold classify
  simp only [apply_ite (exec op s)]
  rfl

/-- The same on the remaining bytes. -/
def execB (cmdId : Nat) (r : Bytes) : Kind → Except PyErr Cmd × Bytes
  | .nop => (.ok (.plain cmdId none), r)
  | .fixed n => (.ok (.plain cmdId (some (r.take n))), r.drop n)
  | .ym =>
    match r with
    | a :: b :: t => (.ok (.ym2151 cmdId a.toNat b.toNat), t)
    | _ => (.error .eof, [])
  | .wait16 =>
    match r with
    | a :: b :: t => (.ok (mkWait cmdId (some (a.toNat + 256 * b.toNat))), t)
    | _ => (.error .eof, [])
  | .waitc n => (.ok (mkWait cmdId n), r)
  | .eos => (.ok (.eos cmdId), r)
  | .block =>
    if r.length < 6 then (.error .struct, [])
    else (.ok (.plain cmdId (some ((r.drop 6).take (leNat ((r.take 6).drop 2))))),
      (r.drop 6).drop (leNat ((r.take 6).drop 2)))
  | .ram =>
    if r.length < 11 then (.error .struct, [])
    else
      let n := leNat (((r.take 11).drop 9).take 2) * 256 + leNat (((r.take 11).drop 8).take 1)
      (.ok (.plain cmdId (some ((r.drop 11).take n))), (r.drop 11).drop n)

theorem exec_eq (op : Nat) (s : Stream) (k : Kind) :
    (exec op s k).1 = (execB op s.rest k).1 ∧ (exec op s k).2.rest = (execB op s.rest k).2 ∧
    (exec op s k).2.data = s.data ∧ s.pos ≤ (exec op s k).2.pos := by
  have hp : ∀ (s : Stream) (n : Nat), s.pos ≤ (s.read n).2.pos := by
    intro s n; rw [read_pos]; omega
  cases k with
  | nop => exact ⟨rfl, rfl, rfl, Nat.le_refl _⟩
  | waitc n => exact ⟨rfl, rfl, rfl, Nat.le_refl _⟩
  | eos => exact ⟨rfl, rfl, rfl, Nat.le_refl _⟩
  | fixed n => exact ⟨rfl, read_rest s n, rfl, hp s n⟩
  | ym =>
    have h1 := read_rest s 1
    have hf := read_fst s 1
    simp only [exec, execB, read8]
    generalize hs1 : s.read 1 = p1 at *
    obtain ⟨b1, s1⟩ := p1
    have hd1 : s1.data = s.data := by have := read_data s 1; rw [hs1] at this; exact this
    have hp1 : s.pos ≤ s1.pos := by have := hp s 1; rw [hs1] at this; exact this
    simp only at h1 hf
    cases hr : s.rest with
    | nil =>
      rw [hr] at h1 hf
      subst hf
      refine ⟨by simp, by simpa using h1, hd1, hp1⟩
    | cons a t =>
      rw [hr] at h1 hf
      subst hf
      have h2 := read_rest s1 1
      have hf2 := read_fst s1 1
      generalize hs2 : s1.read 1 = p2 at *
      obtain ⟨b2, s2⟩ := p2
      have hd2 : s2.data = s1.data := by have := read_data s1 1; rw [hs2] at this; exact this
      have hp2 : s1.pos ≤ s2.pos := by have := hp s1 1; rw [hs2] at this; exact this
      simp only [h1] at h2 hf2
      cases t with
      | nil =>
        simp at hf2 h2
        subst hf2
        simp [hs2, h2, hd2, hd1]
        omega
      | cons b t =>
        simp at hf2 h2
        subst hf2
        simp [hs2, h2, hd2, hd1, leNat]
        omega
  | wait16 =>
    have h1 := read_rest s 2
    have hf := read_fst s 2
    simp only [exec, execB, read16]
    generalize hs1 : s.read 2 = p1 at *
    obtain ⟨b1, s1⟩ := p1
    have hd1 : s1.data = s.data := by have := read_data s 2; rw [hs1] at this; exact this
    have hp1 : s.pos ≤ s1.pos := by have := hp s 2; rw [hs1] at this; exact this
    simp only at h1 hf
    cases hr : s.rest with
    | nil => simp [hr] at h1 hf; subst hf; simp [h1, hd1, hp1]
    | cons a t =>
      cases t with
      | nil => simp [hr] at h1 hf; subst hf; simp [h1, hd1, hp1]
      | cons b t => simp [hr] at h1 hf; subst hf; simp [h1, hd1, hp1, leNat]
  | block =>
    have h1 := read_rest s 6
    have hf := read_fst s 6
    simp only [exec, execB]
    generalize hs1 : s.read 6 = p1 at *
    obtain ⟨b1, s1⟩ := p1
    have hd1 : s1.data = s.data := by have := read_data s 6; rw [hs1] at this; exact this
    have hp1 : s.pos ≤ s1.pos := by have := hp s 6; rw [hs1] at this; exact this
    simp only at h1 hf
    by_cases hl : s.rest.length < 6
    · rw [if_pos (by rw [hf, List.length_take]; omega), if_pos hl]
      exact ⟨rfl, by rw [h1]; exact List.drop_eq_nil_of_le (by omega), hd1, hp1⟩
    · rw [if_neg (by rw [hf, List.length_take]; omega), if_neg hl]
      subst hf
      refine ⟨?_, ?_, hd1, Nat.le_trans hp1 (hp _ _)⟩
      · simp [plainRead, read_fst, h1]
      · simp only [plainRead]; rw [read_rest, h1]
  | ram =>
    have h1 := read_rest s 11
    have hf := read_fst s 11
    simp only [exec, execB]
    generalize hs1 : s.read 11 = p1 at *
    obtain ⟨b1, s1⟩ := p1
    have hd1 : s1.data = s.data := by have := read_data s 11; rw [hs1] at this; exact this
    have hp1 : s.pos ≤ s1.pos := by have := hp s 11; rw [hs1] at this; exact this
    simp only at h1 hf
    by_cases hl : s.rest.length < 11
    · rw [if_pos (by rw [hf, List.length_take]; omega), if_pos hl]
      exact ⟨rfl, by rw [h1]; exact List.drop_eq_nil_of_le (by omega), hd1, hp1⟩
    · rw [if_neg (by rw [hf, List.length_take]; omega), if_neg hl]
      subst hf
      refine ⟨?_, ?_, hd1, Nat.le_trans hp1 (hp _ _)⟩
      · simp [plainRead, read_fst, h1]
      · simp only [plainRead]; rw [read_rest, h1]

/-- One `next` on the remaining bytes. -/
def stepB : Bytes → Option (Except PyErr Cmd × Bytes)
  | [] => none
  | b :: r => some (execB b.toNat r (classify b.toNat))

theorem next_stepB (s : Stream) :
    (stepB s.rest = none → (next s).1 = none) ∧
    (∀ x r, stepB s.rest = some (x, r) → (next s).1 = some x ∧ (next s).2.rest = r ∧
      (next s).2.data = s.data ∧ s.pos < (next s).2.pos) := by
  have h1 := read_rest s 1
  have hf := read_fst s 1
  have hpos := read_pos s 1
  have hdat := read_data s 1
  unfold next
  generalize s.read 1 = p at *
  obtain ⟨b, s1⟩ := p
  simp only at h1 hf hpos hdat
  cases hr : s.rest with
  | nil => rw [hr] at hf; simp at hf; subst hf; simp [stepB]
  | cons a t =>
    rw [hr] at hf h1 hpos
    simp at hf h1
    subst hf
    refine ⟨by simp [stepB], ?_⟩
    intro x r hx
    simp only [stepB, Option.some.injEq] at hx
    simp only [command_eq_exec]
    obtain ⟨e1, e2, e3, e4⟩ := exec_eq a.toNat s1 (classify a.toNat)
    rw [h1, hx] at e1 e2
    refine ⟨by rw [e1], e2, by rw [e3, hdat], ?_⟩
    simp at hpos
    have : s1.pos ≤ (exec a.toNat s1 (classify a.toNat)).2.pos := e4
    show s.pos < (exec a.toNat s1 (classify a.toNat)).2.pos
    omega

theorem execB_length (op : Nat) (r : Bytes) (k : Kind) : (execB op r k).2.length ≤ r.length := by
  cases k with
  | nop => exact Nat.le_refl _
  | waitc n => exact Nat.le_refl _
  | eos => exact Nat.le_refl _
  | fixed n => simp [execB]
  | ym =>
    match r with
    | [] => simp [execB]
    | [_] => simp [execB]
    | a :: b :: t => simp [execB]; omega
  | wait16 =>
    match r with
    | [] => simp [execB]
    | [_] => simp [execB]
    | a :: b :: t => simp [execB]; omega
  | block => simp only [execB]; split <;> simp
  | ram => simp only [execB]; split <;> simp

theorem stepB_length {b r : Bytes} {x} (h : stepB b = some (x, r)) : r.length < b.length := by
  cases b with
  | nil => simp [stepB] at h
  | cons a t =>
    simp only [stepB, Option.some.injEq] at h
    have := execB_length a.toNat t (classify a.toNat)
    rw [h] at this
    simp; exact Nat.lt_succ_of_le this

end VgmX
