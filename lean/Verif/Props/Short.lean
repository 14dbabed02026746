import Verif.Model.Short
import Verif.Spec.Short
import Verif.Props.Reader
import Verif.Props.Header
import Mathlib.Data.List.Forall2
/-
C96: streams that give fewer bytes than asked for.
-/

namespace VgmX
open Spec

theorem gets_cases {nb : Bool} {s s' : Stream} {n : Nat} {r : Option Bytes} (h : Gets nb s n r s') :
    s'.data = s.data ∧
    ((r = none ∧ nb = true ∧ s' = s) ∨
      ∃ b, r = some b ∧ s.rest = b ++ s'.rest ∧ b.length ≤ n ∧ (b = [] → n = 0 ∨ s.rest = []) ∧
        (b.length = n → s.read n = (b, s'))) := by
  cases h with
  | none h => exact ⟨rfl, .inl ⟨rfl, h, rfl⟩⟩
  | some k hk h0 =>
    refine ⟨rfl, .inr ⟨_, rfl, ?_, ?_, ?_, ?_⟩⟩
    · rw [read_rest, read_fst, List.take_append_drop]
    · rw [read_fst, List.length_take]; omega
    · intro h
      rw [read_fst, List.take_eq_nil_iff] at h
      rcases h with h | h
      · rcases h0 h with h | h
        · exact .inl h
        · exact .inr (by unfold Stream.rest; exact List.drop_eq_nil_of_le h)
      · exact .inr h
    · intro h
      rw [read_fst, List.length_take] at h
      have : k = n := by omega
      rw [this]

theorem ends_ret {α : Type} {nb : Bool} {a a' : α} {s s' : Stream}
    (h : (Rd.ret a).Ends nb s a' s') : a' = a ∧ s' = s := by
  cases h; exact ⟨rfl, rfl⟩

theorem ends_read {α : Type} {nb : Bool} {n : Nat} {k : Option Bytes → Rd α} {a : α}
    {s t : Stream} (h : (Rd.read n k).Ends nb s a t) :
    ∃ b s', Gets nb s n b s' ∧ (k b).Ends nb s' a t := by
  cases h with
  | read h1 h2 => exact ⟨_, _, h1, h2⟩

theorem ends_seek {α : Type} {nb : Bool} {p : Nat} {k : Rd α} {a : α} {s t : Stream}
    (h : (Rd.seek p k).Ends nb s a t) : k.Ends nb (s.seek p) a t := by
  cases h with
  | seek h => exact h

/-- Reading a number: it is what it is in the file, or `EOFError`. -/
theorem ends_readLe {α : Type} {nb : Bool} {n : Nat} {err : PyErr → α} {k : Nat → Rd α} {a : α}
    {s t : Stream} (h : (readLeRd n err k).Ends nb s a t) :
    (a = err .eof ∧ t.data = s.data) ∨
    ∃ b s', s.read n = (b, s') ∧ b.length = n ∧ (k (leNat b)).Ends nb s' a t := by
  obtain ⟨b, s', h1, h2⟩ := ends_read h
  obtain ⟨hd, hc⟩ := gets_cases h1
  rcases hc with ⟨rfl, _, _⟩ | ⟨b, rfl, _, _, _, h3⟩
  · obtain ⟨e, rfl⟩ := ends_ret h2
    exact .inl ⟨e, hd⟩
  · dsimp only at h2
    split at h2
    · obtain ⟨e, rfl⟩ := ends_ret h2
      exact .inl ⟨e, hd⟩
    · rename_i hl
      have hl : b.length = n := by omega
      exact .inr ⟨b, s', h3 hl, hl, h2⟩

theorem ends_readBcd {α : Type} {nb : Bool} {err : PyErr → α} {k : Nat → Rd α} {a : α}
    {s t : Stream} (h : (readBcdRd err k).Ends nb s a t) :
    (a = err .eof ∧ t.data = s.data) ∨
    ∃ b s', s.read 4 = (b, s') ∧ b.length = 4 ∧ (k (bcdValue b)).Ends nb s' a t := by
  obtain ⟨b, s', h1, h2⟩ := ends_read h
  obtain ⟨hd, hc⟩ := gets_cases h1
  rcases hc with ⟨rfl, _, _⟩ | ⟨b, rfl, _, _, _, h3⟩
  · obtain ⟨e, rfl⟩ := ends_ret h2
    exact .inl ⟨e, hd⟩
  · dsimp only at h2
    split at h2
    · obtain ⟨e, rfl⟩ := ends_ret h2
      exact .inl ⟨e, hd⟩
    · rename_i hl
      have hl : b.length = 4 := by omega
      exact .inr ⟨b, s', h3 hl, hl, h2⟩

/-! ### Commands -/

/-- `commandRd` by kind of command. -/
def execRd {α : Type} (cmdId : Nat) (k : Except PyErr Cmd → α) : Kind → Rd α
  | .nop => .ret (k (.ok (.plain cmdId none)))
  | .fixed n => plainRd cmdId n k
  | .ym =>
    readLeRd 1 (fun e => k (.error e)) (fun reg =>
      readLeRd 1 (fun e => k (.error e)) (fun value => .ret (k (.ok (.ym2151 cmdId reg value)))))
  | .wait16 =>
    readLeRd 2 (fun e => k (.error e)) (fun n => .ret (k (.ok (mkWait cmdId (some n)))))
  | .waitc n => .ret (k (.ok (mkWait cmdId n)))
  | .eos => .ret (k (.ok (.eos cmdId)))
  | .block =>
    .read 6 (fun
      | none => .ret (k (.error .type))
      | some buffer =>
        if buffer.length ≠ 6 then .ret (k (.error .struct))
        else plainRd cmdId (leNat (buffer.drop 2)) k)
  | .ram =>
    .read 11 (fun
      | none => .ret (k (.error .type))
      | some buffer =>
        if buffer.length ≠ 11 then .ret (k (.error .struct))
        else
          let ssB := leNat ((buffer.drop 8).take 1)
          let ssH := leNat ((buffer.drop 9).take 2)
          plainRd cmdId (ssH * 256 + ssB) k)

theorem commandRd_eq {α : Type} (op : Nat) (k : Except PyErr Cmd → α) :
    commandRd op k = execRd op k (classify op) := by
  unfold classify
  simp only [apply_ite (execRd op k)]
  rfl

/-- Opcodes by kind. -/
theorem kind_cases : ∀ op < 256,
    (classify op = .nop ∧ isPlainOp op) ∨ (∃ n, n ≤ 10 ∧ classify op = .fixed n ∧ isPlainOp op) ∨
    (op = 0x54 ∧ classify op = .ym) ∨ (op = 0x61 ∧ classify op = .wait16) ∨
    (op = 0x62 ∧ classify op = .waitc (some 735)) ∨ (op = 0x63 ∧ classify op = .waitc (some 882)) ∨
    (0x70 ≤ op ∧ op ≤ 0x7F ∧ classify op = .waitc none) ∨ (op = 0x66 ∧ classify op = .eos) ∨
    (op = 0x67 ∧ classify op = .block) ∨ (op = 0x68 ∧ classify op = .ram) := by
  have : ∀ op < 256,
    (classify op = .nop ∧ isPlainOp op) ∨ (classify op = .fixed (fixedLen op) ∧ isPlainOp op ∧
      fixedLen op ≤ 10) ∨
    (op = 0x54 ∧ classify op = .ym) ∨ (op = 0x61 ∧ classify op = .wait16) ∨
    (op = 0x62 ∧ classify op = .waitc (some 735)) ∨ (op = 0x63 ∧ classify op = .waitc (some 882)) ∨
    (0x70 ≤ op ∧ op ≤ 0x7F ∧ classify op = .waitc none) ∨ (op = 0x66 ∧ classify op = .eos) ∨
    (op = 0x67 ∧ classify op = .block) ∨ (op = 0x68 ∧ classify op = .ram) := by decide +kernel
  intro op hop
  rcases this op hop with h | ⟨h1, h2, h3⟩ | h
  · exact .inl h
  · exact .inr (.inl ⟨_, h3, h1, h2⟩)
  · exact .inr (.inr h)

/-- What can become of a command with opcode `op` and bytes `r` behind it, if its reads are
answered with less: the bytes behind it are then `r'`. -/
def CmdShort (nb : Bool) (op : UInt8) (r : Bytes) (y : Except PyErr Cmd) (r' : Bytes) : Prop :=
  (∀ c, y = .ok c → ∃ blk, op :: r = blk ++ r' ∧ Says blk c) ∧
  ((y, r') = execB op.toNat r (classify op.toNat) ∨
    (∃ e, y = .error e ∧ (e = .eof ∨ e = .struct ∨ e = .type)) ∨
    ∃ p q r'', y = .ok (.plain op.toNat p) ∧ CutShort p q ∧ (p = none → nb = true) ∧
      execB op.toNat r (classify op.toNat) = (.ok (.plain op.toNat (some q)), r''))

/-- The payload. -/
theorem ends_plain {nb : Bool} {id n : Nat} {x : Option (Except PyErr Cmd)} {s t : Stream}
    (h : (plainRd id n some).Ends nb s x t) :
    t.data = s.data ∧ ∃ p, x = some (.ok (.plain id p)) ∧ s.rest = p.getD [] ++ t.rest ∧
      ((p = some (s.rest.take n) ∧ t.rest = s.rest.drop n) ∨
        (CutShort p (s.rest.take n) ∧ (p = none → nb = true))) := by
  obtain ⟨b, s', h1, h2⟩ := ends_read h
  obtain ⟨rfl, rfl⟩ := ends_ret h2
  obtain ⟨hd, hc⟩ := gets_cases h1
  refine ⟨hd, b, rfl, ?_⟩
  rcases hc with ⟨rfl, hnb, rfl⟩ | ⟨b, rfl, h3, h4, _, _⟩
  · exact ⟨rfl, .inr ⟨.inl rfl, fun _ => hnb⟩⟩
  · refine ⟨h3, ?_⟩
    by_cases hb : b = s.rest.take n
    · refine .inl ⟨by rw [← hb], ?_⟩
      have : s.rest.take n ++ t.rest = s.rest.take n ++ s.rest.drop n := by
        rw [List.take_append_drop, ← hb]; exact h3.symm
      exact List.append_cancel_left this
    · refine .inr ⟨.inr ⟨b, (s.rest.take n).drop b.length, rfl, ?_, ?_⟩, by simp⟩
      · have : b = (s.rest.take n).take b.length := by
          rw [List.take_take, Nat.min_eq_left h4, h3, List.take_left']
          rfl
        conv => lhs; rw [← List.take_append_drop b.length (s.rest.take n)]
        rw [← this]
      · intro he
        apply hb
        have h5 : (s.rest.take n).length ≤ b.length := by
          have := congrArg List.length he
          simp only [List.length_drop, List.length_nil] at this
          omega
        rw [h3] at h5 ⊢
        rw [List.length_take, List.length_append] at h5
        rcases Nat.eq_or_lt_of_le h4 with hn | hn
        · rw [List.take_left' hn]
        · have ht : t.rest = [] := List.length_eq_zero_iff.mp (by omega)
          rw [ht, List.append_nil, List.take_of_length_le h4]

theorem cmdShort_error {nb : Bool} {op : UInt8} {r r' : Bytes} {e : PyErr}
    (he : e = .eof ∨ e = .struct ∨ e = .type) : CmdShort nb op r (.error e) r' :=
  ⟨fun _ h => (by cases h), .inr (.inl ⟨e, rfl, he⟩)⟩

theorem toNat_byte (op : UInt8) (n : Nat) (h : op.toNat = n) : op = UInt8.ofNat n := by
  subst h; simp

theorem read_two {s s' : Stream} {b : Bytes} {n : Nat} (h : s.read n = (b, s'))
    (hl : b.length = n) : s.rest = b ++ s'.rest ∧ s'.data = s.data ∧ b = s.rest.take n ∧
      s'.rest = s.rest.drop n := by
  have h1 := congrArg Prod.fst h
  have h2 := congrArg Prod.snd h
  simp only at h1 h2
  subst h1 h2
  rw [read_rest, read_fst, List.take_append_drop]
  exact ⟨rfl, rfl, rfl, rfl⟩

theorem short_command {nb : Bool} (op : UInt8) {x : Option (Except PyErr Cmd)} {s t : Stream}
    (h : (commandRd op.toNat some).Ends nb s x t) :
    t.data = s.data ∧ ∃ y, x = some y ∧ CmdShort nb op s.rest y t.rest := by
  rw [commandRd_eq] at h
  have hlt : op.toNat < 256 := by simpa using op.toNat_lt
  rcases kind_cases op.toNat hlt with ⟨hk, hp⟩ | ⟨n, _, hk, hp⟩ | ⟨ho, hk⟩ | ⟨ho, hk⟩ | ⟨ho, hk⟩ |
    ⟨ho, hk⟩ | ⟨ho1, ho2, hk⟩ | ⟨ho, hk⟩ | ⟨ho, hk⟩ | ⟨ho, hk⟩ <;> rw [hk] at h <;>
    simp only [execRd] at h
  · obtain ⟨rfl, rfl⟩ := ends_ret h
    refine ⟨rfl, _, rfl, ?_, .inl (by rw [hk]; rfl)⟩
    rintro c ⟨⟩
    exact ⟨[op], rfl, Says.plain op [] none (.inl hp) (fun _ => rfl)⟩
  · obtain ⟨hd, p, rfl, h1, h2⟩ := ends_plain h
    refine ⟨hd, _, rfl, ?_, ?_⟩
    · rintro c ⟨⟩
      exact ⟨op :: ([] ++ p.getD []), by rw [h1]; rfl, Says.plain op [] p (.inl hp) (fun _ => rfl)⟩
    · rcases h2 with ⟨rfl, h2⟩ | ⟨h2, h3⟩
      · exact .inl (by rw [hk, h2]; rfl)
      · exact .inr (.inr ⟨p, _, _, rfl, h2, h3, by rw [hk]; rfl⟩)
  · rcases ends_readLe h with ⟨rfl, hd⟩ | ⟨b, s', h1, h2, h⟩
    · exact ⟨hd, _, rfl, cmdShort_error (.inl rfl)⟩
    · obtain ⟨e1, e2, _, _⟩ := read_two h1 h2
      rcases ends_readLe h with ⟨rfl, hd⟩ | ⟨b', s'', h1', h2', h⟩
      · exact ⟨hd.trans e2, _, rfl, cmdShort_error (.inl rfl)⟩
      · obtain ⟨e1', e2', _, _⟩ := read_two h1' h2'
        obtain ⟨rfl, rfl⟩ := ends_ret h
        obtain ⟨u, rfl⟩ := List.length_eq_one_iff.mp h2
        obtain ⟨v, rfl⟩ := List.length_eq_one_iff.mp h2'
        have hop := toNat_byte op _ ho
        subst hop
        rw [e1'] at e1
        refine ⟨e2'.trans e2, _, rfl, ?_, .inl ?_⟩
        · rintro c ⟨⟩
          exact ⟨[0x54, u, v], by rw [e1]; rfl, Says.ym2151 u v⟩
        · rw [hk, e1]; simp [execB, leNat]
  · rcases ends_readLe h with ⟨rfl, hd⟩ | ⟨b, s', h1, h2, h⟩
    · exact ⟨hd, _, rfl, cmdShort_error (.inl rfl)⟩
    · obtain ⟨e1, e2, _, _⟩ := read_two h1 h2
      obtain ⟨rfl, rfl⟩ := ends_ret h
      obtain ⟨u, v, rfl⟩ := List.length_eq_two.mp h2
      have hop := toNat_byte op _ ho
      subst hop
      refine ⟨e2, _, rfl, ?_, .inl ?_⟩
      · rintro c ⟨⟩
        exact ⟨[0x61, u, v], by rw [e1]; rfl, by
          have := Says.wait16 u v
          simpa [mkWait, leNat] using this⟩
      · rw [hk, e1]; simp [execB, leNat]
  · obtain ⟨rfl, rfl⟩ := ends_ret h
    have hop := toNat_byte op _ ho
    subst hop
    refine ⟨rfl, _, rfl, ?_, .inl (by rw [hk]; rfl)⟩
    rintro c ⟨⟩
    exact ⟨[0x62], rfl, Says.wait735⟩
  · obtain ⟨rfl, rfl⟩ := ends_ret h
    have hop := toNat_byte op _ ho
    subst hop
    refine ⟨rfl, _, rfl, ?_, .inl (by rw [hk]; rfl)⟩
    rintro c ⟨⟩
    exact ⟨[0x63], rfl, Says.wait882⟩
  · obtain ⟨rfl, rfl⟩ := ends_ret h
    refine ⟨rfl, _, rfl, ?_, .inl (by rw [hk]; rfl)⟩
    rintro c ⟨⟩
    refine ⟨[op], rfl, ?_⟩
    have := Says.waitShort op ho1 ho2
    have e1 : op.toNat / 16 = 7 := by omega
    have e2 : op.toNat % 16 + 1 = op.toNat - 0x70 + 1 := by omega
    rw [mkWait, if_pos e1, e2]
    exact this
  · obtain ⟨rfl, rfl⟩ := ends_ret h
    have hop := toNat_byte op _ ho
    subst hop
    refine ⟨rfl, _, rfl, ?_, .inl (by rw [hk]; rfl)⟩
    rintro c ⟨⟩
    exact ⟨[0x66], rfl, Says.eos⟩
  · have hop := toNat_byte op _ ho
    obtain ⟨b, s', h1, h2⟩ := ends_read h
    clear h
    obtain ⟨hd, hc⟩ := gets_cases h1
    rcases hc with ⟨rfl, hnb, rfl⟩ | ⟨b, rfl, h3, h4, _, h5⟩
    · obtain ⟨rfl, rfl⟩ := ends_ret h2
      exact ⟨hd, _, rfl, cmdShort_error (.inr (.inr rfl))⟩
    · dsimp only at h2
      split at h2
      · obtain ⟨rfl, rfl⟩ := ends_ret h2
        exact ⟨hd, _, rfl, cmdShort_error (.inr (.inl rfl))⟩
      · rename_i hl
        have hl : b.length = 6 := by omega
        obtain ⟨e1, _, e3, e4⟩ := read_two (h5 hl) hl
        obtain ⟨hd', p, rfl, g1, g2⟩ := ends_plain h2
        have hlen : ¬ s.rest.length < 6 := by rw [e1, List.length_append]; omega
        refine ⟨hd'.trans hd, _, rfl, ?_, ?_⟩
        · rintro c ⟨⟩
          refine ⟨op :: (b ++ p.getD []), by rw [e1, g1]; simp, Says.plain op b p ?_ ?_⟩
          · exact .inr (.inl hop)
          · intro hp
            exact absurd hp (by rw [ho]; decide)
        · rw [hk]
          unfold execB
          simp only [if_neg hlen, ← e4, ← e3]
          rcases g2 with ⟨rfl, g2⟩ | ⟨g2, g3⟩
          · exact .inl (by rw [g2])
          · exact .inr (.inr ⟨p, _, _, rfl, g2, g3, rfl⟩)
  · have hop := toNat_byte op _ ho
    obtain ⟨b, s', h1, h2⟩ := ends_read h
    clear h
    obtain ⟨hd, hc⟩ := gets_cases h1
    rcases hc with ⟨rfl, hnb, rfl⟩ | ⟨b, rfl, h3, h4, _, h5⟩
    · obtain ⟨rfl, rfl⟩ := ends_ret h2
      exact ⟨hd, _, rfl, cmdShort_error (.inr (.inr rfl))⟩
    · dsimp only at h2
      split at h2
      · obtain ⟨rfl, rfl⟩ := ends_ret h2
        exact ⟨hd, _, rfl, cmdShort_error (.inr (.inl rfl))⟩
      · rename_i hl
        have hl : b.length = 11 := by omega
        obtain ⟨e1, _, e3, e4⟩ := read_two (h5 hl) hl
        obtain ⟨hd', p, rfl, g1, g2⟩ := ends_plain h2
        have hlen : ¬ s.rest.length < 11 := by rw [e1, List.length_append]; omega
        refine ⟨hd'.trans hd, _, rfl, ?_, ?_⟩
        · rintro c ⟨⟩
          refine ⟨op :: (b ++ p.getD []), by rw [e1, g1]; simp, Says.plain op b p ?_ ?_⟩
          · exact .inr (.inr hop)
          · intro hp
            exact absurd hp (by rw [ho]; decide)
        · rw [hk]
          unfold execB
          simp only [if_neg hlen, ← e4, ← e3]
          rcases g2 with ⟨rfl, g2⟩ | ⟨g2, g3⟩
          · exact .inl (by rw [g2])
          · exact .inr (.inr ⟨p, _, _, rfl, g2, g3, rfl⟩)

theorem short_next {nb : Bool} {x : Option (Except PyErr Cmd)} {s t : Stream}
    (h : nextRd.Ends nb s x t) :
    (x = none ∧ (s.rest = [] ∨ nb = true) ∧ t.rest = s.rest) ∨
    ∃ op r y, s.rest = op :: r ∧ x = some y ∧ CmdShort nb op r y t.rest := by
  obtain ⟨b, s', h1, h2⟩ := ends_read h
  clear h
  obtain ⟨hd, hc⟩ := gets_cases h1
  rcases hc with ⟨rfl, hnb, rfl⟩ | ⟨b, rfl, h3, h4, h5, _⟩
  · obtain ⟨rfl, rfl⟩ := ends_ret h2
    exact .inl ⟨rfl, .inr hnb, rfl⟩
  · rcases b with _ | ⟨op, b⟩
    · obtain ⟨rfl, rfl⟩ := ends_ret h2
      have := (h5 rfl).resolve_left (by omega)
      refine .inl ⟨rfl, .inl this, ?_⟩
      rw [this]; rw [this] at h3; simpa using h3.symm
    · have : b = [] := List.length_eq_zero_iff.mp (by simp at h4; simp [h4])
      subst this
      obtain ⟨_, y, rfl, hy⟩ := short_command op h2
      exact .inr ⟨op, s'.rest, y, h3, rfl, hy⟩

/-! ### The property -/

/-- C96. However the bytes arrive: the commands yielded are made of consecutive parts of the file,
in order. A register write, a wait or an end mark has all its bytes there. If the stream blocks
(never returns `None`) and the loop ends without an exception, then the parts are the whole rest
of the file. -/
theorem c96_parts (nb : Bool) (s : Stream) (cs : List Cmd) (o : Outcome)
    (h : ShortRuns nb s cs o) :
    ∃ (parts : List Bytes) (left : Bytes), s.data.drop s.pos = parts.flatten ++ left ∧
      List.Forall₂ Says parts cs ∧ (o = .stop → nb = false → left = []) := by
  show ∃ (parts : List Bytes) (left : Bytes), s.rest = _ ∧ _
  induction h with
  | stop h =>
    rcases short_next h with ⟨_, h1, _⟩ | ⟨_, _, _, _, hx, _⟩
    · refine ⟨[], _, rfl, .nil, ?_⟩
      rintro _ rfl
      exact h1.resolve_right (by simp)
    · cases hx
  | raise h => exact ⟨[], _, rfl, .nil, by intro h; cases h⟩
  | yield h _ ih =>
    obtain ⟨parts, left, h1, h2, h3⟩ := ih
    rcases short_next h with ⟨hx, _⟩ | ⟨op, r, y, hr, hx, hy⟩
    · cases hx
    · cases hx
      obtain ⟨blk, e1, e2⟩ := hy.1 _ rfl
      refine ⟨blk :: parts, left, ?_, .cons e2 h2, h3⟩
      rw [hr, e1, h1]; simp

/-- C96. Every loop ends: it yields at most as many commands as there are bytes left. -/
theorem c96_ends (nb : Bool) (s s' : Stream) (cs : List Cmd) (h : ShortYields nb s cs s') :
    cs.length ≤ s.data.length - s.pos := by
  have key : cs.length + s'.rest.length ≤ s.rest.length := by
    induction h with
    | nil => simp
    | cons h _ ih =>
      rcases short_next h with ⟨hx, _⟩ | ⟨op, r, y, hr, hx, hy⟩
      · cases hx
      · cases hx
        obtain ⟨blk, e1, e2⟩ := hy.1 _ rfl
        have h0 : 0 < blk.length := by cases e2 <;> simp
        have := congrArg List.length e1
        rw [← hr, List.length_append] at this
        simp only [List.length_cons]
        omega
  have := rest_length s
  omega

/-- The loop with whole reads, one step. -/
theorem runs_step {s : Stream} {cs : List Cmd} {o : Outcome} (h : Runs s cs o) {op : UInt8}
    {r : Bytes} (hr : s.rest = op :: r) :
    (∃ e, (execB op.toNat r (classify op.toNat)).1 = .error e ∧ cs = [] ∧ o = .raised e) ∨
    ∃ c cs' s', (execB op.toNat r (classify op.toNat)).1 = .ok c ∧ cs = c :: cs' ∧
      s'.rest = (execB op.toNat r (classify op.toNat)).2 ∧ Runs s' cs' o := by
  have hn := (next_stepB s).2 (execB op.toNat r (classify op.toNat)).1
    (execB op.toNat r (classify op.toNat)).2 (by rw [hr]; rfl)
  cases h with
  | stop h => rw [h] at hn; cases hn.1
  | raise h =>
    rw [h] at hn
    simp only [Option.some.injEq] at hn
    exact .inl ⟨_, hn.1.symm, rfl, rfl⟩
  | yield h h' =>
    rw [h] at hn
    simp only [Option.some.injEq] at hn
    exact .inr ⟨_, _, _, hn.1.symm, rfl, hn.2.1, h'⟩

/-- C96. The first difference from what whole reads give is an exception, or (if the stream does
not block) an early end, or a command without meaning for the extractor whose payload is cut
short. -/
theorem c96_first_difference (nb : Bool) (s : Stream) (cs : List Cmd) (o : Outcome)
    (h : ShortRuns nb s cs o) (whole : List Cmd) (end_ : Outcome) (hw : Runs s whole end_) :
    (cs = whole ∧ o = end_) ∨
    ∃ k, cs.take k = whole.take k ∧ k ≤ cs.length ∧ k ≤ whole.length ∧
      ((cs.length = k ∧ ∃ e, o = .raised e ∧ (e = .eof ∨ e = .struct ∨ e = .type)) ∨
       (cs.length = k ∧ o = .stop ∧ nb = true) ∨
       ∃ id p q, cs[k]? = some (.plain id p) ∧ whole[k]? = some (.plain id (some q)) ∧
         CutShort p q ∧ (p = none → nb = true)) := by
  induction h generalizing whole with
  | @stop s s' h =>
    rcases short_next h with ⟨_, h1, _⟩ | ⟨_, _, _, _, hx, _⟩
    · rcases h1 with h1 | h1
      · refine .inl ?_
        have := runs_unique hw (runs_stop_nil s h1)
        exact ⟨this.1, this.2⟩
      · exact .inr ⟨0, rfl, Nat.le_refl _, Nat.zero_le _, .inr (.inl ⟨rfl, rfl, h1⟩)⟩
    · cases hx
  | @raise s s' e h =>
    rcases short_next h with ⟨hx, _⟩ | ⟨op, r, y, hr, hx, hy⟩
    · cases hx
    · cases hx
      rcases hy.2 with h1 | ⟨e', he, h1⟩ | ⟨_, _, _, hx, _⟩
      · rcases runs_step hw hr with ⟨e', h2, rfl, rfl⟩ | ⟨c, cs', s'', h2, _⟩
        · rw [← h1] at h2
          cases h2
          exact .inl ⟨rfl, rfl⟩
        · rw [← h1] at h2; cases h2
      · cases he
        exact .inr ⟨0, rfl, Nat.le_refl _, Nat.zero_le _, .inl ⟨rfl, _, rfl, h1⟩⟩
      · cases hx
  | @yield s s' c cs o h h' ih =>
    rcases short_next h with ⟨hx, _⟩ | ⟨op, r, y, hr, hx, hy⟩
    · cases hx
    · cases hx
      rcases hy.2 with h1 | ⟨e', he, h1⟩ | ⟨p, q, r'', hx, hp, hq, h1⟩
      · rcases runs_step hw hr with ⟨e', h2, _⟩ | ⟨c', cs', s'', h2, rfl, h3, h4⟩
        · rw [← h1] at h2; cases h2
        · rw [← h1] at h2 h3
          cases h2
          have h5 : Runs s' cs' end_ := runs_of_rest h4 h3.symm
          rcases ih cs' h5 with ⟨rfl, rfl⟩ | ⟨k, e1, e2, e3, e4⟩
          · exact .inl ⟨rfl, rfl⟩
          · refine .inr ⟨k + 1, by simp [e1], by simp; omega, by simp; omega, ?_⟩
            rcases e4 with ⟨g1, g2⟩ | ⟨g1, g2⟩ | g
            · exact .inl ⟨by simp [g1], g2⟩
            · exact .inr (.inl ⟨by simp [g1], g2⟩)
            · exact .inr (.inr (by simpa using g))
      · cases he
      · cases hx
        rcases runs_step hw hr with ⟨e', h2, _⟩ | ⟨c', cs', s'', h2, rfl, h3, h4⟩
        · rw [h1] at h2; cases h2
        · rw [h1] at h2
          cases h2
          exact .inr ⟨0, rfl, Nat.zero_le _, Nat.zero_le _,
            .inr (.inr ⟨_, p, q, rfl, rfl, hp, hq⟩)⟩

/-! ### Whole reads are among the ways -/

theorem gets_whole (nb : Bool) (s : Stream) (n : Nat) :
    Gets nb s n (some (s.read n).1) (s.read n).2 := .some n (Nat.le_refl _) (fun h => .inl h)

theorem whole_readLe {α : Type} {nb : Bool} {n : Nat} {err : PyErr → α} {k : Nat → Rd α} {a : α}
    {s t : Stream} (h1 : (s.read n).1.length ≠ n → a = err .eof ∧ t = (s.read n).2)
    (h2 : (s.read n).1.length = n → (k (leNat (s.read n).1)).Ends nb (s.read n).2 a t) :
    (readLeRd n err k).Ends nb s a t := by
  refine .read (gets_whole nb s n) ?_
  dsimp only
  by_cases h : (s.read n).1.length = n
  · rw [if_neg (by omega)]; exact h2 h
  · rw [if_pos h]
    obtain ⟨rfl, rfl⟩ := h1 h
    exact .ret

theorem whole_exec (nb : Bool) (op : Nat) (s : Stream) (k : Kind) :
    (execRd op some k).Ends nb s (some (exec op s k).1) (exec op s k).2 := by
  cases k with
  | nop => exact .ret
  | fixed n => exact .read (gets_whole nb s n) .ret
  | ym =>
    unfold execRd
    apply whole_readLe
    · intro h; simp [exec, read8, h]
    · intro h
      apply whole_readLe
      · intro h'; simp [exec, read8, h, h']
      · intro h'
        have : exec op s .ym = (.ok (.ym2151 op (leNat (s.read 1).1)
          (leNat ((s.read 1).2.read 1).1)), ((s.read 1).2.read 1).2) := by
          simp [exec, read8, h, h']
        rw [this]
        exact .ret
  | wait16 =>
    unfold execRd
    apply whole_readLe
    · intro h; simp [exec, read16, h]
    · intro h
      have : exec op s .wait16 = (.ok (mkWait op (some (leNat (s.read 2).1))), (s.read 2).2) := by
        simp [exec, read16, h]
      rw [this]
      exact .ret
  | waitc n => exact .ret
  | eos => exact .ret
  | block =>
    refine .read (gets_whole nb s 6) ?_
    unfold exec
    dsimp only
    split
    · exact .ret
    · exact .read (gets_whole nb _ _) .ret
  | ram =>
    refine .read (gets_whole nb s 11) ?_
    unfold exec
    dsimp only
    split
    · exact .ret
    · exact .read (gets_whole nb _ _) .ret

theorem whole_next (nb : Bool) (s : Stream) : nextRd.Ends nb s (next s).1 (next s).2 := by
  refine .read (gets_whole nb s 1) ?_
  unfold next
  dsimp only
  rcases (s.read 1).1 with _ | ⟨b, t⟩
  · exact .ret
  · dsimp only
    rw [commandRd_eq, command_eq_exec]
    exact whole_exec nb _ _ _

/-- C96. Whole reads are among the ways the bytes may arrive. -/
theorem c96_whole (nb : Bool) (s : Stream) (cs : List Cmd) (o : Outcome) (h : Runs s cs o) :
    ShortRuns nb s cs o := by
  induction h with
  | @stop s s' h => exact .stop (s' := s') (by have := whole_next nb s; rw [h] at this; exact this)
  | @raise s s' _ h =>
    exact .raise (s' := s') (by have := whole_next nb s; rw [h] at this; exact this)
  | @yield s s' _ _ _ h _ ih =>
    exact .yield (s' := s') (by have := whole_next nb s; rw [h] at this; exact this) ih

/-! ### The header -/

theorem read32_of {s s' : Stream} {b : Bytes} (h : s.read 4 = (b, s')) (hl : b.length = 4) :
    read32 s = (.ok (leNat b), s') := by
  unfold read32; rw [h]; simp [hl]

theorem readBcd_of {s s' : Stream} {b : Bytes} (h : s.read 4 = (b, s')) (hl : b.length = 4) :
    readBcd s = (.ok (bcdValue b), s') := by
  unfold readBcd; rw [h]; simp [hl]

/-- C96. However the bytes arrive, `reader` on a file that is not compressed returns `None`,
raises `EOFError` or `TypeError`, or returns the same reader (fields, clocks, position) as with
whole reads: the header is never misread. -/
theorem c96_header (nb : Bool) (gunzip : Bytes → Except PyErr Bytes) (clocks clocks' : Clocks)
    (content : Bytes) (r : Except PyErr Opened) (t : Stream)
    (h : (readerRd clocks).Ends nb ⟨content, 0⟩ (r, clocks') t) (hg : content.take 2 ≠ gzipMagic) :
    r = .ok .notVgm ∨ r = .error .eof ∨ (r = .error .type ∧ nb = true) ∨
    ∃ a v d, r = .ok (.vgm a v d) ∧
      reader gunzip clocks content = (.ok (some ⟨t, a, v, d⟩), clocks') := by
  obtain ⟨b, s', h1, h2⟩ := ends_read h
  clear h
  obtain ⟨hd, hc⟩ := gets_cases h1
  rcases hc with ⟨rfl, hnb, rfl⟩ | ⟨b, rfl, h3, h4, h5, h6⟩
  · obtain ⟨h, rfl⟩ := ends_ret h2
    cases h
    exact .inr (.inr (.inl ⟨rfl, hnb⟩))
  · dsimp only at h2
    split at h2
    · rename_i hm
      exfalso
      apply hg
      have hc : content = b ++ s'.rest := by simpa [Stream.rest] using h3
      have hb : 2 ≤ b.length := by
        have := congrArg List.length hm
        simp only [List.length_take, List.length_cons, List.length_nil] at this
        omega
      rw [hc, List.take_append_of_le_length hb, hm]
      rfl
    · split at h2
      · obtain ⟨h, rfl⟩ := ends_ret h2
        cases h
        exact .inl rfl
      · rename_i hm
        have hm : b = [0x56, 0x67, 0x6d, 0x20] := by simpa using hm
        have hread := h6 (by rw [hm]; rfl)
        have hrd : reader gunzip clocks content =
            match Vgm.init clocks s' with
            | (.error e, c) => (.error e, c)
            | (.ok v, c) => (.ok (some v), c) := by
          unfold reader
          rw [hread]
          subst hm
          simp
          rfl
        rw [hrd]
        clear hrd hread h6 h1 h3 h4 h5 hd
        unfold initRd at h2
        unfold Vgm.init
        rcases ends_readLe h2 with ⟨h, _⟩ | ⟨b1, s1, r1, l1, h2⟩
        · cases h; exact .inr (.inl rfl)
        rw [read32_of r1 l1]
        dsimp only
        rcases ends_readBcd h2 with ⟨h, _⟩ | ⟨b2, s2, r2, l2, h2⟩
        · cases h; exact .inr (.inl rfl)
        rw [readBcd_of r2 l2]
        dsimp only
        rcases ends_readLe h2 with ⟨h, _⟩ | ⟨b3, s3, r3, l3, h2⟩
        · cases h; exact .inr (.inl rfl)
        rw [read32_of r3 l3]
        dsimp only
        rcases ends_readLe h2 with ⟨h, _⟩ | ⟨b4, s4, r4, l4, h2⟩
        · cases h; exact .inr (.inl rfl)
        rw [read32_of r4 l4]
        dsimp only
        have h2 := ends_seek h2
        rcases ends_readLe h2 with ⟨h, _⟩ | ⟨b5, s5, r5, l5, h2⟩
        · cases h; exact .inr (.inl rfl)
        rw [read32_of r5 l5]
        dsimp only at h2 ⊢
        by_cases hv : 150 ≤ bcdValue b2
        · simp only [if_pos hv] at h2 ⊢
          rcases ends_readLe h2 with ⟨h, _⟩ | ⟨b6, s6, r6, l6, h2⟩
          · cases h; exact .inr (.inl rfl)
          rw [read32_of r6 l6]
          dsimp only
          obtain ⟨h, rfl⟩ := ends_ret (ends_seek h2)
          cases h
          exact .inr (.inr (.inr ⟨_, _, _, rfl, rfl⟩))
        · simp only [if_neg hv] at h2 ⊢
          obtain ⟨h, rfl⟩ := ends_ret (ends_seek h2)
          cases h
          exact .inr (.inr (.inr ⟨_, _, _, rfl, rfl⟩))

/-! ### A payload in two pieces -/

/-- A write to another chip, then a wait. The payload happens to contain 0x54. -/
def twoPieces : Stream := ⟨[0x51, 0x00, 0x54, 0x08, 0x78], 0⟩

/-- C96, the limit: if the payload of a command comes in two pieces, its second piece is taken for
commands. Here a key-on of channel 0 that is not in the recording. (With whole reads there is no
YM2151 write.) -/
theorem c96_misread : ∃ s cs cs', Runs s cs .stop ∧ (∀ c ∈ cs, ∀ i r v, c ≠ .ym2151 i r v) ∧
    ShortRuns false s cs' .stop ∧ Cmd.ym2151 0x54 0x08 0x78 ∈ cs' := by
  refine ⟨twoPieces, [.plain 0x51 (some [0x00, 0x54]), .plain 0x08 none, .wait 0x78 (some 9)],
    [.plain 0x51 (some [0x00]), .ym2151 0x54 0x08 0x78], ?_, by simp, ?_, by simp⟩
  · exact (runs_iff_iter _ 6 _ _ (by decide)).mp (by decide +kernel)
  · refine .yield (s' := ⟨twoPieces.data, 2⟩) ?_ (c96_whole _ _ _ _ ?_)
    · refine .read (gets_whole _ _ 1) ?_
      show Rd.Ends _ (commandRd 0x51 some) _ _ _
      rw [commandRd_eq]
      show Rd.Ends _ (plainRd 0x51 2 some) _ _ _
      exact .read (b := some [0x00]) (s' := ⟨twoPieces.data, 2⟩)
        (.some (s := ⟨twoPieces.data, 1⟩) 1 (by decide) (by decide)) .ret
    · exact (runs_iff_iter _ 6 _ _ (by decide)).mp (by decide +kernel)

/-- A stream that does not block, with nothing to give yet: the loop ends at once. -/
example : ShortRuns true twoPieces [] .stop := .stop (.read (.none rfl) .ret)

/-- A register write of which only the opcode has arrived. -/
example : ShortRuns true ⟨[0x54, 0x08, 0x78], 0⟩ [] (.raised .eof) :=
  .raise (.read (gets_whole _ _ 1) (by
    show Rd.Ends _ (commandRd 0x54 some) _ _ _
    rw [commandRd_eq]
    exact .read (.none rfl) .ret))

/-- A VGM file of which the first read gives two bytes only is taken for no VGM file. -/
example (clocks : Clocks) : (readerRd clocks).Ends false ⟨[0x56, 0x67, 0x6d, 0x20, 0], 0⟩
    (.ok .notVgm, clocks) ⟨[0x56, 0x67, 0x6d, 0x20, 0], 2⟩ :=
  .read (.some (s := ⟨[0x56, 0x67, 0x6d, 0x20, 0], 0⟩) 2 (by decide) (by decide)) (by
    show Rd.Ends _ (Rd.ret _) _ _ _
    exact .ret)

end VgmX
