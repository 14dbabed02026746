import Verif.Model.Changing
import Verif.Props.Io
import Verif.Props.Short
import Verif.Props.Size
/-
C103: the input changes while it is read.
-/

namespace VgmX
open Spec

variable {α : Type}

theorem mainIo_rounds (env : Env) (vgm : Str) (instr track : Option Str) (ticks : Option Int)
    (w : World) : mainIo env vgm instr track ticks w =
      mainRounds (((w.fs vgm).getD []).length + (env.inflate ((w.fs vgm).getD [])).1.length + 1)
        env vgm instr track ticks w := by
  unfold mainIo mainRounds
  rw [openFile_rb]
  cases env.openErr vgm false with
  | some e => rfl
  | none =>
    cases hf : w.fs vgm with
    | none => rfl
    | some c =>
      dsimp only
      rw [hf]
      rfl

/-! ### Inversion -/

theorem seen_ret {a a' : α} {d : Bytes} (h : (Io.ret a).Seen d a') : d = [] ∧ a' = a := by
  cases h; exact ⟨rfl, rfl⟩

theorem seen_read {n : Nat} {err : PyErr → α} {k : Bytes → Io α} {d : Bytes} {a : α}
    (h : (Io.read n err k).Seen d a) :
    (∃ e, a = err e ∧ d = []) ∨ ∃ b d', d = b ++ d' ∧ b.length ≤ n ∧ (k b).Seen d' a := by
  cases h with
  | read h1 h2 => exact .inr ⟨_, _, rfl, h1, h2⟩
  | readRaised e => exact .inl ⟨e, rfl, rfl⟩

theorem seen_seek {p : Nat} {err : PyErr → α} {k : Io α} {d : Bytes} {a : α}
    (h : (Io.seek p err k).Seen d a) : (∃ e, a = err e) ∨ k.Seen d a := by
  cases h with
  | seek h => exact .inr h
  | seekRaised e => exact .inl ⟨e, rfl⟩

theorem seen_switch {g : Bytes → FStream} {k : Io α} {d : Bytes} {a : α}
    (h : (Io.switch g k).Seen d a) : k.Seen d a := by
  cases h with
  | switch h => exact h

theorem seen_print {err : PyErr → α} {k : Io α} {d : Bytes} {a : α}
    (h : (Io.print err k).Seen d a) : k.Seen d a := by
  cases h with
  | print h => exact h

theorem seen_readLe {n : Nat} {err : PyErr → α} {k : Nat → Io α} {d : Bytes} {a : α}
    (h : (readLeIo n err k).Seen d a) :
    (∃ e, a = err e) ∨ ∃ b d', d = b ++ d' ∧ b.length = n ∧ (k (leNat b)).Seen d' a := by
  rcases seen_read h with ⟨e, rfl, _⟩ | ⟨b, d', rfl, h1, h2⟩
  · exact .inl ⟨e, rfl⟩
  · split at h2
    · exact .inl ⟨_, (seen_ret h2).2⟩
    · exact .inr ⟨b, d', rfl, by omega, h2⟩

theorem seen_readBcd {err : PyErr → α} {k : Nat → Io α} {d : Bytes} {a : α}
    (h : (readBcdIo err k).Seen d a) :
    (∃ e, a = err e) ∨ ∃ b d', d = b ++ d' ∧ b.length = 4 ∧ (k (bcdValue b)).Seen d' a := by
  rcases seen_read h with ⟨e, rfl, _⟩ | ⟨b, d', rfl, h1, h2⟩
  · exact .inl ⟨e, rfl⟩
  · split at h2
    · exact .inl ⟨_, (seen_ret h2).2⟩
    · exact .inr ⟨b, d', rfl, by omega, h2⟩

/-! ### Commands -/

/-- `commandIo` by kind of command. -/
def execIo (cmdId : Nat) (err : PyErr → α) (k : Cmd → Io α) : Kind → Io α
  | .nop => k (.plain cmdId none)
  | .fixed n => plainIo cmdId n err k
  | .ym => readLeIo 1 err (fun reg => readLeIo 1 err (fun value => k (.ym2151 cmdId reg value)))
  | .wait16 => readLeIo 2 err (fun n => k (mkWait cmdId (some n)))
  | .waitc n => k (mkWait cmdId n)
  | .eos => k (.eos cmdId)
  | .block =>
    .read 6 err (fun buffer =>
      if buffer.length ≠ 6 then .ret (err .struct)
      else plainIo cmdId (leNat (buffer.drop 2)) err k)
  | .ram =>
    .read 11 err (fun buffer =>
      if buffer.length ≠ 11 then .ret (err .struct)
      else
        let ssB := leNat ((buffer.drop 8).take 1)
        let ssH := leNat ((buffer.drop 9).take 2)
        plainIo cmdId (ssH * 256 + ssB) err k)

theorem commandIo_eq (op : Nat) (err : PyErr → α) (k : Cmd → Io α) :
    commandIo op err k = execIo op err k (classify op) := by
  unfold classify
  simp only [apply_ite (execIo op err k)]
  rfl

theorem seen_plain {id n : Nat} {err : PyErr → α} {k : Cmd → Io α} {d : Bytes} {a : α}
    (h : (plainIo id n err k).Seen d a) :
    (∃ e, a = err e) ∨ ∃ b d', d = b ++ d' ∧ (k (.plain id (some b))).Seen d' a := by
  rcases seen_read h with ⟨e, rfl, _⟩ | ⟨b, d', rfl, _, h2⟩
  · exact .inl ⟨e, rfl⟩
  · exact .inr ⟨b, d', rfl, h2⟩

/-- One command: an exception, or a command made of the bytes that were read. -/
theorem seen_command (op : UInt8) {err : PyErr → α} {k : Cmd → Io α} {d : Bytes} {a : α}
    (h : (commandIo op.toNat err k).Seen d a) :
    (∃ e, a = err e) ∨ ∃ blk c d', d = blk ++ d' ∧ Says (op :: blk) c ∧ (k c).Seen d' a := by
  rw [commandIo_eq] at h
  have hlt : op.toNat < 256 := by simpa using op.toNat_lt
  rcases kind_cases op.toNat hlt with ⟨hk, hp⟩ | ⟨n, _, hk, hp⟩ | ⟨ho, hk⟩ | ⟨ho, hk⟩ | ⟨ho, hk⟩ |
    ⟨ho, hk⟩ | ⟨ho1, ho2, hk⟩ | ⟨ho, hk⟩ | ⟨ho, hk⟩ | ⟨ho, hk⟩ <;> rw [hk] at h <;>
    simp only [execIo] at h
  · exact .inr ⟨[], _, d, rfl, Says.plain op [] none (.inl hp) (fun _ => rfl), h⟩
  · rcases seen_plain h with ⟨e, rfl⟩ | ⟨b, d', rfl, h'⟩
    · exact .inl ⟨e, rfl⟩
    · exact .inr ⟨b, _, d', rfl, Says.plain op [] (some b) (.inl hp) (fun _ => rfl), h'⟩
  · rcases seen_readLe h with ⟨e, rfl⟩ | ⟨b, d', rfl, h1, h⟩
    · exact .inl ⟨e, rfl⟩
    rcases seen_readLe h with ⟨e, rfl⟩ | ⟨b', d', rfl, h1', h⟩
    · exact .inl ⟨e, rfl⟩
    obtain ⟨u, rfl⟩ := List.length_eq_one_iff.mp h1
    obtain ⟨v, rfl⟩ := List.length_eq_one_iff.mp h1'
    have hop := toNat_byte op _ ho
    subst hop
    exact .inr ⟨[u, v], _, d', rfl, Says.ym2151 u v, by simpa [leNat] using h⟩
  · rcases seen_readLe h with ⟨e, rfl⟩ | ⟨b, d', rfl, h1, h⟩
    · exact .inl ⟨e, rfl⟩
    obtain ⟨u, v, rfl⟩ := List.length_eq_two.mp h1
    have hop := toNat_byte op _ ho
    subst hop
    exact .inr ⟨[u, v], _, d', rfl, Says.wait16 u v, by simpa [leNat, mkWait] using h⟩
  · have hop := toNat_byte op _ ho
    subst hop
    exact .inr ⟨[], _, d, rfl, Says.wait735, h⟩
  · have hop := toNat_byte op _ ho
    subst hop
    exact .inr ⟨[], _, d, rfl, Says.wait882, h⟩
  · have e1 : op.toNat / 16 = 7 := by omega
    have e2 : op.toNat % 16 + 1 = op.toNat - 0x70 + 1 := by omega
    rw [mkWait, if_pos e1, e2] at h
    exact .inr ⟨[], _, d, rfl, Says.waitShort op ho1 ho2, h⟩
  · have hop := toNat_byte op _ ho
    subst hop
    exact .inr ⟨[], _, d, rfl, Says.eos, h⟩
  · rcases seen_read h with ⟨e, rfl, _⟩ | ⟨b, d', rfl, _, h⟩
    · exact .inl ⟨e, rfl⟩
    split at h
    · exact .inl ⟨_, (seen_ret h).2⟩
    rcases seen_plain h with ⟨e, rfl⟩ | ⟨b', d', rfl, h'⟩
    · exact .inl ⟨e, rfl⟩
    · refine .inr ⟨b ++ b', _, d', by simp, Says.plain op b (some b')
        (.inr (.inl (toNat_byte op _ ho))) ?_, h'⟩
      intro hp
      exact absurd hp (by rw [ho]; decide)
  · rcases seen_read h with ⟨e, rfl, _⟩ | ⟨b, d', rfl, _, h⟩
    · exact .inl ⟨e, rfl⟩
    split at h
    · exact .inl ⟨_, (seen_ret h).2⟩
    rcases seen_plain h with ⟨e, rfl⟩ | ⟨b', d', rfl, h'⟩
    · exact .inl ⟨e, rfl⟩
    · refine .inr ⟨b ++ b', _, d', by simp, Says.plain op b (some b')
        (.inr (.inr (toNat_byte op _ ho))) ?_, h'⟩
      intro hp
      exact absurd hp (by rw [ho]; decide)

theorem says_process1 {blk : Bytes} {c : Cmd} (h : Says blk c) (s : State) :
    s.process1 c = .ok ((history [c]).foldl State.step s) := by
  cases h <;> rfl

/-- The loop: an exception, or the state after the commands that the bytes read are made of. -/
theorem seen_process {err : PyErr → α} {k : State → Io α} {a : α} (fuel : Nat) :
    ∀ (s : State) (d : Bytes), (processIo err k fuel s).Seen d a →
    (∃ e, a = err e) ∨ ∃ parts cs d', d = parts.flatten ++ d' ∧ List.Forall₂ Says parts cs ∧
      (k ((history cs).foldl State.step s)).Seen d' a := by
  induction fuel with
  | zero => intro s d h; exact .inl ⟨_, (seen_ret h).2⟩
  | succ n ih =>
    intro s d h
    unfold processIo at h
    rcases seen_read h with ⟨e, rfl, _⟩ | ⟨b, d', rfl, h1, h⟩
    · exact .inl ⟨e, rfl⟩
    rcases b with _ | ⟨op, b⟩
    · exact .inr ⟨[], [], d', rfl, .nil, h⟩
    have : b = [] := List.length_eq_zero_iff.mp (by simp at h1; simp [h1])
    subst this
    rcases seen_command op h with ⟨e, rfl⟩ | ⟨blk, c, d', rfl, h2, h⟩
    · exact .inl ⟨e, rfl⟩
    rw [says_process1 h2] at h
    rcases ih _ _ h with ⟨e, rfl⟩ | ⟨parts, cs, d', rfl, h3, h⟩
    · exact .inl ⟨e, rfl⟩
    · refine .inr ⟨(op :: blk) :: parts, c :: cs, d', by simp, .cons h2 h3, ?_⟩
      have : history (c :: cs) = history [c] ++ history cs := by
        rw [← List.singleton_append]; exact List.filterMap_append
      rw [this, List.foldl_append]
      exact h

/-! ### The header -/

theorem seen_init {clocks : Clocks} {err : PyErr → Clocks → α} {k : Clocks → Io α} {d : Bytes}
    {a : α} (h : (initIo clocks err k).Seen d a) :
    (∃ e c, a = err e c) ∨ ∃ c pre d', d = pre ++ d' ∧ (k c).Seen d' a := by
  unfold initIo at h
  rcases seen_readLe h with ⟨e, rfl⟩ | ⟨b1, d, rfl, _, h⟩
  · exact .inl ⟨e, _, rfl⟩
  rcases seen_readBcd h with ⟨e, rfl⟩ | ⟨b2, d, rfl, _, h⟩
  · exact .inl ⟨e, _, rfl⟩
  rcases seen_readLe h with ⟨e, rfl⟩ | ⟨b3, d, rfl, _, h⟩
  · exact .inl ⟨e, _, rfl⟩
  rcases seen_readLe h with ⟨e, rfl⟩ | ⟨b4, d, rfl, _, h⟩
  · exact .inl ⟨e, _, rfl⟩
  rcases seen_seek h with ⟨e, rfl⟩ | h
  · exact .inl ⟨e, _, rfl⟩
  rcases seen_readLe h with ⟨e, rfl⟩ | ⟨b5, d, rfl, _, h⟩
  · exact .inl ⟨e, _, rfl⟩
  dsimp only at h
  split at h
  · rcases seen_readLe h with ⟨e, rfl⟩ | ⟨b6, d, rfl, _, h⟩
    · exact .inl ⟨e, _, rfl⟩
    rcases seen_seek h with ⟨e, rfl⟩ | h
    · exact .inl ⟨e, _, rfl⟩
    exact .inr ⟨_, b1 ++ b2 ++ b3 ++ b4 ++ b5 ++ b6, d, by simp, h⟩
  · rcases seen_seek h with ⟨e, rfl⟩ | h
    · exact .inl ⟨e, _, rfl⟩
    exact .inr ⟨_, b1 ++ b2 ++ b3 ++ b4 ++ b5, d, by simp, h⟩

theorem seen_reader {inflate : Bytes → Bytes × Option PyErr} {clocks : Clocks}
    {err : PyErr → Clocks → α} {none : α} {k : Clocks → Io α} {d : Bytes} {a : α}
    (h : (readerIo inflate clocks err none k).Seen d a) :
    a = none ∨ (∃ e c, a = err e c) ∨ ∃ c pre d', d = pre ++ d' ∧ (k c).Seen d' a := by
  have fin : ∀ {header d}, (finishIo clocks err none k header).Seen d a →
      a = none ∨ (∃ e c, a = err e c) ∨ ∃ c pre d', d = pre ++ d' ∧ (k c).Seen d' a := by
    intro header d h
    unfold finishIo at h
    split at h
    · exact .inl (seen_ret h).2
    · exact .inr (seen_init h)
  change Io.Seen (.read 4 (err · clocks) (fun header =>
    if header.take 2 = [0x1f, 0x8b] then
      .seek 0 (err · clocks)
        (.switch (fun c => ⟨(inflate c).1, 0, (inflate c).2⟩)
          (.read 4 (err · clocks) (finishIo clocks err none k)))
    else finishIo clocks err none k header)) _ a at h
  rcases seen_read h with ⟨e, rfl, _⟩ | ⟨b, d, rfl, _, h⟩
  · exact .inr (.inl ⟨e, _, rfl⟩)
  split at h
  · rcases seen_seek h with ⟨e, rfl⟩ | h
    · exact .inr (.inl ⟨e, _, rfl⟩)
    rcases seen_read (seen_switch h) with ⟨e, rfl, _⟩ | ⟨b', d, rfl, _, h⟩
    · exact .inr (.inl ⟨e, _, rfl⟩)
    rcases fin h with h | h | ⟨c, pre, d', rfl, h'⟩
    · exact .inl h
    · exact .inr (.inl h)
    · exact .inr (.inr ⟨c, b ++ b' ++ pre, d', by simp, h'⟩)
  · rcases fin h with h | h | ⟨c, pre, d', rfl, h'⟩
    · exact .inl h
    · exact .inr (.inl h)
    · exact .inr (.inr ⟨c, b ++ pre, d', by simp, h'⟩)

/-! ### Behind the last read -/

/-- The program reads no more. -/
inductive Io.NoReads : Io α → Prop
  | ret {a} : NoReads (.ret a)
  | print {err k} : NoReads k → NoReads (.print err k)

theorem seen_noReads {p : Io α} (hp : p.NoReads) {d : Bytes} {a : α} (h : p.Seen d a)
    (f : FStream) : d = [] ∧ a = p.run f := by
  induction hp with
  | ret => exact seen_ret h
  | print _ ih => exact ih (seen_print h)

theorem tracks_noReads (env : Env) (track : Option Str) (s : State) (t : Int) (x : Res) :
    (tracksIo env track s t x).NoReads := by
  obtain ⟨r, w⟩ := x
  cases r with
  | error e => exact .ret
  | ok u =>
    rcases track with _ | _ | ⟨c, cs⟩
    · exact .ret
    · exact .ret
    · exact .print .ret

theorem outputs_noReads (env : Env) (instr track : Option Str) (s : State) (t : Int) (w : World) :
    (outputsIo env instr track s t w).NoReads := by
  unfold outputsIo
  split
  · unfold extractInstrumentsIo
    refine .print ?_
    cases instrumentsJs s with
    | error e => exact .ret
    | ok js =>
      dsimp only
      split
      · exact tracks_noReads env track s t _
      · exact .print (.print (tracks_noReads env track s t _))
  · exact tracks_noReads env track s t _

theorem ticks_noReads (ticks : Option Int) (s : State) (w : World) (k : Int → World → Io Res)
    (hk : ∀ t w, (k t w).NoReads) : (ticksIo ticks s w k).NoReads := by
  unfold ticksIo
  have e0 : ∀ p : Str, (Io.print (fun e => ((.error e, w) : Res))
      (.print (fun e => (.error e, w.print p))
      (match s.ticksPerNote with
      | .error e => .ret (.error e, (w.print p).print s.ticksReport)
      | .ok n => k n ((w.print p).print s.ticksReport)))).NoReads := by
    intro p
    refine .print (.print ?_)
    cases s.ticksPerNote with
    | error e => exact .ret
    | ok n => exact hk _ _
  have e1 := e0 "Calculating Ticks Per Note".toList
  clear e0
  revert e1
  generalize "Calculating Ticks Per Note".toList = p
  generalize s.ticksReport = rep
  generalize s.ticksPerNote = n
  intro e1
  cases ticks with
  | none => exact e1
  | some t =>
    dsimp only
    by_cases h : t ≠ 0
    · rw [if_pos h]; exact hk _ _
    · rw [if_neg h]; exact e1

theorem seen_map {p : Io α} (g : α → α) {d : Bytes} {a : α} (h : (p.map g).Seen d a) :
    ∃ a', a = g a' ∧ p.Seen d a' := by
  induction p generalizing d with
  | ret a' =>
    obtain ⟨rfl, rfl⟩ := seen_ret h
    exact ⟨a', rfl, .ret⟩
  | read n err k ih =>
    rcases seen_read h with ⟨e, rfl, rfl⟩ | ⟨b, d', rfl, h1, h⟩
    · exact ⟨err e, rfl, .readRaised e⟩
    · obtain ⟨a', rfl, h'⟩ := ih b h
      exact ⟨a', rfl, .read h1 h'⟩
  | seek p err k ih =>
    cases h with
    | seek h =>
      obtain ⟨a', rfl, h'⟩ := ih h
      exact ⟨a', rfl, .seek h'⟩
    | seekRaised e => exact ⟨err e, rfl, .seekRaised e⟩
  | switch g' k ih =>
    obtain ⟨a', rfl, h'⟩ := ih (seen_switch h)
    exact ⟨a', rfl, .switch h'⟩
  | print err k ih =>
    obtain ⟨a', rfl, h'⟩ := ih (seen_print h)
    exact ⟨a', rfl, .print h'⟩

theorem Io.Seen.map {p : Io α} (g : α → α) {d : Bytes} {a : α} (h : p.Seen d a) :
    (p.map g).Seen d (g a) := by
  induction h with
  | ret => exact .ret
  | read h _ ih => exact .read h ih
  | @readRaised n err k e => exact Io.Seen.readRaised (err := fun e => g (err e)) e
  | seek _ ih => exact .seek ih
  | @seekRaised p err k e => exact Io.Seen.seekRaised (err := fun e => g (err e)) e
  | switch _ ih => exact .switch ih
  | print _ ih => exact .print ih

/-! ### A file that does not change -/

/-- The parts that mean something to the extractor. -/
def meaningful : List Bytes → List Cmd → List (Bytes × Cmd)
  | p :: ps, c :: cs => if (eventOf c).isSome then (p, c) :: meaningful ps cs else meaningful ps cs
  | _, _ => []

theorem meaningful_history : ∀ {parts : List Bytes} {cs : List Cmd}, List.Forall₂ Says parts cs →
    history ((meaningful parts cs).map Prod.snd) = history cs
  | _, _, .nil => rfl
  | _, _, .cons (a := p) (b := c) h hs => by
    have ih := meaningful_history hs
    unfold meaningful
    rw [history_cons]
    cases he : eventOf c with
    | none => simpa [he] using ih
    | some e =>
      simp only [Option.isSome_some, if_true, List.map_cons, history_cons, he, ih]

theorem meaningful_runs : ∀ {parts : List Bytes} {cs : List Cmd}, List.Forall₂ Says parts cs →
    ∀ s : Stream, s.rest = ((meaningful parts cs).map Prod.fst).flatten →
    Runs s ((meaningful parts cs).map Prod.snd) .stop
  | _, _, .nil, s, hs => runs_stop_nil s hs
  | _, _, .cons (a := p) (b := c) (l₁ := ps) (l₂ := cs) h hr, s, hs => by
    have ih := meaningful_runs hr
    unfold meaningful at hs ⊢
    by_cases he : (eventOf c).isSome = true
    · rw [if_pos he] at hs ⊢
      simp only [List.map_cons, List.flatten_cons] at hs ⊢
      obtain ⟨s', h1, h2⟩ := runs_stepB (s := s) (c := c)
          (r := ((meaningful ps cs).map Prod.fst).flatten) (by
        rw [hs]
        cases h with
        | ym2151 r v => simp [stepB, classify, execB]
        | wait16 u v => simp [stepB, classify, execB, mkWait]
        | wait735 => simp [stepB, classify, execB, mkWait]
        | wait882 => simp [stepB, classify, execB, mkWait]
        | waitShort op h1 h2 =>
          have e1 : op.toNat / 16 = 7 := by omega
          have e2 : op.toNat % 16 + 1 = op.toNat - 0x70 + 1 := by omega
          have hc : classify op.toNat = .waitc none := by
            rcases kind_cases op.toNat (by omega) with ⟨hk, hp⟩ | ⟨n, _, hk, hp⟩ | ⟨ho, hk⟩ |
              ⟨ho, hk⟩ | ⟨ho, hk⟩ | ⟨ho, hk⟩ | ⟨_, _, hk⟩ | ⟨ho, hk⟩ | ⟨ho, hk⟩ | ⟨ho, hk⟩
            · unfold isPlainOp at hp; omega
            · unfold isPlainOp at hp; omega
            all_goals first | exact hk | omega
          simp [stepB, hc, execB, mkWait, e1, e2]
        | eos => simp [eventOf] at he
        | plain => simp [eventOf] at he)
      exact .yield h1 (ih s' h2)
    · rw [if_neg he] at hs ⊢
      exact ih s hs

/-- A file that says exactly what the bytes read said. -/
def asFile (parts : List Bytes) (cs : List Cmd) : Bytes :=
  sampleHeader ++ ((meaningful parts cs).map Prod.fst).flatten

theorem asFile_readable (gunzip : Bytes → Except PyErr Bytes) {parts : List Bytes} {cs : List Cmd}
    (h : List.Forall₂ Says parts cs) :
    Readable gunzip (asFile parts cs) ((meaningful parts cs).map Prod.snd) := by
  have hl : sampleHeader.length = 0x40 := by decide +kernel
  have ht : ∀ n ≤ 0x40, (asFile parts cs).take n = sampleHeader.take n := by
    intro n hn
    unfold asFile
    rw [List.take_append_of_le_length (by omega)]
  have hv : version (asFile parts cs) = 151 := by
    have hb : ∀ i < 0x40, byteAt (asFile parts cs) i = byteAt sampleHeader i := by
      intro i hi
      unfold byteAt asFile
      rw [List.getD_eq_getElem?_getD, List.getD_eq_getElem?_getD,
        List.getElem?_append_left (by omega)]
    unfold version
    rw [hb 11 (by decide), hb 10 (by decide), hb 9 (by decide), hb 8 (by decide)]
    decide +kernel
  have hw : word (asFile parts cs) 0x34 = 12 := by
    unfold word asFile
    rw [List.drop_append_of_le_length (by rw [hl]; decide), List.take_append_of_le_length (by
      rw [List.length_drop, hl]; decide)]
    decide +kernel
  have hd : dataStart (asFile parts cs) = 0x40 := by
    unfold dataStart; rw [hv, hw]; rfl
  refine ⟨asFile parts cs, .inl ⟨?_, rfl⟩, ?_, ?_, ?_⟩
  · rw [ht 2 (by decide)]; decide +kernel
  · rw [ht 4 (by decide)]; decide +kernel
  · unfold headerLen
    rw [hv]
    unfold asFile
    rw [List.length_append, hl]
    simp only [Nat.reduceLeDiff, if_true]
    omega
  · refine meaningful_runs h _ ?_
    rw [hd]
    show (asFile parts cs).drop 0x40 = _
    unfold asFile
    rw [← hl, List.drop_left]

/-- The program behind the last read. -/
theorem tail_meets (env : Env) (instr track : Option Str) (ticks : Option Int) (s : State)
    (w : World) (t : Int) {out : Str} (hmt : mainTicks env ticks s w = (.ok t, w.print out))
    (f : FStream) :
    Meets (fun _ _ _ => True) (ticksIo ticks s w (fun t w =>
      .print (fun e => (.error e, w)) (outputsIo env instr track s t
        (w.print ("Ticks per Note: ".toList ++ intStr t ++ ['\n']))))) f
      (mainOutputs env instr track s t ((w.print out).print
        ("Ticks per Note: ".toList ++ intStr t ++ ['\n']))) :=
  ticks_meets (env := env) (fun _ _ _ _ _ => trivial) (fun e w' h => by rw [hmt] at h; cases h)
    (fun t2 w' h => by
      rw [hmt] at h
      cases h
      exact .print (fun _ => trivial) (outputs_meets.weaken (fun _ _ _ _ => trivial)))

theorem agree_of_did {x a : Res} {w : World} {vgm : Str} {content : Bytes}
    {r : Except PyErr Unit} {ups : List (Str × Bytes)} {out : Str}
    (hx : Did x { w with fs := setFile w.fs vgm content } r ups out) (h1 : a.1 = r)
    (h2 : a.2.stdout = w.stdout ++ out) (h3 : a.2.fs = writeFiles w.fs ups) :
    a.1 = x.1 ∧ a.2.stdout = x.2.stdout ∧ ∀ name, name ≠ vgm → a.2.fs name = x.2.fs name := by
  refine ⟨h1.trans hx.result.symm, h2.trans hx.stdout.symm, fun name hne => ?_⟩
  rw [h3, hx.fs]
  refine writeFiles_agree _ _ _ _ (.inl ?_)
  simp [setFile, hne]

/-! ### The property -/

/-- C103. However the input changes while it is read: either `main` raises and no file has
changed; or there is a VGM file, not compressed and not changing, that would have given exactly
this: the same end, the same text printed, and the same content of every other file. Its register
writes and waits are, in order, those that the bytes read were made of: behind the header (`pre`),
the bytes read are cut into the commands. -/
theorem c103_program (rounds : Nat) (env : Env) (vgm : Str) (instr track : Option Str)
    (ticks : Option Int) (w : World) (hn : Proper vgm) (d : Bytes) (a : Res)
    (h : (mainRounds rounds env vgm instr track ticks w).Seen d a) :
    (∃ e, a.1 = .error e ∧ a.2.fs = w.fs) ∨
    ∃ content cs pre parts cs',
      Readable env.gunzip content cs ∧ content.take 2 ≠ gzipMagic ∧
      d = pre ++ parts.flatten ∧ List.Forall₂ Says parts cs' ∧ history cs = history cs' ∧
      let x := main env (some vgm) instr track ticks { w with fs := setFile w.fs vgm content }
      a.1 = x.1 ∧ a.2.stdout = x.2.stdout ∧ ∀ name, name ≠ vgm → a.2.fs name = x.2.fs name := by
  unfold mainRounds at h
  rw [openFile_rb] at h
  cases ho : env.openErr vgm false with
  | some e =>
    rw [ho] at h
    obtain ⟨_, rfl⟩ := seen_ret h
    exact .inl ⟨e, rfl, rfl⟩
  | none =>
    cases hf : w.fs vgm with
    | none =>
      rw [ho, hf] at h
      obtain ⟨_, rfl⟩ := seen_ret h
      exact .inl ⟨_, rfl, rfl⟩
    | some old =>
      rw [ho, hf] at h
      dsimp only at h
      obtain ⟨a, rfl, h'⟩ := seen_map _ h
      clear h
      rename' h' => h
      rw [hf] at h
      dsimp only [Option.getD_some] at h
      unfold bodyRounds at h
      cases ha : env.argsFile with
      | none =>
        rw [ha] at h
        obtain ⟨_, rfl⟩ := seen_ret h
        exact .inl ⟨_, rfl, rfl⟩
      | some af =>
        rw [ha] at h
        dsimp only at h
        replace h := seen_switch (seen_print h)
        rcases seen_reader h with rfl | ⟨e, c, rfl⟩ | ⟨clocks, pre, d', hd, h⟩
        · exact .inl ⟨_, rfl, rfl⟩
        · exact .inl ⟨_, rfl, rfl⟩
        rcases seen_process _ _ _ h with ⟨e, rfl⟩ | ⟨parts, cs', d'', hd', h3, h'⟩
        · exact .inl ⟨_, rfl, rfl⟩
        clear h
        have hr := asFile_readable env.gunzip h3
        have hh := meaningful_history h3
        have hz : (asFile parts cs').take 2 ≠ gzipMagic := by
          unfold asFile
          rw [List.take_append_of_le_length (by decide +kernel)]
          decide +kernel
        obtain ⟨hb, t, text, ht, htext, hall⟩ := main_readable env vgm instr track ticks _ _ af hn
          ho ha hr
        specialize hall { w with fs := setFile w.fs vgm (asFile parts cs') } (setFile_self _ _ _)
        rw [hh] at hb ht htext hall
        obtain ⟨js, hj, htext'⟩ := instruments_js (history cs') hb
        have htx : text = js ++ ['\n'] := by rw [htext] at htext'; exact Except.ok.inj htext'
        subst htx
        obtain ⟨tr, m, _, hdo⟩ := outputs_does env instr track (run (history cs')) t js hj
        obtain ⟨hnil, hres⟩ := seen_noReads (ticks_noReads _ _ _ _ (fun t w =>
          .print (outputs_noReads _ _ _ _ _ _))) h' ⟨[], 0, none⟩
        clear h'
        generalize hw1 : World.print _ ("Opening file: ".toList ++ af ++ ['\n']) = w1 at hres
        obtain ⟨t', ht', hmt⟩ := mainTicks_spec env ticks (history cs') hb { w1 with clocks := clocks }
        have htt := ticksInUse_unique ht ht'
        subst htt
        have hm := (tail_meets env instr track ticks _ _ t hmt ⟨[], 0, none⟩).run
        have hres' := hres.trans hm
        refine .inr ⟨asFile parts cs', _, pre, parts, cs', hr, hz, by rw [hd, hd', hnil]; simp, h3,
          hh, ?_⟩
        rw [hdo] at hres'
        subst hres' hw1
        generalize bothEffect (instrEffect env instr (js ++ ['\n']))
          (trackEffect env track (exportXrns (run (history cs')) t)) = e at hall ⊢
        refine agree_of_did hall rfl ?_ rfl
        unfold preamble
        clear hres hm hmt h hdo hall
        generalize ticksOutput env ticks (run (history cs')) = out
        generalize "Opening file: ".toList = s1
        generalize "Ticks per Note: ".toList = s2
        simp only [World.close, World.print, List.append_assoc]

/-- C103. A file that does not change is among the possibilities: every way `main` can end without
a refusal is one of them. -/
theorem c103_static {p : Io α} {f : FStream} {a : α} (h : p.Ends f a none) : ∃ d, p.Seen d a := by
  generalize ho : (none : Option (Refused × PyErr)) = o at h
  induction h with
  | ret => exact ⟨[], .ret⟩
  | @read n err k f b f' a o hr _ ih =>
    obtain ⟨d, hd⟩ := ih ho
    exact ⟨b ++ d, .read (by
      have hb : ∀ x, (f.read n).1 = .ok x → x.length ≤ n := by
        intro x hx
        unfold FStream.read at hx
        dsimp only at hx
        split at hx
        · cases hx; exact List.length_take_le ..
        · split at hx
          · cases hx; exact List.length_take_le ..
          · cases hx
      exact hb b (by rw [hr])) hd⟩
  | damaged _ => exact ⟨[], .readRaised _⟩
  | readRefused e => cases ho
  | seek _ _ ih => obtain ⟨d, hd⟩ := ih ho; exact ⟨d, .seek hd⟩
  | seekDamaged _ => exact ⟨[], .seekRaised _⟩
  | seekRefused e => cases ho
  | switch _ ih => obtain ⟨d, hd⟩ := ih ho; exact ⟨d, .switch hd⟩
  | print _ ih => obtain ⟨d, hd⟩ := ih ho; exact ⟨d, .print hd⟩
  | printRefused e => cases ho

/-- C103, the converse. Whatever is in the file when it is opened: it may be replaced by any other
VGM file at once, and then `main` does what it does on that one. (So the ways to end are exactly
those of files that do not change, and exceptions.) -/
theorem c103_any (env : Env) (vgm : Str) (instr track : Option Str) (ticks : Option Int)
    (w : World) (hn : Proper vgm) (old content : Bytes) (cs : List Cmd) (hf : w.fs vgm = some old)
    (ho : env.openErr vgm false = none) (ha : env.argsFile ≠ none)
    (hr : Readable env.gunzip content cs) :
    ∃ rounds d a, (mainRounds rounds env vgm instr track ticks w).Seen d a ∧
      let x := main env (some vgm) instr track ticks { w with fs := setFile w.fs vgm content }
      a.1 = x.1 ∧ a.2.stdout = x.2.stdout ∧ ∀ name, name ≠ vgm → a.2.fs name = x.2.fs name := by
  obtain ⟨af, ha⟩ := Option.ne_none_iff_exists'.mp ha
  obtain ⟨hb, t, text, ht, htext, hall⟩ := main_readable env vgm instr track ticks _ _ af hn ho ha hr
  specialize hall { w with fs := setFile w.fs vgm content } (setFile_self _ _ _)
  obtain ⟨js, hj, htext'⟩ := instruments_js (history cs) hb
  have htx : text = js ++ ['\n'] := by rw [htext] at htext'; exact Except.ok.inj htext'
  subst htx
  obtain ⟨tr, m, _, hdo⟩ := outputs_does env instr track (run (history cs)) t js hj
  let w1 : World := { w with
      trace := w.trace ++ [.opened w.nextId vgm ['r', 'b']]
      nextId := w.nextId + 1 }
  let w2 : World := w1.print ("Opening file: ".toList ++ af ++ ['\n'])
  obtain ⟨_, v, k, h1, h2⟩ := input_readable w2.clocks hr
  obtain ⟨t', ht', hmt⟩ := mainTicks_spec env ticks (history cs) hb { w2 with clocks := k }
  have htt := ticksInUse_unique ht ht'
  subst htt
  let rounds := content.length + (env.inflate content).1.length + 1
  have hm : Meets (fun _ _ _ => True)
      (readerIo env.inflate w2.clocks (fun e c => (.error e, { w2 with clocks := c }))
        (.error .type, w2)
        (fun clocks =>
          processIo (fun e => (.error e, { w2 with clocks := clocks }))
            (fun s => ticksIo ticks s { w2 with clocks := clocks } (fun t w =>
              .print (fun e => (.error e, w))
                (outputsIo env instr track s t
                  (w.print ("Ticks per Note: ".toList ++ intStr t ++ ['\n'])))))
            rounds State.init)) ⟨content, 0, none⟩
      (mainOutputs env instr track (run (history cs)) t
        (({ w2 with clocks := k }.print (ticksOutput env ticks (run (history cs)))).print
          ("Ticks per Note: ".toList ++ intStr t ++ ['\n']))) := by
    refine reader_meets (fun _ _ => trivial) (fun e c h => ?_) (fun h => ?_) (fun v' c h hl => ?_)
    · rw [h1] at h; cases h
    · rw [h1] at h; cases h
    · rw [h1] at h
      cases h
      refine process_meets (fun _ => trivial) _ _ _ _
        (fprocessStream_enough _ _ (by omega)) (fun e he => ?_) (fun s f' hs => ?_)
      · rw [h2] at he; cases he
      · rw [h2] at hs
        cases hs
        exact tail_meets env instr track ticks _ _ t hmt f'
  have he := Io.ends_run (readerIo env.inflate w2.clocks
      (fun e c => (.error e, { w2 with clocks := c })) (.error .type, w2)
        (fun clocks =>
          processIo (fun e => (.error e, { w2 with clocks := clocks }))
            (fun s => ticksIo ticks s { w2 with clocks := clocks } (fun t w =>
              .print (fun e => (.error e, w))
                (outputsIo env instr track s t
                  (w.print ("Ticks per Note: ".toList ++ intStr t ++ ['\n'])))))
            rounds State.init)) ⟨content, 0, none⟩
  rw [hm.run] at he
  obtain ⟨d, hd⟩ := c103_static he
  clear he hm
  generalize hR : mainOutputs _ _ _ _ _ _ = R at hd
  refine ⟨rounds, d, (R.1, R.2.close (.file w.nextId vgm)), ?_, ?_⟩
  · unfold mainRounds
    rw [openFile_rb, ho, hf]
    refine Io.Seen.map (a := R) (fun x => (x.1, x.2.close (.file w.nextId vgm))) ?_
    unfold bodyRounds
    rw [ha]
    exact .print (.switch hd)
  · rw [hdo] at hR
    subst hR
    refine agree_of_did hall rfl ?_ rfl
    clear hmt h1 hd hall hdo
    unfold preamble
    generalize bothEffect _ _ = e
    generalize ticksOutput env ticks (run (history cs)) = out
    simp only [w2, w1, World.close, World.print]
    generalize "Opening file: ".toList = s1
    generalize "Ticks per Note: ".toList = s2
    simp only [List.append_assoc]

/-- A file with one register write; a version of it with another; and what may be read if it is
replaced meanwhile: the register of the one with the value of the other. -/
def oldFile : Bytes := sampleHeader ++ [0x54, 0x08, 0x00]
def newFile : Bytes := sampleHeader ++ [0x54, 0x20, 0x78]
def mixedFile : Bytes := sampleHeader ++ [0x54, 0x08, 0x78]

/-- C103, the limit. If the file changes while it is read, then the result may be that of neither
version: here a key press that is in none of them, although every byte is from the old or the new
version, at its place. -/
theorem c103_mixture :
    ∃ (old new mixed : Bytes) (cs cs' cs'' : List Cmd),
      old.length = new.length ∧ mixed.length = old.length ∧
      (∀ i : Nat, mixed[i]? = old[i]? ∨ mixed[i]? = new[i]?) ∧
      (∀ gunzip, Readable gunzip old cs ∧ Readable gunzip new cs' ∧ Readable gunzip mixed cs'') ∧
      Event.write 8 0x78 ∈ history cs'' ∧ Event.write 8 0x78 ∉ history cs ∧
      Event.write 8 0x78 ∉ history cs' := by
  have hread : ∀ r v : UInt8, ∀ gunzip, Readable gunzip (sampleHeader ++ [0x54, r, v])
      [.ym2151 0x54 r.toNat v.toNat] := fun r v gunzip => by
    have := asFile_readable gunzip (parts := [[0x54, r, v]]) (.cons (Says.ym2151 r v) .nil)
    simpa [asFile, meaningful, eventOf] using this
  refine ⟨oldFile, newFile, mixedFile, [.ym2151 0x54 8 0], [.ym2151 0x54 0x20 0x78],
    [.ym2151 0x54 8 0x78], by decide +kernel, by decide +kernel, ?_,
    fun gunzip => ⟨hread 8 0 _, hread 0x20 0x78 _, hread 8 0x78 _⟩,
    by decide, by decide, by decide⟩
  intro i
  by_cases hi : i < sampleHeader.length + 2
  · left
    have e : ∀ v : UInt8, sampleHeader ++ [0x54, 0x08, v] = (sampleHeader ++ [0x54, 0x08]) ++ [v] :=
      fun v => by simp
    unfold mixedFile oldFile
    have hl : i < (sampleHeader ++ [0x54, 0x08]).length := by
      rw [List.length_append]; exact hi
    rw [e, e, List.getElem?_append_left hl, List.getElem?_append_left hl]
  · right
    unfold mixedFile newFile
    have h1 : sampleHeader.length ≤ i := by omega
    rw [List.getElem?_append_right h1, List.getElem?_append_right h1]
    obtain ⟨j, hj⟩ : ∃ j, i - sampleHeader.length = j + 2 := ⟨i - sampleHeader.length - 2, by omega⟩
    rw [hj]
    rfl

/-- The hypotheses of C103 are met: the file was `oldFile`, is replaced by `sampleFile`, and both
outputs are written. -/
example : ∃ rounds d a, (mainRounds rounds sampleEnv "in.vgm".toList (some "i".toList)
      (some "t".toList) (some 50)
      { sampleWorld with fs := setFile sampleWorld.fs "in.vgm".toList oldFile }).Seen d a ∧
    a.1 = .ok () := by
  have hrun := sample_runs.1
  have hfs : setFile (setFile sampleWorld.fs "in.vgm".toList oldFile) "in.vgm".toList sampleFile
      = sampleWorld.fs := by
    unfold sampleWorld
    generalize "in.vgm".toList = nm
    funext n
    by_cases hn : n = nm <;> simp [setFile, hn]
  have hp : Proper "in.vgm".toList := by decide +kernel
  generalize "in.vgm".toList = nm at *
  obtain ⟨rounds, d, a, h, h1, _⟩ := c103_any sampleEnv nm (some "i".toList) (some "t".toList)
    (some 50) { sampleWorld with fs := setFile sampleWorld.fs nm oldFile } hp
    oldFile sampleFile sampleCmds (by show setFile _ _ _ _ = _; exact setFile_self _ _ _) rfl
    (by simp [sampleEnv]) (sample_readable _)
  refine ⟨rounds, d, a, h, h1.trans ?_⟩
  have : ({ sampleWorld with
      fs := setFile (setFile sampleWorld.fs nm oldFile) nm sampleFile } : World) = sampleWorld := by
    rw [hfs]
  exact (congrArg (fun w => (main sampleEnv (some nm) (some "i".toList) (some "t".toList) (some 50)
    w).1) this).trans hrun

end VgmX
