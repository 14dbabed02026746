import Verif.Spec.History
import Verif.Props.Reader
import Verif.Props.State
/-
Properties C10, C11, C56: processing a decoded stream; and the bridge from files to the
histories of Props/State.
-/

namespace VgmX
open Spec

/-! ### From commands to histories -/

/-- What processing returns when the loop over the reader ended as `o` says. -/
def Outcome.result (s : State) : Outcome → Except PyErr State
  | .stop => .ok s
  | .raised e => .error e

theorem history_cons (c : Cmd) (cs : List Cmd) :
    history (c :: cs) = (eventOf c).toList ++ history cs := by
  simp only [history, List.filterMap_cons]
  cases eventOf c <;> rfl

theorem process_ok (cs : List Cmd) (s : State) (hw : ∀ i, Cmd.wait i none ∉ cs) :
    s.process cs = .ok ((history cs).foldl State.step s) := by
  induction cs generalizing s with
  | nil => rfl
  | cons c cs ih =>
    have ih' := fun s => ih s (fun i hi => hw i (List.mem_cons_of_mem _ hi))
    cases c with
    | plain i p => rw [history_cons]; exact ih' s
    | eos i => rw [history_cons]; exact ih' s
    | ym2151 i r v => rw [history_cons]; exact ih' (s.apply r v)
    | wait i n =>
      cases n with
      | none => exact absurd (List.mem_cons_self ..) (hw i)
      | some n => rw [history_cons]; exact ih' (s.beat n)

/-- What the reader yields is a wait with a number, or a write of two bytes, or something
without effect. -/
theorem next_command {s s' : Stream} {c : Cmd} (h : next s = (some (.ok c), s')) :
    ∃ op < 256, ∃ t : Stream, command op t = (.ok c, s') := by
  unfold next at h
  cases hb : (s.read 1) with
  | mk b s1 =>
    rw [hb] at h
    cases b with
    | nil => simp at h
    | cons a r =>
      simp only [Prod.mk.injEq, Option.some.injEq] at h
      exact ⟨a.toNat, a.toNat_lt, s1, by rw [← h.1, ← h.2]⟩

theorem next_no_none {s s' : Stream} {i : Nat} : next s ≠ (some (.ok (.wait i none)), s') := by
  intro h
  obtain ⟨op, hop, t, hc⟩ := next_command h
  have := (c05_waits op hop t s' i none hc).2.2.1
  simp at this

theorem next_bytes {s s' : Stream} {i r v : Nat} (h : next s = (some (.ok (.ym2151 i r v)), s')) :
    r < 256 ∧ v < 256 := by
  obtain ⟨_, _, q, hs, _⟩ := next_progress h
  generalize s.rest = b at hs
  cases b with
  | nil => simp [stepB] at hs
  | cons a t =>
    simp only [stepB, Option.some.injEq] at hs
    cases hk : classify a.toNat with
    | ym =>
      rw [hk] at hs
      match t, hs with
      | [], hs => simp [execB] at hs
      | [_], hs => simp [execB] at hs
      | x :: y :: t', hs =>
        simp only [execB, Prod.mk.injEq, Except.ok.injEq, Cmd.ym2151.injEq] at hs
        obtain ⟨⟨_, rfl, rfl⟩, _⟩ := hs
        exact ⟨x.toNat_lt, y.toNat_lt⟩
    | nop => rw [hk] at hs; simp [execB] at hs
    | fixed n => rw [hk] at hs; simp [execB] at hs
    | eos => rw [hk] at hs; simp [execB] at hs
    | waitc n =>
      rw [hk] at hs
      simp only [execB, mkWait] at hs
      split at hs <;> simp at hs
    | wait16 =>
      rw [hk] at hs
      simp only [execB, mkWait] at hs
      match t, hs with
      | [], hs => simp at hs
      | [_], hs => simp at hs
      | _ :: _ :: _, hs =>
        simp only [Prod.mk.injEq, Except.ok.injEq] at hs
        have h1 := hs.1
        split at h1 <;> simp at h1
    | block =>
      rw [hk] at hs
      simp only [execB] at hs
      split at hs <;> simp at hs
    | ram =>
      rw [hk] at hs
      simp only [execB] at hs
      split at hs <;> simp at hs

theorem runs_no_none {s : Stream} {cs : List Cmd} {o : Outcome} (h : Runs s cs o) :
    ∀ i, Cmd.wait i none ∉ cs := by
  induction h with
  | stop _ => simp
  | raise _ => simp
  | yield hx _ ih =>
    intro i hi
    rcases List.mem_cons.mp hi with rfl | hi
    · exact next_no_none hx
    · exact ih i hi

/-- The histories of files are byte histories, so the theorems of Props/State apply. -/
theorem runs_byteHistory {s : Stream} {cs : List Cmd} {o : Outcome} (h : Runs s cs o) :
    ByteHistory (history cs) := by
  induction h with
  | stop _ => intro e he; simp [history] at he
  | raise _ => intro e he; simp [history] at he
  | @yield s s' c cs o hx _ ih =>
    intro e he
    rw [history, List.filterMap_cons] at he
    cases hc : eventOf c with
    | none => rw [hc] at he; exact ih e he
    | some e' =>
      rw [hc] at he
      rcases List.mem_cons.mp he with rfl | he
      · cases c with
        | ym2151 i r v =>
          simp only [eventOf, Option.some.injEq] at hc
          subst hc
          exact next_bytes hx
        | wait i n =>
          cases n with
          | none => simp [eventOf] at hc
          | some n =>
            simp only [eventOf, Option.some.injEq] at hc
            subst hc
            exact trivial
        | plain i p => simp [eventOf] at hc
        | eos i => simp [eventOf] at hc
      · exact ih e he

theorem processStream_runs {f : Stream} {cs : List Cmd} {o : Outcome} (h : Runs f cs o)
    (fuel : Nat) (hf : f.data.length - f.pos < fuel) (s : State) :
    processStream fuel f s = some (o.result ((history cs).foldl State.step s)) := by
  induction h generalizing fuel s with
  | stop hx =>
    cases fuel with
    | zero => omega
    | succ n => simp only [processStream, hx]; rfl
  | raise hx =>
    cases fuel with
    | zero => omega
    | succ n => simp only [processStream, hx]; rfl
  | @yield f f' c cs o hx hr ih =>
    cases fuel with
    | zero => omega
    | succ n =>
      obtain ⟨p1, p2, p3⟩ := c01_progress _ _ _ hx
      have hn : f'.data.length - f'.pos < n := by rw [p2]; omega
      simp only [processStream, hx]
      cases c with
      | plain i p => rw [history_cons]; exact ih n hn s
      | eos i => rw [history_cons]; exact ih n hn s
      | ym2151 i r v => rw [history_cons]; exact ih n hn (s.apply r v)
      | wait i m =>
        cases m with
        | none => exact absurd hx next_no_none
        | some m => rw [history_cons]; exact ih n hn (s.beat m)

/-- Processing a file: if the loop over the reader ends normally, the state is that after
the history of the commands read; otherwise the exception is passed on. -/
theorem processVgm_runs {f : Stream} {cs : List Cmd} {o : Outcome} (h : Runs f cs o) :
    processVgm f = o.result (run (history cs)) := by
  unfold processVgm
  rw [processStream_runs h _ (by omega)]
  rfl

/-- Every file is processed to a state reached by a byte history, or raises `EOFError` or
`struct.error`. -/
theorem processVgm_total (f : Stream) :
    (∃ h, ByteHistory h ∧ processVgm f = .ok (run h)) ∨ processVgm f = .error .eof ∨
      processVgm f = .error .struct := by
  obtain ⟨cs, o, hr, _⟩ := c01_terminates f
  rw [processVgm_runs hr]
  cases o with
  | stop => exact .inl ⟨_, runs_byteHistory hr, rfl⟩
  | raised e =>
    rcases c04_exceptions f cs e hr with rfl | rfl
    · exact .inr (.inl rfl)
    · exact .inr (.inr rfl)

/-! ### C56 -/

/-- C56. Processing is incremental. -/
theorem c56_append (s : State) (a b : List Cmd) :
    s.process (a ++ b) = match s.process a with
      | .ok s' => s'.process b
      | .error e => .error e := by
  induction a generalizing s with
  | nil => rfl
  | cons c a ih =>
    simp only [List.cons_append, State.process]
    cases s.process1 c with
    | error e => rfl
    | ok s' => exact ih s'

/-- Neither a wait nor a YM2151 write. -/
def Spec.Inert : Cmd → Prop
  | .plain _ _ => True
  | .eos _ => True
  | .wait _ _ => False
  | .ym2151 _ _ _ => False

instance (c : Cmd) : Decidable (Inert c) := by cases c <;> unfold Inert <;> infer_instance

/-- C56. Commands that are neither waits nor YM2151 writes can be dropped anywhere. -/
theorem c56_drop_inert (s : State) (cs : List Cmd) :
    s.process cs = s.process (cs.filter (fun c => decide (¬ Inert c))) := by
  induction cs generalizing s with
  | nil => rfl
  | cons c cs ih =>
    cases c with
    | plain i p => simp only [State.process, State.process1, ih s, List.filter_cons]; simp [Inert]
    | eos i => simp only [State.process, State.process1, ih s, List.filter_cons]; simp [Inert]
    | ym2151 i r v =>
      simp only [State.process, State.process1, List.filter_cons]
      simp [Inert, State.process, State.process1, ih (s.apply r v)]
    | wait i n =>
      cases n with
      | none => simp only [State.process, State.process1, List.filter_cons]
                simp [Inert, State.process, State.process1]
      | some n =>
        simp only [State.process, State.process1, List.filter_cons]
        simp [Inert, State.process, State.process1, ih (s.beat n)]

/-- C56. Adjacent waits can be merged, and a wait split. -/
theorem c56_merge_waits (s : State) (a b : List Cmd) (i j k m n : Nat) :
    s.process (a ++ [.wait i (some m), .wait j (some n)] ++ b) =
      s.process (a ++ [.wait k (some (m + n))] ++ b) := by
  have key : ∀ s : State, s.process ([.wait i (some m), .wait j (some n)] ++ b) =
      s.process ([.wait k (some (m + n))] ++ b) := by
    intro s
    simp only [List.cons_append, List.nil_append, State.process, State.process1, State.beat,
      Nat.add_assoc]
  rw [List.append_assoc, List.append_assoc, c56_append, c56_append s a]
  cases s.process a with
  | error e => rfl
  | ok s' => exact key s'

/-- C56: a zero wait is no wait at all. -/
theorem c56_zero_wait (s : State) (a b : List Cmd) (i : Nat) :
    s.process (a ++ [.wait i (some 0)] ++ b) = s.process (a ++ b) := by
  rw [List.append_assoc, c56_append, c56_append s a]
  cases s.process a with
  | error e => rfl
  | ok s' => rfl

example : State.init.process [.wait 0x61 (some 5), .eos 0x66, .ym2151 0x54 8 0x78, .wait 0x70 (some 1)]
    ≠ .ok State.init := by decide +kernel

/-! ### C11 -/

/-- The wait of an encoded command (opcode followed by its operands). -/
def Spec.encodedWait : Bytes → Nat
  | [] => 0
  | op :: operands => waitOf op.toNat operands

/-- The part of it that a DAC-write-and-wait command (0x80-0x8F) contributes. -/
def Spec.dacWait : Bytes → Nat
  | [] => 0
  | op :: _ => if 0x80 ≤ op.toNat ∧ op.toNat ≤ 0x8F then op.toNat - 0x80 else 0

theorem foldl_samples (h : List Event) (s : State) :
    (h.foldl State.step s).samples = s.samples + time h := by
  induction h generalizing s with
  | nil => simp [time]
  | cons e h ih =>
    rw [List.foldl_cons, ih]
    cases e with
    | wait n => simp [State.step, State.beat, time]; omega
    | write r v =>
      have : (s.step (.write r v)).samples = s.samples := by
        simp only [State.step, State.apply, apply_ite State.samples, State.keyEvent,
          State.updOperator, State.updNote, State.updChannel, ite_self]
      rw [this]
      simp [time]

theorem encodes_wait {c : Cmd} {bs : Bytes} (h : Encodes c bs) :
    time ((eventOf c).toList) + dacWait bs = encodedWait bs := by
  have hplain : ∀ op < 256, isPlainOp op → ∀ w,
      (if 0x80 ≤ op ∧ op ≤ 0x8F then op - 0x80 else 0) = waitOf op w := by
    intro op _ hp w
    unfold isPlainOp at hp
    unfold waitOf
    have e1 : ¬ op = 0x61 := by omega
    have e2 : ¬ op = 0x62 := by omega
    have e3 : ¬ op = 0x63 := by omega
    have e4 : ¬ (0x70 ≤ op ∧ op ≤ 0x7F) := hp.2.2.2.2
    rw [if_neg e1, if_neg e2, if_neg e3, if_neg e4]
  cases h with
  | noOperand op hp h0 => simpa [eventOf, time, dacWait, encodedWait] using hplain _ op.toNat_lt hp _
  | operands op payload hp h0 hl =>
    simpa [eventOf, time, dacWait, encodedWait] using hplain _ op.toNat_lt hp _
  | ym2151 r v => simp [eventOf, time, dacWait, encodedWait, waitOf]
  | wait16 lo hi => simp [eventOf, time, dacWait, encodedWait, waitOf, leValue_eq, leNat]
  | wait735 => simp [eventOf, time, dacWait, encodedWait, waitOf]
  | wait882 => simp [eventOf, time, dacWait, encodedWait, waitOf]
  | waitShort op h1 h2 =>
    simp only [eventOf, Option.toList_some, time, List.map_cons, List.map_nil, List.sum_cons,
      List.sum_nil, dacWait, encodedWait, waitOf]
    rw [if_neg (by omega), if_neg (by omega), if_neg (by omega), if_neg (by omega), if_pos ⟨h1, h2⟩]
    rfl
  | eos => simp [eventOf, time, dacWait, encodedWait, waitOf]
  | block a b s0 s1 s2 s3 p h1 h2 => simp [eventOf, time, dacWait, encodedWait, waitOf]
  | pcmRam ops h1 h2 => simp [eventOf, time, dacWait, encodedWait, waitOf]

/-- C11, exact form. After processing any encoded command sequence the current time plus the
waits of its 0x8n commands is the sum of the waits the format specifies. -/
theorem c11_exact (l : List (Cmd × Bytes)) (henc : ∀ p ∈ l, Encodes p.1 p.2) :
    ∃ s, processVgm ⟨l.flatMap (·.2), 0⟩ = .ok s ∧
      s.samples + (l.map (fun p => dacWait p.2)).sum = (l.map (fun p => encodedWait p.2)).sum := by
  refine ⟨run (history (l.map Prod.fst)), processVgm_runs (c03_round_trip l henc), ?_⟩
  unfold run
  rw [foldl_samples, show State.init.samples = 0 from rfl, Nat.zero_add]
  induction l with
  | nil => rfl
  | cons p l ih =>
    have h1 := encodes_wait (henc p (List.mem_cons_self ..))
    have h2 := ih (fun q hq => henc q (List.mem_cons_of_mem _ hq))
    have h3 : history ((p :: l).map Prod.fst) = (eventOf p.1).toList ++ history (l.map Prod.fst) :=
      history_cons _ _
    rw [h3, time_append]
    simp only [List.map_cons, List.sum_cons]
    omega

/-- C11, for streams without 0x81-0x8F: the current time is the sum of the waits. -/
theorem c11_time_partial (l : List (Cmd × Bytes)) (henc : ∀ p ∈ l, Encodes p.1 p.2)
    (hdac : ∀ p ∈ l, ∀ op ∈ p.2.head?, ¬ (0x81 ≤ op.toNat ∧ op.toNat ≤ 0x8F)) :
    ∃ s, processVgm ⟨l.flatMap (·.2), 0⟩ = .ok s ∧
      s.samples = (l.map (fun p => encodedWait p.2)).sum := by
  obtain ⟨s, h1, h2⟩ := c11_exact l henc
  refine ⟨s, h1, ?_⟩
  have h0 : ∀ p ∈ l, dacWait p.2 = 0 := by
    intro p hp
    have := hdac p hp
    cases hb : p.2 with
    | nil => rfl
    | cons op t =>
      have := this op (by simp [hb])
      simp only [dacWait]
      split
      · omega
      · rfl
  have : (l.map (fun p => dacWait p.2)).sum = 0 := by
    clear h1 h2 hdac henc
    induction l with
    | nil => rfl
    | cons p l ih =>
      rw [List.map_cons, List.sum_cons, h0 p (List.mem_cons_self ..),
        ih (fun q hq => h0 q (List.mem_cons_of_mem _ hq))]
  omega

example : ∃ l : List (Cmd × Bytes), (∀ p ∈ l, Encodes p.1 p.2) ∧
    (∀ p ∈ l, ∀ op ∈ p.2.head?, ¬ (0x81 ≤ op.toNat ∧ op.toNat ≤ 0x8F)) ∧
    (l.map (fun p => encodedWait p.2)).sum = 257 + 735 + 3 := by
  refine ⟨[(.wait 0x61 (some 257), [0x61, 1, 1]), (.wait 0x62 (some 735), [0x62]),
    (.wait 0x72 (some 3), [0x72])], ?_, by decide, by decide⟩
  intro p hp
  simp only [List.mem_cons, List.not_mem_nil, or_false] at hp
  rcases hp with rfl | rfl | rfl
  · exact .wait16 1 1
  · exact .wait735
  · exact .waitShort 0x72 (by decide) (by decide)

/-- C11 is false as stated: 0x82 waits two samples that are not counted. -/
theorem c11_refuted : ∃ (c : Cmd) (bs : Bytes), Encodes c bs ∧ encodedWait bs = 2 ∧
    ∃ s, processVgm ⟨bs, 0⟩ = .ok s ∧ s.samples = 0 :=
  ⟨.plain 0x82 none, [0x82], .noOperand 0x82 (by decide) (by decide), by decide,
    State.init, by decide +kernel, rfl⟩

/-! ### C10 -/

/-- C10, what the bytes after the end command do: they are processed like any others, from
the state reached so far. -/
theorem c10_exact (l : List (Cmd × Bytes)) (henc : ∀ p ∈ l, Encodes p.1 p.2) (trailing : Bytes)
    (cs : List Cmd) (o : Outcome) (ht : Runs ⟨trailing, 0⟩ cs o) :
    processVgm ⟨l.flatMap (·.2) ++ [0x66] ++ trailing, 0⟩ =
      o.result (run (history (l.map (·.1)) ++ history cs)) := by
  have henc' : ∀ p ∈ l ++ [(Cmd.eos 0x66, [0x66])], Encodes p.1 p.2 := by
    intro p hp
    rcases List.mem_append.mp hp with hp | hp
    · exact henc p hp
    · rw [List.mem_singleton] at hp; subst hp; exact .eos
  have h := c03_prefix _ henc' [] trailing cs o ht
  simp only [List.nil_append, List.length_nil, List.flatMap_append, List.flatMap_cons,
    List.flatMap_nil, List.append_nil, List.map_append, List.map_cons, List.map_nil] at h
  rw [processVgm_runs h]
  cases o with
  | raised e => rfl
  | stop =>
    have : history (l.map (·.1) ++ [Cmd.eos 102] ++ cs) = history (l.map (·.1)) ++ history cs := by
      rw [List.append_assoc]
      simp only [history, List.filterMap_append]
      rfl
    rw [this]

/-- C10, what holds: trailing bytes have no effect if they decode to neither waits nor
YM2151 writes, in particular if there are none. -/
theorem c10_trailing_partial (l : List (Cmd × Bytes)) (henc : ∀ p ∈ l, Encodes p.1 p.2)
    (trailing : Bytes) (cs : List Cmd) (ht : Runs ⟨trailing, 0⟩ cs .stop)
    (hin : ∀ c ∈ cs, Inert c) :
    processVgm ⟨l.flatMap (·.2) ++ [0x66] ++ trailing, 0⟩ =
      processVgm ⟨l.flatMap (·.2) ++ [0x66], 0⟩ := by
  have h0 : history cs = [] := by
    rw [history, List.filterMap_eq_nil_iff]
    intro c hc
    have := hin c hc
    cases c <;> first | rfl | exact absurd this (by simp [Inert])
  have h2 := c10_exact l henc [] [] .stop (runs_stop_nil _ rfl)
  rw [List.append_nil] at h2
  rw [c10_exact l henc trailing cs .stop ht, h2, h0]
  rfl

example : Runs ⟨[0x67, 0x66, 0, 1, 0, 0, 0, 0x54, 0x30, 9], 0⟩
    [.plain 0x67 (some [0x54]), .plain 0x30 (some [9])] .stop :=
  (runs_iff_iter _ 11 _ _ (by decide)).mp (by decide +kernel)

/-- C10 is false as stated: bytes after the end command add a note. -/
theorem c10_note_refuted : ∃ (before trailing : Bytes) (s t : State),
    processVgm ⟨before ++ [0x66], 0⟩ = .ok s ∧
    processVgm ⟨before ++ [0x66] ++ trailing, 0⟩ = .ok t ∧
    s.keyPressesOf 0 = [] ∧ (t.keyPressesOf 0).length = 1 ∧ t.configs.length = 1 := by
  refine ⟨[], [0x61, 1, 0, 0x54, 8, 0x78], State.init, run [.wait 1, .write 8 0x78], ?_, ?_, ?_, ?_, ?_⟩ <;>
    decide +kernel

/-- C10 is false as stated: a GD3 tag or any other data after the end command can make the
extraction fail. -/
theorem c10_crash_refuted : ∃ (before trailing : Bytes) (s : State),
    processVgm ⟨before ++ [0x66], 0⟩ = .ok s ∧
    processVgm ⟨before ++ [0x66] ++ trailing, 0⟩ = .error .eof := by
  refine ⟨[0x70], [0x54], State.init.beat 1, ?_, ?_⟩ <;> decide +kernel

end VgmX
