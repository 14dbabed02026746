import Verif.Lemmas.Reader
/-
Properties C01-C05 of the command reader. Vocabulary: Spec/Vgm.lean and the loop semantics
`Runs`, `Yields` of Model/Reader.lean.
-/

namespace VgmX
open Spec

/-! ### C01 -/

theorem next_progress {s s' : Stream} {x} (h : next s = (some x, s')) :
    s'.data = s.data ∧ s.pos < s'.pos ∧ ∃ r, stepB s.rest = some (x, r) ∧ s'.rest = r := by
  obtain ⟨h1, h2⟩ := next_stepB s
  cases hs : stepB s.rest with
  | none => have h' := h1 hs; rw [h] at h'; simp at h'
  | some p =>
    obtain ⟨y, r⟩ := p
    obtain ⟨a, b, c, d⟩ := h2 y r hs
    rw [h] at a b c d
    simp at a
    subst a
    exact ⟨c, d, r, rfl, b⟩

theorem next_stop {s s' : Stream} (h : next s = (none, s')) : s.rest = [] := by
  cases hr : s.rest with
  | nil => rfl
  | cons a t =>
    obtain ⟨_, h2⟩ := next_stepB s
    have := (h2 _ _ (by rw [hr]; rfl)).1
    rw [h] at this
    simp at this

theorem rest_length (s : Stream) : s.rest.length = s.data.length - s.pos := by
  simp [Stream.rest]

/-- C01. Every command consumes at least one byte. -/
theorem c01_progress (s s' : Stream) (c : Cmd) (h : next s = (some (.ok c), s')) :
    s.pos < s'.pos ∧ s'.data = s.data ∧ s.pos < s.data.length := by
  obtain ⟨h1, h2, r, h3, _⟩ := next_progress h
  refine ⟨h2, h1, ?_⟩
  have := stepB_length h3
  rw [rest_length] at this
  omega

theorem runs_exists (s : Stream) : ∃ cs o, Runs s cs o ∧ cs.length ≤ s.data.length - s.pos := by
  induction hn : s.data.length - s.pos using Nat.strongRecOn generalizing s with
  | _ n ih =>
    cases hx : next s with
    | mk a s' =>
      cases a with
      | none => exact ⟨[], .stop, .stop hx, by simp⟩
      | some x =>
        cases x with
        | error e => exact ⟨[], .raised e, .raise hx, by simp⟩
        | ok c =>
          obtain ⟨h1, h2, h3⟩ := c01_progress s s' c hx
          obtain ⟨cs, o, hr, hl⟩ := ih (s'.data.length - s'.pos) (by rw [h2]; omega) s' rfl
          refine ⟨c :: cs, o, .yield hx hr, ?_⟩
          rw [h2] at hl
          simp only [List.length_cons]
          omega

theorem runs_unique {s : Stream} {cs cs' : List Cmd} {o o' : Outcome} (h : Runs s cs o)
    (h' : Runs s cs' o') : cs' = cs ∧ o' = o := by
  induction h generalizing cs' o' with
  | stop hx =>
    cases h' with
    | stop hy => exact ⟨rfl, rfl⟩
    | raise hy => rw [hx] at hy; simp at hy
    | yield hy _ => rw [hx] at hy; simp at hy
  | raise hx =>
    cases h' with
    | stop hy => rw [hx] at hy; simp at hy
    | raise hy => rw [hx] at hy; simp at hy; simp [hy]
    | yield hy _ => rw [hx] at hy; simp at hy
  | yield hx _ ih =>
    cases h' with
    | stop hy => rw [hx] at hy; simp at hy
    | raise hy => rw [hx] at hy; simp at hy
    | yield hy hr =>
      rw [hx] at hy
      simp at hy
      obtain ⟨rfl, rfl⟩ := hy
      obtain ⟨rfl, rfl⟩ := ih hr
      exact ⟨rfl, rfl⟩

/-- C01. For every content and position the `for` loop ends, in exactly one way, after at
most as many commands as there are bytes left. -/
theorem c01_terminates (s : Stream) :
    ∃ cs o, Runs s cs o ∧ cs.length ≤ s.data.length - s.pos ∧
      ∀ cs' o', Runs s cs' o' → cs' = cs ∧ o' = o := by
  obtain ⟨cs, o, h, hl⟩ := runs_exists s
  exact ⟨cs, o, h, hl, fun cs' o' h' => runs_unique h h'⟩

theorem runs_iff_iter (s : Stream) (fuel : Nat) (cs : List Cmd) (o : Outcome)
    (hf : s.data.length - s.pos < fuel) : iter fuel s = some (cs, o) ↔ Runs s cs o := by
  have key : ∀ fuel s, s.data.length - s.pos < fuel → ∃ cs o, iter fuel s = some (cs, o) ∧
      Runs s cs o := by
    intro fuel
    induction fuel with
    | zero => intro s h; omega
    | succ n ih =>
      intro s h
      unfold iter
      cases hx : next s with
      | mk a s' =>
        cases a with
        | none => exact ⟨_, _, rfl, .stop hx⟩
        | some x =>
          cases x with
          | error e => exact ⟨_, _, rfl, .raise hx⟩
          | ok c =>
            obtain ⟨h1, h2, h3⟩ := c01_progress s s' c hx
            obtain ⟨cs, o, hi, hr⟩ := ih s' (by rw [h2]; omega)
            exact ⟨c :: cs, o, by simp [hi], .yield hx hr⟩
  obtain ⟨cs', o', hi, hr⟩ := key fuel s hf
  rw [hi]
  constructor
  · intro h; cases h; exact hr
  · intro h
    obtain ⟨rfl, rfl⟩ := runs_unique hr h
    rfl

example : iter 9 ⟨[0x54, 8, 0x78, 0x70, 0x66], 0⟩
    = some ([.ym2151 0x54 8 0x78, .wait 0x70 (some 1), .eos 0x66], .stop) := by decide +kernel

/-! ### Runs on the remaining bytes -/

theorem runs_stop_nil (s : Stream) (h : s.rest = []) : Runs s [] .stop := by
  obtain ⟨h1, _⟩ := next_stepB s
  have : (next s).1 = none := h1 (by rw [h]; rfl)
  exact .stop (s' := (next s).2) (by rw [← this])

theorem next_of_stepB {s : Stream} {x r} (h : stepB s.rest = some (x, r)) :
    ∃ s', next s = (some x, s') ∧ s'.rest = r ∧ s'.data = s.data := by
  obtain ⟨_, h2⟩ := next_stepB s
  obtain ⟨a, b, c, _⟩ := h2 x r h
  exact ⟨(next s).2, by rw [← a], b, c⟩

/-- What the loop does depends on the remaining bytes only. -/
theorem runs_of_rest {s t : Stream} {cs o} (h : Runs s cs o) (hr : t.rest = s.rest) :
    Runs t cs o := by
  induction h generalizing t with
  | stop hx => exact runs_stop_nil t (by rw [hr, next_stop hx])
  | raise hx =>
    obtain ⟨_, _, r, h3, _⟩ := next_progress hx
    rw [← hr] at h3
    obtain ⟨s', hn, _, _⟩ := next_of_stepB h3
    exact .raise hn
  | yield hx _ ih =>
    obtain ⟨_, _, r, h3, h4⟩ := next_progress hx
    rw [← hr] at h3
    obtain ⟨s', hn, hs', _⟩ := next_of_stepB h3
    exact .yield hn (ih (by rw [hs', h4]))

/-! ### C02 -/

set_option synthInstance.maxSize 1000 in
theorem classify_cases : ∀ op < 256, op ≠ 0x67 → op ≠ 0x68 →
    (classify op = .nop ∧ fixedLen op = 0) ∨ classify op = .fixed (fixedLen op) ∨
    (op = 0x54 ∧ classify op = .ym ∧ fixedLen op = 2) ∨
    (op = 0x61 ∧ classify op = .wait16 ∧ fixedLen op = 2) ∨
    (op = 0x62 ∧ classify op = .waitc (some 735) ∧ fixedLen op = 0) ∨
    (op = 0x63 ∧ classify op = .waitc (some 882) ∧ fixedLen op = 0) ∨
    (0x70 ≤ op ∧ op ≤ 0x7F ∧ classify op = .waitc none ∧ fixedLen op = 0) ∨
    (op = 0x66 ∧ classify op = .eos ∧ fixedLen op = 0) := by decide +kernel

theorem read_full (s : Stream) (n : Nat) (h : n ≤ s.data.length - s.pos) :
    s.read n = (s.rest.take n, { s with pos := s.pos + n }) := by
  have : min n (s.data.length - s.pos) = n := by omega
  simp [Stream.read, Stream.rest, this]

theorem mkWait_id (op : Nat) (n : Option Nat) : (mkWait op n).id = op := by
  unfold mkWait
  split <;> rfl

/-- C02, fixed-length commands: when its operands are present, a command other than 0x67
and 0x68 consumes exactly the number of operand bytes the format assigns to its opcode. -/
theorem c02_framing_partial (op : Nat) (hop : op < 256) (h67 : op ≠ 0x67) (h68 : op ≠ 0x68)
    (s : Stream) (hlen : fixedLen op ≤ s.data.length - s.pos) :
    ∃ c, command op s = (.ok c, { s with pos := s.pos + fixedLen op }) ∧ c.id = op := by
  rw [command_eq_exec]
  rcases classify_cases op hop h67 h68 with ⟨hk, hl⟩ | hk | ⟨rfl, hk, hl⟩ | ⟨rfl, hk, hl⟩ |
    ⟨_, hk, hl⟩ | ⟨_, hk, hl⟩ | ⟨_, _, hk, hl⟩ | ⟨_, hk, hl⟩ <;> rw [hk]
  · exact ⟨_, by rw [hl]; rfl, rfl⟩
  · refine ⟨.plain op (some (s.rest.take (fixedLen op))), ?_, rfl⟩
    simp only [exec, plainRead, read_full s _ hlen]
  · rw [hl] at hlen ⊢
    have h1 : s.rest.length = s.data.length - s.pos := rest_length s
    simp only [exec, read8, read_full s 1 (by omega)]
    have e1 : (List.take 1 s.rest).length = 1 := by simp; omega
    rw [if_neg (by omega)]
    simp only
    rw [read_full _ 1 (by simp; omega)]
    have e2 : (List.take 1 (Stream.rest { s with pos := s.pos + 1 })).length = 1 := by
      simp [rest_length]; omega
    simp only
    rw [if_neg (by omega)]
    exact ⟨_, rfl, rfl⟩
  · rw [hl] at hlen ⊢
    simp only [exec, read16, read_full s 2 hlen]
    have e1 : (List.take 2 s.rest).length = 2 := by simp [rest_length]; omega
    rw [if_neg (by omega)]
    exact ⟨_, rfl, mkWait_id _ _⟩
  · exact ⟨_, by rw [hl]; rfl, mkWait_id _ _⟩
  · exact ⟨_, by rw [hl]; rfl, mkWait_id _ _⟩
  · exact ⟨_, by rw [hl]; rfl, mkWait_id _ _⟩
  · exact ⟨_, by rw [hl]; rfl, rfl⟩

example : command 0xE0 ⟨[0xE0, 1, 2, 3, 4, 0x66], 1⟩
    = (.ok (.plain 0xE0 (some [1, 2, 3, 4])), ⟨[0xE0, 1, 2, 3, 4, 0x66], 5⟩) ∧
    fixedLen 0xE0 = 4 := by decide +kernel

/-- C02, data blocks: exact consumption of 0x67, whose 32-bit size field is taken whole. -/
theorem c02_block_exact (s : Stream) (hlen : 6 + leValue ((s.rest.drop 2).take 4) ≤ s.data.length - s.pos) :
    command 0x67 s = (.ok (.plain 0x67 (some ((s.rest.drop 6).take (leValue ((s.rest.drop 2).take 4))))),
      { s with pos := s.pos + (6 + leValue ((s.rest.drop 2).take 4)) }) := by
  rw [leValue_eq] at hlen ⊢
  rw [command_eq_exec]
  have hk : classify 0x67 = .block := by decide
  rw [hk]
  simp only [exec, read_full s 6 (by omega)]
  have e1 : (List.take 6 s.rest).length = 6 := by simp [rest_length]; omega
  rw [if_neg (by omega)]
  have e2 : (s.rest.take 6).drop 2 = (s.rest.drop 2).take 4 := by rw [List.drop_take]
  rw [e2, plainRead, read_full _ _ (by simp only; omega)]
  simp [Stream.rest, Nat.add_assoc]

/-- C02, data blocks: if bit 31 of the size field is clear, a 0x67 command consumes its
header and exactly the block that the format says. -/
theorem c02_block_partial (s : Stream)
    (hbit : leValue ((s.rest.drop 2).take 4) < 2 ^ 31)
    (hlen : 6 + blockSize s.rest ≤ s.data.length - s.pos) :
    ∃ c, command 0x67 s = (.ok c, { s with pos := s.pos + (6 + blockSize s.rest) }) := by
  have hb : blockSize s.rest = leValue ((s.rest.drop 2).take 4) := Nat.mod_eq_of_lt hbit
  rw [hb] at hlen ⊢
  exact ⟨_, c02_block_exact s hlen⟩

example : leValue (((Stream.rest ⟨[0x66, 0, 2, 0, 0, 0, 7, 8, 9], 0⟩).drop 2).take 4) < 2 ^ 31 ∧
    blockSize (Stream.rest ⟨[0x66, 0, 2, 0, 0, 0, 7, 8, 9], 0⟩) = 2 := by decide +kernel

/-- C02 is false for a block with the dual-chip bit: a block of one byte swallows the whole
rest of the file. -/
theorem c02_dual_chip_refuted : ∃ s : Stream, 6 + blockSize s.rest ≤ s.data.length - s.pos ∧
    (command 0x67 s).2.pos ≠ s.pos + (6 + blockSize s.rest) :=
  ⟨⟨[0x66, 0, 1, 0, 0, 0x80, 7, 0x70], 0⟩, by decide +kernel, by decide +kernel⟩

/-- C02, 0x68: exact consumption. The reader takes the eleven operand bytes and then as
many further bytes as the size field says, which are not part of the command. -/
theorem c02_pcm_ram_exact (s : Stream) (hlen : 11 ≤ s.data.length - s.pos) :
    (command 0x68 s).2.pos = s.pos + 11 +
      min (leValue ((s.rest.drop 8).take 3)) (s.data.length - (s.pos + 11)) := by
  rw [leValue_eq]
  rw [command_eq_exec]
  have hk : classify 0x68 = .ram := by decide
  rw [hk]
  simp only [exec, read_full s 11 (by omega)]
  have e1 : (List.take 11 s.rest).length = 11 := by simp [rest_length]; omega
  rw [if_neg (by omega)]
  simp only [plainRead, read_pos, rest_length]
  have hl : 11 ≤ s.rest.length := by rw [rest_length]; exact hlen
  have e3 : leNat (((s.rest.take 11).drop 9).take 2) * 256 + leNat (((s.rest.take 11).drop 8).take 1)
      = leNat ((s.rest.drop 8).take 3) := by
    generalize s.rest = r at hl
    match r, hl with
    | a0 :: a1 :: a2 :: a3 :: a4 :: a5 :: a6 :: a7 :: a8 :: a9 :: a10 :: t, _ =>
      simp [leNat]; omega
  rw [e3]

/-- C02 for 0x68: framing is right iff the size field is 0 or no byte follows. -/
theorem c02_pcm_ram_partial (s : Stream) (hlen : fixedLen 0x68 ≤ s.data.length - s.pos) :
    (command 0x68 s).2.pos = s.pos + fixedLen 0x68 ↔
      leValue ((s.rest.drop 8).take 3) = 0 ∨ s.data.length = s.pos + 11 := by
  have hf : fixedLen 0x68 = 11 := by decide +kernel
  rw [hf] at hlen ⊢
  rw [c02_pcm_ram_exact s hlen]
  omega

/-- C02 is false for 0x68 with a non-zero size: the wait after it is swallowed. -/
theorem c02_pcm_ram_write_refuted : ∃ s : Stream, fixedLen 0x68 ≤ s.data.length - s.pos ∧
    (command 0x68 s).2.pos ≠ s.pos + fixedLen 0x68 :=
  ⟨⟨[0x66, 0, 0, 0, 0, 0, 0, 0, 1, 0, 0, 0x70], 0⟩, by decide +kernel, by decide +kernel⟩

/-! ### C03 -/

theorem plain_classify : ∀ op < 256, isPlainOp op →
    classify op = if fixedLen op = 0 then .nop else .fixed (fixedLen op) := by decide +kernel

theorem waitShort_classify : ∀ op < 256, 0x70 ≤ op → op ≤ 0x7F → classify op = .waitc none ∧
    op / 16 = 7 ∧ op % 16 + 1 = op - 0x70 + 1 := by decide +kernel

theorem stepB_encodes {c : Cmd} {bs : Bytes} (h : Encodes c bs) (r : Bytes) :
    stepB (bs ++ r) = some (.ok c, r) := by
  cases h with
  | noOperand op hp h0 =>
    have := plain_classify op.toNat op.toNat_lt hp
    rw [if_pos h0] at this
    simp [stepB, this, execB]
  | operands op payload hp h0 hl =>
    have := plain_classify op.toNat op.toNat_lt hp
    rw [if_neg (by omega)] at this
    simp [stepB, this, execB, ← hl]
  | ym2151 reg value =>
    have : classify (0x54 : UInt8).toNat = .ym := by decide
    simp only [List.cons_append, List.nil_append, stepB, this, execB]; rfl
  | wait16 lo hi =>
    have : classify (0x61 : UInt8).toNat = .wait16 := by decide
    simp only [List.cons_append, List.nil_append, stepB, this, execB]; rfl
  | wait735 =>
    have : classify (0x62 : UInt8).toNat = .waitc (some 735) := by decide
    simp only [List.cons_append, List.nil_append, stepB, this, execB]; rfl
  | wait882 =>
    have : classify (0x63 : UInt8).toNat = .waitc (some 882) := by decide
    simp only [List.cons_append, List.nil_append, stepB, this, execB]; rfl
  | waitShort op h1 h2 =>
    obtain ⟨h3, h4, h5⟩ := waitShort_classify op.toNat op.toNat_lt h1 h2
    simp [stepB, h3, execB, mkWait, h4, h5]
  | eos =>
    have : classify (0x66 : UInt8).toNat = .eos := by decide
    simp only [List.cons_append, List.nil_append, stepB, this, execB]; rfl
  | block compat tt s0 s1 s2 s3 payload hs hl =>
    have : classify (0x67 : UInt8).toNat = .block := by decide
    have hsz : leNat [s0, s1, s2, s3] = payload.length := by simp [leNat]; omega
    simp only [List.cons_append, stepB, this, execB]
    rw [if_neg (by simp)]
    simp [hsz]
  | pcmRam operands hl h0 =>
    have : classify (0x68 : UInt8).toNat = .ram := by decide
    match operands, hl with
    | [a0, a1, a2, a3, a4, a5, a6, a7, a8, a9, a10], _ =>
      simp at h0
      obtain ⟨rfl, rfl, rfl⟩ := h0
      simp only [List.cons_append, List.nil_append, stepB, this, execB]
      rw [if_neg (by simp)]
      simp [leNat]

/-- C03. Decoding an encoded command list yields exactly these commands and goes on with
whatever follows, at any position in a file. -/
theorem c03_prefix (l : List (Cmd × Bytes)) (henc : ∀ p ∈ l, Encodes p.1 p.2)
    (pre after : Bytes) (cs : List Cmd) (o : Outcome) (h : Runs ⟨after, 0⟩ cs o) :
    Runs ⟨pre ++ (l.flatMap (·.2) ++ after), pre.length⟩ (l.map (·.1) ++ cs) o := by
  have key : ∀ (l : List (Cmd × Bytes)), (∀ p ∈ l, Encodes p.1 p.2) → ∀ t : Stream,
      t.rest = l.flatMap (·.2) ++ after → Runs t (l.map (·.1) ++ cs) o := by
    intro l
    induction l with
    | nil =>
      intro _ t ht
      exact runs_of_rest h (by simpa [Stream.rest] using ht)
    | cons p l ih =>
      intro henc t ht
      have hs := stepB_encodes (henc p (by simp)) (l.flatMap (·.2) ++ after)
      have : t.rest = p.2 ++ (l.flatMap (·.2) ++ after) := by rw [ht]; simp
      rw [← this] at hs
      obtain ⟨s', hn, hr, _⟩ := next_of_stepB hs
      exact .yield hn (ih (fun q hq => henc q (by simp [hq])) s' hr)
  exact key l henc _ (by simp [Stream.rest])

/-- C03. The round trip: decoding the encoding of a command list yields the list and stops. -/
theorem c03_round_trip (l : List (Cmd × Bytes)) (henc : ∀ p ∈ l, Encodes p.1 p.2) :
    Runs ⟨l.flatMap (·.2), 0⟩ (l.map (·.1)) .stop := by
  have := c03_prefix l henc [] [] [] .stop (runs_stop_nil _ rfl)
  simpa using this

/-- C03. Encodings are uniquely decodable. -/
theorem c03_injective (l m : List (Cmd × Bytes)) (hl : ∀ p ∈ l, Encodes p.1 p.2)
    (hm : ∀ p ∈ m, Encodes p.1 p.2) (h : l.flatMap (·.2) = m.flatMap (·.2)) :
    l.map (·.1) = m.map (·.1) := by
  have h1 := c03_round_trip l hl
  have h2 := c03_round_trip m hm
  rw [h] at h1
  exact (runs_unique h2 h1).1

example : ∀ p ∈ [(Cmd.ym2151 0x54 8 0x78, ([0x54, 8, 0x78] : Bytes)),
    (.plain 0x67 (some [1, 2]), [0x67, 0x66, 0, 2, 0, 0, 0, 1, 2]),
    (.plain 0xC5 (some [1, 2, 3]), [0xC5, 1, 2, 3]), (.eos 0x66, [0x66])],
    Encodes p.1 p.2 := by
  intro p hp
  simp only [List.mem_cons, List.not_mem_nil, or_false] at hp
  rcases hp with rfl | rfl | rfl | rfl
  · exact Encodes.ym2151 8 0x78
  · exact Encodes.block 0x66 0 2 0 0 0 [1, 2] (by decide) (by decide)
  · exact Encodes.operands 0xC5 [1, 2, 3] (by decide) (by decide +kernel) (by decide +kernel)
  · exact Encodes.eos

/-! ### C04 -/

theorem classify_inv : ∀ op < 256,
    (classify op = .ym ↔ op = 0x54) ∧ (classify op = .wait16 ↔ op = 0x61) ∧
    (classify op = .block ↔ op = 0x67) ∧ (classify op = .ram ↔ op = 0x68) := by decide +kernel

theorem stepB_error (b r : Bytes) (e : PyErr) (h : stepB b = some (.error e, r)) :
    Truncated b e := by
  cases b with
  | nil => simp [stepB] at h
  | cons a t =>
    simp only [stepB, Option.some.injEq] at h
    obtain ⟨i1, i2, i3, i4⟩ := classify_inv a.toNat a.toNat_lt
    have hu : ∀ n : UInt8, a.toNat = n.toNat → a = n := fun n h => UInt8.toNat.inj h
    cases hk : classify a.toNat with
    | nop => rw [hk] at h; simp [execB] at h
    | fixed n => rw [hk] at h; simp [execB] at h
    | waitc n => rw [hk] at h; simp [execB] at h
    | eos => rw [hk] at h; simp [execB] at h
    | ym =>
      rw [hk] at h
      have := hu 0x54 (i1.mp hk); subst this
      match t with
      | [] => simp [execB] at h; rw [← h.1]; exact .ym2151 _ (by simp)
      | [_] => simp [execB] at h; rw [← h.1]; exact .ym2151 _ (by simp)
      | _ :: _ :: _ => simp [execB] at h
    | wait16 =>
      rw [hk] at h
      have := hu 0x61 (i2.mp hk); subst this
      match t with
      | [] => simp [execB] at h; rw [← h.1]; exact .wait _ (by simp)
      | [_] => simp [execB] at h; rw [← h.1]; exact .wait _ (by simp)
      | _ :: _ :: _ => simp [execB] at h
    | block =>
      rw [hk] at h
      have := hu 0x67 (i3.mp hk); subst this
      simp only [execB] at h
      by_cases hl : t.length < 6
      · rw [if_pos hl] at h; simp at h; rw [← h.1]; exact .block _ hl
      · rw [if_neg hl] at h; simp at h
    | ram =>
      rw [hk] at h
      have := hu 0x68 (i4.mp hk); subst this
      simp only [execB] at h
      by_cases hl : t.length < 11
      · rw [if_pos hl] at h; simp at h; rw [← h.1]; exact .pcmRam _ hl
      · rw [if_neg hl] at h; simp at h

theorem stepB_truncated (b : Bytes) (e : PyErr) (h : Truncated b e) :
    ∃ r, stepB b = some (.error e, r) := by
  cases h with
  | ym2151 t hl =>
    have hk : classify (0x54 : UInt8).toNat = .ym := by decide
    match t, hl with
    | [], _ => exact ⟨[], by simp only [stepB, hk, execB]⟩
    | [_], _ => exact ⟨[], by simp only [stepB, hk, execB]⟩
  | wait t hl =>
    have hk : classify (0x61 : UInt8).toNat = .wait16 := by decide
    match t, hl with
    | [], _ => exact ⟨[], by simp only [stepB, hk, execB]⟩
    | [_], _ => exact ⟨[], by simp only [stepB, hk, execB]⟩
  | block t hl =>
    have hk : classify (0x67 : UInt8).toNat = .block := by decide
    exact ⟨[], by simp only [stepB, hk, execB]; rw [if_pos hl]⟩
  | pcmRam t hl =>
    have hk : classify (0x68 : UInt8).toNat = .ram := by decide
    exact ⟨[], by simp only [stepB, hk, execB]; rw [if_pos hl]⟩

/-- C04. The loop raises after yielding `cs` iff the bytes that remain then are a truncated
YM2151 write, 0x61 wait, or 0x67/0x68 header; which also determines the exception. -/
theorem c04_raises_iff (s : Stream) (cs : List Cmd) (e : PyErr) :
    Runs s cs (.raised e) ↔ ∃ s', Yields s cs s' ∧ Truncated (s'.data.drop s'.pos) e := by
  constructor
  · intro h
    generalize ho : Outcome.raised e = o at h
    induction h with
    | stop hx => simp at ho
    | raise hx =>
      cases ho
      obtain ⟨_, _, r, h3, _⟩ := next_progress hx
      exact ⟨_, .nil, stepB_error _ r _ h3⟩
    | yield hx _ ih =>
      obtain ⟨s', hy, ht⟩ := ih ho
      exact ⟨s', .cons hx hy, ht⟩
  · rintro ⟨s', hy, ht⟩
    induction hy with
    | nil =>
      obtain ⟨r, hr⟩ := stepB_truncated _ _ ht
      obtain ⟨s'', hn, _, _⟩ := next_of_stepB (s := _) hr
      exact .raise hn
    | cons hx _ ih => exact .yield hx (ih ht)

/-- C04. No other exceptions than EOFError and struct.error. -/
theorem c04_exceptions (s : Stream) (cs : List Cmd) (e : PyErr) (h : Runs s cs (.raised e)) :
    e = .eof ∨ e = .struct := by
  obtain ⟨s', _, ht⟩ := (c04_raises_iff s cs e).mp h
  generalize s'.data.drop s'.pos = b at ht
  cases ht <;> simp

example : Runs ⟨[0x70, 0x54, 8], 0⟩ [.wait 0x70 (some 1)] (.raised .eof) :=
  (runs_iff_iter _ 4 _ _ (by decide)).mp (by decide +kernel)

/-- `c` is `c'` with its payload cut short. -/
def ShortPayload (c c' : Cmd) : Prop :=
  ∃ id b b', c = .plain id (some b) ∧ c' = .plain id (some b') ∧ b <+: b'

theorem take_take_drop (r : Bytes) (n m : Nat) :
    (r.take m).drop n = (r.drop n).take (m - n) := by
  rw [List.drop_take]

theorem fixed_cut (id : Nat) (n m : Nat) (t : Bytes) :
    (∃ k, execB id (t.take m) (.fixed n) = (.ok (.plain id (some (t.take n))), (t.drop n).take k)) ∨
    ((execB id (t.take m) (.fixed n)).2 = [] ∧
      ∃ c, (execB id (t.take m) (.fixed n)).1 = .ok c ∧
        ShortPayload c (.plain id (some (t.take n)))) := by
  by_cases hm : n ≤ m
  · left
    refine ⟨m - n, ?_⟩
    simp only [execB, List.take_take, Nat.min_eq_left hm, List.drop_take]
  · right
    refine ⟨?_, _, rfl, ?_⟩
    · simp only [execB]
      apply List.drop_eq_nil_of_le
      simp; omega
    · refine ⟨id, _, _, rfl, rfl, ?_⟩
      rw [List.take_take, Nat.min_eq_right (by omega)]
      exact List.take_prefix_take_left (by omega)

/-- Cutting a stream short: a step on the cut stream is the step of the full stream, or
yields that command with a short payload at the end, or raises. -/
theorem stepB_cut (b : Bytes) (m : Nat) (c : Cmd) (r : Bytes)
    (h : stepB (b.take m) = some (.ok c, r)) :
    (∃ r' k, stepB b = some (.ok c, r') ∧ r = r'.take k) ∨
    (r = [] ∧ ∃ c' r', stepB b = some (.ok c', r') ∧ ShortPayload c c') := by
  cases b with
  | nil => simp [stepB] at h
  | cons a t =>
    cases m with
    | zero => simp [stepB] at h
    | succ m =>
      rw [List.take_succ_cons] at h
      simp only [stepB, Option.some.injEq] at h ⊢
      have fixedCase : ∀ (n : Nat) (q : Bytes) (j : Nat),
          execB a.toNat (q.take j) (.fixed n) = (.ok c, r) →
          (∃ r' k, execB a.toNat q (.fixed n) = (.ok c, r') ∧ r = r'.take k) ∨
          (r = [] ∧ ∃ c' r', execB a.toNat q (.fixed n) = (.ok c', r') ∧ ShortPayload c c') := by
        intro n q j hh
        rcases fixed_cut a.toNat n j q with ⟨k, hk⟩ | ⟨h1, c'', h2, h3⟩
        · rw [hk] at hh
          simp only [Prod.mk.injEq, Except.ok.injEq] at hh
          obtain ⟨rfl, rfl⟩ := hh
          exact Or.inl ⟨q.drop n, k, rfl, rfl⟩
        · rw [hh] at h1 h2
          simp only [Except.ok.injEq] at h1 h2
          subst h2
          exact Or.inr ⟨h1, _, _, rfl, h3⟩
      cases hk : classify a.toNat with
      | nop =>
        rw [hk] at h; simp [execB] at h
        obtain ⟨rfl, rfl⟩ := h
        exact Or.inl ⟨t, m, rfl, rfl⟩
      | waitc n =>
        rw [hk] at h; simp [execB] at h
        obtain ⟨rfl, rfl⟩ := h
        exact Or.inl ⟨t, m, rfl, rfl⟩
      | eos =>
        rw [hk] at h; simp [execB] at h
        obtain ⟨rfl, rfl⟩ := h
        exact Or.inl ⟨t, m, rfl, rfl⟩
      | fixed n => rw [hk] at h; exact fixedCase n t m h
      | ym =>
        rw [hk] at h
        match t, m with
        | [], _ => simp [execB] at h
        | [_], 0 => simp [execB] at h
        | [_], _ + 1 => simp [execB] at h
        | _ :: _ :: _, 0 => simp [execB] at h
        | _ :: _ :: _, 1 => simp [execB] at h
        | x :: y :: t, m + 2 =>
          simp [execB] at h
          obtain ⟨rfl, rfl⟩ := h
          exact Or.inl ⟨t, m, rfl, rfl⟩
      | wait16 =>
        rw [hk] at h
        match t, m with
        | [], _ => simp [execB] at h
        | [_], 0 => simp [execB] at h
        | [_], _ + 1 => simp [execB] at h
        | _ :: _ :: _, 0 => simp [execB] at h
        | _ :: _ :: _, 1 => simp [execB] at h
        | x :: y :: t, m + 2 =>
          simp [execB] at h
          obtain ⟨rfl, rfl⟩ := h
          exact Or.inl ⟨t, m, rfl, rfl⟩
      | block =>
        rw [hk] at h
        simp only [execB] at h ⊢
        by_cases hl : (t.take m).length < 6
        · rw [if_pos hl] at h; simp at h
        · rw [if_neg hl] at h
          have hl' := hl
          rw [List.length_take] at hl'
          rw [if_neg (show ¬ t.length < 6 by omega)]
          have e1 : (t.take m).take 6 = t.take 6 := by
            rw [List.take_take, Nat.min_eq_left (by omega)]
          rw [e1, take_take_drop t 6 m] at h
          exact fixedCase _ (t.drop 6) (m - 6) h
      | ram =>
        rw [hk] at h
        simp only [execB] at h ⊢
        by_cases hl : (t.take m).length < 11
        · rw [if_pos hl] at h; simp at h
        · rw [if_neg hl] at h
          have hl' := hl
          rw [List.length_take] at hl'
          rw [if_neg (show ¬ t.length < 11 by omega)]
          have e1 : (t.take m).take 11 = t.take 11 := by
            rw [List.take_take, Nat.min_eq_left (by omega)]
          rw [e1, take_take_drop t 11 m] at h
          exact fixedCase _ (t.drop 11) (m - 11) h

/-- C04. The commands of a file cut after `n` bytes are a prefix of those of the whole file,
except that the last one may have a shorter payload. -/
theorem c04_truncation (data : Bytes) (pos n : Nat) (cs cs' : List Cmd) (o o' : Outcome)
    (h : Runs ⟨data, pos⟩ cs o) (h' : Runs ⟨data.take n, pos⟩ cs' o') :
    cs' <+: cs ∨ ∃ k c c', cs' = cs.take k ++ [c] ∧ cs[k]? = some c' ∧ ShortPayload c c' := by
  have key : ∀ (t : Stream) cs' o', Runs t cs' o' → ∀ (s : Stream) m cs o, t.rest = s.rest.take m →
      Runs s cs o →
      cs' <+: cs ∨ ∃ k c c', cs' = cs.take k ++ [c] ∧ cs[k]? = some c' ∧ ShortPayload c c' := by
    intro t cs' o' ht
    induction ht with
    | stop hx => intro s m cs o _ _; left; exact List.nil_prefix
    | raise hx => intro s m cs o _ _; left; exact List.nil_prefix
    | @yield t t' c cs' o' hx hr' ih =>
      intro s m cs o hrest hr
      obtain ⟨_, _, r, h3, h4⟩ := next_progress hx
      rw [hrest] at h3
      rcases stepB_cut _ _ _ _ h3 with ⟨r', k, h5, h6⟩ | ⟨h5, c', r', h6, h7⟩
      · obtain ⟨s', hn, hs', _⟩ := next_of_stepB h5
        cases hr with
        | stop hy => rw [hn] at hy; simp at hy
        | raise hy => rw [hn] at hy; simp at hy
        | yield hy hr2 =>
          rw [hn] at hy
          simp at hy
          obtain ⟨rfl, rfl⟩ := hy
          rcases ih s' k _ _ (by rw [h4, h6, hs']) hr2 with h | ⟨j, d, d', e1, e2, e3⟩
          · left; simpa using h
          · right; exact ⟨j + 1, d, d', by simp [e1], by simpa using e2, e3⟩
      · obtain ⟨s', hn, hs', _⟩ := next_of_stepB h6
        have hnil : cs' = [] := by
          cases hr' with
          | stop hy => rfl
          | raise hy => rfl
          | yield hy _ =>
            obtain ⟨_, _, _, h8, _⟩ := next_progress hy
            rw [h4, h5] at h8
            simp [stepB] at h8
        cases hr with
        | stop hy => rw [hn] at hy; simp at hy
        | raise hy => rw [hn] at hy; simp at hy
        | yield hy hr2 =>
          rw [hn] at hy
          simp at hy
          obtain ⟨rfl, rfl⟩ := hy
          right
          exact ⟨0, c, c', by simp [hnil], rfl, h7⟩
  exact key _ _ _ h' ⟨data, pos⟩ (n - pos) cs o (by simp [Stream.rest, List.drop_take]) h

example : ShortPayload (.plain 0xC0 (some [1])) (.plain 0xC0 (some [1, 2, 3])) :=
  ⟨0xC0, [1], [1, 2, 3], rfl, rfl, by decide⟩

/-! ### C05 -/

/-- Opcodes of wait commands known to the reader. -/
def isWaitOp (op : Nat) : Prop := op = 0x61 ∨ op = 0x62 ∨ op = 0x63 ∨ (0x70 ≤ op ∧ op ≤ 0x7F)

instance (op : Nat) : Decidable (isWaitOp op) := by unfold isWaitOp; infer_instance

/-- C05. The only opcodes that yield a wait are 0x61-0x63 and 0x70-0x7F, and the wait is
the one the format specifies; never `None`, never more than 65535. -/
theorem c05_waits (op : Nat) (hop : op < 256) (s s' : Stream) (id : Nat) (n : Option Nat)
    (h : command op s = (.ok (.wait id n), s')) :
    id = op ∧ isWaitOp op ∧ n = some (waitOf op (s.data.drop s.pos)) ∧
      waitOf op (s.data.drop s.pos) ≤ 65535 := by
  rw [command_eq_exec] at h
  have e1 := (exec_eq op s (classify op)).1
  rw [h] at e1
  simp only at e1
  show _ ∧ _ ∧ n = some (waitOf op s.rest) ∧ waitOf op s.rest ≤ 65535
  generalize s.rest = r at *
  by_cases h67 : op = 0x67
  · subst h67
    have hk : classify 0x67 = .block := by decide
    rw [hk] at e1
    simp only [execB] at e1
    split at e1 <;> simp at e1
  by_cases h68 : op = 0x68
  · subst h68
    have hk : classify 0x68 = .ram := by decide
    rw [hk] at e1
    simp only [execB] at e1
    split at e1 <;> simp at e1
  rcases classify_cases op hop h67 h68 with ⟨hk, hl⟩ | hk | ⟨ho, hk, hl⟩ | ⟨ho, hk, hl⟩ |
    ⟨ho, hk, hl⟩ | ⟨ho, hk, hl⟩ | ⟨ho1, ho2, hk, hl⟩ | ⟨_, hk, hl⟩ <;> rw [hk] at e1
  · simp [execB] at e1
  · simp [execB] at e1
  · match r with
    | [] => simp [execB] at e1
    | [_] => simp [execB] at e1
    | _ :: _ :: _ => simp [execB] at e1
  · subst ho
    match r with
    | [] => simp [execB] at e1
    | [_] => simp [execB] at e1
    | a :: b :: t =>
      simp [execB, mkWait] at e1
      obtain ⟨rfl, rfl⟩ := e1
      have h1 := a.toNat_lt
      have h2 := b.toNat_lt
      refine ⟨rfl, by decide, by simp [waitOf, leValue_eq, leNat], ?_⟩
      simp [waitOf, leValue_eq, leNat]
      omega
  · subst ho
    simp [execB, mkWait] at e1
    obtain ⟨rfl, rfl⟩ := e1
    exact ⟨rfl, by decide, rfl, by simp [waitOf]⟩
  · subst ho
    simp [execB, mkWait] at e1
    obtain ⟨rfl, rfl⟩ := e1
    exact ⟨rfl, by decide, rfl, by simp [waitOf]⟩
  · have hd : op / 16 = 7 := by omega
    simp [execB, mkWait, hd] at e1
    obtain ⟨rfl, rfl⟩ := e1
    have hw : waitOf id r = id - 0x70 + 1 := by
      unfold waitOf
      rw [if_neg (by omega), if_neg (by omega), if_neg (by omega), if_pos (by omega)]
    refine ⟨rfl, Or.inr (Or.inr (Or.inr ⟨ho1, ho2⟩)), ?_, ?_⟩
    · rw [hw]; congr 1; omega
    · rw [hw]; omega
  · simp [execB] at e1

/-- C05, converse: an opcode in that set yields such a wait, unless the operands of 0x61 are
cut off. -/
theorem c05_waits_complete (op : Nat) (hop : op < 256) (hw : isWaitOp op) (s : Stream)
    (hlen : fixedLen op ≤ s.data.length - s.pos) :
    ∃ s', command op s = (.ok (.wait op (some (waitOf op (s.data.drop s.pos)))), s') := by
  have h67 : op ≠ 0x67 := by unfold isWaitOp at hw; omega
  have h68 : op ≠ 0x68 := by unfold isWaitOp at hw; omega
  obtain ⟨c, hc, hid⟩ := c02_framing_partial op hop h67 h68 s hlen
  have hwait : ∃ n, c = .wait op n := by
    have e1 := (exec_eq op s (classify op)).1
    rw [← command_eq_exec, hc] at e1
    simp only at e1
    rcases classify_cases op hop h67 h68 with ⟨hk, hl⟩ | hk | ⟨ho, hk, hl⟩ | ⟨ho, hk, hl⟩ |
      ⟨ho, hk, hl⟩ | ⟨ho, hk, hl⟩ | ⟨ho1, ho2, hk, hl⟩ | ⟨ho, hk, hl⟩
    · exfalso
      have : ∀ op < 256, isWaitOp op → classify op ≠ .nop := by decide +kernel
      exact this op hop hw hk
    · exfalso
      have : ∀ op < 256, isWaitOp op → classify op ≠ .fixed (fixedLen op) := by decide +kernel
      exact this op hop hw hk
    · subst ho; exact absurd hw (by decide)
    · rw [hk] at e1
      subst ho
      match hr : s.rest with
      | [] => simp [hr, execB] at e1
      | [_] => simp [hr, execB] at e1
      | a :: b :: t => simp [hr, execB, mkWait] at e1; exact ⟨_, e1⟩
    · rw [hk] at e1; subst ho; simp [execB, mkWait] at e1; exact ⟨_, e1⟩
    · rw [hk] at e1; subst ho; simp [execB, mkWait] at e1; exact ⟨_, e1⟩
    · have hd : op / 16 = 7 := by omega
      rw [hk] at e1; simp [execB, mkWait, hd] at e1; exact ⟨_, e1⟩
    · subst ho; exact absurd hw (by decide)
  obtain ⟨n, rfl⟩ := hwait
  obtain ⟨_, _, h3, _⟩ := c05_waits op hop s _ op n hc
  exact ⟨_, by rw [hc, h3]⟩

example : isWaitOp 0x7F ∧ command 0x7F ⟨[0x7F], 1⟩ = (.ok (.wait 0x7F (some 16)), ⟨[0x7F], 1⟩) ∧
    command 0x61 ⟨[0x61, 0x10, 0x27], 1⟩ = (.ok (.wait 0x61 (some 10000)), ⟨[0x61, 0x10, 0x27], 3⟩) := by
  decide +kernel

end VgmX
