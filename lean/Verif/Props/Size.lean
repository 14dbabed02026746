import Verif.Spec.Size
import Verif.Props.Process
import Verif.Props.State
import Verif.Props.Xrns
import Verif.Props.Csv
/-
C102. How large results can get.
-/

namespace VgmX
open Spec

/-- A wait that is one byte long is at most 882 samples long (all 256 opcodes). -/
theorem short_waits : ∀ n < 256, ∀ k, classify n = .waitc (some k) → k ≤ 882 := by
  have h : ∀ n < 256, (match classify n with
      | .waitc (some k) => decide (k ≤ 882)
      | _ => true) = true := by decide +kernel
  intro n hn k hk
  have := h n hn
  rw [hk] at this
  exact of_decide_eq_true this

/-- What one command costs in bytes, against what it brings. -/
theorem step_cost {b r : Bytes} {c : Cmd} (h : stepB b = some (.ok c, r)) :
    r.length + 1 + payloadSize c ≤ b.length ∧
    65535 * writeCount (history [c]) + time (history [c]) + 21845 * r.length ≤ 21845 * b.length := by
  cases b with
  | nil => simp [stepB] at h
  | cons a t =>
    simp only [stepB, Option.some.injEq] at h
    have hw : ∀ (n : Option Nat) (m : Nat), (∀ k, n = some k → k ≤ 65535) → m + 3 ≤ t.length + 1 →
        65535 * writeCount (history [mkWait a.toNat n]) + time (history [mkWait a.toNat n])
          + 21845 * m ≤ 21845 * (t.length + 1) := by
      intro n m hn hm
      unfold mkWait
      split
      · simp [history, eventOf, writeCount, time]; omega
      · cases n with
        | none =>
          show 65535 * 0 + 0 + _ ≤ _
          omega
        | some k =>
          have := hn k rfl
          simp [history, eventOf, writeCount, time]; omega
    have hw1 : ∀ (n : Option Nat) (m : Nat), (∀ k, n = some k → k ≤ 882) → m + 1 ≤ t.length + 1 →
        65535 * writeCount (history [mkWait a.toNat n]) + time (history [mkWait a.toNat n])
          + 21845 * m ≤ 21845 * (t.length + 1) := by
      intro n m hn hm
      unfold mkWait
      split
      · simp [history, eventOf, writeCount, time]; omega
      · cases n with
        | none =>
          show 65535 * 0 + 0 + _ ≤ _
          omega
        | some k =>
          have := hn k rfl
          simp [history, eventOf, writeCount, time]; omega
    have hp0 : ∀ n, payloadSize (mkWait a.toNat n) = 0 := by
      intro n; unfold mkWait; split <;> rfl
    have hplain : ∀ (i : Nat) (p : Option Bytes), 65535 * writeCount (history [Cmd.plain i p]) +
        time (history [Cmd.plain i p]) = 0 := by intro i p; rfl
    have hcl : ∀ n, classify a.toNat = .waitc n → ∀ k, n = some k → k ≤ 882 := by
      intro n hk k hn
      subst hn
      exact short_waits a.toNat a.toNat_lt k hk
    generalize classify a.toNat = k at h hcl
    cases k with
    | nop =>
      simp only [execB, Prod.mk.injEq, Except.ok.injEq] at h
      obtain ⟨rfl, rfl⟩ := h
      simp [hplain, payloadSize]
    | fixed n =>
      simp only [execB, Prod.mk.injEq, Except.ok.injEq] at h
      obtain ⟨rfl, rfl⟩ := h
      rw [hplain]
      simp [payloadSize]
      omega
    | ym =>
      match t, h with
      | [], h => simp [execB] at h
      | [_], h => simp [execB] at h
      | x :: y :: t, h =>
        simp only [execB, Prod.mk.injEq, Except.ok.injEq] at h
        obtain ⟨rfl, rfl⟩ := h
        simp [history, eventOf, writeCount, time, payloadSize]
        omega
    | wait16 =>
      match t, h with
      | [], h => simp [execB] at h
      | [_], h => simp [execB] at h
      | x :: y :: t, h =>
        simp only [execB, Prod.mk.injEq, Except.ok.injEq] at h
        obtain ⟨rfl, rfl⟩ := h
        have hx := x.toNat_lt
        have hy := y.toNat_lt
        refine ⟨by rw [hp0]; simp, ?_⟩
        rw [List.length_cons]
        exact hw _ _ (fun k hk => by cases hk; omega) (by simp)
    | waitc n =>
      simp only [execB, Prod.mk.injEq, Except.ok.injEq] at h
      obtain ⟨rfl, rfl⟩ := h
      refine ⟨by rw [hp0]; simp, ?_⟩
      rw [List.length_cons]
      exact hw1 _ _ (hcl n rfl) (Nat.le_refl _)
    | eos =>
      simp only [execB, Prod.mk.injEq, Except.ok.injEq] at h
      obtain ⟨rfl, rfl⟩ := h
      refine ⟨by simp [payloadSize], ?_⟩
      show 65535 * 0 + 0 + _ ≤ _
      simp
    | block =>
      simp only [execB] at h
      split at h
      · simp at h
      · simp only [Prod.mk.injEq, Except.ok.injEq] at h
        obtain ⟨rfl, rfl⟩ := h
        rw [hplain]
        simp only [payloadSize, List.length_take, List.length_drop, List.length_cons]
        omega
    | ram =>
      simp only [execB] at h
      split at h
      · simp at h
      · simp only [Prod.mk.injEq, Except.ok.injEq] at h
        obtain ⟨rfl, rfl⟩ := h
        rw [hplain]
        simp only [payloadSize, List.length_take, List.length_drop, List.length_cons]
        omega

theorem writeCount_cons (c : Cmd) (cs : List Cmd) :
    writeCount (history (c :: cs)) = writeCount (history [c]) + writeCount (history cs) := by
  show writeCount (history ([c] ++ cs)) = _
  unfold history writeCount
  rw [List.filterMap_append, List.map_append, List.sum_append]

theorem time_history_cons (c : Cmd) (cs : List Cmd) :
    time (history (c :: cs)) = time (history [c]) + time (history cs) := by
  show time (history ([c] ++ cs)) = _
  unfold history time
  rw [List.filterMap_append, List.map_append, List.sum_append]

/-- C102, reading: however the bytes look and however reading ends, the commands and all their
payloads are no longer than the bytes read, and every three bytes bring at most one register
write or 65535 samples of time. -/
theorem c102_reader (s : Stream) (cs : List Cmd) (o : Outcome) (h : Runs s cs o) :
    cs.length + (cs.map payloadSize).sum ≤ s.data.length - s.pos ∧
    65535 * writeCount (history cs) + time (history cs) ≤ 21845 * (s.data.length - s.pos) := by
  have hlen : ∀ s : Stream, s.rest.length = s.data.length - s.pos := by
    intro s; simp [Stream.rest]
  rw [← hlen]
  induction h with
  | stop _ => simp [history, writeCount, time]
  | raise _ => simp [history, writeCount, time]
  | yield hx _ ih =>
    obtain ⟨_, _, r, h3, h4⟩ := next_progress hx
    obtain ⟨k1, k2⟩ := step_cost h3
    rw [h4] at ih
    rw [writeCount_cons, time_history_cons, List.length_cons, List.map_cons, List.sum_cons]
    omega


/-! ### What is kept of it -/

theorem keyEvents_count (h : List Event) : (keyEvents h).length = keyCount h := by
  induction h using List.reverseRecOn with
  | nil => rfl
  | append_singleton h e ih =>
    have hk : keyCount (h ++ [e]) = keyCount h + keyCount [e] := by
      unfold keyCount; rw [List.map_append, List.sum_append]
    rw [hk, ← ih]
    cases e with
    | wait n => rw [keyEvents_wait]; simp [keyCount]
    | write r v =>
      by_cases h8 : r = 8
      · subst h8
        rw [keyEvents_key]; simp [keyCount]
      · rw [keyEvents_other h r v h8]; simp [keyCount, h8]

theorem keyCount_le (h : List Event) : keyCount h ≤ writeCount h := by
  unfold keyCount writeCount
  induction h with
  | nil => exact Nat.le_refl _
  | cons e h ih =>
    rw [List.map_cons, List.sum_cons, List.map_cons, List.sum_cons]
    refine Nat.add_le_add ?_ ih
    cases e with
    | wait n => exact Nat.le_refl _
    | write r v => simp only; split <;> omega

theorem filter_ch_sum (l : List KeyEvent) (n : Nat) :
    ((List.range n).map fun c => (l.filter (·.ch = c)).length).sum ≤ l.length := by
  have : ((List.range n).map fun c => (l.filter (·.ch = c)).length).sum =
      (l.filter (·.ch < n)).length := by
    induction n with
    | zero => simp
    | succ n ih =>
      rw [List.range_succ, List.map_append, List.sum_append, ih]
      simp only [List.map_cons, List.map_nil, List.sum_cons, List.sum_nil, Nat.add_zero]
      clear ih
      induction l with
      | nil => rfl
      | cons e l ih =>
        simp only [List.filter_cons, decide_eq_true_eq]
        by_cases h1 : e.ch < n
        · rw [if_pos h1, if_neg (by omega), if_pos (by omega)]
          simp only [List.length_cons]; omega
        · by_cases h2 : e.ch = n
          · rw [if_neg h1, if_pos h2, if_pos (by omega)]
            simp only [List.length_cons]; omega
          · rw [if_neg h1, if_neg h2, if_neg (by omega)]
            exact ih
  rw [this]
  exact List.length_filter_le _ _

theorem eraseDups_length_le {α} [BEq α] [LawfulBEq α] (l : List α) :
    l.eraseDups.length ≤ l.length := by
  generalize hn : l.length = n
  induction n using Nat.strong_induction_on generalizing l with
  | _ n ih =>
    cases l with
    | nil => simp
    | cons a l =>
      rw [List.eraseDups_cons, List.length_cons]
      rw [List.length_cons] at hn
      have hf := List.length_filter_le (fun b => !b == a) l
      have := ih _ (by omega) (l.filter (fun b => !b == a)) rfl
      omega

/-- C102, what is kept: at most one note and at most one instrument for every write to the
key register. -/
theorem c102_kept (h : List Event) (hb : ByteHistory h) :
    noteCount (run h).keyPressesOf ≤ keyCount h ∧ (run h).configs.length ≤ keyCount h ∧
    (∀ c < 8, ∀ n ∈ (run h).keyPressesOf c, n.sample ≤ time h) := by
  refine ⟨?_, ?_, ?_⟩
  · have : noteCount (run h).keyPressesOf =
        ((List.range 8).map fun c => ((recorded h).filter (·.ch = c)).length).sum := by
      unfold noteCount
      congr 1
      apply List.map_congr_left
      intro c hc
      rw [c22_key_presses h hb c (List.mem_range.mp hc), List.length_map]
    rw [this, ← keyEvents_count]
    exact (filter_ch_sum _ 8).trans (recorded_sublist h).length_le
  · have := congrArg List.length (c19_instruments h hb)
    rw [List.length_map] at this
    rw [this, ← keyEvents_count]
    unfold instruments patchesKeyedOn
    refine (eraseDups_length_le _).trans ?_
    rw [List.length_map]
    exact List.length_filter_le _ _
  · intro c hc n hn
    rw [c22_key_presses h hb c hc] at hn
    obtain ⟨e, he, rfl⟩ := List.mem_map.mp hn
    have he' := (recorded_sublist h).subset (List.mem_filter.mp he).1
    exact (keyEvents_times h).2 e he'

/-- C102, what is written: for a file with `n` bytes of commands, the commands processed up to
where reading ended give at most `n / 3` notes and instruments, a song of at most
`21845 n / (64 t) + 1` patterns and a table of at most `21845 n / t` rows. -/
theorem c102_written (s : Stream) (cs : List Cmd) (o : Outcome) (hr : Runs s cs o)
    (t : Nat) (ht : 0 < t) (hm : t < maxTicks) (hl : s.data.length < 2 ^ 1000) :
    3 * noteCount (run (history cs)).keyPressesOf ≤ s.data.length - s.pos ∧
    3 * (run (history cs)).configs.length ≤ s.data.length - s.pos ∧
    (∃ d, exportXrns (run (history cs)) t = .ok d ∧
      d.patterns.length ≤ 21845 * (s.data.length - s.pos) / (64 * t) + 1) ∧
    ∃ out table, extractTracks (run (history cs)) t = some (out, none) ∧
      csvTable out.flatten = some (headerFields :: table) ∧
      table.length ≤ 21845 * (s.data.length - s.pos) / t := by
  obtain ⟨_, hcost⟩ := c102_reader s cs o hr
  have hb := runs_byteHistory hr
  generalize history cs = h at hcost hb ⊢
  obtain ⟨k1, k2, k3⟩ := c102_kept h hb
  have k4 := keyCount_le h
  have htime : time h ≤ 21845 * (s.data.length - s.pos) := by omega
  refine ⟨by omega, by omega, ?_, ?_⟩
  · obtain ⟨d, hd, hp, _, _⟩ := c38_patterns h hb t ht hm
    refine ⟨d, hd, ?_⟩
    by_contra hc
    push_neg at hc
    obtain ⟨c, hc8, n, hn, hle⟩ := (hp _).mp hc
    have h1 : n.sample / t / 64 ≤ 21845 * (s.data.length - s.pos) / (64 * t) := by
      rw [Nat.div_div_eq_div_mul, Nat.mul_comm t 64]
      exact Nat.div_le_div_right ((k3 c hc8 n hn).trans htime)
    omega
  · have hT : time h < 2 ^ 1023 := by
      have e : (2 : Nat) ^ 1023 = 2 ^ 23 * 2 ^ 1000 := by rw [← Nat.pow_add]
      rw [e]
      generalize (2 : Nat) ^ 1000 = z at hl
      omega
    obtain ⟨out, table, h1, h2, h3⟩ := c47_rows_partial h hb t ht hT
    refine ⟨out, table, h1, h2, ?_⟩
    by_contra hc
    push_neg at hc
    obtain ⟨c, hc8, n, hn, hlt⟩ := (h3 _).mp hc
    have : n.sample / t ≤ 21845 * (s.data.length - s.pos) / t :=
      Nat.div_le_div_right ((k3 c hc8 n hn).trans htime)
    omega

/-! ### The bounds are sharp -/

/-- `n` waits of 65535 samples, then a key press on channel 0: `3 n + 3` bytes. -/
def longFile (n : Nat) : Bytes := (List.replicate n [0x61, 0xFF, 0xFF]).flatten ++ [0x54, 8, 0x78]

theorem longFile_length (n : Nat) : (longFile n).length = 3 * n + 3 := by
  simp [longFile]; omega

theorem runs_stepB {s : Stream} {c : Cmd} {r : Bytes} (h : stepB s.rest = some (.ok c, r)) :
    ∃ s', next s = (some (.ok c), s') ∧ s'.rest = r := by
  obtain ⟨h1, h2, _, _⟩ := (next_stepB s).2 _ _ h
  exact ⟨(next s).2, by rw [← h1], h2⟩

theorem longFile_runs (n : Nat) (s : Stream) (hs : s.rest = longFile n) :
    Runs s (List.replicate n (.wait 0x61 (some 65535)) ++ [.ym2151 0x54 8 0x78]) .stop := by
  induction n generalizing s with
  | zero =>
    obtain ⟨s', h1, h2⟩ := runs_stepB (s := s) (c := .ym2151 0x54 8 0x78) (r := []) (by
      rw [hs]; rfl)
    refine .yield h1 (.stop (s' := (next s').2) ?_)
    have := (next_stepB s').1 (by rw [h2]; rfl)
    rw [← this]
  | succ n ih =>
    obtain ⟨s', h1, h2⟩ := runs_stepB (s := s) (c := .wait 0x61 (some 65535)) (r := longFile n) (by
      rw [hs]
      simp only [longFile, List.replicate_succ, List.flatten_cons, List.cons_append, List.nil_append]
      rfl)
    rw [List.replicate_succ, List.cons_append]
    exact .yield h1 (ih s' h2)

theorem longFile_history (n : Nat) :
    history (List.replicate n (.wait 0x61 (some 65535)) ++ [.ym2151 0x54 8 0x78]) =
      List.replicate n (.wait 65535) ++ [.write 8 0x78] := by
  induction n with
  | zero => rfl
  | succ n ih =>
    rw [List.replicate_succ, List.cons_append, history_cons, ih, List.replicate_succ]
    rfl

theorem longFile_time (n : Nat) : time (List.replicate n (.wait 65535)) = 65535 * n := by
  simp [time, Nat.mul_comm]

theorem longFile_keyEvents (n : Nat) : keyEvents (List.replicate n (.wait 65535)) = [] := by
  induction n with
  | zero => rfl
  | succ n ih => rw [List.replicate_succ', keyEvents_wait, ih]

/-- C102, sharpness: for every `n` there are files of `3 n + 3` bytes of commands that take
`65535 n` samples, so that the song has `65535 n / (64 t) + 1` patterns and the table
`65535 n / t` rows: both bounds are reached but for the last key press. -/
theorem c102_sharp (n : Nat) (hn : 0 < n) (s : Stream) (hs : s.data.drop s.pos = longFile n)
    (t : Nat) (ht : 0 < t) (hm : t < maxTicks) (hl : n < 2 ^ 1000) :
    ∃ cs, Runs s cs .stop ∧ time (history cs) = 65535 * n ∧
      noteCount (run (history cs)).keyPressesOf = 1 ∧
      (∃ d, exportXrns (run (history cs)) t = .ok d ∧
        d.patterns.length = 65535 * n / (64 * t) + 1) ∧
      ∃ out table, extractTracks (run (history cs)) t = some (out, none) ∧
        csvTable out.flatten = some (headerFields :: table) ∧
        table.length = 65535 * n / t := by
  refine ⟨_, longFile_runs n s hs, ?_⟩
  have hr := longFile_runs n s hs
  have hb := runs_byteHistory hr
  rw [longFile_history] at hb ⊢
  generalize hh : (List.replicate n (Event.wait 65535) ++ [.write 8 0x78] : List Event) = h at hb ⊢
  have htime : time h = 65535 * n := by
    rw [← hh, time_write, longFile_time]
  have hke : keyEvents h = [keyEventAt (List.replicate n (.wait 65535)) 0x78] := by
    rw [← hh, keyEvents_key, longFile_keyEvents]; rfl
  have hrec : recorded h = [keyEventAt (List.replicate n (.wait 65535)) 0x78] := by
    unfold recorded
    rw [hke]
    have : (keyEventAt (List.replicate n (.wait 65535)) 0x78).isOn ∧
        0 < (keyEventAt (List.replicate n (.wait 65535)) 0x78).time := by
      refine ⟨?_, ?_⟩
      · show (0x78 / 8 % 16 : Nat) ≠ 0; decide
      · show 0 < time _; rw [longFile_time]; omega
    simp [this]
  have hkp : ∀ c < 8, (run h).keyPressesOf c =
      if c = 0 then [noteOf h (keyEventAt (List.replicate n (.wait 65535)) 0x78)] else [] := by
    intro c hc
    rw [c22_key_presses h hb c hc, hrec]
    have h0 : (keyEventAt (List.replicate n (.wait 65535)) 0x78).ch = 0 := rfl
    rw [List.filter_cons, h0]
    by_cases hc0 : c = 0
    · subst hc0; simp
    · rw [if_neg hc0, if_neg (by simp; omega)]; simp
  have hmem : ∀ (P : Note → Prop), (∃ c < 8, ∃ m ∈ (run h).keyPressesOf c, P m) ↔
      P (noteOf h (keyEventAt (List.replicate n (.wait 65535)) 0x78)) := by
    intro P
    constructor
    · rintro ⟨c, hc, m, hm, hp⟩
      rw [hkp c hc] at hm
      split at hm
      · rw [List.mem_singleton] at hm; rw [← hm]; exact hp
      · simp at hm
    · intro hp
      exact ⟨0, by omega, _, by rw [hkp 0 (by omega)]; simp, hp⟩
  have hsam : (noteOf h (keyEventAt (List.replicate n (.wait 65535)) 0x78)).sample = 65535 * n := by
    show time _ = _; exact longFile_time n
  have hT : time h < 2 ^ 1023 := by
    rw [htime]
    have e : (2 : Nat) ^ 1023 = 2 ^ 23 * 2 ^ 1000 := by rw [← Nat.pow_add]
    rw [e]
    generalize (2 : Nat) ^ 1000 = z at hl
    omega
  refine ⟨htime, ?_, ?_, ?_⟩
  · unfold noteCount
    have : (List.range 8).map (fun c => ((run h).keyPressesOf c).length) =
        (List.range 8).map (fun c => if c = 0 then 1 else 0) := by
      apply List.map_congr_left
      intro c hc
      rw [hkp c (List.mem_range.mp hc)]
      split <;> rfl
    rw [this]
    decide
  · obtain ⟨d, hd, hp, _, _⟩ := c38_patterns h hb t ht hm
    refine ⟨d, hd, ?_⟩
    have hq : 65535 * n / t / 64 = 65535 * n / (64 * t) := by
      rw [Nat.div_div_eq_div_mul, Nat.mul_comm t 64]
    have key : ∀ p, p < d.patterns.length ↔ p ≤ 65535 * n / (64 * t) := by
      intro p
      rw [hp p, hmem (fun m => p ≤ m.sample / t / 64), hsam, hq]
    have k1 := (key (65535 * n / (64 * t))).mpr (Nat.le_refl _)
    have k2 := mt (key (65535 * n / (64 * t) + 1)).mp (by omega)
    omega
  · obtain ⟨out, table, h1, h2, h3⟩ := c47_rows_partial h hb t ht hT
    refine ⟨out, table, h1, h2, ?_⟩
    have key : ∀ p, p < table.length ↔ p < 65535 * n / t := by
      intro p
      rw [h3 p, hmem (fun m => p < m.sample / t), hsam]
    have k1 := key (65535 * n / t)
    have k2 := key table.length
    omega

example : (Stream.mk (longFile 2) 0).data.drop 0 = longFile 2 ∧ (longFile 2).length = 9 ∧
    Runs ⟨longFile 2, 0⟩ [.wait 0x61 (some 65535), .wait 0x61 (some 65535), .ym2151 0x54 8 0x78]
      .stop :=
  ⟨rfl, rfl, longFile_runs 2 ⟨longFile 2, 0⟩ rfl⟩

/-- The hypotheses of `c102_kept` hold of this history, which has a note and an instrument. -/
example : ByteHistory [.wait 65535, .write 8 0x78] ∧ keyCount [.wait 65535, .write 8 0x78] = 1 ∧
    (run [.wait 65535, .write 8 0x78]).configs.length = 1 := by decide +kernel

end VgmX
