import Verif.Lemmas.Regs
/-
The register part of the refinement: the state's channel, note and global settings are
those of the specification.
-/

namespace VgmX
open Spec

/-- Settings held by the state agree with the history. -/
structure RegInv (h : List Event) (s : State) : Prop where
  chans : s.channelConfigs = (List.range 8).map (Spec.channel h)
  notes : s.noteConfigs = (List.range 8).map (Spec.noteConfig h)
  base : s.base = Spec.base h

theorem regInv_init : RegInv [] State.init := by
  constructor <;> decide

theorem channel_wait (h : List Event) (n c : Nat) :
    Spec.channel (h ++ [.wait n]) c = Spec.channel h c := by
  simp only [Spec.channel, channelWith, operatorWith, regVal_wait]

theorem noteConfig_wait (h : List Event) (n c : Nat) :
    Spec.noteConfig (h ++ [.wait n]) c = Spec.noteConfig h c := by
  simp only [Spec.noteConfig, regVal_wait]

theorem base_wait (h : List Event) (n : Nat) :
    Spec.base (h ++ [.wait n]) = Spec.base h := by
  simp only [Spec.base, regVal_wait, writesTo_wait]

/-- Registers a channel's settings depend on. -/
theorem channel_write_other (h : List Event) (r v c : Nat) (hc : c < 8)
    (h1 : r ≠ 0x20 + c) (h2 : r ≠ 0x38 + c) (h3 : c = 7 → r ≠ 0x0F)
    (h4 : r % 8 = c → r < 0x40) (hr : r < 256) :
    Spec.channel (h ++ [.write r v]) c = Spec.channel h c := by
  have e7 : (c = 7 → regVal (h ++ [.write r v]) 0x0F = regVal h 0x0F) := by
    intro h7; rw [regVal_write, if_neg (h3 h7)]
  have ek : ∀ k < 4, operatorWith (· % 16) (h ++ [.write r v]) c k
      = operatorWith (· % 16) h c k := by
    intro k hk
    simp (disch := omega) only [operatorWith, regVal_write, if_neg]
  simp (disch := omega) only [Spec.channel, channelWith, ek, regVal_write (q := 0x20 + c),
    regVal_write (q := 0x38 + c), if_neg]
  by_cases h7 : c = 7
  · simp [e7 h7]
  · simp [h7]

theorem noteConfig_write_other (h : List Event) (r v c : Nat)
    (h1 : r ≠ 0x20 + c) (h2 : r ≠ 0x28 + c) (h3 : r ≠ 0x30 + c) :
    Spec.noteConfig (h ++ [.write r v]) c = Spec.noteConfig h c := by
  simp (disch := omega) only [Spec.noteConfig, regVal_write, if_neg]

theorem base_write_other (h : List Event) (r v : Nat)
    (h1 : r ≠ 0x18) (h2 : r ≠ 0x19) (h3 : r ≠ 0x1B) :
    Spec.base (h ++ [.write r v]) = Spec.base h := by
  simp only [Spec.base, regVal_write, lastTo_write]
  simp [h1, h2, h3]

/-- One operator slot `k` of channel `c`. -/
theorem channel_write_op (h : List Event) (r v c k : Nat) (f : OperatorConfig → OperatorConfig)
    (hc : c < 8) (hr : r < 256) (h40 : 0x40 ≤ r) (hrc : r % 8 = c) (hrk : r / 8 % 4 = k)
    (hf : operatorWith (· % 16) (h ++ [.write r v]) c k = f (operatorWith (· % 16) h c k)) :
    Spec.channel (h ++ [.write r v]) c
      = { Spec.channel h c with operators := (Spec.channel h c).operators.modify k f } := by
  have ek : ∀ j < 4, j ≠ k → operatorWith (· % 16) (h ++ [.write r v]) c j
      = operatorWith (· % 16) h c j := by
    intro j hj hjk
    simp (disch := omega) only [operatorWith, regVal_write, if_neg]
  have e7 : regVal (h ++ [.write r v]) 0x0F = regVal h 0x0F := by
    rw [regVal_write, if_neg (by omega)]
  have e20 : regVal (h ++ [.write r v]) (0x20 + c) = regVal h (0x20 + c) := by
    rw [regVal_write, if_neg (by omega)]
  have e38 : regVal (h ++ [.write r v]) (0x38 + c) = regVal h (0x38 + c) := by
    rw [regVal_write, if_neg (by omega)]
  simp only [Spec.channel, channelWith, e7, e20, e38]
  congr 1
  have hk4 : k < 4 := by omega
  rcases (by omega : k = 0 ∨ k = 1 ∨ k = 2 ∨ k = 3) with rfl | rfl | rfl | rfl <;>
    simp (disch := omega) only [hf, ek] <;> rfl

/-- A write to a register other than key on/off. -/
theorem regInv_write (h : List Event) (s : State) (hi : RegInv h s)
    (r v : Nat) (hr : r < 256) (hv : v < 256) (h8 : r ≠ 0x08) :
    RegInv (h ++ [.write r v]) (s.apply r v) := by
  obtain ⟨hch, hno, hba⟩ := hi
  have chanOther : r < 0x20 → r ≠ 0x0F →
      (List.range 8).map (Spec.channel h)
        = (List.range 8).map (Spec.channel (h ++ [.write r v])) := by
    intro h1 h2
    apply map_range_congr
    intro c hc
    rw [channel_write_other h r v c hc] <;> omega
  have noteOther : (r < 0x20 ∨ 0x38 ≤ r) →
      (List.range 8).map (Spec.noteConfig h)
        = (List.range 8).map (Spec.noteConfig (h ++ [.write r v])) := by
    intro h1
    apply map_range_congr
    intro c hc
    rw [noteConfig_write_other h r v c] <;> omega
  have baseOther : r ≠ 0x18 → r ≠ 0x19 → r ≠ 0x1B →
      Spec.base h = Spec.base (h ++ [.write r v]) :=
    fun h1 h2 h3 => (base_write_other h r v h1 h2 h3).symm
  have opBranch : ∀ f : OperatorConfig → OperatorConfig, 0x40 ≤ r →
      (∀ c k, c < 8 → k < 4 → r % 8 = c → r / 8 % 4 = k →
        operatorWith (· % 16) (h ++ [.write r v]) c k = f (operatorWith (· % 16) h c k)) →
      RegInv (h ++ [.write r v]) (s.updOperator (r % 8) (r / 8 % 4) f) := by
    intro f h40 hf
    refine ⟨?_, ?_, ?_⟩
    · simp only [State.updOperator, State.updChannel, hch, map_range_modify]
      apply map_range_congr
      intro c hc
      by_cases hcr : c = r % 8
      · rw [if_pos hcr, channel_write_op h r v c (r / 8 % 4) f hc hr h40 hcr.symm rfl
          (hf c _ hc (Nat.mod_lt _ (by decide)) hcr.symm rfl)]
      · rw [if_neg hcr, channel_write_other h r v c hc] <;> omega
    · simpa [State.updOperator, State.updChannel, hno] using noteOther (by omega)
    · simpa [State.updOperator, State.updChannel, hba] using
        baseOther (by omega) (by omega) (by omega)
  unfold State.apply
  simp only [h8, if_false]
  simp only [and7, and3, andF, and1F, and3F, and7F]
  simp only [shr2, shr3, shr4, shr6]
  simp only [andF8 r hr, andE0 r hr]
  have s7 : (1 : Nat) <<< 7 = 0x80 := rfl
  have s6 : (1 : Nat) <<< 6 = 0x40 := rfl
  rw [s7, s6]
  simp only [and80 v hv, and40 v hv]
  by_cases h0F : r = 0x0F
  · -- noise
    rw [if_pos h0F]; subst h0F
    refine ⟨?_, ?_, ?_⟩
    · simp only [State.updChannel, hch, map_range_modify]
      apply map_range_congr
      intro c hc
      by_cases h7 : c = 7
      · subst h7
        simp (disch := omega) [Spec.channel, channelWith, operatorWith, regVal_write]
      · rw [if_neg h7, channel_write_other] <;> omega
    · simpa [State.updChannel, hno] using noteOther (by omega)
    · simpa [State.updChannel, hba] using baseOther (by omega) (by omega) (by omega)
  rw [if_neg h0F]
  by_cases h18 : r = 0x18
  · -- LFO
    rw [if_pos h18]; subst h18
    refine ⟨hch.trans (chanOther (by omega) (by omega)), hno.trans (noteOther (by omega)), ?_⟩
    simp [hba, Spec.base, regVal_write, lastTo_write]
  rw [if_neg h18]
  by_cases h19 : r = 0x19
  · -- PMD / AMD
    rw [if_pos h19]; subst h19
    by_cases h128 : 128 ≤ v
    · rw [if_pos h128]
      refine ⟨hch.trans (chanOther (by omega) (by omega)), hno.trans (noteOther (by omega)), ?_⟩
      simp [hba, Spec.base, regVal_write, lastTo_write, h128]
      omega
    · rw [if_neg h128]
      refine ⟨hch.trans (chanOther (by omega) (by omega)), hno.trans (noteOther (by omega)), ?_⟩
      simp [hba, Spec.base, regVal_write, lastTo_write, h128]
  rw [if_neg h19]
  by_cases h1B : r = 0x1B
  · -- waveform
    rw [if_pos h1B]; subst h1B
    refine ⟨hch.trans (chanOther (by omega) (by omega)), hno.trans (noteOther (by omega)), ?_⟩
    simp only [hba, Spec.base, regVal_write, lastTo_write]
    have : v % 4 < 4 := Nat.mod_lt _ (by decide)
    rcases (by omega : v % 4 = 0 ∨ v % 4 = 1 ∨ v % 4 = 2 ∨ v % 4 = 3) with hm | hm | hm | hm <;>
      simp [hm, Waveform.ofNat?]
  rw [if_neg h1B]
  by_cases h20 : r / 8 * 8 = 0x20
  · -- RL FB CON
    rw [if_pos h20]
    refine ⟨?_, ?_, ?_⟩
    · simp only [State.updChannel, State.updNote, hch, map_range_modify]
      apply map_range_congr
      intro c hc
      by_cases hcr : c = r % 8
      · simp (disch := omega) only [if_pos hcr, Spec.channel, channelWith, operatorWith,
          regVal_write, if_neg]
        simp (disch := omega) only [if_pos]
      · rw [if_neg hcr, channel_write_other] <;> omega
    · simp only [State.updChannel, State.updNote, hno, map_range_modify]
      apply map_range_congr
      intro c hc
      by_cases hcr : c = r % 8
      · simp (disch := omega) only [if_pos hcr, Spec.noteConfig, regVal_write, if_neg]
        simp (disch := omega) only [if_pos]
      · rw [if_neg hcr, noteConfig_write_other] <;> omega
    · simpa [State.updChannel, State.updNote, hba] using
        baseOther (by omega) (by omega) (by omega)
  rw [if_neg h20]
  by_cases h28 : r / 8 * 8 = 0x28
  · -- key code
    rw [if_pos h28]
    refine ⟨?_, ?_, ?_⟩
    · simp only [State.updNote, hch]
      apply map_range_congr
      intro c hc
      rw [channel_write_other] <;> omega
    · simp only [State.updNote, hno, map_range_modify]
      apply map_range_congr
      intro c hc
      by_cases hcr : c = r % 8
      · simp (disch := omega) only [if_pos hcr, Spec.noteConfig, regVal_write, if_neg]
        simp (disch := omega) only [if_pos]
      · rw [if_neg hcr, noteConfig_write_other] <;> omega
    · simpa [State.updNote, hba] using baseOther (by omega) (by omega) (by omega)
  rw [if_neg h28]
  by_cases h30 : r / 8 * 8 = 0x30
  · -- key fraction
    rw [if_pos h30]
    refine ⟨?_, ?_, ?_⟩
    · simp only [State.updNote, hch]
      apply map_range_congr
      intro c hc
      rw [channel_write_other] <;> omega
    · simp only [State.updNote, hno, map_range_modify]
      apply map_range_congr
      intro c hc
      by_cases hcr : c = r % 8
      · simp (disch := omega) only [if_pos hcr, Spec.noteConfig, regVal_write, if_neg]
        simp (disch := omega) only [if_pos]
        congr 1
        omega
      · rw [if_neg hcr, noteConfig_write_other] <;> omega
    · simpa [State.updNote, hba] using baseOther (by omega) (by omega) (by omega)
  rw [if_neg h30]
  by_cases h38 : r / 8 * 8 = 0x38
  · -- PMS AMS
    rw [if_pos h38]
    refine ⟨?_, ?_, ?_⟩
    · simp only [State.updChannel, hch, map_range_modify]
      apply map_range_congr
      intro c hc
      by_cases hcr : c = r % 8
      · simp (disch := omega) only [if_pos hcr, Spec.channel, channelWith, operatorWith,
          regVal_write, if_neg]
        simp (disch := omega) only [if_pos]
      · rw [if_neg hcr, channel_write_other] <;> omega
    · simpa [State.updChannel, hno] using noteOther (by omega)
    · simpa [State.updChannel, hba] using baseOther (by omega) (by omega) (by omega)
  rw [if_neg h38]
  by_cases h40 : r / 32 * 32 = 0x40
  ·
    rw [if_pos h40]
    refine opBranch _ (by omega) ?_
    intro c k hc hk hrc hrk
    simp (disch := omega) only [operatorWith, regVal_write, if_neg]
    simp (disch := omega) only [if_pos]
  rw [if_neg h40]
  by_cases h60 : r / 32 * 32 = 0x60
  ·
    rw [if_pos h60]
    refine opBranch _ (by omega) ?_
    intro c k hc hk hrc hrk
    simp (disch := omega) only [operatorWith, regVal_write, if_neg]
    simp (disch := omega) only [if_pos]
  rw [if_neg h60]
  by_cases h80 : r / 32 * 32 = 0x80
  ·
    rw [if_pos h80]
    refine opBranch _ (by omega) ?_
    intro c k hc hk hrc hrk
    simp (disch := omega) only [operatorWith, regVal_write, if_neg]
    simp (disch := omega) only [if_pos]
    congr 1
    omega
  rw [if_neg h80]
  by_cases hA0 : r / 32 * 32 = 0xA0
  ·
    rw [if_pos hA0]
    refine opBranch _ (by omega) ?_
    intro c k hc hk hrc hrk
    simp (disch := omega) only [operatorWith, regVal_write, if_neg]
    simp (disch := omega) only [if_pos]
  rw [if_neg hA0]
  by_cases hC0 : r / 32 * 32 = 0xC0
  ·
    rw [if_pos hC0]
    refine opBranch _ (by omega) ?_
    intro c k hc hk hrc hrk
    simp (disch := omega) only [operatorWith, regVal_write, if_neg]
    simp (disch := omega) only [if_pos]
    congr 1
    omega
  rw [if_neg hC0]
  by_cases hE0 : r / 32 * 32 = 0xE0
  ·
    rw [if_pos hE0]
    refine opBranch _ (by omega) ?_
    intro c k hc hk hrc hrk
    simp (disch := omega) only [operatorWith, regVal_write, if_neg]
    simp (disch := omega) only [if_pos]
    congr 1
    omega
  · -- uninterpreted registers
    rw [if_neg hE0]
    refine ⟨hch.trans (chanOther (by omega) (by omega)), hno.trans (noteOther (by omega)),
      hba.trans (baseOther (by omega) (by omega) (by omega))⟩

/-- The key on/off register does not touch the settings. -/
theorem regInv_key (h : List Event) (s : State) (hi : RegInv h s) (v : Nat) :
    RegInv (h ++ [.write 0x08 v]) (s.apply 0x08 v) := by
  obtain ⟨hch, hno, hba⟩ := hi
  refine ⟨?_, ?_, ?_⟩
  · simp only [State.apply, State.keyEvent, if_true, hch]
    apply map_range_congr
    intro c hc
    rw [channel_write_other] <;> omega
  · simp only [State.apply, State.keyEvent, if_true, hno]
    apply map_range_congr
    intro c hc
    rw [noteConfig_write_other] <;> omega
  · rw [base_write_other h 8 v (by omega) (by omega) (by omega)]
    simp [State.apply, State.keyEvent, hba]

theorem regInv_step (h : List Event) (s : State) (hi : RegInv h s)
    (e : Event) (he : e.IsByte) : RegInv (h ++ [e]) (s.step e) := by
  cases e with
  | wait n =>
    obtain ⟨hch, hno, hba⟩ := hi
    refine ⟨?_, ?_, ?_⟩
    · exact hch.trans (map_range_congr fun c _ => (channel_wait h n c).symm)
    · exact hno.trans (map_range_congr fun c _ => (noteConfig_wait h n c).symm)
    · exact hba.trans (base_wait h n).symm
  | write r v =>
    by_cases h8 : r = 0x08
    · subst h8; exact regInv_key h s hi v
    · exact regInv_write h s hi r v he.1 he.2 h8

theorem run_snoc (h : List Event) (e : Event) : run (h ++ [e]) = (run h).step e := by
  simp [run]

/-- Induction over byte histories from the end. -/
theorem snoc_induction {P : List Event → Prop} (hnil : P [])
    (hsnoc : ∀ h e, ByteHistory h → e.IsByte → P h → P (h ++ [e])) :
    ∀ h, ByteHistory h → P h := by
  intro h
  induction hn : h.length generalizing h with
  | zero => intro _; rw [List.length_eq_zero_iff.mp hn]; exact hnil
  | succ n ih =>
    intro hb
    have hne : h ≠ [] := by intro h0; simp [h0] at hn
    obtain ⟨h', e, rfl⟩ : ∃ h' e, h = h' ++ [e] :=
      ⟨h.dropLast, h.getLast hne, (List.dropLast_concat_getLast hne).symm⟩
    have := ByteHistory.snoc hb
    exact hsnoc h' e this.1 this.2 (ih h' (by simpa using hn) this.1)

theorem regInv_run (h : List Event) (hb : ByteHistory h) : RegInv h (run h) := by
  refine snoc_induction (P := fun h => RegInv h (run h)) regInv_init ?_ h hb
  intro h e _ he hi
  rw [run_snoc]
  exact regInv_step h _ hi e he

end VgmX
