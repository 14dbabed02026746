import Verif.Lemmas.StateRefine
import Verif.Lemmas.Apply
import Verif.Lemmas.Sort
/-
Properties C12-C17, C19-C25 of the chip state (`State.apply`, `State.beat`, `configs`,
`key_presses`, `channel_config`, `ticks`), over all histories of register writes and waits.
Vocabulary: Spec/Ym2151.lean.
-/

namespace VgmX
open Spec

/-- A history used in the non-vacuity examples: a write to TL, a wait, a key-on of two
operators on channel 1, a later change of the patch, another key-on, and a key-off. -/
def sample : List Event :=
  [.write 0x61 40, .write 0x29 0x4A, .wait 100, .write 0x08 0x19, .write 0x19 200,
   .write 0x61 41, .wait 50, .write 0x08 0x19, .wait 7, .write 0x08 0x01]

theorem sample_byte : ByteHistory sample := by decide

/-- Induction on lists from the end. -/
@[elab_as_elim]
theorem list_snoc_ind {α : Type} {P : List α → Prop} (l : List α) (nil : P [])
    (snoc : ∀ l a, P l → P (l ++ [a])) : P l := by
  have : ∀ l : List α, P l.reverse := by
    intro l
    induction l with
    | nil => exact nil
    | cons a l ih => rw [List.reverse_cons]; exact snoc _ _ ih
  simpa using this l.reverse

/-! ### C12 -/

/-- C12. After every byte history the global settings are the register-map reading of the
last writes, and so are all channel settings, except that D2R keeps its low four bits only
(the data sheet has five). -/
theorem c12_registers_partial (h : List Event) (hb : ByteHistory h) :
    (run h).base = Spec.base h ∧
    ∀ ch < 8, (run h).channelConfig ch =
      { channelDatasheet h ch with
        operators := (channelDatasheet h ch).operators.map
          (fun o => { o with secondDecayRate := o.secondDecayRate % 16 }) } := by
  have hi := regInv_run h hb
  refine ⟨hi.base, ?_⟩
  intro ch hch
  have : (run h).channelConfig ch = Spec.channel h ch := by
    unfold State.channelConfig
    rw [hi.chans, getD_map_range _ _ _ _ hch]
  rw [this]
  have hm : ∀ x : Nat, x % 32 % 16 = x % 16 := by intro x; omega
  simp [Spec.channel, channelDatasheet, channelWith, operatorWith, hm]

example : ByteHistory sample ∧ (run sample).channelConfig 1 ≠ {} := by decide +kernel

/-- C12 is false as stated: the data sheet's D2R is not what the extractor keeps. -/
theorem c12_d2r_refuted : ∃ h, ByteHistory h ∧ ∃ ch < 8,
    (run h).channelConfig ch ≠ channelDatasheet h ch :=
  ⟨[.write 0xC0 0x10], by decide, 0, by decide, by decide +kernel⟩

/-- C12, exact form: the channel settings are the data sheet's iff no operator of the
channel has bit 4 of D2R set. -/
theorem c12_exact (h : List Event) (hb : ByteHistory h) (ch : Nat) (hch : ch < 8) :
    (run h).channelConfig ch = channelDatasheet h ch ↔
      ∀ k < 4, regVal h (0xC0 + 8 * k + ch) % 32 < 16 := by
  have hi := regInv_run h hb
  have : (run h).channelConfig ch = Spec.channel h ch := by
    unfold State.channelConfig
    rw [hi.chans, getD_map_range _ _ _ _ hch]
  rw [this]
  have hx : ∀ x : Nat, x % 16 = x % 32 ↔ x % 32 < 16 := by intro x; omega
  simp only [Spec.channel, channelDatasheet, channelWith, operatorWith, ChannelConfig.mk.injEq,
    List.cons.injEq, OperatorConfig.mk.injEq, and_true, true_and, hx]
  constructor
  · rintro ⟨h0, h1, h2, h3⟩ k hk
    rcases (by omega : k = 0 ∨ k = 1 ∨ k = 2 ∨ k = 3) with rfl | rfl | rfl | rfl <;> assumption
  · intro hk
    exact ⟨hk 0 (by omega), hk 1 (by omega), hk 2 (by omega), hk 3 (by omega)⟩

/-- Consequence of C12's failure: two patches that the chip distinguishes become one
instrument. -/
theorem c12_merged_patches : ∃ h : List Event, ByteHistory h ∧
    channelDatasheet (h.take 2) 0 ≠ channelDatasheet (h.take 4) 0 ∧
    h[2]? = some (.write 8 0x78) ∧ h[4]? = some (.write 8 0x78) ∧
    (run h).configs.length = 1 :=
  ⟨[.wait 1, .write 0xC0 0x10, .write 8 0x78, .write 0xC0 0x00, .write 8 0x78],
    by decide, by decide +kernel, rfl, rfl, by decide +kernel⟩

/-! ### C13, C14, C15: single writes, in every state -/

/-- C13. Re-writing a (non-key) register with the same value changes nothing. -/
theorem c13_idempotent (s : State) (r v : Nat) (hr : r < 256) (h8 : r ≠ 0x08) :
    (s.apply r v).apply r v = s.apply r v := by
  rw [apply_eq_applyFn s r v hr h8, apply_eq_applyFn _ r v hr h8, applyFn_idem]

example : State.init.apply 0x60 5 ≠ State.init ∧ (0x60 : Nat) ≠ 0x08 := by decide +kernel

/-- The key register is rightly excluded in C13: a key-on repeated adds another note. -/
theorem c13_key_excluded : ∃ s : State, (s.apply 8 0x78).apply 8 0x78 ≠ s.apply 8 0x78 :=
  ⟨State.init.beat 1, by decide +kernel⟩

/-- C14. Writes to different (non-key) registers commute. -/
theorem c14_commute (s : State) (r v q w : Nat) (hr : r < 256) (hq : q < 256)
    (hr8 : r ≠ 0x08) (hq8 : q ≠ 0x08) (hne : r ≠ q) :
    (s.apply r v).apply q w = (s.apply q w).apply r v := by
  rw [apply_eq_applyFn s r v hr hr8, apply_eq_applyFn _ q w hq hq8,
    apply_eq_applyFn s q w hq hq8, apply_eq_applyFn _ r v hr hr8,
    applyFn_comm s r v q w hr hq hne]

example : (State.init.apply 0x20 0xFF).apply 0x0F 0xFF
    ≠ State.init.apply 0x20 0xFF := by decide +kernel

/-- Different registers, same register: the order of two writes to one register matters. -/
theorem c14_same_register_excluded : ∃ (s : State) (v w : Nat),
    (s.apply 0x20 v).apply 0x20 w ≠ (s.apply 0x20 w).apply 0x20 v :=
  ⟨State.init, 1, 2, by decide +kernel⟩

/-- Registers that the extractor does not interpret. -/
def Uninterpreted (r : Nat) : Prop :=
  r ≤ 0x07 ∨ 0x09 ≤ r ∧ r ≤ 0x0E ∨ 0x10 ≤ r ∧ r ≤ 0x17 ∨ r = 0x1A ∨ 0x1C ≤ r ∧ r ≤ 0x1F

instance (r : Nat) : Decidable (Uninterpreted r) := by unfold Uninterpreted; infer_instance

/-- C15. A register byte is ignored in every state and for every value iff it is one of
the uninterpreted ones. -/
theorem c15_ignored_iff (r : Nat) (hr : r < 256) :
    (∀ (s : State) (v : Nat), s.apply r v = s) ↔ Uninterpreted r := by
  constructor
  · intro h
    have hw : ∀ r < 256, State.init.apply r 0xFF = State.init → Uninterpreted r := by
      decide +kernel
    exact hw r hr (h _ _)
  · intro hu s v
    obtain ⟨e1, e2, e3, e4⟩ := low_facts r hr
    unfold Uninterpreted at hu
    unfold State.apply
    simp only [e1, e2]
    rw [if_neg (by omega), if_neg (by omega), if_neg (by omega), if_neg (by omega),
      if_neg (by omega), if_neg (by omega), if_neg (by omega), if_neg (by omega),
      if_neg (by omega), if_neg (by omega), if_neg (by omega), if_neg (by omega),
      if_neg (by omega), if_neg (by omega), if_neg (by omega)]

example : Uninterpreted 0x14 ∧ ¬ Uninterpreted 0x20 := by decide

/-! ### Instruments: C16, C17, C19, C20 -/

theorem configs_run (h : List Event) (hb : ByteHistory h) :
    (run h).configs = (instruments h).mapIdx (fun i p => ⟨i, p.base, p.operators, p.channel⟩) :=
  (inv_run h hb).configs

theorem eraseDups_nodup {α : Type} [BEq α] [LawfulBEq α] (l : List α) : l.eraseDups.Nodup := by
  induction hn : l.length using Nat.strongRecOn generalizing l with
  | _ n ih =>
    cases l with
    | nil => simp
    | cons a l =>
      rw [List.eraseDups_cons, List.nodup_cons]
      refine ⟨?_, ?_⟩
      · rw [List.mem_eraseDups]
        simp
      · refine ih _ ?_ _ rfl
        rw [← hn]
        have := List.length_filter_le (fun b => !b == a) l
        simp only [List.length_cons]
        omega

/-- C16. Instrument `i` has id `i`, and different instruments differ in some setting. -/
theorem c16_unique (h : List Event) (hb : ByteHistory h) (i j : Nat) (a b : Config)
    (hi : (run h).configs[i]? = some a) (hj : (run h).configs[j]? = some b) :
    a.id = i ∧ (a.base = b.base → a.channel = b.channel → a.operators = b.operators → i = j) := by
  rw [configs_run h hb, List.getElem?_mapIdx] at hi hj
  obtain ⟨p, hp, rfl⟩ := Option.map_eq_some_iff.mp hi
  obtain ⟨q, hq, rfl⟩ := Option.map_eq_some_iff.mp hj
  refine ⟨rfl, ?_⟩
  intro h1 h2 h3
  have hpq : p = q := by cases p; cases q; simp_all
  have hn := eraseDups_nodup (patchesKeyedOn h)
  subst hpq
  have hil : i < (instruments h).length := by
    rw [List.getElem?_eq_some_iff] at hp; exact hp.1
  exact (List.getElem?_inj hil hn).mp (hp.trans hq.symm)

example : (run sample).configs.length = 2 := by decide +kernel

/-- C19. The instrument list is the list of patches keyed on, without repetitions, in order
of first use. -/
theorem c19_instruments (h : List Event) (hb : ByteHistory h) :
    (run h).configs.map (fun c => (⟨c.base, c.channel, c.operators⟩ : Patch))
      = instruments h := by
  rw [configs_run h hb]
  apply List.ext_getElem?
  intro i
  simp only [List.getElem?_map, List.getElem?_mapIdx, Option.map_map]
  cases (instruments h)[i]? <;> rfl

theorem patchesKeyedOn_append (h : List Event) (t : List Event) :
    ∃ l, patchesKeyedOn (h ++ t) = patchesKeyedOn h ++ l := by
  induction t using list_snoc_ind with
  | nil => exact ⟨[], by simp⟩
  | snoc t e ih =>
    obtain ⟨l, hl⟩ := ih
    rw [← List.append_assoc]
    cases e with
    | wait n => exact ⟨l, by rw [patchesKeyedOn, keyEvents_wait]; exact hl⟩
    | write r v =>
      by_cases h8 : r = 8
      · subst h8
        rw [patchesKeyedOn_key, hl, List.append_assoc]
        exact ⟨_, rfl⟩
      · exact ⟨l, by rw [patchesKeyedOn, keyEvents_other _ r v h8]; exact hl⟩

/-- C19. The instrument list only grows at its end. -/
theorem c19_grows (h t : List Event) (hb : ByteHistory (h ++ t)) :
    (run h).configs <+: (run (h ++ t)).configs := by
  have hb' : ByteHistory h := fun e he => hb e (by simp [he])
  obtain ⟨l, hl⟩ := patchesKeyedOn_append h t
  rw [configs_run h hb', configs_run _ hb, instruments, instruments, hl, List.eraseDups_append]
  rw [List.mapIdx_append]
  exact List.prefix_append _ _

example : ByteHistory (sample ++ [.write 0x61 9, .write 8 0x79]) ∧
    (run (sample ++ [.write 0x61 9, .write 8 0x79])).configs.length = 3 := by decide +kernel

/-- Membership in the key events, in terms of the history. -/
theorem mem_keyEvents (h : List Event) (e : KeyEvent) :
    e ∈ keyEvents h ↔ ∃ i v, h[i]? = some (.write 8 v) ∧ e = keyEventAt (h.take i) v := by
  unfold keyEvents
  rw [List.mem_filterMap]
  constructor
  · rintro ⟨i, _, hi⟩
    cases hg : h[i]? with
    | none => simp [hg] at hi
    | some x =>
      cases x with
      | wait n => simp [hg] at hi
      | write r v =>
        simp only [hg] at hi
        by_cases h8 : r = 8
        · subst h8
          simp at hi
          exact ⟨i, v, hg, hi.symm⟩
        · simp [h8] at hi
  · rintro ⟨i, v, hg, rfl⟩
    refine ⟨i, ?_, by simp [hg]⟩
    rw [List.mem_range]
    rw [List.getElem?_eq_some_iff] at hg
    exact hg.1

theorem keyPresses_run (h : List Event) (hb : ByteHistory h) (ch : Nat) (hch : ch < 8) :
    (run h).keyPressesOf ch = Spec.keyPresses h ch := by
  unfold State.keyPressesOf
  rw [(inv_run h hb).presses, getD_map_range _ _ _ _ hch]

/-- Every recorded note comes from a key event. -/
theorem note_origin (h : List Event) (ch : Nat) (n : Note) (hn : n ∈ Spec.keyPresses h ch) :
    ∃ i v, h[i]? = some (.write 8 v) ∧ v % 8 = ch ∧ n = noteOf h (keyEventAt (h.take i) v) := by
  simp only [Spec.keyPresses, List.mem_map, List.mem_filter] at hn
  obtain ⟨e, ⟨he, hc⟩, rfl⟩ := hn
  obtain ⟨i, v, hi, rfl⟩ := (mem_keyEvents h e).mp (mem_keyEvents_of_recorded he)
  exact ⟨i, v, hi, of_decide_eq_true hc, rfl⟩

/-- C17. Every recorded note stems from a key event of its channel; if its instrument number
is not negative, that event was a key-on and the number denotes an instrument that holds the
settings the chip had at that moment, whatever was written later. -/
theorem c17_note_instrument (h : List Event) (hb : ByteHistory h) (ch : Nat) (hch : ch < 8)
    (n : Note) (hn : n ∈ (run h).keyPressesOf ch) (hid : 0 ≤ n.configId) :
    ∃ i v, h[i]? = some (.write 8 v) ∧ v % 8 = ch ∧ v / 8 % 16 ≠ 0 ∧
      n.sample = time (h.take i) ∧
      (run h).configs[n.configId.toNat]? = some
        { id := n.configId.toNat
          base := Spec.base (h.take i)
          operators := v / 8 % 16
          channel := Spec.channel (h.take i) ch } := by
  rw [keyPresses_run h hb ch hch] at hn
  obtain ⟨i, v, hi, hv, rfl⟩ := note_origin h ch n hn
  have hk : keyEventAt (h.take i) v ∈ keyEvents h := (mem_keyEvents h _).mpr ⟨i, v, hi, rfl⟩
  have hon : (keyEventAt (h.take i) v).isOn := by
    apply Decidable.byContradiction
    intro hno
    simp [noteOf, hno] at hid
  refine ⟨i, v, hi, hv, hon, rfl, ?_⟩
  have hm : (keyEventAt (h.take i) v).patch ∈ instruments h :=
    (mem_instruments h _).mpr ⟨_, hk, hon, rfl⟩
  have hid' : (noteOf h (keyEventAt (h.take i) v)).configId.toNat
      = (instruments h).idxOf (keyEventAt (h.take i) v).patch := by
    simp [noteOf, hon]
  rw [hid', configs_run h hb, List.getElem?_mapIdx]
  have hlt := List.idxOf_lt_length_iff.mpr hm
  rw [List.getElem?_eq_getElem hlt, List.getElem_idxOf hlt]
  subst hv
  rfl

example : ∃ n ∈ (run sample).keyPressesOf 1, n.configId = 1 := by decide +kernel

/-- C20. A key-off adds neither an instrument nor a tick. -/
theorem c20_keyoff_adds_nothing (h : List Event) (hb : ByteHistory h) (v : Nat) (hv : v < 256)
    (hoff : v / 8 % 16 = 0) :
    (run (h ++ [.write 8 v])).configs = (run h).configs ∧
    (run (h ++ [.write 8 v])).ticks = (run h).ticks := by
  have hb' : ByteHistory (h ++ [.write 8 v]) := by
    intro e he
    rcases List.mem_append.mp he with he | he
    · exact hb e he
    · rw [List.mem_singleton] at he; subst he; exact ⟨by decide, hv⟩
  have hon : ¬ (keyEventAt h v).isOn := fun h => h hoff
  refine ⟨?_, ?_⟩
  · rw [configs_run _ hb', configs_run _ hb, instruments_key]
    simp [hon]
  · have hid : ∀ p : Patch, p ∈ instruments h → p.operators ≠ 0 := by
      intro p hp
      obtain ⟨e, _, ho, rfl⟩ := (mem_instruments h p).mp hp
      exact ho
    have hnb : (run (h ++ [.write 8 v])).noteBeats = (run h).noteBeats := by
      rw [run_snoc]
      simp only [State.step, State.apply, State.keyEvent, if_true, andF, shr3, and7, hoff]
      have hfind : (run h).configs.findIdx (fun c => c.compare (run h).base
          ((run h).channelConfigs.getD (v % 8) {}) 0) = (run h).configs.length := by
        rw [List.findIdx_eq_length]
        intro c hc
        rw [configs_run h hb, List.mem_mapIdx] at hc
        obtain ⟨i, hi, rfl⟩ := hc
        rw [Bool.eq_false_iff]
        intro hcmp
        rw [Config.compare_iff] at hcmp
        exact hid _ (List.getElem_mem hi) hcmp.2.2
      rw [hfind]
      simp
    simp only [State.ticks, hnb]

/-- C20. A recorded note has the instrument number -1 iff its event was a key-off. -/
theorem c20_keyoff_iff (h : List Event) (hb : ByteHistory h) (ch : Nat) (hch : ch < 8)
    (n : Note) (hn : n ∈ (run h).keyPressesOf ch) :
    ∃ i v, h[i]? = some (.write 8 v) ∧ v % 8 = ch ∧ n.sample = time (h.take i) ∧
      -1 ≤ n.configId ∧ (n.configId = -1 ↔ v / 8 % 16 = 0) := by
  rw [keyPresses_run h hb ch hch] at hn
  obtain ⟨i, v, hi, hv, rfl⟩ := note_origin h ch n hn
  refine ⟨i, v, hi, hv, rfl, ?_, ?_⟩
  · by_cases ho : (keyEventAt (h.take i) v).isOn <;> simp [noteOf, ho]
  · by_cases ho : v / 8 % 16 = 0
    · have : ¬ (keyEventAt (h.take i) v).isOn := fun h => h ho
      simp [noteOf, this, ho]
    · have : (keyEventAt (h.take i) v).isOn := ho
      simp only [noteOf, this, if_true, ho, iff_false]
      omega

example : ∃ n ∈ (run sample).keyPressesOf 1, n.configId = -1 := by decide +kernel

/-! ### Key presses: C21, C22, C24 -/

/-- C21/C22/C24, the full description: the key presses of a channel are its recorded key
events, in order, each with the time, pitch and panning at the event. -/
theorem c22_key_presses (h : List Event) (hb : ByteHistory h) (ch : Nat) (hch : ch < 8) :
    (run h).keyPressesOf ch = ((recorded h).filter (·.ch = ch)).map (noteOf h) :=
  keyPresses_run h hb ch hch

theorem dropWhile_filterMap {α : Type} (p : α → Bool) (l : List α) :
    (List.range l.length).filterMap (fun i => if (l.take (i + 1)).any p then l[i]? else none)
      = l.dropWhile (fun a => !p a) := by
  induction l with
  | nil => simp
  | cons a l ih =>
    rw [List.length_cons, List.range_succ_eq_map, List.filterMap_cons, List.filterMap_map]
    cases hp : p a with
    | true =>
      have : ∀ m : List α, (List.range m.length).filterMap (fun i => m[i]?) = m := by
        intro m
        induction m with
        | nil => simp
        | cons b m ihm =>
          rw [List.length_cons, List.range_succ_eq_map, List.filterMap_cons, List.filterMap_map]
          simp only [List.getElem?_cons_zero]
          congr 1
      simp only [List.dropWhile_cons, hp]
      simp [hp]
      exact this l
    | false =>
      simp only [List.dropWhile_cons, hp]
      simp only [Function.comp_def, List.take_succ_cons, List.any_cons, hp, Bool.false_or,
        List.getElem?_cons_succ, List.take_zero, List.any_nil, Nat.zero_add]
      simpa using ih

/-- C21, as far as it holds: recorded are exactly the key events from the first key-on at a
time > 0 on. -/
theorem c21_recorded_partial (h : List Event) (hb : ByteHistory h) (ch : Nat) (hch : ch < 8) :
    (run h).keyPressesOf ch =
      (((keyEvents h).dropWhile (fun e => !decide (e.isOn ∧ 0 < e.time))).filter
        (fun e => e.ch = ch)).map (noteOf h) := by
  rw [keyPresses_run h hb ch hch, Spec.keyPresses, recorded, dropWhile_filterMap]

example : keyEvents ([.write 8 0x78] ++ sample) ≠ [] ∧
    (run ([.write 8 0x78] ++ sample)).keyPressesOf 1 ≠ [] := by decide +kernel

/-- The times of the key events never decrease. -/
theorem keyEvents_times (h : List Event) :
    (keyEvents h).Pairwise (fun a b => a.time ≤ b.time) ∧ ∀ e ∈ keyEvents h, e.time ≤ time h := by
  induction h using list_snoc_ind with
  | nil => simp [keyEvents]
  | snoc h e ih =>
    obtain ⟨h1, h2⟩ := ih
    cases e with
    | wait n =>
      rw [keyEvents_wait, time_wait]
      exact ⟨h1, fun e he => Nat.le_trans (h2 e he) (by omega)⟩
    | write r v =>
      by_cases h8 : r = 8
      · subst h8
        rw [keyEvents_key, time_write]
        refine ⟨?_, ?_⟩
        · rw [List.pairwise_append]
          refine ⟨h1, by simp, ?_⟩
          intro a ha b hb
          rw [List.mem_singleton] at hb; subst hb
          exact h2 a ha
        · intro e he
          rcases List.mem_append.mp he with he | he
          · exact h2 e he
          · rw [List.mem_singleton] at he; subst he; exact Nat.le_refl _
      · rw [keyEvents_other h r v h8, time_write]
        exact ⟨h1, h2⟩

/-- C21, when it holds in full: if the first key-on happens after time 0 then every key
event from the first key-on on is recorded. -/
theorem c21_complete_partial (h : List Event)
    (hfirst : ∀ e ∈ keyEvents h, e.isOn → 0 < e.time) :
    recorded h = (keyEvents h).dropWhile (fun e => !decide e.isOn) := by
  have := dropWhile_filterMap (fun e : KeyEvent => decide (e.isOn ∧ 0 < e.time)) (keyEvents h)
  unfold recorded
  rw [this]
  have : ∀ l : List KeyEvent, (∀ e ∈ l, e.isOn → 0 < e.time) →
      l.dropWhile (fun e => !decide (e.isOn ∧ 0 < e.time)) = l.dropWhile (fun e => !decide e.isOn) := by
    intro l
    induction l with
    | nil => intro _; rfl
    | cons a l ih =>
      intro hl
      simp only [List.dropWhile_cons]
      by_cases ha : a.isOn
      · have := hl a (by simp) ha
        simp [ha, this]
      · simp [ha]
        simpa using ih (fun e he => hl e (by simp [he]))
  exact this _ hfirst

example : (∀ e ∈ keyEvents sample, e.isOn → 0 < e.time) ∧ (recorded sample).length = 3 := by
  decide +kernel

/-- C21 is false as stated: a key-on at time 0, and a key-off after it, leave no note. -/
theorem c21_refuted : ∃ h : List Event, ByteHistory h ∧
    (∃ i v : Nat, h[i]? = some (.write 8 v) ∧ v / 8 % 16 ≠ 0 ∧ v % 8 = 0) ∧
    (∃ i v : Nat, h[i]? = some (.write 8 v) ∧ v / 8 % 16 = 0 ∧ 0 < time (h.take i) ∧ v % 8 = 0) ∧
    (run h).keyPressesOf 0 = [] ∧ (run h).configs.length = 1 ∧ (run h).ticks = [0] :=
  ⟨[.write 8 0x78, .wait 10, .write 8 0], by decide, ⟨0, 0x78, by decide⟩, ⟨2, 0, by decide⟩,
    by decide +kernel, by decide +kernel, by decide +kernel⟩

/-- C21: events at time 0 are never recorded. -/
theorem c21_time_zero_lost (h : List Event) (e : KeyEvent) (he : e ∈ recorded h) : 0 < e.time := by
  simp only [recorded, List.mem_filterMap] at he
  obtain ⟨i, hi, he⟩ := he
  split at he
  · rename_i hany
    rw [List.any_eq_true] at hany
    obtain ⟨e', he', hp⟩ := hany
    simp at hp
    obtain ⟨j, hj⟩ := List.mem_iff_getElem?.mp he'
    rw [List.getElem?_take] at hj
    split at hj
    · rename_i hji
      by_cases hji' : j = i
      · subst hji'
        rw [hj] at he
        cases he
        exact hp.2
      · have hpw := (keyEvents_times h).1
        rw [List.pairwise_iff_getElem] at hpw
        obtain ⟨hj1, hj2⟩ := List.getElem?_eq_some_iff.mp hj
        obtain ⟨hi1, hi2⟩ := List.getElem?_eq_some_iff.mp he
        have := hpw j i hj1 hi1 (by omega)
        rw [hj2, hi2] at this
        omega
    · simp at hj
  · simp at he

theorem recorded_sublist (h : List Event) : List.Sublist (recorded h) (keyEvents h) := by
  have := dropWhile_filterMap (fun e : KeyEvent => decide (e.isOn ∧ 0 < e.time)) (keyEvents h)
  unfold recorded
  rw [this]
  exact List.dropWhile_sublist _

/-- C22. The notes of a channel are in chronological order. -/
theorem c22_chronological (h : List Event) (hb : ByteHistory h) (ch : Nat) (hch : ch < 8) :
    ((run h).keyPressesOf ch).Pairwise (fun a b => a.sample ≤ b.sample) := by
  rw [keyPresses_run h hb ch hch, Spec.keyPresses, List.pairwise_map]
  apply List.Pairwise.filter
  exact (keyEvents_times h).1.sublist (recorded_sublist h)

example : ((run sample).keyPressesOf 1).map (·.sample) = [100, 150, 157] := by decide +kernel

/-- C24. Every note carries its channel's pitch and panning bits as last written before the
event, and the time of the event. -/
theorem c24_note_capture (h : List Event) (hb : ByteHistory h) (ch : Nat) (hch : ch < 8)
    (n : Note) (hn : n ∈ (run h).keyPressesOf ch) :
    ∃ i v, h[i]? = some (.write 8 v) ∧ v % 8 = ch ∧
      n.sample = time (h.take i) ∧
      n.octave = regVal (h.take i) (0x28 + ch) / 16 % 8 ∧
      n.note = regVal (h.take i) (0x28 + ch) % 16 ∧
      n.keyFraction = regVal (h.take i) (0x30 + ch) / 4 ∧
      n.right = decide (128 ≤ regVal (h.take i) (0x20 + ch)) ∧
      n.left = decide (64 ≤ regVal (h.take i) (0x20 + ch) % 128) := by
  rw [keyPresses_run h hb ch hch] at hn
  obtain ⟨i, v, hi, hv, rfl⟩ := note_origin h ch n hn
  subst hv
  exact ⟨i, v, hi, rfl, rfl, rfl, rfl, rfl, rfl, rfl⟩

example : ((run sample).keyPressesOf 1).map (fun n => (n.octave, n.note))
    = [(4, 10), (4, 10), (4, 10)] := by decide +kernel

/-! ### C23 -/

/-- C23. `ticks()` is strictly increasing and holds exactly the times of the key-ons. -/
theorem c23_ticks (h : List Event) (hb : ByteHistory h) :
    (run h).ticks.Pairwise (· < ·) ∧
    ∀ t, t ∈ (run h).ticks ↔
      ∃ i v, h[i]? = some (.write 8 v) ∧ v / 8 % 16 ≠ 0 ∧ t = time (h.take i) := by
  have hi := inv_run h hb
  have hperm := pySorted_perm (fun a b => decide (a < b)) (run h).noteBeats
  refine ⟨?_, ?_⟩
  · have hs : (run h).ticks.Pairwise (fun a b => a ≤ b) := pySorted_nat_sorted _
    have hn : (run h).ticks.Pairwise (· ≠ ·) := hperm.nodup_iff.mpr hi.nodup
    exact (List.pairwise_and_iff.mpr ⟨hs, hn⟩).imp (fun h => by omega)
  · intro t
    have : t ∈ (run h).ticks ↔ t ∈ (run h).noteBeats := hperm.mem_iff
    rw [this, hi.beats]
    constructor
    · rintro ⟨e, he, ho, rfl⟩
      obtain ⟨i, v, hv, rfl⟩ := (mem_keyEvents h e).mp he
      exact ⟨i, v, hv, ho, rfl⟩
    · rintro ⟨i, v, hv, ho, rfl⟩
      exact ⟨_, (mem_keyEvents h _).mpr ⟨i, v, hv, rfl⟩, ho, rfl⟩

example : (run sample).ticks = [100, 150] := by decide +kernel

/-! ### C25 -/

/-- Data-sheet widths of an operator's fields (D2R: five bits). -/
def OperatorInRange (o : OperatorConfig) : Prop :=
  o.totalLevel ≤ 127 ∧ o.attackRate ≤ 31 ∧ o.firstDecayRate ≤ 31 ∧ o.firstDecayLevel ≤ 15 ∧
  o.secondDecayRate ≤ 31 ∧ o.releaseRate ≤ 15 ∧ o.keyScale ≤ 3 ∧ o.multiply ≤ 15 ∧
  o.firstDetune ≤ 7 ∧ o.secondDetune ≤ 3

def ChannelInRange (c : ChannelConfig) : Prop :=
  c.operators.length = 4 ∧ (∀ o ∈ c.operators, OperatorInRange o) ∧
  c.fb ≤ 7 ∧ c.connection ≤ 7 ∧ c.pms ≤ 7 ∧ c.ams ≤ 3 ∧ c.noiseFreq ≤ 31

def BaseInRange (b : BaseConfig) : Prop := b.lfo ≤ 255 ∧ b.ampMd ≤ 127 ∧ b.phsMd ≤ 127

theorem channel_inRange (h : List Event) (hb : ByteHistory h) (ch : Nat) :
    ChannelInRange (Spec.channel h ch) := by
  refine ⟨rfl, ?_, ?_, ?_, ?_, ?_, ?_⟩
  · have : ∀ k, OperatorInRange (operatorWith (· % 16) h ch k) := by
      intro k
      have h1 := regVal_lt h hb (0x80 + 8 * k + ch)
      have h2 := regVal_lt h hb (0xC0 + 8 * k + ch)
      have h3 := regVal_lt h hb (0xE0 + 8 * k + ch)
      simp only [OperatorInRange, operatorWith]
      omega
    intro o ho
    simp only [Spec.channel, channelWith, List.mem_cons, List.not_mem_nil, or_false] at ho
    rcases ho with rfl | rfl | rfl | rfl <;> exact this _
  all_goals simp only [Spec.channel, channelWith]
  · omega
  · omega
  · omega
  · omega
  · by_cases h7 : ch = 7
    · rw [if_pos h7]; omega
    · rw [if_neg h7]; omega

theorem base_inRange (h : List Event) (hb : ByteHistory h) : BaseInRange (Spec.base h) := by
  refine ⟨?_, ?_, ?_⟩
  · have := regVal_lt h hb 0x18
    simp only [Spec.base]; omega
  · exact getLast_writesTo h hb 0x19 _ (· ≤ 127) (by decide)
      (fun v _ hp => by have : v < 128 := by simpa using hp
                        omega)
  · simp only [Spec.base]; omega

/-- C25. Every field is within its data-sheet width: channels, global settings,
instruments, notes. -/
theorem c25_ranges (h : List Event) (hb : ByteHistory h) :
    BaseInRange (run h).base ∧
    (∀ ch < 8, ChannelInRange ((run h).channelConfig ch)) ∧
    (∀ c ∈ (run h).configs, BaseInRange c.base ∧ ChannelInRange c.channel ∧
      1 ≤ c.operators ∧ c.operators ≤ 15) ∧
    (∀ ch < 8, ∀ n ∈ (run h).keyPressesOf ch, n.octave ≤ 7 ∧ n.note ≤ 15 ∧ n.keyFraction ≤ 63 ∧
      -1 ≤ n.configId ∧ n.configId < (run h).configs.length) := by
  have hi := inv_run h hb
  have hbt : ∀ i, ByteHistory (h.take i) := fun i e he => hb e (List.mem_of_mem_take he)
  refine ⟨hi.regs.base ▸ base_inRange h hb, ?_, ?_, ?_⟩
  · intro ch hch
    unfold State.channelConfig
    rw [hi.regs.chans, getD_map_range _ _ _ _ hch]
    exact channel_inRange h hb ch
  · intro c hc
    rw [configs_run h hb, List.mem_mapIdx] at hc
    obtain ⟨i, hl, rfl⟩ := hc
    obtain ⟨e, he, ho, hp⟩ := (mem_instruments h _).mp (List.getElem_mem hl)
    obtain ⟨j, v, hj, rfl⟩ := (mem_keyEvents h e).mp he
    rw [← hp]
    refine ⟨base_inRange _ (hbt j), channel_inRange _ (hbt j) _, ?_, ?_⟩
    · exact Nat.pos_of_ne_zero ho
    · simp only [keyEventAt]; omega
  · intro ch hch n hn
    rw [keyPresses_run h hb ch hch] at hn
    obtain ⟨i, v, hv, hvc, rfl⟩ := note_origin h ch n hn
    have h1 := regVal_lt (h.take i) (hbt i) (0x30 + v % 8)
    refine ⟨?_, ?_, ?_, ?_, ?_⟩
    · simp only [noteOf, keyEventAt, noteConfig]; omega
    · simp only [noteOf, keyEventAt, noteConfig]; omega
    · simp only [noteOf, keyEventAt, noteConfig]; omega
    · by_cases ho : (keyEventAt (h.take i) v).isOn <;> simp [noteOf, ho]
    · rw [configs_run h hb]
      by_cases ho : (keyEventAt (h.take i) v).isOn
      · have hk : keyEventAt (h.take i) v ∈ keyEvents h := (mem_keyEvents h _).mpr ⟨i, v, hv, rfl⟩
        have hm : (keyEventAt (h.take i) v).patch ∈ instruments h :=
          (mem_instruments h _).mpr ⟨_, hk, ho, rfl⟩
        have := List.idxOf_lt_length_iff.mpr hm
        simp [noteOf, ho]
        exact this
      · simp [noteOf, ho]; omega

example : ByteHistory (sample ++ [.write 0x20 255, .write 0x79 255]) := by decide

end VgmX
