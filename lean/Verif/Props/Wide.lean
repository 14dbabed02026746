import Verif.Spec.Wide
import Verif.Props.State
/-
Property C99: registers and values that are not bytes.
-/

namespace VgmX
open Spec

theorem and_low (v m : Nat) (h : 255 &&& m = m) : (v % 256) &&& m = v &&& m := by
  have : v % 256 = v &&& 255 := (Nat.and_two_pow_sub_one_eq_mod v 8).symm
  rw [this, Nat.and_assoc, h]

theorem shift_low (v k m : Nat) (h : (255 >>> k) &&& m = m) :
    ((v % 256) >>> k) &&& m = (v >>> k) &&& m := by
  have : v % 256 = v &&& 255 := (Nat.and_two_pow_sub_one_eq_mod v 8).symm
  rw [this, Nat.shiftRight_and_distrib, Nat.and_assoc, h]

theorem keyEvent_low (s : State) (v : Nat) : s.keyEvent (v % 256) = s.keyEvent v := by
  unfold State.keyEvent
  rw [shift_low v 3 0xF (by decide), and_low v 7 (by decide)]

theorem bit7 (v : Nat) : 0 < v &&& 128 ↔ v / 128 % 2 = 1 := by
  have h : ∀ x < 256, 0 < x &&& 128 ↔ x / 128 = 1 := by decide +kernel
  rw [← and_low v 128 (by decide), h _ (Nat.mod_lt _ (by decide))]
  omega

/-- Only the low byte of the value counts, except for the two writes that keep it whole. -/
theorem apply_value_low (s : State) (r v : Nat) (hk : ¬ KeptWhole r v) :
    s.apply r (v % 256) = s.apply r v := by
  unfold State.apply
  rw [keyEvent_low]
  simp only [and_low v (1 <<< 7) (by decide), and_low v (1 <<< 6) (by decide),
    and_low v 0x1F (by decide), and_low v 0x7F (by decide), and_low v 0x3 (by decide),
    and_low v 0x07 (by decide), and_low v 0x0F (by decide), and_low v 0x80 (by decide),
    shift_low v 3 0x07 (by decide), shift_low v 4 0x07 (by decide), shift_low v 2 0x3F (by decide),
    shift_low v 6 0x3 (by decide), shift_low v 4 0x0F (by decide)]
  by_cases h18 : r = 0x18
  · exact absurd (.inl h18) hk
  · by_cases h19 : r = 0x19
    · have hb : 0 < v &&& 128 := by
        rw [bit7]
        have : ¬ v / 128 % 2 = 0 := fun h => hk (.inr ⟨h19, h⟩)
        omega
      subst h19
      simp only [show (1 <<< 7 : Nat) = 128 from rfl, gt_iff_lt, if_pos hb]
      rfl
    · simp only [if_neg h18, if_neg h19]

/-- Registers from 256 on. -/
theorem apply_reg_low (s : State) (r v : Nat) (hr : 256 ≤ r) :
    s.apply r v = if r % 256 < 0x20 then s else s.apply (r % 256) v := by
  have hlt : r % 256 < 256 := Nat.mod_lt _ (by decide)
  have hmask : ∀ m, 255 &&& m = m → r &&& m = (r % 256) &&& m := fun m h => (and_low r m h).symm
  have hne : ∀ k < 256, r ≠ k := fun k hk => by omega
  by_cases h : r % 256 < 0x20
  · rw [if_pos h]
    have hz : ∀ x < 0x20, x &&& 0xF8 < 0x20 ∧ x &&& 0xE0 = 0 := by decide
    obtain ⟨h1, h2⟩ := hz _ h
    unfold State.apply
    rw [hmask 0xF8 (by decide), hmask 0xE0 (by decide), h2]
    simp only [hne 0x08 (by decide), hne 0x0F (by decide), hne 0x18 (by decide),
      hne 0x19 (by decide), hne 0x1B (by decide), if_false]
    generalize r % 256 &&& 0xF8 = x at h1
    rw [if_neg (by omega : ¬ x = 0x20), if_neg (by omega : ¬ x = 0x28),
      if_neg (by omega : ¬ x = 0x30), if_neg (by omega : ¬ x = 0x38)]
    rfl
  · rw [if_neg h]
    have hne' : ∀ k < 0x20, r % 256 ≠ k := fun k hk => by omega
    unfold State.apply
    rw [hmask 0xF8 (by decide), hmask 0xE0 (by decide), hmask 7 (by decide),
      ← shift_low r 3 3 (by decide)]
    simp only [hne 0x08 (by decide), hne 0x0F (by decide), hne 0x18 (by decide),
      hne 0x19 (by decide), hne 0x1B (by decide), hne' 0x08 (by decide), hne' 0x0F (by decide),
      hne' 0x18 (by decide), hne' 0x19 (by decide), hne' 0x1B (by decide), if_false]

theorem step_low (s : State) (e : Event)
    (hk : ∀ r v, e = .write r v → KeptWhole r v → v < 256) :
    s.step e = (e.low.toList).foldl State.step s := by
  cases e with
  | wait n => rfl
  | write r v =>
    have hv : s.apply r v = s.apply r (v % 256) := by
      by_cases h : KeptWhole r v
      · rw [Nat.mod_eq_of_lt (hk r v rfl h)]
      · exact (apply_value_low s r v h).symm
    show s.apply r v = List.foldl State.step s
      (if 256 ≤ r ∧ r % 256 < 0x20 then none else some (Event.write (r % 256) (v % 256))).toList
    by_cases hr : 256 ≤ r
    · rw [hv, apply_reg_low s r _ hr]
      by_cases h : r % 256 < 0x20
      · rw [if_pos h, if_pos ⟨hr, h⟩]; rfl
      · rw [if_neg h, if_neg (fun h' => h h'.2)]; rfl
    · rw [if_neg (fun h' => hr h'.1), Nat.mod_eq_of_lt (by omega : r < 256), hv]; rfl

/-- C99. Commands with any non-negative numbers: if the writes that keep their value whole have
bytes, the state (instruments, notes, clock, everything) is that of the commands with the low
bytes, without those to registers that do not exist. In particular nothing raises, and a number
too large does not touch the neighbouring fields. -/
theorem c99_low (h : List Event)
    (hk : ∀ r v, .write r v ∈ h → KeptWhole r v → v < 256) :
    run h = run (h.filterMap Event.low) ∧ ByteHistory (h.filterMap Event.low) := by
  constructor
  · unfold run
    generalize State.init = s
    induction h generalizing s with
    | nil => rfl
    | cons e h ih =>
      rw [List.foldl_cons, step_low s e (fun r v he => hk r v (by simp [he])),
        ih (fun r v hm => hk r v (by simp [hm]))]
      cases hl : e.low with
      | none => rw [List.filterMap_cons_none hl]; rfl
      | some e' => rw [List.filterMap_cons_some hl]; rfl
  · intro e he
    obtain ⟨e', _, hl⟩ := List.mem_filterMap.mp he
    cases e' with
    | wait n => cases hl; exact trivial
    | write r v =>
      have hl : (if 256 ≤ r ∧ r % 256 < 0x20 then none
        else some (Event.write (r % 256) (v % 256))) = some e := hl
      split at hl
      · exact absurd hl (by simp)
      · rw [← Option.some.inj hl]
        exact ⟨Nat.mod_lt _ (by decide), Nat.mod_lt _ (by decide)⟩

/-- C99. The two exceptions: the LFO frequency and the AM depth are stored as given, however large,
and nothing else changes. -/
theorem c99_whole (h : List Event) (v : Nat) :
    run (h ++ [.write 0x18 v]) = { run h with base := { (run h).base with lfo := v } } ∧
    (v / 128 % 2 = 0 →
      run (h ++ [.write 0x19 v]) = { run h with base := { (run h).base with ampMd := v } }) := by
  have e : ∀ r, run (h ++ [.write r v]) = (run h).apply r v := by
    intro r; unfold run; rw [List.foldl_append]; rfl
  constructor
  · rw [e]; rfl
  · intro hv
    have hb : ¬ 0 < v &&& 128 := by rw [bit7]; omega
    rw [e]
    unfold State.apply
    simp only [show (1 <<< 7 : Nat) = 128 from rfl, gt_iff_lt, if_neg hb]
    rfl

/-- Two writes with numbers that are not bytes, one to a register that does not exist, and a key
event. -/
example :
    let h : List Event := [.write 0x128 0x34A, .wait 5, .write 0x108 0x78, .write 0x08 0x178]
    (∀ r v, .write r v ∈ h → KeptWhole r v → v < 256) ∧
    h.filterMap Event.low = [.write 0x28 0x4A, .wait 5, .write 0x08 0x78] ∧
    (run h).keyPressesOf 0 = [⟨0, false, false, 4, 10, 0, 5⟩] ∧
    (run (h ++ [.write 0x18 1000])).base.lfo = 1000 := by
  refine ⟨?_, by decide +kernel, by decide +kernel, by decide +kernel⟩
  intro r v hm hk
  simp only [List.mem_cons, Event.write.injEq, reduceCtorEq, List.not_mem_nil, or_false, false_or]
    at hm
  rcases hm with ⟨rfl, rfl⟩ | ⟨rfl, rfl⟩ | ⟨rfl, rfl⟩ <;> revert hk <;> decide

end VgmX
