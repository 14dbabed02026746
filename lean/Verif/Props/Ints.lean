import Verif.Spec.Ints
import Verif.Props.Wide
/-
Property C131: negative registers and values.
-/

namespace VgmX
open Spec

/-- The low byte. -/
def low8 (x : Int) : Nat := (x % 256).toNat

theorem low8_lt (x : Int) : low8 x < 256 := by unfold low8; omega

theorem low8_ofNat (n : Nat) : low8 (.ofNat n) = n % 256 := by
  unfold low8; simp only [Int.ofNat_eq_natCast]; omega

theorem low8_negSucc (n : Nat) : low8 (.negSucc n) = 255 - n % 256 := by
  unfold low8; rw [Int.negSucc_eq]; omega

theorem pyAnd_low (x : Int) (k m : Nat) (h : (255 >>> k) &&& m = m)
    (h' : ∀ a < 256, m - ((a >>> k) &&& m) = ((255 - a) >>> k) &&& m) :
    pyAnd (x >>> k) m = (low8 x >>> k) &&& m := by
  cases x with
  | ofNat n =>
    rw [low8_ofNat, shift_low n k m h]
    rfl
  | negSucc n =>
    rw [low8_negSucc, ← h' _ (Nat.mod_lt _ (by decide)), shift_low n k m h]
    rfl

theorem pyAnd_low0 (x : Int) (m : Nat) (h : 255 &&& m = m)
    (h' : ∀ a < 256, m - (a &&& m) = (255 - a) &&& m) :
    pyAnd x m = low8 x &&& m := by
  have := pyAnd_low x 0 m h h'
  simpa using this

theorem keyFields (v : Nat) : ((v >>> 3) &&& 0xF) * 8 + (v &&& 7) = v % 128 := by
  have e1 : (v >>> 3) &&& 0xF = v / 8 % 16 := by
    rw [show (0xF : Nat) = 2 ^ 4 - 1 from rfl, Nat.and_two_pow_sub_one_eq_mod, Nat.shiftRight_eq_div_pow]
  have e2 : v &&& 7 = v % 8 := by
    rw [show (7 : Nat) = 2 ^ 3 - 1 from rfl, Nat.and_two_pow_sub_one_eq_mod]
  rw [e1, e2]; omega

theorem keyEvent_fields (s : State) (v : Nat) : s.keyEvent (v % 128) = s.keyEvent v := by
  have h1 : (v % 128) &&& 7 = v &&& 7 := by
    have : v % 128 = v &&& 127 := (Nat.and_two_pow_sub_one_eq_mod v 7).symm
    rw [this, Nat.and_assoc]; rfl
  have h2 : ((v % 128) >>> 3) &&& 0xF = (v >>> 3) &&& 0xF := by
    have : v % 128 = v &&& 127 := (Nat.and_two_pow_sub_one_eq_mod v 7).symm
    rw [this, Nat.shiftRight_and_distrib, Nat.and_assoc]; rfl
  unfold State.keyEvent
  rw [h1, h2]

/-- A number, for a register: one that is not a byte is not a byte. -/
def natReg (r : Int) : Nat := if r < 0 then 256 + low8 r else r.toNat

theorem natReg_and (r : Int) (m : Nat) (h : 255 &&& m = m) : natReg r &&& m = low8 r &&& m := by
  unfold natReg
  split
  · rw [← and_low (256 + low8 r) m h, Nat.add_mod_left, Nat.mod_eq_of_lt (low8_lt r)]
  · rw [← and_low r.toNat m h]
    congr 1
    unfold low8
    omega

theorem natReg_shift (r : Int) : (natReg r >>> 3) &&& 3 = (low8 r >>> 3) &&& 3 := by
  unfold natReg
  split
  · rw [← shift_low (256 + low8 r) 3 3 (by decide), Nat.add_mod_left, Nat.mod_eq_of_lt (low8_lt r)]
  · rw [← shift_low r.toNat 3 3 (by decide)]
    congr 2
    unfold low8
    omega

theorem applyInt_eq (s : State) (r v : Int) (hk : keepsWhole r v → 0 ≤ v ∧ v < 256) :
    s.applyInt r v = s.apply (natReg r) (low8 v) := by
  have e08 : natReg r = 0x08 ↔ r = 0x08 := by unfold natReg; split <;> omega
  have e0F : natReg r = 0x0F ↔ r = 0x0F := by unfold natReg; split <;> omega
  have e18 : natReg r = 0x18 ↔ r = 0x18 := by unfold natReg; split <;> omega
  have e19 : natReg r = 0x19 ↔ r = 0x19 := by unfold natReg; split <;> omega
  have e1B : natReg r = 0x1B ↔ r = 0x1B := by unfold natReg; split <;> omega
  unfold State.applyInt State.apply
  simp only [e08, e0F, e18, e19, e1B, natReg_and r 0xF8 (by decide),
    natReg_and r 0xE0 (by decide), natReg_and r 7 (by decide), natReg_shift]
  simp only [pyAnd_low0 r 0xF8 (by decide) (by decide +kernel),
    pyAnd_low0 r 0xE0 (by decide) (by decide +kernel), pyAnd_low0 r 7 (by decide) (by decide +kernel),
    pyAnd_low r 3 3 (by decide) (by decide +kernel),
    pyAnd_low0 v (1 <<< 7) (by decide) (by decide +kernel),
    pyAnd_low0 v (1 <<< 6) (by decide) (by decide +kernel),
    pyAnd_low0 v 0x1F (by decide) (by decide +kernel), pyAnd_low0 v 0x7F (by decide) (by decide +kernel),
    pyAnd_low0 v 0x3 (by decide) (by decide +kernel), pyAnd_low0 v 0x07 (by decide) (by decide +kernel),
    pyAnd_low0 v 0x0F (by decide) (by decide +kernel), pyAnd_low0 v 0x80 (by decide) (by decide +kernel),
    pyAnd_low v 3 0x07 (by decide) (by decide +kernel), pyAnd_low v 4 0x07 (by decide) (by decide +kernel),
    pyAnd_low v 3 0xF (by decide) (by decide +kernel),
    pyAnd_low v 2 0x3F (by decide) (by decide +kernel), pyAnd_low v 6 0x3 (by decide) (by decide +kernel),
    pyAnd_low v 4 0x0F (by decide) (by decide +kernel), keyFields, keyEvent_fields]
  by_cases h18 : r = 0x18
  · obtain ⟨h1, h2⟩ := hk (.inl h18)
    have : low8 v = v.toNat := by unfold low8; omega
    simp only [this, gt_iff_lt]
  · by_cases h19 : r = 0x19
    · by_cases hb : 0 < low8 v &&& (1 <<< 7)
      · subst h19
        simp only [gt_iff_lt, if_pos hb]
        rfl
      · have hb' : ¬ 0 < low8 v &&& 128 := hb
        rw [bit7] at hb'
        obtain ⟨h1, h2⟩ := hk (.inr ⟨h19, by unfold low8 at hb'; omega⟩)
        have : low8 v = v.toNat := by unfold low8; omega
        simp only [this, gt_iff_lt]
    · simp only [if_neg h18, if_neg h19, gt_iff_lt]

/-- C131. Commands with any numbers, negative ones too: if the writes that keep their value whole have
bytes, the state (instruments, notes, clock, everything) is that of the commands with the low bytes,
without those to registers that do not exist. -/
theorem c131_low (h : List IntCall)
    (hk : ∀ r v, .write r v ∈ h → keepsWhole r v → 0 ≤ v ∧ v < 256) :
    runInts h = run (h.filterMap byteCall) ∧ ByteHistory (h.filterMap byteCall) := by
  have key : ∀ (s : State) (c : IntCall), (∀ r v, c = .write r v → keepsWhole r v → 0 ≤ v ∧ v < 256) →
      s.stepInt c = (byteCall c).toList.foldl State.step s := by
    intro s c hc
    cases c with
    | wait n => rfl
    | write r v =>
      show s.applyInt r v = _
      rw [applyInt_eq s r v (hc r v rfl)]
      show _ = List.foldl State.step s (if (r < 0 ∨ 256 ≤ r) ∧ r % 256 < 0x20 then none
        else some (Event.write (r % 256).toNat (v % 256).toNat)).toList
      have hlow : (r % 256).toNat = low8 r := rfl
      have hlow' : (v % 256).toNat = low8 v := rfl
      by_cases hr : r < 0 ∨ 256 ≤ r
      · have hn : 256 ≤ natReg r := by unfold natReg; split <;> omega
        have hm : natReg r % 256 = low8 r := by
          unfold natReg low8; split <;> omega
        rw [apply_reg_low s _ _ hn, hm]
        by_cases hz : low8 r < 0x20
        · rw [if_pos hz, if_pos ⟨hr, by unfold low8 at hz; omega⟩]; rfl
        · rw [if_neg hz, if_neg (fun hh => hz (by unfold low8; omega)), hlow, hlow']; rfl
      · have hn : natReg r = low8 r := by
          unfold natReg low8; split <;> omega
        rw [if_neg (fun hh => hr hh.1), hn, hlow, hlow']; rfl
  constructor
  · unfold runInts run
    generalize State.init = s
    induction h generalizing s with
    | nil => rfl
    | cons c h ih =>
      rw [List.foldl_cons, key s c (fun r v he => hk r v (by simp [he])),
        ih (fun r v hm => hk r v (by simp [hm]))]
      rw [List.filterMap_cons]
      cases byteCall c with
      | none => rfl
      | some e => rfl
  · intro e hm
    obtain ⟨c, _, hc⟩ := List.mem_filterMap.1 hm
    cases c with
    | wait n => simp only [byteCall, Option.some.injEq] at hc; subst hc; trivial
    | write r' v' =>
      unfold byteCall at hc
      simp only at hc
      split at hc
      · cases hc
      · simp only [Option.some.injEq] at hc
        subst hc
        exact ⟨by omega, by omega⟩

theorem applyInt_nat (s : State) (r v : Nat) : s.applyInt r v = s.apply r v := by
  have e08 : (r : Int) = 0x08 ↔ r = 0x08 := by omega
  have e0F : (r : Int) = 0x0F ↔ r = 0x0F := by omega
  have e18 : (r : Int) = 0x18 ↔ r = 0x18 := by omega
  have e19 : (r : Int) = 0x19 ↔ r = 0x19 := by omega
  have e1B : (r : Int) = 0x1B ↔ r = 0x1B := by omega
  have a : ∀ n m : Nat, pyAnd (n : Int) m = n &&& m := fun _ _ => rfl
  have b : ∀ n k m : Nat, pyAnd ((n : Int) >>> k) m = (n >>> k) &&& m := fun _ _ _ => rfl
  unfold State.applyInt State.apply
  simp only [e08, e0F, e18, e19, e1B, a, b, keyFields, keyEvent_fields, Int.toNat_natCast, gt_iff_lt]

/-- C131. Numbers that are not negative are as before (C99). -/
theorem c131_nat (h : List Event) :
    runInts (h.map fun | .write r v => .write r v | .wait n => .wait n) = run h := by
  unfold runInts run
  generalize State.init = s
  induction h generalizing s with
  | nil => rfl
  | cons e h ih =>
    rw [List.map_cons, List.foldl_cons, List.foldl_cons, ih]
    congr 1
    cases e with
    | wait n => rfl
    | write r v => exact applyInt_nat s r v

/-- A key-on written with negative numbers: register -224 is 0x20, value -63 is 0xC1; the key register
itself is not reached by -248, whose low byte is 8. -/
example :
    runInts [.wait 5, .write (-224) (-63), .write (-248) 0x78, .write 8 (-136)] =
      run [.wait 5, .write 0x20 0xC1, .write 8 0x78] ∧
    ((runInts [.wait 5, .write (-224) (-63), .write 8 (-136)]).keyPressesOf 0).length = 1 := by
  decide +kernel

end VgmX
