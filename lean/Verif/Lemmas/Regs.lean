import Verif.Spec.Ym2151
/-
Helper lemmas: bit masks as div/mod, histories extended by one event, and the register
part of the refinement.
-/

namespace VgmX
open Spec

/-! ### Python equality and copies -/

@[simp] theorem BaseConfig.copy_eq (b : BaseConfig) : b.copy = b := rfl
@[simp] theorem OperatorConfig.copy_eq (b : OperatorConfig) : b.copy = b := rfl
@[simp] theorem ChannelConfig.copy_eq (b : ChannelConfig) : b.copy = b := by
  have : OperatorConfig.copy = id := by funext x; rfl
  simp [ChannelConfig.copy, this]

theorem BaseConfig.pyEq_iff (a b : BaseConfig) : a.pyEq b = true ↔ a = b := by
  cases a; cases b
  simp only [BaseConfig.pyEq, Bool.and_eq_true, beq_iff_eq, BaseConfig.mk.injEq]
  constructor
  · rintro ⟨⟨⟨h1, h2⟩, h3⟩, h4⟩; exact ⟨h4, h1, h3, h2⟩
  · rintro ⟨h4, h1, h3, h2⟩; exact ⟨⟨⟨h1, h2⟩, h3⟩, h4⟩

theorem OperatorConfig.pyEq_iff (a b : OperatorConfig) : a.pyEq b = true ↔ a = b := by
  cases a; cases b
  simp only [OperatorConfig.pyEq, Bool.and_eq_true, beq_iff_eq, OperatorConfig.mk.injEq]
  constructor
  · rintro ⟨⟨⟨⟨⟨⟨⟨⟨⟨⟨h1, h2⟩, h3⟩, h4⟩, h5⟩, h6⟩, h7⟩, h8⟩, h9⟩, h10⟩, h11⟩
    exact ⟨h4, h6, h8, h10, h9, h11, h5, h3, h1, h2, h7⟩
  · rintro ⟨h4, h6, h8, h10, h9, h11, h5, h3, h1, h2, h7⟩
    exact ⟨⟨⟨⟨⟨⟨⟨⟨⟨⟨h1, h2⟩, h3⟩, h4⟩, h5⟩, h6⟩, h7⟩, h8⟩, h9⟩, h10⟩, h11⟩

theorem listPyEq_iff {α : Type} (eq : α → α → Bool) (heq : ∀ a b, eq a b = true ↔ a = b)
    (as bs : List α) : listPyEq eq as bs = true ↔ as = bs := by
  induction as generalizing bs with
  | nil => cases bs <;> simp [listPyEq]
  | cons a as ih => cases bs <;> simp [listPyEq, heq, ih]

theorem ChannelConfig.pyEq_iff (a b : ChannelConfig) : a.pyEq b = true ↔ a = b := by
  cases a; cases b
  simp only [ChannelConfig.pyEq, Bool.and_eq_true, beq_iff_eq, ChannelConfig.mk.injEq,
    listPyEq_iff _ OperatorConfig.pyEq_iff]
  constructor
  · rintro ⟨⟨⟨⟨⟨⟨h1, h2⟩, h3⟩, h4⟩, h5⟩, h6⟩, h7⟩; exact ⟨h5, h1, h3, h4, h2, h6, h7⟩
  · rintro ⟨h5, h1, h3, h4, h2, h6, h7⟩; exact ⟨⟨⟨⟨⟨⟨h1, h2⟩, h3⟩, h4⟩, h5⟩, h6⟩, h7⟩

theorem Config.compare_iff (c : Config) (b : BaseConfig) (ch : ChannelConfig) (op : Nat) :
    c.compare b ch op = true ↔ c.base = b ∧ c.channel = ch ∧ c.operators = op := by
  simp [Config.compare, BaseConfig.pyEq_iff, ChannelConfig.pyEq_iff, and_assoc]

/-! ### Bit masks -/

theorem and7 (n : Nat) : n &&& 0x7 = n % 8 := Nat.and_two_pow_sub_one_eq_mod n 3
theorem and3 (n : Nat) : n &&& 0x3 = n % 4 := Nat.and_two_pow_sub_one_eq_mod n 2
theorem andF (n : Nat) : n &&& 0xF = n % 16 := Nat.and_two_pow_sub_one_eq_mod n 4
theorem and1F (n : Nat) : n &&& 0x1F = n % 32 := Nat.and_two_pow_sub_one_eq_mod n 5
theorem and3F (n : Nat) : n &&& 0x3F = n % 64 := Nat.and_two_pow_sub_one_eq_mod n 6
theorem and7F (n : Nat) : n &&& 0x7F = n % 128 := Nat.and_two_pow_sub_one_eq_mod n 7
theorem shr2 (n : Nat) : n >>> 2 = n / 4 := Nat.shiftRight_eq_div_pow n 2
theorem shr3 (n : Nat) : n >>> 3 = n / 8 := Nat.shiftRight_eq_div_pow n 3
theorem shr4 (n : Nat) : n >>> 4 = n / 16 := Nat.shiftRight_eq_div_pow n 4
theorem shr6 (n : Nat) : n >>> 6 = n / 64 := Nat.shiftRight_eq_div_pow n 6
theorem andF8 : ∀ n < 256, n &&& 0xF8 = n / 8 * 8 := by decide +kernel
theorem andE0 : ∀ n < 256, n &&& 0xE0 = n / 32 * 32 := by decide +kernel
theorem and80 : ∀ n < 256, ((n &&& 0x80) > 0) = (128 ≤ n) := by
  have : ∀ n < 256, ((n &&& 0x80) > 0) ↔ (128 ≤ n) := by decide +kernel
  intro n h; exact propext (this n h)
theorem and40 : ∀ n < 256, ((n &&& 0x40) > 0) = (64 ≤ n % 128) := by
  have : ∀ n < 256, ((n &&& 0x40) > 0) ↔ (64 ≤ n % 128) := by decide +kernel
  intro n h; exact propext (this n h)

/-! ### Histories extended by one event -/

theorem writesTo_wait (h : List Event) (n r : Nat) (p) :
    writesTo (h ++ [.wait n]) r p = writesTo h r p := by
  simp [writesTo]

theorem writesTo_write (h : List Event) (r v q : Nat) (p) :
    writesTo (h ++ [.write r v]) q p
      = writesTo h q p ++ (if r = q ∧ p v then [v] else []) := by
  simp only [writesTo, List.filterMap_append]
  congr 1
  by_cases hc : r = q ∧ p v <;> simp [hc]

theorem regVal_wait (h : List Event) (n r : Nat) :
    regVal (h ++ [.wait n]) r = regVal h r := by
  simp [regVal, writesTo_wait]

theorem regVal_write (h : List Event) (r v q : Nat) :
    regVal (h ++ [.write r v]) q = if r = q then v else regVal h q := by
  unfold regVal
  rw [writesTo_write]
  by_cases hq : r = q <;> simp [hq]

theorem lastTo_write (h : List Event) (r v q : Nat) (p) :
    (writesTo (h ++ [.write r v]) q p).getLast?.getD 0
      = if r = q ∧ p v then v else (writesTo h q p).getLast?.getD 0 := by
  rw [writesTo_write]
  by_cases hq : r = q ∧ p v <;> simp [hq]

theorem time_append (a b : List Event) : time (a ++ b) = time a + time b := by
  simp [time]

theorem time_wait (h : List Event) (n : Nat) : time (h ++ [.wait n]) = time h + n := by
  simp [time]

theorem time_write (h : List Event) (r v : Nat) : time (h ++ [.write r v]) = time h := by
  simp [time]

theorem ByteHistory.snoc {h : List Event} {e : Event} (hb : ByteHistory (h ++ [e])) :
    ByteHistory h ∧ e.IsByte :=
  ⟨fun x hx => hb x (by simp [hx]), hb e (by simp)⟩

/-- The last value satisfying `p` written to `r`, or 0, inherits a property that holds of 0
and of all bytes satisfying `p`. -/
theorem getLast_writesTo (h : List Event) (hb : ByteHistory h) (r : Nat) (p : Nat → Bool)
    (P : Nat → Prop) (h0 : P 0) (hP : ∀ v < 256, p v = true → P v) :
    P ((writesTo h r p).getLast?.getD 0) := by
  cases hl : (writesTo h r p).getLast? with
  | none => simpa
  | some x =>
    have hx : x ∈ writesTo h r p := List.mem_of_getLast? hl
    simp only [writesTo, List.mem_filterMap] at hx
    obtain ⟨e, he, hex⟩ := hx
    have hbe := hb e he
    cases e with
    | wait n => simp at hex
    | write r' v' =>
      simp only [Option.ite_none_right_eq_some, Option.some.injEq] at hex
      obtain ⟨⟨h1, h2⟩, h3⟩ := hex
      subst h3
      exact hP _ hbe.2 h2

theorem regVal_lt (h : List Event) (hb : ByteHistory h) (r : Nat) : regVal h r < 256 :=
  getLast_writesTo h hb r _ (· < 256) (by decide) (fun _ hv _ => hv)

/-! ### Lists indexed by channel -/

theorem map_range_modify {α : Type} (n i : Nat) (f : Nat → α) (g : α → α) :
    ((List.range n).map f).modify i g
      = (List.range n).map (fun j => if j = i then g (f j) else f j) := by
  apply List.ext_getElem?
  intro j
  simp only [List.getElem?_modify, List.getElem?_map]
  by_cases hj : j < n
  · by_cases hi : i = j
    · subst hi; simp [List.getElem?_range hj]
    · have : ¬ j = i := fun h => hi h.symm
      simp [List.getElem?_range hj, hi, this]
  · have : (List.range n)[j]? = none := by simp; omega
    simp [this]

theorem map_range_congr {α : Type} {n : Nat} {f g : Nat → α} (h : ∀ i < n, f i = g i) :
    (List.range n).map f = (List.range n).map g := by
  apply List.map_congr_left
  intro a ha
  exact h a (List.mem_range.mp ha)

theorem getD_map_range {α : Type} (n i : Nat) (f : Nat → α) (d : α) (hi : i < n) :
    ((List.range n).map f).getD i d = f i := by
  simp [List.getD, List.getElem?_range hi]

end VgmX
