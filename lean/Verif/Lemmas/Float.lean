import Verif.Model.Float
import Mathlib.Tactic.Linarith
import Mathlib.Tactic.Positivity
import Mathlib.Tactic.FieldSimp
import Mathlib.Tactic.Ring
import Mathlib.Data.Rat.Floor
/-
Error bounds for the rounding functions of Model/Float.
-/

namespace VgmX

theorem pow2_eq (k : Int) : pow2 k = (2 : ℚ) ^ k := by
  cases k with
  | ofNat n => simp [pow2]
  | negSucc n => simp [pow2, zpow_negSucc]

theorem pow2_pos (k : Int) : 0 < pow2 k := by rw [pow2_eq]; exact zpow_pos (by norm_num) k

theorem pow2_succ (k : Int) : pow2 (k + 1) = 2 * pow2 k := by
  rw [pow2_eq, pow2_eq, zpow_add_one₀ (by norm_num)]; ring

theorem pow2_sub (a b : Int) : pow2 (a - b) = pow2 a / pow2 b := by
  rw [pow2_eq, pow2_eq, pow2_eq, zpow_sub₀ (by norm_num)]

theorem pow2_add (a b : Int) : pow2 (a + b) = pow2 a * pow2 b := by
  rw [pow2_eq, pow2_eq, pow2_eq, zpow_add₀ (by norm_num)]

theorem pow2_mono {a b : Int} (h : a ≤ b) : pow2 a ≤ pow2 b := by
  rw [pow2_eq, pow2_eq]; exact zpow_le_zpow_right₀ (by norm_num) h

theorem pow2_lt {a b : Int} (h : pow2 a < pow2 b) : a < b := by
  by_contra hc
  have := pow2_mono (not_lt.mp hc)
  linarith

theorem pow2_nat (n : Nat) : pow2 (n : Int) = (2 : ℚ) ^ n := by
  rw [pow2_eq, zpow_natCast]

theorem ilog2_spec {q : ℚ} (hq : 0 < q) : pow2 (ilog2 q) ≤ q ∧ q < pow2 (ilog2 q + 1) := by
  have hn : 0 < q.num := Rat.num_pos.mpr hq
  have hn0 : q.num.natAbs ≠ 0 := by omega
  have hd0 : q.den ≠ 0 := q.den_nz
  have h1 : (2 : ℚ) ^ (Nat.log2 q.num.natAbs) ≤ (q.num : ℚ) := by
    have := Nat.log2_self_le hn0
    have h2 : ((2 ^ (Nat.log2 q.num.natAbs) : Nat) : ℚ) ≤ (q.num.natAbs : ℚ) := by exact_mod_cast this
    have h3 : ((q.num.natAbs : Nat) : ℚ) = (q.num : ℚ) := by
      have : ((q.num.natAbs : Nat) : Int) = q.num := by omega
      calc ((q.num.natAbs : Nat) : ℚ) = (((q.num.natAbs : Nat) : Int) : ℚ) := rfl
        _ = _ := by rw [this]
    rw [h3] at h2; push_cast at h2; exact h2
  have h2 : (q.num : ℚ) < (2 : ℚ) ^ (Nat.log2 q.num.natAbs + 1) := by
    have := @Nat.lt_log2_self q.num.natAbs
    have h2 : (q.num.natAbs : ℚ) < ((2 ^ (Nat.log2 q.num.natAbs + 1) : Nat) : ℚ) := by exact_mod_cast this
    have h3 : ((q.num.natAbs : Nat) : ℚ) = (q.num : ℚ) := by
      have : ((q.num.natAbs : Nat) : Int) = q.num := by omega
      calc ((q.num.natAbs : Nat) : ℚ) = (((q.num.natAbs : Nat) : Int) : ℚ) := rfl
        _ = _ := by rw [this]
    rw [h3] at h2; push_cast at h2; exact h2
  have h3 : (2 : ℚ) ^ (Nat.log2 q.den) ≤ (q.den : ℚ) := by exact_mod_cast Nat.log2_self_le hd0
  have h4 : (q.den : ℚ) < (2 : ℚ) ^ (Nat.log2 q.den + 1) := by exact_mod_cast @Nat.lt_log2_self q.den
  have hqe : q = (q.num : ℚ) / (q.den : ℚ) := (Rat.num_div_den q).symm
  have hdp : (0 : ℚ) < (q.den : ℚ) := by exact_mod_cast Nat.pos_of_ne_zero hd0
  unfold ilog2
  generalize hA : Nat.log2 q.num.natAbs = a at *
  generalize hB : Nat.log2 q.den = b at *
  have hub : q < pow2 ((a : Int) - (b : Int) + 1) := by
    have : (a : Int) - (b : Int) + 1 = ((a + 1 : Nat) : Int) - (b : Int) := by push_cast; ring
    rw [this, pow2_sub, pow2_nat, pow2_nat, lt_div_iff₀ (by positivity)]
    have hx : q * (q.den : ℚ) = q.num := by rw [eq_comm, ← div_eq_iff (ne_of_gt hdp)]; exact hqe.symm
    calc q * 2 ^ b ≤ q * q.den := by apply mul_le_mul_of_nonneg_left h3 hq.le
      _ = q.num := hx
      _ < _ := h2
  have hlb : pow2 ((a : Int) - (b : Int) - 1) ≤ q := by
    have : (a : Int) - (b : Int) - 1 = (a : Int) - ((b + 1 : Nat) : Int) := by push_cast; ring
    rw [this, pow2_sub, pow2_nat, pow2_nat, div_le_iff₀ (by positivity)]
    have hx : q * (q.den : ℚ) = q.num := by rw [eq_comm, ← div_eq_iff (ne_of_gt hdp)]; exact hqe.symm
    calc (2 : ℚ) ^ a ≤ q.num := h1
      _ = q * q.den := hx.symm
      _ ≤ q * 2 ^ (b + 1) := by apply mul_le_mul_of_nonneg_left h4.le hq.le
  simp only []
  split
  · rename_i h; exact ⟨h, hub⟩
  · rename_i h
    refine ⟨hlb, ?_⟩
    rw [sub_add_cancel]; exact not_le.mp h

theorem roundHalfEven_err (q : ℚ) : |(roundHalfEven q : ℚ) - q| ≤ 1 / 2 := by
  have h1 : ((q.floor : Int) : ℚ) ≤ q := Rat.floor_le q
  have h2 : q < ((q.floor : Int) : ℚ) + 1 := by
    have := Rat.lt_floor_add_one q
    push_cast at this; exact this
  unfold roundHalfEven
  simp only []
  rw [abs_le]
  split
  · constructor <;> linarith
  · split
    · push_cast; constructor <;> linarith
    · have : q - (q.floor : ℚ) = 1 / 2 := le_antisymm (not_lt.mp ‹_›) (not_lt.mp ‹_›)
      split
      · constructor <;> linarith
      · push_cast; constructor <;> linarith

theorem roundHalfEven_int (n : Int) : roundHalfEven (n : ℚ) = n := by
  have : (n : ℚ).floor = n := Rat.floor_intCast n
  unfold roundHalfEven
  simp [this]

/-- Relative error of rounding in the normal range. -/
theorem roundDouble_err {q : ℚ} (hq : 0 < q) (hn : pow2 (-1022) ≤ q) :
    |roundDouble q - q| ≤ q * pow2 (-53) := by
  obtain ⟨h1, h2⟩ := ilog2_spec hq
  have hk : -1022 ≤ ilog2 q := by
    have : pow2 (-1022) < pow2 (ilog2 q + 1) := lt_of_le_of_lt hn h2
    have := pow2_lt this
    omega
  have hm : max (ilog2 q - 52) (-1074) = ilog2 q - 52 := by omega
  unfold roundDouble
  rw [if_neg (ne_of_gt hq)]
  simp only [if_neg (not_lt.mpr hq.le), hm]
  set u := pow2 (ilog2 q - 52) with hu
  have hup : 0 < u := pow2_pos _
  have he := roundHalfEven_err (q / u)
  have : (roundHalfEven (q / u) : ℚ) * u - q = ((roundHalfEven (q / u) : ℚ) - q / u) * u := by
    field_simp
  rw [this, abs_mul, abs_of_pos hup]
  calc |(roundHalfEven (q / u) : ℚ) - q / u| * u ≤ 1 / 2 * u := by
        apply mul_le_mul_of_nonneg_right he hup.le
    _ = pow2 (ilog2 q) * pow2 (-53) := by
        rw [hu, ← pow2_add]
        have : ilog2 q - 52 = ilog2 q + -53 + 1 := by ring
        rw [this, pow2_succ]; ring
    _ ≤ _ := by apply mul_le_mul_of_nonneg_right h1 (pow2_pos _).le

end VgmX
