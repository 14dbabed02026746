import Verif.Spec.Decimal
import Verif.Props.Csv
import Verif.Lemmas.Report
import Mathlib.Tactic.IntervalCases
/-
C73: what the Fraction column of the CSV file says.
-/

namespace VgmX
open Spec

/-! ### Reading the text back -/

theorem natStr_no {c : Char} (hc : isDec c = false) (n : Nat) : c ∉ natStr n := by
  intro h
  have := natStr_dec n c h
  rw [hc] at this
  cases this

theorem readBase_digit_cons (d : Nat) : readBase 10 (natStr d) = some d := readBase_natStr d

theorem readBase_zeros (k n : Nat) : readBase 10 (List.replicate k '0' ++ natStr n) = some n := by
  unfold readBase
  have hne : List.replicate k '0' ++ natStr n ≠ [] := by
    intro h
    exact natStr_ne_nil n (List.append_eq_nil_iff.mp h).2
  rw [if_neg hne, readFrom_zeros (by decide)]
  have := readBase_natStr n
  unfold readBase at this
  rwa [if_neg (natStr_ne_nil n)] at this

theorem natStr_length_one (n : Nat) (h : n < 10) : (natStr n).length = 1 := by
  interval_cases n <;> rfl

theorem natStr_length_two (n : Nat) (h1 : 10 ≤ n) (h2 : n < 100) : (natStr n).length = 2 := by
  interval_cases n <;> rfl

theorem mantissa_point (i f : Str) (hi : '.' ∉ i) (hf : '.' ∉ f) (n m : Nat)
    (h1 : readBase 10 i = some n) (h2 : readBase 10 f = some m) :
    readMantissa (i ++ '.' :: f) = some ((n : ℚ) + (m : ℚ) / 10 ^ f.length) := by
  unfold readMantissa
  rw [splitAt_cons hi, splitAt_no hf]
  simp only [h1, h2]

theorem mantissa_plain (i : Str) (hi : '.' ∉ i) (n : Nat) (h1 : readBase 10 i = some n) :
    readMantissa i = some (n : ℚ) := by
  unfold readMantissa
  rw [splitAt_no hi]
  simp only [h1]
  rfl

theorem decimal_plain (s : Str) (h : 'e' ∉ s) : readDecimal s = readMantissa s := by
  unfold readDecimal
  rw [splitAt_no h]

theorem decimal_exp (m e : Str) (hm : 'e' ∉ m) (he : 'e' ∉ e) (x : ℚ) (k : Nat)
    (h1 : readMantissa m = some x) (h2 : readBase 10 e = some k) :
    readDecimal (m ++ 'e' :: '-' :: e) = some (x / 10 ^ k) := by
  unfold readDecimal
  rw [splitAt_cons hm, splitAt_no (s := '-' :: e) (by simp [he])]
  simp only [h1, h2]

/-- The two digits and the position of the point are read back. -/
theorem readDecimal_layout2 (d k : Nat) (h1 : 10 ≤ d) (h2 : d ≤ 99) :
    readDecimal (layout2 d k) = some ((d : ℚ) / 10 ^ (k + 1)) := by
  have hd : ((d / 10 : Nat) : ℚ) * 10 + ((d % 10 : Nat) : ℚ) = d := by
    have : d / 10 * 10 + d % 10 = d := by omega
    exact_mod_cast this
  have hp : ∀ n, '.' ∉ natStr n := natStr_no (by decide)
  have he : ∀ n, 'e' ∉ natStr n := natStr_no (by decide)
  have hz : ∀ n, (natStr (d / 10)).length = 1 := fun _ => natStr_length_one _ (by omega)
  unfold layout2
  by_cases hk0 : k = 0
  · rw [if_pos hk0]
    subst hk0
    rw [decimal_plain _ (by simp [he]), List.append_assoc, List.singleton_append,
      mantissa_point _ _ (hp _) (hp _) _ _ (readBase_natStr _) (readBase_natStr _),
      natStr_length_one _ (by omega)]
    congr 1
    rw [← hd]; ring
  · rw [if_neg hk0]
    obtain ⟨j, rfl⟩ : ∃ j, k = j + 1 := ⟨k - 1, by omega⟩
    by_cases hk4 : j + 1 ≤ 4
    · rw [if_pos hk4]
      have key : ∀ n : Nat, readDecimal (['0', '.'] ++ List.replicate (j + 1 - 1) '0' ++ natStr n)
          = some ((n : ℚ) / 10 ^ (j + (natStr n).length)) := by
        intro n
        rw [decimal_plain _ (by
          simp [he, List.mem_replicate])]
        rw [List.append_assoc]
        show readMantissa (['0'] ++ '.' :: (List.replicate (j + 1 - 1) '0' ++ natStr n)) = _
        rw [mantissa_point ['0'] _ (by decide) (by simp [hp, List.mem_replicate]) 0 n (by decide)
          (readBase_zeros _ _)]
        simp
      split
      · rename_i h10
        rw [key, natStr_length_one _ (by omega)]
        congr 1
        rw [h10] at hd
        rw [← hd]
        rw [show j + 1 + 1 = (j + 1) + 1 from rfl, pow_succ (10 : ℚ) (j + 1)]
        have : (10 : ℚ) ^ (j + 1) ≠ 0 := by positivity
        field_simp
        simp
      · rw [key, natStr_length_two _ h1 (by omega)]
    · rw [if_neg hk4]
      have hpad : readBase 10 (padLeft '0' 2 (natStr (j + 1))) = some (j + 1) := readBase_zeros _ _
      have hpe : 'e' ∉ padLeft '0' 2 (natStr (j + 1)) := by
        unfold padLeft
        simp [he, List.mem_replicate]
      rw [List.append_assoc]
      show readDecimal (_ ++ 'e' :: '-' :: padLeft '0' 2 (natStr (j + 1))) = _
      split
      · rename_i h10
        rw [decimal_exp _ _ (he _) hpe _ _ (mantissa_plain _ (hp _) _ (readBase_natStr _)) hpad]
        congr 1
        rw [h10] at hd
        rw [← hd]
        rw [pow_succ (10 : ℚ) (j + 1)]
        have : (10 : ℚ) ^ (j + 1) ≠ 0 := by positivity
        field_simp
        simp
      · rw [decimal_exp (natStr (d / 10) ++ ['.'] ++ natStr (d % 10)) _ (by simp [he]) hpe _ _
          (by
            rw [List.append_assoc, List.singleton_append]
            exact mantissa_point _ _ (hp _) (hp _) _ _ (readBase_natStr _) (readBase_natStr _)) hpad]
        congr 1
        rw [natStr_length_one _ (by omega)]
        rw [pow_succ (10 : ℚ) (j + 1), ← hd]
        have : (10 : ℚ) ^ (j + 1) ≠ 0 := by positivity
        field_simp

theorem decShift_spec (fuel : Nat) (q : ℚ) (h0 : 0 < q) (h : 1 ≤ q * 10 ^ fuel) (h1 : q < 1) :
    1 ≤ decShift fuel q ∧ 1 ≤ q * 10 ^ decShift fuel q ∧ q * 10 ^ decShift fuel q < 10 := by
  induction fuel generalizing q with
  | zero => simp at h; linarith
  | succ fuel ih =>
    unfold decShift
    rw [if_neg (not_le.mpr h1)]
    by_cases hq : q * 10 < 1
    · obtain ⟨a, b, c⟩ := ih (q * 10) (by linarith) (by rw [mul_assoc, ← pow_succ']; exact h) hq
      refine ⟨by omega, ?_, ?_⟩
      · rw [pow_succ']; rw [← mul_assoc]; exact b
      · rw [pow_succ']; rw [← mul_assoc]; exact c
    · have : decShift fuel (q * 10) = 0 := by
        cases fuel with
        | zero => rfl
        | succ f => unfold decShift; rw [if_pos (not_lt.mp hq)]
      rw [this]
      refine ⟨by omega, by simpa using not_lt.mp hq, by simp; linarith⟩

/-- The text of a number between 0 and 1 reads back as that number rounded to two significant
digits. -/
theorem fmt2_reads (q : ℚ) (h0 : 0 ≤ q) (h1 : q < 1) (h : q = 0 ∨ 1 ≤ q * 10 ^ 400) :
    ∃ v, readDecimal (fmt2 q) = some v ∧ |v - q| ≤ q / 20 ∧ |v - q| ≤ 1 / 200 ∧
      (q ≠ 0 → 0 < v) := by
  by_cases hq : q = 0
  · subst hq
    refine ⟨0, ?_, by simp, by simp, fun h => absurd rfl h⟩
    unfold fmt2
    rw [if_pos rfl]
    decide +kernel
  · have hpos : 0 < q := lt_of_le_of_ne h0 (Ne.symm hq)
    have hbig := h.resolve_left hq
    obtain ⟨k1, k2, k3⟩ := decShift_spec 400 q hpos hbig h1
    unfold fmt2
    rw [if_neg hq]
    simp only
    generalize decShift 400 q = k at k1 k2 k3
    have hexp : q * 10 ^ (k + 1) = (q * 10 ^ k) * 10 := by rw [pow_succ]; ring
    have herr := roundHalfEven_err (q * 10 ^ (k + 1))
    rw [abs_le] at herr
    have hge : 10 ≤ roundHalfEven (q * 10 ^ (k + 1)) := by
      have := roundHalfEven_mono (a := ((10 : Int) : ℚ)) (b := q * 10 ^ (k + 1))
        (by rw [hexp]; push_cast; linarith)
      rwa [roundHalfEven_int] at this
    have hle : roundHalfEven (q * 10 ^ (k + 1)) ≤ 100 := by
      have := roundHalfEven_mono (b := ((100 : Int) : ℚ)) (a := q * 10 ^ (k + 1))
        (by rw [hexp]; push_cast; linarith)
      rwa [roundHalfEven_int] at this
    generalize roundHalfEven (q * 10 ^ (k + 1)) = D at herr hge hle
    obtain ⟨d, rfl⟩ : ∃ d : Nat, D = d := ⟨D.toNat, by omega⟩
    have hd1 : 10 ≤ d := by omega
    have hd2 : d ≤ 100 := by omega
    simp only [Int.toNat_natCast]
    have hP : (0 : ℚ) < 10 ^ (k + 1) := by positivity
    have hv : ∃ v, readDecimal (if d = 100 then layout2 10 (k - 1) else layout2 d k) = some v ∧
        v = (d : ℚ) / 10 ^ (k + 1) := by
      split
      · rename_i e
        refine ⟨_, readDecimal_layout2 10 (k - 1) (by omega) (by omega), ?_⟩
        rw [e, show k - 1 + 1 = k by omega, pow_succ]
        have : (10 : ℚ) ^ k ≠ 0 := by positivity
        field_simp
        norm_num
      · exact ⟨_, readDecimal_layout2 d k hd1 (by omega), rfl⟩
    obtain ⟨v, hv1, hv2⟩ := hv
    have hvq : v - q = ((d : ℚ) - q * 10 ^ (k + 1)) / 10 ^ (k + 1) := by
      rw [hv2]; field_simp
    have habs : |v - q| ≤ (1 / 2) / 10 ^ (k + 1) := by
      rw [hvq, abs_div, abs_of_pos hP]
      apply div_le_div_of_nonneg_right _ hP.le
      rw [abs_le]
      push_cast at herr
      exact herr
    refine ⟨v, hv1, le_trans habs ?_, le_trans habs ?_, fun _ => ?_⟩
    · rw [div_le_iff₀ hP]
      rw [show q / 20 * 10 ^ (k + 1) = (q * 10 ^ (k + 1)) / 20 by ring, hexp]
      linarith
    · rw [div_le_iff₀ hP]
      have : (100 : ℚ) ≤ 10 ^ (k + 1) := by
        calc (100 : ℚ) = 10 ^ 2 := by norm_num
          _ ≤ 10 ^ (k + 1) := pow_le_pow_right₀ (by norm_num) (by omega)
      linarith
    · rw [hv2]
      have : (0 : ℚ) < d := by exact_mod_cast (by omega : 0 < d)
      positivity

/-! ### The fraction -/

/-- Integers below 2^53 are floats. -/
theorem roundDouble_nat (n : Nat) (h : n < 2 ^ 53) : roundDouble (n : ℚ) = n := by
  by_cases h0 : n = 0
  · subst h0; simp [roundDouble]
  · have hpos : (0 : ℚ) < n := by exact_mod_cast Nat.pos_of_ne_zero h0
    obtain ⟨l1, l2⟩ := ilog2_spec hpos
    have hub : ilog2 (n : ℚ) < 53 := by
      apply pow2_lt
      refine lt_of_le_of_lt l1 ?_
      have : pow2 53 = ((2 ^ 53 : Nat) : ℚ) := rfl
      rw [this]; exact_mod_cast h
    have hlb : 0 ≤ ilog2 (n : ℚ) := by
      have : pow2 0 < pow2 (ilog2 (n : ℚ) + 1) := by
        refine lt_of_le_of_lt ?_ l2
        have : pow2 0 = 1 := by rw [pow2_eq]; norm_num
        rw [this]
        exact_mod_cast (by omega : 1 ≤ n)
      have := pow2_lt this
      omega
    unfold roundDouble
    rw [if_neg (ne_of_gt hpos)]
    simp only [if_neg (not_lt.mpr hpos.le)]
    have hm : max (ilog2 (n : ℚ) - 52) (-1074) = ilog2 (n : ℚ) - 52 := by omega
    rw [hm]
    obtain ⟨j, hj⟩ : ∃ j : Nat, ilog2 (n : ℚ) - 52 = -(j : Int) :=
      ⟨(52 - ilog2 (n : ℚ)).toNat, by omega⟩
    rw [hj]
    have hu : pow2 (-(j : Int)) = 1 / 2 ^ j := by
      rw [pow2_eq, zpow_neg, zpow_natCast, one_div]
    rw [hu]
    have h2 : (2 : ℚ) ^ j ≠ 0 := by positivity
    have : (n : ℚ) / (1 / 2 ^ j) = (((n * 2 ^ j : Nat) : Int) : ℚ) := by
      push_cast
      field_simp
    rw [this, roundHalfEven_int]
    push_cast
    field_simp

/-- The fraction of the rounded quotient. -/
theorem fraction_float (m t : Nat) (ht : 0 < t) (hm0 : 0 < m) (ht53 : t ≤ 2 ^ 53)
    (hm : m < 2 ^ 53) :
    ∃ x, floatMod1 (roundDouble ((m : ℚ) / (t : ℚ))) = x ∧ 0 ≤ x ∧ x ≤ 1 - 1 / 2 ^ 106 ∧
      |x - fractionOf m t| ≤ (m : ℚ) / (t : ℚ) / 2 ^ 53 ∧ (x = 0 ↔ t ∣ m) ∧
      (x = 0 ∨ 1 ≤ x * 10 ^ 400) := by
  have htp : (0 : ℚ) < t := by exact_mod_cast ht
  have hmq : (m : ℚ) < 2 ^ 53 := by exact_mod_cast hm
  set q : ℚ := (m : ℚ) / (t : ℚ) with hq
  have ht53q : (t : ℚ) ≤ 2 ^ 53 := by exact_mod_cast ht53
  have hq0 : 0 < q := div_pos (by exact_mod_cast hm0) htp
  have hq1' : 1 / 2 ^ 53 ≤ q := by
    rw [hq, div_le_div_iff₀ (by positivity) htp, one_mul]
    have h1 : (1 : ℚ) ≤ m := by exact_mod_cast hm0
    have h2 : (0 : ℚ) < 2 ^ 53 := by positivity
    nlinarith
  -- the error
  have herr : |roundDouble q - q| ≤ q / 2 ^ 53 := by
    have h1 : pow2 (-1022) ≤ q := by
      have : pow2 (-1022) ≤ pow2 (-53) := pow2_mono (by norm_num)
      have h0 : pow2 (-53) = 1 / 2 ^ 53 := by rw [pow2_eq]; norm_num
      linarith
    have := roundDouble_err hq0 h1
    have h53 : pow2 (-53) = 1 / 2 ^ 53 := by rw [pow2_eq]; norm_num
    rw [h53] at this
    calc |roundDouble q - q| ≤ _ := this
      _ = q / 2 ^ 53 := by ring
  have hlt : q / 2 ^ 53 < 1 / t := by
    rw [hq, div_div, div_lt_div_iff₀ (by positivity) htp, one_mul, mul_comm]
    exact mul_lt_mul_of_pos_left hmq htp
  -- the integer part
  set k := m / t with hk
  set f := m % t with hf
  have hft : f < t := Nat.mod_lt _ ht
  have hsplit : q = (k : ℚ) + (f : ℚ) / t := by
    have : (m : ℚ) = (t : ℚ) * k + f := by
      have := Nat.div_add_mod m t
      rw [← hk, ← hf] at this
      exact_mod_cast this.symm
    rw [hq, this]; field_simp
  have hfrac : fractionOf m t = (f : ℚ) / t := rfl
  have hk53 : k + 1 < 2 ^ 53 + 1 := by
    have : k ≤ m := Nat.div_le_self m t
    omega
  rw [abs_le] at herr
  have hdiv : t ∣ m ↔ f = 0 := Nat.dvd_iff_mod_eq_zero
  set r := roundDouble q with hr
  have hr0 : 0 ≤ r := roundDouble_nonneg hq0.le
  by_cases hf0 : f = 0
  · -- an integer
    have hqk : q = (k : ℚ) := by rw [hsplit, hf0]; simp
    have hrk : r = (k : ℚ) := by rw [hr, hqk]; exact roundDouble_nat k (by omega)
    refine ⟨0, ?_, le_refl _, by norm_num, ?_, ?_, Or.inl rfl⟩
    · unfold floatMod1
      rw [hrk]
      have : ((k : ℚ)).floor = (k : Int) := by
        have := Rat.floor_intCast (k : Int)
        simpa using this
      simp only [if_neg (by rw [← hrk]; exact not_lt.mpr hr0 : ¬ ((k : ℚ) < 0)), this]
      simp
    · rw [hfrac, hf0]
      simp
      positivity
    · simp [hdiv, hf0]
  · have hf1 : (1 : ℚ) / t ≤ (f : ℚ) / t := by
      apply div_le_div_of_nonneg_right _ htp.le
      exact_mod_cast (by omega : 1 ≤ f)
    have hf2 : (f : ℚ) / t ≤ 1 - 1 / t := by
      rw [le_sub_iff_add_le, ← add_div, div_le_one htp]
      exact_mod_cast (by omega : f + 1 ≤ t)
    have hlow : (k : ℚ) < r := by linarith [herr.1]
    have hup : r < (k : ℚ) + 1 := by linarith [herr.2]
    have hfl : r.floor = (k : Int) := by
      have h1 : ((k : Int) : ℚ) ≤ r := by push_cast; exact hlow.le
      have h2 := Rat.le_floor_iff.mpr h1
      have h3 : r.floor < (k : Int) + 1 := by
        rw [Rat.floor_lt_iff]
        push_cast; exact hup
      omega
    have h2' : (1 : ℚ) / t - q / 2 ^ 53 = (2 ^ 53 - m) / (t * 2 ^ 53) := by
      rw [hq]; field_simp
    have h3' : (1 : ℚ) / 2 ^ 106 ≤ (2 ^ 53 - m) / (t * 2 ^ 53) := by
      have hm1 : (1 : ℚ) ≤ 2 ^ 53 - m := by
        have : (m : ℚ) + 1 ≤ 2 ^ 53 := by exact_mod_cast hm
        linarith
      calc (1 : ℚ) / 2 ^ 106 = (1 : ℚ) / (2 ^ 53 * 2 ^ 53) := by norm_num
        _ ≤ (1 : ℚ) / ((t : ℚ) * 2 ^ 53) := by
          apply div_le_div_of_nonneg_left (by norm_num) (by positivity)
          exact mul_le_mul_of_nonneg_right ht53q (by positivity)
        _ ≤ _ := by
          apply div_le_div_of_nonneg_right hm1 (by positivity)
    refine ⟨r - k, ?_, by linarith, by linarith [herr.2], ?_, ?_, ?_⟩
    · unfold floatMod1
      have : ¬ (r - ((k : Int) : ℚ) < 0) := by push_cast; linarith
      simp only [if_neg (not_lt.mpr hr0), hfl, if_neg this]
      push_cast; rfl
    · rw [hfrac, show r - (k : ℚ) - (f : ℚ) / t = r - q by rw [hsplit]; ring, abs_le]
      exact herr
    · rw [hdiv]
      constructor
      · intro h; linarith
      · intro h; exact absurd h hf0
    · right
      -- at least 2 ^ -106
      have h1 : (1 : ℚ) / t - q / 2 ^ 53 ≤ r - k := by linarith [herr.1]
      have h4 : (1 : ℚ) / 2 ^ 106 ≤ r - k := by rw [h2'] at h1; linarith
      have h5 : (2 : ℚ) ^ 106 ≤ 10 ^ 400 :=
        calc (2 : ℚ) ^ 106 ≤ 10 ^ 106 := pow_le_pow_left₀ (by norm_num) (by norm_num) _
          _ ≤ 10 ^ 400 := pow_le_pow_right₀ (by norm_num) (by norm_num)
      calc (1 : ℚ) = 1 / 2 ^ 106 * 2 ^ 106 := by rw [div_mul_cancel₀]; positivity
        _ ≤ 1 / 2 ^ 106 * 10 ^ 400 := mul_le_mul_of_nonneg_left h5 (by positivity)
        _ ≤ (r - k) * 10 ^ 400 := mul_le_mul_of_nonneg_right h4 (by positivity)

/-- C73: in every line of the table the Fraction column is a decimal number that agrees with the
part after the point of (Samples / ticks-per-note): up to the rounding of the division (`x` is the
float), to two significant digits, so to within 5 % and to within 0.005; it is `0.0` exactly if
the division leaves no remainder. -/
theorem c73_fraction (h : List Event) (hb : ByteHistory h) (t : Nat) (ht : 0 < t)
    (hT : time h < 2 ^ 53) :
    ∃ out table, extractTracks (run h) t = some (out, none) ∧
      csvTable out.flatten = some (headerFields :: table) ∧
      ∀ fields ∈ table, ∃ m v x,
        (fields[0]?.bind (readBase 10)) = some m ∧ (fields[4]?.bind readDecimal) = some v ∧
        |x - fractionOf m t| ≤ (m : ℚ) / (t : ℚ) / 2 ^ 53 ∧
        |v - x| ≤ x / 20 ∧ |v - x| ≤ 1 / 200 ∧ (v = 0 ↔ t ∣ m) := by
  have hT' : time h < 2 ^ 1023 := lt_trans hT (Nat.pow_lt_pow_right (by norm_num) (by norm_num))
  obtain ⟨out, L, h1, h2, h3⟩ := csv_table h hb t ht hT'
  refine ⟨out, _, h1, h2, ?_⟩
  intro fields hf
  obtain ⟨r, hr, rfl⟩ := List.mem_map.mp hf
  have hrL : r < L := List.mem_range.mp hr
  obtain ⟨out', table', h1', h2', h3'⟩ := c45_rows h hb t ht hT'
  rw [h1] at h1'
  simp only [Option.some.injEq, Prod.mk.injEq, and_true] at h1'
  subst h1'
  rw [h2] at h2'
  simp only [Option.some.injEq, List.cons.injEq, true_and] at h2'
  subst h2'
  obtain ⟨m, hm0, _, _, _, ⟨c, hc, n, hn, hnm, hrow⟩, _⟩ :=
    h3' r (rowFields (run h).keyPressesOf t r) (by simp [hrL])
  have hm : nextSample (run h).keyPressesOf t r = m := by
    simp only [rowFields, List.cons_append, List.getElem?_cons_zero, Option.bind_some,
      readBase_natStr, Option.some.injEq] at hm0
    exact hm0
  have hm53 : m < 2 ^ 53 := by
    obtain ⟨i, v, _, _, e, _⟩ := c24_note_capture h hb c hc n hn
    rw [← hnm, e]; exact lt_of_le_of_lt (time_take_le h i) hT
  have htm : t ≤ m := by
    by_contra hlt
    rw [hnm, Nat.div_eq_of_lt (by omega)] at hrow
    omega
  obtain ⟨x, hx, x0, x1, xerr, xdiv, xbig⟩ := fraction_float m t ht (by omega) (by omega) hm53
  obtain ⟨v, hv, v1, v2, v3⟩ := fmt2_reads x x0 (by linarith [show (0 : ℚ) < 1 / 2 ^ 106 by positivity]) xbig
  refine ⟨m, v, x, hm0, ?_, xerr, v1, v2, ?_⟩
  · simp only [rowFields, List.cons_append, List.getElem?_cons_succ, List.getElem?_cons_zero,
      Option.bind_some, hm]
    have : fractionText m t = .ok (fmt2 x) := by
      obtain ⟨f, hf', _⟩ := fraction_ok m t ht (lt_trans hm53 (Nat.pow_lt_pow_right (by norm_num) (by norm_num)))
      rw [hf']
      unfold fractionText at hf'
      unfold intTrueDiv at hf'
      rw [if_neg (by omega)] at hf'
      have hcast : (((m : Int) : ℚ) / ((t : Int) : ℚ)) = (m : ℚ) / (t : ℚ) := by push_cast; rfl
      simp only [hcast] at hf'
      split at hf'
      · cases hf'
      · rename_i q' hq'
        split at hq'
        · cases hq'
        · simp only [Except.ok.injEq, F64.fin.injEq] at hq'
          subst hq'
          rw [hx] at hf'
          exact hf'.symm
      · cases hf'
    rw [this]
    exact hv
  · rw [← xdiv]
    constructor
    · intro hv0
      by_contra hne
      have := v3 hne
      linarith
    · intro hx0
      subst hx0
      simp at v1
      exact v1

/-- The bound in plain terms: for recordings shorter than 2^40 samples (about 290 days) the column
is within 0.0052 of the true fraction. -/
theorem c73_absolute (h : List Event) (hb : ByteHistory h) (t : Nat) (ht : 0 < t)
    (hT : time h < 2 ^ 40) :
    ∃ out table, extractTracks (run h) t = some (out, none) ∧
      csvTable out.flatten = some (headerFields :: table) ∧
      ∀ fields ∈ table, ∃ m v,
        (fields[0]?.bind (readBase 10)) = some m ∧ (fields[4]?.bind readDecimal) = some v ∧
        |v - fractionOf m t| ≤ 52 / 10000 := by
  obtain ⟨out, table, h1, h2, h3⟩ := c73_fraction h hb t ht (lt_trans hT (Nat.pow_lt_pow_right (by norm_num) (by norm_num)))
  refine ⟨out, table, h1, h2, ?_⟩
  intro fields hf
  obtain ⟨m, v, x, hm, hv, e1, _, e2, _⟩ := h3 fields hf
  refine ⟨m, v, hm, hv, ?_⟩
  obtain ⟨out', table', h1', h2', h3'⟩ := c45_rows h hb t ht (lt_trans hT (Nat.pow_lt_pow_right (by norm_num) (by norm_num)))
  rw [h1] at h1'
  simp only [Option.some.injEq, Prod.mk.injEq, and_true] at h1'
  subst h1'
  rw [h2] at h2'
  simp only [Option.some.injEq, List.cons.injEq, true_and] at h2'
  subst h2'
  obtain ⟨r, hr⟩ := List.mem_iff_getElem?.mp hf
  obtain ⟨m', hm', _, _, _, ⟨c, hc, n, hn, hnm, _⟩, _⟩ := h3' r fields hr
  rw [hm] at hm'
  cases hm'
  have hm40 : m < 2 ^ 40 := by
    obtain ⟨i, v, _, _, e, _⟩ := c24_note_capture h hb c hc n hn
    rw [← hnm, e]; exact lt_of_le_of_lt (time_take_le h i) hT
  have hq : (m : ℚ) / (t : ℚ) / 2 ^ 53 ≤ 1 / 2 ^ 13 := by
    have h1 : (m : ℚ) / (t : ℚ) ≤ m := div_le_self (Nat.cast_nonneg _) (by exact_mod_cast ht)
    have h2 : (m : ℚ) < 2 ^ 40 := by exact_mod_cast hm40
    rw [div_le_iff₀ (by positivity)]
    have h3 : (1 : ℚ) / 2 ^ 13 * 2 ^ 53 = 2 ^ 40 := by norm_num
    rw [h3]
    linarith
  have : |v - fractionOf m t| ≤ |v - x| + |x - fractionOf m t| := by
    have := abs_add_le (v - x) (x - fractionOf m t)
    simpa using this
  norm_num at hq e2
  linarith

/-- The notations that occur. -/
example : readDecimal "7.1e-05".toList = some (71 / 1000000) ∧ readDecimal "0.25".toList = some (1 / 4)
    ∧ readDecimal "1.0".toList = some 1 ∧ readDecimal "0".toList = some 0 ∧
    readDecimal "x".toList = none := by decide +kernel

/-- 735 / 100 = 7.35, 1 / 3 and 99999 / 100000. -/
example : fractionText 735 100 = .ok "0.35".toList ∧ fractionText 1 3 = .ok "0.33".toList ∧
    fractionText 99999 100000 = .ok "1.0".toList ∧ fractionText 300001 100000 = .ok "1e-05".toList := by
  decide +kernel

end VgmX
