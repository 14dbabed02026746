import Verif.Model.Xrns
import Verif.Lemmas.Float
/-
The tempo computation `bpmOf` (extractors.py:23-26): overflow threshold, sign, error bound,
exceptional values.
-/

namespace VgmX

theorem floor_bounds (q : ℚ) : ((q.floor : Int) : ℚ) ≤ q ∧ q < ((q.floor : Int) : ℚ) + 1 := by
  refine ⟨Rat.floor_le q, ?_⟩
  have := Rat.lt_floor_add_one q
  push_cast at this; exact this

theorem floor_eq {q : ℚ} {n : Int} (h1 : (n : ℚ) ≤ q) (h2 : q < (n : ℚ) + 1) : q.floor = n := by
  obtain ⟨h3, h4⟩ := floor_bounds q
  have a : (n : ℚ) < ((q.floor + 1 : Int) : ℚ) := by push_cast; linarith
  have b : ((q.floor : Int) : ℚ) < ((n + 1 : Int) : ℚ) := by push_cast; linarith
  have a' : n < q.floor + 1 := by exact_mod_cast a
  have b' : q.floor < n + 1 := by exact_mod_cast b
  omega

theorem roundHalfEven_ge {q : ℚ} {n : Int} (hn : n % 2 = 0) (h : (n : ℚ) - 1 / 2 ≤ q) :
    n ≤ roundHalfEven q := by
  obtain ⟨h1, h2⟩ := floor_bounds q
  have hf : n - 1 ≤ q.floor := by
    have : ((n - 1 : Int) : ℚ) < ((q.floor + 1 : Int) : ℚ) := by push_cast; linarith
    have : n - 1 < q.floor + 1 := by exact_mod_cast this
    omega
  unfold roundHalfEven
  simp only []
  by_cases he : q.floor = n - 1
  · have hr : (1 : ℚ) / 2 ≤ q - (q.floor : ℚ) := by rw [he]; push_cast; linarith
    rw [if_neg (not_lt.mpr hr)]
    split
    · omega
    · rw [if_neg (by omega)]; omega
  · repeat' split
    all_goals omega

theorem roundHalfEven_le {q : ℚ} {n : Int} (h : q < (n : ℚ) - 1 / 2) :
    roundHalfEven q ≤ n - 1 := by
  obtain ⟨h1, h2⟩ := floor_bounds q
  have hf : q.floor ≤ n - 1 := by
    have : ((q.floor : Int) : ℚ) < ((n : Int) : ℚ) := by linarith
    have : q.floor < n := by exact_mod_cast this
    omega
  unfold roundHalfEven
  simp only []
  by_cases he : q.floor = n - 1
  · have hr : q - (q.floor : ℚ) < 1 / 2 := by rw [he]; push_cast; linarith
    rw [if_pos hr]; omega
  · repeat' split
    all_goals omega

theorem roundHalfEven_neg (q : ℚ) : roundHalfEven (-q) = -roundHalfEven q := by
  obtain ⟨h1, h2⟩ := floor_bounds q
  by_cases hz : q = (q.floor : ℚ)
  · have e1 : roundHalfEven q = q.floor := by
      rw [hz, roundHalfEven_int, Rat.floor_intCast]
    have e2 : roundHalfEven (-q) = -q.floor := by
      have : -q = ((-q.floor : Int) : ℚ) := by push_cast; rw [← hz]
      rw [this, roundHalfEven_int]
    rw [e1, e2]
  · have hlt : (q.floor : ℚ) < q := lt_of_le_of_ne h1 (fun h => hz h.symm)
    have hf : (-q).floor = -q.floor - 1 := by
      apply floor_eq <;> push_cast <;> linarith
    unfold roundHalfEven
    simp only [hf]
    have e : -q - ((-q.floor - 1 : Int) : ℚ) = 1 - (q - q.floor) := by push_cast; ring
    rw [e]
    rcases lt_trichotomy (q - (q.floor : ℚ)) (1 / 2) with hc | hc | hc
    · rw [if_pos hc, if_neg (by linarith), if_pos (by linarith)]; omega
    · rw [hc]
      have : (1 : ℚ) - 1 / 2 = 1 / 2 := by norm_num
      rw [this, if_neg (lt_irrefl _), if_neg (lt_irrefl _), if_neg (lt_irrefl _),
        if_neg (lt_irrefl _)]
      split <;> split <;> omega
    · rw [if_pos (show 1 - (q - (q.floor : ℚ)) < 1 / 2 by linarith), if_neg (not_lt.mpr hc.le),
        if_pos hc]; omega

theorem roundDouble_neg (q : ℚ) : roundDouble (-q) = -roundDouble q := by
  unfold roundDouble
  by_cases h0 : q = 0
  · simp [h0]
  · rw [if_neg (by simpa using h0), if_neg h0]
    have habs : (if -q < 0 then - -q else -q) = (if q < 0 then -q else q) := by
      rcases lt_or_gt_of_ne h0 with h | h
      · rw [if_neg (by linarith), if_pos h]
      · rw [if_pos (by linarith), if_neg (by linarith)]; ring
    simp only [habs, neg_div, roundHalfEven_neg]
    push_cast; ring

/-- The number of ticks from which `ticks / 44100` is too large for a double. -/
def maxTicks : Nat := 44100 * (2 ^ 1024 - 2 ^ 970)

theorem roundDouble_ge_iff {q : ℚ} (hq : pow2 (-1022) ≤ q) :
    pow2 1024 ≤ roundDouble q ↔ pow2 1024 - pow2 970 ≤ q := by
  have hq0 : 0 < q := lt_of_lt_of_le (pow2_pos _) hq
  obtain ⟨h1, h2⟩ := ilog2_spec hq0
  have hk : -1022 ≤ ilog2 q := by
    have := pow2_lt (lt_of_le_of_lt hq h2); omega
  have hm : max (ilog2 q - 52) (-1074) = ilog2 q - 52 := by omega
  have hr : roundDouble q = (roundHalfEven (q / pow2 (ilog2 q - 52)) : ℚ) * pow2 (ilog2 q - 52) := by
    unfold roundDouble
    rw [if_neg (ne_of_gt hq0)]
    simp only [if_neg (not_lt.mpr hq0.le), hm]
  have hup := pow2_pos (ilog2 q - 52)
  have e1024 : pow2 1024 = 2 ^ 54 * pow2 970 := by
    rw [show (1024 : Int) = 54 + 970 by norm_num, pow2_add, pow2_eq 54]; norm_num
  have h970 := pow2_pos 970
  rcases lt_trichotomy (ilog2 q) 1023 with hlt | heq | hgt
  · -- below 2^1023
    have hb : q < pow2 1023 := lt_of_lt_of_le h2 (pow2_mono (by omega))
    have e1023 : pow2 1023 = 2 ^ 53 * pow2 970 := by
      rw [show (1023 : Int) = 53 + 970 by norm_num, pow2_add, pow2_eq 53]; norm_num
    have herr := roundDouble_err hq0 hq
    have h53 : pow2 (-53) = 1 / 2 ^ 53 := by rw [pow2_eq]; norm_num
    rw [abs_le, h53] at herr
    constructor
    · intro h
      exfalso
      have : q * (1 / 2 ^ 53) ≤ pow2 970 := by
        rw [e1023] at hb
        have : q * (1 / 2 ^ 53) ≤ (2 ^ 53 * pow2 970) * (1 / 2 ^ 53) :=
          mul_le_mul_of_nonneg_right hb.le (by positivity)
        calc _ ≤ _ := this
          _ = pow2 970 := by ring
      rw [e1024] at h; rw [e1023] at hb
      norm_num at h hb
      linarith [herr.2]
    · intro h
      exfalso
      rw [e1024] at h; rw [e1023] at hb
      norm_num at h hb
      linarith
  · -- the last binade
    rw [hr, heq]
    have e971 : pow2 (1023 - 52) = 2 * pow2 970 := by
      rw [show (1023 - 52 : Int) = 970 + 1 by norm_num, pow2_succ]
    rw [e971]
    have hu : (0 : ℚ) < 2 * pow2 970 := mul_pos (by norm_num) h970
    have e2 : pow2 1024 = ((2 ^ 53 : Int) : ℚ) * (2 * pow2 970) := by
      rw [e1024]; push_cast; ring
    rw [e2]
    have hstep : ((2 ^ 53 : Int) : ℚ) * (2 * pow2 970) ≤
        (roundHalfEven (q / (2 * pow2 970)) : ℚ) * (2 * pow2 970) ↔
        (2 ^ 53 : Int) ≤ roundHalfEven (q / (2 * pow2 970)) := by
      rw [mul_le_mul_iff_left₀ hu]; exact_mod_cast Iff.rfl
    rw [hstep]
    constructor
    · intro h
      by_contra hc
      have := roundHalfEven_le (q := q / (2 * pow2 970)) (n := 2 ^ 53) (by
        rw [div_lt_iff₀ hu]
        have := not_le.mp hc
        push_cast at this ⊢
        linarith)
      omega
    · intro h
      apply roundHalfEven_ge (by norm_num)
      rw [le_div_iff₀ hu]
      push_cast at h ⊢
      linarith
  · -- at least 2^1024
    have hb : pow2 1024 ≤ q := le_trans (pow2_mono (by omega)) h1
    refine ⟨fun _ => by linarith, fun _ => ?_⟩
    rw [hr]
    have e52 : pow2 (ilog2 q) = ((2 ^ 52 : Int) : ℚ) * pow2 (ilog2 q - 52) := by
      rw [pow2_sub, show pow2 52 = ((2 ^ 52 : Int) : ℚ) by rw [pow2_eq]; norm_num]
      have : ((2 ^ 52 : Int) : ℚ) ≠ 0 := by norm_num
      field_simp
    have hge : (2 ^ 52 : Int) ≤ roundHalfEven (q / pow2 (ilog2 q - 52)) := by
      apply roundHalfEven_ge (by norm_num)
      rw [le_div_iff₀ hup]
      have h3 : ((2 ^ 52 : Int) : ℚ) * pow2 (ilog2 q - 52) ≤ q := by rw [← e52]; exact h1
      rw [sub_mul]
      have h4 : 0 < 1 / 2 * pow2 (ilog2 q - 52) := mul_pos (by norm_num) hup
      exact le_trans (sub_le_self _ h4.le) h3
    calc pow2 1024 ≤ pow2 (ilog2 q) := pow2_mono (by omega)
      _ = ((2 ^ 52 : Int) : ℚ) * pow2 (ilog2 q - 52) := e52
      _ ≤ _ := mul_le_mul_of_nonneg_right (by exact_mod_cast hge) hup.le

theorem div44100_normal (t : Nat) (ht : 0 < t) : pow2 (-1022) ≤ (t : ℚ) / 44100 := by
  have : (1 : ℚ) ≤ t := by exact_mod_cast ht
  calc pow2 (-1022) ≤ pow2 (-16) := pow2_mono (by norm_num)
    _ = 1 / 65536 := by rw [pow2_eq]; norm_num
    _ ≤ (t : ℚ) / 44100 := by rw [div_le_div_iff₀ (by norm_num) (by norm_num)]; linarith

theorem tooLarge_div (t : Nat) (ht : 0 < t) :
    tooLarge (roundDouble ((t : ℚ) / 44100)) = true ↔ maxTicks ≤ t := by
  have hn := div44100_normal t ht
  have hq0 : 0 < (t : ℚ) / 44100 := lt_of_lt_of_le (pow2_pos _) hn
  have hpos : 0 ≤ roundDouble ((t : ℚ) / 44100) := by
    have herr := roundDouble_err hq0 hn
    have h53 : pow2 (-53) = 1 / 2 ^ 53 := by rw [pow2_eq]; norm_num
    rw [abs_le, h53] at herr
    norm_num at herr
    linarith [herr.1]
  have : tooLarge (roundDouble ((t : ℚ) / 44100)) = true ↔
      pow2 1024 ≤ roundDouble ((t : ℚ) / 44100) := by
    simp only [tooLarge, Bool.or_eq_true, decide_eq_true_eq]
    have := pow2_pos 1024
    constructor
    · rintro (h | h)
      · exact h
      · linarith
    · intro h; exact Or.inl h
  rw [this, roundDouble_ge_iff hn, le_div_iff₀ (by norm_num)]
  have hcast : (pow2 1024 - pow2 970) * 44100 = ((maxTicks : Nat) : ℚ) := by
    have h1 : pow2 1024 = ((2 ^ 1024 : Nat) : ℚ) := rfl
    have h2 : pow2 970 = ((2 ^ 970 : Nat) : ℚ) := rfl
    unfold maxTicks
    rw [h1, h2, Nat.cast_mul, Nat.cast_sub (Nat.pow_le_pow_right (by norm_num) (by norm_num))]
    push_cast; ring
  rw [hcast]
  exact_mod_cast Iff.rfl

/-- The ticks per note for which the double computation is off by one. -/
def badTicks : List Nat := [45, 90, 105, 180, 210, 375, 420, 750, 1500]

theorem bpm_divisors_small : ∀ t : Nat, t < 814 → t ≠ 0 → 661500 % t = 0 →
    (bpmOf (t : Int)).toOption = some ((661500 / t - (if t ∈ badTicks then 1 else 0) : Nat) : Int) ∧
    (bpmOf ((661500 / t : Nat) : Int)).toOption = some ((661500 / (661500 / t) -
      (if 661500 / t ∈ badTicks then 1 else 0) : Nat) : Int) := by
  decide +kernel

theorem toOption_ok {α : Type} {x : Except PyErr α} {a : α} (h : x.toOption = some a) :
    x = .ok a := by
  cases x with
  | error e => simp [Except.toOption] at h
  | ok b => simp [Except.toOption] at h; rw [h]

theorem bpm_divisor (t : Nat) (ht : 0 < t) (hd : 661500 % t = 0) :
    bpmOf (t : Int) = .ok ((661500 / t - (if t ∈ badTicks then 1 else 0) : Nat) : Int) := by
  by_cases hs : t < 814
  · exact toOption_ok (bpm_divisors_small t hs (by omega) hd).1
  · obtain ⟨u, hu⟩ := Nat.dvd_of_mod_eq_zero hd
    have hu0 : u ≠ 0 := by rintro rfl; simp at hu
    have hult : u < 814 := by
      by_contra hc
      have : 814 * 814 ≤ t * u := Nat.mul_le_mul (by omega) (by omega)
      omega
    have hdu : 661500 / u = t := by rw [hu]; exact Nat.mul_div_cancel _ (by omega)
    have h := (bpm_divisors_small u hult hu0 (by rw [hu]; exact Nat.mul_mod_left _ _)).2
    rw [hdu] at h
    exact toOption_ok h

theorem badTicks_dvd (t : Nat) (h : t ∈ badTicks) : 661500 % t = 0 := by
  have : ∀ t ∈ badTicks, 661500 % t = 0 := by decide
  exact this t h

theorem ofExact_pos {q : ℚ} (h : 0 ≤ roundDouble q) (hl : roundDouble q < pow2 1024) :
    F64.ofExact q = .fin (roundDouble q) := by
  unfold F64.ofExact
  have : tooLarge (roundDouble q) = false := by
    simp only [tooLarge, Bool.or_eq_false_iff, decide_eq_false_iff_not, not_le]
    have := pow2_pos 1024
    constructor <;> linarith
  simp [this]

theorem bpm_nondivisor (t : Nat) (ht : 0 < t) (hm : t < maxTicks) (hd : 661500 % t ≠ 0) :
    bpmOf (t : Int) = .ok ((661500 / t : Nat) : Int) := by
  have h53 : pow2 (-53) = 1 / 2 ^ 53 := by rw [pow2_eq]; norm_num
  have htq : (1 : ℚ) ≤ t := by exact_mod_cast ht
  have hn1 := div44100_normal t ht
  have hp1 : 0 < (t : ℚ) / 44100 := lt_of_lt_of_le (pow2_pos _) hn1
  have he1 := roundDouble_err hp1 hn1
  rw [abs_le, h53] at he1
  set q1 := roundDouble ((t : ℚ) / 44100) with hq1
  have hq1l : (t : ℚ) / 44100 * (1 - 1 / 2 ^ 53) ≤ q1 := by linarith [he1.1]
  have hq1u : q1 ≤ (t : ℚ) / 44100 * (1 + 1 / 2 ^ 53) := by linarith [he1.2]
  have hq1b : (1 : ℚ) / 65536 ≤ q1 := by
    have : (1 : ℚ) / 44100 ≤ (t : ℚ) / 44100 := by
      rw [div_le_div_iff₀ (by norm_num) (by norm_num)]; linarith
    norm_num at hq1l ⊢; linarith
  have hq1p : 0 < q1 := lt_of_lt_of_le (by norm_num) hq1b
  have hq1m : q1 < pow2 1024 := by
    have h1 : ¬ tooLarge q1 = true := fun h => by
      have := (tooLarge_div t ht).mp h; omega
    have h2 : pow2 1024 ≤ q1 → tooLarge q1 = true := fun h => by simp [tooLarge, h]
    exact not_le.mp (fun h => h1 (h2 h))
  have hdiv : intTrueDiv (t : Int) 44100 = .ok (.fin q1) := by
    unfold intTrueDiv
    rw [if_neg (by norm_num)]
    have h1 : ¬ tooLarge q1 = true := fun h => by
      have := (tooLarge_div t ht).mp h; omega
    have hcast : (((t : Int) : ℚ) / ((44100 : Int) : ℚ)) = (t : ℚ) / 44100 := by push_cast; rfl
    simp only [hcast, ← hq1, h1]
    rfl
  unfold bpmOf
  rw [hdiv]
  simp only [F64.mulNat]
  -- beat length
  have hn2 : pow2 (-1022) ≤ q1 * (4 : ℕ) := by
    calc pow2 (-1022) ≤ pow2 (-16) := pow2_mono (by norm_num)
      _ = 1 / 65536 := by rw [pow2_eq]; norm_num
      _ ≤ _ := by push_cast; linarith
  have hp2 : 0 < q1 * (4 : ℕ) := lt_of_lt_of_le (pow2_pos _) hn2
  have he2 := roundDouble_err hp2 hn2
  rw [abs_le, h53] at he2
  set q2 := roundDouble (q1 * (4 : ℕ)) with hq2
  push_cast at he2
  have hq2l : q1 * 4 * (1 - 1 / 2 ^ 53) ≤ q2 := by linarith [he2.1]
  have hq2u : q2 ≤ q1 * 4 * (1 + 1 / 2 ^ 53) := by linarith [he2.2]
  have hq2p : 0 < q2 := by norm_num at hq2l; linarith
  have hNt : 661500 / t * t + 661500 % t = 661500 := Nat.div_add_mod' 661500 t
  have hmod : 661500 % t < t := Nat.mod_lt _ ht
  by_cases hbig : pow2 1024 ≤ q2
  · -- beat length overflows to infinity
    have : F64.ofExact (q1 * (4 : ℕ)) = .inf (decide (q1 * ((4 : ℕ) : ℚ) < 0)) := by
      unfold F64.ofExact
      rw [← hq2]
      have : tooLarge q2 = true := by simp [tooLarge, hbig]
      simp only [this, if_true]
    rw [this]
    simp only [natDivF64, F64.toInt]
    have htbig : (661500 : ℚ) < t := by
      have h40 : (2 : ℚ) ^ 40 ≤ pow2 1024 := by
        rw [← pow2_nat]; exact pow2_mono (by norm_num)
      norm_num at hq1u hq2u h40
      linarith
    have : 661500 < t := by exact_mod_cast htbig
    rw [Nat.div_eq_of_lt this]
    simp
    rfl
  · rw [ofExact_pos (le_of_lt hq2p) (not_le.mp hbig), ← hq2]
    simp only [natDivF64, if_neg (ne_of_gt hq2p)]
    -- bpm
    have hx : (0 : ℚ) < 661500 / t := by positivity
    have hxt : (661500 : ℚ) / t * t = 661500 := by field_simp
    have hlow : 661500 / (t : ℚ) * (1 - 3 / 2 ^ 53) ≤ 60 / q2 := by
      rw [le_div_iff₀ hq2p]
      have h1 : q2 ≤ 4 * ((t : ℚ) / 44100) * ((1 + 1 / 2 ^ 53) * (1 + 1 / 2 ^ 53)) := by
        calc q2 ≤ q1 * 4 * (1 + 1 / 2 ^ 53) := hq2u
          _ ≤ ((t : ℚ) / 44100 * (1 + 1 / 2 ^ 53)) * 4 * (1 + 1 / 2 ^ 53) := by gcongr
          _ = _ := by ring
      calc 661500 / (t : ℚ) * (1 - 3 / 2 ^ 53) * q2
          ≤ 661500 / (t : ℚ) * (1 - 3 / 2 ^ 53) *
            (4 * ((t : ℚ) / 44100) * ((1 + 1 / 2 ^ 53) * (1 + 1 / 2 ^ 53))) := by
            apply mul_le_mul_of_nonneg_left h1
            apply mul_nonneg hx.le; norm_num
        _ = (661500 / (t : ℚ) * t) * (4 / 44100) *
            ((1 - 3 / 2 ^ 53) * ((1 + 1 / 2 ^ 53) * (1 + 1 / 2 ^ 53))) := by ring
        _ ≤ 60 := by rw [hxt]; norm_num
    have hupp : 60 / q2 ≤ 661500 / (t : ℚ) * (1 + 3 / 2 ^ 53) := by
      rw [div_le_iff₀ hq2p]
      have h1 : 4 * ((t : ℚ) / 44100) * ((1 - 1 / 2 ^ 53) * (1 - 1 / 2 ^ 53)) ≤ q2 := by
        calc 4 * ((t : ℚ) / 44100) * ((1 - 1 / 2 ^ 53) * (1 - 1 / 2 ^ 53))
            = ((t : ℚ) / 44100 * (1 - 1 / 2 ^ 53)) * 4 * (1 - 1 / 2 ^ 53) := by ring
          _ ≤ q1 * 4 * (1 - 1 / 2 ^ 53) := by
            apply mul_le_mul_of_nonneg_right _ (by norm_num)
            linarith
          _ ≤ q2 := hq2l
      calc (60 : ℚ) ≤ (661500 / (t : ℚ) * t) * (4 / 44100) *
            ((1 + 3 / 2 ^ 53) * ((1 - 1 / 2 ^ 53) * (1 - 1 / 2 ^ 53))) := by rw [hxt]; norm_num
        _ = 661500 / (t : ℚ) * (1 + 3 / 2 ^ 53) *
            (4 * ((t : ℚ) / 44100) * ((1 - 1 / 2 ^ 53) * (1 - 1 / 2 ^ 53))) := by ring
        _ ≤ _ := by
            apply mul_le_mul_of_nonneg_left h1
            apply mul_nonneg hx.le; norm_num
    have hn3 : pow2 (-1022) ≤ 60 / q2 := by
      have hq2m := not_le.mp hbig
      rw [le_div_iff₀ hq2p]
      calc pow2 (-1022) * q2 ≤ pow2 (-1022) * pow2 1024 :=
            mul_le_mul_of_nonneg_left hq2m.le (pow2_pos _).le
        _ = pow2 2 := by rw [← pow2_add]; norm_num
        _ = 4 := by rw [pow2_eq]; norm_num
        _ ≤ 60 := by norm_num
    have hp3 : 0 < 60 / q2 := by positivity
    have he3 := roundDouble_err hp3 hn3
    rw [abs_le, h53] at he3
    have h60 : (((60 : ℕ) : ℚ) / q2) = 60 / q2 := by norm_num
    rw [h60]
    set q3 := roundDouble (60 / q2) with hq3
    have hq3l : 60 / q2 * (1 - 1 / 2 ^ 53) ≤ q3 := by linarith [he3.1]
    have hq3u : q3 ≤ 60 / q2 * (1 + 1 / 2 ^ 53) := by linarith [he3.2]
    have hq3L : 661500 / (t : ℚ) * (1 - 5 / 2 ^ 53) ≤ q3 := by
      have : 661500 / (t : ℚ) * (1 - 3 / 2 ^ 53) * (1 - 1 / 2 ^ 53) ≤ 60 / q2 * (1 - 1 / 2 ^ 53) :=
        mul_le_mul_of_nonneg_right hlow (by norm_num)
      norm_num at this hq3l hx ⊢
      linarith
    have hq3U : q3 ≤ 661500 / (t : ℚ) * (1 + 5 / 2 ^ 53) := by
      have : 60 / q2 * (1 + 1 / 2 ^ 53) ≤ 661500 / (t : ℚ) * (1 + 3 / 2 ^ 53) * (1 + 1 / 2 ^ 53) :=
        mul_le_mul_of_nonneg_right hupp (by norm_num)
      norm_num at this hq3u hx ⊢
      linarith
    have hq3p : 0 ≤ q3 := by
      have : (0 : ℚ) ≤ 661500 / (t : ℚ) * (1 - 5 / 2 ^ 53) := mul_nonneg hx.le (by norm_num)
      linarith
    have hxle : 661500 / (t : ℚ) ≤ 661500 := div_le_self (by norm_num) htq
    have hq3m : q3 < pow2 1024 := by
      have h40 : (2 : ℚ) ^ 40 ≤ pow2 1024 := by
        rw [← pow2_nat]; exact pow2_mono (by norm_num)
      norm_num at hq3U h40
      linarith
    rw [ofExact_pos hq3p hq3m, ← hq3]
    simp only [F64.toInt, if_neg (not_lt.mpr hq3p)]
    congr 1
    -- the floor
    set N := 661500 / t with hN
    have hNt' : (N : ℚ) * t + ((661500 % t : Nat) : ℚ) = 661500 := by exact_mod_cast hNt
    have hr1 : (1 : ℚ) ≤ ((661500 % t : Nat) : ℚ) := by
      exact_mod_cast Nat.one_le_iff_ne_zero.mpr hd
    have hr2 : ((661500 % t : Nat) : ℚ) + 1 ≤ t := by exact_mod_cast hmod
    have htp : (0 : ℚ) < t := by linarith
    have hq3t1 : 661500 * (1 - 5 / 2 ^ 53) ≤ q3 * t := by
      calc (661500 : ℚ) * (1 - 5 / 2 ^ 53) = 661500 / (t : ℚ) * (1 - 5 / 2 ^ 53) * t := by
            field_simp
        _ ≤ q3 * t := mul_le_mul_of_nonneg_right hq3L htp.le
    have hq3t2 : q3 * t ≤ 661500 * (1 + 5 / 2 ^ 53) := by
      calc q3 * t ≤ 661500 / (t : ℚ) * (1 + 5 / 2 ^ 53) * t :=
            mul_le_mul_of_nonneg_right hq3U htp.le
        _ = (661500 : ℚ) * (1 + 5 / 2 ^ 53) := by field_simp
    apply floor_eq
    · push_cast
      have : (N : ℚ) * t ≤ q3 * t := by norm_num at hq3t1; linarith
      exact le_of_mul_le_mul_right this htp
    · push_cast
      have : q3 * t < ((N : ℚ) + 1) * t := by norm_num at hq3t2; linarith
      exact lt_of_mul_lt_mul_right this htp.le

theorem bpm_pos (t : Nat) (ht : 0 < t) (hm : t < maxTicks) :
    bpmOf (t : Int) = .ok ((661500 / t - (if t ∈ badTicks then 1 else 0) : Nat) : Int) := by
  by_cases hd : 661500 % t = 0
  · exact bpm_divisor t ht hd
  · rw [bpm_nondivisor t ht hm hd, if_neg (fun h => hd (badTicks_dvd t h))]
    rfl

theorem bpm_overflow (t : Nat) (ht : 0 < t) (hm : maxTicks ≤ t) :
    bpmOf (t : Int) = .error .overflow := by
  unfold bpmOf intTrueDiv
  rw [if_neg (by norm_num)]
  have := (tooLarge_div t ht).mpr hm
  have hcast : (((t : Int) : ℚ) / ((44100 : Int) : ℚ)) = (t : ℚ) / 44100 := by push_cast; rfl
  simp only [hcast, this, if_true]

theorem bpm_zero : bpmOf 0 = .error .zeroDivision := by decide +kernel

theorem tooLarge_neg (q : ℚ) : tooLarge (-q) = tooLarge q := by
  unfold tooLarge
  have h1 : (pow2 1024 ≤ -q) ↔ (q ≤ -pow2 1024) := by constructor <;> intro h <;> linarith
  have h2 : (-q ≤ -pow2 1024) ↔ (pow2 1024 ≤ q) := by constructor <;> intro h <;> linarith
  simp only [h1, h2, Bool.or_comm]

/-- Negating an infinity or a finite double. -/
def F64.negate : F64 → F64
  | .fin q => .fin (-q)
  | .inf s => .inf (!s)

theorem F64.ofExact_neg {q : ℚ} (h : q ≠ 0) : F64.ofExact (-q) = (F64.ofExact q).negate := by
  unfold F64.ofExact
  simp only [roundDouble_neg, tooLarge_neg]
  split
  · simp only [F64.negate, F64.inf.injEq]
    rcases lt_or_gt_of_ne h with h | h
    · simp [h, not_lt.mpr h.le]
    · simp [h, not_lt.mpr h.le]
  · rfl

/-- A negative number of ticks gives the negated tempo. -/
theorem bpm_neg (t : Nat) (ht : 0 < t) : bpmOf (-(t : Int)) = (bpmOf (t : Int)).map (fun z => -z) := by
  have hn1 := div44100_normal t ht
  have hp1 : 0 < (t : ℚ) / 44100 := lt_of_lt_of_le (pow2_pos _) hn1
  have he1 := roundDouble_err hp1 hn1
  have h53 : pow2 (-53) = 1 / 2 ^ 53 := by rw [pow2_eq]; norm_num
  rw [abs_le, h53] at he1
  have hq1p : 0 < roundDouble ((t : ℚ) / 44100) := by
    have := he1.1; norm_num at this; linarith
  have hI : ∀ z : Int, intTrueDiv z 44100 =
      if tooLarge (roundDouble ((z : ℚ) / 44100)) = true then .error .overflow
      else .ok (.fin (roundDouble ((z : ℚ) / 44100))) := by
    intro z
    unfold intTrueDiv
    rw [if_neg (by norm_num)]
    have : (z : ℚ) / ((44100 : Int) : ℚ) = (z : ℚ) / 44100 := by push_cast; rfl
    simp only [this]
  have hcast : (((t : Int) : ℚ)) = (t : ℚ) := by push_cast; rfl
  have hcast' : (((-(t : Int) : Int) : ℚ) / 44100) = -((t : ℚ) / 44100) := by
    push_cast; ring
  unfold bpmOf
  rw [hI, hI, hcast', hcast, roundDouble_neg, tooLarge_neg]
  by_cases hT : tooLarge (roundDouble ((t : ℚ) / 44100)) = true
  · rw [if_pos hT, if_pos hT]; rfl
  · rw [if_neg hT, if_neg hT]
    simp only [F64.mulNat]
    set q1 := roundDouble ((t : ℚ) / 44100)
    have : -q1 * ((4 : ℕ) : ℚ) = -(q1 * ((4 : ℕ) : ℚ)) := by ring
    have hne : q1 * ((4 : ℕ) : ℚ) ≠ 0 := by push_cast; positivity
    rw [this, F64.ofExact_neg hne]
    cases hx : F64.ofExact (q1 * ((4 : ℕ) : ℚ)) with
    | inf s => simp [F64.negate, natDivF64, F64.toInt, Except.map]; decide +kernel
    | fin q2 =>
      simp only [F64.negate, natDivF64, neg_eq_zero]
      by_cases h0 : q2 = 0
      · rw [if_pos h0, if_pos h0]; rfl
      · rw [if_neg h0, if_neg h0]
        have hq : ((60 : ℕ) : ℚ) / -q2 = -(((60 : ℕ) : ℚ) / q2) := by rw [div_neg]
        have hne2 : ((60 : ℕ) : ℚ) / q2 ≠ 0 := by
          intro h
          rw [div_eq_zero_iff] at h
          rcases h with h | h
          · norm_num at h
          · exact h0 h
        simp only [hq, F64.ofExact_neg hne2]
        cases F64.ofExact (((60 : ℕ) : ℚ) / q2) with
        | inf s => rfl
        | fin q3 =>
          simp only [F64.negate, F64.toInt, Except.map]
          congr 1
          rcases lt_trichotomy q3 0 with h | h | h
          · rw [if_pos h, if_neg (by linarith)]; ring
          · subst h; simp; decide +kernel
          · rw [if_pos (show -q3 < 0 by linarith), if_neg (not_lt.mpr h.le), neg_neg]

end VgmX
