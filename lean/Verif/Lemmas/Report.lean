import Verif.Lemmas.Ticks
import Verif.Lemmas.Text
import Verif.Spec.Report
/-
The printed table of estimates.
-/

namespace VgmX

theorem roundHalfEven_mono {a b : ℚ} (h : a ≤ b) : roundHalfEven a ≤ roundHalfEven b := by
  have a1 : ((a.floor : Int) : ℚ) ≤ a := Rat.floor_le a
  have a2 : a < ((a.floor : Int) : ℚ) + 1 := by
    have := Rat.lt_floor_add_one a
    push_cast at this; exact this
  have b1 : ((b.floor : Int) : ℚ) ≤ b := Rat.floor_le b
  have b2 : b < ((b.floor : Int) : ℚ) + 1 := by
    have := Rat.lt_floor_add_one b
    push_cast at this; exact this
  have hf : a.floor ≤ b.floor := by
    by_contra hc
    have : b.floor + 1 ≤ a.floor := by omega
    have : ((b.floor : Int) : ℚ) + 1 ≤ ((a.floor : Int) : ℚ) := by exact_mod_cast this
    linarith
  rcases eq_or_lt_of_le hf with he | hlt
  · unfold roundHalfEven
    simp only []
    rw [← he] at b1 b2 ⊢
    split_ifs <;> first | omega | (exfalso; linarith)
  · have h1 : roundHalfEven a ≤ a.floor + 1 := by
      unfold roundHalfEven; simp only []
      split
      · omega
      · split
        · omega
        · split <;> omega
    have h2 : b.floor ≤ roundHalfEven b := by
      unfold roundHalfEven; simp only []
      split
      · omega
      · split
        · omega
        · split <;> omega
    omega

theorem roundDouble_mono {a b : ℚ} (h0 : 0 ≤ a) (h : a ≤ b) : roundDouble a ≤ roundDouble b := by
  rcases eq_or_lt_of_le h0 with he | ha
  · rw [← he]
    have : roundDouble 0 = 0 := by simp [roundDouble]
    rw [this]
    unfold roundDouble
    split
    · exact le_refl _
    · rename_i hb
      have hb0 : 0 < b := lt_of_le_of_ne (by linarith) (Ne.symm hb)
      simp only []
      rw [if_neg (by linarith)]
      have hu := pow2_pos (max (ilog2 b - 52) (-1074))
      have : roundHalfEven 0 ≤ roundHalfEven (b / pow2 (max (ilog2 b - 52) (-1074))) :=
        roundHalfEven_mono (by positivity)
      have h00 : roundHalfEven 0 = 0 := by simpa using roundHalfEven_int 0
      rw [h00] at this
      have : (0 : ℚ) ≤ ((roundHalfEven (b / pow2 (max (ilog2 b - 52) (-1074))) : Int) : ℚ) := by
        exact_mod_cast this
      positivity
  · have hb : 0 < b := by linarith
    obtain ⟨a1, a2⟩ := ilog2_spec ha
    obtain ⟨b1, b2⟩ := ilog2_spec hb
    unfold roundDouble
    rw [if_neg (by linarith), if_neg (by linarith)]
    simp only []
    rw [if_neg (by linarith), if_neg (by linarith)]
    have hlog : ilog2 a ≤ ilog2 b := by
      have : pow2 (ilog2 a) < pow2 (ilog2 b + 1) := by linarith
      have := pow2_lt this
      omega
    generalize hea : max (ilog2 a - 52) (-1074) = ea
    generalize heb : max (ilog2 b - 52) (-1074) = eb
    have hpa := pow2_pos ea
    have hpb := pow2_pos eb
    rcases eq_or_lt_of_le (show ea ≤ eb by omega) with he | hlt
    · rw [← he]
      have : roundHalfEven (a / pow2 ea) ≤ roundHalfEven (b / pow2 ea) :=
        roundHalfEven_mono (by gcongr)
      have : ((roundHalfEven (a / pow2 ea) : Int) : ℚ) ≤ (roundHalfEven (b / pow2 ea) : Int) := by
        exact_mod_cast this
      gcongr
    · have hk : ilog2 a + 1 ≤ ilog2 b := by omega
      have hup : a ≤ pow2 (ilog2 b) := by
        have := pow2_mono hk
        linarith
      -- `pow2 (ilog2 b)` is a multiple of both units
      have mult : ∀ e : Int, e ≤ ilog2 b → ∃ n : Int, (n : ℚ) * pow2 e = pow2 (ilog2 b) := by
        intro e hle
        obtain ⟨k, hk⟩ : ∃ k : Nat, ilog2 b = (k : Int) + e := ⟨(ilog2 b - e).toNat, by omega⟩
        refine ⟨((2 ^ k : Nat) : Int), ?_⟩
        rw [hk, pow2_add, pow2_nat]
        push_cast
        ring
      obtain ⟨n, hn⟩ := mult ea (by omega)
      obtain ⟨m, hm⟩ := mult eb (by omega)
      have h1 : roundHalfEven (a / pow2 ea) ≤ n := by
        rw [← roundHalfEven_int n]
        apply roundHalfEven_mono
        rw [div_le_iff₀ hpa, hn]
        exact hup
      have h2 : m ≤ roundHalfEven (b / pow2 eb) := by
        rw [← roundHalfEven_int m]
        apply roundHalfEven_mono
        rw [le_div_iff₀ hpb, hm]
        exact b1
      have h1' : ((roundHalfEven (a / pow2 ea) : Int) : ℚ) ≤ (n : ℚ) := by exact_mod_cast h1
      have h2' : (m : ℚ) ≤ (roundHalfEven (b / pow2 eb) : Int) := by exact_mod_cast h2
      calc _ ≤ (n : ℚ) * pow2 ea := by gcongr
        _ = (m : ℚ) * pow2 eb := by rw [hn, hm]
        _ ≤ _ := by gcongr

/-- A stable sort of a list tagged with increasing numbers orders by `lt`, then by tag. -/
theorem pySorted_stable {α : Type} (lt : α → α → Bool) (tag : α → Nat)
    (hle : ∀ a b c, lt b a = false → lt c b = false → lt c a = false)
    (hasy : ∀ a b, lt a b = true → lt b a = false)
    (l : List α) (ht : l.Pairwise (fun a b => tag a < tag b)) :
    (pySorted lt l).Pairwise (fun x y => lt x y = true ∨ (lt y x = false ∧ tag x < tag y)) := by
  induction l with
  | nil => simp [pySorted]
  | cons a l ih =>
    rw [List.pairwise_cons] at ht
    have ih := ih ht.2
    unfold pySorted
    have hall : ∀ x ∈ pySorted lt l, tag a < tag x := fun x hx =>
      ht.1 x ((pySorted_perm lt l).mem_iff.mp hx)
    generalize pySorted lt l = m at ih hall
    induction m with
    | nil => simp [insertStable]
    | cons b m ihm =>
      rw [List.pairwise_cons] at ih
      unfold insertStable
      split
      · rename_i hlt
        rw [List.pairwise_cons]
        refine ⟨?_, ihm ih.2 (fun x hx => hall x (List.mem_cons_of_mem _ hx))⟩
        intro x hx
        rcases List.mem_cons.mp ((insertStable_perm lt a m).mem_iff.mp hx) with rfl | hx
        · exact .inl hlt
        · exact ih.1 x hx
      · rename_i hlt
        have hba : lt b a = false := by simpa using hlt
        rw [List.pairwise_cons]
        refine ⟨?_, by rw [List.pairwise_cons]; exact ih⟩
        intro x hx
        right
        refine ⟨?_, hall x hx⟩
        rcases List.mem_cons.mp hx with rfl | hx
        · exact hba
        · rcases ih.1 x hx with h | h
          · exact hle a b x hba (hasy _ _ h)
          · exact hle a b x hba h.1

/-- The ratio of mismatches, as a double. -/
def ratioQ (T : List Nat) (sh : Nat) : ℚ :=
  roundDouble ((Spec.score T sh : ℚ) / ((2 * T.length - 1 : Nat) : ℚ))

theorem estimates_eq (s : State)
    (hT : (s.ticks.filter (fun t => decide (t < 32000))).Pairwise (· < ·)) :
    ∃ N o, N = 7000 ∧ o = 1000 ∧
      (s.ticks.filter (fun t => decide (t < 32000))).length ≤ 32000 ∧
      s.estimates = .ok (pySorted (fun a b : Nat × F64 => a.2.lt b.2)
      ((List.range N).map (fun i => (i + o,
        F64.fin (ratioQ (s.ticks.filter (fun t => decide (t < 32000))) (i + o)))))) := by
  unfold State.estimates
  have htop : topTicks = 32000 := rfl
  simp only [htop]
  generalize hTe : s.ticks.filter (fun t => decide (t < 32000)) = T at *
  have hl : T.length ≤ 32000 := by
    have := length_le_of_sorted_lt T 0 32000 hT (by
      intro x hx
      rw [← hTe, List.mem_filter] at hx
      exact ⟨Nat.zero_le _, by simpa using hx.2⟩)
    omega
  rw [corr_eq T hT]
  obtain ⟨N, hN⟩ : ∃ N, N = offEnd - offStart := ⟨_, rfl⟩
  rw [← hN]
  have hN' : N = 7000 := hN
  clear hN
  obtain ⟨o, ho⟩ : ∃ o, o = offStart := ⟨_, rfl⟩
  rw [← ho]
  have ho' : o = 1000 := ho
  clear ho
  refine ⟨N, o, hN', ho', hl, ?_⟩
  have hz : (((List.range N).map (fun i => Spec.score T (o + i))).zipIdx.map
      (fun x => (x.2, x.1))) = (List.range N).map (fun i => (i, Spec.score T (o + i))) := by
    apply List.ext_getElem?
    intro i
    simp only [List.getElem?_map, List.getElem?_zipIdx]
    by_cases hi : i < N
    · simp [List.getElem?_range hi]
    · rw [List.getElem?_eq_none (by simpa using hi)]; rfl
  rw [hz, mapExcept_ok _ (fun ic : Nat × Nat => (ic.1 + o, F64.fin (ratioQ T (ic.1 + o))))]
  · simp only [List.map_map]
    rfl
  · intro ic hic
    simp only [List.mem_map, List.mem_range] at hic
    obtain ⟨i, _, rfl⟩ := hic
    simp only []
    have := ratio_ok T hl (i + o)
    have h2 : o + i = i + o := by omega
    rw [h2, this]
    rfl

/-! The progress dots. -/

theorem roundDouble_zero : roundDouble 0 = 0 := by simp [roundDouble]

theorem roundDouble_one : roundDouble 1 = 1 := by decide +kernel

theorem roundDouble_hundred : roundDouble 100 = 100 := by decide +kernel

theorem roundDouble_nonneg {q : ℚ} (h : 0 ≤ q) : 0 ≤ roundDouble q := by
  have := roundDouble_mono (le_refl 0) h
  rwa [roundDouble_zero] at this

theorem not_tooLarge_hundred {q : ℚ} (h0 : 0 ≤ q) (h1 : q ≤ 100) : tooLarge q = false := by
  have : (100 : ℚ) < pow2 1024 := by
    have : pow2 ((7 : Nat) : Int) ≤ pow2 1024 := pow2_mono (by norm_num)
    rw [pow2_nat] at this
    norm_num at this
    linarith
  simp only [tooLarge, Bool.or_eq_false_iff, decide_eq_false_iff_not, not_le]
  constructor <;> linarith

/-- A proportion times 100, in floats. -/
def timesHundred (q : ℚ) : ℚ := roundDouble (q * 100)

theorem timesHundred_range {q : ℚ} (h0 : 0 ≤ q) (h1 : q ≤ 1) :
    0 ≤ timesHundred q ∧ timesHundred q ≤ 100 := by
  unfold timesHundred
  refine ⟨roundDouble_nonneg (by linarith), ?_⟩
  have := roundDouble_mono (a := q * 100) (b := 100) (by linarith) (by linarith)
  rwa [roundDouble_hundred] at this

theorem mulNat_hundred {q : ℚ} (h0 : 0 ≤ q) (h1 : q ≤ 1) :
    (F64.fin q).mulNat 100 = .fin (timesHundred q) := by
  obtain ⟨h2, h3⟩ := timesHundred_range h0 h1
  unfold timesHundred at *
  simp only [F64.mulNat, F64.ofExact, Nat.cast_ofNat]
  rw [not_tooLarge_hundred h2 h3]
  rfl

theorem roundDouble_unit {q : ℚ} (h0 : 0 ≤ q) (h1 : q ≤ 1) :
    0 ≤ roundDouble q ∧ roundDouble q ≤ 1 := by
  refine ⟨roundDouble_nonneg h0, ?_⟩
  have := roundDouble_mono h0 h1
  rwa [roundDouble_one] at this

theorem progress_unit {i : Nat} (hi : i < 7000) :
    (0 : ℚ) ≤ (i : ℚ) / 7000 ∧ (i : ℚ) / 7000 ≤ 1 := by
  have : (i : ℚ) < 7000 := by exact_mod_cast hi
  constructor
  · positivity
  · rw [div_le_one (by norm_num)]; linarith

theorem progress_div {i : Nat} (hi : i < 7000) :
    intTrueDiv (i : Int) ((7000 : Nat) : Int) = .ok (.fin (roundDouble ((i : ℚ) / 7000))) := by
  obtain ⟨h0, h1⟩ := progress_unit hi
  obtain ⟨h2, h3⟩ := roundDouble_unit h0 h1
  unfold intTrueDiv
  rw [if_neg (by norm_num)]
  have e : (((7000 : Nat) : Int) : ℚ) = 7000 := by norm_num
  simp only [Int.cast_natCast]
  rw [show (((7000 : Nat) : ℚ)) = 7000 by norm_num, not_tooLarge_hundred h2 (by linarith)]
  rfl

theorem progress_low : ∀ j < 10, ((10 * j : Nat) : ℚ) <
    timesHundred (roundDouble (((700 * j + 1 : Nat) : ℚ) / 7000)) := by decide +kernel

theorem progress_fold (N : Nat) (hN : N = 7000) :
    progressFold N = List.replicate 10 '.' := by
  unfold progressFold
  have hlow := progress_low
  have key : ∀ m ≤ 7000, ∃ k ≤ 10, (∀ j < 10, 700 * j + 1 < m → j < k) ∧
      (List.range m).foldl (progressStep N) (0, []) = (10 * k, List.replicate k '.') := by
    intro m
    induction m with
    | zero => intro _; exact ⟨0, by omega, by omega, rfl⟩
    | succ m ih =>
      intro hm
      obtain ⟨k, hk, hj, e⟩ := ih (by omega)
      obtain ⟨h0, h1⟩ := progress_unit (i := m) (by omega)
      obtain ⟨h2, h3⟩ := roundDouble_unit h0 h1
      have h4 := (timesHundred_range h2 h3).2
      rw [List.range_succ, List.foldl_append, e, List.foldl_cons, List.foldl_nil, progressStep, hN,
        progress_div (i := m) (by omega)]
      simp only []
      rw [mulNat_hundred h2 h3]
      simp only [F64.lt, decide_eq_true_eq]
      split
      · rename_i hlt
        have hk10 : k < 10 := by
          have : ((10 * k : Nat) : ℚ) < 100 := by linarith
          have : 10 * k < 100 := by exact_mod_cast this
          omega
        refine ⟨k + 1, by omega, ?_, by rw [List.replicate_succ']; rfl⟩
        intro j h10 hjm
        by_cases hj1 : 700 * j + 1 < m
        · have := hj j h10 hj1; omega
        · by_cases hj0 : j = 0
          · omega
          · have := hj (j - 1) (by omega) (by omega); omega
      · rename_i hlt
        refine ⟨k, hk, ?_, rfl⟩
        intro j h10 hjm
        by_cases hj1 : 700 * j + 1 < m
        · exact hj j h10 hj1
        · have hme : m = 700 * j + 1 := by omega
          have := hlow j h10
          rw [← hme] at this
          have : ((10 * j : Nat) : ℚ) < ((10 * k : Nat) : ℚ) := by linarith
          have : 10 * j < 10 * k := by exact_mod_cast this
          omega
  obtain ⟨k, hk, hj, e⟩ := key N (by omega)
  have := hj 9 (by omega) (by omega)
  have : k = 10 := by omega
  rw [e, this]

/-- One dot per tenth of the way. -/
theorem progressDots_eq : progressDots = List.replicate 10 '.' :=
  progress_fold (offEnd - offStart) (by decide)

/-! The percentages. -/

theorem score_bound (T : List Nat) (sh : Nat) : Spec.score T sh ≤ 2 * T.length - 1 := by
  cases hT : T with
  | nil => exact Nat.zero_le _
  | cons t ts =>
    rw [← hT]
    obtain ⟨u, hu, hmax⟩ : ∃ u ∈ T, ∀ x ∈ T, x ≤ u := by
      have hne : T ≠ [] := by rw [hT]; simp
      obtain ⟨m, hm⟩ : ∃ m, T.max? = some m := by
        cases h : T.max? with
        | none => rw [List.max?_eq_none_iff] at h; exact absurd h hne
        | some m => exact ⟨m, rfl⟩
      have := List.max?_eq_some_iff.mp hm
      exact ⟨m, this.1, this.2⟩
    unfold Spec.score Spec.unmatchedTicks Spec.unmatchedShifted
    have h1 := List.length_filter_le (fun t => decide (∀ u ∈ T, u + sh ≠ t)) T
    have h2 : (T.filter (fun u => decide (u + sh ∉ T ∧ ∃ t ∈ T, u + sh < t))).length < T.length := by
      apply List.length_filter_lt_length_iff_exists.mpr
      refine ⟨u, hu, ?_⟩
      simp only [decide_eq_true_eq, not_and, not_exists, not_lt]
      intro _ x hx
      have := hmax x hx
      omega
    omega

theorem ratio_unit (T : List Nat) (sh : Nat) :
    (0 : ℚ) ≤ (Spec.score T sh : ℚ) / ((2 * T.length - 1 : Nat) : ℚ) ∧
    (Spec.score T sh : ℚ) / ((2 * T.length - 1 : Nat) : ℚ) ≤ 1 := by
  have h : (Spec.score T sh : ℚ) ≤ ((2 * T.length - 1 : Nat) : ℚ) := by
    exact_mod_cast score_bound T sh
  constructor
  · positivity
  · exact div_le_one_of_le₀ h (by positivity)

/-- The percentage as a float. -/
def percentQ (T : List Nat) (sh : Nat) : ℚ := timesHundred (roundDouble (1 - ratioQ T sh))

theorem ratioQ_unit (T : List Nat) (sh : Nat) : 0 ≤ ratioQ T sh ∧ ratioQ T sh ≤ 1 := by
  obtain ⟨h0, h1⟩ := ratio_unit T sh
  exact roundDouble_unit h0 h1

theorem percent_eq (T : List Nat) (sh : Nat) :
    (F64.fin (ratioQ T sh)).oneSub.mulNat 100 = .fin (percentQ T sh) := by
  obtain ⟨h0, h1⟩ := ratioQ_unit T sh
  obtain ⟨h2, h3⟩ := roundDouble_unit (q := 1 - ratioQ T sh) (by linarith) (by linarith)
  have : (F64.fin (ratioQ T sh)).oneSub = .fin (roundDouble (1 - ratioQ T sh)) := by
    simp only [F64.oneSub, F64.ofExact]
    rw [not_tooLarge_hundred h2 (by linarith)]
    rfl
  rw [this, mulNat_hundred h2 h3]
  rfl

theorem percentQ_range (T : List Nat) (sh : Nat) : 0 ≤ percentQ T sh ∧ percentQ T sh ≤ 100 := by
  obtain ⟨h0, h1⟩ := ratioQ_unit T sh
  obtain ⟨h2, h3⟩ := roundDouble_unit (q := 1 - ratioQ T sh) (by linarith) (by linarith)
  exact timesHundred_range h2 h3

/-- The percentage in hundredths, as printed. -/
def hundredths (T : List Nat) (sh : Nat) : Nat := (roundHalfEven (percentQ T sh * 100)).toNat

theorem hundredths_int (T : List Nat) (sh : Nat) :
    ((hundredths T sh : Nat) : Int) = roundHalfEven (percentQ T sh * 100) := by
  obtain ⟨h0, _⟩ := percentQ_range T sh
  have : roundHalfEven 0 ≤ roundHalfEven (percentQ T sh * 100) :=
    roundHalfEven_mono (by linarith)
  have h00 : roundHalfEven 0 = 0 := by simpa using roundHalfEven_int 0
  unfold hundredths
  omega

theorem hundredths_le (T : List Nat) (sh : Nat) : hundredths T sh ≤ 10000 := by
  obtain ⟨_, h1⟩ := percentQ_range T sh
  have : roundHalfEven (percentQ T sh * 100) ≤ roundHalfEven ((10000 : Int) : ℚ) :=
    roundHalfEven_mono (by push_cast; linarith)
  rw [roundHalfEven_int, ← hundredths_int] at this
  omega

theorem hundredths_mono (T : List Nat) (a b : Nat) (h : Spec.score T a ≤ Spec.score T b) :
    hundredths T b ≤ hundredths T a := by
  have hq : ratioQ T a ≤ ratioQ T b := by
    apply roundDouble_mono (ratio_unit T a).1
    have : (Spec.score T a : ℚ) ≤ (Spec.score T b : ℚ) := by exact_mod_cast h
    gcongr
  obtain ⟨_, h1⟩ := ratioQ_unit T b
  have h2 : roundDouble (1 - ratioQ T b) ≤ roundDouble (1 - ratioQ T a) :=
    roundDouble_mono (by linarith) (by linarith)
  have h3 : 0 ≤ roundDouble (1 - ratioQ T b) := roundDouble_nonneg (by linarith)
  have h4 : percentQ T b ≤ percentQ T a := roundDouble_mono (by linarith) (by linarith)
  have h5 : roundHalfEven (percentQ T b * 100) ≤ roundHalfEven (percentQ T a * 100) :=
    roundHalfEven_mono (by linarith)
  rw [← hundredths_int, ← hundredths_int] at h5
  omega

theorem roundDouble_close {q : ℚ} (h0 : 0 ≤ q) (h1 : q ≤ 128) (h : q = 0 ∨ 1 / 2 ^ 20 ≤ q) :
    |roundDouble q - q| ≤ 1 / 2 ^ 46 := by
  rcases h with rfl | h
  · rw [roundDouble_zero]; norm_num
  · have hp : pow2 (-1022) ≤ 1 / 2 ^ 20 := by
      have := pow2_mono (show (-1022 : Int) ≤ -20 by norm_num)
      have e : pow2 (-20) = 1 / 2 ^ 20 := by rw [pow2_eq]; norm_num
      rwa [e] at this
    have h2 : 0 < q := lt_of_lt_of_le (by norm_num) h
    have h3 := roundDouble_err h2 (by linarith)
    have e : pow2 (-53) = 1 / 2 ^ 53 := by rw [pow2_eq]; norm_num
    rw [e] at h3
    calc _ ≤ q * (1 / 2 ^ 53) := h3
      _ ≤ 128 * (1 / 2 ^ 53) := by gcongr
      _ = 1 / 2 ^ 46 := by norm_num

/-- The printed percentage is the similarity, to a hundredth of a percent (and an error of the
floats too small to see). -/
theorem hundredths_close (T : List Nat) (hl : T.length ≤ 32000) (sh : Nat) :
    |(hundredths T sh : ℚ) - 10000 * Spec.similarity T sh| ≤ 51 / 100 := by
  generalize hx : (Spec.score T sh : ℚ) / ((2 * T.length - 1 : Nat) : ℚ) = x
  have hsim : Spec.similarity T sh = 1 - x := by
    unfold Spec.similarity
    split
    · rename_i h
      subst h
      rw [← hx]
      simp
    · rename_i h
      have : 0 < T.length := List.length_pos_iff.mpr h
      rw [← hx]
      have e : ((2 * T.length - 1 : Nat) : ℚ) = 2 * (T.length : ℚ) - 1 := by
        rw [Nat.cast_sub (by omega)]; push_cast; ring
      rw [e]
  rw [hsim]
  obtain ⟨x0, x1⟩ := ratio_unit T sh
  rw [hx] at x0 x1
  have hgap : (x = 0 ∨ 1 / 64000 ≤ x) ∧ (x = 1 ∨ x ≤ 1 - 1 / 64000) := by
    have hs := score_bound T sh
    by_cases hn : T.length = 0
    · have : T = [] := List.length_eq_zero_iff.mp hn
      subst this
      rw [← hx]
      simp
      norm_num
    · have hd : (0 : ℚ) < ((2 * T.length - 1 : Nat) : ℚ) := by
        have : 0 < 2 * T.length - 1 := by omega
        exact_mod_cast this
      have hdl : ((2 * T.length - 1 : Nat) : ℚ) ≤ 64000 := by
        have : 2 * T.length - 1 ≤ 64000 := by omega
        exact_mod_cast this
      constructor
      · by_cases h0 : Spec.score T sh = 0
        · left; rw [← hx, h0]; simp
        · right
          have : (1 : ℚ) ≤ (Spec.score T sh : ℚ) := by
            have : 1 ≤ Spec.score T sh := by omega
            exact_mod_cast this
          rw [← hx, le_div_iff₀ hd]
          linarith
      · by_cases h1 : Spec.score T sh = 2 * T.length - 1
        · left; rw [← hx, h1]; exact div_self (ne_of_gt hd)
        · right
          have : (Spec.score T sh : ℚ) + 1 ≤ ((2 * T.length - 1 : Nat) : ℚ) := by
            have : Spec.score T sh + 1 ≤ 2 * T.length - 1 := by omega
            exact_mod_cast this
          rw [← hx, div_le_iff₀ hd]
          linarith
  have hq : |ratioQ T sh - x| ≤ 1 / 2 ^ 46 := by
    unfold ratioQ
    rw [hx]
    refine roundDouble_close x0 (by linarith) ?_
    rcases hgap.1 with h | h
    · exact .inl h
    · right; norm_num at h ⊢; linarith
  have hq1 : x = 1 → ratioQ T sh = 1 := by
    intro h
    unfold ratioQ
    rw [hx, h, roundDouble_one]
  obtain ⟨q0, q1⟩ := ratioQ_unit T sh
  have hh := hundredths_int T sh
  have hr := roundHalfEven_err (percentQ T sh * 100)
  rw [← hh] at hr
  simp only [Int.cast_natCast] at hr
  unfold percentQ at *
  generalize ratioQ T sh = q at *
  have hy : 1 - q = 0 ∨ 1 / 2 ^ 19 ≤ 1 - q := by
    rcases hgap.2 with h | h
    · left; rw [hq1 h]; norm_num
    · right
      rw [abs_le] at hq
      norm_num at h hq ⊢
      linarith
  have hy' : |roundDouble (1 - q) - (1 - q)| ≤ 1 / 2 ^ 46 :=
    roundDouble_close (by linarith) (by linarith) (by
      rcases hy with h | h
      · exact .inl h
      · right; norm_num at h ⊢; linarith)
  obtain ⟨y0, y1⟩ := roundDouble_unit (q := 1 - q) (by linarith) (by linarith)
  have hy2 : roundDouble (1 - q) = 0 ∨ 1 / 2 ^ 20 ≤ roundDouble (1 - q) := by
    rcases hy with h | h
    · left; rw [h, roundDouble_zero]
    · right
      rw [abs_le] at hy'
      norm_num at h hy' ⊢
      linarith
  generalize roundDouble (1 - q) = y at *
  have hz : |timesHundred y - y * 100| ≤ 1 / 2 ^ 46 := by
    unfold timesHundred
    refine roundDouble_close (by linarith) (by linarith) ?_
    rcases hy2 with h | h
    · left; rw [h]; norm_num
    · right; norm_num at h ⊢; linarith
  rw [abs_le] at hr hz hy' hq ⊢
  norm_num at hr hz hy' hq ⊢
  constructor <;> linarith

end VgmX
