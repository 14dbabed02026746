import Verif.Model.Ticks
import Verif.Spec.Ticks
import Verif.Lemmas.Sort
import Verif.Lemmas.Float
/-
The merge loop of `ticks_per_note` computes `Spec.score`; comparing scores as doubles is
comparing scores; the head of a stable sort is the first minimal element.
-/

namespace VgmX

/-- Unmatched elements of `ts` against the shifted `ss`. -/
def cntA (sh : Nat) (ts ss : List Nat) : Nat :=
  ts.countP (fun t => decide (∀ u ∈ ss, u + sh ≠ t))

/-- Unmatched shifted elements of `ss` before some element of `ts`. -/
def cntB (sh : Nat) (ts ss : List Nat) : Nat :=
  ss.countP (fun u => decide ((∀ t ∈ ts, u + sh ≠ t) ∧ ∃ t ∈ ts, u + sh < t))

theorem score_eq_cnt (T : List Nat) (sh : Nat) : Spec.score T sh = cntA sh T T + cntB sh T T := by
  unfold Spec.score Spec.unmatchedTicks Spec.unmatchedShifted cntA cntB
  rw [← List.countP_eq_length_filter, ← List.countP_eq_length_filter]
  congr 1
  apply List.countP_congr
  intro u _
  simp only [decide_eq_true_eq]
  constructor
  · rintro ⟨h, h'⟩; exact ⟨fun t ht e => h (e ▸ ht), h'⟩
  · rintro ⟨h, h'⟩; exact ⟨fun ht => h _ ht rfl, h'⟩

section
variable {sh : Nat} {t u : Nat} {ts us : List Nat}

theorem cnt_lt (hu : (u :: us).Pairwise (· < ·))
    (h : t < u + sh) :
    cntA sh (t :: ts) (u :: us) + cntB sh (t :: ts) (u :: us) =
      1 + (cntA sh ts (u :: us) + cntB sh ts (u :: us)) := by
  rw [List.pairwise_cons] at hu
  have hge : ∀ v ∈ u :: us, t < v + sh := by
    intro v hv
    rcases List.mem_cons.mp hv with rfl | hv
    · exact h
    · have := hu.1 v hv; omega
  have hA : cntA sh (t :: ts) (u :: us) = cntA sh ts (u :: us) + 1 := by
    unfold cntA
    rw [List.countP_cons_of_pos]
    simp only [decide_eq_true_eq]
    intro v hv; have := hge v hv; omega
  have hB : cntB sh (t :: ts) (u :: us) = cntB sh ts (u :: us) := by
    unfold cntB
    apply List.countP_congr
    intro v hv
    have := hge v hv
    simp only [decide_eq_true_eq, List.forall_mem_cons, List.exists_mem_cons_iff]
    constructor
    · rintro ⟨⟨_, h1⟩, h2 | h2⟩
      · omega
      · exact ⟨h1, h2⟩
    · rintro ⟨h1, h2⟩; exact ⟨⟨by omega, h1⟩, Or.inr h2⟩
  rw [hA, hB]; omega

theorem cnt_gt (ht : (t :: ts).Pairwise (· < ·)) (h : u + sh < t) :
    cntA sh (t :: ts) (u :: us) + cntB sh (t :: ts) (u :: us) =
      1 + (cntA sh (t :: ts) us + cntB sh (t :: ts) us) := by
  rw [List.pairwise_cons] at ht
  have hge : ∀ v ∈ t :: ts, u + sh < v := by
    intro v hv
    rcases List.mem_cons.mp hv with rfl | hv
    · exact h
    · have := ht.1 v hv; omega
  have hB : cntB sh (t :: ts) (u :: us) = cntB sh (t :: ts) us + 1 := by
    unfold cntB
    rw [List.countP_cons_of_pos]
    simp only [decide_eq_true_eq]
    exact ⟨fun v hv => by have := hge v hv; omega, t, List.mem_cons_self, h⟩
  have hA : cntA sh (t :: ts) (u :: us) = cntA sh (t :: ts) us := by
    unfold cntA
    apply List.countP_congr
    intro v hv
    have := hge v hv
    simp only [decide_eq_true_eq, List.forall_mem_cons]
    constructor
    · rintro ⟨_, h1⟩; exact h1
    · intro h1; exact ⟨by omega, h1⟩
  rw [hA, hB]; omega

theorem cnt_eq (ht : (t :: ts).Pairwise (· < ·)) (hu : (u :: us).Pairwise (· < ·))
    (h : t = u + sh) :
    cntA sh (t :: ts) (u :: us) + cntB sh (t :: ts) (u :: us) =
      cntA sh ts us + cntB sh ts us := by
  rw [List.pairwise_cons] at ht hu
  have hA : cntA sh (t :: ts) (u :: us) = cntA sh ts us := by
    unfold cntA
    rw [List.countP_cons_of_neg]
    · apply List.countP_congr
      intro v hv
      have := ht.1 v hv
      simp only [decide_eq_true_eq, List.forall_mem_cons]
      constructor
      · rintro ⟨_, h1⟩; exact h1
      · intro h1; exact ⟨by omega, h1⟩
    · simp only [decide_eq_true_eq]
      intro hc; exact hc u List.mem_cons_self h.symm
  have hB : cntB sh (t :: ts) (u :: us) = cntB sh ts us := by
    unfold cntB
    rw [List.countP_cons_of_neg]
    · apply List.countP_congr
      intro v hv
      have := hu.1 v hv
      simp only [decide_eq_true_eq, List.forall_mem_cons, List.exists_mem_cons_iff]
      constructor
      · rintro ⟨⟨_, h1⟩, h2 | h2⟩
        · omega
        · exact ⟨h1, h2⟩
      · rintro ⟨h1, h2⟩; exact ⟨⟨by omega, h1⟩, Or.inr h2⟩
    · simp only [decide_eq_true_eq]
      rintro ⟨hc, _⟩; exact hc t List.mem_cons_self h.symm
  rw [hA, hB]

theorem cnt_nil (ss : List Nat) : cntA sh [] ss + cntB sh [] ss = 0 := by
  simp [cntA, cntB]

end

/-- Steps the loop can still take, at most. -/
def mergeBound (pc : MergePc) (t s lt ls : Nat) : Nat :=
  4 * (lt + ls) + match pc with
    | .whileT => if t < s then 1 else 4
    | .whileS => 3
    | .ifEq => 2

theorem drop_next {l : List Nat} {i a : Nat} {as : List Nat} (h : l.drop i = a :: as) :
    l[i + 1]? = as.head? ∧ l.drop (i + 1) = as := by
  have h2 : l.drop (i + 1) = as := by
    rw [← List.drop_drop, h]; rfl
  refine ⟨?_, h2⟩
  have : (l.drop i)[1]? = l[i + 1]? := by rw [List.getElem?_drop]
  rw [← this, h]
  cases as <;> rfl

theorem mergeLoop_eq (T : List Nat) (sh : Nat) :
    ∀ (fuel : Nat) (pc : MergePc) (ti si t u d : Nat) (ts us : List Nat),
      T.drop ti = t :: ts → T.drop si = u :: us →
      (t :: ts).Pairwise (· < ·) → (u :: us).Pairwise (· < ·) →
      (∃ v ∈ u :: us, ∀ x ∈ t :: ts, x < v + sh) →
      (pc = .ifEq → t ≤ u + sh) →
      mergeBound pc t (u + sh) (t :: ts).length (u :: us).length ≤ fuel →
      mergeLoop T sh fuel pc ti si t (u + sh) d =
        some (d + (cntA sh (t :: ts) (u :: us) + cntB sh (t :: ts) (u :: us))) := by
  intro fuel
  induction fuel with
  | zero =>
    intro pc ti si t u d ts us _ _ _ _ _ _ hf
    cases pc <;> simp [mergeBound] at hf
  | succ fuel ih =>
    intro pc ti si t u d ts us hti hsi ht hu hl hp hf
    obtain ⟨hti', htd⟩ := drop_next hti
    obtain ⟨hsi', hsd⟩ := drop_next hsi
    have ht' := (List.pairwise_cons.mp ht)
    have hu' := (List.pairwise_cons.mp hu)
    cases pc with
    | whileT =>
      unfold mergeLoop
      by_cases h : t < u + sh
      · rw [if_pos h, hti', cnt_lt hu h]
        cases ts with
        | nil => rw [cnt_nil]; rfl
        | cons t2 ts2 =>
          show mergeLoop T sh fuel .whileT (ti + 1) si t2 (u + sh) (d + 1) = _
          rw [ih _ _ _ _ _ _ _ _ htd hsi ht'.2 hu
            (by obtain ⟨v, hv, hx⟩ := hl; exact ⟨v, hv, fun x hx' => hx x (List.mem_cons_of_mem _ hx')⟩)
            (by simp)
            (by simp only [mergeBound, List.length_cons, if_pos h] at hf ⊢; split <;> omega)]
          congr 1; omega
      · rw [if_neg h]
        exact ih _ _ _ _ _ _ _ _ hti hsi ht hu hl (by simp)
          (by simp only [mergeBound, if_neg h] at hf ⊢; omega)
    | whileS =>
      unfold mergeLoop
      by_cases h : u + sh < t
      · rw [if_pos h, hsi', cnt_gt ht h]
        have hl2 : ∃ v ∈ us, ∀ x ∈ t :: ts, x < v + sh := by
          obtain ⟨v, hv, hx⟩ := hl
          rcases List.mem_cons.mp hv with rfl | hv
          · have := hx t List.mem_cons_self; omega
          · exact ⟨v, hv, hx⟩
        cases us with
        | nil => obtain ⟨v, hv, _⟩ := hl2; simp at hv
        | cons u2 us2 =>
          show mergeLoop T sh fuel .whileS ti (si + 1) t (u2 + sh) (d + 1) = _
          rw [ih _ _ _ _ _ _ _ _ hti hsd ht hu'.2 hl2 (by simp)
            (by simp only [mergeBound, List.length_cons] at hf ⊢; omega)]
          congr 1; omega
      · rw [if_neg h]
        exact ih _ _ _ _ _ _ _ _ hti hsi ht hu hl (by intro _; omega)
          (by simp only [mergeBound] at hf ⊢; omega)
    | ifEq =>
      have hle := hp rfl
      unfold mergeLoop
      by_cases h : t = u + sh
      · rw [if_pos h, hti', hsi', cnt_eq ht hu h]
        cases ts with
        | nil => rw [cnt_nil]; rfl
        | cons t2 ts2 =>
          have hl2 : ∃ v ∈ us, ∀ x ∈ t2 :: ts2, x < v + sh := by
            obtain ⟨v, hv, hx⟩ := hl
            rcases List.mem_cons.mp hv with rfl | hv
            · have := hx t List.mem_cons_self; omega
            · exact ⟨v, hv, fun x hx' => hx x (List.mem_cons_of_mem _ hx')⟩
          cases us with
          | nil => obtain ⟨v, hv, _⟩ := hl2; simp at hv
          | cons u2 us2 =>
            show mergeLoop T sh fuel .whileT (ti + 1) (si + 1) t2 (u2 + sh) d = _
            exact ih _ _ _ _ _ _ _ _ htd hsd ht'.2 hu'.2 hl2 (by simp)
              (by simp only [mergeBound, List.length_cons] at hf ⊢; split <;> omega)
      · rw [if_neg h]
        have hlt : t < u + sh := by omega
        exact ih _ _ _ _ _ _ _ _ hti hsi ht hu hl (by simp)
          (by simp only [mergeBound, if_pos hlt] at hf ⊢; omega)

theorem le_getLast_of_sorted (l : List Nat) (hn : l ≠ []) (hp : l.Pairwise (· < ·)) (x : Nat)
    (hx : x ∈ l) : x ≤ l.getLast hn := by
  have e := List.dropLast_append_getLast hn
  rw [← e] at hp hx
  rw [List.pairwise_append] at hp
  rcases List.mem_append.mp hx with hx | hx
  · exact Nat.le_of_lt (hp.2.2 x hx _ (by simp))
  · simp at hx; omega

theorem symDiff_eq (T : List Nat) (hT : T.Pairwise (· < ·)) (sh : Nat) (hsh : 0 < sh) :
    symDiff T sh = some (Spec.score T sh) := by
  unfold symDiff
  cases T with
  | nil => rfl
  | cons t ts =>
    show mergeLoop (t :: ts) sh _ _ 0 0 t (t + sh) 0 = _
    rw [mergeLoop_eq (t :: ts) sh _ .whileT 0 0 t t 0 ts ts rfl rfl hT hT ?_ (by simp) ?_,
      score_eq_cnt]
    · simp
    · refine ⟨(t :: ts).getLast (by simp), List.getLast_mem _, ?_⟩
      intro x hx
      have := le_getLast_of_sorted _ (by simp) hT x hx
      omega
    · simp only [mergeBound, List.length_cons]
      split <;> omega

/-- Dividing two different small numbers by the same small number gives different doubles,
in the same order. -/
theorem roundDouble_div_lt {a b d : Nat} (hab : a < b) (hb : b < 2 ^ 50) (hd0 : 0 < d)
    (hd : d < 2 ^ 50) :
    roundDouble ((a : ℚ) / (d : ℚ)) < roundDouble ((b : ℚ) / (d : ℚ)) := by
  have hdq : (0 : ℚ) < d := by exact_mod_cast hd0
  have hdb : (d : ℚ) < 2 ^ 50 := by exact_mod_cast hd
  have hbb : (b : ℚ) < 2 ^ 50 := by exact_mod_cast hb
  have hab' : (a : ℚ) + 1 ≤ b := by exact_mod_cast hab
  have h53 : pow2 (-53) = 1 / 2 ^ 53 := by rw [pow2_eq]; norm_num
  have hsmall : ∀ n : Nat, 0 < n → pow2 (-1022) ≤ (n : ℚ) / d := by
    intro n hn
    have hn' : (1 : ℚ) ≤ n := by exact_mod_cast hn
    calc pow2 (-1022) ≤ pow2 (-50) := pow2_mono (by norm_num)
      _ = 1 / 2 ^ 50 := by rw [pow2_eq]; norm_num
      _ ≤ 1 / d := one_div_le_one_div_of_le hdq hdb.le
      _ ≤ n / d := by gcongr
  have hpos : ∀ n : Nat, 0 < n → (0 : ℚ) < (n : ℚ) / d := by
    intro n hn
    have hn' : (0 : ℚ) < n := by exact_mod_cast hn
    positivity
  have hB := roundDouble_err (hpos b (by omega)) (hsmall b (by omega))
  rw [abs_le, h53] at hB
  have hbound : (b : ℚ) / d - (b : ℚ) / d * (1 / 2 ^ 53) ≤ roundDouble ((b : ℚ) / d) := by linarith [hB.1]
  have hupper : roundDouble ((a : ℚ) / d) ≤ (a : ℚ) / d + (a : ℚ) / d * (1 / 2 ^ 53) := by
    rcases Nat.eq_zero_or_pos a with rfl | ha
    · simp [roundDouble]
    · have hA := roundDouble_err (hpos a ha) (hsmall a ha)
      rw [abs_le, h53] at hA
      linarith [hA.2]
  have ha0 : (0 : ℚ) ≤ a := by positivity
  have : (a : ℚ) / d + (a : ℚ) / d * (1 / 2 ^ 53) < (b : ℚ) / d - (b : ℚ) / d * (1 / 2 ^ 53) := by
    have e1 : (a : ℚ) / d + (a : ℚ) / d * (1 / 2 ^ 53) = (a * (1 + 1 / 2 ^ 53)) / d := by ring
    have e2 : (b : ℚ) / d - (b : ℚ) / d * (1 / 2 ^ 53) = (b * (1 - 1 / 2 ^ 53)) / d := by ring
    rw [e1, e2]
    apply div_lt_div_of_pos_right _ hdq
    have hbb2 : (b : ℚ) < 1125899906842624 := lt_of_lt_of_eq hbb (by norm_num)
    norm_num
    linarith
  linarith

theorem not_tooLarge_div {a d : Nat} (ha : a < 2 ^ 50) (hd0 : 0 < d) (hd : d < 2 ^ 50) :
    tooLarge (roundDouble ((a : ℚ) / (d : ℚ))) = false := by
  have hbig : (2 : ℚ) ^ 50 < pow2 1024 := by
    have : pow2 ((50 : Nat) : Int) < pow2 1024 := by
      rw [pow2_eq, pow2_eq]
      exact zpow_lt_zpow_right₀ (by norm_num) (by norm_num)
    rwa [pow2_nat] at this
  have hdq : (1 : ℚ) ≤ d := by exact_mod_cast hd0
  have h0 : (0 : ℚ) ≤ roundDouble ((a : ℚ) / d) := by
    rcases Nat.eq_zero_or_pos a with rfl | h
    · simp [roundDouble]
    · have := roundDouble_div_lt (a := 0) h ha hd0 hd
      simp only [Nat.cast_zero, zero_div] at this
      have h00 : roundDouble 0 = 0 := by simp [roundDouble]
      rw [h00] at this
      exact this.le
  have h1 : roundDouble ((a : ℚ) / d) ≤ 2 ^ 50 := by
    rcases Nat.eq_zero_or_pos a with rfl | h
    · simp [roundDouble]
    · have ha' : (a : ℚ) + 1 ≤ 2 ^ 50 := by exact_mod_cast ha
      have hap : (1 : ℚ) ≤ a := by exact_mod_cast h
      have hdb : (d : ℚ) < 2 ^ 50 := by exact_mod_cast hd
      have hle : (a : ℚ) / d ≤ a := div_le_self (by linarith) hdq
      have hA := roundDouble_err (q := (a : ℚ) / d) (by positivity) (by
        calc pow2 (-1022) ≤ pow2 (-50) := pow2_mono (by norm_num)
          _ = 1 / 2 ^ 50 := by rw [pow2_eq]; norm_num
          _ ≤ 1 / d := one_div_le_one_div_of_le (by linarith) hdb.le
          _ ≤ a / d := by gcongr)
      have h53 : pow2 (-53) = 1 / 2 ^ 53 := by rw [pow2_eq]; norm_num
      rw [abs_le, h53] at hA
      have : (a : ℚ) / d * (1 / 2 ^ 53) ≤ 1 := by
        calc (a : ℚ) / d * (1 / 2 ^ 53) ≤ 2 ^ 50 * (1 / 2 ^ 53) := by
              apply mul_le_mul_of_nonneg_right _ (by positivity)
              linarith
          _ ≤ 1 := by norm_num
      linarith [hA.2]
  simp only [tooLarge, Bool.or_eq_false_iff, decide_eq_false_iff_not, not_le]
  have hp := pow2_pos 1024
  constructor <;> linarith

theorem F64.lt_asymm (a b : F64) (h : a.lt b = true) : b.lt a = false := by
  cases a <;> cases b <;> simp [F64.lt] at *
  · linarith
  · assumption
  · assumption
  · simp [h]

theorem F64.not_lt_trans (a b c : F64) (h1 : b.lt a = false) (h2 : c.lt b = false) :
    c.lt a = false := by
  cases a <;> cases b <;> cases c <;> simp [F64.lt] at * <;> first | linarith | simp_all

/-- The head of a stable sort of a list tagged with increasing numbers is the first minimal
element. -/
theorem pySorted_head {α : Type} (lt : α → α → Bool) (tag : α → Nat)
    (hle : ∀ a b c, lt b a = false → lt c b = false → lt c a = false)
    (hasy : ∀ a b, lt a b = true → lt b a = false)
    (l : List α) (hn : l ≠ []) (ht : l.Pairwise (fun a b => tag a < tag b)) :
    ∃ h rest, pySorted lt l = h :: rest ∧ h ∈ l ∧ (∀ x ∈ l, lt x h = false) ∧
      ∀ x ∈ l, tag x < tag h → lt h x = true := by
  have hirr : ∀ a, lt a a = false := by
    intro a
    cases h : lt a a with
    | false => rfl
    | true => have := hasy a a h; rw [h] at this; exact this
  induction l with
  | nil => exact absurd rfl hn
  | cons a l ih =>
    rw [List.pairwise_cons] at ht
    cases l with
    | nil =>
      refine ⟨a, [], rfl, by simp, ?_, ?_⟩
      · intro x hx; simp at hx; subst hx; exact hirr x
      · intro x hx h; simp at hx; subst hx; omega
    | cons a2 l2 =>
      obtain ⟨b, rest, hs, hmem, hmin, hfst⟩ := ih (by simp) ht.2
      unfold pySorted
      rw [hs]
      unfold insertStable
      cases hba : lt b a with
      | true =>
        refine ⟨b, _, rfl, List.mem_cons_of_mem _ hmem, ?_, ?_⟩
        · intro x hx
          rcases List.mem_cons.mp hx with rfl | hx
          · exact hasy _ _ hba
          · exact hmin x hx
        · intro x hx htx
          rcases List.mem_cons.mp hx with rfl | hx
          · exact hba
          · exact hfst x hx htx
      | false =>
        refine ⟨a, _, rfl, List.mem_cons_self, ?_, ?_⟩
        · intro x hx
          rcases List.mem_cons.mp hx with rfl | hx
          · exact hirr x
          · exact hle a b x hba (hmin x hx)
        · intro x hx htx
          rcases List.mem_cons.mp hx with rfl | hx
          · omega
          · have := ht.1 x hx; omega

theorem mapExcept_ok {α β : Type} (f : α → Except PyErr β) (g : α → β) (l : List α)
    (h : ∀ a ∈ l, f a = .ok (g a)) : mapExcept f l = .ok (l.map g) := by
  induction l with
  | nil => rfl
  | cons a l ih =>
    unfold mapExcept
    rw [h a List.mem_cons_self]
    simp only []
    rw [ih (fun x hx => h x (List.mem_cons_of_mem _ hx))]
    rfl

theorem length_le_of_sorted_lt (l : List Nat) (a m : Nat) (h : l.Pairwise (· < ·))
    (hb : ∀ x ∈ l, a ≤ x ∧ x < m) : l.length ≤ m - a := by
  induction l generalizing a with
  | nil => simp
  | cons b l ih =>
    rw [List.pairwise_cons] at h
    have := ih (b + 1) h.2 (fun x hx => ⟨h.1 x hx, (hb x (List.mem_cons_of_mem _ hx)).2⟩)
    have := hb b List.mem_cons_self
    simp only [List.length_cons]; omega

theorem score_le (T : List Nat) (sh : Nat) : Spec.score T sh ≤ 2 * T.length := by
  unfold Spec.score Spec.unmatchedTicks Spec.unmatchedShifted
  have h1 := List.length_filter_le (fun t => decide (∀ u ∈ T, u + sh ≠ t)) T
  have h2 := List.length_filter_le (fun u => decide (u + sh ∉ T ∧ ∃ t ∈ T, u + sh < t)) T
  omega

theorem corr_eq (T : List Nat) (hT : T.Pairwise (· < ·)) :
    corr T = (List.range (offEnd - offStart)).map (fun i => Spec.score T (offStart + i)) := by
  unfold corr
  apply List.map_congr_left
  intro i _
  rw [symDiff_eq T hT _ (by unfold offStart; omega)]
  rfl

/-- The double that `ticks_per_note` sorts by. -/
theorem ratio_ok (T : List Nat) (hl : T.length ≤ 32000) (sh : Nat) :
    intTrueDiv (Spec.score T sh : Int) ((T.length : Int) * 2 - 1) =
      .ok (.fin (roundDouble ((Spec.score T sh : ℚ) / ((2 * T.length - 1 : Nat) : ℚ)))) := by
  unfold intTrueDiv
  rw [if_neg (by omega)]
  rcases Nat.eq_zero_or_pos T.length with h0 | h0
  · have : T = [] := List.length_eq_zero_iff.mp h0
    subst this
    have hs : Spec.score [] sh = 0 := rfl
    have h00 : roundDouble 0 = 0 := by simp [roundDouble]
    have ht : tooLarge 0 = false := by
      have := pow2_pos 1024
      simp only [tooLarge, Bool.or_eq_false_iff, decide_eq_false_iff_not, not_le]
      constructor <;> linarith
    simp [hs, h00, ht]
  · have hc : (((T.length : Int) * 2 - 1 : Int) : ℚ) = ((2 * T.length - 1 : Nat) : ℚ) := by
      have : ((T.length : Int) * 2 - 1 : Int) = ((2 * T.length - 1 : Nat) : Int) := by omega
      rw [this]; rfl
    have hs := score_le T sh
    have := not_tooLarge_div (a := Spec.score T sh) (d := 2 * T.length - 1) (by omega) (by omega) (by omega)
    rw [hc]
    simp only [Int.cast_natCast]
    rw [this]; rfl

theorem ratio_lt (T : List Nat) (hl : T.length ≤ 32000) (a b : Nat) :
    (F64.fin (roundDouble ((Spec.score T a : ℚ) / ((2 * T.length - 1 : Nat) : ℚ)))).lt
      (.fin (roundDouble ((Spec.score T b : ℚ) / ((2 * T.length - 1 : Nat) : ℚ)))) = true ↔
    Spec.score T a < Spec.score T b := by
  rcases Nat.eq_zero_or_pos T.length with h0 | h0
  · have : T = [] := List.length_eq_zero_iff.mp h0
    subst this
    have hs : ∀ sh, Spec.score [] sh = 0 := fun _ => rfl
    simp [hs, F64.lt]
  · simp only [F64.lt, decide_eq_true_eq]
    have ha := score_le T a
    have hb := score_le T b
    constructor
    · intro h
      by_contra hc
      rcases Nat.lt_or_eq_of_le (not_lt.mp hc) with hlt | heq
      · have := roundDouble_div_lt (d := 2 * T.length - 1) hlt (by omega) (by omega) (by omega)
        linarith
      · rw [heq] at h; exact lt_irrefl _ h
    · intro h
      exact roundDouble_div_lt h (by omega) (by omega) (by omega)

theorem ticksPerNote_spec (s : State)
    (hT : (s.ticks.filter (fun t => decide (t < 32000))).Pairwise (· < ·)) :
    ∃ b, s.ticksPerNote = .ok b ∧
      Spec.BestShift (s.ticks.filter (fun t => decide (t < 32000))) b := by
  unfold State.ticksPerNote State.estimates
  have htop : topTicks = 32000 := rfl
  simp only [htop]
  generalize hTe : s.ticks.filter (fun t => decide (t < 32000)) = T at *
  have hl : T.length ≤ 32000 := by
    have := length_le_of_sorted_lt T 0 32000 hT (by
      intro x hx
      rw [← hTe, List.mem_filter] at hx
      exact ⟨Nat.zero_le _, by simpa using hx.2⟩)
    omega
  rw [corr_eq T hT]
  obtain ⟨N, hN⟩ : ∃ N, N = offEnd - offStart := ⟨_, rfl⟩
  rw [← hN]
  have hN' : N = 7000 := hN
  clear hN
  obtain ⟨o, ho⟩ : ∃ o, o = offStart := ⟨_, rfl⟩
  rw [← ho]
  have ho' : o = 1000 := ho
  clear ho
  have hz : (((List.range N).map (fun i => Spec.score T (o + i))).zipIdx.map
      (fun x => (x.2, x.1))) = (List.range N).map (fun i => (i, Spec.score T (o + i))) := by
    apply List.ext_getElem?
    intro i
    simp only [List.getElem?_map, List.getElem?_zipIdx]
    by_cases hi : i < N
    · simp [List.getElem?_range hi]
    · rw [List.getElem?_eq_none (by simpa using hi)]; rfl
  rw [hz]
  let P : Nat → F64 := fun sh =>
    .fin (roundDouble ((Spec.score T sh : ℚ) / ((2 * T.length - 1 : Nat) : ℚ)))
  rw [mapExcept_ok _ (fun ic : Nat × Nat => (ic.1 + o, P (ic.1 + o)))]
  · simp only [List.map_map]
    have hle : ∀ a b c : Nat × F64, b.2.lt a.2 = false → c.2.lt b.2 = false → c.2.lt a.2 = false :=
      fun a b c => F64.not_lt_trans _ _ _
    have hasy : ∀ a b : Nat × F64, a.2.lt b.2 = true → b.2.lt a.2 = false :=
      fun a b => F64.lt_asymm _ _
    obtain ⟨h, rest, he, hm, hmin, hfst⟩ := pySorted_head (fun a b : Nat × F64 => a.2.lt b.2)
      (fun a => a.1) hle hasy
      ((List.range N).map
        ((fun ic : Nat × Nat => (ic.1 + o, P (ic.1 + o))) ∘
          fun i => (i, Spec.score T (o + i))))
      (by
        intro hc
        have := congrArg List.length hc
        simp at this; omega)
      (by
        rw [List.pairwise_map]
        refine (List.pairwise_lt_range).imp ?_
        intro a b hab
        simpa using hab)
    rw [he]
    refine ⟨h.1, rfl, ?_⟩
    simp only [List.mem_map, List.mem_range, Function.comp] at hm hmin hfst
    obtain ⟨i, hi, rfl⟩ := hm
    have hmem : ∀ c, 1000 ≤ c → c < 8000 → ∃ a, a < N ∧
        (a + o, P (a + o)) = (c, P c) := by
      intro c h1 h2
      refine ⟨c - 1000, by omega, ?_⟩
      have : c - 1000 + o = c := by omega
      rw [this]
    refine ⟨by show 1000 ≤ i + o; omega, by show i + o < 8000; omega, ?_, ?_⟩
    · intro c h1 h2
      have := hmin (c, P c) (hmem c h1 h2)
      simp only [] at this
      by_contra hc
      have := (ratio_lt T hl c (i + o)).mpr (not_le.mp hc)
      simp_all [P]
    · intro c h1 h2
      have := hfst (c, P c) (hmem c h1 (by have : c < i + o := h2; omega)) h2
      exact (ratio_lt T hl _ _).mp this
  · intro ic hic
    simp only [List.mem_map, List.mem_range] at hic
    obtain ⟨i, _, rfl⟩ := hic
    simp only []
    have := ratio_ok T hl (i + o)
    have h2 : o + i = i + o := by omega
    rw [h2, this]
    rfl

end VgmX
