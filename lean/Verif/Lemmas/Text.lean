import Verif.Model.Text
import Verif.Spec.Pitch
/-
Numbers written by the model read back.
-/

namespace VgmX
open Spec

theorem digits_lt {b : Nat} (hb : 2 ≤ b) (fuel n : Nat) : ∀ d ∈ digits b fuel n, d < b := by
  induction fuel generalizing n with
  | zero => simp [digits]
  | succ fuel ih =>
    unfold digits
    split
    · intro d hd; simp at hd; omega
    · intro d hd
      rcases List.mem_append.mp hd with hd | hd
      · exact ih _ d hd
      · simp at hd; subst hd; exact Nat.mod_lt _ (by omega)

theorem digits_ne_nil {b fuel n : Nat} (h : n < fuel) : digits b fuel n ≠ [] := by
  cases fuel with
  | zero => omega
  | succ fuel => unfold digits; split <;> simp

theorem digitVal_digitChar (d : Nat) (hd : d < 16) : digitVal (digitChar d) = some d := by
  have : ∀ d < 16, digitVal (digitChar d) = some d := by decide +kernel
  exact this d hd

theorem isDec_digitChar (d : Nat) (hd : d < 10) : isDec (digitChar d) = true := by
  have : ∀ d < 10, isDec (digitChar d) = true := by decide +kernel
  exact this d hd

theorem readFrom_append (b acc : Nat) (s t : List Char) :
    readFrom b acc (s ++ t) = (readFrom b acc s).bind (fun a => readFrom b a t) := by
  induction s generalizing acc with
  | nil => rfl
  | cons c s ih =>
    simp only [List.cons_append, readFrom]
    cases digitVal c with
    | none => rfl
    | some d =>
      simp only []
      split
      · exact ih _
      · rfl

theorem readFrom_digits {b : Nat} (hb : 2 ≤ b) (hb16 : b ≤ 16) (fuel n : Nat) (h : n < fuel) :
    readFrom b 0 ((digits b fuel n).map digitChar) = some n := by
  induction fuel generalizing n with
  | zero => omega
  | succ fuel ih =>
    unfold digits
    split
    · rename_i hn
      simp [readFrom, digitVal_digitChar n (by omega), hn]
    · rename_i hn
      rw [List.map_append, readFrom_append, ih (n / b) (by
        have : n / b < n := Nat.div_lt_self (by omega) (by omega)
        omega)]
      have hm : n % b < b := Nat.mod_lt _ (by omega)
      simp only [Option.bind_some, List.map_cons, List.map_nil, readFrom,
        digitVal_digitChar (n % b) (by omega), hm, if_true]
      rw [Nat.div_add_mod' n b]

theorem readBase_natStr (n : Nat) : readBase 10 (natStr n) = some n := by
  unfold readBase natStr
  rw [if_neg (by simp [digits_ne_nil]), readFrom_digits (by omega) (by omega) _ _ (by omega)]

theorem natStr_ne_nil (n : Nat) : natStr n ≠ [] := by
  simp [natStr, digits_ne_nil]

theorem natStr_dec (n : Nat) : ∀ c ∈ natStr n, isDec c = true := by
  intro c hc
  obtain ⟨d, hd, rfl⟩ := List.mem_map.mp hc
  exact isDec_digitChar d (digits_lt (by omega) _ _ d hd)

theorem natStr_inj {n m : Nat} (h : natStr n = natStr m) : n = m := by
  have h1 := readBase_natStr n
  rw [h, readBase_natStr] at h1
  exact (Option.some.inj h1).symm

theorem readFrom_zeros {b : Nat} (hb : 0 < b) (k : Nat) (s : List Char) :
    readFrom b 0 (List.replicate k '0' ++ s) = readFrom b 0 s := by
  induction k with
  | zero => rfl
  | succ k ih =>
    rw [List.replicate_succ, List.cons_append, readFrom]
    have : digitVal '0' = some 0 := by decide +kernel
    rw [this]
    simp only [hb, if_true, Nat.zero_mul, Nat.add_zero]
    exact ih

theorem readBase_hex2 (n : Nat) : readBase 16 (hex2 n) = some n := by
  unfold readBase hex2 padLeft
  rw [if_neg (by simp [digits_ne_nil]), readFrom_zeros (by omega),
    readFrom_digits (by omega) (by omega) _ _ (by omega)]

theorem digits_length_le {b : Nat} (fuel n k : Nat) (hb : 2 ≤ b) (h : n < fuel)
    (hk : 0 < k) :
    (digits b fuel n).length ≤ k ↔ n < b ^ k := by
  induction fuel generalizing n k with
  | zero => omega
  | succ fuel ih =>
    unfold digits
    split
    · rename_i hn
      simp only [List.length_singleton]
      constructor
      · intro _
        calc n < b := hn
          _ = b ^ 1 := (Nat.pow_one b).symm
          _ ≤ b ^ k := Nat.pow_le_pow_right (by omega) hk
      · intro _; exact hk
    · rename_i hn
      have hlt : n / b < n := Nat.div_lt_self (by omega) (by omega)
      rw [List.length_append, List.length_singleton]
      have hpos : 0 < (digits b fuel (n / b)).length :=
        List.length_pos_iff.mpr (digits_ne_nil (by omega))
      by_cases hk1 : k = 1
      · subst hk1
        rw [Nat.pow_one]
        constructor <;> intro h <;> omega
      · obtain ⟨j, rfl⟩ : ∃ j, k = j + 1 := ⟨k - 1, by omega⟩
        rw [Nat.pow_succ, ← Nat.div_lt_iff_lt_mul (by omega : 0 < b),
          ← ih (n / b) j (by omega) (by omega)]
        omega

theorem hex2_length (n : Nat) : 2 ≤ (hex2 n).length ∧ ((hex2 n).length = 2 ↔ n < 256) := by
  unfold hex2 padLeft
  have h := digits_length_le (b := 16) (n + 1) n 2 (by omega) (by omega) (by omega)
  simp only [List.length_append, List.length_replicate, List.length_map]
  have : (16 : Nat) ^ 2 = 256 := rfl
  rw [this] at h
  omega

/-- Unique splitting at the end of a run of digits. -/
theorem split_dec {s s' r r' : List Char} (hs : ∀ c ∈ s, isDec c = true)
    (hs' : ∀ c ∈ s', isDec c = true) (hr : ∀ c ∈ r.head?, isDec c = false)
    (hr' : ∀ c ∈ r'.head?, isDec c = false) (h : s ++ r = s' ++ r') : s = s' ∧ r = r' := by
  induction s generalizing s' with
  | nil =>
    cases s' with
    | nil => exact ⟨rfl, h⟩
    | cons c s' =>
      have h1 := hs' c List.mem_cons_self
      simp only [List.nil_append, List.cons_append] at h
      subst h
      have := hr c rfl
      simp_all
  | cons c s ih =>
    cases s' with
    | nil =>
      have h1 := hs c List.mem_cons_self
      simp only [List.nil_append, List.cons_append] at h
      subst h
      have := hr' c rfl
      simp_all
    | cons c' s' =>
      simp only [List.cons_append, List.cons.injEq] at h
      obtain ⟨e1, e2⟩ := ih (fun c hc => hs c (List.mem_cons_of_mem _ hc))
        (fun c hc => hs' c (List.mem_cons_of_mem _ hc)) h.2
      exact ⟨by rw [h.1, e1], e2⟩

theorem takeWhile_dec {s r : List Char} (hs : ∀ c ∈ s, isDec c = true)
    (hr : ∀ c ∈ r.head?, isDec c = false) : (s ++ r).takeWhile isDec = s := by
  induction s with
  | nil =>
    cases r with
    | nil => rfl
    | cons c r => simp [hr c rfl]
  | cons c s ih =>
    simp only [List.cons_append]
    rw [List.takeWhile_cons, if_pos (hs c List.mem_cons_self),
      ih (fun c hc => hs c (List.mem_cons_of_mem _ hc))]

end VgmX
