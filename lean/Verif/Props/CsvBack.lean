import Verif.Spec.CsvBack
import Verif.Props.CsvFile
import Verif.Props.Fraction
import Verif.Props.EndToEnd
/-
C95: the CSV table for a negative ticks-per-note.
Vocabulary: Spec/CsvBack.lean, Spec/Csv.lean, Spec/Decimal.lean.
-/

namespace VgmX
open Spec

theorem fdiv_back (a t : Nat) (ht : 0 < t) :
    Int.fdiv (a : Int) (-(t : Int)) = -((rowBack t a : Nat) : Int) := by
  have h1 : rowBack t a * t < a + t := by
    have := Nat.div_mul_le_self (a + t - 1) t
    unfold rowBack; omega
  have h2 : a ≤ rowBack t a * t := by
    have := Nat.lt_div_mul_add (a := a + t - 1) ht
    unfold rowBack; omega
  have hq : Int.fdiv (a : Int) (-(t : Int)) = (-(a : Int)) / (t : Int) := by
    have := Int.neg_fdiv_neg (-(a : Int)) (t : Int)
    rw [Int.neg_neg] at this
    rw [this, Int.fdiv_eq_ediv_of_nonneg _ (by omega)]
  have e := Int.mul_ediv_add_emod (-(a : Int)) (t : Int)
  have l1 : 0 ≤ (-(a : Int)) % (t : Int) := Int.emod_nonneg _ (by omega)
  have l2 : (-(a : Int)) % (t : Int) < t := Int.emod_lt_of_pos _ (by omega)
  rw [hq]
  generalize (-(a : Int)) / (t : Int) = q at e
  generalize (-(a : Int)) % (t : Int) = r at e l1 l2
  generalize rowBack t a = k at h1 h2
  have e' : (a : Int) = -q * t - r := by linarith
  have h1' : (k : Int) * t < a + t := by exact_mod_cast h1
  have h2' : (a : Int) ≤ k * t := by exact_mod_cast h2
  have ht' : (0 : Int) < t := by exact_mod_cast ht
  have p1 : -q - 1 < k := by
    have : (-q - 1) * t < (k : Int) * t := by nlinarith
    exact lt_of_mul_lt_mul_right this ht'.le
  have p2 : (k : Int) < -q + 1 := by
    have : (k : Int) * t < (-q + 1) * t := by nlinarith
    exact lt_of_mul_lt_mul_right this ht'.le
  omega

theorem rowBack_mono {t a b : Nat} (h : a ≤ b) : rowBack t a ≤ rowBack t b :=
  Nat.div_le_div_right (by omega)

/-- A cell of the table. -/
def cellBack (l : List Note) (t k : Nat) : Str :=
  ((onBack l t k).getLast?.map noteText).getD []

theorem onBack_none {l : List Note} {t k : Nat} (h : ∀ n ∈ l, rowBack t n.sample ≠ k) :
    onBack l t k = [] := by
  unfold onBack
  rw [List.filter_eq_nil_iff]
  intro n hn; simpa using h n hn

theorem onBack_append (l m : List Note) (t k : Nat) :
    onBack (l ++ m) t k = onBack l t k ++ onBack m t k := by
  unfold onBack; rw [List.filter_append]

theorem cellBack_none {l : List Note} {t k : Nat} (h : ∀ n ∈ l, rowBack t n.sample ≠ k) :
    cellBack l t k = [] := by
  unfold cellBack; rw [onBack_none h]; rfl

/-- The sample of the first event more than `k` rows back. -/
def nextBack (P : Nat → List Note) (t k : Nat) : Nat :=
  (minOf (((List.range 8).flatMap P).filterMap
    (fun n => if k < rowBack t n.sample then some n.sample else none))).getD 0

theorem nextBack_eq (P : Nat → List Note) (t k m : Nat)
    (h1 : ∃ c < 8, ∃ n ∈ P c, n.sample = m ∧ k < rowBack t n.sample)
    (h2 : ∀ c < 8, ∀ n ∈ P c, k < rowBack t n.sample → m ≤ n.sample) : nextBack P t k = m := by
  unfold nextBack
  rw [minOf_eq (m := m)]
  · rfl
  · obtain ⟨c, hc, n, hn, rfl, hr⟩ := h1
    rw [List.mem_filterMap]
    refine ⟨n, List.mem_flatMap.mpr ⟨c, List.mem_range.mpr hc, hn⟩, by simp [hr]⟩
  · intro x hx
    rw [List.mem_filterMap] at hx
    obtain ⟨n, hn, hx⟩ := hx
    obtain ⟨c, hc, hn⟩ := List.mem_flatMap.mp hn
    split at hx
    · rename_i hr
      cases hx
      exact h2 c (List.mem_range.mp hc) n hn hr
    · cases hx

/-- The line of the row `k` rows back. -/
def lineBack (P : Nat → List Note) (t k : Nat) : Str :=
  csvLine (nextBack P t k) (-(k : Int))
    ((fractionText (nextBack P t k) (-(t : Int))).toOption.getD [])
    ((List.range 8).map (fun c => cellBack (P c) t k))

/-- The invariant of the merge. -/
structure BackInv (P pend : Nat → List Note) (t R : Nat) (cell : Nat → Str) (ks : List Nat)
    (out : List Str) : Prop where
  split : ∀ c < 8, ∃ done, P c = done ++ pend c ∧ (∀ n ∈ done, rowBack t n.sample ≤ R) ∧
    (∀ n ∈ pend c, R ≤ rowBack t n.sample) ∧ cell c = cellBack done t R
  reach : R = 0 ∨ ∃ c < 8, ∃ n ∈ P c, rowBack t n.sample = R
  out : out = csvHeader :: ks.map (lineBack P t)
  inc : ks.Pairwise (· < ·)
  mem : ∀ k, k ∈ ks ↔ (k = 0 ∨ ∃ c < 8, ∃ n ∈ P c, rowBack t n.sample = k) ∧ k < R

theorem pass_back (P pend : Nat → List Note) (t R : Nat) (ht : 0 < t) (cell : Nat → Str)
    (h : ∀ c < 8, ∃ done, P c = done ++ pend c ∧ (∀ n ∈ done, rowBack t n.sample ≤ R) ∧
      (∀ n ∈ pend c, R ≤ rowBack t n.sample) ∧ cell c = cellBack done t R) :
    ∀ c < 8, ∃ done, P c = done ++ popRow (-(t : Int)) (-(R : Int)) (pend c) ∧
      (∀ n ∈ done, rowBack t n.sample ≤ R) ∧
      (∀ n ∈ popRow (-(t : Int)) (-(R : Int)) (pend c), R ≤ rowBack t n.sample) ∧
      popCell (-(t : Int)) (-(R : Int)) (pend c) (cell c) = cellBack done t R := by
  intro c hc
  obtain ⟨done, h1, h2, h3, h4⟩ := h c hc
  cases hp : pend c with
  | nil =>
    refine ⟨done, ?_, h2, by simp [popRow], ?_⟩
    · rw [h1, hp]; rfl
    · simpa [popCell] using h4
  | cons n rest =>
    simp only [popRow, popCell, fdiv_back _ _ ht]
    by_cases hr : rowBack t n.sample = R
    · have hri : -((rowBack t n.sample : Nat) : Int) = -(R : Int) := by rw [hr]
      simp only [if_pos hri]
      refine ⟨done ++ [n], ?_, ?_, ?_, ?_⟩
      · rw [h1, hp]; simp
      · intro m hm
        rcases List.mem_append.mp hm with hm | hm
        · exact h2 m hm
        · simp at hm; subst hm; omega
      · intro m hm; exact h3 m (by rw [hp]; simp [hm])
      · unfold cellBack
        rw [onBack_append]
        have : onBack [n] t R = [n] := by simp [onBack, hr]
        rw [this]; simp
    · have hri : ¬ -((rowBack t n.sample : Nat) : Int) = -(R : Int) := by omega
      simp only [if_neg hri]
      refine ⟨done, ?_, h2, ?_, h4⟩
      · rw [h1, hp]
      · intro m hm; exact h3 m (by rw [hp]; exact hm)

/-- The table that the loop writes. -/
theorem csvLoop_back (P : Nat → List Note) (t : Nat) (ht : 0 < t)
    (hsort : ∀ c < 8, (P c).Pairwise (fun a b => a.sample ≤ b.sample))
    (hstr : ∀ c < 8, ∀ n ∈ P c, ∃ s, n.str = .ok s)
    (hfrac : ∀ c < 8, ∀ n ∈ P c, ∃ f, fractionText n.sample (-(t : Int)) = .ok f)
    (fuel : Nat) (pend : Nat → List Note) (R : Nat) (cell : Nat → Str) (ks : List Nat)
    (out : List Str) (hi : BackInv P pend t R cell ks out) (hf : pendCount pend < fuel) :
    ∃ ks : List Nat, csvLoop (-(t : Int)) fuel ((List.range 8).map (fun c => Slot.take (pend c)))
        (-(R : Int)) ((List.range 8).map cell) out =
          some (csvHeader :: ks.map (lineBack P t), none) ∧
      ks.Pairwise (· < ·) ∧
      ∀ k, k ∈ ks ↔ (k = 0 ∨ ∃ c < 8, ∃ n ∈ P c, rowBack t n.sample = k) ∧
        ∃ c < 8, ∃ n ∈ P c, k < rowBack t n.sample := by
  induction fuel generalizing pend R cell ks out with
  | zero => omega
  | succ fuel ih =>
    unfold csvLoop
    cases hm : minOf (((List.range 8).map (fun c => Slot.take (pend c))).filterMap
        (fun s => s.cur.map (·.sample))) with
    | none =>
      refine ⟨ks, by simp only [hi.out], hi.inc, ?_⟩
      have hempty : ∀ c < 8, pend c = [] := by
        intro c hc
        cases hp : pend c with
        | nil => rfl
        | cons n rest =>
          have := (currents pend n.sample).mpr ⟨c, hc, n, rest, hp, rfl⟩
          rw [(minOf_none _).mp hm] at this
          simp at this
      intro k
      rw [hi.mem k]
      refine and_congr_right (fun _ => ?_)
      constructor
      · intro hr
        rcases hi.reach with h0 | ⟨c, hc, n, hn, hR⟩
        · omega
        · exact ⟨c, hc, n, hn, by omega⟩
      · rintro ⟨c, hc, n, hn, hr⟩
        obtain ⟨done, h1, h2, _, _⟩ := hi.split c hc
        rw [hempty c hc, List.append_nil] at h1
        rw [h1] at hn
        have := h2 n hn
        omega
    | some m =>
      obtain ⟨hmem, hmin⟩ := minOf_some hm
      obtain ⟨c₀, hc₀, n₀, rest₀, hp₀, hn₀⟩ := (currents pend m).mp hmem
      have ht0 : ¬ (-(t : Int)) = 0 := by omega
      simp only [if_neg ht0, fdiv_back _ _ ht]
      have hstr' : ∀ c ∈ List.range 8, ∀ n ∈ pend c, ∃ s, n.str = .ok s := by
        intro c hc n hn
        have hc := List.mem_range.mp hc
        obtain ⟨done, h1, _⟩ := hi.split c hc
        exact hstr c hc n (by rw [h1]; simp [hn])
      have hlt := pendCount_pop (-(t : Int)) (-((rowBack t m : Nat) : Int)) pend c₀ hc₀ n₀ rest₀ hp₀
        (by rw [hn₀, fdiv_back _ _ ht])
      have hpend : ∀ c < 8, ∀ n ∈ pend c, m ≤ n.sample := by
        intro c hc n hn
        cases hp : pend c with
        | nil => rw [hp] at hn; simp at hn
        | cons a l =>
          have ha := hmin a.sample ((currents pend a.sample).mpr ⟨c, hc, a, l, hp, rfl⟩)
          obtain ⟨done, h1, _⟩ := hi.split c hc
          have hs := hsort c hc
          rw [h1, hp, List.pairwise_append] at hs
          have hs := (List.pairwise_cons.mp hs.2.1).1
          rw [hp] at hn
          rcases List.mem_cons.mp hn with rfl | hn
          · exact ha
          · have := hs n hn; omega
      have hn₀P : n₀ ∈ P c₀ := by
        obtain ⟨done, h1, _⟩ := hi.split c₀ hc₀
        rw [h1, hp₀]; simp
      have hRm : R ≤ rowBack t m := by
        obtain ⟨done, _, _, h3, _⟩ := hi.split c₀ hc₀
        have := h3 n₀ (by rw [hp₀]; simp)
        rw [hn₀] at this; exact this
      by_cases hR : rowBack t m = R
      · have hRi : -((rowBack t m : Nat) : Int) = -(R : Int) := by rw [hR]
        rw [if_neg (by simpa using hRi)]
        rw [takeRow_ok _ _ _ _ _ hstr']
        simp only
        have hs := pass_back P pend t R ht cell hi.split
        rw [hRi] at hlt ⊢
        exact ih _ R _ ks out ⟨hs, hi.reach, hi.out, hi.inc, hi.mem⟩ (by omega)
      · rw [if_pos (by omega)]
        have hR' : R < rowBack t m := by omega
        obtain ⟨f, hf'⟩ := hfrac c₀ hc₀ n₀ hn₀P
        rw [hn₀] at hf'
        rw [hf', blankRow_eq, takeRow_ok _ _ _ _ _ hstr']
        simp only
        have hsplit : ∀ c < 8, ∃ done, P c = done ++ pend c ∧
            (∀ n ∈ done, rowBack t n.sample ≤ rowBack t m) ∧
            (∀ n ∈ pend c, rowBack t m ≤ rowBack t n.sample) ∧
            ([] : Str) = cellBack done t (rowBack t m) := by
          intro c hc
          obtain ⟨done, h1, h2, h3, h4⟩ := hi.split c hc
          refine ⟨done, h1, fun n hn => by have := h2 n hn; omega, ?_, ?_⟩
          · intro n hn
            exact rowBack_mono (hpend c hc n hn)
          · rw [cellBack_none]
            intro n hn
            have := h2 n hn; omega
        have hs := pass_back P pend t (rowBack t m) ht (fun _ => []) hsplit
        have hnext : nextBack P t R = m := by
          apply nextBack_eq
          · exact ⟨c₀, hc₀, n₀, hn₀P, hn₀, by rw [hn₀]; exact hR'⟩
          · intro c hc n hn hr
            obtain ⟨done, e1, e2, _, _⟩ := hi.split c hc
            rw [e1] at hn
            rcases List.mem_append.mp hn with hn | hn
            · have := e2 n hn; omega
            · exact hpend c hc n hn
        have hline : csvLine m (-(R : Int)) f ((List.range 8).map cell) = lineBack P t R := by
          unfold lineBack
          rw [hnext, hf']
          simp only [Except.toOption, Option.getD_some]
          congr 1
          apply List.map_congr_left
          intro c hc
          have hc := List.mem_range.mp hc
          obtain ⟨done, e1, e2, e3, e4⟩ := hi.split c hc
          rw [e4, e1]
          unfold cellBack
          rw [onBack_append, onBack_none (l := pend c), List.append_nil]
          intro n hn
          have := rowBack_mono (t := t) (hpend c hc n hn)
          omega
        have hgap : gapLines m (-(R : Int)) (-((rowBack t m : Nat) : Int)) f = [] := by
          unfold gapLines
          have e : (-((rowBack t m : Nat) : Int) - -(R : Int) - 1).toNat = 0 := by omega
          rw [e]; rfl
        refine ih _ (rowBack t m) _ (ks ++ [R]) _
          ⟨hs, Or.inr ⟨c₀, hc₀, n₀, hn₀P, by rw [hn₀]⟩, ?_, ?_, ?_⟩ (by omega)
        · rw [hi.out, hline, hgap]; simp
        · rw [List.pairwise_append]
          refine ⟨hi.inc, by simp, ?_⟩
          intro a ha b hb
          simp at hb
          subst hb
          exact ((hi.mem a).mp ha).2
        · intro k
          rw [List.mem_append, hi.mem k, List.mem_singleton]
          constructor
          · rintro (⟨h1, h2⟩ | rfl)
            · exact ⟨h1, by omega⟩
            · exact ⟨hi.reach, hR'⟩
          · rintro ⟨h1, h2⟩
            rcases Nat.lt_trichotomy k R with h | h | h
            · exact .inl ⟨h1, h⟩
            · exact .inr h
            · exfalso
              rcases h1 with rfl | ⟨c, hc, n, hn, rfl⟩
              · omega
              · obtain ⟨done, e1, e2, _, _⟩ := hi.split c hc
                rw [e1] at hn
                rcases List.mem_append.mp hn with hn | hn
                · have := e2 n hn; omega
                · have := rowBack_mono (t := t) (hpend c hc n hn); omega

/-- The fields of the row `k` rows back. -/
def backFields (P : Nat → List Note) (t k : Nat) : List Str :=
  [natStr (nextBack P t k), intStr (Int.fmod (-(k : Int)) 64), intStr (Int.fdiv (-(k : Int)) 64),
    intStr (-(k : Int)), (fractionText (nextBack P t k) (-(t : Int))).toOption.getD []] ++
    (List.range 8).map (fun c => cellBack (P c) t k)

theorem clean_intStr (z : Int) : clean (intStr z) := by
  constructor <;> intro hm <;> rcases intStr_chars z _ hm with h | h <;> revert h <;> decide +kernel

theorem csv_back (h : List Event) (hb : ByteHistory h) (t : Nat) (ht : 0 < t)
    (hT : time h < 2 ^ 1023) :
    ∃ (out : List Str) (ks : List Nat), extractTracks (run h) (-(t : Int)) = some (out, none) ∧
      csvTable out.flatten =
        some (headerFields :: ks.map (backFields (run h).keyPressesOf t)) ∧
      ks.Pairwise (· < ·) ∧
      ∀ k, k ∈ ks ↔
        (k = 0 ∨ ∃ c < 8, ∃ n ∈ (run h).keyPressesOf c, rowBack t n.sample = k) ∧
        ∃ c < 8, ∃ n ∈ (run h).keyPressesOf c, k < rowBack t n.sample := by
  have hsample : ∀ c < 8, ∀ n ∈ (run h).keyPressesOf c, n.sample < 2 ^ 1023 := by
    intro c hc n hn
    obtain ⟨i, v, _, _, e, _⟩ := c24_note_capture h hb c hc n hn
    rw [e]; exact lt_of_le_of_lt (time_take_le h i) hT
  have hstr : ∀ c < 8, ∀ n ∈ (run h).keyPressesOf c, ∃ x, n.str = .ok x := by
    intro c hc n hn
    obtain ⟨_, _, _, x, _, _, _, _, e, _⟩ := c33_off h hb c hc n hn
    exact ⟨x, e⟩
  obtain ⟨ks, e, hinc, hmem⟩ := csvLoop_back (run h).keyPressesOf t ht
    (fun c hc => c22_chronological h hb c hc) hstr
    (fun c hc n hn => fraction_ok_int n.sample (-(t : Int)) (by omega) (hsample c hc n hn))
    (pendCount (run h).keyPressesOf + 1) (run h).keyPressesOf 0 (fun _ => []) [] [csvHeader]
    ⟨fun c _ => ⟨[], rfl, by simp, by simp, by simp [cellBack, onBack]⟩, Or.inl rfl, rfl,
      List.Pairwise.nil, by simp⟩ (by omega)
  refine ⟨csvHeader :: ks.map (lineBack (run h).keyPressesOf t), ks, ?_, ?_, hinc, hmem⟩
  · unfold extractTracks
    rw [blankRow_eq]
    exact e
  have hheader : csvHeader = join [','] headerFields ++ ['\n'] := by decide +kernel
  have hrows : csvHeader :: ks.map (lineBack (run h).keyPressesOf t) =
      (headerFields :: ks.map (backFields (run h).keyPressesOf t)).map
        (fun r => join [','] r ++ ['\n']) := by
    rw [List.map_cons, hheader, List.map_map]
    rfl
  rw [hrows]
  apply csvTable_lines
  · intro r hr
    rcases List.mem_cons.mp hr with rfl | hr
    · decide
    · obtain ⟨r', _, rfl⟩ := List.mem_map.mp hr
      simp [backFields]
  · intro r hr f hf
    rcases List.mem_cons.mp hr with rfl | hr
    · have : ∀ f ∈ headerFields, clean f := by unfold clean; decide +kernel
      exact this f hf
    · obtain ⟨k, _, rfl⟩ := List.mem_map.mp hr
      unfold backFields at hf
      rcases List.mem_append.mp hf with hf | hf
      · simp only [List.mem_cons, List.not_mem_nil, or_false] at hf
        rcases hf with rfl | rfl | rfl | rfl | rfl
        · exact clean_natStr _
        · exact clean_intStr _
        · exact clean_intStr _
        · exact clean_intStr _
        · cases hx : fractionText (nextBack (run h).keyPressesOf t k) (-(t : Int)) with
          | error e => exact (by decide : clean ([] : Str))
          | ok x =>
            unfold fractionText at hx
            split at hx
            · cases hx
            · cases hx; exact clean_fmt2 _
            · cases hx
      · obtain ⟨c, hc, rfl⟩ := List.mem_map.mp hf
        have hc := List.mem_range.mp hc
        unfold cellBack
        cases hl : (onBack ((run h).keyPressesOf c) t k).getLast? with
        | none => exact (by decide : clean ([] : Str))
        | some n =>
          have hn := (List.mem_filter.mp (List.mem_of_getLast? hl)).1
          obtain ⟨x, hx⟩ := hstr c hc n hn
          obtain ⟨_, h2, h3, h4, _⟩ := (c25_ranges h hb).2.2.2 c hc n hn
          show clean (noteText n)
          unfold noteText
          rw [hx]
          exact (clean_note n h2 h3 x hx).1

/-- C95. With `-t` ticks per note, `t > 0`, the export ends without an exception; a key press is as
many rows back as there are intervals of `t` samples begun before it; the lines count down, with
row 0 (even if empty) and every row that has a key press, but for the lowest one, each once. The
Samples column holds the time of the first key press on a lower row, the cells hold the last key
press of their row. -/
theorem c95_rows (h : List Event) (hb : ByteHistory h) (t : Nat) (ht : 0 < t)
    (hT : time h < 2 ^ 1023) :
    ∃ (out : List Str) (ks : List Nat) (table : List (List Str)),
      extractTracks (run h) (-(t : Int)) = some (out, none) ∧
      csvTable out.flatten = some (headerFields :: table) ∧ table.length = ks.length ∧
      ks.Pairwise (· < ·) ∧
      (∀ k, k ∈ ks ↔
        (k = 0 ∨ ∃ c < 8, ∃ n ∈ (run h).keyPressesOf c, rowBack t n.sample = k) ∧
        ∃ c < 8, ∃ n ∈ (run h).keyPressesOf c, k < rowBack t n.sample) ∧
      ∀ (i k : Nat) (fields : List Str), ks[i]? = some k → table[i]? = some fields →
        fields.length = 13 ∧
        (∃ m, fields[0]?.bind (readBase 10) = some m ∧
          (∃ c < 8, ∃ n ∈ (run h).keyPressesOf c, n.sample = m ∧ k < rowBack t n.sample) ∧
          (∀ c < 8, ∀ n ∈ (run h).keyPressesOf c, k < rowBack t n.sample → m ≤ n.sample)) ∧
        fields[1]?.bind readInt = some (-(k : Int) % 64) ∧
        fields[2]?.bind readInt = some (-(k : Int) / 64) ∧
        fields[3]?.bind readInt = some (-(k : Int)) ∧
        ∀ c < 8, ∃ cell, fields[5 + c]? = some cell ∧
          (cell = [] ↔ ∀ n ∈ (run h).keyPressesOf c, rowBack t n.sample ≠ k) ∧
          ∀ n, (onBack ((run h).keyPressesOf c) t k).getLast? = some n → n.str = .ok cell := by
  obtain ⟨out, ks, h1, h2, h3, h4⟩ := csv_back h hb t ht hT
  refine ⟨out, ks, _, h1, h2, by simp, h3, h4, ?_⟩
  intro i k fields hk hf
  rw [List.getElem?_map, hk] at hf
  simp only [Option.map_some, Option.some.injEq] at hf
  subst hf
  obtain ⟨_, c₀, hc₀, n₀, hn₀, hlt⟩ := (h4 k).mp (List.mem_of_getElem? hk)
  refine ⟨by simp [backFields], ⟨nextBack (run h).keyPressesOf t k, ?_, ?_⟩, ?_, ?_, ?_, ?_⟩
  · simp [backFields, readBase_natStr]
  · unfold nextBack
    cases hm : minOf (((List.range 8).flatMap (run h).keyPressesOf).filterMap
        (fun n => if k < rowBack t n.sample then some n.sample else none)) with
    | none =>
      exfalso
      have := (minOf_none _).mp hm
      rw [List.filterMap_eq_nil_iff] at this
      have := this n₀ (List.mem_flatMap.mpr ⟨c₀, List.mem_range.mpr hc₀, hn₀⟩)
      simp [hlt] at this
    | some m =>
      obtain ⟨e1, e2⟩ := minOf_some hm
      simp only [Option.getD_some]
      constructor
      · obtain ⟨n', hn', hm'⟩ := List.mem_filterMap.mp e1
        obtain ⟨c', hc', hn'⟩ := List.mem_flatMap.mp hn'
        split at hm'
        · rename_i hr'
          cases hm'
          exact ⟨c', List.mem_range.mp hc', n', hn', rfl, hr'⟩
        · cases hm'
      · intro c' hc' n' hn' hr'
        apply e2
        rw [List.mem_filterMap]
        exact ⟨n', List.mem_flatMap.mpr ⟨c', List.mem_range.mpr hc', hn'⟩, by simp [hr']⟩
  · simp [backFields, readInt_intStr, Int.fmod_eq_emod_of_nonneg]
  · simp [backFields, readInt_intStr, Int.fdiv_eq_ediv_of_nonneg]
  · simp [backFields, readInt_intStr]
  · intro c hc
    refine ⟨cellBack ((run h).keyPressesOf c) t k, ?_, ?_, ?_⟩
    · unfold backFields
      rw [List.getElem?_append_right (by simp)]
      simp [List.getElem?_range hc]
    · unfold cellBack
      cases hl : (onBack ((run h).keyPressesOf c) t k).getLast? with
      | none =>
        rw [List.getLast?_eq_none_iff] at hl
        unfold onBack at hl
        rw [List.filter_eq_nil_iff] at hl
        simpa using hl
      | some n =>
        have hn := List.mem_filter.mp (List.mem_of_getLast? hl)
        obtain ⟨_, _, _, x, _, _, _, _, e, _⟩ := c33_off h hb c hc n hn.1
        obtain ⟨_, q2, q3, q4, _⟩ := (c25_ranges h hb).2.2.2 c hc n hn.1
        have hne := (clean_note n q2 q3 x e).2
        simp only [Option.map_some, Option.getD_some, noteText, e, Except.toOption]
        constructor
        · intro hx; exact absurd hx hne
        · intro hall; exact absurd (of_decide_eq_true hn.2) (hall n hn.1)
    · intro n hl
      have hn := List.mem_filter.mp (List.mem_of_getLast? hl)
      obtain ⟨_, _, _, x, _, _, _, _, e, _⟩ := c33_off h hb c hc n hn.1
      unfold cellBack
      rw [hl]
      simp only [Option.map_some, Option.getD_some, noteText, e, Except.toOption]

/-! ### The fraction -/

/-- The remainder of a negative quotient. -/
theorem floatMod1_neg {r : ℚ} (h0 : 0 ≤ r) :
    floatMod1 (-r) = if floatMod1 r = 0 then 0 else roundDouble (1 - floatMod1 r) := by
  have hr : floatMod1 r = r - (r.floor : ℚ) := by
    unfold floatMod1
    have : ¬ (r - (r.floor : ℚ) < 0) := by have := Rat.floor_le r; linarith
    simp only [if_neg (not_lt.mpr h0), if_neg this]
  have hfl := Rat.floor_le r
  rw [hr]
  rcases eq_or_lt_of_le h0 with h | h
  · subst h
    have h0' : Rat.floor 0 = 0 := by decide +kernel
    simp [floatMod1, h0']
  · unfold floatMod1
    simp only [if_pos (neg_lt_zero.mpr h), neg_neg]
    by_cases hz : r - (r.floor : ℚ) = 0
    · rw [if_pos hz]
      have : -r + (r.floor : ℚ) = 0 := by linarith
      rw [this, if_neg (lt_irrefl _)]
    · rw [if_neg hz]
      have : -r + (r.floor : ℚ) < 0 := by
        rcases eq_or_lt_of_le hfl with h | h
        · exact absurd (by rw [h]; ring) hz
        · linarith
      rw [if_pos this]
      congr 1
      ring

/-- The text of a number between 0 and 1 is close to it. -/
theorem fmt2_unit (q : ℚ) (h0 : 0 ≤ q) (h1 : q ≤ 1) (h : q = 0 ∨ 1 ≤ q * 10 ^ 400) :
    ∃ v, readDecimal (fmt2 q) = some v ∧ |v - q| ≤ 1 / 200 ∧ (v = 0 ↔ q = 0) := by
  rcases eq_or_lt_of_le h1 with e | e
  · subst e
    exact ⟨1, by decide +kernel, by simp, by simp⟩
  · obtain ⟨v, e1, e2, e3, e4⟩ := fmt2_reads q h0 e h
    refine ⟨v, e1, e3, ?_⟩
    constructor
    · intro hv
      by_contra hne
      have := e4 hne
      linarith
    · rintro rfl
      simpa using e2

/-- A double in the middle of the unit interval. -/
theorem big_of_low {y : ℚ} (hlow : 1 / 2 ^ 107 ≤ y) : 1 ≤ y * 10 ^ 400 := by
  have h5 : (2 : ℚ) ^ 107 ≤ 10 ^ 400 :=
    le_trans (pow_le_pow_left₀ (by norm_num) (by norm_num) _)
      (pow_le_pow_right₀ (by norm_num) (by norm_num))
  have h6 : (0 : ℚ) < 2 ^ 107 := by positivity
  have h7 : (0 : ℚ) ≤ 10 ^ 400 := by positivity
  generalize (10 : ℚ) ^ 400 = b at h5 h7 ⊢
  generalize (2 : ℚ) ^ 107 = a at h5 h6 hlow
  have h8 : 1 ≤ y * a := by rwa [div_le_iff₀ h6] at hlow
  have hy : 0 ≤ y := le_trans (by positivity) hlow
  exact le_trans h8 (mul_le_mul_of_nonneg_left h5 hy)

/-- The complement of a remainder, rounded. -/
theorem round_compl {x : ℚ} (hxp : 0 < x) (x1 : x ≤ 1 - 1 / 2 ^ 106) :
    |roundDouble (1 - x) - (1 - x)| ≤ 1 / 2 ^ 53 ∧ 0 < roundDouble (1 - x) ∧
      roundDouble (1 - x) ≤ 1 ∧ 1 ≤ roundDouble (1 - x) * 10 ^ 400 := by
  have hpos : (0 : ℚ) < 1 / 2 ^ 106 := by positivity
  have h5 : (1 : ℚ) / 2 ^ 107 = 1 / 2 ^ 106 / 2 := by norm_num
  have hp107 : (0 : ℚ) < 1 / 2 ^ 107 := by positivity
  have hn : pow2 (-1022) ≤ 1 - x := by
    have h1 : pow2 (-1022) ≤ pow2 (-106) := pow2_mono (by norm_num)
    have h0 : pow2 (-106) = 1 / 2 ^ 106 := by rw [pow2_eq]; norm_num
    rw [h0] at h1
    exact le_trans h1 (by linarith)
  have herr := roundDouble_err (show 0 < 1 - x by linarith) hn
  clear hn
  have h53 : pow2 (-53) = 1 / 2 ^ 53 := by rw [pow2_eq]; norm_num
  rw [h53] at herr
  clear h53
  have h53p : (0 : ℚ) < 1 / 2 ^ 53 := by positivity
  have h53h : (1 : ℚ) / 2 ^ 53 ≤ 1 / 2 := by norm_num
  have hle1 : roundDouble (1 - x) ≤ 1 := by
    have := roundDouble_mono (a := 1 - x) (b := 1) (by linarith) (by linarith)
    rwa [roundDouble_one] at this
  have hlow : 1 / 2 ^ 107 ≤ roundDouble (1 - x) := by
    rw [abs_le] at herr
    rw [h5]
    generalize (1 : ℚ) / 2 ^ 53 = e at *
    generalize (1 : ℚ) / 2 ^ 106 = f at *
    have h4 : (1 - x) * e ≤ (1 - x) * (1 / 2) :=
      mul_le_mul_of_nonneg_left h53h (by linarith)
    have := herr.1
    linarith
  refine ⟨le_trans herr ?_, lt_of_lt_of_le hp107 hlow, hle1, big_of_low hlow⟩
  calc (1 - x) * (1 / 2 ^ 53) ≤ 1 * (1 / 2 ^ 53) :=
        mul_le_mul_of_nonneg_right (by linarith) (le_of_lt h53p)
    _ = 1 / 2 ^ 53 := one_mul _

/-- C95. With `-t` ticks per note the Fraction column is a decimal number that agrees with the
part of `-(Samples / t)` above the next integer below, to two digits and the rounding of the two
floating point operations; it is `0.0` exactly if the division leaves no remainder. -/
theorem c95_fraction (h : List Event) (hb : ByteHistory h) (t : Nat) (ht : 0 < t)
    (ht53 : t ≤ 2 ^ 53) (hT : time h < 2 ^ 53) :
    ∃ out table, extractTracks (run h) (-(t : Int)) = some (out, none) ∧
      csvTable out.flatten = some (headerFields :: table) ∧
      ∀ fields ∈ table, ∃ m v,
        (fields[0]?.bind (readBase 10)) = some m ∧ (fields[4]?.bind readDecimal) = some v ∧
        |v - backFraction m t| ≤ 1 / 200 + (m : ℚ) / (t : ℚ) / 2 ^ 53 + 1 / 2 ^ 53 ∧
        (v = 0 ↔ t ∣ m) := by
  have hT' : time h < 2 ^ 1023 := lt_trans hT (Nat.pow_lt_pow_right (by norm_num) (by norm_num))
  obtain ⟨out, ks, h1, h2, h3, h4⟩ := csv_back h hb t ht hT'
  refine ⟨out, _, h1, h2, ?_⟩
  intro fields hf
  obtain ⟨k, hk, rfl⟩ := List.mem_map.mp hf
  obtain ⟨_, c₀, hc₀, n₀, hn₀, hlt⟩ := (h4 k).mp hk
  obtain ⟨m, hm⟩ : ∃ m, nextBack (run h).keyPressesOf t k = m := ⟨_, rfl⟩
  have hmn : ∃ c < 8, ∃ n ∈ (run h).keyPressesOf c, n.sample = m ∧ k < rowBack t n.sample := by
    unfold nextBack at hm
    cases hm' : minOf (((List.range 8).flatMap (run h).keyPressesOf).filterMap
        (fun n => if k < rowBack t n.sample then some n.sample else none)) with
    | none =>
      exfalso
      have := (minOf_none _).mp hm'
      rw [List.filterMap_eq_nil_iff] at this
      have := this n₀ (List.mem_flatMap.mpr ⟨c₀, List.mem_range.mpr hc₀, hn₀⟩)
      simp [hlt] at this
    | some m' =>
      rw [hm'] at hm
      simp only [Option.getD_some] at hm
      subst hm
      obtain ⟨n', hn', e⟩ := List.mem_filterMap.mp (minOf_some hm').1
      obtain ⟨c', hc', hn'⟩ := List.mem_flatMap.mp hn'
      split at e
      · rename_i hr'
        cases e
        exact ⟨c', List.mem_range.mp hc', n', hn', rfl, hr'⟩
      · cases e
  obtain ⟨c, hc, n, hn, hnm, hrow⟩ := hmn
  have hm53 : m < 2 ^ 53 := by
    obtain ⟨i, v, _, _, e, _⟩ := c24_note_capture h hb c hc n hn
    rw [← hnm, e]; exact lt_of_le_of_lt (time_take_le h i) hT
  have hm0 : 0 < m := by
    rcases Nat.eq_zero_or_pos m with h0 | h0
    · rw [hnm, h0] at hrow
      unfold rowBack at hrow
      rw [Nat.div_eq_of_lt (by omega)] at hrow
      omega
    · exact h0
  obtain ⟨x, hx, x0, x1, xerr, xdiv, _⟩ := fraction_float m t ht hm0 ht53 hm53
  have htext : fractionText m (-(t : Int)) =
      .ok (fmt2 (if x = 0 then 0 else roundDouble (1 - x))) := by
    obtain ⟨f, hf'⟩ := fraction_ok_int m (-(t : Int)) (by omega)
      (lt_trans hm53 (Nat.pow_lt_pow_right (by norm_num) (by norm_num)))
    rw [hf']
    unfold fractionText intTrueDiv at hf'
    rw [if_neg (by omega)] at hf'
    have hcast : (((m : Int) : ℚ) / ((-(t : Int) : Int) : ℚ)) = -((m : ℚ) / (t : ℚ)) := by
      push_cast; rw [div_neg]
    simp only [hcast, roundDouble_neg] at hf'
    have hnn : 0 ≤ roundDouble ((m : ℚ) / (t : ℚ)) :=
      roundDouble_nonneg (div_nonneg (Nat.cast_nonneg _) (Nat.cast_nonneg _))
    split at hf'
    · cases hf'
    · rename_i q' hq'
      split at hq'
      · cases hq'
      · simp only [Except.ok.injEq, F64.fin.injEq] at hq'
        subst hq'
        rw [floatMod1_neg hnn, hx] at hf'
        exact hf'.symm
    · cases hf'
  set y : ℚ := if x = 0 then 0 else roundDouble (1 - x) with hy
  have hpos : (0 : ℚ) < 1 / 2 ^ 106 := by positivity
  have hyerr : |y - (if x = 0 then 0 else 1 - x)| ≤ 1 / 2 ^ 53 ∧ 0 ≤ y ∧ y ≤ 1 ∧
      (y = 0 ∨ 1 ≤ y * 10 ^ 400) ∧ (y = 0 ↔ x = 0) := by
    by_cases hx0 : x = 0
    · rw [hy, if_pos hx0, if_pos hx0]
      exact ⟨by simp, le_refl _, by norm_num, .inl rfl, by simp [hx0]⟩
    · rw [hy, if_neg hx0, if_neg hx0]
      obtain ⟨q1, q2, q3, q4⟩ := round_compl (lt_of_le_of_ne x0 (Ne.symm hx0)) x1
      exact ⟨q1, le_of_lt q2, q3, .inr q4,
        ⟨fun e => absurd e (ne_of_gt q2), fun e => absurd e hx0⟩⟩
  have e1 := hyerr.1
  have e2 := hyerr.2.1
  have e3 := hyerr.2.2.1
  have e4 := hyerr.2.2.2.1
  have e5 := hyerr.2.2.2.2
  clear_value y
  have hyv := fmt2_unit y e2 e3 e4
  clear hyerr e4 hT' hpos x1 hm53
  obtain ⟨v, hv, v1, v2⟩ := hyv
  refine ⟨m, v, ?_, ?_, ?_, ?_⟩
  · simp [backFields, readBase_natStr, hm]
  · simp only [backFields, List.cons_append, List.getElem?_cons_succ, List.getElem?_cons_zero,
      Option.bind_some, hm, htext]
    exact hv
  · have hb' : |(if x = 0 then 0 else 1 - x) - backFraction m t| ≤ (m : ℚ) / (t : ℚ) / 2 ^ 53 := by
      unfold backFraction
      by_cases hx0 : x = 0
      · rw [if_pos hx0, if_pos (xdiv.mp hx0)]
        simp
        positivity
      · rw [if_neg hx0, if_neg (fun h => hx0 (xdiv.mpr h))]
        rw [abs_le] at xerr ⊢
        constructor <;> linarith [xerr.1, xerr.2]
    rw [abs_le] at v1 e1 hb' ⊢
    constructor <;> linarith [v1.1, v1.2, e1.1, e1.2, hb'.1, hb'.2]
  · rw [v2, e5, xdiv]

/-- The sample history counted back in rows of 50 samples. Row 0 is empty, and the last row, -4,
is not written. -/
example : 0 < 50 ∧ time sample < 2 ^ 53 ∧
    (extractTracks (run sample) (-50)).map (fun x => (x.1.drop 1).map (·.take 14)) =
      some ["100,0,0,0,0.0,".toList, "150,62,-1,-2,0".toList, "157,61,-1,-3,0".toList] := by
  refine ⟨by decide, by decide +kernel, by decide +kernel⟩

end VgmX
