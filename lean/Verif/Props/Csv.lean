import Verif.Props.Xrns
import Verif.Lemmas.Csv
/-
Properties C45-C48: the CSV table, over all histories and all ticks-per-note. The text that
is written is read back with the parser of Spec/Csv.lean.
-/

namespace VgmX
open Spec

/-! ### Splitting -/

theorem splitAt_no {sep : Char} {s : List Char} (h : sep ∉ s) : splitAt sep s = [s] := by
  induction s with
  | nil => rfl
  | cons c s ih =>
    simp only [List.mem_cons, not_or] at h
    simp only [splitAt]
    rw [if_neg (fun e => h.1 e.symm), ih h.2]

theorem splitAt_cons {sep : Char} {s : List Char} (h : sep ∉ s) (r : List Char) :
    splitAt sep (s ++ sep :: r) = s :: splitAt sep r := by
  induction s with
  | nil => simp [splitAt]
  | cons c s ih =>
    simp only [List.mem_cons, not_or] at h
    simp only [List.cons_append, splitAt]
    rw [if_neg (fun e => h.1 e.symm), ih h.2]

theorem splitAt_join {sep : Char} {l : List Str} (hne : l ≠ []) (h : ∀ s ∈ l, sep ∉ s) :
    splitAt sep (join [sep] l) = l := by
  induction l with
  | nil => exact absurd rfl hne
  | cons s l ih =>
    cases l with
    | nil => simp only [join]; exact splitAt_no (h s (by simp))
    | cons s' l =>
      simp only [join, List.append_assoc, List.singleton_append]
      rw [splitAt_cons (h s (by simp))]
      congr 1
      exact ih (by simp) (fun x hx => h x (by simp [hx]))

theorem mem_join {sep : Str} {l : List Str} {c : Char} (h : c ∈ join sep l) :
    c ∈ sep ∨ ∃ s ∈ l, c ∈ s := by
  induction l with
  | nil => simp [join] at h
  | cons s l ih =>
    cases l with
    | nil => simp only [join] at h; exact .inr ⟨s, by simp, h⟩
    | cons s' l =>
      simp only [join, List.append_assoc] at h
      rcases List.mem_append.mp h with h | h
      · exact .inr ⟨s, by simp, h⟩
      · rcases List.mem_append.mp h with h | h
        · exact .inl h
        · rcases ih h with h | ⟨x, hx, h⟩
          · exact .inl h
          · exact .inr ⟨x, by simp [hx], h⟩

/-- A sequence of lines reads back as the table of their fields. -/
theorem csvTable_lines (rows : List (List Str)) (hne : ∀ r ∈ rows, r ≠ [])
    (hc : ∀ r ∈ rows, ∀ f ∈ r, ',' ∉ f ∧ '\n' ∉ f) :
    csvTable ((rows.map (fun r => join [','] r ++ ['\n'])).flatten) = some rows := by
  have hsplit : splitAt '\n' ((rows.map (fun r => join [','] r ++ ['\n'])).flatten) =
      rows.map (fun r => join [','] r) ++ [[]] := by
    induction rows with
    | nil => rfl
    | cons r rows ih =>
      simp only [List.map_cons, List.flatten_cons, List.append_assoc, List.singleton_append]
      rw [splitAt_cons, ih (fun x hx => hne x (by simp [hx])) (fun x hx => hc x (by simp [hx]))]
      · rfl
      · intro hm
        rcases mem_join hm with h | ⟨f, hf, h⟩
        · simp at h
        · exact (hc r (by simp) f hf).2 h
  unfold csvTable
  simp only [hsplit]
  rw [if_pos (by simp)]
  congr 1
  rw [List.dropLast_concat, List.map_map]
  conv_rhs => rw [← List.map_id rows]
  apply List.map_congr_left
  intro r hr
  simp only [Function.comp_apply, id]
  exact splitAt_join (hne r hr) (fun f hf => (hc r hr f hf).1)

/-! ### The characters of the fields -/

/-- Characters that do not interfere with the table. -/
def clean (s : Str) : Prop := ',' ∉ s ∧ '\n' ∉ s

instance (s : Str) : Decidable (clean s) := by unfold clean; infer_instance

theorem clean_append {s t : Str} (hs : clean s) (ht : clean t) : clean (s ++ t) := by
  simp only [clean, List.mem_append, not_or] at *
  exact ⟨⟨hs.1, ht.1⟩, hs.2, ht.2⟩

theorem clean_dec {s : Str} (h : ∀ c ∈ s, isDec c = true) : clean s := by
  constructor <;> intro hm <;> have := h _ hm <;> revert this <;> decide +kernel

theorem clean_natStr (n : Nat) : clean (natStr n) := clean_dec (natStr_dec n)

theorem clean_zeros (n : Nat) : clean (List.replicate n '0') := by
  apply clean_dec
  intro c hc
  rw [(List.mem_replicate.mp hc).2]; decide +kernel

theorem clean_layout2 (d k : Nat) : clean (layout2 d k) := by
  have hdot : clean ['.'] := by decide
  have h0 : clean ['0', '.'] := by decide
  have he : clean ['e', '-'] := by decide
  unfold layout2
  split
  · exact clean_append (clean_append (clean_natStr _) hdot) (clean_natStr _)
  · split
    · refine clean_append (clean_append h0 (clean_zeros _)) ?_
      split <;> exact clean_natStr _
    · refine clean_append (clean_append ?_ he) (clean_append (clean_zeros _) (clean_natStr _))
      split
      · exact clean_natStr _
      · exact clean_append (clean_append (clean_natStr _) hdot) (clean_natStr _)

theorem clean_fmt2 (q : Rat) : clean (fmt2 q) := by
  unfold fmt2
  split
  · decide
  · simp only
    split <;> exact clean_layout2 _ _

theorem clean_note (n : Note) (hn : n.note ≤ 15) (hk : n.keyFraction ≤ 63)
    (s : Str) (hs : n.str = .ok s) : clean s ∧ s ≠ [] := by
  by_cases h0 : n.configId < 0
  · unfold Note.str at hs
    rw [if_pos h0] at hs
    cases hs
    exact ⟨by decide, by decide⟩
  · obtain ⟨l, a, e1, _, e2⟩ := str_on n (by omega) hn
    rw [e2] at hs
    cases hs
    refine ⟨?_, by simp⟩
    have hla : clean [l, a] := by
      have : ∀ k < 16, ∀ x ∈ (noteLookup k).toOption, clean x := by
        intro k hk x hx
        have hk : k = 0 ∨ k = 1 ∨ k = 2 ∨ k = 3 ∨ k = 4 ∨ k = 5 ∨ k = 6 ∨ k = 7 ∨ k = 8 ∨ k = 9 ∨
          k = 10 ∨ k = 11 ∨ k = 12 ∨ k = 13 ∨ k = 14 ∨ k = 15 := by omega
        rcases hk with rfl | rfl | rfl | rfl | rfl | rfl | rfl | rfl | rfl | rfl | rfl | rfl | rfl |
          rfl | rfl | rfl <;> · cases hx; decide
      exact this n.note (by omega) _ (by rw [e1]; rfl)
    have hkf : clean (kfText n.keyFraction) := by
      rcases kfText_shape n.keyFraction (by omega) with e | ⟨s, e, hs⟩
      · rw [e]; decide
      · rw [e]
        exact clean_append (s := ['-']) (by decide) (clean_dec hs)
    have hpan : clean (panText n.right n.left) := by
      cases n.right <;> cases n.left <;> decide
    have e : l :: a :: '-' :: (natStr n.octave ++ (kfText n.keyFraction ++ (' ' :: '[' ::
        (natStr n.configId.toNat ++ (']' :: ' ' :: panText n.right n.left))))) =
        [l, a] ++ (['-'] ++ (natStr n.octave ++ (kfText n.keyFraction ++ ([' ', '['] ++
        (natStr n.configId.toNat ++ ([']', ' '] ++ panText n.right n.left)))))) := by simp
    rw [e]
    exact clean_append hla (clean_append (by decide) (clean_append (clean_natStr _)
      (clean_append hkf (clean_append (by decide) (clean_append (clean_natStr _)
        (clean_append (by decide) hpan))))))

/-! ### The fraction never raises for times below 2^1023 -/

theorem roundDouble_small {q : ℚ} (h0 : 0 ≤ q) (h1 : q < pow2 1023) :
    0 ≤ roundDouble q ∧ roundDouble q < pow2 1024 := by
  have hp : pow2 1024 = 2 * pow2 1023 := pow2_succ 1023
  have hp0 := pow2_pos 1023
  rcases eq_or_lt_of_le h0 with h | h
  · rw [← h]
    unfold roundDouble
    rw [if_pos rfl]
    exact ⟨le_refl _, pow2_pos _⟩
  · by_cases hn : pow2 (-1022) ≤ q
    · have he := roundDouble_err h hn
      have h53 : pow2 (-53) = 1 / 2 ^ 53 := by rw [pow2_eq]; norm_num
      rw [abs_le, h53] at he
      obtain ⟨e1, e2⟩ := he
      norm_num at e1 e2
      constructor <;> linarith
    · have hn := not_le.mp hn
      obtain ⟨l1, l2⟩ := ilog2_spec h
      have hk : ilog2 q < -1022 := pow2_lt (lt_of_le_of_lt l1 hn)
      have hm : max (ilog2 q - 52) (-1074) = -1074 := by omega
      unfold roundDouble
      rw [if_neg (ne_of_gt h)]
      simp only [if_neg (not_lt.mpr h.le), hm]
      have hu := pow2_pos (-1074)
      have hr := roundHalfEven_err (q / pow2 (-1074))
      rw [abs_le] at hr
      have hqu : q / pow2 (-1074) * pow2 (-1074) = q := by
        rw [div_mul_cancel₀ _ (ne_of_gt hu)]
      have hge : 0 ≤ roundHalfEven (q / pow2 (-1074)) := by
        apply roundHalfEven_ge (n := 0) (by norm_num)
        have : 0 ≤ q / pow2 (-1074) := (div_pos h hu).le
        push_cast; linarith
      refine ⟨mul_nonneg (by exact_mod_cast hge) hu.le, ?_⟩
      have hle : (roundHalfEven (q / pow2 (-1074)) : ℚ) * pow2 (-1074) ≤ q + 1 / 2 * pow2 (-1074) := by
        have := mul_le_mul_of_nonneg_right (show (roundHalfEven (q / pow2 (-1074)) : ℚ) ≤
          q / pow2 (-1074) + 1 / 2 by linarith [hr.2]) hu.le
        rw [add_mul, hqu] at this
        exact this
      have h1074 : pow2 (-1074) ≤ pow2 1023 := pow2_mono (by norm_num)
      linarith

theorem fraction_ok (x t : Nat) (ht : 0 < t) (hx : x < 2 ^ 1023) :
    ∃ f, fractionText x t = .ok f ∧ clean f := by
  have hq0 : (0 : ℚ) ≤ (x : ℚ) / (t : ℚ) := div_nonneg (Nat.cast_nonneg _) (Nat.cast_nonneg _)
  have ht1 : (1 : ℚ) ≤ t := by exact_mod_cast ht
  have hq1 : (x : ℚ) / (t : ℚ) < pow2 1023 := by
    have h1 : (x : ℚ) / (t : ℚ) ≤ x := div_le_self (Nat.cast_nonneg _) ht1
    have h2 : (x : ℚ) < pow2 1023 := by
      have : pow2 1023 = ((2 ^ 1023 : Nat) : ℚ) := rfl
      rw [this]
      exact_mod_cast hx
    linarith
  obtain ⟨h1, h2⟩ := roundDouble_small hq0 hq1
  unfold fractionText intTrueDiv
  rw [if_neg (by omega)]
  have hcast : (((x : Int) : ℚ) / ((t : Int) : ℚ)) = (x : ℚ) / (t : ℚ) := by push_cast; rfl
  simp only [hcast]
  have : tooLarge (roundDouble ((x : ℚ) / (t : ℚ))) = false := by
    simp only [tooLarge, Bool.or_eq_false_iff, decide_eq_false_iff_not, not_le]
    have := pow2_pos 1024
    exact ⟨h2, by linarith⟩
  simp only [this]
  exact ⟨_, rfl, clean_fmt2 _⟩

/-! ### The table -/

theorem time_take_le (h : List Event) (i : Nat) : time (h.take i) ≤ time h := by
  have : time h = time (h.take i) + time (h.drop i) := by
    unfold time
    conv_lhs => rw [← List.take_append_drop i h]
    simp
  omega

/-- The fields of the header. -/
def headerFields : List Str :=
  ["Samples".toList, "Row".toList, "Pattern".toList, "Total Row".toList, "Fraction".toList,
   "Channel 1".toList, "Channel 2".toList, "Channel 3".toList, "Channel 4".toList,
   "Channel 5".toList, "Channel 6".toList, "Channel 7".toList, "Channel 8".toList]

/-- The fields of row `r`. -/
def rowFields (P : Nat → List Note) (t r : Nat) : List Str :=
  [natStr (nextSample P t r), natStr (r % 64), natStr (r / 64), natStr r,
    (fractionText (nextSample P t r) t).toOption.getD []] ++
    (List.range 8).map (fun c => cellText (P c) t r)

theorem csv_table (h : List Event) (hb : ByteHistory h) (t : Nat) (ht : 0 < t)
    (hT : time h < 2 ^ 1023) :
    ∃ (out : List Str) (L : Nat), extractTracks (run h) t = some (out, none) ∧
      csvTable out.flatten = some (headerFields ::
        (List.range L).map (rowFields (run h).keyPressesOf t)) ∧
      ∀ r, r < L ↔ ∃ c < 8, ∃ n ∈ (run h).keyPressesOf c, r < n.sample / t := by
  have hsample : ∀ c < 8, ∀ n ∈ (run h).keyPressesOf c, n.sample < 2 ^ 1023 := by
    intro c hc n hn
    obtain ⟨i, v, _, _, e, _⟩ := c24_note_capture h hb c hc n hn
    rw [e]; exact lt_of_le_of_lt (time_take_le h i) hT
  have hstr : ∀ c < 8, ∀ n ∈ (run h).keyPressesOf c, ∃ x, n.str = .ok x := by
    intro c hc n hn
    obtain ⟨_, _, _, x, _, _, _, _, e, _⟩ := c33_off h hb c hc n hn
    exact ⟨x, e⟩
  obtain ⟨L, e, hL⟩ := extractTracks_spec (run h) t ht (fun c hc => c22_chronological h hb c hc) hstr
    (fun c hc n hn => by
      obtain ⟨f, hf, _⟩ := fraction_ok n.sample t ht (hsample c hc n hn)
      exact ⟨f, hf⟩)
  refine ⟨_, L, e, ?_, hL⟩
  have hheader : csvHeader = join [','] headerFields ++ ['\n'] := by decide +kernel
  have hline : ∀ r, lineFor (run h).keyPressesOf t r =
      join [','] (rowFields (run h).keyPressesOf t r) ++ ['\n'] := by
    intro r
    unfold lineFor csvLine rowFields
    have e1 : Int.fmod (r : Int) 64 = ((r % 64 : Nat) : Int) := by
      rw [Int.fmod_eq_emod_of_nonneg _ (by omega)]; push_cast; rfl
    have e2 : Int.fdiv (r : Int) 64 = ((r / 64 : Nat) : Int) := by
      rw [Int.fdiv_eq_ediv_of_nonneg _ (by omega)]; push_cast; rfl
    rw [e1, e2]
    rfl
  have hrows : csvHeader :: (List.range L).map (lineFor (run h).keyPressesOf t) =
      (headerFields :: (List.range L).map (rowFields (run h).keyPressesOf t)).map
        (fun r => join [','] r ++ ['\n']) := by
    rw [List.map_cons, hheader, List.map_map]
    congr 1
    apply List.map_congr_left
    intro r _
    exact hline r
  rw [hrows]
  apply csvTable_lines
  · intro r hr
    rcases List.mem_cons.mp hr with rfl | hr
    · decide
    · obtain ⟨r', _, rfl⟩ := List.mem_map.mp hr
      simp [rowFields]
  · intro r hr f hf
    rcases List.mem_cons.mp hr with rfl | hr
    · have : ∀ f ∈ headerFields, clean f := by unfold clean; decide +kernel
      exact this f hf
    · obtain ⟨r', _, rfl⟩ := List.mem_map.mp hr
      unfold rowFields at hf
      rcases List.mem_append.mp hf with hf | hf
      · simp only [List.mem_cons, List.not_mem_nil, or_false] at hf
        rcases hf with rfl | rfl | rfl | rfl | rfl
        · exact clean_natStr _
        · exact clean_natStr _
        · exact clean_natStr _
        · exact clean_natStr _
        · cases hx : fractionText (nextSample (run h).keyPressesOf t r') t with
          | error e => exact (by decide : clean ([] : Str))
          | ok x =>
            unfold fractionText at hx
            split at hx
            · cases hx
            · cases hx; exact clean_fmt2 _
            · cases hx
      · obtain ⟨c, hc, rfl⟩ := List.mem_map.mp hf
        have hc := List.mem_range.mp hc
        unfold cellText
        cases hl : (onRow ((run h).keyPressesOf c) t r').getLast? with
        | none => exact (by decide : clean ([] : Str))
        | some n =>
          have hn := (List.mem_filter.mp (List.mem_of_getLast? hl)).1
          obtain ⟨x, hx⟩ := hstr c hc n hn
          obtain ⟨_, h2, h3, h4, _⟩ := (c25_ranges h hb).2.2.2 c hc n hn
          show clean (noteText n)
          unfold noteText
          rw [hx]
          exact (clean_note n h2 h3 x hx).1

/-! ### C45 -/

/-- C45. `extract_tracks` terminates, for every state and every ticks-per-note (also zero and
negative ones). -/
theorem c45_terminates (s : State) (ticks : Int) :
    ∃ out err, extractTracks s ticks = some (out, err) := by
  unfold extractTracks
  have := csvLoop_total ticks (((List.range 8).map (fun ch => (s.keyPressesOf ch).length)).sum + 1)
    s.keyPressesOf 0 blankRow [csvHeader] (by simp [blankRow]) (by unfold pendCount; omega)
  revert this
  generalize csvLoop ticks _ _ 0 blankRow [csvHeader] = x
  cases x with
  | none => intro h; exact absurd rfl h
  | some y => intro _; exact ⟨y.1, y.2, rfl⟩

/-- C45. For a positive ticks-per-note no exception is raised, and line `r` after the header
has `r` in the Total Row column and `r % 64`, `r / 64` in the Row and Pattern columns: the
rows are numbered consecutively from 0, each once. The Samples column holds the time of the
first key press after row `r`. (Times of 2^1023 or more would overflow the Fraction
column.) -/
theorem c45_rows (h : List Event) (hb : ByteHistory h) (t : Nat) (ht : 0 < t)
    (hT : time h < 2 ^ 1023) :
    ∃ out table, extractTracks (run h) t = some (out, none) ∧
      csvTable out.flatten = some (headerFields :: table) ∧
      ∀ (r : Nat) (fields : List Str), table[r]? = some fields →
        ∃ m,
          (fields[0]?.bind (readBase 10)) = some m ∧
          (fields[1]?.bind (readBase 10)) = some (r % 64) ∧
          (fields[2]?.bind (readBase 10)) = some (r / 64) ∧
          (fields[3]?.bind (readBase 10)) = some r ∧
          (∃ c < 8, ∃ n ∈ (run h).keyPressesOf c, n.sample = m ∧ r < n.sample / t) ∧
          (∀ c < 8, ∀ n ∈ (run h).keyPressesOf c, r < n.sample / t → m ≤ n.sample) := by
  obtain ⟨out, L, h1, h2, h3⟩ := csv_table h hb t ht hT
  refine ⟨out, _, h1, h2, ?_⟩
  intro r fields hf
  rw [List.getElem?_map] at hf
  obtain ⟨r', hr', rfl⟩ := Option.map_eq_some_iff.mp hf
  have hrL : r < L := by
    have := (List.getElem?_eq_some_iff.mp hr').1
    simpa using this
  rw [List.getElem?_range hrL] at hr'
  cases hr'
  refine ⟨nextSample (run h).keyPressesOf t r, ?_, ?_, ?_, ?_, ?_⟩
  · simp [rowFields, readBase_natStr]
  · simp [rowFields, readBase_natStr]
  · simp [rowFields, readBase_natStr]
  · simp [rowFields, readBase_natStr]
  · obtain ⟨c, hc, n, hn, hr⟩ := (h3 r).mp hrL
    unfold nextSample
    cases hm : minOf (((List.range 8).flatMap (run h).keyPressesOf).filterMap
        (fun n => if r < n.sample / t then some n.sample else none)) with
    | none =>
      exfalso
      have := (minOf_none _).mp hm
      rw [List.filterMap_eq_nil_iff] at this
      have := this n (List.mem_flatMap.mpr ⟨c, List.mem_range.mpr hc, hn⟩)
      simp [hr] at this
    | some m =>
      obtain ⟨e1, e2⟩ := minOf_some hm
      simp only [Option.getD_some]
      constructor
      · obtain ⟨n', hn', hm'⟩ := List.mem_filterMap.mp e1
        obtain ⟨c', hc', hn'⟩ := List.mem_flatMap.mp hn'
        split at hm'
        · rename_i hr'
          cases hm'
          exact ⟨c', List.mem_range.mp hc', n', hn', rfl, hr'⟩
        · cases hm'
      · intro c' hc' n' hn' hr'
        apply e2
        rw [List.mem_filterMap]
        exact ⟨n', List.mem_flatMap.mpr ⟨c', List.mem_range.mpr hc', hn'⟩, by simp [hr']⟩

/-! ### C46 -/

/-- C46. In the line of row `r`, the cell of channel `c` is empty iff no key press of the
channel falls on the row, and otherwise is the text of the last one that does. -/
theorem c46_cells (h : List Event) (hb : ByteHistory h) (t : Nat) (ht : 0 < t)
    (hT : time h < 2 ^ 1023) :
    ∃ out table, extractTracks (run h) t = some (out, none) ∧
      csvTable out.flatten = some (headerFields :: table) ∧
      ∀ (r : Nat) (fields : List Str), table[r]? = some fields → ∀ c < 8,
        ∃ cell, fields[5 + c]? = some cell ∧
        (cell = [] ↔ ∀ n ∈ (run h).keyPressesOf c, n.sample / t ≠ r) ∧
        ∀ n, (onRow ((run h).keyPressesOf c) t r).getLast? = some n → n.str = .ok cell := by
  obtain ⟨out, L, h1, h2, h3⟩ := csv_table h hb t ht hT
  refine ⟨out, _, h1, h2, ?_⟩
  intro r fields hf c hc
  rw [List.getElem?_map] at hf
  obtain ⟨r', hr', rfl⟩ := Option.map_eq_some_iff.mp hf
  have hrL : r < L := by
    have := (List.getElem?_eq_some_iff.mp hr').1
    simpa using this
  rw [List.getElem?_range hrL] at hr'
  cases hr'
  refine ⟨cellText ((run h).keyPressesOf c) t r, ?_, ?_, ?_⟩
  · unfold rowFields
    rw [List.getElem?_append_right (by simp)]
    simp [List.getElem?_range hc]
  · unfold cellText
    cases hl : (onRow ((run h).keyPressesOf c) t r).getLast? with
    | none =>
      rw [List.getLast?_eq_none_iff] at hl
      unfold onRow at hl
      rw [List.filter_eq_nil_iff] at hl
      simpa using hl
    | some n =>
      have hn := List.mem_filter.mp (List.mem_of_getLast? hl)
      obtain ⟨_, _, _, x, _, _, _, _, e, _⟩ := c33_off h hb c hc n hn.1
      obtain ⟨_, q2, q3, q4, _⟩ := (c25_ranges h hb).2.2.2 c hc n hn.1
      have hne := (clean_note n q2 q3 x e).2
      simp only [Option.map_some, Option.getD_some, noteText, e, Except.toOption]
      constructor
      · intro hx; exact absurd hx hne
      · intro hall; exact absurd (of_decide_eq_true hn.2) (hall n hn.1)
  · intro n hl
    have hn := List.mem_filter.mp (List.mem_of_getLast? hl)
    obtain ⟨_, _, _, x, _, _, _, _, e, _⟩ := c33_off h hb c hc n hn.1
    unfold cellText
    rw [hl]
    simp [noteText, e, Except.toOption]

/-! ### C47 -/

/-- C47, exact form: row `r` is in the table iff a later row has a key press. So all rows
before the last one with key presses are written. -/
theorem c47_rows_partial (h : List Event) (hb : ByteHistory h) (t : Nat) (ht : 0 < t)
    (hT : time h < 2 ^ 1023) :
    ∃ out table, extractTracks (run h) t = some (out, none) ∧
      csvTable out.flatten = some (headerFields :: table) ∧
      ∀ r, r < table.length ↔ ∃ c < 8, ∃ n ∈ (run h).keyPressesOf c, r < n.sample / t := by
  obtain ⟨out, L, h1, h2, h3⟩ := csv_table h hb t ht hT
  exact ⟨out, _, h1, h2, by simpa using h3⟩

/-- C47 is false as stated, for every song: the last row with key presses is missing. -/
theorem c47_refuted (h : List Event) (hb : ByteHistory h) (t : Nat) (ht : 0 < t)
    (hT : time h < 2 ^ 1023) (hsome : ∃ c < 8, (run h).keyPressesOf c ≠ []) :
    ∃ out table, extractTracks (run h) t = some (out, none) ∧
      csvTable out.flatten = some (headerFields :: table) ∧
      ∃ c < 8, ∃ n ∈ (run h).keyPressesOf c, table.length ≤ n.sample / t := by
  obtain ⟨out, table, h1, h2, h3⟩ := c47_rows_partial h hb t ht hT
  refine ⟨out, table, h1, h2, ?_⟩
  obtain ⟨c, hc, hne⟩ := hsome
  obtain ⟨n, hn⟩ := List.exists_mem_of_ne_nil _ hne
  by_cases h0 : table.length = 0
  · exact ⟨c, hc, n, hn, by rw [h0]; exact Nat.zero_le _⟩
  · obtain ⟨c', hc', n', hn', hr⟩ := (h3 (table.length - 1)).mp (by omega)
    exact ⟨c', hc', n', hn', by omega⟩

/-! ### C48 -/

/-- C48. Every line of the file has thirteen fields; the first line is the header. -/
theorem c48_columns (h : List Event) (hb : ByteHistory h) (t : Nat) (ht : 0 < t)
    (hT : time h < 2 ^ 1023) :
    ∃ out table, extractTracks (run h) t = some (out, none) ∧
      csvTable out.flatten = some (headerFields :: table) ∧
      headerFields.length = 13 ∧ ∀ fields ∈ table, fields.length = 13 := by
  obtain ⟨out, L, h1, h2, h3⟩ := csv_table h hb t ht hT
  refine ⟨out, _, h1, h2, rfl, ?_⟩
  intro fields hf
  obtain ⟨r, _, rfl⟩ := List.mem_map.mp hf
  simp [rowFields]

/-- Ticks-per-note zero raises after the header was written, if there are key presses. -/
example : extractTracks (run sample) 0 = some ([csvHeader], some .zeroDivision) := by
  decide +kernel

/-- The sample history at 50 samples per row: rows 0, 1, 2 are written, row 3 is not. -/
example : time sample < 2 ^ 1023 ∧ (∃ c < 8, (run sample).keyPressesOf c ≠ []) ∧
    (extractTracks (run sample) 50).map (fun x => (x.1.drop 1).map (·.take 9)) =
      some ["100,0,0,0".toList, "100,1,0,1".toList, "150,2,0,2".toList] := by
  refine ⟨by decide +kernel, by decide +kernel, by decide +kernel⟩

end VgmX
