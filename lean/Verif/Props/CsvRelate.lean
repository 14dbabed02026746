import Verif.Props.Csv
import Verif.Props.Relate
/-
C97: the text export of related recordings (slower, longer, transposed) and on a coarser grid.
-/

namespace VgmX
open Spec

theorem length_unique {L L' : Nat} {p : Nat → Prop} (h : ∀ r, r < L ↔ p r) (h' : ∀ r, r < L' ↔ p r) :
    L = L' := by
  rcases Nat.lt_trichotomy L L' with x | x | x
  · exact absurd ((h L).mpr ((h' L).mp x)) (by omega)
  · exact x
  · exact absurd ((h' L').mpr ((h L').mp x)) (by omega)

/-- The first key press after a row. -/
theorem nextSample_spec (P : Nat → List Note) (t r : Nat)
    (hex : ∃ c < 8, ∃ n ∈ P c, r < n.sample / t) :
    (∃ c < 8, ∃ n ∈ P c, n.sample = nextSample P t r ∧ r < n.sample / t) ∧
    ∀ c < 8, ∀ n ∈ P c, r < n.sample / t → nextSample P t r ≤ n.sample := by
  have key : ∃ m, (∃ c < 8, ∃ n ∈ P c, n.sample = m ∧ r < n.sample / t) ∧
      ∀ c < 8, ∀ n ∈ P c, r < n.sample / t → m ≤ n.sample := by
    classical
    have hex' : ∃ m, ∃ c < 8, ∃ n ∈ P c, n.sample = m ∧ r < n.sample / t := by
      obtain ⟨c, hc, n, hn, h⟩ := hex
      exact ⟨_, c, hc, n, hn, rfl, h⟩
    refine ⟨Nat.find hex', Nat.find_spec hex', ?_⟩
    intro c hc n hn h
    exact Nat.find_min' hex' ⟨c, hc, n, hn, rfl, h⟩
  obtain ⟨m, h1, h2⟩ := key
  rw [nextSample_eq P t r m h1 h2]
  exact ⟨h1, h2⟩

/-! ### Slower -/

theorem fraction_slowed (m t k : Nat) (hk : 0 < k) :
    fractionText (k * m) ((k * t : Nat) : Int) = fractionText m t := by
  unfold fractionText intTrueDiv
  by_cases ht : t = 0
  · subst ht; simp
  · have hkt : k * t ≠ 0 := Nat.mul_ne_zero (by omega) ht
    have e1 : ¬ ((k * t : Nat) : Int) = 0 := by exact_mod_cast hkt
    have e2 : ¬ (t : Int) = 0 := by exact_mod_cast ht
    have hq : (((k * m : Nat) : Int) : ℚ) / (((k * t : Nat) : Int) : ℚ)
        = ((m : Int) : ℚ) / ((t : Int) : ℚ) := by
      have h1 : (k : ℚ) ≠ 0 := by exact_mod_cast (by omega : k ≠ 0)
      push_cast
      rw [mul_div_mul_left _ _ h1]
    simp only [if_neg e1, if_neg e2, hq]

theorem cell_slowed (l : List Note) (k t r : Nat) (hk : 0 < k) :
    cellText (l.map (Spec.Note.slowed k)) (k * t) r = cellText l t r := by
  unfold cellText onRow
  rw [List.filter_map, List.getLast?_map, Option.map_map]
  have : ((fun n : Note => decide (n.sample / (k * t) = r)) ∘ Spec.Note.slowed k)
      = fun n : Note => decide (n.sample / t = r) := by
    funext n
    have : (Spec.Note.slowed k n).sample / (k * t) = n.sample / t := by
      show k * n.sample / (k * t) = _
      rw [Nat.mul_div_mul_left _ _ hk]
    simp only [Function.comp_apply, this]
  rw [this]
  rfl

/-- C97. A recording `k` times as slow, exported with `k` times as many ticks per note, gives the
same table, but for the column Samples, whose numbers are `k` times as large. -/
theorem c97_slower (h : List Event) (hb : ByteHistory h) (k t : Nat) (hk : 0 < k) (ht : 0 < t)
    (hT : k * time h < 2 ^ 1023) :
    ∃ out out' table table', extractTracks (run h) t = some (out, none) ∧
      extractTracks (run (h.map (slowed k))) ((k * t : Nat) : Int) = some (out', none) ∧
      csvTable out.flatten = some (headerFields :: table) ∧
      csvTable out'.flatten = some (headerFields :: table') ∧
      table'.length = table.length ∧
      ∀ (r : Nat) (fields fields' : List Str), table[r]? = some fields → table'[r]? = some fields' →
        fields'.drop 1 = fields.drop 1 ∧
        ∃ m, fields[0]?.bind (readBase 10) = some m ∧
          fields'[0]?.bind (readBase 10) = some (k * m) := by
  have hb' : ByteHistory (h.map (slowed k)) := slowed_byte hb
  have htime : time (h.map (slowed k)) = k * time h := time_slowed k h
  have hT1 : time h < 2 ^ 1023 := Nat.lt_of_le_of_lt (Nat.le_mul_of_pos_left _ hk) hT
  obtain ⟨_, _, hn⟩ := c83_notes h hb k hk
  obtain ⟨out, L, h1, h2, h3⟩ := csv_table h hb t ht hT1
  obtain ⟨out', L', h1', h2', h3'⟩ := csv_table _ hb' (k * t) (Nat.mul_pos hk ht) (by rw [htime]; exact hT)
  have hL : L' = L := by
    apply length_unique h3'
    intro r
    rw [h3]
    constructor
    · rintro ⟨c, hc, n, hn', hr⟩
      refine ⟨c, hc, Spec.Note.slowed k n, by rw [hn c hc]; exact List.mem_map_of_mem hn', ?_⟩
      show r < k * n.sample / (k * t)
      rwa [Nat.mul_div_mul_left _ _ hk]
    · rintro ⟨c, hc, n, hn', hr⟩
      rw [hn c hc] at hn'
      obtain ⟨m, hm, rfl⟩ := List.mem_map.mp hn'
      refine ⟨c, hc, m, hm, ?_⟩
      have : r < k * m.sample / (k * t) := hr
      rwa [Nat.mul_div_mul_left _ _ hk] at this
  refine ⟨out, out', _, _, h1, h1', h2, h2', by simp [hL], ?_⟩
  intro r fields fields' hf hf'
  rw [List.getElem?_map] at hf hf'
  obtain ⟨r1, hr1, rfl⟩ := Option.map_eq_some_iff.mp hf
  obtain ⟨r2, hr2, rfl⟩ := Option.map_eq_some_iff.mp hf'
  have hrL : r < L := by
    have := (List.getElem?_eq_some_iff.mp hr1).1
    simpa using this
  rw [List.getElem?_range hrL] at hr1
  rw [List.getElem?_range (by omega)] at hr2
  cases hr1
  cases hr2
  obtain ⟨⟨c, hc, n, hn1, hn2, hn3⟩, hmin⟩ := nextSample_spec (run h).keyPressesOf t r ((h3 r).mp hrL)
  have hnext : nextSample (run (h.map (slowed k))).keyPressesOf (k * t) r
      = k * nextSample (run h).keyPressesOf t r := by
    apply nextSample_eq
    · refine ⟨c, hc, Spec.Note.slowed k n, by rw [hn c hc]; exact List.mem_map_of_mem hn1, ?_, ?_⟩
      · show k * n.sample = _
        rw [hn2]
      · show r < k * n.sample / (k * t)
        rwa [Nat.mul_div_mul_left _ _ hk]
    · intro c' hc' n' hn' hr'
      rw [hn c' hc'] at hn'
      obtain ⟨m, hm, rfl⟩ := List.mem_map.mp hn'
      have : r < k * m.sample / (k * t) := hr'
      rw [Nat.mul_div_mul_left _ _ hk] at this
      exact Nat.mul_le_mul_left k (hmin c' hc' m hm this)
  constructor
  · unfold rowFields
    rw [hnext, fraction_slowed _ _ _ hk]
    simp only [List.cons_append, List.drop_succ_cons, List.drop_zero, List.nil_append]
    congr 4
    apply List.map_congr_left
    intro c hc
    rw [hn c (List.mem_range.mp hc), cell_slowed _ _ _ _ hk]
  · refine ⟨nextSample (run h).keyPressesOf t r, ?_, ?_⟩
    · simp [rowFields, readBase_natStr]
    · simp [rowFields, readBase_natStr, hnext]

/-! ### Longer -/

theorem csv_lines (h : List Event) (hb : ByteHistory h) (t : Nat) (ht : 0 < t)
    (hT : time h < 2 ^ 1023) :
    ∃ L : Nat, extractTracks (run h) t =
        some (csvHeader :: (List.range L).map (lineFor (run h).keyPressesOf t), none) ∧
      ∀ r, r < L ↔ ∃ c < 8, ∃ n ∈ (run h).keyPressesOf c, r < n.sample / t := by
  have hsample : ∀ c < 8, ∀ n ∈ (run h).keyPressesOf c, n.sample < 2 ^ 1023 := by
    intro c hc n hn
    obtain ⟨i, v, _, _, e, _⟩ := c24_note_capture h hb c hc n hn
    rw [e]; exact lt_of_le_of_lt (time_take_le h i) hT
  exact extractTracks_spec (run h) t ht (fun c hc => c22_chronological h hb c hc)
    (fun c hc n hn => by
      obtain ⟨_, _, _, x, _, _, _, _, e, _⟩ := c33_off h hb c hc n hn
      exact ⟨x, e⟩)
    (fun c hc n hn => by
      obtain ⟨f, hf, _⟩ := fraction_ok n.sample t ht (hsample c hc n hn)
      exact ⟨f, hf⟩)

/-- C97. If a recording goes on, the file goes on: the text of the recording so far is the
beginning of the text of the whole. -/
theorem c97_longer (h more : List Event) (hb : ByteHistory (h ++ more)) (t : Nat) (ht : 0 < t)
    (hT : time (h ++ more) < 2 ^ 1023) :
    ∃ out out', extractTracks (run h) t = some (out, none) ∧
      extractTracks (run (h ++ more)) t = some (out', none) ∧ out.flatten <+: out'.flatten := by
  have hb' : ByteHistory h := fun e he => hb e (by simp [he])
  have hle : time h ≤ time (h ++ more) := by
    have := time_take_le (h ++ more) h.length
    simpa using this
  obtain ⟨L, h1, h2⟩ := csv_lines h hb' t ht (Nat.lt_of_le_of_lt hle hT)
  obtain ⟨L', h1', h2'⟩ := csv_lines _ hb t ht hT
  obtain ⟨_, hn⟩ := c86_notes h more hb
  have hrow : ∀ r < L, r < time h / t := by
    intro r hr
    obtain ⟨c, hc, n, hn', hlt⟩ := (h2 r).mp hr
    obtain ⟨i, v, _, _, e, _⟩ := c24_note_capture h hb' c hc n hn'
    have : n.sample ≤ time h := by rw [e]; exact time_take_le h i
    exact Nat.lt_of_lt_of_le hlt (Nat.div_le_div_right this)
  have hLL : L ≤ L' := by
    by_contra hc
    have hlt : L' < L := by omega
    obtain ⟨c, hc, n, hn', hr⟩ := (h2 L').mp hlt
    obtain ⟨new, e, _⟩ := hn c hc
    exact absurd ((h2' L').mpr ⟨c, hc, n, by rw [e]; exact List.mem_append_left _ hn', hr⟩) (by omega)
  refine ⟨_, _, h1, h1', ?_⟩
  have hline : ∀ r < L, lineFor (run (h ++ more)).keyPressesOf t r = lineFor (run h).keyPressesOf t r := by
    intro r hr
    have hlt := hrow r hr
    obtain ⟨⟨c, hc, n, hn1, hn2, hn3⟩, hmin⟩ := nextSample_spec (run h).keyPressesOf t r ((h2 r).mp hr)
    have hnt : n.sample ≤ time h := by
      obtain ⟨i, v, _, _, e, _⟩ := c24_note_capture h hb' c hc n hn1
      rw [e]; exact time_take_le h i
    have hnext : nextSample (run (h ++ more)).keyPressesOf t r = nextSample (run h).keyPressesOf t r := by
      apply nextSample_eq
      · obtain ⟨new, e, _⟩ := hn c hc
        exact ⟨c, hc, n, by rw [e]; exact List.mem_append_left _ hn1, hn2, hn3⟩
      · intro c' hc' n' hn' hr'
        obtain ⟨new, e, hnew⟩ := hn c' hc'
        rw [e] at hn'
        rcases List.mem_append.mp hn' with hn' | hn'
        · exact hmin c' hc' n' hn' hr'
        · have := hnew n' hn'
          omega
    unfold lineFor
    rw [hnext]
    congr 1
    apply List.map_congr_left
    intro c' hc'
    obtain ⟨new, e, hnew⟩ := hn c' (List.mem_range.mp hc')
    rw [e]
    unfold cellText onRow
    rw [List.filter_append]
    have : new.filter (fun n => decide (n.sample / t = r)) = [] := by
      rw [List.filter_eq_nil_iff]
      intro n' hn'
      have h3 := Nat.div_le_div_right (c := t) (hnew n' hn')
      simp only [decide_eq_true_eq]
      omega
    rw [this, List.append_nil]
  obtain ⟨d, rfl⟩ := Nat.exists_eq_add_of_le hLL
  rw [List.range_add, List.map_append, List.flatten_cons, List.flatten_cons, List.flatten_append,
    ← List.append_assoc]
  rw [List.map_congr_left (g := lineFor (run h).keyPressesOf t)
    (fun r hr => hline r (List.mem_range.mp hr))]
  exact List.prefix_append _ _

/-! ### A coarser grid -/

/-- C97. On a grid `k` times as coarse, a cell shows what the last non-empty one of the `k` cells
that it covers shows on the fine grid, and is empty if they are all empty. -/
theorem c97_coarser (h : List Event) (hb : ByteHistory h) (k t : Nat) (hk : 0 < k) (ht : 0 < t)
    (hT : time h < 2 ^ 1023) :
    ∃ out out' table table', extractTracks (run h) t = some (out, none) ∧
      extractTracks (run h) ((k * t : Nat) : Int) = some (out', none) ∧
      csvTable out.flatten = some (headerFields :: table) ∧
      csvTable out'.flatten = some (headerFields :: table') ∧
      ∀ (r : Nat) (fields' : List Str), table'[r]? = some fields' →
        (∀ j < k, ∃ fields, table[k * r + j]? = some fields) ∧
        ∀ c < 8, ∃ cell', fields'[5 + c]? = some cell' ∧
          (cell' = [] ↔ ∀ j < k, (table[k * r + j]?.bind (·[5 + c]?)) = some []) ∧
          ∀ j < k, (table[k * r + j]?.bind (·[5 + c]?)) ≠ some [] →
            (∀ i, j < i → i < k → (table[k * r + i]?.bind (·[5 + c]?)) = some []) →
            (table[k * r + j]?.bind (·[5 + c]?)) = some cell' := by
  obtain ⟨out, L, h1, h2, h3⟩ := csv_table h hb t ht hT
  obtain ⟨out', L', h1', h2', h3'⟩ := csv_table h hb (k * t) (Nat.mul_pos hk ht) hT
  refine ⟨out, out', _, _, h1, h1', h2, h2', ?_⟩
  intro r fields' hf'
  rw [List.getElem?_map] at hf'
  obtain ⟨r2, hr2, rfl⟩ := Option.map_eq_some_iff.mp hf'
  have hrL : r < L' := by
    have := (List.getElem?_eq_some_iff.mp hr2).1
    simpa using this
  rw [List.getElem?_range hrL] at hr2
  cases hr2
  have hfine : ∀ j < k, k * r + j < L := by
    intro j hj
    obtain ⟨c, hc, n, hn, hr⟩ := (h3' r).mp hrL
    refine (h3 _).mpr ⟨c, hc, n, hn, ?_⟩
    rw [Nat.mul_comm, ← Nat.div_div_eq_div_mul] at hr
    have h5 : (r + 1) * k ≤ n.sample / t := (Nat.le_div_iff_mul_le hk).mp hr
    have h6 : (r + 1) * k = k * r + k := by ring
    omega
  have hget : ∀ j < k, ((List.range L).map (rowFields (run h).keyPressesOf t))[k * r + j]?
      = some (rowFields (run h).keyPressesOf t (k * r + j)) := by
    intro j hj
    rw [List.getElem?_map, List.getElem?_range (hfine j hj)]
    rfl
  have hcell : ∀ (P : Nat → List Note) (t r c : Nat), c < 8 → (rowFields P t r)[5 + c]?
      = some (cellText (P c) t r) := by
    intro P t r c hc
    unfold rowFields
    rw [List.getElem?_append_right (by simp)]
    simp [List.getElem?_range hc]
  refine ⟨fun j hj => ⟨_, hget j hj⟩, ?_⟩
  intro c hc
  refine ⟨_, hcell _ _ _ c hc, ?_⟩
  have hget' : ∀ j < k, (((List.range L).map (rowFields (run h).keyPressesOf t))[k * r + j]?.bind
      (·[5 + c]?)) = some (cellText ((run h).keyPressesOf c) t (k * r + j)) := by
    intro j hj
    rw [hget j hj]
    exact hcell _ _ _ c hc
  have hne : ∀ t r, cellText ((run h).keyPressesOf c) t r = [] ↔
      onRow ((run h).keyPressesOf c) t r = [] := by
    intro t r
    unfold cellText
    cases hl : (onRow ((run h).keyPressesOf c) t r).getLast? with
    | none =>
      rw [List.getLast?_eq_none_iff] at hl
      simp [hl]
    | some n =>
      have hn := (List.mem_filter.mp (List.mem_of_getLast? hl)).1
      obtain ⟨_, _, _, x, _, _, _, _, e, _⟩ := c33_off h hb c hc n hn
      obtain ⟨_, q2, q3, q4, _⟩ := (c25_ranges h hb).2.2.2 c hc n hn
      have hx := (clean_note n q2 q3 x e).2
      constructor
      · intro hx'
        simp only [Option.map_some, Option.getD_some, noteText, e, Except.toOption] at hx'
        exact absurd hx' hx
      · intro h0; rw [h0] at hl; cases hl
  have hdiv : ∀ n : Note, n.sample / (k * t) = n.sample / t / k := by
    intro n
    rw [Nat.mul_comm, Nat.div_div_eq_div_mul]
  have hin : ∀ n : Note, n.sample / (k * t) = r ↔ ∃ j < k, n.sample / t = k * r + j := by
    intro n
    rw [hdiv]
    constructor
    · rintro rfl
      exact ⟨n.sample / t % k, Nat.mod_lt _ hk, (Nat.div_add_mod _ _).symm⟩
    · rintro ⟨j, hj, e⟩
      rw [e, Nat.mul_add_div hk, Nat.div_eq_of_lt hj, Nat.add_zero]
  constructor
  · rw [hne]
    constructor
    · intro h0 j hj
      rw [hget' j hj, Option.some.injEq, hne]
      unfold onRow at h0 ⊢
      rw [List.filter_eq_nil_iff] at h0 ⊢
      intro n hn
      have := h0 n hn
      simp only [decide_eq_true_eq] at this ⊢
      exact fun e => this ((hin n).mpr ⟨j, hj, e⟩)
    · intro h0
      unfold onRow
      rw [List.filter_eq_nil_iff]
      intro n hn
      simp only [decide_eq_true_eq]
      intro e
      obtain ⟨j, hj, e⟩ := (hin n).mp e
      have := h0 j hj
      rw [hget' j hj, Option.some.injEq, hne] at this
      unfold onRow at this
      rw [List.filter_eq_nil_iff] at this
      exact this n hn (by simpa using e)
  · intro j hj hnej hlater
    rw [hget' j hj] at hnej ⊢
    rw [Option.some.injEq]
    have hnej : onRow ((run h).keyPressesOf c) t (k * r + j) ≠ [] := by
      intro h0
      exact hnej (by rw [(hne t _).mpr h0])
    obtain ⟨n, hl⟩ : ∃ n, (onRow ((run h).keyPressesOf c) (k * t) r).getLast? = some n := by
      cases hl : (onRow ((run h).keyPressesOf c) (k * t) r).getLast? with
      | some n => exact ⟨n, rfl⟩
      | none =>
        exfalso
        rw [List.getLast?_eq_none_iff] at hl
        obtain ⟨m, hm⟩ := List.exists_mem_of_ne_nil _ hnej
        obtain ⟨hm1, hm2⟩ := List.mem_filter.mp hm
        unfold onRow at hl
        rw [List.filter_eq_nil_iff] at hl
        exact hl m hm1 (by simpa using (hin m).mpr ⟨j, hj, by simpa using hm2⟩)
    have hs : ((run h).keyPressesOf c).Pairwise (fun a b => a.sample / t ≤ b.sample / t) :=
      (c22_chronological h hb c hc).imp (fun h => Nat.div_le_div_right h)
    have hl' := hl
    unfold onRow at hl'
    simp only [hdiv] at hl'
    obtain ⟨g1, g2⟩ := last_coarse (fun n : Note => n.sample / t) k r _ hs n hl'
    obtain ⟨hn1, hn2⟩ := List.mem_filter.mp (List.mem_of_getLast? hl)
    obtain ⟨i, hi, ei⟩ := (hin n).mp (by simpa using hn2)
    have hij : i = j := by
      obtain ⟨m, hm⟩ := List.exists_mem_of_ne_nil _ hnej
      obtain ⟨hm1, hm2⟩ := List.mem_filter.mp hm
      have hm2 : m.sample / t = k * r + j := by simpa using hm2
      have hle := g2 m hm1 (by rw [← hdiv]; exact (hin m).mpr ⟨j, hj, hm2⟩)
      rcases Nat.lt_or_ge j i with hlt | hge
      · exfalso
        have := hlater i hlt hi
        rw [hget' i hi, Option.some.injEq, hne] at this
        unfold onRow at this
        rw [List.filter_eq_nil_iff] at this
        exact this n hn1 (by simpa using ei)
      · have hle' : m.sample / t ≤ n.sample / t := hle
        omega
    subst hij
    have ge : (onRow ((run h).keyPressesOf c) t (k * r + i)).getLast? = some n := by
      unfold onRow
      rw [← ei]
      exact g1
    unfold cellText
    rw [ge, hl]

/-! ### Transposed -/

theorem natStr_octave : ∀ o ≤ 7, ∃ x, natStr o = [x] ∧ readBase 10 [x] = some o := by
  intro o ho
  have : ∀ o ≤ 7, natStr o = [(natStr o).headD ' '] ∧
      readBase 10 [(natStr o).headD ' '] = some o := by decide +kernel
  exact ⟨_, this o ho⟩

/-- C97. Raising every key code by `k` octaves raises the octave digit of every cell by `k`, and
changes nothing else in the table. -/
theorem c97_raised (h : List Event) (hb : ByteHistory h) (k t : Nat) (hr : CanRaise k h)
    (hf : KeyCodeFirst h) (ht : 0 < t) (hT : time h < 2 ^ 1023) :
    ∃ out out' table table', extractTracks (run h) t = some (out, none) ∧
      extractTracks (run (h.map (raised k))) t = some (out', none) ∧
      csvTable out.flatten = some (headerFields :: table) ∧
      csvTable out'.flatten = some (headerFields :: table') ∧
      table'.length = table.length ∧
      ∀ (r : Nat) (fields fields' : List Str), table[r]? = some fields → table'[r]? = some fields' →
        fields'.take 5 = fields.take 5 ∧
        ∀ c < 8, ∃ cell cell', fields[5 + c]? = some cell ∧ fields'[5 + c]? = some cell' ∧
          ((cell' = cell ∧ (cell = [] ∨ cell = "Key Off".toList)) ∨
            ∃ (before after : Str) (x x' : Char) (o : Nat), before.length = 3 ∧
              cell = before ++ x :: after ∧ cell' = before ++ x' :: after ∧
              readBase 10 [x] = some o ∧ readBase 10 [x'] = some (o + k)) := by
  have hb' := raised_byte hb hr
  obtain ⟨_, _, hn⟩ := c84_notes h hb k hr hf
  have htime : time (h.map (raised k)) = time h := time_raised k h
  obtain ⟨out, L, h1, h2, h3⟩ := csv_table h hb t ht hT
  obtain ⟨out', L', h1', h2', h3'⟩ := csv_table _ hb' t ht (by rw [htime]; exact hT)
  have hL : L' = L := by
    apply length_unique h3'
    intro r
    rw [h3]
    constructor
    · rintro ⟨c, hc, n, hn', hr⟩
      exact ⟨c, hc, Spec.Note.raised k n, by rw [hn c hc]; exact List.mem_map_of_mem hn', hr⟩
    · rintro ⟨c, hc, n, hn', hr⟩
      rw [hn c hc] at hn'
      obtain ⟨m, hm, rfl⟩ := List.mem_map.mp hn'
      exact ⟨c, hc, m, hm, hr⟩
  refine ⟨out, out', _, _, h1, h1', h2, h2', by simp [hL], ?_⟩
  intro r fields fields' hf1 hf2
  rw [List.getElem?_map] at hf1 hf2
  obtain ⟨r1, hr1, rfl⟩ := Option.map_eq_some_iff.mp hf1
  obtain ⟨r2, hr2, rfl⟩ := Option.map_eq_some_iff.mp hf2
  have hrL : r < L := by
    have := (List.getElem?_eq_some_iff.mp hr1).1
    simpa using this
  rw [List.getElem?_range hrL] at hr1
  rw [List.getElem?_range (by omega)] at hr2
  cases hr1
  cases hr2
  obtain ⟨⟨c, hc, n, hn1, hn2, hn3⟩, hmin⟩ := nextSample_spec (run h).keyPressesOf t r ((h3 r).mp hrL)
  have hnext : nextSample (run (h.map (raised k))).keyPressesOf t r
      = nextSample (run h).keyPressesOf t r := by
    apply nextSample_eq
    · exact ⟨c, hc, Spec.Note.raised k n, by rw [hn c hc]; exact List.mem_map_of_mem hn1, hn2, hn3⟩
    · intro c' hc' n' hn' hr'
      rw [hn c' hc'] at hn'
      obtain ⟨m, hm, rfl⟩ := List.mem_map.mp hn'
      exact hmin c' hc' m hm hr'
  constructor
  · unfold rowFields
    rw [hnext]
    rfl
  · intro c hc
    have hcell : ∀ (P : Nat → List Note), (rowFields P t r)[5 + c]? = some (cellText (P c) t r) := by
      intro P
      unfold rowFields
      rw [List.getElem?_append_right (by simp)]
      simp [List.getElem?_range hc]
    refine ⟨_, _, hcell _, hcell _, ?_⟩
    have hon : (onRow ((run (h.map (raised k))).keyPressesOf c) t r).getLast?
        = (onRow ((run h).keyPressesOf c) t r).getLast?.map (Spec.Note.raised k) := by
      unfold onRow
      rw [hn c hc, List.filter_map, List.getLast?_map]
      rfl
    unfold cellText
    rw [hon]
    cases hl : (onRow ((run h).keyPressesOf c) t r).getLast? with
    | none => exact .inl ⟨rfl, .inl rfl⟩
    | some n =>
      have hnm := (List.mem_filter.mp (List.mem_of_getLast? hl)).1
      obtain ⟨_, q2, q3, q4, q5⟩ := (c25_ranges h hb).2.2.2 c hc n hnm
      have hup : Spec.Note.raised k n ∈ (run (h.map (raised k))).keyPressesOf c := by
        rw [hn c hc]; exact List.mem_map_of_mem hnm
      obtain ⟨p1, _⟩ := (c25_ranges _ hb').2.2.2 c hc _ hup
      have p1 : n.octave + k ≤ 7 := p1
      simp only [Option.map_some, Option.getD_some]
      by_cases hid : n.configId < 0
      · have e1 : n.str = .ok "Key Off".toList := by unfold Note.str; rw [if_pos hid]; rfl
        have e2 : (Spec.Note.raised k n).str = .ok "Key Off".toList := by
          unfold Note.str; rw [if_pos (show (Spec.Note.raised k n).configId < 0 from hid)]; rfl
        refine .inl ⟨?_, .inr ?_⟩
        · unfold noteText; rw [e1, e2]
        · unfold noteText; rw [e1]; rfl
      · obtain ⟨l, a, f1, _, f2⟩ := str_on n (by omega) (by omega)
        obtain ⟨l', a', f1', _, f2'⟩ := str_on (Spec.Note.raised k n)
          (show 0 ≤ n.configId by omega) (show n.note ≤ 15 by omega)
        have hla : noteLookup n.note = .ok [l', a'] := f1'
        rw [f1] at hla
        cases hla
        obtain ⟨x, x1, x2⟩ := natStr_octave n.octave (by omega)
        obtain ⟨x', x1', x2'⟩ := natStr_octave (n.octave + k) p1
        refine .inr ⟨[l, a, '-'],
          kfText n.keyFraction ++ (' ' :: '[' :: (natStr n.configId.toNat ++
            (']' :: ' ' :: panText n.right n.left))), x, x', n.octave, rfl, ?_, ?_, x2, x2'⟩
        · unfold noteText
          rw [f2, x1]
          rfl
        · unfold noteText
          rw [f2']
          show l :: a :: '-' :: (natStr (n.octave + k) ++ _) = _
          rw [x1']
          rfl

/-! The sample meets the hypotheses: it can be slowed down seven times, raised by three octaves
(see Props/Relate), and has three rows at 50 samples per row, one at 100. -/

example : ByteHistory sample ∧ 7 * time sample < 2 ^ 1023 ∧
    (extractTracks (run sample) 50).map (fun x => x.1.length) = some 4 ∧
    (extractTracks (run (sample.map (slowed 7))) 350).map (fun x => (x.1.drop 1).map (·.take 9)) =
      some ["700,0,0,0".toList, "700,1,0,1".toList, "1050,2,0,".toList] ∧
    (extractTracks (run sample) 100).map (fun x => x.1.length) = some 2 ∧
    (extractTracks (run (sample.take 7)) 50).map (fun x => x.1.length) = some 3 := by
  refine ⟨sample_byte, by decide +kernel, by decide +kernel, by decide +kernel, by decide +kernel,
    by decide +kernel⟩

end VgmX
