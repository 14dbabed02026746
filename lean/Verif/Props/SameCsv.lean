import Verif.Spec.SameCsv
import Verif.Props.CsvRelate
/-
Property C121: exactly when two recordings give the same CSV. Vocabulary: Spec/SameCsv.lean.
-/

namespace VgmX
open Spec

theorem str_off' (n : Note) (h : n.configId < 0) : n.str = .ok "Key Off".toList := by
  unfold Note.str
  rw [if_pos h]
  rfl

/-- The fields that `c25_ranges` bounds. -/
structure NoteFits (n : Note) : Prop where
  octave : n.octave ≤ 7
  note : n.note ≤ 15
  keyFraction : n.keyFraction ≤ 63

theorem readsSame_iff (n n' : Note) (h : NoteFits n) (h' : NoteFits n') :
    noteText n' = noteText n ↔ ReadsSame n n' := by
  have hoff : ∀ m : Note, NoteFits m → 0 ≤ m.configId → noteText m ≠ "Key Off".toList := by
    intro m hm h0 he
    obtain ⟨l, a, _, _, e⟩ := str_on m h0 hm.note
    unfold noteText at he
    rw [e] at he
    simp only [Except.toOption, Option.getD_some] at he
    have := congrArg (fun s : Str => s[2]?) he
    change some '-' = some 'y' at this
    exact absurd this (by decide)
  unfold ReadsSame
  by_cases h0 : 0 ≤ n.configId <;> by_cases h0' : 0 ≤ n'.configId
  · have hs : noteText n' = noteText n ↔ n'.str = n.str := by
      obtain ⟨l, a, _, _, e⟩ := str_on n h0 h.note
      obtain ⟨l', a', _, _, e'⟩ := str_on n' h0' h'.note
      unfold noteText
      rw [e, e']
      simp [Except.toOption]
    rw [hs, c57_csv_text n' n h0' h0 h'.note h.note h'.keyFraction h.keyFraction]
    constructor
    · rintro ⟨h1, h2, h3, h4, h5, h6⟩
      exact .inr ⟨h0, h1, h2, h3, h4, h5, fun hr => h6 (h5.trans hr)⟩
    · rintro (⟨h1, _⟩ | ⟨_, h1, h2, h3, h4, h5, h6⟩)
      · omega
      · exact ⟨h1, h2, h3, h4, h5, fun hr => h6 (h5.symm.trans hr)⟩
  · constructor
    · intro he
      exfalso
      refine hoff n h h0 ?_
      rw [← he]
      unfold noteText
      rw [str_off' n' (by omega)]
      rfl
    · rintro (⟨h1, _⟩ | ⟨_, h1, _⟩) <;> omega
  · constructor
    · intro he
      exfalso
      refine hoff n' h' h0' ?_
      rw [he]
      unfold noteText
      rw [str_off' n (by omega)]
      rfl
    · rintro (⟨_, h1⟩ | ⟨h1, _⟩) <;> omega
  · constructor
    · intro _
      exact .inl ⟨by omega, by omega⟩
    · intro _
      unfold noteText
      rw [str_off' n (by omega), str_off' n' (by omega)]

theorem press_fits (h : List Event) (hb : ByteHistory h) (c : Nat) (hc : c < 8) (n : Note)
    (hn : n ∈ (run h).keyPressesOf c) : NoteFits n := by
  obtain ⟨h1, h2, h3, _⟩ := (c25_ranges h hb).2.2.2 c hc n hn
  exact ⟨h1, h2, h3⟩

theorem noteText_ne (h : List Event) (hb : ByteHistory h) (c : Nat) (hc : c < 8) (n : Note)
    (hn : n ∈ (run h).keyPressesOf c) : noteText n ≠ [] := by
  obtain ⟨_, _, _, x, _, _, _, _, e, _⟩ := c33_off h hb c hc n hn
  obtain ⟨_, q2, q3, q4, _⟩ := (c25_ranges h hb).2.2.2 c hc n hn
  have hne := (clean_note n q2 q3 x e).2
  simpa [noteText, e, Except.toOption] using hne

theorem cellText_iff (h h' : List Event) (hb : ByteHistory h) (hb' : ByteHistory h') (t r c : Nat)
    (hc : c < 8) :
    cellText ((run h').keyPressesOf c) t r = cellText ((run h).keyPressesOf c) t r ↔
      ReadsSame? (onRow ((run h).keyPressesOf c) t r).getLast?
        (onRow ((run h').keyPressesOf c) t r).getLast? := by
  unfold cellText
  cases hl : (onRow ((run h).keyPressesOf c) t r).getLast? with
  | none =>
    cases hl' : (onRow ((run h').keyPressesOf c) t r).getLast? with
    | none => simp [ReadsSame?]
    | some n' =>
      have hn' := (List.mem_filter.mp (List.mem_of_getLast? hl')).1
      have := noteText_ne h' hb' c hc n' hn'
      simp [ReadsSame?, this]
  | some n =>
    have hn := (List.mem_filter.mp (List.mem_of_getLast? hl)).1
    have hne := noteText_ne h hb c hc n hn
    cases hl' : (onRow ((run h').keyPressesOf c) t r).getLast? with
    | none => simp [ReadsSame?, Ne.symm hne]
    | some n' =>
      have hn' := (List.mem_filter.mp (List.mem_of_getLast? hl')).1
      simp only [Option.map_some, Option.getD_some, ReadsSame?]
      exact readsSame_iff n n' (press_fits h hb c hc n hn) (press_fits h' hb' c hc n' hn')

/-- The next time is what `nextSample` gives. -/
theorem nextAt_iff (P : Nat → List Note) (t r m : Nat) : NextAt P t r m ↔
    (∃ c < 8, ∃ n ∈ P c, r < n.sample / t) ∧ nextSample P t r = m := by
  have hmem : ∀ x, x ∈ (((List.range 8).flatMap P).filterMap
      (fun n => if r < n.sample / t then some n.sample else none)) ↔
      ∃ c < 8, ∃ n ∈ P c, n.sample = x ∧ r < n.sample / t := by
    intro x
    rw [List.mem_filterMap]
    constructor
    · rintro ⟨n, hn, hx⟩
      obtain ⟨c, hc, hn⟩ := List.mem_flatMap.mp hn
      split at hx
      · rename_i hr
        cases hx
        exact ⟨c, List.mem_range.mp hc, n, hn, rfl, hr⟩
      · cases hx
    · rintro ⟨c, hc, n, hn, rfl, hr⟩
      exact ⟨n, List.mem_flatMap.mpr ⟨c, List.mem_range.mpr hc, hn⟩, by simp [hr]⟩
  unfold nextSample
  cases hm : minOf (((List.range 8).flatMap P).filterMap
      (fun n => if r < n.sample / t then some n.sample else none)) with
  | none =>
    have h0 := (minOf_none _).mp hm
    have hno : ¬ ∃ c < 8, ∃ n ∈ P c, r < n.sample / t := by
      rintro ⟨c, hc, n, hn, hr⟩
      have := (hmem n.sample).mpr ⟨c, hc, n, hn, rfl, hr⟩
      rw [h0] at this
      cases this
    constructor
    · rintro ⟨⟨c, hc, n, hn, _, hr⟩, _⟩
      exact absurd ⟨c, hc, n, hn, hr⟩ hno
    · rintro ⟨h, _⟩
      exact absurd h hno
  | some k =>
    obtain ⟨e1, e2⟩ := minOf_some hm
    obtain ⟨c, hc, n, hn, hk, hr⟩ := (hmem k).mp e1
    have e2' : ∀ c < 8, ∀ n ∈ P c, r < n.sample / t → k ≤ n.sample := fun c hc n hn hr =>
      e2 _ ((hmem n.sample).mpr ⟨c, hc, n, hn, rfl, hr⟩)
    simp only [Option.getD_some]
    constructor
    · rintro ⟨⟨c', hc', n', hn', hm', hr'⟩, h2⟩
      refine ⟨⟨c, hc, n, hn, hr⟩, ?_⟩
      have a := h2 c hc n hn hr
      have b := e2' c' hc' n' hn' hr'
      omega
    · rintro ⟨_, rfl⟩
      exact ⟨⟨c, hc, n, hn, hk, hr⟩, e2'⟩

theorem nextAt_exists (P : Nat → List Note) (t r : Nat) : (∃ m, NextAt P t r m) ↔
    ∃ c < 8, ∃ n ∈ P c, r < n.sample / t := by
  constructor
  · rintro ⟨m, h⟩
    exact ((nextAt_iff P t r m).mp h).1
  · intro h
    exact ⟨_, (nextAt_iff P t r _).mpr ⟨h, rfl⟩⟩

theorem lt_congr {L L' : Nat} (h : ∀ r, r < L ↔ r < L') : L = L' := by
  have h1 := h L
  have h2 := h L'
  omega

theorem natStr_inj' {a b : Nat} (h : natStr a = natStr b) : a = b := by
  have := congrArg (readBase 10) h
  rw [readBase_natStr, readBase_natStr] at this
  exact Option.some.inj this

/-- C121. For every positive ticks-per-note, the CSV texts of two recordings are the same if and
only if the notes read the same row by row. (Times of 2^1023 and more overflow a float.) -/
theorem c121_csv (h h' : List Event) (hb : ByteHistory h) (hb' : ByteHistory h') (t : Nat)
    (ht : 0 < t) (hT : time h < 2 ^ 1023) (hT' : time h' < 2 ^ 1023) :
    ∃ out out', extractTracks (run h) t = some (out, none) ∧
      extractTracks (run h') t = some (out', none) ∧
      (out'.flatten = out.flatten ↔ SameRows (run h).keyPressesOf (run h').keyPressesOf t) := by
  obtain ⟨out, L, h1, h2, h3⟩ := csv_table h hb t ht hT
  obtain ⟨out', L', h1', h2', h3'⟩ := csv_table h' hb' t ht hT'
  obtain ⟨M, g1, g2⟩ := csv_lines h hb t ht hT
  obtain ⟨M', g1', g2'⟩ := csv_lines h' hb' t ht hT'
  refine ⟨out, out', h1, h1', ?_, ?_⟩
  · intro he
    rw [he, h2] at h2'
    have hl := (List.cons.inj (Option.some.inj h2')).2
    have hL : L = L' := by
      have := congrArg List.length hl
      simpa using this
    subst hL
    have hrow : ∀ r < L, rowFields (run h).keyPressesOf t r = rowFields (run h').keyPressesOf t r := by
      intro r hr
      have := congrArg (fun l => l[r]?) hl
      simpa [List.getElem?_map, List.getElem?_range hr] using this
    have hnext : ∀ r < L, nextSample (run h).keyPressesOf t r = nextSample (run h').keyPressesOf t r := by
      intro r hr
      have := congrArg (fun l => l[0]?) (hrow r hr)
      simp only [rowFields, List.cons_append, List.getElem?_cons_zero, Option.some.injEq] at this
      exact natStr_inj' this
    refine ⟨?_, ?_⟩
    · intro r m
      rw [nextAt_iff, nextAt_iff, ← h3, ← h3']
      constructor
      · rintro ⟨hr, e⟩; exact ⟨hr, (hnext r hr).symm.trans e⟩
      · rintro ⟨hr, e⟩; exact ⟨hr, (hnext r hr).trans e⟩
    · intro r hr c hc
      rw [nextAt_exists, ← h3] at hr
      rw [← cellText_iff h h' hb hb' t r c hc]
      have := congrArg (fun l => l[5 + c]?) (hrow r hr)
      simp only [rowFields] at this
      rw [List.getElem?_append_right (by simp), List.getElem?_append_right (by simp)] at this
      simpa [List.getElem?_range hc] using this.symm
  · rintro ⟨s1, s2⟩
    rw [h1] at g1
    rw [h1'] at g1'
    simp only [Option.some.injEq, Prod.mk.injEq, and_true] at g1 g1'
    have hM : M = M' := by
      apply lt_congr
      intro r
      rw [g2, g2', ← nextAt_exists, ← nextAt_exists]
      exact exists_congr (fun m => s1 r m)
    subst hM
    rw [g1, g1']
    congr 2
    apply List.map_congr_left
    intro r hr
    have hr := List.mem_range.mp hr
    have hex := (nextAt_exists _ _ _).mpr ((g2 r).mp hr)
    have hn : nextSample (run h').keyPressesOf t r = nextSample (run h).keyPressesOf t r := by
      obtain ⟨m, hm⟩ := hex
      rw [((nextAt_iff _ _ _ _).mp hm).2, ((nextAt_iff _ _ _ _).mp ((s1 r m).mp hm)).2]
    unfold lineFor
    rw [hn]
    congr 1
    apply List.map_congr_left
    intro c hc
    exact (cellText_iff h h' hb hb' t r c (List.mem_range.mp hc)).mpr (s2 r hex c (List.mem_range.mp hc))

/-- A recording, the same with another key fraction (1 for 0) and a time that no row shows, and one
an octave higher. -/
def csvOne : List Event :=
  [.write 0x29 0x4A, .wait 100, .write 0x08 0x19, .wait 5, .write 0x08 0x09, .wait 50, .write 0x08 0x01]
def csvTwo : List Event :=
  [.write 0x29 0x4A, .write 0x31 4, .wait 100, .write 0x08 0x19, .wait 7, .write 0x08 0x09, .wait 48,
    .write 0x08 0x01]
def csvThree : List Event :=
  [.write 0x29 0x5A, .wait 100, .write 0x08 0x19, .wait 5, .write 0x08 0x09, .wait 50, .write 0x08 0x01]

theorem csv_examples :
    SameRows (run csvOne).keyPressesOf (run csvTwo).keyPressesOf 10 ∧
    ¬ SameRows (run csvOne).keyPressesOf (run csvThree).keyPressesOf 10 := by
  have b1 : ByteHistory csvOne := by decide
  have b2 : ByteHistory csvTwo := by decide
  have b3 : ByteHistory csvThree := by decide
  have t1 : time csvOne < 2 ^ 1023 := lt_of_lt_of_le (by decide : time csvOne < 2 ^ 10)
    (Nat.pow_le_pow_right (by decide) (by decide))
  have t2 : time csvTwo < 2 ^ 1023 := lt_of_lt_of_le (by decide : time csvTwo < 2 ^ 10)
    (Nat.pow_le_pow_right (by decide) (by decide))
  have t3 : time csvThree < 2 ^ 1023 := lt_of_lt_of_le (by decide : time csvThree < 2 ^ 10)
    (Nat.pow_le_pow_right (by decide) (by decide))
  have same : (extractTracks (run csvOne) 10).map (·.1.flatten)
      = (extractTracks (run csvTwo) 10).map (·.1.flatten) := by decide +kernel
  have other : (extractTracks (run csvOne) 10).map (·.1.flatten)
      ≠ (extractTracks (run csvThree) 10).map (·.1.flatten) := by decide +kernel
  constructor
  · obtain ⟨o, o', e, e', h⟩ := c121_csv _ _ b1 b2 10 (by decide) t1 t2
    apply h.mp
    rw [show ((10 : Nat) : Int) = 10 from rfl] at e e'
    rw [e, e'] at same
    exact (Option.some.inj same).symm
  · obtain ⟨o, o', e, e', h⟩ := c121_csv _ _ b1 b3 10 (by decide) t1 t3
    intro hs
    apply other
    rw [show ((10 : Nat) : Int) = 10 from rfl] at e e'
    rw [e, e']
    exact congrArg some (h.mpr hs).symm

end VgmX
