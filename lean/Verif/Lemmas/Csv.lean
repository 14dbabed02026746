import Verif.Model.Csv
import Verif.Spec.Song
import Verif.Spec.Csv
import Mathlib.Tactic.Linarith
/-
The merge loop of the CSV export.
-/

namespace VgmX
open Spec

/-! ### Minimum -/

theorem minOf_none (l : List Nat) : minOf l = none ↔ l = [] := by
  cases l with
  | nil => simp [minOf]
  | cons a l => simp only [minOf]; split <;> simp

theorem minOf_some {l : List Nat} {m : Nat} (h : minOf l = some m) :
    m ∈ l ∧ ∀ x ∈ l, m ≤ x := by
  induction l generalizing m with
  | nil => simp [minOf] at h
  | cons a l ih =>
    simp only [minOf] at h
    cases hl : minOf l with
    | none =>
      rw [hl] at h
      have : l = [] := (minOf_none l).mp hl
      subst this
      simp at h
      simp [h]
    | some b =>
      rw [hl] at h
      simp only [Option.some.injEq] at h
      obtain ⟨h1, h2⟩ := ih hl
      split at h
      · subst h
        refine ⟨by simp [h1], ?_⟩
        intro x hx
        rcases List.mem_cons.mp hx with rfl | hx
        · omega
        · exact h2 x hx
      · subst h
        refine ⟨by simp, ?_⟩
        intro x hx
        rcases List.mem_cons.mp hx with rfl | hx
        · omega
        · have := h2 x hx; omega

theorem minOf_eq {l : List Nat} {m : Nat} (h1 : m ∈ l) (h2 : ∀ x ∈ l, m ≤ x) :
    minOf l = some m := by
  cases hl : minOf l with
  | none => rw [(minOf_none l).mp hl] at h1; simp at h1
  | some b =>
    obtain ⟨h3, h4⟩ := minOf_some hl
    have := h2 b h3
    have := h4 m h1
    congr 1; omega

/-! ### One pass over the channels -/

/-- A channel's pending notes after a pass. -/
def popRow (ticks row : Int) (l : List Note) : List Note :=
  match l with
  | [] => []
  | n :: rest => if Int.fdiv n.sample ticks = row then rest else n :: rest

/-- The text of a note. -/
def noteText (n : Note) : Str := n.str.toOption.getD []

/-- A channel's cell after a pass. -/
def popCell (ticks row : Int) (l : List Note) (cell : Str) : Str :=
  match l with
  | [] => cell
  | n :: _ => if Int.fdiv n.sample ticks = row then noteText n else cell

theorem take_nil : Slot.take [] = ⟨none, []⟩ := rfl

theorem take_cons (n : Note) (l : List Note) : Slot.take (n :: l) = ⟨some n, l⟩ := rfl

theorem takeRow_ok (ticks row : Int) (pend : Nat → List Note) (cell : Nat → Str) (cs : List Nat)
    (hs : ∀ c ∈ cs, ∀ n ∈ pend c, ∃ s, n.str = .ok s) :
    takeRow ticks row (cs.map (fun c => Slot.take (pend c))) (cs.map cell) =
      .ok (cs.map (fun c => Slot.take (popRow ticks row (pend c))),
        cs.map (fun c => popCell ticks row (pend c) (cell c))) := by
  induction cs with
  | nil => rfl
  | cons c cs ih =>
    have ih := ih (fun c' hc' => hs c' (by simp [hc']))
    simp only [List.map_cons, takeRow, ih]
    cases hp : pend c with
    | nil => simp [Slot.take, popRow, popCell]
    | cons n rest =>
      obtain ⟨s, hn⟩ := hs c (by simp) n (by rw [hp]; simp)
      simp only [Slot.take, popRow, popCell]
      by_cases hr : Int.fdiv n.sample ticks = row
      · simp only [if_pos hr, hn]
        simp [noteText, hn, Except.toOption]
      · simp only [if_neg hr]

/-- A pass changes the slots the same way even when a later note has no text. -/
theorem takeRow_slots (ticks row : Int) (pend : Nat → List Note) (cs : List Nat)
    (cells : List Str) (hl : cells.length = cs.length) (slots' : List Slot) (cells' : List Str)
    (h : takeRow ticks row (cs.map (fun c => Slot.take (pend c))) cells = .ok (slots', cells')) :
    slots' = cs.map (fun c => Slot.take (popRow ticks row (pend c))) ∧
      cells'.length = cs.length := by
  induction cs generalizing cells slots' cells' with
  | nil =>
    cases cells with
    | nil => simp [takeRow] at h; simp [← h.1, ← h.2]
    | cons a l => simp at hl
  | cons c cs ih =>
    cases cells with
    | nil => simp at hl
    | cons cell cells =>
      simp only [List.length_cons, Nat.add_right_cancel_iff] at hl
      simp only [List.map_cons, takeRow] at h
      cases hp : pend c with
      | nil =>
        rw [hp] at h
        simp only [take_nil] at h
        cases ht : takeRow ticks row (cs.map (fun c => Slot.take (pend c))) cells with
        | error e => rw [ht] at h; simp at h
        | ok x =>
          obtain ⟨s', c'⟩ := x
          rw [ht] at h
          simp only [Except.ok.injEq, Prod.mk.injEq] at h
          obtain ⟨h1, h2⟩ := ih cells hl s' c' ht
          obtain ⟨rfl, rfl⟩ := h
          exact ⟨by simp [h1, hp, popRow, Slot.take], by simp [h2]⟩
      | cons n rest =>
        rw [hp] at h
        simp only [take_cons] at h
        by_cases hr : Int.fdiv n.sample ticks = row
        · rw [if_pos hr] at h
          cases hn : n.str with
          | error e => rw [hn] at h; simp at h
          | ok text =>
            rw [hn] at h
            cases ht : takeRow ticks row (cs.map (fun c => Slot.take (pend c))) cells with
            | error e => simp only [ht] at h; simp at h
            | ok x =>
              obtain ⟨s', c'⟩ := x
              simp only [ht, Except.ok.injEq, Prod.mk.injEq] at h
              obtain ⟨h1, h2⟩ := ih cells hl s' c' ht
              obtain ⟨rfl, rfl⟩ := h
              exact ⟨by simp [h1, hp, popRow, hr], by simp [h2]⟩
        · rw [if_neg hr] at h
          cases ht : takeRow ticks row (cs.map (fun c => Slot.take (pend c))) cells with
          | error e => rw [ht] at h; simp at h
          | ok x =>
            obtain ⟨s', c'⟩ := x
            rw [ht] at h
            simp only [Except.ok.injEq, Prod.mk.injEq] at h
            obtain ⟨h1, h2⟩ := ih cells hl s' c' ht
            obtain ⟨rfl, rfl⟩ := h
            exact ⟨by simp [h1, hp, popRow, hr, Slot.take], by simp [h2]⟩

/-- How many notes are pending. -/
def pendCount (pend : Nat → List Note) : Nat :=
  ((List.range 8).map (fun c => (pend c).length)).sum

theorem pendCount_eq (pend : Nat → List Note) : pendCount pend =
    (pend 0).length + (pend 1).length + (pend 2).length + (pend 3).length + (pend 4).length +
    (pend 5).length + (pend 6).length + (pend 7).length := by
  simp [pendCount, List.range_succ]; omega

theorem pendCount_pop (ticks row : Int) (pend : Nat → List Note) (c : Nat) (hc : c < 8) (n : Note)
    (rest : List Note) (hp : pend c = n :: rest) (hr : Int.fdiv n.sample ticks = row) :
    pendCount (fun c => popRow ticks row (pend c)) < pendCount pend := by
  have hle : ∀ c, (popRow ticks row (pend c)).length ≤ (pend c).length := by
    intro c
    unfold popRow
    cases pend c with
    | nil => simp
    | cons a l => simp only; split <;> simp
  have hlt : (popRow ticks row (pend c)).length < (pend c).length := by
    rw [hp]; simp [popRow, hr]
  rw [pendCount_eq, pendCount_eq]
  have := hle 0; have := hle 1; have := hle 2; have := hle 3
  have := hle 4; have := hle 5; have := hle 6; have := hle 7
  have hc8 : c = 0 ∨ c = 1 ∨ c = 2 ∨ c = 3 ∨ c = 4 ∨ c = 5 ∨ c = 6 ∨ c = 7 := by omega
  rcases hc8 with rfl | rfl | rfl | rfl | rfl | rfl | rfl | rfl <;> omega

/-- The samples of the current notes. -/
theorem currents (pend : Nat → List Note) (m : Nat) :
    m ∈ ((List.range 8).map (fun c => Slot.take (pend c))).filterMap
      (fun s => s.cur.map (·.sample)) ↔
    ∃ c < 8, ∃ n rest, pend c = n :: rest ∧ n.sample = m := by
  simp only [List.mem_filterMap, List.mem_map, List.mem_range]
  constructor
  · rintro ⟨s, ⟨c, hc, rfl⟩, h⟩
    cases hp : pend c with
    | nil => rw [hp] at h; simp [Slot.take] at h
    | cons n rest =>
      rw [hp] at h
      simp [Slot.take] at h
      exact ⟨c, hc, n, rest, hp, h⟩
  · rintro ⟨c, hc, n, rest, hp, rfl⟩
    exact ⟨_, ⟨c, hc, rfl⟩, by rw [hp]; rfl⟩

/-- The loop ends, whatever the notes and the ticks-per-note. -/
theorem csvLoop_total (ticks : Int) (fuel : Nat) (pend : Nat → List Note) (R : Int)
    (noteRow : List Str) (out : List Str) (hl : noteRow.length = 8) (hf : pendCount pend < fuel) :
    csvLoop ticks fuel ((List.range 8).map (fun c => Slot.take (pend c))) R noteRow out ≠ none := by
  induction fuel generalizing pend R noteRow out with
  | zero => omega
  | succ fuel ih =>
    unfold csvLoop
    cases hm : minOf (((List.range 8).map (fun c => Slot.take (pend c))).filterMap
        (fun s => s.cur.map (·.sample))) with
    | none => simp
    | some m =>
      obtain ⟨h1, _⟩ := minOf_some hm
      obtain ⟨c, hc, n, rest, hp, hn⟩ := (currents pend m).mp h1
      simp only
      have hlt := pendCount_pop ticks (Int.fdiv m ticks) pend c hc n rest hp (by rw [hn])
      split
      · simp
      · split
        · split
          · simp
          · split
            · simp
            · rename_i slots' cells' ht
              obtain ⟨e1, e2⟩ := takeRow_slots _ _ _ _ _ (by simp [blankRow]) _ _ ht
              subst e1
              exact ih _ _ _ _ (by simpa using e2) (by omega)
        · split
          · simp
          · rename_i slots' cells' ht
            obtain ⟨e1, e2⟩ := takeRow_slots _ _ _ _ _ (by simp [hl]) _ _ ht
            subst e1
            exact ih _ _ _ _ (by simpa using e2) (by omega)

/-! ### The table written -/

/-- The sample of the first event after row `r`. -/
def nextSample (P : Nat → List Note) (t r : Nat) : Nat :=
  (minOf (((List.range 8).flatMap P).filterMap
    (fun n => if r < n.sample / t then some n.sample else none))).getD 0

theorem nextSample_eq (P : Nat → List Note) (t r m : Nat)
    (h1 : ∃ c < 8, ∃ n ∈ P c, n.sample = m ∧ r < n.sample / t)
    (h2 : ∀ c < 8, ∀ n ∈ P c, r < n.sample / t → m ≤ n.sample) : nextSample P t r = m := by
  unfold nextSample
  rw [minOf_eq (m := m)]
  · rfl
  · obtain ⟨c, hc, n, hn, rfl, hr⟩ := h1
    rw [List.mem_filterMap]
    refine ⟨n, List.mem_flatMap.mpr ⟨c, List.mem_range.mpr hc, hn⟩, by simp [hr]⟩
  · intro x hx
    rw [List.mem_filterMap] at hx
    obtain ⟨n, hn, hx⟩ := hx
    obtain ⟨c, hc, hn⟩ := List.mem_flatMap.mp hn
    split at hx
    · rename_i hr
      cases hx
      exact h2 c (List.mem_range.mp hc) n hn hr
    · cases hx

/-- A cell of the table. -/
def cellText (l : List Note) (t r : Nat) : Str :=
  ((onRow l t r).getLast?.map noteText).getD []

/-- The line of row `r`. -/
def lineFor (P : Nat → List Note) (t r : Nat) : Str :=
  csvLine (nextSample P t r) r ((fractionText (nextSample P t r) t).toOption.getD [])
    ((List.range 8).map (fun c => cellText (P c) t r))

/-- The invariant of the merge. -/
structure CsvInv (P pend : Nat → List Note) (t R : Nat) (cell : Nat → Str) (out : List Str) :
    Prop where
  split : ∀ c < 8, ∃ done, P c = done ++ pend c ∧ (∀ n ∈ done, n.sample / t ≤ R) ∧
    (∀ n ∈ pend c, R ≤ n.sample / t) ∧ cell c = cellText done t R
  reach : R = 0 ∨ ∃ c < 8, ∃ n ∈ P c, n.sample / t = R
  out : out = csvHeader :: (List.range R).map (lineFor P t)

theorem fdiv_nat (a b : Nat) : Int.fdiv (a : Int) (b : Int) = ((a / b : Nat) : Int) := by
  rw [Int.fdiv_eq_ediv_of_nonneg _ (by omega)]; push_cast; rfl

theorem onRow_none {l : List Note} {t r : Nat} (h : ∀ n ∈ l, n.sample / t ≠ r) :
    onRow l t r = [] := by
  unfold onRow
  rw [List.filter_eq_nil_iff]
  intro n hn; simpa using h n hn

theorem onRow_append (l m : List Note) (t r : Nat) :
    onRow (l ++ m) t r = onRow l t r ++ onRow m t r := by
  unfold onRow; rw [List.filter_append]

theorem cellText_none {l : List Note} {t r : Nat} (h : ∀ n ∈ l, n.sample / t ≠ r) :
    cellText l t r = [] := by
  unfold cellText; rw [onRow_none h]; rfl

/-- One pass keeps the split of every channel, from a state where row `R` is current and no
pending note is before it. -/
theorem pass_split (P pend : Nat → List Note) (t R : Nat) (cell : Nat → Str)
    (h : ∀ c < 8, ∃ done, P c = done ++ pend c ∧ (∀ n ∈ done, n.sample / t ≤ R) ∧
      (∀ n ∈ pend c, R ≤ n.sample / t) ∧ cell c = cellText done t R) :
    ∀ c < 8, ∃ done, P c = done ++ popRow t R (pend c) ∧ (∀ n ∈ done, n.sample / t ≤ R) ∧
      (∀ n ∈ popRow t R (pend c), R ≤ n.sample / t) ∧
      popCell t R (pend c) (cell c) = cellText done t R := by
  intro c hc
  obtain ⟨done, h1, h2, h3, h4⟩ := h c hc
  cases hp : pend c with
  | nil =>
    refine ⟨done, ?_, h2, by simp [popRow], ?_⟩
    · rw [h1, hp]; rfl
    · simpa [popCell] using h4
  | cons n rest =>
    simp only [popRow, popCell, fdiv_nat]
    by_cases hr : n.sample / t = R
    · have hri : ((n.sample / t : Nat) : Int) = (R : Int) := by rw [hr]
      simp only [if_pos hri]
      refine ⟨done ++ [n], ?_, ?_, ?_, ?_⟩
      · rw [h1, hp]; simp
      · intro m hm
        rcases List.mem_append.mp hm with hm | hm
        · exact h2 m hm
        · simp at hm; subst hm; omega
      · intro m hm; exact h3 m (by rw [hp]; simp [hm])
      · unfold cellText
        rw [onRow_append]
        have : onRow [n] t R = [n] := by simp [onRow, hr]
        rw [this]; simp
    · have hri : ¬ ((n.sample / t : Nat) : Int) = (R : Int) := by
        intro h; exact hr (by exact_mod_cast h)
      simp only [if_neg hri]
      refine ⟨done, ?_, h2, ?_, h4⟩
      · rw [h1, hp]
      · intro m hm; exact h3 m (by rw [hp]; exact hm)

theorem blankRow_eq : blankRow = (List.range 8).map (fun _ => ([] : Str)) := by
  simp [blankRow, List.range_succ]

/-- The table that the loop writes. -/
theorem csvLoop_spec (P : Nat → List Note) (t : Nat) (ht : 0 < t)
    (hsort : ∀ c < 8, (P c).Pairwise (fun a b => a.sample ≤ b.sample))
    (hstr : ∀ c < 8, ∀ n ∈ P c, ∃ s, n.str = .ok s)
    (hfrac : ∀ c < 8, ∀ n ∈ P c, ∃ f, fractionText n.sample t = .ok f)
    (fuel : Nat) (pend : Nat → List Note) (R : Nat) (cell : Nat → Str) (out : List Str)
    (hi : CsvInv P pend t R cell out) (hf : pendCount pend < fuel) :
    ∃ L : Nat, csvLoop t fuel ((List.range 8).map (fun c => Slot.take (pend c))) R
        ((List.range 8).map cell) out = some (csvHeader :: (List.range L).map (lineFor P t), none) ∧
      ∀ r, r < L ↔ ∃ c < 8, ∃ n ∈ P c, r < n.sample / t := by
  induction fuel generalizing pend R cell out with
  | zero => omega
  | succ fuel ih =>
    unfold csvLoop
    cases hm : minOf (((List.range 8).map (fun c => Slot.take (pend c))).filterMap
        (fun s => s.cur.map (·.sample))) with
    | none =>
      refine ⟨R, by simp only [hi.out], ?_⟩
      have hempty : ∀ c < 8, pend c = [] := by
        intro c hc
        cases hp : pend c with
        | nil => rfl
        | cons n rest =>
          have := (currents pend n.sample).mpr ⟨c, hc, n, rest, hp, rfl⟩
          rw [(minOf_none _).mp hm] at this
          simp at this
      intro r
      constructor
      · intro hr
        rcases hi.reach with h0 | ⟨c, hc, n, hn, hR⟩
        · omega
        · exact ⟨c, hc, n, hn, by omega⟩
      · rintro ⟨c, hc, n, hn, hr⟩
        obtain ⟨done, h1, h2, _, _⟩ := hi.split c hc
        rw [hempty c hc, List.append_nil] at h1
        rw [h1] at hn
        have := h2 n hn
        omega
    | some m =>
      obtain ⟨hmem, hmin⟩ := minOf_some hm
      obtain ⟨c₀, hc₀, n₀, rest₀, hp₀, hn₀⟩ := (currents pend m).mp hmem
      have ht0 : ¬ (t : Int) = 0 := by omega
      simp only [if_neg ht0, fdiv_nat]
      have hstr' : ∀ c ∈ List.range 8, ∀ n ∈ pend c, ∃ s, n.str = .ok s := by
        intro c hc n hn
        have hc := List.mem_range.mp hc
        obtain ⟨done, h1, _⟩ := hi.split c hc
        exact hstr c hc n (by rw [h1]; simp [hn])
      have hlt := pendCount_pop t ((m / t : Nat) : Int) pend c₀ hc₀ n₀ rest₀ hp₀
        (by rw [hn₀, fdiv_nat])
      -- every pending note is at `m` or later
      have hpend : ∀ c < 8, ∀ n ∈ pend c, m ≤ n.sample := by
        intro c hc n hn
        cases hp : pend c with
        | nil => rw [hp] at hn; simp at hn
        | cons a l =>
          have ha := hmin a.sample ((currents pend a.sample).mpr ⟨c, hc, a, l, hp, rfl⟩)
          obtain ⟨done, h1, _⟩ := hi.split c hc
          have hs := hsort c hc
          rw [h1, hp, List.pairwise_append] at hs
          have hs := (List.pairwise_cons.mp hs.2.1).1
          rw [hp] at hn
          rcases List.mem_cons.mp hn with rfl | hn
          · exact ha
          · have := hs n hn; omega
      have hn₀P : n₀ ∈ P c₀ := by
        obtain ⟨done, h1, _⟩ := hi.split c₀ hc₀
        rw [h1, hp₀]; simp
      have hRm : R ≤ m / t := by
        obtain ⟨done, _, _, h3, _⟩ := hi.split c₀ hc₀
        have := h3 n₀ (by rw [hp₀]; simp)
        rw [hn₀] at this; exact this
      by_cases hR : ((m / t : Nat) : Int) = (R : Int)
      · rw [if_neg (by simpa using hR)]
        have hR' : m / t = R := by exact_mod_cast hR
        rw [takeRow_ok _ _ _ _ _ hstr']
        simp only
        have hs := pass_split P pend t R cell hi.split
        rw [hR] at hlt ⊢
        exact ih _ R _ out ⟨hs, hi.reach, hi.out⟩ (by omega)
      · rw [if_pos hR]
        have hR' : R < m / t := by
          rcases Nat.lt_or_eq_of_le hRm with h | h
          · exact h
          · exact absurd (by rw [h]) hR
        obtain ⟨f, hf'⟩ := hfrac c₀ hc₀ n₀ hn₀P
        rw [hn₀] at hf'
        rw [hf', blankRow_eq, takeRow_ok _ _ _ _ _ hstr']
        simp only
        -- at the new row
        have hsplit : ∀ c < 8, ∃ done, P c = done ++ pend c ∧
            (∀ n ∈ done, n.sample / t ≤ m / t) ∧
            (∀ n ∈ pend c, m / t ≤ n.sample / t) ∧ ([] : Str) = cellText done t (m / t) := by
          intro c hc
          obtain ⟨done, h1, h2, h3, h4⟩ := hi.split c hc
          refine ⟨done, h1, fun n hn => by have := h2 n hn; omega, ?_, ?_⟩
          · intro n hn
            exact Nat.div_le_div_right (hpend c hc n hn)
          · rw [cellText_none]
            intro n hn
            have := h2 n hn; omega
        have hs := pass_split P pend t (m / t) (fun _ => []) hsplit
        -- the next sample of all rows written now
        have hnext : ∀ r, R ≤ r → r < m / t → nextSample P t r = m := by
          intro r h1 h2
          apply nextSample_eq
          · exact ⟨c₀, hc₀, n₀, hn₀P, hn₀, by rw [hn₀]; exact h2⟩
          · intro c hc n hn hr
            obtain ⟨done, e1, e2, _, _⟩ := hi.split c hc
            rw [e1] at hn
            rcases List.mem_append.mp hn with hn | hn
            · have := e2 n hn; omega
            · exact hpend c hc n hn
        have hfrac' : (fractionText m (t : Int)).toOption.getD [] = f := by
          rw [hf']; rfl
        have hline : csvLine m R f ((List.range 8).map cell) = lineFor P t R := by
          unfold lineFor
          rw [hnext R (le_refl _) hR', hfrac']
          congr 1
          apply List.map_congr_left
          intro c hc
          have hc := List.mem_range.mp hc
          obtain ⟨done, e1, e2, e3, e4⟩ := hi.split c hc
          rw [e4, e1]
          unfold cellText
          rw [onRow_append, onRow_none (l := pend c), List.append_nil]
          intro n hn
          have := Nat.div_le_div_right (c := t) (hpend c hc n hn)
          omega
        have hgap : gapLines m R ((m / t : Nat) : Int) f =
            (List.range (m / t - R - 1)).map (fun i => lineFor P t (R + 1 + i)) := by
          unfold gapLines
          have e : (((m / t : Nat) : Int) - (R : Int) - 1).toNat = m / t - R - 1 := by omega
          rw [e]
          apply List.map_congr_left
          intro i hi'
          have hi' := List.mem_range.mp hi'
          unfold lineFor
          rw [hnext (R + 1 + i) (by omega) (by omega), hfrac', blankRow_eq]
          have e2 : ((R + 1 + i : Nat) : Int) = (R : Int) + 1 + (i : Int) := by push_cast; rfl
          rw [e2]
          congr 1
          apply List.map_congr_left
          intro c hc
          have hc := List.mem_range.mp hc
          rw [cellText_none]
          intro n hn
          obtain ⟨done, e1, e2, e3, e4⟩ := hi.split c hc
          rw [e1] at hn
          rcases List.mem_append.mp hn with hn | hn
          · have := e2 n hn; omega
          · have := Nat.div_le_div_right (c := t) (hpend c hc n hn)
            omega
        have hout : out ++ [csvLine m R f ((List.range 8).map cell)] ++
            gapLines m R ((m / t : Nat) : Int) f =
            csvHeader :: (List.range (m / t)).map (lineFor P t) := by
          rw [hi.out, hline, hgap]
          have e : m / t = R + (1 + (m / t - R - 1)) := by omega
          conv_rhs => rw [e, List.range_add, List.range_add]
          simp [List.map_map, Function.comp_def, Nat.add_assoc]
        rw [hout]
        refine ih _ (m / t) _ _ ⟨hs, Or.inr ⟨c₀, hc₀, n₀, hn₀P, by rw [hn₀]⟩, rfl⟩ (by omega)

/-- What `extract_tracks` writes. -/
theorem extractTracks_spec (s : State) (t : Nat) (ht : 0 < t)
    (hsort : ∀ c < 8, (s.keyPressesOf c).Pairwise (fun a b => a.sample ≤ b.sample))
    (hstr : ∀ c < 8, ∀ n ∈ s.keyPressesOf c, ∃ x, n.str = .ok x)
    (hfrac : ∀ c < 8, ∀ n ∈ s.keyPressesOf c, ∃ f, fractionText n.sample t = .ok f) :
    ∃ L : Nat, extractTracks s t =
        some (csvHeader :: (List.range L).map (lineFor s.keyPressesOf t), none) ∧
      ∀ r, r < L ↔ ∃ c < 8, ∃ n ∈ s.keyPressesOf c, r < n.sample / t := by
  unfold extractTracks
  rw [blankRow_eq]
  refine csvLoop_spec s.keyPressesOf t ht hsort hstr hfrac _ s.keyPressesOf 0 _ _ ⟨?_, Or.inl rfl, rfl⟩
    (by unfold pendCount; omega)
  intro c _
  exact ⟨[], rfl, by simp, by simp, by simp [cellText, onRow]⟩

end VgmX
