import Verif.Spec.WatchExport
import Verif.Props.Watch
import Verif.Props.CsvFile
import Verif.Props.Xrns
import Verif.Props.Json
/-
Property C126: exporting a state while another thread feeds it.
-/

namespace VgmX
open Spec

/-! ### A loop over a growing list -/

theorem liveFor_cut {α : Type} (read : Nat → List α) (hgrow : ∀ i j, i ≤ j → read i <+: read j)
    (B : Nat) (hB : ∀ i, (read i).length ≤ B) (fuel k i : Nat) (hf : B < k + fuel)
    (hk : k ≤ (read i).length) :
    ∃ m, i ≤ m ∧ (liveFor read fuel k i).1 = (read m).drop k ∧
      (liveFor read fuel k i).2 = m + 1 := by
  induction fuel generalizing k i with
  | zero => have := hB i; omega
  | succ fuel ih =>
    unfold liveFor
    cases hx : (read i)[k]? with
    | none =>
      rw [List.getElem?_eq_none_iff] at hx
      exact ⟨i, Nat.le_refl _, (List.drop_eq_nil_of_le hx).symm, rfl⟩
    | some a =>
      obtain ⟨hlt, he⟩ := List.getElem?_eq_some_iff.mp hx
      have hle := (hgrow i (i + 1) (Nat.le_succ i)).length_le
      obtain ⟨m, h1, h2, h3⟩ := ih (k + 1) (i + 1) (by omega) (by omega)
      refine ⟨m, by omega, ?_, h3⟩
      have hpre := hgrow i m (by omega)
      have hm : (read m)[k]? = some a := by
        have := List.prefix_iff_getElem?.mp hpre k hlt
        rw [this, he]
      obtain ⟨hlt', he'⟩ := List.getElem?_eq_some_iff.mp hm
      rw [List.drop_eq_getElem_cons hlt', he']
      show a :: (liveFor read fuel (k + 1) (i + 1)).1 = _
      rw [h2]

/-! ### The table -/

/-- More rounds than needed make no difference. -/
theorem csvLoop_fuel {ticks : Int} {f : Nat} {slots : List Slot} {R : Int} {row out : List Str}
    {r : List Str × Option PyErr} (h : csvLoop ticks f slots R row out = some r) {g : Nat} (hg : f ≤ g) :
    csvLoop ticks g slots R row out = some r := by
  induction f generalizing slots R row out g with
  | zero => cases h
  | succ f ih =>
    obtain ⟨g, rfl⟩ : ∃ g', g = g' + 1 := ⟨g - 1, by omega⟩
    rw [csvLoop] at h ⊢
    split at h
    · exact h
    · split at h
      · next h0 => rw [if_pos h0]; exact h
      · next h0 =>
        rw [if_neg h0]
        simp only at h ⊢
        split at h
        · next h1 =>
          rw [if_pos h1]
          split at h
          · exact h
          · split at h
            · exact h
            · exact ih h (by omega)
        · next h1 =>
          rw [if_neg h1]
          split at h
          · exact h
          · exact ih h (by omega)

/-- The slot, when the list of the channel is cut off to `c`. -/
def LiveSlot.cutTo (s : LiveSlot) (c : List Note) : Slot :=
  match s.cur with
  | none => ⟨none, []⟩
  | some n => ⟨some n, c.drop s.pos⟩

/-- The slots, when the lists of the channels are cut off so. -/
def cutSlots : List LiveSlot → List (List Note) → List Slot
  | s :: ss, c :: cs => s.cutTo c :: cutSlots ss cs
  | _, _ => []

/-- These lists can still become what the loop sees of the channels from `ch` on, from look `i - 1` on
and before look `J`. -/
def FitsLive (look : Nat → State) (i J : Nat) : Nat → List LiveSlot → List (List Note) → Prop
  | ch, s :: ss, c :: cs =>
    (s.cur ≠ none → ∃ m, i ≤ m + 1 ∧ m < J ∧ c = (look m).keyPressesOf ch) ∧ FitsLive look i J (ch + 1) ss cs
  | _, [], [] => True
  | _, _, _ => False

/-- No iterator is behind the end of its list, at look `i - 1`. -/
def WithinLive (look : Nat → State) (i : Nat) : Nat → List LiveSlot → Prop
  | ch, s :: ss => (s.cur ≠ none → s.pos ≤ ((look (i - 1)).keyPressesOf ch).length) ∧ WithinLive look i (ch + 1) ss
  | _, [] => True

/-- Lists of notes only grow. -/
def NotesGrow (look : Nat → State) : Prop :=
  ∀ i j, i ≤ j → ∀ ch, (look i).keyPressesOf ch <+: (look j).keyPressesOf ch

theorem WithinLive.mono {look : Nat → State} (hg : NotesGrow look) {i j : Nat} (hij : i ≤ j) :
    ∀ {ch : Nat} {ss : List LiveSlot}, WithinLive look i ch ss → WithinLive look j ch ss
  | _, [], _ => trivial
  | ch, _ :: _, h => ⟨fun hc => Nat.le_trans (h.1 hc) (hg (i - 1) (j - 1) (by omega) ch).length_le, h.2.mono hg hij⟩

theorem FitsLive.mono {look : Nat → State} {i j J : Nat} (hij : i ≤ j) :
    ∀ {ch : Nat} {ss : List LiveSlot} {cs : List (List Note)}, FitsLive look j J ch ss cs → FitsLive look i J ch ss cs
  | _, [], [], _ => trivial
  | _, _ :: _, _ :: _, h =>
    ⟨fun hc => (h.1 hc).imp fun _ hm => ⟨Nat.le_trans hij hm.1, hm.2⟩, FitsLive.mono hij h.2⟩

theorem fits_length {look : Nat → State} {i J : Nat} : ∀ {ch : Nat} {ss : List LiveSlot}
    {cs : List (List Note)}, FitsLive look i J ch ss cs → cs.length = ss.length
  | _, [], [], _ => rfl
  | _, _ :: _, _ :: _, h => by simp [fits_length h.2]

theorem fits_now (look : Nat → State) (i : Nat) (hi : 0 < i) : ∀ (ch : Nat) (ss : List LiveSlot),
    ∃ cs, FitsLive look i i ch ss cs
  | _, [] => ⟨[], trivial⟩
  | ch, _ :: ss => by
    obtain ⟨cs, h⟩ := fits_now look i hi (ch + 1) ss
    exact ⟨_ :: cs, fun _ => ⟨i - 1, by omega, by omega, rfl⟩, h⟩

theorem cutSlots_cur {look : Nat → State} {i J : Nat} : ∀ {ch : Nat} {ss : List LiveSlot}
    {cs : List (List Note)}, FitsLive look i J ch ss cs →
    (cutSlots ss cs).filterMap (fun s => s.cur.map (·.sample)) =
      ss.filterMap (fun s => s.cur.map (·.sample))
  | _, [], [], _ => rfl
  | _, s :: _, c :: _, h => by
    have : (s.cutTo c).cur = s.cur := by
      unfold LiveSlot.cutTo
      cases hs : s.cur <;> rfl
    simp only [cutSlots, List.filterMap_cons, this, cutSlots_cur h.2]

/-- What the iterator gets, when the list is cut off where it will be found to end. -/
theorem nextLive_cut {look : Nat → State} (hg : NotesGrow look) {ch pos i j J : Nat} (hij : i < j)
    (hJ : j ≤ J) {c : List Note}
    (hc : (nextLive look ch pos i).cur ≠ none → ∃ m, j ≤ m + 1 ∧ m < J ∧ c = (look m).keyPressesOf ch) :
    ∃ c' m, i ≤ m ∧ m < J ∧ c' = (look m).keyPressesOf ch ∧
      Slot.take (c'.drop pos) = (nextLive look ch pos i).cutTo c := by
  cases hx : ((look i).keyPressesOf ch)[pos]? with
  | none =>
    refine ⟨_, i, Nat.le_refl _, by omega, rfl, ?_⟩
    rw [List.getElem?_eq_none_iff] at hx
    rw [List.drop_eq_nil_of_le hx]
    unfold nextLive LiveSlot.cutTo
    rw [List.getElem?_eq_none hx]
    rfl
  | some n =>
    obtain ⟨m, hm, hJm, e⟩ := hc (by unfold nextLive; rw [hx]; simp)
    refine ⟨c, m, by omega, hJm, e, ?_⟩
    obtain ⟨hlt, he⟩ := List.getElem?_eq_some_iff.mp hx
    have hn : c[pos]? = some n := by
      rw [e, List.prefix_iff_getElem?.mp (hg i m (by omega) ch) pos hlt, he]
    obtain ⟨hlt', he'⟩ := List.getElem?_eq_some_iff.mp hn
    rw [List.drop_eq_getElem_cons hlt', he']
    unfold nextLive LiveSlot.cutTo
    rw [hx]
    rfl

theorem takeRow_live {look : Nat → State} (hg : NotesGrow look) (ticks row : Int) :
    ∀ (ch : Nat) (slots : List LiveSlot) (cells : List Str) (i : Nat), WithinLive look i ch slots →
    slots.length = cells.length →
    match takeRowLive look ticks row ch slots cells i with
    | .error e => ∀ cs : List (List Note), cs.length = slots.length → takeRow ticks row (cutSlots slots cs) cells = .error e
    | .ok (slots', cells', j) => i ≤ j ∧ WithinLive look j ch slots' ∧ slots'.length = slots.length ∧
        cells'.length = cells.length ∧
        ∀ J cs', j ≤ J → FitsLive look j J ch slots' cs' → ∃ cs, FitsLive look i J ch slots cs ∧
          takeRow ticks row (cutSlots slots cs) cells = .ok (cutSlots slots' cs', cells') := by
  intro ch slots
  induction slots generalizing ch with
  | nil =>
    intro cells i _ hl
    have : cells = [] := List.length_eq_zero_iff.mp hl.symm
    subst this
    refine ⟨Nat.le_refl _, trivial, rfl, rfl, fun J cs' _ h => ?_⟩
    cases cs' with
    | nil => exact ⟨[], trivial, rfl⟩
    | cons c cs => exact absurd h id
  | cons s slots ih =>
    intro cells i hw hl
    cases cells with
    | nil => simp at hl
    | cons cell cells =>
      have hl' : slots.length = cells.length := by simpa using hl
      -- a slot that is left as it is
      have keep : (∀ c t tc, takeRow ticks row (s.cutTo c :: t) (cell :: tc) =
            match takeRow ticks row t tc with
            | .error e => .error e
            | .ok (slots', cells') => .ok (s.cutTo c :: slots', cell :: cells')) →
          match (match takeRowLive look ticks row (ch + 1) slots cells i with
            | .error e => .error e
            | .ok (slots', cells', j) => .ok (s :: slots', cell :: cells', j) :
              Except PyErr (List LiveSlot × List Str × Nat)) with
          | .error e => ∀ cs : List (List Note), cs.length = (s :: slots).length →
              takeRow ticks row (cutSlots (s :: slots) cs) (cell :: cells) = .error e
          | .ok (slots', cells', j) => i ≤ j ∧ WithinLive look j ch slots' ∧
              slots'.length = (s :: slots).length ∧ cells'.length = (cell :: cells).length ∧
              ∀ J cs', j ≤ J → FitsLive look j J ch slots' cs' → ∃ cs, FitsLive look i J ch (s :: slots) cs ∧
                takeRow ticks row (cutSlots (s :: slots) cs) (cell :: cells) =
                  .ok (cutSlots slots' cs', cells') := by
        intro hstep
        have ih := ih (ch + 1) cells i hw.2 hl'
        cases hr : takeRowLive look ticks row (ch + 1) slots cells i with
        | error e =>
          rw [hr] at ih
          intro cs hcs
          cases cs with
          | nil => cases hcs
          | cons c cs =>
            show takeRow ticks row (s.cutTo c :: cutSlots slots cs) _ = _
            rw [hstep, ih cs (by simpa using hcs)]
        | ok x =>
          obtain ⟨slots', cells', j⟩ := x
          rw [hr] at ih
          obtain ⟨h1, h2, h3, h4, h5⟩ := ih
          refine ⟨h1, ⟨fun hc => Nat.le_trans (hw.1 hc) (hg (i - 1) (j - 1) (by omega) ch).length_le, h2⟩,
            by simp [h3], by simp [h4], fun J cs' hJ hcs' => ?_⟩
          cases cs' with
          | nil => exact absurd hcs' id
          | cons c cs' =>
            obtain ⟨cs, h6, h7⟩ := h5 J cs' hJ hcs'.2
            refine ⟨c :: cs, ⟨fun hc => (hcs'.1 hc).imp fun _ hm => ⟨Nat.le_trans h1 hm.1, hm.2⟩, h6⟩, ?_⟩
            show takeRow ticks row (s.cutTo c :: cutSlots slots cs) _ = _
            rw [hstep, h7]
            rfl
      unfold takeRowLive
      cases hs : s.cur with
      | none =>
        have hcut : ∀ c, (s.cutTo c).cur = none := fun c => by unfold LiveSlot.cutTo; rw [hs]
        refine keep (fun c t tc => ?_)
        simp only [takeRow, hcut]
        cases takeRow ticks row t tc <;> rfl
      | some n =>
        have hcut : ∀ c, (s.cutTo c).cur = some n ∧ (s.cutTo c).rest = c.drop s.pos := fun c => by
          unfold LiveSlot.cutTo; rw [hs]; exact ⟨rfl, rfl⟩
        by_cases hrow : Int.fdiv n.sample ticks = row
        · simp only [if_pos hrow]
          cases hn : n.str with
          | error e =>
            intro cs hcs
            cases cs with
            | nil => cases hcs
            | cons c cs =>
              show takeRow ticks row (s.cutTo c :: cutSlots slots cs) _ = _
              simp only [takeRow, (hcut c).1, if_pos hrow, hn]
          | ok text =>
            have ih := ih (ch + 1) cells (i + 1) (hw.2.mono hg (Nat.le_succ i)) hl'
            cases hr : takeRowLive look ticks row (ch + 1) slots cells (i + 1) with
            | error e =>
              rw [hr] at ih
              simp only
              intro cs hcs
              cases cs with
              | nil => cases hcs
              | cons c cs =>
                show takeRow ticks row (s.cutTo c :: cutSlots slots cs) _ = _
                simp only [takeRow, (hcut c).1, if_pos hrow, hn, ih cs (by simpa using hcs)]
            | ok x =>
              obtain ⟨slots', cells', j⟩ := x
              rw [hr] at ih
              obtain ⟨h1, h2, h3, h4, h5⟩ := ih
              have hpos := hw.1 (by rw [hs]; simp)
              refine ⟨by omega, ⟨fun hc => ?_, h2⟩, by simp [h3], by simp [h4], fun J cs' hJ hcs' => ?_⟩
              · have : ((look i).keyPressesOf ch)[s.pos]? ≠ none := hc
                rw [Ne, List.getElem?_eq_none_iff] at this
                have := (hg i (j - 1) (by omega) ch).length_le
                show s.pos + 1 ≤ _
                omega
              · cases cs' with
                | nil => exact absurd hcs' id
                | cons c cs' =>
                  obtain ⟨cs, h6, h7⟩ := h5 J cs' hJ hcs'.2
                  obtain ⟨c', m, hm1, hmJ, hm2, hm3⟩ := nextLive_cut hg (by omega : i < j) hJ hcs'.1
                  refine ⟨c' :: cs, ⟨fun _ => ⟨m, by omega, hmJ, hm2⟩, h6.mono (Nat.le_succ i)⟩, ?_⟩
                  show takeRow ticks row (s.cutTo c' :: cutSlots slots cs) _ = _
                  simp only [takeRow, (hcut c').1, (hcut c').2, if_pos hrow, hn, h7, hm3]
                  rfl
        · simp only [if_neg hrow]
          refine keep (fun c t tc => ?_)
          simp only [takeRow, (hcut c).1, if_neg hrow]
          cases takeRow ticks row t tc <;> rfl

theorem csvLive_cut {look : Nat → State} (hg : NotesGrow look) (ticks : Int) (fuel : Nat)
    (slots : List LiveSlot) (R : Int) (row out : List Str) (i : Nat) (hw : WithinLive look i 0 slots)
    (hs : slots.length = 8) (hr : row.length = 8) (hi : 0 < i) :
    ∃ J cs, i ≤ J ∧ FitsLive look i J 0 slots cs ∧ csvLive look ticks fuel slots R row out i =
      (csvLoop ticks fuel (cutSlots slots cs) R row out).map (fun r => (r, J)) := by
  induction fuel generalizing slots R row out i with
  | zero =>
    obtain ⟨cs, h⟩ := fits_now look i hi 0 slots
    exact ⟨i, cs, Nat.le_refl _, h, rfl⟩
  | succ fuel ih =>
    obtain ⟨ds, hds⟩ := fits_now look i hi 0 slots
    have hlen : ds.length = slots.length := fits_length hds
    unfold csvLive
    have hcur : ∀ J cs, FitsLive look i J 0 slots cs →
        minOf ((cutSlots slots cs).filterMap (fun s => s.cur.map (·.sample))) =
          minOf (slots.filterMap (fun s => s.cur.map (·.sample))) :=
      fun J cs h => by rw [cutSlots_cur h]
    cases hm : minOf (slots.filterMap (fun s => s.cur.map (·.sample))) with
    | none => exact ⟨i, ds, Nat.le_refl _, hds, by unfold csvLoop; rw [hcur i ds hds, hm]; rfl⟩
    | some cur =>
      rw [hm] at hcur
      by_cases h0 : ticks = 0
      · simp only [if_pos h0]
        exact ⟨i, ds, Nat.le_refl _, hds, by unfold csvLoop; rw [hcur i ds hds]; simp only [if_pos h0]; rfl⟩
      · simp only [if_neg h0]
        by_cases h1 : Int.fdiv cur ticks ≠ R
        · simp only [if_pos h1]
          cases hf : fractionText cur ticks with
          | error e =>
            exact ⟨i, ds, Nat.le_refl _, hds, by
              unfold csvLoop; rw [hcur i ds hds]; simp only [if_neg h0, if_pos h1, hf]; rfl⟩
          | ok fr =>
            have key := takeRow_live hg ticks (Int.fdiv cur ticks) 0 slots blankRow i hw
              (by simp [hs, blankRow])
            simp only
            cases ht : takeRowLive look ticks (Int.fdiv cur ticks) 0 slots blankRow i with
            | error e =>
              rw [ht] at key
              exact ⟨i, ds, Nat.le_refl _, hds, by
                unfold csvLoop; rw [hcur i ds hds]
                simp only [if_neg h0, if_pos h1, hf, key ds hlen]; rfl⟩
            | ok x =>
              obtain ⟨slots', row', j⟩ := x
              rw [ht] at key
              obtain ⟨k1, k2, k3, k4, k5⟩ := key
              obtain ⟨J, cs', c0, c1, c2⟩ := ih slots' (Int.fdiv cur ticks) row' (out ++ [csvLine cur R fr row] ++
                gapLines cur R (Int.fdiv cur ticks) fr) j k2 (by omega) (by rw [k4]; simp [blankRow]) (by omega)
              obtain ⟨cs, d1, d2⟩ := k5 J cs' c0 c1
              refine ⟨J, cs, by omega, d1, ?_⟩
              conv_rhs => unfold csvLoop
              rw [hcur J cs d1]
              simp only [if_neg h0, if_pos h1, hf, d2]
              exact c2
        · simp only [if_neg h1]
          have key := takeRow_live hg ticks (Int.fdiv cur ticks) 0 slots row i hw (by omega)
          cases ht : takeRowLive look ticks (Int.fdiv cur ticks) 0 slots row i with
          | error e =>
            rw [ht] at key
            exact ⟨i, ds, Nat.le_refl _, hds, by
              unfold csvLoop; rw [hcur i ds hds]
              simp only [if_neg h0, if_neg h1, key ds hlen]; rfl⟩
          | ok x =>
            obtain ⟨slots', row', j⟩ := x
            rw [ht] at key
            obtain ⟨k1, k2, k3, k4, k5⟩ := key
            obtain ⟨J, cs', c0, c1, c2⟩ := ih slots' R row' out j k2 (by omega) (by omega) (by omega)
            obtain ⟨cs, d1, d2⟩ := k5 J cs' c0 c1
            refine ⟨J, cs, by omega, d1, ?_⟩
            conv_rhs => unfold csvLoop
            rw [hcur J cs d1]
            simp only [if_neg h0, if_neg h1, d2]
            exact c2

/-- The first notes of the channels. -/
theorem start_cut {look : Nat → State} (hg : NotesGrow look) {J : Nat} (hJ : 8 ≤ J) : ∀ (n ch : Nat) (cs : List (List Note)),
    ch + n ≤ 8 → FitsLive look 8 J ch ((List.range' ch n).map fun c => nextLive look c 0 c) cs →
    ∃ m : Nat → Nat, (∀ c, ch ≤ c → c < ch + n → c ≤ m c ∧ m c < J) ∧
      cutSlots ((List.range' ch n).map fun c => nextLive look c 0 c) cs =
        (List.range' ch n).map fun c => Slot.take ((look (m c)).keyPressesOf c)
  | 0, ch, _, _, _ => ⟨id, fun c h1 h2 => absurd h1 (by omega), by simp [cutSlots]⟩
  | n + 1, ch, [], _, h => absurd h id
  | n + 1, ch, c :: cs, hn, h => by
    obtain ⟨m, h1, h2⟩ := start_cut hg hJ n (ch + 1) cs (by omega) h.2
    obtain ⟨c', k, e1, eJ, e2, e3⟩ := nextLive_cut (pos := 0) hg (by omega : ch < 8) hJ h.1
    refine ⟨fun x => if x = ch then k else m x, fun x h3 h4 => ?_, ?_⟩
    · dsimp only
      split
      · next hx => exact ⟨by omega, eJ⟩
      · next hx => exact h1 x (by omega) (by omega)
    · rw [List.range'_succ]
      show (nextLive look ch 0 ch).cutTo c :: cutSlots _ cs = _
      rw [h2, ← e3, List.drop_zero, e2, List.map_cons]
      dsimp only
      rw [if_pos rfl]
      congr 1
      refine List.map_congr_left fun x hx => ?_
      have := (List.mem_range'_1.mp hx).1
      rw [if_neg (by omega)]


theorem looks_grow (h : List Event) {at_ : Nat → Nat} (ho : InOrder at_) : NotesGrow (looks h at_) :=
  fun i j hij ch => (moment_grown h (ho i j hij)).2.1 ch

theorem cutAt_notes (s : State) (look : Nat → State) (m : Nat → Nat) (ch : Nat) (hc : ch < 8) :
    (cutAt s look m).keyPressesOf ch = (look (m ch)).keyPressesOf ch := by
  unfold cutAt State.keyPressesOf
  simp [hc]

theorem sum_le_of {f g : Nat → Nat} : ∀ l : List Nat, (∀ x ∈ l, f x ≤ g x) →
    (l.map f).sum ≤ (l.map g).sum
  | [], _ => Nat.le_refl _
  | a :: l, h => by
    simp only [List.map_cons, List.sum_cons]
    exact Nat.add_le_add (h a List.mem_cons_self) (sum_le_of l fun x hx => h x (List.mem_cons_of_mem _ hx))

/-- How many notes the state has. -/
def allNotes (s : State) : Nat := ((List.range 8).map fun ch => (s.keyPressesOf ch).length).sum

theorem csv_cut_of {look : Nat → State} (hg : NotesGrow look) (F : State)
    (hF : ∀ i ch, (look i).keyPressesOf ch <+: F.keyPressesOf ch) (ticks : Int) :
    ∃ (m : Nat → Nat) (J : Nat) (table : List Str × Option PyErr),
      (∀ ch < 8, m ch < J) ∧ extractTracksLive look (allNotes F) ticks = some (table, J) ∧
      extractTracks (cutAt F look m) ticks = some table := by
  unfold extractTracksLive
  rw [show List.range 8 = List.range' 0 8 from List.range_eq_range']
  obtain ⟨J, cs, c0, c1, c2⟩ := csvLive_cut hg ticks (allNotes F + 1)
    ((List.range' 0 8).map fun ch => nextLive look ch 0 ch) 0 blankRow [csvHeader] 8
    (by
      have : ∀ n ch, ch + n ≤ 8 → WithinLive look 8 ch
          ((List.range' ch n).map fun ch => nextLive look ch 0 ch) := by
        intro n
        induction n with
        | zero => exact fun _ _ => trivial
        | succ n ih =>
          intro ch hn
          refine ⟨fun hc => ?_, ih (ch + 1) (by omega)⟩
          have hc' : ((look ch).keyPressesOf ch)[0]? ≠ none := hc
          rw [Ne, List.getElem?_eq_none_iff] at hc'
          have := (hg ch (8 - 1) (by omega) ch).length_le
          show 0 + 1 ≤ _
          omega
      exact this 8 0 (by omega))
    (by simp) (by simp [blankRow]) (by omega)
  obtain ⟨m, m1, m2⟩ := start_cut hg c0 8 0 cs (by omega) c1
  obtain ⟨out, err, e⟩ := c45_terminates (cutAt F look m) ticks
  refine ⟨m, J, (out, err), fun ch hc => (m1 ch (Nat.zero_le _) (by omega)).2, ?_, e⟩
  rw [c2, m2, ← List.range_eq_range']
  have hmap : (List.range 8).map (fun ch => Slot.take ((cutAt F look m).keyPressesOf ch)) =
      (List.range 8).map (fun c => Slot.take ((look (m c)).keyPressesOf c)) :=
    List.map_congr_left fun c hc => by rw [cutAt_notes _ _ _ _ (List.mem_range.mp hc)]
  unfold extractTracks at e
  rw [hmap] at e
  rw [csvLoop_fuel e (g := allNotes F + 1) ?_]; rfl
  refine Nat.succ_le_succ (sum_le_of _ fun ch hc => ?_)
  rw [cutAt_notes _ _ _ _ (List.mem_range.mp hc)]
  exact (hF _ ch).length_le

/-- C126. The table that `extract_tracks` writes while another thread feeds the state is the table of
the notes that were there at certain moments during the export; the moment may be another for each
channel. -/
theorem c126_csv (h : List Event) (at_ : Nat → Nat) (ho : InOrder at_) (ticks : Int) :
    ∃ (m : Nat → Nat) (J : Nat) (table : List Str × Option PyErr),
      (∀ ch < 8, m ch < J) ∧ extractTracksLive (looks h at_) (notesInAll h) ticks = some (table, J) ∧
      extractTracks (cutAt (run h) (looks h at_) m) ticks = some table :=
  csv_cut_of (looks_grow h ho) (run h) (fun i ch => (moment_end h (at_ i)).2.1 ch) ticks

theorem cut_notes (h : List Event) (at_ m : Nat → Nat) (s : State) (ch : Nat) (hc : ch < 8) (n : Note)
    (hn : n ∈ (cutAt s (looks h at_) m).keyPressesOf ch) : n ∈ (run h).keyPressesOf ch := by
  rw [cutAt_notes _ _ _ _ hc] at hn
  exact ((moment_end h _).2.1 ch).subset hn

/-- C126. No error happens. -/
theorem c126_csv_ok (h : List Event) (hb : ByteHistory h) (at_ : Nat → Nat) (ho : InOrder at_)
    (ticks : Int) (hz : ticks ≠ 0) (hT : time h < 2 ^ 1023) :
    ∃ out J, extractTracksLive (looks h at_) (notesInAll h) ticks = some ((out, none), J) := by
  obtain ⟨m, J, ⟨out, err⟩, _, e0, e⟩ := c126_csv h at_ ho ticks
  have e' := e
  unfold extractTracks at e'
  rw [blankRow_eq] at e'
  have := csvLoop_ok ticks hz _ _ _ _ _
    (fun c hc n hn => by
      obtain ⟨_, _, _, x, _, _, _, _, e, _⟩ := c33_off h hb c hc n (cut_notes h at_ m _ c hc n hn)
      exact ⟨x, e⟩)
    (fun c hc n hn => by
      obtain ⟨i, v, _, _, e, _⟩ := c24_note_capture h hb c hc n (cut_notes h at_ m _ c hc n hn)
      rw [e]; exact lt_of_le_of_lt (time_take_le h i) hT) _ e'
  simp only at this
  subst this
  exact ⟨out, J, e0⟩

theorem notesLive_cut {look : Nat → State} (hg : NotesGrow look) (F : State)
    (hF : ∀ i ch, (look i).keyPressesOf ch <+: F.keyPressesOf ch) :
    ∀ (n ch i : Nat), ch + n ≤ 8 → ∃ (m : Nat → Nat) (J : Nat), i ≤ J ∧
      (∀ c, ch ≤ c → c < ch + n → i ≤ m c ∧ m c < J) ∧
      notesLive look (allNotes F) n ch i =
        ((List.range' ch n).map fun c => (look (m c)).keyPressesOf c, J)
  | 0, _, i, _ => ⟨id, i, Nat.le_refl _, fun c h1 h2 => absurd h1 (by omega), rfl⟩
  | n + 1, ch, i, hn => by
    have hB : ∀ j, ((look j).keyPressesOf ch).length ≤ allNotes F := fun j => by
      refine Nat.le_trans (hF j ch).length_le ?_
      exact List.le_sum_of_mem (List.mem_map.mpr ⟨ch, List.mem_range.mpr (by omega), rfl⟩)
    obtain ⟨k, k1, k2, k3⟩ := liveFor_cut (fun j => (look j).keyPressesOf ch)
      (fun i j hij => hg i j hij ch) (allNotes F) hB (allNotes F + 1) 0 i (by omega)
      (Nat.zero_le _)
    obtain ⟨m, J, mJ, m1, m2⟩ := notesLive_cut hg F hF n (ch + 1) (k + 1) (by omega)
    refine ⟨fun x => if x = ch then k else m x, J, by omega, fun x h3 h4 => ?_, ?_⟩
    · dsimp only
      split
      · exact ⟨k1, by omega⟩
      · have := m1 x (by omega) (by omega); omega
    · rw [List.range'_succ]
      show ((liveFor _ _ 0 i).1 :: (notesLive _ _ n (ch + 1) (liveFor _ _ 0 i).2).1,
        (notesLive _ _ n (ch + 1) (liveFor _ _ 0 i).2).2) = _
      rw [k3, m2, k2, List.drop_zero, List.map_cons]
      dsimp only
      rw [if_pos rfl]
      congr 2
      refine List.map_congr_left fun x hx => ?_
      have := (List.mem_range'_1.mp hx).1
      rw [if_neg (by omega)]

/-- C126. The song that `extract_tracks_to_xrns` makes while another thread feeds the state is that of
the instruments that were there at its beginning and of the notes that were there at certain later
moments, perhaps another for each channel. For a positive ticks-per-note it is made without an error, and
each cell shows the last of those notes on its row. -/
theorem c126_song (h : List Event) (hb : ByteHistory h) (at_ : Nat → Nat) (ho : InOrder at_) :
    ∃ (m : Nat → Nat) (J : Nat), (∀ ch < 8, m ch < J) ∧
      (∀ t, exportSongLive (looks h at_) (notesInAll h) t =
        (exportSong (cutAt (looks h at_ 0) (looks h at_) m) t, J)) ∧
      ∀ t : Nat, 0 < t → t < maxTicks →
        ∃ song, exportSongLive (looks h at_) (notesInAll h) t = (.ok song, J) ∧
          song.instruments.length = (looks h at_ 0).configs.length ∧
          ∀ p c r, c < 8 → r < 64 →
            let notes := (looks h at_ (m c)).keyPressesOf c
            (columnsAt (render song) p c r = none ↔ ∀ n ∈ notes, n.sample / t ≠ 64 * p + r) ∧
            ∀ n, (onRow notes t (64 * p + r)).getLast? = some n →
              ∃ col, columnsAt (render song) p c r = some [col] ∧ Shows col n := by
  obtain ⟨m, J, _, m1, m2⟩ := notesLive_cut (looks_grow h ho) (run h)
    (fun i ch => (moment_end h (at_ i)).2.1 ch) 8 0 1 (by omega)
  have hsong : ∀ t, exportSongLive (looks h at_) (notesInAll h) t =
      (exportSong (cutAt (looks h at_ 0) (looks h at_) m) t, J) := fun t => by
    unfold exportSongLive cutAt
    rw [show notesInAll h = allNotes (run h) from rfl, m2, ← List.range_eq_range']
  refine ⟨m, J, fun ch hc => (m1 ch (Nat.zero_le _) (by omega)).2, hsong, fun t ht hm => ?_⟩
  have hnames := presses_named h hb
  obtain ⟨pool, hi, e⟩ := exportSong_ok (cutAt (looks h at_ 0) (looks h at_) m) t ht _ (bpm_pos t ht hm)
    (fun ch hc n hn => hnames ch hc n (cut_notes h at_ m _ ch hc n hn))
  refine ⟨_, (hsong t).trans (by rw [e]), by simp; rfl, ?_⟩
  intro p c r hc hr notes
  have hno : (cutAt (looks h at_ 0) (looks h at_) m).keyPressesOf c = notes := cutAt_notes _ _ _ _ hc
  unfold columnsAt
  rw [linesOf_render, find_lookup, lookup_track hi p c r hc hr, hno]
  constructor
  · rw [Option.map_eq_none_iff, Option.map_eq_none_iff, List.getLast?_eq_none_iff]
    unfold onRow
    rw [List.filter_eq_nil_iff]
    simp
  · intro n hn
    rw [hn]
    refine ⟨_, rfl, ?_⟩
    have hmem : n ∈ (run h).keyPressesOf c :=
      ((moment_end h _).2.1 c).subset (List.mem_filter.mp (List.mem_of_getLast? hn)).1
    obtain ⟨name, hname⟩ := hnames c hc n hmem
    exact lineOf_shows n name hname ((c25_ranges h hb).2.2.2 c hc n hmem).2.2.2.1

theorem instr_cut_of {look : Nat → State} (hg : ∀ i j, i ≤ j → (look i).configs <+: (look j).configs)
    (B : Nat) (hB : ∀ i, (look i).configs.length ≤ B) :
    ∃ m J, m < J ∧ instrumentsLive look B =
      (instrumentsText { look 0 with configs := (look m).configs }, J) := by
  unfold instrumentsLive
  by_cases h0 : (look 0).configs = []
  · exact ⟨0, 1, Nat.zero_lt_one, by rw [if_pos h0, h0]⟩
  · rw [if_neg h0]
    obtain ⟨m, _, m2, m3⟩ := liveFor_cut (fun j => (look j).configs)
      hg B hB (B + 1) 0 1 (by omega)
      (Nat.zero_le _)
    exact ⟨m, m + 1, Nat.lt_succ_self m, by dsimp only; rw [m2, m3, List.drop_zero]⟩

/-- C126. The instruments file that `extract_instruments` writes while another thread feeds the state is
that of some moment of the export, and reads back as the instruments of that moment. -/
theorem c126_instruments (h : List Event) (hb : ByteHistory h) (at_ : Nat → Nat) (ho : InOrder at_) :
    ∃ m J text, m < J ∧ instrumentsLive (looks h at_) (run h).configs.length = (.ok text, J) ∧
      readInstrumentFile text = some ((looks h at_ m).configs.map fun c =>
        (c.id, ⟨c.base, c.channel, c.operators⟩)) := by
  obtain ⟨m, J, mJ, e⟩ := instr_cut_of (look := looks h at_) (fun i j hij => (moment_grown h (ho i j hij)).1)
    (run h).configs.length (fun i => (moment_end h (at_ i)).1.length_le)
  obtain ⟨text, _, h1, _, _, h3, _⟩ :=
    instrumentsText_good { looks h at_ 0 with configs := (looks h at_ m).configs }
      (fun c hc => run_good h hb c ((moment_end h _).1.subset hc))
  exact ⟨m, J, text, mJ, e.trans (by rw [h1]), h3⟩

/-- C126. Who writes the instruments after the tracks gets files that fit: the instrument of every note
in the tracks is in the instruments file, at its number. -/
theorem c126_fit (h : List Event) (hb : ByteHistory h) (at_ later : Nat → Nat) (hl : InOrder later)
    (m : Nat → Nat) (hle : ∀ ch < 8, at_ (m ch) ≤ later 0) :
    ∃ text l J, instrumentsLive (looks h later) (run h).configs.length = (.ok text, J) ∧
      readInstrumentFile text = some l ∧
      ∀ ch < 8, ∀ n ∈ (cutAt (run h) (looks h at_) m).keyPressesOf ch,
        n.configId = -1 ∨ ∃ (k : Nat) (c : Config), n.configId = k ∧ (run h).configs[k]? = some c ∧
          l[k]? = some (c.id, ⟨c.base, c.channel, c.operators⟩) := by
  obtain ⟨m', J, text, _, e1, e2⟩ := c126_instruments h hb later hl
  refine ⟨text, _, J, e1, e2, fun ch hc n hn => ?_⟩
  rw [cutAt_notes _ _ _ _ hc] at hn
  rcases c122_instrument h _ (later m') (Nat.le_trans (hle ch hc) (hl 0 m' (Nat.zero_le _))) ch n hn with
    h1 | ⟨k, c, k1, k2, k3⟩
  · exact .inl h1
  · refine .inr ⟨k, c, k1, k3, ?_⟩
    show (List.map _ (moment h (later m')).configs)[k]? = _
    rw [List.getElem?_map, k2]
    rfl

/-! ### What cannot be had -/

/-- A thread that is through stays so. -/
theorem moment_through (h : List Event) (N : Nat) (h1 : ((Feeder.start h).after N).todo = [])
    (h2 : ((Feeder.start h).after N).left = []) (n : Nat) (hn : N ≤ n) : moment h n = moment h N := by
  obtain ⟨k, rfl⟩ : ∃ k, n = N + k := ⟨n - N, by omega⟩
  unfold moment
  induction k with
  | zero => rfl
  | succ k ih =>
    have hk : ∀ k, (Feeder.start h).after (N + k) = (Feeder.start h).after N := by
      intro k
      induction k with
      | zero => rfl
      | succ k ih =>
        show ((Feeder.start h).after (N + k)).step = _
        rw [ih]
        generalize (Feeder.start h).after N = f at h1 h2
        obtain ⟨s, t, l⟩ := f
        cases h1; cases h2
        rfl
    rw [hk]

/-- A key-on of channel 0, then two of channel 1. -/
def tornSample : List Event :=
  [.wait 5, .write 8 0x78, .wait 3000, .write 8 0x79, .wait 3000, .write 8 0x79]

/-- C126. The table need not be that of any moment: channel 0 is found empty, and then channel 1 is
read after everything has happened, so that its notes are in the table, without the earlier note of
channel 0. -/
theorem c126_csv_torn : ∃ (h : List Event) (at_ : Nat → Nat) (table : List Str × Option PyErr) (J : Nat),
    ByteHistory h ∧ InOrder at_ ∧
    extractTracksLive (looks h at_) (notesInAll h) 2000 = some (table, J) ∧
    ∀ n, extractTracks (moment h n) 2000 ≠ some table := by
  let at_ : Nat → Nat := fun i => if i = 0 then 0 else 40
  have ho : InOrder at_ := by
    intro i j hij
    show (if i = 0 then 0 else 40) ≤ (if j = 0 then 0 else 40)
    split <;> split <;> omega
  have hend : ∀ n, 40 ≤ n → moment tornSample n = moment tornSample 40 :=
    moment_through tornSample 40 (by decide +kernel) (by decide +kernel)
  have hall : ∀ n < 41, extractTracks (moment tornSample n) 2000 ≠
      (extractTracksLive (looks tornSample at_) (notesInAll tornSample) 2000).map Prod.fst := by
    decide +kernel
  obtain ⟨m, J, table, _, e, _⟩ := c126_csv tornSample at_ ho 2000
  refine ⟨tornSample, at_, table, J, by decide, ho, e, fun n => ?_⟩
  rw [e] at hall
  by_cases hn : n < 41
  · exact hall n hn
  · rw [hend n (by omega), ← hend 40 (Nat.le_refl _)]
    exact hall 40 (by omega)

/-- C126. In the order in which src/main.py writes its files (instruments first) they need not fit: the
instruments file is empty, and there is a note with instrument 0 in the tracks. -/
theorem c126_main_order : ∃ (h : List Event) (now later : Nat → Nat) (song : Song) (J : Nat),
    ByteHistory h ∧ InOrder now ∧ InOrder later ∧ (∀ i j, now i ≤ later j) ∧
    (instrumentsLive (looks h now) (run h).configs.length).1 = .ok "[]\n".toList ∧
    exportSongLive (looks h later) (notesInAll h) 1000 = (.ok song, J) ∧
    ∃ p ∈ song.patternPool.patterns, ∃ t ∈ p.tracks, ∃ l ∈ t.lines,
      l.2.instrument = some "00".toList := by
  have ho : ∀ k : Nat, InOrder fun _ => k := fun k i j _ => Nat.le_refl k
  have key : (match (exportSongLive (looks tornSample fun _ => 40) (notesInAll tornSample) 1000).1 with
      | .error _ => false
      | .ok song => decide (∃ p ∈ song.patternPool.patterns, ∃ t ∈ p.tracks, ∃ l ∈ t.lines,
          l.2.instrument = some "00".toList)) = true := by decide +kernel
  cases hs : (exportSongLive (looks tornSample fun _ => 40) (notesInAll tornSample) 1000).1 with
  | error e => rw [hs] at key; cases key
  | ok song =>
    rw [hs] at key
    exact ⟨tornSample, fun _ => 0, fun _ => 40, song, _, by decide, ho 0, ho 40, fun _ _ => Nat.zero_le _,
      by decide +kernel, Prod.ext hs rfl, of_decide_eq_true key⟩

/-- An export that meets the state at different moments: of the two notes of channel 1 one is there when
it begins, and both are in the table. -/
example :
    let at_ : Nat → Nat := fun i => 10 + 2 * i
    ((looks tornSample at_ 1).keyPressesOf 1).length = 1 ∧
    ((run tornSample).keyPressesOf 1).length = 2 ∧
    extractTracksLive (looks tornSample at_) (notesInAll tornSample) 2000 =
      (extractTracks (run tornSample) 2000).map fun x => (x, 11) := by
  decide +kernel

end VgmX
