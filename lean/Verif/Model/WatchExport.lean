import Verif.Model.Watch
import Verif.Model.Csv
import Verif.Model.Json
/-
The exporters (src/extractors.py) in one thread while another thread goes on feeding the `State`.
A `for` loop over a list and an iterator of a list look at the list again for each element; between
two looks the other thread may have appended to it. `look i` is the state at the `i`-th look.

Simplification: only the lists of the state are looked at again; what is in them (notes, instruments)
does not change (see C18 and C122).
-/

namespace VgmX

/-- What a `for` loop over a list gets that others append to: the element number `k` at the `i`-th
look, and so on until there is none. Second result: the number of the look after the last.
(Python semantics, for src/extractors.py:29 and, in `json`, 118.) The first argument only bounds the
number of elements. -/
def liveFor {α : Type} (read : Nat → List α) : Nat → Nat → Nat → List α × Nat
  | 0, _, i => ([], i)
  | fuel + 1, k, i =>
    match (read i)[k]? with
    | none => ([], i + 1)
    | some a =>
      let r := liveFor read fuel (k + 1) (i + 1)
      (a :: r.1, r.2)

/-- A channel in the merge of `extract_tracks`: `channel_notes.get(ch)` and the position of
`channel_iters[ch]`. (src/extractors.py:55-63.) -/
structure LiveSlot where
  cur : Option Note
  pos : Nat

/-- `next(channel_iters[ch])` at the `i`-th look; no entry on `StopIteration`.
(src/extractors.py:58-63 and 108-113.) -/
def nextLive (look : Nat → State) (ch pos i : Nat) : LiveSlot :=
  ⟨((look i).keyPressesOf ch)[pos]?, pos + 1⟩

/-- The `for ch in range(channel_count)` loop, src/extractors.py:103-113, from channel `ch` on. -/
def takeRowLive (look : Nat → State) (ticks currentRow : Int) : Nat → List LiveSlot → List Str → Nat →
    Except PyErr (List LiveSlot × List Str × Nat)
  | ch, s :: slots, cell :: cells, i =>
    match s.cur with
    | some n =>
      if Int.fdiv n.sample ticks = currentRow then
        match n.str with
        | .error e => .error e
        | .ok text =>
          match takeRowLive look ticks currentRow (ch + 1) slots cells (i + 1) with
          | .error e => .error e
          | .ok (slots', cells', j) => .ok (nextLive look ch s.pos i :: slots', text :: cells', j)
      else
        match takeRowLive look ticks currentRow (ch + 1) slots cells i with
        | .error e => .error e
        | .ok (slots', cells', j) => .ok (s :: slots', cell :: cells', j)
    | none =>
      match takeRowLive look ticks currentRow (ch + 1) slots cells i with
      | .error e => .error e
      | .ok (slots', cells', j) => .ok (s :: slots', cell :: cells', j)
  | _, slots, cells, i => .ok (slots, cells, i)

/-- The loop, src/extractors.py:76-113, as `csvLoop`, with the looks counted; second result: the number
of looks made. -/
def csvLive (look : Nat → State) (ticks : Int) : Nat → List LiveSlot → Int → List Str → List Str → Nat →
    Option ((List Str × Option PyErr) × Nat)
  | 0, _, _, _, _, _ => none
  | fuel + 1, slots, totalRow, noteRow, out, i =>
    match minOf (slots.filterMap (fun s => s.cur.map (·.sample))) with
    | none => some ((out, none), i)
    | some currentSample =>
      if ticks = 0 then some ((out, some .zeroDivision), i)
      else
        let currentRow := Int.fdiv currentSample ticks
        if currentRow ≠ totalRow then
          match fractionText currentSample ticks with
          | .error e => some ((out, some e), i)
          | .ok fraction =>
            let out' := out ++ [csvLine currentSample totalRow fraction noteRow] ++
              gapLines currentSample totalRow currentRow fraction
            match takeRowLive look ticks currentRow 0 slots blankRow i with
            | .error e => some ((out', some e), i)
            | .ok (slots', noteRow', j) => csvLive look ticks fuel slots' currentRow noteRow' out' j
        else
          match takeRowLive look ticks currentRow 0 slots noteRow i with
          | .error e => some ((out, some e), i)
          | .ok (slots', noteRow', j) => csvLive look ticks fuel slots' totalRow noteRow' out j

/-- `extract_tracks`, src/extractors.py:53-113, while the state is being fed: the first notes of the
eight channels are got at the looks 0 to 7. `bound` only bounds the number of rounds. Second result: the
number of looks made (at least: those of a row that ends with an exception are not counted). -/
def extractTracksLive (look : Nat → State) (bound : Nat) (ticks : Int) :
    Option ((List Str × Option PyErr) × Nat) :=
  csvLive look ticks (bound + 1) ((List.range 8).map (fun ch => nextLive look ch 0 ch)) 0 blankRow
    [csvHeader] 8

/-- The notes that the loop over the channels (src/extractors.py:28-29) gets, from channel `ch` on,
for `count` channels, beginning with look `i`; second result: the number of looks made. -/
def notesLive (look : Nat → State) (bound : Nat) : Nat → Nat → Nat → List (List Note) × Nat
  | 0, _, i => ([], i)
  | count + 1, ch, i =>
    let r := liveFor (fun j => (look j).keyPressesOf ch) (bound + 1) 0 i
    let r' := notesLive look bound count (ch + 1) r.2
    (r.1 :: r'.1, r'.2)

/-- `extract_tracks_to_xrns`, src/extractors.py:13-50, while the state is being fed, up to the point
where it opens the file: the instruments are counted at look 0 (line 16). Second result: the number of
looks made. If an exception ends the loop over the notes, those after it are not looked at; they do not
matter then. -/
def exportSongLive (look : Nat → State) (bound : Nat) (ticks : Int) : Except PyErr Song × Nat :=
  let r := notesLive look bound 8 0 1
  (exportSong { look 0 with keyPresses := r.1 } ticks, r.2)

/-- The text that `extract_instruments` (src/extractors.py:116-121) writes while the state is being fed:
`json` (with `indent`, all in Python) looks whether the list is empty and then goes through it. Second
result: the number of looks made. -/
def instrumentsLive (look : Nat → State) (bound : Nat) : Except PyErr Str × Nat :=
  let r := if (look 0).configs = [] then ([], 1)
    else liveFor (fun j => (look j).configs) (bound + 1) 0 1
  (instrumentsText { look 0 with configs := r.1 }, r.2)

end VgmX
