import Verif.Model.Note
/-
Model of `extract_tracks` in `src/extractors.py`: the strings it writes to the CSV file, and
the exception it ends with, if any.
-/

namespace VgmX

/-- `x % 1` for a finite float `x` (CPython `float_rem`): the remainder of truncated division
is exact; a negative one has 1 added to it, which rounds.
(Python semantics, for src/extractors.py:85 and 96.) -/
def floatMod1 (q : Rat) : Rat :=
  let m := if q < 0 then q + ((-q).floor : Rat) else q - (q.floor : Rat)
  if m < 0 then roundDouble (m + 1) else m

/-- The number of times `q` must be multiplied by ten to reach 1, for `0 < q`; `fuel` bounds
it (324 is enough for a double). (Python semantics, for src/extractors.py:85 and 96.) -/
def decShift : Nat → Rat → Nat
  | 0, _ => 0
  | fuel + 1, q => if 1 ≤ q then 0 else decShift fuel (q * 10) + 1

/-- The text of the number with significant digits `d` (10..99), the first of which is `k`
places after the point (`k = 0`: before it): trailing zeros are removed, exponent form if
`k > 4`, and else at least one digit after the point.
(Python semantics, for src/extractors.py:85 and 96.) -/
def layout2 (d k : Nat) : Str :=
  if k = 0 then natStr (d / 10) ++ ['.'] ++ natStr (d % 10)
  else if k ≤ 4 then
    ['0', '.'] ++ List.replicate (k - 1) '0' ++
      (if d % 10 = 0 then natStr (d / 10) else natStr d)
  else
    (if d % 10 = 0 then natStr (d / 10) else natStr (d / 10) ++ ['.'] ++ natStr (d % 10))
      ++ ['e', '-'] ++ padLeft '0' 2 (natStr k)

/-- `"{:.2}".format(q)` for a float with `0 ≤ q ≤ 1` (CPython `float.__format__` with
precision 2 and no type): two significant digits of the exact value, ties to even.
(Python semantics, for src/extractors.py:85 and 96.) -/
def fmt2 (q : Rat) : Str :=
  if q = 0 then ['0', '.', '0']
  else
    let k := decShift 400 q
    let d := (roundHalfEven (q * 10 ^ (k + 1))).toNat
    -- rounding up to 100 moves the point
    if d = 100 then layout2 10 (k - 1) else layout2 d k

/-- `"{:.2}".format((current_sample / ticks_per_note) % 1)`, extractors.py:85, 96. -/
def fractionText (sample : Nat) (ticks : Int) : Except PyErr Str :=
  match intTrueDiv sample ticks with
  | .error e => .error e
  | .ok (.fin q) => .ok (fmt2 (floatMod1 q))
  | .ok (.inf _) => .error .overflow -- `intTrueDiv` returns no infinity

/-- A channel in the merge: `channel_notes.get(ch)` and what `channel_iters[ch]` has still
to yield. (src/extractors.py:56-63.) -/
structure Slot where
  cur : Option Note
  rest : List Note
  deriving DecidableEq

/-- `channel_notes[ch] = next(it)`, or no entry on `StopIteration`, extractors.py:56-63 and
109-113. -/
def Slot.take : List Note → Slot
  | [] => ⟨none, []⟩
  | n :: rest => ⟨some n, rest⟩

/-- `min(samples)`; `none` for an empty dict, which ends the loop, extractors.py:76-78. -/
def minOf : List Nat → Option Nat
  | [] => none
  | a :: l =>
    match minOf l with
    | none => some a
    | some b => some (if b < a then b else a)

/-- One line of the table, extractors.py:81-87. -/
def csvLine (sample : Nat) (row : Int) (fraction : Str) (cells : List Str) : Str :=
  join [','] ([natStr sample, intStr (Int.fmod row 64), intStr (Int.fdiv row 64), intStr row,
    fraction] ++ cells) ++ ['\n']

/-- `[""] * channel_count`. (src/extractors.py:73, 97 and 101.) -/
def blankRow : List Str := List.replicate 8 []

/-- The lines of the inner `while` loop, extractors.py:89-98: one blank line for every row
strictly between `total_row` and `current_row`. -/
def gapLines (sample : Nat) (totalRow currentRow : Int) (fraction : Str) : List Str :=
  (List.range (currentRow - totalRow - 1).toNat).map
    (fun (i : Nat) => csvLine sample (totalRow + 1 + (i : Int)) fraction blankRow)

/-- The `for ch in range(channel_count)` loop, extractors.py:103-113, over the slots and the
cells of the current line together. -/
def takeRow (ticks currentRow : Int) : List Slot → List Str →
    Except PyErr (List Slot × List Str)
  | s :: slots, cell :: cells =>
    match s.cur with
    | some n =>
      if Int.fdiv n.sample ticks = currentRow then
        match n.str with
        | .error e => .error e
        | .ok text =>
          match takeRow ticks currentRow slots cells with
          | .error e => .error e
          | .ok (slots', cells') => .ok (Slot.take s.rest :: slots', text :: cells')
      else
        match takeRow ticks currentRow slots cells with
        | .error e => .error e
        | .ok (slots', cells') => .ok (s :: slots', cell :: cells')
    | none =>
      match takeRow ticks currentRow slots cells with
      | .error e => .error e
      | .ok (slots', cells') => .ok (s :: slots', cell :: cells')
  | slots, cells => .ok (slots, cells)

/-- The loop, extractors.py:76-113: `out` is what has been written. The result is what was
written in the end, with the exception that ended it. `none` only if the bound is hit (never,
see `c45_terminates`). -/
def csvLoop (ticks : Int) : Nat → List Slot → Int → List Str → List Str →
    Option (List Str × Option PyErr)
  | 0, _, _, _, _ => none
  | fuel + 1, slots, totalRow, noteRow, out =>
    match minOf (slots.filterMap (fun s => s.cur.map (·.sample))) with
    | none => some (out, none)
    | some currentSample =>
      if ticks = 0 then some (out, some .zeroDivision)
      else
        let currentRow := Int.fdiv currentSample ticks
        if currentRow ≠ totalRow then
          match fractionText currentSample ticks with
          | .error e => some (out, some e)
          | .ok fraction =>
            let out' := out ++ [csvLine currentSample totalRow fraction noteRow] ++
              gapLines currentSample totalRow currentRow fraction
            match takeRow ticks currentRow slots blankRow with
            | .error e => some (out', some e)
            | .ok (slots', noteRow') => csvLoop ticks fuel slots' currentRow noteRow' out'
        else
          match takeRow ticks currentRow slots noteRow with
          | .error e => some (out, some e)
          | .ok (slots', noteRow') => csvLoop ticks fuel slots' totalRow noteRow' out

/-- The header line, extractors.py:66-69. -/
def csvHeader : Str :=
  join [','] (["Samples".toList, "Row".toList, "Pattern".toList, "Total Row".toList,
    "Fraction".toList] ++ (List.range 8).map (fun i => "Channel ".toList ++ natStr (i + 1))) ++ ['\n']

/-- `extract_tracks`, extractors.py:53-113: the strings written and the exception, if any.
The bound on the loop is one more than the number of key presses. -/
def extractTracks (s : State) (ticks : Int) : Option (List Str × Option PyErr) :=
  csvLoop ticks (((List.range 8).map (fun ch => (s.keyPressesOf ch).length)).sum + 1)
    ((List.range 8).map (fun ch => Slot.take (s.keyPressesOf ch))) 0 blankRow [csvHeader]

end VgmX
