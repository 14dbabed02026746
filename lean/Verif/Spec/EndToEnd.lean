import Verif.Spec.Ym2151
import Verif.Spec.Song
/-
What a cell of the exported song should say about the register writes, without going through
the notes the program keeps: used for the end-to-end properties (C64, C65). Of the model it
uses the types of the data objects and of the chip settings only.
-/

namespace VgmX.Spec

/-- The key events of channel `c` on row `row` of the song, at `t` samples per row. -/
def eventsAt (h : List Event) (t : Int) (c : Nat) (row : Nat) : List KeyEvent :=
  (recorded h).filter (fun e => decide (e.ch = c ∧ (e.time : Int) / t = row))

/-- The pitch shown for a key code. For the twelve codes that stand for a note it is that
note; codes 3 and 7 show as the code below, 11 as the code above, and 15 as the lowest note of
its octave. -/
def shownPitch (octave note : Nat) : Nat :=
  if note = 15 then keyCodePitch octave 0
  else if note = 11 then keyCodePitch octave 12
  else if note % 4 = 3 then keyCodePitch octave (note - 1)
  else keyCodePitch octave note

/-- The note column says what happened: a key release is `Off` without instrument, a key press
has the pitch of the key code at that time, and as instrument number, in hexadecimal, the
position of the patch the chip was set to in the list of all patches. The panning column is
blank if both speakers are on. -/
structure ShowsEvent (h : List Event) (e : KeyEvent) (col : DaoNoteColumn) : Prop where
  off : ¬ e.isOn → col.note = ['O', 'f', 'f'] ∧ col.instrument = none
  on : e.isOn → pitchOfName col.note = some (shownPitch e.noteConfig.octave e.noteConfig.note) ∧
    ∃ s k, col.instrument = some s ∧ readBase 16 s = some k ∧ (instruments h)[k]? = some e.patch
  panning : col.panning = match e.noteConfig.left, e.noteConfig.right with
    | true, true => none
    | false, true => some ['0', '0']
    | _, false => some ['F', '0']

/-- The song says, row by row and channel by channel, what happened: a cell is empty iff
nothing did, and shows the last event of its row otherwise. -/
def Tells (h : List Event) (t : Int) (d : DaoSong) : Prop :=
  ∀ p c r, c < 8 → r < 64 →
    (columnsAt d p c r = none ↔ eventsAt h t c (64 * p + r) = []) ∧
    ∀ e, (eventsAt h t c (64 * p + r)).getLast? = some e →
      ∃ col, columnsAt d p c r = some [col] ∧ ShowsEvent h e col

/-- The instrument number of a CSV note such as `C#-4-08 [3] Pan R`. -/
def instrumentOfCsv (s : List Char) : Option Nat :=
  readBase 10 (((s.dropWhile (fun c => decide (c ≠ '['))).drop 1).takeWhile isDec)

/-- The panning text of a CSV note: what follows `] `. -/
def panningOfCsv (s : List Char) : List Char := (s.dropWhile (fun c => decide (c ≠ ']'))).drop 2

/-- A CSV cell and a note column that say the same of a key press: the same letter; `#` for
sharp in both, and for a code that is no note `?` in the CSV; the same octave, but one more in
the note column for the note C (the CSV counts from C sharp); the same instrument number,
decimal in one, hexadecimal in the other; the same panning. -/
structure SameNote (cell : List Char) (col : DaoNoteColumn) : Prop where
  name : ∃ l a, cell.take 2 = [l, a] ∧ (a = ' ' ∨ a = '#' ∨ a = '?') ∧
    col.note.take 2 = [l, if a = ' ' then '-' else '#']
  octave : ∃ o, octaveOfCsv cell = some o ∧
    octaveOfName col.note = some (if cell.take 2 = ['C', ' '] then o + 1 else o)
  instrument : ∃ k s, instrumentOfCsv cell = some k ∧ col.instrument = some s ∧
    readBase 16 s = some k
  panning : (col.panning = none ∧ panningOfCsv cell = []) ∨
    (col.panning = some ['0', '0'] ∧ panningOfCsv cell = ['P', 'a', 'n', ' ', 'R']) ∨
    (col.panning = some ['F', '0'] ∧ panningOfCsv cell = ['P', 'a', 'n', ' ', 'L'])

end VgmX.Spec
