import Verif.Spec.EndToEnd
/-
A score, and how to write it as a recording: for every stroke a wait, all registers of its
instrument and pitch (from the register map of the YM2151), and the key. Of the model it uses
the record types.
-/

namespace VgmX.Spec

/-- A key event of a score, so many samples after the one before: channel, instrument (its
`operators` say which of the operators are on, none for a key-off), pitch and panning. -/
structure Stroke where
  wait : Nat
  ch : Nat
  patch : Patch
  pitch : NoteConfig
  deriving Repr

def bit (b : Bool) (n : Nat) : Nat := if b then n else 0

def waveCode : Waveform → Nat
  | .saw => 0 | .square => 1 | .triangle => 2 | .noise => 3

/-- The registers of operator slot `k` of channel `c`. -/
def operatorWrites (c k : Nat) (o : OperatorConfig) : List (Nat × Nat) :=
  [(0x40 + 8 * k + c, 16 * o.firstDetune + o.multiply),
   (0x60 + 8 * k + c, o.totalLevel),
   (0x80 + 8 * k + c, 64 * o.keyScale + o.attackRate),
   (0xA0 + 8 * k + c, bit o.ase 128 + o.firstDecayRate),
   (0xC0 + 8 * k + c, 64 * o.secondDetune + o.secondDecayRate),
   (0xE0 + 8 * k + c, 16 * o.firstDecayLevel + o.releaseRate)]

/-- The registers that are set for a stroke, but for 0x19 and the key. -/
def settings (s : Stroke) : List (Nat × Nat) :=
  [(0x18, s.patch.base.lfo), (0x1B, waveCode s.patch.base.waveform),
   (0x20 + s.ch, bit s.pitch.right 128 + bit s.pitch.left 64 + 8 * s.patch.channel.fb
      + s.patch.channel.connection),
   (0x28 + s.ch, 16 * s.pitch.octave + s.pitch.note), (0x30 + s.ch, 4 * s.pitch.keyFraction),
   (0x38 + s.ch, 16 * s.patch.channel.pms + s.patch.channel.ams)]
  ++ (if s.ch = 7 then [(0x0F, bit s.patch.channel.noise 128 + s.patch.channel.noiseFreq)] else [])
  ++ (s.patch.channel.operators.mapIdx (operatorWrites s.ch)).flatten

/-- All register writes of a stroke. -/
def strokeWrites (s : Stroke) : List (Nat × Nat) :=
  settings s ++ [(0x19, s.patch.base.ampMd), (0x19, 128 + s.patch.base.phsMd),
    (0x08, 8 * s.patch.operators + s.ch)]

/-- A wait as waits of at most 65535 samples. -/
def waits (n : Nat) : List Nat := List.replicate (n / 65535) 65535 ++ [n % 65535]

/-- The score as events. -/
def play (l : List Stroke) : List Event :=
  l.flatMap fun s => (waits s.wait).map .wait ++ (strokeWrites s).map (fun x => .write x.1 x.2)

/-- The score as VGM commands: 0x61 for the waits, 0x54 for the writes, and the end. -/
def playBytes (l : List Stroke) : Bytes :=
  (l.flatMap fun s =>
    (waits s.wait).flatMap (fun n => [0x61, (n % 256).toUInt8, (n / 256).toUInt8]) ++
    (strokeWrites s).flatMap (fun x => [0x54, x.1.toUInt8, x.2.toUInt8])) ++ [0x66]

/-- What the registers can hold. D2R has five bits, of which the extractor keeps four; only channel 7
has a noise generator. -/
structure OperatorFits (o : OperatorConfig) : Prop where
  totalLevel : o.totalLevel < 128
  attackRate : o.attackRate < 32
  firstDecayRate : o.firstDecayRate < 32
  firstDecayLevel : o.firstDecayLevel < 16
  secondDecayRate : o.secondDecayRate < 16
  releaseRate : o.releaseRate < 16
  keyScale : o.keyScale < 4
  multiply : o.multiply < 16
  firstDetune : o.firstDetune < 8
  secondDetune : o.secondDetune < 4

structure StrokeFits (s : Stroke) : Prop where
  ch : s.ch < 8
  operators : s.patch.operators < 16
  lfo : s.patch.base.lfo < 256
  ampMd : s.patch.base.ampMd < 128
  phsMd : s.patch.base.phsMd < 128
  four : s.patch.channel.operators.length = 4
  each : ∀ o ∈ s.patch.channel.operators, OperatorFits o
  fb : s.patch.channel.fb < 8
  connection : s.patch.channel.connection < 8
  pms : s.patch.channel.pms < 8
  ams : s.patch.channel.ams < 4
  noiseFreq : s.patch.channel.noiseFreq < 32
  noise : s.ch ≠ 7 → s.patch.channel.noise = false ∧ s.patch.channel.noiseFreq = 0
  octave : s.pitch.octave < 8
  note : s.pitch.note < 16
  keyFraction : s.pitch.keyFraction < 64

/-- The strokes with their times, from `now` on. -/
def timed (now : Nat) : List Stroke → List (Nat × Stroke)
  | [] => []
  | s :: l => (now + s.wait, s) :: timed (now + s.wait) l

/-- The strokes from the first key-on after the start on. -/
def heard (l : List Stroke) : List (Nat × Stroke) :=
  (timed 0 l).dropWhile fun x => !decide (x.2.patch.operators ≠ 0 ∧ 0 < x.1)

/-- The instruments of the score, in the order of their first use. -/
def scoreInstruments (l : List Stroke) : List Patch :=
  ((l.filter (fun s => decide (s.patch.operators ≠ 0))).map (·.patch)).eraseDups

/-- The note that the extractor should report for a stroke. -/
def strokeNote (l : List Stroke) (x : Nat × Stroke) : Note where
  configId := if x.2.patch.operators ≠ 0 then ((scoreInstruments l).idxOf x.2.patch : Nat) else -1
  right := x.2.pitch.right
  left := x.2.pitch.left
  octave := x.2.pitch.octave
  note := x.2.pitch.note
  keyFraction := x.2.pitch.keyFraction
  sample := x.1

/-- The strokes of channel `c` on row `row`, at `t` samples per row. -/
def strokesAt (l : List Stroke) (t : Int) (c row : Nat) : List (Nat × Stroke) :=
  (heard l).filter fun x => decide (x.2.ch = c ∧ (x.1 : Int) / t = row)

/-- The note column is that of the stroke: its pitch, the number of its instrument in the score, and
its panning. -/
structure ShowsStroke (l : List Stroke) (s : Stroke) (col : DaoNoteColumn) : Prop where
  off : s.patch.operators = 0 → col.note = ['O', 'f', 'f'] ∧ col.instrument = none
  on : s.patch.operators ≠ 0 → pitchOfName col.note = some (shownPitch s.pitch.octave s.pitch.note) ∧
    ∃ x k, col.instrument = some x ∧ readBase 16 x = some k ∧ (scoreInstruments l)[k]? = some s.patch
  panning : col.panning = match s.pitch.left, s.pitch.right with
    | true, true => none
    | false, true => some ['0', '0']
    | _, false => some ['F', '0']

/-- The song tells the score: a cell is empty iff no stroke falls on it, and shows the last one that
does otherwise. -/
def TellsScore (l : List Stroke) (t : Int) (d : DaoSong) : Prop :=
  ∀ p c r, c < 8 → r < 64 →
    (columnsAt d p c r = none ↔ strokesAt l t c (64 * p + r) = []) ∧
    ∀ x, (strokesAt l t c (64 * p + r)).getLast? = some x →
      ∃ col, columnsAt d p c r = some [col] ∧ ShowsStroke l x.2 col

/-- The key events as strokes, the time being `now`. -/
def scoreFrom (now : Nat) : List KeyEvent → List Stroke
  | [] => []
  | e :: l => ⟨e.time - now, e.ch, e.patch, e.noteConfig⟩ :: scoreFrom e.time l

/-- The score of a recording: its key events, with what the chip's registers are at each. -/
def scoreOf (h : List Event) : List Stroke := scoreFrom 0 (keyEvents h)

/-- A header: VGM 1.51, the commands at 0x40. -/
def sampleHeader : Bytes :=
  [0x56, 0x67, 0x6d, 0x20, 0, 0, 0, 0, 0x51, 0x01, 0, 0, 0, 0, 0, 0] ++ List.replicate 32 0
    ++ [0x99, 0x9e, 0x36, 0, 0x0c, 0, 0, 0, 0, 0, 0, 0, 0, 0, 0, 0]

end VgmX.Spec
