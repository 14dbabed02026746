import Verif.Model.State
/-
Specification of what the extractor should know after a history of register writes and
waits. It is written from the YM2151 register map (addresses as base + 8*slot + channel,
fields as quotient/remainder of the byte) and from the English properties; of the model
it uses only the record types.
-/

namespace VgmX.Spec

/-- What the extractor observes of a VGM stream. -/
inductive Event where
  | write (reg value : Nat)
  | wait (samples : Nat)
  deriving DecidableEq, Repr

/-- All operands are bytes. -/
def Event.IsByte : Event → Prop
  | .write r v => r < 256 ∧ v < 256
  | .wait _ => True

instance (e : Event) : Decidable e.IsByte := by
  cases e <;> unfold Event.IsByte <;> infer_instance

/-- A history whose register writes are byte-valued. -/
def ByteHistory (h : List Event) : Prop := ∀ e ∈ h, e.IsByte

instance (h : List Event) : Decidable (ByteHistory h) := by
  unfold ByteHistory; infer_instance

/-- Values written to `reg` that satisfy `p`, oldest first. -/
def writesTo (h : List Event) (reg : Nat) (p : Nat → Bool := fun _ => true) : List Nat :=
  h.filterMap fun
    | .write r v => if r = reg ∧ p v then some v else none
    | .wait _ => none

/-- The last value written to `reg`; 0 if there was none. -/
def regVal (h : List Event) (reg : Nat) : Nat := (writesTo h reg).getLast?.getD 0

/-- Time: the sum of all waits. -/
def time (h : List Event) : Nat :=
  (h.map fun | .write _ _ => 0 | .wait n => n).sum

/-- Global settings. 0x19 holds two fields, selected by bit 7 of the value. -/
def base (h : List Event) : BaseConfig where
  waveform := match regVal h 0x1B % 4 with
    | 0 => .saw | 1 => .square | 2 => .triangle | _ => .noise
  lfo := regVal h 0x18
  ampMd := (writesTo h 0x19 (fun v => decide (v < 128))).getLast?.getD 0
  phsMd := (writesTo h 0x19 (fun v => decide (128 ≤ v))).getLast?.getD 0 % 128

/-- Settings of operator slot `k` (0 = M1, 1 = M2, 2 = C1, 3 = C2) of channel `ch`.
`d2r` is how the D2R field is taken from the byte at 0xC0; the data sheet says `% 32`. -/
def operatorWith (d2r : Nat → Nat) (h : List Event) (ch k : Nat) : OperatorConfig where
  firstDetune := regVal h (0x40 + 8 * k + ch) / 16 % 8
  multiply := regVal h (0x40 + 8 * k + ch) % 16
  totalLevel := regVal h (0x60 + 8 * k + ch) % 128
  keyScale := regVal h (0x80 + 8 * k + ch) / 64
  attackRate := regVal h (0x80 + 8 * k + ch) % 32
  ase := decide (128 ≤ regVal h (0xA0 + 8 * k + ch))
  firstDecayRate := regVal h (0xA0 + 8 * k + ch) % 32
  secondDetune := regVal h (0xC0 + 8 * k + ch) / 64
  secondDecayRate := d2r (regVal h (0xC0 + 8 * k + ch))
  firstDecayLevel := regVal h (0xE0 + 8 * k + ch) / 16
  releaseRate := regVal h (0xE0 + 8 * k + ch) % 16

/-- Settings of channel `ch`; the noise generator belongs to channel 7 (0-based). -/
def channelWith (d2r : Nat → Nat) (h : List Event) (ch : Nat) : ChannelConfig where
  operators := [operatorWith d2r h ch 0, operatorWith d2r h ch 1,
                operatorWith d2r h ch 2, operatorWith d2r h ch 3]
  fb := regVal h (0x20 + ch) / 8 % 8
  connection := regVal h (0x20 + ch) % 8
  pms := regVal h (0x38 + ch) / 16 % 8
  ams := regVal h (0x38 + ch) % 4
  noise := decide (ch = 7 ∧ 128 ≤ regVal h 0x0F)
  noiseFreq := if ch = 7 then regVal h 0x0F % 32 else 0

/-- The data sheet: D2R is five bits wide. -/
def channelDatasheet := channelWith (· % 32)

/-- What the extractor keeps: only four bits of D2R (state.py:143-145). -/
def channel := channelWith (· % 16)

/-- Pitch and panning of channel `ch`: RL at 0x20, KC at 0x28, KF at 0x30. -/
def noteConfig (h : List Event) (ch : Nat) : NoteConfig where
  right := decide (128 ≤ regVal h (0x20 + ch))
  left := decide (64 ≤ regVal h (0x20 + ch) % 128)
  octave := regVal h (0x28 + ch) / 16 % 8
  note := regVal h (0x28 + ch) % 16
  keyFraction := regVal h (0x30 + ch) / 4

/-- A patch: everything that makes up an instrument. -/
structure Patch where
  base : BaseConfig
  channel : ChannelConfig
  operators : Nat
  deriving DecidableEq, Repr

/-- A key on/off event with the chip settings at that moment. -/
structure KeyEvent where
  time : Nat
  ch : Nat
  patch : Patch
  noteConfig : NoteConfig
  deriving DecidableEq, Repr

/-- Key-on: some operator is enabled. -/
def KeyEvent.isOn (e : KeyEvent) : Prop := e.patch.operators ≠ 0

instance (e : KeyEvent) : Decidable e.isOn := by unfold KeyEvent.isOn; infer_instance

/-- The key event of writing `v` to 0x08 after the history `past`. -/
def keyEventAt (past : List Event) (v : Nat) : KeyEvent where
  time := time past
  ch := v % 8
  patch := ⟨base past, channel past (v % 8), v / 8 % 16⟩
  noteConfig := noteConfig past (v % 8)

/-- All key events of a history, in order: the `i`-th event is a write to 0x08, and the
settings are those after the first `i` events. -/
def keyEvents (h : List Event) : List KeyEvent :=
  (List.range h.length).filterMap fun i =>
    match h[i]? with
    | some (Event.write r v) => if r = 0x08 then some (keyEventAt (h.take i) v) else none
    | _ => none

/-- The patches of all key-on events, in order. -/
def patchesKeyedOn (h : List Event) : List Patch :=
  ((keyEvents h).filter (fun e => decide e.isOn)).map (·.patch)

/-- The distinct patches keyed on, in order of first use. -/
def instruments (h : List Event) : List Patch := (patchesKeyedOn h).eraseDups

/-- Key events that the extractor records: those with index `i` such that some key-on with
index at most `i` happened at a time > 0. -/
def recorded (h : List Event) : List KeyEvent :=
  (List.range (keyEvents h).length).filterMap fun i =>
    if ((keyEvents h).take (i + 1)).any (fun e => decide (e.isOn ∧ 0 < e.time))
    then (keyEvents h)[i]? else none

/-- The note a key event leaves, its instrument number being the position of its patch in
the final instrument list, or -1 for a key-off. -/
def noteOf (h : List Event) (e : KeyEvent) : Note where
  configId := if e.isOn then ((instruments h).idxOf e.patch : Nat) else -1
  right := e.noteConfig.right
  left := e.noteConfig.left
  octave := e.noteConfig.octave
  note := e.noteConfig.note
  keyFraction := e.noteConfig.keyFraction
  sample := e.time

/-- The key presses of channel `ch`. -/
def keyPresses (h : List Event) (ch : Nat) : List Note :=
  ((recorded h).filter (·.ch = ch)).map (noteOf h)

end VgmX.Spec

namespace VgmX
open Spec

/-- The API calls a history stands for: `st.apply(create(reg, value))` and `st.beat(n)`. -/
def State.step (s : State) : Event → State
  | .write r v => s.apply r v
  | .wait n => s.beat n

/-- The state after a history, from a fresh `State()`. -/
def run (h : List Event) : State := h.foldl State.step State.init

end VgmX
