import Verif.Spec.Alike
/-
Recordings that have a part in common: played again (a loop), or cut out (what VGM trimmers do: the
chip's registers are set to what they were, then the part follows). Of the model it uses the
record types and the instruments of a state.
-/

namespace VgmX.Spec

/-- After `p` and after `q` the chip has the same settings: every register but the key register
has been written last with the same value (0, if never written); register 0x19 has two, selected by
bit 7. -/
structure SameSettings (p q : List Event) : Prop where
  registers : ∀ r, r ≠ 0x08 → r ≠ 0x19 → regVal p r = regVal q r
  low : (writesTo p 0x19 (fun v => decide (v < 128))).getLast?.getD 0
    = (writesTo q 0x19 (fun v => decide (v < 128))).getLast?.getD 0
  high : (writesTo p 0x19 (fun v => decide (128 ≤ v))).getLast?.getD 0
    = (writesTo q 0x19 (fun v => decide (128 ≤ v))).getLast?.getD 0

/-- The part `t`, `n` times. -/
def again (n : Nat) (t : List Event) : List Event := (List.replicate n t).flatten

/-- No key is pressed. -/
def NoKeyOn (h : List Event) : Prop := ∀ v, Event.write 8 v ∈ h → v / 8 % 16 = 0

/-- The settings after `p` without its music: its register writes, all at once, but for the key
register. -/
def settingsOnly (p : List Event) : List Event :=
  p.filter fun
    | .write r _ => decide (r ≠ 8)
    | .wait _ => false

/-- The note `n` of the one state and `n'` of the other are the same note, at the times `d` and `d'`
before them: the same pitch and panning, and both key-offs or both with equal instruments, whatever
the numbers of these. -/
structure NoteAgain (s s' : State) (d d' : Nat) (n n' : Note) : Prop where
  time : n.sample + d' = n'.sample + d
  right : n'.right = n.right
  left : n'.left = n.left
  octave : n'.octave = n.octave
  note : n'.note = n.note
  keyFraction : n'.keyFraction = n.keyFraction
  instrument : (n.configId = -1 ∧ n'.configId = -1) ∨
    ∃ i i' : Nat, ∃ c c', n.configId = i ∧ n'.configId = i' ∧ s.configs[i]? = some c ∧
      s'.configs[i']? = some c' ∧ c'.base = c.base ∧ c'.operators = c.operators ∧
      c'.channel = c.channel

end VgmX.Spec
