import Verif.Model.Colours
/-
Colours as values.
-/

namespace VgmX.Spec

/-- The colours a configuration says. -/
structure Colours where
  tracks : List Str
  master : Str
  send : Str
  deriving DecidableEq

/-- The colours of a new configuration. -/
def standardColours : Colours where
  tracks := ["166,41,41".toList, "166,80,41".toList, "166,118,41".toList, "166,144,41".toList,
    "161,166,41".toList, "118,166,47".toList, "71,166,47".toList, "63,166,106".toList]
  master := "220,220,220".toList
  send := "41,166,153".toList

/-- What configuration `c` says. -/
def coloursOf (p : Studio) (c : Nat) : Option Colours :=
  match p.confs[c]? with
  | none => none
  | some o =>
    match p.lists[o.tracks]? with
    | none => none
    | some l => some ⟨l, o.master, o.send⟩

/-- The call assigns to configuration `c` or its list, or gives another one the same list. -/
def recolours (c : Nat) : StudioCall → Bool
  | .assign d _ => d = c
  | .share d e => d = c ∨ e = c
  | .setItem d _ _ => d = c
  | .append d _ => d = c
  | .delItem d _ => d = c
  | .setMaster d _ => d = c
  | .setSend d _ => d = c
  | _ => false

/-- The call gives serializer `s` another configuration. -/
def reconfigures (s : Nat) : StudioCall → Bool
  | .setConf t _ => t = s
  | _ => false

/-- A document without its colours. -/
def uncoloured (d : DaoSong) : DaoSong :=
  { d with tracks :=
    { sequencerTrack := d.tracks.sequencerTrack.map ({ · with color := none })
      sequencerMasterTrack := d.tracks.sequencerMasterTrack.map ({ · with color := none })
      sequencerSendTrack := d.tracks.sequencerSendTrack.map ({ · with color := none }) } }

/-- The tracks of the document have these colours: as many as there are, the others none. -/
def Painted (k : Colours) (d : DaoSong) : Prop :=
  (∀ (i : Nat) t, d.tracks.sequencerTrack[i]? = some t → t.color = k.tracks[i]?) ∧
  (∀ t ∈ d.tracks.sequencerMasterTrack, t.color = some k.master) ∧
  (∀ t ∈ d.tracks.sequencerSendTrack, t.color = some k.send)

end VgmX.Spec
