import Verif.Model.Xrns
/-
`XrnsSerializer` with a `SerializerConfig` of the caller's: which colours the tracks of a document
get, and who shares a configuration with whom (src/xrns/xrns_serializer.py:17-36, 91-158, and the
use in src/xrns/writer.py:14-15).

Simplifications: the attribute `defaults`, which nothing reads, is left out; colours are strings;
lists of colours are changed by assigning to an index, `append` and `del`.
-/

namespace VgmX

/-- `SerializerConfig`: the attribute `track_colors` is a reference to a list.
(src/xrns/xrns_serializer.py:17-32.) -/
structure ColourConf where
  tracks : Nat
  master : Str := "220,220,220".toList
  send : Str := "41,166,153".toList
  deriving DecidableEq

/-- All lists of colours, all configurations, and the configuration of every serializer.
(src/xrns/xrns_serializer.py:17-36.) -/
structure Studio where
  lists : List (List Str)
  confs : List ColourConf
  sers : List Nat
  deriving DecidableEq

/-- After the import: the configuration that is the default argument of `XrnsSerializer.__init__`,
made once. (src/xrns/xrns_serializer.py:35.) -/
def Studio.start : Studio where
  lists := [trackColors]
  confs := [{ tracks := 0 }]
  sers := []

/-- `_render_master_track` with the colour of the configuration,
src/xrns/xrns_serializer.py:130-144. -/
def renderMasterWith (colour : Str) (t : SequencerTrack) : DaoTrack where
  name := t.name
  color := some colour
  colorBlend := 0
  state := t.state
  soloed := t.soloed
  panningColumnIsVisible := none
  devices := [.masterTrackMixer]

/-- `_render_send_track` with the colour of the configuration,
src/xrns/xrns_serializer.py:146-158. -/
def renderSendWith (colour : Str) (t : SequencerTrack) : DaoTrack where
  name := t.name
  color := some colour
  colorBlend := 0
  state := t.state
  soloed := t.soloed
  panningColumnIsVisible := none
  devices := [.sendTrackMixer]

/-- `XrnsSerializer.render` with these colours: src/xrns/xrns_serializer.py:38-60, 91-104. -/
def renderWith (tracks : List Str) (master send : Str) (s : Song) : DaoSong where
  globalSongData := renderGlobals s.globals
  instruments := s.instruments.map (fun _ => {})
  tracks :=
    { sequencerTrack := renderSeqTracks s.tracks.tracks tracks
      sequencerMasterTrack := s.tracks.masterTracks.map (renderMasterWith master)
      sequencerSendTrack := s.tracks.sendTracks.map (renderSendWith send) }
  patterns := s.patternPool.patterns.map renderPattern
  sequenceEntries := s.patternSequence

/-- What the caller does. Configurations and serializers are numbered in the order in which they were
made (configuration 0: the default argument, which is `XrnsSerializer().config`).
(src/xrns/xrns_serializer.py:17-60, src/xrns/writer.py:12-15.) -/
inductive StudioCall where
  /-- `SerializerConfig()` -/
  | newConf
  /-- `XrnsSerializer(c)`, `XrnsSerializer()` -/
  | newSer (c : Option Nat)
  /-- `s.config = c` -/
  | setConf (s c : Nat)
  /-- `c.track_colors = [..]` -/
  | assign (c : Nat) (l : List Str)
  /-- `c.track_colors = d.track_colors` -/
  | share (c d : Nat)
  /-- `c.track_colors[i] = colour` -/
  | setItem (c i : Nat) (colour : Str)
  /-- `c.track_colors.append(colour)` -/
  | append (c : Nat) (colour : Str)
  /-- `del c.track_colors[i]` -/
  | delItem (c i : Nat)
  /-- `c.master_track_color = colour` -/
  | setMaster (c : Nat) (colour : Str)
  /-- `c.send_track_color = colour` -/
  | setSend (c : Nat) (colour : Str)
  /-- `s.render(song)` -/
  | render (s : Nat) (song : Song)
  /-- `xrns.writer.writer(f, song)`, up to the document -/
  | write (song : Song)

/-- What a call gives; `unbound` if it names something that there is not (not a call that can be
made). (src/xrns/xrns_serializer.py:17-60.) -/
inductive StudioGot where
  | done
  | made (n : Nat)
  | document (d : DaoSong)
  | raised (e : PyErr)
  | unbound
  deriving DecidableEq

/-- `XrnsSerializer(c).render(song)`, src/xrns/xrns_serializer.py:38-60: the iterator over the
colours is a new one (92). -/
def Studio.rendered (p : Studio) (c : Nat) (song : Song) : StudioGot :=
  match p.confs[c]? with
  | none => .unbound
  | some o => .document (renderWith ((p.lists[o.tracks]?).getD []) o.master o.send song)

/-- One call. (src/xrns/xrns_serializer.py:17-60, src/xrns/writer.py:12-15.) -/
def Studio.call (p : Studio) : StudioCall → StudioGot × Studio
  | .newConf =>
    (.made p.confs.length,
      { p with lists := p.lists ++ [trackColors], confs := p.confs ++ [{ tracks := p.lists.length }] })
  | .newSer c =>
    -- `config=SerializerConfig()`
    if c.getD 0 < p.confs.length then (.made p.sers.length, { p with sers := p.sers ++ [c.getD 0] })
    else (.unbound, p)
  | .setConf s c =>
    if s < p.sers.length ∧ c < p.confs.length then (.done, { p with sers := p.sers.set s c })
    else (.unbound, p)
  | .assign c l =>
    match p.confs[c]? with
    | none => (.unbound, p)
    | some o =>
      (.done, { p with lists := p.lists ++ [l], confs := p.confs.set c { o with tracks := p.lists.length } })
  | .share c d =>
    match p.confs[c]?, p.confs[d]? with
    | some o, some o' => (.done, { p with confs := p.confs.set c { o with tracks := o'.tracks } })
    | _, _ => (.unbound, p)
  | .setItem c i colour =>
    match p.confs[c]? with
    | none => (.unbound, p)
    | some o =>
      let l := (p.lists[o.tracks]?).getD []
      if i < l.length then (.done, { p with lists := p.lists.set o.tracks (l.set i colour) })
      else (.raised .index, p)
  | .append c colour =>
    match p.confs[c]? with
    | none => (.unbound, p)
    | some o =>
      (.done, { p with lists := p.lists.set o.tracks ((p.lists[o.tracks]?).getD [] ++ [colour]) })
  | .delItem c i =>
    match p.confs[c]? with
    | none => (.unbound, p)
    | some o =>
      let l := (p.lists[o.tracks]?).getD []
      if i < l.length then (.done, { p with lists := p.lists.set o.tracks (l.eraseIdx i) })
      else (.raised .index, p)
  | .setMaster c colour =>
    match p.confs[c]? with
    | none => (.unbound, p)
    | some o => (.done, { p with confs := p.confs.set c { o with master := colour } })
  | .setSend c colour =>
    match p.confs[c]? with
    | none => (.unbound, p)
    | some o => (.done, { p with confs := p.confs.set c { o with send := colour } })
  | .render s song =>
    match p.sers[s]? with
    | none => (.unbound, p)
    | some c => (p.rendered c song, p)
  | .write song => (p.rendered 0 song, p)

/-- Some calls, one after the other. (src/xrns/xrns_serializer.py:17-60.) -/
def Studio.calls (p : Studio) : List StudioCall → Studio
  | [] => p
  | c :: cs => (p.call c).2.calls cs

end VgmX
