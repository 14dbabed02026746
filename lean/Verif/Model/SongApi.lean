import Verif.Model.Xrns
/-
Model of the classes of `src/xrns/parts` as a library: a song is made, filled by any sequence of
calls, and rendered. Model/Xrns has the same classes for the calls that the extractor makes, where
a call that raises ends everything; here a caller may catch the exception and go on, so what a
failing call leaves behind matters.
-/

namespace VgmX

/-- A call on a song: `song.pattern_pool.add_note(..)` (parts/pattern.py:42-55) or
`song.pattern_sequence.add_pattern(..)` (parts/pattern_sequence.py:12-13). -/
inductive SongCall where
  | addNote (pattern channel line : Int) (content : Line)
  | addPattern (pattern : Nat)
  deriving DecidableEq

/-- `while pattern >= len(self.patterns): self.patterns.append(..)`, parts/pattern.py:51-52:
the loop runs once for every missing pattern. -/
def PatternPool.extend (pool : PatternPool) (pattern : Int) : PatternPool :=
  { pool with
    patterns := pool.patterns ++ List.replicate ((pattern + 1).toNat - pool.patterns.length)
      (Pattern.new pool.tracks pool.linesPerTrack) }

/-- `PatternPool.add_note`, parts/pattern.py:42-55, with the pool it leaves in either case. -/
def PatternPool.addNoteCall (pool : PatternPool) (pattern channel line : Int) (content : Line) :
    Except PyErr Unit × PatternPool :=
  let pool := pool.extend pattern
  match pyPos pool.patterns.length pattern with
  | none => (.error .index, pool)
  | some p =>
    match pyPos (pool.patterns[p]?.elim 0 (·.tracks.length)) channel with
    | none => (.error .index, pool)
    | some c =>
      (.ok (), { pool with
        patterns := pool.patterns.modify p (fun pat =>
          { pat with tracks := pat.tracks.modify c (fun tr =>
            { tr with lines := dictSet line content tr.lines }) }) })

/-- A call, with the song it leaves. (parts/pattern.py:42-55, parts/pattern_sequence.py:12-13.) -/
def Song.call (s : Song) : SongCall → Except PyErr Unit × Song
  | .addNote pattern channel line content =>
    let r := s.patternPool.addNoteCall pattern channel line content
    (r.1, { s with patternPool := r.2 })
  | .addPattern p => (.ok (), s.addPattern p)

/-- `Song(tracks=t, instruments=i, lines_per_track=l)`, parts/song.py:11-18, for any integers:
`range(t)` and `[..] * i` are empty for negative numbers. -/
def Song.make (tracks instruments : Int) (linesPerTrack : Nat) : Song :=
  Song.new tracks.toNat instruments.toNat linesPerTrack

/-- A caller that makes the calls one after the other and catches every exception: the results of
the calls and the song. (parts/pattern.py:42-55, parts/pattern_sequence.py:12-13.) -/
def Song.calls : Song → List SongCall → List (Except PyErr Unit) × Song
  | s, [] => ([], s)
  | s, c :: cs =>
    let r := s.call c
    let rest := r.2.calls cs
    (r.1 :: rest.1, rest.2)

end VgmX
