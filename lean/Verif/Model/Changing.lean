import Verif.Model.Io
/-
`main` on an input that somebody else changes while it is read: rewritten, cut, appended to,
replaced, in place or through a pipe. `Io.Seen` lists the ways a program (Model/Io) can end if
every read may be answered with any bytes at all, at most as many as were asked for, or with an
exception; so it covers every way the file may change, and whatever `gzip` makes of a compressed
file that changes.

Simplification: printing is not refused here (see Model/Io for that).
-/

namespace VgmX

variable {α : Type}

/-- `p.Seen d a`: `p` may end with `a` after its reads were answered, one after the other, with the
bytes `d`. (Calls of the input and of `print` in src/main.py:23-44.) -/
inductive Io.Seen : Io α → Bytes → α → Prop
  | ret {a} : Seen (.ret a) [] a
  | read {n err k b d a} : b.length ≤ n → Seen (k b) d a → Seen (.read n err k) (b ++ d) a
  | readRaised {n err k} (e : PyErr) : Seen (.read n err k) [] (err e)
  | seek {p err k d a} : Seen k d a → Seen (.seek p err k) d a
  | seekRaised {p err k} (e : PyErr) : Seen (.seek p err k) [] (err e)
  | switch {g k d a} : Seen k d a → Seen (.switch g k) d a
  | print {err k d a} : Seen k d a → Seen (.print err k) d a

/-- The body of `main`'s `with`, src/main.py:29-44, as `bodyIo`, but with the bound on the number
of rounds of `process_vgm_file` as an argument: a file that grows can have any number of commands.
(If the rounds are used up, it raises.) `content` is the file when it was opened. -/
def bodyRounds (rounds : Nat) (env : Env) (instrFilename trackFilename : Option Str)
    (ticks : Option Int) (content : Bytes) (w : World) : Io Res :=
  match env.argsFile with
  | none => .ret (.error .name, w)
  | some argsFile =>
  .print (fun e => (.error e, w))
    (let w := w.print ("Opening file: ".toList ++ argsFile ++ ['\n'])
    .switch (fun _ => ⟨content, 0, none⟩)
      (readerIo env.inflate w.clocks (fun e c => (.error e, { w with clocks := c }))
        (.error .type, w)
        (fun clocks =>
          let w := { w with clocks := clocks }
          processIo (fun e => (.error e, w))
            (fun s => ticksIo ticks s w (fun t w =>
              .print (fun e => (.error e, w))
                (outputsIo env instrFilename trackFilename s t
                  (w.print ("Ticks per Note: ".toList ++ intStr t ++ ['\n'])))))
            rounds State.init)))

/-- `main`, src/main.py:23-44, with an input file, as `mainIo`, with a bound on the rounds. -/
def mainRounds (rounds : Nat) (env : Env) (vgmFilename : Str)
    (instrFilename trackFilename : Option Str) (ticks : Option Int) (w : World) : Io Res :=
  match openFile env w vgmFilename ['r', 'b'] with
  | (.error e, w) => .ret (.error e, w)
  | (.ok fh, w) =>
    (bodyRounds rounds env instrFilename trackFilename ticks ((w.fs vgmFilename).getD []) w).map
      (fun x => (x.1, x.2.close fh))

end VgmX
