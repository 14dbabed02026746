# Formal model of cybermats/vgm_extractor — design and trusted base

## 1. What is modelled, and how

Lean 4, `lean/Verif`. The model is a shallow embedding: every Python function is a Lean
function on values, with `Except PyErr` for exceptions. Every definition in `Model/*` cites the
file and lines it models and says where it simplifies.

| module | models |
|---|---|
| `Model/Reader` | `src/vgm/core.py`, `src/vgm/command.py`: byte streams, `_read*`, `command`, `Vgm`, `reader`, the shared `clocks` table |
| `Model/Config` | `src/vgm/ym2151/config.py`: config records, their `__eq__`, copy constructors, `Config.compare` |
| `Model/State` | `src/vgm/ym2151/state.py`: `State.apply`, `beat`, `ticks`; `src/main.py: process_vgm_file` |
| `Model/Heap` | the same `State.apply` at the level of object references (mutable objects, `copy.deepcopy`, list indexing that can raise) |
| `Model/Multi`, `Model/Live` | several `State` objects in one shared heap; references that callers hold |
| `Model/Float` | the IEEE-754 double operations used (`int/int`, `* 4`, `60 / x`, comparison, `100*x`, `%5.2f`) |
| `Model/Ticks` | `State.ticks_per_note`: its result and what it prints |
| `Model/Text` | decimal and hexadecimal formatting of integers, `str.join` |
| `Model/Note` | `src/vgm/ym2151/note.py` |
| `Model/Xrns` | `src/xrns/parts/*`, `extractors.extract_tracks_to_xrns`, `src/xrns/xrns_serializer.py` (to the tree of data objects) |
| `Model/Xml` | the XML text of that tree: the data classes of `renoise_song65.py` that are used, and xsdata's formatting |
| `Model/Zip` | `src/xrns/writer.py` and the part of CPython's `zipfile` it uses |
| `Model/Csv` | `extractors.extract_tracks` |
| `Model/Json` | `extractors.extract_instruments`, the `repr_json` methods, `json.dumps(indent="\t")` on what they produce |
| `Model/Main` | `src/main.py: main`, `src/tools.py: smart_open`, the file system, standard output |
| `Model/Crash` | the same run as a sequence of operations on files, byte by byte, for a process that is killed |
| `Model/Args` | `src/main.py:47-65`: the argument parser and how `main` is called |
| `Model/Watch`, `Model/Interrupt`, `Model/Feeders`, `Model/Threads` | calls of `State` cut into single changes (and, in Feeders, single reads): other threads that look, exceptions from outside, several threads feeding one state; threads with a state each |
| `Model/WatchExport` | the three exporters of `src/extractors.py` while others feed the state: every `next` and every step of a loop looks at the live list |
| `Model/SharedReader` | `Vgm.__next__` and `command` read by read, several threads on one reader |
| `Model/Ints` | `State.apply` on commands with integers of any sign |
| `Model/Workers` | the loop of `process_vgm_file` run by several threads with one reader and one state |
| `Model/CsvFile`, `Model/SongApi`, `Model/Changing` | `extract_tracks` with its file; the classes of `src/xrns/parts` as a library; `main` on an input that changes during the run |
| `Model/Attr` | attribute access: `State.__getattr__`, `Config.__getattr__`, `copy.deepcopy` of such objects |

`Spec/*` are small specifications (VGM operand-length table, YM2151 register map as quotients and
remainders of the last written value, scores as sizes of sets, pitch numbers, last event of a row,
parsers for JSON, XML, zip and CSV). They use only the types of the model. `Props/*` hold the
property theorems, each next to a concrete `example` that meets the hypotheses. `Lemmas/*` are
helpers.

## 2. Trusted base

* **Lean's kernel** (4.33.0) and its loading of the compiled Mathlib modules that are imported.
* **Axioms.** No axiom is declared. `#print axioms` of all theorems named in MANIFEST.json gives
  subsets of `propext`, `Classical.choice`, `Quot.sound`: most use all three; the others use
  `propext` and `Quot.sound`, `propext` only, or none. No `native_decide`, no `bv_decide`, no
  `ofReduceBool`. `decide +kernel` is used: the kernel itself evaluates the decision procedure.
* **The specifications** in `Spec/*` and the statements in `Props/*`, to be read against
  `properties.jsonl`.
* **The correspondence of model and code**, established by reading only (the code cannot be run
  here). The models of standard-library functions (`argparse`, `zipfile`, `json`, `gzip` reads,
  float division and formatting) were compared with CPython 3.11 on random inputs, without
  differences (`tools/difftest`); so was the stack of buffers of C80 and C81, with random write
  errors. The repository's own tests were transcribed into statements about the model by
  `tools/mkconform.py` (`Conform/Repo.lean`, checked by evaluation; these are tests of the model,
  not proofs of properties); those that do not hold of the code as it is are listed there. What
  the correspondence rests on:

Modelled as in the code: everything in `src/` except what is listed next.

Not modelled, or modelled by assumption:

* `logging` output (one line at level INFO, `src/vgm/core.py:154`)
  (`__str__` of the commands is in C93); the tests and `setup.py`.
* Of `renoise_song65.py` (generated, 21936 lines) only the data classes, fields, defaults and
  element names that `xrns_serializer.py` uses.
* `xsdata`'s formatting (see the header of `Model/Xml`), taken from its documentation; CPython's
  `zipfile`, `json`, `struct`, `argparse`, string formatting and float arithmetic as documented
  (`zipfile` and `argparse` as in CPython 3.11's source).
* `gzip` is a parameter: for every compressed content, what can be decompressed and (if damaged)
  the exception that the read needing more raises (`Model/Damaged`). How much can be decompressed
  is taken not to depend on the sizes of the reads. Read errors of the operating system
  occur in C82 only (there at any read).
* `struct.unpack` with native byte order is taken to be little-endian.
* Files: content plus position; short reads only at the end, except in C96 (there anywhere). Opening a file can fail for any
  reason (parameter `openErr`); writing can fail in C80, C81 and C91 only (there in any way), elsewhere
  writing and closing succeed; a relative name always means the
  same file; two names never mean the same file,
  except in C100 (there any names can). Text is written with `\n` line ends (Linux) and
  standard output accepts everything, except in C82 (there any `print` can fail).
* `zip64` (documents of about 2 GB and more) is a parameter; the theorems about track files
  assume smaller documents.
* The clock is a parameter (any date and time), read once.
* Memory and recursion limits; signals other than killing the process (except C123: an exception from outside between two changes of a command); power failure; changes to
  files by others during a run (except changes of the input, C103).
* Negative waits, and negative values that are kept whole (registers 0x18, 0x19), by the caller only.
* Floats: no NaN, one zero (neither matters to the operations used).

## 3. Plan per property

Reader: C01 big-step relation of the `for` loop, existence and uniqueness by induction on the
remaining bytes. C02 case split on the opcode against the table of the specification; 0x68 and
0x67 with bit 31 refuted by witness and described exactly. C03 induction over the command list
with an encoder in Spec. C04 characterisation of the raising case by induction. C05 case split.
C06, C07 computation on the header bytes; BCD by digit induction. C08 the decompressor is a
parameter. C09 fold over opens, refutation by witness. C10 append lemma for streams, refutations
by witness. C11 induction, refutation.

State: one refinement theorem from `State.apply`/`beat` to a specification over the event history
(register file = last writes; key events = prefixes ending in a write to 0x08); C12, C16, C17,
C19-C25 are corollaries. C13-C15 by case split on the register byte. C18: heap model, simulation
with the pure model (all live objects are distinct; instruments point to private copies). C56
from the fold structure.

Ticks: C27 loop invariant; C28 stable sort and strict monotonicity of correctly rounded division
by a common denominator; C26, C29, C30 corollaries; C66 from the sortedness of the printed list
and a read-back of the printed numbers.

Export: C31-C35, C57 tables and digit induction. C36-C40, C43, C44 invariants of the `add_note`
fold (dictionary with insertion order). C41 rational error bound of double rounding for
non-divisors, kernel evaluation of the finitely many divisors of 661500. C42 read-back function.
C45-C48 loop invariant of the eight-way merge. C49, C50 value-level and text-level read-back (a
JSON parser in Spec). C62 an unzip function in Spec, inverted on the model's output; C63 an XML
parser in Spec, inverted on the model's output. C64, C65 composition of the above.

Program: C51-C55, C58-C61 from a description of every run of `main` (`main_readable`,
`main_unreadable`): result, files written, text printed, files opened and closed. C67 from the
sequence of operations: every prefix is a beginning of the JSON text or an archive without its
end record, and both parsers reject it. C68 the argument parser: refinement to a specification of
the command line. C69 case analysis of the attribute lookup.
C70 every read on a damaged file either agrees with that on any continuation or raises; induction
over the loop.
C71 invariant over the sequence of calls: every track's dictionary is the list of its assignments.
C72 the merge loop raises only on division by zero; the file operations by computation.
C73 error bound of the float division and of the two digit rounding, then reading the decimal text back.
C74, C75 simulation by relocation: every object in the shared heap is the injective image of one that ran alone; a call touches only own or new addresses (frame).
* C76 timed writes: `timedWrites` (Spec/Alike) of two histories equal implies the key events are equal, hence (by the refinement of `run` to the specification) configs, notes and ticks; exporters depend on these only; lifted to `main` with `main_readable`.
* C77 silence: the key events of `.wait d :: h` are those of `h`, later; tempo score is invariant under shifting; the song's cells by the exact form of C36.
* C78 channels: `onChannel f` renames the channels in registers and key values; register values are followed through the renaming, patches are unchanged.
* C79 timing: exact rational times (Spec/Tempo), from the exact tempo of C41.
- C80 (failing writes). Model/Faults.lean gives the file layer that the other models replace by perfect writes: a device that answers every raw write, the buffered writer with its partial writes and its error, the text layer above it, `ZipFile.writestr`/`close` with their seeks, `try/finally`. The proof follows both programs step by step (`Follows`: as long as nothing failed, same result and same file system; once something failed, an error is under way or is raised by the next flush or close).
- C81 (full disk). The device of Spec/Disk.lean. `Appends`/`Filled` describe what a sequence of writes leaves on it; the zip writer needs its own analysis since it seeks back to the header (`ZipLeft`: cut early, cut with the header rewritten, cut late), and each of these is shown not to be a zip file by the reader of C62.
- C82 (refusals). `Model/Io` states the program once more as a tree of operations that can be refused, each with the way the program ends then; `Io.Ends` lists all ways to end. By induction along the tree (`Meets`): the run without refusals is `main`'s, and every refusal on the way meets the condition.
- C83-C86 (related recordings; Spec/Relate.lean, Props/Relate.lean). As C76-C78: the key events of the two histories are related by a map (induction from the end of the history), so instruments, notes and ticks are (C19, C22, C23), and the cells of the two songs (C36). For C83 the loops of the export are compared step by step, so that the whole songs are equal but for the tempo. C85 needs the notes of a channel to be in order of time (C22).
- C87 (runs at the same time; Model/Conc.lean, Props/Conc.lean). A transition system whose state is the file system and the phase of every process (not started, has read this much, has these operations left). Invariant: the outputs of a process are what its first k operations make of them, its input is as at the start until it writes (`Apart`), and other files are as at the start. Proved by induction over the steps; that operations depend on the files only through the input is `ops_congr`.
- C88 (optimised recordings; Spec/Optimise.lean, Props/Optimise.lean). `Shrinks` removes writes one by one; every removal leaves the list of key events (with the settings they find) the same, because the two pasts agree on the places a key event of the channel looks at (`AgreeOn`); then as C76.
- C89, C90 (leaving out channels, order of simultaneous events; Spec/Mix.lean, Props/Mix.lean). In both the key events of each remaining channel are the same list (`Keep`); from that follow, once for both, the renumbering of the instruments and the equality of the notes and cells.
- C91: Model/IoFaults: `main` as a tree of reads, moves and prints (Model/Io) whose output files are written through the failing device of Model/Faults. Every way to end is related to the run without refusals (`Meets`), which C80 relates to the perfect system.
- C92: Model/Calls (`nextCalls`, `loopBreak`); induction over the run of the loop; after a failed read nothing is left of the file.
- C93: Model/Calls (`Cmd.str`, `hex`), Spec/Shown says how to read the text; unique splitting.
- C94: Spec/Tempo's `score`; a shift off the grid matches only the additional key-ons, so its score is at least the key-ons on the grid minus those beside it; the shift g itself has at most 3(missing+extra)+1 mismatches.
- C95: Spec/CsvBack (`rowBack`, `onBack`, `backFraction`); floor division by a negative number, induction over the loop, floatMod1 of a negative number.
- C96: Model/Short.lean states the reader again as a program of reads (`Rd`), run by a relation in which every read may be cut; induction over the runs, comparison with the deterministic model.
- C97: from the row-by-row description of the CSV (C16, C40) and the relations between recordings of C83, C84, C86.
- C98: Model/Desk.lean runs the programs of reads of C96 over a shared file object; induction over the calls, `reader` by cases on which fields are complete.
- C99: Nat bit lemmas (masks below 256 see the low byte only), then induction over the history.
- C100: Model/Alias.lean, the program with files indexed by what the names mean; the same list of writes as in C51-C61, sent through that map.
- C101: lower bounds for the mismatches of a shift that is no symmetry (one in every period, in both directions), from the score of C27 and C28.
- C102: induction over the run of the reader with the weight 65535 * writes + time <= 21845 * bytes; then C19, C22, C38, C47. Sharpness by the file of n longest waits and a key press.
- C103: the programs of C82 (Model/Io) with reads that may return any bytes (Io.Seen); inversion of such runs: exception, or commands made of the bytes read (Says, C96) and the part behind the last read, which depends on the history only; a file made of the meaningful commands gives the same history. Converse by running the program on the replaced content.
- C104: Model/Encoder: values are a heap of lists, dicts and objects; _iterencode with markers and recursion limit. StandsFor (Spec/Encoder) is the unfolding of the heap into a tree. Soundness by induction on the depth; completeness by the least depth of a value (something being encoded is deeper than its parts, so it is never met again); exceptions by the chain of markers, which is duplicate-free.
- C105: the device of C80 (and C91), any device: an invariant of the open file (Writing: which bytes are in the file, which in the buffer) through zipfile's steps gives an inductive description of what can be left (Leaves); each is shown to be no song: cut archives have no end record, archives without entries no song, and an archive with a complete directory over missing data has, in the place of the song, directory bytes in which no closing tag of the song occurs.
- C106: Spec/Layout lists the seventy rows of an instrument with the setting each shows; the text of json.dump (Model/Json) is shown equal to the lines of it; places, diffs and growth follow from the fixed number of rows and from the text of a setting determining the setting.
- C107: Model/Newlines is what TextIOWrapper does to the strings written (line end, then encoding, both parameters); all characters written are printable ASCII or line feeds, so reading with universal line ends gives the strings back, and JSON's white space includes all line ends.
- C108: the reference-level State of C18 with edits through its objects (Model/Edits); the invariant of C18 extended by where the objects lie (channel object i has operators 4i..4i+3, no two instruments share a channel object) gives that every edit acts as on values, where nothing can be shared (Spec/Edits).
- C109: the XML document of any song (Model/Xml), not only of exported ones: its characters are those XML can carry, so that decoding UTF-8 (Lean's decoder and its round-trip theorem) and normalising line ends give it back, and the parser of Spec/Xml finds the elements; what the file shows is said about the Song alone (Spec/OwnSong).
- C110: the field tables of the 28 data classes that occur in song documents are transcribed by script from renoise_song65.py into Spec/Schema (names, order, list or not, type, attributes) with a checker for elements; the document is parsed (C63, C109) and the checker accepts it, by walking through the element lists (a lemma for runs of repeated elements).
- C111: Model/Xsdata models rendering of arbitrary trees of data objects from the class tables (by script: field names, element names, sequential flags, attributes) with xsdata's rule that runs of sequential fields take turns, and the objects that the serializer constructs. Spec/Xsdata says what it means that an element displays an object. Lemmas: filtering the turns by one name gives that field's list back (names are distinct in every class, by kernel computation over the tables); outside the device lists at most the last field is sequential; mutual induction over trees; the elements that Model/Xml writes down directly are equal to those derived from the tables.
- C112: Model/Assign: the __dict__ of a State (methods read and assign its entries) and what was assigned to instruments; Spec/Assign: what was last assigned and not deleted. Invariant over sessions: every entry of the dictionary is that of the state made by the writes and waits alone, or the assigned one; lookups depend on the dictionary through its entries only (congruence lemmas for the getattr models of C69).
- C113: Model/JsonText: the text of a tree as the standard library writes it (escapes, surrogate pairs, separators, indentation); Spec/JsonText: a reader after RFC 8259. Mutual induction over trees, lists and items: the reader, with enough fuel, takes exactly the text from the front of any continuation that does not go on with a number.
- C114: Model/Pool: a heap of operators, operator lists, channels, bases, notes and instruments that refer to each other by number, and the calls of a caller on it (constructors, deepcopy with its memo, assignments, list operations, comparisons). Spec/Pool reads values out of it without references. Invariants: every reference is valid (Sound), the new channel's list and operators are reachable from nowhere else (Own), everything old is as it was (Within), the new operator is in no list (Solo).
- C115: Model/Colours: configurations, their lists of colours and serializers by reference, calls on them, rendering with given colours; Spec/Colours: colours as values, documents without colours. Invariant: nobody else has the list of this configuration.
- C116: Model/Threads: the statements of Vgm.__init__ and the loop of process_vgm_file as small steps of threads with one table of clocks; Spec/Threads: the result alone. Invariants: what a thread will come to is unchanged by each of its steps, whatever the table holds; every value of the table is a word of one of the files. Termination by a decreasing measure.
- C117: Spec/Parts: equal settings after two pasts, repetition of a part, restoring the settings, equal notes. Lemma: the key events of a part are a function of the settings before it; the settings after a part are a fixed point of playing it again.
- C118: Spec/SameSong: when two notes look alike in the song. A rendered song is determined by its cells (sorted lines, fixed frame), and a cell by what is shown of the last note.
- C119: Spec/Score: strokes and how they are written, from the register map. Every register of a stroke's channel is written once, so the decoding of each field is that of the value written; by induction on the score. As a file by C03, through the program by C64.
- C120: Spec/Score.scoreOf: differences of the times of the key events. By C119 the key events of the written score are those of the recording, and by C76 nothing else counts.
- C121: Spec/SameCsv: when two notes read the same, and when two lists of notes have the same rows. From the table that the text parses to (C45-C48) to the text and back.
- C122: Model/Watch: apply and beat as the list of their single changes in the order of the source (proved to come to what apply does), and the thread that makes them. Changes at different places, so that each look is at a value before or after; an invariant of all moments for notes, instruments and times, with the order of the changes still to be made.
- C123: Model/Interrupt: the first j changes of a command (Model/Watch). The invariants of C122 and C16/C22 for every single change; changes of a register write commute and may be repeated, so a repeated command absorbs a part of itself; for key events, that the instrument just listed is found again.
- C124: Model/Feeders: a call as a program of atomic reads and changes (base objects with identities, the loop over the instruments reading the live list). A predicate on programs, "whatever the others do it only makes changes that keep the state sound, with this much time and these many notes", proved for every call by structural recursion; budgets per thread summed. With a lock: a call alone is `State.step` of the sequential model. Termination: the program of a call has at most 58·K+137 steps where K bounds the instruments. Disjoint registers: changes of different registers commute, so the changes made can be sorted by thread. Refutations by concrete schedules.
- C125: the invariant of C124 (kept by every atomic step) says of every note and instrument what the exporters need: names for the notes, numbers of instruments that are there, four operators and a mask other than 0 per instrument, times within the range of floats, beats without repetition. The exporters' theorems are those of C36, C41, C72 and C27, which ask only this.
- C126: Model/WatchExport: the exporters with every `next` and every step of a `for` loop a look at the live lists (looks counted), of a state as in C122. A loop over a growing list gets the list of the moment at which it finds the end; for the merge of eight iterators by induction over the rounds, backwards: lists that fit the rest of the loop are extended by the lists found to end in this round (`FitsLive`), and the live loop equals the loop of C45 on them. Exactness of the model's bounds from the finite history. Refutations by concrete moments.
- C127: the live exporters of C126 on the states of C124; the growth of the lists from c124_grows, the absence of errors from the invariant of C124/C125.
- C128: Model/SharedReader: `__next__` as a program of single reads (proved to be `next` when nothing interrupts it, nextReads_alone), threads with a common file object. Invariant: the bytes a call has read so far, put before anything, lead a reader to where the call is; trace of all reads = part of the file.
- C129: Model/Workers: the loop of process_vgm_file as stages, reader part = Model/SharedReader, state part = Model/Feeders. A simulation gives, for every schedule, schedules of the two parts (c129_split), so C124/C125/C128 apply; costs in bytes from C102; termination by a count of steps left; lock: at most one thread is on its way, and its rest gives what one thread makes.
- C130: Model/Workers with schedules in which calls of next do not overlap. Invariant: the results so far are dealt to the threads, and the file is where as many calls leave it, or one call is on its way whose rest gives what next gives there; dealing is a permutation; the bounds of C124 are sums over all calls, which a permutation keeps.
- C131: Model/Ints: apply with Python's & and >> on integers of any sign. Masks of one byte depend on the low byte only (case split on the sign; the negative case is decided for all 256 residues of every mask and shift that the code uses); then C99.

Nothing in the list is considered inexpressible. Where the English property is false of the code
(status `partial`), the refutation is a theorem with a witness, and the exact behaviour is another.

## 4. What was found out about the code

Reader
* 0x68 (PCM RAM write) is read as if it carried its payload; 0x67 does not mask bit 31 of the size
  (second chip), so the rest of such a file is skipped or raises. Payloads that are cut off are
  accepted silently; so are payloads that a stream (pipe, socket) delivers in pieces, and the next
  piece is then read as commands. A stream that does not block ends the loop early. The waits of 0x8n (DAC stream) are dropped. Reading goes on behind 0x66.
* The chip clocks are stored in a class-level table: opening a second file changes what the first
  reports, also if opening fails.

State
* A first key event at sample 0 counts as none (0 is falsy): events are dropped until a later one.
* D2R is masked to four bits (the chip has five): patches that differ in bit 4 are merged.
* `state.noise`, `.noise_freq`, `.ct1`, `.ct2` raise AttributeError (the repository's tests use
  them); `copy.deepcopy` of a `State` returns a `BaseConfig`, of a `Config` a `ChannelConfig`,
  because `__getattr__` forwards `__deepcopy__`; `copy.copy` and unpickling end in RecursionError.

* Exporting in one thread while another feeds the state can give a song with a note whose instrument
  is missing (C122). A key event interrupted after its note was recorded, and repeated, has the note
  twice (C123). Several threads feeding one state without a lock lose waits and register writes and
  mix up instruments (C124).
* The LFO frequency and the AM depth are stored without a mask (matters only to callers that make
  commands themselves).
* Readers of one file object share its position; `reader` called elsewhere than at the beginning
  mixes offsets that count from there with offsets that count from the beginning of the file.

Tempo
* A beat that is not a whole number of samples, or is swung, is estimated as two beats.
* Off by one for ticks per note in {45, 90, 105, 180, 210, 375, 420, 750, 1500} (double
  rounding); OverflowError from a certain size on; ZeroDivisionError for 0.

Notes and exports
* Note code 15 is below code 14; CSV and song name different octaves for note code 14 (C).
* Of two events of a channel on one row only the later is exported. The last CSV row that has
  events is never written; the CSV column "Samples" is the time of the first event after the row;
  the CSV cell shows the key fraction rounded to hundredths of 64ths (63 gives "101"), and cannot
  tell left from no panning.
* In the song, a channel panned right has panning "00". Instrument numbers above 255 take three
  hexadecimal digits.
* Negative ticks per note raise IndexError exactly if there is a key press.

Program
* `main` uses the global `args`: NameError if called from other code. Standard input never works
  (text mode). `-tn 0` means estimate. `-t -` writes a file named `-`; `-i -` mixes JSON with
  messages. `-tn1500` is taken as `-t n1500`.
* The instruments are written before the song is made: if the song fails, they are already there.
* Track files contain the time of writing: two runs differ. With a clock before 1980 or after 2107
  writing raises and leaves an empty archive.
* Output files are emptied before they are written: a killed process can lose the old content.
* The same when the disk becomes full: the old outputs are lost. The file left in the place of the
  song is not always a prefix of the whole one (zipfile rewrites the header of the entry although
  its data are cut), so it is not "as if killed"; it is no readable song file either way.
