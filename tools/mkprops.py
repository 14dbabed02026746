import json
P=[]
def p(id,title,statement,quantifier,why,anchors):
    P.append(dict(id=id,title=title,statement=statement,quantifier=quantifier,why_tests_cant=why,anchors=anchors))
R="src/vgm/core.py"; S="src/vgm/ym2151/state.py"; C="src/vgm/ym2151/config.py"; N="src/vgm/ym2151/note.py"; X="src/extractors.py"; Z="src/xrns/xrns_serializer.py"; PT="src/xrns/parts/pattern.py"; M="src/main.py"; T="src/tools.py"; K="src/vgm/command.py"
# ---- reader
p("C01","Iterating a VGM file always terminates",
 "For every file content, `for cmd in reader(f)` ends after finitely many commands (StopIteration or an exception); every command yielded consumes at least one byte, so at most as many commands are yielded as bytes remain after the data offset, and the outcome is unique.",
 "every byte string and every starting position in it",
 "termination and the length bound are claims over all byte strings, of any length; tests iterate a handful of files",
 [R+":Vgm.__next__",R+":command"])
p("C02","Command framing follows the VGM command table",
 "For every opcode 0x00-0xFF and whatever bytes follow it, the reader consumes exactly the number of operand bytes the VGM specification assigns to that opcode when the operands are present. (False for 0x68 with a non-zero size, whose operand bytes the reader follows with a bogus inline payload, and for a 0x67 block whose size has the dual-chip bit 31 set: proved for all other commands, and refuted for these two.)",
 "every opcode, every continuation of the stream",
 "a mis-framed command desynchronises everything after it only for particular operand bytes; a test has one continuation per opcode",
 [R+":command"])
p("C03","Encode/decode round trip of command streams",
 "For every finite list of well-formed commands, iterating over their encoded bytes yields exactly those commands in order and then stops; no byte is skipped or read twice, and prefixing further bytes does not change what was decoded first.",
 "every list of well-formed commands, every length",
 "needs all sequences of commands, since framing errors only show at the next command",
 [R+":command",R+":Vgm.__next__",K+":WaitCommand",C+":YM2151Command"])
p("C04","Truncated files: exactly which truncations are reported",
 "Iteration raises iff the stream ends inside a YM2151 write or a 0x61 wait (EOFError) or inside the fixed header of a 0x67/0x68 block (struct.error); a truncation anywhere else ends the iteration normally, with a short payload. No other exception is possible, and the commands yielded before the truncated one are the same as those of the untruncated stream.",
 "every byte string and every truncation point of it",
 "all truncation points of all streams",
 [R+":command",R+":_read8",R+":_read16"])
p("C05","Wait commands carry the specified number of samples",
 "0x61 nn nn waits the little-endian 16-bit number of samples, 0x62 735, 0x63 882, 0x7n n+1; these are the only opcodes that yield a wait, every wait yielded carries a number (never None), and at most 65535.",
 "every opcode and operand",
 "65536 operands times all contexts; absence of None must hold for every path",
 [R+":command",K+":WaitCommand.__init__"])
p("C06","Header decoding",
 "For every 4-byte magic+header of sufficient length: size() is the little-endian word at 0x04 plus 4, version is the decimal reading of the BCD word at 0x08 (every decimal number below 10^8 is read back exactly from its BCD encoding), the YM2151 clock is the word at 0x30, or the one at 0x10 for versions before 1.10, and data starts at 0x34 + word at 0x34 for versions >= 1.50 and at 0x40 otherwise. supports() of the two chips says whether the clock is not zero; of any other chip it is false and clock() raises KeyError, whatever files were opened before.",
 "every header content, every version number below 10^8, every chip name, every sequence of opened files",
 "10^8 versions and 2^32 values per word",
 [R+":Vgm.__init__",R+":_read_bcd",R+":_read32",R+":Vgm.size",R+":Vgm.clock",R+":Vgm.supports"])
p("C07","reader() accepts exactly the files with the VGM magic",
 "For an uncompressed file reader returns None iff the first four bytes are not 'Vgm ' (including files shorter than four bytes), and otherwise raises EOFError iff the header words it needs are cut off, and else returns a reader positioned at the data offset.",
 "every byte string",
 "all contents and lengths",
 [R+":reader",R+":Vgm.__init__"])
p("C08","Compression is transparent",
 "For every decompressor behaviour: reading a file that starts with the gzip magic yields the same header fields and the same command sequence as reading the decompressed content directly, provided that content is not itself gzip; and a non-gzip file is never passed to the decompressor.",
 "every file content and every decompression result",
 "quantifies over all contents and all (abstract) decompressors",
 [R+":reader"])
p("C09","Each reader reports its own file's chip clocks",
 "After opening a sequence of files, clock()/supports() of a reader report that reader's file. (False: the table is shared by all readers, so every reader reports the file opened last; proved exactly that, and refuted the isolation.)",
 "every sequence of opened files",
 "a leak between instances depends on the history of earlier opens",
 [R+":Vgm.clocks",R+":Vgm.__init__",R+":Vgm.clock",R+":Vgm.supports"])
p("C10","Data after the end-of-sound command has no effect",
 "Bytes after the 0x66 end command (e.g. the GD3 tag) do not change the extracted song. (False: iteration runs on to the end of the file; the trailing bytes are decoded as commands. Refuted with witnesses for added notes and for a crash; proved for files that end with the end command, and for trailing bytes that decode to neither waits nor YM2151 writes.)",
 "every stream and every trailing data",
 "depends on arbitrary trailing metadata",
 [R+":Vgm.__next__",M+":process_vgm_file"])
p("C11","The clock of the song is the sum of the waits",
 "After processing any command sequence the current time equals the sum of the waits of the stream as the VGM specification defines them, independently of how the waits are split up. (False for 0x8n, whose n-sample wait is dropped; proved for streams without 0x81-0x8F.)",
 "every command sequence",
 "every sequence of commands, in any interleaving",
 [M+":process_vgm_file",S+":State.beat",R+":command"])
# ---- state
p("C12","Chip state is the last value written to each register",
 "After any history of register writes and waits, every field of every channel's configuration and of the global configuration equals the YM2151 data-sheet field of the last value written to its register (0 if never written), with PMD/AMD being the last write to 0x19 with/without bit 7. (False for D2R, of which only 4 of the 5 bits are kept: refuted for that field and proved for all others, and for the low four bits of D2R.)",
 "every finite history of register writes and waits",
 "quantifies over histories; a stray write to another channel or operator only shows after specific sequences",
 [S+":State.apply",S+":State.channel_config"])
p("C13","Re-writing a register is idempotent",
 "Applying a non-key register write twice in a row leaves the same observable state as applying it once, in every state.",
 "every state, every register except key-on/off, every value",
 "all states and register/value pairs",
 [S+":State.apply"])
p("C14","Writes to different registers commute",
 "Two non-key writes to different registers, in either order, lead to the same state.",
 "every state, every pair of different non-key registers, every two values",
 "order independence over all pairs and states",
 [S+":State.apply"])
p("C15","Unknown registers are ignored",
 "A write to a register the extractor does not interpret (test, timers, CSM, 0x09-0x0E, 0x10-0x17, 0x1A, 0x1C-0x1F, 0x00-0x07) changes nothing observable; and these are the only bytes ignored.",
 "every state and every uninterpreted register byte",
 "all states",
 [S+":State.apply"])
p("C16","Instruments are unique and numbered by position",
 "After any history the instrument list contains no two instruments with equal settings (global, channel and enabled operators), and instrument i has id i.",
 "every history",
 "uniqueness is an invariant of all histories",
 [S+":State.apply",C+":Config.compare",C+":ChannelConfig.__eq__",C+":OperatorConfig.__eq__",C+":BaseConfig.__eq__"])
p("C17","A note's instrument is the patch that was sounding",
 "After any history, every recorded note with a non-negative instrument id refers to an existing instrument, whose settings equal the chip's register-derived settings of that channel and the operators of that key-on at the moment of the key-on, whatever was written later.",
 "every history and every note in it",
 "relates the end of an arbitrary history to a state in the middle of it",
 [S+":State.apply",N+":Note.__init__",C+":Config"])
p("C18","Recorded instruments never change (no aliasing)",
 "Once recorded, an instrument keeps its settings for every later history: no register write reaches it through a shared object. Also no two channels and no two operators share state. apply never raises for any byte pair.",
 "every history, at the level of object references",
 "an aliasing bug shows only for a later write to the same object; needs all continuations",
 [S+":State.apply",C+":BaseConfig.__deepcopy__",C+":ChannelConfig.__deepcopy__",C+":OperatorConfig.__deepcopy__"])
p("C19","The instrument list is exactly the distinct patches keyed on, in order of first use",
 "After any history the instrument list is the list of (global, channel, operators) settings at each key-on event with duplicates removed keeping first occurrences: nothing is missing, nothing invented, and the list only ever grows at the end.",
 "every history",
 "full functional characterisation over histories",
 [S+":State.apply"])
p("C20","Key-off creates nothing",
 "A key-off (operator bits 0) never adds an instrument nor a tick, and any note it records has id -1; conversely a note has id -1 only if it is a key-off.",
 "every history",
 "depends on no stored instrument ever having operators 0, an invariant of all histories",
 [S+":State.apply"])
p("C21","Every key event after the first key-on is recorded",
 "Every key-on, and every key-off after the first key-on, appears in its channel's key presses. (False: events before the first key-on at a time > 0 are dropped, in particular every key-on at sample 0; proved that an event is recorded iff its time is > 0 and a key-on at a time > 0 has occurred by then.)",
 "every history",
 "which events are lost depends on the whole history",
 [S+":State.apply",S+":State.key_presses"])
p("C22","Key presses are the channel's own events in chronological order",
 "After any history the key presses of a channel are exactly its recorded key events in order, with non-decreasing sample positions equal to the sum of the waits before the event; notes on one channel never show up on another.",
 "every history, every channel",
 "order and attribution over all histories",
 [S+":State.apply",S+":State.key_presses",S+":State.beat"])
p("C23","ticks() is the sorted set of key-on times",
 "After any history ticks() is strictly increasing and contains t iff some key-on happened at time t.",
 "every history",
 "set characterisation over all histories",
 [S+":State.ticks",S+":State.apply"])
p("C24","Notes capture pitch and panning at the key event",
 "Every recorded note carries the octave, note code, key fraction and left/right bits of the last values written to its channel's registers before the event, unaffected by later writes.",
 "every history and note",
 "relates arbitrary later history to the snapshot",
 [S+":State.apply",N+":Note.__init__"])
p("C25","Field ranges",
 "After any history of byte-valued writes every field of every channel, of the global configuration, of every instrument and every note is within its data-sheet width (e.g. TL <= 127, octave <= 7, note code <= 15).",
 "every history of byte-valued writes",
 "range invariant over all histories",
 [S+":State.apply"])
# ---- ticks per note
p("C26","The tempo estimate is always in range",
 "ticks_per_note() never raises and returns an integer in [1000, 8000) for every history, including the empty one.",
 "every history",
 "no-exception and range claim over all tick sets, including empty ones",
 [S+":State.ticks_per_note"])
p("C27","The shift score is the number of unmatched ticks",
 "For every strictly increasing tick list and shift > 0 the merge loop terminates and its score is the number of ticks t with t-shift not a tick, plus the number of shifted ticks before the last tick that are not ticks.",
 "every tick list, every shift > 0",
 "a nested while-True loop driven by IndexError: termination and result for all inputs",
 [S+":State.ticks_per_note"])
p("C28","The estimate is the best shift, the smallest one on ties",
 "ticks_per_note() is the least shift in [1000,8000) whose score is minimal, despite the scores being compared as floating-point ratios.",
 "every history",
 "optimality over all histories; floats could merge or reorder scores",
 [S+":State.ticks_per_note"])
p("C29","The estimate depends only on the first 32000 samples",
 "Two histories with the same key-on times below 32000 have the same estimate; with fewer than two key-on times there the estimate is 1000.",
 "every pair of histories",
 "relational claim over pairs of histories",
 [S+":State.ticks_per_note"])
p("C30","A steady beat is recognised",
 "If the key-on times below 32000 form an arithmetic progression of at least two terms with step g in [1000,8000), the estimate is g.",
 "every start, step and number of terms",
 "all progressions",
 [S+":State.ticks_per_note"])
# ---- notes
p("C31","Exported note names denote the right pitch",
 "For every valid key code (note not 3,7,11,15) the name written to the XRNS denotes the pitch 12*octave + 1 + k (semitones above C-0), k being the number of valid codes below it, so code 0 is C# and code 14 the C of the next octave: distinct key codes give distinct names and names rise with the key code, across octaves.",
 "every octave and valid note code",
 "whole table plus the octave carry for C",
 [N+":Note.xrns_note",N+":_NOTE_LOOKUP_XRNS"])
p("C32","Exported pitch is monotone for every key code",
 "A larger key code never exports a lower pitch. (False for note code 15, exported as C# of the same octave, below code 14; refuted for it and proved for all other codes.)",
 "every pair of key codes",
 "all pairs",
 [N+":Note.xrns_note"])
p("C33","Only key-offs are exported as Off",
 "A note is exported as 'Off' to the XRNS (and 'Key Off' to the CSV) iff it is a key-off.",
 "every note",
 "over all notes of all histories",
 [N+":Note.xrns_note",N+":Note.__str__"])
p("C34","CSV and XRNS name the same pitch",
 "The CSV and XRNS exports name the same octave for every note. (False for note code 14, C: the XRNS adds one to the octave and the CSV does not; proved for all other codes.)",
 "every note",
 "all notes",
 [N+":Note.__str__",N+":Note.xrns_note"])
p("C35","Instrument numbers in the XRNS are readable back",
 "The instrument column is the uppercase hexadecimal instrument id with at least two digits; reading it back gives the id, so different instruments never share a number; exactly two digits iff id < 256.",
 "every instrument id, unbounded",
 "ids are unbounded",
 [X+":extract_tracks_to_xrns"])
# ---- xrns
p("C36","Every cell of the song is the last event of its row",
 "In the exported song, pattern p, channel c, row r holds the (last) key press n of channel c with n.sample // ticks = 64p + r, with its note name, instrument and panning, and is empty iff there is none.",
 "every history, every ticks-per-note > 0, every cell",
 "all cells of all songs",
 [X+":extract_tracks_to_xrns",PT+":PatternPool.add_note"])
p("C37","No key press is lost in the export",
 "Every recorded key press appears in the exported song. (False when two events of one channel fall on one row: the earlier one is overwritten; proved when no two events of a channel share a row, and that a press is lost only to a later one on its row.)",
 "every history and ticks-per-note > 0",
 "depends on collisions in arbitrary songs",
 [X+":extract_tracks_to_xrns",PT+":PatternPool.add_note"])
p("C38","The song has exactly the patterns it needs, played once in order",
 "The number of patterns is 0 if there are no key presses, else one more than the largest pattern index; the sequence lists 0..P-1 once in order.",
 "every history and ticks-per-note > 0",
 "all songs",
 [X+":extract_tracks_to_xrns",PT+":PatternPool.add_note","src/xrns/parts/pattern_sequence.py:PatternSequence.add_pattern"])
p("C39","Lines in a track are strictly ordered and below 64",
 "In the rendered song every pattern track lists its lines with strictly increasing index, each below 64.",
 "every history and ticks-per-note > 0",
 "dict insertion order vs. row order for all songs",
 [X+":extract_tracks_to_xrns",Z+":XrnsSerializer._render_pattern_track"])
p("C40","Every instrument reference resolves",
 "Every instrument number in the exported song is below the number of instruments in it, which equals the number of extracted instruments.",
 "every history and ticks-per-note > 0",
 "cross-reference invariant over all histories",
 [X+":extract_tracks_to_xrns","src/xrns/parts/song.py:Song"])
p("C41","The tempo is floor(661500 / ticks)",
 "For every ticks-per-note t > 0 the exported BPM is floor(661500/t). (False: floating-point rounding loses 1 for t in {45,90,105,180,210,375,420,750,1500}; proved exact for every other t and off by exactly one for these nine.)",
 "every t > 0 below the bound 44100 * (2^1024 - 2^970), from which on the division overflows",
 "double rounding errors at isolated points of an unbounded domain",
 [X+":extract_tracks_to_xrns"])
p("C42","Rendering keeps the song",
 "Rendering a song yields its instruments, its tracks with name and colour in order (colours running out after eight), a master and a send track, its patterns with one note column per line, and its sequence; the song can be read back from the rendering.",
 "every song",
 "structure preservation over all songs",
 [Z+":XrnsSerializer"])
p("C43","Panning column",
 "A note has no panning value iff both speakers are enabled, '00' iff only right is, and 'F0' otherwise; it reflects the two bits last written to the channel before the event.",
 "every history and note",
 "over all histories",
 [X+":extract_tracks_to_xrns"])
p("C44","Negative ticks-per-note is rejected before writing",
 "With a negative ticks-per-note the song export raises IndexError, without writing a file, iff any key press was recorded.",
 "every history, every negative ticks-per-note",
 "Python floor division and negative indexing for all negative values",
 [X+":extract_tracks_to_xrns",PT+":PatternPool.add_note"])
# ---- csv
p("C45","CSV export terminates and numbers its rows consecutively",
 "extract_tracks terminates for every state and ticks > 0; its lines after the header are rows 0,1,2,..., each once and in order, with row number mod/div 64.",
 "every history and ticks-per-note > 0",
 "termination and gap-filling for all inputs",
 [X+":extract_tracks"])
p("C46","CSV cells are the last event of their row",
 "In line r of the CSV, channel c holds the text of the last key press of channel c with sample // ticks = r, and is empty iff there is none.",
 "every history, ticks > 0, every written row",
 "all merges of eight streams",
 [X+":extract_tracks"])
p("C47","CSV contains every row of the song",
 "Every row that has a key press is in the CSV. (False: the last row with events is never written; proved that exactly the rows before the last one with events are written.)",
 "every history and ticks-per-note > 0",
 "all songs; the loss is at the end of every song",
 [X+":extract_tracks"])
p("C48","CSV lines have thirteen columns",
 "Every line of the CSV splits at commas into exactly thirteen fields, matching the header.",
 "every history and ticks-per-note > 0, and any number formatting without commas",
 "over all note texts",
 [X+":extract_tracks",N+":Note.__str__"])
# ---- json
p("C49","The instrument file loses nothing",
 "Parsing the JSON written by extract_instruments gives back every setting of every instrument, in order, for every history; two different instrument lists never give the same file.",
 "every instrument list",
 "injectivity of a text encoding",
 [X+":extract_instruments",C+":ConfigEncoder",C+":Config.repr_json",C+":ChannelConfig.repr_json",C+":OperatorConfig.repr_json"])
p("C50","Operator names match the hardware slots",
 "In the instrument file m1, m2, c1, c2 hold the settings written to register slots 0,1,2,3 (0x40+ch, +8, +16, +24 ...), and the operators string lists exactly the operators whose key-on bits 3,4,5,6 were set, in that order.",
 "every history",
 "permutation bugs need all slots and all subsets",
 [C+":ChannelConfig.repr_json",C+":Operators.repr_json",S+":State.apply"])
# ---- main
p("C51","No output is written for an unreadable input",
 "If the file is not a VGM file, or is truncated in a way that raises, the program raises and writes neither output file.",
 "every file content and argument combination",
 "every crash point of the parse",
 [M+":main",M+":process_vgm_file"])
p("C52","Standard input is refused without side effects",
 "With '-' (or an empty name) as input the program raises and changes no file, whatever standard input holds. (smart_open offers '-' as standard input, but standard input is a text stream, so the magic never matches: a user cannot rely on '-' working, only on its failing cleanly.)",
 "every standard input content",
 "all contents",
 [T+":smart_open",M+":main",R+":reader"])
p("C53","smart_open closes what it opened, and only that",
 "For every file name, mode and body (returning or raising): a file it opened is closed exactly once, after the body; standard streams are never closed; the body's exception is not swallowed. A run of the program, however it ends, closes every file it opened once.",
 "every name, mode and body outcome",
 "every crash point of the body",
 [T+":smart_open"])
p("C54","An explicit ticks-per-note is used as given; 0 or none means estimate",
 "The song export uses the given ticks-per-note when it is non-zero and the estimate otherwise; the instrument export does not depend on it.",
 "every input and argument",
 "relational claim over all inputs",
 [M+":main"])
p("C55","The two outputs agree",
 "For every input, instrument k of the song's references is entry k of the instrument file, and both have the same number of instruments.",
 "every input for which both outputs are written",
 "end-to-end cross reference for all inputs",
 [M+":main",X+":extract_tracks_to_xrns",X+":extract_instruments"])
p("C56","Processing is incremental",
 "Processing a concatenation of two command lists equals processing the second from the state after the first; commands that are neither waits nor YM2151 writes can be dropped anywhere, and adjacent waits merged, without changing the result.",
 "every command list and split point",
 "all splits of all lists",
 [M+":process_vgm_file"])
p("C57","A CSV cell tells notes apart",
 "The CSV text of a key-on determines its instrument, octave, note code, key fraction (0 and 1 look alike) and panning (left-only and none look alike), and nothing else; two notes have equal text iff they agree on these.",
 "every pair of recorded key-on notes",
 "injectivity of a text encoding with float formatting in the middle",
 [N+":Note.__str__"])
p("C58","Only the requested output files change",
 "The program changes no file but the ones named as instrument and track output; in particular it never changes its input, unless the input is named as an output.",
 "every input, argument combination, file system and way the program ends",
 "frame property over all files and all failures",
 [M+":main",T+":smart_open",X+":extract_instruments",X+":extract_tracks_to_xrns"])
p("C59","No half-written outputs",
 "However the program ends, a file that changed holds the complete instrument list or the complete song; the one exception is a track file without entries when the clock shows a year that a zip archive cannot hold. Neither a failing track export nor a track file that cannot be opened spoils the instrument file.",
 "every input, argument combination and failure point",
 "every failure point of a run",
 [M+":main",X+":extract_instruments",X+":extract_tracks_to_xrns"])
p("C60","Runs are reproducible",
 "Result, messages and written files depend only on the input's content, the arguments and the clock: not on old outputs, other files, or VGM files opened before in the same process. The clock only changes the time stamp inside the track file, which reads as the same song. Running again (at the same time) gives the same files, unless an output replaces the input.",
 "every pair of worlds with the same input file",
 "relational claim over all pairs of states",
 [M+":main",R+":Vgm.clocks"])
p("C61","What '-' and library use mean for the outputs",
 "'-i -' prints the instruments to standard output after other messages, so what is printed is never a JSON text; '-t -' writes a file named '-'; calling main() without the script's global args raises NameError and writes nothing.",
 "every readable input and environment",
 "over all inputs and message texts",
 [M+":main",T+":smart_open",X+":extract_instruments",X+":extract_tracks_to_xrns"])
p("C62","The archive can be unpacked",
 "An archive written with one file holds exactly one entry with that name, that content (matching checksum, both headers agreeing) and the time of writing (seconds rounded down to even); if the year is before 1980 or after 2107 writing raises and the archive has no entries.",
 "every name, content and clock reading",
 "round trip through a binary container for all contents, including checksums and offsets",
 ["src/xrns/writer.py:writer"])
p("C63","The track file reads back as the song",
 "The XML document in the track file is printable ASCII, is well-formed, and reading it gives the exported song back: instruments, tracks, patterns, notes, sequence. Writing either ends well with such a file, or raises because of the year on the clock and leaves an archive without entries.",
 "every chip state, ticks-per-note and clock reading",
 "round trip through XML text and zip for all songs",
 ["src/xrns/writer.py:writer",Z+":XrnsSerializer"])
p("C64","End to end: the track file tells what the input did",
 "Whenever the program returns after being asked for a track file, the file reads as a song in which row r of pattern p of channel c is empty iff no recorded key event of the input falls on row 64p+r, and otherwise shows the last one: Off for a release, else the pitch of the key code, the number of the patch the chip was set to, and the panning, all as of that moment.",
 "every input file, argument combination and environment for which the program returns",
 "ranges over all byte streams and goes through every stage of the program",
 [M+":main",R+":reader",S+":State.apply",X+":extract_tracks_to_xrns"])
p("C65","CSV and song agree",
 "For every row of the CSV export and every channel, the CSV cell is empty iff the song's is, is 'Key Off' iff the song shows 'Off', and otherwise both show the same letter, sharp, instrument number and panning, and the same octave up to the C the two count differently.",
 "every history, ticks-per-note, row and channel",
 "relates two exporters over all inputs",
 [X+":extract_tracks",X+":extract_tracks_to_xrns",N+":Note"])
p("C66","The printed table of tempo estimates is the true ranking",
 "Without a ticks-per-note argument the program prints ten dots, a heading and ten lines 'length: percentage'. The lines are the ten best candidate lengths between 1000 and 7999, best first (fewest mismatches of the key-on times below 32000 with themselves shifted; shorter first among equals), the first being the number then used; every other candidate is worse than all ten; each percentage is the share of possible mismatches that are absent, correct to its two decimals, and percentages never increase down the table.",
 "every input and every write history",
 "ranges over all histories; floats, a sort and text formatting lie between the input and the table",
 [S+":State.ticks_per_note",M+":main"])
p("C67","What is on disk if the process is killed","If the process is killed at any moment (after any byte written), every file that is not an output is untouched; the instrument file is as before or a beginning of the new one, and if it parses as an instrument file it is the whole list; the track file is as before, complete, or not readable as a track file (never a wrong or partial song); the track file is only touched when the instrument file is complete. Outputs are not replaced atomically: there is a moment at which each is empty.","every input, environment and set of arguments; every number of operations (file creations and single bytes written, in the order in which the program and the zip library write them) after which the process stops","quantifies over every crash point of every run, including the rewriting of the archive's header after the data",[M+":main",X+":extract_instruments",X+":extract_tracks_to_xrns","src/xrns/writer.py:writer"])
p("C68","What the command line means","The program runs if and only if the command line consists of one input file and any number of options with values: -i/--instrument NAME, -t/--track NAME, -tn/--ticks-per-note INTEGER; long names may be shortened to an unambiguous beginning, values may follow in their own argument or after `=` (or directly after -i and -t), the later of two equal options counts, and the file may stand anywhere (or last, with `--` before or behind it). It then runs with exactly these settings. Any other command line ends the program before anything is read or written, and only files named by -i or -t ever change. (A trap: -tn24 is read as the track file `n24`.)","every list of arguments, every environment and file system","the set of argument lists is infinite and the parser is made of prefix matching, classification and a consuming loop; equivalence with a description of the accepted language is needed",[M+":main",M+":parser"])
p("C69","Attributes of the result objects","The state that processing returns gives the four global settings (lfo, amp_md, phs_md, waveform) as attributes, with the values last written; each instrument gives twelve settings (global, channel, enabled operators) as they were when it was first keyed on, and they never change later; any other public name raises AttributeError (so state.noise, .noise_freq, .ct1, .ct2, which the repository's tests read, do). Channels are numbered 0-7 (also -8..-1); other numbers raise IndexError. Because unknown names are passed on, copy.deepcopy of a state is only its global settings, copy.deepcopy of an instrument only its channel settings, and copy.copy and unpickling never succeed.","every history of register writes and waits, every attribute name, every channel number, every recursion limit","quantifies over all names and histories, and over the recursion limit (the lookup must be shown never to end)",["src/vgm/ym2151/state.py:State.__getattr__","src/vgm/ym2151/state.py:State.key_presses","src/vgm/ym2151/state.py:State.channel_config","src/vgm/ym2151/config.py:Config.__getattr__"])
p("C70","A damaged compressed file is never taken for a shorter recording","If a gzip-compressed input is cut off, corrupted or has a wrong checksum, iterating over its commands yields exactly the commands that lie completely in the part that can be decompressed (the same as an intact file yields) and then raises the decompressor's error; it never ends normally, even if the damage is behind the last command or only in the checksum. Processing it raises that error, and the program then writes no file. (An uncompressed file that is cut off between commands, in contrast, is taken for a shorter recording.)","every compressed content, every place and kind of damage, every continuation of the readable part","the damage can be at any byte, inside any command or behind the last; a test only tries a few",["src/vgm/core.py:reader, Vgm.__next__, command", M+":process_vgm_file, main"])
p("C71","A song built by any sequence of calls holds the last value of every cell","A Song made with any numbers of tracks, instruments and lines, and filled by any sequence of add_note and add_pattern calls: an add_note call raises IndexError exactly if its track number is outside -tracks..tracks-1 or its pattern number is below minus the number of patterns so far (negative numbers count from the end, as for lists); otherwise it succeeds. Afterwards the rendered song has just as many patterns as the largest pattern number asked for needs (also by calls that failed), every pattern has all tracks, each cell shows what the last successful call for it put there and is empty if there was none, the lines of a track appear once each in the order in which they were first set, and the sequence is as given.","every number of tracks and instruments, every sequence of calls with any integers and texts, failing calls included","overwriting, negative numbers and failing calls interact over the whole history of calls",["src/xrns/parts/pattern.py:PatternPool.add_note","src/xrns/parts/pattern_sequence.py:PatternSequence.add_pattern","src/xrns/parts/song.py:Song",Z+":XrnsSerializer.render"])
p("C72","The CSV export and its file","extract_tracks with a file name: if the file cannot be opened nothing changes; otherwise the file is replaced by the lines of the table, closed exactly once also when the export fails, and no other file is touched; '-' or no name write to standard output and leave it open. The export fails only for ticks-per-note 0 when there are key presses, with ZeroDivisionError, and then the file holds just the header line (an existing table is lost), whereas the song export leaves its file alone. Negative ticks-per-note do not fail.","every history of register writes and waits, every ticks-per-note, every file name, every state of the file system, every reason for which opening fails","all histories and all numbers; what a failing export leaves on disk",[X+":extract_tracks","src/tools.py:smart_open"])
p("C73","The Fraction column","In every line of the CSV table the Fraction column is a decimal number that agrees with the part after the point of Samples divided by ticks-per-note: up to the rounding of the floating point division it is right to two significant digits (within 5 % and within 0.005), and it is zero exactly if the division leaves no remainder; for recordings below 2^40 samples it is within 0.0052 of the true fraction.","every history of register writes and waits below 2^53 samples, every positive ticks-per-note, every line of the table","a floating point error bound for all numerators and denominators",[X+":extract_tracks"])
p("C74","States in one process do not influence each other","A program may create any number of State objects and call apply and beat on them in any interleaving: no call raises, and every object shows exactly what its own calls, made on a single object in a process of its own, would give. Nothing is shared through class attributes, default arguments or recorded objects.","every sequence of State(), apply and beat calls on any number of objects, every interleaving, at the level of object references","a shared object only shows for particular interleavings; quantifies over all schedules",[S+":State.__init__, State.apply, State.beat",C+":ChannelConfig.__init__, Config.__init__"])
p("C75","What key_presses and channel_config return stays connected","key_presses(ch) and channel_config(ch) return the same object at any time, and reading a list or configuration obtained earlier shows the key presses or settings of the moment of reading, whatever was called in between, on this or on other objects. Different channels and different State objects never return the same object.","every sequence of calls before and after, every number of objects, every channel number","quantifies over all continuations and all pairs of objects",[S+":State.key_presses, State.channel_config, State.apply"])
p("C76","Only the register writes and their times matter","Two inputs with the same YM2151 register writes at the same times give the same result: the same instruments, notes, ticks, tempo estimate, song and CSV table, and the program run on one or the other ends the same way, prints the same and writes the same files. How waits are encoded or split, commands for other chips between the writes, data blocks, the header's other fields, compression and what follows the last write have no effect. More precisely, only the key events with the settings of the chip at their times matter.","every pair of histories or readable files that agree in this way, every argument combination","relates two runs for infinitely many pairs of inputs",[S+":State.apply, State.beat",M+":process_vgm_file, main"])
p("C77","Silence in front only delays","Waiting before a recording starts leaves the instruments as they are and delays every key-on time by the wait; unless the recording presses a key at its very first moment, it delays every note and changes nothing else; the tempo estimate is unchanged as long as no key-on leaves the first 32000 samples; and silence of k rows moves the exported song down by k rows, these being empty. With any silence in front, no key event from the first key-on on is lost (at the very first moment they are, see C21).","every history, every length of silence, every ticks-per-note, channel and row","relates two runs for all inputs and delays",[S+":State.apply, State.beat, State.ticks_per_note",X+":extract_tracks_to_xrns"])
p("C78","Channels are alike","The same music moved to other channels (any permutation that leaves channel 7 in place, or any at all if the noise generator is not used) gives the same instruments with the same numbers, the same ticks and tempo estimate, and every channel and track of the song has the notes of the channel it was moved from.","every history and every permutation of the channels","relates two runs for all inputs and permutations",[S+":State.apply",X+":extract_tracks_to_xrns"])
p("C79","When the notes of the song are played","Played at the tempo in the file, the row of a key press starts at most one row earlier than the key press in the recording and later by at most a factor 1 + 1/tempo (2/tempo for the nine values of C41), for up to 661500 samples per row; with the estimated ticks-per-note the tempo is one the tracker accepts (32-999) and the song lags by less than 1.25 percent. The tempo is within 32-999 iff there are 662 to 20671 samples per row, and zero iff there are more than 661500.","every history, every ticks-per-note, every key press","an error bound for all key presses and tempos, through floating point arithmetic",[X+":extract_tracks_to_xrns","src/xrns/parts/globals.py:Globals",S+":State.ticks_per_note"])
p('C80','Writes that fail: never silently lost','When the operating system refuses or shortens any of the writes of a run, at any moment and for any reason, and whatever the sizes of the buffers between the program and the file: if no write was refused, the run does exactly what it does on a perfect disk (same result, same files, same messages); if one was refused, the run ends with an exception - a run that returns normally has written both files completely. In any case no file other than the two outputs is changed, the song file is not touched unless the instrument file has been written completely, and every opened file is closed once, in the opposite order.','every device (a state machine that answers each write with an error or a number of bytes taken), every buffer size, every input file, output names and option, every initial file system','The failing write is chosen by the operating system; the failure points are as many as the writes, and the error of a buffered write surfaces only in a later flush or close, possibly while another exception is already under way',[M+':main,extract_instruments,extract_tracks_to_xrns','src/tools.py:smart_open','src/xrns/writer.py:writer'])
p('C81','A full disk','On a disk with a given number of free bytes (a file that is opened for writing gives its old bytes back first) the command succeeds just if it succeeds on a perfect disk and the instruments fit, and then the song beside them. If the instruments do not fit, the instrument file is left as the beginning of what it should be, exactly as long as there was room, and the song file is not touched. If only the song does not fit, the instruments are complete and in the place of the song there is a file that is no readable song file: a cut song is never mistaken for a song.','every number of free bytes, every input file, option and pair of different output names, every old content of the output files, every buffer of at least 38 bytes; songs below the ZIP64 limit','The byte at which the disk becomes full is any; and the zip writer goes on after the first failed write: it seeks back and rewrites the entry header in place although the data are cut, so the file left is not a prefix of the whole one',[M+':main,extract_instruments,extract_tracks_to_xrns','src/tools.py:smart_open','src/xrns/writer.py:writer'])
p('C82','A refused read or print is never mistaken for the end of the input','If the operating system refuses any read of the input file, any move in it, or any print, the command ends with that very exception, every file it opened having been closed. After a refused read or move no file has been touched; in particular a read that fails is never taken for the end of the data, so no output is made from a part of the input. After a refused print the files are as they were, or as after a run asked for the instruments only. If nothing is refused the command does exactly what it does otherwise.','every input file (also damaged gzip files), file names, tick argument, state of the file system, and every operation that may be refused, with every exception','Which of the thousands of reads fails, and with what, is chosen by the environment: a test injects single faults into single runs.',[M+':main',M+':process_vgm_file',R+':Vgm',R+':command',R+':reader',X+':extract_instruments',X+':extract_tracks_to_xrns','src/tools.py:smart_open'])
p('C83','A slower recording gives the same song at a slower tempo','A recording in which every wait is k times as long has the same instruments, and the same notes and key-on times k times as late; exported with k times as many ticks per note it gives the same song in every part but the tempo.','every history of register writes and waits, every k > 0 and every ticks-per-note','Relates two runs of the program on different inputs; a test compares a few pairs.',[S+':State.beat',X+':extract_tracks_to_xrns'])
p('C84','Transposing','Raising every key code of a recording by k octaves raises every note by k octaves and changes nothing else: the same instruments and key-on times, and a song with the same cells filled, the same instrument and panning columns, key-offs as before and every other note name 12 k semitones higher.','every history in which each channel is given a key code before its first key event and no key code leaves the range, every k and ticks-per-note','Relates two runs of the program on different inputs; a test compares a few pairs.',[S+':State.apply',N+':Note.xrns_note',X+':extract_tracks_to_xrns'])
p('C85','A coarser grid merges rows','Exported with k times as many ticks per note, a row of the song shows, in every channel, what the last non-empty one of the k rows it covers shows on the finer grid, and is empty just if they are all empty; the instruments are the same.','every history, every k > 0, ticks-per-note, channel and row','Relates two runs of the program on different inputs; a test compares a few pairs.',[X+':extract_tracks_to_xrns'])
p('C86','Going on changes nothing that was','If a recording goes on, its instruments keep their numbers and its notes stay as they are; new ones come after them, notes no earlier than the end so far, key-on times after the earlier ones. In the song every row before the one in which the first part ends stays as it is, that row does not become empty where it was not, later rows were empty, and the tempo (for the same ticks-per-note) stays.','every history and every continuation, every ticks-per-note, channel and row','Relates two runs of the program on different inputs; a test compares a few pairs.',[S+':State.apply',S+':State.key_presses',S+':State.ticks',X+':extract_tracks_to_xrns'])
p('C87','Runs of the program at the same time','Any number of runs may go on at the same time in one directory, taking turns in any way, each reading its input in pieces and stopping anywhere, as long as no output of one is an output or the input of another: at any time the outputs of a run are what that run on its own would have made of them by some point, once it has come to its end they are those of a run on its own, files that are no run\'s output are never touched, and no run ever has to wait for another.','every number of runs with all their arguments and environments, every file system at the start, every interleaving of their steps, every sizes of the pieces read, every point at which they stop','The interleavings of two runs are already far too many to try, and the operating system chooses among them.',[M+':main','src/tools.py:smart_open',X+':extract_instruments',X+':extract_tracks_to_xrns'])
p('C88','Optimised recordings','Removing superfluous register writes, as VGM optimisers do - writes of the value that is already there, and of values that no later key event looks at before they are overwritten -, any number of them, one after the other, and writing the waits in another way, changes nothing: the same instruments, notes, ticks and estimate, the same song, table and instrument file, and the same outputs of the program.','every history and every sequence of removals, every pair of input files so related, all arguments of the program','Optimisers remove any number of writes in any combination; whether a removal is safe depends on the whole history before and after it.',[S+':State.apply',S+':State.beat',M+':main'])
p('C89','Leaving out channels','If the key events and registers of some channels are left out of a recording, the notes of the other channels stay the same, with the same instruments but for their numbering; only key-offs no later than the first remaining key-on can disappear, the channels left out are silent, and below the row of the first remaining key-on the cells of the other channels of the song are the same but for the numbering.','every history, every set of channels, every ticks-per-note','The channels share the instrument list and the moment from which events are recorded; that nothing else is shared must be shown for all histories.',[S+':State.apply',S+':State.key_presses',X+':extract_tracks_to_xrns'])
p('C90','The order of simultaneous events','If neighbouring register writes (no wait between them) that do not concern each other - different registers, keys of different channels, keys of a channel and a register of another - change places, any number of times, then the instruments are the same in another order, the ticks and the estimate are the same, and the notes and the cells of the song are the same but for the numbering of the instruments, except for key-offs no later than the first key-on.','every history, every sequence of such exchanges, every ticks-per-note','There are exponentially many orders of simultaneous writes.',[S+':State.apply',S+':State.ticks',S+':State.ticks_per_note',X+':extract_tracks_to_xrns'])
p('C91','Anything may fail: a run without an exception has done everything','Reads of the input, moves in it, prints and writes to the output files may each be refused at any time (disk full, broken pipe, I/O error), a write also half-way. If main() nevertheless returns without an exception, then nothing was refused and all files and everything printed are as on a perfect system. In every other case: files that are not requested outputs are unchanged, the song file is not touched unless the instrument file is complete, and every file opened has been closed.','every input file, environment, choice of outputs, device and buffer sizes, and every combination of operations refused, with any exceptions','failures can occur at any operation and in any combination; a test injects one failure at one place',[M+':main',X+':extract_instruments',X+':extract_tracks_to_xrns','src/tools.py:smart_open',R+':reader'])
p('C92','Calling next() after the end or after an exception','For every file and any number of next() calls on the reader, also after it has raised: the calls give the commands in order, then (if the last command is cut off) one exception, then StopIteration every time. The reader is its own iterator: a loop left by break and a later loop together see exactly what one loop sees.','every file content and position, every number of calls, every place to break off','it must hold for every content and every call history',[R+':Vgm.__next__',R+':Vgm.__iter__',R+':command'])
p('C93','The printed form of a command is unambiguous','str() of every command the reader yields tells the register and value of a YM2151 write, the samples of a wait, the opcode of any other command; two commands print alike if and only if they agree in that.','every command of every file','all registers, values, waits and opcodes, and all pairs of them',['src/vgm/command.py:VgmCommand.__str__',C+':YM2151Command.__str__'])
p('C94','Tempo estimate of a beat with missing and additional key-ons','Take key-ons at a regular beat of g samples (1000 <= g < 8000) within the first 32000 samples, leave some out, and add key-ons anywhere. If the number of beats exceeds three times the number of missing and added ones plus two, the estimate is a positive multiple of g; more generally it is a multiple of g as soon as some shift in range has fewer mismatches than the key-ons on the grid minus those beside it.','every history of commands whose key-ons are such a beat, every choice of missing and additional key-ons','the added and missing key-ons may be anywhere, and the best of 7000 shifts depends on all of them',[S+':State.ticks_per_note',S+':State.beat'])
p('C95','Tracks as text with negative ticks per note','With -t ticks per note the text export ends without an exception. A key press is as many rows back as intervals of t samples have begun before it; lines count down from row 0 with every row that has a key press except the lowest. Samples is the first key press on a lower row, Fraction is the part of -(Samples/t) above the next integer below (0.0 exactly if the division leaves no remainder), line and pattern numbers are the remainder and the floor of the division by 64.','every history of commands, every negative number of ticks per note (for Fraction: magnitude and time up to 2^53)','all histories and tick counts; rounding of the quotient and its complement',[X+':extract_tracks'])
p('C96','Reading from streams that deliver the bytes in pieces','Let every read give back fewer bytes than asked (at least one unless at the end), or None if the stream does not block. However the bytes arrive: every yielded command stands for a consecutive part of the file and the parts follow one another without gap; a blocking stream is read to its end unless an exception is raised; the loop ends. Up to the first difference the commands are those of whole reads, and the first difference is an exception (EOFError, struct.error, TypeError), an early end (only not blocking), or a command outside YM2151 and wait whose payload is cut short. The header is never misread: None, EOFError, TypeError or the same reader. Register writes and waits can be wrong only behind a payload that was cut short.','every file content, every way of cutting the reads, every position','the ways in which reads can be cut are unbounded and depend on the file object',[R+':_read8',R+':_read16',R+':_read32',R+':_read_bcd',R+':Vgm.__next__',R+':command',R+':reader'])
p('C97','Text exports of related recordings','Slowed down k times and exported with k times the ticks per note, the table has the same rows except that Samples is multiplied by k. A longer recording starts with the text of the shorter one. With k times the ticks per note, a row stands for k rows: a cell is empty iff the k cells are, and otherwise the last one of them that is not empty. Raised by k octaves, the table differs in the octave digit of the notes only.','every history of commands, every factor, every number of ticks per note (times below 2^1023)','relations between two runs, for all histories',[X+':extract_tracks',N+':Note.__str__'])
p('C98','One file object and its readers','Readers made from one file object (not compressed) share its position: calls of next on them in any order give together what one reader would give, each command going to exactly one call. reader called at any position p goes by the bytes at p: None if they are not the magic; otherwise size, version and YM2413 clock are those of a header at p, but the YM2151 clock (from 1.10), the data offset (from 1.50) and the place 0x40 count from the beginning of the file; EOFError exactly if one of these is incomplete. Going back to 0 and calling reader again gives the same fields and puts every reader at the first command.','every file content, every position, every number of readers, every order of calls','interleavings of calls on shared objects are unbounded',[R+':reader',R+':Vgm.__init__',R+':Vgm.__next__',R+':Vgm.seek'])
p('C99','Registers and values that are not bytes','Commands made by the caller with any non-negative ints: State is that of the commands with the low bytes of register and value, without those to a register from 256 on whose low byte is below 0x20; nothing raises and no neighbouring field is touched. The exceptions are the LFO frequency (0x18) and the AM depth (0x19 with bit 7 clear), which are stored whole and change nothing else.','every history of commands with any natural numbers','unbounded numbers in unbounded histories',[S+':State.apply',S+':State.apply'])
p('C100','Names that mean the same file','Let several names mean one file (links, ./a and a, ignored case). Whichever names do, the program ends with the same result and prints the same as if every name had a file of its own holding what the name gives to read; files that no output name means are as before, in particular the input unless an output is another name of it. On a readable input with no file that cannot be opened, the file of the track name holds the whole song, also if it is the input itself or that of the instruments; the file of the instrument name holds the instruments unless it is that of the track name. However the program ends, a file that changed holds a complete output (or, with a year no zip archive can hold, an archive without entries).','every meaning of the names (any function from names to files), every file system, every command line','the ways in which names can coincide are a property of the file system, not of the arguments',[M+':main',X+':extract_instruments',X+':extract_tracks_to_xrns',T+':smart_open'])
p('C101','Tempo estimate of a repeating rhythm','If the key-ons repeat with period p in [1000, 8000) from some time to some time (or to the end of the first 32000 samples), the estimate is at most p. It is exactly p if no shorter shift in the range maps the rhythm to itself and the rhythm is played k times with twice k more than the key-ons in a period plus two. So key-ons in unequal steps a, b, a, b, ... (swing, or a beat that is not a whole number of samples), three times over, are estimated as a + b: a beat of 2000.5 samples gives 4001.','every rhythm, every period and position, every history with these key-ons','rhythms are infinite in number and the loop over 7000 shifts compares all of them',[S+':State.ticks_per_note'])
p('C102','How large results can get','For a file with n bytes of commands, however reading ends: the commands and all their payloads together are no more than n; every three bytes bring at most one register write or 65535 samples of time; there are at most n/3 notes over all channels and at most n/3 instruments (one of each for every write to the key register), a song of at most 21845 n/(64 t) + 1 patterns and a table of at most 21845 n/t rows for t ticks per note. These bounds are sharp: 3n + 3 bytes suffice for 65535 n/(64 t) + 1 patterns and 65535 n/t rows.','every byte string and position, every way reading ends, every ticks-per-note from 1 up to the overflow bound','sizes are unbounded and the worst case is not known beforehand',[R+':command',R+':Vgm.__next__',S+':State.apply',X+':extract_tracks_to_xrns',X+':extract_tracks'])
p('C103','The input changes while it is read','If the input file is changed, cut, extended or replaced by somebody else while the program reads it (so that its reads may return anything at all, or fail), then either the program raises an exception and no file has changed, or there is an ordinary VGM file that would have given exactly this: the same end, the same text, the same content of every other file; its register writes and waits are, in order, those that the bytes read are made of. Conversely every VGM file can be what is read. It need be neither the old nor the new version: a key press can result that is in neither, although every byte is from one of them, at its place.','every sequence of answers to the reads, every content of the file at opening, every option, every number of commands','the interleaving with the other writer cannot be controlled or enumerated',[M+':main',M+':process_vgm_file',R+':reader',R+':command',R+':Vgm.__next__'])
p('C104',"ConfigEncoder on the caller's own values",'json.dumps(value, cls=ConfigEncoder), on any value made of None, Booleans, whole numbers, strings, lists, dicts and objects that refer to each other in any way: if it returns, the text describes the value with every object replaced by what its repr_json returned, in the same order and with the same keys; it returns whenever there is such a description (also if an object occurs several times) and the recursion limit allows it; otherwise it raises, and the exception says which of these is somewhere within the value: an object without repr_json (TypeError), something that contains itself (ValueError), a repr_json that raised (its exception), or as deep a nesting of different things as the recursion limit allows. On the list of instruments it gives what C49 is about, however their parts are shared.','every value, every sharing of parts, every recursion limit','values are graphs of any shape and size',[C+':ConfigEncoder.default',C+':Config.repr_json',C+':ChannelConfig.repr_json',C+':OperatorConfig.repr_json',C+':BaseConfig.repr_json',C+':Waveform.repr_json',C+':Operators.repr_json',X+':extract_instruments'])
p('C105',"A damaged output is never mistaken for the result",'Whatever the operating system refuses during main, and whatever part of the data it has taken before (single writes may fail and later ones succeed, buffers of any size): the track file is afterwards as before, or the complete file of a run on a perfect system, or a file in which no song can be read, also where zipfile has finished an archive over lost data. The instrument file is as before or a beginning of the complete one, and if it reads as an instrument file at all it holds all instruments.','every input, every device and pattern of failures, every buffer size; songs below two gigabytes','the patterns of failing and partial writes are unbounded, and zipfile goes on after a failed write',[M+':main',X+':extract_instruments',X+':extract_tracks_to_xrns','src/xrns/writer.py:writer',T+':smart_open'])
p('C106',"Which line of the instrument file shows which setting",'The instrument file is exactly: a bracket, seventy lines for every instrument (one setting per line, indented with tabs, in a fixed order of names), a bracket, a line end. Setting j of instrument k is on line 1 + 70 k + j; every setting of an instrument has a line; two files with equally many instruments differ exactly in the lines of those settings in which the instruments differ, so a line-by-line diff shows precisely what changed; and recording more only adds lines after the ones for the instruments there were.','every history of register writes, every pair of histories, every instrument, setting and line','the places must be right for every number of instruments and all values of the settings, and the diff for every pair of files',[X+':extract_instruments',C+':ConfigEncoder',C+':Config.repr_json',C+':ChannelConfig.repr_json',C+':OperatorConfig.repr_json'])
p('C107',"Text outputs on systems with other line ends and encodings",'Whatever the line end of the system (Unix, Windows, old Mac) and whatever its encoding, as long as it agrees with ASCII: the instrument file reads back as exactly the instruments, and the instrument file and the track table are, read with universal line ends, character for character what is written on Unix. On a system with line feeds they are the bytes of the other properties.','every history of register writes, every line end of the three, every encoding that agrees with ASCII','encodings are functions on all characters, and the files are of any size',[T+':smart_open',X+':extract_instruments',X+':extract_tracks'])
p('C108',"Changing things through the objects that State hands out",'A caller may, between register writes and waits, assign to the settings of channel_config(ch), to the operators of a channel or of a recorded instrument, replace the contents of key_presses(ch), and delete or reorder instruments in configs. Each edit changes exactly the thing it names - no other channel, operator, instrument or note, neither at once nor through later register writes - and raises IndexError exactly if there is no such thing. Assigning values that the chip can have is the same as writing the registers. A later key-on refers to the first instrument of configs as it is then that sounds as the channel is then, or adds one whose number is its place.','every sequence of register writes, waits and edits, with any channels, positions, values and notes','sharing between objects shows only after particular sequences of recording and editing, and these are unbounded',[S+':State.channel_config',S+':State.key_presses',S+':State.apply',C+':Config.__getattr__',C+':ChannelConfig.__deepcopy__'])
p('C109',"A song with the caller's own texts survives the file","A Song whose name, artist, track names, track states, notes, instruments and pannings are any texts of the caller - any Unicode characters that XML can carry, among them the ones it must escape - can be written, and the file, unzipped, decoded as UTF-8, with its line ends normalised and parsed, shows the song: all settings and texts character by character, the tracks of the three kinds, the number of instruments, every line of every pattern in order, the sequence. In particular a song built by any calls of add_note and add_pattern shows in every cell the last text put there.",'every song, with any number of tracks, patterns and lines and any texts that XML can carry (not only white space, no carriage return), every date from 1980 to 2107, documents below 2 GB','escaping and encoding errors depend on the characters, of which there are more than a million, and their neighbours',['src/xrns/writer.py:writer',Z+':XrnsSerializer.render','src/xrns/parts/song.py:Song','src/xrns/parts/pattern.py:PatternPool.add_note'])
p('C110',"Song documents are of the declared format","Every song document is of the format that the classes of src/xrns/xml/song declare: each element is one that the class of its parent declares, in the declared order, repeated only where the class has a list, with a value of the declared type (number, truth value, one of the allowed words), and each element has the attributes that its class fixes or requires and no undeclared ones.",'every exported song - every history of the chip and every ticks per note - and every song of the caller whose texts XML can carry and whose tracks have a known state','a checker can validate the files it is given; this is about all files that can come out, of unbounded size',[Z+':XrnsSerializer.render','src/xrns/writer.py:writer','src/xrns/xml/song/renoise_song65.py:RenoiseSong'])
p('C111',"The song document shows every value of the song's objects, and nothing else","Whatever data objects of the song format are rendered, each text, number or object put into a field has exactly one element, named after the field, inside the element of its object; elements of the same field are in the order of the list; fields that were not set have none; there are no other elements; attributes are those that the class fixes and those given; and, except among the devices of a track, elements of one field come before those of the next, so that tracks come before the master track and the master track before the send tracks. In particular the document of every song shows the objects that the serializer makes of it, all the way down.",'every tree of data objects of the 28 classes that song documents use, of any depth and any lengths of lists, and every song','objects nest and lists grow without bound, and the classes mark some neighbouring lists as sequential, which interleaves them: tests with one or two items per list do not show whether order or items are lost',[Z+':XrnsSerializer.render','src/xrns/writer.py:writer','src/xrns/xml/song/renoise_song65.py:RenoiseSong'])
p('C112',"Assigning to attributes of a state or an instrument only masks them","A caller may, between register writes and waits, assign to and delete attributes of a State and of the instruments in its configs (state.lfo = 5, del state.lfo, state.configs[0].fb = 7), for all public names that are not its own methods or configs. Assignments never fail (IndexError if there is no such instrument) and never reach the chip or a recorded instrument: register writes, recorded notes and instruments and all exports are as without them. But reads of an assigned attribute give the assigned value, whatever is written to the registers, until it is deleted; then, and for all other attributes, they give what they would give without. Deleting raises AttributeError exactly if nothing was assigned.",'every sequence of register writes, waits, reads, assignments and deletions with any values','the classes forward reads but not assignments, so what a read gives depends on the whole history of both',[S+':State.__getattr__',C+':Config.__getattr__'])
p('C113',"What ConfigEncoder writes is JSON of the value, whatever its strings","A text json.dumps(value, cls=ConfigEncoder) returns for a value of the caller's, without an indentation or with one of white space, is JSON (RFC 8259), and reading it gives exactly the value with every object replaced by what its repr_json returns, whatever characters its strings and keys contain; so two values with the same text say the same. Without an indentation it is one line of printing ASCII characters, with one there are only the line breaks and indentations besides. On the list of instruments, with a tab, it is the text of the instrument file.",'every value (also with shared objects), all strings of Unicode characters, every indentation of white space','one must be able to read the text back for all strings, nestings and numbers',[C+':ConfigEncoder.default','src/extractors.py:extract_instruments'])
p('C114',"Copied settings are independent, instruments are not","A caller who works with the settings classes directly may rely on this, whatever has been done before and also if channels share their operator lists or operators: ChannelConfig(other), OperatorConfig(other), BaseConfig(other), NoteConfig(other) and copy.deepcopy(other) give a new object with the settings other has at that time (the default ones without other); nothing that is later done elsewhere changes it, and working on it changes nothing that existed before. == says exactly whether two objects have the same settings, all of them, and compare whether an instrument has given ones. Config(...) made by a caller, in contrast, holds the base and channel by reference, and all Configs made without them share one default base and one default channel for the life of the process. The four operators of a new channel are different objects. Assigning to an operator, a channel or its list changes exactly that; the only exception is IndexError for an operator that is not there, and it changes nothing.",'all sequences of calls by a caller, with any sharing between objects','aliasing needs every history of constructions, assignments and copies',[C+':BaseConfig',C+':OperatorConfig',C+':NoteConfig',C+':ChannelConfig',C+':Config.__init__'])
p('C115',"Colours of the documents, and who shares them","XrnsSerializer(config).render(song): whatever a caller has done with serializers and SerializerConfig objects, the document's i-th track has the i-th colour of the serializer's configuration at that time, tracks for which there is none get none, master and send tracks theirs; but for the colours the document does not depend on the configuration, and rendering changes nothing, so that rendering again gives the same. Configurations are held by reference. A configuration of one's own says only what is said to it (unless lists are shared on purpose); serializers made without one, and the export to a file, all share one: as long as it is left alone, exported documents have the standard colours, and what is assigned to it through one serializer shows in all later documents and exports of the process.",'all sequences of calls on serializers and configurations, every song','sharing and iteration over the colours must be right for all histories and numbers of tracks',[Z+':SerializerConfig',Z+':XrnsSerializer.__init__',Z+':XrnsSerializer._render_tracks','src/xrns/writer.py:writer'])
p('C116',"Threads of one process, each reading a file of its own","Several threads of a process, each opening a file with reader and running process_vgm_file: however the interpreter switches between them, also between the statements with which a reader is made, and whatever the table of clocks held before, each thread gets exactly the reader, the state or the exception it would get without the others, and comes to its end after a number of its own steps that depends on its file only. What is shared is the table behind clock and supports: what they say is always what one of the files says; if all files are of version 1.10 or later with the same YM2151 clock it is always that one. If not, it may be, even when all is over, a clock that is that of none of the files.",'all lists of files, all schedules, all previous contents of the table of clocks','a race shows only under particular switches between threads',[R+':Vgm.__init__',R+':Vgm.clocks',R+':reader',M+':process_vgm_file'])
p('C117',"Loops, and parts cut out of a recording","What a part of a recording gives depends, but for its time and the numbers of the instruments, only on the settings of the chip when it begins. A part played again and again (a loop) gives the same notes with the same instruments again and again, each time later by its length, from the second time on; no instruments are added after the second time, and if its length is a multiple of ticks_per_note the rows of the song repeat with that period. A part cut out, with the registers first set to what they were (as VGM trimmers do), gives the notes it gave in the whole, moved to its new time, from its first key-on on: only key-offs of keys pressed before are missing; and no other instruments than those of the whole.",'all recordings, all parts and positions, any number of repetitions, every ticks_per_note','a claim about all recordings, parts and numbers of repetitions',[S+':State.apply',S+':State.beat',S+':State.key_presses',M+':process_vgm_file',X+':extract_tracks_to_xrns'])
p('C118',"Exactly when two recordings give the same song","Two recordings give the same song at the same ticks_per_note if and only if they have equally many instruments and, in every channel and row, the last events look alike: none in both, or both key-offs, or key-ons with the same instrument number and the same semitone (note codes that the chip does not have counting as the one they are exported as), and on the same side (neither side counting as left). Nothing else of a recording is in the song, and none of this can get lost.",'all pairs of recordings, every positive ticks_per_note','both directions range over all pairs of recordings',[X+':extract_tracks_to_xrns',N+':Note.xrns_note',Z+':XrnsSerializer.render'])
p('C119',"A score written as a recording is got back","Take any sequence of key strokes, each with a wait of any length, a channel, an instrument, a pitch and a panning, all within the chip's fields (D2R below 16; the noise generator on the eighth channel only), and write it as a recording: per stroke the wait, all registers of its instrument and pitch, and the key. The extractor then reports the score: its instruments in the order of their first use with all their parameters, and in every channel its notes, from the first key-on after the start on. As VGM commands behind any header that points to them the file is readable and is that recording; the song made from it, and the track file that the program writes for it, have in every cell the last stroke of that channel and row, and nothing where there is none.",'all lists of key strokes within the ranges of the fields, every header, every ticks_per_note for which there is a song','ranges over all scores of any length',[S+':State',S+':State.apply',C+':ChannelConfig',X+':extract_tracks_to_xrns',M+':main'])
p('C120',"Every recording has one score, and it is all that counts","Every recording has a score: its key events with their times and what the registers say at each. It is within the chip's fields, and the recording and its score written as a recording have the same instruments, notes, tick positions, song, CSV, instrument file and tempo estimate; so every readable input file can be replaced by a canonical file made from its score without changing the result, the output or the files of the program. The score is unique: writing a score within the fields as a recording and taking its score gives it back.",'all recordings of byte-valued writes, all readable input files, all scores within the fields','ranges over all recordings and all scores',[S+':State.apply',S+':State.beat',X+':extract_tracks_to_xrns',X+':extract_tracks',M+':main'])
p('C121',"Exactly when two recordings give the same CSV","At the same positive ticks_per_note two recordings give the same CSV text if and only if after every row the next event (of any channel) is at the same time, or there is none in either, and on every row that has a later event the last events of every channel read the same: none in both, or both key-offs, or the same instrument number, octave, note code, key fraction (0 and 1 alike) and panning (without the right side the left does not count). So the CSV tells the times of the first events of rows, and of nothing else; the last row is not told.",'all pairs of recordings shorter than 2^1023 samples, every positive ticks_per_note','both directions range over all pairs of recordings',[X+':extract_tracks',N+':Note.__str__'])
p('C122',"Looking at a state while another thread feeds it","One thread gives commands to a State, others only look. At any moment every list, every setting and the tempo estimate is seen as it was before the command then being carried out or as it is after it (one command for all looks of a moment, later moments have later commands). Instruments, notes and times once seen stay, unchanged and in front. Whoever sees a note finds its instrument then or later, complete; whoever sees a time other than 0 in ticks() finds a note with it. Not so for extract_tracks_to_xrns in the other thread: it counts the instruments before it reads the notes and can make a song with a note whose instrument is not in it.",'every history, every moment between two single changes, every order of looks','the moments at which another thread runs cannot be chosen in a test',[S+':State.apply',S+':State.beat',S+':State.key_presses',S+':State.channel_config',S+':State.ticks',X+':extract_tracks_to_xrns'])
p('C123',"A command interrupted in the middle","apply or beat may be ended by Ctrl-C (or another exception from outside) between any two of its changes, and the caller goes on with the state. Whichever calls were cut off and wherever: instruments stay distinct and numbered by position, every note is a key-off or has its instrument, notes are in order of time, every time in ticks() but 0 has its note. Repeating a cut register write has the effect of one write. Repeating a cut key event has the effect of one, unless its note had already been recorded (visible in key_presses): then it is there twice and all else is as after one. A wait has been made or not. A recording whose cut writes are repeated gives the state without interruptions.",'every history, any number of interruptions at any change','crash points between single assignments, in unbounded histories',[S+':State.apply',S+':State.beat'])
p('C124',"Several threads feed one State","Several threads call apply and beat of one state without a lock, and are interrupted anywhere, also within a call. At every moment: each recorded note is a key-off or refers to an instrument that is there; its octave, note and fraction are in range; no time is later than the sum of all waits; no channel has more notes than the threads made key events for it, and there are no more instruments than key-on events; no instrument has a number above its position; what is recorded is never changed or removed. A thread is through with its calls after a bounded number of its own steps, whatever the others do. With a lock around every call the outcome is that of one thread making all calls in some order, each thread's in its own. Threads that write different registers, of which at most one waits, and that make no key events, need no lock: in the end the state is that of one thread that makes all calls. Otherwise, without a lock, nothing more may be hoped for: a wait or a register write can be lost, a note can get another channel's instrument, two instruments one number, a key-off can become a note.",'any number of threads, their calls (any), any interleaving of their atomic steps','schedules of unbounded length at the granularity of single reads and assignments',[S+':State.apply',S+':State.beat',C+':Config.compare'])
p('C125',"What several threads made can be exported","Whatever several threads have done to one state at the same time, without a lock and interrupted anywhere, the results can be exported without an error. For a positive ticks-per-note the song is made, has an instrument for every instrument of the state, shows in each cell the last note that was recorded for its row, and no cell refers to an instrument that is not there. The instruments file is written and reads back as the state's instruments. The CSV table is written (for a ticks-per-note other than 0). A tempo is found, the best one for the recorded beats.",'any number of threads, any calls, any interleaving of their atomic steps; any ticks-per-note in the stated range','schedules of unbounded length at the granularity of single reads and assignments',[S+':State.apply',S+':State.ticks_per_note',C+':Config.compare'])
p('C126',"Exporting while another thread feeds the state","One thread gives commands to a State while another exports it. The CSV table is that of the notes that were there at certain moments during the export, perhaps another moment for each channel, and is written without an error; so is the song, with the instruments that were there at its beginning, each cell showing the last of those notes on its row; the instruments file is that of one moment during its writing and reads back as the instruments of then. When the instruments are written after the tracks every note's instrument is in the file at its number. In the order of src/main.py (instruments first) that need not be so, and the table need not be that of any single moment.",'every history, every choice of the moments at which the export looks at the lists','the moments at which another thread runs cannot be chosen in a test',['src/extractors.py:extract_tracks','src/extractors.py:extract_tracks_to_xrns','src/extractors.py:extract_instruments',S+':State.key_presses'])
p('C127',"Exporting while several threads feed the state","Several threads give commands to a State without a lock, interrupted anywhere, while another exports it. The exports make no error: the CSV table is that of the notes that were there at certain moments during the export (perhaps another moment for each channel), the song likewise, with the instruments that were there at its beginning, and the instruments file is that of one moment during its writing and reads back as the instruments of then. When the instruments are written after the tracks, at the number of every note's instrument there is an instrument in the file, the one that is there in the end.",'any number of threads, any calls, any interleaving of their atomic steps, any choice of the moments at which the export looks at the lists','schedules of unbounded length at the granularity of single reads and assignments',['src/extractors.py:extract_tracks','src/extractors.py:extract_tracks_to_xrns','src/extractors.py:extract_instruments',S+':State.apply',S+':State.beat'])
p('C128',"Several threads take commands from one reader","Several threads call next on one reader without a lock, interrupted anywhere, also between the reads of one call. Every byte of the file goes to exactly one read, in order; a call gives what a reader would give that has just the bytes the call has read: a command, StopIteration or an exception for missing bytes. Together they get no more commands and exceptions than bytes have been read, StopIteration only when nothing is left, and from then on nothing else; every call ends after at most three reads. A call that no other thread interrupts is a call of next on the file as it was. (Without a lock commands can be torn: the threads can get commands of which none is in the file.)",'every file content and position, any number of threads, any interleaving of their single reads','schedules of unbounded length at the granularity of single reads',['src/vgm/core.py:Vgm.__next__','src/vgm/core.py:command'])
p('C129',"Several threads process one file together","Several threads run the loop of process_vgm_file with one reader and one State between them, without a lock, interrupted anywhere. What they make is what threads make that take commands from one reader (C128) and give them to one state (C124): every note is a key-off or refers to an instrument that is there, is in range, and no later than the bytes of the file allow; there are at most a third as many notes of a channel, and instruments, as bytes; the tempo estimate, the song, the table and the instruments file are made without an error; every thread ends, however the others are scheduled. With a lock around the taking and giving of a command the state is that of one thread (process_vgm_file). (Without one it need not be: a note can come up of which there is none in the file.)",'every file content and position, any number of threads, any interleaving of their atomic steps','schedules of unbounded length at the granularity of single reads and assignments',['src/main.py:process_vgm_file','src/vgm/core.py:Vgm.__next__',S+':State.apply',S+':State.beat'])
p('C130',"A lock around the taking of commands only","Several threads process one file together (C129), and only the calls of next have a lock; apply and beat do not. Then the commands of the file are dealt out: there is an order of all the calls of next, in which those of each thread are in its own order, whose results are those of as many calls one after the other. At any time the commands the threads have got are, in some order, the first commands of the file; as soon as one thread has ended they are all of them, each once, and the exception if the file ends with one goes to exactly one thread. The state has no more in it than the file: no more notes on a channel than the file has key events for it, no more instruments than key-ons, nothing later than the file is long. (It need not be the state of one thread: a key-on may be applied before a wait that precedes it.)",'every file content and position, any number of threads, any interleaving of their atomic steps in which calls of next do not overlap','schedules of unbounded length at the granularity of single reads and assignments',['src/main.py:process_vgm_file','src/vgm/core.py:Vgm.__next__',S+':State.apply',S+':State.beat'])
p('C131',"Negative registers and values","Commands made by a caller (create, YM2151Command) with any integers, negative ones too, are applied like the commands with the low bytes (the remainders modulo 256) of the register and the value, except that a register that is not a byte and whose low byte is below 0x20 (key, noise, LFO, depth, wave form) does nothing; everything that can be seen of the state is that of those commands, so nothing raises, and no field gets a negative number. Except for the two writes that keep their value as it is (register 0x18, and 0x19 with bit 7 clear), for which the value has to be a byte. Commands with numbers that are not negative are as before (C99).",'every sequence of commands with arbitrary integers (values 0..255 for the two registers that keep them whole) and waits','infinite two-sided domains of registers and values',[S+':State.apply','src/vgm/ym2151/config.py:create'])
#NEXTPROP
open("/verif/properties.jsonl","w").write("".join(json.dumps(x)+"\n" for x in P))
print(len(P))
