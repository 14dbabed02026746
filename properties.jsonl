{"id": "C01", "title": "Iterating a VGM file always terminates", "statement": "For every file content, `for cmd in reader(f)` ends after finitely many commands (StopIteration or an exception); every command yielded consumes at least one byte, so at most as many commands are yielded as bytes remain after the data offset, and the outcome is unique.", "quantifier": "every byte string and every starting position in it", "why_tests_cant": "termination and the length bound are claims over all byte strings, of any length; tests iterate a handful of files", "anchors": ["src/vgm/core.py:Vgm.__next__", "src/vgm/core.py:command"]}
{"id": "C02", "title": "Command framing follows the VGM command table", "statement": "For every opcode 0x00-0xFF and whatever bytes follow it, the reader consumes exactly the number of operand bytes the VGM specification assigns to that opcode when the operands are present. (False for 0x68 with a non-zero size, whose operand bytes the reader follows with a bogus inline payload, and for a 0x67 block whose size has the dual-chip bit 31 set: proved for all other commands, and refuted for these two.)", "quantifier": "every opcode, every continuation of the stream", "why_tests_cant": "a mis-framed command desynchronises everything after it only for particular operand bytes; a test has one continuation per opcode", "anchors": ["src/vgm/core.py:command"]}
{"id": "C03", "title": "Encode/decode round trip of command streams", "statement": "For every finite list of well-formed commands, iterating over their encoded bytes yields exactly those commands in order and then stops; no byte is skipped or read twice, and prefixing further bytes does not change what was decoded first.", "quantifier": "every list of well-formed commands, every length", "why_tests_cant": "needs all sequences of commands, since framing errors only show at the next command", "anchors": ["src/vgm/core.py:command", "src/vgm/core.py:Vgm.__next__", "src/vgm/command.py:WaitCommand", "src/vgm/ym2151/config.py:YM2151Command"]}
{"id": "C04", "title": "Truncated files: exactly which truncations are reported", "statement": "Iteration raises iff the stream ends inside a YM2151 write or a 0x61 wait (EOFError) or inside the fixed header of a 0x67/0x68 block (struct.error); a truncation anywhere else ends the iteration normally, with a short payload. No other exception is possible, and the commands yielded before the truncated one are the same as those of the untruncated stream.", "quantifier": "every byte string and every truncation point of it", "why_tests_cant": "all truncation points of all streams", "anchors": ["src/vgm/core.py:command", "src/vgm/core.py:_read8", "src/vgm/core.py:_read16"]}
{"id": "C05", "title": "Wait commands carry the specified number of samples", "statement": "0x61 nn nn waits the little-endian 16-bit number of samples, 0x62 735, 0x63 882, 0x7n n+1; these are the only opcodes that yield a wait, every wait yielded carries a number (never None), and at most 65535.", "quantifier": "every opcode and operand", "why_tests_cant": "65536 operands times all contexts; absence of None must hold for every path", "anchors": ["src/vgm/core.py:command", "src/vgm/command.py:WaitCommand.__init__"]}
{"id": "C06", "title": "Header decoding", "statement": "For every 4-byte magic+header of sufficient length: size() is the little-endian word at 0x04 plus 4, version is the decimal reading of the BCD word at 0x08 (every decimal number below 10^8 is read back exactly from its BCD encoding), the YM2151 clock is the word at 0x30, or the one at 0x10 for versions before 1.10, and data starts at 0x34 + word at 0x34 for versions >= 1.50 and at 0x40 otherwise. supports() of the two chips says whether the clock is not zero; of any other chip it is false and clock() raises KeyError, whatever files were opened before.", "quantifier": "every header content, every version number below 10^8, every chip name, every sequence of opened files", "why_tests_cant": "10^8 versions and 2^32 values per word", "anchors": ["src/vgm/core.py:Vgm.__init__", "src/vgm/core.py:_read_bcd", "src/vgm/core.py:_read32", "src/vgm/core.py:Vgm.size", "src/vgm/core.py:Vgm.clock", "src/vgm/core.py:Vgm.supports"]}
{"id": "C07", "title": "reader() accepts exactly the files with the VGM magic", "statement": "For an uncompressed file reader returns None iff the first four bytes are not 'Vgm ' (including files shorter than four bytes), and otherwise raises EOFError iff the header words it needs are cut off, and else returns a reader positioned at the data offset.", "quantifier": "every byte string", "why_tests_cant": "all contents and lengths", "anchors": ["src/vgm/core.py:reader", "src/vgm/core.py:Vgm.__init__"]}
{"id": "C08", "title": "Compression is transparent", "statement": "For every decompressor behaviour: reading a file that starts with the gzip magic yields the same header fields and the same command sequence as reading the decompressed content directly, provided that content is not itself gzip; and a non-gzip file is never passed to the decompressor.", "quantifier": "every file content and every decompression result", "why_tests_cant": "quantifies over all contents and all (abstract) decompressors", "anchors": ["src/vgm/core.py:reader"]}
{"id": "C09", "title": "Each reader reports its own file's chip clocks", "statement": "After opening a sequence of files, clock()/supports() of a reader report that reader's file. (False: the table is shared by all readers, so every reader reports the file opened last; proved exactly that, and refuted the isolation.)", "quantifier": "every sequence of opened files", "why_tests_cant": "a leak between instances depends on the history of earlier opens", "anchors": ["src/vgm/core.py:Vgm.clocks", "src/vgm/core.py:Vgm.__init__", "src/vgm/core.py:Vgm.clock", "src/vgm/core.py:Vgm.supports"]}
{"id": "C10", "title": "Data after the end-of-sound command has no effect", "statement": "Bytes after the 0x66 end command (e.g. the GD3 tag) do not change the extracted song. (False: iteration runs on to the end of the file; the trailing bytes are decoded as commands. Refuted with witnesses for added notes and for a crash; proved for files that end with the end command, and for trailing bytes that decode to neither waits nor YM2151 writes.)", "quantifier": "every stream and every trailing data", "why_tests_cant": "depends on arbitrary trailing metadata", "anchors": ["src/vgm/core.py:Vgm.__next__", "src/main.py:process_vgm_file"]}
{"id": "C11", "title": "The clock of the song is the sum of the waits", "statement": "After processing any command sequence the current time equals the sum of the waits of the stream as the VGM specification defines them, independently of how the waits are split up. (False for 0x8n, whose n-sample wait is dropped; proved for streams without 0x81-0x8F.)", "quantifier": "every command sequence", "why_tests_cant": "every sequence of commands, in any interleaving", "anchors": ["src/main.py:process_vgm_file", "src/vgm/ym2151/state.py:State.beat", "src/vgm/core.py:command"]}
{"id": "C12", "title": "Chip state is the last value written to each register", "statement": "After any history of register writes and waits, every field of every channel's configuration and of the global configuration equals the YM2151 data-sheet field of the last value written to its register (0 if never written), with PMD/AMD being the last write to 0x19 with/without bit 7. (False for D2R, of which only 4 of the 5 bits are kept: refuted for that field and proved for all others, and for the low four bits of D2R.)", "quantifier": "every finite history of register writes and waits", "why_tests_cant": "quantifies over histories; a stray write to another channel or operator only shows after specific sequences", "anchors": ["src/vgm/ym2151/state.py:State.apply", "src/vgm/ym2151/state.py:State.channel_config"]}
{"id": "C13", "title": "Re-writing a register is idempotent", "statement": "Applying a non-key register write twice in a row leaves the same observable state as applying it once, in every state.", "quantifier": "every state, every register except key-on/off, every value", "why_tests_cant": "all states and register/value pairs", "anchors": ["src/vgm/ym2151/state.py:State.apply"]}
{"id": "C14", "title": "Writes to different registers commute", "statement": "Two non-key writes to different registers, in either order, lead to the same state.", "quantifier": "every state, every pair of different non-key registers, every two values", "why_tests_cant": "order independence over all pairs and states", "anchors": ["src/vgm/ym2151/state.py:State.apply"]}
{"id": "C15", "title": "Unknown registers are ignored", "statement": "A write to a register the extractor does not interpret (test, timers, CSM, 0x09-0x0E, 0x10-0x17, 0x1A, 0x1C-0x1F, 0x00-0x07) changes nothing observable; and these are the only bytes ignored.", "quantifier": "every state and every uninterpreted register byte", "why_tests_cant": "all states", "anchors": ["src/vgm/ym2151/state.py:State.apply"]}
{"id": "C16", "title": "Instruments are unique and numbered by position", "statement": "After any history the instrument list contains no two instruments with equal settings (global, channel and enabled operators), and instrument i has id i.", "quantifier": "every history", "why_tests_cant": "uniqueness is an invariant of all histories", "anchors": ["src/vgm/ym2151/state.py:State.apply", "src/vgm/ym2151/config.py:Config.compare", "src/vgm/ym2151/config.py:ChannelConfig.__eq__", "src/vgm/ym2151/config.py:OperatorConfig.__eq__", "src/vgm/ym2151/config.py:BaseConfig.__eq__"]}
{"id": "C17", "title": "A note's instrument is the patch that was sounding", "statement": "After any history, every recorded note with a non-negative instrument id refers to an existing instrument, whose settings equal the chip's register-derived settings of that channel and the operators of that key-on at the moment of the key-on, whatever was written later.", "quantifier": "every history and every note in it", "why_tests_cant": "relates the end of an arbitrary history to a state in the middle of it", "anchors": ["src/vgm/ym2151/state.py:State.apply", "src/vgm/ym2151/note.py:Note.__init__", "src/vgm/ym2151/config.py:Config"]}
{"id": "C18", "title": "Recorded instruments never change (no aliasing)", "statement": "Once recorded, an instrument keeps its settings for every later history: no register write reaches it through a shared object. Also no two channels and no two operators share state. apply never raises for any byte pair.", "quantifier": "every history, at the level of object references", "why_tests_cant": "an aliasing bug shows only for a later write to the same object; needs all continuations", "anchors": ["src/vgm/ym2151/state.py:State.apply", "src/vgm/ym2151/config.py:BaseConfig.__deepcopy__", "src/vgm/ym2151/config.py:ChannelConfig.__deepcopy__", "src/vgm/ym2151/config.py:OperatorConfig.__deepcopy__"]}
{"id": "C19", "title": "The instrument list is exactly the distinct patches keyed on, in order of first use", "statement": "After any history the instrument list is the list of (global, channel, operators) settings at each key-on event with duplicates removed keeping first occurrences: nothing is missing, nothing invented, and the list only ever grows at the end.", "quantifier": "every history", "why_tests_cant": "full functional characterisation over histories", "anchors": ["src/vgm/ym2151/state.py:State.apply"]}
{"id": "C20", "title": "Key-off creates nothing", "statement": "A key-off (operator bits 0) never adds an instrument nor a tick, and any note it records has id -1; conversely a note has id -1 only if it is a key-off.", "quantifier": "every history", "why_tests_cant": "depends on no stored instrument ever having operators 0, an invariant of all histories", "anchors": ["src/vgm/ym2151/state.py:State.apply"]}
{"id": "C21", "title": "Every key event after the first key-on is recorded", "statement": "Every key-on, and every key-off after the first key-on, appears in its channel's key presses. (False: events before the first key-on at a time > 0 are dropped, in particular every key-on at sample 0; proved that an event is recorded iff its time is > 0 and a key-on at a time > 0 has occurred by then.)", "quantifier": "every history", "why_tests_cant": "which events are lost depends on the whole history", "anchors": ["src/vgm/ym2151/state.py:State.apply", "src/vgm/ym2151/state.py:State.key_presses"]}
{"id": "C22", "title": "Key presses are the channel's own events in chronological order", "statement": "After any history the key presses of a channel are exactly its recorded key events in order, with non-decreasing sample positions equal to the sum of the waits before the event; notes on one channel never show up on another.", "quantifier": "every history, every channel", "why_tests_cant": "order and attribution over all histories", "anchors": ["src/vgm/ym2151/state.py:State.apply", "src/vgm/ym2151/state.py:State.key_presses", "src/vgm/ym2151/state.py:State.beat"]}
{"id": "C23", "title": "ticks() is the sorted set of key-on times", "statement": "After any history ticks() is strictly increasing and contains t iff some key-on happened at time t.", "quantifier": "every history", "why_tests_cant": "set characterisation over all histories", "anchors": ["src/vgm/ym2151/state.py:State.ticks", "src/vgm/ym2151/state.py:State.apply"]}
{"id": "C24", "title": "Notes capture pitch and panning at the key event", "statement": "Every recorded note carries the octave, note code, key fraction and left/right bits of the last values written to its channel's registers before the event, unaffected by later writes.", "quantifier": "every history and note", "why_tests_cant": "relates arbitrary later history to the snapshot", "anchors": ["src/vgm/ym2151/state.py:State.apply", "src/vgm/ym2151/note.py:Note.__init__"]}
{"id": "C25", "title": "Field ranges", "statement": "After any history of byte-valued writes every field of every channel, of the global configuration, of every instrument and every note is within its data-sheet width (e.g. TL <= 127, octave <= 7, note code <= 15).", "quantifier": "every history of byte-valued writes", "why_tests_cant": "range invariant over all histories", "anchors": ["src/vgm/ym2151/state.py:State.apply"]}
{"id": "C26", "title": "The tempo estimate is always in range", "statement": "ticks_per_note() never raises and returns an integer in [1000, 8000) for every history, including the empty one.", "quantifier": "every history", "why_tests_cant": "no-exception and range claim over all tick sets, including empty ones", "anchors": ["src/vgm/ym2151/state.py:State.ticks_per_note"]}
{"id": "C27", "title": "The shift score is the number of unmatched ticks", "statement": "For every strictly increasing tick list and shift > 0 the merge loop terminates and its score is the number of ticks t with t-shift not a tick, plus the number of shifted ticks before the last tick that are not ticks.", "quantifier": "every tick list, every shift > 0", "why_tests_cant": "a nested while-True loop driven by IndexError: termination and result for all inputs", "anchors": ["src/vgm/ym2151/state.py:State.ticks_per_note"]}
{"id": "C28", "title": "The estimate is the best shift, the smallest one on ties", "statement": "ticks_per_note() is the least shift in [1000,8000) whose score is minimal, despite the scores being compared as floating-point ratios.", "quantifier": "every history", "why_tests_cant": "optimality over all histories; floats could merge or reorder scores", "anchors": ["src/vgm/ym2151/state.py:State.ticks_per_note"]}
{"id": "C29", "title": "The estimate depends only on the first 32000 samples", "statement": "Two histories with the same key-on times below 32000 have the same estimate; with fewer than two key-on times there the estimate is 1000.", "quantifier": "every pair of histories", "why_tests_cant": "relational claim over pairs of histories", "anchors": ["src/vgm/ym2151/state.py:State.ticks_per_note"]}
{"id": "C30", "title": "A steady beat is recognised", "statement": "If the key-on times below 32000 form an arithmetic progression of at least two terms with step g in [1000,8000), the estimate is g.", "quantifier": "every start, step and number of terms", "why_tests_cant": "all progressions", "anchors": ["src/vgm/ym2151/state.py:State.ticks_per_note"]}
{"id": "C31", "title": "Exported note names denote the right pitch", "statement": "For every valid key code (note not 3,7,11,15) the name written to the XRNS denotes the pitch 12*octave + 1 + k (semitones above C-0), k being the number of valid codes below it, so code 0 is C# and code 14 the C of the next octave: distinct key codes give distinct names and names rise with the key code, across octaves.", "quantifier": "every octave and valid note code", "why_tests_cant": "whole table plus the octave carry for C", "anchors": ["src/vgm/ym2151/note.py:Note.xrns_note", "src/vgm/ym2151/note.py:_NOTE_LOOKUP_XRNS"]}
{"id": "C32", "title": "Exported pitch is monotone for every key code", "statement": "A larger key code never exports a lower pitch. (False for note code 15, exported as C# of the same octave, below code 14; refuted for it and proved for all other codes.)", "quantifier": "every pair of key codes", "why_tests_cant": "all pairs", "anchors": ["src/vgm/ym2151/note.py:Note.xrns_note"]}
{"id": "C33", "title": "Only key-offs are exported as Off", "statement": "A note is exported as 'Off' to the XRNS (and 'Key Off' to the CSV) iff it is a key-off.", "quantifier": "every note", "why_tests_cant": "over all notes of all histories", "anchors": ["src/vgm/ym2151/note.py:Note.xrns_note", "src/vgm/ym2151/note.py:Note.__str__"]}
{"id": "C34", "title": "CSV and XRNS name the same pitch", "statement": "The CSV and XRNS exports name the same octave for every note. (False for note code 14, C: the XRNS adds one to the octave and the CSV does not; proved for all other codes.)", "quantifier": "every note", "why_tests_cant": "all notes", "anchors": ["src/vgm/ym2151/note.py:Note.__str__", "src/vgm/ym2151/note.py:Note.xrns_note"]}
{"id": "C35", "title": "Instrument numbers in the XRNS are readable back", "statement": "The instrument column is the uppercase hexadecimal instrument id with at least two digits; reading it back gives the id, so different instruments never share a number; exactly two digits iff id < 256.", "quantifier": "every instrument id, unbounded", "why_tests_cant": "ids are unbounded", "anchors": ["src/extractors.py:extract_tracks_to_xrns"]}
{"id": "C36", "title": "Every cell of the song is the last event of its row", "statement": "In the exported song, pattern p, channel c, row r holds the (last) key press n of channel c with n.sample // ticks = 64p + r, with its note name, instrument and panning, and is empty iff there is none.", "quantifier": "every history, every ticks-per-note > 0, every cell", "why_tests_cant": "all cells of all songs", "anchors": ["src/extractors.py:extract_tracks_to_xrns", "src/xrns/parts/pattern.py:PatternPool.add_note"]}
{"id": "C37", "title": "No key press is lost in the export", "statement": "Every recorded key press appears in the exported song. (False when two events of one channel fall on one row: the earlier one is overwritten; proved when no two events of a channel share a row, and that a press is lost only to a later one on its row.)", "quantifier": "every history and ticks-per-note > 0", "why_tests_cant": "depends on collisions in arbitrary songs", "anchors": ["src/extractors.py:extract_tracks_to_xrns", "src/xrns/parts/pattern.py:PatternPool.add_note"]}
{"id": "C38", "title": "The song has exactly the patterns it needs, played once in order", "statement": "The number of patterns is 0 if there are no key presses, else one more than the largest pattern index; the sequence lists 0..P-1 once in order.", "quantifier": "every history and ticks-per-note > 0", "why_tests_cant": "all songs", "anchors": ["src/extractors.py:extract_tracks_to_xrns", "src/xrns/parts/pattern.py:PatternPool.add_note", "src/xrns/parts/pattern_sequence.py:PatternSequence.add_pattern"]}
{"id": "C39", "title": "Lines in a track are strictly ordered and below 64", "statement": "In the rendered song every pattern track lists its lines with strictly increasing index, each below 64.", "quantifier": "every history and ticks-per-note > 0", "why_tests_cant": "dict insertion order vs. row order for all songs", "anchors": ["src/extractors.py:extract_tracks_to_xrns", "src/xrns/xrns_serializer.py:XrnsSerializer._render_pattern_track"]}
{"id": "C40", "title": "Every instrument reference resolves", "statement": "Every instrument number in the exported song is below the number of instruments in it, which equals the number of extracted instruments.", "quantifier": "every history and ticks-per-note > 0", "why_tests_cant": "cross-reference invariant over all histories", "anchors": ["src/extractors.py:extract_tracks_to_xrns", "src/xrns/parts/song.py:Song"]}
{"id": "C41", "title": "The tempo is floor(661500 / ticks)", "statement": "For every ticks-per-note t > 0 the exported BPM is floor(661500/t). (False: floating-point rounding loses 1 for t in {45,90,105,180,210,375,420,750,1500}; proved exact for every other t and off by exactly one for these nine.)", "quantifier": "every t > 0 below the bound 44100 * (2^1024 - 2^970), from which on the division overflows", "why_tests_cant": "double rounding errors at isolated points of an unbounded domain", "anchors": ["src/extractors.py:extract_tracks_to_xrns"]}
{"id": "C42", "title": "Rendering keeps the song", "statement": "Rendering a song yields its instruments, its tracks with name and colour in order (colours running out after eight), a master and a send track, its patterns with one note column per line, and its sequence; the song can be read back from the rendering.", "quantifier": "every song", "why_tests_cant": "structure preservation over all songs", "anchors": ["src/xrns/xrns_serializer.py:XrnsSerializer"]}
{"id": "C43", "title": "Panning column", "statement": "A note has no panning value iff both speakers are enabled, '00' iff only right is, and 'F0' otherwise; it reflects the two bits last written to the channel before the event.", "quantifier": "every history and note", "why_tests_cant": "over all histories", "anchors": ["src/extractors.py:extract_tracks_to_xrns"]}
{"id": "C44", "title": "Negative ticks-per-note is rejected before writing", "statement": "With a negative ticks-per-note the song export raises IndexError, without writing a file, iff any key press was recorded.", "quantifier": "every history, every negative ticks-per-note", "why_tests_cant": "Python floor division and negative indexing for all negative values", "anchors": ["src/extractors.py:extract_tracks_to_xrns", "src/xrns/parts/pattern.py:PatternPool.add_note"]}
{"id": "C45", "title": "CSV export terminates and numbers its rows consecutively", "statement": "extract_tracks terminates for every state and ticks > 0; its lines after the header are rows 0,1,2,..., each once and in order, with row number mod/div 64.", "quantifier": "every history and ticks-per-note > 0", "why_tests_cant": "termination and gap-filling for all inputs", "anchors": ["src/extractors.py:extract_tracks"]}
{"id": "C46", "title": "CSV cells are the last event of their row", "statement": "In line r of the CSV, channel c holds the text of the last key press of channel c with sample // ticks = r, and is empty iff there is none.", "quantifier": "every history, ticks > 0, every written row", "why_tests_cant": "all merges of eight streams", "anchors": ["src/extractors.py:extract_tracks"]}
{"id": "C47", "title": "CSV contains every row of the song", "statement": "Every row that has a key press is in the CSV. (False: the last row with events is never written; proved that exactly the rows before the last one with events are written.)", "quantifier": "every history and ticks-per-note > 0", "why_tests_cant": "all songs; the loss is at the end of every song", "anchors": ["src/extractors.py:extract_tracks"]}
{"id": "C48", "title": "CSV lines have thirteen columns", "statement": "Every line of the CSV splits at commas into exactly thirteen fields, matching the header.", "quantifier": "every history and ticks-per-note > 0, and any number formatting without commas", "why_tests_cant": "over all note texts", "anchors": ["src/extractors.py:extract_tracks", "src/vgm/ym2151/note.py:Note.__str__"]}
{"id": "C49", "title": "The instrument file loses nothing", "statement": "Parsing the JSON written by extract_instruments gives back every setting of every instrument, in order, for every history; two different instrument lists never give the same file.", "quantifier": "every instrument list", "why_tests_cant": "injectivity of a text encoding", "anchors": ["src/extractors.py:extract_instruments", "src/vgm/ym2151/config.py:ConfigEncoder", "src/vgm/ym2151/config.py:Config.repr_json", "src/vgm/ym2151/config.py:ChannelConfig.repr_json", "src/vgm/ym2151/config.py:OperatorConfig.repr_json"]}
{"id": "C50", "title": "Operator names match the hardware slots", "statement": "In the instrument file m1, m2, c1, c2 hold the settings written to register slots 0,1,2,3 (0x40+ch, +8, +16, +24 ...), and the operators string lists exactly the operators whose key-on bits 3,4,5,6 were set, in that order.", "quantifier": "every history", "why_tests_cant": "permutation bugs need all slots and all subsets", "anchors": ["src/vgm/ym2151/config.py:ChannelConfig.repr_json", "src/vgm/ym2151/config.py:Operators.repr_json", "src/vgm/ym2151/state.py:State.apply"]}
{"id": "C51", "title": "No output is written for an unreadable input", "statement": "If the file is not a VGM file, or is truncated in a way that raises, the program raises and writes neither output file.", "quantifier": "every file content and argument combination", "why_tests_cant": "every crash point of the parse", "anchors": ["src/main.py:main", "src/main.py:process_vgm_file"]}
{"id": "C52", "title": "Standard input is refused without side effects", "statement": "With '-' (or an empty name) as input the program raises and changes no file, whatever standard input holds. (smart_open offers '-' as standard input, but standard input is a text stream, so the magic never matches: a user cannot rely on '-' working, only on its failing cleanly.)", "quantifier": "every standard input content", "why_tests_cant": "all contents", "anchors": ["src/tools.py:smart_open", "src/main.py:main", "src/vgm/core.py:reader"]}
{"id": "C53", "title": "smart_open closes what it opened, and only that", "statement": "For every file name, mode and body (returning or raising): a file it opened is closed exactly once, after the body; standard streams are never closed; the body's exception is not swallowed. A run of the program, however it ends, closes every file it opened once.", "quantifier": "every name, mode and body outcome", "why_tests_cant": "every crash point of the body", "anchors": ["src/tools.py:smart_open"]}
{"id": "C54", "title": "An explicit ticks-per-note is used as given; 0 or none means estimate", "statement": "The song export uses the given ticks-per-note when it is non-zero and the estimate otherwise; the instrument export does not depend on it.", "quantifier": "every input and argument", "why_tests_cant": "relational claim over all inputs", "anchors": ["src/main.py:main"]}
{"id": "C55", "title": "The two outputs agree", "statement": "For every input, instrument k of the song's references is entry k of the instrument file, and both have the same number of instruments.", "quantifier": "every input for which both outputs are written", "why_tests_cant": "end-to-end cross reference for all inputs", "anchors": ["src/main.py:main", "src/extractors.py:extract_tracks_to_xrns", "src/extractors.py:extract_instruments"]}
{"id": "C56", "title": "Processing is incremental", "statement": "Processing a concatenation of two command lists equals processing the second from the state after the first; commands that are neither waits nor YM2151 writes can be dropped anywhere, and adjacent waits merged, without changing the result.", "quantifier": "every command list and split point", "why_tests_cant": "all splits of all lists", "anchors": ["src/main.py:process_vgm_file"]}
{"id": "C57", "title": "A CSV cell tells notes apart", "statement": "The CSV text of a key-on determines its instrument, octave, note code, key fraction (0 and 1 look alike) and panning (left-only and none look alike), and nothing else; two notes have equal text iff they agree on these.", "quantifier": "every pair of recorded key-on notes", "why_tests_cant": "injectivity of a text encoding with float formatting in the middle", "anchors": ["src/vgm/ym2151/note.py:Note.__str__"]}
{"id": "C58", "title": "Only the requested output files change", "statement": "The program changes no file but the ones named as instrument and track output; in particular it never changes its input, unless the input is named as an output.", "quantifier": "every input, argument combination, file system and way the program ends", "why_tests_cant": "frame property over all files and all failures", "anchors": ["src/main.py:main", "src/tools.py:smart_open", "src/extractors.py:extract_instruments", "src/extractors.py:extract_tracks_to_xrns"]}
{"id": "C59", "title": "No half-written outputs", "statement": "However the program ends, a file that changed holds the complete instrument list or the complete song; the one exception is a track file without entries when the clock shows a year that a zip archive cannot hold. Neither a failing track export nor a track file that cannot be opened spoils the instrument file.", "quantifier": "every input, argument combination and failure point", "why_tests_cant": "every failure point of a run", "anchors": ["src/main.py:main", "src/extractors.py:extract_instruments", "src/extractors.py:extract_tracks_to_xrns"]}
{"id": "C60", "title": "Runs are reproducible", "statement": "Result, messages and written files depend only on the input's content, the arguments and the clock: not on old outputs, other files, or VGM files opened before in the same process. The clock only changes the time stamp inside the track file, which reads as the same song. Running again (at the same time) gives the same files, unless an output replaces the input.", "quantifier": "every pair of worlds with the same input file", "why_tests_cant": "relational claim over all pairs of states", "anchors": ["src/main.py:main", "src/vgm/core.py:Vgm.clocks"]}
{"id": "C61", "title": "What '-' and library use mean for the outputs", "statement": "'-i -' prints the instruments to standard output after other messages, so what is printed is never a JSON text; '-t -' writes a file named '-'; calling main() without the script's global args raises NameError and writes nothing.", "quantifier": "every readable input and environment", "why_tests_cant": "over all inputs and message texts", "anchors": ["src/main.py:main", "src/tools.py:smart_open", "src/extractors.py:extract_instruments", "src/extractors.py:extract_tracks_to_xrns"]}
{"id": "C62", "title": "The archive can be unpacked", "statement": "An archive written with one file holds exactly one entry with that name, that content (matching checksum, both headers agreeing) and the time of writing (seconds rounded down to even); if the year is before 1980 or after 2107 writing raises and the archive has no entries.", "quantifier": "every name, content and clock reading", "why_tests_cant": "round trip through a binary container for all contents, including checksums and offsets", "anchors": ["src/xrns/writer.py:writer"]}
{"id": "C63", "title": "The track file reads back as the song", "statement": "The XML document in the track file is printable ASCII, is well-formed, and reading it gives the exported song back: instruments, tracks, patterns, notes, sequence. Writing either ends well with such a file, or raises because of the year on the clock and leaves an archive without entries.", "quantifier": "every chip state, ticks-per-note and clock reading", "why_tests_cant": "round trip through XML text and zip for all songs", "anchors": ["src/xrns/writer.py:writer", "src/xrns/xrns_serializer.py:XrnsSerializer"]}
{"id": "C64", "title": "End to end: the track file tells what the input did", "statement": "Whenever the program returns after being asked for a track file, the file reads as a song in which row r of pattern p of channel c is empty iff no recorded key event of the input falls on row 64p+r, and otherwise shows the last one: Off for a release, else the pitch of the key code, the number of the patch the chip was set to, and the panning, all as of that moment.", "quantifier": "every input file, argument combination and environment for which the program returns", "why_tests_cant": "ranges over all byte streams and goes through every stage of the program", "anchors": ["src/main.py:main", "src/vgm/core.py:reader", "src/vgm/ym2151/state.py:State.apply", "src/extractors.py:extract_tracks_to_xrns"]}
{"id": "C65", "title": "CSV and song agree", "statement": "For every row of the CSV export and every channel, the CSV cell is empty iff the song's is, is 'Key Off' iff the song shows 'Off', and otherwise both show the same letter, sharp, instrument number and panning, and the same octave up to the C the two count differently.", "quantifier": "every history, ticks-per-note, row and channel", "why_tests_cant": "relates two exporters over all inputs", "anchors": ["src/extractors.py:extract_tracks", "src/extractors.py:extract_tracks_to_xrns", "src/vgm/ym2151/note.py:Note"]}
{"id": "C66", "title": "The printed table of tempo estimates is the true ranking", "statement": "Without a ticks-per-note argument the program prints ten dots, a heading and ten lines 'length: percentage'. The lines are the ten best candidate lengths between 1000 and 7999, best first (fewest mismatches of the key-on times below 32000 with themselves shifted; shorter first among equals), the first being the number then used; every other candidate is worse than all ten; each percentage is the share of possible mismatches that are absent, correct to its two decimals, and percentages never increase down the table.", "quantifier": "every input and every write history", "why_tests_cant": "ranges over all histories; floats, a sort and text formatting lie between the input and the table", "anchors": ["src/vgm/ym2151/state.py:State.ticks_per_note", "src/main.py:main"]}
{"id": "C67", "title": "What is on disk if the process is killed", "statement": "If the process is killed at any moment (after any byte written), every file that is not an output is untouched; the instrument file is as before or a beginning of the new one, and if it parses as an instrument file it is the whole list; the track file is as before, complete, or not readable as a track file (never a wrong or partial song); the track file is only touched when the instrument file is complete. Outputs are not replaced atomically: there is a moment at which each is empty.", "quantifier": "every input, environment and set of arguments; every number of operations (file creations and single bytes written, in the order in which the program and the zip library write them) after which the process stops", "why_tests_cant": "quantifies over every crash point of every run, including the rewriting of the archive's header after the data", "anchors": ["src/main.py:main", "src/extractors.py:extract_instruments", "src/extractors.py:extract_tracks_to_xrns", "src/xrns/writer.py:writer"]}
{"id": "C68", "title": "What the command line means", "statement": "The program runs if and only if the command line consists of one input file and any number of options with values: -i/--instrument NAME, -t/--track NAME, -tn/--ticks-per-note INTEGER; long names may be shortened to an unambiguous beginning, values may follow in their own argument or after `=` (or directly after -i and -t), the later of two equal options counts, and the file may stand anywhere (or last, with `--` before or behind it). It then runs with exactly these settings. Any other command line ends the program before anything is read or written, and only files named by -i or -t ever change. (A trap: -tn24 is read as the track file `n24`.)", "quantifier": "every list of arguments, every environment and file system", "why_tests_cant": "the set of argument lists is infinite and the parser is made of prefix matching, classification and a consuming loop; equivalence with a description of the accepted language is needed", "anchors": ["src/main.py:main", "src/main.py:parser"]}
{"id": "C69", "title": "Attributes of the result objects", "statement": "The state that processing returns gives the four global settings (lfo, amp_md, phs_md, waveform) as attributes, with the values last written; each instrument gives twelve settings (global, channel, enabled operators) as they were when it was first keyed on, and they never change later; any other public name raises AttributeError (so state.noise, .noise_freq, .ct1, .ct2, which the repository's tests read, do). Channels are numbered 0-7 (also -8..-1); other numbers raise IndexError. Because unknown names are passed on, copy.deepcopy of a state is only its global settings, copy.deepcopy of an instrument only its channel settings, and copy.copy and unpickling never succeed.", "quantifier": "every history of register writes and waits, every attribute name, every channel number, every recursion limit", "why_tests_cant": "quantifies over all names and histories, and over the recursion limit (the lookup must be shown never to end)", "anchors": ["src/vgm/ym2151/state.py:State.__getattr__", "src/vgm/ym2151/state.py:State.key_presses", "src/vgm/ym2151/state.py:State.channel_config", "src/vgm/ym2151/config.py:Config.__getattr__"]}
{"id": "C70", "title": "A damaged compressed file is never taken for a shorter recording", "statement": "If a gzip-compressed input is cut off, corrupted or has a wrong checksum, iterating over its commands yields exactly the commands that lie completely in the part that can be decompressed (the same as an intact file yields) and then raises the decompressor's error; it never ends normally, even if the damage is behind the last command or only in the checksum. Processing it raises that error, and the program then writes no file. (An uncompressed file that is cut off between commands, in contrast, is taken for a shorter recording.)", "quantifier": "every compressed content, every place and kind of damage, every continuation of the readable part", "why_tests_cant": "the damage can be at any byte, inside any command or behind the last; a test only tries a few", "anchors": ["src/vgm/core.py:reader, Vgm.__next__, command", "src/main.py:process_vgm_file, main"]}
{"id": "C71", "title": "A song built by any sequence of calls holds the last value of every cell", "statement": "A Song made with any numbers of tracks, instruments and lines, and filled by any sequence of add_note and add_pattern calls: an add_note call raises IndexError exactly if its track number is outside -tracks..tracks-1 or its pattern number is below minus the number of patterns so far (negative numbers count from the end, as for lists); otherwise it succeeds. Afterwards the rendered song has just as many patterns as the largest pattern number asked for needs (also by calls that failed), every pattern has all tracks, each cell shows what the last successful call for it put there and is empty if there was none, the lines of a track appear once each in the order in which they were first set, and the sequence is as given.", "quantifier": "every number of tracks and instruments, every sequence of calls with any integers and texts, failing calls included", "why_tests_cant": "overwriting, negative numbers and failing calls interact over the whole history of calls", "anchors": ["src/xrns/parts/pattern.py:PatternPool.add_note", "src/xrns/parts/pattern_sequence.py:PatternSequence.add_pattern", "src/xrns/parts/song.py:Song", "src/xrns/xrns_serializer.py:XrnsSerializer.render"]}
{"id": "C72", "title": "The CSV export and its file", "statement": "extract_tracks with a file name: if the file cannot be opened nothing changes; otherwise the file is replaced by the lines of the table, closed exactly once also when the export fails, and no other file is touched; '-' or no name write to standard output and leave it open. The export fails only for ticks-per-note 0 when there are key presses, with ZeroDivisionError, and then the file holds just the header line (an existing table is lost), whereas the song export leaves its file alone. Negative ticks-per-note do not fail.", "quantifier": "every history of register writes and waits, every ticks-per-note, every file name, every state of the file system, every reason for which opening fails", "why_tests_cant": "all histories and all numbers; what a failing export leaves on disk", "anchors": ["src/extractors.py:extract_tracks", "src/tools.py:smart_open"]}
{"id": "C73", "title": "The Fraction column", "statement": "In every line of the CSV table the Fraction column is a decimal number that agrees with the part after the point of Samples divided by ticks-per-note: up to the rounding of the floating point division it is right to two significant digits (within 5 % and within 0.005), and it is zero exactly if the division leaves no remainder; for recordings below 2^40 samples it is within 0.0052 of the true fraction.", "quantifier": "every history of register writes and waits below 2^53 samples, every positive ticks-per-note, every line of the table", "why_tests_cant": "a floating point error bound for all numerators and denominators", "anchors": ["src/extractors.py:extract_tracks"]}
{"id": "C74", "title": "States in one process do not influence each other", "statement": "A program may create any number of State objects and call apply and beat on them in any interleaving: no call raises, and every object shows exactly what its own calls, made on a single object in a process of its own, would give. Nothing is shared through class attributes, default arguments or recorded objects.", "quantifier": "every sequence of State(), apply and beat calls on any number of objects, every interleaving, at the level of object references", "why_tests_cant": "a shared object only shows for particular interleavings; quantifies over all schedules", "anchors": ["src/vgm/ym2151/state.py:State.__init__, State.apply, State.beat", "src/vgm/ym2151/config.py:ChannelConfig.__init__, Config.__init__"]}
{"id": "C75", "title": "What key_presses and channel_config return stays connected", "statement": "key_presses(ch) and channel_config(ch) return the same object at any time, and reading a list or configuration obtained earlier shows the key presses or settings of the moment of reading, whatever was called in between, on this or on other objects. Different channels and different State objects never return the same object.", "quantifier": "every sequence of calls before and after, every number of objects, every channel number", "why_tests_cant": "quantifies over all continuations and all pairs of objects", "anchors": ["src/vgm/ym2151/state.py:State.key_presses, State.channel_config, State.apply"]}
{"id": "C76", "title": "Only the register writes and their times matter", "statement": "Two inputs with the same YM2151 register writes at the same times give the same result: the same instruments, notes, ticks, tempo estimate, song and CSV table, and the program run on one or the other ends the same way, prints the same and writes the same files. How waits are encoded or split, commands for other chips between the writes, data blocks, the header's other fields, compression and what follows the last write have no effect. More precisely, only the key events with the settings of the chip at their times matter.", "quantifier": "every pair of histories or readable files that agree in this way, every argument combination", "why_tests_cant": "relates two runs for infinitely many pairs of inputs", "anchors": ["src/vgm/ym2151/state.py:State.apply, State.beat", "src/main.py:process_vgm_file, main"]}
{"id": "C77", "title": "Silence in front only delays", "statement": "Waiting before a recording starts leaves the instruments as they are and delays every key-on time by the wait; unless the recording presses a key at its very first moment, it delays every note and changes nothing else; the tempo estimate is unchanged as long as no key-on leaves the first 32000 samples; and silence of k rows moves the exported song down by k rows, these being empty. With any silence in front, no key event from the first key-on on is lost (at the very first moment they are, see C21).", "quantifier": "every history, every length of silence, every ticks-per-note, channel and row", "why_tests_cant": "relates two runs for all inputs and delays", "anchors": ["src/vgm/ym2151/state.py:State.apply, State.beat, State.ticks_per_note", "src/extractors.py:extract_tracks_to_xrns"]}
{"id": "C78", "title": "Channels are alike", "statement": "The same music moved to other channels (any permutation that leaves channel 7 in place, or any at all if the noise generator is not used) gives the same instruments with the same numbers, the same ticks and tempo estimate, and every channel and track of the song has the notes of the channel it was moved from.", "quantifier": "every history and every permutation of the channels", "why_tests_cant": "relates two runs for all inputs and permutations", "anchors": ["src/vgm/ym2151/state.py:State.apply", "src/extractors.py:extract_tracks_to_xrns"]}
{"id": "C79", "title": "When the notes of the song are played", "statement": "Played at the tempo in the file, the row of a key press starts at most one row earlier than the key press in the recording and later by at most a factor 1 + 1/tempo (2/tempo for the nine values of C41), for up to 661500 samples per row; with the estimated ticks-per-note the tempo is one the tracker accepts (32-999) and the song lags by less than 1.25 percent. The tempo is within 32-999 iff there are 662 to 20671 samples per row, and zero iff there are more than 661500.", "quantifier": "every history, every ticks-per-note, every key press", "why_tests_cant": "an error bound for all key presses and tempos, through floating point arithmetic", "anchors": ["src/extractors.py:extract_tracks_to_xrns", "src/xrns/parts/globals.py:Globals", "src/vgm/ym2151/state.py:State.ticks_per_note"]}
{"id": "C80", "title": "Writes that fail: never silently lost", "statement": "When the operating system refuses or shortens any of the writes of a run, at any moment and for any reason, and whatever the sizes of the buffers between the program and the file: if no write was refused, the run does exactly what it does on a perfect disk (same result, same files, same messages); if one was refused, the run ends with an exception - a run that returns normally has written both files completely. In any case no file other than the two outputs is changed, the song file is not touched unless the instrument file has been written completely, and every opened file is closed once, in the opposite order.", "quantifier": "every device (a state machine that answers each write with an error or a number of bytes taken), every buffer size, every input file, output names and option, every initial file system", "why_tests_cant": "The failing write is chosen by the operating system; the failure points are as many as the writes, and the error of a buffered write surfaces only in a later flush or close, possibly while another exception is already under way", "anchors": ["src/main.py:main,extract_instruments,extract_tracks_to_xrns", "src/tools.py:smart_open", "src/xrns/writer.py:writer"]}
{"id": "C81", "title": "A full disk", "statement": "On a disk with a given number of free bytes (a file that is opened for writing gives its old bytes back first) the command succeeds just if it succeeds on a perfect disk and the instruments fit, and then the song beside them. If the instruments do not fit, the instrument file is left as the beginning of what it should be, exactly as long as there was room, and the song file is not touched. If only the song does not fit, the instruments are complete and in the place of the song there is a file that is no readable song file: a cut song is never mistaken for a song.", "quantifier": "every number of free bytes, every input file, option and pair of different output names, every old content of the output files, every buffer of at least 38 bytes; songs below the ZIP64 limit", "why_tests_cant": "The byte at which the disk becomes full is any; and the zip writer goes on after the first failed write: it seeks back and rewrites the entry header in place although the data are cut, so the file left is not a prefix of the whole one", "anchors": ["src/main.py:main,extract_instruments,extract_tracks_to_xrns", "src/tools.py:smart_open", "src/xrns/writer.py:writer"]}
{"id": "C82", "title": "A refused read or print is never mistaken for the end of the input", "statement": "If the operating system refuses any read of the input file, any move in it, or any print, the command ends with that very exception, every file it opened having been closed. After a refused read or move no file has been touched; in particular a read that fails is never taken for the end of the data, so no output is made from a part of the input. After a refused print the files are as they were, or as after a run asked for the instruments only. If nothing is refused the command does exactly what it does otherwise.", "quantifier": "every input file (also damaged gzip files), file names, tick argument, state of the file system, and every operation that may be refused, with every exception", "why_tests_cant": "Which of the thousands of reads fails, and with what, is chosen by the environment: a test injects single faults into single runs.", "anchors": ["src/main.py:main", "src/main.py:process_vgm_file", "src/vgm/core.py:Vgm", "src/vgm/core.py:command", "src/vgm/core.py:reader", "src/extractors.py:extract_instruments", "src/extractors.py:extract_tracks_to_xrns", "src/tools.py:smart_open"]}
{"id": "C83", "title": "A slower recording gives the same song at a slower tempo", "statement": "A recording in which every wait is k times as long has the same instruments, and the same notes and key-on times k times as late; exported with k times as many ticks per note it gives the same song in every part but the tempo.", "quantifier": "every history of register writes and waits, every k > 0 and every ticks-per-note", "why_tests_cant": "Relates two runs of the program on different inputs; a test compares a few pairs.", "anchors": ["src/vgm/ym2151/state.py:State.beat", "src/extractors.py:extract_tracks_to_xrns"]}
{"id": "C84", "title": "Transposing", "statement": "Raising every key code of a recording by k octaves raises every note by k octaves and changes nothing else: the same instruments and key-on times, and a song with the same cells filled, the same instrument and panning columns, key-offs as before and every other note name 12 k semitones higher.", "quantifier": "every history in which each channel is given a key code before its first key event and no key code leaves the range, every k and ticks-per-note", "why_tests_cant": "Relates two runs of the program on different inputs; a test compares a few pairs.", "anchors": ["src/vgm/ym2151/state.py:State.apply", "src/vgm/ym2151/note.py:Note.xrns_note", "src/extractors.py:extract_tracks_to_xrns"]}
{"id": "C85", "title": "A coarser grid merges rows", "statement": "Exported with k times as many ticks per note, a row of the song shows, in every channel, what the last non-empty one of the k rows it covers shows on the finer grid, and is empty just if they are all empty; the instruments are the same.", "quantifier": "every history, every k > 0, ticks-per-note, channel and row", "why_tests_cant": "Relates two runs of the program on different inputs; a test compares a few pairs.", "anchors": ["src/extractors.py:extract_tracks_to_xrns"]}
{"id": "C86", "title": "Going on changes nothing that was", "statement": "If a recording goes on, its instruments keep their numbers and its notes stay as they are; new ones come after them, notes no earlier than the end so far, key-on times after the earlier ones. In the song every row before the one in which the first part ends stays as it is, that row does not become empty where it was not, later rows were empty, and the tempo (for the same ticks-per-note) stays.", "quantifier": "every history and every continuation, every ticks-per-note, channel and row", "why_tests_cant": "Relates two runs of the program on different inputs; a test compares a few pairs.", "anchors": ["src/vgm/ym2151/state.py:State.apply", "src/vgm/ym2151/state.py:State.key_presses", "src/vgm/ym2151/state.py:State.ticks", "src/extractors.py:extract_tracks_to_xrns"]}
{"id": "C87", "title": "Runs of the program at the same time", "statement": "Any number of runs may go on at the same time in one directory, taking turns in any way, each reading its input in pieces and stopping anywhere, as long as no output of one is an output or the input of another: at any time the outputs of a run are what that run on its own would have made of them by some point, once it has come to its end they are those of a run on its own, files that are no run's output are never touched, and no run ever has to wait for another.", "quantifier": "every number of runs with all their arguments and environments, every file system at the start, every interleaving of their steps, every sizes of the pieces read, every point at which they stop", "why_tests_cant": "The interleavings of two runs are already far too many to try, and the operating system chooses among them.", "anchors": ["src/main.py:main", "src/tools.py:smart_open", "src/extractors.py:extract_instruments", "src/extractors.py:extract_tracks_to_xrns"]}
{"id": "C88", "title": "Optimised recordings", "statement": "Removing superfluous register writes, as VGM optimisers do - writes of the value that is already there, and of values that no later key event looks at before they are overwritten -, any number of them, one after the other, and writing the waits in another way, changes nothing: the same instruments, notes, ticks and estimate, the same song, table and instrument file, and the same outputs of the program.", "quantifier": "every history and every sequence of removals, every pair of input files so related, all arguments of the program", "why_tests_cant": "Optimisers remove any number of writes in any combination; whether a removal is safe depends on the whole history before and after it.", "anchors": ["src/vgm/ym2151/state.py:State.apply", "src/vgm/ym2151/state.py:State.beat", "src/main.py:main"]}
{"id": "C89", "title": "Leaving out channels", "statement": "If the key events and registers of some channels are left out of a recording, the notes of the other channels stay the same, with the same instruments but for their numbering; only key-offs no later than the first remaining key-on can disappear, the channels left out are silent, and below the row of the first remaining key-on the cells of the other channels of the song are the same but for the numbering.", "quantifier": "every history, every set of channels, every ticks-per-note", "why_tests_cant": "The channels share the instrument list and the moment from which events are recorded; that nothing else is shared must be shown for all histories.", "anchors": ["src/vgm/ym2151/state.py:State.apply", "src/vgm/ym2151/state.py:State.key_presses", "src/extractors.py:extract_tracks_to_xrns"]}
{"id": "C90", "title": "The order of simultaneous events", "statement": "If neighbouring register writes (no wait between them) that do not concern each other - different registers, keys of different channels, keys of a channel and a register of another - change places, any number of times, then the instruments are the same in another order, the ticks and the estimate are the same, and the notes and the cells of the song are the same but for the numbering of the instruments, except for key-offs no later than the first key-on.", "quantifier": "every history, every sequence of such exchanges, every ticks-per-note", "why_tests_cant": "There are exponentially many orders of simultaneous writes.", "anchors": ["src/vgm/ym2151/state.py:State.apply", "src/vgm/ym2151/state.py:State.ticks", "src/vgm/ym2151/state.py:State.ticks_per_note", "src/extractors.py:extract_tracks_to_xrns"]}
{"id": "C91", "title": "Anything may fail: a run without an exception has done everything", "statement": "Reads of the input, moves in it, prints and writes to the output files may each be refused at any time (disk full, broken pipe, I/O error), a write also half-way. If main() nevertheless returns without an exception, then nothing was refused and all files and everything printed are as on a perfect system. In every other case: files that are not requested outputs are unchanged, the song file is not touched unless the instrument file is complete, and every file opened has been closed.", "quantifier": "every input file, environment, choice of outputs, device and buffer sizes, and every combination of operations refused, with any exceptions", "why_tests_cant": "failures can occur at any operation and in any combination; a test injects one failure at one place", "anchors": ["src/main.py:main", "src/extractors.py:extract_instruments", "src/extractors.py:extract_tracks_to_xrns", "src/tools.py:smart_open", "src/vgm/core.py:reader"]}
{"id": "C92", "title": "Calling next() after the end or after an exception", "statement": "For every file and any number of next() calls on the reader, also after it has raised: the calls give the commands in order, then (if the last command is cut off) one exception, then StopIteration every time. The reader is its own iterator: a loop left by break and a later loop together see exactly what one loop sees.", "quantifier": "every file content and position, every number of calls, every place to break off", "why_tests_cant": "it must hold for every content and every call history", "anchors": ["src/vgm/core.py:Vgm.__next__", "src/vgm/core.py:Vgm.__iter__", "src/vgm/core.py:command"]}
{"id": "C93", "title": "The printed form of a command is unambiguous", "statement": "str() of every command the reader yields tells the register and value of a YM2151 write, the samples of a wait, the opcode of any other command; two commands print alike if and only if they agree in that.", "quantifier": "every command of every file", "why_tests_cant": "all registers, values, waits and opcodes, and all pairs of them", "anchors": ["src/vgm/command.py:VgmCommand.__str__", "src/vgm/ym2151/config.py:YM2151Command.__str__"]}
{"id": "C94", "title": "Tempo estimate of a beat with missing and additional key-ons", "statement": "Take key-ons at a regular beat of g samples (1000 <= g < 8000) within the first 32000 samples, leave some out, and add key-ons anywhere. If the number of beats exceeds three times the number of missing and added ones plus two, the estimate is a positive multiple of g; more generally it is a multiple of g as soon as some shift in range has fewer mismatches than the key-ons on the grid minus those beside it.", "quantifier": "every history of commands whose key-ons are such a beat, every choice of missing and additional key-ons", "why_tests_cant": "the added and missing key-ons may be anywhere, and the best of 7000 shifts depends on all of them", "anchors": ["src/vgm/ym2151/state.py:State.ticks_per_note", "src/vgm/ym2151/state.py:State.beat"]}
{"id": "C95", "title": "Tracks as text with negative ticks per note", "statement": "With -t ticks per note the text export ends without an exception. A key press is as many rows back as intervals of t samples have begun before it; lines count down from row 0 with every row that has a key press except the lowest. Samples is the first key press on a lower row, Fraction is the part of -(Samples/t) above the next integer below (0.0 exactly if the division leaves no remainder), line and pattern numbers are the remainder and the floor of the division by 64.", "quantifier": "every history of commands, every negative number of ticks per note (for Fraction: magnitude and time up to 2^53)", "why_tests_cant": "all histories and tick counts; rounding of the quotient and its complement", "anchors": ["src/extractors.py:extract_tracks"]}
{"id": "C96", "title": "Reading from streams that deliver the bytes in pieces", "statement": "Let every read give back fewer bytes than asked (at least one unless at the end), or None if the stream does not block. However the bytes arrive: every yielded command stands for a consecutive part of the file and the parts follow one another without gap; a blocking stream is read to its end unless an exception is raised; the loop ends. Up to the first difference the commands are those of whole reads, and the first difference is an exception (EOFError, struct.error, TypeError), an early end (only not blocking), or a command outside YM2151 and wait whose payload is cut short. The header is never misread: None, EOFError, TypeError or the same reader. Register writes and waits can be wrong only behind a payload that was cut short.", "quantifier": "every file content, every way of cutting the reads, every position", "why_tests_cant": "the ways in which reads can be cut are unbounded and depend on the file object", "anchors": ["src/vgm/core.py:_read8", "src/vgm/core.py:_read16", "src/vgm/core.py:_read32", "src/vgm/core.py:_read_bcd", "src/vgm/core.py:Vgm.__next__", "src/vgm/core.py:command", "src/vgm/core.py:reader"]}
{"id": "C97", "title": "Text exports of related recordings", "statement": "Slowed down k times and exported with k times the ticks per note, the table has the same rows except that Samples is multiplied by k. A longer recording starts with the text of the shorter one. With k times the ticks per note, a row stands for k rows: a cell is empty iff the k cells are, and otherwise the last one of them that is not empty. Raised by k octaves, the table differs in the octave digit of the notes only.", "quantifier": "every history of commands, every factor, every number of ticks per note (times below 2^1023)", "why_tests_cant": "relations between two runs, for all histories", "anchors": ["src/extractors.py:extract_tracks", "src/vgm/ym2151/note.py:Note.__str__"]}
{"id": "C98", "title": "One file object and its readers", "statement": "Readers made from one file object (not compressed) share its position: calls of next on them in any order give together what one reader would give, each command going to exactly one call. reader called at any position p goes by the bytes at p: None if they are not the magic; otherwise size, version and YM2413 clock are those of a header at p, but the YM2151 clock (from 1.10), the data offset (from 1.50) and the place 0x40 count from the beginning of the file; EOFError exactly if one of these is incomplete. Going back to 0 and calling reader again gives the same fields and puts every reader at the first command.", "quantifier": "every file content, every position, every number of readers, every order of calls", "why_tests_cant": "interleavings of calls on shared objects are unbounded", "anchors": ["src/vgm/core.py:reader", "src/vgm/core.py:Vgm.__init__", "src/vgm/core.py:Vgm.__next__", "src/vgm/core.py:Vgm.seek"]}
{"id": "C99", "title": "Registers and values that are not bytes", "statement": "Commands made by the caller with any non-negative ints: State is that of the commands with the low bytes of register and value, without those to a register from 256 on whose low byte is below 0x20; nothing raises and no neighbouring field is touched. The exceptions are the LFO frequency (0x18) and the AM depth (0x19 with bit 7 clear), which are stored whole and change nothing else.", "quantifier": "every history of commands with any natural numbers", "why_tests_cant": "unbounded numbers in unbounded histories", "anchors": ["src/vgm/ym2151/state.py:State.apply", "src/vgm/ym2151/state.py:State.apply"]}
{"id": "C100", "title": "Names that mean the same file", "statement": "Let several names mean one file (links, ./a and a, ignored case). Whichever names do, the program ends with the same result and prints the same as if every name had a file of its own holding what the name gives to read; files that no output name means are as before, in particular the input unless an output is another name of it. On a readable input with no file that cannot be opened, the file of the track name holds the whole song, also if it is the input itself or that of the instruments; the file of the instrument name holds the instruments unless it is that of the track name. However the program ends, a file that changed holds a complete output (or, with a year no zip archive can hold, an archive without entries).", "quantifier": "every meaning of the names (any function from names to files), every file system, every command line", "why_tests_cant": "the ways in which names can coincide are a property of the file system, not of the arguments", "anchors": ["src/main.py:main", "src/extractors.py:extract_instruments", "src/extractors.py:extract_tracks_to_xrns", "src/tools.py:smart_open"]}
{"id": "C101", "title": "Tempo estimate of a repeating rhythm", "statement": "If the key-ons repeat with period p in [1000, 8000) from some time to some time (or to the end of the first 32000 samples), the estimate is at most p. It is exactly p if no shorter shift in the range maps the rhythm to itself and the rhythm is played k times with twice k more than the key-ons in a period plus two. So key-ons in unequal steps a, b, a, b, ... (swing, or a beat that is not a whole number of samples), three times over, are estimated as a + b: a beat of 2000.5 samples gives 4001.", "quantifier": "every rhythm, every period and position, every history with these key-ons", "why_tests_cant": "rhythms are infinite in number and the loop over 7000 shifts compares all of them", "anchors": ["src/vgm/ym2151/state.py:State.ticks_per_note"]}
{"id": "C102", "title": "How large results can get", "statement": "For a file with n bytes of commands, however reading ends: the commands and all their payloads together are no more than n; every three bytes bring at most one register write or 65535 samples of time; there are at most n/3 notes over all channels and at most n/3 instruments (one of each for every write to the key register), a song of at most 21845 n/(64 t) + 1 patterns and a table of at most 21845 n/t rows for t ticks per note. These bounds are sharp: 3n + 3 bytes suffice for 65535 n/(64 t) + 1 patterns and 65535 n/t rows.", "quantifier": "every byte string and position, every way reading ends, every ticks-per-note from 1 up to the overflow bound", "why_tests_cant": "sizes are unbounded and the worst case is not known beforehand", "anchors": ["src/vgm/core.py:command", "src/vgm/core.py:Vgm.__next__", "src/vgm/ym2151/state.py:State.apply", "src/extractors.py:extract_tracks_to_xrns", "src/extractors.py:extract_tracks"]}
{"id": "C103", "title": "The input changes while it is read", "statement": "If the input file is changed, cut, extended or replaced by somebody else while the program reads it (so that its reads may return anything at all, or fail), then either the program raises an exception and no file has changed, or there is an ordinary VGM file that would have given exactly this: the same end, the same text, the same content of every other file; its register writes and waits are, in order, those that the bytes read are made of. Conversely every VGM file can be what is read. It need be neither the old nor the new version: a key press can result that is in neither, although every byte is from one of them, at its place.", "quantifier": "every sequence of answers to the reads, every content of the file at opening, every option, every number of commands", "why_tests_cant": "the interleaving with the other writer cannot be controlled or enumerated", "anchors": ["src/main.py:main", "src/main.py:process_vgm_file", "src/vgm/core.py:reader", "src/vgm/core.py:command", "src/vgm/core.py:Vgm.__next__"]}
{"id": "C104", "title": "ConfigEncoder on the caller's own values", "statement": "json.dumps(value, cls=ConfigEncoder), on any value made of None, Booleans, whole numbers, strings, lists, dicts and objects that refer to each other in any way: if it returns, the text describes the value with every object replaced by what its repr_json returned, in the same order and with the same keys; it returns whenever there is such a description (also if an object occurs several times) and the recursion limit allows it; otherwise it raises, and the exception says which of these is somewhere within the value: an object without repr_json (TypeError), something that contains itself (ValueError), a repr_json that raised (its exception), or as deep a nesting of different things as the recursion limit allows. On the list of instruments it gives what C49 is about, however their parts are shared.", "quantifier": "every value, every sharing of parts, every recursion limit", "why_tests_cant": "values are graphs of any shape and size", "anchors": ["src/vgm/ym2151/config.py:ConfigEncoder.default", "src/vgm/ym2151/config.py:Config.repr_json", "src/vgm/ym2151/config.py:ChannelConfig.repr_json", "src/vgm/ym2151/config.py:OperatorConfig.repr_json", "src/vgm/ym2151/config.py:BaseConfig.repr_json", "src/vgm/ym2151/config.py:Waveform.repr_json", "src/vgm/ym2151/config.py:Operators.repr_json", "src/extractors.py:extract_instruments"]}
{"id": "C105", "title": "A damaged output is never mistaken for the result", "statement": "Whatever the operating system refuses during main, and whatever part of the data it has taken before (single writes may fail and later ones succeed, buffers of any size): the track file is afterwards as before, or the complete file of a run on a perfect system, or a file in which no song can be read, also where zipfile has finished an archive over lost data. The instrument file is as before or a beginning of the complete one, and if it reads as an instrument file at all it holds all instruments.", "quantifier": "every input, every device and pattern of failures, every buffer size; songs below two gigabytes", "why_tests_cant": "the patterns of failing and partial writes are unbounded, and zipfile goes on after a failed write", "anchors": ["src/main.py:main", "src/extractors.py:extract_instruments", "src/extractors.py:extract_tracks_to_xrns", "src/xrns/writer.py:writer", "src/tools.py:smart_open"]}
{"id": "C106", "title": "Which line of the instrument file shows which setting", "statement": "The instrument file is exactly: a bracket, seventy lines for every instrument (one setting per line, indented with tabs, in a fixed order of names), a bracket, a line end. Setting j of instrument k is on line 1 + 70 k + j; every setting of an instrument has a line; two files with equally many instruments differ exactly in the lines of those settings in which the instruments differ, so a line-by-line diff shows precisely what changed; and recording more only adds lines after the ones for the instruments there were.", "quantifier": "every history of register writes, every pair of histories, every instrument, setting and line", "why_tests_cant": "the places must be right for every number of instruments and all values of the settings, and the diff for every pair of files", "anchors": ["src/extractors.py:extract_instruments", "src/vgm/ym2151/config.py:ConfigEncoder", "src/vgm/ym2151/config.py:Config.repr_json", "src/vgm/ym2151/config.py:ChannelConfig.repr_json", "src/vgm/ym2151/config.py:OperatorConfig.repr_json"]}
{"id": "C107", "title": "Text outputs on systems with other line ends and encodings", "statement": "Whatever the line end of the system (Unix, Windows, old Mac) and whatever its encoding, as long as it agrees with ASCII: the instrument file reads back as exactly the instruments, and the instrument file and the track table are, read with universal line ends, character for character what is written on Unix. On a system with line feeds they are the bytes of the other properties.", "quantifier": "every history of register writes, every line end of the three, every encoding that agrees with ASCII", "why_tests_cant": "encodings are functions on all characters, and the files are of any size", "anchors": ["src/tools.py:smart_open", "src/extractors.py:extract_instruments", "src/extractors.py:extract_tracks"]}
{"id": "C108", "title": "Changing things through the objects that State hands out", "statement": "A caller may, between register writes and waits, assign to the settings of channel_config(ch), to the operators of a channel or of a recorded instrument, replace the contents of key_presses(ch), and delete or reorder instruments in configs. Each edit changes exactly the thing it names - no other channel, operator, instrument or note, neither at once nor through later register writes - and raises IndexError exactly if there is no such thing. Assigning values that the chip can have is the same as writing the registers. A later key-on refers to the first instrument of configs as it is then that sounds as the channel is then, or adds one whose number is its place.", "quantifier": "every sequence of register writes, waits and edits, with any channels, positions, values and notes", "why_tests_cant": "sharing between objects shows only after particular sequences of recording and editing, and these are unbounded", "anchors": ["src/vgm/ym2151/state.py:State.channel_config", "src/vgm/ym2151/state.py:State.key_presses", "src/vgm/ym2151/state.py:State.apply", "src/vgm/ym2151/config.py:Config.__getattr__", "src/vgm/ym2151/config.py:ChannelConfig.__deepcopy__"]}
{"id": "C109", "title": "A song with the caller's own texts survives the file", "statement": "A Song whose name, artist, track names, track states, notes, instruments and pannings are any texts of the caller - any Unicode characters that XML can carry, among them the ones it must escape - can be written, and the file, unzipped, decoded as UTF-8, with its line ends normalised and parsed, shows the song: all settings and texts character by character, the tracks of the three kinds, the number of instruments, every line of every pattern in order, the sequence. In particular a song built by any calls of add_note and add_pattern shows in every cell the last text put there.", "quantifier": "every song, with any number of tracks, patterns and lines and any texts that XML can carry (not only white space, no carriage return), every date from 1980 to 2107, documents below 2 GB", "why_tests_cant": "escaping and encoding errors depend on the characters, of which there are more than a million, and their neighbours", "anchors": ["src/xrns/writer.py:writer", "src/xrns/xrns_serializer.py:XrnsSerializer.render", "src/xrns/parts/song.py:Song", "src/xrns/parts/pattern.py:PatternPool.add_note"]}
{"id": "C110", "title": "Song documents are of the declared format", "statement": "Every song document is of the format that the classes of src/xrns/xml/song declare: each element is one that the class of its parent declares, in the declared order, repeated only where the class has a list, with a value of the declared type (number, truth value, one of the allowed words), and each element has the attributes that its class fixes or requires and no undeclared ones.", "quantifier": "every exported song - every history of the chip and every ticks per note - and every song of the caller whose texts XML can carry and whose tracks have a known state", "why_tests_cant": "a checker can validate the files it is given; this is about all files that can come out, of unbounded size", "anchors": ["src/xrns/xrns_serializer.py:XrnsSerializer.render", "src/xrns/writer.py:writer", "src/xrns/xml/song/renoise_song65.py:RenoiseSong"]}
{"id": "C111", "title": "The song document shows every value of the song's objects, and nothing else", "statement": "Whatever data objects of the song format are rendered, each text, number or object put into a field has exactly one element, named after the field, inside the element of its object; elements of the same field are in the order of the list; fields that were not set have none; there are no other elements; attributes are those that the class fixes and those given; and, except among the devices of a track, elements of one field come before those of the next, so that tracks come before the master track and the master track before the send tracks. In particular the document of every song shows the objects that the serializer makes of it, all the way down.", "quantifier": "every tree of data objects of the 28 classes that song documents use, of any depth and any lengths of lists, and every song", "why_tests_cant": "objects nest and lists grow without bound, and the classes mark some neighbouring lists as sequential, which interleaves them: tests with one or two items per list do not show whether order or items are lost", "anchors": ["src/xrns/xrns_serializer.py:XrnsSerializer.render", "src/xrns/writer.py:writer", "src/xrns/xml/song/renoise_song65.py:RenoiseSong"]}
{"id": "C112", "title": "Assigning to attributes of a state or an instrument only masks them", "statement": "A caller may, between register writes and waits, assign to and delete attributes of a State and of the instruments in its configs (state.lfo = 5, del state.lfo, state.configs[0].fb = 7), for all public names that are not its own methods or configs. Assignments never fail (IndexError if there is no such instrument) and never reach the chip or a recorded instrument: register writes, recorded notes and instruments and all exports are as without them. But reads of an assigned attribute give the assigned value, whatever is written to the registers, until it is deleted; then, and for all other attributes, they give what they would give without. Deleting raises AttributeError exactly if nothing was assigned.", "quantifier": "every sequence of register writes, waits, reads, assignments and deletions with any values", "why_tests_cant": "the classes forward reads but not assignments, so what a read gives depends on the whole history of both", "anchors": ["src/vgm/ym2151/state.py:State.__getattr__", "src/vgm/ym2151/config.py:Config.__getattr__"]}
{"id": "C113", "title": "What ConfigEncoder writes is JSON of the value, whatever its strings", "statement": "A text json.dumps(value, cls=ConfigEncoder) returns for a value of the caller's, without an indentation or with one of white space, is JSON (RFC 8259), and reading it gives exactly the value with every object replaced by what its repr_json returns, whatever characters its strings and keys contain; so two values with the same text say the same. Without an indentation it is one line of printing ASCII characters, with one there are only the line breaks and indentations besides. On the list of instruments, with a tab, it is the text of the instrument file.", "quantifier": "every value (also with shared objects), all strings of Unicode characters, every indentation of white space", "why_tests_cant": "one must be able to read the text back for all strings, nestings and numbers", "anchors": ["src/vgm/ym2151/config.py:ConfigEncoder.default", "src/extractors.py:extract_instruments"]}
{"id": "C114", "title": "Copied settings are independent, instruments are not", "statement": "A caller who works with the settings classes directly may rely on this, whatever has been done before and also if channels share their operator lists or operators: ChannelConfig(other), OperatorConfig(other), BaseConfig(other), NoteConfig(other) and copy.deepcopy(other) give a new object with the settings other has at that time (the default ones without other); nothing that is later done elsewhere changes it, and working on it changes nothing that existed before. == says exactly whether two objects have the same settings, all of them, and compare whether an instrument has given ones. Config(...) made by a caller, in contrast, holds the base and channel by reference, and all Configs made without them share one default base and one default channel for the life of the process. The four operators of a new channel are different objects. Assigning to an operator, a channel or its list changes exactly that; the only exception is IndexError for an operator that is not there, and it changes nothing.", "quantifier": "all sequences of calls by a caller, with any sharing between objects", "why_tests_cant": "aliasing needs every history of constructions, assignments and copies", "anchors": ["src/vgm/ym2151/config.py:BaseConfig", "src/vgm/ym2151/config.py:OperatorConfig", "src/vgm/ym2151/config.py:NoteConfig", "src/vgm/ym2151/config.py:ChannelConfig", "src/vgm/ym2151/config.py:Config.__init__"]}
{"id": "C115", "title": "Colours of the documents, and who shares them", "statement": "XrnsSerializer(config).render(song): whatever a caller has done with serializers and SerializerConfig objects, the document's i-th track has the i-th colour of the serializer's configuration at that time, tracks for which there is none get none, master and send tracks theirs; but for the colours the document does not depend on the configuration, and rendering changes nothing, so that rendering again gives the same. Configurations are held by reference. A configuration of one's own says only what is said to it (unless lists are shared on purpose); serializers made without one, and the export to a file, all share one: as long as it is left alone, exported documents have the standard colours, and what is assigned to it through one serializer shows in all later documents and exports of the process.", "quantifier": "all sequences of calls on serializers and configurations, every song", "why_tests_cant": "sharing and iteration over the colours must be right for all histories and numbers of tracks", "anchors": ["src/xrns/xrns_serializer.py:SerializerConfig", "src/xrns/xrns_serializer.py:XrnsSerializer.__init__", "src/xrns/xrns_serializer.py:XrnsSerializer._render_tracks", "src/xrns/writer.py:writer"]}
{"id": "C116", "title": "Threads of one process, each reading a file of its own", "statement": "Several threads of a process, each opening a file with reader and running process_vgm_file: however the interpreter switches between them, also between the statements with which a reader is made, and whatever the table of clocks held before, each thread gets exactly the reader, the state or the exception it would get without the others, and comes to its end after a number of its own steps that depends on its file only. What is shared is the table behind clock and supports: what they say is always what one of the files says; if all files are of version 1.10 or later with the same YM2151 clock it is always that one. If not, it may be, even when all is over, a clock that is that of none of the files.", "quantifier": "all lists of files, all schedules, all previous contents of the table of clocks", "why_tests_cant": "a race shows only under particular switches between threads", "anchors": ["src/vgm/core.py:Vgm.__init__", "src/vgm/core.py:Vgm.clocks", "src/vgm/core.py:reader", "src/main.py:process_vgm_file"]}
{"id": "C117", "title": "Loops, and parts cut out of a recording", "statement": "What a part of a recording gives depends, but for its time and the numbers of the instruments, only on the settings of the chip when it begins. A part played again and again (a loop) gives the same notes with the same instruments again and again, each time later by its length, from the second time on; no instruments are added after the second time, and if its length is a multiple of ticks_per_note the rows of the song repeat with that period. A part cut out, with the registers first set to what they were (as VGM trimmers do), gives the notes it gave in the whole, moved to its new time, from its first key-on on: only key-offs of keys pressed before are missing; and no other instruments than those of the whole.", "quantifier": "all recordings, all parts and positions, any number of repetitions, every ticks_per_note", "why_tests_cant": "a claim about all recordings, parts and numbers of repetitions", "anchors": ["src/vgm/ym2151/state.py:State.apply", "src/vgm/ym2151/state.py:State.beat", "src/vgm/ym2151/state.py:State.key_presses", "src/main.py:process_vgm_file", "src/extractors.py:extract_tracks_to_xrns"]}
{"id": "C118", "title": "Exactly when two recordings give the same song", "statement": "Two recordings give the same song at the same ticks_per_note if and only if they have equally many instruments and, in every channel and row, the last events look alike: none in both, or both key-offs, or key-ons with the same instrument number and the same semitone (note codes that the chip does not have counting as the one they are exported as), and on the same side (neither side counting as left). Nothing else of a recording is in the song, and none of this can get lost.", "quantifier": "all pairs of recordings, every positive ticks_per_note", "why_tests_cant": "both directions range over all pairs of recordings", "anchors": ["src/extractors.py:extract_tracks_to_xrns", "src/vgm/ym2151/note.py:Note.xrns_note", "src/xrns/xrns_serializer.py:XrnsSerializer.render"]}
{"id": "C119", "title": "A score written as a recording is got back", "statement": "Take any sequence of key strokes, each with a wait of any length, a channel, an instrument, a pitch and a panning, all within the chip's fields (D2R below 16; the noise generator on the eighth channel only), and write it as a recording: per stroke the wait, all registers of its instrument and pitch, and the key. The extractor then reports the score: its instruments in the order of their first use with all their parameters, and in every channel its notes, from the first key-on after the start on. As VGM commands behind any header that points to them the file is readable and is that recording; the song made from it, and the track file that the program writes for it, have in every cell the last stroke of that channel and row, and nothing where there is none.", "quantifier": "all lists of key strokes within the ranges of the fields, every header, every ticks_per_note for which there is a song", "why_tests_cant": "ranges over all scores of any length", "anchors": ["src/vgm/ym2151/state.py:State", "src/vgm/ym2151/state.py:State.apply", "src/vgm/ym2151/config.py:ChannelConfig", "src/extractors.py:extract_tracks_to_xrns", "src/main.py:main"]}
{"id": "C120", "title": "Every recording has one score, and it is all that counts", "statement": "Every recording has a score: its key events with their times and what the registers say at each. It is within the chip's fields, and the recording and its score written as a recording have the same instruments, notes, tick positions, song, CSV, instrument file and tempo estimate; so every readable input file can be replaced by a canonical file made from its score without changing the result, the output or the files of the program. The score is unique: writing a score within the fields as a recording and taking its score gives it back.", "quantifier": "all recordings of byte-valued writes, all readable input files, all scores within the fields", "why_tests_cant": "ranges over all recordings and all scores", "anchors": ["src/vgm/ym2151/state.py:State.apply", "src/vgm/ym2151/state.py:State.beat", "src/extractors.py:extract_tracks_to_xrns", "src/extractors.py:extract_tracks", "src/main.py:main"]}
{"id": "C121", "title": "Exactly when two recordings give the same CSV", "statement": "At the same positive ticks_per_note two recordings give the same CSV text if and only if after every row the next event (of any channel) is at the same time, or there is none in either, and on every row that has a later event the last events of every channel read the same: none in both, or both key-offs, or the same instrument number, octave, note code, key fraction (0 and 1 alike) and panning (without the right side the left does not count). So the CSV tells the times of the first events of rows, and of nothing else; the last row is not told.", "quantifier": "all pairs of recordings shorter than 2^1023 samples, every positive ticks_per_note", "why_tests_cant": "both directions range over all pairs of recordings", "anchors": ["src/extractors.py:extract_tracks", "src/vgm/ym2151/note.py:Note.__str__"]}
{"id": "C122", "title": "Looking at a state while another thread feeds it", "statement": "One thread gives commands to a State, others only look. At any moment every list, every setting and the tempo estimate is seen as it was before the command then being carried out or as it is after it (one command for all looks of a moment, later moments have later commands). Instruments, notes and times once seen stay, unchanged and in front. Whoever sees a note finds its instrument then or later, complete; whoever sees a time other than 0 in ticks() finds a note with it. Not so for extract_tracks_to_xrns in the other thread: it counts the instruments before it reads the notes and can make a song with a note whose instrument is not in it.", "quantifier": "every history, every moment between two single changes, every order of looks", "why_tests_cant": "the moments at which another thread runs cannot be chosen in a test", "anchors": ["src/vgm/ym2151/state.py:State.apply", "src/vgm/ym2151/state.py:State.beat", "src/vgm/ym2151/state.py:State.key_presses", "src/vgm/ym2151/state.py:State.channel_config", "src/vgm/ym2151/state.py:State.ticks", "src/extractors.py:extract_tracks_to_xrns"]}
{"id": "C123", "title": "A command interrupted in the middle", "statement": "apply or beat may be ended by Ctrl-C (or another exception from outside) between any two of its changes, and the caller goes on with the state. Whichever calls were cut off and wherever: instruments stay distinct and numbered by position, every note is a key-off or has its instrument, notes are in order of time, every time in ticks() but 0 has its note. Repeating a cut register write has the effect of one write. Repeating a cut key event has the effect of one, unless its note had already been recorded (visible in key_presses): then it is there twice and all else is as after one. A wait has been made or not. A recording whose cut writes are repeated gives the state without interruptions.", "quantifier": "every history, any number of interruptions at any change", "why_tests_cant": "crash points between single assignments, in unbounded histories", "anchors": ["src/vgm/ym2151/state.py:State.apply", "src/vgm/ym2151/state.py:State.beat"]}
{"id": "C124", "title": "Several threads feed one State", "statement": "Several threads call apply and beat of one state without a lock, and are interrupted anywhere, also within a call. At every moment: each recorded note is a key-off or refers to an instrument that is there; its octave, note and fraction are in range; no time is later than the sum of all waits; no channel has more notes than the threads made key events for it, and there are no more instruments than key-on events; no instrument has a number above its position; what is recorded is never changed or removed. A thread is through with its calls after a bounded number of its own steps, whatever the others do. With a lock around every call the outcome is that of one thread making all calls in some order, each thread's in its own. Threads that write different registers, of which at most one waits, and that make no key events, need no lock: in the end the state is that of one thread that makes all calls. Otherwise, without a lock, nothing more may be hoped for: a wait or a register write can be lost, a note can get another channel's instrument, two instruments one number, a key-off can become a note.", "quantifier": "any number of threads, their calls (any), any interleaving of their atomic steps", "why_tests_cant": "schedules of unbounded length at the granularity of single reads and assignments", "anchors": ["src/vgm/ym2151/state.py:State.apply", "src/vgm/ym2151/state.py:State.beat", "src/vgm/ym2151/config.py:Config.compare"]}
{"id": "C125", "title": "What several threads made can be exported", "statement": "Whatever several threads have done to one state at the same time, without a lock and interrupted anywhere, the results can be exported without an error. For a positive ticks-per-note the song is made, has an instrument for every instrument of the state, shows in each cell the last note that was recorded for its row, and no cell refers to an instrument that is not there. The instruments file is written and reads back as the state's instruments. The CSV table is written (for a ticks-per-note other than 0). A tempo is found, the best one for the recorded beats.", "quantifier": "any number of threads, any calls, any interleaving of their atomic steps; any ticks-per-note in the stated range", "why_tests_cant": "schedules of unbounded length at the granularity of single reads and assignments", "anchors": ["src/vgm/ym2151/state.py:State.apply", "src/vgm/ym2151/state.py:State.ticks_per_note", "src/vgm/ym2151/config.py:Config.compare"]}
{"id": "C126", "title": "Exporting while another thread feeds the state", "statement": "One thread gives commands to a State while another exports it. The CSV table is that of the notes that were there at certain moments during the export, perhaps another moment for each channel, and is written without an error; so is the song, with the instruments that were there at its beginning, each cell showing the last of those notes on its row; the instruments file is that of one moment during its writing and reads back as the instruments of then. When the instruments are written after the tracks every note's instrument is in the file at its number. In the order of src/main.py (instruments first) that need not be so, and the table need not be that of any single moment.", "quantifier": "every history, every choice of the moments at which the export looks at the lists", "why_tests_cant": "the moments at which another thread runs cannot be chosen in a test", "anchors": ["src/extractors.py:extract_tracks", "src/extractors.py:extract_tracks_to_xrns", "src/extractors.py:extract_instruments", "src/vgm/ym2151/state.py:State.key_presses"]}
{"id": "C127", "title": "Exporting while several threads feed the state", "statement": "Several threads give commands to a State without a lock, interrupted anywhere, while another exports it. The exports make no error: the CSV table is that of the notes that were there at certain moments during the export (perhaps another moment for each channel), the song likewise, with the instruments that were there at its beginning, and the instruments file is that of one moment during its writing and reads back as the instruments of then. When the instruments are written after the tracks, at the number of every note's instrument there is an instrument in the file, the one that is there in the end.", "quantifier": "any number of threads, any calls, any interleaving of their atomic steps, any choice of the moments at which the export looks at the lists", "why_tests_cant": "schedules of unbounded length at the granularity of single reads and assignments", "anchors": ["src/extractors.py:extract_tracks", "src/extractors.py:extract_tracks_to_xrns", "src/extractors.py:extract_instruments", "src/vgm/ym2151/state.py:State.apply", "src/vgm/ym2151/state.py:State.beat"]}
{"id": "C128", "title": "Several threads take commands from one reader", "statement": "Several threads call next on one reader without a lock, interrupted anywhere, also between the reads of one call. Every byte of the file goes to exactly one read, in order; a call gives what a reader would give that has just the bytes the call has read: a command, StopIteration or an exception for missing bytes. Together they get no more commands and exceptions than bytes have been read, StopIteration only when nothing is left, and from then on nothing else; every call ends after at most three reads. A call that no other thread interrupts is a call of next on the file as it was. (Without a lock commands can be torn: the threads can get commands of which none is in the file.)", "quantifier": "every file content and position, any number of threads, any interleaving of their single reads", "why_tests_cant": "schedules of unbounded length at the granularity of single reads", "anchors": ["src/vgm/core.py:Vgm.__next__", "src/vgm/core.py:command"]}
{"id": "C129", "title": "Several threads process one file together", "statement": "Several threads run the loop of process_vgm_file with one reader and one State between them, without a lock, interrupted anywhere. What they make is what threads make that take commands from one reader (C128) and give them to one state (C124): every note is a key-off or refers to an instrument that is there, is in range, and no later than the bytes of the file allow; there are at most a third as many notes of a channel, and instruments, as bytes; the tempo estimate, the song, the table and the instruments file are made without an error; every thread ends, however the others are scheduled. With a lock around the taking and giving of a command the state is that of one thread (process_vgm_file). (Without one it need not be: a note can come up of which there is none in the file.)", "quantifier": "every file content and position, any number of threads, any interleaving of their atomic steps", "why_tests_cant": "schedules of unbounded length at the granularity of single reads and assignments", "anchors": ["src/main.py:process_vgm_file", "src/vgm/core.py:Vgm.__next__", "src/vgm/ym2151/state.py:State.apply", "src/vgm/ym2151/state.py:State.beat"]}
{"id": "C130", "title": "A lock around the taking of commands only", "statement": "Several threads process one file together (C129), and only the calls of next have a lock; apply and beat do not. Then the commands of the file are dealt out: there is an order of all the calls of next, in which those of each thread are in its own order, whose results are those of as many calls one after the other. At any time the commands the threads have got are, in some order, the first commands of the file; as soon as one thread has ended they are all of them, each once, and the exception if the file ends with one goes to exactly one thread. The state has no more in it than the file: no more notes on a channel than the file has key events for it, no more instruments than key-ons, nothing later than the file is long. (It need not be the state of one thread: a key-on may be applied before a wait that precedes it.)", "quantifier": "every file content and position, any number of threads, any interleaving of their atomic steps in which calls of next do not overlap", "why_tests_cant": "schedules of unbounded length at the granularity of single reads and assignments", "anchors": ["src/main.py:process_vgm_file", "src/vgm/core.py:Vgm.__next__", "src/vgm/ym2151/state.py:State.apply", "src/vgm/ym2151/state.py:State.beat"]}
{"id": "C131", "title": "Negative registers and values", "statement": "Commands made by a caller (create, YM2151Command) with any integers, negative ones too, are applied like the commands with the low bytes (the remainders modulo 256) of the register and the value, except that a register that is not a byte and whose low byte is below 0x20 (key, noise, LFO, depth, wave form) does nothing; everything that can be seen of the state is that of those commands, so nothing raises, and no field gets a negative number. Except for the two writes that keep their value as it is (register 0x18, and 0x19 with bit 7 clear), for which the value has to be a byte. Commands with numbers that are not negative are as before (C99).", "quantifier": "every sequence of commands with arbitrary integers (values 0..255 for the two registers that keep them whole) and waits", "why_tests_cant": "infinite two-sided domains of registers and values", "anchors": ["src/vgm/ym2151/state.py:State.apply", "src/vgm/ym2151/config.py:create"]}
