{
 "claims": [
  {
   "property": "C01",
   "status": "proved",
   "theorems": [
    "VgmX.c01_progress",
    "VgmX.c01_terminates"
   ],
   "note": ""
  },
  {
   "property": "C02",
   "status": "partial",
   "theorems": [
    "VgmX.c02_framing_partial",
    "VgmX.c02_block_exact",
    "VgmX.c02_block_partial",
    "VgmX.c02_dual_chip_refuted",
    "VgmX.c02_pcm_ram_exact",
    "VgmX.c02_pcm_ram_partial",
    "VgmX.c02_pcm_ram_write_refuted"
   ],
   "note": "False of the code for 0x68 with a non-zero size and for 0x67 with bit 31 of the size set; proved for all others, with the exact behaviour of these two."
  },
  {
   "property": "C03",
   "status": "proved",
   "theorems": [
    "VgmX.c03_prefix",
    "VgmX.c03_round_trip",
    "VgmX.c03_injective"
   ],
   "note": ""
  },
  {
   "property": "C04",
   "status": "proved",
   "theorems": [
    "VgmX.c04_raises_iff",
    "VgmX.c04_exceptions",
    "VgmX.c04_truncation"
   ],
   "note": ""
  },
  {
   "property": "C05",
   "status": "proved",
   "theorems": [
    "VgmX.c05_waits",
    "VgmX.c05_waits_complete"
   ],
   "note": ""
  },
  {
   "property": "C06",
   "status": "proved",
   "theorems": [
    "VgmX.c06_header",
    "VgmX.c06_bcd",
    "VgmX.c06_other_chips",
    "VgmX.c06_supports"
   ],
   "note": ""
  },
  {
   "property": "C07",
   "status": "proved",
   "theorems": [
    "VgmX.c07_accepts"
   ],
   "note": ""
  },
  {
   "property": "C08",
   "status": "proved",
   "theorems": [
    "VgmX.c08_transparent",
    "VgmX.c08_nested_rejected",
    "VgmX.c08_not_consulted",
    "VgmX.c08_corrupt"
   ],
   "note": ""
  },
  {
   "property": "C09",
   "status": "partial",
   "theorems": [
    "VgmX.c09_last_wins_partial",
    "VgmX.c09_single_partial",
    "VgmX.c09_isolation_refuted",
    "VgmX.c09_failed_open_leaks"
   ],
   "note": "False of the code (class-level table); proved what happens instead."
  },
  {
   "property": "C10",
   "status": "partial",
   "theorems": [
    "VgmX.c10_exact",
    "VgmX.c10_trailing_partial",
    "VgmX.c10_note_refuted",
    "VgmX.c10_crash_refuted"
   ],
   "note": "False of the code (iteration does not stop at 0x66); proved what happens instead."
  },
  {
   "property": "C100",
   "status": "proved",
   "theorems": [
    "VgmX.c100_same",
    "VgmX.c100_frame",
    "VgmX.c100_names",
    "VgmX.c100_outputs",
    "VgmX.c100_complete"
   ],
   "note": "What a name means does not change during the run."
  },
  {
   "property": "C101",
   "status": "proved",
   "theorems": [
    "VgmX.c101_at_most",
    "VgmX.c101_period",
    "VgmX.c101_swing"
   ],
   "note": ""
  },
  {
   "property": "C102",
   "status": "proved",
   "theorems": [
    "VgmX.c102_reader",
    "VgmX.c102_kept",
    "VgmX.c102_written",
    "VgmX.c102_sharp"
   ],
   "note": ""
  },
  {
   "property": "C103",
   "status": "proved",
   "theorems": [
    "VgmX.c103_program",
    "VgmX.c103_any",
    "VgmX.c103_static",
    "VgmX.c103_mixture"
   ],
   "note": "mixture is the limit"
  },
  {
   "property": "C104",
   "status": "proved",
   "theorems": [
    "VgmX.c104_says",
    "VgmX.c104_returns",
    "VgmX.c104_unique",
    "VgmX.c104_errors",
    "VgmX.c104_raises",
    "VgmX.c104_finite",
    "VgmX.c104_instruments"
   ],
   "note": "up to the text, which C49 and C50 are about"
  },
  {
   "property": "C105",
   "status": "proved",
   "theorems": [
    "VgmX.c105_track",
    "VgmX.c105_instruments",
    "VgmX.c105_io_track",
    "VgmX.c105_io_instruments"
   ],
   "note": ""
  },
  {
   "property": "C106",
   "status": "proved",
   "theorems": [
    "VgmX.c106_lines",
    "VgmX.c106_place",
    "VgmX.c106_diff",
    "VgmX.c106_every_setting",
    "VgmX.c106_grows"
   ],
   "note": ""
  },
  {
   "property": "C107",
   "status": "proved",
   "theorems": [
    "VgmX.c107_instruments",
    "VgmX.c107_table",
    "VgmX.c107_here"
   ],
   "note": ""
  },
  {
   "property": "C108",
   "status": "proved",
   "theorems": [
    "VgmX.c108_separate",
    "VgmX.c108_as_write",
    "VgmX.c108_key"
   ],
   "note": ""
  },
  {
   "property": "C109",
   "status": "proved",
   "theorems": [
    "VgmX.c109_file",
    "VgmX.c109_calls"
   ],
   "note": "the XML text is what xsdata is documented to write (Model/Xml); texts of white space only are excluded: an example shows they are lost"
  },
  {
   "property": "C11",
   "status": "partial",
   "theorems": [
    "VgmX.c11_exact",
    "VgmX.c11_time_partial",
    "VgmX.c11_refuted"
   ],
   "note": "False of the code for 0x81-0x8F; c11_exact is the exact form for every stream."
  },
  {
   "property": "C110",
   "status": "proved",
   "theorems": [
    "VgmX.c110_song",
    "VgmX.c110_export",
    "VgmX.c110_file"
   ],
   "note": "the declared format is a transcription, by script, of the 28 classes that occur (Spec/Schema)"
  },
  {
   "property": "C111",
   "status": "proved",
   "theorems": [
    "VgmX.c111_object",
    "VgmX.c111_song",
    "VgmX.c111_document"
   ],
   "note": "the algorithm of xsdata (fields in class order, sequential runs in turns) is modelled from its source; the class tables are transcribed by script (Model/Xsdata)"
  },
  {
   "property": "C112",
   "status": "proved",
   "theorems": [
    "VgmX.c112_session",
    "VgmX.c112_settings"
   ],
   "note": "the instances are dictionaries, and methods read and assign them (Model/Assign)"
  },
  {
   "property": "C113",
   "status": "proved",
   "theorems": [
    "VgmX.c113_reads",
    "VgmX.c113_same",
    "VgmX.c113_ascii",
    "VgmX.c113_instruments"
   ],
   "note": "strings of Unicode scalar values (no lone surrogates); integers only, no floats"
  },
  {
   "property": "C114",
   "status": "proved",
   "theorems": [
    "VgmX.c114_copy",
    "VgmX.c114_isolated",
    "VgmX.c114_operator",
    "VgmX.c114_equal",
    "VgmX.c114_base_note",
    "VgmX.c114_instrument",
    "VgmX.c114_raises",
    "VgmX.c114_effects",
    "VgmX.c114_four"
   ],
   "note": "fields hold natural numbers; attributes that the classes do not define are not modelled"
  },
  {
   "property": "C115",
   "status": "proved",
   "theorems": [
    "VgmX.c115_document",
    "VgmX.c115_write",
    "VgmX.c115_own",
    "VgmX.c115_shared",
    "VgmX.c115_effects"
   ],
   "note": "the attribute defaults, which nothing reads, is left out"
  },
  {
   "property": "C116",
   "status": "proved",
   "theorems": [
    "VgmX.c116_alone",
    "VgmX.c116_progress",
    "VgmX.c116_clocks",
    "VgmX.c116_same",
    "VgmX.c116_mixed"
   ],
   "note": "reading or assigning one item of a dictionary is taken to be atomic, as in CPython; operations on what belongs to the thread alone are one step; gunzip as in C09"
  },
  {
   "property": "C117",
   "status": "proved",
   "theorems": [
    "VgmX.c117_after",
    "VgmX.c117_trim",
    "VgmX.c117_restore",
    "VgmX.c117_loop",
    "VgmX.c117_song"
   ],
   "note": "the first key-on must come after the first moment (C21)"
  },
  {
   "property": "C118",
   "status": "proved",
   "theorems": [
    "VgmX.c118_song"
   ],
   "note": "for every ticks_per_note that does not overflow a float, as in C36"
  },
  {
   "property": "C119",
   "status": "proved",
   "theorems": [
    "VgmX.c119_score",
    "VgmX.c119_all",
    "VgmX.c119_file",
    "VgmX.c119_song",
    "VgmX.c119_program",
    "VgmX.c119_header"
   ],
   "note": "the track file reads back if its XML document is below two gigabytes, as in C64"
  },
  {
   "property": "C12",
   "status": "partial",
   "theorems": [
    "VgmX.c12_registers_partial",
    "VgmX.c12_d2r_refuted",
    "VgmX.c12_exact",
    "VgmX.c12_merged_patches"
   ],
   "note": "False of the code for D2R; proved for every other field and for the low four bits of D2R."
  },
  {
   "property": "C120",
   "status": "proved",
   "theorems": [
    "VgmX.c120_fits",
    "VgmX.c120_results",
    "VgmX.c120_exports",
    "VgmX.c120_unique",
    "VgmX.c120_score",
    "VgmX.c120_program"
   ],
   "note": "one file written in another way; what it says about other chips or the tags of the file is not kept, the program does not read it"
  },
  {
   "property": "C121",
   "status": "proved",
   "theorems": [
    "VgmX.c121_csv"
   ],
   "note": ""
  },
  {
   "property": "C122",
   "status": "proved",
   "theorems": [
    "VgmX.c122_between",
    "VgmX.c122_stays",
    "VgmX.c122_instrument",
    "VgmX.c122_tick",
    "VgmX.c122_export_dangling"
   ],
   "note": ""
  },
  {
   "property": "C123",
   "status": "proved",
   "theorems": [
    "VgmX.c123_sound",
    "VgmX.c123_again_write",
    "VgmX.c123_again_key",
    "VgmX.c123_wait",
    "VgmX.c123_session"
   ],
   "note": ""
  },
  {
   "property": "C124",
   "status": "proved",
   "theorems": [
    "VgmX.c124_notes",
    "VgmX.c124_count",
    "VgmX.c124_instruments",
    "VgmX.c124_ends",
    "VgmX.c124_all_end",
    "VgmX.c124_ids",
    "VgmX.c124_grows",
    "VgmX.c124_locked",
    "VgmX.c124_apart",
    "VgmX.c124_wait_lost",
    "VgmX.c124_instrument_mixed",
    "VgmX.c124_write_lost",
    "VgmX.c124_off_note"
   ],
   "note": ""
  },
  {
   "property": "C125",
   "status": "proved",
   "theorems": [
    "VgmX.c125_song",
    "VgmX.c125_instruments",
    "VgmX.c125_csv",
    "VgmX.c125_tempo"
   ],
   "note": ""
  },
  {
   "property": "C126",
   "status": "proved",
   "theorems": [
    "VgmX.c126_csv",
    "VgmX.c126_csv_ok",
    "VgmX.c126_song",
    "VgmX.c126_instruments",
    "VgmX.c126_fit",
    "VgmX.c126_csv_torn",
    "VgmX.c126_main_order"
   ],
   "note": ""
  },
  {
   "property": "C127",
   "status": "proved",
   "theorems": [
    "VgmX.c127_csv",
    "VgmX.c127_song",
    "VgmX.c127_instruments",
    "VgmX.c127_fit"
   ],
   "note": ""
  },
  {
   "property": "C128",
   "status": "proved",
   "theorems": [
    "VgmX.c128_bytes",
    "VgmX.c128_calls",
    "VgmX.c128_count",
    "VgmX.c128_stop",
    "VgmX.c128_end",
    "VgmX.c128_progress",
    "VgmX.c128_uninterrupted",
    "VgmX.c128_torn_refuted"
   ],
   "note": "torn commands: c128_torn_refuted"
  },
  {
   "property": "C129",
   "status": "proved",
   "theorems": [
    "VgmX.c129_split",
    "VgmX.c129_notes",
    "VgmX.c129_exports",
    "VgmX.c129_ends",
    "VgmX.c129_locked",
    "VgmX.c129_torn_refuted"
   ],
   "note": "notes not in the file: c129_torn_refuted"
  },
  {
   "property": "C13",
   "status": "proved",
   "theorems": [
    "VgmX.c13_idempotent",
    "VgmX.c13_key_excluded"
   ],
   "note": ""
  },
  {
   "property": "C130",
   "status": "proved",
   "theorems": [
    "VgmX.c130_dealt",
    "VgmX.c130_commands",
    "VgmX.c130_all",
    "VgmX.c130_state",
    "VgmX.c130_order_refuted"
   ],
   "note": "not the state of one thread: c130_order_refuted"
  },
  {
   "property": "C131",
   "status": "proved",
   "theorems": [
    "VgmX.c131_low",
    "VgmX.c131_nat"
   ],
   "note": ""
  },
  {
   "property": "C14",
   "status": "proved",
   "theorems": [
    "VgmX.c14_commute",
    "VgmX.c14_same_register_excluded"
   ],
   "note": ""
  },
  {
   "property": "C15",
   "status": "proved",
   "theorems": [
    "VgmX.c15_ignored_iff"
   ],
   "note": ""
  },
  {
   "property": "C16",
   "status": "proved",
   "theorems": [
    "VgmX.c16_unique"
   ],
   "note": ""
  },
  {
   "property": "C17",
   "status": "proved",
   "theorems": [
    "VgmX.c17_note_instrument"
   ],
   "note": ""
  },
  {
   "property": "C18",
   "status": "proved",
   "theorems": [
    "VgmX.c18_refines",
    "VgmX.c18_immutable",
    "VgmX.c18_channels_separate",
    "VgmX.c18_operators_separate"
   ],
   "note": ""
  },
  {
   "property": "C19",
   "status": "proved",
   "theorems": [
    "VgmX.c19_instruments",
    "VgmX.c19_grows"
   ],
   "note": ""
  },
  {
   "property": "C20",
   "status": "proved",
   "theorems": [
    "VgmX.c20_keyoff_adds_nothing",
    "VgmX.c20_keyoff_iff"
   ],
   "note": ""
  },
  {
   "property": "C21",
   "status": "partial",
   "theorems": [
    "VgmX.c21_recorded_partial",
    "VgmX.c21_complete_partial",
    "VgmX.c21_refuted",
    "VgmX.c21_time_zero_lost"
   ],
   "note": "False of the code (a first beat at sample 0 counts as none); c21_recorded_partial is the exact form."
  },
  {
   "property": "C22",
   "status": "proved",
   "theorems": [
    "VgmX.c22_key_presses",
    "VgmX.c22_chronological"
   ],
   "note": ""
  },
  {
   "property": "C23",
   "status": "proved",
   "theorems": [
    "VgmX.c23_ticks"
   ],
   "note": ""
  },
  {
   "property": "C24",
   "status": "proved",
   "theorems": [
    "VgmX.c24_note_capture"
   ],
   "note": ""
  },
  {
   "property": "C25",
   "status": "proved",
   "theorems": [
    "VgmX.c25_ranges"
   ],
   "note": ""
  },
  {
   "property": "C26",
   "status": "proved",
   "theorems": [
    "VgmX.c26_range"
   ],
   "note": ""
  },
  {
   "property": "C27",
   "status": "proved",
   "theorems": [
    "VgmX.c27_score"
   ],
   "note": ""
  },
  {
   "property": "C28",
   "status": "proved",
   "theorems": [
    "VgmX.c28_best",
    "VgmX.c28_ticks_exist"
   ],
   "note": ""
  },
  {
   "property": "C29",
   "status": "proved",
   "theorems": [
    "VgmX.c29_local",
    "VgmX.c29_few"
   ],
   "note": ""
  },
  {
   "property": "C30",
   "status": "proved",
   "theorems": [
    "VgmX.c30_steady"
   ],
   "note": ""
  },
  {
   "property": "C31",
   "status": "proved",
   "theorems": [
    "VgmX.c31_pitch",
    "VgmX.c31_increasing",
    "VgmX.c31_history",
    "VgmX.c64_song"
   ],
   "note": ""
  },
  {
   "property": "C32",
   "status": "partial",
   "theorems": [
    "VgmX.c32_monotone_partial",
    "VgmX.c32_refuted"
   ],
   "note": "False of the code for note code 15; proved for every pair without it."
  },
  {
   "property": "C33",
   "status": "proved",
   "theorems": [
    "VgmX.c33_off",
    "VgmX.c64_song"
   ],
   "note": ""
  },
  {
   "property": "C34",
   "status": "partial",
   "theorems": [
    "VgmX.c34_octave_partial",
    "VgmX.c34_refuted"
   ],
   "note": "False of the code for note code 14 (C); c34_octave_partial says exactly when the exports agree."
  },
  {
   "property": "C35",
   "status": "proved",
   "theorems": [
    "VgmX.c35_hex",
    "VgmX.c35_injective",
    "VgmX.c35_song"
   ],
   "note": ""
  },
  {
   "property": "C36",
   "status": "proved",
   "theorems": [
    "VgmX.c36_cells"
   ],
   "note": ""
  },
  {
   "property": "C37",
   "status": "partial",
   "theorems": [
    "VgmX.c37_all_partial",
    "VgmX.c37_lost_partial",
    "VgmX.c37_refuted"
   ],
   "note": "False of the code: of two events of a channel on one row only the later is exported. c37_lost_partial: a press is lost only to a later one on its row."
  },
  {
   "property": "C38",
   "status": "proved",
   "theorems": [
    "VgmX.c38_patterns"
   ],
   "note": ""
  },
  {
   "property": "C39",
   "status": "proved",
   "theorems": [
    "VgmX.c39_lines"
   ],
   "note": ""
  },
  {
   "property": "C40",
   "status": "proved",
   "theorems": [
    "VgmX.c40_references"
   ],
   "note": ""
  },
  {
   "property": "C41",
   "status": "partial",
   "theorems": [
    "VgmX.c41_bpm_partial",
    "VgmX.c41_refuted",
    "VgmX.c41_estimated"
   ],
   "note": "False of the code for nine values of t (double rounding); c41_bpm_partial is the exact value for every t below the overflow bound."
  },
  {
   "property": "C42",
   "status": "proved",
   "theorems": [
    "VgmX.c42_read_back",
    "VgmX.c42_exported",
    "VgmX.c42_tracks",
    "VgmX.c42_exported_tracks"
   ],
   "note": "For the tree of data objects; for the XML text and zip archive made from it see C62, C63."
  },
  {
   "property": "C43",
   "status": "proved",
   "theorems": [
    "VgmX.c43_panning"
   ],
   "note": ""
  },
  {
   "property": "C44",
   "status": "proved",
   "theorems": [
    "VgmX.c44_negative",
    "VgmX.c44_other"
   ],
   "note": ""
  },
  {
   "property": "C45",
   "status": "proved",
   "theorems": [
    "VgmX.c45_terminates",
    "VgmX.c45_rows"
   ],
   "note": ""
  },
  {
   "property": "C46",
   "status": "proved",
   "theorems": [
    "VgmX.c46_cells"
   ],
   "note": ""
  },
  {
   "property": "C47",
   "status": "partial",
   "theorems": [
    "VgmX.c47_rows_partial",
    "VgmX.c47_refuted"
   ],
   "note": "False of the code: the last row holding an event is never written; c47_rows_partial says exactly which rows are written and what they hold."
  },
  {
   "property": "C48",
   "status": "proved",
   "theorems": [
    "VgmX.c48_columns"
   ],
   "note": ""
  },
  {
   "property": "C49",
   "status": "proved",
   "theorems": [
    "VgmX.c49_read_back",
    "VgmX.c49_injective"
   ],
   "note": ""
  },
  {
   "property": "C50",
   "status": "proved",
   "theorems": [
    "VgmX.c50_slots"
   ],
   "note": ""
  },
  {
   "property": "C51",
   "status": "proved",
   "theorems": [
    "VgmX.c51_readable_only"
   ],
   "note": ""
  },
  {
   "property": "C52",
   "status": "proved",
   "theorems": [
    "VgmX.c52_stdin_never_works"
   ],
   "note": ""
  },
  {
   "property": "C53",
   "status": "proved",
   "theorems": [
    "VgmX.c53_smart_open",
    "VgmX.c53_main"
   ],
   "note": ""
  },
  {
   "property": "C54",
   "status": "proved",
   "theorems": [
    "VgmX.c54_outputs",
    "VgmX.c54_independent"
   ],
   "note": ""
  },
  {
   "property": "C55",
   "status": "proved",
   "theorems": [
    "VgmX.c55_agree"
   ],
   "note": "If the XML document is below 2,045,222,520 bytes, where zipfile changes to another format."
  },
  {
   "property": "C56",
   "status": "proved",
   "theorems": [
    "VgmX.c56_append",
    "VgmX.c56_drop_inert",
    "VgmX.c56_merge_waits",
    "VgmX.c56_zero_wait"
   ],
   "note": ""
  },
  {
   "property": "C57",
   "status": "proved",
   "theorems": [
    "VgmX.c57_csv_text"
   ],
   "note": ""
  },
  {
   "property": "C58",
   "status": "proved",
   "theorems": [
    "VgmX.c58_frame"
   ],
   "note": ""
  },
  {
   "property": "C59",
   "status": "proved",
   "theorems": [
    "VgmX.c59_complete"
   ],
   "note": "A process killed in the middle and write errors (full disk) are not modelled."
  },
  {
   "property": "C60",
   "status": "proved",
   "theorems": [
    "VgmX.c60_deterministic",
    "VgmX.c60_rerun",
    "VgmX.c60_clock"
   ],
   "note": "c60_deterministic and c60_rerun are for runs at the same clock reading; c60_clock says what the clock changes."
  },
  {
   "property": "C61",
   "status": "proved",
   "theorems": [
    "VgmX.c61_instruments_stdout",
    "VgmX.c61_track_dash",
    "VgmX.c61_library"
   ],
   "note": ""
  },
  {
   "property": "C62",
   "status": "proved",
   "theorems": [
    "VgmX.c62_unzip",
    "VgmX.c62_bad_date"
   ],
   "note": "Contents below 2,045,222,520 bytes (above it zipfile switches to another format, a parameter of the model)."
  },
  {
   "property": "C63",
   "status": "proved",
   "theorems": [
    "VgmX.c63_document",
    "VgmX.c63_file",
    "VgmX.c63_either"
   ],
   "note": "The way xsdata prints the tree (pretty_print, declaration, attribute order) is modelled by hand from the schema classes and trusted."
  },
  {
   "property": "C64",
   "status": "proved",
   "theorems": [
    "VgmX.c64_song",
    "VgmX.c64_track_file"
   ],
   "note": "If the XML document is below 2,045,222,520 bytes."
  },
  {
   "property": "C65",
   "status": "proved",
   "theorems": [
    "VgmX.c65_agree",
    "VgmX.c65_exclusive"
   ],
   "note": "Rows the CSV has; the last row with events is missing from it (C47)."
  },
  {
   "property": "C66",
   "status": "proved",
   "theorems": [
    "VgmX.c66_report",
    "VgmX.c66_main"
   ],
   "note": ""
  },
  {
   "property": "C67",
   "status": "proved",
   "theorems": [
    "VgmX.c67_complete",
    "VgmX.c67_others",
    "VgmX.c67_instruments",
    "VgmX.c67_track",
    "VgmX.c67_order",
    "VgmX.c67_window"
   ],
   "note": "Killed process only: no power loss, no failing writes; the order of writes inside zipfile is that of CPython 3.11. c67_window is the negative part: outputs are not replaced atomically. c67_track: songs below 2 GB."
  },
  {
   "property": "C68",
   "status": "proved",
   "theorems": [
    "VgmX.c68_means",
    "VgmX.c68_unique",
    "VgmX.c68_runs",
    "VgmX.c68_no_effect",
    "VgmX.c68_writes",
    "VgmX.c68_any_place",
    "VgmX.c68_trap",
    "VgmX.c68_dash_name"
   ],
   "note": "Model of CPython 3.11's argparse for this program's options (compared with the real argparse on 18000 random command lines); digits and integers outside ASCII are parameters; help and usage texts are not modelled."
  },
  {
   "property": "C69",
   "status": "proved",
   "theorems": [
    "VgmX.c69_settings",
    "VgmX.c69_names",
    "VgmX.c69_tests_read",
    "VgmX.c69_instrument",
    "VgmX.c69_instrument_names",
    "VgmX.c69_stable",
    "VgmX.c69_channels",
    "VgmX.c69_deepcopy_state",
    "VgmX.c69_deepcopy_instrument",
    "VgmX.c69_copy"
   ],
   "note": "The names every Python object has are a parameter. copy and pickle as in CPython 3.11."
  },
  {
   "property": "C70",
   "status": "proved",
   "theorems": [
    "VgmX.c70_iterate",
    "VgmX.c70_process",
    "VgmX.c70_open",
    "VgmX.c70_undamaged",
    "VgmX.c70_main",
    "VgmX.c70_contrast"
   ],
   "note": "How much of a damaged file can be decompressed, and the error, are parameters (any); taken not to depend on the sizes of the reads."
  },
  {
   "property": "C71",
   "status": "proved",
   "theorems": [
    "VgmX.c71_errors",
    "VgmX.c71_shape",
    "VgmX.c71_cells",
    "VgmX.c71_order",
    "VgmX.c71_extractor"
   ],
   "note": "add_pattern is given numbers from 0 on."
  },
  {
   "property": "C72",
   "status": "proved",
   "theorems": [
    "VgmX.c72_outcome",
    "VgmX.c72_file",
    "VgmX.c72_stdout",
    "VgmX.c72_zero",
    "VgmX.c72_written"
   ],
   "note": "Times below 2^1023 samples."
  },
  {
   "property": "C73",
   "status": "proved",
   "theorems": [
    "VgmX.c73_fraction",
    "VgmX.c73_absolute"
   ],
   "note": "Recordings below 2^53 samples (below 2^40 for the absolute bound)."
  },
  {
   "property": "C74",
   "status": "proved",
   "theorems": [
    "VgmX.c74_independent",
    "VgmX.c74_schedule"
   ],
   "note": "Calls are on objects that exist (Possible)."
  },
  {
   "property": "C75",
   "status": "proved",
   "theorems": [
    "VgmX.c75_live",
    "VgmX.c75_separate"
   ],
   "note": ""
  },
  {
   "property": "C76",
   "status": "proved",
   "theorems": [
    "VgmX.c76_key_events",
    "VgmX.c76_timed_writes",
    "VgmX.c76_exports",
    "VgmX.c76_program"
   ],
   "note": ""
  },
  {
   "property": "C77",
   "status": "proved",
   "theorems": [
    "VgmX.c77_instruments",
    "VgmX.c77_notes",
    "VgmX.c77_nothing_lost",
    "VgmX.c77_estimate",
    "VgmX.c77_song",
    "VgmX.c77_start_excluded"
   ],
   "note": "The case a key-on at the first moment is excluded from c77_notes and c77_song, necessarily (c77_start_excluded)."
  },
  {
   "property": "C78",
   "status": "proved",
   "theorems": [
    "VgmX.c78_channels",
    "VgmX.c78_song",
    "VgmX.c78_noise_excluded"
   ],
   "note": ""
  },
  {
   "property": "C79",
   "status": "proved",
   "theorems": [
    "VgmX.c79_timing",
    "VgmX.c79_estimated",
    "VgmX.c79_limits"
   ],
   "note": ""
  },
  {
   "property": "C80",
   "status": "proved",
   "theorems": [
    "VgmX.c80_faults",
    "VgmX.c80_success",
    "VgmX.c80_others",
    "VgmX.c80_order",
    "VgmX.c80_closed"
   ],
   "note": "Model/Faults.lean; the I/O stack (TextIOWrapper, BufferedWriter, ZipFile.writestr and close) was compared with CPython on 1800 random fault patterns (tools/difftest/faults.py)."
  },
  {
   "property": "C81",
   "status": "proved",
   "theorems": [
    "VgmX.c81_success",
    "VgmX.c81_instruments",
    "VgmX.c81_track"
   ],
   "note": "Examples in Props/Disk.lean: the sample run succeeds just if 8604 bytes are free."
  },
  {
   "property": "C82",
   "status": "proved",
   "theorems": [
    "VgmX.c82_none",
    "VgmX.c82_input",
    "VgmX.c82_print",
    "VgmX.c82_closed",
    "VgmX.c82_possible"
   ],
   "note": "Examples in Props/Io.lean: the sample run with its last read, and with each of its last three prints, refused."
  },
  {
   "property": "C83",
   "status": "proved",
   "theorems": [
    "VgmX.c83_notes",
    "VgmX.c83_song"
   ],
   "note": ""
  },
  {
   "property": "C84",
   "status": "proved",
   "theorems": [
    "VgmX.c84_notes",
    "VgmX.c84_song"
   ],
   "note": ""
  },
  {
   "property": "C85",
   "status": "proved",
   "theorems": [
    "VgmX.c85_coarser"
   ],
   "note": ""
  },
  {
   "property": "C86",
   "status": "proved",
   "theorems": [
    "VgmX.c86_notes",
    "VgmX.c86_ticks",
    "VgmX.c86_song"
   ],
   "note": ""
  },
  {
   "property": "C87",
   "status": "proved",
   "theorems": [
    "VgmX.c87_at_any_time",
    "VgmX.c87_finished",
    "VgmX.c87_others",
    "VgmX.c87_no_waiting"
   ],
   "note": "a step is the opening of the input, the reading of a piece of it, or one operation on the file system (as in C67); standard output is not modelled there"
  },
  {
   "property": "C88",
   "status": "proved",
   "theorems": [
    "VgmX.c88_result",
    "VgmX.c88_exports",
    "VgmX.c88_program",
    "VgmX.c88_two_places"
   ],
   "note": "c88_two_places: register 0x19 holds two values, which is why the definition of superfluous has to tell them apart"
  },
  {
   "property": "C89",
   "status": "proved",
   "theorems": [
    "VgmX.c89_notes",
    "VgmX.c89_silent",
    "VgmX.c89_song"
   ],
   "note": ""
  },
  {
   "property": "C90",
   "status": "proved",
   "theorems": [
    "VgmX.c90_notes",
    "VgmX.c90_song",
    "VgmX.c90_first_instant"
   ],
   "note": "c90_first_instant shows that the exception is needed"
  },
  {
   "property": "C91",
   "status": "proved",
   "theorems": [
    "VgmX.c91_success",
    "VgmX.c91_none",
    "VgmX.c91_others",
    "VgmX.c91_order",
    "VgmX.c91_closed",
    "VgmX.c91_possible"
   ],
   "note": "Combines the models of C80 (writes) and C82 (reads, prints)."
  },
  {
   "property": "C92",
   "status": "proved",
   "theorems": [
    "VgmX.c92_calls",
    "VgmX.c92_resume",
    "VgmX.c92_ended"
   ],
   "note": ""
  },
  {
   "property": "C93",
   "status": "proved",
   "theorems": [
    "VgmX.c93_tells",
    "VgmX.c93_unique",
    "VgmX.c93_alike"
   ],
   "note": ""
  },
  {
   "property": "C94",
   "status": "proved",
   "theorems": [
    "VgmX.c94_grid",
    "VgmX.c94_robust"
   ],
   "note": ""
  },
  {
   "property": "C95",
   "status": "proved",
   "theorems": [
    "VgmX.c95_rows",
    "VgmX.c95_fraction"
   ],
   "note": "The Fraction statement bounds the error by half a hundredth and the rounding of the two floating point operations."
  },
  {
   "property": "C96",
   "status": "proved",
   "theorems": [
    "VgmX.c96_parts",
    "VgmX.c96_ends",
    "VgmX.c96_first_difference",
    "VgmX.c96_whole",
    "VgmX.c96_header",
    "VgmX.c96_misread"
   ],
   "note": "c96_misread shows that the limits are reached: a payload delivered in two pieces makes the reader yield a register write that is not in the file. gzip input is not covered by the header statement."
  },
  {
   "property": "C97",
   "status": "proved",
   "theorems": [
    "VgmX.c97_slower",
    "VgmX.c97_longer",
    "VgmX.c97_coarser",
    "VgmX.c97_raised"
   ],
   "note": "Raised: if the octaves allow it and each channel has a key code before its first key event (as in C84)."
  },
  {
   "property": "C98",
   "status": "proved",
   "theorems": [
    "VgmX.c98_shared",
    "VgmX.c98_each_once",
    "VgmX.c98_position",
    "VgmX.c98_again",
    "VgmX.c98_seek"
   ],
   "note": "Compressed files: every reader has a GzipFile of its own (not covered here)."
  },
  {
   "property": "C99",
   "status": "proved",
   "theorems": [
    "VgmX.c99_low",
    "VgmX.c99_whole"
   ],
   "note": "c99_low assumes bytes for the two writes named as exceptions; c99_whole says what those do."
  }
 ]
}