"""Writes MANIFEST.json. Statuses: proved / partial (the English property is false of the
code, or only part is proved)."""
import json, re, glob
C = []
def c(p, status, thms, note=""):
    C.append(dict(property=p, status=status, theorems=["VgmX." + t for t in thms.split()], note=note))

c("C01", "proved", "c01_progress c01_terminates")
c("C02", "partial", "c02_framing_partial c02_block_exact c02_block_partial c02_dual_chip_refuted c02_pcm_ram_exact c02_pcm_ram_partial c02_pcm_ram_write_refuted",
  "False of the code for 0x68 with a non-zero size and for 0x67 with bit 31 of the size set; proved for all others, with the exact behaviour of these two.")
c("C03", "proved", "c03_prefix c03_round_trip c03_injective")
c("C04", "proved", "c04_raises_iff c04_exceptions c04_truncation")
c("C05", "proved", "c05_waits c05_waits_complete")
c("C06", "proved", "c06_header c06_bcd c06_other_chips c06_supports")
c("C07", "proved", "c07_accepts")
c("C08", "proved", "c08_transparent c08_nested_rejected c08_not_consulted c08_corrupt")
c("C09", "partial", "c09_last_wins_partial c09_single_partial c09_isolation_refuted c09_failed_open_leaks",
  "False of the code (class-level table); proved what happens instead.")
c("C10", "partial", "c10_exact c10_trailing_partial c10_note_refuted c10_crash_refuted",
  "False of the code (iteration does not stop at 0x66); proved what happens instead.")
c("C11", "partial", "c11_exact c11_time_partial c11_refuted",
  "False of the code for 0x81-0x8F; c11_exact is the exact form for every stream.")
c("C12", "partial", "c12_registers_partial c12_d2r_refuted c12_exact c12_merged_patches",
  "False of the code for D2R; proved for every other field and for the low four bits of D2R.")
c("C13", "proved", "c13_idempotent c13_key_excluded")
c("C14", "proved", "c14_commute c14_same_register_excluded")
c("C15", "proved", "c15_ignored_iff")
c("C16", "proved", "c16_unique")
c("C17", "proved", "c17_note_instrument")
c("C19", "proved", "c19_instruments c19_grows")
c("C20", "proved", "c20_keyoff_adds_nothing c20_keyoff_iff")
c("C21", "partial", "c21_recorded_partial c21_complete_partial c21_refuted c21_time_zero_lost",
  "False of the code (a first beat at sample 0 counts as none); c21_recorded_partial is the exact form.")
c("C22", "proved", "c22_key_presses c22_chronological")
c("C23", "proved", "c23_ticks")
c("C24", "proved", "c24_note_capture")
c("C25", "proved", "c25_ranges")
c("C56", "proved", "c56_append c56_drop_inert c56_merge_waits c56_zero_wait")
c("C18", "proved", "c18_refines c18_immutable c18_channels_separate c18_operators_separate")
c("C26", "proved", "c26_range")
c("C27", "proved", "c27_score")
c("C28", "proved", "c28_best c28_ticks_exist")
c("C29", "proved", "c29_local c29_few")
c("C30", "proved", "c30_steady")
c("C31", "proved", "c31_pitch c31_increasing c31_history c64_song")
c("C32", "partial", "c32_monotone_partial c32_refuted", "False of the code for note code 15; proved for every pair without it.")
c("C33", "proved", "c33_off c64_song")
c("C34", "partial", "c34_octave_partial c34_refuted", "False of the code for note code 14 (C); c34_octave_partial says exactly when the exports agree.")
c("C35", "proved", "c35_hex c35_injective c35_song")
c("C57", "proved", "c57_csv_text")
c("C36", "proved", "c36_cells")
c("C37", "partial", "c37_all_partial c37_lost_partial c37_refuted", "False of the code: of two events of a channel on one row only the later is exported. c37_lost_partial: a press is lost only to a later one on its row.")
c("C38", "proved", "c38_patterns")
c("C39", "proved", "c39_lines")
c("C40", "proved", "c40_references")
c("C41", "partial", "c41_bpm_partial c41_refuted c41_estimated", "False of the code for nine values of t (double rounding); c41_bpm_partial is the exact value for every t below the overflow bound.")
c("C42", "proved", "c42_read_back c42_exported c42_tracks c42_exported_tracks", "For the tree of data objects; for the XML text and zip archive made from it see C62, C63.")
c("C43", "proved", "c43_panning")
c("C44", "proved", "c44_negative c44_other")
c("C45", "proved", "c45_terminates c45_rows")
c("C46", "proved", "c46_cells")
c("C47", "partial", "c47_rows_partial c47_refuted", "False of the code: the last row holding an event is never written; c47_rows_partial says exactly which rows are written and what they hold.")
c("C48", "proved", "c48_columns")
c("C49", "proved", "c49_read_back c49_injective")
c("C50", "proved", "c50_slots")
c("C51", "proved", "c51_readable_only")
c("C52", "proved", "c52_stdin_never_works")
c("C53", "proved", "c53_smart_open c53_main")
c("C54", "proved", "c54_outputs c54_independent")
c("C55", "proved", "c55_agree", "If the XML document is below 2,045,222,520 bytes, where zipfile changes to another format.")
c("C58", "proved", "c58_frame")
c("C59", "proved", "c59_complete", "A process killed in the middle and write errors (full disk) are not modelled.")
c("C60", "proved", "c60_deterministic c60_rerun c60_clock", "c60_deterministic and c60_rerun are for runs at the same clock reading; c60_clock says what the clock changes.")
c("C61", "proved", "c61_instruments_stdout c61_track_dash c61_library")
c("C62", "proved", "c62_unzip c62_bad_date", "Contents below 2,045,222,520 bytes (above it zipfile switches to another format, a parameter of the model).")
c("C63", "proved", "c63_document c63_file c63_either", "The way xsdata prints the tree (pretty_print, declaration, attribute order) is modelled by hand from the schema classes and trusted.")
c("C64", "proved", "c64_song c64_track_file", "If the XML document is below 2,045,222,520 bytes.")
c("C65", "proved", "c65_agree c65_exclusive", "Rows the CSV has; the last row with events is missing from it (C47).")
c("C66", "proved", "c66_report c66_main")
c("C67","proved","c67_complete c67_others c67_instruments c67_track c67_order c67_window","Killed process only: no power loss, no failing writes; the order of writes inside zipfile is that of CPython 3.11. c67_window is the negative part: outputs are not replaced atomically. c67_track: songs below 2 GB.")
c("C68","proved","c68_means c68_unique c68_runs c68_no_effect c68_writes c68_any_place c68_trap c68_dash_name","Model of CPython 3.11's argparse for this program's options (compared with the real argparse on 18000 random command lines); digits and integers outside ASCII are parameters; help and usage texts are not modelled.")
c("C69","proved","c69_settings c69_names c69_tests_read c69_instrument c69_instrument_names c69_stable c69_channels c69_deepcopy_state c69_deepcopy_instrument c69_copy","The names every Python object has are a parameter. copy and pickle as in CPython 3.11.")
c("C70","proved","c70_iterate c70_process c70_open c70_undamaged c70_main c70_contrast","How much of a damaged file can be decompressed, and the error, are parameters (any); taken not to depend on the sizes of the reads.")
c("C71","proved","c71_errors c71_shape c71_cells c71_order c71_extractor","add_pattern is given numbers from 0 on.")
c("C72","proved","c72_outcome c72_file c72_stdout c72_zero c72_written","Times below 2^1023 samples.")
c("C73","proved","c73_fraction c73_absolute","Recordings below 2^53 samples (below 2^40 for the absolute bound).")
c("C74","proved","c74_independent c74_schedule","Calls are on objects that exist (Possible).")
c("C75","proved","c75_live c75_separate","")
c("C76","proved","c76_key_events c76_timed_writes c76_exports c76_program","")
c("C77","proved","c77_instruments c77_notes c77_nothing_lost c77_estimate c77_song c77_start_excluded","The case a key-on at the first moment is excluded from c77_notes and c77_song, necessarily (c77_start_excluded).")
c("C78","proved","c78_channels c78_song c78_noise_excluded","")
c("C79","proved","c79_timing c79_estimated c79_limits","")
c('C80','proved','c80_faults c80_success c80_others c80_order c80_closed','Model/Faults.lean; the I/O stack (TextIOWrapper, BufferedWriter, ZipFile.writestr and close) was compared with CPython on 1800 random fault patterns (tools/difftest/faults.py).')
c('C81','proved','c81_success c81_instruments c81_track','Examples in Props/Disk.lean: the sample run succeeds just if 8604 bytes are free.')
c('C82','proved','c82_none c82_input c82_print c82_closed c82_possible','Examples in Props/Io.lean: the sample run with its last read, and with each of its last three prints, refused.')
c('C83','proved','c83_notes c83_song','')
c('C84','proved','c84_notes c84_song','')
c('C85','proved','c85_coarser','')
c('C86','proved','c86_notes c86_ticks c86_song','')
c('C87','proved','c87_at_any_time c87_finished c87_others c87_no_waiting','a step is the opening of the input, the reading of a piece of it, or one operation on the file system (as in C67); standard output is not modelled there')
c('C88','proved','c88_result c88_exports c88_program c88_two_places','c88_two_places: register 0x19 holds two values, which is why the definition of superfluous has to tell them apart')
c('C89','proved','c89_notes c89_silent c89_song','')
c('C90','proved','c90_notes c90_song c90_first_instant','c90_first_instant shows that the exception is needed')
c('C91','proved','c91_success c91_none c91_others c91_order c91_closed c91_possible','Combines the models of C80 (writes) and C82 (reads, prints).')
c('C92','proved','c92_calls c92_resume c92_ended','')
c('C93','proved','c93_tells c93_unique c93_alike','')
c('C94','proved','c94_grid c94_robust','')
c('C95','proved','c95_rows c95_fraction','The Fraction statement bounds the error by half a hundredth and the rounding of the two floating point operations.')
c('C96','proved','c96_parts c96_ends c96_first_difference c96_whole c96_header c96_misread','c96_misread shows that the limits are reached: a payload delivered in two pieces makes the reader yield a register write that is not in the file. gzip input is not covered by the header statement.')
c('C97','proved','c97_slower c97_longer c97_coarser c97_raised','Raised: if the octaves allow it and each channel has a key code before its first key event (as in C84).')
c('C98','proved','c98_shared c98_each_once c98_position c98_again c98_seek','Compressed files: every reader has a GzipFile of its own (not covered here).')
c('C99','proved','c99_low c99_whole','c99_low assumes bytes for the two writes named as exceptions; c99_whole says what those do.')
c('C100','proved','c100_same c100_frame c100_names c100_outputs c100_complete','What a name means does not change during the run.')
c('C101','proved','c101_at_most c101_period c101_swing','')
c('C102','proved','c102_reader c102_kept c102_written c102_sharp','')
c('C103','proved','c103_program c103_any c103_static c103_mixture','mixture is the limit')
c('C104','proved','c104_says c104_returns c104_unique c104_errors c104_raises c104_finite c104_instruments','up to the text, which C49 and C50 are about')
c('C105','proved','c105_track c105_instruments c105_io_track c105_io_instruments','')
c('C106','proved','c106_lines c106_place c106_diff c106_every_setting c106_grows','')
c('C107','proved','c107_instruments c107_table c107_here','')
c('C108','proved','c108_separate c108_as_write c108_key','')
c('C109','proved','c109_file c109_calls','the XML text is what xsdata is documented to write (Model/Xml); texts of white space only are excluded: an example shows they are lost')
c('C110','proved','c110_song c110_export c110_file','the declared format is a transcription, by script, of the 28 classes that occur (Spec/Schema)')
c('C111','proved','c111_object c111_song c111_document','the algorithm of xsdata (fields in class order, sequential runs in turns) is modelled from its source; the class tables are transcribed by script (Model/Xsdata)')
c('C112','proved','c112_session c112_settings','the instances are dictionaries, and methods read and assign them (Model/Assign)')
c('C113','proved','c113_reads c113_same c113_ascii c113_instruments','strings of Unicode scalar values (no lone surrogates); integers only, no floats')
c('C114','proved','c114_copy c114_isolated c114_operator c114_equal c114_base_note c114_instrument c114_raises c114_effects c114_four','fields hold natural numbers; attributes that the classes do not define are not modelled')
c('C115','proved','c115_document c115_write c115_own c115_shared c115_effects','the attribute defaults, which nothing reads, is left out')
c('C116','proved','c116_alone c116_progress c116_clocks c116_same c116_mixed','reading or assigning one item of a dictionary is taken to be atomic, as in CPython; operations on what belongs to the thread alone are one step; gunzip as in C09')
c('C117','proved','c117_after c117_trim c117_restore c117_loop c117_song','the first key-on must come after the first moment (C21)')
c('C118','proved','c118_song','for every ticks_per_note that does not overflow a float, as in C36')
c('C119','proved','c119_score c119_all c119_file c119_song c119_program c119_header','the track file reads back if its XML document is below two gigabytes, as in C64')
c('C120','proved','c120_fits c120_results c120_exports c120_unique c120_score c120_program','one file written in another way; what it says about other chips or the tags of the file is not kept, the program does not read it')
c('C121','proved','c121_csv','')
c('C122','proved','c122_between c122_stays c122_instrument c122_tick c122_export_dangling','')
c('C123','proved','c123_sound c123_again_write c123_again_key c123_wait c123_session','')
c('C124','proved','c124_notes c124_count c124_instruments c124_ends c124_all_end c124_ids c124_grows c124_locked c124_apart c124_wait_lost c124_instrument_mixed c124_write_lost c124_off_note','')
c('C125','proved','c125_song c125_instruments c125_csv c125_tempo','')
c('C126','proved','c126_csv c126_csv_ok c126_song c126_instruments c126_fit c126_csv_torn c126_main_order','')
c('C127','proved','c127_csv c127_song c127_instruments c127_fit','')
c('C128','proved','c128_bytes c128_calls c128_count c128_stop c128_end c128_progress c128_uninterrupted c128_torn_refuted','torn commands: c128_torn_refuted')
c('C129','proved','c129_split c129_notes c129_exports c129_ends c129_locked c129_torn_refuted','notes not in the file: c129_torn_refuted')
c('C130','proved','c130_dealt c130_commands c130_all c130_state c130_order_refuted','not the state of one thread: c130_order_refuted')
c('C131','proved','c131_low c131_nat')
#NEXT
C.sort(key=lambda x: x["property"])
json.dump({"claims": C}, open("/verif/MANIFEST.json", "w"), indent=1)
src = "\n".join(open(f).read() for f in glob.glob("/verif/lean/Verif/**/*.lean", recursive=True))
names = set(re.findall(r"^theorem\s+(\S+)", src, re.M))
for x in C:
    for t in x["theorems"]:
        if t.removeprefix("VgmX.") not in names: print("missing", x["property"], t)
ids = {json.loads(l)["id"] for l in open("/verif/properties.jsonl")}
print("unclaimed", sorted(ids - {x["property"] for x in C}), "unknown", sorted({x["property"] for x in C} - ids))
