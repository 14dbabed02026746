#!/usr/bin/env python3
"""Writes lean/Verif/Conform/Repo.lean: the repository's own tests replayed against the model.
Reads /repo/tests/test_core_data.py as text (nothing of the repository is executed)."""
import ast
src = open("/repo/tests/test_core_data.py").read()
data = {}
for node in ast.parse(src).body:
    if isinstance(node, ast.Assign) and isinstance(node.value, ast.List):
        data[node.targets[0].id] = [ast.literal_eval(e) for e in node.value.elts]
NAME = {"SIMPLE_100": "simple100", "SIMPLE_100_NONE": "simple100None", "SIMPLE_101": "simple101",
        "SIMPLE_110": "simple110", "SIMPLE_150": "simple150", "ALL_COMMANDS": "allCommands",
        "WAITS": "waits", "SIMPLE_YM2151": "simpleYm2151"}
o = []
w = o.append
w("""import Verif.Model.Reader
import Verif.Model.State
import Verif.Model.Attr
/-
The repository's own tests, replayed against the model (tests/test_core.py, tests/test_ym2151.py;
data of tests/test_core_data.py). Generated by tools/mkconform.py. These are tests of the model's
fidelity, not proofs: nothing in MANIFEST.json rests on them.

Tests of the repository that do not hold of the code at this commit, and so not of the model, appear
with what the code does instead:
* `state.noise`, `state.ct1`, `state.ct2`, `channel_config(ch).right`, `.left`, `.octave`, `.note`
  and `.key_fraction` raise `AttributeError` (noise moved to the channel, pitch and panning to the
  note configurations, the CT bits were dropped);
* key presses at sample 0 are not listed (`_first_beat` is then 0, which is false), and a key-off
  before any key-on adds no instrument.
-/

namespace VgmX.Conform

/-- `get_data`, tests/test_core_data.py:400-418: bytes 4..8 are the length minus 4. -/
def patched (l : List UInt8) : List UInt8 :=
  let n := l.length - 4
  l.take 4 ++ [UInt8.ofNat n, UInt8.ofNat (n / 256), 0, 0] ++ l.drop 8

/-- What the tests look at after `reader`. -/
def opened (l : List UInt8) : Option (Nat × Nat × Nat × Bool × Except PyErr Nat) :=
  match reader (fun _ => .error (.other 0)) (fun _ => none) l with
  | (.ok (some v), c) => some (v.size, v.version, v.dataStart, supports c "ym2151", clock c "ym2151")
  | _ => none

/-- `list(reader)`. -/
def commands (l : List UInt8) : Option (List Cmd × Outcome) :=
  match reader (fun _ => .error (.other 0)) (fun _ => none) l with
  | (.ok (some v), _) => iter (l.length + 1) v.stream
  | _ => none
""")
for k, n in NAME.items():
    w(f"/-- tests/test_core_data.py: `{k}`. -/")
    w(f"def {n} : List UInt8 := patched [{', '.join(map(str, data[k]))}]\n")
def t(name, body):
    w(f"-- {name}\n{body}\n")
N = {k: len(v) for k, v in data.items()}
t("test_reader_not_vgm", "example : (reader (fun _ => .error (.other 0)) (fun _ => none) [102, 111, 111, 98, 97, 114]).1\n    = .ok none := by decide +kernel")
t("test_reader_vgm_header_100", f"example : opened simple100 = some ({N['SIMPLE_100']}, 100, 0x40, true, .ok 3) := by decide +kernel")
t("test_reader_vgm_header_100_none", f"example : opened simple100None = some ({N['SIMPLE_100_NONE']}, 100, 0x40, false, .ok 0) := by decide +kernel")
t("test_reader_vgm_header_101", f"example : opened simple101 = some ({N['SIMPLE_101']}, 101, 0x40, true, .ok 3) := by decide +kernel")
t("test_reader_vgm_header_110", f"example : opened simple110 = some ({N['SIMPLE_110']}, 110, 0x40, true, .ok 0x0B) := by decide +kernel")
t("test_reader_vgm_header_150", f"example : (opened simple150).map (fun x => (x.1, x.2.1, x.2.2.1)) = some ({N['SIMPLE_150']}, 150, 0x80) := by\n  decide +kernel")
t("test_reader_vgm_header_compressed (for any decompressor that undoes gzip.compress)",
  "example (gunzip : List UInt8 → Except PyErr (List UInt8)) (c : Clocks) (z : List UInt8)\n    (hz : z.take 2 = [0x1f, 0x8b]) (h : gunzip z = .ok simple100) :\n    reader gunzip c z = reader gunzip c simple100 := by\n  have h0 : simple100.take 2 = [0x56, 0x67] := by decide +kernel\n  have h1 : ((simple100.take 4).take 2 = [0x1f, 0x8b]) = False := by\n    simp only [List.take_take]; exact eq_false (by rw [show min 2 4 = 2 from rfl, h0]; decide)\n  have h2 : ((z.take 4).take 2 = [0x1f, 0x8b]) = True := by\n    simp only [List.take_take]; exact eq_true hz\n  simp only [reader, Stream.read, List.drop_zero, h1, h2, if_true, if_false, h]")
t("test_vgm_commands", "example : (commands allCommands).map (fun r => (r.1.map Cmd.id, r.2)) = some (List.range 256, .stop) := by\n  decide +kernel")
t("test_vgm_waits", "example : commands waits = some ([.wait 0x61 (some 0), .wait 0x61 (some 0x201), .wait 0x62 (some 735),\n    .wait 0x63 (some 882), .wait 0x70 (some 1), .wait 0x71 (some 2), .wait 0x7f (some 16), .eos 0x66], .stop) := by\n  decide +kernel")
t("test_vgm_simple_ym2151", "example : (commands simpleYm2151).map (fun r => (r.1.map (fun c => match c with\n      | .wait _ n => (\"wait\", n, none)\n      | .ym2151 _ r v => (\"ym2151\", some r, some v)\n      | .plain _ _ => (\"none\", none, none)\n      | .eos _ => (\"eos\", none, none)), r.2)) =\n    some ([(\"wait\", some 0, none), (\"ym2151\", some 0xAA, some 0xDD), (\"wait\", some 0x201, none),\n      (\"none\", none, none), (\"wait\", some 735, none), (\"eos\", none, none)], .stop) := by\n  decide +kernel")
t("test__read32, test__read32_short, test__read16, test__read16_short, test__read8, test__read8_short,\n-- test__read_bcd, test__read_bcd_short",
"""example : (read32 ⟨[0x12, 0x34, 0x56, 0x78], 0⟩).1 = .ok 0x78563412 ∧ (read32 ⟨[0x12], 0⟩).1 = .error .eof
    ∧ (read16 ⟨[0x12, 0x34], 0⟩).1 = .ok 0x3412 ∧ (read16 ⟨[], 0⟩).1 = .error .eof
    ∧ (read8 ⟨[0x12], 0⟩).1 = .ok 0x12 ∧ (read8 ⟨[], 0⟩).1 = .error .eof
    ∧ (readBcd ⟨[0x78, 0x56, 0x34, 0x12], 0⟩).1 = .ok 12345678
    ∧ (readBcd ⟨[0x12, 0x34], 0⟩).1 = .error .eof := by decide +kernel""")
w("""/-- `state.apply(create(reg, value))` for each pair. -/
def after (l : List (Nat × Nat)) : State := l.foldl (fun s c => s.apply c.1 c.2) State.init

/-- The same from sample 1 on. -/
def after1 (l : List (Nat × Nat)) : State :=
  l.foldl (fun s c => s.apply c.1 c.2) (State.init.beat 1)

/-- `getattr(state, name)`. -/
def attr (s : State) (name : String) : Except PyErr AttrVal := stateAttr (fun _ => false) 10 s.dict name.toList

/-- `getattr(state.channel_config(ch), name)`. -/
def chan (s : State) (ch : Nat) (name : String) : Except PyErr AttrVal :=
  plainAttr (fun _ => false) .channelConfig (s.channelConfig ch).dict name.toList

/-- `getattr(state.configs[i], name)`. -/
def cfg (s : State) (i : Nat) (name : String) : Option (Except PyErr AttrVal) :=
  s.configs[i]?.map (fun c => configAttr (fun _ => false) 10 c.dict name.toList)
""")
t("test_apply_noise_enable, test_apply_noise_freq: the attribute is now the channel's",
"""example : attr State.init "noise" = .error .attribute
    ∧ chan (after [(0x0F, 0b10000000)]) 7 "noise" = .ok (.bool true)
    ∧ chan (after [(0x0F, 0x1F)]) 7 "noise" = .ok (.bool false)
    ∧ chan (after [(0x0F, 0x1F)]) 7 "noise_freq" = .ok (.int 0x1F) := by decide +kernel""")
t("test_apply_lfo, test_apply_phs_md, test_apply_amp_md",
"""example : attr State.init "lfo" = .ok (.int 0) ∧ attr (after [(0x18, 0xAA)]) "lfo" = .ok (.int 0xAA)
    ∧ attr State.init "phs_md" = .ok (.int 0) ∧ attr (after [(0x19, 0xD5)]) "phs_md" = .ok (.int 0x55)
    ∧ attr (after [(0x19, 0x55)]) "phs_md" = .ok (.int 0)
    ∧ attr (after [(0x19, 0x55)]) "amp_md" = .ok (.int 0x55) := by decide +kernel""")
t("test_apply_ctrl_output: ct1 and ct2 no longer exist, the waveform does",
"""example : attr State.init "ct1" = .error .attribute ∧ attr State.init "ct2" = .error .attribute
    ∧ attr State.init "waveform" = .ok (.waveform .saw)
    ∧ attr (after [(0x1B, 0x80), (0x1B, 0xC0), (0x1B, 0x40)]) "waveform" = .ok (.waveform .saw)
    ∧ attr (after [(0x1B, 0x80), (0x1B, 0xC0), (0x1B, 0x40), (0x1B, 0x82)]) "waveform"
      = .ok (.waveform .triangle) := by decide +kernel""")
t("test_apply_key_off: a key-off before any key-on lists no press and adds no instrument",
"""example : (after [(0x08, 0)]).keyPressesOf 0 = [] ∧ (after [(0x08, 0)]).configs = [] := by decide +kernel""")
t("test_apply_key_on_simple: the instrument is there, the press at sample 0 is not",
"""example : (after [(0x08, 0xD)]).configs.length = 1 ∧ (after [(0x08, 0xD)]).keyPressesOf 5 = [] := by
  decide +kernel""")
t("test_apply_key_on_simple_multiple_samples (the instruments; presses as above)",
"""example : let s := after [(0x08, 0xD), (0x18, 0x55), (0x08, 0xD), (0x0F, 0x80), (0x08, 0xF)]
    s.configs.length = 3 ∧ cfg s 0 "lfo" = some (.ok (.int 0)) ∧ cfg s 1 "lfo" = some (.ok (.int 0x55))
    ∧ cfg s 2 "lfo" = some (.ok (.int 0x55)) ∧ cfg s 0 "noise" = some (.ok (.bool false))
    ∧ cfg s 2 "noise" = some (.ok (.bool true)) := by decide +kernel""")
t("the same with channel 3, as the test has it: noise belongs to channel 7, so no third instrument",
"""example : let s := after [(0x08, 0xD), (0x18, 0x55), (0x08, 0xD), (0x0F, 0x80), (0x08, 0xB)]
    s.configs.length = 2 := by decide +kernel""")
t("test_apply_key_on_single_sample_many_notes, test_apply_key_on_reuse_sample_many_notes, from sample 1 on",
"""example : let s := after1 [(0x08, 0xD), (0x18, 0x55), (0x08, 0xD), (0x18, 0), (0x08, 0xD)]
    s.configs.length = 2 ∧ (s.keyPressesOf 5).map (·.configId) = [0, 1, 0]
    ∧ cfg s 0 "lfo" = some (.ok (.int 0)) ∧ cfg s 1 "lfo" = some (.ok (.int 0x55)) := by decide +kernel""")
t("test_apply_channel_control_left_right_*, test_apply_key_code, test_apply_key_fraction:\n-- panning and pitch are no longer attributes of the channel; feedback and connection are",
"""example : let s := after [(0x20, 0x80 + 5 * 8 + 7)]
    chan s 0 "right" = .error .attribute ∧ chan s 0 "octave" = .error .attribute
    ∧ chan s 0 "key_fraction" = .error .attribute
    ∧ chan s 0 "fb" = .ok (.int 5) ∧ chan s 0 "connection" = .ok (.int 7)
    ∧ chan (s.apply 0x20 0x40) 0 "fb" = .ok (.int 0) ∧ chan (s.apply 0x20 0x40) 0 "connection" = .ok (.int 0) := by
  decide +kernel""")
t("test_apply_phase_amp_mod_sens",
"""example : chan (after [(0x3A, 6 * 16 + 3)]) 2 "pms" = .ok (.int 6) ∧ chan (after [(0x3A, 6 * 16 + 3)]) 2 "ams" = .ok (.int 3) := by
  decide +kernel""")
w("""/-- `assert_single_field`, tests/test_ym2151.py:258-316, for one channel and slot: every slot of the
channel is all zeros but for the slot written. -/
def singleField (reg value : Nat) (expected : OperatorConfig) : Bool :=
  (List.range 8).all (fun ch => (List.range 4).all (fun dev =>
    let s := after [(reg ||| dev <<< 3 ||| ch, value)]
    (List.range 4).all (fun k => (s.channelConfig ch).operators[k]? = some (if k = dev then expected else {}))
    && (s.apply (reg ||| dev <<< 3 ||| ch) 0).channelConfig ch = {}))
""")
for nm, reg, val, exp in [
  ("test_apply_dt1_mul", "0x40", "(6 <<< 4)", "firstDetune := 6"), ("test_apply_dt1_mul", "0x40", "15", "multiply := 15"),
  ("test_apply_tl", "0x60", "6", "totalLevel := 6"),
  ("test_apply_eg_attack", "0x80", "(3 <<< 6)", "keyScale := 3"), ("test_apply_eg_attack", "0x80", "31", "attackRate := 31"),
  ("test_apply_eg_decay_1", "0xA0", "(1 <<< 7)", "ase := true"), ("test_apply_eg_decay_1", "0xA0", "31", "firstDecayRate := 31"),
  ("test_apply_eg_decay_2", "0xC0", "(3 <<< 6)", "secondDetune := 3"), ("test_apply_eg_decay_2", "0xC0", "15", "secondDecayRate := 15"),
  ("test_apply_eg_decay_level_release_rate", "0xE0", "(15 <<< 4)", "firstDecayLevel := 15"),
  ("test_apply_eg_decay_level_release_rate", "0xE0", "15", "releaseRate := 15")]:
    t(nm, f"example : singleField {reg} {val} {{ {exp} }} = true := by decide +kernel")
t("TestConfig",
"""example : plainAttr (fun _ => false) .baseConfig BaseConfig.dict_default "lfo".toList = .ok (.int 0)
    ∧ plainAttr (fun _ => false) .baseConfig BaseConfig.dict_default "foo".toList = .error .attribute
    ∧ BaseConfig.pyEq {} (BaseConfig.copy {}) = true ∧ BaseConfig.pyEq { lfo := 5 } {} = false
    ∧ BaseConfig.pyEq { lfo := 5 } { lfo := 5 } = true := by decide +kernel""".replace("BaseConfig.dict_default","(BaseConfig.dict {})"))
t("test_key_on_full_config, on channel 7 (the test writes the noise register, which is channel 7's)",
"""example : let s := after [(0x0F, 1), (0x27, 1), (0x4F, 1), (0x08, 0x20 + 7), (0x08, 0x20 + 7)]
    s.configs.length = 1 ∧ cfg s 0 "noise_freq" = some (.ok (.int 1)) ∧ cfg s 0 "connection" = some (.ok (.int 1))
    ∧ (s.configs[0]?.bind (fun c => c.channel.operators[1]?)).map (·.multiply) = some 1
    ∧ cfg s 0 "enabled_operators" = some (.ok (.flags 4)) := by decide +kernel""")
t("test_key_on_old_sample",
"""example : let s := after [(0x08, 0x21), (0x0F, 1), (0x21, 1), (0x49, 1), (0x08, 0x21), (0x0F, 0), (0x21, 0), (0x49, 0),
      (0x08, 0x21)]
    s.configs.length = 2 ∧ cfg s 0 "connection" = some (.ok (.int 0)) ∧ cfg s 1 "connection" = some (.ok (.int 1))
    ∧ (s.configs[0]?.bind (fun c => c.channel.operators[1]?)).map (·.multiply) = some 0
    ∧ (s.configs[1]?.bind (fun c => c.channel.operators[1]?)).map (·.multiply) = some 1 := by decide +kernel""")
t("test_key_on_different_notes, from sample 1 on",
"""example : let s := after1 [(0x08, 0x21), (0x29, 1), (0x08, 0x21)]
    s.configs.length = 1
    ∧ (s.keyPressesOf 1).map (fun n => (n.octave, n.note, n.keyFraction)) = [(0, 0, 0), (0, 1, 0)] := by
  decide +kernel""")
w("end VgmX.Conform")
open("/verif/lean/Verif/Conform/Repo.lean", "w").write("\n".join(o) + "\n")
