import Verif.Model.Reader
import Verif.Model.State
import Verif.Model.Attr
/-
The repository's own tests, replayed against the model (tests/test_core.py, tests/test_ym2151.py;
data of tests/test_core_data.py). Generated by tools/mkconform.py. These are tests of the model's
fidelity, not proofs: nothing in MANIFEST.json rests on them.

Tests of the repository that do not hold of the code at this commit, and so not of the model, appear
with what the code does instead:
* `state.noise`, `state.ct1`, `state.ct2`, `channel_config(ch).right`, `.left`, `.octave`, `.note`
  and `.key_fraction` raise `AttributeError` (noise moved to the channel, pitch and panning to the
  note configurations, the CT bits were dropped);
* key presses at sample 0 are not listed (`_first_beat` is then 0, which is false), and a key-off
  before any key-on adds no instrument.
-/

namespace VgmX.Conform

/-- `get_data`, tests/test_core_data.py:400-418: bytes 4..8 are the length minus 4. -/
def patched (l : List UInt8) : List UInt8 :=
  let n := l.length - 4
  l.take 4 ++ [UInt8.ofNat n, UInt8.ofNat (n / 256), 0, 0] ++ l.drop 8

/-- What the tests look at after `reader`. -/
def opened (l : List UInt8) : Option (Nat × Nat × Nat × Bool × Except PyErr Nat) :=
  match reader (fun _ => .error (.other 0)) (fun _ => none) l with
  | (.ok (some v), c) => some (v.size, v.version, v.dataStart, supports c "ym2151", clock c "ym2151")
  | _ => none

/-- `list(reader)`. -/
def commands (l : List UInt8) : Option (List Cmd × Outcome) :=
  match reader (fun _ => .error (.other 0)) (fun _ => none) l with
  | (.ok (some v), _) => iter (l.length + 1) v.stream
  | _ => none

/-- tests/test_core_data.py: `SIMPLE_100`. -/
def simple100 : List UInt8 := patched [86, 103, 109, 32, 1, 0, 0, 0, 0, 1, 0, 0, 2, 0, 0, 0, 3, 0, 0, 0, 4, 0, 0, 0, 5, 0, 0, 0, 6, 0, 0, 0, 7, 0, 0, 0, 8, 0, 0, 0, 9, 0, 241, 242, 10, 0, 0, 0, 11, 0, 0, 0, 0, 0, 0, 0, 13, 0, 0, 0, 14, 0, 0, 0]

/-- tests/test_core_data.py: `SIMPLE_100_NONE`. -/
def simple100None : List UInt8 := patched [86, 103, 109, 32, 1, 0, 0, 0, 0, 1, 0, 0, 0, 0, 0, 0, 0, 0, 0, 0, 0, 0, 0, 0, 0, 0, 0, 0, 0, 0, 0, 0, 0, 0, 0, 0, 0, 0, 0, 0, 0, 0, 0, 0, 0, 0, 0, 0, 0, 0, 0, 0, 0, 0, 0, 0, 0, 0, 0, 0, 0, 0, 0, 0]

/-- tests/test_core_data.py: `SIMPLE_101`. -/
def simple101 : List UInt8 := patched [86, 103, 109, 32, 1, 0, 0, 0, 1, 1, 0, 0, 2, 0, 0, 0, 3, 0, 0, 0, 4, 0, 0, 0, 5, 0, 0, 0, 6, 0, 0, 0, 7, 0, 0, 0, 8, 0, 0, 0, 9, 0, 241, 242, 10, 0, 0, 0, 11, 0, 0, 0, 0, 0, 0, 0, 13, 0, 0, 0, 14, 0, 0, 0]

/-- tests/test_core_data.py: `SIMPLE_110`. -/
def simple110 : List UInt8 := patched [86, 103, 109, 32, 1, 0, 0, 0, 16, 1, 0, 0, 2, 0, 0, 0, 3, 0, 0, 0, 4, 0, 0, 0, 5, 0, 0, 0, 6, 0, 0, 0, 7, 0, 0, 0, 8, 0, 0, 0, 9, 0, 241, 242, 10, 0, 0, 0, 11, 0, 0, 0, 0, 0, 0, 0, 13, 0, 0, 0, 14, 0, 0, 0]

/-- tests/test_core_data.py: `SIMPLE_150`. -/
def simple150 : List UInt8 := patched [86, 103, 109, 32, 1, 0, 0, 0, 80, 1, 0, 0, 2, 0, 0, 0, 3, 0, 0, 0, 4, 0, 0, 0, 5, 0, 0, 0, 6, 0, 0, 0, 7, 0, 0, 0, 8, 0, 0, 0, 9, 0, 241, 242, 10, 0, 0, 0, 11, 0, 0, 0, 76, 0, 0, 0, 13, 0, 0, 0, 14, 0, 0, 0, 13, 0, 0, 0, 14, 0, 0, 0, 13, 0, 0, 0, 14, 0, 0, 0, 13, 0, 0, 0, 14, 0, 0, 0, 13, 0, 0, 0, 14, 0, 0, 0, 13, 0, 0, 0, 14, 0, 0, 0, 13, 0, 0, 0, 14, 0, 0, 0, 13, 0, 0, 0, 14, 0, 0, 0, 13, 0, 0, 0, 14, 0, 0, 0]

/-- tests/test_core_data.py: `ALL_COMMANDS`. -/
def allCommands : List UInt8 := patched [86, 103, 109, 32, 1, 0, 0, 0, 113, 1, 0, 0, 2, 0, 0, 0, 3, 0, 0, 0, 4, 0, 0, 0, 5, 0, 0, 0, 6, 0, 0, 0, 7, 0, 0, 0, 8, 0, 0, 0, 9, 0, 241, 242, 10, 0, 0, 0, 11, 0, 0, 0, 12, 0, 0, 0, 13, 0, 0, 0, 14, 0, 0, 0, 0, 1, 2, 3, 4, 5, 6, 7, 8, 9, 10, 11, 12, 13, 14, 15, 16, 17, 18, 19, 20, 21, 22, 23, 24, 25, 26, 27, 28, 29, 30, 31, 32, 33, 34, 35, 36, 37, 38, 39, 40, 41, 42, 43, 44, 45, 46, 47, 48, 219, 49, 219, 50, 219, 51, 219, 52, 219, 53, 219, 54, 219, 55, 219, 56, 219, 57, 219, 58, 219, 59, 219, 60, 219, 61, 219, 62, 219, 63, 219, 64, 219, 222, 65, 219, 222, 66, 219, 222, 67, 219, 222, 68, 219, 222, 69, 219, 222, 70, 219, 222, 71, 219, 222, 72, 219, 222, 73, 219, 222, 74, 219, 222, 75, 219, 222, 76, 219, 222, 77, 219, 222, 78, 219, 222, 79, 219, 80, 219, 81, 219, 222, 82, 219, 222, 83, 219, 222, 84, 219, 222, 85, 219, 222, 86, 219, 222, 87, 219, 222, 88, 219, 222, 89, 219, 222, 90, 219, 222, 91, 219, 222, 92, 219, 222, 93, 219, 222, 94, 219, 222, 95, 219, 222, 96, 97, 219, 222, 98, 99, 100, 101, 102, 103, 102, 170, 1, 0, 0, 0, 187, 104, 102, 170, 187, 187, 187, 204, 204, 204, 1, 0, 0, 238, 105, 106, 107, 108, 109, 110, 111, 112, 113, 114, 115, 116, 117, 118, 119, 120, 121, 122, 123, 124, 125, 126, 127, 128, 129, 130, 131, 132, 133, 134, 135, 136, 137, 138, 139, 140, 141, 142, 143, 144, 170, 187, 204, 221, 145, 170, 187, 204, 221, 146, 170, 187, 204, 221, 238, 147, 170, 187, 204, 221, 238, 170, 187, 204, 221, 238, 148, 170, 149, 170, 187, 204, 221, 150, 151, 152, 153, 154, 155, 156, 157, 158, 159, 160, 219, 222, 161, 219, 222, 162, 219, 222, 163, 219, 222, 164, 219, 222, 165, 219, 222, 166, 219, 222, 167, 219, 222, 168, 219, 222, 169, 219, 222, 170, 219, 222, 171, 219, 222, 172, 219, 222, 173, 219, 222, 174, 219, 222, 175, 219, 222, 176, 219, 222, 177, 219, 222, 178, 219, 222, 179, 219, 222, 180, 219, 222, 181, 219, 222, 182, 219, 222, 183, 219, 222, 184, 219, 222, 185, 219, 222, 186, 219, 222, 187, 219, 222, 188, 219, 222, 189, 219, 222, 190, 219, 222, 191, 219, 222, 192, 219, 222, 223, 193, 219, 222, 223, 194, 219, 222, 223, 195, 219, 222, 223, 196, 219, 222, 223, 197, 219, 222, 223, 198, 219, 222, 223, 199, 219, 222, 223, 200, 219, 222, 223, 201, 219, 222, 223, 202, 219, 222, 223, 203, 219, 222, 223, 204, 219, 222, 223, 205, 219, 222, 223, 206, 219, 222, 223, 207, 219, 222, 223, 208, 219, 222, 223, 209, 219, 222, 223, 210, 219, 222, 223, 211, 219, 222, 223, 212, 219, 222, 223, 213, 219, 222, 223, 214, 219, 222, 223, 215, 219, 222, 223, 216, 219, 222, 223, 217, 219, 222, 223, 218, 219, 222, 223, 219, 219, 222, 223, 220, 219, 222, 223, 221, 219, 222, 223, 222, 219, 222, 223, 223, 219, 222, 223, 224, 219, 222, 223, 209, 225, 219, 222, 223, 209, 226, 219, 222, 223, 209, 227, 219, 222, 223, 209, 228, 219, 222, 223, 209, 229, 219, 222, 223, 209, 230, 219, 222, 223, 209, 231, 219, 222, 223, 209, 232, 219, 222, 223, 209, 233, 219, 222, 223, 209, 234, 219, 222, 223, 209, 235, 219, 222, 223, 209, 236, 219, 222, 223, 209, 237, 219, 222, 223, 209, 238, 219, 222, 223, 209, 239, 219, 222, 223, 209, 240, 219, 222, 223, 209, 241, 219, 222, 223, 209, 242, 219, 222, 223, 209, 243, 219, 222, 223, 209, 244, 219, 222, 223, 209, 245, 219, 222, 223, 209, 246, 219, 222, 223, 209, 247, 219, 222, 223, 209, 248, 219, 222, 223, 209, 249, 219, 222, 223, 209, 250, 219, 222, 223, 209, 251, 219, 222, 223, 209, 252, 219, 222, 223, 209, 253, 219, 222, 223, 209, 254, 219, 222, 223, 209, 255, 219, 222, 223, 209]

/-- tests/test_core_data.py: `WAITS`. -/
def waits : List UInt8 := patched [86, 103, 109, 32, 1, 0, 0, 0, 0, 1, 0, 0, 0, 0, 0, 0, 0, 0, 0, 0, 0, 0, 0, 0, 0, 0, 0, 0, 0, 0, 0, 0, 0, 0, 0, 0, 0, 0, 0, 0, 0, 0, 0, 0, 0, 0, 0, 0, 0, 0, 0, 0, 0, 0, 0, 0, 0, 0, 0, 0, 0, 0, 0, 0, 97, 0, 0, 97, 1, 2, 98, 99, 112, 113, 127, 102]

/-- tests/test_core_data.py: `SIMPLE_YM2151`. -/
def simpleYm2151 : List UInt8 := patched [86, 103, 109, 32, 1, 0, 0, 0, 80, 1, 0, 0, 0, 0, 0, 0, 0, 0, 0, 0, 0, 0, 0, 0, 0, 0, 0, 0, 0, 0, 0, 0, 0, 0, 0, 0, 0, 0, 0, 0, 0, 0, 0, 0, 0, 0, 0, 0, 0, 0, 0, 0, 12, 0, 0, 0, 0, 0, 0, 0, 0, 0, 0, 0, 97, 0, 0, 84, 170, 221, 97, 1, 2, 103, 102, 170, 0, 0, 0, 0, 98, 102]

-- test_reader_not_vgm
example : (reader (fun _ => .error (.other 0)) (fun _ => none) [102, 111, 111, 98, 97, 114]).1
    = .ok none := by decide +kernel

-- test_reader_vgm_header_100
example : opened simple100 = some (64, 100, 0x40, true, .ok 3) := by decide +kernel

-- test_reader_vgm_header_100_none
example : opened simple100None = some (64, 100, 0x40, false, .ok 0) := by decide +kernel

-- test_reader_vgm_header_101
example : opened simple101 = some (64, 101, 0x40, true, .ok 3) := by decide +kernel

-- test_reader_vgm_header_110
example : opened simple110 = some (64, 110, 0x40, true, .ok 0x0B) := by decide +kernel

-- test_reader_vgm_header_150
example : (opened simple150).map (fun x => (x.1, x.2.1, x.2.2.1)) = some (128, 150, 0x80) := by
  decide +kernel

-- test_reader_vgm_header_compressed (for any decompressor that undoes gzip.compress)
example (gunzip : List UInt8 → Except PyErr (List UInt8)) (c : Clocks) (z : List UInt8)
    (hz : z.take 2 = [0x1f, 0x8b]) (h : gunzip z = .ok simple100) :
    reader gunzip c z = reader gunzip c simple100 := by
  have h0 : simple100.take 2 = [0x56, 0x67] := by decide +kernel
  have h1 : ((simple100.take 4).take 2 = [0x1f, 0x8b]) = False := by
    simp only [List.take_take]; exact eq_false (by rw [show min 2 4 = 2 from rfl, h0]; decide)
  have h2 : ((z.take 4).take 2 = [0x1f, 0x8b]) = True := by
    simp only [List.take_take]; exact eq_true hz
  simp only [reader, Stream.read, List.drop_zero, h1, h2, if_true, if_false, h]

-- test_vgm_commands
example : (commands allCommands).map (fun r => (r.1.map Cmd.id, r.2)) = some (List.range 256, .stop) := by
  decide +kernel

-- test_vgm_waits
example : commands waits = some ([.wait 0x61 (some 0), .wait 0x61 (some 0x201), .wait 0x62 (some 735),
    .wait 0x63 (some 882), .wait 0x70 (some 1), .wait 0x71 (some 2), .wait 0x7f (some 16), .eos 0x66], .stop) := by
  decide +kernel

-- test_vgm_simple_ym2151
example : (commands simpleYm2151).map (fun r => (r.1.map (fun c => match c with
      | .wait _ n => ("wait", n, none)
      | .ym2151 _ r v => ("ym2151", some r, some v)
      | .plain _ _ => ("none", none, none)
      | .eos _ => ("eos", none, none)), r.2)) =
    some ([("wait", some 0, none), ("ym2151", some 0xAA, some 0xDD), ("wait", some 0x201, none),
      ("none", none, none), ("wait", some 735, none), ("eos", none, none)], .stop) := by
  decide +kernel

-- test__read32, test__read32_short, test__read16, test__read16_short, test__read8, test__read8_short,
-- test__read_bcd, test__read_bcd_short
example : (read32 ⟨[0x12, 0x34, 0x56, 0x78], 0⟩).1 = .ok 0x78563412 ∧ (read32 ⟨[0x12], 0⟩).1 = .error .eof
    ∧ (read16 ⟨[0x12, 0x34], 0⟩).1 = .ok 0x3412 ∧ (read16 ⟨[], 0⟩).1 = .error .eof
    ∧ (read8 ⟨[0x12], 0⟩).1 = .ok 0x12 ∧ (read8 ⟨[], 0⟩).1 = .error .eof
    ∧ (readBcd ⟨[0x78, 0x56, 0x34, 0x12], 0⟩).1 = .ok 12345678
    ∧ (readBcd ⟨[0x12, 0x34], 0⟩).1 = .error .eof := by decide +kernel

/-- `state.apply(create(reg, value))` for each pair. -/
def after (l : List (Nat × Nat)) : State := l.foldl (fun s c => s.apply c.1 c.2) State.init

/-- The same from sample 1 on. -/
def after1 (l : List (Nat × Nat)) : State :=
  l.foldl (fun s c => s.apply c.1 c.2) (State.init.beat 1)

/-- `getattr(state, name)`. -/
def attr (s : State) (name : String) : Except PyErr AttrVal := stateAttr (fun _ => false) 10 s.dict name.toList

/-- `getattr(state.channel_config(ch), name)`. -/
def chan (s : State) (ch : Nat) (name : String) : Except PyErr AttrVal :=
  plainAttr (fun _ => false) .channelConfig (s.channelConfig ch).dict name.toList

/-- `getattr(state.configs[i], name)`. -/
def cfg (s : State) (i : Nat) (name : String) : Option (Except PyErr AttrVal) :=
  s.configs[i]?.map (fun c => configAttr (fun _ => false) 10 c.dict name.toList)

-- test_apply_noise_enable, test_apply_noise_freq: the attribute is now the channel's
example : attr State.init "noise" = .error .attribute
    ∧ chan (after [(0x0F, 0b10000000)]) 7 "noise" = .ok (.bool true)
    ∧ chan (after [(0x0F, 0x1F)]) 7 "noise" = .ok (.bool false)
    ∧ chan (after [(0x0F, 0x1F)]) 7 "noise_freq" = .ok (.int 0x1F) := by decide +kernel

-- test_apply_lfo, test_apply_phs_md, test_apply_amp_md
example : attr State.init "lfo" = .ok (.int 0) ∧ attr (after [(0x18, 0xAA)]) "lfo" = .ok (.int 0xAA)
    ∧ attr State.init "phs_md" = .ok (.int 0) ∧ attr (after [(0x19, 0xD5)]) "phs_md" = .ok (.int 0x55)
    ∧ attr (after [(0x19, 0x55)]) "phs_md" = .ok (.int 0)
    ∧ attr (after [(0x19, 0x55)]) "amp_md" = .ok (.int 0x55) := by decide +kernel

-- test_apply_ctrl_output: ct1 and ct2 no longer exist, the waveform does
example : attr State.init "ct1" = .error .attribute ∧ attr State.init "ct2" = .error .attribute
    ∧ attr State.init "waveform" = .ok (.waveform .saw)
    ∧ attr (after [(0x1B, 0x80), (0x1B, 0xC0), (0x1B, 0x40)]) "waveform" = .ok (.waveform .saw)
    ∧ attr (after [(0x1B, 0x80), (0x1B, 0xC0), (0x1B, 0x40), (0x1B, 0x82)]) "waveform"
      = .ok (.waveform .triangle) := by decide +kernel

-- test_apply_key_off: a key-off before any key-on lists no press and adds no instrument
example : (after [(0x08, 0)]).keyPressesOf 0 = [] ∧ (after [(0x08, 0)]).configs = [] := by decide +kernel

-- test_apply_key_on_simple: the instrument is there, the press at sample 0 is not
example : (after [(0x08, 0xD)]).configs.length = 1 ∧ (after [(0x08, 0xD)]).keyPressesOf 5 = [] := by
  decide +kernel

-- test_apply_key_on_simple_multiple_samples (the instruments; presses as above)
example : let s := after [(0x08, 0xD), (0x18, 0x55), (0x08, 0xD), (0x0F, 0x80), (0x08, 0xF)]
    s.configs.length = 3 ∧ cfg s 0 "lfo" = some (.ok (.int 0)) ∧ cfg s 1 "lfo" = some (.ok (.int 0x55))
    ∧ cfg s 2 "lfo" = some (.ok (.int 0x55)) ∧ cfg s 0 "noise" = some (.ok (.bool false))
    ∧ cfg s 2 "noise" = some (.ok (.bool true)) := by decide +kernel

-- the same with channel 3, as the test has it: noise belongs to channel 7, so no third instrument
example : let s := after [(0x08, 0xD), (0x18, 0x55), (0x08, 0xD), (0x0F, 0x80), (0x08, 0xB)]
    s.configs.length = 2 := by decide +kernel

-- test_apply_key_on_single_sample_many_notes, test_apply_key_on_reuse_sample_many_notes, from sample 1 on
example : let s := after1 [(0x08, 0xD), (0x18, 0x55), (0x08, 0xD), (0x18, 0), (0x08, 0xD)]
    s.configs.length = 2 ∧ (s.keyPressesOf 5).map (·.configId) = [0, 1, 0]
    ∧ cfg s 0 "lfo" = some (.ok (.int 0)) ∧ cfg s 1 "lfo" = some (.ok (.int 0x55)) := by decide +kernel

-- test_apply_channel_control_left_right_*, test_apply_key_code, test_apply_key_fraction:
-- panning and pitch are no longer attributes of the channel; feedback and connection are
example : let s := after [(0x20, 0x80 + 5 * 8 + 7)]
    chan s 0 "right" = .error .attribute ∧ chan s 0 "octave" = .error .attribute
    ∧ chan s 0 "key_fraction" = .error .attribute
    ∧ chan s 0 "fb" = .ok (.int 5) ∧ chan s 0 "connection" = .ok (.int 7)
    ∧ chan (s.apply 0x20 0x40) 0 "fb" = .ok (.int 0) ∧ chan (s.apply 0x20 0x40) 0 "connection" = .ok (.int 0) := by
  decide +kernel

-- test_apply_phase_amp_mod_sens
example : chan (after [(0x3A, 6 * 16 + 3)]) 2 "pms" = .ok (.int 6) ∧ chan (after [(0x3A, 6 * 16 + 3)]) 2 "ams" = .ok (.int 3) := by
  decide +kernel

/-- `assert_single_field`, tests/test_ym2151.py:258-316, for one channel and slot: every slot of the
channel is all zeros but for the slot written. -/
def singleField (reg value : Nat) (expected : OperatorConfig) : Bool :=
  (List.range 8).all (fun ch => (List.range 4).all (fun dev =>
    let s := after [(reg ||| dev <<< 3 ||| ch, value)]
    (List.range 4).all (fun k => (s.channelConfig ch).operators[k]? = some (if k = dev then expected else {}))
    && (s.apply (reg ||| dev <<< 3 ||| ch) 0).channelConfig ch = {}))

-- test_apply_dt1_mul
example : singleField 0x40 (6 <<< 4) { firstDetune := 6 } = true := by decide +kernel

-- test_apply_dt1_mul
example : singleField 0x40 15 { multiply := 15 } = true := by decide +kernel

-- test_apply_tl
example : singleField 0x60 6 { totalLevel := 6 } = true := by decide +kernel

-- test_apply_eg_attack
example : singleField 0x80 (3 <<< 6) { keyScale := 3 } = true := by decide +kernel

-- test_apply_eg_attack
example : singleField 0x80 31 { attackRate := 31 } = true := by decide +kernel

-- test_apply_eg_decay_1
example : singleField 0xA0 (1 <<< 7) { ase := true } = true := by decide +kernel

-- test_apply_eg_decay_1
example : singleField 0xA0 31 { firstDecayRate := 31 } = true := by decide +kernel

-- test_apply_eg_decay_2
example : singleField 0xC0 (3 <<< 6) { secondDetune := 3 } = true := by decide +kernel

-- test_apply_eg_decay_2
example : singleField 0xC0 15 { secondDecayRate := 15 } = true := by decide +kernel

-- test_apply_eg_decay_level_release_rate
example : singleField 0xE0 (15 <<< 4) { firstDecayLevel := 15 } = true := by decide +kernel

-- test_apply_eg_decay_level_release_rate
example : singleField 0xE0 15 { releaseRate := 15 } = true := by decide +kernel

-- TestConfig
example : plainAttr (fun _ => false) .baseConfig (BaseConfig.dict {}) "lfo".toList = .ok (.int 0)
    ∧ plainAttr (fun _ => false) .baseConfig (BaseConfig.dict {}) "foo".toList = .error .attribute
    ∧ BaseConfig.pyEq {} (BaseConfig.copy {}) = true ∧ BaseConfig.pyEq { lfo := 5 } {} = false
    ∧ BaseConfig.pyEq { lfo := 5 } { lfo := 5 } = true := by decide +kernel

-- test_key_on_full_config, on channel 7 (the test writes the noise register, which is channel 7's)
example : let s := after [(0x0F, 1), (0x27, 1), (0x4F, 1), (0x08, 0x20 + 7), (0x08, 0x20 + 7)]
    s.configs.length = 1 ∧ cfg s 0 "noise_freq" = some (.ok (.int 1)) ∧ cfg s 0 "connection" = some (.ok (.int 1))
    ∧ (s.configs[0]?.bind (fun c => c.channel.operators[1]?)).map (·.multiply) = some 1
    ∧ cfg s 0 "enabled_operators" = some (.ok (.flags 4)) := by decide +kernel

-- test_key_on_old_sample
example : let s := after [(0x08, 0x21), (0x0F, 1), (0x21, 1), (0x49, 1), (0x08, 0x21), (0x0F, 0), (0x21, 0), (0x49, 0),
      (0x08, 0x21)]
    s.configs.length = 2 ∧ cfg s 0 "connection" = some (.ok (.int 0)) ∧ cfg s 1 "connection" = some (.ok (.int 1))
    ∧ (s.configs[0]?.bind (fun c => c.channel.operators[1]?)).map (·.multiply) = some 0
    ∧ (s.configs[1]?.bind (fun c => c.channel.operators[1]?)).map (·.multiply) = some 1 := by decide +kernel

-- test_key_on_different_notes, from sample 1 on
example : let s := after1 [(0x08, 0x21), (0x29, 1), (0x08, 0x21)]
    s.configs.length = 1
    ∧ (s.keyPressesOf 1).map (fun n => (n.octave, n.note, n.keyFraction)) = [(0, 0, 0), (0, 1, 0)] := by
  decide +kernel

end VgmX.Conform
