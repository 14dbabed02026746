import Verif.Lemmas.Json
import Verif.Props.State
/-
Properties C49-C50: the instrument file.
-/

namespace VgmX
open Spec

theorem readOperator_json (o : OperatorConfig) : readOperator o.json = some o := by
  cases o
  simp [readOperator, OperatorConfig.json, numField, boolField, field, JsonFields.find,
    JsonFields.ofList]

/-- The name of a waveform. -/
def waveformName : Waveform → Str
  | .saw => "SAW".toList
  | .square => "SQUARE".toList
  | .triangle => "TRIANGLE".toList
  | .noise => "NOISE".toList

theorem waveform_json (w : Waveform) : w.json = .str (waveformName w) := by cases w <;> rfl

theorem readWaveform_name (w : Waveform) : readWaveform (waveformName w) = some w := by
  cases w <;> decide +kernel

theorem readBaseConfig_json (o : BaseConfig) : readBaseConfig o.json = some o := by
  obtain ⟨w, l, a, p⟩ := o
  simp [readBaseConfig, BaseConfig.json, waveform_json, numField, strField, field,
    JsonFields.find, JsonFields.ofList, readWaveform_name]

/-- The operator names in the file. -/
def operatorsStr (o : Nat) : Str :=
  (['|'] : List Char).intercalate
    (([(1, "MOD1"), (2, "CAR1"), (4, "MOD2"), (8, "CAR2")].filter
      (fun p => o / p.1 % 2 = 1)).map (fun p => p.2.toList))

theorem operators_json (o : Nat) (ho : o < 16) : operatorsJson o = .str (operatorsStr o) := by
  have : ∀ o < 16, join ['|']
      ((if o &&& 1 ≠ 0 then ["MOD1".toList] else [])
        ++ (if o &&& 2 ≠ 0 then ["CAR1".toList] else [])
        ++ (if o &&& 4 ≠ 0 then ["MOD2".toList] else [])
        ++ (if o &&& 8 ≠ 0 then ["CAR2".toList] else [])) = operatorsStr o := by decide +kernel
  rw [operatorsJson, this o ho]

theorem readOperators_str (o : Nat) (ho : o < 16) (h0 : o ≠ 0) :
    readOperators (operatorsStr o) = some o := by
  have : ∀ o < 16, o ≠ 0 → readOperators (operatorsStr o) = some o := by decide +kernel
  exact this o ho h0

/-- The JSON of a channel with operators in slots `a`, `b`, `c`, `d`. -/
def channelJson (ch : ChannelConfig) (a b c d : OperatorConfig) : Json :=
  .obj (.ofList
    [ ("feedback".toList, .num ch.fb)
    , ("connection".toList, .num ch.connection)
    , ("ams".toList, .num ch.ams)
    , ("pms".toList, .num ch.pms)
    , ("noise".toList, .bool ch.noise)
    , ("noise_freq".toList, .num ch.noiseFreq)
    , ("m1".toList, a.json)
    , ("c1".toList, c.json)
    , ("m2".toList, b.json)
    , ("c2".toList, d.json) ])

theorem channel_json (ch : ChannelConfig) (a b c d : OperatorConfig)
    (h : ch.operators = [a, b, c, d]) : ch.json = .ok (channelJson ch a b c d) := by
  simp [ChannelConfig.json, ChannelConfig.operator, h, channelJson, bind, Except.bind]

theorem readChannel_json (ch : ChannelConfig) (a b c d : OperatorConfig)
    (h : ch.operators = [a, b, c, d]) : readChannel (channelJson ch a b c d) = some ch := by
  cases ch
  simp only at h
  subst h
  simp [readChannel, channelJson, numField, boolField, field, JsonFields.find,
    JsonFields.ofList, readOperator_json]

/-- The JSON of an instrument. -/
def instrumentJson (c : Config) (ch : Json) : Json :=
  .obj (.ofList
    [ ("id".toList, .num c.id)
    , ("base".toList, c.base.json)
    , ("operators".toList, .str (operatorsStr c.operators))
    , ("channel".toList, ch) ])

/-- An instrument as the program makes them: four operator slots, a non-empty operator set. -/
structure Config.Good (c : Config) : Prop where
  four : c.channel.operators.length = 4
  pos : c.operators ≠ 0
  lt : c.operators < 16

theorem four_of_length {α : Type} {l : List α} (h : l.length = 4) : ∃ a b c d, l = [a, b, c, d] := by
  match l, h with
  | [a, b, c, d], _ => exact ⟨a, b, c, d, rfl⟩

theorem config_json (c : Config) (hc : c.Good) : ∃ a b d e,
    c.channel.operators = [a, b, d, e] ∧
    c.json = .ok (instrumentJson c (channelJson c.channel a b d e)) ∧
    readInstrument (instrumentJson c (channelJson c.channel a b d e))
      = some (c.id, ⟨c.base, c.channel, c.operators⟩) := by
  obtain ⟨a, b, d, e, h4⟩ := four_of_length hc.four
  refine ⟨a, b, d, e, h4, ?_, ?_⟩
  · simp [Config.json, channel_json _ _ _ _ _ h4, operators_json _ hc.lt, instrumentJson, bind,
      Except.bind]
  · simp [readInstrument, instrumentJson, numField, strField, field, JsonFields.find,
      JsonFields.ofList, readBaseConfig_json, readOperators_str _ hc.lt hc.pos,
      readChannel_json _ _ _ _ _ h4]

theorem plain_operator (o : OperatorConfig) : o.json.Plain := by
  simp only [OperatorConfig.json, Json.Plain, JsonFields.ofList, JsonFields.Plain, and_true,
    true_and]
  decide +kernel

theorem plain_base (o : BaseConfig) : o.json.Plain := by
  have : PlainStr (waveformName o.waveform) := by cases o.waveform <;> decide +kernel
  simp only [BaseConfig.json, waveform_json, Json.Plain, JsonFields.ofList, JsonFields.Plain,
    and_true, true_and, this]
  decide +kernel

theorem plain_channel (ch : ChannelConfig) (a b c d : OperatorConfig) :
    (channelJson ch a b c d).Plain := by
  simp only [channelJson, Json.Plain, JsonFields.ofList, JsonFields.Plain, plain_operator,
    and_true, true_and]
  decide +kernel

theorem plain_instrument (c : Config) (hc : c.Good) (ch : Json) (hch : ch.Plain) :
    (instrumentJson c ch).Plain := by
  have : PlainStr (operatorsStr c.operators) := by
    have : ∀ o < 16, PlainStr (operatorsStr o) := by decide +kernel
    exact this _ hc.lt
  simp only [instrumentJson, Json.Plain, JsonFields.ofList, JsonFields.Plain, plain_base,
    and_true, true_and, this, hch]
  decide +kernel

/-- Everything about the encoding of a list of instruments. -/
theorem configs_json (cs : List Config) (hc : ∀ c ∈ cs, c.Good) : ∃ js : List Json,
    configsJson cs = .ok js ∧ (JsonList.ofList js).Plain ∧
    readInstrumentList (JsonList.ofList js)
      = some (cs.map (fun c => (c.id, ⟨c.base, c.channel, c.operators⟩))) ∧
    ∀ k c, cs[k]? = some c → ∃ a b d e, c.channel.operators = [a, b, d, e] ∧
      JsonList.nth k (JsonList.ofList js)
        = some (instrumentJson c (channelJson c.channel a b d e)) := by
  induction cs with
  | nil => exact ⟨[], rfl, by simp [JsonList.ofList, JsonList.Plain], rfl, by simp⟩
  | cons c cs ih =>
    obtain ⟨js, e1, e2, e3, e4⟩ := ih (fun c hx => hc c (List.mem_cons_of_mem _ hx))
    have hg := hc c List.mem_cons_self
    obtain ⟨a, b, d, e, h4, hj, hr⟩ := config_json c hg
    refine ⟨instrumentJson c (channelJson c.channel a b d e) :: js, ?_, ?_, ?_, ?_⟩
    · simp [configsJson, hj, e1, bind, Except.bind]
    · simp only [JsonList.ofList, JsonList.Plain]
      exact ⟨plain_instrument _ hg _ (plain_channel _ _ _ _ _), e2⟩
    · simp [JsonList.ofList, readInstrumentList, hr, e3]
    · intro k c' hk
      cases k with
      | zero =>
        simp only [List.getElem?_cons_zero, Option.some.injEq] at hk
        subst hk
        exact ⟨a, b, d, e, h4, rfl⟩
      | succ k =>
        rw [List.getElem?_cons_succ] at hk
        exact e4 k c' hk

/-- The text of any list of well-formed instruments reads back. -/
theorem instrumentsText_good (s : State) (hc : ∀ c ∈ s.configs, c.Good) :
    ∃ text js, instrumentsText s = .ok text ∧ Ascii text ∧ parseJson text = some (.arr (.ofList js)) ∧
      readInstrumentFile text = some (s.configs.map (fun c => (c.id, ⟨c.base, c.channel, c.operators⟩))) ∧
      ∀ k c, s.configs[k]? = some c → ∃ a b d e, c.channel.operators = [a, b, d, e] ∧
        item k (.arr (.ofList js)) = some (instrumentJson c (channelJson c.channel a b d e)) := by
  obtain ⟨js, e1, e2, e3, e4⟩ := configs_json s.configs hc
  have hp := parse_dump (.arr (.ofList js)) (by simpa only [Json.Plain] using e2)
  refine ⟨_, js, ?_, ?_, hp, ?_, e4⟩
  · simp [instrumentsText, instrumentsJs, e1]
  · exact (Json.ascii_dump 0 (.arr (.ofList js)) (by simpa only [Json.Plain] using e2)).append
      (ascii_one (by decide))
  · rw [readInstrumentFile, hp]; exact e3

theorem run_good (h : List Event) (hb : ByteHistory h) : ∀ c ∈ (run h).configs, c.Good := by
  intro c hc
  obtain ⟨i, hi⟩ := List.mem_iff_getElem?.mp hc
  rw [configs_run h hb, List.getElem?_mapIdx] at hi
  obtain ⟨p, hp, rfl⟩ := Option.map_eq_some_iff.mp hi
  have hp' : p ∈ instruments h := List.mem_iff_getElem?.mpr ⟨i, hp⟩
  rw [instruments, List.mem_eraseDups, patchesKeyedOn] at hp'
  obtain ⟨e, he, rfl⟩ := List.mem_map.mp hp'
  rw [List.mem_filter] at he
  obtain ⟨j, v, hj, rfl⟩ := (mem_keyEvents h e).mp he.1
  have := of_decide_eq_true he.2
  exact ⟨rfl, this, by show v / 8 % 16 < 16; omega⟩

/-- C49. The instrument file of every history is ASCII, and JSON that reads back as the list of
instruments: number and every setting, in order. -/
theorem c49_read_back (h : List Event) (hb : ByteHistory h) :
    ∃ text, instrumentsText (run h) = .ok text ∧ (∀ c ∈ text, c.toNat < 128) ∧
      readInstrumentFile text = some ((instruments h).mapIdx (fun i p => (i, p))) := by
  obtain ⟨text, js, e1, hasc, _, e3, _⟩ := instrumentsText_good (run h) (run_good h hb)
  refine ⟨text, e1, hasc, ?_⟩
  rw [e3, configs_run h hb]
  congr 1
  apply List.ext_getElem?
  intro i
  simp only [List.getElem?_map, List.getElem?_mapIdx, Option.map_map]
  rfl

/-- C49. Two histories give the same file exactly if they have the same instruments. -/
theorem c49_injective (h h' : List Event) (hb : ByteHistory h) (hb' : ByteHistory h') :
    instrumentsText (run h) = instrumentsText (run h') ↔ instruments h = instruments h' := by
  constructor
  · intro he
    obtain ⟨t, e1, _, e2⟩ := c49_read_back h hb
    obtain ⟨t', e1', _, e2'⟩ := c49_read_back h' hb'
    rw [e1, e1', Except.ok.injEq] at he
    subst he
    rw [e2, Option.some.injEq] at e2'
    have := congrArg (List.map Prod.snd) e2'
    have key : ∀ l : List Patch, (l.mapIdx (fun i p => (i, p))).map Prod.snd = l := by
      intro l
      apply List.ext_getElem?
      intro i
      simp only [List.getElem?_map, List.getElem?_mapIdx, Option.map_map]
      cases l[i]? <;> rfl
    rwa [key, key] at this
  · intro he
    have : (run h).configs = (run h').configs := by
      rw [configs_run h hb, configs_run h' hb', he]
    unfold instrumentsText instrumentsJs
    rw [this]

/-- The settings of operator slot `slot` of channel `ch` after `past`, as the fields of a
JSON object. -/
def SlotFields (past : List Event) (ch slot : Nat) (op : Json) : Prop :=
  numField "dt1" op = some (regVal past (0x40 + 8 * slot + ch) / 16 % 8) ∧
  numField "mul" op = some (regVal past (0x40 + 8 * slot + ch) % 16) ∧
  numField "tl" op = some (regVal past (0x60 + 8 * slot + ch) % 128) ∧
  numField "ks" op = some (regVal past (0x80 + 8 * slot + ch) / 64) ∧
  numField "ar" op = some (regVal past (0x80 + 8 * slot + ch) % 32) ∧
  boolField "ase" op = some (decide (128 ≤ regVal past (0xA0 + 8 * slot + ch))) ∧
  numField "d1r" op = some (regVal past (0xA0 + 8 * slot + ch) % 32) ∧
  numField "dt2" op = some (regVal past (0xC0 + 8 * slot + ch) / 64) ∧
  numField "d2r" op = some (regVal past (0xC0 + 8 * slot + ch) % 16) ∧
  numField "d1l" op = some (regVal past (0xE0 + 8 * slot + ch) / 16) ∧
  numField "rr" op = some (regVal past (0xE0 + 8 * slot + ch) % 16)

theorem slotFields_json (past : List Event) (ch slot : Nat) :
    SlotFields past ch slot (operatorWith (· % 16) past ch slot).json := by
  simp [SlotFields, OperatorConfig.json, operatorWith, numField, boolField, field,
    JsonFields.find, JsonFields.ofList]

theorem channelJson_slots (ch : ChannelConfig) (a b c d : OperatorConfig) :
    field "m1" (channelJson ch a b c d) = some a.json ∧
    field "m2" (channelJson ch a b c d) = some b.json ∧
    field "c1" (channelJson ch a b c d) = some c.json ∧
    field "c2" (channelJson ch a b c d) = some d.json := by
  simp [channelJson, field, JsonFields.find, JsonFields.ofList]

theorem instrumentJson_fields (c : Config) (ch : Json) :
    numField "id" (instrumentJson c ch) = some c.id ∧
    field "channel" (instrumentJson c ch) = some ch ∧
    strField "operators" (instrumentJson c ch) = some (operatorsStr c.operators) := by
  simp [instrumentJson, numField, strField, field, JsonFields.find, JsonFields.ofList]

/-- C50. Entry `k` of the instrument file describes the channel settings at some key-on of
the history: `m1`, `m2`, `c1`, `c2` are register slots 0, 1, 2, 3, and `operators` names the
operators whose key-on bits 3, 4, 5, 6 were set, in this order. -/
theorem c50_slots (h : List Event) (hb : ByteHistory h) (k : Nat)
    (hk : k < (instruments h).length) :
    ∃ text root inst chan, instrumentsText (run h) = .ok text ∧ parseJson text = some root ∧
      item k root = some inst ∧ numField "id" inst = some k ∧
      field "channel" inst = some chan ∧
      ∃ i v, h[i]? = some (.write 8 v) ∧ v / 8 % 16 ≠ 0 ∧
        (∀ p ∈ [("m1", 0), ("m2", 1), ("c1", 2), ("c2", 3)], ∃ op,
          field p.1 chan = some op ∧ SlotFields (h.take i) (v % 8) p.2 op) ∧
        strField "operators" inst = some ((['|'] : List Char).intercalate
          (([(3, "MOD1"), (4, "CAR1"), (5, "MOD2"), (6, "CAR2")].filter
            (fun p => v / 2 ^ p.1 % 2 = 1)).map (fun p => p.2.toList))) := by
  obtain ⟨text, js, e1, _, e2, _, e4⟩ := instrumentsText_good (run h) (run_good h hb)
  obtain ⟨p, hp⟩ : ∃ p, (instruments h)[k]? = some p := ⟨_, List.getElem?_eq_getElem hk⟩
  have hc : (run h).configs[k]? = some ⟨k, p.base, p.operators, p.channel⟩ := by
    rw [configs_run h hb, List.getElem?_mapIdx, hp]; rfl
  obtain ⟨a, b, d, e, h4, hi⟩ := e4 k _ hc
  have hp' : p ∈ instruments h := List.mem_iff_getElem?.mpr ⟨k, hp⟩
  rw [instruments, List.mem_eraseDups, patchesKeyedOn] at hp'
  obtain ⟨ev, he, rfl⟩ := List.mem_map.mp hp'
  rw [List.mem_filter] at he
  obtain ⟨j, v, hj, rfl⟩ := (mem_keyEvents h ev).mp he.1
  have hon : v / 8 % 16 ≠ 0 := of_decide_eq_true he.2
  have h4' : [a, b, d, e] = (Spec.channel (h.take j) (v % 8)).operators := h4.symm
  simp only [Spec.channel, channelWith, List.cons.injEq, and_true] at h4'
  obtain ⟨rfl, rfl, rfl, rfl⟩ := h4'
  refine ⟨text, _, _, channelJson (Spec.channel (h.take j) (v % 8))
    (operatorWith (· % 16) (h.take j) (v % 8) 0) (operatorWith (· % 16) (h.take j) (v % 8) 1)
    (operatorWith (· % 16) (h.take j) (v % 8) 2) (operatorWith (· % 16) (h.take j) (v % 8) 3),
    e1, e2, hi, ?_, ?_, j, v, hj, hon, ?_, ?_⟩
  · exact (instrumentJson_fields _ _).1
  · exact (instrumentJson_fields _ _).2.1
  · intro p hp
    have hf := channelJson_slots (Spec.channel (h.take j) (v % 8))
      (operatorWith (· % 16) (h.take j) (v % 8) 0) (operatorWith (· % 16) (h.take j) (v % 8) 1)
      (operatorWith (· % 16) (h.take j) (v % 8) 2) (operatorWith (· % 16) (h.take j) (v % 8) 3)
    simp only [List.mem_cons, List.not_mem_nil, or_false] at hp
    rcases hp with rfl | rfl | rfl | rfl
    · exact ⟨_, hf.1, slotFields_json _ _ _⟩
    · exact ⟨_, hf.2.1, slotFields_json _ _ _⟩
    · exact ⟨_, hf.2.2.1, slotFields_json _ _ _⟩
    · exact ⟨_, hf.2.2.2, slotFields_json _ _ _⟩
  · have hs : ∀ w < 256, operatorsStr (w / 8 % 16) = (['|'] : List Char).intercalate
          (([(3, "MOD1"), (4, "CAR1"), (5, "MOD2"), (6, "CAR2")].filter
            (fun p => w / 2 ^ p.1 % 2 = 1)).map (fun p => p.2.toList)) := by decide +kernel
    have hv : v < 256 := by
      have := hb (.write 8 v) (List.mem_iff_getElem?.mpr ⟨j, hj⟩)
      exact this.2
    rw [← hs v hv]
    exact (instrumentJson_fields _ _).2.2

/-- A concrete file: two instruments that differ only in their operator sets. -/
example : (instruments [.write 0x68 5, .write 8 0x48, .wait 3, .write 8 0x28]).length = 2 ∧
    (match instrumentsText (run [.write 0x68 5, .write 8 0x48]) with
      | .ok t => t.take 60 | .error _ => []) =
    "[\n\t{\n\t\t\"id\": 0,\n\t\t\"base\": {\n\t\t\t\"waveform\": \"SAW\",\n\t\t\t\"lfo\": ".toList := by
  decide +kernel

end VgmX
