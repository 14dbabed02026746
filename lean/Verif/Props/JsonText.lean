import Verif.Lemmas.JsonText
import Verif.Props.Encoder
/-
C113: the text `json.dumps(.., cls=ConfigEncoder)` returns for any value of the caller's.
-/

namespace VgmX
open Spec

/-- C113. A text that is returned is JSON (RFC 8259) of exactly the value, with every object
replaced by what its `repr_json` returns: whatever characters its strings and keys have, with or
without an indentation of white space. -/
theorem c113_reads (things : Things) (limit : Nat) (indent : Option Str) (hi : GoodIndent indent)
    (v : PyVal) (s : Str) (h : dumpsText things limit indent v = .ok s) :
    ∃ t, readJson s = some t ∧ StandsFor things v t := by
  unfold dumpsText at h
  cases hd : dumps things limit v with
  | error e => rw [hd] at h; cases h
  | ok t =>
    rw [hd] at h
    cases h
    exact ⟨t, readJson_text hi t, c104_says things limit v t hd⟩

/-- C113. So two values with the same text, even with different indentations, stand for the same
tree. -/
theorem c113_same (things things' : Things) (limit limit' : Nat) (indent indent' : Option Str)
    (hi : GoodIndent indent) (hi' : GoodIndent indent') (v v' : PyVal) (s : Str)
    (h : dumpsText things limit indent v = .ok s) (h' : dumpsText things' limit' indent' v' = .ok s)
    (t t' : Tree) (ht : StandsFor things v t) (ht' : StandsFor things' v' t') : t = t' := by
  obtain ⟨u, hu, hs⟩ := c113_reads things limit indent hi v s h
  obtain ⟨u', hu', hs'⟩ := c113_reads things' limit' indent' hi' v' s h'
  rw [hu] at hu'
  cases hu'
  rw [c104_unique things v t u ht hs, c104_unique things' v' t' u ht' hs']

/-- C113. Without an indentation the text is one line of printing ASCII characters; with one, there
are the line breaks and the indentations besides. -/
theorem c113_ascii (things : Things) (limit : Nat) (indent : Option Str) (v : PyVal) (s : Str)
    (h : dumpsText things limit indent v = .ok s) :
    ∀ c ∈ s, Printing c ∨ ∃ i, indent = some i ∧ (c = '\n' ∨ c ∈ i) := by
  unfold dumpsText at h
  cases hd : dumps things limit v with
  | error e => rw [hd] at h; cases h
  | ok t =>
    rw [hd] at h
    cases h
    exact allowed_text indent 0 t

/-! ### The instruments -/

theorem jsonEscape_plain {c : Char} (h : ¬ (c = '"' ∨ c = '\\' ∨ c.toNat < 0x20) ∧ c.toNat < 0x7F) :
    jsonEscape c = [c] := by
  obtain ⟨h1, h2⟩ := h
  have a1 : ¬ c = '"' := fun e => h1 (.inl e)
  have a2 : ¬ c = '\\' := fun e => h1 (.inr (.inl e))
  have a3 : ¬ c.toNat < 0x20 := fun e => h1 (.inr (.inr e))
  have ne : ∀ d : Char, d.toNat < 0x20 → ¬ c = d := by rintro d hd rfl; exact a3 hd
  unfold jsonEscape
  rw [if_neg a2, if_neg a1, if_neg (ne _ (by decide)), if_neg (ne _ (by decide)),
    if_neg (ne _ (by decide)), if_neg (ne _ (by decide)), if_neg (ne _ (by decide)), if_pos]
  constructor
  · show (' ' : Char).toNat ≤ c.toNat
    have : (' ' : Char).toNat = 32 := rfl
    omega
  · show c.toNat ≤ ('~' : Char).toNat
    have : ('~' : Char).toNat = 126 := rfl
    omega

theorem jsonString_plain {s : Str} (h : PlainStr s) : jsonString s = jsonQuote s := by
  have : s.flatMap jsonEscape = s := by
    induction s with
    | nil => rfl
    | cons c s ih =>
      rw [List.flatMap_cons, jsonEscape_plain (h c (by simp)), ih (fun d hd => h d (by simp [hd]))]
      rfl
  rw [jsonString, this, jsonQuote]

theorem textNewline_tab (level : Nat) : textNewline (some ['\t']) level = jsonNewline level := by
  have : ∀ n, (List.replicate n ['\t']).flatten = List.replicate n '\t' := by
    intro n
    induction n with
    | zero => rfl
    | succ n ih => rw [List.replicate_succ, List.flatten_cons, ih, List.replicate_succ]; rfl
  rw [textNewline, jsonNewline, this]

mutual
theorem text_dump : ∀ (level : Nat) (j : Json), j.Plain →
    (jsonTree j).text (some ['\t']) level = j.dump level
  | _, .num n, _ => by rw [jsonTree, Tree.text, Json.dump]; rfl
  | _, .bool true, _ => by rw [jsonTree, Tree.text, Json.dump]
  | _, .bool false, _ => by rw [jsonTree, Tree.text, Json.dump]
  | _, .str s, h => by
    rw [Json.Plain] at h
    rw [jsonTree, Tree.text, Json.dump, jsonString_plain h]
  | _, .arr .nil, _ => by rw [jsonTree, jsonTrees, Tree.text, Json.dump]
  | level, .arr (.cons a l), h => by
    rw [Json.Plain, JsonList.Plain] at h
    rw [jsonTree, jsonTrees, Tree.text, Json.dump, text_dump _ a h.1, texts_dump _ l h.2,
      textNewline_tab, textNewline_tab]
  | _, .obj .nil, _ => by rw [jsonTree, jsonItems, Tree.text, Json.dump]
  | level, .obj (.cons k v l), h => by
    rw [Json.Plain, JsonFields.Plain] at h
    rw [jsonTree, jsonItems, Tree.text, Json.dump, text_dump _ v h.2.1, itemsText_dump _ l h.2.2,
      textNewline_tab, textNewline_tab, jsonString_plain h.1]
theorem texts_dump : ∀ (level : Nat) (l : JsonList), l.Plain →
    treesText (some ['\t']) level (jsonTrees l) = l.dump level
  | _, .nil, _ => by rw [jsonTrees, treesText, JsonList.dump]
  | level, .cons a l, h => by
    rw [JsonList.Plain] at h
    rw [jsonTrees, treesText, JsonList.dump, text_dump _ a h.1, texts_dump _ l h.2, textComma,
      textNewline_tab]
theorem itemsText_dump : ∀ (level : Nat) (l : JsonFields), l.Plain →
    itemsText (some ['\t']) level (jsonItems l) = l.dump level
  | _, .nil, _ => by rw [jsonItems, itemsText, JsonFields.dump]
  | level, .cons k v l, h => by
    rw [JsonFields.Plain] at h
    rw [jsonItems, itemsText, JsonFields.dump, text_dump _ v h.2.1, itemsText_dump _ l h.2.2,
      textComma, textNewline_tab, jsonString_plain h.1]
end

theorem plain_operators (o : Nat) : (operatorsJson o).Plain := by
  unfold operatorsJson
  rw [Json.Plain]
  split <;> split <;> split <;> split <;> decide +kernel

theorem plain_channel_ok {c : ChannelConfig} {j : Json} (h : c.json = .ok j) : j.Plain := by
  unfold ChannelConfig.json at h
  cases h0 : c.operator 0 with
  | error e => rw [h0] at h; cases h
  | ok o0 =>
    cases h2 : c.operator 2 with
    | error e => rw [h0, h2] at h; cases h
    | ok o2 =>
      cases h1 : c.operator 1 with
      | error e => rw [h0, h2, h1] at h; cases h
      | ok o1 =>
        cases h3 : c.operator 3 with
        | error e => rw [h0, h2, h1, h3] at h; cases h
        | ok o3 =>
          rw [h0, h2, h1, h3] at h
          cases h
          exact plain_channel c o0 o1 o2 o3

theorem plain_config_ok {c : Config} {j : Json} (h : c.json = .ok j) : j.Plain := by
  unfold Config.json at h
  cases hc : c.channel.json with
  | error e => rw [hc] at h; cases h
  | ok ch =>
    rw [hc] at h
    cases h
    simp only [Json.Plain, JsonFields.ofList, JsonFields.Plain, plain_base, plain_operators,
      plain_channel_ok hc, and_true, true_and]
    decide +kernel

theorem plain_configs_ok : ∀ {cs : List Config} {js : List Json}, configsJson cs = .ok js →
    (JsonList.ofList js).Plain
  | [], _, h => by cases h; simp [JsonList.ofList, JsonList.Plain]
  | c :: cs, js, h => by
    unfold configsJson at h
    cases hc : c.json with
    | error e => rw [hc] at h; cases h
    | ok j =>
      cases hcs : configsJson cs with
      | error e => rw [hc, hcs] at h; cases h
      | ok js' =>
        rw [hc, hcs] at h
        cases h
        rw [JsonList.ofList, JsonList.Plain]
        exact ⟨plain_config_ok hc, plain_configs_ok hcs⟩

/-- C113. And on the list of instruments, with a tab as the indentation (src/extractors.py:118), it
returns the text of the instrument file, however the objects are laid out and shared. -/
theorem c113_instruments (things : Things) (v : PyVal) (s : State)
    (h : HoldsConfigs things v s.configs) :
    ∃ text, instrumentsJs s = .ok text ∧
      ∃ n, ∀ limit, n ≤ limit → dumpsText things limit (some ['\t']) v = .ok text := by
  obtain ⟨js, hj, ht, n, hn⟩ := c104_instruments things v s h
  refine ⟨_, ht, n, fun limit hl => ?_⟩
  unfold dumpsText
  rw [hn limit hl]
  dsimp only
  rw [text_dump]
  rw [Json.Plain]
  exact plain_configs_ok hj

/-! ### Examples -/

/-- `{"naïve\n😀": [null, -10, "\"\\"]}`. -/
def textThings : Things
  | 0 => .dict [("naïve\n😀".toList, .ref 1), ("".toList, .ref 2)]
  | 1 => .list [.none, .int (-10), .str "\"\\".toList]
  | 2 => .list []
  | _ => .plain

example : dumpsText textThings 3 none (.ref 0) =
    .ok "{\"na\\u00efve\\n\\ud83d\\ude00\": [null, -10, \"\\\"\\\\\"], \"\": []}".toList := by
  decide +kernel

example : dumpsText textThings 3 (some ['\t']) (.ref 0) =
    .ok "{\n\t\"na\\u00efve\\n\\ud83d\\ude00\": [\n\t\tnull,\n\t\t-10,\n\t\t\"\\\"\\\\\"\n\t],\n\t\"\": []\n}".toList := by
  decide +kernel

example : GoodIndent none := by intro i h; cases h
example : GoodIndent (some ['\t']) := by intro i h; cases h; decide

/-- The reader is not lenient. -/
example : readJson "[1,]".toList = none ∧ readJson "[01]".toList = none ∧
    readJson "\"\t\"".toList = none ∧ readJson "\"\\ud83d\"".toList = none ∧
    readJson "1 2".toList = none ∧ readJson "[1.5]".toList = none ∧ readJson "{1: 2}".toList = none ∧
    readJson "".toList = none := by
  refine ⟨?_, ?_, ?_, ?_, ?_, ?_, ?_, ?_⟩ <;> rfl

end VgmX
