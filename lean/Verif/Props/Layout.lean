import Verif.Spec.Layout
import Verif.Props.Json
import Verif.Props.Report
/-
C106: the layout of the instrument file.
-/

namespace VgmX

open Spec

theorem natStr_toDigits (n : Nat) : natStr n = Nat.toDigits 10 n := by
  have key : ∀ fuel n, n < fuel → (digits 10 fuel n).map digitChar = Nat.toDigits 10 n := by
    intro fuel
    induction fuel with
    | zero => intro n h; omega
    | succ f ih =>
      intro n h
      have hd : ∀ m < 10, digitChar m = m.digitChar := by decide
      simp only [digits]
      split
      · rename_i hlt
        rw [Nat.toDigits_of_lt_base hlt]
        simp [hd n hlt]
      · rename_i hge
        rw [Nat.toDigits_of_base_le (by omega) (by omega), List.map_append, ih _ (by omega)]
        simp [hd (n % 10) (by omega)]
  exact key _ _ (by omega)

/-- A line with its end. -/
def withEnd (s : List Char) : List Char := s ++ ['\n']

theorem dump_flag (b : Bool) (d : Nat) : (Json.bool b).dump d = (Setting.flag b).text := by
  cases b <;> simp [Setting.text, Json.dump]

theorem dump_num (n d : Nat) : (Json.num n).dump d = (Setting.num n).text := by
  rw [Json.dump, natStr_toDigits, Setting.text]

theorem dump_wave (w : Waveform) (d : Nat) : w.json.dump d = (Setting.wave w).text := by
  have hn : waveformName w = waveName w := by cases w <;> rfl
  rw [waveform_json, Json.dump, Setting.text, jsonQuote, hn]

theorem dump_ops (o d : Nat) : (Json.str (operatorsStr o)).dump d = (Setting.ops o).text := by
  rw [Json.dump, Setting.text, jsonQuote, operatorsStr, opNames]

theorem dump_obj (level : Nat) (k : Str) (v : Json) (l : JsonFields) :
    (Json.obj (.cons k v l)).dump level = '{' :: jsonNewline (level + 1) ++ jsonQuote k ++
      ": ".toList ++ v.dump (level + 1) ++ l.dump (level + 1) ++ jsonNewline level ++ ['}'] := by
  rw [Json.dump]

theorem dump_cons (level : Nat) (k : Str) (v : Json) (l : JsonFields) :
    (JsonFields.cons k v l).dump level = ',' :: jsonNewline level ++ jsonQuote k ++
      ": ".toList ++ v.dump level ++ l.dump level := by
  rw [JsonFields.dump]

theorem dump_nil (level : Nat) : JsonFields.nil.dump level = [] := by
  rw [JsonFields.dump]

theorem opening_text (d k : Nat) (name : String) (p : Patch) :
    (Row.opening d name).text k p =
      List.replicate d '\t' ++ jsonQuote name.toList ++ ": ".toList ++ ['{'] := by
  simp [Row.text, jsonQuote]

theorem setting_text (d k : Nat) (name : String) (v : Nat → Patch → Setting) (more : Bool)
    (p : Patch) : (Row.setting d name v more).text k p =
      List.replicate d '\t' ++ jsonQuote name.toList ++ ": ".toList ++ (v k p).text ++
        comma more := by
  simp [Row.text, jsonQuote]

theorem closing_text (d k : Nat) (more : Bool) (p : Patch) :
    (Row.closing d more).text k p = List.replicate d '\t' ++ ['}'] ++ comma more := by
  simp [Row.text]

theorem comma_true : comma true = [','] := rfl
theorem comma_false : comma false = [] := rfl

theorem slotRows_text (name : String) (s k : Nat) (p : Patch) (more : Bool) :
    (slotRows name s more).flatMap (fun r => withEnd (r.text k p)) =
      List.replicate 3 '\t' ++ jsonQuote name.toList ++ ": ".toList ++ (slot p s).json.dump 3 ++
        comma more ++ ['\n'] := by
  simp -decide only [slotRows, List.flatMap_cons, List.flatMap_nil, withEnd, opening_text,
    setting_text, closing_text,
    OperatorConfig.json, JsonFields.ofList, dump_obj, dump_cons, dump_nil,
    jsonNewline, dump_num, dump_flag, List.append_assoc, List.cons_append, List.nil_append,
    List.append_nil, comma_true, comma_false]

theorem base_text (k : Nat) (p : Patch) :
    [Row.opening 2 "base",
      .setting 3 "waveform" (fun _ p => .wave p.base.waveform) true,
      .setting 3 "lfo" (fun _ p => .num p.base.lfo) true,
      .setting 3 "amp_md" (fun _ p => .num p.base.ampMd) true,
      .setting 3 "phs_md" (fun _ p => .num p.base.phsMd) false,
      .closing 2 true].flatMap (fun r => withEnd (r.text k p)) =
      List.replicate 2 '\t' ++ jsonQuote "base".toList ++ ": ".toList ++ p.base.json.dump 2 ++
        [','] ++ ['\n'] := by
  simp -decide only [List.flatMap_cons, List.flatMap_nil, withEnd, opening_text,
    setting_text, closing_text,
    BaseConfig.json, JsonFields.ofList, dump_obj, dump_cons, dump_nil,
    jsonNewline, dump_num, dump_wave, List.append_assoc, List.cons_append, List.nil_append,
    List.append_nil, comma_true, comma_false]

theorem instrumentRows_text (k : Nat) (p : Patch) (more : Bool) (a b c d : OperatorConfig)
    (h4 : p.channel.operators = [a, b, c, d]) :
    (instrumentRows more).flatMap (fun r => withEnd (r.text k p)) =
      '\t' :: (instrumentJson ⟨k, p.base, p.operators, p.channel⟩
          (channelJson p.channel a b c d)).dump 1 ++ comma more ++ ['\n'] := by
  have e0 : slot p 0 = a := by simp [slot, h4]
  have e1 : slot p 1 = b := by simp [slot, h4]
  have e2 : slot p 2 = c := by simp [slot, h4]
  have e3 : slot p 3 = d := by simp [slot, h4]
  have split : instrumentRows more = [.start, .setting 2 "id" (fun k _ => .num k) true]
    ++ [.opening 2 "base",
      .setting 3 "waveform" (fun _ p => .wave p.base.waveform) true,
      .setting 3 "lfo" (fun _ p => .num p.base.lfo) true,
      .setting 3 "amp_md" (fun _ p => .num p.base.ampMd) true,
      .setting 3 "phs_md" (fun _ p => .num p.base.phsMd) false,
      .closing 2 true]
    ++ [.setting 2 "operators" (fun _ p => .ops p.operators) true,
    .opening 2 "channel",
    .setting 3 "feedback" (fun _ p => .num p.channel.fb) true,
    .setting 3 "connection" (fun _ p => .num p.channel.connection) true,
    .setting 3 "ams" (fun _ p => .num p.channel.ams) true,
    .setting 3 "pms" (fun _ p => .num p.channel.pms) true,
    .setting 3 "noise" (fun _ p => .flag p.channel.noise) true,
    .setting 3 "noise_freq" (fun _ p => .num p.channel.noiseFreq) true ]
    ++ slotRows "m1" 0 true ++ slotRows "c1" 2 true ++ slotRows "m2" 1 true
    ++ slotRows "c2" 3 false
    ++ [ .closing 2 false, .closing 1 more ] := rfl
  have hs : (Row.start).text k p = List.replicate 1 '\t' ++ ['{'] := rfl
  have ht : '\t' :: (instrumentJson ⟨k, p.base, p.operators, p.channel⟩
          (channelJson p.channel a b c d)).dump 1 ++ comma more ++ ['\n'] =
      List.replicate 1 '\t' ++ (instrumentJson ⟨k, p.base, p.operators, p.channel⟩
          (channelJson p.channel a b c d)).dump 1 ++ comma more ++ ['\n'] := rfl
  rw [split, ht]
  clear split ht
  simp -decide only [List.flatMap_append, slotRows_text, base_text, e0, e1, e2, e3]
  generalize ha : a.json = ja
  generalize hb : b.json = jb
  generalize hc : c.json = jc
  generalize hd : d.json = jd
  simp -decide only [List.flatMap_cons, List.flatMap_nil, withEnd, hs, opening_text,
    setting_text, closing_text, instrumentJson, channelJson, ha, hb, hc, hd,
    JsonFields.ofList, dump_obj, dump_cons, dump_nil,
    jsonNewline, dump_num, dump_flag, dump_ops, List.append_assoc, List.cons_append,
    List.nil_append, List.append_nil, comma_true, comma_false]

/-- The instrument object of number `k` with settings `p`. -/
def numbered (k : Nat) (p : Patch) : Config := ⟨k, p.base, p.operators, p.channel⟩

/-- Four operators, one of the sixteen operator sets. -/
def WholePatch (p : Patch) : Prop :=
  p.channel.operators.length = 4 ∧ p.operators ≠ 0 ∧ p.operators < 16

theorem whole_good {p : Patch} (h : WholePatch p) (k : Nat) : (numbered k p).Good :=
  ⟨h.1, h.2.1, h.2.2⟩

theorem whole_instruments (h : List Event) (hb : ByteHistory h) :
    ∀ p ∈ instruments h, WholePatch p := by
  intro p hp
  obtain ⟨k, hk⟩ := List.mem_iff_getElem?.mp hp
  have hc : (run h).configs[k]? = some ⟨k, p.base, p.operators, p.channel⟩ := by
    rw [configs_run h hb, List.getElem?_mapIdx, hk]; rfl
  have hg := run_good h hb _ (List.mem_iff_getElem?.mpr ⟨k, hc⟩)
  exact ⟨hg.four, hg.pos, hg.lt⟩

theorem configsJson_lines (ps : List Patch) (hw : ∀ p ∈ ps, WholePatch p) (k : Nat) :
    ∃ js, configsJson (ps.mapIdx (fun i p => numbered (i + k) p)) = .ok js ∧
      (js.isEmpty = ps.isEmpty) ∧
      (∀ j js', js = j :: js' →
        '\t' :: j.dump 1 ++ (JsonList.ofList js').dump 1 ++ ['\n'] =
          (instrumentLines k ps).flatMap withEnd) := by
  induction ps generalizing k with
  | nil => exact ⟨[], rfl, rfl, by simp⟩
  | cons p ps ih =>
    obtain ⟨js, e1, e2, e3⟩ := ih (fun q hq => hw q (List.mem_cons_of_mem _ hq)) (k + 1)
    have hp := hw p List.mem_cons_self
    obtain ⟨a, b, d, e, h4, hj, -⟩ := config_json (numbered k p) (whole_good hp k)
    have hrows : ∀ more, (instrumentRows more).flatMap (fun r => withEnd (r.text k p)) = _ :=
      fun more => instrumentRows_text k p more a b d e h4
    have hq : instrumentJson ⟨k, p.base, p.operators, p.channel⟩ (channelJson p.channel a b d e) =
        instrumentJson (numbered k p) (channelJson (numbered k p).channel a b d e) := rfl
    rw [hq] at hrows
    generalize instrumentJson (numbered k p) (channelJson (numbered k p).channel a b d e) = J
      at hrows hj
    refine ⟨J :: js, ?_, rfl, ?_⟩
    · rw [List.mapIdx_cons]
      have : (fun i p => numbered (i + 1 + k) p) = (fun i p => numbered (i + (k + 1)) p) := by
        funext i p
        rw [Nat.add_assoc, Nat.add_comm 1 k]
      rw [this]
      simp only [configsJson, Nat.zero_add, hj, e1, bind, Except.bind]
    · intro j js' hjs
      obtain ⟨rfl, rfl⟩ := List.cons.inj hjs
      rw [instrumentLines, List.flatMap_append, List.flatMap_map, hrows]
      cases js with
      | nil =>
        have hn : ps = [] := by simpa using e2.symm
        subst hn
        simp [JsonList.ofList, JsonList.dump, comma, instrumentLines]
      | cons j1 js2 =>
        rw [← e3 j1 js2 rfl]
        have hn : ps.isEmpty = false := by rw [← e2]; rfl
        rw [hn]
        simp [JsonList.ofList, JsonList.dump, comma, jsonNewline]

theorem instrumentsText_lines (h : List Event) (hb : ByteHistory h) :
    instrumentsText (run h) = .ok ((fileLines (instruments h)).flatMap withEnd) := by
  have hcfg : (run h).configs = (instruments h).mapIdx (fun i p => numbered (i + 0) p) :=
    configs_run h hb
  obtain ⟨js, e1, e2, e3⟩ := configsJson_lines (instruments h) (whole_instruments h hb) 0
  simp only [instrumentsText, instrumentsJs, hcfg, e1]
  rw [fileLines, ← e2]
  cases js with
  | nil => rfl
  | cons j js' =>
    have := e3 j js' rfl
    simp only [List.isEmpty_cons, Bool.false_eq_true, if_false]
    rw [List.flatMap_append, List.flatMap_cons, ← this]
    simp [JsonList.ofList, Json.dump, jsonNewline, withEnd]

/-- The name in a line has no line end. -/
def Row.flat : Row → Bool
  | .opening _ name => !name.toList.contains '\n'
  | .setting _ name _ _ => !name.toList.contains '\n'
  | _ => true

theorem rows_flat (more : Bool) : (instrumentRows more).all Row.flat = true := by
  cases more <;> decide +kernel

theorem rows_length (more : Bool) : (instrumentRows more).length = 70 := by
  cases more <;> rfl

theorem newline_num (n : Nat) : '\n' ∉ Nat.toDigits 10 n := by
  intro h
  have := Nat.isDigit_of_mem_toDigits (by omega) (by omega) h
  revert this
  decide

theorem newline_setting (v : Setting) (hv : ∀ o, v = .ops o → o < 16) : '\n' ∉ v.text := by
  cases v with
  | num n => exact newline_num n
  | flag b => cases b <;> decide
  | wave w => cases w <;> decide
  | ops o =>
    have : ∀ o < 16, '\n' ∉ (Setting.ops o).text := by decide +kernel
    exact this o (hv o rfl)

/-- The operator set that a line shows is one of the sixteen. -/
theorem rows_ops (more : Bool) (k : Nat) (p : Patch) (hp : WholePatch p) :
    ∀ r ∈ instrumentRows more, ∀ d name v m o, r = Row.setting d name v m → v k p = .ops o →
      o < 16 := by
  intro r hr d name v m o e hv
  subst e
  have : ∀ o, v k p = .ops o → o = p.operators := by
    clear hv
    simp only [instrumentRows, slotRows, List.mem_append, List.mem_cons, List.not_mem_nil,
      or_false, Row.setting.injEq, reduceCtorEq, false_or, or_assoc] at hr
    intro o ho
    rcases hr with h | h | h | h | h | h | h | h | h | h | h | h | hr
    all_goals first
      | (obtain ⟨-, -, rfl, -⟩ := h; simp_all)
      | skip
    rcases hr with h | h | h | h | h | h | h | h | h | h | h | hr
    all_goals first
      | (obtain ⟨-, -, rfl, -⟩ := h; simp_all)
      | skip
    rcases hr with h | h | h | h | h | h | h | h | h | h | h | hr
    all_goals first
      | (obtain ⟨-, -, rfl, -⟩ := h; simp_all)
      | skip
    rcases hr with h | h | h | h | h | h | h | h | h | h | h | hr
    all_goals first
      | (obtain ⟨-, -, rfl, -⟩ := h; simp_all)
      | skip
    rcases hr with h | h | h | h | h | h | h | h | h | h | h
    all_goals first
      | (obtain ⟨-, -, rfl, -⟩ := h; simp_all)
      | skip
  rw [this o hv]
  exact hp.2.2

theorem newline_row (more : Bool) (k : Nat) (p : Patch) (hp : WholePatch p) :
    ∀ r ∈ instrumentRows more, '\n' ∉ r.text k p := by
  intro r hr
  have hf := List.all_eq_true.mp (rows_flat more) r hr
  have ho := rows_ops more k p hp r hr
  have hrep : ∀ d, '\n' ∉ List.replicate d '\t' := by
    intro d h
    exact absurd (List.eq_of_mem_replicate h) (by decide)
  have hcom : ∀ b, '\n' ∉ comma b := by intro b; cases b <;> decide
  cases r with
  | start => show '\n' ∉ ['\t', '{']; decide
  | opening d name =>
    simp only [Row.flat, Bool.not_eq_true', List.contains_eq_mem, decide_eq_false_iff_not] at hf
    simp only [Row.text, List.mem_append, List.mem_cons, not_or]
    exact ⟨⟨hrep d, by decide, hf⟩, by decide⟩
  | setting d name v m =>
    simp only [Row.flat, Bool.not_eq_true', List.contains_eq_mem, decide_eq_false_iff_not] at hf
    simp only [Row.text, List.mem_append, List.mem_cons, not_or]
    exact ⟨⟨⟨⟨hrep d, by decide, hf⟩, by decide⟩,
      newline_setting _ (fun o e => ho d name v m o rfl e)⟩, hcom m⟩
  | closing d m =>
    simp only [Row.text, List.mem_append, List.mem_cons, not_or]
    exact ⟨hrep d, by decide, hcom m⟩

theorem newline_lines (ps : List Patch) (hw : ∀ p ∈ ps, WholePatch p) (k : Nat) :
    ∀ l ∈ instrumentLines k ps, '\n' ∉ l := by
  induction ps generalizing k with
  | nil => simp [instrumentLines]
  | cons p ps ih =>
    intro l hl
    rw [instrumentLines, List.mem_append, List.mem_map] at hl
    rcases hl with ⟨r, hr, rfl⟩ | hl
    · exact newline_row _ k p (hw p List.mem_cons_self) r hr
    · exact ih (fun q hq => hw q (List.mem_cons_of_mem _ hq)) (k + 1) l hl

theorem newline_file (ps : List Patch) (hw : ∀ p ∈ ps, WholePatch p) :
    ∀ l ∈ fileLines ps, '\n' ∉ l := by
  intro l hl
  rw [fileLines] at hl
  split at hl
  · rw [List.mem_singleton] at hl
    subst hl
    decide
  · rw [List.mem_append, List.mem_cons, List.mem_singleton] at hl
    rcases hl with (rfl | hl) | rfl
    · decide
    · exact newline_lines ps hw 0 l hl
    · decide

theorem instrumentLines_length (ps : List Patch) (k : Nat) :
    (instrumentLines k ps).length = 70 * ps.length := by
  induction ps generalizing k with
  | nil => rfl
  | cons p ps ih =>
    rw [instrumentLines, List.length_append, List.length_map, rows_length, ih, List.length_cons]
    omega

theorem fileLines_length (ps : List Patch) (h : ps ≠ []) :
    (fileLines ps).length = 70 * ps.length + 2 := by
  rw [fileLines, if_neg (by simpa using h)]
  simp [instrumentLines_length]

theorem instrumentLines_get (ps : List Patch) (m k j : Nat) (p : Patch) (hp : ps[k]? = some p)
    (hj : j < 70) : (instrumentLines m ps)[70 * k + j]? =
      ((instrumentRows (decide (k + 1 < ps.length)))[j]?).map (fun r => r.text (m + k) p) := by
  induction ps generalizing m k with
  | nil => simp at hp
  | cons q ps ih =>
    rw [instrumentLines]
    cases k with
    | zero =>
      rw [List.getElem?_cons_zero, Option.some.injEq] at hp
      subst hp
      rw [List.getElem?_append_left (by rw [List.length_map, rows_length]; omega),
        List.getElem?_map]
      have : (!ps.isEmpty) = decide (0 + 1 < (q :: ps).length) := by
        cases ps <;> simp
      rw [this]
      simp
    | succ k =>
      rw [List.getElem?_cons_succ] at hp
      rw [List.getElem?_append_right (by rw [List.length_map, rows_length]; omega),
        List.length_map, rows_length]
      have e : 70 * (k + 1) + j - 70 = 70 * k + j := by omega
      rw [e, ih (m + 1) k hp]
      have e1 : decide (k + 1 < ps.length) = decide (k + 1 + 1 < (q :: ps).length) := by
        simp
      rw [e1, Nat.add_assoc m 1 k, Nat.add_comm 1 k]

theorem fileLines_get (ps : List Patch) (k j : Nat) (p : Patch) (hp : ps[k]? = some p)
    (hj : j < 70) : (fileLines ps)[1 + 70 * k + j]? =
      ((instrumentRows (decide (k + 1 < ps.length)))[j]?).map (fun r => r.text k p) := by
  have hk : k < ps.length := (List.getElem?_eq_some_iff.mp hp).1
  have hne : ps ≠ [] := by rintro rfl; simp at hp
  rw [fileLines, if_neg (by simpa using hne)]
  have e : 1 + 70 * k + j = 70 * k + j + 1 := by omega
  rw [e, List.cons_append, List.getElem?_cons_succ,
    List.getElem?_append_left (by rw [instrumentLines_length]; omega),
    instrumentLines_get ps 0 k j p hp hj, Nat.zero_add]

/-- C106. The instrument file consists of the lines of `Spec.fileLines`. -/
theorem c106_lines (h : List Event) (hb : ByteHistory h) :
    ∃ text, instrumentsText (run h) = .ok text ∧
      splitAt '\n' text = fileLines (instruments h) ++ [[]] := by
  refine ⟨_, instrumentsText_lines h hb, ?_⟩
  exact splitAt_lines _ (newline_file _ (whole_instruments h hb))

/-- C106. Seventy lines for every instrument, and the line that shows setting `j` of instrument `k`
is number `1 + 70 * k + j` (counted from 0). -/
theorem c106_place (h : List Event) (hb : ByteHistory h) (k : Nat) (p : Patch)
    (hp : (instruments h)[k]? = some p) :
    ∃ text, instrumentsText (run h) = .ok text ∧
      (splitAt '\n' text).length = 70 * (instruments h).length + 3 ∧
      ∀ j d name v m, (instrumentRows false)[j]? = some (.setting d name v m) →
        (splitAt '\n' text)[1 + 70 * k + j]? =
          some (List.replicate d '\t' ++ '"' :: name.toList ++ "\": ".toList ++ (v k p).text ++
            comma m) := by
  obtain ⟨text, e1, e2⟩ := c106_lines h hb
  have hne : instruments h ≠ [] := by rintro e; rw [e] at hp; simp at hp
  have hk : k < (instruments h).length := (List.getElem?_eq_some_iff.mp hp).1
  refine ⟨text, e1, ?_, ?_⟩
  · rw [e2, List.length_append, fileLines_length _ hne]; rfl
  · intro j d name v m hj
    have hjl : j < 70 := by
      have := (List.getElem?_eq_some_iff.mp hj).1
      rwa [rows_length] at this
    rw [e2, List.getElem?_append_left (by rw [fileLines_length _ hne]; omega),
      fileLines_get _ k j p hp hjl]
    have hrow : ∀ more, (instrumentRows more)[j]? = some (.setting d name v m) := by
      intro more
      rcases Nat.lt_or_ge j 69 with hlt | hge
      · have : ∀ more, (instrumentRows more).take 69 = (instrumentRows false).take 69 := by
          intro more; cases more <;> rfl
        have h2 := congrArg (fun l => l[j]?) (this more)
        simp only [List.getElem?_take, hlt, if_true] at h2
        rw [h2, hj]
      · have : j = 69 := by omega
        subst this
        cases hj
    rw [hrow]
    rfl

theorem digits_num {n m : Nat} (h : Nat.toDigits 10 n = Nat.toDigits 10 m) : n = m := by
  have := congrArg (fun l => Nat.ofDigitChars 10 l 0) h
  simpa using this

theorem num_not_word (n : Nat) (c : Char) (l : List Char) (hc : c.isDigit = false) :
    Nat.toDigits 10 n ≠ c :: l := by
  intro h
  have := Nat.isDigit_of_mem_toDigits (b := 10) (n := n) (c := c) (by omega) (by omega)
    (by rw [h]; exact List.mem_cons_self)
  rw [hc] at this
  exact absurd this (by decide)

theorem text_inj (u v : Setting) (hu : ∀ o, u = .ops o → o < 16) (hv : ∀ o, v = .ops o → o < 16)
    (h : u.text = v.text) : u = v := by
  have hww : ∀ w w' : Waveform, waveName w = waveName w' → w = w' := by
    intro w w'; cases w <;> cases w' <;> decide
  have hoo : ∀ o < 16, ∀ o' < 16, opNames o = opNames o' → o = o' := by decide +kernel
  have hwo : ∀ o < 16, ∀ w : Waveform, waveName w ≠ opNames o := by
    intro o ho w
    revert o
    cases w <;> decide +kernel
  cases u with
  | num n =>
    cases v with
    | num m => rw [digits_num h]
    | flag b => cases b <;> exact absurd h (num_not_word n _ _ (by decide))
    | wave w => exact absurd h (num_not_word n _ _ (by decide))
    | ops o => exact absurd h (num_not_word n _ _ (by decide))
  | flag b =>
    cases v with
    | num m => cases b <;> exact absurd h.symm (num_not_word m _ _ (by decide))
    | flag b' => cases b <;> cases b' <;> first | rfl | (revert h; decide)
    | wave w => cases b <;> simp [Setting.text] at h
    | ops o => cases b <;> simp [Setting.text] at h
  | wave w =>
    cases v with
    | num m => exact absurd h.symm (num_not_word m _ _ (by decide))
    | flag b => cases b <;> simp [Setting.text] at h
    | wave w' =>
      simp only [Setting.text, List.cons_append, List.cons.injEq, true_and,
        List.append_cancel_right_eq] at h
      rw [hww w w' h]
    | ops o =>
      simp only [Setting.text, List.cons_append, List.cons.injEq, true_and,
        List.append_cancel_right_eq] at h
      exact absurd h (hwo o (hv o rfl) w)
  | ops o =>
    cases v with
    | num m => exact absurd h.symm (num_not_word m _ _ (by decide))
    | flag b => cases b <;> simp [Setting.text] at h
    | wave w =>
      simp only [Setting.text, List.cons_append, List.cons.injEq, true_and,
        List.append_cancel_right_eq] at h
      exact absurd h.symm (hwo o (hu o rfl) w)
    | ops o' =>
      simp only [Setting.text, List.cons_append, List.cons.injEq, true_and,
        List.append_cancel_right_eq] at h
      rw [hoo o (hu o rfl) o' (hv o' rfl) h]

/-- The lines of two instruments differ where their settings do. -/
theorem row_differs (more : Bool) (k : Nat) (p q : Patch) (hp : WholePatch p) (hq : WholePatch q)
    (r : Row) (hr : r ∈ instrumentRows more) :
    r.text k p ≠ r.text k q ↔
      ∃ d name v m, r = .setting d name v m ∧ v k p ≠ v k q := by
  constructor
  · intro h
    cases r with
    | start => exact absurd rfl h
    | opening d name => exact absurd rfl h
    | closing d m => exact absurd rfl h
    | setting d name v m =>
      refine ⟨d, name, v, m, rfl, ?_⟩
      intro e
      apply h
      simp only [Row.text, e]
  · rintro ⟨d, name, v, m, rfl, hne⟩ e
    apply hne
    simp only [Row.text, List.append_assoc, List.append_cancel_left_eq,
      List.append_cancel_right_eq] at e
    have e' : (v k p).text = (v k q).text := by simpa using e
    exact text_inj _ _ (fun o ho => rows_ops more k p hp _ hr d name v m o rfl ho)
      (fun o ho => rows_ops more k q hq _ hr d name v m o rfl ho) e'

/-- Every line is one of an instrument, or a bracket. -/
theorem line_cases (n i : Nat) (hi : i < 70 * n + 2) :
    i = 0 ∨ i = 70 * n + 1 ∨ ∃ k j, k < n ∧ j < 70 ∧ i = 1 + 70 * k + j := by
  rcases Nat.eq_zero_or_pos i with h | h
  · exact .inl h
  · rcases Nat.lt_or_ge i (70 * n + 1) with h' | h'
    · exact .inr (.inr ⟨(i - 1) / 70, (i - 1) % 70, by omega, by omega, by omega⟩)
    · exact .inr (.inl (by omega))

theorem row_any (more : Bool) (j d : Nat) (name : String) (v : Nat → Patch → Setting) (m : Bool) :
    (instrumentRows more)[j]? = some (.setting d name v m) ↔
      (instrumentRows false)[j]? = some (.setting d name v m) := by
  rcases Nat.lt_or_ge j 69 with hlt | hge
  · have : (instrumentRows more).take 69 = (instrumentRows false).take 69 := by
      cases more <;> rfl
    have h2 := congrArg (fun l => l[j]?) this
    simp only [List.getElem?_take, hlt, if_true] at h2
    rw [h2]
  · rcases Nat.lt_or_ge j 70 with hlt | hge'
    · have : j = 69 := by omega
      subst this
      constructor <;> (intro h; cases more <;> cases h)
    · have h1 : (instrumentRows more)[j]? = none := by
        rw [List.getElem?_eq_none_iff, rows_length]; exact hge'
      have h2 : (instrumentRows false)[j]? = none := by
        rw [List.getElem?_eq_none_iff, rows_length]; exact hge'
      rw [h1, h2]

/-- C106. Comparing two instrument files of the same number of instruments line by line: the lines
that differ are exactly those of the settings that differ. -/
theorem c106_diff (h h' : List Event) (hb : ByteHistory h) (hb' : ByteHistory h')
    (hn : (instruments h).length = (instruments h').length) :
    ∃ text text', instrumentsText (run h) = .ok text ∧ instrumentsText (run h') = .ok text' ∧
      (splitAt '\n' text).length = (splitAt '\n' text').length ∧
      ∀ i, (splitAt '\n' text)[i]? ≠ (splitAt '\n' text')[i]? ↔
        ∃ k j p q d name v m, i = 1 + 70 * k + j ∧
          (instruments h)[k]? = some p ∧ (instruments h')[k]? = some q ∧
          (instrumentRows false)[j]? = some (.setting d name v m) ∧ v k p ≠ v k q := by
  obtain ⟨text, e1, e2⟩ := c106_lines h hb
  obtain ⟨text', e1', e2'⟩ := c106_lines h' hb'
  have hw := whole_instruments h hb
  have hw' := whole_instruments h' hb'
  refine ⟨text, text', e1, e1', ?_, ?_⟩
  · rw [e2, e2', List.length_append, List.length_append]
    congr 1
    by_cases hne : instruments h = []
    · have : instruments h' = [] := by rw [hne] at hn; exact List.length_eq_zero_iff.mp hn.symm
      rw [hne, this]
    · have : instruments h' ≠ [] := by
        intro e; rw [e] at hn; exact hne (List.length_eq_zero_iff.mp hn)
      rw [fileLines_length _ hne, fileLines_length _ this, hn]
  · rw [e2, e2']
    generalize instruments h = ps at *
    generalize instruments h' = qs at *
    clear e2 e2' e1 e1'
    intro i
    by_cases hne : ps = []
    · subst hne
      have : qs = [] := List.length_eq_zero_iff.mp hn.symm
      subst this
      simp
    have hne' : qs ≠ [] := by
      intro e; rw [e] at hn; exact hne (List.length_eq_zero_iff.mp hn)
    have hlen := fileLines_length ps hne
    have hlen' := fileLines_length qs hne'
    constructor
    · intro hd
      rcases Nat.lt_or_ge i (70 * ps.length + 2) with hi | hi
      · rw [List.getElem?_append_left (by omega), List.getElem?_append_left (by omega)] at hd
        rcases line_cases ps.length i hi with rfl | rfl | ⟨k, j, hk, hj, rfl⟩
        · rw [fileLines, if_neg (by simpa using hne), fileLines, if_neg (by simpa using hne')] at hd
          exact absurd rfl hd
        · exfalso
          apply hd
          have g : ∀ l : List Patch, l ≠ [] → (fileLines l)[70 * l.length + 1]? = some [']'] := by
            intro l hl
            rw [fileLines, if_neg (by simpa using hl), List.cons_append, List.getElem?_cons_succ,
              List.getElem?_append_right (by rw [instrumentLines_length]), instrumentLines_length]
            simp
          rw [g ps hne, hn, g qs hne']
        · obtain ⟨p, hp⟩ : ∃ p, ps[k]? = some p := ⟨_, List.getElem?_eq_getElem hk⟩
          obtain ⟨q, hq⟩ : ∃ q, qs[k]? = some q :=
            ⟨_, List.getElem?_eq_getElem (by omega : k < qs.length)⟩
          rw [fileLines_get ps k j p hp hj, fileLines_get qs k j q hq hj, ← hn] at hd
          obtain ⟨r, hr⟩ : ∃ r, (instrumentRows (decide (k + 1 < ps.length)))[j]? = some r :=
            ⟨_, List.getElem?_eq_getElem (by rw [rows_length]; exact hj)⟩
          rw [hr, Option.map_some, Option.map_some, ne_eq, Option.some.injEq] at hd
          obtain ⟨d, name, v, m, rfl, hv⟩ := (row_differs _ k p q
            (hw p (List.mem_iff_getElem?.mpr ⟨k, hp⟩)) (hw' q (List.mem_iff_getElem?.mpr ⟨k, hq⟩))
            r (List.mem_iff_getElem?.mpr ⟨j, hr⟩)).mp hd
          exact ⟨k, j, p, q, d, name, v, m, rfl, hp, hq, (row_any _ _ _ _ _ _).mp hr, hv⟩
      · exfalso
        apply hd
        rw [List.getElem?_append_right (by omega), List.getElem?_append_right (by omega), hlen,
          hlen', hn]
    · rintro ⟨k, j, p, q, d, name, v, m, rfl, hp, hq, hr, hv⟩
      have hk : k < ps.length := (List.getElem?_eq_some_iff.mp hp).1
      have hj : j < 70 := by
        have := (List.getElem?_eq_some_iff.mp hr).1
        rwa [rows_length] at this
      rw [List.getElem?_append_left (by omega), List.getElem?_append_left (by omega),
        fileLines_get ps k j p hp hj, fileLines_get qs k j q hq hj, ← hn]
      have hr' := (row_any (decide (k + 1 < ps.length)) j d name v m).mpr hr
      rw [hr', Option.map_some, Option.map_some, ne_eq, Option.some.injEq]
      exact (row_differs _ k p q
            (hw p (List.mem_iff_getElem?.mpr ⟨k, hp⟩)) (hw' q (List.mem_iff_getElem?.mpr ⟨k, hq⟩))
            _ (List.mem_iff_getElem?.mpr ⟨j, hr'⟩)).mpr ⟨d, name, v, m, rfl, hv⟩

/-- C106. No setting is left out: two instruments with the same lines are the same. -/
theorem c106_every_setting (p q : Patch) (hp : p.channel.operators.length = 4)
    (hq : q.channel.operators.length = 4)
    (h : ∀ (j d : Nat) (name : String) (v : Nat → Patch → Setting) (m : Bool),
      (instrumentRows false)[j]? = some (.setting d name v m) → v 0 p = v 0 q) : p = q := by
  have key : ∀ r ∈ instrumentRows false, ∀ d name v m, r = Row.setting d name v m →
      v 0 p = v 0 q := by
    intro r hr d name v m e
    obtain ⟨j, hj⟩ := List.mem_iff_getElem?.mp hr
    exact h j d name v m (by rw [hj, e])
  obtain ⟨a, b, c, d, h4⟩ := four_of_length hp
  obtain ⟨a', b', c', d', h4'⟩ := four_of_length hq
  have s0 : slot p 0 = a ∧ slot p 1 = b ∧ slot p 2 = c ∧ slot p 3 = d := by simp [slot, h4]
  have s1 : slot q 0 = a' ∧ slot q 1 = b' ∧ slot q 2 = c' ∧ slot q 3 = d' := by simp [slot, h4']
  have hs : ∀ s name more, (∀ r ∈ slotRows name s more, ∀ d name v m,
      r = Row.setting d name v m → v 0 p = v 0 q) → slot p s = slot q s := by
    intro s name more hh
    simp only [slotRows, List.forall_mem_cons, Row.setting.injEq, reduceCtorEq, false_implies,
      implies_true, true_and, and_imp, List.not_mem_nil] at hh
    obtain ⟨h1, h2, h3, h4, h5, h6, h7, h8, h9, h10, h11, -⟩ := hh
    replace h1 := h1 _ _ _ _ rfl rfl rfl rfl
    replace h2 := h2 _ _ _ _ rfl rfl rfl rfl
    replace h3 := h3 _ _ _ _ rfl rfl rfl rfl
    replace h4 := h4 _ _ _ _ rfl rfl rfl rfl
    replace h5 := h5 _ _ _ _ rfl rfl rfl rfl
    replace h6 := h6 _ _ _ _ rfl rfl rfl rfl
    replace h7 := h7 _ _ _ _ rfl rfl rfl rfl
    replace h8 := h8 _ _ _ _ rfl rfl rfl rfl
    replace h9 := h9 _ _ _ _ rfl rfl rfl rfl
    replace h10 := h10 _ _ _ _ rfl rfl rfl rfl
    replace h11 := h11 _ _ _ _ rfl rfl rfl rfl
    simp only [Setting.num.injEq, Setting.flag.injEq] at *
    generalize slot p s = x at *
    generalize slot q s = y at *
    cases x; cases y
    simp_all
  have g0 := hs 0 "m1" true (fun r hr => key r (by simp only [instrumentRows, List.mem_append]; tauto))
  have g1 := hs 1 "m2" true (fun r hr => key r (by simp only [instrumentRows, List.mem_append]; tauto))
  have g2 := hs 2 "c1" true (fun r hr => key r (by simp only [instrumentRows, List.mem_append]; tauto))
  have g3 := hs 3 "c2" false (fun r hr => key r (by simp only [instrumentRows, List.mem_append]; tauto))
  rw [s0.1, s1.1] at g0
  rw [s0.2.1, s1.2.1] at g1
  rw [s0.2.2.1, s1.2.2.1] at g2
  rw [s0.2.2.2, s1.2.2.2] at g3
  have f3 := h 3 _ _ _ _ rfl
  have f4 := h 4 _ _ _ _ rfl
  have f5 := h 5 _ _ _ _ rfl
  have f6 := h 6 _ _ _ _ rfl
  have f8 := h 8 _ _ _ _ rfl
  have f10 := h 10 _ _ _ _ rfl
  have f11 := h 11 _ _ _ _ rfl
  have f12 := h 12 _ _ _ _ rfl
  have f13 := h 13 _ _ _ _ rfl
  have f14 := h 14 _ _ _ _ rfl
  have f15 := h 15 _ _ _ _ rfl
  simp only [Setting.num.injEq, Setting.flag.injEq, Setting.wave.injEq, Setting.ops.injEq] at *
  obtain ⟨⟨pw, pl, pa, pp⟩, ⟨po, pfb, pams, ppms, pc, pn, pnf⟩, pops⟩ := p
  obtain ⟨⟨qw, ql, qa, qp⟩, ⟨qo, qfb, qams, qpms, qc, qn, qnf⟩, qops⟩ := q
  simp_all

theorem rows_before_end (m m' : Bool) (j : Nat) (hj : j < 69) :
    (instrumentRows m)[j]? = (instrumentRows m')[j]? := by
  have : (instrumentRows m).take 69 = (instrumentRows m').take 69 := by
    cases m <;> cases m' <;> rfl
  have h2 := congrArg (fun l => l[j]?) this
  simpa only [List.getElem?_take, hj, if_true] using h2

/-- C106. If the recording goes on, the lines so far stay, up to the closing brace of the last
instrument so far (which may get a comma) and the closing bracket. -/
theorem c106_grows (h t : List Event) (hb : ByteHistory (h ++ t)) :
    ∃ text text', instrumentsText (run h) = .ok text ∧
      instrumentsText (run (h ++ t)) = .ok text' ∧
      ∀ i < 70 * (instruments h).length, (splitAt '\n' text)[i]? = (splitAt '\n' text')[i]? := by
  have hb1 : ByteHistory h := fun e he => hb e (by simp [he])
  obtain ⟨text, e1, e2⟩ := c106_lines h hb1
  obtain ⟨text', e1', e2'⟩ := c106_lines (h ++ t) hb
  refine ⟨text, text', e1, e1', ?_⟩
  have hpre : ∃ new, instruments (h ++ t) = instruments h ++ new := by
    obtain ⟨l, hl⟩ := patchesKeyedOn_append h t
    unfold instruments
    rw [hl, List.eraseDups_append]
    exact ⟨_, rfl⟩
  obtain ⟨new, hnew⟩ := hpre
  rw [e2, e2', hnew]
  generalize instruments h = ps
  clear e2 e2' e1 e1' hnew
  intro i hi
  have hne : ps ≠ [] := by rintro rfl; simp at hi
  have hne' : ps ++ new ≠ [] := by simp [hne]
  have hl := fileLines_length ps hne
  have hl' := fileLines_length _ hne'
  rw [List.length_append] at hl'
  rw [List.getElem?_append_left (by omega), List.getElem?_append_left (by omega)]
  rcases line_cases ps.length i (by omega) with rfl | rfl | ⟨k, j, hk, hj, rfl⟩
  · rw [fileLines, if_neg (by simpa using hne), fileLines, if_neg (by simpa using hne')]
    rfl
  · omega
  · obtain ⟨p, hp⟩ : ∃ p, ps[k]? = some p := ⟨_, List.getElem?_eq_getElem hk⟩
    have hp' : (ps ++ new)[k]? = some p := by rw [List.getElem?_append_left hk, hp]
    rw [fileLines_get ps k j p hp hj, fileLines_get _ k j p hp' hj]
    rcases Nat.lt_or_ge j 69 with hj' | hj'
    · rw [rows_before_end _ (decide (k + 1 < (ps ++ new).length)) j hj']
    · have h1 : k + 1 < ps.length := by omega
      have h2 : k + 1 < (ps ++ new).length := by rw [List.length_append]; omega
      rw [decide_eq_true h1, decide_eq_true h2]

/-- A concrete pair: the release rate of slot 2 is all that differs, and so does line 36 (counted from 0), which is
`"rr"` of `c1`. -/
example :
    let h : List Event := [.write 0xF0 3, .write 8 0x48]
    let h' : List Event := [.write 0xF0 5, .write 8 0x48]
    (instruments h).length = 1 ∧ (instruments h').length = 1 ∧
    (match instrumentsText (run h), instrumentsText (run h') with
      | .ok t, .ok t' => ((splitAt '\n' t).zip (splitAt '\n' t')).zipIdx.filter
          (fun x => x.1.1 ≠ x.1.2)
      | _, _ => []) =
    [(("\t\t\t\t\"rr\": 3,".toList, "\t\t\t\t\"rr\": 5,".toList), 36)] := by
  decide +kernel

end VgmX
