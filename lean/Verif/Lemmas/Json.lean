import Verif.Spec.Json
import Verif.Lemmas.Text
/-
The parser of Spec/Json reads back what the encoder of Model/Json writes.
-/

namespace VgmX
open Spec

/-- The token a mode is in the middle of. -/
def flush : Mode → List Tok
  | .idle => []
  | .inStr _ => []
  | .inNum n => [.num n]
  | .inWord acc => [.word acc.reverse]

/-- Not inside a string. -/
def Settled : Mode → Prop
  | .inStr _ => False
  | _ => True

/-- From mode `m`, the text `s` amounts to the tokens `out` and ends in mode `m'`. -/
def Lx (m : Mode) (s : Str) (out : List Tok) (m' : Mode) : Prop :=
  ∃ ts, lexRun m s = some (ts, m') ∧ ts ++ flush m' = flush m ++ out ∧ Settled m'

theorem lexRun_append (m : Mode) (s t : Str) :
    lexRun m (s ++ t) = (lexRun m s).bind (fun r =>
      (lexRun r.2 t).map (fun q => (r.1 ++ q.1, q.2))) := by
  induction s generalizing m with
  | nil => simp [lexRun]
  | cons c s ih =>
    rw [List.cons_append, lexRun, lexRun]
    cases lexStep m c with
    | none => rfl
    | some r =>
      obtain ⟨ts, m'⟩ := r
      simp only
      rw [ih m']
      cases lexRun m' s with
      | none => rfl
      | some q =>
        obtain ⟨ts2, m2⟩ := q
        simp only [Option.bind_some, Option.map_some]
        cases lexRun m2 t with
        | none => rfl
        | some q => simp

theorem Lx.append {m m1 m2 : Mode} {s t : Str} {o1 o2 : List Tok}
    (h1 : Lx m s o1 m1) (h2 : Lx m1 t o2 m2) : Lx m (s ++ t) (o1 ++ o2) m2 := by
  obtain ⟨ts, e1, f1, _⟩ := h1
  obtain ⟨us, e2, f2, g2⟩ := h2
  refine ⟨ts ++ us, ?_, ?_, g2⟩
  · rw [lexRun_append, e1]; simp [e2]
  · rw [List.append_assoc, f2, ← List.append_assoc, f1, List.append_assoc]

theorem Lx.nil {m : Mode} (h : Settled m) : Lx m [] [] m :=
  ⟨[], rfl, by simp, h⟩

/-- Punctuation and white space can follow any complete token. -/
theorem lexStep_punct {m : Mode} (hm : Settled m) {c : Char} {ts : List Tok}
    (hd : ¬ ('0' ≤ c ∧ c ≤ '9')) (ha : ¬ ('a' ≤ c ∧ c ≤ 'z'))
    (h : startTok c = some (ts, .idle)) : lexStep m c = some (flush m ++ ts, .idle) := by
  cases m with
  | idle => simpa [lexStep, flush] using h
  | inStr _ => exact hm.elim
  | inNum n => simp only [lexStep, if_neg hd, h, flush]; rfl
  | inWord a => simp only [lexStep, if_neg ha, h, flush]; rfl

theorem Lx.punct {m : Mode} (hm : Settled m) {c : Char} {ts : List Tok}
    (hd : ¬ ('0' ≤ c ∧ c ≤ '9')) (ha : ¬ ('a' ≤ c ∧ c ≤ 'z'))
    (h : startTok c = some (ts, .idle)) : Lx m [c] ts .idle := by
  refine ⟨flush m ++ ts, ?_, by simp [flush], trivial⟩
  simp [lexRun, lexStep_punct hm hd ha h]

theorem Lx.comma {m : Mode} (hm : Settled m) : Lx m [','] [.comma] .idle :=
  .punct hm (by decide) (by decide) (by decide)
theorem Lx.rbrack {m : Mode} (hm : Settled m) : Lx m [']'] [.rbrack] .idle :=
  .punct hm (by decide) (by decide) (by decide)
theorem Lx.rbrace {m : Mode} (hm : Settled m) : Lx m ['}'] [.rbrace] .idle :=
  .punct hm (by decide) (by decide) (by decide)

theorem lexRun_tabs (k : Nat) : lexRun .idle (List.replicate k '\t') = some ([], .idle) := by
  induction k with
  | zero => rfl
  | succ k ih =>
    rw [List.replicate_succ, lexRun, show lexStep .idle '\t' = some ([], .idle) by decide]
    simp [ih]

theorem Lx.newline {m : Mode} (hm : Settled m) (k : Nat) : Lx m (jsonNewline k) [] .idle := by
  have h1 : Lx m ['\n'] [] .idle := .punct hm (by decide) (by decide) (by decide)
  have h2 : Lx .idle (List.replicate k '\t') [] .idle :=
    ⟨[], lexRun_tabs k, rfl, trivial⟩
  exact h1.append h2

/-- Strings that need no escaping. -/
def PlainStr (s : Str) : Prop :=
  ∀ c ∈ s, ¬ (c = '"' ∨ c = '\\' ∨ c.toNat < 0x20) ∧ c.toNat < 0x7F

instance (s : Str) : Decidable (PlainStr s) := by unfold PlainStr; infer_instance

theorem lexRun_str (acc s : Str) (h : PlainStr s) :
    lexRun (.inStr acc) (s ++ ['"']) = some ([.str (acc.reverse ++ s)], .idle) := by
  induction s generalizing acc with
  | nil => simp [lexRun, lexStep]
  | cons c s ih =>
    have hc := (h c List.mem_cons_self).1
    rw [List.cons_append, lexRun]
    have : lexStep (.inStr acc) c = some ([], .inStr (c :: acc)) := by
      rw [lexStep, if_neg (fun e => hc (.inl e)), if_neg (fun e => hc (.inr e))]
    rw [this]
    simp only
    rw [ih (c :: acc) (fun x hx => h x (List.mem_cons_of_mem _ hx))]
    simp

theorem Lx.quote {s : Str} (h : PlainStr s) : Lx .idle (jsonQuote s) [.str s] .idle := by
  refine ⟨[.str s], ?_, by simp [flush], trivial⟩
  unfold jsonQuote
  rw [List.cons_append, lexRun, show lexStep .idle '"' = some ([], .inStr []) by decide]
  simp only
  rw [lexRun_str [] s h]
  rfl

theorem digitChar_range (d : Nat) (h : d < 10) :
    ('0' ≤ digitChar d ∧ digitChar d ≤ '9') ∧ (digitChar d).toNat - '0'.toNat = d ∧
    startTok (digitChar d) = some ([], .inNum d) := by
  have : ∀ d < 10, ('0' ≤ digitChar d ∧ digitChar d ≤ '9') ∧
      (digitChar d).toNat - '0'.toNat = d ∧
      startTok (digitChar d) = some ([], .inNum d) := by decide +kernel
  exact this d h

theorem lexRun_digits (fuel n : Nat) (h : n < fuel) :
    lexRun .idle ((digits 10 fuel n).map digitChar) = some ([], .inNum n) := by
  induction fuel generalizing n with
  | zero => omega
  | succ fuel ih =>
    unfold digits
    split
    · rename_i hn
      simp [lexRun, lexStep, (digitChar_range n hn).2.2]
    · rename_i hn
      have hlt : n / 10 < n := Nat.div_lt_self (by omega) (by omega)
      rw [List.map_append, lexRun_append, ih (n / 10) (by omega)]
      have hd := digitChar_range (n % 10) (by omega)
      have h0 : ¬ n / 10 = 0 := by omega
      simp only [Option.bind_some, List.map_cons, List.map_nil, lexRun, lexStep, if_pos hd.1,
        if_neg h0, hd.2.1, Option.map_some, List.append_nil]
      rw [Nat.div_add_mod' n 10]

theorem Lx.num (n : Nat) : Lx .idle (natStr n) [.num n] (.inNum n) :=
  ⟨[], lexRun_digits _ _ (by omega), by simp [flush], trivial⟩

mutual
/-- The tokens of a value. -/
def Json.toks : Json → List Tok
  | .num n => [.num n]
  | .bool true => [.word "true".toList]
  | .bool false => [.word "false".toList]
  | .str s => [.str s]
  | .arr .nil => [.lbrack, .rbrack]
  | .arr (.cons a l) => .lbrack :: a.toks ++ l.toks ++ [.rbrack]
  | .obj .nil => [.lbrace, .rbrace]
  | .obj (.cons k v l) => .lbrace :: .str k :: .colon :: v.toks ++ l.toks ++ [.rbrace]
/-- The tokens of the elements after the first. -/
def JsonList.toks : JsonList → List Tok
  | .nil => []
  | .cons a l => .comma :: a.toks ++ l.toks
/-- The tokens of the items after the first. -/
def JsonFields.toks : JsonFields → List Tok
  | .nil => []
  | .cons k v l => .comma :: .str k :: .colon :: v.toks ++ l.toks
end

mutual
/-- All strings and keys are plain. -/
def Json.Plain : Json → Prop
  | .num _ => True
  | .bool _ => True
  | .str s => PlainStr s
  | .arr l => l.Plain
  | .obj l => l.Plain
/-- See `Json.Plain`. -/
def JsonList.Plain : JsonList → Prop
  | .nil => True
  | .cons a l => a.Plain ∧ l.Plain
/-- See `Json.Plain`. -/
def JsonFields.Plain : JsonFields → Prop
  | .nil => True
  | .cons k v l => PlainStr k ∧ v.Plain ∧ l.Plain
end

theorem Lx.settled {m m' : Mode} {s : Str} {o : List Tok} (h : Lx m s o m') : Settled m' := by
  obtain ⟨_, _, _, h⟩ := h; exact h

theorem Lx.cast {m m' : Mode} {s s' : Str} {o o' : List Tok} (h : Lx m s o m') (hs : s = s')
    (ho : o = o') : Lx m s' o' m' := by subst hs ho; exact h

/-- `"key": ` -/
theorem Lx.key {k : Str} (h : PlainStr k) :
    Lx .idle (jsonQuote k ++ ": ".toList) [.str k, .colon] .idle := by
  have h2 : Lx .idle ": ".toList [.colon] .idle := ⟨[.colon], by decide +kernel, rfl, trivial⟩
  exact (Lx.quote h).append h2

mutual
theorem Json.lex_dump (level : Nat) : (v : Json) → v.Plain →
    ∃ m, Lx .idle (v.dump level) v.toks m
  | .num n, _ => ⟨_, by simpa only [Json.dump, Json.toks] using Lx.num n⟩
  | .bool true, _ => ⟨.inWord "eurt".toList, by
      simp only [Json.dump, Json.toks]
      exact ⟨[], by decide +kernel, by decide +kernel, trivial⟩⟩
  | .bool false, _ => ⟨.inWord "eslaf".toList, by
      simp only [Json.dump, Json.toks]
      exact ⟨[], by decide +kernel, by decide +kernel, trivial⟩⟩
  | .str s, h => ⟨.idle, by
      simp only [Json.Plain] at h
      simpa only [Json.dump, Json.toks] using Lx.quote h⟩
  | .arr .nil, _ => ⟨.idle, by
      simp only [Json.dump, Json.toks]
      exact ⟨[.lbrack, .rbrack], by decide +kernel, rfl, trivial⟩⟩
  | .obj .nil, _ => ⟨.idle, by
      simp only [Json.dump, Json.toks]
      exact ⟨[.lbrace, .rbrace], by decide +kernel, rfl, trivial⟩⟩
  | .arr (.cons a l), h => by
    simp only [Json.Plain, JsonList.Plain] at h
    obtain ⟨m1, h1⟩ := Json.lex_dump (level + 1) a h.1
    obtain ⟨m2, h2⟩ := JsonList.lex_dump (level + 1) l h.2 m1 h1.settled
    have h0 : Lx .idle ['['] [.lbrack] .idle := ⟨[.lbrack], by decide +kernel, rfl, trivial⟩
    refine ⟨.idle, Lx.cast (((((h0.append (Lx.newline (m := .idle) trivial (level + 1))).append h1).append
      h2).append (Lx.newline h2.settled level)).append (Lx.rbrack (m := .idle) trivial)) ?_ ?_⟩
    · simp [Json.dump]
    · simp [Json.toks]
  | .obj (.cons k v l), h => by
    simp only [Json.Plain, JsonFields.Plain] at h
    obtain ⟨m1, h1⟩ := Json.lex_dump (level + 1) v h.2.1
    obtain ⟨m2, h2⟩ := JsonFields.lex_dump (level + 1) l h.2.2 m1 h1.settled
    have h0 : Lx .idle ['{'] [.lbrace] .idle := ⟨[.lbrace], by decide +kernel, rfl, trivial⟩
    refine ⟨.idle, Lx.cast ((((((h0.append (Lx.newline (m := .idle) trivial (level + 1))).append
      (Lx.key h.1)).append h1).append h2).append (Lx.newline h2.settled level)).append
      (Lx.rbrace (m := .idle) trivial)) ?_ ?_⟩
    · simp [Json.dump]
    · simp [Json.toks]
theorem JsonList.lex_dump (level : Nat) : (l : JsonList) → l.Plain → (m : Mode) → Settled m →
    ∃ m', Lx m (l.dump level) l.toks m'
  | .nil, _, m, hm => ⟨m, by simpa only [JsonList.dump, JsonList.toks] using Lx.nil hm⟩
  | .cons a l, h, m, hm => by
    simp only [JsonList.Plain] at h
    obtain ⟨m1, h1⟩ := Json.lex_dump level a h.1
    obtain ⟨m2, h2⟩ := JsonList.lex_dump level l h.2 m1 h1.settled
    refine ⟨m2, Lx.cast ((((Lx.comma hm).append (Lx.newline (m := .idle) trivial level)).append h1).append h2)
      ?_ ?_⟩
    · simp [JsonList.dump]
    · simp [JsonList.toks]
theorem JsonFields.lex_dump (level : Nat) : (l : JsonFields) → l.Plain → (m : Mode) →
    Settled m → ∃ m', Lx m (l.dump level) l.toks m'
  | .nil, _, m, hm => ⟨m, by simpa only [JsonFields.dump, JsonFields.toks] using Lx.nil hm⟩
  | .cons k v l, h, m, hm => by
    simp only [JsonFields.Plain] at h
    obtain ⟨m1, h1⟩ := Json.lex_dump level v h.2.1
    obtain ⟨m2, h2⟩ := JsonFields.lex_dump level l h.2.2 m1 h1.settled
    refine ⟨m2, Lx.cast (((((Lx.comma hm).append (Lx.newline (m := .idle) trivial level)).append
      (Lx.key h.1)).append h1).append h2) ?_ ?_⟩
    · simp [JsonFields.dump]
    · simp [JsonFields.toks]
end

theorem Json.toks_ne (v : Json) : ∃ t ts, v.toks = t :: ts ∧ t ≠ .rbrack ∧ t ≠ .rbrace := by
  cases v with
  | num n => exact ⟨_, _, by simp only [Json.toks]; rfl, by simp, by simp⟩
  | bool b => cases b <;> exact ⟨_, _, by simp only [Json.toks]; rfl, by simp, by simp⟩
  | str s => exact ⟨_, _, by simp only [Json.toks]; rfl, by simp, by simp⟩
  | arr l => cases l <;> exact ⟨_, _, by simp only [Json.toks, List.cons_append]; rfl, by simp, by simp⟩
  | obj l => cases l <;> exact ⟨_, _, by simp only [Json.toks, List.cons_append]; rfl, by simp, by simp⟩

mutual
theorem Json.parse_toks : (v : Json) → (k : Nat) → v.toks.length ≤ k → (r : List Tok) →
    pValue k (v.toks ++ r) = some (v, r)
  | v, 0, h, r => by
    obtain ⟨t, ts, e, _⟩ := v.toks_ne
    rw [e] at h; simp at h
  | .num n, k + 1, _, r => by simp [Json.toks, pValue]
  | .bool true, k + 1, _, r => by simp [Json.toks, pValue]
  | .bool false, k + 1, _, r => by simp [Json.toks, pValue]
  | .str s, k + 1, _, r => by simp [Json.toks, pValue]
  | .arr .nil, k + 1, _, r => by simp [Json.toks, pValue]
  | .obj .nil, k + 1, _, r => by simp [Json.toks, pValue]
  | .arr (.cons a l), k + 1, h, r => by
    simp only [Json.toks, List.length_append, List.length_cons, List.length_nil] at h
    have := JsonList.parse_toks a l k (by omega) r
    obtain ⟨t, ts, e, h1, _⟩ := a.toks_ne
    rw [Json.toks]
    simp only [List.cons_append, List.append_assoc, List.nil_append] at this ⊢
    rw [e] at this ⊢
    simp only [List.cons_append] at this ⊢
    rw [pValue]
    · rw [this]; rfl
    · intro r' hr
      simp only [List.cons.injEq] at hr
      exact h1 hr.1
  | .obj (.cons key v l), k + 1, h, r => by
    simp only [Json.toks, List.length_append, List.length_cons, List.length_nil] at h
    have := JsonFields.parse_toks key v l k (by omega) r
    rw [Json.toks]
    simp only [List.cons_append, List.append_assoc, List.nil_append] at this ⊢
    rw [pValue]
    · rw [this]; rfl
    · intro r' hr
      simp at hr
theorem JsonList.parse_toks : (a : Json) → (l : JsonList) → (k : Nat) →
    a.toks.length + l.toks.length + 1 ≤ k → (r : List Tok) →
    pElems k (a.toks ++ (l.toks ++ (.rbrack :: r))) = some (.cons a l, r)
  | a, l, 0, h, _ => by omega
  | a, .nil, k + 1, h, r => by
    have := Json.parse_toks a k (by omega) ((JsonList.nil).toks ++ (.rbrack :: r))
    simp only [JsonList.toks, List.nil_append] at this ⊢
    rw [pElems, this]
  | a, .cons b l, k + 1, h, r => by
    simp only [JsonList.toks, List.length_append, List.length_cons] at h
    have := Json.parse_toks a k (by omega) ((JsonList.cons b l).toks ++ (.rbrack :: r))
    have h2 := JsonList.parse_toks b l k (by omega) r
    simp only [JsonList.toks, List.cons_append, List.append_assoc] at this ⊢
    rw [pElems, this]
    simp only [h2, Option.map_some]
theorem JsonFields.parse_toks : (key : Str) → (v : Json) → (l : JsonFields) → (k : Nat) →
    v.toks.length + l.toks.length + 1 ≤ k → (r : List Tok) →
    pFields k (.str key :: .colon :: (v.toks ++ (l.toks ++ (.rbrace :: r))))
      = some (.cons key v l, r)
  | _, _, _, 0, h, _ => by omega
  | key, v, .nil, k + 1, h, r => by
    have := Json.parse_toks v k (by omega) ((JsonFields.nil).toks ++ (.rbrace :: r))
    simp only [JsonFields.toks, List.nil_append] at this ⊢
    rw [pFields, this]
  | key, v, .cons key' v' l, k + 1, h, r => by
    simp only [JsonFields.toks, List.length_append, List.length_cons] at h
    have := Json.parse_toks v k (by omega) ((JsonFields.cons key' v' l).toks ++ (.rbrace :: r))
    have h2 := JsonFields.parse_toks key' v' l k (by omega) r
    simp only [JsonFields.toks, List.cons_append, List.append_assoc] at this ⊢
    rw [pFields, this]
    simp only [h2, Option.map_some]
end

theorem lex_of_Lx {s : Str} {o : List Tok} {m : Mode} (h : Lx .idle s o m) : lex s = some o := by
  obtain ⟨ts, e, f, g⟩ := h
  unfold lex
  rw [e]
  cases m with
  | inStr _ => exact g.elim
  | _ => simp_all [flush]

/-- Reading back: the parser returns the value the encoder was given. -/
theorem parse_dump (v : Json) (h : v.Plain) :
    parseJson (v.dump 0 ++ ['\n']) = some v := by
  obtain ⟨m, hm⟩ := Json.lex_dump 0 v h
  have := hm.append (Lx.newline hm.settled 0)
  unfold parseJson
  rw [lex_of_Lx (this.cast (o' := v.toks) (s' := v.dump 0 ++ ['\n']) rfl (by simp))]
  have := Json.parse_toks v (v.toks.length + 1) (by omega) []
  rw [List.append_nil] at this
  simp only [this]

/-- A text of ASCII characters. -/
def Ascii (s : Str) : Prop := ∀ c ∈ s, c.toNat < 128

theorem Ascii.append {s t : Str} (hs : Ascii s) (ht : Ascii t) : Ascii (s ++ t) := by
  intro c hc
  rcases List.mem_append.mp hc with h | h
  · exact hs c h
  · exact ht c h

theorem Ascii.cons {c : Char} {t : Str} (hc : c.toNat < 128) (ht : Ascii t) : Ascii (c :: t) := by
  intro x hx
  rcases List.mem_cons.mp hx with rfl | h
  · exact hc
  · exact ht x h

theorem ascii_natStr (n : Nat) : Ascii (natStr n) := by
  intro c hc
  obtain ⟨d, hd, rfl⟩ := List.mem_map.mp hc
  have : ∀ d < 10, (digitChar d).toNat < 128 := by decide +kernel
  exact this d (digits_lt (by omega) _ _ d hd)

theorem ascii_newline (k : Nat) : Ascii (jsonNewline k) := by
  apply Ascii.cons (by decide)
  intro c hc
  rw [List.eq_of_mem_replicate hc]; decide

theorem ascii_quote {s : Str} (h : PlainStr s) : Ascii (jsonQuote s) := by
  apply Ascii.append
  · exact Ascii.cons (by decide) (fun c hc => by have := (h c hc).2; omega)
  · exact Ascii.cons (by decide) (by intro c hc; simp at hc)

theorem ascii_colon : Ascii ": ".toList := by unfold Ascii; decide +kernel

theorem ascii_one {c : Char} (h : c.toNat < 128) : Ascii [c] :=
  Ascii.cons h (by intro c hc; simp at hc)

mutual
theorem Json.ascii_dump (level : Nat) : (v : Json) → v.Plain → Ascii (v.dump level)
  | .num n, _ => by simp only [Json.dump]; exact ascii_natStr n
  | .bool true, _ => by simp only [Json.dump]; unfold Ascii; decide +kernel
  | .bool false, _ => by simp only [Json.dump]; unfold Ascii; decide +kernel
  | .str s, h => by
    simp only [Json.Plain] at h
    simp only [Json.dump]; exact ascii_quote h
  | .arr .nil, _ => by simp only [Json.dump]; unfold Ascii; decide +kernel
  | .obj .nil, _ => by simp only [Json.dump]; unfold Ascii; decide +kernel
  | .arr (.cons a l), h => by
    simp only [Json.Plain, JsonList.Plain] at h
    simp only [Json.dump]
    exact ((((Ascii.cons (by decide) (ascii_newline _)).append
      (Json.ascii_dump (level + 1) a h.1)).append
      (JsonList.ascii_dump (level + 1) l h.2)).append (ascii_newline _)).append
      (ascii_one (by decide))
  | .obj (.cons k v l), h => by
    simp only [Json.Plain, JsonFields.Plain] at h
    simp only [Json.dump]
    exact ((((((Ascii.cons (by decide) (ascii_newline _)).append (ascii_quote h.1)).append
      ascii_colon).append (Json.ascii_dump (level + 1) v h.2.1)).append
      (JsonFields.ascii_dump (level + 1) l h.2.2)).append (ascii_newline _)).append
      (ascii_one (by decide))
theorem JsonList.ascii_dump (level : Nat) : (l : JsonList) → l.Plain → Ascii (l.dump level)
  | .nil, _ => by simp only [JsonList.dump]; intro c hc; simp at hc
  | .cons a l, h => by
    simp only [JsonList.Plain] at h
    simp only [JsonList.dump]
    exact ((Ascii.cons (by decide) (ascii_newline _)).append
      (Json.ascii_dump level a h.1)).append (JsonList.ascii_dump level l h.2)
theorem JsonFields.ascii_dump (level : Nat) : (l : JsonFields) → l.Plain → Ascii (l.dump level)
  | .nil, _ => by simp only [JsonFields.dump]; intro c hc; simp at hc
  | .cons k v l, h => by
    simp only [JsonFields.Plain] at h
    simp only [JsonFields.dump]
    exact ((((Ascii.cons (by decide) (ascii_newline _)).append (ascii_quote h.1)).append
      ascii_colon).append (Json.ascii_dump level v h.2.1)).append
      (JsonFields.ascii_dump level l h.2.2)
end

end VgmX
