import Verif.Model.JsonText
import Verif.Spec.JsonText
import Verif.Lemmas.Text
import Mathlib.Tactic.NormNum
/-
What `readJson` (Spec/JsonText) makes of the texts of Model/JsonText.
-/

namespace VgmX
open Spec

/-! ### Strings -/

theorem hexValue_jsonHex (n : Nat) : hexValue (jsonHex n) = some (n % 16) := by
  have h : ∀ m < 16, hexValue (if m < 10 then Char.ofNat (48 + m) else Char.ofNat (87 + m)) = some m := by
    decide
  exact h (n % 16) (Nat.mod_lt _ (by decide))

theorem readHex4_jsonU (n : Nat) (hn : n < 65536) (r : Str) :
    readHex4 (jsonHex (n / 4096) :: jsonHex (n / 256) :: jsonHex (n / 16) :: jsonHex n :: r) =
      some (n, r) := by
  simp only [readHex4, hexValue_jsonHex]
  congr 2
  omega

theorem char_ofNat_toNat (c : Char) : Char.ofNat c.toNat = c := by
  exact Char.ofNat_toNat c

theorem readUnicode_basic (c : Char) (h : c.toNat < 0x10000) (r : Str) :
    readEscape ((jsonU c.toNat).tail ++ r) = some (c, r) := by
  have hv := c.valid
  have hr : c.toNat < 0xD800 ∨ 0xE000 ≤ c.toNat := by
    rcases hv with h1 | h1
    · exact .inl h1
    · exact .inr (by have := h1.1; change 0xDFFF < c.toNat at this; omega)
  show readUnicode (jsonHex _ :: jsonHex _ :: jsonHex _ :: jsonHex _ :: r) = _
  unfold readUnicode
  rw [readHex4_jsonU _ h]
  dsimp only
  rw [if_pos hr, char_ofNat_toNat]

theorem or_low (n : Nat) : (0xdc00 ||| (n &&& 0x3ff)) = 0xdc00 + n % 1024 := by
  have hq : n % 1024 < 2 ^ 10 := by omega
  have ha : n &&& 0x3ff = n % 1024 := by
    have := Nat.and_two_pow_sub_one_eq_mod n 10
    simpa using this
  rw [ha]
  have := Nat.two_pow_add_eq_or_of_lt hq 55
  norm_num at this
  omega

theorem or_high {n : Nat} (h : n < 0x100000) :
    (0xd800 ||| ((n >>> 10) &&& 0x3ff)) = 0xd800 + n / 1024 := by
  have hq : n / 1024 < 2 ^ 10 := by omega
  have ha : (n >>> 10) &&& 0x3ff = n / 1024 := by
    rw [Nat.shiftRight_eq_div_pow]
    have := Nat.and_two_pow_sub_one_eq_mod (n / 2 ^ 10) 10
    norm_num at this ⊢
    omega
  rw [ha]
  have := Nat.two_pow_add_eq_or_of_lt hq 54
  norm_num at this
  omega

theorem readHigh {a b : Nat} (ha : a < 1024) (s r : Str) (h : readHex4 s = some (0xdc00 + b, r))
    (hb : b < 1024) (s0 : Str) (h0 : readHex4 s0 = some (0xd800 + a, '\\' :: 'u' :: s)) :
    readUnicode s0 = some (Char.ofNat (0x10000 + a * 0x400 + b), r) := by
  unfold readUnicode
  rw [h0]
  dsimp only
  rw [if_neg (by omega), if_pos (by omega)]
  simp only [h]
  rw [if_pos (by omega)]
  simp only [Nat.add_sub_cancel_left]

theorem readEscape_pair {a b : Nat} (ha : a < 1024) (hb : b < 1024) (r : Str) :
    readEscape ((jsonU (0xd800 + a)).tail ++ jsonU (0xdc00 + b) ++ r) =
      some (Char.ofNat (0x10000 + a * 0x400 + b), r) := by
  have h1 := readHex4_jsonU (0xdc00 + b) (by omega) r
  have h0 := readHex4_jsonU (0xd800 + a) (by omega) (jsonU (0xdc00 + b) ++ r)
  have key := fun s => readHigh (a := a) (b := b) ha s r
  generalize 0xd800 + a = x at *
  generalize 0xdc00 + b = y at *
  exact key _ h1 hb _ h0

theorem readUnicode_pair (c : Char) (h : ¬ c.toNat < 0x10000) (r : Str) :
    readEscape ((jsonU (0xd800 ||| (((c.toNat - 0x10000) >>> 10) &&& 0x3ff))).tail
      ++ jsonU (0xdc00 ||| ((c.toNat - 0x10000) &&& 0x3ff)) ++ r) = some (c, r) := by
  have hlt : c.toNat < 0x110000 := by
    rcases c.valid with h1 | h1
    · have : c.toNat < 0xD800 := h1
      omega
    · exact h1.2
  have e1 := or_high (n := c.toNat - 0x10000) (by omega)
  have e2 := or_low (c.toNat - 0x10000)
  rw [e1, e2, readEscape_pair (by omega) (by omega)]
  have : 0x10000 + (c.toNat - 0x10000) / 1024 * 0x400 + (c.toNat - 0x10000) % 1024 = c.toNat := by
    omega
  rw [this, char_ofNat_toNat]

theorem readString_escaped (k : Nat) (c : Char) (e r : Str) (h : readEscape (e ++ r) = some (c, r)) :
    readString (k + 1) ('\\' :: e ++ r) = (readString k r).map (fun x => (c :: x.1, x.2)) := by
  show readString (k + 1) ('\\' :: (e ++ r)) = _
  rw [readString]
  simp only [h, if_neg (show ¬ ('\\' : Char) = '"' by decide), if_true]

theorem readString_char (k : Nat) (c : Char) (r : Str) :
    readString (k + 1) (jsonEscape c ++ r) = (readString k r).map (fun x => (c :: x.1, x.2)) := by
  unfold jsonEscape
  split
  · rename_i h; subst h; exact readString_escaped k _ ['\\'] r rfl
  split
  · rename_i h; subst h; exact readString_escaped k _ ['"'] r rfl
  split
  · rename_i h; subst h; exact readString_escaped k _ ['b'] r rfl
  split
  · rename_i h; subst h; exact readString_escaped k _ ['f'] r rfl
  split
  · rename_i h; subst h; exact readString_escaped k _ ['n'] r rfl
  split
  · rename_i h; subst h; exact readString_escaped k _ ['r'] r rfl
  split
  · rename_i h; subst h; exact readString_escaped k _ ['t'] r rfl
  split
  · rename_i h1 h2 _ _ _ _ _ h
    show readString (k + 1) (c :: r) = _
    rw [readString, if_neg h2, if_neg h1, if_neg]
    have h3 : (' ' : Char).toNat ≤ c.toNat := h.1
    have h4 : (' ' : Char).toNat = 32 := rfl
    omega
  split
  · rename_i h
    exact readString_escaped k c (jsonU c.toNat).tail r (readUnicode_basic c h r)
  · rename_i h
    dsimp only
    exact readString_escaped k c ((jsonU (0xd800 ||| (((c.toNat - 0x10000) >>> 10) &&& 0x3ff))).tail
      ++ jsonU (0xdc00 ||| ((c.toNat - 0x10000) &&& 0x3ff))) r (readUnicode_pair c h r)

theorem jsonEscape_length (c : Char) : 1 ≤ (jsonEscape c).length := by
  unfold jsonEscape jsonU
  repeat' split
  all_goals simp

theorem readString_body : ∀ (s : Str) (k : Nat) (r : Str), (s.flatMap jsonEscape).length + 1 ≤ k →
    readString k (s.flatMap jsonEscape ++ '"' :: r) = some (s, r)
  | [], k, r, h => by
    cases k with
    | zero => exact absurd h (by simp)
    | succ k => simp [readString]
  | c :: s, k, r, h => by
    cases k with
    | zero => exact absurd h (by simp)
    | succ k =>
      have h1 := jsonEscape_length c
      rw [List.flatMap_cons, List.length_append] at h
      rw [List.flatMap_cons, List.append_assoc, readString_char, readString_body s k r (by omega)]
      rfl

theorem readString_jsonString (s r : Str) :
    readString ((s.flatMap jsonEscape ++ '"' :: r).length + 1) (s.flatMap jsonEscape ++ '"' :: r) =
      some (s, r) :=
  readString_body s _ r (by simp only [List.length_append]; omega)

/-! ### Numbers -/

theorem isFigure_dec {c : Char} (h : isDec c = true) : isFigure c = true := by
  simpa [isDec, isFigure] using h

theorem digitChar_figure : ∀ d < 10, isFigure (digitChar d) = true ∧ (digitChar d).toNat - 48 = d ∧
    (digitChar d = '0' ↔ d = 0) := by decide

theorem readDigits_digits (rest : Str) : ∀ (fuel n : Nat), n < fuel → 0 < n →
    ∃ d r, (digits 10 fuel n).map digitChar = digitChar d :: r ∧ 0 < d ∧ d < 10 ∧
      ∀ rest, readDigits d (r ++ rest) = readDigits n rest
  | 0, n, h, _ => absurd h (by omega)
  | fuel + 1, n, h, h0 => by
    unfold digits
    split
    · rename_i hn
      exact ⟨n, [], rfl, h0, hn, fun _ => rfl⟩
    · rename_i hn
      obtain ⟨d, r, e, hd, hd', hr⟩ := readDigits_digits rest fuel (n / 10) (by omega) (by omega)
      refine ⟨d, r ++ [digitChar (n % 10)], by rw [List.map_append, e]; rfl, hd, hd', ?_⟩
      intro rest
      rw [List.append_assoc, hr]
      obtain ⟨f1, f2, _⟩ := digitChar_figure (n % 10) (Nat.mod_lt _ (by decide))
      show readDigits (n / 10) (digitChar (n % 10) :: rest) = _
      rw [readDigits, if_pos f1, f2]
      congr 1
      omega

theorem readDigits_stop (n : Nat) (rest : Str) (h : goesOn rest = false) :
    readDigits n rest = (n, rest) := by
  cases rest with
  | nil => rfl
  | cons c r =>
    have : isFigure c = false := by
      simp only [goesOn, Bool.or_eq_false_iff] at h
      exact h.1.1.1
    rw [readDigits, this]
    rfl

/-- A number, and what is not a part of it. -/
theorem readNatural_natStr (n : Nat) (rest : Str) (h : goesOn rest = false) :
    readNatural (natStr n ++ rest) = some (n, rest) ∧
      ∃ d r, d < 10 ∧ natStr n = digitChar d :: r := by
  rcases Nat.eq_zero_or_pos n with rfl | hn
  · refine ⟨?_, 0, [], by decide, rfl⟩
    show readNatural ('0' :: rest) = _
    simp [readNatural, h, isFigure]
  · obtain ⟨d, r, e, hd, hd', hr⟩ := readDigits_digits rest (n + 1) n (by omega) hn
    refine ⟨?_, d, r, hd', e⟩
    unfold natStr
    rw [e]
    obtain ⟨f1, f2, f3⟩ := digitChar_figure d hd'
    have f4 : ¬ digitChar d = '0' := fun h => by rw [f3] at h; omega
    show readNatural (digitChar d :: (r ++ rest)) = _
    rw [readNatural, if_pos f1]
    simp only [if_neg f4, f2, hr, readDigits_stop n rest h, h]
    simp

/-! ### Values -/

/-- White space only. -/
def JsonBlanks (s : Str) : Prop := ∀ c ∈ s, jsonBlank c = true

theorem skipBlank_append {w : Str} (h : JsonBlanks w) (s : Str) : skipBlank (w ++ s) = skipBlank s := by
  induction w with
  | nil => rfl
  | cons c w ih =>
    rw [List.cons_append, skipBlank, if_pos (h c (by simp))]
    exact ih (fun d hd => h d (by simp [hd]))

theorem skipBlank_of {c : Char} {s : Str} (h : jsonBlank c = false) : skipBlank (c :: s) = c :: s := by
  rw [skipBlank, h]
  rfl

theorem readValue_blank (k : Nat) {w : Str} (h : JsonBlanks w) (s : Str) :
    readValue k (w ++ s) = readValue k s := by
  cases k with
  | zero => simp only [readValue]
  | succ k => unfold readValue; rw [skipBlank_append h]

theorem readElements_blank (k : Nat) {w : Str} (h : JsonBlanks w) (s : Str) :
    readElements k (w ++ s) = readElements k s := by
  cases k with
  | zero => simp only [readElements]
  | succ k => unfold readElements; rw [readValue_blank k h]

theorem readMembers_blank (k : Nat) {w : Str} (h : JsonBlanks w) (s : Str) :
    readMembers k (w ++ s) = readMembers k s := by
  cases k with
  | zero => simp only [readMembers]
  | succ k => unfold readMembers; rw [skipBlank_append h]

theorem blank_newline {indent : Option Str} (h : GoodIndent indent) (level : Nat) :
    JsonBlanks (textNewline indent level) := by
  cases indent with
  | none => intro c hc; cases hc
  | some i =>
    intro c hc
    rcases List.mem_cons.mp hc with rfl | hc
    · rfl
    · obtain ⟨l, hl, hcl⟩ := List.mem_flatten.mp hc
      rw [(List.mem_replicate.mp hl).2] at hcl
      exact h i rfl c hcl

/-- The separator: a comma and white space. -/
theorem textComma_eq {indent : Option Str} (h : GoodIndent indent) (level : Nat) :
    ∃ w, JsonBlanks w ∧ textComma indent level = ',' :: w := by
  cases indent with
  | none => exact ⟨[' '], by intro c hc; simp at hc; subst hc; rfl, rfl⟩
  | some i => exact ⟨_, blank_newline h level, rfl⟩

theorem goesOn_close {indent : Option Str} (level : Nat) (c : Char) (h : c = ']' ∨ c = '}') (r : Str) :
    goesOn (textNewline indent level ++ c :: r) = false := by
  cases indent with
  | none => rcases h with rfl | rfl <;> rfl
  | some i => rfl

theorem goesOn_trees {indent : Option Str} (level level' : Nat) (l : List Tree) (r : Str) :
    goesOn (treesText indent level l ++ (textNewline indent level' ++ ']' :: r)) = false := by
  cases l with
  | nil => rw [treesText]; exact goesOn_close level' _ (.inl rfl) r
  | cons t l => rw [treesText]; cases indent <;> rfl

theorem goesOn_items {indent : Option Str} (level level' : Nat) (l : List (Str × Tree)) (r : Str) :
    goesOn (itemsText indent level l ++ (textNewline indent level' ++ '}' :: r)) = false := by
  cases l with
  | nil => rw [itemsText]; exact goesOn_close level' _ (.inr rfl) r
  | cons t l => obtain ⟨k, t⟩ := t; rw [itemsText]; cases indent <;> rfl

/-- The text `s` is read as `t`, whatever follows that does not go on with a number. -/
def ReadAs (s : Str) (t : Tree) : Prop :=
  ∀ k r, s.length + 1 ≤ k → goesOn r = false → readValue k (s ++ r) = some (t, r)

theorem readAs_str (s : Str) : ReadAs (jsonString s) (.str s) := by
  intro k r hk _
  cases k with
  | zero => omega
  | succ k =>
    have e : jsonString s ++ r = '"' :: (s.flatMap jsonEscape ++ '"' :: r) := by simp [jsonString]
    rw [e, readValue, skipBlank_of (by decide)]
    simp only [readString_jsonString]
    simp

theorem readAs_int (n : Int) : ReadAs (intStr n) (.int n) := by
  intro k r hk hr
  cases k with
  | zero => omega
  | succ k =>
    cases n with
    | ofNat n =>
      obtain ⟨h1, d, q, hd, e⟩ := readNatural_natStr n r hr
      have hc : ∀ d < 10, jsonBlank (digitChar d) = false ∧ digitChar d ≠ 'n' ∧ digitChar d ≠ 't' ∧
          digitChar d ≠ 'f' ∧ digitChar d ≠ '"' ∧ digitChar d ≠ '-' ∧ digitChar d ≠ '[' ∧
          digitChar d ≠ '{' := by decide
      obtain ⟨c0, c1, c2, c3, c4, c5, c6, c7⟩ := hc d hd
      show readValue (k + 1) (natStr n ++ r) = _
      rw [e] at h1 ⊢
      rw [List.cons_append] at h1 ⊢
      rw [readValue, skipBlank_of c0]
      simp only [if_neg c1, if_neg c2, if_neg c3, if_neg c4, if_neg c5, if_neg c6, if_neg c7, h1]
      rfl
    | negSucc n =>
      obtain ⟨h1, _⟩ := readNatural_natStr (n + 1) r hr
      show readValue (k + 1) ('-' :: (natStr (n + 1) ++ r)) = _
      rw [readValue, skipBlank_of (by decide)]
      simp only [h1]
      simp
      omega

theorem head_ne_blank {w : Str} (h : JsonBlanks w) {c d : Char} (s : Str) (hc : jsonBlank c = false)
    (hd : c ≠ d) : (skipBlank (w ++ c :: s)).head? ≠ some d := by
  rw [skipBlank_append h, skipBlank_of hc]
  simpa using hd

/-- The first character of a text. -/
theorem text_head (indent : Option Str) (level : Nat) (t : Tree) :
    ∃ c s, t.text indent level = c :: s ∧ jsonBlank c = false ∧ c ≠ ']' := by
  cases t with
  | null => exact ⟨_, _, rfl, by decide, by decide⟩
  | bool b => cases b <;> exact ⟨_, _, rfl, by decide, by decide⟩
  | int n =>
    cases n with
    | ofNat n =>
      obtain ⟨_, d, q, hd, e⟩ := readNatural_natStr n [] rfl
      have : ∀ d < 10, jsonBlank (digitChar d) = false ∧ digitChar d ≠ ']' := by decide
      refine ⟨digitChar d, q, ?_, this d hd⟩
      rw [Tree.text]
      exact e
    | negSucc n => exact ⟨_, _, rfl, by decide, by decide⟩
  | str s => exact ⟨'"', _, rfl, by decide, by decide⟩
  | arr l => cases l <;> exact ⟨_, _, rfl, by decide, by decide⟩
  | obj l => cases l <;> exact ⟨_, _, rfl, by decide, by decide⟩

mutual
theorem readAs_text {indent : Option Str} (hi : GoodIndent indent) : ∀ (level : Nat) (t : Tree),
    ReadAs (t.text indent level) t
  | level, .null => by
    intro k r hk _
    cases k with
    | zero => omega
    | succ k =>
      rw [Tree.text]
      show readValue (k + 1) ('n' :: 'u' :: 'l' :: 'l' :: r) = _
      rw [readValue, skipBlank_of (by decide)]
      simp
  | level, .bool true => by
    intro k r hk _
    cases k with
    | zero => omega
    | succ k =>
      rw [Tree.text]
      show readValue (k + 1) ('t' :: 'r' :: 'u' :: 'e' :: r) = _
      rw [readValue, skipBlank_of (by decide)]
      simp
  | level, .bool false => by
    intro k r hk _
    cases k with
    | zero => omega
    | succ k =>
      rw [Tree.text]
      show readValue (k + 1) ('f' :: 'a' :: 'l' :: 's' :: 'e' :: r) = _
      rw [readValue, skipBlank_of (by decide)]
      simp
  | level, .int n => by rw [Tree.text]; exact readAs_int n
  | level, .str s => by rw [Tree.text]; exact readAs_str s
  | level, .arr [] => by
    intro k r hk _
    cases k with
    | zero => omega
    | succ k =>
      rw [Tree.text]
      show readValue (k + 1) ('[' :: ']' :: r) = _
      rw [readValue, skipBlank_of (by decide)]
      simp [skipBlank_of (show jsonBlank ']' = false by decide)]
  | level, .arr (t :: l) => by
    intro k r hk _
    have ht := readAs_text hi (level + 1) t
    have hl := readElements_text hi (level + 1) level (t.text indent (level + 1)) t ht l
    rw [Tree.text] at hk ⊢
    simp only [List.length_append, List.length_cons, List.length_nil] at hk
    cases k with
    | zero => omega
    | succ k =>
      have e : '[' :: textNewline indent (level + 1) ++ t.text indent (level + 1)
          ++ treesText indent (level + 1) l ++ textNewline indent level ++ [']'] ++ r
        = '[' :: (textNewline indent (level + 1) ++ (t.text indent (level + 1)
          ++ (treesText indent (level + 1) l ++ (textNewline indent level ++ ']' :: r)))) := by
        simp
      rw [e, readValue, skipBlank_of (by decide)]
      obtain ⟨c, s, hc, hb, hne⟩ := text_head indent (level + 1) t
      have hn := head_ne_blank (blank_newline hi (level + 1)) (s ++ (treesText indent (level + 1) l
        ++ (textNewline indent level ++ ']' :: r))) hb hne
      rw [← List.cons_append, ← hc] at hn
      simp only [if_neg hn, readElements_blank k (blank_newline hi (level + 1)),
        hl k r (by omega)]
      simp
  | level, .obj [] => by
    intro k r hk _
    cases k with
    | zero => omega
    | succ k =>
      rw [Tree.text]
      show readValue (k + 1) ('{' :: '}' :: r) = _
      rw [readValue, skipBlank_of (by decide)]
      simp [skipBlank_of (show jsonBlank '}' = false by decide)]
  | level, .obj ((key, t) :: l) => by
    intro k r hk _
    have ht := readAs_text hi (level + 1) t
    have hl := readMembers_text hi (level + 1) level key (t.text indent (level + 1)) t ht l
    rw [Tree.text] at hk ⊢
    simp only [List.length_append, List.length_cons, List.length_nil] at hk
    cases k with
    | zero => omega
    | succ k =>
      have e : '{' :: textNewline indent (level + 1) ++ jsonString key ++ ": ".toList
          ++ t.text indent (level + 1)
          ++ itemsText indent (level + 1) l ++ textNewline indent level ++ ['}'] ++ r
        = '{' :: (textNewline indent (level + 1) ++ (jsonString key ++ (": ".toList
          ++ (t.text indent (level + 1)
          ++ (itemsText indent (level + 1) l ++ (textNewline indent level ++ '}' :: r)))))) := by
        simp
      rw [e, readValue, skipBlank_of (by decide)]
      have hn := head_ne_blank (blank_newline hi (level + 1)) (c := '"') (d := '}')
        (key.flatMap jsonEscape ++ ['"'] ++ (": ".toList
          ++ (t.text indent (level + 1)
          ++ (itemsText indent (level + 1) l ++ (textNewline indent level ++ '}' :: r)))))
          (by decide) (by decide)
      have e2 : '"' :: (key.flatMap jsonEscape ++ ['"'] ++ (": ".toList
          ++ (t.text indent (level + 1)
          ++ (itemsText indent (level + 1) l ++ (textNewline indent level ++ '}' :: r)))))
        = jsonString key ++ (": ".toList
          ++ (t.text indent (level + 1)
          ++ (itemsText indent (level + 1) l ++ (textNewline indent level ++ '}' :: r)))) := by
        simp [jsonString]
      rw [e2] at hn
      simp only [if_neg hn, readMembers_blank k (blank_newline hi (level + 1)),
        hl k r (by omega)]
      simp
theorem readElements_text {indent : Option Str} (hi : GoodIndent indent) (level level' : Nat)
    (s : Str) (t : Tree) (hs : ReadAs s t) : ∀ (l : List Tree) (k : Nat) (r : Str),
    s.length + (treesText indent level l).length + 2 ≤ k →
    readElements k (s ++ (treesText indent level l ++ (textNewline indent level' ++ ']' :: r))) =
      some (t :: l, r)
  | [], k, r, hk => by
    cases k with
    | zero => omega
    | succ k =>
      rw [treesText] at hk ⊢
      rw [List.nil_append, readElements,
        hs k _ (by simp at hk; omega) (goesOn_close level' _ (.inl rfl) r)]
      simp only [skipBlank_append (blank_newline hi level'),
        skipBlank_of (show jsonBlank ']' = false by decide)]
  | t2 :: l, k, r, hk => by
    cases k with
    | zero => omega
    | succ k =>
      have h2 := readAs_text hi level t2
      have hl := readElements_text hi level level' (t2.text indent level) t2 h2 l
      have hg := goesOn_trees (indent := indent) level level' (t2 :: l) r
      rw [readElements, hs k _ (by omega) hg]
      dsimp only
      obtain ⟨w, hw, e⟩ := textComma_eq hi level
      rw [treesText, e] at hk ⊢
      simp only [List.length_append, List.length_cons] at hk
      have e2 : ',' :: w ++ t2.text indent level ++ treesText indent level l
          ++ (textNewline indent level' ++ ']' :: r)
        = ',' :: (w ++ (t2.text indent level ++ (treesText indent level l
          ++ (textNewline indent level' ++ ']' :: r)))) := by simp
      rw [e2, skipBlank_of (by decide)]
      simp only [readElements_blank k hw, hl k r (by omega)]
      simp
theorem readMembers_text {indent : Option Str} (hi : GoodIndent indent) (level level' : Nat)
    (key : Str) (s : Str) (t : Tree) (hs : ReadAs s t) :
    ∀ (l : List (Str × Tree)) (k : Nat) (r : Str),
    s.length + (itemsText indent level l).length + 2 ≤ k →
    readMembers k (jsonString key ++ (": ".toList ++ (s ++ (itemsText indent level l
      ++ (textNewline indent level' ++ '}' :: r))))) = some ((key, t) :: l, r)
  | [], k, r, hk => by
    cases k with
    | zero => omega
    | succ k =>
      rw [itemsText] at hk ⊢
      have hv := hs k (textNewline indent level' ++ '}' :: r) (by simp at hk; omega)
        (goesOn_close level' _ (.inr rfl) r)
      have hb := readValue_blank k (w := [' ']) (by intro c hc; simp at hc; subst hc; rfl)
        (s ++ (textNewline indent level' ++ '}' :: r))
      have e : ∀ x, jsonString key ++ (": ".toList ++ x)
          = '"' :: (key.flatMap jsonEscape ++ '"' :: ':' :: ' ' :: x) := by simp [jsonString]
      rw [e, readMembers, skipBlank_of (by decide)]
      simp only [readString_jsonString, skipBlank_of (show jsonBlank ':' = false by decide)]
      simp only [List.nil_append, List.cons_append] at hb hv ⊢
      rw [hb, hv]
      simp only [skipBlank_append (blank_newline hi level'),
        skipBlank_of (show jsonBlank '}' = false by decide)]
  | (key2, t2) :: l, k, r, hk => by
    cases k with
    | zero => omega
    | succ k =>
      have h2 := readAs_text hi level t2
      have hl := readMembers_text hi level level' key2 (t2.text indent level) t2 h2 l
      have hg := goesOn_items (indent := indent) level level' ((key2, t2) :: l) r
      have hv := hs k _ (by omega) hg
      have hb := readValue_blank k (w := [' ']) (by intro c hc; simp at hc; subst hc; rfl)
        (s ++ (itemsText indent level ((key2, t2) :: l) ++ (textNewline indent level' ++ '}' :: r)))
      have e : ∀ x, jsonString key ++ (": ".toList ++ x)
          = '"' :: (key.flatMap jsonEscape ++ '"' :: ':' :: ' ' :: x) := by simp [jsonString]
      rw [e, readMembers, skipBlank_of (by decide)]
      simp only [readString_jsonString, skipBlank_of (show jsonBlank ':' = false by decide)]
      simp only [List.nil_append, List.cons_append] at hb
      rw [hb, hv]
      dsimp only
      obtain ⟨w, hw, ec⟩ := textComma_eq hi level
      rw [itemsText, ec] at hk ⊢
      simp only [List.length_append, List.length_cons] at hk
      have e2 : ',' :: w ++ jsonString key2 ++ ": ".toList ++ t2.text indent level
          ++ itemsText indent level l ++ (textNewline indent level' ++ '}' :: r)
        = ',' :: (w ++ (jsonString key2 ++ (": ".toList ++ (t2.text indent level
          ++ (itemsText indent level l ++ (textNewline indent level' ++ '}' :: r)))))) := by simp
      rw [e2, skipBlank_of (by decide)]
      simp only [readMembers_blank k hw, hl k r (by omega)]
      simp
end

/-- The text of a tree is read as this tree. -/
theorem readJson_text {indent : Option Str} (hi : GoodIndent indent) (t : Tree) :
    readJson (t.text indent 0) = some t := by
  have h := readAs_text hi 0 t ((t.text indent 0).length + 1) [] (Nat.le_refl _) rfl
  rw [List.append_nil] at h
  rw [readJson, h]
  rfl

/-! ### Characters -/

instance (c : Char) : Decidable (Printing c) := by unfold Printing; infer_instance

theorem printing_jsonHex (n : Nat) : Printing (jsonHex n) := by
  have h : ∀ m < 16, Printing (if m < 10 then Char.ofNat (48 + m) else Char.ofNat (87 + m)) := by
    decide
  exact h (n % 16) (Nat.mod_lt _ (by decide))

theorem printing_jsonU (n : Nat) : ∀ c ∈ jsonU n, Printing c := by
  intro c hc
  simp only [jsonU, List.mem_cons, List.not_mem_nil, or_false] at hc
  rcases hc with rfl | rfl | rfl | rfl | rfl | rfl
  · decide
  · decide
  all_goals exact printing_jsonHex _

theorem printing_jsonEscape (c : Char) : ∀ d ∈ jsonEscape c, Printing d := by
  unfold jsonEscape
  split
  · decide
  split
  · decide
  split
  · decide
  split
  · decide
  split
  · decide
  split
  · decide
  split
  · decide
  split
  · rename_i h
    intro d hd
    rw [List.mem_singleton] at hd
    subst hd
    exact h
  split
  · exact printing_jsonU _
  · intro d hd
    rcases List.mem_append.mp hd with hd | hd
    · exact printing_jsonU _ d hd
    · exact printing_jsonU _ d hd

theorem printing_jsonString (s : Str) : ∀ c ∈ jsonString s, Printing c := by
  intro c hc
  simp only [jsonString, List.mem_cons, List.mem_append, List.mem_flatMap, List.not_mem_nil,
    or_false, List.cons_append] at hc
  rcases hc with rfl | ⟨d, _, hd⟩ | rfl
  · decide
  · exact printing_jsonEscape d c hd
  · decide

theorem printing_intStr (n : Int) : ∀ c ∈ intStr n, Printing c := by
  have hn : ∀ n, ∀ c ∈ natStr n, Printing c := by
    intro n c hc
    obtain ⟨d, hd, rfl⟩ := List.mem_map.mp hc
    have : ∀ d < 10, Printing (digitChar d) := by decide
    exact this d (digits_lt (by omega) _ _ d hd)
  cases n with
  | ofNat n => exact hn n
  | negSucc n =>
    intro c hc
    rcases List.mem_cons.mp hc with rfl | hc
    · decide
    · exact hn _ c hc

/-- A character of a text: a printing one, or of a line break with its indentation. -/
def Allowed (indent : Option Str) (c : Char) : Prop :=
  Printing c ∨ ∃ i, indent = some i ∧ (c = '\n' ∨ c ∈ i)

theorem allowed_newline (indent : Option Str) (level : Nat) :
    ∀ c ∈ textNewline indent level, Allowed indent c := by
  intro c hc
  cases indent with
  | none => cases hc
  | some i =>
    refine .inr ⟨i, rfl, ?_⟩
    rcases List.mem_cons.mp hc with rfl | hc
    · exact .inl rfl
    · obtain ⟨l, hl, hcl⟩ := List.mem_flatten.mp hc
      rw [(List.mem_replicate.mp hl).2] at hcl
      exact .inr hcl

theorem allowed_comma (indent : Option Str) (level : Nat) :
    ∀ c ∈ textComma indent level, Allowed indent c := by
  intro c hc
  cases indent with
  | none =>
    have : ∀ c ∈ [',', ' '], Printing c := by decide
    exact .inl (this c hc)
  | some i =>
    rcases List.mem_cons.mp hc with rfl | hc
    · exact .inl (by decide)
    · exact allowed_newline _ _ c hc

theorem allowed_lit {indent : Option Str} {s : Str} (h : ∀ c ∈ s, Printing c) :
    ∀ c ∈ s, Allowed indent c := fun c hc => .inl (h c hc)

theorem allowed_append {indent : Option Str} {s s' : Str} (h : ∀ c ∈ s, Allowed indent c)
    (h' : ∀ c ∈ s', Allowed indent c) : ∀ c ∈ s ++ s', Allowed indent c := by
  intro c hc
  rcases List.mem_append.mp hc with hc | hc
  · exact h c hc
  · exact h' c hc

theorem allowed_cons {indent : Option Str} {a : Char} {s : Str} (h : Printing a)
    (h' : ∀ c ∈ s, Allowed indent c) : ∀ c ∈ a :: s, Allowed indent c := by
  intro c hc
  rcases List.mem_cons.mp hc with rfl | hc
  · exact .inl h
  · exact h' c hc

mutual
theorem allowed_text (indent : Option Str) : ∀ (level : Nat) (t : Tree),
    ∀ c ∈ t.text indent level, Allowed indent c
  | _, .null => by rw [Tree.text]; exact allowed_lit (by decide)
  | _, .bool true => by rw [Tree.text]; exact allowed_lit (by decide)
  | _, .bool false => by rw [Tree.text]; exact allowed_lit (by decide)
  | _, .int n => by rw [Tree.text]; exact allowed_lit (printing_intStr n)
  | _, .str s => by rw [Tree.text]; exact allowed_lit (printing_jsonString s)
  | _, .arr [] => by rw [Tree.text]; exact allowed_lit (by decide)
  | level, .arr (t :: l) => by
    rw [Tree.text]
    exact allowed_append (allowed_append (allowed_append (allowed_append
      (allowed_cons (by decide) (allowed_newline _ _)) (allowed_text indent _ t))
      (allowed_trees indent _ l)) (allowed_newline _ _)) (allowed_lit (by decide))
  | _, .obj [] => by rw [Tree.text]; exact allowed_lit (by decide)
  | level, .obj ((k, t) :: l) => by
    rw [Tree.text]
    exact allowed_append (allowed_append (allowed_append (allowed_append (allowed_append
      (allowed_append (allowed_cons (by decide) (allowed_newline _ _))
        (allowed_lit (printing_jsonString k))) (allowed_lit (by decide))) (allowed_text indent _ t))
      (allowed_items indent _ l)) (allowed_newline _ _)) (allowed_lit (by decide))
theorem allowed_trees (indent : Option Str) : ∀ (level : Nat) (l : List Tree),
    ∀ c ∈ treesText indent level l, Allowed indent c
  | _, [] => by rw [treesText]; intro c hc; cases hc
  | level, t :: l => by
    rw [treesText]
    exact allowed_append (allowed_append (allowed_comma _ _) (allowed_text indent _ t))
      (allowed_trees indent _ l)
theorem allowed_items (indent : Option Str) : ∀ (level : Nat) (l : List (Str × Tree)),
    ∀ c ∈ itemsText indent level l, Allowed indent c
  | _, [] => by rw [itemsText]; intro c hc; cases hc
  | level, (k, t) :: l => by
    rw [itemsText]
    exact allowed_append (allowed_append (allowed_append (allowed_append (allowed_comma _ _)
      (allowed_lit (printing_jsonString k))) (allowed_lit (by decide))) (allowed_text indent _ t))
      (allowed_items indent _ l)
end

end VgmX
