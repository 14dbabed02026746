import Verif.Model.Encoder
/-
How to read a JSON text: the grammar of RFC 8259, with numbers that are integers (others are
rejected). Of the model only the type of trees is used.
-/

namespace VgmX.Spec

/-- White space: section 2. -/
def jsonBlank (c : Char) : Bool := c = ' ' || c = '\t' || c = '\n' || c = '\r'

/-- Without the white space at the front. -/
def skipBlank : List Char → List Char
  | [] => []
  | c :: s => if jsonBlank c then skipBlank s else c :: s

/-- A hexadecimal digit, large or small. -/
def hexValue (c : Char) : Option Nat :=
  if '0' ≤ c ∧ c ≤ '9' then some (c.toNat - 48)
  else if 'a' ≤ c ∧ c ≤ 'f' then some (c.toNat - 87)
  else if 'A' ≤ c ∧ c ≤ 'F' then some (c.toNat - 55)
  else none

/-- Four hexadecimal digits at the front. -/
def readHex4 : List Char → Option (Nat × List Char)
  | a :: b :: c :: d :: r =>
    match hexValue a, hexValue b, hexValue c, hexValue d with
    | some a, some b, some c, some d => some (((a * 16 + b) * 16 + c) * 16 + d, r)
    | _, _, _, _ => none
  | _ => none

/-- What follows `\u`: a character of the basic plane, or a surrogate pair. -/
def readUnicode (s : List Char) : Option (Char × List Char) :=
  match readHex4 s with
  | none => none
  | some (n, r) =>
    if n < 0xD800 ∨ 0xE000 ≤ n then some (Char.ofNat n, r)
    else if n < 0xDC00 then
      match r with
      | '\\' :: 'u' :: r' =>
        match readHex4 r' with
        | some (m, r'') =>
          if 0xDC00 ≤ m ∧ m < 0xE000 then
            some (Char.ofNat (0x10000 + (n - 0xD800) * 0x400 + (m - 0xDC00)), r'')
          else none
        | none => none
      | _ => none
    else none

/-- What follows a backslash: section 7. -/
def readEscape : List Char → Option (Char × List Char)
  | '"' :: r => some ('"', r)
  | '\\' :: r => some ('\\', r)
  | '/' :: r => some ('/', r)
  | 'b' :: r => some (Char.ofNat 8, r)
  | 'f' :: r => some (Char.ofNat 12, r)
  | 'n' :: r => some ('\n', r)
  | 'r' :: r => some ('\r', r)
  | 't' :: r => some ('\t', r)
  | 'u' :: r => readUnicode r
  | _ => none

/-- A string after its opening quote: what it says and what follows the closing one. (The first
argument bounds the number of characters.) -/
def readString : Nat → List Char → Option (List Char × List Char)
  | 0, _ => none
  | _ + 1, [] => none
  | k + 1, c :: r =>
    if c = '"' then some ([], r)
    else if c = '\\' then
      match readEscape r with
      | none => none
      | some (d, r') => (readString k r').map (fun x => (d :: x.1, x.2))
    else if c.toNat < 0x20 then none
    else (readString k r).map (fun x => (c :: x.1, x.2))

/-- A decimal digit. -/
def isFigure (c : Char) : Bool := '0' ≤ c && c ≤ '9'

/-- The digits at the front, after some that make `n`. -/
def readDigits (n : Nat) : List Char → Nat × List Char
  | [] => (n, [])
  | c :: r => if isFigure c then readDigits (n * 10 + (c.toNat - 48)) r else (n, c :: r)

/-- Does a fraction, an exponent or another digit follow? -/
def goesOn : List Char → Bool
  | [] => false
  | c :: _ => isFigure c || c = '.' || c = 'e' || c = 'E'

/-- A natural number without leading zeros: section 6. -/
def readNatural : List Char → Option (Nat × List Char)
  | [] => none
  | c :: r =>
    if isFigure c then
      let x := if c = '0' then (0, r) else readDigits (c.toNat - 48) r
      if goesOn x.2 then none else some x
    else none

mutual
/-- A value at the front, and what follows it: section 3. (The first argument bounds the depth of
the recursion.) -/
def readValue : Nat → List Char → Option (Tree × List Char)
  | 0, _ => none
  | k + 1, s =>
    match skipBlank s with
    | [] => none
    | c :: r =>
      if c = 'n' then
        match r with
        | 'u' :: 'l' :: 'l' :: r' => some (.null, r')
        | _ => none
      else if c = 't' then
        match r with
        | 'r' :: 'u' :: 'e' :: r' => some (.bool true, r')
        | _ => none
      else if c = 'f' then
        match r with
        | 'a' :: 'l' :: 's' :: 'e' :: r' => some (.bool false, r')
        | _ => none
      else if c = '"' then (readString (r.length + 1) r).map (fun x => (.str x.1, x.2))
      else if c = '-' then (readNatural r).map (fun x => (.int (-(x.1 : Int)), x.2))
      else if c = '[' then
        if (skipBlank r).head? = some ']' then some (.arr [], (skipBlank r).tail)
        else (readElements k r).map (fun x => (.arr x.1, x.2))
      else if c = '{' then
        if (skipBlank r).head? = some '}' then some (.obj [], (skipBlank r).tail)
        else (readMembers k r).map (fun x => (.obj x.1, x.2))
      else (readNatural (c :: r)).map (fun x => (.int x.1, x.2))
/-- One or more values separated by commas, up to `]`: section 5. -/
def readElements : Nat → List Char → Option (List Tree × List Char)
  | 0, _ => none
  | k + 1, s =>
    match readValue k s with
    | none => none
    | some (t, r) =>
      match skipBlank r with
      | ',' :: r' => (readElements k r').map (fun x => (t :: x.1, x.2))
      | ']' :: r' => some ([t], r')
      | _ => none
/-- One or more `"key": value` separated by commas, up to `}`: section 4. -/
def readMembers : Nat → List Char → Option (List (Str × Tree) × List Char)
  | 0, _ => none
  | k + 1, s =>
    match skipBlank s with
    | '"' :: r =>
      match readString (r.length + 1) r with
      | none => none
      | some (key, r1) =>
        match skipBlank r1 with
        | ':' :: r2 =>
          match readValue k r2 with
          | none => none
          | some (t, r3) =>
            match skipBlank r3 with
            | ',' :: r' => (readMembers k r').map (fun x => ((key, t) :: x.1, x.2))
            | '}' :: r' => some ([(key, t)], r')
            | _ => none
        | _ => none
    | _ => none
end

/-- A JSON text: one value, with white space around it. -/
def readJson (s : List Char) : Option Tree :=
  match readValue (s.length + 1) s with
  | some (t, r) => if skipBlank r = [] then some t else none
  | none => none

/-- A printing ASCII character: from a space to a tilde. -/
def Printing (c : Char) : Prop := 0x20 ≤ c.toNat ∧ c.toNat ≤ 0x7e

/-- The `indent` argument of `json.dumps`: `None`, or white space. -/
def GoodIndent (indent : Option Str) : Prop := ∀ i, indent = some i → ∀ c ∈ i, jsonBlank c = true

end VgmX.Spec
