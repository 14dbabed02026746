import Verif.Model.Reader
/-
IEEE-754 binary64 as used by CPython, for the few operations in
`extractors.extract_tracks_to_xrns` (src/extractors.py:23-26) and
`State.ticks_per_note` (src/vgm/ym2151/state.py:216).

A finite double is represented by the rational number it denotes. Simplifications: the two
signed zeros are one value (nothing in the code tells them apart), and there is no NaN (the
operations below never produce one from the arguments they get).
-/

namespace VgmX

/-- `2 ^ k` (no counterpart in the code).
(IEEE 754, for src/extractors.py:23-26 and src/vgm/ym2151/state.py:216.) -/
def pow2 : Int → Rat
  | .ofNat n => ((2 ^ n : Nat) : Rat)
  | .negSucc n => 1 / ((2 ^ (n + 1) : Nat) : Rat)

/-- Round to the nearest integer, ties to even (IEEE 754, 4.3.1).
(IEEE 754, for src/extractors.py:23-26 and src/vgm/ym2151/state.py:216.) -/
def roundHalfEven (q : Rat) : Int :=
  let f := q.floor
  let r := q - (f : Rat)
  if r < 1 / 2 then f
  else if 1 / 2 < r then f + 1
  else if f % 2 = 0 then f else f + 1

/-- The exponent `k` with `2 ^ k ≤ q < 2 ^ (k + 1)`, for `q > 0`.
(IEEE 754, for src/extractors.py:23-26 and src/vgm/ym2151/state.py:216.) -/
def ilog2 (q : Rat) : Int :=
  let k : Int := (Nat.log2 q.num.natAbs : Int) - (Nat.log2 q.den : Int)
  if pow2 k ≤ q then k else k - 1

/-- Round to 53 significant bits, with gradual underflow below `2 ^ -1022`; no bound on
the exponent above. (IEEE 754, for src/extractors.py:23-26 and src/vgm/ym2151/state.py:216.) -/
def roundDouble (q : Rat) : Rat :=
  if q = 0 then 0
  else
    let ulp := pow2 (max (ilog2 (if q < 0 then -q else q) - 52) (-1074))
    (roundHalfEven (q / ulp) : Rat) * ulp

/-- A `float`: a finite double, or an infinity.
(IEEE 754, for src/extractors.py:23-26 and src/vgm/ym2151/state.py:216.) -/
inductive F64 where
  | fin (q : Rat)
  | inf (negative : Bool)
  deriving DecidableEq

/-- Does the rounded value exceed the largest finite double?
(IEEE 754, for src/extractors.py:23-26 and src/vgm/ym2151/state.py:216.) -/
def tooLarge (q : Rat) : Bool := decide (pow2 1024 ≤ q) || decide (q ≤ -pow2 1024)

/-- Rounding of an exact result of a float operation: overflow gives an infinity.
(IEEE 754, for src/extractors.py:23-26 and src/vgm/ym2151/state.py:216.) -/
def F64.ofExact (q : Rat) : F64 :=
  let r := roundDouble q
  if tooLarge r then .inf (decide (q < 0)) else .fin r

/-- `int / int` (CPython `long_true_divide`): correctly rounded, raising on a zero divisor
and when the result is too large. (src/extractors.py:23, src/vgm/ym2151/state.py:216.) -/
def intTrueDiv (a b : Int) : Except PyErr F64 :=
  if b = 0 then .error .zeroDivision
  else
    let r := roundDouble ((a : Rat) / (b : Rat))
    if tooLarge r then .error .overflow else .ok (.fin r)

/-- `x * n` for a float `x` and a small positive int `n`. (src/extractors.py:24.) -/
def F64.mulNat (x : F64) (n : Nat) : F64 :=
  match x with
  | .fin q => .ofExact (q * (n : Rat))
  | .inf s => .inf s

/-- `n / x` for a small non-negative int `n` and a float `x`. (src/extractors.py:25.) -/
def natDivF64 (n : Nat) (x : F64) : Except PyErr F64 :=
  match x with
  | .fin q => if q = 0 then .error .zeroDivision else .ok (.ofExact ((n : Rat) / q))
  | .inf _ => .ok (.fin 0)

/-- `int(x)`: truncation toward zero; raises for infinities. (src/extractors.py:26.) -/
def F64.toInt (x : F64) : Except PyErr Int :=
  match x with
  | .fin q => .ok (if q < 0 then -((-q).floor) else q.floor)
  | .inf _ => .error .overflow

/-- `x < y` for finite floats and infinities. (src/vgm/ym2151/state.py:214-220.) -/
def F64.lt : F64 → F64 → Bool
  | .fin a, .fin b => decide (a < b)
  | .inf a, .inf b => a && !b
  | .inf a, .fin _ => a
  | .fin _, .inf b => !b

end VgmX
