import Verif.Model.State
import Verif.Model.Float
import Verif.Model.Text
/-
Model of `State.ticks_per_note`, src/vgm/ym2151/state.py:166-224: the result, and what it
prints (progress dots and the table of the ten best estimates).
-/

namespace VgmX

/-- Where the merge loop of state.py:186-199 stands: at the first inner `while`, at the
second, or at the `if t == s`. -/
inductive MergePc where
  | whileT | whileS | ifEq
  deriving DecidableEq, Repr

/-- The merge loop, state.py:182-202. `ticks[i]?` is list indexing, `none` being the
`IndexError` that ends the loop with the current `sym_diff`. The result is `none` only
if the bound `fuel` is hit (never, see `c27_score`). -/
def mergeLoop (ticks : List Nat) (shift : Nat) :
    Nat → MergePc → (tIdx sIdx t s symDiff : Nat) → Option Nat
  | 0, _, _, _, _, _, _ => none
  | fuel + 1, .whileT, tIdx, sIdx, t, s, d =>
    if t < s then
      match ticks[tIdx + 1]? with
      | none => some (d + 1)
      | some t' => mergeLoop ticks shift fuel .whileT (tIdx + 1) sIdx t' s (d + 1)
    else mergeLoop ticks shift fuel .whileS tIdx sIdx t s d
  | fuel + 1, .whileS, tIdx, sIdx, t, s, d =>
    if s < t then
      match ticks[sIdx + 1]? with
      | none => some (d + 1)
      | some s' => mergeLoop ticks shift fuel .whileS tIdx (sIdx + 1) t (s' + shift) (d + 1)
    else mergeLoop ticks shift fuel .ifEq tIdx sIdx t s d
  | fuel + 1, .ifEq, tIdx, sIdx, t, s, d =>
    if t = s then
      match ticks[tIdx + 1]? with
      | none => some d
      | some t' =>
        match ticks[sIdx + 1]? with
        | none => some d
        | some s' => mergeLoop ticks shift fuel .whileT (tIdx + 1) (sIdx + 1) t' (s' + shift) d
    else mergeLoop ticks shift fuel .whileT tIdx sIdx t s d

/-- One value of `sym_diff`, state.py:178-202: with no ticks, `ticks[0]` raises at once. -/
def symDiff (ticks : List Nat) (shift : Nat) : Option Nat :=
  match ticks[0]? with
  | none => some 0
  | some t => mergeLoop ticks shift (8 * ticks.length + 8) .whileT 0 0 t (t + shift) 0

/-- `[x for x in ..]` over results that may raise. (Python semantics, for state.py:215-218.) -/
def mapExcept {α β : Type} (f : α → Except PyErr β) : List α → Except PyErr (List β)
  | [] => .ok []
  | a :: l =>
    match f a with
    | .error e => .error e
    | .ok b =>
      match mapExcept f l with
      | .error e => .error e
      | .ok bs => .ok (b :: bs)

/-- `off_start`, `off_end`, `top_ticks`, state.py:169-173. -/
def offStart : Nat := 1000
/-- See `offStart`. (state.py:170.) -/
def offEnd : Nat := 8000
/-- See `offStart`. (state.py:172-173.) -/
def topTicks : Nat := offEnd * 4

/-- `corr`, state.py:178-202. -/
def corr (ticks : List Nat) : List Nat :=
  (List.range (offEnd - offStart)).map
    (fun i => (symDiff ticks (offStart + i)).getD 0)

/-- `top`, state.py:214-220: the candidates with their ratio of mismatches, best first. -/
def State.estimates (s : State) : Except PyErr (List (Nat × F64)) :=
  let ticks := s.ticks.filter (fun t => decide (t < topTicks))
  let c := corr ticks
  -- `[(idx + off_start, c / (len(ticks) * 2 - 1)) for idx, c in enumerate(corr)]`
  match mapExcept
      (fun ic : Nat × Nat =>
        (intTrueDiv (ic.2 : Int) ((ticks.length : Int) * 2 - 1)).map
          (fun p => (ic.1 + offStart, p)))
      (c.zipIdx.map (fun x => (x.2, x.1))) with
  | .error e => .error e
  | .ok l => .ok (pySorted (fun a b : Nat × F64 => a.2.lt b.2) l)

/-- `State.ticks_per_note`, state.py:166-224: the result. For what it prints see
`State.ticksReport`. -/
def State.ticksPerNote (s : State) : Except PyErr Nat :=
  match s.estimates with
  | .error e => .error e
  | .ok [] => .error .index
  | .ok (top :: _) => .ok top.1

/-- One round of the progress display, state.py:205-210, after `i` of `total` rounds: a dot if
the float `((shift - off_start) / (off_end - off_start)) * 100` exceeds the int `progress`. -/
def progressStep (total : Nat) (st : Nat × Str) (i : Nat) : Nat × Str :=
  match intTrueDiv (i : Int) (total : Int) with
  | .ok x => if (F64.fin (st.1 : Rat)).lt (x.mulNat 100) then (st.1 + 10, st.2 ++ ['.']) else st
  | .error _ => st

/-- The progress dots of `total` rounds, state.py:176 and 205-210, with `show_progress=True`. -/
def progressFold (total : Nat) : Str :=
  ((List.range total).foldl (progressStep total) (0, [])).2

/-- The progress dots of the `off_end - off_start` rounds, state.py:169-170, 178 and 205-210. -/
def progressDots : Str := progressFold (offEnd - offStart)

/-- `1 - prob`, state.py:223. -/
def F64.oneSub : F64 → F64
  | .fin q => .ofExact (1 - q)
  | .inf s => .inf (!s)

/-- `f"{x:.2f}"`: the exact value rounded to hundredths, ties to even. (state.py:223.) -/
def fmtFixed2 : F64 → Str
  | .fin q =>
    let n := (roundHalfEven ((if q < 0 then -q else q) * 100)).toNat
    (if q < 0 then ['-'] else []) ++ natStr (n / 100) ++ ['.'] ++ padLeft '0' 2 (natStr (n % 100))
  | .inf s => (if s then ['-'] else []) ++ ['i', 'n', 'f']

/-- `f"{length}: {(1-prob)*100:.2f}%"` and the line end, state.py:223. -/
def estimateLine (x : Nat × F64) : Str :=
  natStr x.1 ++ [':', ' '] ++ fmtFixed2 (x.2.oneSub.mulNat 100) ++ ['%', '\n']

/-- What `ticks_per_note(show_progress=True)` prints, state.py:205-213 and 221-223: the dots,
and the ten best candidates (unless computing them raises). -/
def State.ticksReport (s : State) : Str :=
  progressDots ++ ['\n'] ++
    match s.estimates with
    | .error _ => []
    | .ok top => "Ticks Per Note estimates:".toList ++ ['\n'] ++ (top.take 10).flatMap estimateLine

end VgmX
