import Verif
open VgmX
def unhex (s : String) : String :=
  let rec go : List Char → List UInt8
    | a :: b :: r => UInt8.ofNat (((hexv a)*16 + hexv b)) :: go r
    | _ => []
  String.fromUTF8! ⟨(go s.toList).toArray⟩
where hexv (c : Char) : Nat := if c.isDigit then c.toNat - 48 else c.toNat - 87
def hexOf (s : String) : String :=
  String.join (s.toUTF8.toList.map fun b => 
    let d := fun n => String.singleton ((Nat.digitChar n))
    d (b.toNat/16) ++ d (b.toNat%16))
def optS : Option Str → String
  | none => "N" | some s => "S" ++ hexOf (String.ofList s)
def argLine (l : String) : String :=
  let argv := (l.splitOn " ").filter (· ≠ "") |>.map fun x => (unhex (x.drop 1).toString).toList
  match parseArgs ⟨fun _ => false, fun _ => none⟩ argv with
  | .error .help => "exit 0"
  | .error .usage => "exit 2"
  | .ok ns => "ok|" ++ "|".intercalate [optS ns.file, optS ns.instr, optS ns.track] ++ "|" ++ (match ns.ticks with | none => "N" | some z => toString z)
def flLine (l : String) : String :=
  match l.splitOn " " with
  | [a, b] =>
    let a := a.toNat!; let b := b.toInt!
    let f := match fractionText a b with | .ok s => String.ofList s | .error _ => "err"
    let bp := match bpmOf b with | .ok s => toString s | .error .zeroDivision => "ZeroDivisionError" | .error .overflow => "OverflowError" | .error _ => "err"
    let r := Int.fdiv a b
    s!"{f} {bp} {r} {Int.fmod r 64} {Int.fdiv r 64}"
  | _ => "?"
def check (f : String → String) (i e : String) : IO Unit := do
  let ins := (← IO.FS.readFile i).splitOn "\n"
  let ex := (← IO.FS.readFile e).splitOn "\n"
  let mut bad := 0
  for (a, b) in (ins.zip ex).dropLast do
    let r := f a
    if r ≠ b then
      bad := bad + 1
      if bad < 15 then IO.println s!"MISMATCH in={a} model={r} python={b}"
  IO.println s!"{i}: {ins.length - 1} cases, {bad} mismatches"
def main : IO Unit := do
  check argLine "/tmp/diff/args.in" "/tmp/diff/args.exp"
  check flLine "/tmp/diff/fl.in" "/tmp/diff/fl.exp"
