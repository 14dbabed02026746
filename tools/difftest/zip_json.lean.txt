import Verif
open VgmX
def hexv (c : Char) : Nat := if c.isDigit then c.toNat - 48 else c.toNat - 87
def unb (s : String) : List UInt8 :=
  let rec go : List Char → List UInt8
    | a :: b :: r => UInt8.ofNat (((hexv a)*16 + hexv b)) :: go r
    | _ => []
  go s.toList
def hexB (s : List UInt8) : String :=
  String.join (s.map fun b => 
    let d := fun n => String.singleton ((Nat.digitChar n))
    d (b.toNat/16) ++ d (b.toNat%16))
def zipLine (l : String) : String :=
  match l.splitOn " " with
  | [y,mo,d,h,mi,s,x] =>
    let t : DateTime := ⟨y.toNat!,mo.toNat!,d.toNat!,h.toNat!,mi.toNat!,s.toNat!⟩
    let txt := (String.fromUTF8! ⟨(unb x).toArray⟩).toList
    let (r, b) := zipSingle (fun _ _ _ => (.error .type, [])) t (utf8 "Song.xml".toList) (utf8 txt)
    (match r with | .ok _ => "ok" | .error .value => "ValueError" | .error .struct => "error" | _ => "?") ++ " " ++ hexB b
  | _ => "??"
instance : Inhabited Json := ⟨.num 0⟩
mutual
partial def pj : List String → Json × List String
  | [] => (.num 0, [])
  | t :: r =>
    match t.toList with
    | 'n' :: d => (.num (String.ofList d).toNat!, r)
    | 't' :: _ => (.bool true, r)
    | 'f' :: _ => (.bool false, r)
    | 's' :: d => (.str d, r)
    | 'a' :: d => let (l, r) := pl (String.ofList d).toNat! r; (.arr (.ofList l), r)
    | 'o' :: d => let (l, r) := po (String.ofList d).toNat! r; (.obj (.ofList l), r)
    | _ => (.num 0, r)
partial def pl : Nat → List String → List Json × List String
  | 0, r => ([], r)
  | n+1, r => let (a, r) := pj r; let (l, r) := pl n r; (a :: l, r)
partial def po : Nat → List String → List (Str × Json) × List String
  | 0, r => ([], r)
  | n+1, r => let k := (r.headD "").toList.drop 1; let (a, r) := pj (r.drop 1); let (l, r) := po n r; ((k, a) :: l, r)
end
def jsLine (l : String) : String := hexB (asciiBytes ((pj (l.splitOn " ")).1.dump 0))
def check (f : String → String) (i e : String) : IO Unit := do
  let ins := (← IO.FS.readFile i).splitOn "\n"
  let ex := (← IO.FS.readFile e).splitOn "\n"
  let mut bad := 0
  for (a, b) in (ins.zip ex).dropLast do
    let r := f a
    if r ≠ b then
      bad := bad + 1
      if bad < 5 then IO.println s!"MISMATCH in={a}\n model={r}\n python={b}"
  IO.println s!"{i}: {ins.length - 1} cases, {bad} mismatches"
def main : IO Unit := do
  check zipLine "/tmp/diff/zip.in" "/tmp/diff/zip.exp"
  check jsLine "/tmp/diff/js.in" "/tmp/diff/js.exp"
