/-
How to read a CSV file. Does not mention the model.
-/

namespace VgmX.Spec

/-- Split at every `sep`. -/
def splitAt (sep : Char) : List Char → List (List Char)
  | [] => [[]]
  | c :: s =>
    if c = sep then [] :: splitAt sep s
    else
      match splitAt sep s with
      | [] => [[c]]
      | f :: fs => (c :: f) :: fs

/-- A text of newline-terminated lines as a table of fields; `none` if the last line is not
terminated. -/
def csvTable (text : List Char) : Option (List (List (List Char))) :=
  let ls := splitAt '\n' text
  if ls.getLast? = some [] then some (ls.dropLast.map (splitAt ',')) else none

end VgmX.Spec
