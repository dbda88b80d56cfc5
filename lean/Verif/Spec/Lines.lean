import Verif.Model.Value

/-!
# The lines of a written value

What `write_to_string` and `Display` print, said line by line and without any running indentation
counter: a container of two or more things is its opening bracket on a line, the lines of its contents
moved four spaces to the right, and its closing bracket on a line.
-/

namespace Over

/-- How one character of a string is spelled. -/
def escapeChar (c : Char) : Str :=
  if c = '\n' then c!"\\n"
  else if c = '\r' then c!"\\r"
  else if c = '\t' then c!"\\t"
  else if c = '\\' ∨ c = '"' ∨ c = '\'' ∨ c = '$' then ['\\', c]
  else [c]

/-- `s` put before the first of the lines. -/
def before (s : Str) : List Str → List Str
  | [] => [s]
  | l :: ls => (s ++ l) :: ls

/-- `s` put after the last of the lines. -/
def after (s : Str) : List Str → List Str
  | [] => [s]
  | [l] => [l ++ s]
  | l :: l' :: ls => l :: after s (l' :: ls)

/-- The lines four spaces to the right. -/
def shift (ls : List Str) : List Str := ls.map (c!"    " ++ ·)

mutual
/-- The lines of a value. -/
def Value.lines : Value → List Str
  | .null => [c!"null"]
  | .bool true => [c!"true"]
  | .bool false => [c!"false"]
  | .int i => [(toString i).toList]
  | .frac q =>
    if q.den = 1 then [(toString q.num).toList ++ c!".0"]
    else [(toString q.num).toList ++ c!"/" ++ (toString q.den).toList]
  | .str s => [c!"\"" ++ s.flatMap escapeChar ++ c!"\""]
  | .arr _ _ [] => [c!"[]"]
  | .arr _ _ [v] => before c!"[" (after c!"]" v.lines)
  | .arr _ _ vs => [c!"["] ++ shift (Value.linesL vs) ++ [c!"]"]
  | .tup _ _ [] => [c!"()"]
  | .tup _ _ [v] => before c!"(" (after c!")" v.lines)
  | .tup _ _ vs => [c!"("] ++ shift (Value.linesL vs) ++ [c!")"]
  | .obj o => o.lines
termination_by structural v => v
/-- The lines of several values, one value after the other. -/
def Value.linesL : List Value → List Str
  | [] => []
  | v :: vs => v.lines ++ Value.linesL vs
termination_by structural v => v
/-- The lines of some fields: the name, a colon and a space, and the value. -/
def Pair.linesL : List Pair → List Str
  | [] => []
  | .mk f v :: ps => before (f ++ c!": ") v.lines ++ Pair.linesL ps
termination_by structural v => v
/-- The lines of a parent. -/
def Obj.linesP : Option Obj → List Str
  | none => []
  | some q => before c!"^: " q.lines
termination_by structural v => v
/-- The lines of an object in braces: its parent first, then its fields. -/
def Obj.lines : Obj → List Str
  | .mk _ ps par =>
    if ps = [] ∧ par = none then [c!"{}"]
    else [c!"{"] ++ shift (Obj.linesP par ++ Pair.linesL ps) ++ [c!"}"]
termination_by structural v => v
end

/-- The lines of a document: those of an object without the braces. -/
def Obj.inner : Obj → List Str
  | .mk _ ps par => Obj.linesP par ++ Pair.linesL ps

/-- Every line followed by a newline. -/
def unlines (ls : List Str) : Str := ls.flatMap (· ++ c!"\n")

/-- A line as an editor would like it: some multiple of four spaces, then something that neither
begins nor ends in a space, with no control characters of layout anywhere. -/
def TidyLine (l : Str) : Prop :=
  ∃ k body, l = List.replicate (4 * k) ' ' ++ body ∧ body ≠ [] ∧
    body.head? ≠ some ' ' ∧ body.getLast? ≠ some ' ' ∧ '\n' ∉ l ∧ '\r' ∉ l ∧ '\t' ∉ l

end Over
