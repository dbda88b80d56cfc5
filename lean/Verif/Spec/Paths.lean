import Verif.Model.Parser

/-!
# Paths relative to a file
-/

namespace Over

/-- The path `p` as meant in the file `f`: relative to the directory of `f`. -/
def beside (f p : Str) : Str := pathJoin ((pathParent f).getD []) p

/-- The path `p` as meant in a file, or in a text that is not in a file: then relative to the working directory. -/
def meantIn : Option Str → Str → Str
  | some f, p => beside f p
  | none, p => p

/-- The text between the slashes. -/
def splitSlash : Str → List Str
  | [] => [[]]
  | '/' :: r => [] :: splitSlash r
  | c :: r => match splitSlash r with
    | x :: xs => (c :: x) :: xs
    | [] => [[c]]

/-- The steps of a path: the names between its slashes; `a//b` and `a/./b` are other ways to write `a/b`. -/
def segments (p : Str) : List Str := (splitSlash p).filter fun x => x ≠ [] ∧ x ≠ c!"."

/-- The path begins at the root. -/
def Absolute (p : Str) : Prop := p.head? = some '/'

/-- One step of a path, as it is normally written. -/
structure StepName (x : Str) : Prop where
  noSlash : '/' ∉ x
  nonempty : x ≠ []
  notHere : x ≠ c!"."

/-- A directory as it is normally written: nothing (the working directory), or a path to it that ends in a name, with a slash. -/
inductive DirText : Str → Prop
  | here : DirText []
  | root : DirText c!"/"
  | sub {d x : Str} : DirText d → StepName x → DirText (d ++ x ++ c!"/")

end Over
