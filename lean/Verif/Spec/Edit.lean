import Verif.Model.Parser

/-!
# Editing a file
-/

namespace Over

/-- `fs'` is the file system after the regular file that `path` leads to was given the text `text`: the paths lead where
they led, the other files have not changed. -/
structure FS.Edited (fs : FS) (path text : Str) (fs' : FS) : Prop where
  resolve : fs'.resolve = fs.resolve
  utf8 : fs'.utf8 = fs.utf8
  target : ∃ full, fs.resolve path = some full ∧ (StrMap.get fs.nodes full).isSome = true ∧
    StrMap.get fs'.nodes full = some (.ok text)
  others : ∀ c, fs.resolve path ≠ some c → StrMap.get fs'.nodes c = StrMap.get fs.nodes c

/-- A file system in which one file has got another text. -/
def FS.edit (fs : FS) (path text : Str) : FS :=
  { fs with nodes := match fs.resolve path with
      | some full => (full, .ok text) :: fs.nodes
      | none => fs.nodes }

end Over
