import Verif.Spec.Fold
import Verif.Spec.Depth
import Verif.Spec.Project

/-! # Replacing closed parts by others of the same value in the files of a project -/

namespace Over

section
variable [Unicode]

/-- The text `t'` comes from `t` by replacing closed parts by others with the same values, if `t` spells definitions (or, for files included as
`Arr` or `Tup`, values), and neither nests too deeply.  Or it is the same text. -/
def TextFolded (t t' : Str) : Prop :=
  t = t' ∨
  (∀ d, SpDoc d t → Field.levelsL d ≤ 63 ∧ ∃ d', SpDoc d' t' ∧ FoldDoc d d' ∧ Field.levelsL d' ≤ 63) ∧ (∀ d', SpDoc d' t' → ∃ d, SpDoc d t) ∧
  (∀ es, SpItems true es t → Expr.levelsL es ≤ 63 ∧ ∃ es', SpItems true es' t' ∧ FoldItems SameAlone es es' ∧ Expr.levelsL es' ≤ 63) ∧
  ∀ es', SpItems true es' t' → ∃ es, SpItems true es t

/-- `fs'` is the file system after closed parts of its files were replaced so: the paths lead where they led, and the same files can be
read. -/
structure FS.FoldedTo (fs fs' : FS) : Prop where
  resolve : fs'.resolve = fs.resolve
  utf8 : fs'.utf8 = fs.utf8
  openErr : fs'.openErr = fs.openErr
  files : ∀ c, StrMap.get fs'.nodes c = StrMap.get fs.nodes c ∨
    ∃ t t', StrMap.get fs.nodes c = some (.ok t) ∧ StrMap.get fs'.nodes c = some (.ok t') ∧ TextFolded t t'

end

end Over
