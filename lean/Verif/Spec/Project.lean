import Verif.Spec.Eval
import Verif.Spec.Layout

/-!
# Respelling the files of a project
-/

namespace Over

section
variable [Unicode]

/-- Two texts spell the same documents and, for files included as `Arr` or `Tup`, the same sequences of values. -/
def SpelledAlike (t t' : Str) : Prop :=
  (∀ d, SpDoc d t ↔ SpDoc d t') ∧ ∀ es, SpItems true es t ↔ SpItems true es t'

/-- `fs'` is the file system after some files were spelled in another way: the paths lead where they led, and every
file is as it was, or has got a text that spells the same. -/
structure FS.Respelled (fs fs' : FS) : Prop where
  resolve : fs'.resolve = fs.resolve
  utf8 : fs'.utf8 = fs.utf8
  openErr : fs'.openErr = fs.openErr
  files : ∀ c, StrMap.get fs'.nodes c = StrMap.get fs.nodes c ∨
    ∃ t t', StrMap.get fs.nodes c = some (.ok t) ∧ StrMap.get fs'.nodes c = some (.ok t') ∧ SpelledAlike t t'

end

mutual
/-- An include reads the bare text of a file only in the form `<Str "path">`, with a path that satisfies `P`: the kind of
every other include is left out, or is one of the words `Obj`, `Arr` and `Tup`.  (A kind that begins with a string
literal is an error.) -/
def Term.barely (P : Str → Prop) : Term → Prop
  | .str _ => True
  | .int _ => True
  | .frac _ => True
  | .name _ => True
  | .dot _ t => t.barely P
  | .neg t => t.barely P
  | .pos t => t.barely P
  | .arr es => Expr.barelyL P es
  | .tup es => Expr.barelyL P es
  | .obj fds => Field.barely P fds
  | .incl e => e.barely P
  | .inclAs (.mk (.name k) []) e =>
    (k = c!"Str" ∧ ∃ p, e = .mk (.str p) [] ∧ P p) ∨ (k ∈ [c!"Obj", c!"Arr", c!"Tup"] ∧ e.barely P)
  | .inclAs (.mk (.str _) r) e => OpTerm.barelyL P r ∧ e.barely P
  | .inclAs _ _ => False
termination_by structural t => t
/-- … in an operator chain. -/
def Expr.barely (P : Str → Prop) : Expr → Prop
  | .mk t r => t.barely P ∧ OpTerm.barelyL P r
termination_by structural t => t
/-- … in the rest of a chain. -/
def OpTerm.barelyL (P : Str → Prop) : List OpTerm → Prop
  | [] => True
  | .mk _ t :: r => t.barely P ∧ OpTerm.barelyL P r
termination_by structural t => t
/-- … in a sequence of values. -/
def Expr.barelyL (P : Str → Prop) : List Expr → Prop
  | [] => True
  | e :: es => e.barely P ∧ Expr.barelyL P es
termination_by structural t => t
/-- … in a sequence of definitions. -/
def Field.barely (P : Str → Prop) : List Field → Prop
  | [] => True
  | .mk _ e :: fds => e.barely P ∧ Field.barely P fds
termination_by structural t => t
end

/-- What the path `p`, written in the given file, leads to has the same text in both file systems. -/
def KeptIn (fs fs' : FS) (file : Option Str) (p : Str) : Prop := fs'.read (meantIn file p) = fs.read (meantIn file p)

section
variable [Unicode]

/-- Whatever the text spells, only files that are the same in both file systems are included as `Str`. -/
def BareTextsKept (fs fs' : FS) (file : Option Str) (text : Str) : Prop :=
  (∀ d, SpDoc d text → Field.barely (KeptIn fs fs' file) d) ∧
  ∀ es, SpItems true es text → Expr.barelyL (KeptIn fs fs' file) es

/-- … in the texts of all files. -/
def FS.BareTextsKept (fs fs' : FS) : Prop :=
  ∀ path text, fs.read path = .ok text → Over.BareTextsKept fs fs' (some path) text

end

/-! ## The same without trees -/

/-- `fs'` is the file system after some files were laid out anew: the paths lead where they led, and every file is as it
was, or has got a text that differs only in layout. -/
structure FS.RelaidTo (fs fs' : FS) : Prop where
  resolve : fs'.resolve = fs.resolve
  utf8 : fs'.utf8 = fs.utf8
  openErr : fs'.openErr = fs.openErr
  files : ∀ c, StrMap.get fs'.nodes c = StrMap.get fs.nodes c ∨
    ∃ t t', StrMap.get fs.nodes c = some (.ok t) ∧ StrMap.get fs'.nodes c = some (.ok t') ∧ RelaidDoc t t'

/-- Every `<` in the text is followed by `"` directly: the includes are of the form `<"path">`. -/
def PlainText (text : Str) : Prop := ∀ u v, text = u ++ '<' :: v → v.head? = some '"'

end Over
