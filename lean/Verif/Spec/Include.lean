import Verif.Spec.Paths
import Verif.Spec.Place
import Verif.Spec.Sample
import Verif.Spec.Syntax

/-!
# Vocabulary for includes
-/

namespace Over

/-- The keyword of an include. -/
def IncKind.word : IncKind → Str
  | .obj => c!"Obj"
  | .str => c!"Str"
  | .arr => c!"Arr"
  | .tup => c!"Tup"

/-- The text of an include: `<"…">`, or `<Kind "…">`.  The second argument is the text between the quotes. -/
def includeText : Option IncKind → Str → Str
  | none, b => c!"<\"" ++ b ++ c!"\">"
  | some k, b => c!"<" ++ k.word ++ c!" \"" ++ b ++ c!"\">"

/-- The path leads to the regular file with the canonical path `F`, which can be written in UTF-8. -/
def Leads (fs : FS) (path F : Str) : Prop :=
  fs.resolve path = some F ∧ (∃ r, StrMap.get fs.nodes F = some r) ∧ fs.utf8 F = true

/-- A file system with possibly fewer files: every include that leads to a file in `fs` leads to the same file, with the
same contents, in `fs'`. -/
structure FS.Sub (fs fs' : FS) : Prop where
  leads : ∀ path F, Leads fs path F → Leads fs' path F
  read : ∀ path F, Leads fs path F → fs'.read path = fs.read path

/-- The same file system without the file with the canonical path `F`. -/
def FS.without (fs : FS) (F : Str) : FS :=
  { fs with canon := fun path => if fs.canon path = some F then none else fs.canon path }

/-- The same file system with only those files whose canonical paths `S` selects. -/
def FS.only (fs : FS) (S : Str → Bool) : FS := { fs with canon := fun path => (fs.canon path).filter S }

/-- The keyword objects created so far have different ids, which have been given out by the id counter. -/
def Shared.Fine (s : Shared) : Prop :=
  ∀ k i, s.keyword k = some i → i < s.curId ∧ ∀ k', s.keyword k' = some i → k' = k

/-- The state of the process is as it should be. -/
def Rt.Fine (rt : Rt) : Prop := rt.toShared.Fine

/-! ## Plain includes -/

mutual
/-- The paths of the includes in an operand, when all of them have the form `<"path">`. -/
def Term.includes : Term → Option (List Str)
  | .dot _ t => t.includes
  | .neg t => t.includes
  | .pos t => t.includes
  | .arr es => Expr.includesL es
  | .tup es => Expr.includesL es
  | .obj fds => Field.includes fds
  | .incl (.mk (.str p) []) => some [p]
  | .incl _ => none
  | .inclAs _ _ => none
  | .str _ => some []
  | .int _ => some []
  | .frac _ => some []
  | .name _ => some []
termination_by structural t => t
/-- … in an operator chain. -/
def Expr.includes : Expr → Option (List Str)
  | .mk t r => do return (← t.includes) ++ (← OpTerm.includesL r)
termination_by structural t => t
/-- … in the rest of a chain. -/
def OpTerm.includesL : List OpTerm → Option (List Str)
  | [] => some []
  | .mk _ t :: r => do return (← t.includes) ++ (← OpTerm.includesL r)
termination_by structural t => t
/-- … in a sequence of values. -/
def Expr.includesL : List Expr → Option (List Str)
  | [] => some []
  | e :: es => do return (← e.includes) ++ (← Expr.includesL es)
termination_by structural t => t
/-- … in a sequence of definitions. -/
def Field.includes : List Field → Option (List Str)
  | [] => some []
  | .mk _ e :: fds => do return (← e.includes) ++ (← Field.includes fds)
termination_by structural t => t
end

section
variable [Unicode]

/-- File systems in which every file uses only includes of the form `<"path">`, and in which the file that an include
leads to does not depend on the path by which the including file was opened. -/
structure FS.Plain (fs : FS) : Prop where
  includes : ∀ path text d, fs.read path = .ok text → SpDoc d text → ∃ l, Field.includes d = some l
  target : ∀ path path' p A, Leads fs path A → Leads fs path' A → fs.resolve (beside path p) = fs.resolve (beside path' p)

/-- The file `A` contains an include, at any place, that leads to the file `B` (canonical paths). -/
def Includes (fs : FS) (A B : Str) : Prop :=
  ∃ path text d l p, Leads fs path A ∧ fs.read path = .ok text ∧ SpDoc d text ∧ Field.includes d = some l ∧ p ∈ l ∧
    Leads fs (beside path p) B

/-! ## Chains of files -/

/-- The text consists of definitions that can be read without any file, then the definition of a new field by an include
of the path `p` as object, then any further definitions. -/
def IncludesNext (text p : Str) : Prop :=
  ∃ u z k b rest, text = u ++ c!"\n" ++ z ++ c!":" ++ includeText k b ++ c!"\n" ++ rest ∧
    (∃ rt o s, rt.Fine ∧ fromStr noFiles u rt = .ok o s ∧ NotNamed o.pairs z) ∧ FieldName z ∧ (k = none ∨ k = some .obj) ∧
    StrBody p b ∧ WellFormed rest

/-- Following the includes from the file at `path`, each relative to the including file, leads from file to file until
the file opened as `last`, which includes, as `inc`, one of the files passed through or one of the files `opened`. -/
inductive EndsInCycle (fs : FS) : (opened : List Str) → (path last inc : Str) → Prop
  | closes {opened path F text p G} : Leads fs path F → fs.read path = .ok text → IncludesNext text p →
      Leads fs (beside path p) G → G ∈ F :: opened → EndsInCycle fs opened path path p
  | goes {opened path F text p G last inc} : Leads fs path F → fs.read path = .ok text → IncludesNext text p →
      Leads fs (beside path p) G → G ∉ F :: opened → EndsInCycle fs (F :: opened) (beside path p) last inc →
      EndsInCycle fs opened path last inc

end

end Over
