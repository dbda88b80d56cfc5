import Verif.Spec.Depth
import Verif.Spec.Include
import Verif.Spec.Inline

/-!
# Closed expressions

An expression is closed when its value cannot depend on where it stands: it names no global and defines none, includes no file, and uses no
field of the enclosing object (the objects inside it may use their own fields).
-/

namespace Over

mutual
/-- No global is named or defined in the operand, and no file is included. -/
def Term.plain : Term → Bool
  | .str _ => true
  | .int _ => true
  | .frac _ => true
  | .name x => x.head? != some '@'
  | .dot x t => x.head? != some '@' && t.plain
  | .neg t => t.plain
  | .pos t => t.plain
  | .arr es => Expr.plainL es
  | .tup es => Expr.plainL es
  | .obj fds => Field.plainL fds
  | .incl _ => false
  | .inclAs _ _ => false
termination_by structural t => t
/-- … in an operator chain. -/
def Expr.plain : Expr → Bool
  | .mk t ops => t.plain && OpTerm.plainL ops
termination_by structural t => t
/-- … in the rest of a chain. -/
def OpTerm.plainL : List OpTerm → Bool
  | [] => true
  | .mk _ t :: ops => t.plain && OpTerm.plainL ops
termination_by structural t => t
/-- … in a sequence of values. -/
def Expr.plainL : List Expr → Bool
  | [] => true
  | e :: es => e.plain && Expr.plainL es
termination_by structural t => t
/-- … in a sequence of definitions. -/
def Field.plainL : List Field → Bool
  | [] => true
  | .mk (.global _) _ :: _ => false
  | .mk _ e :: fds => e.plain && Field.plainL fds
termination_by structural t => t
end

/-- The value of the expression does not depend on where it stands. -/
def Expr.closed (e : Expr) : Bool := e.plain && e.usesNoField

/-- The text of a file between the brackets of an object, an array or a tuple (for `Str` there is nothing to put around it). -/
def bracketed : IncKind → Str → Str
  | .obj, t => c!"{" ++ t ++ c!"\n}"
  | .arr, t => c!"[" ++ t ++ c!"\n]"
  | .tup, t => c!"(" ++ t ++ c!"\n)"
  | .str, t => t

/-- The text of a file to be included as an object, array or tuple: it names and defines no global, includes no file, and uses only fields
of its own objects; its brackets are `n` levels deep. -/
def ClosedFile [Unicode] : IncKind → Str → Nat → Prop
  | .obj, t, n => ∃ d, SpDoc d t ∧ Field.plainL d = true ∧ Field.levelsL d = n
  | .arr, t, n => ∃ es, SpItems true es t ∧ Expr.plainL es = true ∧ Expr.usesNoFieldL es = true ∧ Expr.levelsL es = n
  | .tup, t, n => ∃ es, SpItems true es t ∧ Expr.plainL es = true ∧ Expr.usesNoFieldL es = true ∧ Expr.levelsL es = n
  | .str, _, _ => False

end Over
