import Verif.Spec.Syntax
import Verif.Spec.Values

/-!
# Objects inside objects

The vocabulary for statements about scoping: a text placed inside nested objects, and the object it becomes.
-/

namespace Over

/-- The text spells a sequence of field definitions. -/
def WellFormed [Unicode] (text : Str) : Prop := ∃ d, SpDoc d text

/-- The definitions `inner`, placed inside nested objects.  Each layer is the text of the definitions in front, and
the name of the field that holds the next object. -/
def nest : List (Str × Str) → Str → Str
  | [], inner => inner
  | (before, y) :: layers, inner => before ++ c!"\n" ++ y ++ c!":{" ++ nest layers inner ++ c!"\n}"

/-- The layers are made of well-formed definitions and proper field names. -/
def WellFormedLayers [Unicode] (layers : List (Str × Str)) : Prop :=
  ∀ l ∈ layers, WellFormed l.1 ∧ FieldName l.2

/-- `Innermost path o p`: the last field of `o` has the first name of the path and holds an object, whose last field
has the second name of the path …, until `p`. -/
inductive Innermost : List Str → Obj → Obj → Prop
  | here {o : Obj} : Innermost [] o o
  | inside {y : Str} {path : List Str} {o q p : Obj} {ps : List Pair} : o.pairs = ps ++ [.mk y (.obj q)] →
      Innermost path q p → Innermost (y :: path) o p

/-! ## The globals a tree defines -/

mutual
/-- The globals defined inside an operand. -/
def Term.defs : Term → List Str
  | .str _ => []
  | .int _ => []
  | .frac _ => []
  | .name _ => []
  | .dot _ t => t.defs
  | .neg t => t.defs
  | .pos t => t.defs
  | .arr es => Expr.defsL es
  | .tup es => Expr.defsL es
  | .obj fds => Field.defsL fds
  | .incl e => e.defs
  | .inclAs k e => k.defs ++ e.defs
termination_by structural t => t
/-- … an operator chain. -/
def Expr.defs : Expr → List Str
  | .mk t r => t.defs ++ OpTerm.defsL r
termination_by structural t => t
/-- … the rest of a chain. -/
def OpTerm.defsL : List OpTerm → List Str
  | [] => []
  | .mk _ t :: r => t.defs ++ OpTerm.defsL r
termination_by structural t => t
/-- … a sequence of values. -/
def Expr.defsL : List Expr → List Str
  | [] => []
  | e :: es => e.defs ++ Expr.defsL es
termination_by structural t => t
/-- The globals defined by a sequence of definitions. -/
def Field.defsL : List Field → List Str
  | [] => []
  | .mk (.global g) e :: fds => g :: (e.defs ++ Field.defsL fds)
  | .mk _ e :: fds => e.defs ++ Field.defsL fds
termination_by structural t => t
end

/-- A name that can be given to a global and read back. -/
def GlobalName [Unicode] (g : Str) : Prop :=
  ∃ c cs, g = '@' :: c :: cs ∧ NameStart c ∧ ∀ d ∈ cs, NameChar d

end Over
