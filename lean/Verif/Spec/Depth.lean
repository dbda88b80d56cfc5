import Verif.Spec.Syntax

/-!
# How deep the brackets of a document nest

The levels of brackets (`{}`, `[]`, `()`, `<>`) in a document, as far as the depth limit counts them: each bracket is one
level around its contents, and a sign (or a dot) in front of something that contains brackets is one level, too.
Includes count only with their own brackets: the contents of included files are counted from the start again.
-/

namespace Over

/-- One level around something that contains brackets; nothing where there are none. -/
def signLevels (n : Nat) : Nat := if n = 0 then 0 else n + 1

mutual
/-- Bracket levels of an operand. -/
def Term.levels : Term → Nat
  | .str _ => 0
  | .int _ => 0
  | .frac _ => 0
  | .name _ => 0
  | .dot _ t => signLevels t.levels
  | .neg t => signLevels t.levels
  | .pos t => signLevels t.levels
  | .arr es => 1 + Expr.levelsL es
  | .tup es => 1 + Expr.levelsL es
  | .obj fds => 1 + Field.levelsL fds
  | .incl e => 1 + e.levels
  | .inclAs k e => 1 + max k.levels e.levels
termination_by structural t => t
/-- Bracket levels of an operator chain. -/
def Expr.levels : Expr → Nat
  | .mk t r => max t.levels (OpTerm.levelsL r)
termination_by structural t => t
/-- Bracket levels of the right operands of a chain. -/
def OpTerm.levelsL : List OpTerm → Nat
  | [] => 0
  | .mk _ t :: r => max t.levels (OpTerm.levelsL r)
termination_by structural t => t
/-- Bracket levels of a sequence of values. -/
def Expr.levelsL : List Expr → Nat
  | [] => 0
  | e :: es => max e.levels (Expr.levelsL es)
termination_by structural t => t
/-- Bracket levels of a sequence of field definitions. -/
def Field.levelsL : List Field → Nat
  | [] => 0
  | .mk _ e :: fds => max e.levels (Field.levelsL fds)
termination_by structural t => t
end

end Over

namespace Over

mutual
/-- Bracket levels that are opened before anything else stands in the text of the operand. -/
def Term.leadLevels : Term → Nat
  | .neg t => signLevels t.leadLevels
  | .pos t => signLevels t.leadLevels
  | .arr (e :: _) => 1 + e.leadLevels
  | .arr [] => 1
  | .tup (e :: _) => 1 + e.leadLevels
  | .tup [] => 1
  | .obj (f :: _) => 1 + f.leadLevels
  | .obj [] => 1
  | .incl e => 1 + e.leadLevels
  | .inclAs k _ => 1 + k.leadLevels
  | _ => 0
termination_by structural t => t
/-- … of the operator chain. -/
def Expr.leadLevels : Expr → Nat
  | .mk t _ => t.leadLevels
termination_by structural t => t
/-- … of the definition; only regular fields and parents count. -/
def Field.leadLevels : Field → Nat
  | .mk (.field _) e => e.leadLevels
  | .mk .parent e => e.leadLevels
  | .mk (.global _) _ => 0
termination_by structural t => t
end

end Over
