import Verif.Model.Value
import Verif.Spec.Syntax

/-!
# The containers inside a value, and their ids
-/

namespace Over

mutual
/-- All containers that are reached from a value, itself included: elements, fields, parents. -/
def Value.containers : Value → List Value
  | .null => []
  | .bool _ => []
  | .int _ => []
  | .frac _ => []
  | .str _ => []
  | .arr i t vs => .arr i t vs :: Value.containersL vs
  | .tup i ts vs => .tup i ts vs :: Value.containersL vs
  | .obj o => o.containers
termination_by structural v => v
/-- … from several values. -/
def Value.containersL : List Value → List Value
  | [] => []
  | v :: vs => v.containers ++ Value.containersL vs
termination_by structural v => v
/-- … from fields. -/
def Pair.containersL : List Pair → List Value
  | [] => []
  | .mk _ v :: ps => v.containers ++ Pair.containersL ps
termination_by structural v => v
/-- … from a parent. -/
def Obj.containersP : Option Obj → List Value
  | none => []
  | some o => o.containers
termination_by structural v => v
/-- … from an object. -/
def Obj.containers : Obj → List Value
  | .mk i ps par => .obj (.mk i ps par) :: (Pair.containersL ps ++ Obj.containersP par)
termination_by structural v => v
end

/-- The id of a container (`ReferenceType::id`). -/
def Value.cid : Value → Nat
  | .arr i _ _ => i
  | .tup i _ _ => i
  | .obj o => o.id
  | _ => 0

/-- The ids of the containers reached from an object. -/
def Obj.ids (o : Obj) : List Nat := o.containers.map Value.cid

/-- … from a value. -/
def Value.ids (v : Value) : List Nat := v.containers.map Value.cid

mutual
/-- A value text without references: no variables, no globals, no dots, no includes. -/
def Term.noRefs : Term → Prop
  | .str _ => True
  | .int _ => True
  | .frac _ => True
  | .name x => x = c!"null" ∨ x = c!"true" ∨ x = c!"false"
  | .dot _ _ => False
  | .neg t => t.noRefs
  | .pos t => t.noRefs
  | .arr es => Expr.noRefsL es
  | .tup es => Expr.noRefsL es
  | .obj fds => Field.noRefsL fds
  | .incl _ => False
  | .inclAs _ _ => False
termination_by structural t => t
/-- … an operator chain. -/
def Expr.noRefs : Expr → Prop
  | .mk t r => t.noRefs ∧ OpTerm.noRefsL r
termination_by structural t => t
/-- … its further operands. -/
def OpTerm.noRefsL : List OpTerm → Prop
  | [] => True
  | .mk _ t :: r => t.noRefs ∧ OpTerm.noRefsL r
termination_by structural t => t
/-- … several values. -/
def Expr.noRefsL : List Expr → Prop
  | [] => True
  | e :: es => e.noRefs ∧ Expr.noRefsL es
termination_by structural t => t
/-- … definitions. -/
def Field.noRefsL : List Field → Prop
  | [] => True
  | .mk _ e :: fds => e.noRefs ∧ Field.noRefsL fds
termination_by structural t => t
end

/-- A container written out in brackets: `[…]`, `(…)` or `{…}`. -/
inductive BracketLit [Unicode] : Str → Prop
  | arr {es : List Expr} {s : Str} : SpItems false es s → BracketLit ('[' :: (s ++ [']']))
  | tup {es : List Expr} {s : Str} : SpItems false es s → BracketLit ('(' :: (s ++ [')']))
  | obj {fs : List Field} {s : Str} : SpFields false fs s → BracketLit ('{' :: (s ++ ['}']))

end Over
