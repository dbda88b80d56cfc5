import Verif.Spec.Inline
import Verif.Spec.RenameNames
import Verif.Model.Value

/-!
# Independent definitions

`Rearranged` relates documents that differ in the order of definitions that do not depend on each other.
-/

namespace Over

mutual
/-- The operand does not mention the field `x` of the object in which it stands.  (An object has fields of its own.) -/
def Term.skips (x : Str) : Term → Bool
  | .str _ => true
  | .int _ => true
  | .frac _ => true
  | .name y => y != x
  | .dot y t => y != x && t.skips x
  | .neg t => t.skips x
  | .pos t => t.skips x
  | .arr es => Expr.skipsL x es
  | .tup es => Expr.skipsL x es
  | .obj _ => true
  | .incl e => e.skips x
  | .inclAs k e => k.skips x && e.skips x
termination_by structural t => t
/-- … an operator chain. -/
def Expr.skips (x : Str) : Expr → Bool
  | .mk t ops => t.skips x && OpTerm.skipsL x ops
termination_by structural t => t
/-- … the rest of a chain. -/
def OpTerm.skipsL (x : Str) : List OpTerm → Bool
  | [] => true
  | .mk _ t :: ops => t.skips x && OpTerm.skipsL x ops
termination_by structural t => t
/-- … a sequence of values. -/
def Expr.skipsL (x : Str) : List Expr → Bool
  | [] => true
  | e :: es => e.skips x && Expr.skipsL x es
termination_by structural t => t
end

/-- The definitions neither mention nor define the field `x`. -/
def Field.skipsL (x : Str) : List Field → Bool
  | [] => true
  | .mk tg e :: fds => (tg != .field x) && e.skips x && Field.skipsL x fds

/-- The expression does not use what is defined: a field of the enclosing object, a global.  (A parent is never used by name.) -/
def Expr.without (e : Expr) : Target → Bool
  | .field x => e.skips x
  | .global g => e.avoids g
  | .parent => true

/-- Documents that differ in the order of definitions: two definitions next to each other may be exchanged when neither uses what the
other defines, neither defines globals inside, and not both of them include files. -/
inductive Rearranged : List Field → List Field → Prop
  | same (d : List Field) : Rearranged d d
  | exchange (A B : List Field) (tg1 tg2 : Target) (e1 e2 : Expr) : e1.definesNoGlobal = true → e2.definesNoGlobal = true →
      e1.includeFree = true ∨ e2.includeFree = true → e2.without tg1 = true → e1.without tg2 = true →
      Rearranged (A ++ .mk tg1 e1 :: .mk tg2 e2 :: B) (A ++ .mk tg2 e2 :: .mk tg1 e1 :: B)
  | trans {a b c : List Field} : Rearranged a b → Rearranged b c → Rearranged a c

/-- The objects differ only in the order of their fields (and in container identities): the fields of the first, in some order, with
its parent, make an object equal to the second. -/
def SameButOrder (o o' : Obj) : Prop := ∃ ps : List Pair, ps.Perm o.pairs ∧ (Obj.mk o.id ps o.parent).eq o' = true

/-- An object without a field or without its parent. -/
def Obj.less (tg : Target) (o : Obj) : Obj :=
  match tg with
  | .field x => .mk o.id (o.pairs.filter (fun p => p.field != x)) o.parent
  | .parent => .mk o.id o.pairs none
  | .global _ => o

end Over
