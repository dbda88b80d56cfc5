import Verif.Spec.Closed
import Verif.Model.Api

/-!
# Replacing closed parts by others of the same value

`FoldDoc` relates documents of which one comes from the other by replacing closed expressions, anywhere inside, by other closed expressions
that have the same value (constant folding is the typical case).
-/

namespace Over

/-- The words that stand for the kinds of an include. -/
def kindWords : List Str := [c!"Obj", c!"Str", c!"Arr", c!"Tup"]

mutual
/-- None of the words `Obj`, `Str`, `Arr`, `Tup` is used in the operand. -/
def Term.namesNoKind : Term → Bool
  | .str _ => true
  | .int _ => true
  | .frac _ => true
  | .name x => !kindWords.contains x
  | .dot x t => !kindWords.contains x && t.namesNoKind
  | .neg t => t.namesNoKind
  | .pos t => t.namesNoKind
  | .arr es => Expr.namesNoKindL es
  | .tup es => Expr.namesNoKindL es
  | .obj fds => Field.namesNoKindL fds
  | .incl e => e.namesNoKind
  | .inclAs k e => k.namesNoKind && e.namesNoKind
termination_by structural t => t
/-- … in an operator chain. -/
def Expr.namesNoKind : Expr → Bool
  | .mk t ops => t.namesNoKind && OpTerm.namesNoKindL ops
termination_by structural t => t
/-- … in the rest of a chain. -/
def OpTerm.namesNoKindL : List OpTerm → Bool
  | [] => true
  | .mk _ t :: ops => t.namesNoKind && OpTerm.namesNoKindL ops
termination_by structural t => t
/-- … in a sequence of values. -/
def Expr.namesNoKindL : List Expr → Bool
  | [] => true
  | e :: es => e.namesNoKind && Expr.namesNoKindL es
termination_by structural t => t
/-- … in a sequence of definitions. -/
def Field.namesNoKindL : List Field → Bool
  | [] => true
  | .mk _ e :: fds => e.namesNoKind && Field.namesNoKindL fds
termination_by structural t => t
end

/-- Both expressions are closed (`Expr.closed`), and on their own have the same value: the texts `x:e` and `x:e'` are read as equal
objects. -/
def SameAlone [Unicode] (e e' : Expr) : Prop :=
  e.closed = true ∧ e'.closed = true ∧ e.namesNoKind = true ∧ e'.namesNoKind = true ∧
    ∃ u u' o s o' s', SpExpr e u ∧ SpExpr e' u' ∧ fromStr noFiles (c!"x:" ++ u) startRt = .ok o s ∧
      fromStr noFiles (c!"x:" ++ u') startRt = .ok o' s' ∧ o.eq o' = true

section
variable (P : Expr → Expr → Prop)

mutual
/-- The operands are the same but for parts related by `P`. -/
inductive FoldTerm : Term → Term → Prop
  | same (t : Term) : FoldTerm t t
  | swap {t t' : Term} : P (.mk t []) (.mk t' []) → FoldTerm t t'
  | neg {t t' : Term} : FoldTerm t t' → FoldTerm (.neg t) (.neg t')
  | pos {t t' : Term} : FoldTerm t t' → FoldTerm (.pos t) (.pos t')
  | arr {es es' : List Expr} : FoldItems es es' → FoldTerm (.arr es) (.arr es')
  | tup {es es' : List Expr} : FoldItems es es' → FoldTerm (.tup es) (.tup es')
  | obj {fds fds' : List Field} : FoldFields fds fds' → FoldTerm (.obj fds) (.obj fds')
  | incl {e e' : Expr} : FoldExpr e e' → FoldTerm (.incl e) (.incl e')
  | inclAs {k k' e e' : Expr} : FoldExpr k k' → FoldExpr e e' → FoldTerm (.inclAs k e) (.inclAs k' e')
/-- … the operator chains. -/
inductive FoldExpr : Expr → Expr → Prop
  | mk {t t' : Term} {r r' : List OpTerm} : FoldTerm t t' → FoldOps r r' → FoldExpr (.mk t r) (.mk t' r')
  | swap {e e' : Expr} : P e e' → FoldExpr e e'
/-- … the rests of chains. -/
inductive FoldOps : List OpTerm → List OpTerm → Prop
  | nil : FoldOps [] []
  | cons {op : BinOp} {t t' : Term} {r r' : List OpTerm} : FoldTerm t t' → FoldOps r r' → FoldOps (.mk op t :: r) (.mk op t' :: r')
/-- … the sequences of values. -/
inductive FoldItems : List Expr → List Expr → Prop
  | nil : FoldItems [] []
  | cons {e e' : Expr} {r r' : List Expr} : FoldExpr e e' → FoldItems r r' → FoldItems (e :: r) (e' :: r')
/-- … the definitions. -/
inductive FoldFields : List Field → List Field → Prop
  | nil : FoldFields [] []
  | cons {tg : Target} {e e' : Expr} {r r' : List Field} : FoldExpr e e' → FoldFields r r' → FoldFields (.mk tg e :: r) (.mk tg e' :: r')
end

end

/-- Documents that are the same but for closed parts with the same values. -/
def FoldDoc [Unicode] (d d' : List Field) : Prop := FoldFields SameAlone d d'

end Over
