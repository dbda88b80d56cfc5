import Verif.Spec.Fold
import Verif.Spec.Nesting

/-! # Replacing a closed part by what is displayed for its value -/

namespace Over

/-- The expression `e` is closed (`Expr.closed`) and on its own has a value, and `e'` is the expression spelled by what is displayed for that
value (`[1 2]` for `[1]+[2]`).  The value is not nested deeper than can be read. -/
def ShownAlone [Unicode] (e e' : Expr) : Prop :=
  e.closed = true ∧ e.namesNoKind = true ∧ ∃ u o s v text, SpExpr e u ∧ fromStr noFiles (c!"x:" ++ u) startRt = .ok o s ∧
    o.get c!"x" = some v ∧ v.nest ≤ 63 ∧ v.display = some text ∧ SpExpr e' text

end Over
