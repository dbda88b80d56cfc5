import Verif.Spec.Laws

/-!
# The types of formulas

Typing rules for operators and formulas.  They look at the types of the operands only, never at the values.
-/

namespace Over

/-- Int or Frac. -/
def NumberType (t : Ty) : Prop := t = .int ∨ t = .frac

/-- The type of `a∘b` for an `a` of the first and a `b` of the second type. -/
inductive OpType : BinOp → Ty → Ty → Ty → Prop
  | ints {op : BinOp} : op ≠ .div → OpType op .int .int .int
  | numbers {op : BinOp} {s t : Ty} : op ≠ .mod → op ≠ .div → NumberType s → NumberType t → s = .frac ∨ t = .frac →
      OpType op s t .frac
  | quotient {s t : Ty} : NumberType s → NumberType t → OpType .div s t .frac
  | strs : OpType .plus .str .str .str
  | arrs {s t u : Ty} : LeastCommonRefinement u [s, t] → OpType .plus (.arr s) (.arr t) (.arr u)

/-- The type of a formula, from the types of its operands. -/
inductive HasType : OpTree → Ty → Prop
  | leaf (v : Value) : HasType (.leaf v) v.getType
  | node {op : BinOp} {l r : OpTree} {s t u : Ty} : HasType l s → HasType r t → OpType op s t u →
      HasType (.node op l r) u

/-- A part of a formula. -/
inductive Within : OpTree → OpTree → Prop
  | whole (t : OpTree) : Within t t
  | left {s l r : OpTree} {op : BinOp} : Within s l → Within s (.node op l r)
  | right {s l r : OpTree} {op : BinOp} : Within s r → Within s (.node op l r)

/-- Some operation of the formula, whose operands have the values `a` and `b`, gives `r`. -/
def Meets (t : OpTree) (op : BinOp) (r : OpResult) : Prop :=
  ∃ x y a b, Within (.node op x y) t ∧ TreeValue x a ∧ TreeValue y b ∧ OpTable op a b r

/-- Some quotient or remainder of the formula has the divisor 0. -/
def DividesByZero (t : OpTree) : Prop := ∃ op, Meets t op .zero

section
variable [Unicode]

/-- The definition `y:e` at the end of `u` is rejected with an error of this kind, whatever follows it. -/
def GivesError (fs : FS) (rt : Rt) (A : List (Str × Str)) (u : Str) (y e : Str) (k : Kind → Prop) : Prop :=
  (∃ x, k x ∧ fromStr fs (nest A (u ++ c!"\n" ++ y ++ c!":" ++ e)) rt = .err ⟨none, x⟩) ∧
  ∀ rest, WellFormed rest →
    ∃ x, k x ∧ fromStr fs (nest A (u ++ c!"\n" ++ y ++ c!":" ++ e ++ c!"\n" ++ rest)) rt = .err ⟨none, x⟩

end

end Over
