import Verif.Spec.Eval
import Verif.Spec.Types

/-!
# Operators and operator chains

A table of what each operator yields, and how a chain `v₀ op₁ v₁ op₂ v₂ …` is read as a tree.
-/

namespace Over

/-! ## One operation -/

/-- The rational number a numeric value stands for. -/
inductive IsNumber : Value → Rat → Prop
  | int (i : Int) : IsNumber (.int i) i
  | frac (q : Rat) : IsNumber (.frac q) q

/-- At least one operand is a Frac. -/
def SomeFrac (a b : Value) : Prop := (∃ q, a = .frac q) ∨ (∃ q, b = .frac q)

/-- What an operation yields: a value (of a new array: any id), the operator error with the two types it
names, or the division-by-zero error. -/
inductive OpResult where
  | value (v : Value)
  | mismatch (t1 t2 : Ty)
  | zero

/-- The type an operand counts as in an error: next to a Frac an Int counts as Frac. -/
inductive CountsAs : Value → Value → Ty → Prop
  | promoted (i : Int) (q : Rat) : CountsAs (.int i) (.frac q) .frac
  | own {v w : Value} : (∀ i q, ¬ (v = .int i ∧ w = .frac q)) → CountsAs v w v.getType

/-- The combinations an operator is made for. -/
inductive Applicable : BinOp → Value → Value → Prop
  | numbers {op : BinOp} {a b : Value} {x y : Rat} : op ≠ .mod → IsNumber a x → IsNumber b y →
      Applicable op a b
  | ints {op : BinOp} (i j : Int) : Applicable op (.int i) (.int j)
  | strs (s t : Str) : Applicable .plus (.str s) (.str t)
  | arrs {i j : Nat} {s t u : Ty} {xs ys : List Value} : Refines u s → Refines u t →
      Applicable .plus (.arr i s xs) (.arr j t ys)

/-- The table of operations. -/
inductive OpTable : BinOp → Value → Value → OpResult → Prop
  | addInt (x y : Int) : OpTable .plus (.int x) (.int y) (.value (.int (x + y)))
  | subInt (x y : Int) : OpTable .minus (.int x) (.int y) (.value (.int (x - y)))
  | mulInt (x y : Int) : OpTable .mult (.int x) (.int y) (.value (.int (x * y)))
  | addFrac {a b : Value} {x y : Rat} : SomeFrac a b → IsNumber a x → IsNumber b y →
      OpTable .plus a b (.value (.frac (x + y)))
  | subFrac {a b : Value} {x y : Rat} : SomeFrac a b → IsNumber a x → IsNumber b y →
      OpTable .minus a b (.value (.frac (x - y)))
  | mulFrac {a b : Value} {x y : Rat} : SomeFrac a b → IsNumber a x → IsNumber b y →
      OpTable .mult a b (.value (.frac (x * y)))
  | div {a b : Value} {x y : Rat} : IsNumber a x → IsNumber b y → y ≠ 0 →
      OpTable .div a b (.value (.frac (x / y)))
  | divZero {a b : Value} {x : Rat} : IsNumber a x → IsNumber b 0 → OpTable .div a b .zero
  /-- the remainder has the sign of the dividend -/
  | mod {x y q r : Int} : y ≠ 0 → x = y * q + r → r.natAbs < y.natAbs → 0 ≤ r * x →
      OpTable .mod (.int x) (.int y) (.value (.int r))
  | modZero (x : Int) : OpTable .mod (.int x) (.int 0) .zero
  | concatStr (s t : Str) : OpTable .plus (.str s) (.str t) (.value (.str (s ++ t)))
  | concatArr {i j id : Nat} {s t u : Ty} {xs ys : List Value} : LeastCommonRefinement u [s, t] →
      OpTable .plus (.arr i s xs) (.arr j t ys) (.value (.arr id u (xs ++ ys)))
  | mismatch {op : BinOp} {a b : Value} {t1 t2 : Ty} : ¬ Applicable op a b → CountsAs a b t1 →
      CountsAs b a t2 → OpTable op a b (.mismatch t1 t2)

/-! ## Chains -/

/-- An operator tree. -/
inductive OpTree where
  | leaf (v : Value)
  | node (op : BinOp) (l r : OpTree)

/-- `ProductTree v r t`: the chain `v r` consists of products only, and `t` is its reading from the left. -/
inductive ProductTree : Value → List (BinOp × Value) → OpTree → Prop
  | one (v : Value) : ProductTree v [] (.leaf v)
  | times {v w : Value} {r : List (BinOp × Value)} {t : OpTree} {op : BinOp} : ProductTree v r t →
      (op = .mult ∨ op = .div ∨ op = .mod) → ProductTree v (r ++ [(op, w)]) (.node op t (.leaf w))

/-- `SumTree v r t`: `t` is the reading of the chain `v r`: a sum, from the left, of products. -/
inductive SumTree : Value → List (BinOp × Value) → OpTree → Prop
  | product {v : Value} {r : List (BinOp × Value)} {t : OpTree} : ProductTree v r t → SumTree v r t
  | plus {v w : Value} {r q : List (BinOp × Value)} {t u : OpTree} {op : BinOp} : SumTree v r t →
      (op = .plus ∨ op = .minus) → ProductTree w q u → SumTree v (r ++ (op, w) :: q) (.node op t u)

/-- `TreeValue t v`: every operation of the tree has a value, and `v` is the value of the whole. -/
inductive TreeValue : OpTree → Value → Prop
  | leaf (v : Value) : TreeValue (.leaf v) v
  | node {op : BinOp} {l r : OpTree} {a b v : Value} : TreeValue l a → TreeValue r b →
      OpTable op a b (.value v) → TreeValue (.node op l r) v

/-- The operands of a chain, evaluated from left to right. -/
def evalOperands (fs : FS) (file : Option Str) (stack : List Str) (load : Loader) :
    List OpTerm → List Pair → Nat → EM (List (BinOp × Value))
  | [], _, _ => pure []
  | .mk op t :: r, ps, d => do
    let w ← evalTerm fs file stack load t ps d
    let ws ← evalOperands fs file stack load r ps d
    pure ((op, w) :: ws)

end Over
