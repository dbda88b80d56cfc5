import Verif.Model.Files
import Verif.Spec.Values

/-!
# What is left of an object when its text is cut off
-/

namespace Over

/-- The object with its first `j` fields only. -/
def Obj.first (o : Obj) (j : Nat) : Obj := .mk o.id (o.pairs.take j) o.parent

/-- The text of the value ends with its own closing character, so nothing of it can be lost unnoticed: a string, array,
tuple or object. -/
def Value.selfClosing : Value → Bool
  | .str _ => true
  | .arr _ _ _ => true
  | .tup _ _ _ => true
  | .obj _ => true
  | _ => false

/-- The text `x` contains the lines of the parent and the first `j` fields of `o`, and not all of the next field. -/
def CompleteLines (o : Obj) (x : Str) (j : Nat) : Prop :=
  j ≤ o.pairs.length ∧ (∃ t, (o.first j).writeToString = some t ∧ t <+: x) ∧
  (j < o.pairs.length → ∃ t, (o.first (j + 1)).writeToString = some t ∧ x.length < t.length)

/-- The text `x` does not contain all of the parent of `o`. -/
def ParentIncomplete (o : Obj) (x : Str) : Prop := ∃ t, (o.first 0).writeToString = some t ∧ x.length < t.length

/-- `o'` has the first `j` fields of `o`, and nothing else, or one more with the name of the next field; that one has the
value of the next field, too, unless this value is null, a Bool, an Int or a Frac. -/
def HasFirst (o o' : Obj) (j : Nat) : Prop :=
  Obj.dataP o'.parent = Obj.dataP o.parent ∧
  (Pair.dataL o'.pairs = Pair.dataL (o.pairs.take j) ∨
   ∃ f v w, o.pairs[j]? = some (.mk f v) ∧ Pair.dataL o'.pairs = Pair.dataL (o.pairs.take j) ++ [.mk f w] ∧
     (v.selfClosing = true → w = v.data))

/-- `o` and what a reader gets from a part of its text, in one sequence of definitions: the first fields are the same,
then there may be one more, with the name of the next one; the parent is the same, or missing, or it is the definition
that was cut. -/
def CutOf (o o' : Obj) : Prop :=
  ∃ common rest, o.pairs = common ++ rest ∧
    ((o'.pairs = common ∧ (o'.parent = none ∨ o'.parent = o.parent ∨ o.parent.isSome)) ∨
     ∃ f v w rest', rest = .mk f v :: rest' ∧ o'.pairs = common ++ [.mk f w] ∧ (o'.parent = none ∨ o'.parent = o.parent))

end Over
