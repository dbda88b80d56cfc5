import Verif.Spec.Syntax

/-!
# Texts that differ only in layout

Nothing here refers to document trees: the relation walks along the two texts.
-/

namespace Over

/-- `Relaid s s'`: the texts differ only in whitespace and comments, outside of string literals.  A nonempty gap
may be replaced by any other nonempty gap; behind a colon or opening bracket, before a closing bracket and at the
end, gaps may also be inserted and removed. -/
inductive Relaid : Str → Str → Prop
  | same (s : Str) : Relaid s s
  | char {c : Char} {s s' : Str} : isUniWhitespace c = false → c ≠ '#' → c ≠ '"' → Relaid s s' →
      Relaid (c :: s) (c :: s')
  | string {x b s s' : Str} : StrBody x b → Relaid s s' →
      Relaid ('"' :: (b ++ '"' :: s)) ('"' :: (b ++ '"' :: s'))
  | gap {g g' s s' : Str} : Gap g → Gap g' → g ≠ [] → g' ≠ [] → Relaid s s' → Relaid (g ++ s) (g' ++ s')
  | after {c : Char} {g g' s s' : Str} : c ∈ [':', '{', '[', '(', '<'] → Gap g → Gap g' → Relaid s s' →
      Relaid (c :: (g ++ s)) (c :: (g' ++ s'))
  | before {c : Char} {g g' s s' : Str} : c ∈ ['}', ']', ')', '>'] → Gap g → Gap g' → Relaid s s' →
      Relaid (g ++ c :: s) (g' ++ c :: s')
  | last {g g' : Str} : EndGap g → EndGap g' → Relaid g g'

/-- The same for whole documents: gaps at the beginning may also be inserted and removed. -/
def RelaidDoc (s s' : Str) : Prop :=
  ∃ g g' t t', Gap g ∧ Gap g' ∧ Relaid t t' ∧ s = g ++ t ∧ s' = g' ++ t'

end Over
