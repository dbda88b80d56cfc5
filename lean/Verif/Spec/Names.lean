import Verif.Spec.Syntax
import Verif.Model.Value

/-!
# Field names of objects
-/

namespace Over

mutual
/-- In every object inside the value, at every level (elements, fields, parents), the field names are
proper field names and pairwise different. -/
inductive NamesOk [Unicode] : Value → Prop
  | null : NamesOk .null
  | bool (b : Bool) : NamesOk (.bool b)
  | int (i : Int) : NamesOk (.int i)
  | frac (q : Rat) : NamesOk (.frac q)
  | str (s : Str) : NamesOk (.str s)
  | arr {id : Nat} {t : Ty} {vs : List Value} : (∀ v ∈ vs, NamesOk v) → NamesOk (.arr id t vs)
  | tup {id : Nat} {ts : List Ty} {vs : List Value} : (∀ v ∈ vs, NamesOk v) → NamesOk (.tup id ts vs)
  | obj {o : Obj} : NamesOkObj o → NamesOk (.obj o)
/-- The same for an object. -/
inductive NamesOkObj [Unicode] : Obj → Prop
  | mk {id : Nat} {ps : List Pair} {par : Option Obj} : (∀ p ∈ ps, FieldName p.field) →
      (ps.map Pair.field).Nodup → (∀ p ∈ ps, NamesOk p.value) →
      (∀ q, par = some q → NamesOkObj q) → NamesOkObj (.mk id ps par)
end

end Over
