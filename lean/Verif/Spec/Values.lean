import Verif.Model.Value
import Verif.Spec.Types

/-!
# Specification vocabulary for values
-/

namespace Over

mutual
/-- The value with every container id forgotten (set to 0): what remains is the pure data. -/
def Value.data : Value → Value
  | .null => .null
  | .bool b => .bool b
  | .int i => .int i
  | .frac q => .frac q
  | .str s => .str s
  | .arr _ t vs => .arr 0 t (Value.dataL vs)
  | .tup _ ts vs => .tup 0 ts (Value.dataL vs)
  | .obj o => .obj o.data
termination_by structural v => v
/-- `data` of every element. -/
def Value.dataL : List Value → List Value
  | [] => []
  | v :: vs => v.data :: Value.dataL vs
termination_by structural v => v
/-- `data` of every field. -/
def Pair.dataL : List Pair → List Pair
  | [] => []
  | .mk f v :: ps => .mk f v.data :: Pair.dataL ps
termination_by structural v => v
/-- `data` of a parent. -/
def Obj.dataP : Option Obj → Option Obj
  | none => none
  | some o => some o.data
termination_by structural v => v
/-- The object with every container id forgotten. -/
def Obj.data : Obj → Obj
  | .mk _ ps par => .mk 0 (Pair.dataL ps) (Obj.dataP par)
termination_by structural v => v
end

mutual
/-- Every array in the value, at every level (elements, fields, parents), carries as inner type the
least common refinement of the types of its elements, and every tuple the list of its elements'
types. -/
inductive WellTyped : Value → Prop
  | null : WellTyped .null
  | bool (b : Bool) : WellTyped (.bool b)
  | int (i : Int) : WellTyped (.int i)
  | frac (q : Rat) : WellTyped (.frac q)
  | str (s : Str) : WellTyped (.str s)
  | arr {id : Nat} {t : Ty} {vs : List Value} : (∀ v ∈ vs, WellTyped v) →
      LeastCommonRefinement t (vs.map Value.getType) → WellTyped (.arr id t vs)
  | tup {id : Nat} {ts : List Ty} {vs : List Value} : (∀ v ∈ vs, WellTyped v) →
      ts = vs.map Value.getType → WellTyped (.tup id ts vs)
  | obj {o : Obj} : WellTypedObj o → WellTyped (.obj o)
/-- The same for an object. -/
inductive WellTypedObj : Obj → Prop
  | mk {id : Nat} {ps : List Pair} {par : Option Obj} : (∀ p ∈ ps, WellTyped p.value) →
      (∀ q, par = some q → WellTypedObj q) → WellTypedObj (.mk id ps par)
end

/-- The ancestors of an object, nearest first, starting with the object itself. -/
inductive Chain : Obj → List Obj → Prop
  | root {id : Nat} {ps : List Pair} : Chain (.mk id ps none) [.mk id ps none]
  | child {id : Nat} {ps : List Pair} {q : Obj} {l : List Obj} :
      Chain q l → Chain (.mk id ps (some q)) (.mk id ps (some q) :: l)

/-- `v` is the value of the first field called `f` in the list. -/
def FirstNamed (ps : List Pair) (f : Str) (v : Value) : Prop :=
  ∃ before after, ps = before ++ .mk f v :: after ∧ ∀ p ∈ before, p.field ≠ f

/-- No field of the list is called `f`. -/
def NotNamed (ps : List Pair) (f : Str) : Prop := ∀ p ∈ ps, p.field ≠ f

end Over
