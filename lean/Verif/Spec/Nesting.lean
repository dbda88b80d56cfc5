import Verif.Model.Value

/-!
# How deep the containers of a value nest
-/

namespace Over

mutual
/-- 0 for a value that is no container; otherwise one more than the nesting of the contents (elements,
fields and parent). -/
def Value.nest : Value → Nat
  | .null => 0
  | .bool _ => 0
  | .int _ => 0
  | .frac _ => 0
  | .str _ => 0
  | .arr _ _ vs => Value.nestL vs + 1
  | .tup _ _ vs => Value.nestL vs + 1
  | .obj o => o.nest + 1
termination_by structural v => v
/-- The deepest element. -/
def Value.nestL : List Value → Nat
  | [] => 0
  | v :: vs => max v.nest (Value.nestL vs)
termination_by structural v => v
/-- The deepest field. -/
def Pair.nestL : List Pair → Nat
  | [] => 0
  | .mk _ v :: ps => max v.nest (Pair.nestL ps)
termination_by structural v => v
/-- A parent is a container inside the object. -/
def Obj.nestP : Option Obj → Nat
  | none => 0
  | some o => o.nest + 1
termination_by structural v => v
/-- How deep containers nest inside the object (the object itself not counted). -/
def Obj.nest : Obj → Nat
  | .mk _ ps par => max (Obj.nestP par) (Pair.nestL ps)
termination_by structural v => v
end

end Over
