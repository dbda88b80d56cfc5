import Verif.Spec.Identity

/-!
# Renaming the ids of containers
-/

namespace Over

mutual
/-- The value in which every container has the new id given by `f`. -/
def Value.mapIds (f : Nat → Nat) : Value → Value
  | .null => .null
  | .bool b => .bool b
  | .int i => .int i
  | .frac q => .frac q
  | .str s => .str s
  | .arr i t vs => .arr (f i) t (Value.mapIdsL f vs)
  | .tup i ts vs => .tup (f i) ts (Value.mapIdsL f vs)
  | .obj o => .obj (o.mapIds f)
termination_by structural v => v
/-- … several values. -/
def Value.mapIdsL (f : Nat → Nat) : List Value → List Value
  | [] => []
  | v :: vs => v.mapIds f :: Value.mapIdsL f vs
termination_by structural v => v
/-- … fields. -/
def Pair.mapIdsL (f : Nat → Nat) : List Pair → List Pair
  | [] => []
  | .mk n v :: ps => .mk n (v.mapIds f) :: Pair.mapIdsL f ps
termination_by structural v => v
/-- … a parent. -/
def Obj.mapIdsP (f : Nat → Nat) : Option Obj → Option Obj
  | none => none
  | some o => some (o.mapIds f)
termination_by structural v => v
/-- The object in which every container has the new id given by `f`. -/
def Obj.mapIds (f : Nat → Nat) : Obj → Obj
  | .mk i ps par => .mk (f i) (Pair.mapIdsL f ps) (Obj.mapIdsP f par)
termination_by structural v => v
end

end Over
