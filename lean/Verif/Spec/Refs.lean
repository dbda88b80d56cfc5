import Verif.Model.Refs
import Verif.Spec.Identity

/-!
# What a stored value means, and how many references there are to a container
-/

namespace Over

/-- `s` is (a handle of) a container at address `a`. -/
def Slot.isAt (a : Nat) (s : Slot) : Bool := s.addr == some a

/-- The number of values owned by threads that are handles of the container at address `a`. -/
def Mem.handles (m : Mem) (a : Nat) : Nat := m.held.countP (fun h => h.2.isAt a)

/-- The number of places inside allocated containers (elements, fields, parents) that refer to the container at `a`. -/
def Mem.places (m : Mem) (a : Nat) : Nat := (m.blocks.flatMap (fun b => b.cell.slots)).countP (Slot.isAt a)

/-- The number of values in the middle of being dropped that refer to the container at `a`. -/
def Mem.falling (m : Mem) (a : Nat) : Nat := m.dropping.countP (fun h => h.2.isAt a)

mutual
/-- The stored value `s` is the value `v` (of `Model/Value.lean`): follow the addresses. -/
inductive Means (m : Mem) : Slot → Value → Prop
  | null : Means m .null .null
  | bool (b : Bool) : Means m (.bool b) (.bool b)
  | int (i : Int) : Means m (.int i) (.int i)
  | frac (q : Rat) : Means m (.frac q) (.frac q)
  | str (s : Str) : Means m (.str s) (.str s)
  | arr {a id k : Nat} {t : Ty} {ss : List Slot} {vs : List Value} : m.at a = some ⟨a, k, .arr id t ss⟩ → MeansL m ss vs →
      Means m (.arr a) (.arr id t vs)
  | tup {a id k : Nat} {ts : List Ty} {ss : List Slot} {vs : List Value} : m.at a = some ⟨a, k, .tup id ts ss⟩ →
      MeansL m ss vs → Means m (.tup a) (.tup id ts vs)
  | obj {a : Nat} {o : Obj} : MeansO m a o → Means m (.obj a) (.obj o)
/-- … for the elements of a container. -/
inductive MeansL (m : Mem) : List Slot → List Value → Prop
  | nil : MeansL m [] []
  | cons {s : Slot} {v : Value} {ss : List Slot} {vs : List Value} : Means m s v → MeansL m ss vs →
      MeansL m (s :: ss) (v :: vs)
/-- … for the fields of an object. -/
inductive MeansF (m : Mem) : List (Str × Slot) → List Pair → Prop
  | nil : MeansF m [] []
  | cons {f : Str} {s : Slot} {v : Value} {ss : List (Str × Slot)} {ps : List Pair} : Means m s v → MeansF m ss ps →
      MeansF m ((f, s) :: ss) (.mk f v :: ps)
/-- … for a parent. -/
inductive MeansP (m : Mem) : Option Nat → Option Obj → Prop
  | none : MeansP m none none
  | some {a : Nat} {o : Obj} : MeansO m a o → MeansP m (some a) (some o)
/-- … for an object. -/
inductive MeansO (m : Mem) : Nat → Obj → Prop
  | mk {a id k : Nat} {ss : List (Str × Slot)} {par : Option Nat} {ps : List Pair} {p : Option Obj} :
      m.at a = some ⟨a, k, .obj id ss par⟩ → MeansF m ss ps → MeansP m par p → MeansO m a (.mk id ps p)
end

/-- The values directly inside a container: elements, values of fields, the parent. -/
def Value.parts : Value → List Value
  | .arr _ _ vs => vs
  | .tup _ _ vs => vs
  | .obj (.mk _ ps par) => ps.map Pair.value ++ (par.map Value.obj).toList
  | _ => []

/-- `v` is a container with id `i`. -/
def Value.hasId (i : Nat) : Value → Bool
  | .arr j _ _ => j == i
  | .tup j _ _ => j == i
  | .obj o => o.id == i
  | _ => false

end Over
