import Verif.Model.Basic

/-!
# `Type` (src/types.rs)
-/

namespace Over

/-- src/types.rs:7-30 `enum Type`. -/
inductive Ty where
  | any
  | null
  | bool
  | int
  | frac
  | str
  | arr (t : Ty)
  | tup (ts : List Ty)
  | obj
  deriving Repr, Inhabited

mutual
/-- src/types.rs:33-104 `Type::is`. -/
def Ty.is : Ty → Ty → Bool
  | .any, o => match o with | .any => true | _ => false
  | .null, o => match o with | .null => true | _ => false
  | .bool, o => match o with | .bool => true | _ => false
  | .int, o => match o with | .int => true | _ => false
  | .frac, o => match o with | .frac => true | _ => false
  | .str, o => match o with | .str => true | _ => false
  | .obj, o => match o with | .obj => true | _ => false
  | .arr t1, o => match o with | .arr t2 => t1.is t2 | _ => false
  | .tup v1, o => match o with
    | .tup v2 => if v1.length != v2.length then false else Ty.isZip v1 v2
    | _ => false
termination_by structural v => v
/-- src/types.rs:98 `tvec1.iter().zip(tvec2.iter()).all(|(t1, t2)| t1.is(t2))`. -/
def Ty.isZip : List Ty → List Ty → Bool
  | t1 :: v1, t2 :: v2 => t1.is t2 && Ty.isZip v1 v2
  | _, _ => true
termination_by structural v => v
end

mutual
/-- src/types.rs:107-114 `Type::has_any`. -/
def Ty.hasAny : Ty → Bool
  | .any => true
  | .arr t => t.hasAny
  | .tup v => Ty.hasAnyL v
  | _ => false
termination_by structural v => v
/-- src/types.rs:111 `tvec.iter().any(|t| Self::has_any(t))`. -/
def Ty.hasAnyL : List Ty → Bool
  | [] => false
  | t :: v => t.hasAny || Ty.hasAnyL v
termination_by structural v => v
end

mutual
/-- src/types.rs:203-230 `PartialEq for Type` (`==`). -/
def Ty.eq : Ty → Ty → Bool
  | _, .any => true
  | .any, _ => true
  | .arr b1, o => match o with | .arr b2 => b1.eq b2 | _ => false
  | .tup v1, o => match o with | .tup v2 => Ty.eqL v1 v2 | _ => false
  | t, o => t.is o
termination_by structural v => v
/-- `==` on `Vec<Type>` (std: same length and element-wise `==`), used at src/types.rs:222. -/
def Ty.eqL : List Ty → List Ty → Bool
  | [], [] => true
  | t1 :: v1, t2 :: v2 => t1.eq t2 && Ty.eqL v1 v2
  | _, _ => false
termination_by structural v => v
end

mutual
/-- src/types.rs:142-199 `Type::most_specific`. -/
def Ty.mostSpecific : Ty → Ty → Option (Ty × Bool)
  | t1, .any => some (t1, t1.hasAny)
  | .any, t2 => some (t2, t2.hasAny)
  | .arr t1, o => match o with
    | .arr t2 => (Ty.mostSpecific t1 t2).map (fun (t, a) => (.arr t, a))
    | _ => none
  | .tup v1, o => match o with
    | .tup v2 =>
      if v1.length == v2.length then
        (Ty.mostSpecificZip v1 v2).map (fun (v, a) => (.tup v, a))
      else none
    | _ => none
  | t, o => if t.eq o then some (t, false) else none
termination_by structural v => v
/-- src/types.rs:164-178: the zipped map/collect with the captured flag `has_any`. -/
def Ty.mostSpecificZip : List Ty → List Ty → Option (List Ty × Bool)
  | t1 :: v1, t2 :: v2 =>
    match Ty.mostSpecific t1 t2 with
    | none => none
    | some (t, a) =>
      match Ty.mostSpecificZip v1 v2 with
      | none => none
      | some (v, a') => some (t :: v, a || a')
  | _, _ => some ([], false)
termination_by structural v => v
end

mutual
/-- src/types.rs:233-260 `Display for Type`. -/
def Ty.display : Ty → Str
  | .any => c!"Any"
  | .null => c!"Null"
  | .bool => c!"Bool"
  | .int => c!"Int"
  | .frac => c!"Frac"
  | .str => c!"Str"
  | .arr t => c!"Arr(" ++ t.display ++ c!")"
  | .tup v => c!"Tup(" ++ Ty.displayL v ++ c!")"
  | .obj => c!"Obj"
termination_by structural v => v
/-- src/types.rs:248-255: the elements separated by `", "`. -/
def Ty.displayL : List Ty → Str
  | [] => []
  | t :: v => t.display ++ Ty.displayTail v
termination_by structural v => v
/-- src/types.rs:249-252: the `skip(1).fold`. -/
def Ty.displayTail : List Ty → Str
  | [] => []
  | t :: v => c!", " ++ t.display ++ Ty.displayTail v
termination_by structural v => v
end

end Over
