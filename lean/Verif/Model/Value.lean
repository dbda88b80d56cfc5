import Verif.Model.Types

/-!
# Values and containers (src/value.rs, src/arr.rs, src/tup.rs, src/obj.rs, src/error.rs, src/macros.rs)

`BigInt` is `Int`, `BigRational` is the normalised `Rat`.  The `Arc` of a container is represented by
the container's `id` together with its (immutable) contents; two handles point to the same allocation
exactly when their ids agree, because every allocation takes a fresh id (src/lib.rs:64-66).
Constructors that call `gen_id` take the id as an argument.
-/

namespace Over

mutual
/-- src/value.rs:12-34 `enum Value`.  `arr`/`tup` inline src/arr.rs:10-17 `ArrInner`
(values, inner_t, id) and src/tup.rs:10-17 `TupInner` (values, inner_tvec, id). -/
inductive Value where
  | null
  | bool (b : Bool)
  | int (i : Int)
  | frac (q : Rat)
  | str (s : Str)
  | arr (id : Nat) (t : Ty) (vs : List Value)
  | tup (id : Nat) (ts : List Ty) (vs : List Value)
  | obj (o : Obj)
/-- src/obj.rs:18 `struct Pair(pub String, pub Value)`. -/
inductive Pair where
  | mk (field : Str) (value : Value)
/-- src/obj.rs:21-36 `ObjInner` / `Obj`. -/
inductive Obj where
  | mk (id : Nat) (pairs : List Pair) (parent : Option Obj)
end

instance : Inhabited Value := ⟨.null⟩
instance : Inhabited Obj := ⟨.mk 0 [] none⟩
instance : Inhabited Pair := ⟨.mk [] .null⟩

/-- First component of a `Pair`. -/
def Pair.field : Pair → Str | .mk f _ => f
/-- Second component of a `Pair`. -/
def Pair.value : Pair → Value | .mk _ v => v
/-- src/obj.rs:297-299 `ReferenceType::id for Obj`. -/
def Obj.id : Obj → Nat | .mk i _ _ => i
/-- src/obj.rs:141-143 `Obj::pairs_ref` (also `iter`, src/obj.rs:256-258). -/
def Obj.pairs : Obj → List Pair | .mk _ ps _ => ps
/-- src/obj.rs:248-253 `Obj::get_parent`. -/
def Obj.parent : Obj → Option Obj | .mk _ _ p => p

/-- src/arr.rs:10-23 `Arr` seen from outside. -/
structure Arr where
  id : Nat
  ty : Ty
  values : List Value

/-- src/tup.rs:10-23 `Tup` seen from outside. -/
structure Tup where
  id : Nat
  tys : List Ty
  values : List Value

/-- src/value.rs:283 `From<Arr> for Value`. -/
def Arr.toValue (a : Arr) : Value := .arr a.id a.ty a.values
/-- src/value.rs:285 `From<Tup> for Value`. -/
def Tup.toValue (a : Tup) : Value := .tup a.id a.tys a.values

/-- src/error.rs:9-22 `enum OverError` (the parse and io variants carry the message). -/
inductive OverError where
  | arrOutOfBounds (i : Nat)
  | arrTypeMismatch (t1 t2 : Ty)
  | fieldNotFound (f : Str)
  | invalidFieldName (f : Str)
  | noParentFound
  | parseError (msg : Str)
  | tupOutOfBounds (i : Nat)
  | tupTypeMismatch (t1 t2 : Ty) (i : Nat)
  | typeMismatch (t1 t2 : Ty)
  | ioError (msg : Str)

/-- src/error.rs:24-51 `Display for OverError`. -/
def OverError.display : OverError → Str
  | .arrOutOfBounds i => c!"Arr index " ++ showNat i ++ c!" out of bounds"
  | .arrTypeMismatch e f =>
    c!"Arr inner types do not match: expected " ++ e.display ++ c!", found " ++ f.display
  | .fieldNotFound f => c!"Field not found: \"" ++ f ++ c!"\""
  | .invalidFieldName f => c!"Invalid field name: \"" ++ f ++ c!"\""
  | .noParentFound => c!"No parent found for this obj"
  | .tupOutOfBounds i => c!"Tup index " ++ showNat i ++ c!" out of bounds"
  | .tupTypeMismatch e f i =>
    c!"Tup inner types do not match at index " ++ showNat i ++ c!": expected " ++ e.display ++
      c!", found " ++ f.display
  | .typeMismatch e f => c!"Type mismatch: expected " ++ e.display ++ c!", found " ++ f.display
  | .parseError m => m
  | .ioError m => m

/-- src/value.rs:92-105 `Value::get_type`. -/
def Value.getType : Value → Ty
  | .null => .null
  | .bool _ => .bool
  | .int _ => .int
  | .frac _ => .frac
  | .str _ => .str
  | .arr _ t _ => .arr t
  | .tup _ ts _ => .tup ts
  | .obj _ => .obj

/-- src/value.rs:83-89 `Value::is_null`. -/
def Value.isNull : Value → Bool
  | .null => true
  | _ => false

/-! ## Typed getters (the macro `get_fn`, src/value.rs:36-47, written out) -/

/-- src/value.rs:50-56 `get_bool`. -/
def Value.getBool : Value → Except OverError Bool
  | .bool b => .ok b
  | v => .error (.typeMismatch .bool v.getType)
/-- src/value.rs:58-64 `get_int`. -/
def Value.getInt : Value → Except OverError Int
  | .int i => .ok i
  | v => .error (.typeMismatch .int v.getType)
/-- src/value.rs:66-72 `get_str`. -/
def Value.getStr : Value → Except OverError Str
  | .str s => .ok s
  | v => .error (.typeMismatch .str v.getType)
/-- src/value.rs:74-80 `get_obj`. -/
def Value.getObj : Value → Except OverError Obj
  | .obj o => .ok o
  | v => .error (.typeMismatch .obj v.getType)
/-- src/value.rs:109-115 `get_frac` (an `Int` is converted). -/
def Value.getFrac : Value → Except OverError Rat
  | .frac q => .ok q
  | .int i => .ok (Rat.divInt i 1)
  | v => .error (.typeMismatch .frac v.getType)
/-- src/value.rs:119-128 `get_arr`. -/
def Value.getArr : Value → Except OverError Arr
  | .arr i t vs => .ok ⟨i, t, vs⟩
  | v => .error (.typeMismatch (.arr .any) v.getType)
/-- src/value.rs:132-138 `get_tup`. -/
def Value.getTup : Value → Except OverError Tup
  | .tup i ts vs => .ok ⟨i, ts, vs⟩
  | v => .error (.typeMismatch (.tup []) v.getType)

/-! ## Equality -/

mutual
/-- src/value.rs:12 derived `PartialEq for Value`, with src/arr.rs:155-164 (`Arr`) and
src/tup.rs:122-131 (`Tup`) inlined: first the types, then the values. -/
def Value.eq : Value → Value → Bool
  | .null, o => match o with | .null => true | _ => false
  | .bool a, o => match o with | .bool b => a == b | _ => false
  | .int a, o => match o with | .int b => a == b | _ => false
  | .frac a, o => match o with | .frac b => a == b | _ => false
  | .str a, o => match o with | .str b => a == b | _ => false
  | .arr _ t1 v1, o => match o with
    | .arr _ t2 v2 => if !(t1.eq t2) then false else Value.eqL v1 v2
    | _ => false
  | .tup _ t1 v1, o => match o with
    | .tup _ t2 v2 => if !(Ty.eqL t1 t2) then false else Value.eqL v1 v2
    | _ => false
  | .obj a, o => match o with | .obj b => a.eq b | _ => false
termination_by structural v => v
/-- `==` on `Vec<Value>`. -/
def Value.eqL : List Value → List Value → Bool
  | [], l => l.isEmpty
  | a :: as, l => match l with
    | b :: bs => a.eq b && Value.eqL as bs
    | [] => false
termination_by structural v => v
/-- src/obj.rs:17 derived `PartialEq for Pair`. -/
def Pair.eq : Pair → Pair → Bool
  | .mk f1 v1, .mk f2 v2 => f1 == f2 && v1.eq v2
termination_by structural v => v
/-- `==` on `Vec<Pair>`. -/
def Pair.eqL : List Pair → List Pair → Bool
  | [], l => l.isEmpty
  | a :: as, l => match l with
    | b :: bs => a.eq b && Pair.eqL as bs
    | [] => false
termination_by structural v => v
/-- src/obj.rs:339-347: the parent comparison. -/
def Obj.eqParent : Option Obj → Option Obj → Bool
  | some p, l => match l with | some q => p.eq q | none => false
  | none, l => l.isNone
termination_by structural v => v
/-- src/obj.rs:333-352 `PartialEq for Obj`. -/
def Obj.eq : Obj → Obj → Bool
  | .mk _ ps1 p1, .mk _ ps2 p2 =>
    if !(Obj.eqParent p1 p2) then false else Pair.eqL ps1 ps2
termination_by structural v => v
end

/-- src/arr.rs:155-164 `PartialEq for Arr`. -/
def Arr.eq (a b : Arr) : Bool := if !(a.ty.eq b.ty) then false else Value.eqL a.values b.values
/-- src/tup.rs:122-131 `PartialEq for Tup`. -/
def Tup.eq (a b : Tup) : Bool := if !(Ty.eqL a.tys b.tys) then false else Value.eqL a.values b.values

/-- src/arr.rs:130-132, src/tup.rs:99-101, src/obj.rs:305-307 `ptr_eq` (see the header). -/
def Obj.ptrEq (a b : Obj) : Bool := a.id == b.id
/-- src/arr.rs:130-132 `ptr_eq`. -/
def Arr.ptrEq (a b : Arr) : Bool := a.id == b.id
/-- src/tup.rs:99-101 `ptr_eq`. -/
def Tup.ptrEq (a b : Tup) : Bool := a.id == b.id

/-- The nine machine integer types of src/value.rs:227-235 and 251-259, by signedness and width
(`usize` is 64 bits wide). -/
structure IntKind where
  signed : Bool
  bits : Nat

/-- Smallest machine integer of a kind. -/
def IntKind.lo (k : IntKind) : Int := if k.signed then -(2 ^ (k.bits - 1) : Int) else 0
/-- One more than the largest machine integer of a kind. -/
def IntKind.hi (k : IntKind) : Int := if k.signed then (2 ^ (k.bits - 1) : Int) else (2 ^ k.bits : Int)

/-- `ToPrimitive::to_i8 … to_usize` on `BigInt` (num-traits). -/
def IntKind.toPrim (k : IntKind) (i : Int) : Option Int :=
  if k.lo ≤ i ∧ i < k.hi then some i else none

/-- src/value.rs:199-225 `impl_eq_int!` (both directions have the same body). -/
def Value.eqInt (k : IntKind) (v : Value) (other : Int) : Bool :=
  match v with
  | .int i => match k.toPrim i with
    | some j => j == other
    | none => false
  | _ => false

/-- src/value.rs:251-260 `From<machine integer> for Value`. -/
def Value.ofInt (i : Int) : Value := .int i

/-! ## `Arr` (src/arr.rs) -/

/-- src/arr.rs:65-73 `Arr::from_values_unchecked`. -/
def Arr.fromValuesUnchecked (id : Nat) (values : List Value) (t : Ty) : Arr := ⟨id, t, values⟩

/-- One step of the type check shared by src/arr.rs:38-52, src/parse/parser.rs:262-282 and
src/parse/parser.rs:344-364: from the current type and flag and the next element's type, the new type
and flag, or `none` on a mismatch. -/
def arrTypeStep (tcur : Ty) (hasAny : Bool) (tnew : Ty) : Option (Ty × Bool) :=
  if hasAny then Ty.mostSpecific tcur tnew
  else if !(tcur.eq tnew) then none
  else some (tcur, hasAny)

/-- src/arr.rs:38-52: the loop of `from_values`. -/
def Arr.checkTypes : Ty → Bool → List Value → Except OverError Ty
  | tcur, _, [] => .ok tcur
  | tcur, hasAny, v :: vs =>
    match arrTypeStep tcur hasAny v.getType with
    | none => .error (.arrTypeMismatch tcur v.getType)
    | some (t, any) => Arr.checkTypes t any vs

/-- src/arr.rs:34-55 `Arr::from_values` (also `TryFrom<Vec<Value>>`, src/arr.rs:147-153, and
`try_arr!`, src/macros.rs:45-55). -/
def Arr.fromValues (id : Nat) (values : List Value) : Except OverError Arr :=
  match Arr.checkTypes .any true values with
  | .error e => .error e
  | .ok t => .ok (Arr.fromValuesUnchecked id values t)

/-- src/arr.rs:27-29 `Arr::empty`. -/
def Arr.empty (id : Nat) : Arr := Arr.fromValuesUnchecked id [] .any

/-- src/arr.rs:106-108 `Arr::len`. -/
def Arr.len (a : Arr) : Nat := a.values.length
/-- src/arr.rs:111-113 `Arr::is_empty`. -/
def Arr.isEmpty (a : Arr) : Bool := a.values.isEmpty
/-- src/arr.rs:92-98 `Arr::get`; `none` is the panic of `self.inner.values[index]` out of range. -/
def Arr.get (a : Arr) (i : Nat) : Option (Except OverError Value) :=
  if i ≥ a.values.length then some (.error (.arrOutOfBounds i))
  else match a.values[i]? with
    | some v => some (.ok v)
    | none => none
/-- src/arr.rs:101-103 `Arr::inner_type`. -/
def Arr.innerType (a : Arr) : Ty := a.ty
/-- src/arr.rs:81-88 `Arr::with_each`: the state transformer of a callback folded over the values. -/
def Arr.withEach {σ : Type} (a : Arr) (f : σ → Value → σ) (s : σ) : σ := a.values.foldl f s

/-! ## `Tup` (src/tup.rs) -/

/-- src/tup.rs:32-42 `Tup::from_values`. -/
def Tup.fromValues (id : Nat) (values : List Value) : Tup := ⟨id, values.map Value.getType, values⟩
/-- src/tup.rs:27-29 `Tup::empty`. -/
def Tup.empty (id : Nat) : Tup := Tup.fromValues id []
/-- src/tup.rs:75-77 `Tup::len`. -/
def Tup.len (a : Tup) : Nat := a.values.length
/-- src/tup.rs:80-82 `Tup::is_empty`. -/
def Tup.isEmpty (a : Tup) : Bool := a.values.isEmpty
/-- src/tup.rs:61-67 `Tup::get`; `none` is the panic of `self.inner.values[index]` out of range. -/
def Tup.get (a : Tup) (i : Nat) : Option (Except OverError Value) :=
  if i ≥ a.values.length then some (.error (.tupOutOfBounds i))
  else match a.values[i]? with
    | some v => some (.ok v)
    | none => none
/-- src/tup.rs:70-72 `Tup::inner_type_vec`. -/
def Tup.innerTypeVec (a : Tup) : List Ty := a.tys
/-- src/tup.rs:50-57 `Tup::with_each`. -/
def Tup.withEach {σ : Type} (a : Tup) (f : σ → Value → σ) (s : σ) : σ := a.values.foldl f s

/-! ## `Obj` (src/obj.rs) -/

/-- src/obj.rs:132-138 `Obj::from_pairs_unchecked`. -/
def Obj.fromPairsUnchecked (id : Nat) (pairs : List Pair) (parent : Option Obj) : Obj :=
  .mk id pairs parent

/-- src/obj.rs:264-279 `Obj::is_valid_field` (the loop with its flag `first`). -/
def isValidFieldGo [Unicode] : Bool → Str → Bool
  | _, [] => true
  | first, ch :: cs =>
    if first then
      if !isValidFieldChar ch true then false else isValidFieldGo false cs
    else if !isValidFieldChar ch false then false
    else isValidFieldGo first cs

/-- src/obj.rs:264-279 `Obj::is_valid_field`. -/
def isValidField [Unicode] (field : Str) : Bool := isValidFieldGo true field

/-- src/obj.rs:117-121: the loop of `from_pairs`; the first invalid field, if any. -/
def Obj.firstInvalid [Unicode] : List Pair → Option Str
  | [] => none
  | .mk f _ :: ps => if !isValidField f then some f else Obj.firstInvalid ps

/-- src/obj.rs:116-124 `Obj::from_pairs`. -/
def Obj.fromPairs [Unicode] (id : Nat) (pairs : List Pair) (parent : Option Obj) :
    Except OverError Obj :=
  match Obj.firstInvalid pairs with
  | some f => .error (.invalidFieldName f)
  | none => .ok (Obj.fromPairsUnchecked id pairs parent)

/-- src/obj.rs:106-108 `Obj::empty`. -/
def Obj.empty (id : Nat) : Obj := Obj.fromPairsUnchecked id [] none
/-- src/obj.rs:188-190 `Obj::len`. -/
def Obj.len (o : Obj) : Nat := o.pairs.length
/-- src/obj.rs:195-197 `Obj::is_empty`. -/
def Obj.isEmpty (o : Obj) : Bool := o.pairs.isEmpty
/-- src/obj.rs:202-207 `Obj::contains`. -/
def Obj.contains (o : Obj) (field : Str) : Bool := o.pairs.any (fun p => field == p.field)
/-- src/obj.rs:243-245 `Obj::has_parent`. -/
def Obj.hasParent (o : Obj) : Bool := o.parent.isSome
/-- src/obj.rs:176-183 `Obj::with_each`. -/
def Obj.withEach {σ : Type} (o : Obj) (f : σ → Str → Value → σ) (s : σ) : σ :=
  o.pairs.foldl (fun s p => f s p.field p.value) s

/-- src/obj.rs:214-216, 231-233 and src/parse/parser.rs:850: the first pair with a given field. -/
def findPair (ps : List Pair) (field : Str) : Option Pair := ps.find? (fun p => p.field == field)

mutual
/-- src/obj.rs:210-223 `Obj::get`. -/
def Obj.get : Obj → Str → Option Value
  | .mk _ ps par, field =>
    match findPair ps field with
    | some p => some p.value
    | none => Obj.getParentField par field
termination_by structural v => v
/-- src/obj.rs:218-221: the recursion into the parent. -/
def Obj.getParentField : Option Obj → Str → Option Value
  | none, _ => none
  | some o, field => o.get field
termination_by structural v => v
end

mutual
/-- src/obj.rs:227-240 `Obj::get_with_source`. -/
def Obj.getWithSource : Obj → Str → Option (Value × Obj)
  | .mk i ps par, field =>
    match findPair ps field with
    | some p => some (p.value, .mk i ps par)
    | none => Obj.getParentWithSource par field
termination_by structural v => v
/-- src/obj.rs:235-238: the recursion into the parent. -/
def Obj.getParentWithSource : Option Obj → Str → Option (Value × Obj)
  | none, _ => none
  | some o, field => o.getWithSource field
termination_by structural v => v
end

/-- src/obj.rs:38-53 `get_fn!`: typed access to a field. -/
def Obj.getTyped {α : Type} (getter : Value → Except OverError α) (o : Obj) (field : Str) :
    Except OverError α :=
  match o.get field with
  | some v => match getter v with
    | .ok r => .ok r
    | .error e => .error e
  | none => .error (.fieldNotFound field)

/-- src/obj.rs:56-61 `Obj::get_bool`. -/
def Obj.getBool := Obj.getTyped Value.getBool
/-- src/obj.rs:63-68 `Obj::get_int`. -/
def Obj.getInt := Obj.getTyped Value.getInt
/-- src/obj.rs:70-75 `Obj::get_frac`. -/
def Obj.getFrac := Obj.getTyped Value.getFrac
/-- src/obj.rs:77-82 `Obj::get_str`. -/
def Obj.getStr := Obj.getTyped Value.getStr
/-- src/obj.rs:84-89 `Obj::get_arr`. -/
def Obj.getArr := Obj.getTyped Value.getArr
/-- src/obj.rs:91-96 `Obj::get_tup`. -/
def Obj.getTup := Obj.getTyped Value.getTup
/-- src/obj.rs:98-103 `Obj::get_obj`. -/
def Obj.getObj := Obj.getTyped Value.getObj

/-! ## `try_obj!` (src/macros.rs) -/

/-- src/macros.rs:104-113: the unrolled loop over the entries, collecting pairs and parent. -/
def tryObjCollect : List (Str × Value) → List Pair → Option Value → List Pair × Option Value
  | [], pairs, parent => (pairs, parent)
  | (f, v) :: es, pairs, parent =>
    if f == c!"^" then tryObjCollect es pairs (some v)
    else tryObjCollect es (pairs ++ [.mk f v]) parent

/-- src/macros.rs:94-124 `try_obj!`. -/
def tryObj [Unicode] (id : Nat) (entries : List (Str × Value)) : Except OverError Obj :=
  match tryObjCollect entries [] none with
  | (pairs, some parent) => match parent.getObj with
    | .ok p => Obj.fromPairs id pairs (some p)
    | .error e => .error e
  | (pairs, none) => Obj.fromPairs id pairs none

end Over
