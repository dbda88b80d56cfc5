import Verif.Model.Value

/-!
# Conversions, comparisons with native values, comparison of errors, panicking macros
(src/value.rs, src/error.rs, src/macros.rs)
-/

namespace Over

/-- The Rust values that can be converted to a `Value` and compared with one (src/value.rs:171-196, 227-235, 248-287). -/
inductive Native where
  | bool (b : Bool)
  /-- one of the nine machine integer types -/
  | machine (k : IntKind) (i : Int)
  | bigInt (i : Int)
  | bigRational (q : Rat)
  | string (s : Str)
  /-- `&str` -/
  | strRef (s : Str)
  | arr (a : Arr)
  | tup (t : Tup)
  | obj (o : Obj)

/-- src/value.rs:239-287 `impl_from!` and `From<&str>`: `Value::from`, also `.into()`. -/
def Value.ofNative : Native → Value
  | .bool b => .bool b
  | .machine _ i => Value.ofInt i
  | .bigInt i => .int i
  | .bigRational q => .frac q
  | .string s => .str s
  | .strRef s => .str s
  | .arr a => a.toValue
  | .tup t => t.toValue
  | .obj o => .obj o

/-- src/value.rs:149-160, 179-186, 199-210: `PartialEq<native> for Value`. -/
def Value.eqNative (v : Value) : Native → Bool
  | .bool b => match v with | .bool a => a == b | _ => false
  | .machine k i => v.eqInt k i
  | .bigInt i => match v with | .int a => a == i | _ => false
  | .bigRational q => match v with | .frac a => a == q | _ => false
  | .string s => match v with | .str a => a == s | _ => false
  | .strRef s => match v with | .str a => a == s | _ => false
  | .arr b => match v with | .arr id t vs => Arr.eq ⟨id, t, vs⟩ b | _ => false
  | .tup b => match v with | .tup id ts vs => Tup.eq ⟨id, ts, vs⟩ b | _ => false
  | .obj b => match v with | .obj a => a.eq b | _ => false

/-- src/value.rs:161-168, 188-195, 212-223: `PartialEq<Value> for native`. -/
def Native.eqValue (x : Native) (v : Value) : Bool :=
  match x, v with
  | .bool b, .bool a => a == b
  | .machine k i, v => v.eqInt k i
  | .bigInt i, .int a => a == i
  | .bigRational q, .frac a => a == q
  | .string s, .str a => a == s
  | .strRef s, .str a => a == s
  | .arr b, .arr id t vs => Arr.eq ⟨id, t, vs⟩ b
  | .tup b, .tup id ts vs => Tup.eq ⟨id, ts, vs⟩ b
  | .obj b, .obj a => a.eq b
  | _, _ => false

/-- src/error.rs:8 derived `PartialEq for OverError`: the same variant and equal data; types are compared with
`PartialEq for Type` (src/types.rs). -/
def OverError.eq : OverError → OverError → Bool
  | .arrOutOfBounds i, .arrOutOfBounds j => i == j
  | .arrTypeMismatch a b, .arrTypeMismatch c d => a.eq c && b.eq d
  | .fieldNotFound f, .fieldNotFound g => f == g
  | .invalidFieldName f, .invalidFieldName g => f == g
  | .noParentFound, .noParentFound => true
  | .parseError m, .parseError n => m == n
  | .tupOutOfBounds i, .tupOutOfBounds j => i == j
  | .tupTypeMismatch a b i, .tupTypeMismatch c d j => a.eq c && b.eq d && i == j
  | .typeMismatch a b, .typeMismatch c d => a.eq c && b.eq d
  | .ioError m, .ioError n => m == n
  | _, _ => false

/-- `Result::unwrap`; `none` is the panic. -/
def unwrap {ε α : Type} : Except ε α → Option α
  | .ok a => some a
  | .error _ => none

/-- src/macros.rs:45-55 `try_arr!`. -/
def tryArrMacro (id : Nat) (elems : List Native) : Except OverError Arr := Arr.fromValues id (elems.map Value.ofNative)

/-- src/macros.rs:28-39 `arr!`. -/
def arrMacro (id : Nat) (elems : List Native) : Option Arr :=
  match elems with
  | [] => unwrap (Arr.fromValues id [])
  | _ => unwrap (tryArrMacro id elems)

/-- src/macros.rs:60-69 `tup!`. -/
def tupMacro (id : Nat) (elems : List Native) : Tup := Tup.fromValues id (elems.map Value.ofNative)

/-- src/macros.rs:94-124 `try_obj!` with `.into()` on each value. -/
def tryObjMacro [Unicode] (id : Nat) (entries : List (Str × Native)) : Except OverError Obj :=
  tryObj id (entries.map (fun e => (e.1, Value.ofNative e.2)))

/-- src/macros.rs:77-88 `obj!`. -/
def objMacro [Unicode] (id : Nat) (entries : List (Str × Native)) : Option Obj :=
  match entries with
  | [] => some (Obj.empty id)
  | _ => unwrap (tryObjMacro id entries)

/-- src/macros.rs:5-12 `int!` on a machine integer. -/
def intMacro (i : Int) : Int := i

/-- src/macros.rs:16-20 `frac!`: `BigRational::new` normalises, and panics on a zero denominator. -/
def fracMacro (a b : Int) : Option Rat := if b = 0 then none else some (Rat.divInt a b)

end Over
