import Verif.Model.Files
import Verif.Model.Convert

/-!
# The public interface seen from a program that uses it

What the entry points return (an `OverError` instead of the parser's error), the iterators and `Default` implementations, and the values
that a program can get hold of by any sequence of calls.
-/

namespace Over

/-! ## Entry points -/

/-- How a call can end: it returns a `Result`, or it panics. -/
inductive Outcome (α : Type) where
  | returns (r : Except OverError α)
  | panics

/-- src/obj.rs:147, 326: the `?` turns the parser's error into an `OverError` (src/error.rs:62-66).  A run of the model that hits its
bound (C23: there is none) would be a call that does not return; it is listed as a panic here. -/
def Res.toOutcome [Unicode] : Res Obj → Outcome Obj
  | .ok o _ => .returns (.ok o)
  | .err e => .returns (.error e.toOver)
  | .panic => .panics
  | .oof => .panics

/-- src/obj.rs:322-328 `Obj::from_str`, src/parse/mod.rs:24-26 `load_from_str`. -/
def Obj.fromStrApi [Unicode] (fs : FS) (text : Str) (rt : Rt) : Outcome Obj := (fromStr fs text rt).toOutcome

/-- src/obj.rs:146-148 `Obj::from_file`, src/parse/mod.rs:19-21 `load_from_file`.  An `io::Error` becomes a `ParseError`
(src/parse/error.rs:190-197) before it becomes an `OverError`. -/
def Obj.fromFileApi [Unicode] (fs : FS) (path : Str) (rt : Rt) : Outcome Obj := (fromFile fs path rt).toOutcome

/-! ## Iterators, defaults, conversions of vectors -/

/-- src/arr.rs:76-78 `values_ref`, 116-118 `iter`. -/
def Arr.iter (a : Arr) : List Value := a.values
/-- src/tup.rs:45-47 `values_ref`, 85-87 `iter`. -/
def Tup.iter (t : Tup) : List Value := t.values
/-- src/obj.rs:141-143 `pairs_ref`, 256-258 `iter`. -/
def Obj.iter (o : Obj) : List Pair := o.pairs
/-- src/arr.rs:135-139 `Default for Arr`. -/
def Arr.default (id : Nat) : Arr := Arr.empty id
/-- src/tup.rs:104-108 `Default for Tup`. -/
def Tup.default (id : Nat) : Tup := Tup.empty id
/-- src/obj.rs:310-314 `Default for Obj`. -/
def Obj.default (id : Nat) : Obj := Obj.empty id
/-- src/arr.rs:147-153 `TryFrom<Vec<Value>> for Arr`. -/
def Arr.tryFromVec (id : Nat) (vs : List Value) : Except OverError Arr := Arr.fromValues id vs
/-- src/tup.rs:116-120 `From<Vec<Value>> for Tup`. -/
def Tup.fromVec (id : Nat) (vs : List Value) : Tup := Tup.fromValues id vs

/-! ## Programs -/

/-- A program between two calls: the process-wide state and every value (also `Arr`, `Tup`, `Obj`, as values) that it has got hold of
so far.  Handles that are dropped stay in the list: what a dropped value was cannot matter (see `Model/Refs.lean` for the memory). -/
structure Session where
  shared : Shared
  pool : List Value

/-- The program has taken the id `curId` (src/lib.rs:64-66) for a new container `v`. -/
def Session.made (s : Session) (v : Value) : Session := ⟨{ s.shared with curId := s.shared.curId + 1 }, v :: s.pool⟩

/-- The program has got hold of a value that exists already. -/
def Session.got (s : Session) (v : Value) : Session := ⟨s.shared, v :: s.pool⟩

/-- One call of the public interface that returns a value, or what other threads (and calls that fail) do to the process-wide state.
The two `_unchecked` functions occur with the precondition that their documentation demands. -/
inductive ApiStep [Unicode] : Session → Session → Prop
  /-- other threads take ids and create keyword objects; so does a call of `from_str` or `from_file` that fails -/
  | others {s : Session} {sh : Shared} : s.shared.MovesOn sh → ApiStep s ⟨sh, s.pool⟩
  /-- `Value::Null`, src/value.rs:14 -/
  | null {s : Session} : ApiStep s (s.got .null)
  /-- `Value::from` and the constructors `Bool`, `Int`, `Frac`, `Str` of src/value.rs:16-22, 239-287 -/
  | bool {s : Session} (b : Bool) : ApiStep s (s.got (.bool b))
  | int {s : Session} (i : Int) : ApiStep s (s.got (.int i))
  | frac {s : Session} (q : Rat) : ApiStep s (s.got (.frac q))
  | str {s : Session} (x : Str) : ApiStep s (s.got (.str x))
  /-- src/arr.rs:27-29 `Arr::empty`, 135-139 `default` -/
  | arrEmpty {s : Session} : ApiStep s (s.made (Arr.empty s.shared.curId).toValue)
  /-- src/arr.rs:34-55 `Arr::from_values`, 147-153 `try_from`, and the macros `arr!`, `try_arr!` -/
  | arr {s : Session} {vs : List Value} {a : Arr} : (∀ v ∈ vs, v ∈ s.pool) → Arr.fromValues s.shared.curId vs = .ok a →
      ApiStep s (s.made a.toValue)
  /-- src/arr.rs:57-73 `Arr::from_values_unchecked` on a vector with elements, "if you know every element in `vec` is of type `inner_t`" -/
  | arrUnchecked {s : Session} {vs : List Value} {t : Ty} : (∀ v ∈ vs, v ∈ s.pool) → vs ≠ [] → (∀ v ∈ vs, v.getType = t) →
      ApiStep s (s.made (Arr.fromValuesUnchecked s.shared.curId vs t).toValue)
  /-- src/tup.rs:27-42 `Tup::empty`, `Tup::from_values`, 104-120 `default`, `from`, and the macro `tup!` -/
  | tup {s : Session} {vs : List Value} : (∀ v ∈ vs, v ∈ s.pool) → ApiStep s (s.made (Tup.fromValues s.shared.curId vs).toValue)
  /-- src/obj.rs:106-108 `Obj::empty`, 310-314 `default`, and `obj!{}` -/
  | objEmpty {s : Session} : ApiStep s (s.made (.obj (Obj.empty s.shared.curId)))
  /-- src/obj.rs:116-124 `Obj::from_pairs` -/
  | obj {s : Session} {ps : List Pair} {par : Option Obj} {o : Obj} : (∀ p ∈ ps, p.value ∈ s.pool) →
      (∀ q, par = some q → Value.obj q ∈ s.pool) → Obj.fromPairs s.shared.curId ps par = .ok o → ApiStep s (s.made (.obj o))
  /-- src/obj.rs:126-138 `Obj::from_pairs_unchecked`, "if you know every field has a valid name" -/
  | objUnchecked {s : Session} {ps : List Pair} {par : Option Obj} : (∀ p ∈ ps, p.value ∈ s.pool) →
      (∀ q, par = some q → Value.obj q ∈ s.pool) → (∀ p ∈ ps, isValidField p.field = true) →
      ApiStep s (s.made (.obj (Obj.fromPairsUnchecked s.shared.curId ps par)))
  /-- src/macros.rs:77-124 `obj!`, `try_obj!` -/
  | objMacro {s : Session} {es : List (Str × Value)} {o : Obj} : (∀ e ∈ es, e.2 ∈ s.pool) → tryObj s.shared.curId es = .ok o →
      ApiStep s (s.made (.obj o))
  /-- src/arr.rs:92-98 `Arr::get` -/
  | arrGet {s : Session} {a : Arr} {i : Nat} {v : Value} : a.toValue ∈ s.pool → a.get i = some (.ok v) → ApiStep s (s.got v)
  /-- src/arr.rs:76-88, 116-118 `values_ref`, `with_each`, `iter` -/
  | arrIter {s : Session} {a : Arr} {v : Value} : a.toValue ∈ s.pool → v ∈ a.iter → ApiStep s (s.got v)
  /-- src/tup.rs:61-67 `Tup::get` -/
  | tupGet {s : Session} {t : Tup} {i : Nat} {v : Value} : t.toValue ∈ s.pool → t.get i = some (.ok v) → ApiStep s (s.got v)
  /-- src/tup.rs:45-57, 85-87 `values_ref`, `with_each`, `iter` -/
  | tupIter {s : Session} {t : Tup} {v : Value} : t.toValue ∈ s.pool → v ∈ t.iter → ApiStep s (s.got v)
  /-- src/obj.rs:210-223 `Obj::get` (and the typed getters, src/obj.rs:38-103, which differ for `get_frac`) -/
  | objGet {s : Session} {o : Obj} {f : Str} {v : Value} : .obj o ∈ s.pool → o.get f = some v → ApiStep s (s.got v)
  /-- src/obj.rs:227-240 `Obj::get_with_source` -/
  | objSource {s : Session} {o o' : Obj} {f : Str} {v : Value} : .obj o ∈ s.pool → o.getWithSource f = some (v, o') →
      ApiStep s ((s.got v).got (.obj o'))
  /-- src/obj.rs:248-253 `Obj::get_parent` -/
  | objParent {s : Session} {o q : Obj} : .obj o ∈ s.pool → o.parent = some q → ApiStep s (s.got (.obj q))
  /-- src/obj.rs:141-143, 176-183, 256-258 `pairs_ref`, `with_each`, `iter` -/
  | objIter {s : Session} {o : Obj} {p : Pair} : .obj o ∈ s.pool → p ∈ o.iter → ApiStep s (s.got p.value)
  /-- src/value.rs:109-115 `Value::get_frac`, src/obj.rs:70-75 `Obj::get_frac` (the other getters return what is in the value) -/
  | getFrac {s : Session} {v : Value} {q : Rat} : v ∈ s.pool → v.getFrac = .ok q → ApiStep s (s.got (.frac q))
  /-- src/obj.rs:322-328 `Obj::from_str` succeeds, with any files, while other threads do anything -/
  | fromStr {s : Session} {fs : FS} {text : Str} {rt : Rt} {o : Obj} {st : PState} : rt.toShared = s.shared →
      fromStr fs text rt = .ok o st → ApiStep s ⟨st.rt.toShared, .obj o :: s.pool⟩
  /-- src/obj.rs:146-148 `Obj::from_file` succeeds -/
  | fromFile {s : Session} {fs : FS} {path : Str} {rt : Rt} {o : Obj} {st : PState} : rt.toShared = s.shared →
      fromFile fs path rt = .ok o st → ApiStep s ⟨st.rt.toShared, .obj o :: s.pool⟩

/-- A history of calls. -/
inductive Calls [Unicode] : Session → Session → Prop
  | none (s : Session) : Calls s s
  | more {s s' s'' : Session} : Calls s s' → ApiStep s' s'' → Calls s s''

end Over
