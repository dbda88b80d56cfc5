import Verif.Conformance.Files
import Verif.Model.Convert

/-!
# tests/integration.rs and src/tests.rs on the model

The assertions of the project's own tests, line by line.  These are tests of the model against the project's own expectations, not proofs
of properties.  `num_references` of the values of the pure model is counted by `refs` below (all containers that can be reached from what
the test owns, each once); the memory itself is `Model/Refs.lean`.
-/

namespace Over.Conformance

attribute [local instance] sampleUnicode

/-- `Obj::from_file(…).unwrap()`. -/
def file (path : Str) : Option Obj :=
  match fromFile testFiles path startRt with
  | .ok o _ => some o
  | _ => none

/-- `assert!`. -/
def assert (b : Bool) : Option Unit := if b then some () else none

/-- `assert_eq!(obj.get(field).unwrap(), x)`. -/
def assertGet (o : Obj) (field : Str) (x : Native) : Option Unit := do
  let v ← o.get field
  assert (v.eqNative x)

/-- `get_int` of tests/integration.rs:22-25. -/
def assertInt (o : Obj) (field : Str) (i : Int) : Option Unit := do
  let v ← unwrap (o.getInt field)
  assert (v == i)

/-- A machine integer literal. -/
def lit (i : Int) : Native := .machine ⟨true, 32⟩ i

/-- `frac!`. -/
def fr (a b : Int) : Option Native := (fracMacro a b).map .bigRational

/-- `arr!` in an expression. -/
def ar (l : List Native) : Option Native := (arrMacro 1000 l).map .arr

/-- `tup!` in an expression. -/
def tu (l : List Native) : Native := .tup (tupMacro 1000 l)

/-- `obj!` in an expression. -/
def ob (l : List (Str × Native)) : Option Native := (objMacro 1000 l).map .obj

mutual
/-- The containers in a value: id, and the ids that it refers to. -/
def edges : Value → List (Nat × List Nat)
  | .arr i _ vs => (i, heads vs) :: edgesL vs
  | .tup i _ vs => (i, heads vs) :: edgesL vs
  | .obj o => edgesO o
  | _ => []
termination_by structural v => v
/-- … in a list of values. -/
def edgesL : List Value → List (Nat × List Nat)
  | [] => []
  | v :: vs => edges v ++ edgesL vs
termination_by structural v => v
/-- … in an object. -/
def edgesO : Obj → List (Nat × List Nat)
  | .mk i ps par => (i, headsP ps ++ (match par with | some p => [p.id] | none => [])) :: (edgesP ps ++ edgesPar par)
termination_by structural v => v
/-- … in a list of fields. -/
def edgesP : List Pair → List (Nat × List Nat)
  | [] => []
  | .mk _ v :: ps => edges v ++ edgesP ps
termination_by structural v => v
/-- … in a parent. -/
def edgesPar : Option Obj → List (Nat × List Nat)
  | none => []
  | some o => edgesO o
termination_by structural v => v
/-- The ids of the containers in a list. -/
def heads : List Value → List Nat
  | [] => []
  | .arr i _ _ :: vs => i :: heads vs
  | .tup i _ _ :: vs => i :: heads vs
  | .obj o :: vs => o.id :: heads vs
  | _ :: vs => heads vs
termination_by structural v => v
/-- The ids of the containers in fields. -/
def headsP : List Pair → List Nat
  | [] => []
  | .mk _ (.arr i _ _) :: vs => i :: headsP vs
  | .mk _ (.tup i _ _) :: vs => i :: headsP vs
  | .mk _ (.obj o) :: vs => o.id :: headsP vs
  | _ :: vs => headsP vs
termination_by structural v => v
end

/-- `num_references` of the container `id` when `owned` are the values that the program owns. -/
def refs (owned : List Value) (id : Nat) : Nat :=
  ((edgesL owned).eraseDups.map (fun e => e.2.count id)).sum + (heads owned).count id

/-- tests/integration.rs:27-35 -/
def empty : Option Unit := do
  let obj ← file c!"tests/test_files/empty.over"
  assert (obj.len == 0)

example : empty = some () := by decide +kernel

/-- tests/integration.rs:37-72 -/
def basic : Option Unit := do
  let obj ← file c!"tests/test_files/basic.over"
  assertInt obj c!"_a1" 1
  assertInt obj c!"a2" 2
  assertInt obj c!"_" 0
  assertGet obj c!"b" (.strRef c!"Smörgåsbord")
  assertInt obj c!"c" 10
  assertInt obj c!"d" 20
  assertInt obj c!"eee" 2
  assertInt obj c!"f" 3
  assertInt obj c!"g_" 4
  assertGet obj c!"Hello" (.strRef c!"Hello")
  assertGet obj c!"i_robot" (.strRef c!"not #a comment")
  assertInt obj c!"j" 4
  assertGet obj c!"k" (.strRef c!"hi")
  assertGet obj c!"l" (.strRef c!"$\\\"")
  assertGet obj c!"m" (.strRef c!"m")
  assertGet obj c!"n" (.bool true)
  assertGet obj c!"o" (.bool false)
  assertGet obj c!"p" (.strRef c!"Hello")
  assertInt obj c!"q" 0
  assert ((← obj.get c!"r").eq .null)
  assertGet obj c!"s" (.strRef c!"'")
  assertGet obj c!"t" (.strRef c!"\n")
  assertGet obj c!"u" (.strRef c!" ")
  assertGet obj c!"v" (.strRef c!"'")
  assertGet obj c!"w" (.strRef c!"$")
  assert ((← unwrap (obj.getFrac c!"x")) == (← fracMacro 1 1))
  assert ((← unwrap (← obj.get c!"x").getFrac) == (← fracMacro 1 1))

example : basic = some () := by decide +kernel

/-- tests/integration.rs:74-130 -/
def exampleTest : Option Unit := do
  let obj ← file c!"tests/test_files/example.over"
  assertGet obj c!"receipt" (.strRef c!"Oz-Ware Purchase Invoice")
  assertGet obj c!"date" (.strRef c!"2012-08-06")
  assertGet obj c!"customer" (← ob [(c!"first_name", .strRef c!"Dorothy"), (c!"family_name", .strRef c!"Gale")])
  assertGet obj c!"items" (← ar [
    ← ob [(c!"part_no", .strRef c!"A4786"), (c!"descrip", .strRef c!"Water Bucket (Filled)"), (c!"price", ← fr 147 100),
      (c!"quantity", lit 4)],
    ← ob [(c!"part_no", .strRef c!"E1628"), (c!"descrip", .strRef c!"High Heeled \"Ruby\" Slippers"), (c!"size", lit 8),
      (c!"price", ← fr 1337 10), (c!"quantity", lit 1)]])
  assertGet obj c!"bill_to" (← ob [(c!"street", .strRef c!"123 Tornado Alley\nSuite 16"), (c!"city", .strRef c!"East Centerville"),
    (c!"state", .strRef c!"KS")])
  assert ((← obj.get c!"ship_to").eq (← obj.get c!"bill_to"))
  assertGet obj c!"specialDelivery"
    (.strRef c!"Follow the Yellow Brick Road to the Emerald City. Pay no attention to the man behind the curtain.")

example : exampleTest = some () := by decide +kernel

/-- tests/integration.rs:132-177 -/
def objTest : Option Unit := do
  let obj ← file c!"tests/test_files/obj.over"
  assert ((← unwrap (obj.getObj c!"empty")).len == 0)
  assert ((← unwrap (obj.getObj c!"empty2")).len == 0)
  assert (!obj.contains c!"bools")
  let bools ← objMacro 2000 [(c!"t", .bool true), (c!"f", .bool false)]
  let bools1 ← unwrap (obj.getObj c!"bools1")
  assert (refs [.obj obj, .obj bools, .obj bools1] bools1.id == 5)
  let outie ← unwrap (obj.getObj c!"outie")
  assert ((← outie.parent).eq bools)
  assertInt outie c!"z" 0
  assert (refs [.obj obj, .obj bools, .obj bools1, .obj outie] outie.id == 2)
  let inner ← unwrap (outie.getObj c!"inner")
  assertInt inner c!"z" 1
  let innie ← unwrap (inner.getObj c!"innie")
  assertInt innie c!"a" 1
  assertGet inner c!"b" (tu [lit 1, lit 2])
  assertInt outie c!"c" 3
  assertGet outie c!"d" (← ob [])
  let objArr ← unwrap (obj.getObj c!"obj_arr")
  assertGet objArr c!"arr" (← ar [lit 1, lit 2, lit 3])
  assert ((← unwrap (obj.getInt c!"dot")) == 1)
  assert ((← unwrap (obj.getBool c!"dot_glob")) == true)
  assert ((← unwrap (obj.getInt c!"dot_tup1")) == 1)
  assert ((← unwrap (obj.getInt c!"dot_tup2")) == 2)
  assert ((← unwrap (obj.getInt c!"dot_arr")) == 1)
  assert ((← unwrap (obj.getInt c!"dot_op")) == 4)
  assert ((← unwrap (obj.getStr c!"dot_var")) == c!"test")
  assert (obj.pairs.length == 15)
  assert (!(← obj.pairs.getLast?).value.isNull)

example : objTest = some () := by decide +kernel

/-- tests/integration.rs:179-196 -/
def globals : Option Unit := do
  let obj ← file c!"tests/test_files/globals.over"
  let sub ← unwrap (obj.getObj c!"sub")
  assert ((← unwrap (sub.getInt c!"a")) == 1)
  assertInt sub c!"b" 2
  assert (sub.len == 2)
  assertInt obj c!"c" 2
  assert (obj.len == 3)

example : globals = some () := by decide +kernel

/-- tests/integration.rs:198-254 -/
def numbers : Option Unit := do
  let obj ← file c!"tests/test_files/numbers.over"
  assertInt obj c!"neg" (-4)
  assert ((← unwrap (obj.getFrac c!"pos")) == (← fracMacro 4 1))
  assert ((← unwrap (obj.getFrac c!"neg_zero")) == (← fracMacro 0 1))
  assert ((← unwrap (obj.getFrac c!"pos_zero")) == (← fracMacro 0 1))
  assertGet obj c!"frac_from_dec" (← fr 13 10)
  assertGet obj c!"neg_ffd" (← fr (-13) 10)
  assertGet obj c!"pos_ffd" (← fr 13 10)
  assertGet obj c!"add_dec" (← fr 3 1)
  assertGet obj c!"sub_dec" (← fr (-3) 1)
  let frac ← unwrap (obj.getFrac c!"big_frac")
  assert (decide (frac > 91000000))
  assert (decide (frac < 92000000))
  assertGet obj c!"frac1" (← fr 1 2)
  assertGet obj c!"frac2" (← fr 1 2)
  assertGet obj c!"frac3" (← fr 0 10)
  assertGet obj c!"frac4" (← fr (-5) 4)
  assertGet obj c!"frac5" (← fr 1 1)
  assertGet obj c!"whole_frac" (← fr 3 2)
  assertGet obj c!"neg_whole_frac" (← fr (-21) 4)
  assertGet obj c!"dec_frac" (← fr 1 2)
  assertGet obj c!"dec_frac2" (← fr (-1) 2)
  let whole ← unwrap (obj.getFrac c!"whole_frac")
  assertGet obj c!"array" (← ar [.bigRational whole, ← fr (-1) 2, ← fr 3 2, ← fr 1 1])
  assertGet obj c!"tup" (tu [← fr (-1) 2, .bigRational whole, ← fr 1 1, ← fr 3 2])
  assertGet obj c!"var_frac" (← fr (-1) 2)

example : numbers = some () := by decide +kernel

/-- tests/integration.rs:256-285 -/
def operations : Option Unit := do
  let obj ← file c!"tests/test_files/operations.over"
  assertGet obj c!"mod1" (.bigInt 5)
  assertGet obj c!"mod2" (.bigInt 0)
  assertGet obj c!"arr1" (← ar [lit 3, lit 4])
  assertGet obj c!"arr2" (← ar [lit 3, lit 4])
  assertGet obj c!"arr3" (← ar [lit 3, lit 4])
  assertGet obj c!"arr4" (← ar [← ar [lit 1]])
  assertGet obj c!"arr_complex" (← ar [← ar [← ar [lit 1, lit 2]], ← ar [← ar [lit 3]]])
  assertGet obj c!"str1" (.strRef c!"cat")
  assertGet obj c!"str2" (.strRef c!"cat")
  assertGet obj c!"str3" (.strRef c!"cat")
  assertGet obj c!"str4" (.strRef c!"cat")
  assertGet obj c!"tup_complex" (tu [← ar [← ar [], ← ar [← ar [], ← ar [lit 1, lit 2, lit 3], ← ar []]]])

example : operations = some () := by decide +kernel

/-- tests/integration.rs:287-307 -/
def anyType : Option Unit := do
  let obj ← file c!"tests/test_files/any_type.over"
  let arr1 ← obj.get c!"arr1"
  let arr2 ← arrMacro 2000 [← ar [← ar []], ← ar [← ar [lit 2]], ← ar [← ar []]]
  assert (arr1.getType.eq (.arr arr2.innerType))
  assert (arr1.eqNative (.arr arr2))
  assertGet obj c!"arr2" (← ar [tu [← ar [← ar []], ← ar [← ar [lit 2]]], tu [← ar [← ar [lit 2]], ← ar [← ar []]]])

example : anyType = some () := by decide +kernel

/-- tests/integration.rs:309-345 -/
def includes : Option Unit := do
  let obj ← file c!"tests/test_files/includes.over"
  assertGet obj c!"include" (.strRef
    c!"Multi-line string\nwhich should be included verbatim\nin another file. \"Quotes\" and $$$\ndon't need to be escaped.\n")
  assert ((← obj.get c!"include2").eq (← obj.get c!"include"))
  assertGet obj c!"include_arr" (← ar [lit 1, lit 2, lit 3, lit 4, lit 5])
  assertGet obj c!"include_tup" (tu [.strRef c!"hello", lit 1, .strRef c!"c", ← fr 3 3])
  let o ← unwrap (obj.getObj c!"include_obj")
  assert (o.eq (← objMacro 2000 [(c!"obj2", ← ob [(c!"test", lit 1)]), (c!"obj3", ← ob [(c!"test", lit 2)]),
    (c!"dup", ← ob [(c!"test", lit 2)])]))
  assert (o.ptrEq (← unwrap (obj.getObj c!"include_obj2")))

example : includes = some () := by decide +kernel

/-- tests/integration.rs:365-373 `write_helper!`: write, read back, compare. -/
def writeHelper (path : Str) : Option Unit := do
  let obj1 ← file path
  let text ← obj1.writeToString
  match fromStr noFiles text startRt with
  | .ok obj2 _ => assert (obj1.eq obj2)
  | _ => none

example : writeHelper c!"tests/test_files/basic.over" = some () := by decide +kernel
example : writeHelper c!"tests/test_files/empty.over" = some () := by decide +kernel
example : writeHelper c!"tests/test_files/example.over" = some () := by decide +kernel
example : writeHelper c!"tests/test_files/fuzz1.over" = some () := by decide +kernel
example : writeHelper c!"tests/test_files/fuzz2.over" = some () := by decide +kernel
example : writeHelper c!"tests/test_files/fuzz3.over" = some () := by decide +kernel
example : writeHelper c!"tests/test_files/fuzz4.over" = some () := by decide +kernel
example : writeHelper c!"tests/test_files/includes.over" = some () := by decide +kernel
example : writeHelper c!"tests/test_files/numbers.over" = some () := by decide +kernel
example : writeHelper c!"tests/test_files/obj.over" = some () := by decide +kernel

/-- `assert_eq!` of results. -/
def Ok {α : Type} [BEq α] (r : Except OverError α) (a : α) : Option Unit := do assert ((← unwrap r) == a)

/-- src/tests.rs:11-84 -/
def setAndGet : Option Unit := do
  let obj ← objMacro 1 [(c!"bool", .bool true), (c!"int", lit (-5)), (c!"frac", ← fr 1 1), (c!"str1", .strRef c!"hello"),
    (c!"str2", .strRef c!"yo"), (c!"tup", tu [.strRef c!"hi", lit 2, .bool false]), (c!"arr", ← ar [lit (-5), lit 0, lit 1])]
  let null ← unwrap (tryObj 2 [(c!"null", .null)])
  assert ((← null.get c!"null").eq .null)
  assert ((← null.get c!"null").isNull)
  Ok (obj.getBool c!"bool") true
  Ok (obj.getInt c!"int") (-5)
  Ok (obj.getFrac c!"frac") (← fracMacro 1 1)
  assertGet obj c!"str1" (.strRef c!"hello")
  assertGet obj c!"str2" (.string c!"yo")
  assertGet obj c!"arr" (← ar [lit (-5), lit 0, lit 1])
  assert ((← unwrap (obj.getArr c!"arr")).eq (← unwrap (Arr.fromValues 3 [.int (-5), .int 0, .int 1])))
  assertGet obj c!"tup" (tu [.strRef c!"hi", lit 2, .bool false])
  assert ((← unwrap (obj.getTup c!"tup")).eq (Tup.fromValues 3 [.str c!"hi", .int 2, .bool false]))
  match (← obj.get c!"bool").getStr with
  | .error e => assert (e.eq (.typeMismatch .str .bool))
  | .ok _ => none
  assert (obj.get c!"").isNone
  assert (obj.get c!"cool").isNone

example : setAndGet = some () := by decide +kernel

/-- src/tests.rs:86-144 -/
def parents : Option Unit := do
  let def2 ← objMacro 1 [(c!"bool2", .bool true), (c!"bool3", .bool true)]
  let def1 ← objMacro 2 [(c!"^", .obj def2), (c!"bool1", .bool true), (c!"bool2", .bool false), (c!"test2", .strRef c!"bye")]
  let obj ← objMacro 3 [(c!"^", .obj def1), (c!"bool1", .bool true), (c!"test1", .strRef c!"hi")]
  assert (!obj.eq def1)
  assert (!def1.eq def2)
  assert (!obj.eq def2)
  let obj2 ← objMacro 4 [(c!"^", .obj def1)]
  assert (!obj.eq obj2)
  let obj3 ← objMacro 5 [(c!"^", .obj def1), (c!"bool1", .bool true), (c!"test1", .strRef c!"hi")]
  assert (obj.eq obj3)
  let owned : List Value := [.obj def2, .obj def1, .obj obj, .obj obj2, .obj obj3]
  assert (refs owned def2.id == 2)
  assert (refs owned obj.id == 1)
  let (v, o) ← obj.getWithSource c!"bool1"
  assert (v.eqNative (.bool true) && o.ptrEq obj)
  let (v, o) ← obj.getWithSource c!"bool2"
  assert (v.eqNative (.bool false) && o.ptrEq def1)
  let (v, o) ← obj.getWithSource c!"bool3"
  assert (v.eqNative (.bool true) && o.ptrEq def2)
  assertGet obj c!"test1" (.strRef c!"hi")
  assertGet obj c!"test2" (.strRef c!"bye")

example : parents = some () := by decide +kernel

/-- src/tests.rs:146-209 -/
def types : Option Unit := do
  let arrStr ← arrMacro 1 [.strRef c!"w", .strRef c!"o", .strRef c!"w"]
  let arrArr ← unwrap (tryArrMacro 2 [.arr (Arr.empty 3), ← ar [.bool true, .bool false]])
  let heya ← unwrap (tryArrMacro 4 [.strRef c!"test", .strRef c!"heya"])
  let obj ← objMacro 5 [(c!"bool", .bool true), (c!"str", .strRef c!""), (c!"arr_str", .arr arrStr), (c!"arr_str_dup", .arr arrStr),
    (c!"arr_arr", .arr arrArr), (c!"tup", tu [.strRef c!"!", tu [lit (-1)], .arr heya])]
  assert (refs [arrStr.toValue, .obj obj] 1 == 3)
  assert (refs [arrStr.toValue, .obj obj] 5 == 1)
  assert (Value.null.getType.eq .null)
  assert ((← obj.get c!"bool").getType.eq .bool)
  assert ((← obj.get c!"str").getType.eq .str)
  assert ((← obj.get c!"arr_str").getType.eq (.arr .str))
  assert ((← obj.get c!"arr_arr").getType.eq (.arr (.arr .bool)))
  assert (!(Ty.arr (.arr .int)).eq (.arr .int))
  assert ((← obj.get c!"tup").getType.eq (.tup [.str, .tup [.int], .arr .str]))
  assert (!(← obj.get c!"bool").getType.eq Value.null.getType)
  assert (!(← obj.get c!"bool").getType.eq (← obj.get c!"str").getType)

example : types = some () := by decide +kernel

/-- src/macros.rs:135-178 -/
def macros : Option Unit := do
  let a ← unwrap (Arr.fromValues 1 [.int 1, .int 2])
  let b ← unwrap (tryArrMacro 2 [lit 1, lit 2])
  assert (a.eq b)
  let a ← arrMacro 1 [lit (-1), lit 2]
  let b ← unwrap (Arr.fromValues 2 [.int 1, .int 2])
  assert (!a.eq b)
  let ones ← arrMacro 1 [lit 1, lit 1]
  let cs ← arrMacro 2 [.strRef c!"c"]
  assert (match tryArrMacro 3 [.arr ones, .arr cs] with
    | .error (.arrTypeMismatch (.arr .int) (.arr .str)) => true
    | _ => false)
  assert (match tryArrMacro 4 [lit 1, .strRef c!"c"] with
    | .error (.arrTypeMismatch .int .str) => true
    | _ => false)
  let ab ← arrMacro 5 [lit 1, lit 2]
  let o ← objMacro 6 [(c!"a", lit 1), (c!"b", .arr ab)]
  assert ((Obj.fromPairsUnchecked 7 [.mk c!"a" (.int 1), .mk c!"b" (Value.ofNative (.arr ab))] none).eq o)

example : macros = some () := by decide +kernel

/-- src/types.rs:126-144 -/
def mostSpecificDoc : Option Unit := do
  let v1 := tupMacro 1 [.arr (Arr.empty 2), .arr (← arrMacro 3 [lit 2])]
  let v2 := tupMacro 4 [.arr (← arrMacro 5 [.strRef c!"c"]), .arr (Arr.empty 6)]
  let (t, any) ← Ty.mostSpecific v1.toValue.getType v2.toValue.getType
  assert (t.eq (.tup [.arr .str, .arr .int]))
  assert (!any)

example : mostSpecificDoc = some () := by decide +kernel

end Over.Conformance
