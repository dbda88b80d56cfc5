import Verif.Model.Lexer
import Verif.Model.Paths

/-!
# The parser (src/parse/parser.rs)

State-passing model.  `parse_value` is the only knot of the recursion: all other functions take it as
the parameter `pv : PV`, and `parseValue` ties the knot with fuel that counts nested `parse_value`
calls.  Loops carry a bound taken from the number of remaining characters.
-/

namespace Over

/-- The file system seen by one parse; here it does not change during the parse (but see `Model/World.lean`).  Regular files are keyed by
canonical path. -/
structure FS where
  /-- `canonicalize` (src/parse/parser.rs:1113, 1124): the canonical path, if the path exists -/
  canon : Str → Option Str
  /-- regular files by canonical path: contents, or the message of the read error -/
  nodes : List (Str × Except Str Str)
  /-- whether a canonical path is valid UTF-8 (`to_str`, src/parse/parser.rs:1117, 1124) -/
  utf8 : Str → Bool
  /-- message of the error of opening something that is not a readable regular file -/
  openErr : Str → Str

/-- Where a path leads.  The empty path leads nowhere and the root is a directory; they are the paths without a parent.  (Whether the root
exists makes no difference to the parser, which only asks for regular files.) -/
def FS.resolve (fs : FS) (path : Str) : Option Str :=
  match pathParent path with
  | some _ => fs.canon path
  | none => none

/-- A `HashMap<String, _>`: association list, newest binding first. -/
abbrev StrMap (α : Type) := List (Str × α)
/-- `HashMap::get`. -/
def StrMap.get {α : Type} (m : StrMap α) (k : Str) : Option α :=
  match List.find? (fun e => e.1 == k) m with
  | some e => some e.2
  | none => none
/-- `HashMap::insert`. -/
def StrMap.insert {α : Type} (m : StrMap α) (k : Str) (v : α) : StrMap α := (k, v) :: m

/-- `Path::is_file` (src/parse/parser.rs:1102). -/
def FS.isFile (fs : FS) (path : Str) : Bool :=
  match fs.resolve path with
  | some c => (StrMap.get fs.nodes c).isSome
  | none => false

/-- `File::open` + `read_to_string` (src/parse/char_stream.rs:28-37, src/parse/util.rs:73-81). -/
def FS.read (fs : FS) (path : Str) : Except Str Str :=
  match fs.resolve path with
  | some c => match StrMap.get fs.nodes c with
    | some r => r
    | none => .error (fs.openErr path)
  | none => .error (fs.openErr path)

/-- src/parse/parser.rs:998-1003 `enum IncludeType`. -/
inductive IncKind | obj | str | arr | tup
  deriving DecidableEq, Repr

/-- Process-wide state: the id counter (src/lib.rs:59-66; its wrap-around at 2^64 is treated in `Model/Ids.lean`, not
here) and the four lazily created sentinel objects (src/parse/parser.rs:32-38), of which only the id matters. -/
structure Shared where
  curId : Nat
  objS : Option Nat
  strS : Option Nat
  arrS : Option Nat
  tupS : Option Nat

/-- The id of the object that a keyword denotes, once it has been created. -/
def Shared.keyword (s : Shared) : IncKind → Option Nat
  | .obj => s.objS
  | .str => s.strS
  | .arr => s.arrS
  | .tup => s.tupS

/-- `s` can become `s'` by what threads do: the id counter moves on; a keyword object stays what it is, and a new one
has an id given out in the meantime. -/
structure Shared.MovesOn (s s' : Shared) : Prop where
  counter : s.curId ≤ s'.curId
  keeps : ∀ k i, s.keyword k = some i → s'.keyword k = some i
  new : ∀ k i, s.keyword k = none → s'.keyword k = some i → s.curId ≤ i ∧ i < s'.curId ∧
    ∀ k', s'.keyword k' = some i → k' = k

/-- The process-wide state as seen by the parsing thread: what it is now, how often this thread has changed it, and what
the other threads do to it after each of these changes: they can take ids and create sentinels, too. -/
structure Rt extends Shared where
  time : Nat
  others : Nat → Shared → Shared
  moveOn : ∀ (t : Nat) (s : Shared), s.MovesOn (others t s)

/-- This thread changes the state to `s`; then the other threads go on. -/
def Rt.after (rt : Rt) (s : Shared) : Rt := ⟨rt.others rt.time s, rt.time + 1, rt.others, rt.moveOn⟩

/-- src/parse/parser.rs:30 `IncludedMap`: loaded values by canonical path, and the set of files being
parsed. -/
structure Included where
  cache : StrMap Value
  opened : List Str

/-- Everything a parsing function can change: the stream and globals of the current file, the include
bookkeeping, the process-wide state. -/
structure PState where
  stream : Stream
  globals : StrMap Value
  inc : Included
  rt : Rt

/-- Outcome of a parsing function. `panic`: unwrap/assert failure, underflow, "Logic error".
`oof`: the bound on nested calls or loop rounds of the model was hit. -/
inductive Res (α : Type) where
  | ok (a : α) (s : PState)
  | err (e : ParseError)
  | panic
  | oof

/-- A parsing action. -/
def P (α : Type) := PState → Res α

/-- Sequencing with `?`. -/
def P.bind {α β : Type} (m : P α) (f : α → P β) : P β := fun s =>
  match m s with
  | .ok a s' => f a s'
  | .err e => .err e
  | .panic => .panic
  | .oof => .oof

instance : Monad P where
  pure a := fun s => .ok a s
  bind := P.bind

/-- src/parse/error.rs:10-12 `parse_err(stream.file(), kind)`. -/
def fail {α : Type} (k : Kind) : P α := fun s => .err ⟨s.stream.file, k⟩
/-- A panic. -/
def panicP {α : Type} : P α := fun _ => .panic
/-- The model's bound is exhausted. -/
def oofP {α : Type} : P α := fun _ => .oof
/-- `(stream.line(), stream.col())`. -/
def getPos : P Pos := fun s => .ok s.stream.pos s
/-- `stream.file()`. -/
def getFile : P (Option Str) := fun s => .ok s.stream.file s
/-- `stream.peek()`. -/
def peekP : P (Option Char) := fun s => .ok s.stream.peek s
/-- `stream.next()`. -/
def nextP : P (Option Char) := fun s =>
  .ok s.stream.next.1 { s with stream := s.stream.next.2 }
/-- `find_char(stream.clone())`. -/
def findCharP : P Bool := fun s =>
  .ok s.stream.findChar.1 { s with stream := s.stream.findChar.2 }
/-- `stream.next().unwrap()` followed by `assert_eq!(ch, c)` (e.g. src/parse/parser.rs:99-100). -/
def expectP (c : Char) : P Unit := do
  match ← nextP with
  | none => panicP
  | some ch => if ch = c then pure () else panicP
/-- `parse_err(stream.file(), UnexpectedEnd(stream.line()))`. -/
def failEnd {α : Type} : P α := do
  let p ← getPos
  fail (.unexpectedEnd p.line)
/-- Runs a token-level function on the current stream. -/
def liftLex {α : Type} (f : Str → Pos → Lex α) : P α := fun s =>
  match f s.stream.rest s.stream.pos with
  | .ok a rest pos => .ok a { s with stream := { s.stream with rest := rest, pos := pos } }
  | .err k => .err ⟨s.stream.file, k⟩
  | .panic => .panic
/-- Supplies the number of remaining characters plus one as a loop bound. -/
def withBound {α : Type} (f : Nat → P α) : P α := fun s => f (s.stream.rest.length + 1) s
/-- src/lib.rs:64-66 `gen_id`: an atomic `fetch_add`. -/
def genId : P Nat := fun s =>
  .ok s.rt.curId { s with rt := s.rt.after { s.rt.toShared with curId := s.rt.curId + 1 } }

/-- Dereferencing a lazily created sentinel (src/parse/parser.rs:32-38): `Obj::empty()` on first use.
`lazy_static` runs the initialiser once; a thread that comes while another one is running it waits, which is the same as
coming later. -/
def forceSentinel (k : IncKind) : P Nat := fun s =>
  let rt := s.rt
  match k with
  | .obj => match rt.objS with
    | some i => .ok i s
    | none => .ok rt.curId { s with rt := rt.after { rt.toShared with curId := rt.curId + 1, objS := some rt.curId } }
  | .str => match rt.strS with
    | some i => .ok i s
    | none => .ok rt.curId { s with rt := rt.after { rt.toShared with curId := rt.curId + 1, strS := some rt.curId } }
  | .arr => match rt.arrS with
    | some i => .ok i s
    | none => .ok rt.curId { s with rt := rt.after { rt.toShared with curId := rt.curId + 1, arrS := some rt.curId } }
  | .tup => match rt.tupS with
    | some i => .ok i s
    | none => .ok rt.curId { s with rt := rt.after { rt.toShared with curId := rt.curId + 1, tupS := some rt.curId } }

/-- Signature of `parse_value`: pairs in scope, line, column, depth, current bracket, `is_first`. -/
abbrev PV := List Pair → Nat → Nat → Nat → Option Char → Bool → P Value

/-! ## Operators -/

/-- `value.get_int().unwrap()`. -/
def unwrapInt (v : Value) : P Int := match v.getInt with | .ok i => pure i | .error _ => panicP
/-- `value.get_frac().unwrap()`. -/
def unwrapFrac (v : Value) : P Rat := match v.getFrac with | .ok q => pure q | .error _ => panicP
/-- `value.get_str().unwrap()`. -/
def unwrapStr (v : Value) : P Str := match v.getStr with | .ok s => pure s | .error _ => panicP
/-- `value.get_arr().unwrap()`. -/
def unwrapArr (v : Value) : P Arr := match v.getArr with | .ok a => pure a | .error _ => panicP

/-- src/parse/parser.rs:1159-1181 `unary_op_on_value`. -/
def unaryOp (val : Value) (op : UnOp) (line col : Nat) : P Value :=
  let t := val.getType
  match op with
  | .plus => match t with
    | .int => pure val
    | .frac => pure val
    | _ => fail (.unaryOperatorError t op line col)
  | .minus => match t with
    | .int => do let i ← unwrapInt val; pure (.int (-i))
    | .frac => do let q ← unwrapFrac val; pure (.frac (-q))
    | _ => fail (.unaryOperatorError t op line col)

/-- src/parse/parser.rs:1196-1203: promotion of an Int next to a Frac. -/
def promote (val1 val2 : Value) : P (Value × Value × Ty × Ty) :=
  let type1 := val1.getType
  let type2 := val2.getType
  if type1.eq .int && type2.eq .frac then do
    let i ← unwrapInt val1
    pure (.frac (Rat.divInt i 1), val2, .frac, type2)
  else if type1.eq .frac && type2.eq .int then do
    let i ← unwrapInt val2
    pure (val1, .frac (Rat.divInt i 1), type1, .frac)
  else pure (val1, val2, type1, type2)

/-- src/parse/parser.rs:1206-1256: `+`. -/
def opPlus (val1 val2 : Value) (type1 type2 : Ty) (line col : Nat) : P Value :=
  let bad : P Value := fail (.binaryOperatorError type1 type2 .plus line col)
  match type1 with
  | .int => if type2.eq .int then do
      let a ← unwrapInt val1; let b ← unwrapInt val2; pure (.int (a + b)) else bad
  | .frac => if type2.eq .frac then do
      let a ← unwrapFrac val1; let b ← unwrapFrac val2; pure (.frac (a + b)) else bad
  | .str => if type2.eq .str then do
      let a ← unwrapStr val1; let b ← unwrapStr val2; pure (.str (a ++ b)) else bad
  | .arr _ => match Ty.mostSpecific type1 type2 with
    | some (t, _) => do
      let a1 ← unwrapArr val1
      let a2 ← unwrapArr val2
      match t with
      | .arr ti => do
        let id ← genId
        pure (Arr.fromValuesUnchecked id (a1.values ++ a2.values) ti).toValue
      | _ => panicP
    | none => bad
  | _ => bad

/-- src/parse/parser.rs:1257-1266: `-`. -/
def opMinus (val1 val2 : Value) (type1 type2 : Ty) (line col : Nat) : P Value :=
  let bad : P Value := fail (.binaryOperatorError type1 type2 .minus line col)
  match type1 with
  | .int => if type2.eq .int then do
      let a ← unwrapInt val1; let b ← unwrapInt val2; pure (.int (a - b)) else bad
  | .frac => if type2.eq .frac then do
      let a ← unwrapFrac val1; let b ← unwrapFrac val2; pure (.frac (a - b)) else bad
  | _ => bad

/-- src/parse/parser.rs:1267-1276: `*`. -/
def opMult (val1 val2 : Value) (type1 type2 : Ty) (line col : Nat) : P Value :=
  let bad : P Value := fail (.binaryOperatorError type1 type2 .mult line col)
  match type1 with
  | .int => if type2.eq .int then do
      let a ← unwrapInt val1; let b ← unwrapInt val2; pure (.int (a * b)) else bad
  | .frac => if type2.eq .frac then do
      let a ← unwrapFrac val1; let b ← unwrapFrac val2; pure (.frac (a * b)) else bad
  | _ => bad

/-- src/parse/parser.rs:1277-1298: `/` (`BigRational::new` panics on a zero denominator: guarded). -/
def opDiv (val1 val2 : Value) (type1 type2 : Ty) (line col : Nat) : P Value :=
  let bad : P Value := fail (.binaryOperatorError type1 type2 .div line col)
  match type1 with
  | .int => if type2.eq .int then do
      let a ← unwrapInt val1
      let b ← unwrapInt val2
      if b = 0 then fail (.invalidNumeric line col)
      else pure (.frac (Rat.divInt a b)) else bad
  | .frac => if type2.eq .frac then do
      let a ← unwrapFrac val1
      let b ← unwrapFrac val2
      if b = 0 then fail (.invalidNumeric line col)
      else pure (.frac (a / b)) else bad
  | _ => bad

/-- src/parse/parser.rs:1299-1313: `%` (num-bigint's `%` truncates towards zero). -/
def opMod (val1 val2 : Value) (type1 type2 : Ty) (line col : Nat) : P Value :=
  let bad : P Value := fail (.binaryOperatorError type1 type2 .mod line col)
  match type1 with
  | .int => if type2.eq .int then do
      let b ← unwrapInt val2
      if b = 0 then fail (.invalidNumeric line col)
      else do
        let a ← unwrapInt val1
        pure (.int (Int.tmod a b)) else bad
  | _ => bad

/-- src/parse/parser.rs:1184-1315 `binary_op_on_values`. -/
def binaryOp (val1 val2 : Value) (op : BinOp) (line col : Nat) : P Value := do
  let (val1, val2, type1, type2) ← promote val1 val2
  match op with
  | .plus => opPlus val1 val2 type1 type2 line col
  | .minus => opMinus val1 val2 type1 type2 line col
  | .mult => opMult val1 val2 type1 type2 line col
  | .div => opDiv val1 val2 type1 type2 line col
  | .mod => opMod val1 val2 type1 type2 line col

/-! ## Small helpers -/

/-- src/parse/parser.rs:1345-1365 `check_value_end`. -/
def checkValueEnd (curBrace : Option Char) : P Unit := do
  match ← peekP with
  | none => pure ()
  | some ch =>
    let p ← getPos
    if isValueEndChar ch then
      if isEndDelimiter ch && !(some ch == curBrace) then
        fail (.invalidClosingBracket curBrace ch p.line p.col)
      else pure ()
    else fail (.invalidValueChar ch p.line p.col)

/-- src/parse/parser.rs:685-768 `parse_numeric`; the `?` of `parseInt` converts with src/parse/error.rs:199-215 (no file). -/
def parseNumeric (line col : Nat) : P Value := do
  let (s1, s2, dec) ← liftLex (fun rest pos => numGo rest pos [] [] false false)
  match numFinish s1 s2 dec with
  | .val v => pure v
  | .invalid => fail (.invalidNumeric line col)
  | .parseInt => fun _ => .err ⟨none, .parseIntError c!"invalid digit found in string"⟩

/-- src/parse/parser.rs:955-989 `parse_str`. -/
def parseStr : P Value := do
  let s ← liftLex lexStr
  pure (.str s)

/-- `VecDeque::pop_back`. -/
def popBack {α : Type} (l : List α) : Option (List α × α) :=
  match l.getLast? with
  | some x => some (l.dropLast, x)
  | none => none

/-! ## Values -/

/-- src/parse/parser.rs:593-627: the operator loop of `parse_value`. -/
def opLoop (pv : PV) (pairs : List Pair) (depth : Nat) (brace : Option Char) :
    Nat → List (Value × Nat × Nat) → List BinOp → P (List (Value × Nat × Nat) × List BinOp)
  | 0, _, _ => oofP
  | n + 1, vals, ops => do
    match ← peekP with
    | none => pure (vals, ops)
    | some ch =>
      match getOp ch with
      | none => pure (vals, ops)
      | some op => do
        let _ ← nextP
        match ← peekP with
        | none => failEnd
        | some _ => do
          let p ← getPos
          let val2 ← pv pairs p.line p.col depth brace false
          if op.isPriority then
            match popBack vals with
            | none => panicP
            | some (front, (val1, line1, col1)) => do
              let res ← binaryOp val1 val2 op p.line p.col
              opLoop pv pairs depth brace n (front ++ [(res, line1, col1)]) ops
          else
            opLoop pv pairs depth brace n (vals ++ [(val2, p.line, p.col)]) (ops ++ [op])

/-- src/parse/parser.rs:632-644: the final left fold of `parse_value`. -/
def foldOps : Value → List (Value × Nat × Nat) → List BinOp → P Value
  | val1, _, [] => pure val1
  | _, [], _ :: _ => panicP
  | val1, (val2, line2, col2) :: vals, op :: ops => do
    let r ← binaryOp val1 val2 op line2 col2
    foldOps r vals ops

/-- src/parse/parser.rs:588-644: the operator part of `parse_value` for a first value. -/
def parseOps (pv : PV) (pairs : List Pair) (depth : Nat) (brace : Option Char)
    (res : Value) (line col : Nat) : P Value := do
  let (vals, ops) ← withBound fun n => opLoop pv pairs depth brace n [(res, line, col)] []
  checkValueEnd brace
  match vals with
  | [] => panicP
  | (val1, _, _) :: vals => foldOps val1 vals ops

/-- src/parse/parser.rs:650-682 `parse_unary_op`. -/
def parseUnary (pv : PV) (pairs : List Pair) (depth : Nat) (brace : Option Char) (op : UnOp) :
    P Value := do
  let c ← nextP
  if (c = some '-' ∧ op = .minus) ∨ (c = some '+' ∧ op = .plus) then do
    let p ← getPos
    match ← peekP with
    | some _ => do
      let res ← pv pairs p.line p.col (depth + 1) brace false
      unaryOp res op p.line p.col
    | none => fail (.unexpectedEnd p.line)
  else panicP

/-- src/parse/parser.rs:838-847: the value of a global. -/
def lookupGlobal (var : Str) (line col : Nat) : P Value := fun s =>
  match StrMap.get s.globals var with
  | some v => .ok v s
  | none => .err ⟨s.stream.file, .globalNotFound var line col⟩

/-- src/parse/parser.rs:826-858: the value of a name. -/
def lookupVar (pairs : List Pair) (var : Str) (isGlobal : Bool) (line col : Nat) : P Value :=
  if var == c!"null" then pure .null
  else if var == c!"true" then pure (.bool true)
  else if var == c!"false" then pure (.bool false)
  else if var == c!"Obj" then do let i ← forceSentinel .obj; pure (.obj (Obj.empty i))
  else if var == c!"Str" then do let i ← forceSentinel .str; pure (.obj (Obj.empty i))
  else if var == c!"Arr" then do let i ← forceSentinel .arr; pure (.obj (Obj.empty i))
  else if var == c!"Tup" then do let i ← forceSentinel .tup; pure (.obj (Obj.empty i))
  else if var == c!"@" then fail (.invalidValue var line col)
  else if isGlobal then lookupGlobal var line col
  else match findPair pairs var with
    | some p => pure p.value
    | none => fail (.variableNotFound var line col)

/-- src/parse/parser.rs:876-889, 905-918: indexing with a parsed value. -/
def indexWith (get : Nat → Option (Except OverError Value)) (value : Value) (line col : Nat) :
    P Value :=
  match value with
  | .int i => match toUsize i with
    | some index => match get index with
      | some (.ok v) => pure v
      | some (.error e) => fail (kindFromOver e line col)
      | none => panicP
    | none => fail (.invalidIndex i line col)
  | _ => fail (.expectedType .int value.getType line col)

/-- src/parse/parser.rs:771-943 `parse_variable`; the first argument bounds the recursion through
dots on objects (src/parse/parser.rs:927). -/
def parseVariable [Unicode] (pv : PV) :
    Nat → List Pair → Nat → Nat → Nat → Option Char → P Value
  | 0, _, _, _, _, _ => oofP
  | n + 1, pairs, line, col, depth, brace => do
    let (var, isGlobal, dt) ← liftLex lexVar
    let value ← lookupVar pairs var isGlobal line col
    match dt with
    | .none => pure value
    | _ =>
      match value with
      | .arr i t vs => do
        let p ← getPos
        let ix ← pv pairs p.line p.col (depth + 1) brace false
        indexWith (Arr.get ⟨i, t, vs⟩) ix p.line p.col
      | .tup i ts vs => do
        let p ← getPos
        let ix ← pv pairs p.line p.col (depth + 1) brace false
        indexWith (Tup.get ⟨i, ts, vs⟩) ix p.line p.col
      | .obj o => do
        let p ← getPos
        if dt = .dotGlobal then fail (.invalidValueChar '@' p.line p.col)
        else parseVariable pv n o.pairs p.line p.col (depth + 1) brace
      | v => fail (.invalidDot v.getType line col)

/-! ## Containers -/

/-- src/parse/parser.rs:155-183: the duplicate checks of `parse_field_value_pair`. -/
def checkDuplicate (field : Str) (ft : FieldType) (pairs : List Pair) (parent : Option Obj)
    (line col : Nat) : P Unit := fun s =>
  match ft with
  | .global =>
    if (StrMap.get s.globals field).isSome then
      .err ⟨s.stream.file, .duplicateGlobal field line col⟩ else .ok () s
  | .parent =>
    if parent.isSome then .err ⟨s.stream.file, .duplicateField c!"^" line col⟩ else .ok () s
  | .regular =>
    if pairs.any (fun p => p.field == field) then
      .err ⟨s.stream.file, .duplicateField field line col⟩ else .ok () s

/-- src/parse/parser.rs:205-218: storing the value of a field. -/
def storeField (field : Str) (ft : FieldType) (value : Value) (pairs : List Pair)
    (parent : Option Obj) (line col : Nat) : P (List Pair × Option Obj) :=
  match ft with
  | .global => fun s =>
    .ok (pairs, parent) { s with globals := StrMap.insert s.globals field value }
  | .parent => match value.getObj with
    | .ok par => pure (pairs, some par)
    | .error e => fail (kindFromOver e line col)
  | .regular => pure (pairs ++ [.mk field value], parent)

/-- src/parse/parser.rs:127-229 `parse_field_value_pair`; result: whether to go on, and the new pairs
and parent. -/
def parseFieldValuePair [Unicode] (pv : PV) (pairs : List Pair) (parent : Option Obj) (depth : Nat)
    (brace : Option Char) : P (Bool × List Pair × Option Obj) := do
  match ← peekP with
  | none => panicP
  | some peek =>
    if peek = '}' ∧ brace.isSome then do
      let _ ← nextP
      pure (false, pairs, parent)
    else if isEndDelimiter peek then do
      let p ← getPos
      fail (.invalidClosingBracket brace peek p.line p.col)
    else do
      let fp ← getPos
      let (field, ft) ← liftLex (fun rest pos => lexField rest pos fp.line fp.col)
      checkDuplicate field ft pairs parent fp.line fp.col
      if !(← findCharP) then failEnd
      else do
        let vp ← getPos
        let value ← pv pairs vp.line vp.col depth brace true
        let (pairs, parent) ← storeField field ft value pairs parent vp.line vp.col
        if !(← findCharP) then
          match brace with
          | some _ => failEnd
          | none => pure (false, pairs, parent)
        else pure (true, pairs, parent)

/-- src/parse/parser.rs:73-81, 111-119: `while parse_field_value_pair(…)? {}`. -/
def fieldsLoop [Unicode] (pv : PV) (depth : Nat) (brace : Option Char) :
    Nat → List Pair → Option Obj → P (List Pair × Option Obj)
  | 0, _, _ => oofP
  | n + 1, pairs, parent => do
    let (more, pairs, parent) ← parseFieldValuePair pv pairs parent depth brace
    if more then fieldsLoop pv depth brace n pairs parent else pure (pairs, parent)

/-- src/parse/parser.rs:61-84 `parse_obj_stream`. -/
def parseObjStream [Unicode] (pv : PV) : P Obj := do
  if !(← findCharP) then do
    let id ← genId
    pure (Obj.fromPairsUnchecked id [] none)
  else do
    let (pairs, parent) ← withBound fun n => fieldsLoop pv 1 none n [] none
    let id ← genId
    pure (Obj.fromPairsUnchecked id pairs parent)

/-- The depth check at the head of the container functions (e.g. src/parse/parser.rs:94-96). -/
def checkDepth (depth : Nat) : P Unit := do
  if depth > maxDepth then do
    let p ← getPos
    fail (.maxDepth p.line p.col)
  else pure ()

/-- src/parse/parser.rs:87-123 `parse_obj`. -/
def parseObj [Unicode] (pv : PV) (depth : Nat) : P Value := do
  checkDepth depth
  expectP '{'
  if !(← findCharP) then failEnd
  else do
    let (pairs, parent) ← withBound fun n => fieldsLoop pv depth (some '}') n [] none
    let id ← genId
    pure (.obj (Obj.fromPairsUnchecked id pairs parent))

/-- The type check of one array element (src/parse/parser.rs:262-282, 344-364). -/
def arrStep (tcur : Ty) (hasAny : Bool) (value : Value) (line col : Nat) : P (Ty × Bool) :=
  match arrTypeStep tcur hasAny value.getType with
  | some r => pure r
  | none => fail (.expectedType tcur value.getType line col)

/-- src/parse/parser.rs:313-367: the element loop of `parse_arr`. -/
def arrLoop (pv : PV) (pairs : List Pair) (depth : Nat) :
    Nat → List Value → Ty → Bool → P (List Value × Ty)
  | 0, _, _, _ => oofP
  | n + 1, vec, tcur, hasAny => do
    if !(← findCharP) then failEnd
    else do
      match ← peekP with
      | none => panicP
      | some peek =>
        if peek = ']' then do
          let _ ← nextP
          pure (vec, tcur)
        else if isEndDelimiter peek then do
          let p ← getPos
          fail (.invalidClosingBracket (some ']') peek p.line p.col)
        else do
          let vp ← getPos
          let value ← pv pairs vp.line vp.col depth (some ']') true
          let (tcur, hasAny) ← arrStep tcur hasAny value vp.line vp.col
          arrLoop pv pairs depth n (vec ++ [value]) tcur hasAny

/-- src/parse/parser.rs:293-372 `parse_arr`. -/
def parseArr (pv : PV) (pairs : List Pair) (depth : Nat) : P Value := do
  checkDepth depth
  expectP '['
  let (vec, t) ← withBound fun n => arrLoop pv pairs depth n [] .any true
  let id ← genId
  pure (Arr.fromValuesUnchecked id vec t).toValue

/-- src/parse/parser.rs:427-459: the element loop of `parse_tup`. -/
def tupLoop (pv : PV) (pairs : List Pair) (depth : Nat) : Nat → List Value → P (List Value)
  | 0, _ => oofP
  | n + 1, vec => do
    if !(← findCharP) then failEnd
    else do
      match ← peekP with
      | none => panicP
      | some peek =>
        if peek = ')' then do
          let _ ← nextP
          pure vec
        else if isEndDelimiter peek then do
          let p ← getPos
          fail (.invalidClosingBracket (some ')') peek p.line p.col)
        else do
          let vp ← getPos
          let value ← pv pairs vp.line vp.col depth (some ')') true
          tupLoop pv pairs depth n (vec ++ [value])

/-- src/parse/parser.rs:409-464 `parse_tup`. -/
def parseTup (pv : PV) (pairs : List Pair) (depth : Nat) : P Value := do
  checkDepth depth
  expectP '('
  let vec ← withBound fun n => tupLoop pv pairs depth n []
  let id ← genId
  pure (Tup.fromValues id vec).toValue

/-! ## Files -/

/-- src/parse/parser.rs:242-285: the element loop of `parse_arr_file`. -/
def arrFileLoop (pv : PV) : Nat → List Value → Ty → Bool → P (List Value × Ty)
  | 0, _, _, _ => oofP
  | n + 1, vec, tcur, hasAny => do
    if !(← findCharP) then pure (vec, tcur)
    else do
      let vp ← getPos
      let value ← pv [] vp.line vp.col 1 none true
      let (tcur, hasAny) ← arrStep tcur hasAny value vp.line vp.col
      arrFileLoop pv n (vec ++ [value]) tcur hasAny

/-- src/parse/parser.rs:382-403: the element loop of `parse_tup_file`. -/
def tupFileLoop (pv : PV) : Nat → List Value → P (List Value)
  | 0, _ => oofP
  | n + 1, vec => do
    if !(← findCharP) then pure vec
    else do
      let vp ← getPos
      let value ← pv [] vp.line vp.col 1 none true
      tupFileLoop pv n (vec ++ [value])

/-- The bodies of `parse_obj_file_includes` (src/parse/parser.rs:47-50), `parse_arr_file` (232-290) and
`parse_tup_file` (375-406) once the stream is open; `parse_str_file` does not parse. -/
def parseFileBody [Unicode] (pv : PV) : IncKind → P Value
  | .obj => do let o ← parseObjStream pv; pure (.obj o)
  | .arr => do
    let (vec, t) ← withBound fun n => arrFileLoop pv n [] .any true
    let id ← genId
    pure (Arr.fromValuesUnchecked id vec t).toValue
  | .tup => do
    let vec ← withBound fun n => tupFileLoop pv n []
    let id ← genId
    pure (Tup.fromValues id vec).toValue
  | .str => panicP

/-- Running a parser on the text of another file: a new stream and an empty global map
(src/parse/parser.rs:47-50, 61-63, 232-237, 375-380); the stream and globals of the including file are
untouched. -/
def inFile (path contents : Str) (m : P Value) : P Value := fun s =>
  match m { s with stream := Stream.ofString (some path) contents, globals := [] } with
  | .ok v s' => .ok v { s with inc := s'.inc, rt := s'.rt }
  | .err e => .err e
  | .panic => .panic
  | .oof => .oof

/-- src/parse/parser.rs:1139-1144 (with 47-50, 232-237, 375-380, 945-949): load a file in the role
given by the include keyword. -/
def loadFile [Unicode] (fs : FS) (pv : PV) (kind : IncKind) (path : Str) : P Value :=
  match fs.read path with
  | .error msg => fun _ => .err ⟨none, .ioError msg⟩
  | .ok contents =>
    if kind = .str then pure (.str contents)
    else inFile path contents (parseFileBody pv kind)

/-- src/parse/parser.rs:1031-1045: which include keyword (if any) the first value is; `none` means the
value is the path itself.  The sentinels are compared by pointer, in order. -/
def includeKeyword (value : Value) (line col : Nat) : P (Option IncKind) :=
  match value with
  | .obj o => do
    let i ← forceSentinel .obj
    if o.id = i then pure (some .obj) else do
    let i ← forceSentinel .str
    if o.id = i then pure (some .str) else do
    let i ← forceSentinel .arr
    if o.id = i then pure (some .arr) else do
    let i ← forceSentinel .tup
    if o.id = i then pure (some .tup)
    else fail (.invalidIncludeToken value.getType line col)
  | .str _ => pure none
  | _ => fail (.invalidIncludeToken value.getType line col)

/-- src/parse/parser.rs:1094-1098: the path to include, relative to the including file; `none` is the panic of `parent().unwrap()`. -/
def includeTarget (file : Option Str) (includeFile : Str) : Option Str :=
  match file with
  | some f => match pathParent f with
    | some dir => some (pathJoin dir includeFile)
    | none => none
  | none => some includeFile

/-- src/parse/parser.rs:1094-1120: from the include path to (path to open, canonical path). -/
def resolveInclude (fs : FS) (includeFile : Str) (line col : Nat) : P (Str × Str) := do
  let file ← getFile
  match includeTarget file includeFile with
  | none => panicP
  | some path =>
    if !fs.isFile path then fail (.invalidIncludePath includeFile line col)
    else match fs.resolve path with
      | none => fail (.invalidIncludePath includeFile line col)
      | some full =>
        if !fs.utf8 full then fail (.invalidIncludePath includeFile line col)
        else pure (path, full)

/-- src/parse/parser.rs:1123-1129: remember the current file while the include is processed.
`canonicalize().unwrap().to_str().unwrap()` panics when the path of the current file does not resolve
or is not valid UTF-8. -/
def storeCurrent (fs : FS) : P (Option Str) := fun s =>
  match s.stream.file with
  | some f => match fs.resolve f with
    | some full =>
      if fs.utf8 full then
        .ok (some full) { s with inc := { s.inc with
          opened := if s.inc.opened.contains full then s.inc.opened else full :: s.inc.opened } }
      else .panic
    | none => .panic
  | none => .ok none s

/-- The files being parsed (`included.1`, src/parse/parser.rs:1130). -/
def getOpened : P (List Str) := fun s => .ok s.inc.opened s

/-- src/parse/parser.rs:1151-1153: forget the current file again. -/
def unstore (stored : Option Str) : P Unit := fun s =>
  match stored with
  | some f => .ok () { s with inc := { s.inc with opened := s.inc.opened.filter (fun g => g != f) } }
  | none => .ok () s

/-- src/parse/parser.rs:1135-1148: the cached value, or load the file and cache it. -/
def loadCached [Unicode] (fs : FS) (pv : PV) (kind : IncKind) (path full : Str) : P Value := fun s =>
  match StrMap.get s.inc.cache full with
  | some v => .ok v s
  | none =>
    match loadFile fs pv kind path s with
    | .ok v s' => .ok v { s' with inc := { s'.inc with cache := StrMap.insert s'.inc.cache full v } }
    | .err e => .err e
    | .panic => .panic
    | .oof => .oof

/-- src/parse/parser.rs:1094-1155: the part of `parse_include` after the closing `>`. -/
def includeFileP [Unicode] (fs : FS) (pv : PV) (kind : IncKind) (includeFile : Str) (line col : Nat) :
    P Value := do
  let (path, full) ← resolveInclude fs includeFile line col
  let stored ← storeCurrent fs
  let opened ← getOpened
  if opened.contains full then fail (.cyclicInclude includeFile line col)
  else do
    let value ← loadCached fs pv kind path full
    unstore stored
    pure value

/-- src/parse/parser.rs:1047-1066: the second value, when the first was a keyword. -/
def includePath (pv : PV) (pairs : List Pair) (depth : Nat) (kw : Option IncKind) (value : Value)
    (p : Pos) : P (Value × Pos) :=
  match kw with
  | none => pure (value, p)
  | some _ => do
    if !(← findCharP) then failEnd
    else do
      let p ← getPos
      let v ← pv pairs p.line p.col depth (some '>') true
      pure (v, p)

/-- src/parse/parser.rs:1068-1081: the closing `>`. -/
def includeClose : P Unit := do
  if !(← findCharP) then failEnd
  else do
    match ← nextP with
    | none => panicP
    | some ch =>
      if ch = '>' then pure ()
      else do
        let p ← getPos
        match usub p.col 1 with
        | some c => fail (.invalidClosingBracket (some '>') ch p.line c)
        | none => panicP

/-- src/parse/parser.rs:991-1156 `parse_include`. -/
def parseInclude [Unicode] (fs : FS) (pv : PV) (pairs : List Pair) (depth : Nat) : P Value := do
  checkDepth depth
  expectP '<'
  if !(← findCharP) then failEnd
  else do
    let p ← getPos
    let value ← pv pairs p.line p.col depth (some '>') true
    let kw ← includeKeyword value p.line p.col
    let (value, p) ← includePath pv pairs depth kw value p
    includeClose
    match value with
    | .str includeFile => includeFileP fs pv (kw.getD .obj) includeFile p.line p.col
    | _ => fail (.expectedType .str value.getType p.line p.col)

/-! ## The knot -/

/-- src/parse/parser.rs:541-585: the operand part of `parse_value`. -/
def parseTerm [Unicode] (fs : FS) (pv : PV) (pairs : List Pair) (line col depth : Nat)
    (brace : Option Char) : P Value := do
  match ← peekP with
  | none => panicP
  | some ch =>
    if ch = '"' then parseStr
    else if ch = '{' then parseObj pv (depth + 1)
    else if ch = '[' then parseArr pv pairs (depth + 1)
    else if ch = '(' then parseTup pv pairs (depth + 1)
    else if ch = '<' then parseInclude fs pv pairs (depth + 1)
    else if ch = '+' then parseUnary pv pairs depth brace .plus
    else if ch = '-' then parseUnary pv pairs depth brace .minus
    else if isNumericChar ch then parseNumeric line col
    else if isValidFieldChar ch true || ch == '@' then
      withBound fun n => parseVariable pv n pairs line col depth brace
    else fail (.invalidValueChar ch line col)

/-- src/parse/parser.rs:529-648 `parse_value`, with the recursive calls abstracted as `pv`. -/
def parseValueBody [Unicode] (fs : FS) (pv : PV) : PV := fun pairs line col depth brace isFirst => do
  let res ← parseTerm fs pv pairs line col depth brace
  if isFirst then parseOps pv pairs depth brace res line col else pure res

/-- src/parse/parser.rs:529-648 `parse_value`; the fuel bounds the nesting of `parse_value` calls. -/
def parseValue [Unicode] (fs : FS) : Nat → PV
  | 0 => fun _ _ _ _ _ _ => oofP
  | n + 1 => parseValueBody fs (parseValue fs n)

/-! ## Entry points -/

/-- Total number of characters of all readable files. -/
def FS.size (fs : FS) : Nat :=
  (fs.nodes.map (fun e => match e.2 with | .ok s => s.length | .error _ => 0)).sum

/-- Fuel that always suffices (`C23`). -/
def FS.fuel (fs : FS) (contents : Str) : Nat := contents.length + fs.size + 1

/-- A fresh parser state (`&mut (Default::default(), Default::default())`, empty globals). -/
def PState.init (file : Option Str) (contents : Str) (rt : Rt) : PState :=
  ⟨Stream.ofString file contents, [], ⟨[], []⟩, rt⟩

/-- src/parse/parser.rs:53-57 `parse_obj_str`, src/obj.rs:322-328 `FromStr for Obj` (before the error
is turned into its message), with explicit fuel. -/
def fromStrFuel [Unicode] (fs : FS) (fuel : Nat) (contents : Str) (rt : Rt) : Res Obj :=
  parseObjStream (parseValue fs fuel) (PState.init none contents rt)

/-- src/parse/parser.rs:53-57 `parse_obj_str` = `Obj::from_str`. -/
def fromStr [Unicode] (fs : FS) (contents : Str) (rt : Rt) : Res Obj :=
  fromStrFuel fs (fs.fuel contents) contents rt

/-- src/parse/parser.rs:41-44 `parse_obj_file` = `Obj::from_file` (src/obj.rs:146-148). -/
def fromFile [Unicode] (fs : FS) (path : Str) (rt : Rt) : Res Obj :=
  match fs.read path with
  | .error msg => .err ⟨none, .ioError msg⟩
  | .ok contents =>
    parseObjStream (parseValue fs (fs.fuel contents)) (PState.init (some path) contents rt)

end Over
