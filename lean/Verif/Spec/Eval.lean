import Verif.Spec.Syntax
import Verif.Model.Parser
import Verif.Spec.Paths

/-!
# Meaning of document trees

A direct evaluator for the trees of `Spec/Syntax.lean`: no characters, no positions, no streams.  From
the model it uses the value types, the file system, the state of the process-wide id counter, and
`Ty.mostSpecific` (the least common refinement, see `C02`).
-/

namespace Over

/-! ## Semantic errors -/

/-- Kinds of semantic errors, without positions. -/
inductive SemKind where
  /-- an operator applied to operands of these types (an Int next to a Frac counts as Frac) -/
  | binary (op : BinOp) (t1 t2 : Ty)
  | unary (op : UnOp) (t : Ty)
  | divisionByZero
  | expectedType (expected found : Ty)
  | variableNotFound (x : Str)
  | globalNotFound (x : Str)
  /-- a lone `@` -/
  | loneAt
  | duplicateField (f : Str)
  | duplicateGlobal (f : Str)
  | invalidIndex (i : Int)
  /-- an error of the container API: index out of bounds, parent that is not an object -/
  | api (e : OverError)
  | invalidDot (t : Ty)
  /-- `x.@g` with `x` an object -/
  | globalAfterDot
  /-- `x.1` with `x` an object -/
  | numberAfterDot
  | maxDepth
  | includeToken (t : Ty)
  /-- a kind without a path, or two values without a kind -/
  | includeForm
  | includePath (p : Str)
  | cyclicInclude (p : Str)

/-- A semantic error: in a file (`none`: the text given to `from_str`), an unreadable file, or an
included file whose text is not the text of a document. -/
inductive SemErr where
  | sem (file : Option Str) (k : SemKind)
  | io (msg : Str)
  | malformed

/-- The reported kinds that a semantic error kind can have. -/
inductive SemKind.Reported : SemKind → Kind → Prop
  | binary {op t1 t2 l c} : Reported (.binary op t1 t2) (.binaryOperatorError t1 t2 op l c)
  | unary {op t l c} : Reported (.unary op t) (.unaryOperatorError t op l c)
  | divisionByZero {l c} : Reported .divisionByZero (.invalidNumeric l c)
  | expectedType {t1 t2 l c} : Reported (.expectedType t1 t2) (.expectedType t1 t2 l c)
  | variableNotFound {x l c} : Reported (.variableNotFound x) (.variableNotFound x l c)
  | globalNotFound {x l c} : Reported (.globalNotFound x) (.globalNotFound x l c)
  | loneAt {l c} : Reported .loneAt (.invalidValue c!"@" l c)
  | duplicateField {f l c} : Reported (.duplicateField f) (.duplicateField f l c)
  | duplicateGlobal {f l c} : Reported (.duplicateGlobal f) (.duplicateGlobal f l c)
  | invalidIndex {i l c} : Reported (.invalidIndex i) (.invalidIndex i l c)
  | api {e l c} : Reported (.api e) (kindFromOver e l c)
  | invalidDot {t l c} : Reported (.invalidDot t) (.invalidDot t l c)
  | globalAfterDot {l c} : Reported .globalAfterDot (.invalidValueChar '@' l c)
  | numberAfterDot {x l c} : Reported .numberAfterDot (.variableNotFound x l c)
  | numberAfterDotChar {ch l c} : Reported .numberAfterDot (.invalidValueChar ch l c)
  | numberAfterDotEnd {l} : Reported .numberAfterDot (.unexpectedEnd l)
  | maxDepth {l c} : Reported .maxDepth (.maxDepth l c)
  | includeToken {t l c} : Reported (.includeToken t) (.invalidIncludeToken t l c)
  | noPath {l c} : Reported .includeForm (.invalidValueChar '>' l c)
  | noKind {ch l c} : Reported .includeForm (.invalidClosingBracket (some '>') ch l c)
  | includePath {p l c} : Reported (.includePath p) (.invalidIncludePath p l c)
  | cyclicInclude {p l c} : Reported (.cyclicInclude p) (.cyclicInclude p l c)

/-- The parse errors by which a semantic error can be reported. -/
inductive SemErr.Reported : SemErr → ParseError → Prop
  | sem {file k kind} : k.Reported kind → Reported (.sem file k) ⟨file, kind⟩
  | io {msg} : Reported (.io msg) ⟨none, .ioError msg⟩
  | malformed {e} : (∃ p, e.file = some p) ∨ (∃ msg, e = ⟨none, .ioError msg⟩) → Reported .malformed e

/-! ## State -/

/-- What evaluation changes: the globals of the current file, the values of the files included so far,
and the id counter with the lazily created keyword objects. -/
structure ESt where
  globals : StrMap Value
  cache : StrMap Value
  rt : Rt

/-- Evaluation actions. -/
def EM (α : Type) := ESt → Except SemErr (α × ESt)

/-- Sequencing: the first error wins. -/
def EM.bind {α β : Type} (m : EM α) (f : α → EM β) : EM β := fun st =>
  match m st with
  | .ok (a, st') => f a st'
  | .error e => .error e

instance : Monad EM where
  pure a := fun st => .ok (a, st)
  bind := EM.bind

/-- A semantic error in the given file. -/
def EM.fail {α : Type} (file : Option Str) (k : SemKind) : EM α := fun _ => .error (.sem file k)

/-- A fresh container id. -/
def EM.fresh : EM Nat := fun st =>
  .ok (st.rt.curId, { st with rt := st.rt.after { st.rt.toShared with curId := st.rt.curId + 1 } })

/-- The id of the object denoted by the keyword `Obj`, `Str`, `Arr` or `Tup`; created on first use. -/
def EM.keywordId (k : IncKind) : EM Nat := fun st =>
  let known := match k with
    | .obj => st.rt.objS
    | .str => st.rt.strS
    | .arr => st.rt.arrS
    | .tup => st.rt.tupS
  match known with
  | some i => .ok (i, st)
  | none =>
    let i := st.rt.curId
    let s := { st.rt.toShared with curId := i + 1 }
    .ok (i, { st with rt := st.rt.after (match k with
      | .obj => { s with objS := some i }
      | .str => { s with strS := some i }
      | .arr => { s with arrS := some i }
      | .tup => { s with tupS := some i }) })

/-! ## Operators -/

/-- Result of a binary operation. -/
inductive BinRes where
  /-- a value without identity -/
  | val (v : Value)
  /-- a new array -/
  | newArr (t : Ty) (vs : List Value)
  /-- not applicable; the types after promotion -/
  | bad (t1 t2 : Ty)
  | divisionByZero

/-- The types named in an operator error: an Int next to a Frac counts as a Frac. -/
def promotedTypes (a b : Value) : Ty × Ty :=
  match a, b with
  | .int _, .frac _ => (.frac, .frac)
  | .frac _, .int _ => (.frac, .frac)
  | a, b => (a.getType, b.getType)

/-- Quotient of rationals. -/
def divSem (x y : Rat) : BinRes := if y = 0 then .divisionByZero else .val (.frac (x / y))

/-- The binary operators. -/
def binSem : BinOp → Value → Value → BinRes
  | .plus, .int x, .int y => .val (.int (x + y))
  | .plus, .int x, .frac y => .val (.frac ((x : Rat) + y))
  | .plus, .frac x, .int y => .val (.frac (x + (y : Rat)))
  | .plus, .frac x, .frac y => .val (.frac (x + y))
  | .plus, .str x, .str y => .val (.str (x ++ y))
  | .plus, .arr i s xs, .arr j t ys => match Ty.mostSpecific s t with
    | some (u, _) => .newArr u (xs ++ ys)
    | none => .bad (Value.arr i s xs).getType (Value.arr j t ys).getType
  | .minus, .int x, .int y => .val (.int (x - y))
  | .minus, .int x, .frac y => .val (.frac ((x : Rat) - y))
  | .minus, .frac x, .int y => .val (.frac (x - (y : Rat)))
  | .minus, .frac x, .frac y => .val (.frac (x - y))
  | .mult, .int x, .int y => .val (.int (x * y))
  | .mult, .int x, .frac y => .val (.frac ((x : Rat) * y))
  | .mult, .frac x, .int y => .val (.frac (x * (y : Rat)))
  | .mult, .frac x, .frac y => .val (.frac (x * y))
  | .div, .int x, .int y => divSem x y
  | .div, .int x, .frac y => divSem x y
  | .div, .frac x, .int y => divSem x y
  | .div, .frac x, .frac y => divSem x y
  | .mod, .int x, .int y => if y = 0 then .divisionByZero else .val (.int (Int.tmod x y))
  | _, a, b => .bad (promotedTypes a b).1 (promotedTypes a b).2

/-- Applying a binary operator. -/
def applyBin (file : Option Str) (op : BinOp) (a b : Value) : EM Value :=
  match binSem op a b with
  | .val v => pure v
  | .newArr t vs => do let id ← EM.fresh; pure (.arr id t vs)
  | .bad t1 t2 => .fail file (.binary op t1 t2)
  | .divisionByZero => .fail file .divisionByZero

/-- Applying a unary operator. -/
def applyUn (file : Option Str) : UnOp → Value → EM Value
  | .plus, .int x => pure (.int x)
  | .plus, .frac x => pure (.frac x)
  | .minus, .int x => pure (.int (-x))
  | .minus, .frac x => pure (.frac (-x))
  | op, v => .fail file (.unary op v.getType)

/-- `v₀ op₁ v₁ op₂ v₂ …` from left to right. -/
def sumLeft (file : Option Str) : Value → List (BinOp × Value) → EM Value
  | v, [] => pure v
  | v, (op, w) :: r => do
    let u ← applyBin file op v w
    sumLeft file u r

/-! ## Names -/

/-- The value of a global. -/
def evalGlobal (file : Option Str) (x : Str) : EM Value := fun st =>
  match StrMap.get st.globals x with
  | some v => .ok (v, st)
  | none => .error (.sem file (.globalNotFound x))

/-- The value of a name: keyword, global, or a field defined so far in the directly enclosing object. -/
def evalName (file : Option Str) (pairs : List Pair) (x : Str) : EM Value :=
  if x = c!"null" then pure .null
  else if x = c!"true" then pure (.bool true)
  else if x = c!"false" then pure (.bool false)
  else if x = c!"Obj" then do let i ← EM.keywordId .obj; pure (.obj (.mk i [] none))
  else if x = c!"Str" then do let i ← EM.keywordId .str; pure (.obj (.mk i [] none))
  else if x = c!"Arr" then do let i ← EM.keywordId .arr; pure (.obj (.mk i [] none))
  else if x = c!"Tup" then do let i ← EM.keywordId .tup; pure (.obj (.mk i [] none))
  else if x = c!"@" then .fail file .loneAt
  else if x.head? = some '@' then evalGlobal file x
  else match pairs.find? (fun p => p.field == x) with
    | some p => pure p.value
    | none => .fail file (.variableNotFound x)

/-- Element `i` of a container; `oob` makes the out-of-bounds error. -/
def evalIndex (file : Option Str) (oob : Nat → OverError) (vs : List Value) : Value → EM Value
  | .int i =>
    if 0 ≤ i ∧ i < 2 ^ 64 then
      match vs[i.toNat]? with
      | some v => pure v
      | none => .fail file (.api (oob i.toNat))
    else .fail file (.invalidIndex i)
  | v => .fail file (.expectedType .int v.getType)

/-- Nesting is limited to 64. -/
def depthCheck (file : Option Str) (d : Nat) : EM Unit :=
  if d > 64 then .fail file .maxDepth else pure ()

/-- A number. -/
def Term.isNumber : Term → Bool
  | .int _ => true
  | .frac _ => true
  | _ => false

/-- A path that starts with a global. -/
def Term.isGlobal : Term → Bool
  | .name x => x.head? == some '@'
  | .dot x _ => x.head? == some '@'
  | _ => false

/-! ## Includes -/

/-- Which include keyword the first value of an include is; `none` for a Str (the path itself). -/
def evalKeyword (file : Option Str) : Value → EM (Option IncKind)
  | .obj o => do
    let i ← EM.keywordId .obj
    if o.id = i then pure (some .obj) else do
    let i ← EM.keywordId .str
    if o.id = i then pure (some .str) else do
    let i ← EM.keywordId .arr
    if o.id = i then pure (some .arr) else do
    let i ← EM.keywordId .tup
    if o.id = i then pure (some .tup) else .fail file (.includeToken .obj)
  | .str _ => pure none
  | v => .fail file (.includeToken v.getType)

/-- How to read a file: the canonical paths of the files being read (including this one), the kind,
the path. -/
abbrev Loader := List Str → IncKind → Str → EM Value

/-- Including the file `p` from a file whose stack of files being read is `stack`. -/
def evalInclude (fs : FS) (file : Option Str) (stack : List Str) (load : Loader) (kind : IncKind)
    (p : Str) : EM Value :=
  let path := meantIn file p
  match fs.resolve path with
  | none => .fail file (.includePath p)
  | some full =>
    if fs.isFile path = false ∨ fs.utf8 full = false then .fail file (.includePath p)
    else if full ∈ stack then .fail file (.cyclicInclude p)
    else fun st => match StrMap.get st.cache full with
      | some v => .ok (v, st)
      | none => match load (full :: stack) kind path st with
        | .ok (v, st') => .ok (v, { st' with cache := StrMap.insert st'.cache full v })
        | .error e => .error e

/-! ## Trees -/

/-- A definition must be new: a regular field or parent within its object, a global within the file. -/
def checkNew (file : Option Str) (pairs : List Pair) (parent : Option Obj) : Target → EM Unit
  | .field f => if f ∈ pairs.map Pair.field then .fail file (.duplicateField f) else pure ()
  | .parent => if parent.isSome then .fail file (.duplicateField c!"^") else pure ()
  | .global g => fun st => match StrMap.get st.globals g with
    | some _ => .error (.sem file (.duplicateGlobal g))
    | none => .ok ((), st)

/-- Define a global. -/
def setGlobal (g : Str) (v : Value) : EM Unit := fun st =>
  .ok ((), { st with globals := StrMap.insert st.globals g v })

section
variable (fs : FS) (file : Option Str) (stack : List Str) (load : Loader)

mutual
/-- Value of an operand, given the fields defined so far in the enclosing object and the depth. -/
def evalTerm : Term → List Pair → Nat → EM Value
  | .str s, _, _ => pure (.str s)
  | .int n, _, _ => pure (.int n)
  | .frac q, _, _ => pure (.frac q)
  | .name x, pairs, _ => evalName file pairs x
  | .dot x t, pairs, d => do
    match ← evalName file pairs x with
    | .arr _ _ vs => do
      let i ← evalTerm t pairs (d + 1)
      evalIndex file .arrOutOfBounds vs i
    | .tup _ _ vs => do
      let i ← evalTerm t pairs (d + 1)
      evalIndex file .tupOutOfBounds vs i
    | .obj o =>
      if t.isNumber then .fail file .numberAfterDot
      else if t.isGlobal then .fail file .globalAfterDot
      else evalTerm t o.pairs (d + 1)
    | v => .fail file (.invalidDot v.getType)
  | .neg t, pairs, d => do
    let v ← evalTerm t pairs (d + 1)
    applyUn file .minus v
  | .pos t, pairs, d => do
    let v ← evalTerm t pairs (d + 1)
    applyUn file .plus v
  | .arr es, pairs, d => do
    depthCheck file (d + 1)
    let (vs, t) ← evalElems es pairs (d + 1) .any
    let id ← EM.fresh
    pure (.arr id t vs)
  | .tup es, pairs, d => do
    depthCheck file (d + 1)
    let vs ← evalItems es pairs (d + 1)
    let id ← EM.fresh
    pure (.tup id (vs.map Value.getType) vs)
  | .obj fds, _, d => do
    depthCheck file (d + 1)
    let (ps, par) ← evalFields fds (d + 1) [] none
    let id ← EM.fresh
    pure (.obj (.mk id ps par))
  | .incl e, pairs, d => do
    depthCheck file (d + 1)
    let v ← evalExpr e pairs (d + 1)
    match ← evalKeyword file v, v with
    | none, .str p => evalInclude fs file stack load .obj p
    | _, _ => .fail file .includeForm
  | .inclAs k e, pairs, d => do
    depthCheck file (d + 1)
    let v ← evalExpr k pairs (d + 1)
    match ← evalKeyword file v with
    | none => .fail file .includeForm
    | some kind => do
      match ← evalExpr e pairs (d + 1) with
      | .str p => evalInclude fs file stack load kind p
      | w => .fail file (.expectedType .str w.getType)
termination_by structural t => t
/-- Value of an operator chain: products as soon as both operands are known, then the sums. -/
def evalExpr : Expr → List Pair → Nat → EM Value
  | .mk t r, pairs, d => do
    let v ← evalTerm t pairs d
    let (p, sums) ← evalChain r v pairs d
    sumLeft file p sums
termination_by structural t => t
/-- The products of a chain that starts with value `v`: the first product, and each further one with
the `+` or `-` before it. -/
def evalChain : List OpTerm → Value → List Pair → Nat → EM (Value × List (BinOp × Value))
  | [], v, _, _ => pure (v, [])
  | .mk op t :: r, v, pairs, d => do
    let w ← evalTerm t pairs d
    if op.tight then do
      let u ← applyBin file op v w
      evalChain r u pairs d
    else do
      let (p, sums) ← evalChain r w pairs d
      pure (v, (op, p) :: sums)
termination_by structural t => t
/-- Elements of an array, with the running least common refinement of their types. -/
def evalElems : List Expr → List Pair → Nat → Ty → EM (List Value × Ty)
  | [], _, _, t => pure ([], t)
  | e :: es, pairs, d, t => do
    let v ← evalExpr e pairs d
    match Ty.mostSpecific t v.getType with
    | none => .fail file (.expectedType t v.getType)
    | some (u, _) => do
      let (vs, u) ← evalElems es pairs d u
      pure (v :: vs, u)
termination_by structural t => t
/-- Elements of a tuple. -/
def evalItems : List Expr → List Pair → Nat → EM (List Value)
  | [], _, _ => pure []
  | e :: es, pairs, d => do
    let v ← evalExpr e pairs d
    let vs ← evalItems es pairs d
    pure (v :: vs)
termination_by structural t => t
/-- Field definitions, given the fields and parent defined so far. -/
def evalFields : List Field → Nat → List Pair → Option Obj → EM (List Pair × Option Obj)
  | [], _, pairs, parent => pure (pairs, parent)
  | .mk tg e :: fds, d, pairs, parent => do
    checkNew file pairs parent tg
    let v ← evalExpr e pairs d
    match tg with
    | .field f => evalFields fds d (pairs ++ [.mk f v]) parent
    | .global g => do
      setGlobal g v
      evalFields fds d pairs parent
    | .parent => match v with
      | .obj o => evalFields fds d pairs (some o)
      | v => .fail file (.api (.typeMismatch .obj v.getType))
termination_by structural t => t
end

/-- The object of a document (nesting level 1). -/
def evalDoc (d : List Field) : EM Obj := do
  let (ps, par) ← evalFields fs file stack load d 1 [] none
  let id ← EM.fresh
  pure (.mk id ps par)

/-- The array of a file included as `Arr`. -/
def evalArrFile (es : List Expr) : EM Value := do
  let (vs, t) ← evalElems fs file stack load es [] 1 .any
  let id ← EM.fresh
  pure (.arr id t vs)

/-- The tuple of a file included as `Tup`. -/
def evalTupFile (es : List Expr) : EM Value := do
  let vs ← evalItems fs file stack load es [] 1
  let id ← EM.fresh
  pure (.tup id (vs.map Value.getType) vs)

end

/-- Run with no globals; the globals of the including file come back afterwards. -/
def EM.ownGlobals {α : Type} (m : EM α) : EM α := fun st =>
  match m { st with globals := [] } with
  | .ok (a, st') => .ok (a, { st' with globals := st.globals })
  | .error e => .error e

open Classical in
/-- Reading an included file: the value of whatever document tree its text spells.  The number bounds
the nesting of includes; the number of files in the file system is enough (a file is never read inside
itself). -/
noncomputable def loadN [Unicode] (fs : FS) : Nat → Loader
  | 0, _, _, _ => fun _ => .error .malformed
  | n + 1, stack, kind, path =>
    match fs.read path with
    | .error msg => fun _ => .error (.io msg)
    | .ok text =>
      match kind with
      | .str => pure (.str text)
      | .obj => if h : ∃ d, SpDoc d text then
          EM.ownGlobals (do
            let o ← evalDoc fs (some path) stack (loadN fs n) h.choose
            pure (.obj o))
        else fun _ => .error .malformed
      | .arr => if h : ∃ es, SpItems true es text then
          EM.ownGlobals (evalArrFile fs (some path) stack (loadN fs n) h.choose)
        else fun _ => .error .malformed
      | .tup => if h : ∃ es, SpItems true es text then
          EM.ownGlobals (evalTupFile fs (some path) stack (loadN fs n) h.choose)
        else fun _ => .error .malformed

/-- The meaning of a document given as a text: value or error, from a state of the id counter. -/
noncomputable def meaning [Unicode] (fs : FS) (file : Option Str) (stack : List Str) (d : List Field)
    (rt : Rt) : Except SemErr (Obj × ESt) :=
  evalDoc fs file stack (loadN fs (fs.nodes.length + 1)) d ⟨[], [], rt⟩

end Over
