import Verif.Model.Value
import Verif.Model.Stream

/-!
# Parse errors and operators (src/parse/error.rs, src/parse/mod.rs)
-/

namespace Over

/-- src/parse/mod.rs:29-32 `UnaryOp`. -/
inductive UnOp | plus | minus
  deriving DecidableEq, Repr

/-- src/parse/mod.rs:48-54 `BinaryOp`. -/
inductive BinOp | plus | minus | mult | div | mod
  deriving DecidableEq, Repr

/-- src/parse/mod.rs:57-62 `BinaryOp::is_priority`. -/
def BinOp.isPriority : BinOp → Bool
  | .mult => true
  | .div => true
  | .mod => true
  | _ => false

/-- src/parse/mod.rs:72-81 `BinaryOp::get_op`. -/
def getOp (ch : Char) : Option BinOp :=
  if ch = '+' then some .plus
  else if ch = '-' then some .minus
  else if ch = '*' then some .mult
  else if ch = '/' then some .div
  else if ch = '%' then some .mod
  else none

/-- src/parse/mod.rs:84-98 `Display for BinaryOp`. -/
def BinOp.display : BinOp → Str
  | .plus => c!"'+'"
  | .minus => c!"'-'"
  | .mult => c!"'*'"
  | .div => c!"'/'"
  | .mod => c!"'%'"

/-- src/parse/mod.rs:34-45 `Display for UnaryOp`. -/
def UnOp.display : UnOp → Str
  | .plus => c!"'+'"
  | .minus => c!"'-'"

/-- src/parse/error.rs:16-42 `ParseErrorKind`. -/
inductive Kind where
  | binaryOperatorError (t1 t2 : Ty) (op : BinOp) (line col : Nat)
  | cyclicInclude (file : Str) (line col : Nat)
  | duplicateField (f : Str) (line col : Nat)
  | duplicateGlobal (f : Str) (line col : Nat)
  | expectedType (t1 t2 : Ty) (line col : Nat)
  | globalNotFound (v : Str) (line col : Nat)
  | invalidIndex (i : Int) (line col : Nat)
  | invalidClosingBracket (expected : Option Char) (found : Char) (line col : Nat)
  | invalidDot (t : Ty) (line col : Nat)
  | invalidEscapeChar (c : Char) (line col : Nat)
  | invalidFieldChar (c : Char) (line col : Nat)
  | invalidFieldName (f : Str) (line col : Nat)
  | invalidIncludePath (p : Str) (line col : Nat)
  | invalidIncludeToken (t : Ty) (line col : Nat)
  | invalidNumeric (line col : Nat)
  | invalidValue (v : Str) (line col : Nat)
  | invalidValueChar (c : Char) (line col : Nat)
  | maxDepth (line col : Nat)
  | unaryOperatorError (t : Ty) (op : UnOp) (line col : Nat)
  | unexpectedEnd (line : Nat)
  | variableNotFound (v : Str) (line col : Nat)
  | ioError (msg : Str)
  | overError (msg : Str)
  | parseIntError (msg : Str)

/-- src/parse/error.rs:46-51 `ParseError`. -/
structure ParseError where
  file : Option Str
  kind : Kind

/-- Lower-case hexadecimal digits. -/
def showHex (n : Nat) : Str := Nat.toDigits 16 n

/-- `{:?}` of a `char` (std, as of 2019: the double quote is escaped, see
tests/errors.rs `fuzz8.over`).  Non-ASCII characters are left to the parameter `debugHi`. -/
def showCharDebug [Unicode] (c : Char) : Str :=
  let body : Str :=
    if c = '\t' then c!"\\t"
    else if c = '\r' then c!"\\r"
    else if c = '\n' then c!"\\n"
    else if c = '\'' then c!"\\'"
    else if c = '"' then c!"\\\""
    else if c = '\\' then c!"\\\\"
    else if c.toNat < 32 ∨ c.toNat = 127 then c!"\\u{" ++ showHex c.toNat ++ c!"}"
    else if c.toNat < 127 then [c]
    else Unicode.debugHi c
  c!"'" ++ body ++ c!"'"

/-- src/parse/mod.rs:16 `MAX_DEPTH`. -/
def maxDepth : Nat := 64

/-- `"{a} at line {line}, column {col}"`, the common suffix of the messages below. -/
def atLineCol (line col : Nat) : Str := c!" at line " ++ showNat line ++ c!", column " ++ showNat col

/-- src/parse/error.rs:61-175: the message of a kind. -/
def Kind.display [Unicode] : Kind → Str
  | .binaryOperatorError e f op l c =>
    c!"Could not apply operator " ++ op.display ++ c!" on types " ++ e.display ++ c!" and " ++
      f.display ++ atLineCol l c
  | .cyclicInclude file l c =>
    c!"Tried to cyclically include file \"" ++ file ++ c!"\"" ++ atLineCol l c
  | .duplicateField f l c => c!"Duplicate field \"" ++ f ++ c!"\"" ++ atLineCol l c
  | .duplicateGlobal f l c => c!"Duplicate global \"" ++ f ++ c!"\"" ++ atLineCol l c
  | .expectedType e f l c => c!"Expected " ++ e.display ++ atLineCol l c ++ c!"; found " ++ f.display
  | .globalNotFound v l c => c!"Global \"" ++ v ++ c!"\"" ++ atLineCol l c ++ c!" could not be found"
  | .invalidClosingBracket e f l c =>
    c!"Invalid closing bracket '" ++ [f] ++ c!"'" ++ atLineCol l c ++ c!"; expected " ++
      (match e with | some ch => c!"'" ++ [ch] ++ c!"'" | none => c!"none")
  | .invalidDot t l c =>
    c!"Invalid use of dot notation on value of type " ++ t.display ++ atLineCol l c ++
      c!"; value must be an Obj, Arr, or Tup."
  | .invalidEscapeChar ch l c =>
    c!"Invalid escape character " ++ showCharDebug ch ++ c!" following backslash" ++ atLineCol l c ++
      c!". If you meant to write a backslash, use '\\\\'"
  | .invalidFieldChar ch l c =>
    c!"Invalid character " ++ showCharDebug ch ++ c!" for field" ++ atLineCol l c
  | .invalidFieldName f l c => c!"Invalid field name \"" ++ f ++ c!"\"" ++ atLineCol l c
  | .invalidIncludePath p l c => c!"Invalid include path \"" ++ p ++ c!"\"" ++ atLineCol l c
  | .invalidIncludeToken t l c =>
    c!"Invalid value of type \"" ++ t.display ++ c!"\"" ++ atLineCol l c ++
      c!"; must be either a Str value or one of the tokens \"Obj\", \"Arr\", \"Tup\", or \"Str\""
  | .invalidIndex i l c => c!"Invalid index " ++ showInt i ++ atLineCol l c
  | .invalidNumeric l c => c!"Invalid numeric value" ++ atLineCol l c
  | .invalidValue v l c => c!"Invalid value \"" ++ v ++ c!"\"" ++ atLineCol l c
  | .invalidValueChar ch l c =>
    c!"Invalid character " ++ showCharDebug ch ++ c!" for value" ++ atLineCol l c
  | .maxDepth l c =>
    c!"Exceeded maximum recursion depth (" ++ showNat Over.maxDepth ++ c!")" ++ atLineCol l c
  | .unaryOperatorError t op l c =>
    c!"Could not apply operator " ++ op.display ++ c!" on type " ++ t.display ++ atLineCol l c
  | .unexpectedEnd l => c!"Unexpected end at line " ++ showNat l
  | .variableNotFound v l c =>
    c!"Variable \"" ++ v ++ c!"\"" ++ atLineCol l c ++ c!" could not be found"
  | .ioError m => m
  | .overError m => m
  | .parseIntError m => m

/-- src/parse/error.rs:53-176 `Display for ParseError`. -/
def ParseError.display [Unicode] (e : ParseError) : Str :=
  (match e.file with | some f => f ++ c!": " | none => []) ++ e.kind.display

/-- src/parse/error.rs:182-187 `ParseError::from_over` (the kind; the file is the stream's). -/
def kindFromOver (e : OverError) (line col : Nat) : Kind :=
  .overError (e.display ++ c!" at line " ++ showNat line ++ c!", col " ++ showNat col)

/-- src/error.rs:61-65 `From<ParseError> for OverError`. -/
def ParseError.toOver [Unicode] (e : ParseError) : OverError := .parseError e.display

end Over
