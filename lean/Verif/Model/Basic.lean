/-!
# Basic vocabulary of the model

Strings, character classes and decimal notation.  A Rust `String` is a sequence of Unicode scalar
values; Lean's `Char` is exactly a Unicode scalar value, so a string is a `List Char`.
-/

namespace Over

/-- A Rust `String`/`&str`, as the list of its `char`s. -/
abbrev Str := List Char

/-- `c!"abc"` is the list literal `['a', 'b', 'c']` (expanded at elaboration time). -/
macro:max "c!" s:str : term => do
  let cs : Array (Lean.TSyntax `term) :=
    (s.getString.toList.map (fun c => (Lean.Syntax.mkCharLit c : Lean.TSyntax `term))).toArray
  `(([$cs,*] : List Char))

/-- The part of Rust's Unicode tables that the model leaves open: which non-ASCII characters are
`Alphabetic`, and how `{:?}` prints a non-ASCII character.  Every theorem holds for every choice. -/
class Unicode where
  /-- candidate set for `Alphabetic` above U+007F -/
  alphaHi : Char → Bool
  /-- `char::escape_debug` above U+007F -/
  debugHi : Char → Str

/-- `char::is_whitespace` (Unicode White_Space, std library), used at
src/parse/util.rs:33-35 and src/parse/parser.rs:1334. -/
def isUniWhitespace (c : Char) : Bool :=
  let n := c.toNat
  (9 ≤ n && n ≤ 13) || n == 32 || n == 0x85 || n == 0xA0 || n == 0x1680 ||
  (0x2000 ≤ n && n ≤ 0x200A) || n == 0x2028 || n == 0x2029 || n == 0x202F || n == 0x205F ||
  n == 0x3000

/-- `'a'..='z' | 'A'..='Z'`. -/
def isAsciiAlpha (c : Char) : Bool :=
  let n := c.toNat
  (97 ≤ n && n ≤ 122) || (65 ≤ n && n ≤ 90)

/-- `char::is_alphabetic` (std library), used at src/obj.rs:287.  In std: ASCII letters, or above
U+007F a table lookup.  The table is the parameter `alphaHi`; that it contains no White_Space
character (true of Unicode) is built in. -/
def isAlphabetic [Unicode] (c : Char) : Bool :=
  isAsciiAlpha c || (127 < c.toNat && !isUniWhitespace c && Unicode.alphaHi c)

/-- src/parse/util.rs:53-58 `is_digit`. -/
def isDigit (c : Char) : Bool :=
  let n := c.toNat
  48 ≤ n && n ≤ 57

/-- src/parse/util.rs:33-35 `is_whitespace`: whitespace or the start of a comment. -/
def isWhitespace (c : Char) : Bool := isUniWhitespace c || c == '#'

/-- src/parse/util.rs:37-42 `is_end_delimiter`. -/
def isEndDelimiter (c : Char) : Bool :=
  c == ')' || c == ']' || c == '}' || c == '>'

/-- src/parse/mod.rs:65-70 `BinaryOp::is_op`. -/
def isOpChar (c : Char) : Bool :=
  c == '+' || c == '-' || c == '*' || c == '/' || c == '%'

/-- src/parse/util.rs:28-30 `is_value_end_char`. -/
def isValueEndChar (c : Char) : Bool :=
  isWhitespace c || isEndDelimiter c || isOpChar c

/-- src/parse/util.rs:44-50 `is_numeric_char`. -/
def isNumericChar (c : Char) : Bool :=
  isDigit c || c == '.' || c == ','

/-- src/parse/util.rs:60-65 `is_reserved`. -/
def isReserved (field : Str) : Bool :=
  field == c!"@" || field == c!"null" || field == c!"true" || field == c!"false" ||
  field == c!"Obj" || field == c!"Str" || field == c!"Arr" || field == c!"Tup"

/-- src/parse/util.rs:14-25 `get_escape_char`. -/
def getEscapeChar (c : Char) : Option Char :=
  if c = '\\' then some '\\'
  else if c = '"' then some '"'
  else if c = '\'' then some '\''
  else if c = '$' then some '$'
  else if c = 'n' then some '\n'
  else if c = 'r' then some '\r'
  else if c = 't' then some '\t'
  else none

/-- src/obj.rs:285-293 `Obj::is_valid_field_char`. -/
def isValidFieldChar [Unicode] (ch : Char) (first : Bool) : Bool :=
  if isAlphabetic ch then true
  else if isDigit ch then !first
  else if ch == '_' then true
  else if ch == '^' then first
  else false

/-- `{}` of an unsigned integer (usize, BigUint): decimal digits. -/
def showNat (n : Nat) : Str := Nat.toDigits 10 n

/-- `{}` of a `BigInt` (num-bigint): sign and decimal digits. -/
def showInt : Int → Str
  | .ofNat n => showNat n
  | .negSucc n => '-' :: showNat (n + 1)

/-- The value of one decimal digit. -/
def digitVal (c : Char) : Nat := c.toNat - 48

/-- Value of a digit string in base ten. -/
def digitsVal (s : Str) : Nat := s.foldl (fun a c => 10 * a + digitVal c) 0

/-- `str::parse::<BigInt>` (num-bigint), used at src/parse/parser.rs:745, 754, 765.
Simplification: modelled on digit strings only — the callers never pass anything else; every other
string is `none` here (num-bigint also accepts a sign and inner underscores). -/
def parseBigInt (s : Str) : Option Int :=
  if s.isEmpty || s.any (fun c => !isDigit c) then none else some (Int.ofNat (digitsVal s))

/-- `num_traits::ToPrimitive::to_usize` on a `BigInt` (64-bit target), used at
src/parse/parser.rs:877, 906. -/
def toUsize (i : Int) : Option Nat :=
  if 0 ≤ i ∧ i < 2 ^ 64 then some i.toNat else none

end Over
