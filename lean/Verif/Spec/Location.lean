import Verif.Model.Parser
import Verif.Spec.Syntax

/-!
# Where errors point

Lines and columns are counted directly in the text: lines are separated by newlines, columns are
numbered from 1.
-/

namespace Over

/-- The line on which the character following `pre` stands. -/
def lineAfter (pre : Str) : Nat := 1 + pre.count '\n'

/-- The column in which the character following `pre` stands. -/
def colAfter (pre : Str) : Nat := 1 + (pre.reverse.takeWhile (fun c => c != '\n')).length

/-- `l`, `c` are the line and column of some character of the text, or of its end. -/
def PosIn (text : Str) (l c : Nat) : Prop :=
  ∃ pre post, text = pre ++ post ∧ l = lineAfter pre ∧ c = colAfter pre

/-- The character at line `l`, column `c` of the text is `ch`. -/
def CharAt (text : Str) (ch : Char) (l c : Nat) : Prop :=
  ∃ pre post, text = pre ++ ch :: post ∧ l = lineAfter pre ∧ c = colAfter pre

/-- Like `CharAt`, except that a newline is described as column 0 of the line it starts. -/
def CharAtOrNewline (text : Str) (ch : Char) (l c : Nat) : Prop :=
  (ch ≠ '\n' ∧ CharAt text ch l c) ∨
  (ch = '\n' ∧ c = 0 ∧ ∃ pre post, text = pre ++ '\n' :: post ∧ l = lineAfter pre + 1)

/-- The word `w` stands at line `l`, column `c` of the text. -/
def WordAt (text w : Str) (l c : Nat) : Prop :=
  ∃ pre post, text = pre ++ (w ++ post) ∧ l = lineAfter pre ∧ c = colAfter pre

/-- A complete operand (literal, name, path, container, include; possibly the first of a chain) starts at line `l`, column
`c` of the text. -/
def OperandAt [Unicode] (text : Str) (l c : Nat) : Prop := ∃ t w, SpTerm t w ∧ WordAt text w l c

/-- The error kind fits the text: its position lies in the text, and there stands what the error is about: a reported
character or name, the bracket that nests too deep, the operand that does not fit; an unexpected end is the end of the
text. -/
inductive KindIn [Unicode] (text : Str) : Kind → Prop
  | binaryOperatorError {t1 t2 op l c} : OperandAt text l c → KindIn text (.binaryOperatorError t1 t2 op l c)
  | cyclicInclude {f l c} : OperandAt text l c → KindIn text (.cyclicInclude f l c)
  | duplicateField {f l c} : WordAt text f l c → KindIn text (.duplicateField f l c)
  | duplicateGlobal {f l c} : WordAt text f l c → KindIn text (.duplicateGlobal f l c)
  | expectedType {t1 t2 l c} : OperandAt text l c → KindIn text (.expectedType t1 t2 l c)
  | globalNotFound {v l c} : WordAt text v l c → KindIn text (.globalNotFound v l c)
  | invalidIndex {i l c} : OperandAt text l c → KindIn text (.invalidIndex i l c)
  | invalidClosingBracket {e ch l c} : CharAt text ch l c → KindIn text (.invalidClosingBracket e ch l c)
  | invalidDot {t x l c} : VarName x → WordAt text (x ++ c!".") l c → KindIn text (.invalidDot t l c)
  | invalidEscapeChar {ch l c} : CharAtOrNewline text ch l c → KindIn text (.invalidEscapeChar ch l c)
  | invalidFieldChar {ch l c} : CharAtOrNewline text ch l c → KindIn text (.invalidFieldChar ch l c)
  | invalidFieldName {f l c} : WordAt text f l c → KindIn text (.invalidFieldName f l c)
  | invalidIncludePath {p l c} : OperandAt text l c → KindIn text (.invalidIncludePath p l c)
  | invalidIncludeToken {t l c} : OperandAt text l c → KindIn text (.invalidIncludeToken t l c)
  | invalidNumeric {ch l c} : CharAt text ch l c → (decDigit ch = true ∨ ch = '.' ∨ ch = ',') → KindIn text (.invalidNumeric l c)
  | divisionByZero {l c} : OperandAt text l c → KindIn text (.invalidNumeric l c)
  | invalidValue {v l c} : WordAt text v l c → KindIn text (.invalidValue v l c)
  | invalidValueChar {ch l c} : CharAt text ch l c → KindIn text (.invalidValueChar ch l c)
  | maxDepth {ch l c} : ch ∈ c!"{[(<" → CharAt text ch l c → KindIn text (.maxDepth l c)
  | unaryOperatorError {t op l c} : OperandAt text l c → KindIn text (.unaryOperatorError t op l c)
  | unexpectedEnd {l} : l = lineAfter text → KindIn text (.unexpectedEnd l)
  | variableNotFound {v l c} : WordAt text v l c → KindIn text (.variableNotFound v l c)
  | overError {e l c} : OperandAt text l c → KindIn text (kindFromOver e l c)

/-- The lines of a text (without their newlines). -/
def linesOf : Str → List Str
  | [] => [[]]
  | c :: r => if c = '\n' then [] :: linesOf r
    else match linesOf r with
      | [] => [[c]]
      | l :: ls => (c :: l) :: ls

/-- `l` is the number of a line of the text (from 1), and `c` is a column of that line: at most one
more than its length. -/
def LineColIn (text : Str) (l c : Nat) : Prop :=
  1 ≤ l ∧ ∃ line, (linesOf text)[l - 1]? = some line ∧ c ≤ line.length + 1

/-- The line and column of a kind, as far as they are fields of it. -/
def Kind.lineCol : Kind → Option (Nat × Nat)
  | .binaryOperatorError _ _ _ l c => some (l, c)
  | .cyclicInclude _ l c => some (l, c)
  | .duplicateField _ l c => some (l, c)
  | .duplicateGlobal _ l c => some (l, c)
  | .expectedType _ _ l c => some (l, c)
  | .globalNotFound _ l c => some (l, c)
  | .invalidIndex _ l c => some (l, c)
  | .invalidClosingBracket _ _ l c => some (l, c)
  | .invalidDot _ l c => some (l, c)
  | .invalidEscapeChar _ l c => some (l, c)
  | .invalidFieldChar _ l c => some (l, c)
  | .invalidFieldName _ l c => some (l, c)
  | .invalidIncludePath _ l c => some (l, c)
  | .invalidIncludeToken _ l c => some (l, c)
  | .invalidNumeric l c => some (l, c)
  | .invalidValue _ l c => some (l, c)
  | .invalidValueChar _ l c => some (l, c)
  | .maxDepth l c => some (l, c)
  | .unaryOperatorError _ _ l c => some (l, c)
  | .variableNotFound _ l c => some (l, c)
  | .unexpectedEnd _ => none
  | .ioError _ => none
  | .overError _ => none
  | .parseIntError _ => none

/-- The name an error is about, with its line and column. -/
def Kind.named : Kind → Option (Str × Nat × Nat)
  | .duplicateField f l c => some (f, l, c)
  | .duplicateGlobal f l c => some (f, l, c)
  | .globalNotFound v l c => some (v, l, c)
  | .invalidFieldName f l c => some (f, l, c)
  | .invalidValue v l c => some (v, l, c)
  | .variableNotFound v l c => some (v, l, c)
  | _ => none

/-- The line and column of an error that is about the value of an operand. -/
def Kind.aboutOperand : Kind → Option (Nat × Nat)
  | .binaryOperatorError _ _ _ l c => some (l, c)
  | .unaryOperatorError _ _ l c => some (l, c)
  | .cyclicInclude _ l c => some (l, c)
  | .invalidIncludePath _ l c => some (l, c)
  | .invalidIncludeToken _ l c => some (l, c)
  | .expectedType _ _ l c => some (l, c)
  | .invalidIndex _ l c => some (l, c)
  | _ => none

/-- The text `text` is what the parser reads under the name `file`: the main text (`main`: its name, if
it has one, and the text) or a file of the file system. -/
def Src (fs : FS) (main : Option Str × Str) (file : Option Str) (text : Str) : Prop :=
  (file = main.1 ∧ text = main.2) ∨ ∃ p, file = some p ∧ fs.read p = .ok text

/-- A correct error: located in the file it names, or the message of a failed read. -/
def ErrOk [Unicode] (fs : FS) (main : Option Str × Str) (e : ParseError) : Prop :=
  (∃ text, Src fs main e.file text ∧ KindIn text e.kind) ∨
  (e.file = none ∧ ∃ p msg, fs.read p = .error msg ∧ e.kind = .ioError msg)

end Over
