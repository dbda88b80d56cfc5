import Verif.Model.Error
import Mathlib.Data.Nat.Digits.Defs
import Mathlib.Data.Rat.Defs
import Mathlib.Algebra.Field.Rat

/-!
# The OVER language: document trees and their texts

This is a stand-alone description of the language: abstract document trees, and the relation "the text
`s` spells the tree `t`" (any layout).  Of the model only the character classes (`Model/Basic.lean`) and
the operator names are used.
-/

namespace Over

/-! ## Abstract syntax -/

/-- What a field definition `target: value` defines. -/
inductive Target
  /-- a regular field -/
  | field (name : Str)
  /-- a global; the name includes the leading `@` -/
  | global (name : Str)
  /-- `^`, the parent -/
  | parent
  deriving DecidableEq

mutual
/-- A single operand. -/
inductive Term
  /-- a string literal, by its contents -/
  | str (s : Str)
  /-- an integer literal -/
  | int (n : Nat)
  /-- a decimal literal -/
  | frac (q : Rat)
  /-- a variable, global (`@…`) or keyword -/
  | name (x : Str)
  /-- `x.t` -/
  | dot (x : Str) (t : Term)
  /-- `-t` -/
  | neg (t : Term)
  /-- `+t` -/
  | pos (t : Term)
  /-- `[e …]` -/
  | arr (es : List Expr)
  /-- `(e …)` -/
  | tup (es : List Expr)
  /-- `{f: e …}` -/
  | obj (fs : List Field)
  /-- `<e>` -/
  | incl (e : Expr)
  /-- `<k e>`, an include with an explicit kind -/
  | inclAs (k e : Expr)
/-- An operator chain `t op t op t …`. -/
inductive Expr
  | mk (first : Term) (rest : List OpTerm)
/-- An operator and its right operand. -/
inductive OpTerm
  | mk (op : BinOp) (t : Term)
/-- A field definition. -/
inductive Field
  | mk (target : Target) (value : Expr)
end

/-! ## Characters and layout -/

/-- A gap: whitespace and complete comments. -/
inductive Gap : Str → Prop
  | nil : Gap []
  | ws {c : Char} {s : Str} : isUniWhitespace c = true → Gap s → Gap (c :: s)
  | comment {t s : Str} : '\n' ∉ t → Gap s → Gap ('#' :: (t ++ '\n' :: s))

/-- The gap at the end of a file: the last comment may lack its newline. -/
inductive EndGap : Str → Prop
  | gap {s : Str} : Gap s → EndGap s
  | comment {s t : Str} : Gap s → '\n' ∉ t → EndGap (s ++ '#' :: t)

/-- The last gap of a body: `eof` says that the end of the file follows. -/
def LastGap (eof : Bool) (g : Str) : Prop := if eof then EndGap g else Gap g

/-- The text starts with whitespace or a comment. -/
def StartsSeparated (s : Str) : Prop :=
  ∃ c r, s = c :: r ∧ (isUniWhitespace c = true ∨ c = '#')

/-- The ten digits. -/
def decDigit (c : Char) : Bool := c!"0123456789".contains c

/-- A character that can occur in a name after the first position. -/
def NameChar [Unicode] (c : Char) : Prop := isAlphabetic c = true ∨ decDigit c = true ∨ c = '_'

/-- A character that can start a name. -/
def NameStart [Unicode] (c : Char) : Prop := isAlphabetic c = true ∨ c = '_'

/-- The reserved words (including the lone `@`). -/
def reservedWords : List Str :=
  [c!"@", c!"null", c!"true", c!"false", c!"Obj", c!"Str", c!"Arr", c!"Tup"]

/-- A name that can be given to a regular field. -/
def FieldName [Unicode] (f : Str) : Prop :=
  ∃ c cs, f = c :: cs ∧ NameStart c ∧ (∀ d ∈ cs, NameChar d) ∧ f ∉ reservedWords

/-- The text before the colon of a definition. -/
inductive SpTarget [Unicode] : Target → Str → Prop
  | field {f : Str} : FieldName f → SpTarget (.field f) f
  | global {c : Char} {cs : Str} : NameStart c ∨ c = '^' → (∀ d ∈ cs, NameChar d) →
      SpTarget (.global ('@' :: c :: cs)) ('@' :: c :: cs)
  | parent : SpTarget .parent ['^']

/-- A name in an expression: a variable, a keyword, or a global with its `@`. -/
def VarName [Unicode] (x : Str) : Prop :=
  ∃ c cs, x = c :: cs ∧ (NameStart c ∨ c = '@') ∧ ∀ d ∈ cs, NameChar d

/-! ## Literals -/

/-- The escape sequences of string literals. -/
def escapes : List (Char × Char) :=
  [('\\', '\\'), ('"', '"'), ('\'', '\''), ('$', '$'), ('n', '\n'), ('r', '\r'), ('t', '\t')]

/-- `StrBody s b`: the text `b` between the quotes denotes the string `s`. -/
inductive StrBody : Str → Str → Prop
  | nil : StrBody [] []
  | raw {c : Char} {s b : Str} : c ≠ '"' → c ≠ '\\' → StrBody s b → StrBody (c :: s) (c :: b)
  | esc {e c : Char} {s b : Str} : (e, c) ∈ escapes → StrBody s b → StrBody (c :: s) ('\\' :: e :: b)

/-- Digits with underscores between them, never two underscores in a row. -/
def DigitRun (s : Str) : Prop :=
  (∀ c ∈ s, decDigit c = true ∨ c = '_') ∧ ¬ (['_', '_'] : List Char) <:+: s

/-- The digits of a run. -/
def digitsOf (s : Str) : Str := s.filter decDigit

/-- The value of a digit string in base ten (most significant digit first). -/
def decimalValue (s : Str) : Nat := Nat.ofDigits 10 (s.reverse.map (fun c => c.toNat - '0'.toNat))

/-- An integer literal. -/
def IntLit (n : Nat) (s : Str) : Prop :=
  DigitRun s ∧ (∃ c cs, s = c :: cs ∧ decDigit c = true) ∧ n = decimalValue (digitsOf s)

/-- A decimal literal: digits, `.` or `,`, digits; one side may be empty. -/
def FracLit (q : Rat) (s : Str) : Prop :=
  ∃ w sep d, s = w ++ sep :: d ∧ (sep = '.' ∨ sep = ',') ∧ DigitRun w ∧ DigitRun d ∧
    (w = [] ∨ ∃ c cs, w = c :: cs ∧ decDigit c = true) ∧
    (digitsOf w ≠ [] ∨ digitsOf d ≠ []) ∧
    q = (decimalValue (digitsOf w) : Rat) +
      (decimalValue (digitsOf d) : Rat) / (10 : Rat) ^ (digitsOf d).length

/-- `*`, `/` and `%` bind tighter than `+` and `-`. -/
def BinOp.tight : BinOp → Bool
  | .mult => true
  | .div => true
  | .mod => true
  | .plus => false
  | .minus => false

/-- The character of an operator. -/
def opChar : BinOp → Char
  | .plus => '+'
  | .minus => '-'
  | .mult => '*'
  | .div => '/'
  | .mod => '%'

/-- What may follow a dot: a name, a longer path, or a number. -/
def Term.afterDot : Term → Bool
  | .name _ => true
  | .dot _ _ => true
  | .int _ => true
  | .frac _ => true
  | _ => false

/-! ## Texts -/

mutual
/-- The text `s` spells the operand. -/
inductive SpTerm [Unicode] : Term → Str → Prop
  | str {s b : Str} : StrBody s b → SpTerm (.str s) ('"' :: (b ++ ['"']))
  | int {n : Nat} {s : Str} : IntLit n s → SpTerm (.int n) s
  | frac {q : Rat} {s : Str} : FracLit q s → SpTerm (.frac q) s
  | name {x : Str} : VarName x → SpTerm (.name x) x
  | dot {x s : Str} {t : Term} : VarName x → t.afterDot = true → SpTerm t s →
      SpTerm (.dot x t) (x ++ '.' :: s)
  | neg {t : Term} {s : Str} : SpTerm t s → SpTerm (.neg t) ('-' :: s)
  | pos {t : Term} {s : Str} : SpTerm t s → SpTerm (.pos t) ('+' :: s)
  | arr {es : List Expr} {s : Str} : SpItems false es s → SpTerm (.arr es) ('[' :: (s ++ [']']))
  | tup {es : List Expr} {s : Str} : SpItems false es s → SpTerm (.tup es) ('(' :: (s ++ [')']))
  | obj {fs : List Field} {s : Str} : SpFields false fs s → SpTerm (.obj fs) ('{' :: (s ++ ['}']))
  | incl {e : Expr} {s : Str} : SpItems false [e] s → SpTerm (.incl e) ('<' :: (s ++ ['>']))
  | inclAs {k e : Expr} {s : Str} : SpItems false [k, e] s → SpTerm (.inclAs k e) ('<' :: (s ++ ['>']))
/-- The text `s` spells the operator chain: no layout around the operators. -/
inductive SpExpr [Unicode] : Expr → Str → Prop
  | mk {t : Term} {r : List OpTerm} {s u : Str} : SpTerm t s → SpOps r u → SpExpr (.mk t r) (s ++ u)
/-- The text of the operators and right operands of a chain. -/
inductive SpOps [Unicode] : List OpTerm → Str → Prop
  | nil : SpOps [] []
  | cons {op : BinOp} {t : Term} {r : List OpTerm} {s u : Str} : SpTerm t s → SpOps r u →
      SpOps (.mk op t :: r) (opChar op :: (s ++ u))
/-- The text of a sequence of values: gaps may stand anywhere around them and must stand between
them. -/
inductive SpItems [Unicode] : Bool → List Expr → Str → Prop
  | nil {eof : Bool} {g : Str} : LastGap eof g → SpItems eof [] g
  | cons {eof : Bool} {g s r : Str} {e : Expr} {es : List Expr} : Gap g → SpExpr e s →
      SpItems eof es r → (es = [] ∨ StartsSeparated r) →
      SpItems eof (e :: es) (g ++ (s ++ r))
/-- The text of a sequence of field definitions. -/
inductive SpFields [Unicode] : Bool → List Field → Str → Prop
  | nil {eof : Bool} {g : Str} : LastGap eof g → SpFields eof [] g
  | cons {eof : Bool} {g n g' s r : Str} {tg : Target} {e : Expr} {fs : List Field} : Gap g →
      SpTarget tg n → Gap g' → SpExpr e s → SpFields eof fs r → (fs = [] ∨ StartsSeparated r) →
      SpFields eof (.mk tg e :: fs) (g ++ (n ++ ':' :: (g' ++ (s ++ r))))
end

/-- The text spells a document: the field definitions of its top-level object. -/
def SpDoc [Unicode] (d : List Field) (s : Str) : Prop := SpFields true d s

end Over
