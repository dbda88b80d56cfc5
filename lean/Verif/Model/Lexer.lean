import Verif.Model.Error
import Verif.Model.Format

/-!
# Token-level parsing (the loops of src/parse/parser.rs over characters)

Each loop is a structural recursion over the remaining characters with the position alongside.
`Lex.panic` stands for an `unwrap`/assert failure or a `usize` underflow.
-/

namespace Over

/-- Outcome of a token-level function: a result with the remaining input and position, an error kind
(reported for the current file) or a panic. -/
inductive Lex (α : Type) where
  | ok (a : α) (rest : Str) (pos : Pos)
  | err (k : Kind)
  | panic

/-- src/parse/parser.rs:466-471 `enum FieldType`. -/
inductive FieldType | global | parent | regular
  deriving DecidableEq, Repr

/-- src/parse/parser.rs:491-506: the character loop of `parse_field`. -/
def fieldGo [Unicode] : Str → Pos → Bool → Str → Lex Str
  | [], p, _, acc => .ok acc [] p
  | ch :: cs, p, first, acc =>
    let p' := p.adv ch
    if ch = ':' ∧ !first then .ok acc cs p'
    else if isValidFieldChar ch first then fieldGo cs p' false (acc ++ [ch])
    else match usub p'.col 1 with
      | some c => .err (.invalidFieldChar ch p'.line c)
      | none => .panic

/-- src/parse/parser.rs:509-525: classification of a field name. -/
def classifyField (field : Str) (isGlobal : Bool) (line col : Nat) : Except Kind (Str × FieldType) :=
  if isReserved field then .error (.invalidFieldName field line col)
  else if field == c!"^" then .ok (field, .parent)
  else if field.head? == some '^' then .error (.invalidFieldName field line col)
  else .ok (field, if isGlobal then .global else .regular)

/-- src/parse/parser.rs:475-526 `parse_field`. -/
def lexField [Unicode] (rest : Str) (pos : Pos) (line col : Nat) : Lex (Str × FieldType) :=
  match rest with
  | [] => .panic          -- `stream.peek().unwrap()` at 484
  | ch :: cs =>
    let isGlobal := ch == '@'
    let r := if isGlobal then fieldGo cs (pos.adv ch) true [ch] else fieldGo (ch :: cs) pos true []
    match r with
    | .ok field rest' pos' =>
      match classifyField field isGlobal line col with
      | .ok x => .ok x rest' pos'
      | .error k => .err k
    | .err k => .err k
    | .panic => .panic

/-- src/parse/parser.rs:959-986: the loop of `parse_str` (after the opening quote). -/
def strGo : Str → Pos → Bool → Str → Lex Str
  | [], p, _, _ => .err (.unexpectedEnd p.line)
  | ch :: cs, p, escape, acc =>
    let p' := p.adv ch
    if escape then
      match getEscapeChar ch with
      | some c => strGo cs p' false (acc ++ [c])
      | none => match usub p'.col 1 with
        | some c => .err (.invalidEscapeChar ch p'.line c)
        | none => .panic
    else if ch = '"' then .ok acc cs p'
    else if ch = '\\' then strGo cs p' true acc
    else strGo cs p' false (acc ++ [ch])

/-- src/parse/parser.rs:955-989 `parse_str`. -/
def lexStr (rest : Str) (pos : Pos) : Lex Str :=
  match rest with
  | [] => .panic
  | ch :: cs => if ch = '"' then strGo cs (pos.adv ch) false [] else .panic

/-- src/parse/parser.rs:691-734: the loop of `parse_numeric`; result `(s1, s2, dec)`. -/
def numGo : Str → Pos → Str → Str → Bool → Bool → Lex (Str × Str × Bool)
  | [], p, s1, s2, dec, _ => .ok (s1, s2, dec) [] p
  | ch :: cs, p, s1, s2, dec, under =>
    if isValueEndChar ch then .ok (s1, s2, dec) (ch :: cs) p
    else if isDigit ch then
      if !dec then numGo cs (p.adv ch) (s1 ++ [ch]) s2 dec false
      else numGo cs (p.adv ch) s1 (s2 ++ [ch]) dec false
    else if ch = '.' ∨ ch = ',' then
      if !dec then numGo cs (p.adv ch) s1 s2 true false
      else .err (.invalidValueChar ch p.line p.col)
    else if ch = '_' then
      if !under then numGo cs (p.adv ch) s1 s2 dec true
      else .err (.invalidValueChar ch p.line p.col)
    else .err (.invalidValueChar ch p.line p.col)

/-- `str::trim_end_matches('0')` (std), used at src/parse/parser.rs:749. -/
def trimEndZeros (s : Str) : Str := (s.reverse.dropWhile (· == '0')).reverse

/-- src/parse/util.rs:67-70 `frac_from_whole_and_dec`. -/
def fracFromWholeAndDec (whole decimal : Int) (decLen : Nat) : Rat :=
  Rat.divInt whole 1 + Rat.divInt decimal ((10 : Int) ^ decLen)

/-- Outcome of the conversion at the end of `parse_numeric`. -/
inductive NumRes where
  | val (v : Value)
  | invalid
  | parseInt

/-- src/parse/parser.rs:736-767: from the collected digits to a value. -/
def numFinish (s1 s2 : Str) (dec : Bool) : NumRes :=
  if dec then
    if s1.isEmpty && s2.isEmpty then .invalid
    else
      match (if s1.isEmpty then some 0 else parseBigInt s1) with
      | none => .parseInt
      | some whole =>
        let s2 := trimEndZeros s2
        match (if s2.isEmpty then some ((0 : Int), 1) else (parseBigInt s2).map (fun d => (d, s2.length))) with
        | none => .parseInt
        | some (decimal, decLen) => .val (.frac (fracFromWholeAndDec whole decimal decLen))
  else
    if s1.isEmpty then .invalid
    else match parseBigInt s1 with
      | none => .parseInt
      | some i => .val (.int i)

/-- How the name loop of `parse_variable` ended: no dot, a dot, or a dot followed by `@`. -/
inductive DotEnd | none | dot | dotGlobal
  deriving DecidableEq, Repr

/-- src/parse/parser.rs:793-824: the name loop of `parse_variable`. -/
def varGo [Unicode] : Str → Pos → Str → Lex (Str × DotEnd)
  | [], p, acc => .ok (acc, .none) [] p
  | ch :: cs, p, acc =>
    if ch = '.' then
      let p' := p.adv ch
      match cs with
      | [] => .err (.unexpectedEnd p'.line)
      | c2 :: _ =>
        if c2 = '@' then .ok (acc, .dotGlobal) cs p'
        else if isValidFieldChar c2 true || isNumericChar c2 then .ok (acc, .dot) cs p'
        else .err (.invalidValueChar c2 p'.line p'.col)
    else if isValueEndChar ch then .ok (acc, .none) (ch :: cs) p
    else if isValidFieldChar ch false then varGo cs (p.adv ch) (acc ++ [ch])
    else .err (.invalidValueChar ch p.line p.col)

/-- src/parse/parser.rs:781-824: the name part of `parse_variable`; result
`(name, is_global, how it ended)`. -/
def lexVar [Unicode] (rest : Str) (pos : Pos) : Lex (Str × Bool × DotEnd) :=
  match rest with
  | [] => .panic          -- `stream.peek().unwrap()` at 786
  | ch :: cs =>
    let isGlobal := ch == '@'
    let r := if isGlobal then varGo cs (pos.adv ch) [ch] else varGo (ch :: cs) pos []
    match r with
    | .ok (var, dt) rest' pos' => .ok (var, isGlobal, dt) rest' pos'
    | .err k => .err k
    | .panic => .panic

end Over
