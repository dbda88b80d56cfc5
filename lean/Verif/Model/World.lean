import Verif.Model.Parser

/-!
# Parsing while the file system changes

`Model/Parser.lean` has one file system for a whole parse.  Here the file system can be another one at every access: `FSWorld` gives the
file system that the parser sees when it accesses it in a given state.  Two accesses that read something are never made in the same
state: what is read later is not in the map of loaded values (nor among the files being parsed) at the time of the first access, but
what was read first is, at the time of the second one.  So a function of the state is as good as a function of the time.  (Resolving an
include path, src/parse/parser.rs:1100-1129, is taken as one access.)
-/

namespace Over

/-- The file system at the moments when the parser is in these states. -/
def FSWorld := PState → FS

/-- An access to the file system. -/
def nowP {α : Type} (w : FSWorld) (f : FS → P α) : P α := fun s => f (w s) s

/-- src/parse/parser.rs:1094-1155: the part of `parse_include` after the closing `>`. -/
def includeFileW [Unicode] (w : FSWorld) (pv : PV) (kind : IncKind) (includeFile : Str) (line col : Nat) : P Value := do
  let (path, full) ← nowP w fun fs => resolveInclude fs includeFile line col
  let stored ← nowP w storeCurrent
  let opened ← getOpened
  if opened.contains full then fail (.cyclicInclude includeFile line col)
  else do
    let value ← nowP w fun fs => loadCached fs pv kind path full
    unstore stored
    pure value

/-- src/parse/parser.rs:991-1156 `parse_include`. -/
def parseIncludeW [Unicode] (w : FSWorld) (pv : PV) (pairs : List Pair) (depth : Nat) : P Value := do
  checkDepth depth
  expectP '<'
  if !(← findCharP) then failEnd
  else do
    let p ← getPos
    let value ← pv pairs p.line p.col depth (some '>') true
    let kw ← includeKeyword value p.line p.col
    let (value, p) ← includePath pv pairs depth kw value p
    includeClose
    match value with
    | .str includeFile => includeFileW w pv (kw.getD .obj) includeFile p.line p.col
    | _ => fail (.expectedType .str value.getType p.line p.col)

/-- src/parse/parser.rs:541-585: the operand part of `parse_value`. -/
def parseTermW [Unicode] (w : FSWorld) (pv : PV) (pairs : List Pair) (line col depth : Nat) (brace : Option Char) : P Value := do
  match ← peekP with
  | none => panicP
  | some ch =>
    if ch = '"' then parseStr
    else if ch = '{' then parseObj pv (depth + 1)
    else if ch = '[' then parseArr pv pairs (depth + 1)
    else if ch = '(' then parseTup pv pairs (depth + 1)
    else if ch = '<' then parseIncludeW w pv pairs (depth + 1)
    else if ch = '+' then parseUnary pv pairs depth brace .plus
    else if ch = '-' then parseUnary pv pairs depth brace .minus
    else if isNumericChar ch then parseNumeric line col
    else if isValidFieldChar ch true || ch == '@' then
      withBound fun n => parseVariable pv n pairs line col depth brace
    else fail (.invalidValueChar ch line col)

/-- src/parse/parser.rs:529-648 `parse_value`, with the recursive calls abstracted as `pv`. -/
def parseValueBodyW [Unicode] (w : FSWorld) (pv : PV) : PV := fun pairs line col depth brace isFirst => do
  let res ← parseTermW w pv pairs line col depth brace
  if isFirst then parseOps pv pairs depth brace res line col else pure res

/-- src/parse/parser.rs:529-648 `parse_value`; the fuel bounds the nesting of `parse_value` calls. -/
def parseValueW [Unicode] (w : FSWorld) : Nat → PV
  | 0 => fun _ _ _ _ _ _ => oofP
  | n + 1 => parseValueBodyW w (parseValueW w n)

/-- src/parse/parser.rs:53-57 `parse_obj_str` = `Obj::from_str`. -/
def fromStrW [Unicode] (w : FSWorld) (fuel : Nat) (contents : Str) (rt : Rt) : Res Obj :=
  parseObjStream (parseValueW w fuel) (PState.init none contents rt)

/-- src/parse/parser.rs:41-44 `parse_obj_file` = `Obj::from_file` (src/obj.rs:147-149); `fs` is the file system at the beginning. -/
def fromFileW [Unicode] (w : FSWorld) (fs : FS) (fuel : Nat) (path : Str) (rt : Rt) : Res Obj :=
  match fs.read path with
  | .error msg => .err ⟨none, .ioError msg⟩
  | .ok contents => parseObjStream (parseValueW w fuel) (PState.init (some path) contents rt)

end Over
