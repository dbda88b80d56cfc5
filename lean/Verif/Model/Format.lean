import Verif.Model.Value

/-!
# Writing (src/parse/format.rs)

`usize` subtraction panics on underflow (debug) or wraps (release, after which `" ".repeat` aborts);
the functions below return `none` in that case.
-/

namespace Over

/-- src/lib.rs:57 `INDENT_STEP`. -/
def indentStep : Nat := 4

/-- src/parse/format.rs:9-11 `indent`. -/
def indent (amount : Nat) : Str := List.replicate amount ' '

/-- `usize` subtraction; `none` on underflow. -/
def usub (a b : Nat) : Option Nat := if b ≤ a then some (a - b) else none

/-- src/parse/format.rs:13-24 `get_char_map`. -/
def getCharMap (ch : Char) : Option Str :=
  if ch = '\\' then some c!"\\\\"
  else if ch = '"' then some c!"\\\""
  else if ch = '\'' then some c!"\\'"
  else if ch = '$' then some c!"\\$"
  else if ch = '\n' then some c!"\\n"
  else if ch = '\r' then some c!"\\r"
  else if ch = '\t' then some c!"\\t"
  else none

/-- src/parse/format.rs:26-37 `replace_all`. -/
def replaceAll : Str → Str
  | [] => []
  | ch :: cs => (match getCharMap ch with | some s => s | none => [ch]) ++ replaceAll cs

/-- `{}` of a `BigRational` (num-rational): `n` when the denominator is one, else `n/d`. -/
def showRat (q : Rat) : Str :=
  if q.den = 1 then showInt q.num else showInt q.num ++ c!"/" ++ showNat q.den

/-- src/parse/format.rs:44-54 `Format for BigRational`. -/
def formatRat (q : Rat) : Str :=
  if q.den = 1 then showRat q ++ c!".0" else showRat q

/-- src/parse/format.rs:56-60 `Format for String`. -/
def formatStr (s : Str) : Str := c!"\"" ++ replaceAll s ++ c!"\""

mutual
/-- src/parse/format.rs:62-84 `Format for Value`, with `Format for Arr` (86-131) and
`Format for Tup` (133-173) inlined for `full = true`, the only way they are ever called
(`Arr`/`Tup` are formatted from `Value::format` and from `Display`, both with `full = true`). -/
def Value.format : Value → Nat → Option Str
  | .null, _ => some c!"null"
  | .bool b, _ => some (if b then c!"true" else c!"false")
  | .int i, _ => some (showInt i)
  | .frac q, _ => some (formatRat q)
  | .str s, _ => some (formatStr s)
  -- src/parse/format.rs:87-131
  | .arr _ _ [], _ => some c!"[]"
  | .arr _ _ [v], n => do
    let f ← v.format n
    some (c!"[" ++ f ++ c!"]")
  | .arr _ _ vs, n => do
    let body ← Value.formatL vs n
    let k ← if n = 0 then some 0 else usub n indentStep
    some (c!"[\n" ++ body ++ indent k ++ c!"]")
  -- src/parse/format.rs:134-173
  | .tup _ _ [], _ => some c!"()"
  | .tup _ _ [v], n => do
    let f ← v.format n
    some (c!"(" ++ f ++ c!")")
  | .tup _ _ vs, n => do
    let body ← Value.formatL vs n
    let k ← usub n indentStep
    some (c!"(\n" ++ body ++ indent k ++ c!")")
  | .obj o, n => o.format true n
termination_by structural v => v
/-- src/parse/format.rs:111-117, 158-164: one element per line. -/
def Value.formatL : List Value → Nat → Option Str
  | [], _ => some []
  | v :: vs, n => do
    let f ← v.format (n + indentStep)
    let rest ← Value.formatL vs n
    some (indent n ++ f ++ c!"\n" ++ rest)
termination_by structural v => v
/-- src/parse/format.rs:198-205: one field per line. -/
def Pair.formatL : List Pair → Nat → Option Str
  | [], _ => some []
  | .mk field v :: ps, n => do
    let f ← v.format (n + indentStep)
    let rest ← Pair.formatL ps n
    some (indent n ++ field ++ c!": " ++ f ++ c!"\n" ++ rest)
termination_by structural v => v
/-- src/parse/format.rs:190-196: the parent line. -/
def Obj.formatParent : Option Obj → Nat → Option Str
  | none, _ => some []
  | some p, n => do
    let f ← p.format true (n + indentStep)
    some (indent n ++ c!"^: " ++ f ++ c!"\n")
termination_by structural v => v
/-- src/parse/format.rs:175-213 `Format for Obj`. -/
def Obj.format : Obj → Bool → Nat → Option Str
  | .mk _ ps par, full, n =>
    if ps.isEmpty && !par.isSome then
      some (if full then c!"{}" else [])
    else do
      let hd := if full then c!"{\n" else []
      let parent ← Obj.formatParent par n
      let body ← Pair.formatL ps n
      if full then do
        let k ← usub n indentStep
        some (hd ++ parent ++ body ++ indent k ++ c!"}")
      else
        some (hd ++ parent ++ body)
termination_by structural v => v
end

/-- src/obj.rs:169-171 `Obj::write_to_string`. -/
def Obj.writeToString (o : Obj) : Option Str := o.format false 0

/-- src/value.rs:141-145 `Display for Value`. -/
def Value.display (v : Value) : Option Str := v.format indentStep
/-- src/arr.rs:141-145 `Display for Arr`. -/
def Arr.display (a : Arr) : Option Str := a.toValue.format indentStep
/-- src/tup.rs:110-114 `Display for Tup`. -/
def Tup.display (a : Tup) : Option Str := a.toValue.format indentStep
/-- src/obj.rs:316-320 `Display for Obj`. -/
def Obj.display (o : Obj) : Option Str := o.format true indentStep

end Over
