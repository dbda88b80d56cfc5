import Verif.Spec.Linked
import Verif.Spec.Eval

/-!
# Editing the literals of a document

`Field.editedL K S d d'`: the documents are the same but for strings and (also negative) fractions, which may be others.  If `K.ints` holds,
integers may also be others; then what follows a dot stays, and is a number or a name (not of a global) that is not in `S` or
defined before in the same object: otherwise it might be used as an index.  The paths of includes stay, and must be literals.
If `K.div` does not hold, `/` and `%` do not occur.

`Value.alike ints v w`: the values are the same, ids included, but for strings and fractions, and integers if `ints` holds.
-/

namespace Over

/-- What may be edited. -/
structure Edits where
  /-- integers may be edited -/
  ints : Bool
  /-- the documents may contain divisions -/
  div : Bool

/-- What may follow a dot when integers are edited: a number, or a name that is not the name of a global or one of `S`. -/
def Term.noIndex (S : List Str) : Term → Prop
  | .int _ => True
  | .frac _ => True
  | .name y => y ∉ S ∧ y.head? ≠ some '@'
  | _ => False

mutual
/-- The same operand but for the literals. -/
def Term.edited (K : Edits) : Term → List Str → Term → Prop
  | .str _, _, u => ∃ s, u = .str s
  | .int i, _, u => u = .int i ∨ (K.ints = true ∧ ∃ j, u = .int j ∨ u = .neg (.int j))
  | .frac _, _, u => ∃ q, u = .frac q ∨ u = .neg (.frac q)
  | .name x, _, u => u = .name x
  | .dot x t, S, u => ∃ t', u = .dot x t' ∧ t.edited K S t' ∧ t'.isNumber = t.isNumber ∧
      (K.ints = true → t' = t ∧ t.noIndex S)
  | .neg t, S, u => (∃ t', u = .neg t' ∧ t.edited K S t') ∨
      (∃ i j, t = .int i ∧ K.ints = true ∧ u = .int j) ∨ ∃ q r, t = .frac q ∧ u = .frac r
  | .pos t, S, u => ∃ t', u = .pos t' ∧ t.edited K S t'
  | .arr es, S, u => ∃ es', u = .arr es' ∧ Expr.editedL K es S es'
  | .tup es, S, u => ∃ es', u = .tup es' ∧ Expr.editedL K es S es'
  | .obj d, _, u => ∃ d', u = .obj d' ∧ Field.editedL K d [] d'
  | .incl e, _, u => u = .incl e ∧ e.literalPath.isSome = true
  | .inclAs k e, S, u => ∃ k', u = .inclAs k' e ∧ k.edited K S k' ∧ e.literalPath.isSome = true
termination_by structural t => t
/-- The same expression but for the literals. -/
def Expr.edited (K : Edits) : Expr → List Str → Expr → Prop
  | .mk t r, S, u => ∃ t' r', u = .mk t' r' ∧ t.edited K S t' ∧ OpTerm.editedL K r S r'
termination_by structural t => t
/-- … the rest of a chain. -/
def OpTerm.editedL (K : Edits) : List OpTerm → List Str → List OpTerm → Prop
  | [], _, r' => r' = []
  | .mk op t :: r, S, u => ∃ t' r', u = .mk op t' :: r' ∧ t.edited K S t' ∧ (op = .div ∨ op = .mod → K.div = true) ∧
      OpTerm.editedL K r S r'
termination_by structural t => t
/-- … a sequence of values. -/
def Expr.editedL (K : Edits) : List Expr → List Str → List Expr → Prop
  | [], _, u => u = []
  | e :: es, S, u => ∃ e' es', u = e' :: es' ∧ e.edited K S e' ∧ Expr.editedL K es S es'
termination_by structural t => t
/-- The same definitions but for the literals. -/
def Field.editedL (K : Edits) : List Field → List Str → List Field → Prop
  | [], _, u => u = []
  | .mk tg e :: d, S, u => ∃ e' d', u = .mk tg e' :: d' ∧ e.edited K S e' ∧ match tg with
    | .field f => Field.editedL K d (f :: S) d'
    | _ => Field.editedL K d S d'
termination_by structural t => t
end

mutual
/-- The same value but for strings and fractions (and integers, if `ints`). -/
def Value.alike (ints : Bool) : Value → Value → Prop
  | .null, w => w = .null
  | .bool b, w => w = .bool b
  | .int i, w => ∃ j, w = .int j ∧ (ints = true ∨ j = i)
  | .frac _, w => ∃ q, w = .frac q
  | .str _, w => ∃ s, w = .str s
  | .arr i t vs, w => ∃ ws, w = .arr i t ws ∧ Value.alikeL ints vs ws
  | .tup i ts vs, w => ∃ ws, w = .tup i ts ws ∧ Value.alikeL ints vs ws
  | .obj o, w => ∃ o', w = .obj o' ∧ o.alike ints o'
termination_by structural v => v
/-- … several values. -/
def Value.alikeL (ints : Bool) : List Value → List Value → Prop
  | [], ws => ws = []
  | v :: vs, u => ∃ w ws, u = w :: ws ∧ v.alike ints w ∧ Value.alikeL ints vs ws
termination_by structural v => v
/-- … fields, which have the same names. -/
def Pair.alikeL (ints : Bool) : List Pair → List Pair → Prop
  | [], qs => qs = []
  | .mk f v :: ps, u => ∃ w qs, u = .mk f w :: qs ∧ v.alike ints w ∧ Pair.alikeL ints ps qs
termination_by structural v => v
/-- … a parent. -/
def Obj.alikeP (ints : Bool) : Option Obj → Option Obj → Prop
  | none, p => p = none
  | some o, p => ∃ o', p = some o' ∧ o.alike ints o'
termination_by structural v => v
/-- The same object but for strings and fractions (and integers, if `ints`). -/
def Obj.alike (ints : Bool) : Obj → Obj → Prop
  | .mk i ps par, o => ∃ qs par', o = .mk i qs par' ∧ Pair.alikeL ints ps qs ∧ Obj.alikeP ints par par'
termination_by structural v => v
end

section
variable [Unicode]

/-- The text `t'` spells the definitions (and, for files included as `Arr` or `Tup`, the values) that `t` spells, but for the
literals, if `t` spells any. -/
def TextEdited (K : Edits) (t t' : Str) : Prop :=
  (∀ d, SpDoc d t → ∃ d', SpDoc d' t' ∧ Field.editedL K d [] d') ∧ (∀ d', SpDoc d' t' → ∃ d, SpDoc d t) ∧
  (∀ es, SpItems true es t → ∃ es', SpItems true es' t' ∧ Expr.editedL K es [] es') ∧
  ∀ es', SpItems true es' t' → ∃ es, SpItems true es t

/-- `fs'` is the file system after literals in its files were edited: the paths lead where they led, and the same files can be
read. -/
structure FS.LiteralsEdited (K : Edits) (fs fs' : FS) : Prop where
  resolve : fs'.resolve = fs.resolve
  utf8 : fs'.utf8 = fs.utf8
  openErr : fs'.openErr = fs.openErr
  files : ∀ c, (StrMap.get fs.nodes c = none ∧ StrMap.get fs'.nodes c = none) ∨
    (∃ m, StrMap.get fs.nodes c = some (.error m) ∧ StrMap.get fs'.nodes c = some (.error m)) ∨
    ∃ t t', StrMap.get fs.nodes c = some (.ok t) ∧ StrMap.get fs'.nodes c = some (.ok t') ∧ TextEdited K t t'

end

end Over
