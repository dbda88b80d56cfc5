import Verif.Spec.Shape
import Verif.Spec.Include

/-!
# One value per file

`Field.linked I d ps par`: as `Field.shows` (what is written literally in the definitions `d` is what the fields `ps` and
the parent `par` hold, down to every depth), and in addition wherever an include with a literal path `p` stands, as a field,
an element or the parent, at whatever depth, there is a value `v` with `I p v`.
-/

namespace Over

/-- The path of an include, if it is written as a string. -/
def Expr.literalPath : Expr → Option Str
  | .mk (.str p) [] => some p
  | _ => none

mutual
/-- The value is what the operand says. -/
def Term.linked (I : Str → Value → Prop) : Term → Value → Prop
  | .str s, v => v = .str s
  | .int n, v => v = .int n
  | .frac q, v => v = .frac q
  | .arr es, v => ∃ id t vs, v = .arr id t vs ∧ Expr.linkedL I es vs
  | .tup es, v => ∃ id ts vs, v = .tup id ts vs ∧ Expr.linkedL I es vs
  | .obj fds, v => ∃ id ps par, v = .obj (.mk id ps par) ∧ Field.linked I fds ps par
  | .incl e, v => ∀ p, e.literalPath = some p → I p v
  | .inclAs _ e, v => ∀ p, e.literalPath = some p → I p v
  | _, _ => True
termination_by structural t => t
/-- The value is what the expression says; nothing is said if there are operators. -/
def Expr.linked (I : Str → Value → Prop) : Expr → Value → Prop
  | .mk t r, v => match r with
    | [] => t.linked I v
    | _ :: _ => True
termination_by structural t => t
/-- The values are what the expressions say, one by one. -/
def Expr.linkedL (I : Str → Value → Prop) : List Expr → List Value → Prop
  | [], vs => vs = []
  | e :: es, vs => ∃ w ws, vs = w :: ws ∧ e.linked I w ∧ Expr.linkedL I es ws
termination_by structural t => t
/-- The fields and the parent are what the definitions say. -/
def Field.linked (I : Str → Value → Prop) : List Field → List Pair → Option Obj → Prop
  | [], ps, _ => ps = []
  | .mk tg e :: d, ps, par => match tg with
    | .field f => ∃ v qs, ps = .mk f v :: qs ∧ e.linked I v ∧ Field.linked I d qs par
    | .parent => (∃ o, par = some o ∧ e.linked I (.obj o)) ∧ Field.linked I d ps par
    | .global _ => Field.linked I d ps par
termination_by structural t => t
end

/-- What an include of `p` in the file `file` holds, if `V` gives each file its value. -/
def IncludeIs (fs : FS) (file : Option Str) (V : Str → Option Value) (p : Str) (v : Value) : Prop :=
  ∃ F, Leads fs (meantIn file p) F ∧ V F = some v

/-- `v` is a value of the file at `path`: its text, or the object, array or tuple that its text says, with the includes in it
as `V` says. -/
inductive FileIs [Unicode] (fs : FS) (V : Str → Option Value) (path : Str) : Value → Prop
  | str {text : Str} : fs.read path = .ok text → FileIs fs V path (.str text)
  | obj {text : Str} {d : List Field} {o : Obj} : fs.read path = .ok text → SpDoc d text →
      Field.linked (IncludeIs fs (some path) V) d o.pairs o.parent → FileIs fs V path (.obj o)
  | arr {text : Str} {es : List Expr} {i : Nat} {t : Ty} {vs : List Value} : fs.read path = .ok text →
      SpItems true es text → Expr.linkedL (IncludeIs fs (some path) V) es vs → FileIs fs V path (.arr i t vs)
  | tup {text : Str} {es : List Expr} {i : Nat} {ts : List Ty} {vs : List Value} : fs.read path = .ok text →
      SpItems true es text → Expr.linkedL (IncludeIs fs (some path) V) es vs → FileIs fs V path (.tup i ts vs)

/-- `V` gives files their values: every value is that of the file's text, with the includes in it as `V` says. -/
def OneValuePerFile [Unicode] (fs : FS) (V : Str → Option Value) : Prop :=
  ∀ F v, V F = some v → ∃ path, Leads fs path F ∧ FileIs fs V path v

end Over
