import Verif.Spec.Linked

/-!
# Where the files of a project stand

`Stands fs file d o F v`: the definitions `d`, written in `file`, say the object `o`, and at some place of the project, in
`d` itself or in a file that is included from there (directly or through further files), there is an include of the file `F`
and the value `v` stands at that place.
-/

namespace Over

mutual
/-- Somewhere in the operand there is an include of the literal path `p`, and `v` is at that place in the value. -/
def Term.holds (p : Str) (v : Value) : Term → Value → Prop
  | .arr es, w => ∃ id t vs, w = .arr id t vs ∧ Expr.holdsL p v es vs
  | .tup es, w => ∃ id ts vs, w = .tup id ts vs ∧ Expr.holdsL p v es vs
  | .obj fds, w => ∃ id ps par, w = .obj (.mk id ps par) ∧ Field.holds p v fds ps par
  | .incl e, w => e.literalPath = some p ∧ w = v
  | .inclAs _ e, w => e.literalPath = some p ∧ w = v
  | _, _ => False
termination_by structural t => t
/-- … in the expression, which has no operators. -/
def Expr.holds (p : Str) (v : Value) : Expr → Value → Prop
  | .mk t r, w => match r with
    | [] => t.holds p v w
    | _ :: _ => False
termination_by structural t => t
/-- … in one of the elements. -/
def Expr.holdsL (p : Str) (v : Value) : List Expr → List Value → Prop
  | [], _ => False
  | e :: es, vs => ∃ w ws, vs = w :: ws ∧ (e.holds p v w ∨ Expr.holdsL p v es ws)
termination_by structural t => t
/-- … in one of the definitions, of fields or of the parent. -/
def Field.holds (p : Str) (v : Value) : List Field → List Pair → Option Obj → Prop
  | [], _, _ => False
  | .mk tg e :: d, ps, par => match tg with
    | .field f => ∃ w qs, ps = .mk f w :: qs ∧ (e.holds p v w ∨ Field.holds p v d qs par)
    | .parent => (∃ o, par = some o ∧ e.holds p v (.obj o)) ∨ Field.holds p v d ps par
    | .global _ => Field.holds p v d ps par
termination_by structural t => t
end

/-- Somewhere in the project there is an include of the file `F`, and `v` is at that place. -/
inductive Stands [Unicode] (fs : FS) : Option Str → List Field → Obj → Str → Value → Prop
  | here {file : Option Str} {d : List Field} {o : Obj} {p F : Str} {v : Value} :
      Field.holds p v d o.pairs o.parent → Leads fs (meantIn file p) F → Stands fs file d o F v
  | through {file : Option Str} {d d' : List Field} {o o' : Obj} {p F text : Str} {v : Value} :
      Field.holds p (.obj o') d o.pairs o.parent → fs.read (meantIn file p) = .ok text → SpDoc d' text →
      Stands fs (some (meantIn file p)) d' o' F v → Stands fs file d o F v

/-- The file that an include leads to does not depend on the path by which the including file was opened. -/
def FS.OneMeaning (fs : FS) : Prop :=
  ∀ path path' p A, Leads fs path A → Leads fs path' A → fs.resolve (beside path p) = fs.resolve (beside path' p)

end Over
