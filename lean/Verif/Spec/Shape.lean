import Verif.Spec.Syntax
import Verif.Model.Value

/-!
# What is written literally

`Field.shows d ps`: the fields `ps` are those written in the definitions `d`, one for each definition of a regular field,
in the order in which they are written; and what is written literally as the value of a field (a string, a number, an
array, a tuple or an object) is what the field holds, down to every depth.  Nothing is said about the values of names,
paths, includes and operators.
-/

namespace Over

/-- Is there a definition of a parent? -/
def Field.anyParent : List Field → Bool
  | [] => false
  | .mk .parent _ :: _ => true
  | .mk _ _ :: d => Field.anyParent d

mutual
/-- The value shows the operand. -/
def Term.shows : Term → Value → Prop
  | .str s, v => v = .str s
  | .int n, v => v = .int n
  | .frac q, v => v = .frac q
  | .arr es, v => ∃ id t vs, v = .arr id t vs ∧ Expr.showsL es vs
  | .tup es, v => ∃ id ts vs, v = .tup id ts vs ∧ Expr.showsL es vs
  | .obj fds, v => ∃ id ps par, v = .obj (.mk id ps par) ∧ Field.shows fds ps ∧ par.isSome = Field.anyParent fds
  | _, _ => True
termination_by structural t => t
/-- The value shows the expression; nothing is said if there are operators. -/
def Expr.shows : Expr → Value → Prop
  | .mk t r, v => match r with
    | [] => t.shows v
    | _ :: _ => True
termination_by structural t => t
/-- The values show the expressions, one by one. -/
def Expr.showsL : List Expr → List Value → Prop
  | [], vs => vs = []
  | e :: es, vs => ∃ w ws, vs = w :: ws ∧ e.shows w ∧ Expr.showsL es ws
termination_by structural t => t
/-- The fields show the definitions. -/
def Field.shows : List Field → List Pair → Prop
  | [], ps => ps = []
  | .mk tg e :: d, ps => match tg with
    | .field f => ∃ v qs, ps = .mk f v :: qs ∧ e.shows v ∧ Field.shows d qs
    | _ => Field.shows d ps
termination_by structural t => t
end

end Over
