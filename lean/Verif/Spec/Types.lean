import Verif.Model.Types
import Mathlib.Data.List.Forall2
import Mathlib.Order.Defs.PartialOrder

/-!
# Specification vocabulary for types

Nothing here mentions the algorithms of `Model/Types.lean`; only the datatype `Ty` is used.
-/

namespace Over

/-- `Refines s t`: the type `s` can be obtained from `t` by replacing occurrences of `Any` in `t` by
types (different occurrences independently). -/
inductive Refines : Ty → Ty → Prop
  /-- an `Any` may be replaced by anything -/
  | any (s : Ty) : Refines s .any
  | null : Refines .null .null
  | bool : Refines .bool .bool
  | int : Refines .int .int
  | frac : Refines .frac .frac
  | str : Refines .str .str
  | obj : Refines .obj .obj
  | arr {s t : Ty} : Refines s t → Refines (.arr s) (.arr t)
  | tup {ss ts : List Ty} : List.Forall₂ Refines ss ts → Refines (.tup ss) (.tup ts)

/-- `c` is a common refinement of all types of the list `l`. -/
def CommonRefinement (c : Ty) (l : List Ty) : Prop := ∀ t ∈ l, Refines c t

/-- `c` is the least (least specific) common refinement of the types in `l`: it refines all of them and
every common refinement refines it. -/
def LeastCommonRefinement (c : Ty) (l : List Ty) : Prop :=
  CommonRefinement c l ∧ ∀ d, CommonRefinement d l → Refines d c

/-- `Any` occurs in the type. -/
inductive MentionsAny : Ty → Prop
  | any : MentionsAny .any
  | arr {t : Ty} : MentionsAny t → MentionsAny (.arr t)
  | tup {ts : List Ty} {t : Ty} : t ∈ ts → MentionsAny t → MentionsAny (.tup ts)

end Over
