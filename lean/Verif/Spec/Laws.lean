import Verif.Spec.Operators
import Verif.Spec.Place

/-!
# The usual laws, said about documents

Over has no brackets in formulas (round brackets are tuples), so a formula with another grouping is written with an
auxiliary field: `z:b+c` and then `y:a+z` stands for `y:a+(b+c)`.  Two ways of writing a formula *agree* when either both
are accepted or neither is, and the values they give are the same data (new arrays have ids of their own).
-/

namespace Over

section
variable [Unicode]

/-- The definition `y:e` at the end of `u` is accepted and gives `y` the value `v`. -/
def Gives (fs : FS) (rt : Rt) (A : List (Str × Str)) (u : Str) (p : Obj) (y e : Str) (v : Value) : Prop :=
  ∃ p', ReadsAt fs rt A (u ++ c!"\n" ++ y ++ c!":" ++ e) p' ∧ p'.pairs = p.pairs ++ [.mk y v]

/-- The definitions `z:f` and `y:e` at the end of `u` are accepted and give `y` the value `v`. -/
def GivesVia (fs : FS) (rt : Rt) (A : List (Str × Str)) (u : Str) (p : Obj) (z f y e : Str) (v : Value) : Prop :=
  ∃ p' w, ReadsAt fs rt A (u ++ c!"\n" ++ z ++ c!":" ++ f ++ c!"\n" ++ y ++ c!":" ++ e) p' ∧
    p'.pairs = p.pairs ++ [.mk z w, .mk y v]

/-- Two ways of writing a value agree. -/
def Agree (P Q : Value → Prop) : Prop :=
  ((∃ v, P v) ↔ ∃ v, Q v) ∧ ∀ v w, P v → Q w → v.data = w.data

/-- Two different new field names. -/
structure NewNames (p : Obj) (y z : Str) : Prop where
  yName : FieldName y
  zName : FieldName z
  yNew : NotNamed p.pairs y
  zNew : NotNamed p.pairs z
  ne : y ≠ z

/-- A field of the object and its value. -/
structure FieldAt (p : Obj) (a : Str) (v : Value) : Prop where
  name : FieldName a
  value : FirstNamed p.pairs a v

/-- A field whose value is a number. -/
def NumberField (p : Obj) (x : Str) : Prop := ∃ v q, FieldAt p x v ∧ IsNumber v q

/-- `x∘x₁∘x₂…`, the same operator throughout. -/
def joined (op : BinOp) (x : Str) (xs : List Str) : Str := x ++ xs.flatMap (fun n => opChar op :: n)

end

end Over
