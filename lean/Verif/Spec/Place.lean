import Verif.Spec.Scope
import Verif.Model.Parser

/-!
# Reading definitions at a place

`ReadsAt fs rt layers u p`: reading the text in which the definitions `u` stand inside the objects `layers`
(`nest`, `Spec/Scope.lean`; no layers: at the top) succeeds, and the object that holds these definitions becomes `p`.
Statements about scoping append one more definition to `u`, so they speak about every place at every nesting depth.
The value that a text `e` denotes at a place is found by appending the definition `y:e` with a new name `y`.
-/

namespace Over

section
variable [Unicode]

/-- The definitions `u` inside `layers` are read, and become the object `p`. -/
def ReadsAt (fs : FS) (rt : Rt) (layers : List (Str × Str)) (u : Str) (p : Obj) : Prop :=
  WellFormedLayers layers ∧ WellFormed u ∧
    ∃ o s, fromStr fs (nest layers u) rt = .ok o s ∧ Innermost (layers.map Prod.snd) o p

/-- The value text `e` denotes `v` at the end of `u`: a new field defined by it has this value. -/
def Denotes (fs : FS) (rt : Rt) (layers : List (Str × Str)) (u : Str) (p : Obj) (e : Str) (v : Value) : Prop :=
  ∃ y p', FieldName y ∧ NotNamed p.pairs y ∧ ReadsAt fs rt layers (u ++ c!"\n" ++ y ++ c!":" ++ e) p' ∧
    p'.pairs = p.pairs ++ [.mk y v]

/-- Reading the text fails with an error of this kind (any position). -/
def FailsWith (fs : FS) (rt : Rt) (text : Str) (k : Nat → Nat → Kind) : Prop :=
  ∃ l c, fromStr fs text rt = .err ⟨none, k l c⟩

/-- The value text `e` at the end of `u` is rejected with an error of this kind: whatever new field is defined by it, and
whatever follows. -/
def Rejected (fs : FS) (rt : Rt) (layers : List (Str × Str)) (u : Str) (p : Obj) (e : Str) (k : Nat → Nat → Kind) : Prop :=
  ∀ y rest, FieldName y → NotNamed p.pairs y → WellFormed rest →
    FailsWith fs rt (nest layers (u ++ c!"\n" ++ y ++ c!":" ++ e ++ c!"\n" ++ rest)) k

/-! ## Dotted paths -/

/-- `.f₁.f₂ …` -/
def dotted : List Str → Str
  | [] => []
  | f :: fs => '.' :: (f ++ dotted fs)

/-- Following own fields, from object to object, ends at `v`. -/
inductive Follows : Value → List Str → Value → Prop
  | stop {v : Value} : Follows v [] v
  | step {o : Obj} {f : Str} {fs : List Str} {v w : Value} : FirstNamed o.pairs f v → Follows v fs w →
      Follows (.obj o) (f :: fs) w

end

end Over
