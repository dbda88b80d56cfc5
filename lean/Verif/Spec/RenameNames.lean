import Verif.Spec.Scope
import Verif.Spec.Eval

/-!
# Renaming the fields and globals of a document
-/

namespace Over

/-- New names for fields and globals.  Different names stay different; the reserved words and `^` keep their meaning; a
field does not become a global, nor a global a field. -/
structure Renaming where
  /-- the new name of a field -/
  field : Str → Str
  /-- the new name of a global (both with `@`) -/
  global : Str → Str
  field_injective : ∀ x y, field x = field y → x = y
  global_injective : ∀ x y, global x = global y → x = y
  field_reserved : ∀ x ∈ c!"^" :: reservedWords, field x = x
  global_at : global c!"@" = c!"@"
  field_no_at : ∀ x : Str, x.head? ≠ some '@' → (field x).head? ≠ some '@'
  global_has_at : ∀ x : Str, x.head? = some '@' → (global x).head? = some '@'

/-- The new name of a variable or global in an expression. -/
def Renaming.name (r : Renaming) (x : Str) : Str := if x.head? = some '@' then r.global x else r.field x

/-- The new target of a definition. -/
def Target.rename (r : Renaming) : Target → Target
  | .field f => .field (r.field f)
  | .global g => .global (r.global g)
  | .parent => .parent

mutual
/-- The operand with the new names. -/
def Term.rename (r : Renaming) : Term → Term
  | .str s => .str s
  | .int n => .int n
  | .frac q => .frac q
  | .name x => .name (r.name x)
  | .dot x t => .dot (r.name x) (t.rename r)
  | .neg t => .neg (t.rename r)
  | .pos t => .pos (t.rename r)
  | .arr es => .arr (Expr.renameL r es)
  | .tup es => .tup (Expr.renameL r es)
  | .obj fds => .obj (Field.renameL r fds)
  | .incl e => .incl (e.rename r)
  | .inclAs k e => .inclAs (k.rename r) (e.rename r)
termination_by structural t => t
/-- … an operator chain. -/
def Expr.rename (r : Renaming) : Expr → Expr
  | .mk t ops => .mk (t.rename r) (OpTerm.renameL r ops)
termination_by structural t => t
/-- … the rest of a chain. -/
def OpTerm.renameL (r : Renaming) : List OpTerm → List OpTerm
  | [] => []
  | .mk op t :: ops => .mk op (t.rename r) :: OpTerm.renameL r ops
termination_by structural t => t
/-- … a sequence of values. -/
def Expr.renameL (r : Renaming) : List Expr → List Expr
  | [] => []
  | e :: es => e.rename r :: Expr.renameL r es
termination_by structural t => t
/-- The definitions with the new names. -/
def Field.renameL (r : Renaming) : List Field → List Field
  | [] => []
  | .mk tg e :: fds => .mk (tg.rename r) (e.rename r) :: Field.renameL r fds
termination_by structural t => t
end

mutual
/-- The operand contains no include. -/
def Term.includeFree : Term → Bool
  | .str _ => true
  | .int _ => true
  | .frac _ => true
  | .name _ => true
  | .dot _ t => t.includeFree
  | .neg t => t.includeFree
  | .pos t => t.includeFree
  | .arr es => Expr.includeFreeL es
  | .tup es => Expr.includeFreeL es
  | .obj fds => Field.includeFreeL fds
  | .incl _ => false
  | .inclAs _ _ => false
termination_by structural t => t
/-- … an operator chain. -/
def Expr.includeFree : Expr → Bool
  | .mk t ops => t.includeFree && OpTerm.includeFreeL ops
termination_by structural t => t
/-- … the rest of a chain. -/
def OpTerm.includeFreeL : List OpTerm → Bool
  | [] => true
  | .mk _ t :: ops => t.includeFree && OpTerm.includeFreeL ops
termination_by structural t => t
/-- … a sequence of values. -/
def Expr.includeFreeL : List Expr → Bool
  | [] => true
  | e :: es => e.includeFree && Expr.includeFreeL es
termination_by structural t => t
/-- … a sequence of definitions. -/
def Field.includeFreeL : List Field → Bool
  | [] => true
  | .mk _ e :: fds => e.includeFree && Field.includeFreeL fds
termination_by structural t => t
end

mutual
/-- The value in which every field has its new name. -/
def Value.renameFields (r : Str → Str) : Value → Value
  | .null => .null
  | .bool b => .bool b
  | .int i => .int i
  | .frac q => .frac q
  | .str s => .str s
  | .arr i t vs => .arr i t (Value.renameFieldsL r vs)
  | .tup i ts vs => .tup i ts (Value.renameFieldsL r vs)
  | .obj o => .obj (o.renameFields r)
termination_by structural v => v
/-- … several values. -/
def Value.renameFieldsL (r : Str → Str) : List Value → List Value
  | [] => []
  | v :: vs => v.renameFields r :: Value.renameFieldsL r vs
termination_by structural v => v
/-- … fields. -/
def Pair.renameFieldsL (r : Str → Str) : List Pair → List Pair
  | [] => []
  | .mk n v :: ps => .mk (r n) (v.renameFields r) :: Pair.renameFieldsL r ps
termination_by structural v => v
/-- … a parent. -/
def Obj.renameFieldsP (r : Str → Str) : Option Obj → Option Obj
  | none => none
  | some o => some (o.renameFields r)
termination_by structural v => v
/-- The object in which every field has its new name, at every level. -/
def Obj.renameFields (r : Str → Str) : Obj → Obj
  | .mk i ps par => .mk i (Pair.renameFieldsL r ps) (Obj.renameFieldsP r par)
termination_by structural v => v
end

/-- The kind of error with the new names. -/
def SemKind.rename (r : Renaming) : SemKind → SemKind
  | .variableNotFound x => .variableNotFound (r.field x)
  | .globalNotFound x => .globalNotFound (r.global x)
  | .duplicateField f => .duplicateField (r.field f)
  | .duplicateGlobal f => .duplicateGlobal (r.global f)
  | k => k

/-- The error with the new names. -/
def SemErr.rename (r : Renaming) : SemErr → SemErr
  | .sem f k => .sem f (k.rename r)
  | e => e

/-- Exchange two names. -/
def swapNames (a b x : Str) : Str := if x = a then b else if x = b then a else x

theorem swapNames_swapNames (a b x : Str) : swapNames a b (swapNames a b x) = x := by
  unfold swapNames
  split_ifs <;> simp_all

/-- Exchange the names of two fields (neither is reserved). -/
def Renaming.swapFields (a b : Str) (ha : a ∉ c!"^" :: reservedWords) (hb : b ∉ c!"^" :: reservedWords)
    (ha' : a.head? ≠ some '@') (hb' : b.head? ≠ some '@') : Renaming where
  field := swapNames a b
  global := id
  field_injective x y h := by rw [← swapNames_swapNames a b x, h, swapNames_swapNames]
  global_injective _ _ h := h
  field_reserved x hx := by
    have h1 : x ≠ a := by rintro rfl; exact ha hx
    have h2 : x ≠ b := by rintro rfl; exact hb hx
    simp [swapNames, h1, h2]
  global_at := rfl
  field_no_at x hx := by unfold swapNames; split_ifs <;> assumption
  global_has_at _ h := h

/-- Exchange the names of two globals. -/
def Renaming.swapGlobals (a b : Str) (ha : a.head? = some '@') (hb : b.head? = some '@') (ha' : a ≠ c!"@") (hb' : b ≠ c!"@") :
    Renaming where
  field := id
  global := swapNames a b
  field_injective _ _ h := h
  global_injective x y h := by rw [← swapNames_swapNames a b x, h, swapNames_swapNames]
  field_reserved _ _ := rfl
  global_at := by simp [swapNames, ha'.symm, hb'.symm]
  field_no_at _ h := h
  global_has_at x hx := by unfold swapNames; split_ifs <;> assumption

end Over
