import Verif.Spec.Syntax

/-!
# Replacing names by their definitions

`InlDoc` relates a document to one in which some uses of fields and globals are replaced by what they were defined with.
-/

namespace Over

mutual
/-- No global is defined in the operand. -/
def Term.definesNoGlobal : Term → Bool
  | .str _ => true
  | .int _ => true
  | .frac _ => true
  | .name _ => true
  | .dot _ t => t.definesNoGlobal
  | .neg t => t.definesNoGlobal
  | .pos t => t.definesNoGlobal
  | .arr es => Expr.definesNoGlobalL es
  | .tup es => Expr.definesNoGlobalL es
  | .obj fds => Field.definesNoGlobalL fds
  | .incl e => e.definesNoGlobal
  | .inclAs k e => k.definesNoGlobal && e.definesNoGlobal
termination_by structural t => t
/-- … in an operator chain. -/
def Expr.definesNoGlobal : Expr → Bool
  | .mk t ops => t.definesNoGlobal && OpTerm.definesNoGlobalL ops
termination_by structural t => t
/-- … in the rest of a chain. -/
def OpTerm.definesNoGlobalL : List OpTerm → Bool
  | [] => true
  | .mk _ t :: ops => t.definesNoGlobal && OpTerm.definesNoGlobalL ops
termination_by structural t => t
/-- … in a sequence of values. -/
def Expr.definesNoGlobalL : List Expr → Bool
  | [] => true
  | e :: es => e.definesNoGlobal && Expr.definesNoGlobalL es
termination_by structural t => t
/-- … in a sequence of definitions. -/
def Field.definesNoGlobalL : List Field → Bool
  | [] => true
  | .mk (.global _) _ :: _ => false
  | .mk _ e :: fds => e.definesNoGlobal && Field.definesNoGlobalL fds
termination_by structural t => t
end

/-- A name that does not stand for a field: a global or a reserved word. -/
def noField (x : Str) : Bool := x.head? == some '@' || reservedWords.contains x

mutual
/-- The operand uses no field of the enclosing object. -/
def Term.usesNoField : Term → Bool
  | .str _ => true
  | .int _ => true
  | .frac _ => true
  | .name x => noField x
  | .dot x t => noField x && t.usesNoField
  | .neg t => t.usesNoField
  | .pos t => t.usesNoField
  | .arr es => Expr.usesNoFieldL es
  | .tup es => Expr.usesNoFieldL es
  | .obj _ => true
  | .incl e => e.usesNoField
  | .inclAs k e => k.usesNoField && e.usesNoField
termination_by structural t => t
/-- … an operator chain. -/
def Expr.usesNoField : Expr → Bool
  | .mk t ops => t.usesNoField && OpTerm.usesNoFieldL ops
termination_by structural t => t
/-- … the rest of a chain. -/
def OpTerm.usesNoFieldL : List OpTerm → Bool
  | [] => true
  | .mk _ t :: ops => t.usesNoField && OpTerm.usesNoFieldL ops
termination_by structural t => t
/-- … a sequence of values. -/
def Expr.usesNoFieldL : List Expr → Bool
  | [] => true
  | e :: es => e.usesNoField && Expr.usesNoFieldL es
termination_by structural t => t
end

mutual
/-- The operand neither uses nor defines the global `g`. -/
def Term.avoids (g : Str) : Term → Bool
  | .str _ => true
  | .int _ => true
  | .frac _ => true
  | .name x => x != g
  | .dot x t => x != g && t.avoids g
  | .neg t => t.avoids g
  | .pos t => t.avoids g
  | .arr es => Expr.avoidsL g es
  | .tup es => Expr.avoidsL g es
  | .obj fds => Field.avoidsL g fds
  | .incl e => e.avoids g
  | .inclAs k e => k.avoids g && e.avoids g
termination_by structural t => t
/-- … an operator chain. -/
def Expr.avoids (g : Str) : Expr → Bool
  | .mk t ops => t.avoids g && OpTerm.avoidsL g ops
termination_by structural t => t
/-- … the rest of a chain. -/
def OpTerm.avoidsL (g : Str) : List OpTerm → Bool
  | [] => true
  | .mk _ t :: ops => t.avoids g && OpTerm.avoidsL g ops
termination_by structural t => t
/-- … a sequence of values. -/
def Expr.avoidsL (g : Str) : List Expr → Bool
  | [] => true
  | e :: es => e.avoids g && Expr.avoidsL g es
termination_by structural t => t
/-- … a sequence of definitions. -/
def Field.avoidsL (g : Str) : List Field → Bool
  | [] => true
  | .mk tg e :: fds => (tg != .global g) && e.avoids g && Field.avoidsL g fds
termination_by structural t => t
end

/-- Names with their definitions. -/
abbrev Defs := List (Str × Expr)

mutual
/-- `InlTerm U Θ Γ t t'`: in `t'`, some uses of the globals in `Θ` and of the fields in `Γ` (those of the object in which `t`
stands) are replaced by their definitions.  Neither operand mentions a global in `U`. -/
inductive InlTerm (U : Str → Prop) : Defs → Defs → Term → Term → Prop
  | str {Θ Γ : Defs} {s : Str} : InlTerm U Θ Γ (.str s) (.str s)
  | int {Θ Γ : Defs} {n : Nat} : InlTerm U Θ Γ (.int n) (.int n)
  | frac {Θ Γ : Defs} {q : Rat} : InlTerm U Θ Γ (.frac q) (.frac q)
  | name {Θ Γ : Defs} {x : Str} : ¬ U x → InlTerm U Θ Γ (.name x) (.name x)
  /-- the replacement of a name -/
  | inlined {Θ Γ : Defs} {x : Str} {t : Term} : (x, .mk t []) ∈ Γ ∨ (x, .mk t []) ∈ Θ → InlTerm U Θ Γ (.name x) t
  /-- nothing is replaced in `x.t` -/
  | dot {Θ Γ : Defs} {x : Str} {t t' : Term} : ¬ U x → InlTerm U [] [] t t' → InlTerm U Θ Γ (.dot x t) (.dot x t')
  | neg {Θ Γ : Defs} {t t' : Term} : InlTerm U Θ Γ t t' → InlTerm U Θ Γ (.neg t) (.neg t')
  | pos {Θ Γ : Defs} {t t' : Term} : InlTerm U Θ Γ t t' → InlTerm U Θ Γ (.pos t) (.pos t')
  | arr {Θ Γ : Defs} {es es' : List Expr} : InlItems U Θ Γ es es' → InlTerm U Θ Γ (.arr es) (.arr es')
  | tup {Θ Γ : Defs} {es es' : List Expr} : InlItems U Θ Γ es es' → InlTerm U Θ Γ (.tup es) (.tup es')
  /-- an object has fields of its own -/
  | obj {Θ Γ : Defs} {fds fds' : List Field} : InlFields U Θ [] fds fds' → InlTerm U Θ Γ (.obj fds) (.obj fds')
  | incl {Θ Γ : Defs} {e e' : Expr} : InlExpr U Θ Γ e e' → InlTerm U Θ Γ (.incl e) (.incl e')
  | inclAs {Θ Γ : Defs} {k k' e e' : Expr} : InlExpr U Θ Γ k k' → InlExpr U Θ Γ e e' → InlTerm U Θ Γ (.inclAs k e) (.inclAs k' e')
/-- … in an operator chain. -/
inductive InlExpr (U : Str → Prop) : Defs → Defs → Expr → Expr → Prop
  | mk {Θ Γ : Defs} {t t' : Term} {r r' : List OpTerm} : InlTerm U Θ Γ t t' → InlOps U Θ Γ r r' → InlExpr U Θ Γ (.mk t r) (.mk t' r')
  /-- the replacement of a name that stands alone, by a whole chain -/
  | inlined {Θ Γ : Defs} {x : Str} {e : Expr} : (x, e) ∈ Γ ∨ (x, e) ∈ Θ → InlExpr U Θ Γ (.mk (.name x) []) e
/-- … in the rest of a chain. -/
inductive InlOps (U : Str → Prop) : Defs → Defs → List OpTerm → List OpTerm → Prop
  | nil {Θ Γ : Defs} : InlOps U Θ Γ [] []
  | cons {Θ Γ : Defs} {op : BinOp} {t t' : Term} {r r' : List OpTerm} : InlTerm U Θ Γ t t' → InlOps U Θ Γ r r' →
      InlOps U Θ Γ (.mk op t :: r) (.mk op t' :: r')
/-- … in a sequence of values. -/
inductive InlItems (U : Str → Prop) : Defs → Defs → List Expr → List Expr → Prop
  | nil {Θ Γ : Defs} : InlItems U Θ Γ [] []
  | cons {Θ Γ : Defs} {e e' : Expr} {r r' : List Expr} : InlExpr U Θ Γ e e' → InlItems U Θ Γ r r' → InlItems U Θ Γ (e :: r) (e' :: r')
/-- … in the definitions of an object. -/
inductive InlFields (U : Str → Prop) : Defs → Defs → List Field → List Field → Prop
  | nil {Θ Γ : Defs} : InlFields U Θ Γ [] []
  | cons {Θ Γ : Defs} {tg : Target} {e e' : Expr} {r r' : List Field} : (∀ g, tg = .global g → ¬ U g) → InlExpr U Θ Γ e e' →
      InlFields U Θ Γ r r' → InlFields U Θ Γ (.mk tg e :: r) (.mk tg e' :: r')
  /-- the field `x` may be replaced from here on -/
  | define {Θ Γ : Defs} {x : Str} {e e' : Expr} {r r' : List Field} : noField x = false → InlExpr U Θ Γ e e' →
      e'.definesNoGlobal = true → InlFields U Θ ((x, e') :: Γ) r r' →
      InlFields U Θ Γ (.mk (.field x) e :: r) (.mk (.field x) e' :: r')
end

/-- … in the definitions of a document, where also globals may be replaced. -/
inductive InlDoc (U : Str → Prop) : Defs → Defs → List Field → List Field → Prop
  | nil {Θ Γ : Defs} : InlDoc U Θ Γ [] []
  | cons {Θ Γ : Defs} {tg : Target} {e e' : Expr} {r r' : List Field} : (∀ g, tg = .global g → ¬ U g) → InlExpr U Θ Γ e e' →
      InlDoc U Θ Γ r r' → InlDoc U Θ Γ (.mk tg e :: r) (.mk tg e' :: r')
  | define {Θ Γ : Defs} {x : Str} {e e' : Expr} {r r' : List Field} : noField x = false → InlExpr U Θ Γ e e' →
      e'.definesNoGlobal = true → InlDoc U Θ ((x, e') :: Γ) r r' → InlDoc U Θ Γ (.mk (.field x) e :: r) (.mk (.field x) e' :: r')
  /-- the global `g` may be replaced from here on, at every level -/
  | global {Θ Γ : Defs} {g : Str} {e e' : Expr} {r r' : List Field} : g.head? = some '@' → g ≠ c!"@" → ¬ U g → InlExpr U Θ Γ e e' →
      e'.definesNoGlobal = true → e'.usesNoField = true → InlDoc U ((g, e') :: Θ) Γ r r' →
      InlDoc U Θ Γ (.mk (.global g) e :: r) (.mk (.global g) e' :: r')

end Over
