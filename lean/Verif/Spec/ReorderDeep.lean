import Verif.Spec.Project
import Verif.Spec.Reorder

/-!
# Independent definitions at any level

`ReorderedDeep` relates documents in which independent definitions stand in another order, in the document itself or in an object anywhere
inside.  `Value.EqualButOrder` says that two values are equal but for the order of fields, at every level.
-/

namespace Over

mutual
/-- Definitions are exchanged somewhere inside the operand. -/
inductive ReTerm : Term → Term → Prop
  | same (t : Term) : ReTerm t t
  | dot {x : Str} {t t' : Term} : ReTerm t t' → ReTerm (.dot x t) (.dot x t')
  | neg {t t' : Term} : ReTerm t t' → ReTerm (.neg t) (.neg t')
  | pos {t t' : Term} : ReTerm t t' → ReTerm (.pos t) (.pos t')
  | arr {es es' : List Expr} : ReItems es es' → ReTerm (.arr es) (.arr es')
  | tup {es es' : List Expr} : ReItems es es' → ReTerm (.tup es) (.tup es')
  | obj {fds fds' : List Field} : ReFields fds fds' → ReTerm (.obj fds) (.obj fds')
  | incl {e e' : Expr} : ReExpr e e' → ReTerm (.incl e) (.incl e')
  | inclAs {k k' e e' : Expr} : ReExpr k k' → ReExpr e e' → ReTerm (.inclAs k e) (.inclAs k' e')
/-- … inside an operator chain. -/
inductive ReExpr : Expr → Expr → Prop
  | mk {t t' : Term} {r r' : List OpTerm} : ReTerm t t' → ReOps r r' → ReExpr (.mk t r) (.mk t' r')
/-- … inside the rest of a chain. -/
inductive ReOps : List OpTerm → List OpTerm → Prop
  | nil : ReOps [] []
  | cons {op : BinOp} {t t' : Term} {r r' : List OpTerm} : ReTerm t t' → ReOps r r' → ReOps (.mk op t :: r) (.mk op t' :: r')
/-- … inside a sequence of values. -/
inductive ReItems : List Expr → List Expr → Prop
  | nil : ReItems [] []
  | cons {e e' : Expr} {r r' : List Expr} : ReExpr e e' → ReItems r r' → ReItems (e :: r) (e' :: r')
/-- … in a sequence of definitions, or inside one of them. -/
inductive ReFields : List Field → List Field → Prop
  | same (fds : List Field) : ReFields fds fds
  | cons {tg : Target} {e e' : Expr} {r r' : List Field} : ReExpr e e' → ReFields r r' → ReFields (.mk tg e :: r) (.mk tg e' :: r')
  /-- the two definitions at the front are exchanged: neither uses what the other defines, neither defines globals inside, and not
  both of them include files -/
  | exchange {B : List Field} {tg1 tg2 : Target} {e1 e2 : Expr} : e1.definesNoGlobal = true → e2.definesNoGlobal = true →
      e1.includeFree = true ∨ e2.includeFree = true → e2.without tg1 = true → e1.without tg2 = true →
      ReFields (.mk tg1 e1 :: .mk tg2 e2 :: B) (.mk tg2 e2 :: .mk tg1 e1 :: B)
end

/-- Documents that differ in the order of independent definitions, at any level. -/
inductive ReorderedDeep : List Field → List Field → Prop
  | step {a b : List Field} : ReFields a b → ReorderedDeep a b
  | trans {a b c : List Field} : ReorderedDeep a b → ReorderedDeep b c → ReorderedDeep a c

/-- The value of the field `x`, if there is one. -/
def fieldIn (ps : List Pair) (x : Str) : Option Value := (ps.find? (fun p => p.field == x)).map Pair.value

mutual
/-- The values are equal, but for the order of fields in objects (and the identities of containers). -/
inductive Value.EqualButOrder : Value → Value → Prop
  | null : Value.EqualButOrder .null .null
  | bool (b : Bool) : Value.EqualButOrder (.bool b) (.bool b)
  | int (i : Int) : Value.EqualButOrder (.int i) (.int i)
  | frac (q : Rat) : Value.EqualButOrder (.frac q) (.frac q)
  | str (s : Str) : Value.EqualButOrder (.str s) (.str s)
  | arr (i i' : Nat) (t : Ty) {vs vs' : List Value} : Value.EqualButOrderL vs vs' → Value.EqualButOrder (.arr i t vs) (.arr i' t vs')
  | tup (i i' : Nat) (ts : List Ty) {vs vs' : List Value} : Value.EqualButOrderL vs vs' → Value.EqualButOrder (.tup i ts vs) (.tup i' ts vs')
  | obj {o o' : Obj} : Obj.EqualButOrder o o' → Value.EqualButOrder (.obj o) (.obj o')
/-- … the elements of a container. -/
inductive Value.EqualButOrderL : List Value → List Value → Prop
  | nil : Value.EqualButOrderL [] []
  | cons {v v' : Value} {r r' : List Value} : Value.EqualButOrder v v' → Value.EqualButOrderL r r' → Value.EqualButOrderL (v :: r) (v' :: r')
/-- Objects have the same field names, in any order, with values that are equal but for the order, and the same parents but for the order. -/
inductive Obj.EqualButOrder : Obj → Obj → Prop
  | mk (i i' : Nat) {ps ps' : List Pair} {par par' : Option Obj} :
      (ps.map Pair.field).Perm (ps'.map Pair.field) →
      (∀ x v v', fieldIn ps x = some v → fieldIn ps' x = some v' → Value.EqualButOrder v v') →
      Obj.EqualButOrderO par par' → Obj.EqualButOrder (.mk i ps par) (.mk i' ps' par')
/-- … parents. -/
inductive Obj.EqualButOrderO : Option Obj → Option Obj → Prop
  | none : Obj.EqualButOrderO none none
  | some {o o' : Obj} : Obj.EqualButOrder o o' → Obj.EqualButOrderO (some o) (some o')
end

section
variable [Unicode]

/-- The two texts are documents that differ in the order of independent definitions. -/
def TextReordered (t t' : Str) : Prop := ∃ d d', SpDoc d t ∧ SpDoc d' t' ∧ ReorderedDeep d d'

/-- `fs'` is the file system after definitions were put in another order in some files: the paths lead where they led, and every file is
as it was, or has got a text with the definitions in another order. -/
structure FS.ReorderedTo (fs fs' : FS) : Prop where
  resolve : fs'.resolve = fs.resolve
  utf8 : fs'.utf8 = fs.utf8
  openErr : fs'.openErr = fs.openErr
  files : ∀ c, StrMap.get fs'.nodes c = StrMap.get fs.nodes c ∨
    ∃ t t', StrMap.get fs.nodes c = some (.ok t) ∧ StrMap.get fs'.nodes c = some (.ok t') ∧ TextReordered t t'

end

end Over
