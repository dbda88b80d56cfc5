import Verif.Model.Parser

/-!
# More fuel does not change a result
-/

set_option linter.unusedSectionVars false

namespace Over

/-- Where `m` does not run out of fuel, `m'` gives the same result. -/
def Ext {α : Type} (m m' : P α) : Prop := ∀ s, m s = .oof ∨ m' s = m s

theorem Ext.refl {α : Type} (m : P α) : Ext m m := fun _ => .inr rfl

theorem Ext.bind {α β : Type} {m m' : P α} {f f' : α → P β} (hm : Ext m m') (hf : ∀ a, Ext (f a) (f' a)) :
    Ext (m >>= f) (m' >>= f') := by
  intro s
  simp only [Bind.bind, P.bind]
  rcases hm s with h | h
  · left; rw [h]
  · rw [h]
    cases m s with
    | ok a s' => exact hf a s'
    | _ => right; rfl

theorem Ext.oof {α : Type} (m : P α) : Ext oofP m := fun _ => .inl rfl

theorem Ext.bound {α : Type} {f f' : Nat → P α} (h : ∀ n, Ext (f n) (f' n)) :
    Ext (withBound f) (withBound f') := fun s => h _ s

theorem Ext.ite {α : Type} {c : Prop} [Decidable c] {m m' n n' : P α} (h1 : Ext m m') (h2 : Ext n n') :
    Ext (if c then m else n) (if c then m' else n') := by
  by_cases h : c
  · simpa [h] using h1
  · simpa [h] using h2

/-- `pv'` extends `pv`. -/
@[reducible] def PvExt (pv pv' : PV) : Prop := ∀ a b c d e f, Ext (pv a b c d e f) (pv' a b c d e f)

/-- Structural steps. -/
syntax "ext_steps" : tactic
macro_rules
  | `(tactic| ext_steps) => `(tactic| repeat' (first
      | with_reducible exact Ext.refl _
      | exact Ext.oof _
      | assumption
      | (apply_assumption)
      | (refine Ext.bind ?_ (fun _ => ?_))
      | (refine Ext.ite ?_ ?_)
      | (refine Ext.bound (fun _ => ?_))
      | split))

section
variable {pv pv' : PV}

theorem opLoop_ext (h : PvExt pv pv') (ps d b) : ∀ n vals ops,
    Ext (opLoop pv ps d b n vals ops) (opLoop pv' ps d b n vals ops) := by
  intro n
  induction n with
  | zero => intro _ _; exact Ext.oof _
  | succ n ih => intro vals ops; unfold opLoop; ext_steps

theorem parseOps_ext (h : PvExt pv pv') (ps d b v l c) :
    Ext (parseOps pv ps d b v l c) (parseOps pv' ps d b v l c) := by
  have := opLoop_ext h
  unfold parseOps; ext_steps

theorem parseUnary_ext (h : PvExt pv pv') (ps d b op) :
    Ext (parseUnary pv ps d b op) (parseUnary pv' ps d b op) := by
  unfold parseUnary; ext_steps

variable [Unicode]

theorem parseVariable_ext (h : PvExt pv pv') : ∀ n ps l c d b,
    Ext (parseVariable pv n ps l c d b) (parseVariable pv' n ps l c d b) := by
  intro n
  induction n with
  | zero => intro _ _ _ _ _; exact Ext.oof _
  | succ n ih =>
    intro ps l c d b
    unfold parseVariable
    refine Ext.bind (Ext.refl _) ?_
    rintro ⟨x, g, dt⟩
    refine Ext.bind (Ext.refl _) fun v => ?_
    cases dt with
    | none => exact Ext.refl _
    | dot | dotGlobal =>
      cases v with
      | arr _ _ _ => exact Ext.bind (Ext.refl _) fun _ => Ext.bind (h _ _ _ _ _ _) fun _ => Ext.refl _
      | tup _ _ _ => exact Ext.bind (Ext.refl _) fun _ => Ext.bind (h _ _ _ _ _ _) fun _ => Ext.refl _
      | obj o => exact Ext.bind (Ext.refl _) fun _ => Ext.ite (Ext.refl _) (ih _ _ _ _ _)
      | _ => exact Ext.refl _

theorem parseFieldValuePair_ext (h : PvExt pv pv') (ps par d b) :
    Ext (parseFieldValuePair pv ps par d b) (parseFieldValuePair pv' ps par d b) := by
  unfold parseFieldValuePair; ext_steps

theorem fieldsLoop_ext (h : PvExt pv pv') (d b) : ∀ n ps par,
    Ext (fieldsLoop pv d b n ps par) (fieldsLoop pv' d b n ps par) := by
  have := parseFieldValuePair_ext h
  intro n
  induction n with
  | zero => intro _ _; exact Ext.oof _
  | succ n ih => intro ps par; unfold fieldsLoop; ext_steps

theorem parseObjStream_ext (h : PvExt pv pv') : Ext (parseObjStream pv) (parseObjStream pv') := by
  have := fieldsLoop_ext h
  unfold parseObjStream; ext_steps

theorem parseObj_ext (h : PvExt pv pv') (d) : Ext (parseObj pv d) (parseObj pv' d) := by
  have := fieldsLoop_ext h
  unfold parseObj; ext_steps

theorem arrLoop_ext (h : PvExt pv pv') (ps d) : ∀ n v t f,
    Ext (arrLoop pv ps d n v t f) (arrLoop pv' ps d n v t f) := by
  intro n
  induction n with
  | zero => intro _ _ _; exact Ext.oof _
  | succ n ih => intro v t f; unfold arrLoop; ext_steps

theorem parseArr_ext (h : PvExt pv pv') (ps d) : Ext (parseArr pv ps d) (parseArr pv' ps d) := by
  have := arrLoop_ext h
  unfold parseArr; ext_steps

theorem tupLoop_ext (h : PvExt pv pv') (ps d) : ∀ n v,
    Ext (tupLoop pv ps d n v) (tupLoop pv' ps d n v) := by
  intro n
  induction n with
  | zero => intro _; exact Ext.oof _
  | succ n ih => intro v; unfold tupLoop; ext_steps

theorem parseTup_ext (h : PvExt pv pv') (ps d) : Ext (parseTup pv ps d) (parseTup pv' ps d) := by
  have := tupLoop_ext h
  unfold parseTup; ext_steps

theorem arrFileLoop_ext (h : PvExt pv pv') : ∀ n v t f,
    Ext (arrFileLoop pv n v t f) (arrFileLoop pv' n v t f) := by
  intro n
  induction n with
  | zero => intro _ _ _; exact Ext.oof _
  | succ n ih => intro v t f; unfold arrFileLoop; ext_steps

theorem tupFileLoop_ext (h : PvExt pv pv') : ∀ n v,
    Ext (tupFileLoop pv n v) (tupFileLoop pv' n v) := by
  intro n
  induction n with
  | zero => intro _; exact Ext.oof _
  | succ n ih => intro v; unfold tupFileLoop; ext_steps

theorem parseFileBody_ext (h : PvExt pv pv') (k) : Ext (parseFileBody pv k) (parseFileBody pv' k) := by
  have := parseObjStream_ext h
  have := arrFileLoop_ext h
  have := tupFileLoop_ext h
  cases k <;> unfold parseFileBody <;> ext_steps

omit [Unicode] in
theorem inFile_ext {m m' : P Value} (h : Ext m m') (p t) : Ext (inFile p t m) (inFile p t m') := by
  intro s
  simp only [inFile]
  rcases h { s with stream := Stream.ofString (some p) t, globals := [] } with h | h
  · left; rw [h]
  · right; rw [h]

theorem loadFile_ext (h : PvExt pv pv') (fs k p) : Ext (loadFile fs pv k p) (loadFile fs pv' k p) := by
  have h1 := parseFileBody_ext h
  unfold loadFile
  cases fs.read p with
  | error _ => exact Ext.refl _
  | ok t => exact Ext.ite (Ext.refl _) (inFile_ext (h1 k) p t)

theorem loadCached_ext (h : PvExt pv pv') (fs k p f) :
    Ext (loadCached fs pv k p f) (loadCached fs pv' k p f) := by
  have h1 := loadFile_ext h fs k p
  intro s
  simp only [loadCached]
  cases StrMap.get s.inc.cache f with
  | some v => exact .inr rfl
  | none =>
    simp only
    rcases h1 s with h | h
    · left; rw [h]
    · right; rw [h]

theorem includeFileP_ext (h : PvExt pv pv') (fs k p l c) :
    Ext (includeFileP fs pv k p l c) (includeFileP fs pv' k p l c) := by
  have := loadCached_ext h
  unfold includeFileP; ext_steps

omit [Unicode] in
theorem includePath_ext (h : PvExt pv pv') (ps d k v p) :
    Ext (includePath pv ps d k v p) (includePath pv' ps d k v p) := by
  unfold includePath; ext_steps

theorem parseInclude_ext (h : PvExt pv pv') (fs ps d) :
    Ext (parseInclude fs pv ps d) (parseInclude fs pv' ps d) := by
  have := includeFileP_ext h
  have := includePath_ext h
  unfold parseInclude; ext_steps

theorem parseTerm_ext (h : PvExt pv pv') (fs ps l c d b) :
    Ext (parseTerm fs pv ps l c d b) (parseTerm fs pv' ps l c d b) := by
  have := parseInclude_ext h
  have := parseObj_ext h
  have := parseArr_ext h
  have := parseTup_ext h
  have := parseUnary_ext h
  have := parseVariable_ext h
  unfold parseTerm; ext_steps

theorem parseValueBody_ext (h : PvExt pv pv') (fs) :
    PvExt (parseValueBody fs pv) (parseValueBody fs pv') := by
  have := parseTerm_ext h
  have := parseOps_ext h
  intro a b c d e f
  unfold parseValueBody; ext_steps

end

theorem parseValue_ext [Unicode] (fs : FS) : ∀ n k, PvExt (parseValue fs n) (parseValue fs (n + k))
  | 0, _ => fun _ _ _ _ _ _ => Ext.oof _
  | n + 1, k => by
    rw [show n + 1 + k = n + k + 1 by omega]
    exact parseValueBody_ext (parseValue_ext fs n k) fs

end Over
