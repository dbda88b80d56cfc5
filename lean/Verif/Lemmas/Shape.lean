import Verif.Spec.Shape
import Verif.Spec.Eval
import Verif.Lemmas.Write

/-! # What is written literally is what is read -/

namespace Over

/-- Whatever the state, a successful evaluation gives a value with `Q`. -/
def eok {α : Type} (m : EM α) (Q : α → Prop) : Prop := ∀ st a st', m st = .ok (a, st') → Q a

section
variable {α β : Type}

theorem eok_bind {m : EM α} {f : α → EM β} {P : α → Prop} {Q : β → Prop} (hm : eok m P) (hf : ∀ a, P a → eok (f a) Q) :
    eok (m >>= f) Q := by
  intro st b st' h
  change EM.bind m f st = _ at h
  unfold EM.bind at h
  cases hms : m st with
  | error e => rw [hms] at h; cases h
  | ok x =>
    obtain ⟨a, st1⟩ := x
    rw [hms] at h
    exact hf a (hm st a st1 hms) st1 b st' h

theorem eok_pure {a : α} {Q : α → Prop} (h : Q a) : eok (pure a) Q := by
  intro st b st' hb
  cases hb
  exact h

theorem eok_fail {file : Option Str} {k : SemKind} {Q : α → Prop} : eok (EM.fail file k : EM α) Q := by
  intro st b st' hb
  cases hb

theorem eok_true {m : EM α} : eok m (fun _ => True) := fun _ _ _ _ => trivial

theorem eok_mono {m : EM α} {P Q : α → Prop} (h : eok m P) (h' : ∀ a, P a → Q a) : eok m Q :=
  fun st a st' e => h' a (h st a st' e)

end

section
variable {fs : FS} {file : Option Str} {stack : List Str} {load : Loader}

mutual
theorem evalTerm_shows : ∀ (t : Term) (ps : List Pair) (d : Nat), eok (evalTerm fs file stack load t ps d) t.shows
  | .str s, ps, d => by simp only [evalTerm, Term.shows]; exact eok_pure rfl
  | .int s, ps, d => by simp only [evalTerm, Term.shows]; exact eok_pure rfl
  | .frac s, ps, d => by simp only [evalTerm, Term.shows]; exact eok_pure rfl
  | .name x, ps, d => fun _ _ _ _ => by simp only [Term.shows]
  | .dot x t, ps, d => fun _ _ _ _ => by simp only [Term.shows]
  | .neg t, ps, d => fun _ _ _ _ => by simp only [Term.shows]
  | .pos t, ps, d => fun _ _ _ _ => by simp only [Term.shows]
  | .incl e, ps, d => fun _ _ _ _ => by simp only [Term.shows]
  | .inclAs k e, ps, d => fun _ _ _ _ => by simp only [Term.shows]
  | .arr es, ps, d => by
    simp only [evalTerm]
    refine eok_bind eok_true fun _ _ => eok_bind (evalElems_shows es ps (d + 1) .any) ?_
    rintro ⟨vs, t⟩ h
    refine eok_bind eok_true fun id _ => eok_pure ?_
    simp only [Term.shows]
    exact ⟨id, t, vs, rfl, h⟩
  | .tup es, ps, d => by
    simp only [evalTerm]
    refine eok_bind eok_true fun _ _ => eok_bind (evalItems_shows es ps (d + 1)) ?_
    intro vs h
    refine eok_bind eok_true fun id _ => eok_pure ?_
    simp only [Term.shows]
    exact ⟨id, _, vs, rfl, h⟩
  | .obj fds, ps, d => by
    simp only [evalTerm]
    refine eok_bind eok_true fun _ _ => eok_bind (evalFields_shows fds (d + 1) [] none) ?_
    rintro ⟨qs, par⟩ ⟨new, h1, h2, h3, -⟩
    refine eok_bind eok_true fun id _ => eok_pure ?_
    simp only [Term.shows]
    simp only [List.nil_append] at h1
    subst h1
    exact ⟨id, _, par, rfl, h2, by simpa using h3⟩
termination_by structural t => t
theorem evalExpr_shows : ∀ (e : Expr) (ps : List Pair) (d : Nat), eok (evalExpr fs file stack load e ps d) e.shows
  | .mk t r, ps, d => by
    cases r with
    | cons o r => exact fun _ _ _ _ => by simp only [Expr.shows]
    | nil =>
      simp only [evalExpr, evalChain]
      refine eok_bind (evalTerm_shows t ps d) ?_
      intro v hv
      refine eok_bind (eok_pure (Q := fun x => x = (v, [])) rfl) ?_
      rintro _ rfl
      simp only [sumLeft]
      refine eok_pure ?_
      simp only [Expr.shows]
      exact hv
termination_by structural t => t
theorem evalElems_shows : ∀ (es : List Expr) (ps : List Pair) (d : Nat) (t : Ty),
    eok (evalElems fs file stack load es ps d t) (fun x => Expr.showsL es x.1)
  | [], ps, d, t => by simp only [evalElems, Expr.showsL]; exact eok_pure rfl
  | e :: es, ps, d, t => by
    simp only [evalElems]
    refine eok_bind (evalExpr_shows e ps d) ?_
    intro v hv
    cases Ty.mostSpecific t v.getType with
    | none => exact eok_fail
    | some x =>
      obtain ⟨u, b⟩ := x
      refine eok_bind (evalElems_shows es ps d u) ?_
      rintro ⟨vs, u'⟩ h
      refine eok_pure ?_
      simp only [Expr.showsL]
      exact ⟨v, vs, rfl, hv, h⟩
termination_by structural t => t
theorem evalItems_shows : ∀ (es : List Expr) (ps : List Pair) (d : Nat),
    eok (evalItems fs file stack load es ps d) (fun x => Expr.showsL es x)
  | [], ps, d => by simp only [evalItems, Expr.showsL]; exact eok_pure rfl
  | e :: es, ps, d => by
    simp only [evalItems]
    refine eok_bind (evalExpr_shows e ps d) ?_
    intro v hv
    refine eok_bind (evalItems_shows es ps d) ?_
    intro vs h
    refine eok_pure ?_
    simp only [Expr.showsL]
    exact ⟨v, vs, rfl, hv, h⟩
termination_by structural t => t
theorem evalFields_shows : ∀ (fds : List Field) (d : Nat) (ps : List Pair) (par : Option Obj),
    eok (evalFields fs file stack load fds d ps par) (fun x => ∃ new, x.1 = ps ++ new ∧ Field.shows fds new ∧
      x.2.isSome = (par.isSome || Field.anyParent fds) ∧ (par.isSome = true → x.2 = par))
  | [], d, ps, par => by
    simp only [evalFields, Field.shows]
    exact eok_pure ⟨[], by simp, rfl, by simp [Field.anyParent], fun _ => rfl⟩
  | .mk tg e :: fds, d, ps, par => by
    simp only [evalFields]
    have hcheck : eok (checkNew file ps par tg) (fun _ => tg = .parent → par.isSome = false) := by
      cases tg with
      | parent =>
        simp only [checkNew]
        by_cases h : par.isSome = true
        · rw [if_pos h]; exact eok_fail
        · rw [if_neg h]; exact eok_pure (fun _ => by simpa using h)
      | _ => exact fun _ _ _ _ h => by cases h
    refine eok_bind hcheck fun _ hch => eok_bind (evalExpr_shows e ps d) ?_
    intro v hv
    cases tg with
    | field f =>
      refine eok_mono (evalFields_shows fds d (ps ++ [.mk f v]) par) ?_
      rintro ⟨qs, par'⟩ ⟨new, h1, h2, h3, h4⟩
      refine ⟨.mk f v :: new, by simpa using h1, ?_, by simpa [Field.anyParent] using h3, h4⟩
      simp only [Field.shows]
      exact ⟨v, new, rfl, hv, h2⟩
    | global g =>
      refine eok_bind eok_true fun _ _ => eok_mono (evalFields_shows fds d ps par) ?_
      rintro ⟨qs, par'⟩ ⟨new, h1, h2, h3, h4⟩
      refine ⟨new, h1, ?_, by simpa [Field.anyParent] using h3, h4⟩
      simp only [Field.shows]
      exact h2
    | parent =>
      cases v with
      | obj o =>
        refine eok_mono (evalFields_shows fds d ps (some o)) ?_
        rintro ⟨qs, par'⟩ ⟨new, h1, h2, h3, h4⟩
        refine ⟨new, h1, ?_, by simpa [Field.anyParent] using h3, ?_⟩
        · simp only [Field.shows]
          exact h2
        · intro h
          rw [hch rfl] at h
          cases h
      | _ => exact eok_fail
termination_by structural t => t
end

end

/-! ## Writing -/

theorem ast_showsL {vs : List Value} (ih : ∀ v ∈ vs, v.ast.shows v) : Expr.showsL (Value.astL vs) vs := by
  induction vs with
  | nil => simp [Value.astL, Expr.showsL]
  | cons v vs IH =>
    simp only [Value.astL, Expr.showsL]
    exact ⟨v, vs, rfl, ih v (by simp), IH (fun w hw => ih w (by simp [hw]))⟩

theorem ast_showsP {ps : List Pair} (ih : ∀ p ∈ ps, (Pair.value p).ast.shows (Pair.value p)) :
    Field.shows (Pair.astL ps) ps ∧ Field.anyParent (Pair.astL ps) = false := by
  induction ps with
  | nil => simp [Pair.astL, Field.shows, Field.anyParent]
  | cons p ps IH =>
    obtain ⟨f, v⟩ := p
    obtain ⟨h1, h2⟩ := IH (fun w hw => ih w (by simp [hw]))
    refine ⟨?_, by simpa [Pair.astL, Field.anyParent] using h2⟩
    simp only [Pair.astL, Field.shows]
    exact ⟨v, ps, rfl, ih (.mk f v) (by simp), h1⟩

/-- The tree whose text is written for a value shows the value. -/
theorem ast_shows : (∀ v : Value, v.ast.shows v) ∧
    ∀ o : Obj, Field.shows o.ast o.pairs ∧ o.parent.isSome = Field.anyParent o.ast := by
  apply Value.ind (mv := fun v => v.ast.shows v)
    (mo := fun o => Field.shows o.ast o.pairs ∧ o.parent.isSome = Field.anyParent o.ast)
  · simp [Value.ast, Expr.shows, Term.shows]
  · intro b; simp [Value.ast, Expr.shows, Term.shows]
  · intro i
    cases i <;> simp [Value.ast, Expr.shows, Term.shows, intTerm]
  · intro q
    simp only [Value.ast, ratExpr]
    split
    · rename_i h
      have hq : q = (q.num : Rat) := by
        exact ((Rat.den_eq_one_iff q).1 h).symm
      cases hn : q.num with
      | ofNat n =>
        simp only [wholeTerm, Expr.shows, Term.shows]
        rw [hq, hn]
        simp
      | negSucc n => simp [wholeTerm, Expr.shows, Term.shows]
    · simp [Expr.shows]
  · intro s; simp [Value.ast, Expr.shows, Term.shows]
  · intro id t vs ih
    simp only [Value.ast, Expr.shows, Term.shows]
    exact ⟨id, t, vs, rfl, ast_showsL ih⟩
  · intro id t vs ih
    simp only [Value.ast, Expr.shows, Term.shows]
    exact ⟨id, t, vs, rfl, ast_showsL ih⟩
  · rintro ⟨id, ps, par⟩ ⟨h1, h2⟩
    simp only [Value.ast, Expr.shows, Term.shows]
    exact ⟨id, ps, par, rfl, h1, h2⟩
  · intro id ps par h1 h2
    obtain ⟨h3, h4⟩ := ast_showsP h1
    cases par with
    | none => simpa [Obj.ast, Obj.astP, Obj.pairs, Obj.parent] using ⟨h3, h4⟩
    | some q =>
      simp only [Obj.ast, Obj.astP, Obj.pairs, Obj.parent, List.cons_append, List.nil_append]
      refine ⟨?_, by simp [Field.anyParent]⟩
      simp only [Field.shows]
      exact h3

end Over
