import Verif.Props.Fold
import Verif.Spec.Shown
import Verif.Props.Display
import Verif.Props.ReorderDeep

/-!
# C90: a closed part can be replaced by what is displayed for its value

`FoldDoc` and `SameAlone` are in `Spec/Fold.lean`, `ShownAlone` in `Spec/Shown.lean`, `Value.nest` in `Spec/Nesting.lean`.
-/

set_option linter.unusedSectionVars false

namespace Over

/-- The tree of a written value is closed, mentions no kind of include, and nests as deep as the value. -/
theorem ast_literal :
    (∀ v : Value, v.ast.closed = true ∧ v.ast.namesNoKind = true ∧ v.ast.levels = v.nest) ∧
    (∀ o : Obj, Field.plainL o.ast = true ∧ Field.namesNoKindL o.ast = true ∧ Field.levelsL o.ast = o.nest) := by
  have hneg : ∀ n : Nat, ∀ t : Term, t.levels = 0 → (Term.neg t).levels = 0 := fun _ t h => by simp [Term.levels, signLevels, h]
  have hint : ∀ i : Int, (intTerm i).plain = true ∧ (intTerm i).usesNoField = true ∧ (intTerm i).namesNoKind = true ∧ (intTerm i).levels = 0 := by
    intro i; cases i <;> simp [intTerm, Term.plain, Term.usesNoField, Term.namesNoKind, Term.levels, signLevels]
  have hwhole : ∀ i : Int, (wholeTerm i).plain = true ∧ (wholeTerm i).usesNoField = true ∧ (wholeTerm i).namesNoKind = true ∧
      (wholeTerm i).levels = 0 := by
    intro i; cases i <;> simp [wholeTerm, Term.plain, Term.usesNoField, Term.namesNoKind, Term.levels, signLevels]
  have items : ∀ vs : List Value, (∀ v ∈ vs, v.ast.closed = true ∧ v.ast.namesNoKind = true ∧ v.ast.levels = v.nest) →
      Expr.plainL (Value.astL vs) = true ∧ Expr.usesNoFieldL (Value.astL vs) = true ∧ Expr.namesNoKindL (Value.astL vs) = true ∧
        Expr.levelsL (Value.astL vs) = Value.nestL vs := by
    intro vs
    induction vs with
    | nil => intro _; simp [Value.astL, Expr.plainL, Expr.usesNoFieldL, Expr.namesNoKindL, Expr.levelsL, Value.nestL]
    | cons v vs ih =>
      intro h
      obtain ⟨h1, h2, h3⟩ := h v (by simp)
      obtain ⟨g1, g2, g3, g4⟩ := ih fun w hw => h w (by simp [hw])
      simp only [Expr.closed, Bool.and_eq_true] at h1
      simp [Value.astL, Expr.plainL, Expr.usesNoFieldL, Expr.namesNoKindL, Expr.levelsL, Value.nestL, h1, h2, h3, g1, g2, g3, g4]
  apply Value.ind (mv := fun v => v.ast.closed = true ∧ v.ast.namesNoKind = true ∧ v.ast.levels = v.nest)
    (mo := fun o => Field.plainL o.ast = true ∧ Field.namesNoKindL o.ast = true ∧ Field.levelsL o.ast = o.nest)
  · exact ⟨by decide, by decide, rfl⟩
  · intro b; cases b <;> exact ⟨by decide, by decide, rfl⟩
  · intro i
    obtain ⟨h1, h2, h3, h4⟩ := hint i
    simp [Value.ast, Expr.closed, Expr.plain, Expr.usesNoField, Expr.namesNoKind, Expr.levels, OpTerm.plainL, OpTerm.usesNoFieldL,
      OpTerm.namesNoKindL, OpTerm.levelsL, Value.nest, h1, h2, h3, h4]
  · intro q
    obtain ⟨h1, h2, h3, h4⟩ := hint q.num
    obtain ⟨g1, g2, g3, g4⟩ := hwhole q.num
    simp only [Value.ast, ratExpr]
    split <;> simp [Expr.closed, Expr.plain, Expr.usesNoField, Expr.namesNoKind, Expr.levels, OpTerm.plainL, OpTerm.usesNoFieldL,
      OpTerm.namesNoKindL, OpTerm.levelsL, Value.nest, Term.plain, Term.usesNoField, Term.namesNoKind, Term.levels, h1, h2, h3, h4, g1, g2, g3, g4]
  · intro s
    simp [Value.ast, Expr.closed, Expr.plain, Expr.usesNoField, Expr.namesNoKind, Expr.levels, OpTerm.plainL, OpTerm.usesNoFieldL,
      OpTerm.namesNoKindL, OpTerm.levelsL, Value.nest, Term.plain, Term.usesNoField, Term.namesNoKind, Term.levels]
  · intro i t vs h
    obtain ⟨g1, g2, g3, g4⟩ := items vs h
    simp [Value.ast, Expr.closed, Expr.plain, Expr.usesNoField, Expr.namesNoKind, Expr.levels, OpTerm.plainL, OpTerm.usesNoFieldL,
      OpTerm.namesNoKindL, OpTerm.levelsL, Value.nest, Term.plain, Term.usesNoField, Term.namesNoKind, Term.levels, g1, g2, g3, g4]
    omega
  · intro i t vs h
    obtain ⟨g1, g2, g3, g4⟩ := items vs h
    simp [Value.ast, Expr.closed, Expr.plain, Expr.usesNoField, Expr.namesNoKind, Expr.levels, OpTerm.plainL, OpTerm.usesNoFieldL,
      OpTerm.namesNoKindL, OpTerm.levelsL, Value.nest, Term.plain, Term.usesNoField, Term.namesNoKind, Term.levels, g1, g2, g3, g4]
    omega
  · intro o h
    obtain ⟨g1, g2, g3⟩ := h
    simp [Value.ast, Expr.closed, Expr.plain, Expr.usesNoField, Expr.namesNoKind, Expr.levels, OpTerm.plainL, OpTerm.usesNoFieldL,
      OpTerm.namesNoKindL, OpTerm.levelsL, Value.nest, Term.plain, Term.usesNoField, Term.namesNoKind, Term.levels, g1, g2, g3]
    omega
  · intro id ps par hps hpar
    have fields : Field.plainL (Pair.astL ps) = true ∧ Field.namesNoKindL (Pair.astL ps) = true ∧
        Field.levelsL (Pair.astL ps) = Pair.nestL ps := by
      induction ps with
      | nil => simp [Pair.astL, Field.plainL, Field.namesNoKindL, Field.levelsL, Pair.nestL]
      | cons p ps ih =>
        obtain ⟨f, v⟩ := p
        obtain ⟨h1, h2, h3⟩ := hps (.mk f v) (by simp)
        obtain ⟨g1, g2, g3⟩ := ih fun w hw => hps w (by simp [hw])
        simp only [Expr.closed, Bool.and_eq_true, Pair.value] at h1 h2 h3
        simp [Pair.astL, Field.plainL, Field.namesNoKindL, Field.levelsL, Pair.nestL, h1, h2, h3, g1, g2, g3]
    obtain ⟨g1, g2, g3⟩ := fields
    cases par with
    | none => simp [Obj.ast, Obj.astP, Obj.nest, Obj.nestP, g1, g2, g3]
    | some q =>
      obtain ⟨h1, h2, h3⟩ := hpar q rfl
      simp [Obj.ast, Obj.astP, Obj.nest, Obj.nestP, Field.plainL, Field.namesNoKindL, Field.levelsL, Expr.plain, Expr.namesNoKind, Expr.levels,
        OpTerm.plainL, OpTerm.namesNoKindL, OpTerm.levelsL, Term.plain, Term.namesNoKind, Term.levels, g1, g2, g3, h1, h2, h3]
      omega

section
variable [Unicode]

/-- If `e` has a value, the text `x:e` is read, and gives `x` that value. -/
theorem alone_accepts {e : Expr} {u : Str} (hu : SpExpr e u) {v : Value} {st : ESt}
    (he : evalExpr noFiles none [] (theLoader noFiles) e [] 1 ⟨[], [], startRt⟩ = .ok (v, st)) :
    ∃ o s, fromStr noFiles (c!"x:" ++ u) startRt = .ok o s ∧ o.data = .mk 0 [.mk c!"x" v.data] none := by
  have hd : SpDoc [.mk (.field c!"x") e] (c!"x:" ++ u) := spOne (.field ⟨'x', [], rfl, .inl (by simp [isAlphabetic, show isAsciiAlpha 'x' = true by decide]), by simp, by decide⟩) hu
  have hm := (reads_str noFiles).means startRt hd
  unfold meaning at hm
  rw [show loadN noFiles (noFiles.nodes.length + 1) = theLoader noFiles from rfl] at hm
  have h1 : evalFields noFiles none [] (theLoader noFiles) [.mk (.field c!"x") e] 1 [] none ⟨[], [], startRt⟩ =
      .ok (([.mk c!"x" v], none), st) := by
    rw [evalFields_one, if_neg (by simp), he]
    rfl
  unfold evalDoc at hm
  rw [EM.bind_ok h1] at hm
  cases hr : fromStr noFiles (c!"x:" ++ u) startRt with
  | ok o s =>
    rw [hr] at hm
    refine ⟨o, s, rfl, ?_⟩
    obtain ⟨rfl, -⟩ := hm
    simp [Obj.data, Obj.dataP, Pair.dataL]
  | _ => rw [hr] at hm; exact hm.elim

/-- C90, the single replacement: what is displayed for the value that a closed expression has on its own is a closed expression with the same
value (if it does not nest too deeply to be read), to which C89 applies. -/
theorem c90_shown_same (e : Expr) (u : Str) (hu : SpExpr e u) (hc : e.closed = true) (hk : e.namesNoKind = true) (o : Obj) (s : PState)
    (h : fromStr noFiles (c!"x:" ++ u) startRt = .ok o s) (v : Value) (hv : o.get c!"x" = some v) (hn : v.nest ≤ 63) (text : Str)
    (ht : v.display = some text) : ∃ e', SpExpr e' text ∧ SameAlone e e' ∧ e'.levels = v.nest := by
  have hto := (reads_str noFiles).typed h
  obtain ⟨w, st, he, hd⟩ := alone_eval hu h
  obtain ⟨id, ps, par⟩ := o
  have hvw : v.data = w.data ∧ NamesOk v := by
    have hnm := namesOk_str h
    cases hnm with
    | mk n1 n2 n3 n4 =>
      simp only [Obj.data, Obj.mk.injEq] at hd
      obtain ⟨-, h1, -⟩ := hd
      match ps, h1 with
      | .mk _ _ :: .mk _ _ :: _, h1 => simp [Pair.dataL] at h1
      | [.mk f v'], h1 =>
        simp only [Pair.dataL, List.cons.injEq, Pair.mk.injEq, and_true] at h1
        obtain ⟨rfl, h1⟩ := h1
        simp only [Obj.get, findPair, List.find?_cons, Pair.field, beq_self_eq_true, Option.some.injEq] at hv
        cases hv
        exact ⟨h1, n3 (.mk c!"x" v') (by simp)⟩
  obtain ⟨hvw, hnm⟩ := hvw
  have hw := get_typed _ hto _ _ hv
  obtain ⟨l1, l2, l3⟩ := ast_literal.1 v
  obtain ⟨v', k, he', hv'⟩ := (redo_value noFiles v hw hnm [] 1 ⟨[], [], startRt⟩ (by omega)).1 (by omega)
  have hs := format_spells.1 v hnm _ text ht
  obtain ⟨o', s', h2, h3⟩ := alone_accepts hs he'
  exact ⟨v.ast, hs, ⟨hc, l1, hk, l2, u, text, _, s, o', s', hu, hs, h, h2,
    (c09_obj_eq_iff _ o' hto ((reads_str noFiles).typed h2)).2 (by rw [hd, h3, hv', hvw])⟩, l3⟩

theorem ShownAlone.same {e e' : Expr} (h : ShownAlone e e') : SameAlone e e' ∧ ∃ v : Value, e'.levels = v.nest := by
  obtain ⟨hc, hk, u, o, s, v, text, hu, hr, hv, hn, ht, he'⟩ := h
  obtain ⟨e2, h1, h2, h3⟩ := c90_shown_same e u hu hc hk o s hr v hv hn text ht
  have hx : FieldName c!"x" := ⟨'x', [], rfl, .inl (by simp [isAlphabetic, show isAsciiAlpha 'x' = true by decide]), by simp, by decide⟩
  have h4 := c49_one_document _ _ _ (spOne (.field hx) h1) (spOne (.field hx) he')
  simp only [List.cons.injEq, Field.mk.injEq, and_true, true_and] at h4
  subst h4
  exact ⟨h2, v, h3⟩

section
variable {P Q : Expr → Expr → Prop} (h : ∀ e e', P e e' → Q e e')
include h

omit [Unicode] in
mutual
theorem FoldTerm.mono {t t' : Term} : FoldTerm P t t' → FoldTerm Q t t'
  | .same _ => .same _
  | .swap a => .swap (h _ _ a)
  | .neg a => .neg a.mono
  | .pos a => .pos a.mono
  | .arr a => .arr a.mono
  | .tup a => .tup a.mono
  | .obj a => .obj a.mono
  | .incl a => .incl a.mono
  | .inclAs a b => .inclAs a.mono b.mono
theorem FoldExpr.mono {t t' : Expr} : FoldExpr P t t' → FoldExpr Q t t'
  | .mk a b => .mk a.mono b.mono
  | .swap a => .swap (h _ _ a)
theorem FoldOps.mono {t t' : List OpTerm} : FoldOps P t t' → FoldOps Q t t'
  | .nil => .nil
  | .cons a b => .cons a.mono b.mono
theorem FoldItems.mono {t t' : List Expr} : FoldItems P t t' → FoldItems Q t t'
  | .nil => .nil
  | .cons a b => .cons a.mono b.mono
theorem FoldFields.mono {t t' : List Field} : FoldFields P t t' → FoldFields Q t t'
  | .nil => .nil
  | .cons a b => .cons a.mono b.mono
end
end

/-- C90: replace closed parts of a document by what is displayed for their values, as many and wherever they are.  If neither document nests
too deeply, both texts are accepted, with equal objects, or both are rejected with errors that report the same thing. -/
theorem c90_from_str (fs : FS) (rt rt' : Rt) (h : rt.Fine) (h' : rt'.Fine) (d d' : List Field) (text text' : Str) (hd : SpDoc d text)
    (hd' : SpDoc d' text') (hi : FoldFields ShownAlone d d') (hl : Field.levelsL d ≤ 63) (hl' : Field.levelsL d' ≤ 63) :
    EndAlike (fromStr fs text rt) (fromStr fs text' rt') :=
  c89_from_str fs rt rt' h h' d d' text text' hd hd' (hi.mono fun _ _ h => h.same.1) hl hl'

/-- C90: the same for a file whose text is changed so. -/
theorem c90_from_file (fs fs' : FS) (path full text text' : Str) (hp : fs.resolve path = some full) (hu : fs.utf8 full = true)
    (hr : fs.read path = .ok text) (he : fs.Edited path text' fs') (rt rt' : Rt) (h : rt.Fine) (h' : rt'.Fine) (d d' : List Field)
    (hd : SpDoc d text) (hd' : SpDoc d' text') (hi : FoldFields ShownAlone d d') (hl : Field.levelsL d ≤ 63)
    (hl' : Field.levelsL d' ≤ 63) : EndAlike (fromFile fs path rt) (fromFile fs' path rt') :=
  c89_from_file fs fs' path full text text' hp hu hr he rt rt' h h' d d' hd hd' (hi.mono fun _ _ h => h.same.1) hl hl'

/-- C90, one definition in terms of texts: where an accepted text gives a field or a global the closed text `e`, which on its own is read as
`v`, it can be given what is displayed for `v`, and the object read is equal. -/
theorem c90_one_definition (fs : FS) (rt rt' : Rt) (h : rt.Fine) (h' : rt'.Fine) (u y e rest : Str) (tg : Target) (ex : Expr)
    (hu : WellFormed u) (hrest : WellFormed rest) (hy : SpTarget tg y) (he : SpExpr ex e) (hc : ex.closed = true)
    (hk : ex.namesNoKind = true) (ov : Obj) (sv : PState) (hx : fromStr noFiles (c!"x:" ++ e) startRt = .ok ov sv) (v : Value)
    (hv : ov.get c!"x" = some v) (hn : v.nest ≤ 63) (shown : Str) (hs : v.display = some shown) (o : Obj) (s : PState)
    (hr : fromStr fs (u ++ c!"\n" ++ y ++ c!":" ++ e ++ c!"\n" ++ rest) rt = .ok o s) :
    ∃ o' s', fromStr fs (u ++ c!"\n" ++ y ++ c!":" ++ shown ++ c!"\n" ++ rest) rt' = .ok o' s' ∧ o.eq o' = true := by
  obtain ⟨e', h1, h2, h3⟩ := c90_shown_same ex e he hc hk ov sv hx v hv hn shown hs
  exact c89_one_definition fs rt rt' h h' u y e shown rest tg ex e' hu hrest hy he h1 h2 (by omega) o s hr

end

/-! ## Examples -/

section
attribute [local instance] sampleUnicode

/-- For `[1]+[2]` on its own, the array of 1 and 2 is displayed (over four lines). -/
theorem sampleSum_shown : ∃ o s v text, fromStr noFiles (c!"x:" ++ c!"[1]+[2]") startRt = .ok o s ∧ o.get c!"x" = some v ∧ v.nest ≤ 63 ∧
    v.display = some text ∧ text = c!"[\n    1\n    2\n]" := by
  have key : (match fromStr noFiles (c!"x:" ++ c!"[1]+[2]") startRt with
    | .ok o _ => (match o.get c!"x" with
      | some v => decide (v.nest ≤ 63) && decide (v.display = some c!"[\n    1\n    2\n]")
      | none => false)
    | _ => false) = true := by decide +kernel
  split at key
  · rename_i o s h
    split at key
    · rename_i v hv
      simp only [Bool.and_eq_true, decide_eq_true_eq] at key
      exact ⟨o, s, v, _, h, hv, key.1, key.2, rfl⟩
    · cases key
  · cases key

/-- One definition, in an accepted text; the array is used further on. -/
example : ∃ o' s', fromStr noFiles c!"x:3\na:[\n    1\n    2\n]\ny:a" startRt = .ok o' s' := by
  have key : (fromStr noFiles c!"x:3\na:[1]+[2]\ny:a" startRt).written ≠ none := by decide +kernel
  obtain ⟨ov, sv, v, text, h1, h2, h3, h4, rfl⟩ := sampleSum_shown
  cases hr : fromStr noFiles c!"x:3\na:[1]+[2]\ny:a" startRt with
  | ok o s =>
    obtain ⟨o', s', h, -⟩ := c90_one_definition noFiles startRt startRt startRt_fine startRt_fine c!"x:3" c!"a" c!"[1]+[2]" c!"y:a"
      (.field c!"a") sampleSum ⟨_, spOne (.field (sampleFieldName 'x' (by decide))) sampleThree_sp⟩
      ⟨_, spOne (.field (sampleFieldName 'y' (by decide))) (by simpa using SpExpr.mk (sampleVar 'a' (by decide)) .nil)⟩
      (.field (sampleFieldName 'a' (by decide))) sampleSum_sp (by decide) (by decide) ov sv h1 v h2 h3 _ h4 o s hr
    exact ⟨o', s', h⟩
  | _ => rw [hr] at key; exact absurd rfl key

end

end Over
