import Verif.Lemmas.Shape
import Verif.Lemmas.Place
import Verif.Props.Writing
import Verif.Spec.Concrete

/-!
# C48: field order

`Field.shows` is in `Spec/Shape.lean`.
-/

namespace Over

section
variable [Unicode]

/-- C48: the object read from the text of the definitions `d` has exactly the regular fields defined in `d`, in this
order, down to every depth; and it has a parent exactly if one is defined. -/
theorem c48_read_in_order (fs : FS) (rt : Rt) (text : Str) (o : Obj) (s : PState) (h : fromStr fs text rt = .ok o s)
    (d : List Field) (hd : SpDoc d text) :
    Field.shows d o.pairs ∧ o.parent.isSome = Field.anyParent d := by
  obtain ⟨d', st, h1, h2, -⟩ := c45_from_str_accepts fs text rt o s h
  cases c49_one_document _ _ _ hd h1
  have : eok (evalDoc fs none [] (theLoader fs) d)
      (fun o => Field.shows d o.pairs ∧ o.parent.isSome = Field.anyParent d) := by
    unfold evalDoc
    refine eok_bind (evalFields_shows d 1 [] none) ?_
    rintro ⟨ps, par⟩ ⟨new, h1, h2, h3, -⟩
    refine eok_bind eok_true fun id _ => eok_pure ?_
    simp only [List.nil_append] at h1
    subst h1
    exact ⟨h2, by simpa [Obj.parent] using h3⟩
  exact this _ _ _ h2

/-- C48: the same for `from_file`. -/
theorem c48_read_file_in_order (fs : FS) (rt : Rt) (path full : Str) (hp : fs.resolve path = some full)
    (o : Obj) (s : PState) (h : fromFile fs path rt = .ok o s) (text : Str)
    (ht : fs.read path = .ok text) (d : List Field) (hd : SpDoc d text) :
    Field.shows d o.pairs ∧ o.parent.isSome = Field.anyParent d := by
  obtain ⟨text', d', st, h0, h1, h2, -⟩ := c45_from_file_accepts fs path full rt o s hp h
  rw [ht] at h0
  cases h0
  cases c49_one_document _ _ _ hd h1
  have : eok (evalDoc fs (some path) [full] (theLoader fs) d)
      (fun o => Field.shows d o.pairs ∧ o.parent.isSome = Field.anyParent d) := by
    unfold evalDoc
    refine eok_bind (evalFields_shows d 1 [] none) ?_
    rintro ⟨ps, par⟩ ⟨new, h1, h2, h3, -⟩
    refine eok_bind eok_true fun id _ => eok_pure ?_
    simp only [List.nil_append] at h1
    subst h1
    exact ⟨h2, by simpa [Obj.parent] using h3⟩
  exact this _ _ _ h2

/-- C48: writing emits the fields in order, down to every depth: the written text is the text of definitions that the
object shows. -/
theorem c48_written_in_order (o : Obj) (hn : NamesOkObj o) (text : Str) (ht : o.writeToString = some text) :
    ∃ d, SpDoc d text ∧ Field.shows d o.pairs ∧ o.parent.isSome = Field.anyParent d :=
  ⟨o.ast, (format_spells.2 o hn).2 0 text ht, ast_shows.2 o⟩

/-- C48: at every place, further definitions add their fields behind those that are already there and leave those (and
the parent, C34) as they are. -/
theorem c48_further_definitions (fs : FS) (rt : Rt) (A : List (Str × Str)) (u : Str) (p : Obj) (h : ReadsAt fs rt A u p)
    (t : Str) (d : List Field) (hd : SpDoc d t) (p' : Obj) (h' : ReadsAt fs rt A (u ++ c!"\n" ++ t) p') :
    ∃ new, p'.pairs = p.pairs ++ new ∧ Field.shows d new ∧ (p.parent.isSome = true → p'.parent = p.parent) := by
  obtain ⟨st, -, hc⟩ := at_place h
  obtain ⟨h1, h2⟩ := hc d t hd
  have e1 : u ++ '\n' :: t = u ++ c!"\n" ++ t := by simp
  rw [e1] at h1 h2
  obtain ⟨-, -, o, s, h3, h4⟩ := h'
  cases hev : evalFields fs none [] (theLoader fs) d (1 + A.length) p.pairs p.parent st with
  | error e =>
    have := h1 e hev
    rw [h3] at this
    exact this.elim
  | ok x =>
    obtain ⟨⟨ps', par'⟩, st'⟩ := x
    obtain ⟨-, i, -, -, o', s', h5, h6⟩ := h2 ps' par' st' hev
    rw [h3] at h5
    cases h5
    obtain ⟨e2, e3⟩ := h4.unique h6
    obtain ⟨new, h7, h8, -, h9⟩ := evalFields_shows d _ _ _ _ _ _ hev
    refine ⟨new, e2.trans h7, h8, ?_⟩
    intro hp
    rw [e3]
    exact h9 hp

end

section
attribute [local instance] sampleUnicode

/-- `b: 1 @g: 5 a: {d: [1 2] c: "x"}`: the fields are `b`, `a` in this order, and those of `a` are `d`, `c`. -/
example : ∃ s, fromStr noFiles c!"b: 1 @g: 5 a: {d: [1 2] c: \"x\"}" startRt =
      .ok (.mk 2 [.mk c!"b" (.int 1), .mk c!"a" (.obj (.mk 1 [.mk c!"d" (.arr 0 .int [.int 1, .int 2]),
        .mk c!"c" (.str c!"x")] none))] none) s := Res.gives_ok (by decide +kernel)

/-- What `Field.shows` says about these definitions. -/
example (ps : List Pair) (h : Field.shows [.mk (.field c!"b") (.mk (.int 1) []), .mk (.global c!"@g") (.mk (.int 5) []),
    .mk (.field c!"a") (.mk (.obj [.mk (.field c!"d") (.mk (.arr [.mk (.int 1) [], .mk (.int 2) []]) []),
      .mk (.field c!"c") (.mk (.str c!"x") [])]) [])] ps) :
    ∃ i j t par, ps = [.mk c!"b" (.int 1), .mk c!"a" (.obj (.mk i [.mk c!"d" (.arr j t [.int 1, .int 2]),
      .mk c!"c" (.str c!"x")] par))] := by
  simp only [Field.shows, Expr.shows, Term.shows, Expr.showsL] at h
  grind

end

end Over
