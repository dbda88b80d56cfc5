import Verif.Lemmas.Drop
import Verif.Lemmas.Continue
import Verif.Lemmas.Reads
import Verif.Props.Depth
import Verif.Props.Repeat
import Verif.Props.RenameNames

/-! # Names can be replaced by their definitions (C65), unused definitions can be left out (C66)

`InlDoc` (which documents come from which by replacing) and `Field.avoidsL` are in `Spec/Inline.lean`, `Field.levelsL` in `Spec/Depth.lean`. -/

namespace Over

/-- A process in which all four keyword objects exist. -/
def warmRt : Rt := { startRt with curId := 4, objS := some 0, strS := some 1, arrS := some 2, tupS := some 3 }

/-- Their ids. -/
def warmIds : IncKind → Nat
  | .obj => 0
  | .str => 1
  | .arr => 2
  | .tup => 3

theorem warmRt_warm : Warm warmIds warmRt := by
  have kw : ∀ k, warmRt.toShared.keyword k = some (warmIds k) := by intro k; cases k <;> rfl
  refine ⟨?_, kw⟩
  intro k i h
  have h := (kw k).symm.trans h
  cases h
  refine ⟨by cases k <;> decide, fun k' h' => ?_⟩
  have h' := (kw k').symm.trans h'
  cases k <;> cases k' <;> first | rfl | (simp [warmIds] at h')

section
variable [Unicode]

/-- Two readings that end alike: the objects are equal, are written and displayed alike; or the errors report the same. -/
def EndAlike (x y : Res Obj) : Prop :=
  (∃ o s o' s', x = .ok o s ∧ y = .ok o' s' ∧ o.eq o' = true ∧ o.writeToString = o'.writeToString ∧ o.display = o'.display) ∨
  (∃ e e' : ParseError, ∃ se : SemErr, x = .err e ∧ y = .err e' ∧ se.Reported e ∧ se.Reported e')

omit [Unicode] in
/-- What two readings of one text have in common. -/
theorem SameUpToIds.carry {x y : Res Obj} (h : SameUpToIds x y) :
    (∀ o s, y = .ok o s → ∃ o' s', x = .ok o' s' ∧ o'.data = o.data) ∧ ∀ e, y = .err e → x = .err e := by
  constructor
  · rintro o s rfl
    cases x with
    | ok o' s' =>
      obtain ⟨f, rfl, -, -⟩ := h
      exact ⟨o', s', rfl, (Obj.mapIds_data _ _).symm⟩
    | err e => exact h.elim
    | panic => exact h.elim
    | oof => exact h.elim
  · rintro e rfl
    cases x with
    | ok o' s' => exact h.elim
    | err e' => exact congrArg Res.err h
    | panic => exact h.elim
    | oof => exact h.elim

/-- The outcomes of both readings, from the meanings of both documents in a process with all keyword objects. -/
theorem endAlike_of {fs : FS} {file : Option Str} {stack : List Str} {d d' : List Field} {U : Str → Prop} (hi : InlDoc U [] [] d d')
    {x y xw yw : Res Obj} (hx : SameUpToIds x xw) (hy : SameUpToIds y yw) (hm : SameOutcome xw (meaning fs file stack d warmRt))
    (hm' : SameOutcome yw (meaning fs file stack d' warmRt)) (hwx : ∀ o s, x = .ok o s → WellTypedObj o)
    (hwy : ∀ o s, y = .ok o s → WellTypedObj o) :
    EndAlike x y ∨ (meaning fs file stack d' warmRt = .error (.sem file .maxDepth) ∧
      ∃ e, y = .err e ∧ (SemErr.sem file .maxDepth).Reported e) := by
  rcases meaning_inl (fs := fs) (file := file) (stack := stack) hi warmRt_warm warmRt_warm with ⟨f, rfl, h1⟩ | ⟨se, h1, h2⟩ | ⟨o, o', st, st', h1, h2, h3⟩
  · refine .inr ⟨h1, ?_⟩
    rw [h1] at hm'
    obtain ⟨e, rfl, he⟩ := hm'.of_error
    exact ⟨e, hy.carry.2 _ rfl, he⟩
  · rw [h1] at hm
    rw [h2] at hm'
    obtain ⟨e, rfl, he⟩ := hm.of_error
    obtain ⟨e', rfl, he'⟩ := hm'.of_error
    exact .inl (.inr ⟨e, e', se, hx.carry.2 _ rfl, hy.carry.2 _ rfl, he, he'⟩)
  · rw [h1] at hm
    rw [h2] at hm'
    obtain ⟨s, rfl, -⟩ := hm.of_ok
    obtain ⟨s', rfl, -⟩ := hm'.of_ok
    obtain ⟨q, t, rfl, e1⟩ := hx.carry.1 _ _ rfl
    obtain ⟨q', t', rfl, e2⟩ := hy.carry.1 _ _ rfl
    have hd : q.data = q'.data := e1.trans (h3.data.trans e2.symm)
    exact .inl (.inl ⟨q, t, q', t', rfl, rfl, (c09_obj_eq_iff q q' (hwx _ _ rfl) (hwy _ _ rfl)).2 hd, c20_write_ignores_identity q q' hd⟩)

section
variable {fs : FS} {file : Option Str} {stack : List Str} {R : Str → Rt → Res Obj} (hR : Reads fs file stack R)
include hR

theorem Reads.inlined {rt rt' : Rt} (h : rt.Fine) (h' : rt'.Fine) {d d' : List Field} {text text' : Str} (hd : SpDoc d text)
    (hd' : SpDoc d' text') (hi : InlDoc (fun _ => False) [] [] d d') (hl : Field.levelsL d' ≤ 63) : EndAlike (R text rt) (R text' rt') := by
  rcases endAlike_of hi (hR.same text h warmRt_warm.fine) (hR.same text' h' warmRt_warm.fine) (hR.means warmRt hd) (hR.means warmRt hd')
    (fun o s e => hR.typed e) (fun o s e => hR.typed e) with h1 | ⟨h1, -⟩
  · exact h1
  · exact absurd h1 (hR.not_too_deep hl)

theorem Reads.inlined_accepted {rt rt' : Rt} (h : rt.Fine) (h' : rt'.Fine) {d d' : List Field} {text text' : Str} (hd : SpDoc d text)
    (hd' : SpDoc d' text') (hi : InlDoc (fun _ => False) [] [] d d') {o' : Obj} {s' : PState} (he : R text' rt' = .ok o' s') :
    ∃ o s, R text rt = .ok o s ∧ o.eq o' = true := by
  have hl : Field.levelsL d' ≤ 63 := by
    obtain ⟨d1, st, h1, h2, -⟩ := hR.accepts he
    cases c49_one_document _ _ _ hd' h1
    exact levels_of_meaning h2
  rcases hR.inlined h h' hd hd' hi hl with ⟨o, s, q, t, h1, h2, h3, -⟩ | ⟨e, e', se, -, h2, -⟩
  · rw [he] at h2
    cases h2
    exact ⟨o, s, h1, h3⟩
  · rw [he] at h2
    cases h2

/-- From an accepted text to the meaning in a process with all keyword objects. -/
theorem Reads.warm_of_accepted {rt : Rt} (h : rt.Fine) {d : List Field} {text : Str} (hd : SpDoc d text) {o : Obj} {s : PState}
    (he : R text rt = .ok o s) : ∃ o1 st, meaning fs file stack d warmRt = .ok (o1, st) ∧ o1.data = o.data := by
  obtain ⟨o1, s1, h1, h2⟩ := (hR.same text warmRt_warm.fine h).carry.1 o s he
  have hm := hR.means warmRt hd
  rw [h1] at hm
  cases hw : meaning fs file stack d warmRt with
  | error e => rw [hw] at hm; exact hm.elim
  | ok x =>
    obtain ⟨o2, st⟩ := x
    rw [hw] at hm
    obtain ⟨rfl, -⟩ := hm
    exact ⟨_, st, rfl, h2⟩

/-- … and back. -/
theorem Reads.accepted_of_warm {rt : Rt} (h : rt.Fine) {d : List Field} {text : Str} (hd : SpDoc d text) {o1 : Obj} {st : ESt}
    (he : meaning fs file stack d warmRt = .ok (o1, st)) : ∃ o s, R text rt = .ok o s ∧ o.data = o1.data := by
  have hm := hR.means warmRt hd
  rw [he] at hm
  obtain ⟨s, h1, -⟩ := hm.of_ok
  exact (hR.same text h warmRt_warm.fine).carry.1 _ _ h1

/-- Objects that are read and have the same data are equal. -/
theorem Reads.equal_of_data {rt rt' : Rt} {text text' : Str} {o o' : Obj} {s s' : PState} (h : R text rt = .ok o s)
    (h' : R text' rt' = .ok o' s') (hd : o.data = o'.data) : o.eq o' = true :=
  (c09_obj_eq_iff o o' (hR.typed h) (hR.typed h')).2 hd

theorem Reads.leave_out {rt rt' : Rt} (h : rt.Fine) (h' : rt'.Fine) {A B : List Field} {g : Str} {e : Expr} {text text' : Str}
    (hd : SpDoc (A ++ .mk (.global g) e :: B) text) (hd' : SpDoc (A ++ B) text') (he : e.includeFree = true) (hg : e.definesNoGlobal = true)
    (hB : Field.avoidsL g B = true) {o : Obj} {s : PState} (hr : R text rt = .ok o s) :
    ∃ o' s', R text' rt' = .ok o' s' ∧ o.eq o' = true := by
  obtain ⟨o1, st, h1, e1⟩ := hR.warm_of_accepted h hd hr
  have hl := levels_of_meaning h1
  rcases meaning_drop he hg (Field.inlL_of_avoids B hB).doc warmRt_warm h1 with h2 | ⟨o2, st2, h2, e2⟩
  · refine absurd h2 (hR.not_too_deep ?_)
    simp only [Field.levelsL_append, Field.levelsL] at hl ⊢
    omega
  · obtain ⟨o', s', h3, e3⟩ := hR.accepted_of_warm h' hd' h2
    exact ⟨o', s', h3, hR.equal_of_data hr h3 (e1.symm.trans (e2.data.trans e3.symm))⟩

theorem Reads.add {rt rt' rt1 : Rt} (h : rt.Fine) (h' : rt'.Fine) (h1 : rt1.Fine) {A B : List Field} {g : Str} {e : Expr}
    {text text' text1 : Str} (hd : SpDoc (A ++ .mk (.global g) e :: B) text) (hd' : SpDoc (A ++ B) text')
    (hd1 : SpDoc (A ++ [.mk (.global g) e]) text1) (he : e.includeFree = true) (hg : e.definesNoGlobal = true)
    (hB : Field.avoidsL g B = true) {o1 : Obj} {s1 : PState} (hr1 : R text1 rt1 = .ok o1 s1) {o' : Obj} {s' : PState}
    (hr : R text' rt' = .ok o' s') : ∃ o s, R text rt = .ok o s ∧ o.eq o' = true := by
  obtain ⟨q, stq, hq, -⟩ := hR.warm_of_accepted h1 hd1 hr1
  obtain ⟨o2, st2, h2, e2⟩ := hR.warm_of_accepted h' hd' hr
  have hl := levels_of_meaning hq
  have hl' := levels_of_meaning h2
  rcases meaning_undrop he hg (Field.inlL_of_avoids B hB).doc warmRt_warm hq h2 with h3 | ⟨o3, st3, h3, e3⟩
  · refine absurd h3 (hR.not_too_deep ?_)
    simp only [Field.levelsL_append, Field.levelsL] at hl hl' ⊢
    omega
  · obtain ⟨o, s, h4, e4⟩ := hR.accepted_of_warm h hd h3
    exact ⟨o, s, h4, hR.equal_of_data h4 hr (e4.trans (e3.data.symm.trans e2))⟩

theorem Reads.expand {rt rt' : Rt} (h : rt.Fine) (h' : rt'.Fine) {A B B' : List Field} {g : Str} {e : Expr} {text text' : Str}
    (hd : SpDoc (A ++ .mk (.global g) e :: B) text) (hd' : SpDoc (A ++ B') text') (he : e.includeFree = true) (hg : e.definesNoGlobal = true)
    (hf : e.usesNoField = true) (hg1 : g.head? = some '@') (hg2 : g ≠ c!"@") (hi : InlDoc (fun _ => False) [(g, e)] [] B B')
    (hB : Field.avoidsL g B' = true) (hl : Field.levelsL (A ++ B') ≤ 63) {o : Obj} {s : PState} (hr : R text rt = .ok o s) :
    ∃ o' s', R text' rt' = .ok o' s' ∧ o.eq o' = true := by
  obtain ⟨o1, st, h1, e1⟩ := hR.warm_of_accepted h hd hr
  have hl1 := levels_of_meaning h1
  have hi1 : InlDoc (fun _ => False) [] [] (A ++ .mk (.global g) e :: B) (A ++ .mk (.global g) e :: B') :=
    InlDoc.after (fun _ h => h) (.global hg1 hg2 (fun h => h) (InlExpr.refl (fun _ h => h) e) hg hf hi) A
  rcases meaning_inl (fs := fs) (file := file) (stack := stack) hi1 warmRt_warm warmRt_warm with ⟨f, hff, h2⟩ | ⟨k, h2, -⟩ | ⟨q, o2, stq, st2, h2, h3, e2⟩
  · rw [show f = file from hff] at h2
    refine absurd h2 (hR.not_too_deep ?_)
    simp only [Field.levelsL_append, Field.levelsL] at hl hl1 ⊢
    omega
  · rw [h1] at h2; cases h2
  · rw [h1] at h2
    cases h2
    rcases meaning_drop he hg (Field.inlL_of_avoids B' hB).doc warmRt_warm h3 with h4 | ⟨o4, st4, h4, e4⟩
    · exact absurd h4 (hR.not_too_deep hl)
    · obtain ⟨o', s', h5, e5⟩ := hR.accepted_of_warm h' hd' h4
      exact ⟨o', s', h5, hR.equal_of_data hr h5 (e1.symm.trans (e2.data.trans (e4.data.trans e5.symm)))⟩

end

/-- C65: names can be replaced by their definitions.  If `text` spells the document `d`, `text'` spells a document that comes
from `d` by replacing some uses of fields and globals by what they were defined with, and `text'` does not nest too deeply,
then `Obj::from_str` ends alike on both texts, in any two states of the process. -/
theorem c65_from_str (fs : FS) (rt rt' : Rt) (h : rt.Fine) (h' : rt'.Fine) (d d' : List Field) (text text' : Str) (hd : SpDoc d text)
    (hd' : SpDoc d' text') (hi : InlDoc (fun _ => False) [] [] d d') (hl : Field.levelsL d' ≤ 63) :
    EndAlike (fromStr fs text rt) (fromStr fs text' rt') := (reads_str fs).inlined h h' hd hd' hi hl

/-- C65: in particular, when the text with the replacements is accepted, so is the original one, and the objects are equal. -/
theorem c65_accepted (fs : FS) (rt rt' : Rt) (h : rt.Fine) (h' : rt'.Fine) (d d' : List Field) (text text' : Str) (hd : SpDoc d text)
    (hd' : SpDoc d' text') (hi : InlDoc (fun _ => False) [] [] d d') (o' : Obj) (s' : PState) (he : fromStr fs text' rt' = .ok o' s') :
    ∃ o s, fromStr fs text rt = .ok o s ∧ o.eq o' = true := (reads_str fs).inlined_accepted h h' hd hd' hi he

/-- C65: the same for a file in which names are replaced by their definitions. -/
theorem c65_from_file (fs fs' : FS) (path full text text' : Str) (hp : fs.resolve path = some full) (hu : fs.utf8 full = true)
    (hr : fs.read path = .ok text) (he : fs.Edited path text' fs') (rt rt' : Rt) (h : rt.Fine) (h' : rt'.Fine) (d d' : List Field)
    (hd : SpDoc d text) (hd' : SpDoc d' text') (hi : InlDoc (fun _ => False) [] [] d d') (hl : Field.levelsL d' ≤ 63) :
    EndAlike (fromFile fs path rt) (fromFile fs' path rt') := by
  rw [(FS.Edited.same hr).reading hr, he.reading hr]
  exact (reads_file hp hu hr).inlined h h' hd hd' hi hl

/-! ## C66: unused globals -/

/-- C66: the definition `@g: e` of a global that is not used further on can be left out: when the text with the definition is
accepted, so is the one without it, and the objects are equal. -/
theorem c66_leave_out (fs : FS) (rt rt' : Rt) (h : rt.Fine) (h' : rt'.Fine) (A B : List Field) (g : Str) (e : Expr) (text text' : Str)
    (hd : SpDoc (A ++ .mk (.global g) e :: B) text) (hd' : SpDoc (A ++ B) text') (he : e.includeFree = true) (hg : e.definesNoGlobal = true)
    (hB : Field.avoidsL g B = true) (o : Obj) (s : PState) (hr : fromStr fs text rt = .ok o s) :
    ∃ o' s', fromStr fs text' rt' = .ok o' s' ∧ o.eq o' = true := (reads_str fs).leave_out h h' hd hd' he hg hB hr

/-- C66: … and added: when the definition alone is accepted after the lines before it, and the text without it is accepted,
so is the text with it, and the objects are equal. -/
theorem c66_add (fs : FS) (rt rt' rt1 : Rt) (h : rt.Fine) (h' : rt'.Fine) (h1 : rt1.Fine) (A B : List Field) (g : Str) (e : Expr) (text text' text1 : Str)
    (hd : SpDoc (A ++ .mk (.global g) e :: B) text) (hd' : SpDoc (A ++ B) text') (hd1 : SpDoc (A ++ [.mk (.global g) e]) text1)
    (he : e.includeFree = true) (hg : e.definesNoGlobal = true) (hB : Field.avoidsL g B = true)
    (o1 : Obj) (s1 : PState) (hr1 : fromStr fs text1 rt1 = .ok o1 s1) (o' : Obj) (s' : PState) (hr : fromStr fs text' rt' = .ok o' s') :
    ∃ o s, fromStr fs text rt = .ok o s ∧ o.eq o' = true := (reads_str fs).add h h' h1 hd hd' hd1 he hg hB hr1 hr

/-- C66: a global is an abbreviation: all its uses can be replaced by its definition, and the definition can be left out. -/
theorem c66_expand (fs : FS) (rt rt' : Rt) (h : rt.Fine) (h' : rt'.Fine) (A B B' : List Field) (g : Str) (e : Expr) (text text' : Str)
    (hd : SpDoc (A ++ .mk (.global g) e :: B) text) (hd' : SpDoc (A ++ B') text') (he : e.includeFree = true) (hg : e.definesNoGlobal = true)
    (hf : e.usesNoField = true) (hg1 : g.head? = some '@') (hg2 : g ≠ c!"@") (hi : InlDoc (fun _ => False) [(g, e)] [] B B')
    (hB : Field.avoidsL g B' = true) (hl : Field.levelsL (A ++ B') ≤ 63) (o : Obj) (s : PState) (hr : fromStr fs text rt = .ok o s) :
    ∃ o' s', fromStr fs text' rt' = .ok o' s' ∧ o.eq o' = true := (reads_str fs).expand h h' hd hd' he hg hf hg1 hg2 hi hB hl hr

section
variable (fs fs' : FS) (path full text text' : Str) (hp : fs.resolve path = some full) (hu : fs.utf8 full = true)
  (hr : fs.read path = .ok text) (he : fs.Edited path text' fs') (rt rt' : Rt) (h : rt.Fine) (h' : rt'.Fine)
include hp hu hr he h h'

/-- C66: leaving an unused global out of a file. -/
theorem c66_leave_out_of_file (A B : List Field) (g : Str) (e : Expr) (hd : SpDoc (A ++ .mk (.global g) e :: B) text)
    (hd' : SpDoc (A ++ B) text') (hi : e.includeFree = true) (hg : e.definesNoGlobal = true)
    (hB : Field.avoidsL g B = true) (o : Obj) (s : PState) (hx : fromFile fs path rt = .ok o s) :
    ∃ o' s', fromFile fs' path rt' = .ok o' s' ∧ o.eq o' = true := by
  rw [(FS.Edited.same hr).reading hr] at hx
  rw [he.reading hr]
  exact (reads_file hp hu hr).leave_out h h' hd hd' hi hg hB hx

/-- C66: replacing a global by its definition in a file. -/
theorem c66_expand_in_file (A B B' : List Field) (g : Str) (e : Expr)
    (hd : SpDoc (A ++ .mk (.global g) e :: B) text) (hd' : SpDoc (A ++ B') text') (hinc : e.includeFree = true) (hg : e.definesNoGlobal = true)
    (hf : e.usesNoField = true) (hg1 : g.head? = some '@') (hg2 : g ≠ c!"@") (hi : InlDoc (fun _ => False) [(g, e)] [] B B')
    (hB : Field.avoidsL g B' = true) (hl : Field.levelsL (A ++ B') ≤ 63) (o : Obj) (s : PState) (hx : fromFile fs path rt = .ok o s) :
    ∃ o' s', fromFile fs' path rt' = .ok o' s' ∧ o.eq o' = true := by
  rw [(FS.Edited.same hr).reading hr] at hx
  rw [he.reading hr]
  exact (reads_file hp hu hr).expand h h' hd hd' hinc hg hf hg1 hg2 hi hB hl hx

end

end

/-! ## Examples -/

section
attribute [local instance] sampleUnicode

/-- One more definition in front. -/
theorem sampleLine {tg : Target} {e : Expr} {fds : List Field} {n s r : Str} (h1 : SpTarget tg n) (h2 : SpExpr e s) (h3 : SpFields true fds r)
    (h4 : fds = [] ∨ StartsSeparated r) : SpFields true (.mk tg e :: fds) (' ' :: (n ++ (':' :: (s ++ r)))) :=
  SpFields.cons (eof := true) (g := [' ']) (g' := []) (.ws (by decide) .nil) h1 .nil h2 h3 h4

def sampleThree : Expr := .mk (.int 3) []
def samplePairArr : Expr := .mk (.arr [.mk (.int 1) [], .mk (.int 2) []]) []

theorem sampleThree_sp : SpExpr sampleThree c!"3" := by
  have := SpExpr.mk (.int (sampleIntLit (n := 3) (c := '3') (by decide) (by decide))) .nil
  simpa [sampleThree] using this

theorem samplePairArr_sp : SpExpr samplePairArr c!"[1 2]" := by
  have h1 : SpExpr (.mk (.int 1) []) c!"1" := by
    have := SpExpr.mk (.int (sampleIntLit (n := 1) (c := '1') (by decide) (by decide))) .nil
    simpa using this
  have h2 : SpExpr (.mk (.int 2) []) c!"2" := by
    have := SpExpr.mk (.int (sampleIntLit (n := 2) (c := '2') (by decide) (by decide))) .nil
    simpa using this
  have h3 : SpItems false [.mk (.int 2) []] c!" 2" := by
    have := SpItems.cons (eof := false) (g := c!" ") (.ws (by decide) .nil) h2 (.nil (g := []) .nil) (.inl rfl)
    simpa using this
  have h4 : SpItems false [.mk (.int 1) [], .mk (.int 2) []] c!"1 2" := by
    have := SpItems.cons (eof := false) (g := []) .nil h1 h3 (.inr (startsSpace _))
    simpa using this
  have := SpExpr.mk (.arr h4) .nil
  simpa [samplePairArr] using this

theorem sampleVar (c : Char) (h : isAlphabetic c = true) : SpTerm (.name [c]) [c] := .name (x := [c]) ⟨c, [], rfl, .inl (.inl h), by simp⟩

theorem sampleGlobalVar : SpExpr (.mk (.name c!"@a") []) c!"@a" := by
  have := SpExpr.mk (.name (x := c!"@a") ⟨'@', c!"a", rfl, .inr rfl, by simp [NameChar, show isAlphabetic 'a' = true by decide]⟩) .nil
  simpa using this

/-- `x: 3 y: <ey> z: <tx> + x` -/
def sampleRest (ey : Expr) (tx : Term) : List Field :=
  [.mk (.field c!"x") sampleThree, .mk (.field c!"y") ey, .mk (.field c!"z") (.mk tx [.mk .plus (.name c!"x")])]

theorem sampleRest_sp {ey : Expr} {tx : Term} {sy sx : Str} (h1 : SpExpr ey sy) (h2 : SpTerm tx sx) :
    SpDoc (sampleRest ey tx) (c!" x:3 y:" ++ sy ++ c!" z:" ++ sx ++ c!"+x") := by
  have hz : SpExpr (.mk tx [.mk .plus (.name c!"x")]) (sx ++ c!"+x") := SpExpr.mk h2 (by
    have := SpOps.cons (op := .plus) (sampleVar 'x' (by decide)) .nil
    simpa [opChar] using this)
  have l3 := sampleLine (.field (sampleFieldName 'z' (by decide))) hz (.nil (g := []) (.gap .nil)) (.inl rfl)
  have l2 := sampleLine (.field (sampleFieldName 'y' (by decide))) h1 l3 (.inr (startsSpace _))
  have l1 := sampleLine (.field (sampleFieldName 'x' (by decide))) sampleThree_sp l2 (.inr (startsSpace _))
  simpa [SpDoc, sampleRest] using l1

theorem sampleAll_sp {ey : Expr} {tx : Term} {sy sx : Str} (h1 : SpExpr ey sy) (h2 : SpTerm tx sx) :
    SpDoc (.mk (.global c!"@a") samplePairArr :: sampleRest ey tx) (c!" @a:[1 2] x:3 y:" ++ sy ++ c!" z:" ++ sx ++ c!"+x") := by
  have := sampleLine (.global (c := 'a') (cs := []) (.inl (.inl (by decide))) (by simp)) samplePairArr_sp (sampleRest_sp h1 h2) (.inr (startsSpace _))
  simpa [SpDoc] using this

theorem sampleRest_inl (Θ : Defs) (h : (c!"@a", samplePairArr) ∈ Θ) :
    InlDoc (fun _ => False) Θ [] (sampleRest (.mk (.name c!"@a") []) (.name c!"x")) (sampleRest samplePairArr (.int 3)) := by
  have no : ∀ x : Str, ¬ (fun _ : Str => False) x := fun _ h => h
  refine .define (by decide) (InlExpr.refl no _) (by decide) (.cons (fun _ _ h => h) (.inlined (.inr h)) (.cons (fun _ _ h => h) (.mk ?_ ?_) .nil))
  · exact .inlined (.inl (by simp [sampleThree]))
  · exact InlOps.refl no _

/-- `@a: [1 2] x: 3 y: @a z: x + x` and `@a: [1 2] x: 3 y: [1 2] z: 3 + x` -/
example : EndAlike (fromStr noFiles c!" @a:[1 2] x:3 y:@a z:x+x" startRt) (fromStr noFiles c!" @a:[1 2] x:3 y:[1 2] z:3+x" startRt) :=
  c65_from_str noFiles startRt startRt (by intro k i h; cases k <;> cases h) (by intro k i h; cases k <;> cases h) _ _ _ _
    (sampleAll_sp sampleGlobalVar (sampleVar 'x' (by decide)))
    (sampleAll_sp samplePairArr_sp (.int (sampleIntLit (n := 3) (c := '3') (by decide) (by decide))))
    (.global (by decide) (by decide) (fun h => h) (InlExpr.refl (fun _ h => h) _) (by decide) (by decide)
      (sampleRest_inl _ List.mem_cons_self)) (by decide)

/-- The same in a file. -/
example : EndAlike (fromFile (files [(c!"f", c!" @a:[1 2] x:3 y:@a z:x+x")]) c!"f" startRt)
    (fromFile ((files [(c!"f", c!" @a:[1 2] x:3 y:@a z:x+x")]).edit c!"f" c!" @a:[1 2] x:3 y:[1 2] z:3+x") c!"f" startRt) :=
  c65_from_file _ _ c!"f" c!"f" _ _ (by decide +kernel) (by decide +kernel) (by decide +kernel)
    (FS.edit_edited (full := c!"f") (by decide +kernel) (by decide +kernel)) startRt startRt
    (by intro k i h; cases k <;> cases h) (by intro k i h; cases k <;> cases h) _ _
    (sampleAll_sp sampleGlobalVar (sampleVar 'x' (by decide)))
    (sampleAll_sp samplePairArr_sp (.int (sampleIntLit (n := 3) (c := '3') (by decide) (by decide))))
    (.global (by decide) (by decide) (fun h => h) (InlExpr.refl (fun _ h => h) _) (by decide) (by decide)
      (sampleRest_inl _ List.mem_cons_self)) (by decide)

/-- Both are accepted. -/
example : (fromStr noFiles c!" @a:[1 2] x:3 y:@a z:x+x" startRt).written = some c!"x: 3\ny: [\n    1\n    2\n]\nz: 6\n" ∧
    (fromStr noFiles c!" @a:[1 2] x:3 y:[1 2] z:3+x" startRt).written = some c!"x: 3\ny: [\n    1\n    2\n]\nz: 6\n" := by decide +kernel

/-- `x: 3 y: [1 2] z: 3 + x`: without the global -/
example : ∃ o' s', fromStr noFiles c!" x:3 y:[1 2] z:3+x" startRt = .ok o' s' := by
  obtain ⟨o, s, h⟩ : ∃ o s, fromStr noFiles c!" @a:[1 2] x:3 y:@a z:x+x" startRt = .ok o s := by
    cases hr : fromStr noFiles c!" @a:[1 2] x:3 y:@a z:x+x" startRt with
    | ok o s => exact ⟨o, s, rfl⟩
    | _ =>
      have hw : (fromStr noFiles c!" @a:[1 2] x:3 y:@a z:x+x" startRt).written ≠ none := by decide +kernel
      rw [hr] at hw
      exact absurd rfl hw
  obtain ⟨o', s', h', -⟩ := c66_expand noFiles startRt startRt (by intro k i h; cases k <;> cases h) (by intro k i h; cases k <;> cases h) [] _ _
    c!"@a" samplePairArr _ _ (sampleAll_sp sampleGlobalVar (sampleVar 'x' (by decide)))
    (sampleRest_sp samplePairArr_sp (.int (sampleIntLit (n := 3) (c := '3') (by decide) (by decide)))) (by decide) (by decide) (by decide)
    (by decide) (by decide) (sampleRest_inl _ List.mem_cons_self) (by decide) (by decide) o s h
  exact ⟨o', s', h'⟩

/-- The same in a file. -/
example : ∃ o' s', fromFile ((files [(c!"f", c!" @a:[1 2] x:3 y:@a z:x+x")]).edit c!"f" c!" x:3 y:[1 2] z:3+x") c!"f" startRt = .ok o' s' := by
  obtain ⟨o, s, h⟩ : ∃ o s, fromFile (files [(c!"f", c!" @a:[1 2] x:3 y:@a z:x+x")]) c!"f" startRt = .ok o s := by
    cases hr : fromFile (files [(c!"f", c!" @a:[1 2] x:3 y:@a z:x+x")]) c!"f" startRt with
    | ok o s => exact ⟨o, s, rfl⟩
    | _ =>
      have hw : (fromFile (files [(c!"f", c!" @a:[1 2] x:3 y:@a z:x+x")]) c!"f" startRt).written ≠ none := by decide +kernel
      rw [hr] at hw
      exact absurd rfl hw
  obtain ⟨o', s', h', -⟩ := c66_expand_in_file _ _ c!"f" c!"f" _ _ (by decide +kernel) (by decide +kernel) (by decide +kernel)
    (FS.edit_edited (full := c!"f") (by decide +kernel) (by decide +kernel)) startRt startRt
    (by intro k i h; cases k <;> cases h) (by intro k i h; cases k <;> cases h) [] _ _
    c!"@a" samplePairArr (sampleAll_sp sampleGlobalVar (sampleVar 'x' (by decide)))
    (sampleRest_sp samplePairArr_sp (.int (sampleIntLit (n := 3) (c := '3') (by decide) (by decide)))) (by decide) (by decide) (by decide)
    (by decide) (by decide) (sampleRest_inl _ List.mem_cons_self) (by decide) (by decide) o s h
  exact ⟨o', s', h'⟩

/-- A definition stands for its value, not for its text: `x: 1 + 2 y: x * 3` is not `y: 1 + 2 * 3`. -/
example : (fromStr noFiles c!"x:1+2 y:x*3" startRt).written = some c!"x: 3\ny: 9\n" ∧
    (fromStr noFiles c!"x:1+2 y:1+2*3" startRt).written = some c!"x: 3\ny: 7\n" := by decide +kernel

end

end Over
