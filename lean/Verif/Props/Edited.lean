import Verif.Lemmas.Edited
import Verif.Props.RenameNames
import Verif.Lemmas.Kinds
import Verif.Props.ReorderDeep

/-!
# C88: editing literals

`Field.editedL K [] d d'` and `Obj.alike` are in `Spec/Edited.lean`.
-/

namespace Over

/-- Reading ends with a division by zero. -/
def EndsInDivByZero (x : Res Obj) : Prop := ∃ f l c, x = .err ⟨f, .invalidNumeric l c⟩

/-- The outcomes differ in what was edited only: two objects that are the same but for the values of strings and fractions (and
of integers, if these were edited); or errors that report the same thing; or, if there are divisions, one is by zero. -/
def AlikeOutcome (K : Edits) (x y : Res Obj) : Prop :=
  (∃ o s o' s', x = .ok o s ∧ y = .ok o' s' ∧ o.alike K.ints o' ∧ s.rt = s'.rt) ∨
  (∃ (e e' : ParseError) (se : SemErr), x = .err e ∧ y = .err e' ∧ se.Reported e ∧ se.Reported e') ∨
  (K.div = true ∧ (EndsInDivByZero x ∨ EndsInDivByZero y))

theorem EndsInDivByZero.of {K : Edits} {x : Res Obj} {m : Except SemErr (Obj × ESt)} {se : SemErr}
    (h : SameOutcome x m) (hm : m = .error se) (hd : K.Div se) : EndsInDivByZero x := by
  subst hm
  obtain ⟨e, rfl, he⟩ := h.of_error
  obtain ⟨-, f, rfl⟩ := hd
  cases he with
  | sem hk =>
    cases hk
    exact ⟨_, _, _, rfl⟩

theorem alikeOutcome_of {K : Edits} {C : StrMap Value → StrMap Value → Prop} {x y : Res Obj}
    {m m' : Except SemErr (Obj × ESt)} (h1 : SameOutcome x m) (h2 : SameOutcome y m')
    (h : AlikeRes K C (Obj.alike K.ints) m m') : AlikeOutcome K x y := by
  cases m with
  | ok a =>
    obtain ⟨o, st⟩ := a
    cases m' with
    | ok b =>
      obtain ⟨o', st'⟩ := b
      obtain ⟨s, rfl, e1⟩ := h1.of_ok
      obtain ⟨s', rfl, e2⟩ := h2.of_ok
      exact .inl ⟨o, s, o', s', rfl, rfl, h.1, by rw [e1, e2]; exact h.2.rt.symm⟩
    | error se => exact .inr (.inr ⟨h.1, .inr (.of h2 rfl h)⟩)
  | error se =>
    cases m' with
    | ok b => exact .inr (.inr ⟨h.1, .inl (.of h1 rfl h)⟩)
    | error se' =>
      rcases h with rfl | h | h
      · obtain ⟨e, rfl, he⟩ := h1.of_error
        obtain ⟨e', rfl, he'⟩ := h2.of_error
        exact .inr (.inl ⟨e, e', se, rfl, rfl, he, he'⟩)
      · exact .inr (.inr ⟨h.1, .inl (.of h1 rfl h)⟩)
      · exact .inr (.inr ⟨h.1, .inr (.of h2 rfl h)⟩)

theorem AlikeOutcome.accepted {K : Edits} (hK : K.div = false) {x y : Res Obj} (h : AlikeOutcome K x y) :
    (∀ o s, x = .ok o s → ∃ o' s', y = .ok o' s' ∧ o.alike K.ints o') ∧
    ∀ o' s', y = .ok o' s' → ∃ o s, x = .ok o s ∧ o.alike K.ints o' := by
  rcases h with ⟨o, s, o', s', rfl, rfl, h3, -⟩ | ⟨e, e', -, rfl, rfl, -⟩ | ⟨h1, -⟩
  · refine ⟨fun p t hpt => ?_, fun p t hpt => ?_⟩
    · cases hpt; exact ⟨o', s', rfl, h3⟩
    · cases hpt; exact ⟨o, s, rfl, h3⟩
  · exact ⟨nofun, nofun⟩
  · rw [hK] at h1; cases h1

section
variable [Unicode]

/-- C88: when literals of a document are replaced by others of the same type, the outcome stays the same, but for the values
of strings and fractions (and integers, if these are replaced), or there is a division by zero. -/
theorem c88_from_str (K : Edits) (fs : FS) (rt : Rt) (d d' : List Field) (text text' : Str) (hd : SpDoc d text)
    (hd' : SpDoc d' text') (h : Field.editedL K d [] d') : AlikeOutcome K (fromStr fs text rt) (fromStr fs text' rt) :=
  alikeOutcome_of (c44_from_str_meaning fs text rt d hd) (c44_from_str_meaning fs text' rt d' hd') (meaning_alike h rt)

/-- C88: the same for a file in which literals are edited. -/
theorem c88_from_file (K : Edits) (fs fs' : FS) (path full text text' : Str) (hp : fs.resolve path = some full)
    (hu : fs.utf8 full = true) (hr : fs.read path = .ok text) (he : fs.Edited path text' fs') (rt : Rt) (d d' : List Field)
    (hd : SpDoc d text) (hd' : SpDoc d' text') (h : Field.editedL K d [] d') :
    AlikeOutcome K (fromFile fs path rt) (fromFile fs' path rt) := by
  rw [(FS.Edited.same hr).reading hr, he.reading hr]
  have hR := reads_file hp hu hr
  exact alikeOutcome_of (hR.means rt hd) (hR.means rt hd') (meaning_alike h rt)

/-- C88: without divisions, the text with the edited literals is accepted if and only if the original one is, and then the
objects are the same but for the values of strings and fractions (and integers). -/
theorem c88_accepted (K : Edits) (hK : K.div = false) (fs : FS) (rt : Rt) (d d' : List Field) (text text' : Str)
    (hd : SpDoc d text) (hd' : SpDoc d' text') (h : Field.editedL K d [] d') :
    (∀ o s, fromStr fs text rt = .ok o s → ∃ o' s', fromStr fs text' rt = .ok o' s' ∧ o.alike K.ints o') ∧
    (∀ o' s', fromStr fs text' rt = .ok o' s' → ∃ o s, fromStr fs text rt = .ok o s ∧ o.alike K.ints o') :=
  (c88_from_str K fs rt d d' text text' hd hd' h).accepted hK

/-- For the text of an object with definitions, only these have to be compared. -/
theorem TextEdited.of_doc {K : Edits} {fd : Field} {fds d' : List Field} {t t' : Str} (hd : SpDoc (fd :: fds) t) (hd' : SpDoc d' t')
    (he : Field.editedL K (fd :: fds) [] d') : TextEdited K t t' := by
  refine ⟨fun d h => ?_, fun _ _ => ⟨_, hd⟩, fun es h => (fields_not_items hd h).elim, fun es h => ?_⟩
  · rw [spDoc_unique h hd]
    exact ⟨d', hd', he⟩
  · cases d' with
    | nil => cases fd; simp only [Field.editedL] at he; obtain ⟨_, _, h, -⟩ := he; cases h
    | cons => exact (fields_not_items hd' h).elim

/-- C88: the same when literals are edited in the text and in the files of the project, if in all of these texts the paths of
includes are literals (and stay), and what is said about dots (and divisions) holds. -/
theorem c88_project (K : Edits) (fs fs' : FS) (h : fs.LiteralsEdited K fs') (rt : Rt) (hf : rt.Fine) (d d' : List Field)
    (text text' : Str) (hd : SpDoc d text) (hd' : SpDoc d' text') (he : Field.editedL K d [] d') :
    AlikeOutcome K (fromStr fs text rt) (fromStr fs' text' rt) :=
  alikeOutcome_of (c44_from_str_meaning fs text rt d hd) (c44_from_str_meaning fs' text' rt d' hd')
    (meaning_alike_project h he rt hf)

/-- C88: … for a file of the project. -/
theorem c88_project_file (K : Edits) (fs fs' : FS) (h : fs.LiteralsEdited K fs') (rt : Rt) (hf : rt.Fine) (path full text : Str)
    (hp : fs.resolve path = some full) (hu : fs.utf8 full = true) (hr : fs.read path = .ok text) (d : List Field)
    (hd : SpDoc d text) : AlikeOutcome K (fromFile fs path rt) (fromFile fs' path rt) := by
  have hp' : fs'.resolve path = some full := by rw [h.resolve, hp]
  have hu' : fs'.utf8 full = true := by rw [h.utf8, hu]
  rcases h.read path with ⟨m, e, -⟩ | ⟨t, t', e, hr', ht, -⟩
  · rw [hr] at e; cases e
  · rw [hr] at e
    cases e
    obtain ⟨d', hd', he⟩ := ht d hd
    rw [(FS.Edited.same hr).reading hr, (FS.Edited.same hr').reading hr']
    exact alikeOutcome_of ((reads_file hp hu hr).means rt hd) ((reads_file hp' hu' hr').means rt hd')
      (meaning_alike_project h he rt hf)

/-- C88: … so without divisions a file of the edited project is accepted if and only if it was before, and the objects are the
same but for the values of strings and fractions (and integers). -/
theorem c88_project_accepted (K : Edits) (hK : K.div = false) (fs fs' : FS) (h : fs.LiteralsEdited K fs') (rt : Rt) (hf : rt.Fine)
    (path full text : Str) (hp : fs.resolve path = some full) (hu : fs.utf8 full = true) (hr : fs.read path = .ok text)
    (d : List Field) (hd : SpDoc d text) :
    (∀ o s, fromFile fs path rt = .ok o s → ∃ o' s', fromFile fs' path rt = .ok o' s' ∧ o.alike K.ints o') ∧
    (∀ o' s', fromFile fs' path rt = .ok o' s' → ∃ o s, fromFile fs path rt = .ok o s ∧ o.alike K.ints o') :=
  (c88_project_file K fs fs' h rt hf path full text hp hu hr d hd).accepted hK

end

/-! ## Cases -/

section
attribute [local instance] sampleUnicode

/-- `x:1`, `y:(x "g")` and `z:y.0`, or with other literals. -/
def sampleEdit (n : Nat) (c : Char) : List Field :=
  [.mk (.field c!"x") (.mk (.int n) []), .mk (.field c!"y") (.mk (.tup [.mk (.name c!"x") [], .mk (.str [c]) []]) []),
    .mk (.field c!"z") (.mk (.dot c!"y" (.int 0)) [])]

theorem sampleEdit_spelled {n : Nat} {a c : Char} (hn : IntLit n [a]) (hc : StrBody [c] [c]) :
    SpDoc (sampleEdit n c) (c!"x:" ++ [a] ++ c!"\ny:(x \"" ++ [c] ++ c!"\")\nz:y.0") := by
  have var : ∀ x : Char, isAlphabetic x = true → VarName [x] := fun x h => ⟨x, [], rfl, .inl (.inl h), by simp⟩
  have h1 : SpExpr (.mk (.int n) []) [a] := by simpa using SpExpr.mk (.int hn) .nil
  have hx : SpExpr (.mk (.name c!"x") []) c!"x" := by simpa using SpExpr.mk (.name (var 'x' (by decide))) .nil
  have hs : SpExpr (.mk (.str [c]) []) ('"' :: ([c] ++ ['"'])) := by simpa using SpExpr.mk (.str hc) .nil
  have h2 : SpExpr (.mk (.tup [.mk (.name c!"x") [], .mk (.str [c]) []]) []) (c!"(x \"" ++ [c] ++ c!"\")") := by
    have := SpItems.cons (eof := false) (g := []) .nil hx (.cons (g := [' ']) (r := []) (.ws (by decide) .nil) hs (.nil .nil)
      (.inl rfl)) (.inr ⟨' ', _, rfl, .inl (by decide)⟩)
    simpa using SpExpr.mk (.tup this) .nil
  have h3 : SpExpr (.mk (.dot c!"y" (.int 0)) []) c!"y.0" := by
    have h0 : IntLit 0 c!"0" := sampleIntLit (by decide) (by decide)
    simpa using SpExpr.mk (.dot (var 'y' (by decide)) rfl (.int h0)) .nil
  have := spDoc_snoc (spDoc_snoc (spOne (.field (sampleFieldName 'x' (by decide))) h1)
    (.field (sampleFieldName 'y' (by decide))) h2) (.field (sampleFieldName 'z' (by decide))) h3
  simpa [sampleEdit] using this

theorem sampleEdit_edited (n m : Nat) (c c' : Char) : Field.editedL ⟨true, false⟩ (sampleEdit n c) [] (sampleEdit m c') := by
  simp [sampleEdit, Field.editedL, Expr.edited, Expr.editedL, Term.edited, OpTerm.editedL, Term.noIndex,
    Term.isNumber]

/-- `x:1`, `y:(x "g")`, `z:y.0` is accepted; so it is with `8` for `1` and `"h"` for `"g"`, and the objects are alike. -/
example : ∃ o s o' s', fromStr noFiles c!"x:1\ny:(x \"g\")\nz:y.0" startRt = .ok o s ∧
    fromStr noFiles c!"x:8\ny:(x \"h\")\nz:y.0" startRt = .ok o' s' ∧ o.alike true o' := by
  obtain ⟨s, h⟩ : ∃ s, fromStr noFiles c!"x:1\ny:(x \"g\")\nz:y.0" startRt =
      .ok (.mk 1 [.mk c!"x" (.int 1), .mk c!"y" (.tup 0 [.int, .str] [.int 1, .str c!"g"]), .mk c!"z" (.int 1)] none) s :=
    Res.gives_ok (by decide +kernel)
  have h1 := sampleEdit_spelled (n := 1) (a := '1') (c := 'g') (sampleIntLit (by decide) (by decide)) (sampleBody 'g')
  have h2 := sampleEdit_spelled (n := 8) (a := '8') (c := 'h') (sampleIntLit (by decide) (by decide)) (sampleBody 'h')
  obtain ⟨o', s', h3, h4⟩ := (c88_accepted ⟨true, false⟩ rfl noFiles startRt _ _ _ _ h1 h2 (sampleEdit_edited 1 8 'g' 'h')).1 _ _ h
  exact ⟨_, s, o', s', h, h3, h4⟩

/-- A file that includes another one; in this literals are edited. -/
def editFiles (n : Str) : FS := files [(c!"main", c!"a:<\"l\">"), (c!"l", n)]

theorem editFiles_edited (n m : Nat) (a b c c' : Char) (hn : IntLit n [a]) (hm : IntLit m [b]) (hc : StrBody [c] [c])
    (hc' : StrBody [c'] [c']) : (editFiles (c!"x:" ++ [a] ++ c!"\ny:(x \"" ++ [c] ++ c!"\")\nz:y.0")).LiteralsEdited ⟨true, false⟩
      (editFiles (c!"x:" ++ [b] ++ c!"\ny:(x \"" ++ [c'] ++ c!"\")\nz:y.0")) where
  resolve := rfl
  utf8 := rfl
  openErr := rfl
  files k := by
    by_cases h1 : k = c!"main"
    · subst h1
      have h := spOne (.field (sampleFieldName 'a' (by decide))) (spInclude (sampleBody 'l'))
      exact .inr (.inr ⟨_, _, rfl, rfl, .of_doc h h (by
        simp [Field.editedL, Expr.edited, Term.edited, OpTerm.editedL, Expr.literalPath])⟩)
    by_cases h2 : k = c!"l"
    · subst h2
      exact .inr (.inr ⟨_, _, rfl, rfl, .of_doc (sampleEdit_spelled hn hc) (sampleEdit_spelled hm hc') (sampleEdit_edited n m c c')⟩)
    have e1 : (c!"main" == k) = false := by simpa using fun h => h1 h.symm
    have e2 : (c!"l" == k) = false := by simpa using fun h => h2 h.symm
    refine .inl ⟨?_, ?_⟩ <;>
    simp only [StrMap.get, editFiles, Over.files, List.map_cons, List.map_nil, List.find?_cons, e1, e2, List.find?_nil]

/-- `main` includes `l`, in which literals are edited. -/
example : ∃ o s o' s', fromFile (editFiles c!"x:1\ny:(x \"g\")\nz:y.0") c!"main" startRt = .ok o s ∧
    fromFile (editFiles c!"x:8\ny:(x \"h\")\nz:y.0") c!"main" startRt = .ok o' s' ∧ o.alike true o' := by
  obtain ⟨o, s, h⟩ := accepted_of_written (r := fromFile (editFiles c!"x:1\ny:(x \"g\")\nz:y.0") c!"main" startRt) (by decide +kernel)
  have hm := spOne (.field (sampleFieldName 'a' (by decide))) (spInclude (sampleBody 'l'))
  obtain ⟨o', s', h3, h4⟩ := (c88_project_accepted ⟨true, false⟩ rfl _ _ (editFiles_edited 1 8 '1' '8' 'g' 'h'
    (sampleIntLit (by decide) (by decide)) (sampleIntLit (by decide) (by decide)) (sampleBody 'g') (sampleBody 'h')) startRt startRt_fine
    c!"main" c!"main" _ rfl rfl rfl _ hm).1 _ _ h
  exact ⟨o, s, o', s', h, h3, h4⟩

/-- C88: the exceptions are needed.  An edited integer that is used as an index decides which element is meant, and so the type;
and an edited divisor may be zero. -/
theorem c88_exceptions : (∃ s, fromStr noFiles c!"i:0 t:(1 \"a\") x:t.i" startRt =
      .ok (.mk 1 [.mk c!"i" (.int 0), .mk c!"t" (.tup 0 [.int, .str] [.int 1, .str c!"a"]), .mk c!"x" (.int 1)] none) s) ∧
    (∃ s, fromStr noFiles c!"i:1 t:(1 \"a\") x:t.i" startRt =
      .ok (.mk 1 [.mk c!"i" (.int 1), .mk c!"t" (.tup 0 [.int, .str] [.int 1, .str c!"a"]), .mk c!"x" (.str c!"a")] none) s) ∧
    (∃ s, fromStr noFiles c!"q:6/2" startRt = .ok (.mk 0 [.mk c!"q" (.frac 3)] none) s) ∧
    ∃ e, fromStr noFiles c!"q:6/0" startRt = .err e ∧ ∃ l c, e.kind = .invalidNumeric l c := by
  refine ⟨Res.gives_ok (by decide +kernel), Res.gives_ok (by decide +kernel), Res.gives_ok (by decide +kernel), ?_⟩
  exact ⟨⟨none, .invalidNumeric 1 5⟩, by rfl, _, _, rfl⟩

end

end Over
