import Verif.Lemmas.Layout
import Verif.Lemmas.Continue
import Verif.Lemmas.Reads
import Verif.Spec.Concrete
import Verif.Spec.Layout

/-!
# C42: layout is irrelevant

`RelaidDoc` (`Spec/Layout.lean`) relates two texts that differ only in whitespace and comments.
-/

namespace Over

section
variable [Unicode]

/-- Two runs that the caller cannot tell apart, except by the position and wording of an error: the same object
(ids included) and the same state of the process, or an error both times. -/
def SameReading : Res Obj → Res Obj → Prop
  | .ok o s, .ok o' s' => o = o' ∧ s.rt = s'.rt
  | .err _, .err _ => True
  | _, _ => False

omit [Unicode] in
theorem SameOutcome.sameReading {r r' : Res Obj} {m : Except SemErr (Obj × ESt)} (h : SameOutcome r m)
    (h' : SameOutcome r' m) : SameReading r r' := by
  cases m with
  | ok x =>
    obtain ⟨o, st⟩ := x
    obtain ⟨s, rfl, h1⟩ := h.of_ok
    obtain ⟨s', rfl, h2⟩ := h'.of_ok
    exact ⟨rfl, h1.trans h2.symm⟩
  | error e =>
    obtain ⟨p, rfl, -⟩ := h.of_error
    obtain ⟨p', rfl, -⟩ := h'.of_error
    trivial

section
variable {fs : FS} {file : Option Str} {stack : List Str} {R : Str → Rt → Res Obj} (hR : Reads fs file stack R)
include hR

theorem Reads.same_document (rt : Rt) {d : List Field} {text text' : Str} (h : SpDoc d text) (h' : SpDoc d text') :
    SameReading (R text rt) (R text' rt) := (hR.means rt h).sameReading (hR.means rt h')

theorem Reads.layout (rt : Rt) {text text' : Str} (h : RelaidDoc text text') : SameReading (R text rt) (R text' rt) := by
  by_cases hd : ∃ d, SpDoc d text
  · obtain ⟨d, hd⟩ := hd
    exact hR.same_document rt hd ((spDoc_relaid_iff h).1 hd)
  · have hd' : ¬ ∃ d, SpDoc d text' := by
      rintro ⟨d, h1⟩
      exact hd ⟨d, (spDoc_relaid_iff h).2 h1⟩
    obtain ⟨e, he⟩ := hR.rejects rt hd
    obtain ⟨e', he'⟩ := hR.rejects rt hd'
    rw [he, he']
    trivial

theorem Reads.same_reason (rt : Rt) {d : List Field} {text text' : Str} (h : RelaidDoc text text')
    (hd : SpDoc d text) {e : ParseError} (he : R text rt = .err e) :
    ∃ e' reason, R text' rt = .err e' ∧ meaning fs file stack d rt = .error reason ∧ reason.Reported e ∧ reason.Reported e' := by
  have h1 := hR.means rt hd
  have h2 := hR.means rt ((spDoc_relaid_iff h).1 hd)
  rw [he] at h1
  cases hm : meaning fs file stack d rt with
  | ok x => rw [hm] at h1; exact h1.elim
  | error r =>
    rw [hm] at h1 h2
    obtain ⟨e', h3, h4⟩ := h2.of_error
    exact ⟨e', r, h3, rfl, h1, h4⟩

theorem Reads.around (rt : Rt) {text g g' : Str} (hg : Gap g) (hg' : EndGap g') {o : Obj} {s : PState}
    (h : R text rt = .ok o s) : ∃ s', R (g ++ (text ++ '\n' :: g')) rt = .ok o s' ∧ s'.rt = s.rt := by
  obtain ⟨d, st, hd, hm, hrt⟩ := hR.accepts h
  have h1 : SpDoc d (text ++ '\n' :: g') := by
    have := spDoc_append (SpFields.nil (eof := true) hg') d text hd
    simpa [SpDoc] using this
  have h2 : SpDoc d (g ++ (text ++ '\n' :: g')) := spFields_prefix hg h1
  have h3 := hR.means rt h2
  rw [hm] at h3
  obtain ⟨s', h4, h5⟩ := h3.of_ok
  exact ⟨s', h4, h5.trans hrt.symm⟩

end

/-- C42: two texts of the same document are read as the same object, or both rejected. -/
theorem c42_same_document (fs : FS) (rt : Rt) (d : List Field) (text text' : Str) (h : SpDoc d text)
    (h' : SpDoc d text') : SameReading (fromStr fs text rt) (fromStr fs text' rt) := (reads_str fs).same_document rt h h'

/-- C42: changing only the layout of a text changes nothing about what is read. -/
theorem c42_layout (fs : FS) (rt : Rt) (text text' : Str) (h : RelaidDoc text text') :
    SameReading (fromStr fs text rt) (fromStr fs text' rt) := (reads_str fs).layout rt h

/-- C42: and when a well-formed text is rejected, the relaid text is rejected for the same reason. -/
theorem c42_same_reason (fs : FS) (rt : Rt) (d : List Field) (text text' : Str) (h : RelaidDoc text text')
    (hd : SpDoc d text) (e : ParseError) (he : fromStr fs text rt = .err e) :
    ∃ e' reason, fromStr fs text' rt = .err e' ∧ meaning fs none [] d rt = .error reason ∧
      reason.Reported e ∧ reason.Reported e' := (reads_str fs).same_reason rt h hd he

/-- C42: a gap in front of a text, and one behind it, change nothing. -/
theorem c42_around (fs : FS) (rt : Rt) (text g g' : Str) (hg : Gap g) (hg' : EndGap g') (o : Obj) (s : PState)
    (h : fromStr fs text rt = .ok o s) :
    ∃ s', fromStr fs (g ++ (text ++ '\n' :: g')) rt = .ok o s' ∧ s'.rt = s.rt := (reads_str fs).around rt hg hg' h

section
variable (fs fs' : FS) (path full text text' : Str) (hp : fs.resolve path = some full) (hu : fs.utf8 full = true)
  (hr : fs.read path = .ok text) (he : fs.Edited path text' fs') (rt : Rt)
include hp hu hr he

/-- C42: when only the layout of a file is changed, nothing changes about what `Obj::from_file` reads. -/
theorem c42_layout_of_file (h : RelaidDoc text text') : SameReading (fromFile fs path rt) (fromFile fs' path rt) := by
  rw [(FS.Edited.same hr).reading hr, he.reading hr]
  exact (reads_file hp hu hr).layout rt h

/-- C42: … and when a well-formed file is rejected, the relaid file is rejected for the same reason. -/
theorem c42_same_reason_in_file (h : RelaidDoc text text') (d : List Field) (hd : SpDoc d text) (e : ParseError)
    (hx : fromFile fs path rt = .err e) :
    ∃ e' reason, fromFile fs' path rt = .err e' ∧ meaning fs (some path) [full] d rt = .error reason ∧
      reason.Reported e ∧ reason.Reported e' := by
  rw [(FS.Edited.same hr).reading hr] at hx
  rw [he.reading hr]
  exact (reads_file hp hu hr).same_reason rt h hd hx

end

end

/-! ## Examples -/

section
attribute [local instance] sampleUnicode

/-- The same document with and without comments, on one line and on several. -/
theorem sampleRelaid : RelaidDoc c!"a: [ 1 {b: \"# x\"} ]" c!"# start\na:[1 # one\n\n{ b:\"# x\"}\t]  # end" := by
  refine ⟨[], c!"# start\n", _, _, .nil, .comment (t := c!" start") (by decide) .nil, ?_, rfl, rfl⟩
  refine .char (by decide) (by decide) (by decide) ?_
  refine .after (c := ':') (g := c!" ") (g' := []) (by decide) (.ws (by decide) .nil) .nil ?_
  refine .after (c := '[') (g := c!" ") (g' := []) (by decide) (.ws (by decide) .nil) .nil ?_
  refine .char (by decide) (by decide) (by decide) ?_
  refine .gap (g := c!" ") (g' := c!" # one\n\n") (.ws (by decide) .nil)
    (.ws (by decide) (.comment (t := c!" one") (by decide) (.ws (by decide) .nil))) (by decide) (by decide) ?_
  refine .after (c := '{') (g := []) (g' := c!" ") (by decide) .nil (.ws (by decide) .nil) ?_
  refine .char (by decide) (by decide) (by decide) ?_
  refine .after (c := ':') (g := c!" ") (g' := []) (by decide) (.ws (by decide) .nil) .nil ?_
  refine .string (x := c!"# x") (b := c!"# x") ?_ ?_
  · exact .raw (by decide) (by decide) (.raw (by decide) (by decide) (.raw (by decide) (by decide) .nil))
  refine .char (by decide) (by decide) (by decide) ?_
  refine .before (c := ']') (g := c!" ") (g' := c!"\t") (by decide) (.ws (by decide) .nil) (.ws (by decide) .nil) ?_
  exact .last (.gap .nil) (.comment (s := c!"  ") (t := c!" end") (.ws (by decide) (.ws (by decide) .nil)) (by decide))

attribute [local irreducible] SameReading in
example : SameReading (fromStr noFiles c!"a: [ 1 {b: \"# x\"} ]" startRt)
    (fromStr noFiles c!"# start\na:[1 # one\n\n{ b:\"# x\"}\t]  # end" startRt) :=
  c42_layout _ _ _ _ sampleRelaid

/-- That one is an error (the elements have different types); here both runs succeed. -/
example : ∃ s, fromStr noFiles c!"a: ( 1\n{b: \"# x\"} ) # end" startRt = .ok (.mk 2
    [.mk c!"a" (.tup 1 [.int, .obj] [.int 1, .obj (.mk 0 [.mk c!"b" (.str c!"# x")] none)])] none) s :=
  Res.gives_ok (by decide +kernel)

example : ∃ s', fromStr noFiles (c!" # c\n" ++ (c!"a:1" ++ '\n' :: c!" #end")) startRt = .ok (.mk 0 [.mk c!"a" (.int 1)] none) s' := by
  obtain ⟨s, hs⟩ : ∃ s, fromStr noFiles c!"a:1" startRt = .ok (.mk 0 [.mk c!"a" (.int 1)] none) s :=
    Res.gives_ok (by decide +kernel)
  obtain ⟨s', h, -⟩ := c42_around noFiles startRt c!"a:1" c!" # c\n" c!" #end"
    (.ws (by decide) (.comment (t := c!" c") (by decide) .nil))
    (.comment (s := c!" ") (t := c!"end") (.ws (by decide) .nil) (by decide)) _ s hs
  exact ⟨s', h⟩

attribute [local irreducible] SameReading in
/-- A file that is laid out anew. -/
example : SameReading (fromFile (files [(c!"f", c!"a: [ 1 {b: \"# x\"} ]")]) c!"f" startRt)
    (fromFile ((files [(c!"f", c!"a: [ 1 {b: \"# x\"} ]")]).edit c!"f" c!"# start\na:[1 # one\n\n{ b:\"# x\"}\t]  # end") c!"f" startRt) :=
  c42_layout_of_file _ _ c!"f" c!"f" _ _ (by decide +kernel) (by decide +kernel) (by decide +kernel)
    (FS.edit_edited (full := c!"f") (by decide +kernel) (by decide +kernel)) _ sampleRelaid

/-- Whether two values are separated at all does matter. -/
example : (fromStr noFiles c!"a:[1 2]" startRt).written = some c!"a: [\n    1\n    2\n]\n" ∧
    (fromStr noFiles c!"a:[12]" startRt).written = some c!"a: [12]\n" ∧
    (fromStr noFiles c!"a:[1\"x\"]" startRt).kind ≠ none := by decide +kernel

end

end Over
