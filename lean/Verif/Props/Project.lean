import Verif.Lemmas.PlainText
import Verif.Props.Layout
import Verif.Spec.Project

/-!
# C78: a whole project can be laid out anew

C42 is about the text that is read.  Here the files that it includes, and the files that those include, are laid out anew
or spelled in another way as well (`Spec/Project.lean`).
-/

namespace Over

section
variable [Unicode] (fs fs' : FS) (rt : Rt) (hf : rt.Fine)
include hf

section
variable (h : fs.Respelled fs') (hb : fs.BareTextsKept fs')
include h hb

/-- C78: respelling the text and the files that it includes, directly or not, changes nothing about what is read. -/
theorem c78_respelled (text text' : Str) (ht : ∀ d, SpDoc d text ↔ SpDoc d text') (hk : BareTextsKept fs fs' none text) :
    SameReading (fromStr fs text rt) (fromStr fs' text' rt) := by
  by_cases hd : ∃ d, SpDoc d text
  · obtain ⟨d, hd⟩ := hd
    have h1 := (reads_str fs).means rt hd
    have h2 := (reads_str fs').means rt ((ht d).1 hd)
    rw [← meaning_respelled h hb none [] (hk.1 d hd) rt hf] at h2
    exact h1.sameReading h2
  · have hd' : ¬ ∃ d, SpDoc d text' := fun ⟨d, h1⟩ => hd ⟨d, (ht d).2 h1⟩
    obtain ⟨e, he⟩ := (reads_str fs).rejects rt hd
    obtain ⟨e', he'⟩ := (reads_str fs').rejects rt hd'
    rw [he, he']
    trivial

/-- C78: … and when a well-formed text is rejected, it is rejected for the same reason, in the same file. -/
theorem c78_same_reason (text text' : Str) (ht : ∀ d, SpDoc d text ↔ SpDoc d text') (hk : BareTextsKept fs fs' none text)
    (d : List Field) (hd : SpDoc d text) (e : ParseError) (he : fromStr fs text rt = .err e) :
    ∃ e' reason, fromStr fs' text' rt = .err e' ∧ meaning fs none [] d rt = .error reason ∧ reason.Reported e ∧ reason.Reported e' := by
  have h1 := (reads_str fs).means rt hd
  have h2 := (reads_str fs').means rt ((ht d).1 hd)
  rw [← meaning_respelled h hb none [] (hk.1 d hd) rt hf] at h2
  rw [he] at h1
  cases hm : meaning fs none [] d rt with
  | ok x => rw [hm] at h1; exact h1.elim
  | error r =>
    rw [hm] at h1 h2
    obtain ⟨e', h3, h4⟩ := h2.of_error
    exact ⟨e', r, h3, rfl, h1, h4⟩

/-- C78: respelling a file and the files that it includes, directly or not, changes nothing about what `Obj::from_file`
reads. -/
theorem c78_respelled_file (path full : Str) (hp : fs.resolve path = some full) (hu : fs.utf8 full = true) :
    SameReading (fromFile fs path rt) (fromFile fs' path rt) := by
  have hp' : fs'.resolve path = some full := by rw [h.resolve, hp]
  have hu' : fs'.utf8 full = true := by rw [h.utf8, hu]
  have key : ∀ t t', fs.read path = .ok t → fs'.read path = .ok t' → (∀ d, SpDoc d t ↔ SpDoc d t') →
      SameReading (fromFile fs path rt) (fromFile fs' path rt) := by
    intro t t' hr hr' ht
    rw [(FS.Edited.same hr).reading hr, (FS.Edited.same hr').reading hr']
    have R := reads_file hp hu hr
    have R' := reads_file hp' hu' hr'
    by_cases hd : ∃ d, SpDoc d t
    · obtain ⟨d, hd⟩ := hd
      have h1 := R.means rt hd
      have h2 := R'.means rt ((ht d).1 hd)
      rw [← meaning_respelled h hb _ _ ((hb path t hr).1 d hd) rt hf] at h2
      exact h1.sameReading h2
    · have hd' : ¬ ∃ d, SpDoc d t' := fun ⟨d, h1⟩ => hd ⟨d, (ht d).2 h1⟩
      obtain ⟨e, he⟩ := R.rejects rt hd
      obtain ⟨e', he'⟩ := R'.rejects rt hd'
      rw [he, he']
      trivial
  rcases h.read path with hr | ⟨t, t', hr, hr', ht⟩
  · cases hx : fs.read path with
    | error m =>
      unfold fromFile
      rw [hr, hx]
      trivial
    | ok t => exact key t t hx (by rw [hr, hx]) (fun _ => Iff.rfl)
  · exact key t t' hr hr' ht.1

/-- C78: … and when a well-formed file is rejected, it is rejected for the same reason. -/
theorem c78_same_reason_in_file (path full t : Str) (hp : fs.resolve path = some full) (hu : fs.utf8 full = true)
    (hr : fs.read path = .ok t) (d : List Field) (hd : SpDoc d t) (e : ParseError) (he : fromFile fs path rt = .err e) :
    ∃ e' reason, fromFile fs' path rt = .err e' ∧ meaning fs (some path) [full] d rt = .error reason ∧
      reason.Reported e ∧ reason.Reported e' := by
  have hp' : fs'.resolve path = some full := by rw [h.resolve, hp]
  have hu' : fs'.utf8 full = true := by rw [h.utf8, hu]
  have key : ∀ t', fs'.read path = .ok t' → (SpDoc d t') → ∃ e' reason, fromFile fs' path rt = .err e' ∧
      meaning fs (some path) [full] d rt = .error reason ∧ reason.Reported e ∧ reason.Reported e' := by
    intro t' hr' hd'
    have h1 := (reads_file hp hu hr).means rt hd
    have h2 := (reads_file hp' hu' hr').means rt hd'
    rw [← (FS.Edited.same hr).reading hr] at h1
    rw [← (FS.Edited.same hr').reading hr', ← meaning_respelled h hb _ _ ((hb path t hr).1 d hd) rt hf] at h2
    rw [he] at h1
    cases hm : meaning fs (some path) [full] d rt with
    | ok x => rw [hm] at h1; exact h1.elim
    | error r =>
      rw [hm] at h1 h2
      obtain ⟨e', h3, h4⟩ := h2.of_error
      exact ⟨e', r, h3, rfl, h1, h4⟩
  rcases h.read path with hs | ⟨t1, t', hr1, hr', ht⟩
  · exact key t (by rw [hs, hr]) hd
  · rw [hr] at hr1
    cases hr1
    exact key t' hr' ((ht.1 d).1 hd)

end

omit hf in
/-- Laying out anew is respelling. -/
theorem FS.RelaidTo.respelled {fs fs' : FS} (h : fs.RelaidTo fs') : fs.Respelled fs' where
  resolve := h.resolve
  utf8 := h.utf8
  openErr := h.openErr
  files c := by
    rcases h.files c with e | ⟨t, t', e, e', hr⟩
    · exact .inl e
    · exact .inr ⟨t, t', e, e', hr.spelledAlike⟩

/-- C78: when a text and files that contain only includes of the form `<"path">` are laid out anew, nothing changes about
what is read. -/
theorem c78_relaid (h : fs.RelaidTo fs') (hp : ∀ path t, fs.read path = .ok t → PlainText t) (text text' : Str)
    (ht : RelaidDoc text text') (hpt : PlainText text) : SameReading (fromStr fs text rt) (fromStr fs' text' rt) :=
  c78_respelled fs fs' rt hf h.respelled (fun path t hr => (hp path t hr).kept fs fs' _) text text' (fun _ => spDoc_relaid_iff ht)
    (hpt.kept fs fs' _)

/-- C78: … and of files. -/
theorem c78_relaid_files (h : fs.RelaidTo fs') (hp : ∀ path t, fs.read path = .ok t → PlainText t) (path full : Str)
    (hr : fs.resolve path = some full) (hu : fs.utf8 full = true) : SameReading (fromFile fs path rt) (fromFile fs' path rt) :=
  c78_respelled_file fs fs' rt hf h.respelled (fun path t hr => (hp path t hr).kept fs fs' _) path full hr hu

end

/-! ## Examples -/

/-- A check of `PlainText`. -/
def plainText : Str → Bool
  | [] => true
  | c :: s => (c != '<' || s.head? == some '"') && plainText s

theorem plainText_spec : ∀ (s : Str), plainText s = true → PlainText s
  | [], _, u, v, h => by simp at h
  | c :: s, hs, u, v, h => by
    simp only [plainText, Bool.and_eq_true, Bool.or_eq_true, bne_iff_ne, beq_iff_eq] at hs
    cases u with
    | nil =>
      simp only [List.nil_append, List.cons.injEq] at h
      obtain ⟨rfl, rfl⟩ := h
      exact hs.1.resolve_left (fun h => h rfl)
    | cons d u =>
      simp only [List.cons_append, List.cons.injEq] at h
      exact plainText_spec s hs.2 u v h.2

section
attribute [local instance] sampleUnicode

/-- A project of two files … -/
def projectFiles : FS := files [(c!"main", c!"x: <\"lib\"> # the library\ny: x.a"), (c!"lib", c!"a: ( 1 {b: \"# x\"} )")]
/-- … and the same project laid out anew. -/
def relaidFiles : FS := files [(c!"main", c!"x:< \"lib\"\n>\ty: x.a"), (c!"lib", c!"# start\na:(1 # one\n\n{ b:\"# x\"}\t)  # end")]

theorem libRelaid : RelaidDoc c!"a: ( 1 {b: \"# x\"} )" c!"# start\na:(1 # one\n\n{ b:\"# x\"}\t)  # end" := by
  refine ⟨[], c!"# start\n", _, _, .nil, .comment (t := c!" start") (by decide) .nil, ?_, rfl, rfl⟩
  refine .char (by decide) (by decide) (by decide) ?_
  refine .after (c := ':') (g := c!" ") (g' := []) (by decide) (.ws (by decide) .nil) .nil ?_
  refine .after (c := '(') (g := c!" ") (g' := []) (by decide) (.ws (by decide) .nil) .nil ?_
  refine .char (by decide) (by decide) (by decide) ?_
  refine .gap (g := c!" ") (g' := c!" # one\n\n") (.ws (by decide) .nil)
    (.ws (by decide) (.comment (t := c!" one") (by decide) (.ws (by decide) .nil))) (by decide) (by decide) ?_
  refine .after (c := '{') (g := []) (g' := c!" ") (by decide) .nil (.ws (by decide) .nil) ?_
  refine .char (by decide) (by decide) (by decide) ?_
  refine .after (c := ':') (g := c!" ") (g' := []) (by decide) (.ws (by decide) .nil) .nil ?_
  refine .string (x := c!"# x") (b := c!"# x") ?_ ?_
  · exact .raw (by decide) (by decide) (.raw (by decide) (by decide) (.raw (by decide) (by decide) .nil))
  refine .char (by decide) (by decide) (by decide) ?_
  refine .before (c := ')') (g := c!" ") (g' := c!"\t") (by decide) (.ws (by decide) .nil) (.ws (by decide) .nil) ?_
  exact .last (.gap .nil) (.comment (s := c!"  ") (t := c!" end") (.ws (by decide) (.ws (by decide) .nil)) (by decide))

theorem mainRelaid : RelaidDoc c!"x: <\"lib\"> # the library\ny: x.a" c!"x:< \"lib\"\n>\ty: x.a" := by
  refine ⟨[], [], _, _, .nil, .nil, ?_, rfl, rfl⟩
  refine .char (by decide) (by decide) (by decide) ?_
  refine .after (c := ':') (g := c!" ") (g' := []) (by decide) (.ws (by decide) .nil) .nil ?_
  refine .after (c := '<') (g := []) (g' := c!" ") (by decide) .nil (.ws (by decide) .nil) ?_
  refine .string (x := c!"lib") (b := c!"lib") ?_ ?_
  · exact .raw (by decide) (by decide) (.raw (by decide) (by decide) (.raw (by decide) (by decide) .nil))
  refine .before (c := '>') (g := []) (g' := c!"\n") (by decide) .nil (.ws (by decide) .nil) ?_
  refine .gap (g := c!" # the library\n") (g' := c!"\t") (.ws (by decide) (.comment (t := c!" the library") (by decide) .nil))
    (.ws (by decide) .nil) (by decide) (by decide) ?_
  exact .same _

theorem project_relaid : projectFiles.RelaidTo relaidFiles where
  resolve := rfl
  utf8 := rfl
  openErr := rfl
  files c := by
    by_cases h1 : c = c!"main"
    · subst h1; exact .inr ⟨_, _, rfl, rfl, mainRelaid⟩
    by_cases h2 : c = c!"lib"
    · subst h2; exact .inr ⟨_, _, rfl, rfl, libRelaid⟩
    refine .inl ?_
    have e1 : (c!"main" == c) = false := by simpa using fun h => h1 h.symm
    have e2 : (c!"lib" == c) = false := by simpa using fun h => h2 h.symm
    simp only [StrMap.get, projectFiles, relaidFiles, Over.files, List.map_cons, List.map_nil, List.find?_cons, e1, e2, List.find?_nil]

theorem project_plain (path t : Str) (h : projectFiles.read path = .ok t) : PlainText t := by
  have : t = c!"x: <\"lib\"> # the library\ny: x.a" ∨ t = c!"a: ( 1 {b: \"# x\"} )" := by
    simp only [FS.read] at h
    split at h
    · split at h
      · rename_i c _ r hr
        subst h
        simp only [StrMap.get] at hr
        split at hr
        · rename_i e he
          have hm := List.mem_of_find?_eq_some he
          simp only [projectFiles, Over.files, List.map_cons, List.map_nil, List.mem_cons, List.not_mem_nil, or_false] at hm
          rcases hm with rfl | rfl
          · cases hr; exact .inl rfl
          · cases hr; exact .inr rfl
        · cases hr
      · cases h
    · cases h
  rcases this with rfl | rfl
  · exact plainText_spec _ (by decide +kernel)
  · exact plainText_spec _ (by decide +kernel)

attribute [local irreducible] SameReading in
example : SameReading (fromFile projectFiles c!"main" startRt) (fromFile relaidFiles c!"main" startRt) :=
  c78_relaid_files _ _ _ startRt_fine project_relaid project_plain c!"main" c!"main" (by decide +kernel) rfl

attribute [local irreducible] SameReading in
example : SameReading (fromStr projectFiles c!"x: <\"main\">" startRt) (fromStr relaidFiles c!"x: <\"main\">" startRt) :=
  c78_relaid _ _ _ startRt_fine project_relaid project_plain _ _ ⟨[], [], _, _, .nil, .nil, .same _, rfl, rfl⟩
    (plainText_spec _ (by decide +kernel))

/-- Both runs succeed. -/
example : (fromFile projectFiles c!"main" startRt).written =
    some c!"x: {\n    a: (\n        1\n        {\n            b: \"# x\"\n        }\n    )\n}\ny: (\n    1\n    {\n        b: \"# x\"\n    }\n)\n" := by
  decide +kernel

/-- A file that is included as `Str` must not be laid out anew. -/
example : (fromStr projectFiles c!"x: <Str \"lib\">" startRt).written ≠ (fromStr relaidFiles c!"x: <Str \"lib\">" startRt).written := by
  decide +kernel

end

end Over
