import Verif.Props.FoldFiles
import Verif.Props.Shown

/-!
# C90: in the files of a project
-/

namespace Over

section
variable [Unicode]

/-- `fs'` is the file system after, in some files with definitions, closed parts were replaced by what is displayed for their values; the paths
lead where they led. -/
structure FS.ShownTo (fs fs' : FS) : Prop where
  resolve : fs'.resolve = fs.resolve
  utf8 : fs'.utf8 = fs.utf8
  openErr : fs'.openErr = fs.openErr
  files : ∀ c, StrMap.get fs'.nodes c = StrMap.get fs.nodes c ∨
    ∃ t t' fd fds d', StrMap.get fs.nodes c = some (.ok t) ∧ StrMap.get fs'.nodes c = some (.ok t') ∧ SpDoc (fd :: fds) t ∧ SpDoc d' t' ∧
      FoldFields ShownAlone (fd :: fds) d' ∧ Field.levelsL (fd :: fds) ≤ 63 ∧ Field.levelsL d' ≤ 63

theorem FS.ShownTo.folded {fs fs' : FS} (h : fs.ShownTo fs') : fs.FoldedTo fs' where
  resolve := h.resolve
  utf8 := h.utf8
  openErr := h.openErr
  files c := by
    rcases h.files c with e | ⟨t, t', fd, fds, d', e, e', hd, hd', hi, l, l'⟩
    · exact .inl e
    · exact .inr ⟨t, t', e, e', .of_doc hd hd' (hi.mono fun _ _ h => h.same.1) l l'⟩

/-- C90: the same for a whole project: closed parts are replaced by what is displayed for their values in the text and in the files that it
includes, directly or not, where only files that stay the same are included as `Str`. -/
theorem c90_project (fs fs' : FS) (h : fs.ShownTo fs') (hb : fs.BareTextsKept fs') (rt rt' : Rt) (hf : rt.Fine) (hf' : rt'.Fine)
    (d d' : List Field) (text text' : Str) (hd : SpDoc d text) (hd' : SpDoc d' text')
    (hi : d = d' ∨ FoldFields ShownAlone d d' ∧ Field.levelsL d ≤ 63 ∧ Field.levelsL d' ≤ 63) (hk : BareTextsKept fs fs' none text) :
    EndAlike (fromStr fs text rt) (fromStr fs' text' rt') :=
  c89_project fs fs' h.folded hb rt rt' hf hf' d d' text text' hd hd' (hi.imp_right fun h => ⟨h.1.mono fun _ _ h => h.same.1, h.2⟩) hk

/-- C90: … and for a file of the project that spells an object. -/
theorem c90_project_file (fs fs' : FS) (h : fs.ShownTo fs') (hb : fs.BareTextsKept fs') (rt rt' : Rt) (hf : rt.Fine) (hf' : rt'.Fine)
    (path full text : Str) (hp : fs.resolve path = some full) (hu : fs.utf8 full = true) (hr : fs.read path = .ok text) (d : List Field)
    (hd : SpDoc d text) : EndAlike (fromFile fs path rt) (fromFile fs' path rt') :=
  c89_project_file fs fs' h.folded hb rt rt' hf hf' path full text hp hu hr d hd

end

/-! ## Example -/

section
attribute [local instance] sampleUnicode

theorem sampleSum_shownAlone : ∃ e', SpExpr e' c!"[\n    1\n    2\n]" ∧ ShownAlone sampleSum e' ∧ e'.levels ≤ 63 := by
  obtain ⟨o, s, v, text, h1, h2, h3, h4, rfl⟩ := sampleSum_shown
  obtain ⟨e', h5, h6, h7⟩ := c90_shown_same sampleSum _ sampleSum_sp (by decide) (by decide) o s h1 v h2 h3 _ h4
  exact ⟨e', h5, ⟨by decide, by decide, _, o, s, v, _, sampleSum_sp, h1, h2, h3, h4, h5⟩, by omega⟩

theorem shownFiles_shown : (foldFiles c!" x:3 y:[1]+[2] z:3+x").ShownTo (foldFiles c!" x:3 y:[\n    1\n    2\n] z:3+x") where
  resolve := rfl
  utf8 := rfl
  openErr := rfl
  files k := by
    by_cases h1 : k = c!"main"
    · subst h1
      exact .inl rfl
    by_cases h2 : k = c!"l"
    · subst h2
      obtain ⟨e', h3, h4, h5⟩ := sampleSum_shownAlone
      refine .inr ⟨_, _, _, _, _, rfl, rfl,
        sampleRest_sp sampleSum_sp (.int (sampleIntLit (n := 3) (c := '3') (by decide) (by decide))),
        sampleRest_sp h3 (.int (sampleIntLit (n := 3) (c := '3') (by decide) (by decide))),
        .cons (.mk (.same _) .nil) (.cons (.swap h4) (.cons (.mk (.same _) (.cons (.same _) .nil)) .nil)), by decide, ?_⟩
      simp only [Field.levelsL, Expr.levels, Term.levels, OpTerm.levelsL, sampleRest, sampleThree]
      omega
    have e1 : (c!"main" == k) = false := by simpa using fun h => h1 h.symm
    have e2 : (c!"l" == k) = false := by simpa using fun h => h2 h.symm
    refine .inl ?_
    simp only [StrMap.get, foldFiles, Over.files, List.map_cons, List.map_nil, List.find?_cons, e1, e2, List.find?_nil]

end

end Over
