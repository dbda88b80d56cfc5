import Verif.Lemmas.FoldFiles
import Verif.Props.Fold
import Verif.Props.Project

/-!
# C89: closed parts replaced in the files of a project

`TextFolded` and `FS.FoldedTo` are in `Spec/FoldFiles.lean`, `BareTextsKept` in `Spec/Project.lean`.
-/

namespace Over

section
variable [Unicode]

/-- What two ways of reading do, if the documents have the same meaning. -/
theorem endAlike_both {fs fs' : FS} {file : Option Str} {stack : List Str} {R R' : Str → Rt → Res Obj} (hR : Reads fs file stack R)
    (hR' : Reads fs' file stack R') {rt rt' : Rt} (h : rt.Fine) (h' : rt'.Fine) {d d' : List Field} {text text' : Str} (hd : SpDoc d text)
    (hd' : SpDoc d' text') (hm : (∃ e, meaning fs file stack d warmRt = .error e ∧ meaning fs' file stack d' warmRt = .error e) ∨
      ∃ o o' st st', meaning fs file stack d warmRt = .ok (o, st) ∧ meaning fs' file stack d' warmRt = .ok (o', st') ∧ o.data = o'.data) :
    EndAlike (R text rt) (R' text' rt') := by
  have hx := hR.same text h warmRt_warm.fine
  have hy := hR'.same text' h' warmRt_warm.fine
  have h1 := hR.means warmRt hd
  have h2 := hR'.means warmRt hd'
  rcases hm with ⟨se, e1, e2⟩ | ⟨o, o', st, st', e1, e2, h3⟩
  · rw [e1] at h1
    rw [e2] at h2
    obtain ⟨e, e1, he⟩ := h1.of_error
    obtain ⟨e', e1', he'⟩ := h2.of_error
    exact .inr ⟨e, e', se, hx.carry.2 _ e1, hy.carry.2 _ e1', he, he'⟩
  · rw [e1] at h1
    rw [e2] at h2
    obtain ⟨s, e1, -⟩ := h1.of_ok
    obtain ⟨s', e1', -⟩ := h2.of_ok
    obtain ⟨q, t, e2, e3⟩ := hx.carry.1 _ _ e1
    obtain ⟨q', t', e2', e3'⟩ := hy.carry.1 _ _ e1'
    have hdt : q.data = q'.data := e3.trans (h3.trans e3'.symm)
    exact .inl ⟨q, t, q', t', e2, e2', (c09_obj_eq_iff q q' (hR.typed e2) (hR'.typed e2')).2 hdt, c20_write_ignores_identity q q' hdt⟩

theorem FS.FoldedTo.means {fs fs' : FS} (h : fs.FoldedTo fs') (hb : fs.BareTextsKept fs') {file : Option Str} {stack : List Str}
    {d d' : List Field} (hi : d = d' ∨ FoldDoc d d' ∧ Field.levelsL d ≤ 63 ∧ Field.levelsL d' ≤ 63)
    (hk : Field.barely (KeptIn fs fs' file) d) : (∃ e, meaning fs file stack d warmRt = .error e ∧ meaning fs' file stack d' warmRt = .error e) ∨
      ∃ o o' st st', meaning fs file stack d warmRt = .ok (o, st) ∧ meaning fs' file stack d' warmRt = .ok (o', st') ∧ o.data = o'.data :=
  (FF.meaning_fold_files (fun _ _ h => h.swappable) h hb hi hk warmRt_warm warmRt_warm).imp_right
    fun ⟨o, o', st, st', h1, h2, h3⟩ => ⟨o, o', st, st', h1, h2, h3.data⟩

/-- C89: the same for a whole project: when closed parts are replaced by others with the same values in the text and in the files that it
includes, directly or not, `Obj::from_str` ends alike before and after, if only files that stay the same are included as `Str`. -/
theorem c89_project (fs fs' : FS) (h : fs.FoldedTo fs') (hb : fs.BareTextsKept fs') (rt rt' : Rt) (hf : rt.Fine) (hf' : rt'.Fine)
    (d d' : List Field) (text text' : Str) (hd : SpDoc d text) (hd' : SpDoc d' text')
    (hi : d = d' ∨ FoldDoc d d' ∧ Field.levelsL d ≤ 63 ∧ Field.levelsL d' ≤ 63) (hk : BareTextsKept fs fs' none text) :
    EndAlike (fromStr fs text rt) (fromStr fs' text' rt') :=
  endAlike_both (reads_str fs) (reads_str fs') hf hf' hd hd' (h.means hb hi (hk.1 d hd))

/-- C89: … and for a file of the project that spells an object. -/
theorem c89_project_file (fs fs' : FS) (h : fs.FoldedTo fs') (hb : fs.BareTextsKept fs') (rt rt' : Rt) (hf : rt.Fine) (hf' : rt'.Fine)
    (path full text : Str) (hp : fs.resolve path = some full) (hu : fs.utf8 full = true) (hr : fs.read path = .ok text) (d : List Field)
    (hd : SpDoc d text) : EndAlike (fromFile fs path rt) (fromFile fs' path rt') := by
  have hp' : fs'.resolve path = some full := by rw [h.resolve, hp]
  have hu' : fs'.utf8 full = true := by rw [h.utf8, hu]
  obtain ⟨text', d', hr', hd', hi⟩ : ∃ text' d', fs'.read path = .ok text' ∧ SpDoc d' text' ∧
      (d = d' ∨ FoldDoc d d' ∧ Field.levelsL d ≤ 63 ∧ Field.levelsL d' ≤ 63) := by
    rcases h.read path with e | ⟨t, t', e, hr', rfl | ⟨ht, -⟩⟩
    · exact ⟨text, d, e.trans hr, hd, .inl rfl⟩
    · rw [hr] at e
      cases e
      exact ⟨_, d, hr', hd, .inl rfl⟩
    · rw [hr] at e
      cases e
      obtain ⟨l, d', hd', hi, l'⟩ := ht d hd
      exact ⟨_, d', hr', hd', .inr ⟨hi, l, l'⟩⟩
  rw [(FS.Edited.same hr).reading hr, (FS.Edited.same hr').reading hr']
  exact endAlike_both (reads_file hp hu hr) (reads_file hp' hu' hr') hf hf' hd hd' (h.means hb hi ((hb path text hr).1 d hd))

/-- C89: … so a file of the project is accepted before if and only if it is accepted after, and then the objects are equal. -/
theorem c89_project_accepted (fs fs' : FS) (h : fs.FoldedTo fs') (hb : fs.BareTextsKept fs') (rt rt' : Rt) (hf : rt.Fine) (hf' : rt'.Fine)
    (path full text : Str) (hp : fs.resolve path = some full) (hu : fs.utf8 full = true) (hr : fs.read path = .ok text) (d : List Field)
    (hd : SpDoc d text) :
    (∀ o s, fromFile fs path rt = .ok o s → ∃ o' s', fromFile fs' path rt' = .ok o' s' ∧ o.eq o' = true) ∧
    (∀ o' s', fromFile fs' path rt' = .ok o' s' → ∃ o s, fromFile fs path rt = .ok o s ∧ o.eq o' = true) := by
  rcases c89_project_file fs fs' h hb rt rt' hf hf' path full text hp hu hr d hd with ⟨o, s, o', s', h1, h2, h3, -⟩ | ⟨e, e', -, h1, h2, -⟩
  · refine ⟨fun p t hpt => ?_, fun p t hpt => ?_⟩
    · rw [h1] at hpt; cases hpt; exact ⟨o', s', h2, h3⟩
    · rw [h2] at hpt; cases hpt; exact ⟨o, s, h1, h3⟩
  · refine ⟨fun p t hpt => ?_, fun p t hpt => ?_⟩
    · rw [h1] at hpt; cases hpt
    · rw [h2] at hpt; cases hpt

/-- For the text of an object with definitions, only these have to be compared. -/
theorem TextFolded.of_doc {fd : Field} {fds d' : List Field} {t t' : Str} (hd : SpDoc (fd :: fds) t) (hd' : SpDoc d' t')
    (hi : FoldDoc (fd :: fds) d') (hl : Field.levelsL (fd :: fds) ≤ 63) (hl' : Field.levelsL d' ≤ 63) : TextFolded t t' := by
  refine .inr ⟨fun d h => ?_, fun _ _ => ⟨_, hd⟩, fun es h => (fields_not_items hd h).elim, fun es h => ?_⟩
  · rw [spDoc_unique h hd]
    exact ⟨hl, d', hd', hi, hl'⟩
  · cases hi with
    | cons => exact (fields_not_items hd' h).elim

end

/-! ## Example -/

section
attribute [local instance] sampleUnicode

/-- A file `l` and one that includes it. -/
def foldFiles (l : Str) : FS := files [(c!"main", c!"a:<\"l\">"), (c!"l", l)]

theorem foldFiles_folded : (foldFiles c!" x:3 y:[1 2] z:3+x").FoldedTo (foldFiles c!" x:3 y:[1]+[2] z:3+x") where
  resolve := rfl
  utf8 := rfl
  openErr := rfl
  files k := by
    by_cases h1 : k = c!"main"
    · subst h1
      exact .inl rfl
    by_cases h2 : k = c!"l"
    · subst h2
      exact .inr ⟨_, _, rfl, rfl, .of_doc
        (sampleRest_sp samplePairArr_sp (.int (sampleIntLit (n := 3) (c := '3') (by decide) (by decide))))
        (sampleRest_sp sampleSum_sp (.int (sampleIntLit (n := 3) (c := '3') (by decide) (by decide)))) sampleFold (by decide) (by decide)⟩
    have e1 : (c!"main" == k) = false := by simpa using fun h => h1 h.symm
    have e2 : (c!"l" == k) = false := by simpa using fun h => h2 h.symm
    refine .inl ?_
    simp only [StrMap.get, foldFiles, Over.files, List.map_cons, List.map_nil, List.find?_cons, e1, e2, List.find?_nil]

theorem foldFiles_kept : (foldFiles c!" x:3 y:[1 2] z:3+x").BareTextsKept (foldFiles c!" x:3 y:[1]+[2] z:3+x") := by
  intro path t h
  have : t = c!"a:<\"l\">" ∨ t = c!" x:3 y:[1 2] z:3+x" := by
    simp only [FS.read] at h
    split at h
    · split at h
      · rename_i c _ r hr
        subst h
        simp only [StrMap.get] at hr
        split at hr
        · rename_i e he
          have hm := List.mem_of_find?_eq_some he
          simp only [foldFiles, Over.files, List.map_cons, List.map_nil, List.mem_cons, List.not_mem_nil, or_false] at hm
          rcases hm with rfl | rfl
          · cases hr; exact .inl rfl
          · cases hr; exact .inr rfl
        · cases hr
      · cases h
    · cases h
  rcases this with rfl | rfl
  · exact (plainText_spec _ (by decide +kernel)).kept _ _ _
  · exact (plainText_spec _ (by decide +kernel)).kept _ _ _

/-- `main` includes `l`, in which `[1 2]` is replaced by `[1]+[2]`. -/
example : ∃ o s o' s', fromFile (foldFiles c!" x:3 y:[1 2] z:3+x") c!"main" startRt = .ok o s ∧
    fromFile (foldFiles c!" x:3 y:[1]+[2] z:3+x") c!"main" startRt = .ok o' s' ∧ o.eq o' = true := by
  obtain ⟨o, s, h⟩ := accepted_of_written (r := fromFile (foldFiles c!" x:3 y:[1 2] z:3+x") c!"main" startRt) (by decide +kernel)
  obtain ⟨o', s', h', e⟩ := (c89_project_accepted _ _ foldFiles_folded foldFiles_kept startRt startRt startRt_fine startRt_fine c!"main" c!"main" _
    rfl rfl rfl _ (spOne (.field (sampleFieldName 'a' (by decide))) (spInclude (sampleBody 'l')))).1 _ _ h
  exact ⟨o, s, o', s', h, h', e⟩

/-- A text that includes the changed file. -/
example : EndAlike (fromStr (foldFiles c!" x:3 y:[1 2] z:3+x") c!"a:<\"l\">" startRt)
    (fromStr (foldFiles c!" x:3 y:[1]+[2] z:3+x") c!"a:<\"l\">" startRt) :=
  have hd := spOne (.field (sampleFieldName 'a' (by decide))) (spInclude (sampleBody 'l'))
  c89_project _ _ foldFiles_folded foldFiles_kept startRt startRt startRt_fine startRt_fine _ _ _ _ hd hd (.inl rfl)
    ((plainText_spec _ (by decide +kernel)).kept _ _ _)

/-- A file that is included as `Str` must stay the same: then its text is the value. -/
example : (fromStr (foldFiles c!"x:[1 2]") c!"a:<Str \"l\">" startRt).written = some c!"a: \"x:[1 2]\"\n" ∧
    (fromStr (foldFiles c!"x:[1]+[2]") c!"a:<Str \"l\">" startRt).written = some c!"a: \"x:[1]+[2]\"\n" := by decide +kernel

end

end Over
