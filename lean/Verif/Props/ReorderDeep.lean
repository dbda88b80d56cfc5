import Verif.Lemmas.Deep4
import Verif.Props.Project
import Verif.Props.Reorder

/-! # Independent definitions can be reordered at any level, in all files of a project (C83)

`ReorderedDeep`, `EqualButOrder` and `FS.ReorderedTo` are in `Spec/ReorderDeep.lean`; `FS.BareTextsKept` is in `Spec/Project.lean`. -/

namespace Over

/-! ## Reordering is symmetric -/

mutual
theorem ReTerm.symm : ∀ (t : Term) {t' : Term}, ReTerm t t' → ReTerm t' t
  | t, _, .same _ => .same t
  | .dot _ t, _, .dot h => .dot (ReTerm.symm t h)
  | .neg t, _, .neg h => .neg (ReTerm.symm t h)
  | .pos t, _, .pos h => .pos (ReTerm.symm t h)
  | .arr es, _, .arr h => .arr (ReItems.symm es h)
  | .tup es, _, .tup h => .tup (ReItems.symm es h)
  | .obj fds, _, .obj h => .obj (ReFields.symm fds h)
  | .incl e, _, .incl h => .incl (ReExpr.symm e h)
  | .inclAs k e, _, .inclAs h h' => .inclAs (ReExpr.symm k h) (ReExpr.symm e h')
termination_by structural t => t
theorem ReExpr.symm : ∀ (t : Expr) {t' : Expr}, ReExpr t t' → ReExpr t' t
  | .mk t r, _, .mk h h' => .mk (ReTerm.symm t h) (ReOps.symm r h')
termination_by structural t => t
theorem ReOps.symm : ∀ (t : List OpTerm) {t' : List OpTerm}, ReOps t t' → ReOps t' t
  | [], _, .nil => .nil
  | .mk _ t :: r, _, .cons h h' => .cons (ReTerm.symm t h) (ReOps.symm r h')
termination_by structural t => t
theorem ReItems.symm : ∀ (t : List Expr) {t' : List Expr}, ReItems t t' → ReItems t' t
  | [], _, .nil => .nil
  | e :: r, _, .cons h h' => .cons (ReExpr.symm e h) (ReItems.symm r h')
termination_by structural t => t
theorem ReFields.symm : ∀ (t : List Field) {t' : List Field}, ReFields t t' → ReFields t' t
  | fds, _, .same _ => .same fds
  | .mk _ e :: r, _, .cons h h' => .cons (ReExpr.symm e h) (ReFields.symm r h')
  | _, _, .exchange h1 h2 h3 h4 h5 => .exchange h2 h1 h3.symm h5 h4
termination_by structural t => t
end

theorem ReorderedDeep.symm {d d' : List Field} (h : ReorderedDeep d d') : ReorderedDeep d' d := by
  induction h with
  | step h => exact .step (ReFields.symm _ h)
  | trans _ _ h1 h2 => exact .trans h2 h1

/-! ## Looking fields up -/

theorem fieldIn_find (ps : List Pair) (f : Str) : fieldIn ps f = (findPair ps f).map Pair.value := rfl

mutual
theorem EqualButOrder.get : ∀ (o : Obj) {o' : Obj}, o.EqualButOrder o' → ∀ f : Str,
    (o.get f = none ∧ o'.get f = none) ∨ ∃ v v', o.get f = some v ∧ o'.get f = some v' ∧ v.EqualButOrder v'
  | .mk i ps par, _, .mk _ i' (ps' := ps') (par' := par') hn hv hp, f => by
    have hpar := EqualButOrderO.get par hp f
    simp only [Obj.get]
    have hnone : fieldIn ps f = none ↔ fieldIn ps' f = none := by rw [fieldIn_none, fieldIn_none, hn.mem_iff]
    have hval := hv f
    simp only [fieldIn_find] at hnone hval
    cases h1 : findPair ps f with
    | none =>
      rw [h1] at hnone
      have h2 : findPair ps' f = none := Option.map_eq_none_iff.1 (hnone.1 rfl)
      rw [h2]; exact hpar
    | some p =>
      rw [h1] at hnone hval
      cases h2 : findPair ps' f with
      | none => rw [h2] at hnone; simp at hnone
      | some p' =>
        rw [h2] at hval
        exact .inr ⟨_, _, rfl, rfl, hval _ _ rfl rfl⟩
termination_by structural o => o
theorem EqualButOrderO.get : ∀ (o : Option Obj) {o' : Option Obj}, Obj.EqualButOrderO o o' → ∀ f : Str,
    (Obj.getParentField o f = none ∧ Obj.getParentField o' f = none) ∨
      ∃ v v', Obj.getParentField o f = some v ∧ Obj.getParentField o' f = some v' ∧ v.EqualButOrder v'
  | none, _, .none, f => .inl ⟨rfl, rfl⟩
  | some o, _, .some h, f => by
    simp only [Obj.getParentField]
    exact EqualButOrder.get o h f
termination_by structural o => o
end

section
variable [Unicode]

theorem equalButOrder_of {S : IncKind → Nat} {o o' o1 o2 : Obj} (e1 : o1.data = o.data) (e2 : o'.data = o2.data) (h : Deep.LikeObj S o1 o2)
    (hn : NamesOkObj o) (hn' : NamesOkObj o') : o.EqualButOrder o' := by
  refine equalObj_of_nrm (f := fun _ => 0) o o' ?_ hn hn'
  rw [← nrm_data o, ← nrm_data o', ← e1, e2, nrm_data, nrm_data]
  exact nrmObj_ids _ _ h

theorem namesOk_str {fs : FS} {text : Str} {rt : Rt} {o : Obj} {s : PState} (h : fromStr fs text rt = .ok o s) : NamesOkObj o :=
  c27_parsed_names_ok fs rt _ o s (by rw [← h]; exact Runs.str text)

theorem namesOk_file {fs : FS} {path : Str} {rt : Rt} {o : Obj} {s : PState} (h : fromFile fs path rt = .ok o s) : NamesOkObj o := by
  cases ht : fs.read path with
  | error m => unfold fromFile at h; rw [ht] at h; cases h
  | ok t => exact c27_parsed_names_ok fs rt _ o s (by rw [← h]; exact Runs.file path t ht)

/-- C83: definitions that do not depend on each other can be put in another order, in the document or in any object inside: when the text
is accepted, so is the reordered one, and the objects are equal but for the order of fields. -/
theorem c83_reordered (fs : FS) (rt rt' : Rt) (h : rt.Fine) (h' : rt'.Fine) (d d' : List Field) (text text' : Str) (hd : SpDoc d text)
    (hd' : SpDoc d' text') (hm : ReorderedDeep d d') (o : Obj) (s : PState) (hr : fromStr fs text rt = .ok o s) :
    ∃ o' s', fromStr fs text' rt' = .ok o' s' ∧ o.EqualButOrder o' := by
  obtain ⟨o1, st, h1, e1⟩ := (reads_str fs).warm_of_accepted h hd hr
  obtain ⟨o2, st2, h2, l2⟩ := Deep.meaning_re hm warmRt_warm warmRt_warm h1
  obtain ⟨o', s', h3, e3⟩ := (reads_str fs).accepted_of_warm h' hd' h2
  exact ⟨o', s', h3, equalButOrder_of e1 e3 l2 (namesOk_str hr) (namesOk_str h3)⟩

/-- C83: so one of the texts is accepted exactly when the other one is. -/
theorem c83_accepted_iff (fs : FS) (rt rt' : Rt) (h : rt.Fine) (h' : rt'.Fine) (d d' : List Field) (text text' : Str) (hd : SpDoc d text)
    (hd' : SpDoc d' text') (hm : ReorderedDeep d d') :
    (∃ o s, fromStr fs text rt = .ok o s) ↔ ∃ o s, fromStr fs text' rt' = .ok o s := by
  constructor
  · rintro ⟨o, s, hr⟩
    obtain ⟨o', s', h1, -⟩ := c83_reordered fs rt rt' h h' d d' text text' hd hd' hm o s hr
    exact ⟨o', s', h1⟩
  · rintro ⟨o, s, hr⟩
    obtain ⟨o', s', h1, -⟩ := c83_reordered fs rt' rt h' h d' d text' text hd' hd hm.symm o s hr
    exact ⟨o', s', h1⟩

/-- C83: … the same for a file. -/
theorem c83_reordered_file (fs fs' : FS) (path full text text' : Str) (hp : fs.resolve path = some full) (hu : fs.utf8 full = true)
    (hr : fs.read path = .ok text) (he : fs.Edited path text' fs') (rt rt' : Rt) (h : rt.Fine) (h' : rt'.Fine) (d d' : List Field)
    (hd : SpDoc d text) (hd' : SpDoc d' text') (hm : ReorderedDeep d d') (o : Obj) (s : PState) (hx : fromFile fs path rt = .ok o s) :
    ∃ o' s', fromFile fs' path rt' = .ok o' s' ∧ o.EqualButOrder o' := by
  have hn := namesOk_file hx
  rw [(FS.Edited.same hr).reading hr] at hx
  obtain ⟨o1, st, h1, e1⟩ := (reads_file hp hu hr).warm_of_accepted h hd hx
  obtain ⟨o2, st2, h2, l2⟩ := Deep.meaning_re hm warmRt_warm warmRt_warm h1
  obtain ⟨o', s', h3, e3⟩ := (reads_file hp hu hr).accepted_of_warm h' hd' h2
  rw [← he.reading hr] at h3
  exact ⟨o', s', h3, equalButOrder_of e1 e3 l2 hn (namesOk_file h3)⟩

omit [Unicode] in
/-- C83: objects that are equal but for the order of fields answer `Obj::get` alike: the field is in neither of them, nor in a parent, or the
values are equal but for the order of fields. -/
theorem c83_get (o o' : Obj) (h : o.EqualButOrder o') (f : Str) :
    (o.get f = none ∧ o'.get f = none) ∨ ∃ v v', o.get f = some v ∧ o'.get f = some v' ∧ v.EqualButOrder v' := EqualButOrder.get o h f

section
variable (fs fs' : FS) (rt rt' : Rt) (h : rt.Fine) (h' : rt'.Fine)
include h h'

section
variable (hm : fs.ReorderedTo fs') (hb : fs.BareTextsKept fs')
include hm hb

/-- C83: definitions can be put in another order in the text and in the files that it includes, directly or not. -/
theorem c83_project (d d' : List Field) (text text' : Str) (hd : SpDoc d text) (hd' : SpDoc d' text') (hdd : ReorderedDeep d d')
    (hk : BareTextsKept fs fs' none text) (o : Obj) (s : PState) (hr : fromStr fs text rt = .ok o s) :
    ∃ o' s', fromStr fs' text' rt' = .ok o' s' ∧ o.EqualButOrder o' := by
  obtain ⟨o1, st, h1, e1⟩ := (reads_str fs).warm_of_accepted h hd hr
  obtain ⟨o2, st2, h2, l2⟩ := Deep.meaning_project hm hb (hk.1 d hd) hdd warmRt_warm warmRt_warm h1
  obtain ⟨o', s', h3, e3⟩ := (reads_str fs').accepted_of_warm h' hd' h2
  exact ⟨o', s', h3, equalButOrder_of e1 e3 l2 (namesOk_str hr) (namesOk_str h3)⟩

/-- C83: … in a file and in the files that it includes. -/
theorem c83_project_file (path full : Str) (hp : fs.resolve path = some full) (hu : fs.utf8 full = true) (o : Obj) (s : PState)
    (hr : fromFile fs path rt = .ok o s) : ∃ o' s', fromFile fs' path rt' = .ok o' s' ∧ o.EqualButOrder o' := by
  have hp' : fs'.resolve path = some full := by rw [hm.resolve, hp]
  have hu' : fs'.utf8 full = true := by rw [hm.utf8, hu]
  have key : ∀ t t' d d', fs.read path = .ok t → fs'.read path = .ok t' → SpDoc d t → SpDoc d' t' → ReorderedDeep d d' →
      ∃ o' s', fromFile fs' path rt' = .ok o' s' ∧ o.EqualButOrder o' := by
    intro t t' d d' ht ht' hd hd' hdd
    have hx := hr
    rw [(FS.Edited.same ht).reading ht] at hx
    obtain ⟨o1, st, h1, e1⟩ := (reads_file hp hu ht).warm_of_accepted h hd hx
    obtain ⟨o2, st2, h2, l2⟩ := Deep.meaning_project hm hb ((hb path t ht).1 d hd) hdd warmRt_warm warmRt_warm h1
    obtain ⟨o', s', h3, e3⟩ := (reads_file hp' hu' ht').accepted_of_warm h' hd' h2
    rw [← (FS.Edited.same ht').reading ht'] at h3
    exact ⟨o', s', h3, equalButOrder_of e1 e3 l2 (namesOk_file hr) (namesOk_file h3)⟩
  rcases hm.read path with e | ⟨t, t', ht, ht', ⟨d, d', h1, h2, h3⟩⟩
  · cases ht : fs.read path with
    | error m => unfold fromFile at hr; rw [ht] at hr; cases hr
    | ok t =>
      have hx := hr
      rw [(FS.Edited.same ht).reading ht] at hx
      obtain ⟨d, hd⟩ := (reads_file hp hu ht).spelled hx
      exact key t t d d ht (by rw [e, ht]) hd hd (.step (.same d))
  · exact key t t' d d' ht ht' h1 h2 h3

end

end

end

/-! ## Examples -/

section
attribute [local instance] sampleUnicode

/-- One more definition in front, inside an object. -/
theorem sampleInner {tg : Target} {e : Expr} {fds : List Field} {n s r : Str} (h1 : SpTarget tg n) (h2 : SpExpr e s) (h3 : SpFields false fds r)
    (h4 : fds = [] ∨ StartsSeparated r) : SpFields false (.mk tg e :: fds) (' ' :: (n ++ (':' :: (s ++ r)))) :=
  SpFields.cons (eof := false) (g := [' ']) (g' := []) (.ws (by decide) .nil) h1 .nil h2 h3 h4

/-- `q: {x: 3 y: [1 2] z: 3 + x}` -/
def sampleReIn : List Field := [.mk (.field c!"q") (.mk (.obj (sampleRest samplePairArr (.int 3))) [])]
/-- `q: {y: [1 2] x: 3 z: 3 + x}` -/
def sampleReIn' : List Field := [.mk (.field c!"q") (.mk (.obj sampleMoved) [])]

theorem sampleReIn_sp : SpDoc sampleReIn c!" q:{ x:3 y:[1 2] z:3+x}" := by
  have l3 := sampleInner (.field (sampleFieldName 'z' (by decide))) sampleZ_sp (.nil (g := []) .nil) (.inl rfl)
  have l2 := sampleInner (.field (sampleFieldName 'y' (by decide))) samplePairArr_sp l3 (.inr (startsSpace _))
  have l1 := sampleInner (.field (sampleFieldName 'x' (by decide))) sampleThree_sp l2 (.inr (startsSpace _))
  have := sampleLine (.field (sampleFieldName 'q' (by decide))) (.mk (.obj l1) .nil) (.nil (g := []) (.gap .nil)) (.inl rfl)
  simpa [SpDoc, sampleReIn, sampleRest] using this

theorem sampleReIn_sp' : SpDoc sampleReIn' c!" q:{ y:[1 2] x:3 z:3+x}" := by
  have l3 := sampleInner (.field (sampleFieldName 'z' (by decide))) sampleZ_sp (.nil (g := []) .nil) (.inl rfl)
  have l2 := sampleInner (.field (sampleFieldName 'x' (by decide))) sampleThree_sp l3 (.inr (startsSpace _))
  have l1 := sampleInner (.field (sampleFieldName 'y' (by decide))) samplePairArr_sp l2 (.inr (startsSpace _))
  have := sampleLine (.field (sampleFieldName 'q' (by decide))) (.mk (.obj l1) .nil) (.nil (g := []) (.gap .nil)) (.inl rfl)
  simpa [SpDoc, sampleReIn', sampleMoved] using this

theorem sampleReIn_re : ReorderedDeep sampleReIn sampleReIn' :=
  .step (.cons (.mk (.obj (.exchange (by decide) (by decide) (by decide) (by decide) (by decide))) .nil) (.same _))

theorem accepted_of_written {r : Res Obj} (h : r.written ≠ none) : ∃ o s, r = .ok o s := by
  cases r with
  | ok o s => exact ⟨o, s, rfl⟩
  | _ => exact absurd rfl h

/-- Two definitions exchanged inside an object. -/
example : ∃ o s o' s', fromStr noFiles c!" q:{ x:3 y:[1 2] z:3+x}" startRt = .ok o s ∧
    fromStr noFiles c!" q:{ y:[1 2] x:3 z:3+x}" startRt = .ok o' s' ∧ o.EqualButOrder o' := by
  obtain ⟨o, s, h⟩ := accepted_of_written (r := fromStr noFiles c!" q:{ x:3 y:[1 2] z:3+x}" startRt) (by decide +kernel)
  obtain ⟨o', s', h', e⟩ := c83_reordered noFiles startRt startRt startRt_fine startRt_fine _ _ _ _ sampleReIn_sp sampleReIn_sp' sampleReIn_re o s h
  exact ⟨o, s, o', s', h, h', e⟩

/-- Inside an object that stands in an array, too. -/
example : ReorderedDeep [.mk (.field c!"a") (.mk (.arr [.mk (.obj (sampleRest samplePairArr (.int 3))) []]) [])]
    [.mk (.field c!"a") (.mk (.arr [.mk (.obj sampleMoved) []]) [])] :=
  .step (.cons (.mk (.arr (.cons (.mk (.obj (.exchange (by decide) (by decide) (by decide) (by decide) (by decide))) .nil) .nil)) .nil) (.same _))

/-- `z` depends on `x`: with the two exchanged, the text is rejected. -/
example : (fromStr noFiles c!" q:{ y:[1 2] z:3+x x:3}" startRt).written = none := by decide +kernel

/-- A project of two files … -/
def deepFiles : FS := files [(c!"main", c!" b:<\"lib\"> c:b.q"), (c!"lib", c!" q:{ x:3 y:[1 2] z:3+x}")]
/-- … and the same project with definitions of `lib` in another order. -/
def deepFiles' : FS := files [(c!"main", c!" b:<\"lib\"> c:b.q"), (c!"lib", c!" q:{ y:[1 2] x:3 z:3+x}")]

theorem deepFiles_re : deepFiles.ReorderedTo deepFiles' where
  resolve := rfl
  utf8 := rfl
  openErr := rfl
  files c := by
    by_cases h1 : c = c!"main"
    · subst h1; exact .inl rfl
    by_cases h2 : c = c!"lib"
    · subst h2; exact .inr ⟨_, _, rfl, rfl, _, _, sampleReIn_sp, sampleReIn_sp', sampleReIn_re⟩
    refine .inl ?_
    have e1 : (c!"main" == c) = false := by simpa using fun h => h1 h.symm
    have e2 : (c!"lib" == c) = false := by simpa using fun h => h2 h.symm
    simp only [StrMap.get, deepFiles, deepFiles', Over.files, List.map_cons, List.map_nil, List.find?_cons, e1, e2, List.find?_nil]

theorem deepFiles_kept : deepFiles.BareTextsKept deepFiles' := by
  intro path t h
  have : t = c!" b:<\"lib\"> c:b.q" ∨ t = c!" q:{ x:3 y:[1 2] z:3+x}" := by
    simp only [FS.read] at h
    split at h
    · split at h
      · rename_i c _ r hr
        subst h
        simp only [StrMap.get] at hr
        split at hr
        · rename_i e he
          have hm := List.mem_of_find?_eq_some he
          simp only [deepFiles, Over.files, List.map_cons, List.map_nil, List.mem_cons, List.not_mem_nil, or_false] at hm
          rcases hm with rfl | rfl
          · cases hr; exact .inl rfl
          · cases hr; exact .inr rfl
        · cases hr
      · cases h
    · cases h
  rcases this with rfl | rfl
  · exact (plainText_spec _ (by decide +kernel)).kept _ _ _
  · exact (plainText_spec _ (by decide +kernel)).kept _ _ _

/-- `main` includes `lib`, in which the definitions are reordered. -/
example : ∃ o s o' s', fromFile deepFiles c!"main" startRt = .ok o s ∧ fromFile deepFiles' c!"main" startRt = .ok o' s' ∧ o.EqualButOrder o' := by
  obtain ⟨o, s, h⟩ := accepted_of_written (r := fromFile deepFiles c!"main" startRt) (by decide +kernel)
  obtain ⟨o', s', h', e⟩ := c83_project_file deepFiles deepFiles' startRt startRt startRt_fine startRt_fine deepFiles_re deepFiles_kept c!"main" c!"main"
    (by decide +kernel) rfl o s h
  exact ⟨o, s, o', s', h, h', e⟩

end

end Over
