import Verif.Props.Kinds
import Verif.Props.ReorderDeep

/-!
# C83: in projects, too, reordering goes both ways
-/

namespace Over

/-! ## Reordering keeps the form of includes -/

section
variable {P : Str → Prop}

theorem inclAs_barely {k k' e e' : Expr} (hk : ReExpr k k') (he : ReExpr e e') (h1 : k.barely P → k'.barely P) (h2 : e.barely P → e'.barely P)
    (h : (Term.inclAs k e).barely P) : (Term.inclAs k' e').barely P := by
  cases hk with
  | @mk t t' r r' ht hr =>
    cases t with
    | name x =>
      cases ht
      cases r with
      | cons => exact h.elim
      | nil =>
        cases hr
        rcases h with ⟨rfl, p, rfl, hp⟩ | ⟨hm, hb⟩
        · cases he with
          | mk ht hr =>
            cases ht
            cases hr
            exact .inl ⟨rfl, p, rfl, hp⟩
        · exact .inr ⟨hm, h2 hb⟩
    | str s =>
      cases ht
      obtain ⟨h3, h4⟩ := h
      exact ⟨(h1 ⟨trivial, h3⟩).2, h2 h4⟩
    | _ => exact h.elim

mutual
theorem ReTerm.barely : ∀ (t : Term) {t' : Term}, ReTerm t t' → t.barely P → t'.barely P
  | _, _, .same _, hb => hb
  | .dot _ t, _, .dot (t' := t') h, hb => show t'.barely P from ReTerm.barely t h hb
  | .neg t, _, .neg (t' := t') h, hb => show t'.barely P from ReTerm.barely t h hb
  | .pos t, _, .pos (t' := t') h, hb => show t'.barely P from ReTerm.barely t h hb
  | .arr es, _, .arr h, hb => ReItems.barely es h hb
  | .tup es, _, .tup h, hb => ReItems.barely es h hb
  | .obj fds, _, .obj h, hb => ReFields.barely fds h hb
  | .incl e, _, .incl h, hb => ReExpr.barely e h hb
  | .inclAs k e, _, .inclAs h h', hb => inclAs_barely h h' (ReExpr.barely k h) (ReExpr.barely e h') hb
termination_by structural t => t
theorem ReExpr.barely : ∀ (t : Expr) {t' : Expr}, ReExpr t t' → t.barely P → t'.barely P
  | .mk t r, _, .mk h h', hb => ⟨ReTerm.barely t h hb.1, ReOps.barely r h' hb.2⟩
termination_by structural t => t
theorem ReOps.barely : ∀ (t : List OpTerm) {t' : List OpTerm}, ReOps t t' → OpTerm.barelyL P t → OpTerm.barelyL P t'
  | [], _, .nil, hb => hb
  | .mk _ t :: r, _, .cons h h', hb => ⟨ReTerm.barely t h hb.1, ReOps.barely r h' hb.2⟩
termination_by structural t => t
theorem ReItems.barely : ∀ (t : List Expr) {t' : List Expr}, ReItems t t' → Expr.barelyL P t → Expr.barelyL P t'
  | [], _, .nil, hb => hb
  | e :: r, _, .cons h h', hb => ⟨ReExpr.barely e h hb.1, ReItems.barely r h' hb.2⟩
termination_by structural t => t
theorem ReFields.barely : ∀ (t : List Field) {t' : List Field}, ReFields t t' → Field.barely P t → Field.barely P t'
  | _, _, .same _, hb => hb
  | .mk _ e :: r, _, .cons h h', hb => ⟨ReExpr.barely e h hb.1, ReFields.barely r h' hb.2⟩
  | _, _, .exchange _ _ _ _ _, hb => ⟨hb.2.1, hb.1, hb.2.2⟩
termination_by structural t => t
end

theorem ReorderedDeep.barely {d d' : List Field} (h : ReorderedDeep d d') : Field.barely P d → Field.barely P d' := by
  induction h with
  | step h => exact ReFields.barely _ h
  | trans _ _ h1 h2 => exact h2 ∘ h1

end

section
variable [Unicode]

theorem FS.ReorderedTo.symm {fs fs' : FS} (h : fs.ReorderedTo fs') : fs'.ReorderedTo fs where
  resolve := h.resolve.symm
  utf8 := h.utf8.symm
  openErr := h.openErr.symm
  files c := by
    rcases h.files c with e | ⟨t, t', e, e', d, d', h1, h2, h3⟩
    · exact .inl e.symm
    · exact .inr ⟨t', t, e', e, d', d, h2, h1, h3.symm⟩

omit [Unicode] in
theorem keptIn_symm (fs fs' : FS) (file : Option Str) : KeptIn fs fs' file = KeptIn fs' fs file :=
  funext fun _ => propext eq_comm

theorem bareTextsKept_symm {fs fs' : FS} {file : Option Str} {t : Str} (h : BareTextsKept fs fs' file t) : BareTextsKept fs' fs file t := by
  unfold BareTextsKept at h ⊢
  rwa [keptIn_symm fs' fs]

theorem TextReordered.kept {fs fs' : FS} {file : Option Str} {t t' : Str} {d d' : List Field} (hd : SpDoc d t) (hd' : SpDoc d' t')
    (h : ReorderedDeep d d') (hk : BareTextsKept fs fs' file t) : BareTextsKept fs' fs file t' := by
  refine bareTextsKept_symm ⟨fun d1 h1 => ?_, fun es h1 => ?_⟩
  · rw [spDoc_unique h1 hd']
    exact h.barely (hk.1 d hd)
  · obtain ⟨-, rfl⟩ := both_empty hd' h1
    trivial

theorem FS.ReorderedTo.kept {fs fs' : FS} (h : fs.ReorderedTo fs') (hb : fs.BareTextsKept fs') : fs'.BareTextsKept fs := by
  intro path t ht
  rcases h.read path with e | ⟨t1, t', h1, h2, d, d', hd, hd', hr⟩
  · exact bareTextsKept_symm (hb path t (by rw [← e, ht]))
  · rw [ht] at h2
    cases h2
    exact TextReordered.kept hd hd' hr (hb path t1 h1)

section
variable (fs fs' : FS) (rt rt' : Rt) (h : rt.Fine) (h' : rt'.Fine) (hm : fs.ReorderedTo fs') (hb : fs.BareTextsKept fs')
include h h' hm hb

/-- C83: when definitions are put in another order in the text and in the files of a project, the new text is accepted in the new project if and
only if the old one is in the old project. -/
theorem c83_project_accepted_iff (d d' : List Field) (text text' : Str) (hd : SpDoc d text) (hd' : SpDoc d' text') (hdd : ReorderedDeep d d')
    (hk : BareTextsKept fs fs' none text) : (∃ o s, fromStr fs text rt = .ok o s) ↔ ∃ o s, fromStr fs' text' rt' = .ok o s := by
  constructor
  · rintro ⟨o, s, hr⟩
    obtain ⟨o', s', h1, -⟩ := c83_project fs fs' rt rt' h h' hm hb d d' text text' hd hd' hdd hk o s hr
    exact ⟨o', s', h1⟩
  · rintro ⟨o, s, hr⟩
    obtain ⟨o', s', h1, -⟩ := c83_project fs' fs rt' rt h' h hm.symm (hm.kept hb) d' d text' text hd' hd hdd.symm
      (TextReordered.kept hd hd' hdd hk) o s hr
    exact ⟨o', s', h1⟩

/-- C83: … and so it is for every file of the project. -/
theorem c83_project_file_accepted_iff (path full : Str) (hp : fs.resolve path = some full) (hu : fs.utf8 full = true) :
    (∃ o s, fromFile fs path rt = .ok o s) ↔ ∃ o s, fromFile fs' path rt' = .ok o s := by
  constructor
  · rintro ⟨o, s, hr⟩
    obtain ⟨o', s', h1, -⟩ := c83_project_file fs fs' rt rt' h h' hm hb path full hp hu o s hr
    exact ⟨o', s', h1⟩
  · rintro ⟨o, s, hr⟩
    obtain ⟨o', s', h1, -⟩ := c83_project_file fs' fs rt' rt h' h hm.symm (hm.kept hb) path full (by rw [hm.resolve, hp]) (by rw [hm.utf8, hu]) o s hr
    exact ⟨o', s', h1⟩

end

end

/-! ## Examples -/

section
attribute [local instance] sampleUnicode

example : (∃ o s, fromFile deepFiles c!"main" startRt = .ok o s) ↔ ∃ o s, fromFile deepFiles' c!"main" startRt = .ok o s :=
  c83_project_file_accepted_iff deepFiles deepFiles' startRt startRt startRt_fine startRt_fine deepFiles_re deepFiles_kept c!"main" c!"main"
    (by decide +kernel) rfl

example : (∃ o s, fromStr deepFiles c!" q:{ x:3 y:[1 2] z:3+x}" startRt = .ok o s) ↔
    ∃ o s, fromStr deepFiles' c!" q:{ y:[1 2] x:3 z:3+x}" startRt = .ok o s :=
  c83_project_accepted_iff deepFiles deepFiles' startRt startRt startRt_fine startRt_fine deepFiles_re deepFiles_kept _ _ _ _
    sampleReIn_sp sampleReIn_sp' sampleReIn_re ((plainText_spec _ (by decide +kernel)).kept _ _ _)

end

end Over
