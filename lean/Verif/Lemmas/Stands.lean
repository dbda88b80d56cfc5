import Verif.Lemmas.Linked
import Verif.Lemmas.Acyclic
import Verif.Spec.Stands

/-! # Where the files of a project stand -/

namespace Over

section
variable {I J : Str → Value → Prop} {p : Str} {v : Value}

mutual
theorem Term.linked_holds : ∀ (t : Term) (w : Value), t.linked I w → t.holds p v w → I p v
  | .arr es, w, h, h' => by
    simp only [Term.linked] at h
    simp only [Term.holds] at h'
    obtain ⟨i, t, vs, rfl, h⟩ := h
    obtain ⟨i', t', vs', e, h'⟩ := h'
    cases e
    exact Expr.linkedL_holds es vs h h'
  | .tup es, w, h, h' => by
    simp only [Term.linked] at h
    simp only [Term.holds] at h'
    obtain ⟨i, t, vs, rfl, h⟩ := h
    obtain ⟨i', t', vs', e, h'⟩ := h'
    cases e
    exact Expr.linkedL_holds es vs h h'
  | .obj fds, w, h, h' => by
    simp only [Term.linked] at h
    simp only [Term.holds] at h'
    obtain ⟨i, t, vs, rfl, h⟩ := h
    obtain ⟨i', t', vs', e, h'⟩ := h'
    cases e
    exact Field.linked_holds fds _ _ h h'
  | .incl e, w, h, h' => by
    simp only [Term.linked] at h
    simp only [Term.holds] at h'
    obtain ⟨h1, rfl⟩ := h'
    exact h p h1
  | .inclAs k e, w, h, h' => by
    simp only [Term.linked] at h
    simp only [Term.holds] at h'
    obtain ⟨h1, rfl⟩ := h'
    exact h p h1
  | .str _, _, _, h' => by simp only [Term.holds] at h'
  | .int _, _, _, h' => by simp only [Term.holds] at h'
  | .frac _, _, _, h' => by simp only [Term.holds] at h'
  | .name _, _, _, h' => by simp only [Term.holds] at h'
  | .dot _ _, _, _, h' => by simp only [Term.holds] at h'
  | .neg _, _, _, h' => by simp only [Term.holds] at h'
  | .pos _, _, _, h' => by simp only [Term.holds] at h'
termination_by structural t => t
theorem Expr.linked_holds : ∀ (e : Expr) (w : Value), e.linked I w → e.holds p v w → I p v
  | .mk t r, w, h, h' => by
    cases r with
    | nil =>
      simp only [Expr.linked] at h
      simp only [Expr.holds] at h'
      exact Term.linked_holds t w h h'
    | cons => simp only [Expr.holds] at h'
termination_by structural t => t
theorem Expr.linkedL_holds : ∀ (es : List Expr) (vs : List Value), Expr.linkedL I es vs → Expr.holdsL p v es vs → I p v
  | [], _, _, h' => by simp only [Expr.holdsL] at h'
  | e :: es, vs, h, h' => by
    simp only [Expr.linkedL] at h
    simp only [Expr.holdsL] at h'
    obtain ⟨w, ws, rfl, h1, h2⟩ := h
    obtain ⟨w', ws', e', h'⟩ := h'
    cases e'
    exact h'.elim (Expr.linked_holds e w h1) (Expr.linkedL_holds es ws h2)
termination_by structural t => t
theorem Field.linked_holds : ∀ (d : List Field) (ps : List Pair) (par : Option Obj), Field.linked I d ps par →
    Field.holds p v d ps par → I p v
  | [], _, _, _, h' => by simp only [Field.holds] at h'
  | .mk tg e :: d, ps, par, h, h' => by
    cases tg with
    | field f =>
      simp only [Field.linked] at h
      simp only [Field.holds] at h'
      obtain ⟨w, ws, rfl, h1, h2⟩ := h
      obtain ⟨w', ws', e', h'⟩ := h'
      cases e'
      exact h'.elim (Expr.linked_holds e w h1) (Field.linked_holds d ws par h2)
    | parent =>
      simp only [Field.linked] at h
      simp only [Field.holds] at h'
      obtain ⟨⟨o, rfl, h1⟩, h2⟩ := h
      rcases h' with ⟨o', e', h'⟩ | h'
      · cases e'
        exact Expr.linked_holds e _ h1 h'
      · exact Field.linked_holds d ps _ h2 h'
    | global g =>
      simp only [Field.linked] at h
      simp only [Field.holds] at h'
      exact Field.linked_holds d ps par h h'
termination_by structural t => t
end

mutual
theorem Term.linked_mono (hIJ : ∀ p v, I p v → J p v) : ∀ (t : Term) (w : Value), t.linked I w → t.linked J w
  | .arr es, w, h => by
    simp only [Term.linked] at h ⊢
    obtain ⟨i, t, vs, rfl, h⟩ := h
    exact ⟨i, t, vs, rfl, Expr.linkedL_mono hIJ es vs h⟩
  | .tup es, w, h => by
    simp only [Term.linked] at h ⊢
    obtain ⟨i, t, vs, rfl, h⟩ := h
    exact ⟨i, t, vs, rfl, Expr.linkedL_mono hIJ es vs h⟩
  | .obj fds, w, h => by
    simp only [Term.linked] at h ⊢
    obtain ⟨i, ps, par, rfl, h⟩ := h
    exact ⟨i, ps, par, rfl, Field.linked_mono hIJ fds ps par h⟩
  | .incl e, w, h => by
    simp only [Term.linked] at h ⊢
    exact fun p hp => hIJ _ _ (h p hp)
  | .inclAs k e, w, h => by
    simp only [Term.linked] at h ⊢
    exact fun p hp => hIJ _ _ (h p hp)
  | .str _, _, h => by simp only [Term.linked] at h ⊢; exact h
  | .int _, _, h => by simp only [Term.linked] at h ⊢; exact h
  | .frac _, _, h => by simp only [Term.linked] at h ⊢; exact h
  | .name _, _, _ => by simp only [Term.linked]
  | .dot _ _, _, _ => by simp only [Term.linked]
  | .neg _, _, _ => by simp only [Term.linked]
  | .pos _, _, _ => by simp only [Term.linked]
termination_by structural t => t
theorem Expr.linked_mono (hIJ : ∀ p v, I p v → J p v) : ∀ (e : Expr) (w : Value), e.linked I w → e.linked J w
  | .mk t r, w, h => by
    cases r with
    | nil =>
      simp only [Expr.linked] at h ⊢
      exact Term.linked_mono hIJ t w h
    | cons => simp only [Expr.linked]
termination_by structural t => t
theorem Expr.linkedL_mono (hIJ : ∀ p v, I p v → J p v) : ∀ (es : List Expr) (vs : List Value),
    Expr.linkedL I es vs → Expr.linkedL J es vs
  | [], _, h => by simp only [Expr.linkedL] at h ⊢; exact h
  | e :: es, vs, h => by
    simp only [Expr.linkedL] at h ⊢
    obtain ⟨w, ws, rfl, h1, h2⟩ := h
    exact ⟨w, ws, rfl, Expr.linked_mono hIJ e w h1, Expr.linkedL_mono hIJ es ws h2⟩
termination_by structural t => t
theorem Field.linked_mono (hIJ : ∀ p v, I p v → J p v) : ∀ (d : List Field) (ps : List Pair) (par : Option Obj),
    Field.linked I d ps par → Field.linked J d ps par
  | [], _, _, h => by simp only [Field.linked] at h ⊢; exact h
  | .mk tg e :: d, ps, par, h => by
    cases tg with
    | field f =>
      simp only [Field.linked] at h ⊢
      obtain ⟨w, ws, rfl, h1, h2⟩ := h
      exact ⟨w, ws, rfl, Expr.linked_mono hIJ e w h1, Field.linked_mono hIJ d ws par h2⟩
    | parent =>
      simp only [Field.linked] at h ⊢
      obtain ⟨⟨o, rfl, h1⟩, h2⟩ := h
      exact ⟨⟨o, rfl, Expr.linked_mono hIJ e _ h1⟩, Field.linked_mono hIJ d ps _ h2⟩
    | global g =>
      simp only [Field.linked] at h ⊢
      exact Field.linked_mono hIJ d ps par h
termination_by structural t => t
end

end

section
variable [Unicode] {fs : FS} {V : Str → Option Value}

omit [Unicode] in
theorem Leads.other {path path' F : Str} (h : Leads fs path F) (he : fs.resolve path = fs.resolve path') :
    Leads fs path' F := ⟨he ▸ h.1, h.2⟩

/-- What stands at an include of `F` is the value of `F`. -/
theorem Stands.value (hfs : fs.OneMeaning) (hV : OneValuePerFile fs V) {file : Option Str} {d : List Field} {o : Obj}
    {F : Str} {v : Value} (h : Stands fs file d o F v) :
    Field.linked (IncludeIs fs file V) d o.pairs o.parent → V F = some v := by
  induction h with
  | here h hF =>
    intro hl
    obtain ⟨G, hG, hv⟩ := Field.linked_holds _ _ _ hl h
    cases hF.unique hG
    exact hv
  | @through file d d' o o' p F text v h ht hd _ ih =>
    intro hl
    obtain ⟨G, hG, hv⟩ := Field.linked_holds _ _ _ hl h
    obtain ⟨path, hp, hf⟩ := hV _ _ hv
    cases hf with
    | obj ht' hd' hl' =>
      rw [hp.read_eq hG, ht] at ht'
      cases ht'
      cases c49_one_document _ _ _ hd hd'
      refine ih (Field.linked_mono ?_ _ _ _ hl')
      rintro q w ⟨H, hH, hw⟩
      exact ⟨H, hH.other (hfs path _ q G hp hG), hw⟩

end

end Over
