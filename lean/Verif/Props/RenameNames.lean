import Verif.Lemmas.RenameNames
import Verif.Props.Meaning
import Verif.Lemmas.Reads
import Verif.Lemmas.Continue
import Verif.Spec.Sample

/-! # The names of fields and globals do not matter (C64) -/

namespace Over

/-- The new names can be written where the old ones could. -/
structure Renaming.Writable [Unicode] (r : Renaming) : Prop where
  field : ∀ f, FieldName f → FieldName (r.field f)
  global : ∀ g, SpTarget (.global g) g → SpTarget (.global (r.global g)) (r.global g)
  name : ∀ x, VarName x → VarName (r.name x)

section
variable [Unicode] {r : Renaming}

omit [Unicode] in
theorem Term.rename_afterDot (t : Term) : (t.rename r).afterDot = t.afterDot := by cases t <;> rfl

omit [Unicode] in
theorem startsSpace (s : Str) : StartsSeparated (' ' :: s) := ⟨' ', s, rfl, .inl (by decide)⟩

theorem SpTarget.renamed (hw : r.Writable) {tg : Target} {n : Str} (h : SpTarget tg n) : ∃ n', SpTarget (tg.rename r) n' := by
  cases h with
  | field h => exact ⟨_, .field (hw.field _ h)⟩
  | global h1 h2 => exact ⟨_, hw.global _ (.global h1 h2)⟩
  | parent => exact ⟨_, .parent⟩

mutual
theorem SpTerm.renamed (hw : r.Writable) : ∀ {t : Term} {s : Str}, SpTerm t s → ∃ s', SpTerm (t.rename r) s'
  | _, _, .str h => ⟨_, .str h⟩
  | _, _, .int h => ⟨_, .int h⟩
  | _, _, .frac h => ⟨_, .frac h⟩
  | _, _, .name h => ⟨_, .name (hw.name _ h)⟩
  | _, _, .dot h h1 h2 => let ⟨_, h3⟩ := SpTerm.renamed hw h2; ⟨_, .dot (hw.name _ h) (by rw [Term.rename_afterDot]; exact h1) h3⟩
  | _, _, .neg h => let ⟨_, h'⟩ := SpTerm.renamed hw h; ⟨_, .neg h'⟩
  | _, _, .pos h => let ⟨_, h'⟩ := SpTerm.renamed hw h; ⟨_, .pos h'⟩
  | _, _, .arr h => let ⟨_, h', _⟩ := SpItems.renamed hw h; ⟨_, .arr h'⟩
  | _, _, .tup h => let ⟨_, h', _⟩ := SpItems.renamed hw h; ⟨_, .tup h'⟩
  | _, _, .obj h => let ⟨_, h', _⟩ := SpFields.renamed hw h; ⟨_, .obj h'⟩
  | _, _, .incl h => let ⟨_, h', _⟩ := SpItems.renamed hw h; ⟨_, .incl h'⟩
  | _, _, .inclAs h => let ⟨_, h', _⟩ := SpItems.renamed hw h; ⟨_, .inclAs h'⟩
theorem SpExpr.renamed (hw : r.Writable) : ∀ {e : Expr} {s : Str}, SpExpr e s → ∃ s', SpExpr (e.rename r) s'
  | _, _, .mk h1 h2 => let ⟨_, h1'⟩ := SpTerm.renamed hw h1; let ⟨_, h2'⟩ := SpOps.renamed hw h2; ⟨_, .mk h1' h2'⟩
theorem SpOps.renamed (hw : r.Writable) : ∀ {l : List OpTerm} {s : Str}, SpOps l s → ∃ s', SpOps (OpTerm.renameL r l) s'
  | _, _, .nil => ⟨_, .nil⟩
  | _, _, .cons h1 h2 => let ⟨_, h1'⟩ := SpTerm.renamed hw h1; let ⟨_, h2'⟩ := SpOps.renamed hw h2; ⟨_, .cons h1' h2'⟩
theorem SpItems.renamed (hw : r.Writable) : ∀ {b : Bool} {l : List Expr} {s : Str}, SpItems b l s →
    ∃ s', SpItems b (Expr.renameL r l) s' ∧ (l = [] ∨ StartsSeparated s')
  | _, _, _, .nil h => ⟨_, .nil h, .inl rfl⟩
  | _, _, _, .cons (g := g) h1 h2 h3 _ =>
    let ⟨_, h2'⟩ := SpExpr.renamed hw h2
    let ⟨_, h3', h4⟩ := SpItems.renamed hw h3
    ⟨_, .cons (.ws (c := ' ') (by decide) h1) h2' h3' (h4.imp_left (by rintro rfl; rfl)), .inr (startsSpace _)⟩
theorem SpFields.renamed (hw : r.Writable) : ∀ {b : Bool} {l : List Field} {s : Str}, SpFields b l s →
    ∃ s', SpFields b (Field.renameL r l) s' ∧ (l = [] ∨ StartsSeparated s')
  | _, _, _, .nil h => ⟨_, .nil h, .inl rfl⟩
  | _, _, _, .cons h1 ht hg h2 h3 _ =>
    let ⟨_, ht'⟩ := SpTarget.renamed hw ht
    let ⟨_, h2'⟩ := SpExpr.renamed hw h2
    let ⟨_, h3', h4⟩ := SpFields.renamed hw h3
    ⟨_, .cons (.ws (c := ' ') (by decide) h1) ht' hg h2' h3' (h4.imp_left (by rintro rfl; rfl)), .inr (startsSpace _)⟩
end

/-- Two outcomes that differ in the names of fields and globals only: the objects have the same shape, contents and ids and
the fields have their new names; or both are errors, which report the same thing up to the names. -/
def SameUpToNames (r : Renaming) (x y : Res Obj) : Prop :=
  (∃ o s s', x = .ok o s ∧ y = .ok (o.renameFields r.field) s' ∧ s.rt = s'.rt) ∨
  (∃ e e' : ParseError, ∃ se : SemErr, x = .err e ∧ y = .err e' ∧ se.Reported e ∧ (se.Reported e' ∨ (se.rename r).Reported e'))

omit [Unicode] in
theorem sameUpToNames_of {x y : Res Obj} {m m' : Except SemErr (Obj × ESt)} (h1 : SameOutcome x m) (h2 : SameOutcome y m')
    (h : RenRes r (Obj.renameFields r.field) m m') : SameUpToNames r x y := by
  cases m with
  | ok a =>
    obtain ⟨o, st⟩ := a
    rw [show m' = _ from h] at h2
    obtain ⟨s, rfl, e1⟩ := h1.of_ok
    obtain ⟨s', rfl, e2⟩ := h2.of_ok
    exact .inl ⟨o, s, s', rfl, rfl, e1.trans e2.symm⟩
  | error se =>
    obtain ⟨e, rfl, he⟩ := h1.of_error
    rcases h with h | h
    · rw [h] at h2
      obtain ⟨e', rfl, he'⟩ := h2.of_error
      exact .inr ⟨e, e', se, rfl, rfl, he, .inl he'⟩
    · rw [h] at h2
      obtain ⟨e', rfl, he'⟩ := h2.of_error
      exact .inr ⟨e, e', se, rfl, rfl, he, .inr he'⟩

/-- C64: the fields and globals of a document (without includes) can be given other names.  If `text` spells the document `d`
and `text'` the same document with the new names, `Obj::from_str` gives the same outcome up to the names. -/
theorem c64_rename (fs : FS) (rt : Rt) (r : Renaming) (d : List Field) (text text' : Str) (hd : SpDoc d text)
    (hd' : SpDoc (Field.renameL r d) text') (hi : Field.includeFreeL d = true) :
    SameUpToNames r (fromStr fs text rt) (fromStr fs text' rt) :=
  sameUpToNames_of (c44_from_str_meaning fs text rt d hd) (c44_from_str_meaning fs text' rt _ hd') (meaning_rename d (.inl hi) rt)

/-- C64: … and there is a text with the new names, whatever the names are (as long as they are names). -/
theorem c64_renamed_text (r : Renaming) (hw : r.Writable) (d : List Field) (text : Str) (hd : SpDoc d text) :
    ∃ text', SpDoc (Field.renameL r d) text' :=
  let ⟨s, h, _⟩ := SpFields.renamed hw hd
  ⟨s, h⟩

/-- Two outcomes that are the same object, or errors of the same kind up to the names of globals. -/
def SameUpToGlobals (r : Renaming) (x y : Res Obj) : Prop :=
  (∃ o s s', x = .ok o s ∧ y = .ok o s' ∧ s.rt = s'.rt) ∨
  (∃ e e' : ParseError, ∃ se : SemErr, x = .err e ∧ y = .err e' ∧ se.Reported e ∧ (se.Reported e' ∨ (se.rename r).Reported e'))

omit [Unicode] in
theorem SameUpToNames.globals {x y : Res Obj} (h : SameUpToNames r x y) (hr : ∀ f, r.field f = f) : SameUpToGlobals r x y := by
  have : r.field = id := funext hr
  rcases h with ⟨o, s, s', h1, h2, h3⟩ | h
  · rw [this, Obj.renameFields_id] at h2
    exact .inl ⟨o, s, s', h1, h2, h3⟩
  · exact .inr h

/-- C64: how the globals of a document are called has no effect on the object at all, also with includes: the included files
keep their own globals, even if these now have the same names. -/
theorem c64_global_names (fs : FS) (rt : Rt) (r : Renaming) (hr : ∀ f, r.field f = f) (d : List Field) (text text' : Str)
    (hd : SpDoc d text) (hd' : SpDoc (Field.renameL r d) text') :
    SameUpToGlobals r (fromStr fs text rt) (fromStr fs text' rt) :=
  (sameUpToNames_of (c44_from_str_meaning fs text rt d hd) (c44_from_str_meaning fs text' rt _ hd')
    (meaning_rename d (.inr hr) rt)).globals hr

section
variable (fs fs' : FS) (path full text text' : Str) (hp : fs.resolve path = some full) (hu : fs.utf8 full = true)
  (hr : fs.read path = .ok text) (he : fs.Edited path text' fs') (rt : Rt) (r : Renaming) (d : List Field) (hd : SpDoc d text)
  (hd' : SpDoc (Field.renameL r d) text')
include hp hu hr he hd hd'

/-- C64: the same for a file in which the fields and globals get other names. -/
theorem c64_rename_in_file (hi : Field.includeFreeL d = true) : SameUpToNames r (fromFile fs path rt) (fromFile fs' path rt) := by
  rw [(FS.Edited.same hr).reading hr, he.reading hr]
  have hR := reads_file hp hu hr
  exact sameUpToNames_of (hR.means rt hd) (hR.means rt hd') (meaning_rename d (.inl hi) rt)

/-- C64: the same for a file in which the globals get other names. -/
theorem c64_global_names_in_file (hf : ∀ f, r.field f = f) : SameUpToGlobals r (fromFile fs path rt) (fromFile fs' path rt) := by
  rw [(FS.Edited.same hr).reading hr, he.reading hr]
  have hR := reads_file hp hu hr
  exact (sameUpToNames_of (hR.means rt hd) (hR.means rt hd') (meaning_rename d (.inr hf) rt)).globals hf

end

end

/-! ## Examples -/

section
attribute [local instance] sampleUnicode

/-- `x: 1 y: x` and, with `x` and `z` exchanged, `z: 1 y: z`. -/
def sampleNamed (c : Char) : List Field := [.mk (.field [c]) (.mk (.int 1) []), .mk (.field c!"y") (.mk (.name [c]) [])]

theorem sampleNamed_spelled (c : Char) (h : isAlphabetic c = true) : SpDoc (sampleNamed c) ([c] ++ c!":1 y:" ++ [c]) := by
  have h1 : SpExpr (.mk (.int 1) []) c!"1" := by
    have := SpExpr.mk (.int (sampleIntLit (n := 1) (c := '1') (by decide) (by decide))) .nil
    simpa using this
  have hx : SpExpr (.mk (.name [c]) []) [c] := by
    have := SpExpr.mk (.name (x := [c]) ⟨c, [], rfl, .inl (.inl h), by simp⟩) .nil
    simpa using this
  have last := SpFields.cons (eof := true) (g := [' ']) (g' := []) (.ws (by decide) .nil) (.field (sampleFieldName 'y' (by decide))) .nil hx
    (.nil (.gap .nil)) (.inl rfl)
  have := SpFields.cons (eof := true) (g := []) (g' := []) .nil (.field (sampleFieldName c h)) .nil h1 last
    (.inr (startsSpace _))
  simpa [SpDoc, sampleNamed] using this

def sampleSwap : Renaming := .swapFields c!"x" c!"z" (by decide) (by decide) (by decide) (by decide)

theorem sampleNamed_swap : Field.renameL sampleSwap (sampleNamed 'x') = sampleNamed 'z' := by
  simp [sampleNamed, Field.renameL, sampleSwap, Expr.rename, Term.rename, OpTerm.renameL, Target.rename, Renaming.name,
    Renaming.swapFields, swapNames]

example : SameUpToNames sampleSwap (fromStr noFiles c!"x:1 y:x" startRt) (fromStr noFiles c!"z:1 y:z" startRt) :=
  c64_rename noFiles startRt sampleSwap (sampleNamed 'x') _ _ (sampleNamed_spelled 'x' (by decide))
    (by rw [sampleNamed_swap]; exact sampleNamed_spelled 'z' (by decide)) (by decide)

/-- The same in a file. -/
example : SameUpToNames sampleSwap (fromFile (files [(c!"f", c!"x:1 y:x")]) c!"f" startRt)
    (fromFile ((files [(c!"f", c!"x:1 y:x")]).edit c!"f" c!"z:1 y:z") c!"f" startRt) :=
  c64_rename_in_file _ _ c!"f" c!"f" _ _ (by decide +kernel) (by decide +kernel) (by decide +kernel)
    (FS.edit_edited (full := c!"f") (by decide +kernel) (by decide +kernel)) _ sampleSwap (sampleNamed 'x') (sampleNamed_spelled 'x' (by decide))
    (by rw [sampleNamed_swap]; exact sampleNamed_spelled 'z' (by decide)) (by decide)

/-- Both runs succeed. -/
example : (fromStr noFiles c!"x:1 y:x" startRt).written = some c!"x: 1\ny: 1\n" ∧
    (fromStr noFiles c!"z:1 y:z" startRt).written = some c!"z: 1\ny: 1\n" := by decide +kernel

/-- New names must be different names: with `y` for `x` the document is an error. -/
example : (fromStr noFiles c!"y:1 y:y" startRt).message ≠ none := by decide +kernel

/-- `@a: 1 y: @a` -/
def sampleGlobal (c : Char) : List Field := [.mk (.global ['@', c]) (.mk (.int 1) []), .mk (.field c!"y") (.mk (.name ['@', c]) [])]

theorem sampleGlobal_spelled (c : Char) (h : isAlphabetic c = true) : SpDoc (sampleGlobal c) (['@', c] ++ c!":1 y:" ++ ['@', c]) := by
  have h1 : SpExpr (.mk (.int 1) []) c!"1" := by
    have := SpExpr.mk (.int (sampleIntLit (n := 1) (c := '1') (by decide) (by decide))) .nil
    simpa using this
  have hx : SpExpr (.mk (.name ['@', c]) []) ['@', c] := by
    have := SpExpr.mk (.name (x := ['@', c]) ⟨'@', [c], rfl, .inr rfl, by simp [NameChar, h]⟩) .nil
    simpa using this
  have last := SpFields.cons (eof := true) (g := [' ']) (g' := []) (.ws (by decide) .nil) (.field (sampleFieldName 'y' (by decide))) .nil hx
    (.nil (.gap .nil)) (.inl rfl)
  have := SpFields.cons (eof := true) (g := []) (g' := []) .nil (.global (c := c) (cs := []) (.inl (.inl h)) (by simp)) .nil h1 last
    (.inr (startsSpace _))
  simpa [SpDoc, sampleGlobal] using this

def sampleSwapGlobals : Renaming := .swapGlobals c!"@a" c!"@b" (by decide) (by decide) (by decide) (by decide)

example : SameUpToGlobals sampleSwapGlobals (fromStr noFiles c!"@a:1 y:@a" startRt) (fromStr noFiles c!"@b:1 y:@b" startRt) :=
  c64_global_names noFiles startRt sampleSwapGlobals (fun _ => rfl) (sampleGlobal 'a') _ _ (sampleGlobal_spelled 'a' (by decide))
    (by
      have : Field.renameL sampleSwapGlobals (sampleGlobal 'a') = sampleGlobal 'b' := by
        simp [sampleGlobal, Field.renameL, sampleSwapGlobals, Expr.rename, Term.rename, OpTerm.renameL, Target.rename,
          Renaming.name, Renaming.swapGlobals, swapNames]
      rw [this]; exact sampleGlobal_spelled 'b' (by decide))

example : SameUpToGlobals sampleSwapGlobals (fromFile (files [(c!"f", c!"@a:1 y:@a")]) c!"f" startRt)
    (fromFile ((files [(c!"f", c!"@a:1 y:@a")]).edit c!"f" c!"@b:1 y:@b") c!"f" startRt) :=
  c64_global_names_in_file _ _ c!"f" c!"f" _ _ (by decide +kernel) (by decide +kernel) (by decide +kernel)
    (FS.edit_edited (full := c!"f") (by decide +kernel) (by decide +kernel)) _ sampleSwapGlobals (sampleGlobal 'a') (sampleGlobal_spelled 'a' (by decide))
    (by
      have : Field.renameL sampleSwapGlobals (sampleGlobal 'a') = sampleGlobal 'b' := by
        simp [sampleGlobal, Field.renameL, sampleSwapGlobals, Expr.rename, Term.rename, OpTerm.renameL, Target.rename,
          Renaming.name, Renaming.swapGlobals, swapNames]
      rw [this]; exact sampleGlobal_spelled 'b' (by decide)) (fun _ => rfl)

/-- The swaps can be written. -/
example : sampleSwap.Writable where
  field f hf := by
    show FieldName (swapNames c!"x" c!"z" f)
    unfold swapNames
    split_ifs
    exacts [sampleFieldName 'z' (by decide), sampleFieldName 'x' (by decide), hf]
  global _ h := h
  name x hx := by
    unfold Renaming.name
    split
    · exact hx
    · show VarName (swapNames c!"x" c!"z" x)
      unfold swapNames
      split_ifs
      exacts [⟨'z', [], rfl, .inl (.inl (by decide)), by simp⟩, ⟨'x', [], rfl, .inl (.inl (by decide)), by simp⟩, hx]

end

end Over
