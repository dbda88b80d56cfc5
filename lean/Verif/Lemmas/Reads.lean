import Verif.Lemmas.Edit
import Verif.Props.Depth
import Verif.Props.Repeat

/-!
# Ways of reading a text

`Obj::from_str` on a text, and `Obj::from_file` on a file that has got the text, have the same properties.  Theorems about
one text and another one are proved for both at once.
-/

namespace Over

variable [Unicode]

/-- A way of reading texts: what it has in common with `from_str` and `from_file`. -/
structure Reads (fs : FS) (file : Option Str) (stack : List Str) (R : Str → Rt → Res Obj) : Prop where
  means : ∀ {d text} (rt : Rt), SpDoc d text → SameOutcome (R text rt) (meaning fs file stack d rt)
  same : ∀ text {rt rt' : Rt}, rt.Fine → rt'.Fine → SameUpToIds (R text rt) (R text rt')
  typed : ∀ {text rt o s}, R text rt = .ok o s → WellTypedObj o
  spelled : ∀ {text rt o s}, R text rt = .ok o s → ∃ d, SpDoc d text
  ends : ∀ text rt, (∃ o s, R text rt = .ok o s) ∨ ∃ e, R text rt = .err e
  quiet : LoadQuiet fs stack (· = .sem file .maxDepth) (theLoader fs)

/-- Reading texts. -/
theorem reads_str (fs : FS) : Reads fs none [] (fromStr fs) where
  means rt h := c44_from_str_meaning fs _ rt _ h
  same text _ _ h h' := c51_from_str fs text _ _ h h'
  typed {text rt o s} h := c26_parsed_well_typed fs rt _ o s (by rw [← h]; exact Runs.str text)
  spelled {text rt o s} h := by
    obtain ⟨d, -, hd, -⟩ := c45_from_str_accepts fs text rt o s h
    exact ⟨d, hd⟩
  ends text rt := by
    cases h : fromStr fs text rt with
    | ok o s => exact .inl ⟨o, s, rfl⟩
    | err e => exact .inr ⟨e, rfl⟩
    | panic => exact absurd h (c24_from_str_no_panic fs text rt)
    | oof => exact absurd h (c23_from_str_terminates fs text rt)
  quiet := loadN_quiet fs (fun _ h => .inl h) _

/-- `Obj::from_file` after the file has got the text. -/
def FS.reading (fs : FS) (path : Str) : Str → Rt → Res Obj := fun text rt => fromFile (fs.edit path text) path rt

/-- Any file system in which the file has the text will do. -/
theorem FS.Edited.reading {fs fs' : FS} {path text t : Str} (he : fs.Edited path text fs') (hr : fs.read path = .ok t) (rt : Rt) :
    fromFile fs' path rt = fs.reading path text rt := by
  obtain ⟨full, h1, h2, -⟩ := he.target
  rw [← edited_reading he hr rt (Nat.le_refl _), FS.reading, ← edited_reading (FS.edit_edited h1 h2) hr rt (Nat.le_refl _)]

omit [Unicode] in
theorem FS.Edited.same {fs : FS} {path text : Str} (hr : fs.read path = .ok text) : fs.Edited path text fs where
  resolve := rfl
  utf8 := rfl
  target := by
    cases h1 : fs.resolve path with
    | none => simp [FS.read, h1] at hr
    | some full =>
      simp only [FS.read, h1] at hr
      cases h2 : StrMap.get fs.nodes full with
      | none => rw [h2] at hr; cases hr
      | some r => rw [h2] at hr; simp only at hr; exact ⟨full, rfl, by rw [h2]; rfl, by rw [h2, hr]⟩
  others := fun _ _ => rfl

/-- Reading files. -/
theorem reads_file {fs : FS} {path full t : Str} (hp : fs.resolve path = some full) (hu : fs.utf8 full = true) (hr : fs.read path = .ok t) :
    Reads fs (some path) [full] (fs.reading path) := by
  have hed : ∀ text, fs.Edited path text (fs.edit path text) := by
    intro text
    obtain ⟨full', h1, h2, -⟩ := (FS.Edited.same hr).target
    exact FS.edit_edited h1 h2
  have hp' : ∀ text, (fs.edit path text).resolve path = some full := fun text => by rw [(hed text).resolve, hp]
  have hu' : ∀ text, (fs.edit path text).utf8 full = true := fun text => by rw [(hed text).utf8, hu]
  refine ⟨?_, ?_, ?_, ?_, ?_, ?_⟩
  · intro d text rt hd
    have := sameOutcome_of_sim (@fromFileFuel_sim _ noPanic fs (text.length + fs.size) path text full rt hp (.inl hu) (Nat.le_refl _) d hd _ (Nat.le_succ _))
    rw [edited_reading (hed text) hr rt (Nat.le_refl _)] at this
    exact this
  · intro text rt rt' h h'
    exact c51_from_file _ path rt rt' h h'
  · intro text rt o s h
    exact c26_parsed_well_typed _ rt _ o s (by rw [← h]; exact Runs.file path text (hed text).read_main)
  · intro text rt o s h
    obtain ⟨text', d, st, h1, h2, -⟩ := c45_from_file_accepts _ path full rt o s (hp' text) h
    rw [(hed text).read_main] at h1
    cases h1
    exact ⟨d, h2⟩
  · intro text rt
    cases h : fs.reading path text rt with
    | ok o s => exact .inl ⟨o, s, rfl⟩
    | err e => exact .inr ⟨e, rfl⟩
    | panic => exact absurd h (c24_from_file_no_panic _ path rt (fun c hc => by rw [hp' text] at hc; cases hc; exact hu' text))
    | oof => exact absurd h (c23_from_file_terminates _ path rt)
  · refine loadN_quiet fs (fun e h => ?_) _
    exact .inr ⟨path, full, h, hp, by simp⟩

section
variable {fs : FS} {file : Option Str} {stack : List Str} {R : Str → Rt → Res Obj} (hR : Reads fs file stack R)
include hR

/-- The meaning of what is accepted. -/
theorem Reads.accepts {text : Str} {rt : Rt} {o : Obj} {s : PState} (h : R text rt = .ok o s) :
    ∃ d st, SpDoc d text ∧ meaning fs file stack d rt = .ok (o, st) ∧ s.rt = st.rt := by
  obtain ⟨d, hd⟩ := hR.spelled h
  have hm := hR.means rt hd
  rw [h] at hm
  cases he : meaning fs file stack d rt with
  | error e => rw [he] at hm; exact hm.elim
  | ok x =>
    rw [he] at hm
    obtain ⟨o', st⟩ := x
    obtain ⟨rfl, hrt⟩ := hm
    exact ⟨d, st, hd, he, hrt⟩

theorem Reads.rejects {text : Str} (rt : Rt) (h : ¬ ∃ d, SpDoc d text) : ∃ e, R text rt = .err e := by
  rcases hR.ends text rt with ⟨o, s, h1⟩ | h1
  · exact absurd (hR.spelled h1) h
  · exact h1

omit hR in
/-- The nesting of a document that has a meaning. -/
theorem levels_of_meaning {d : List Field} {rt : Rt} {x : Obj × ESt} (h : meaning fs file stack d rt = .ok x) : Field.levelsL d ≤ 63 := by
  have := depths_doc fs file stack d rt (fun _ => False) (G := []) (fun _ h => h.elim) .nothing (List.nil_subset _)
  rw [h] at this
  exact this

/-- A document that does not nest deeply is not rejected for that. -/
theorem Reads.not_too_deep {d : List Field} {rt : Rt} (hl : Field.levelsL d ≤ 63) : meaning fs file stack d rt ≠ .error (.sem file .maxDepth) := by
  intro h
  have := depths_doc fs file stack d rt (· = .sem file .maxDepth) (by intro k hk; cases hk; rfl) hR.quiet (fun _ h => h)
  rw [h] at this
  exact absurd hl (this rfl)

end

end Over
