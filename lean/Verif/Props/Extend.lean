import Verif.Lemmas.Edit
import Verif.Props.Parsing
import Verif.Spec.Concrete
import Verif.Spec.Location

/-!
# C55–C58: a text and the same text with more lines; a text and a file with the same text
-/

namespace Over

/-- The error says that the text (of the file, or given to `Obj::from_str`) ended too early. -/
def ParseError.EndOfTextOf (file : Option Str) (e : ParseError) : Prop := e.file = file ∧ ∃ l, e.kind = .unexpectedEnd l

/-- The error says that the text given to `Obj::from_str` ended too early. -/
abbrev ParseError.EndOfText (e : ParseError) : Prop := e.EndOfTextOf none

/-- The error names the line `L` of the text it is about, or a later one: its position, the line of the unexpected end, or
the line in its message.  (A failed read and a failed conversion of a number have no position.) -/
def ParseError.NamesLineFrom (L : Nat) (e : ParseError) : Prop :=
  (∀ l c, e.kind.lineCol = some (l, c) → L ≤ l) ∧ (∀ l, e.kind = .unexpectedEnd l → L ≤ l) ∧
  (∀ m, e.kind = .overError m → ∃ k l c, e.kind = kindFromOver k l c ∧ L ≤ l)

variable [Unicode]

/-- The context of the two runs. -/
private def moreLines (file : Option Str) (y : Str) : XCtx :=
  ⟨y, file, file, ParseError.EndOfTextOf file, Eq, fun _ => True, fun i j => j = i, fun _ => rfl, fun _ l => ⟨rfl, l, rfl⟩⟩

/-- Reading a text under a name. -/
private abbrev run (fs : FS) (n : Nat) (file : Option Str) (t : Str) (rt : Rt) : Res Obj :=
  parseObjStream (parseValue fs n) (PState.init file t rt)

private theorem two_runs (fs : FS) (n : Nat) (file : Option Str) (t y : Str) (rt : Rt) : XMain (moreLines file y) (parseValue fs n)
    (run fs n file (t ++ c!"\n") rt) (run fs n file (t ++ c!"\n" ++ y) rt) := by
  refine main_two (xs_parseValue (fun n _ => xinc_same (fun _ => trivial) (fun _ _ => Iff.rfl) rfl (fun _ => rfl) fs _) _) ?_
  exact ⟨rfl, rfl, rfl, rfl, rfl, rfl, rfl, .inr (by simp [PState.init, Stream.ofString]), trivial⟩

/-- The text `t` is being read: the text given to `Obj::from_str`, or the one of a file with a canonical path. -/
private def Readable (fs : FS) (file : Option Str) : Prop := ∀ p, file = some p → ∃ c, fs.resolve p = some c

private theorem end_pos {fs : FS} {n : Nat} {file : Option Str} {t : Str} {rt : Rt} {o : Obj} {s : PState} (hf : Readable fs file)
    (hn : t.length + fs.size ≤ n) (h : run fs n file t rt = .ok o s) : s.stream.pos.line = lineAfter t := by
  let _ : PanicOk := anyPanic
  unfold run at h
  cases file with
  | none =>
    have := @parseObjStream_spec _ anyPanic fs (none, t) (.text t) n (parseValue fs n) (envOk_text fs t)
      (.inl ⟨rfl, rfl⟩) (parseValue_ok fs (none, t) n) (PState.init none t rt) (at_init none t rt none) (by
        show t.length + _ ≤ _
        have := fs.sizeExcl_le (Env.text t).stack
        omega)
    simp only [wp] at this
    rw [h] at this
    obtain ⟨ha, -, hr, -⟩ := this
    obtain ⟨pre, h1, h2⟩ := ha.here
    rw [hr, List.append_nil] at h1
    rw [h2, pos_after, ← h1]
    rfl
  | some path =>
    obtain ⟨c, hc⟩ := hf path rfl
    have := @parseObjStream_spec _ anyPanic fs (some path, t) (.main path t c) n (parseValue fs n) ⟨c, hc, .inr trivial, rfl, by simp [Env.main]⟩
      (.inl ⟨rfl, rfl⟩) (parseValue_ok fs (some path, t) n) (PState.init (some path) t rt) (at_init (some path) t rt _) (by
        show t.length + _ ≤ _
        have := fs.sizeExcl_le (Env.main path t c).stack
        omega)
    simp only [wp] at this
    rw [h] at this
    obtain ⟨ha, -, hr, -⟩ := this
    obtain ⟨pre, h1, h2⟩ := ha.here
    rw [hr, List.append_nil] at h1
    rw [h2, pos_after, ← h1]
    rfl

private theorem more_two {fs : FS} {n : Nat} {file : Option Str} {t y : Str} {rt : Rt} {o : Obj} {s : PState} (hf : Readable fs file)
    (hn : (t ++ c!"\n").length + fs.size ≤ n) (h : run fs n file (t ++ c!"\n") rt = .ok o s) :
    (∃ o' s', run fs n file (t ++ c!"\n" ++ y) rt = .ok o' s' ∧ Keeps o.pairs o.parent (o'.pairs, o'.parent)) ∨
    (∃ e, run fs n file (t ++ c!"\n" ++ y) rt = .err e ∧ (e.file = file → e.NamesLineFrom (lineAfter (t ++ c!"\n")))) ∨
    run fs n file (t ++ c!"\n" ++ y) rt = .panic ∨ run fs n file (t ++ c!"\n" ++ y) rt = .oof := by
  have h1 := two_runs fs n file t y rt
  have hp := end_pos hf hn h
  rw [h] at h1
  rcases h1 with ⟨-, s2, h2, -⟩ | ⟨-, t1, b, s2, k, ha, hc, h2⟩
  · exact .inl ⟨o, s2, h2, Keeps.rfl' _ _⟩
  · have hs : t1.stream = s.stream := by
      rw [closeObj_eq] at hc
      injection hc with _ hc
      rw [← hc]
    have hl : lineAfter (t ++ c!"\n") ≤ s2.stream.pos.line := by
      have := findCharGo_line false (moreLines file y).y t1.stream.pos
      rw [ha.found, hs, hp] at this
      exact this
    let L : LCtx := ⟨lineAfter (t ++ c!"\n"), file, fs, file.bind fs.resolve⟩
    have hL : L.Fits := by
      refine ⟨fun h => ?_, fun m h => ?_⟩
      · show file.bind fs.resolve = none
        rw [show file = none from h]; rfl
      · obtain ⟨c, hc⟩ := hf m h
        refine ⟨c, ?_, hc⟩
        show file.bind fs.resolve = some c
        rw [show file = some m from h]; exact hc
    have key : LB L file
        ((if b then fieldsLoop (parseValue fs n) 1 none k o.pairs o.parent else pure (o.pairs, o.parent)) >>= closeObj)
        (fun o' => Keeps o.pairs o.parent (o'.pairs, o'.parent)) := by
      refine lb_bind (B := Keeps o.pairs o.parent) ?_ fun x hx => lb_bind lb_genId fun _ _ => lb_pure hx
      exact lb_ite (fun _ => lb_fieldsLoop (lb_parseValue L hL n) 1 none k _ _) fun _ => lb_pure (Keeps.rfl' _ _)
    have h3 := key s2 ⟨ha.file, fun h => absurd rfl h⟩ fun _ => hl
    rw [← h2] at h3
    cases e : run fs n file (t ++ c!"\n" ++ y) rt with
    | ok o' s' => rw [e] at h3; exact .inl ⟨o', s', rfl, h3.2.2⟩
    | err e' => rw [e] at h3; exact .inr (.inl ⟨e', rfl, fun hn => h3 hn⟩)
    | panic => exact .inr (.inr (.inl rfl))
    | oof => exact .inr (.inr (.inr rfl))

/-! ### Texts and files -/

private theorem str_runs (fs : FS) (t y : Str) (rt : Rt) : ∃ n, (t ++ c!"\n").length + fs.size ≤ n ∧
    fromStr fs (t ++ c!"\n") rt = run fs n none (t ++ c!"\n") rt ∧
    fromStr fs (t ++ c!"\n" ++ y) rt = run fs n none (t ++ c!"\n" ++ y) rt := by
  refine ⟨fs.fuel (t ++ c!"\n" ++ y), by simp only [FS.fuel, List.length_append]; omega, ?_, rfl⟩
  show _ = fromStrFuel fs (fs.fuel (t ++ c!"\n" ++ y)) (t ++ c!"\n") rt
  unfold fromStr
  rw [c23_bound_irrelevant fs (t ++ c!"\n") rt (fs.fuel (t ++ c!"\n")) (by simp only [FS.fuel]; omega),
    c23_bound_irrelevant fs (t ++ c!"\n") rt (fs.fuel (t ++ c!"\n" ++ y)) (by simp only [FS.fuel, List.length_append]; omega)]

private theorem file_runs {fs fs' : FS} {path t y : Str} (hr : fs.read path = .ok (t ++ c!"\n"))
    (he : fs.Edited path (t ++ c!"\n" ++ y) fs') (rt : Rt) : ∃ n, (t ++ c!"\n").length + fs.size ≤ n ∧
    fromFile fs path rt = run fs n (some path) (t ++ c!"\n") rt ∧
    fromFile fs' path rt = run fs n (some path) (t ++ c!"\n" ++ y) rt := by
  refine ⟨fs.fuel (t ++ c!"\n" ++ y), by simp only [FS.fuel, List.length_append]; omega, ?_, ?_⟩
  · exact (c23_bound_irrelevant_file fs path _ rt hr _ (by simp only [FS.fuel, List.length_append]; omega)).symm
  · exact (edited_reading he hr rt (by simp only [FS.fuel]; omega)).symm

omit [Unicode] in
private theorem readable_file {fs : FS} {path t : Str} (hr : fs.read path = .ok t) : Readable fs (some path) := by
  intro p hp
  cases hp
  exact read_resolve hr

/-! ## C55 -/

/-- C55: an error in some lines stays what it is, whatever lines follow. -/
theorem c55_lines_after_an_error (fs : FS) (t y : Str) (rt : Rt) (e : ParseError)
    (h : fromStr fs (t ++ c!"\n") rt = .err e) (he : ¬ e.EndOfText) : fromStr fs (t ++ c!"\n" ++ y) rt = .err e := by
  obtain ⟨n, -, e1, e2⟩ := str_runs fs t y rt
  have h1 := two_runs fs n none t y rt
  rw [← e1, ← e2, h] at h1
  rcases h1 with h1 | ⟨e', h1, h2⟩
  · exact absurd h1 he
  · rw [h1, h2]

/-- C55: the same for lines added to a file. -/
theorem c55_lines_added_to_file (fs fs' : FS) (path t y : Str) (rt : Rt) (e : ParseError) (hr : fs.read path = .ok (t ++ c!"\n"))
    (hed : fs.Edited path (t ++ c!"\n" ++ y) fs') (h : fromFile fs path rt = .err e) (he : ¬ e.EndOfTextOf (some path)) :
    fromFile fs' path rt = .err e := by
  obtain ⟨n, -, e1, e2⟩ := file_runs hr hed rt
  have h1 := two_runs fs n (some path) t y rt
  rw [← e1, ← e2, h] at h1
  rcases h1 with h1 | ⟨e', h1, h2⟩
  · exact absurd h1 he
  · rw [h1, h2]

/-! ## C56 -/

/-- C56: what some lines define stays as it is, whatever is defined in the lines that follow: the fields come first,
with the same values (and ids), and the parent is the same. -/
theorem c56_definitions_added (fs : FS) (t y : Str) (rt : Rt) (o o' : Obj) (s s' : PState)
    (h : fromStr fs (t ++ c!"\n") rt = .ok o s) (h' : fromStr fs (t ++ c!"\n" ++ y) rt = .ok o' s') :
    (∃ more, o'.pairs = o.pairs ++ more) ∧ ∀ p, o.parent = some p → o'.parent = some p := by
  obtain ⟨n, hn, e1, e2⟩ := str_runs fs t y rt
  rw [e1] at h
  rw [e2] at h'
  rcases more_two (y := y) (fun _ h => by cases h) hn h with ⟨o1, s1, h1, h2⟩ | ⟨e, h1, -⟩ | h1 | h1 <;> rw [h'] at h1 <;> cases h1
  exact ⟨h2.1, fun p hp => by rw [← hp]; exact h2.2 (by rw [hp]; rfl)⟩

/-- C56: the same for lines added to a file. -/
theorem c56_definitions_added_to_file (fs fs' : FS) (path t y : Str) (rt : Rt) (o o' : Obj) (s s' : PState)
    (hr : fs.read path = .ok (t ++ c!"\n")) (hed : fs.Edited path (t ++ c!"\n" ++ y) fs')
    (h : fromFile fs path rt = .ok o s) (h' : fromFile fs' path rt = .ok o' s') :
    (∃ more, o'.pairs = o.pairs ++ more) ∧ ∀ p, o.parent = some p → o'.parent = some p := by
  obtain ⟨n, hn, e1, e2⟩ := file_runs hr hed rt
  rw [e1] at h
  rw [e2] at h'
  rcases more_two (y := y) (readable_file hr) hn h with ⟨o1, s1, h1, h2⟩ | ⟨e, h1, -⟩ | h1 | h1 <;> rw [h'] at h1 <;> cases h1
  exact ⟨h2.1, fun p hp => by rw [← hp]; exact h2.2 (by rw [hp]; rfl)⟩

omit [Unicode] in
private theorem stays {o o' : Obj} (hm : ∃ more, o'.pairs = o.pairs ++ more) (f : Str) (hf : o.contains f = true) :
    o'.contains f = true ∧ o'.get f = o.get f := by
  obtain ⟨more, hm⟩ := hm
  obtain ⟨i, ps, par⟩ := o
  obtain ⟨i', ps', par'⟩ := o'
  simp only [Obj.pairs] at hm
  subst hm
  simp only [Obj.contains, Obj.pairs, List.any_append, Obj.get, findPair, List.find?_append] at *
  refine ⟨by rw [hf, Bool.true_or], ?_⟩
  cases e : List.find? (fun p => p.field == f) ps with
  | some p => rfl
  | none =>
    rw [List.any_eq_true] at hf
    obtain ⟨p, hp, hpf⟩ := hf
    have := List.find?_eq_none.1 e p hp
    rw [eq_of_beq hpf] at this
    simp at this

/-- C56: … so a field the lines defined reads the same. -/
theorem c56_fields_stay (fs : FS) (t y : Str) (rt : Rt) (o o' : Obj) (s s' : PState)
    (h : fromStr fs (t ++ c!"\n") rt = .ok o s) (h' : fromStr fs (t ++ c!"\n" ++ y) rt = .ok o' s') (f : Str)
    (hf : o.contains f = true) : o'.contains f = true ∧ o'.get f = o.get f :=
  stays (c56_definitions_added fs t y rt o o' s s' h h').1 f hf

/-- C56: … also when the lines are added to a file. -/
theorem c56_fields_stay_in_file (fs fs' : FS) (path t y : Str) (rt : Rt) (o o' : Obj) (s s' : PState)
    (hr : fs.read path = .ok (t ++ c!"\n")) (hed : fs.Edited path (t ++ c!"\n" ++ y) fs')
    (h : fromFile fs path rt = .ok o s) (h' : fromFile fs' path rt = .ok o' s') (f : Str)
    (hf : o.contains f = true) : o'.contains f = true ∧ o'.get f = o.get f :=
  stays (c56_definitions_added_to_file fs fs' path t y rt o o' s s' hr hed h h').1 f hf

/-! ## C57 -/

/-- C57: when some lines are fine and fail with more lines after them, the error is about the lines that were added (or
about an included file). -/
theorem c57_blame (fs : FS) (t y : Str) (rt : Rt) (o : Obj) (s : PState) (e : ParseError)
    (h : fromStr fs (t ++ c!"\n") rt = .ok o s) (h' : fromStr fs (t ++ c!"\n" ++ y) rt = .err e) (hf : e.file = none) :
    e.NamesLineFrom (lineAfter (t ++ c!"\n")) := by
  obtain ⟨n, hn, e1, e2⟩ := str_runs fs t y rt
  rw [e1] at h
  rw [e2] at h'
  rcases more_two (y := y) (fun _ h => by cases h) hn h with ⟨o1, s1, h1, h2⟩ | ⟨e', h1, h2⟩ | h1 | h1 <;> rw [h'] at h1 <;> cases h1
  exact h2 hf

/-- C57: the same for lines added to a file. -/
theorem c57_blame_in_file (fs fs' : FS) (path t y : Str) (rt : Rt) (o : Obj) (s : PState) (e : ParseError)
    (hr : fs.read path = .ok (t ++ c!"\n")) (hed : fs.Edited path (t ++ c!"\n" ++ y) fs')
    (h : fromFile fs path rt = .ok o s) (h' : fromFile fs' path rt = .err e) (hf : e.file = some path) :
    e.NamesLineFrom (lineAfter (t ++ c!"\n")) := by
  obtain ⟨n, hn, e1, e2⟩ := file_runs hr hed rt
  rw [e1] at h
  rw [e2] at h'
  rcases more_two (y := y) (readable_file hr) hn h with ⟨o1, s1, h1, h2⟩ | ⟨e', h1, h2⟩ | h1 | h1 <;> rw [h'] at h1 <;> cases h1
  exact h2 hf

/-! ## C58 -/

private def renamed (path : Str) : XCtx :=
  ⟨[], none, some path, (fun e => ∃ p l c, e.kind = .invalidIncludePath p l c), (fun e e' => e' = ⟨some path, e.kind⟩), fun _ => True, fun i j => j = i, fun _ => rfl,
    fun h => absurd rfl h⟩

private theorem as_file (fs fs0 : FS) (h0 : ∀ p, fs0.isFile p = false) (path t : Str) (hr : fs.read path = .ok t) (rt : Rt) :
    ∃ n, XMain (renamed path) (parseValue fs n) (fromStr fs0 t rt) (fromFile fs path rt) := by
  have h1 : fromStr fs0 t rt = fromStrFuel fs0 (t.length + fs0.size + fs.size) t rt := by
    unfold fromStr
    rw [c23_bound_irrelevant fs0 t rt (fs0.fuel t) (by simp only [FS.fuel]; omega),
      c23_bound_irrelevant fs0 t rt (t.length + fs0.size + fs.size) (by omega)]
  refine ⟨t.length + fs0.size + fs.size, ?_⟩
  rw [h1, ← c23_bound_irrelevant_file fs path t rt hr (t.length + fs0.size + fs.size) (by omega)]
  refine main_two (xs_parseValue (fun n _ => xinc_none (C := renamed path) (fun p l c => ⟨p, l, c, rfl⟩) fs0 fs h0 _ _) _) ?_
  exact ⟨rfl, rfl, by simp [PState.init, Stream.ofString, renamed], rfl, rfl, rfl, rfl, .inl rfl, trivial⟩

/-- C58: a file whose text reads without any file being there gives the same object. -/
theorem c58_from_file_is_from_str (fs fs0 : FS) (h0 : ∀ p, fs0.isFile p = false) (path t : Str) (hr : fs.read path = .ok t)
    (rt : Rt) (o : Obj) (s : PState) (h : fromStr fs0 t rt = .ok o s) : ∃ s', fromFile fs path rt = .ok o s' := by
  obtain ⟨n, h1⟩ := as_file fs fs0 h0 path t hr rt
  rw [h] at h1
  rcases h1 with ⟨-, s2, h2, -⟩ | ⟨h, -⟩
  · exact ⟨s2, h2⟩
  · exact absurd rfl h

/-- C58: … and so does an error, which only names the file, except that an include fails where there are no files. -/
theorem c58_from_file_error (fs fs0 : FS) (h0 : ∀ p, fs0.isFile p = false) (path t : Str) (hr : fs.read path = .ok t)
    (rt : Rt) (e : ParseError) (h : fromStr fs0 t rt = .err e) (he : ∀ p l c, e.kind ≠ .invalidIncludePath p l c) :
    fromFile fs path rt = .err ⟨some path, e.kind⟩ := by
  obtain ⟨n, h1⟩ := as_file fs fs0 h0 path t hr rt
  rw [h] at h1
  rcases h1 with ⟨p, l, c, h1⟩ | ⟨e', h2, h3⟩
  · exact absurd h1 (he p l c)
  · rw [h2, h3]

end Over

namespace Over

/-! ## Cases that meet the hypotheses -/

section
attribute [local instance] sampleUnicode

private def isEnd : ParseError → Bool
  | ⟨none, .unexpectedEnd _⟩ => true
  | _ => false

private def errSat (p : ParseError → Bool) : Res Obj → Bool
  | .err e => p e
  | _ => false

private theorem errSat_err {p : ParseError → Bool} {r : Res Obj} (h : errSat p r = true) : ∃ e, r = .err e ∧ p e = true := by
  cases r with
  | err e => exact ⟨e, rfl, h⟩
  | _ => cases h

private theorem isEnd_of {e : ParseError} (h : e.EndOfText) : isEnd e = true := by
  obtain ⟨f, k⟩ := e
  obtain ⟨h1, l, h2⟩ := h
  simp only at h1 h2
  subst h1; subst h2; rfl

/-- C55: an unknown name in the second line; nothing written after it changes that, not even its definition. -/
example : ∃ e, fromStr noFiles (c!"a: 1\nb: {c: [d]}" ++ c!"\n") startRt = .err e ∧ ¬ e.EndOfText ∧
    fromStr noFiles (c!"a: 1\nb: {c: [d]}" ++ c!"\n" ++ c!"d: 2\n}") startRt = .err e := by
  obtain ⟨e, h1, h2⟩ := errSat_err (p := fun e => !isEnd e) (r := fromStr noFiles (c!"a: 1\nb: {c: [d]}" ++ c!"\n") startRt)
    (by decide +kernel)
  have h3 : ¬ e.EndOfText := fun h => by simp [isEnd_of h] at h2
  exact ⟨e, h1, h3, c55_lines_after_an_error _ _ _ _ _ h1 h3⟩

/-- C55 needs its exception: the end of the text is the one error more lines can mend. -/
example : errSat isEnd (fromStr noFiles (c!"b: {c: [" ++ c!"\n") startRt) = true ∧
    ((fromStr noFiles (c!"b: {c: [" ++ c!"\n" ++ c!"1]}") startRt).written).isSome = true := by decide +kernel

private def okSat (p : Obj → Bool) : Res Obj → Bool
  | .ok o _ => p o
  | _ => false

private theorem okSat_ok {p : Obj → Bool} {r : Res Obj} (h : okSat p r = true) : ∃ o s, r = .ok o s ∧ p o = true := by
  cases r with
  | ok o s => exact ⟨o, s, rfl, h⟩
  | _ => cases h

/-- C56: three lines, and five. -/
example : ∃ o s o' s', fromStr noFiles (c!"p: {x: 1}\n^: p\na: [1 2]" ++ c!"\n") startRt = .ok o s ∧
    fromStr noFiles (c!"p: {x: 1}\n^: p\na: [1 2]" ++ c!"\n" ++ c!"b: a\nx: p") startRt = .ok o' s' ∧
    (o.contains c!"a" && (o.parent.isSome && o.pairs.length == 2)) = true ∧ (o'.pairs.length == 4) = true := by
  obtain ⟨o, s, h1, h2⟩ := okSat_ok (p := fun o => o.contains c!"a" && (o.parent.isSome && o.pairs.length == 2))
    (r := fromStr noFiles (c!"p: {x: 1}\n^: p\na: [1 2]" ++ c!"\n") startRt) (by decide +kernel)
  obtain ⟨o', s', h3, h4⟩ := okSat_ok (p := fun o => o.pairs.length == 4)
    (r := fromStr noFiles (c!"p: {x: 1}\n^: p\na: [1 2]" ++ c!"\n" ++ c!"b: a\nx: p") startRt) (by decide +kernel)
  exact ⟨o, s, o', s', h1, h3, h2, h4⟩

/-- C57: the third line is wrong, and named. -/
example : ∃ o s e, fromStr noFiles (c!"a: 1\nb: \"2\"" ++ c!"\n") startRt = .ok o s ∧
    fromStr noFiles (c!"a: 1\nb: \"2\"" ++ c!"\n" ++ c!"c: a + b") startRt = .err e ∧
    (e.file.isNone && (e.kind.lineCol.map Prod.fst == some 3)) = true ∧
    lineAfter (c!"a: 1\nb: \"2\"" ++ c!"\n") = 3 := by
  obtain ⟨o, s, h1, -⟩ := okSat_ok (p := fun _ => true) (r := fromStr noFiles (c!"a: 1\nb: \"2\"" ++ c!"\n") startRt)
    (by decide +kernel)
  obtain ⟨e, h2, h3⟩ := errSat_err (p := fun e => e.file.isNone && (e.kind.lineCol.map Prod.fst == some 3))
    (r := fromStr noFiles (c!"a: 1\nb: \"2\"" ++ c!"\n" ++ c!"c: a + b") startRt) (by decide +kernel)
  exact ⟨o, s, e, h1, h2, h3, by decide⟩

private theorem edited (fs : FS) (path text : Str) (h : fs.isFile path = true) : fs.Edited path text (fs.edit path text) := by
  unfold FS.isFile at h
  cases e : fs.resolve path with
  | none => rw [e] at h; cases h
  | some full => rw [e] at h; exact FS.edit_edited e h

/-- The file system of the following examples. -/
private def lib : FS := files [(c!"m", c!"a: <\"l\">\n"), (c!"l", c!"x: 1")]

/-- C55–C57 with files: a line is added to a file that includes another one; the edited file includes itself. -/
example : ∃ e, lib.read c!"m" = .ok (c!"a: <\"l\">" ++ c!"\n") ∧
    lib.Edited c!"m" (c!"a: <\"l\">" ++ c!"\n" ++ c!"b: <\"m\">") (lib.edit c!"m" (c!"a: <\"l\">" ++ c!"\n" ++ c!"b: <\"m\">")) ∧
    (∃ o s, fromFile lib c!"m" startRt = .ok o s ∧ (o.pairs.length == 1) = true) ∧
    fromFile (lib.edit c!"m" (c!"a: <\"l\">" ++ c!"\n" ++ c!"b: <\"m\">")) c!"m" startRt = .err e ∧
    (e.file == some c!"m" && (e.kind.lineCol.map Prod.fst == some 2)) = true := by
  obtain ⟨e, h1, h2⟩ := errSat_err (p := fun e => e.file == some c!"m" && (e.kind.lineCol.map Prod.fst == some 2))
    (r := fromFile (lib.edit c!"m" (c!"a: <\"l\">" ++ c!"\n" ++ c!"b: <\"m\">")) c!"m" startRt) (by decide +kernel)
  have hr : lib.read c!"m" = .ok (c!"a: <\"l\">" ++ c!"\n") := by decide +kernel
  have he : lib.Edited c!"m" (c!"a: <\"l\">" ++ c!"\n" ++ c!"b: <\"m\">") (lib.edit c!"m" (c!"a: <\"l\">" ++ c!"\n" ++ c!"b: <\"m\">")) :=
    edited _ _ _ (by decide +kernel)
  obtain ⟨o, s, h3, h4⟩ := okSat_ok (p := fun o => o.pairs.length == 1) (r := fromFile lib c!"m" startRt) (by decide +kernel)
  exact ⟨e, hr, he, ⟨o, s, h3, h4⟩, h1, h2⟩

/-- … and with a good line: the fields stay. -/
example : ∃ o s o' s', fromFile lib c!"m" startRt = .ok o s ∧
    fromFile (lib.edit c!"m" (c!"a: <\"l\">" ++ c!"\n" ++ c!"b: [a.x]")) c!"m" startRt = .ok o' s' ∧
    o.contains c!"a" = true ∧ o'.get c!"a" = o.get c!"a" ∧ (o'.pairs.length == 2) = true := by
  obtain ⟨o, s, h1, h2⟩ := okSat_ok (p := fun o => o.contains c!"a") (r := fromFile lib c!"m" startRt) (by decide +kernel)
  obtain ⟨o', s', h3, h4⟩ := okSat_ok (p := fun o => o.pairs.length == 2)
    (r := fromFile (lib.edit c!"m" (c!"a: <\"l\">" ++ c!"\n" ++ c!"b: [a.x]")) c!"m" startRt) (by decide +kernel)
  have hr : lib.read c!"m" = .ok (c!"a: <\"l\">" ++ c!"\n") := by decide +kernel
  have he : lib.Edited c!"m" (c!"a: <\"l\">" ++ c!"\n" ++ c!"b: [a.x]") (lib.edit c!"m" (c!"a: <\"l\">" ++ c!"\n" ++ c!"b: [a.x]")) :=
    edited _ _ _ (by decide +kernel)
  exact ⟨o, s, o', s', h1, h3, h2, (c56_fields_stay_in_file lib _ c!"m" _ _ startRt o o' s s' hr he h1 h3 _ h2).2, h4⟩

/-- C58: a text with a nested object and a global, read from a file. -/
example : (∀ p, noFiles.isFile p = false) ∧ (files [(c!"m", c!"@g: 2\na: {b: @g}")]).read c!"m" = .ok c!"@g: 2\na: {b: @g}" ∧
    ∃ o s, fromStr noFiles c!"@g: 2\na: {b: @g}" startRt = .ok o s ∧ (o.pairs.length == 1) = true :=
  ⟨noFiles_isFile, by decide +kernel, okSat_ok (by decide +kernel)⟩

/-- C58: an error in a file. -/
example : ∃ e, fromStr noFiles c!"a: {b: c}" startRt = .err e ∧ (e.file.isNone && (e.kind.lineCol == some (1, 8))) = true ∧
    (∀ p l c, e.kind ≠ .invalidIncludePath p l c) ∧
    fromFile (files [(c!"m", c!"a: {b: c}")]) c!"m" startRt = .err ⟨some c!"m", e.kind⟩ := by
  obtain ⟨e, h1, h2⟩ := errSat_err (p := fun e => (e.file.isNone && (e.kind.lineCol == some (1, 8))) &&
    (match e.kind with | .invalidIncludePath .. => false | _ => true))
    (r := fromStr noFiles c!"a: {b: c}" startRt) (by decide +kernel)
  rw [Bool.and_eq_true] at h2
  have h3 : ∀ p l c, e.kind ≠ .invalidIncludePath p l c := fun p l c h => by rw [h] at h2; exact absurd h2.2 (by simp)
  exact ⟨e, h1, h2.1, h3, c58_from_file_error _ noFiles noFiles_isFile _ _ (by decide +kernel) _ _ h1 h3⟩

end

end Over
