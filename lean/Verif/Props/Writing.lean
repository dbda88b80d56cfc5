import Verif.Lemmas.Bytes
import Verif.Lemmas.WriteData
import Verif.Model.Files
import Verif.Props.Containers
import Verif.Props.Meaning

/-!
# C16–C22: writing and reading back
-/

namespace Over

section
variable [Unicode]

/-! ## C20: writing is total and ignores identity -/

omit [Unicode] in
/-- C20: `write_to_string` returns a text for every object. -/
theorem c20_write_total (o : Obj) : ∃ text, o.writeToString = some text := (format_total.2 o).2 0

omit [Unicode] in
/-- C20: `Display` returns a text for every value, array, tuple and object. -/
theorem c20_display_total :
    (∀ v : Value, ∃ text, v.display = some text) ∧ (∀ a : Arr, ∃ text, a.display = some text) ∧
    (∀ t : Tup, ∃ text, t.display = some text) ∧ (∀ o : Obj, ∃ text, o.display = some text) :=
  ⟨fun v => format_total.1 v _ (Nat.le_refl _), fun a => format_total.1 a.toValue _ (Nat.le_refl _),
    fun t => format_total.1 t.toValue _ (Nat.le_refl _), fun o => (format_total.2 o).1 _ (Nat.le_refl _)⟩

omit [Unicode] in
/-- C20: objects that differ only in the identity of containers are written alike. -/
theorem c20_write_ignores_identity (o p : Obj) (h : o.data = p.data) :
    o.writeToString = p.writeToString ∧ o.display = p.display := by
  unfold Obj.writeToString Obj.display
  constructor <;> rw [← format_data.2 o, ← format_data.2 p, h]

omit [Unicode] in
/-- C20: the same for values. -/
theorem c20_display_ignores_identity (v w : Value) (h : v.data = w.data) : v.display = w.display := by
  unfold Value.display
  rw [← format_data.1 v, ← format_data.1 w, h]

omit [Unicode] in
/-- C20: equal objects (of well-typed contents) are written alike. -/
theorem c20_equal_written_alike (o p : Obj) (ho : WellTypedObj o) (hp : WellTypedObj p)
    (h : o.eq p = true) : o.writeToString = p.writeToString :=
  (c20_write_ignores_identity o p ((c09_obj_eq_iff o p ho hp).1 h)).1

/-! ## C18, C19: objects -/

/-- The text written for an object whose names the parser accepts is the text of a document, and reading
it gives the same data exactly when the nesting fits. -/
theorem read_written (fs : FS) (rt : Rt) (o : Obj) (hw : WellTypedObj o) (hn : NamesOkObj o) (text : Str)
    (ht : o.writeToString = some text) :
    (o.nest ≤ 63 → ∃ o' s, fromStr fs text rt = .ok o' s ∧ o'.data = o.data) ∧
    (¬ o.nest ≤ 63 → ∃ l c, fromStr fs text rt = .err ⟨none, .maxDepth l c⟩) := by
  have hd := (format_spells.2 o hn).2 0 text ht
  have hm := c44_from_str_meaning fs text rt o.ast hd
  have hr := redo_doc (fs := fs) (file := none) (stack := []) (load := loadN fs (fs.nodes.length + 1))
    hw hn ⟨[], [], rt⟩
  constructor
  · intro h
    obtain ⟨o', k, h1, h2⟩ := hr.1 h
    rw [show meaning fs none [] o.ast rt = _ from h1] at hm
    cases hf : fromStr fs text rt with
    | ok o2 s => rw [hf] at hm; obtain ⟨rfl, -⟩ := hm; exact ⟨_, s, rfl, h2⟩
    | err e => rw [hf] at hm; exact hm.elim
    | panic => rw [hf] at hm; exact hm.elim
    | oof => rw [hf] at hm; exact hm.elim
  · intro h
    rw [show meaning fs none [] o.ast rt = _ from hr.2 h] at hm
    cases hf : fromStr fs text rt with
    | ok o2 s => rw [hf] at hm; exact hm.elim
    | err e =>
      rw [hf] at hm
      cases hm with
      | sem hk => cases hk; exact ⟨_, _, rfl⟩
    | panic => rw [hf] at hm; exact hm.elim
    | oof => rw [hf] at hm; exact hm.elim

/-- C18: an object whose names the parser accepts, whose arrays carry their computed types and whose
containers nest at most 63 deep is read back from its written text: an equal object, with the same data. -/
theorem c18_round_trip (fs : FS) (rt : Rt) (o : Obj) (hw : WellTypedObj o) (hn : NamesOkObj o)
    (hd : o.nest ≤ 63) (text : Str) (ht : o.writeToString = some text) :
    ∃ o' s, fromStr fs text rt = .ok o' s ∧ o'.data = o.data ∧ o'.eq o = true ∧ o.eq o' = true := by
  obtain ⟨o', s, h1, h2⟩ := (read_written fs rt o hw hn text ht).1 hd
  have hw' : WellTypedObj o' := by rw [← wellTyped_data.2, h2, wellTyped_data.2]; exact hw
  exact ⟨o', s, h1, h2, (c09_obj_eq_iff _ _ hw' hw).2 h2, (c09_obj_eq_iff _ _ hw hw').2 h2.symm⟩

/-- C18: these are exactly the objects that are read back with the same data. -/
theorem c18_round_trip_iff (fs : FS) (rt : Rt) (o : Obj) (text : Str) (ht : o.writeToString = some text) :
    (∃ o' s, fromStr fs text rt = .ok o' s ∧ o'.data = o.data) ↔
      WellTypedObj o ∧ NamesOkObj o ∧ o.nest ≤ 63 := by
  constructor
  · rintro ⟨o', s, h1, h2⟩
    have hr : Runs fs rt (none, text) (.ok o' s) := h1 ▸ Runs.str text
    have hw : WellTypedObj o := by
      rw [← wellTyped_data.2, ← h2, wellTyped_data.2]; exact c26_parsed_well_typed fs rt _ o' s hr
    have hn : NamesOkObj o := by
      rw [← namesOk_data.2, ← h2, namesOk_data.2]; exact c27_parsed_names_ok fs rt _ o' s hr
    refine ⟨hw, hn, ?_⟩
    by_contra hd
    obtain ⟨l, c, h3⟩ := (read_written fs rt o hw hn text ht).2 hd
    rw [h1] at h3; cases h3
  · rintro ⟨hw, hn, hd⟩
    exact (read_written fs rt o hw hn text ht).1 hd

/-- C19: whatever was read, from a text or a file, is read back from its written text (in any file system
and process state) as an equal object with the same data, exactly when its containers nest at most 63
deep; otherwise the error is the depth error. -/
theorem c19_reread (fs fs' : FS) (rt rt' : Rt) (main : Option Str × Str) (o : Obj) (s : PState)
    (h : Runs fs rt main (.ok o s)) (text : Str) (ht : o.writeToString = some text) :
    (o.nest ≤ 63 → ∃ o' s', fromStr fs' text rt' = .ok o' s' ∧ o'.data = o.data ∧ o'.eq o = true) ∧
    (o.nest > 63 → ∃ l c, fromStr fs' text rt' = .err ⟨none, .maxDepth l c⟩) := by
  have hw := c26_parsed_well_typed fs rt main o s h
  have hn := c27_parsed_names_ok fs rt main o s h
  constructor
  · intro hd
    obtain ⟨o', s', h1, h2, h3, -⟩ := c18_round_trip fs' rt' o hw hn hd text ht
    exact ⟨o', s', h1, h2, h3⟩
  · intro hd
    exact (read_written fs' rt' o hw hn text ht).2 (by omega)

/-! ## C21: canonical and injective -/

/-- C21: re-reading and re-writing a written object reproduces the text. -/
theorem c21_canonical (fs : FS) (rt : Rt) (o o' : Obj) (s : PState) (hw : WellTypedObj o)
    (hn : NamesOkObj o) (text : Str) (ht : o.writeToString = some text)
    (h : fromStr fs text rt = .ok o' s) : o'.writeToString = some text := by
  have hr := read_written fs rt o hw hn text ht
  by_cases hd : o.nest ≤ 63
  · obtain ⟨o2, s2, h1, h2⟩ := hr.1 hd
    rw [h] at h1
    cases h1
    rw [(c20_write_ignores_identity o' o h2).1, ht]
  · obtain ⟨l, c, h1⟩ := hr.2 hd
    rw [h] at h1; cases h1

/-- C21: two objects whose names the parser accepts and whose arrays carry their computed types are equal
when they are written alike, however deep they nest. -/
theorem c21_injective (o p : Obj) (ho : WellTypedObj o) (hp : WellTypedObj p) (hno : NamesOkObj o)
    (hnp : NamesOkObj p) (h : o.writeToString = p.writeToString) :
    o.data = p.data ∧ o.eq p = true := by
  obtain ⟨text, ht⟩ := c20_write_total o
  have h1 := (format_spells.2 o hno).2 0 text ht
  have h2 := (format_spells.2 p hnp).2 0 text (by rw [← ht]; exact h.symm)
  have hd := ast_inj.2 o p ho hp (c49_one_document text _ _ h1 h2)
  exact ⟨hd, (c09_obj_eq_iff o p ho hp).2 hd⟩

/-- C21: two objects that were parsed are equal exactly when they are written alike. -/
theorem c21_parsed_equal_iff_written_alike (fs fs' : FS) (rt rt' : Rt) (m m' : Option Str × Str) (o p : Obj)
    (s s' : PState) (ho : Runs fs rt m (.ok o s)) (hp : Runs fs' rt' m' (.ok p s')) :
    o.eq p = true ↔ o.writeToString = p.writeToString := by
  have hwo := c26_parsed_well_typed fs rt m o s ho
  have hwp := c26_parsed_well_typed fs' rt' m' p s' hp
  constructor
  · exact c20_equal_written_alike o p hwo hwp
  · intro h
    exact (c21_injective o p hwo hwp (c27_parsed_names_ok fs rt m o s ho)
      (c27_parsed_names_ok fs' rt' m' p s' hp) h).2

/-! ## C22: files -/

/-- C22: after a successful `write_to_file`, `from_file` on the same path reads an equal object with the
same data. -/
theorem c22_file_round_trip (fs fs' : FS) (path : Str) (rt : Rt) (o : Obj) (hw : WellTypedObj o)
    (hn : NamesOkObj o) (hd : o.nest ≤ 63) (h : o.WriteToFile fs path (some (.ok ())) fs')
    (hu : ∀ c, fs'.resolve path = some c → fs'.utf8 c = true) :
    ∃ o' s, fromFile fs' path rt = .ok o' s ∧ o'.data = o.data ∧ o'.eq o = true := by
  obtain ⟨text, c, ht, h1, h2⟩ : ∃ text c, o.writeToString = some text ∧ fs'.resolve path = some c ∧
      StrMap.get fs'.nodes c = some (.ok text) := by
    cases h with
    | ok ht h =>
      cases h with
      | done h =>
        obtain ⟨⟨c, h1, h2, -⟩, -⟩ := h
        exact ⟨_, c, ht, h1, by rw [h2, readBytes_encode]⟩
  have hr : fs'.read path = .ok text := by simp [FS.read, h1, h2]
  have hdoc := (format_spells.2 o hn).2 0 text ht
  have hm := c44_from_file_meaning fs' path text c rt o.ast hr h1 (hu c h1) hdoc
  have hre := redo_doc (fs := fs') (file := some path) (stack := [c])
    (load := loadN fs' (fs'.nodes.length + 1)) hw hn ⟨[], [], rt⟩
  obtain ⟨o', k, h3, h4⟩ := hre.1 hd
  rw [show meaning fs' (some path) [c] o.ast rt = _ from h3] at hm
  have hw' : WellTypedObj o' := by rw [← wellTyped_data.2, h4, wellTyped_data.2]; exact hw
  cases hf : fromFile fs' path rt with
  | ok o2 s =>
    rw [hf] at hm; obtain ⟨rfl, -⟩ := hm
    exact ⟨_, s, rfl, h4, (c09_obj_eq_iff _ _ hw' hw).2 h4⟩
  | err e => rw [hf] at hm; exact hm.elim
  | panic => rw [hf] at hm; exact hm.elim
  | oof => rw [hf] at hm; exact hm.elim

/-! ## C16, C17: strings and numbers -/

/-- A value written behind a field name, followed by the rest of a document: the rest is read as if the
value had been given directly. -/
theorem written_in_document (fs : FS) (rt : Rt) (f : Str) (hf : FieldName f) (v : Value) (hn : NamesOk v)
    (n : Nat) (text : Str) (ht : v.format n = some text) (rest : Str) (d : List Field) (hd : SpDoc d rest)
    (hr : d = [] ∨ StartsSeparated rest) :
    SameOutcome (fromStr fs (f ++ c!": " ++ text ++ rest) rt)
      (meaning fs none [] (.mk (.field f) v.ast :: d) rt) := by
  have h := SpFields.cons (eof := true) .nil (.field hf) (gap_indent 1) (format_spells.1 v hn n text ht) hd hr
  have h' : SpDoc (.mk (.field f) v.ast :: d) (f ++ c!": " ++ text ++ rest) := by
    simpa [SpDoc, indent, List.replicate] using h
  exact c44_from_str_meaning fs _ rt _ h'

/-- Reading a value without containers back. -/
theorem read_plain (fs : FS) (rt : Rt) (f : Str) (hf : FieldName f) (v : Value) (hn : NamesOk v)
    (n : Nat) (text : Str) (ht : v.format n = some text)
    (hv : ∀ st, evalExpr fs none [] (loadN fs (fs.nodes.length + 1)) v.ast [] 1 st = .ok (v, st)) :
    ∃ o s, fromStr fs (f ++ c!": " ++ text) rt = .ok o s ∧ o.pairs = [.mk f v] ∧ o.parent = none := by
  have hm := written_in_document fs rt f hf v hn n text ht [] [] (.nil (show EndGap _ from .gap .nil)) (.inl rfl)
  rw [List.append_nil] at hm
  have he : meaning fs none [] [.mk (.field f) v.ast] rt =
      .ok (.mk rt.curId [.mk f v] none, ⟨[], [], rt.next⟩) := by
    simp only [meaning, evalDoc, evalFields, checkNew, List.map_nil, List.not_mem_nil, if_false]
    simp only [bind, EM.bind, EM.pure_apply, hv, List.nil_append, EM.fresh]
    rfl
  rw [he] at hm
  cases hr : fromStr fs (f ++ c!": " ++ text) rt with
  | ok o2 s => rw [hr] at hm; obtain ⟨rfl, -⟩ := hm; exact ⟨_, s, rfl, rfl, rfl⟩
  | err e => rw [hr] at hm; exact hm.elim
  | panic => rw [hr] at hm; exact hm.elim
  | oof => rw [hr] at hm; exact hm.elim

/-- C16: the text written for a string reads back as exactly that string. -/
theorem c16_string_round_trip (fs : FS) (rt : Rt) (f : Str) (hf : FieldName f) (x text : Str)
    (ht : (Value.str x).display = some text) :
    ∃ o s, fromStr fs (f ++ c!": " ++ text) rt = .ok o s ∧ o.pairs = [.mk f (.str x)] ∧ o.parent = none :=
  read_plain fs rt f hf _ (.str _) _ text ht (fun st => by rw [Value.ast, eval_single]; rfl)

/-- C16: reading stops exactly at the end of that text: whatever follows it in a document means what it
means after a field with value `x`. -/
theorem c16_string_consumed_exactly (fs : FS) (rt : Rt) (f : Str) (hf : FieldName f) (x text rest : Str)
    (d : List Field) (ht : (Value.str x).display = some text) (hd : SpDoc d rest)
    (hr : d = [] ∨ StartsSeparated rest) :
    SameOutcome (fromStr fs (f ++ c!": " ++ text ++ rest) rt)
      (meaning fs none [] (.mk (.field f) (.mk (.str x) []) :: d) rt) :=
  written_in_document fs rt f hf _ (.str x) _ text ht rest d hd hr

/-- C17: the text written for an integer reads back as exactly that integer. -/
theorem c17_int_round_trip (fs : FS) (rt : Rt) (f : Str) (hf : FieldName f) (i : Int) (text : Str)
    (ht : (Value.int i).display = some text) :
    ∃ o s, fromStr fs (f ++ c!": " ++ text) rt = .ok o s ∧ o.pairs = [.mk f (.int i)] ∧ o.parent = none :=
  read_plain fs rt f hf _ (.int _) _ text ht (fun st => by rw [Value.ast, eval_single, eval_intTerm])

/-- C17: the text written for a fraction (integral or not) reads back as exactly that fraction. -/
theorem c17_frac_round_trip (fs : FS) (rt : Rt) (f : Str) (hf : FieldName f) (q : Rat) (text : Str)
    (ht : (Value.frac q).display = some text) :
    ∃ o s, fromStr fs (f ++ c!": " ++ text) rt = .ok o s ∧ o.pairs = [.mk f (.frac q)] ∧ o.parent = none :=
  read_plain fs rt f hf _ (.frac _) _ text ht (fun st => by rw [Value.ast, eval_ratExpr])

end

/-! ## Examples -/

section
attribute [local instance] sampleUnicode

/-- An object with all kinds of values that meets the hypotheses of the round trip. -/
def sampleObj : Obj := .mk 7 [.mk c!"a" (.arr 8 .frac [.frac (1/3), .frac (-2)]),
  .mk c!"b" (.tup 9 [.str, .null] [.str c!"x\"\n", .null])] (some (.mk 3 [.mk c!"a" (.int (-5))] none))

theorem sampleObj_wellTyped : WellTypedObj sampleObj := by
  refine .mk ?_ ?_
  · intro p hp
    simp only [List.mem_cons, List.not_mem_nil, or_false] at hp
    rcases hp with rfl | rfl
    · refine .arr ?_ ⟨?_, ?_⟩
      · intro v hv
        simp only [List.mem_cons, List.not_mem_nil, or_false] at hv
        rcases hv with rfl | rfl <;> exact .frac _
      · intro t ht
        simp only [List.map_cons, List.map_nil, Value.getType, List.mem_cons, List.not_mem_nil, or_false, or_self] at ht
        subst ht; exact .frac
      · intro d hd; exact hd .frac (by simp [Value.getType])
    · refine .tup ?_ rfl
      intro v hv
      simp only [List.mem_cons, List.not_mem_nil, or_false] at hv
      rcases hv with rfl | rfl
      · exact .str _
      · exact .null
  · rintro q hq
    cases hq
    refine .mk ?_ (by rintro q ⟨⟩)
    intro p hp
    simp only [List.mem_cons, List.not_mem_nil, or_false] at hp
    subst hp; exact .int _

theorem sampleObj_namesOk : NamesOkObj sampleObj := by
  refine .mk ?_ (by decide) ?_ ?_
  · intro p hp
    simp only [List.mem_cons, List.not_mem_nil, or_false] at hp
    rcases hp with rfl | rfl
    · exact sampleFieldName 'a' (by decide)
    · exact sampleFieldName 'b' (by decide)
  · intro p hp
    simp only [List.mem_cons, List.not_mem_nil, or_false] at hp
    rcases hp with rfl | rfl
    · refine .arr ?_
      intro v hv
      simp only [List.mem_cons, List.not_mem_nil, or_false] at hv
      rcases hv with rfl | rfl <;> exact .frac _
    · refine .tup ?_
      intro v hv
      simp only [List.mem_cons, List.not_mem_nil, or_false] at hv
      rcases hv with rfl | rfl
      · exact .str _
      · exact .null
  · rintro q hq
    cases hq
    refine .mk ?_ (by decide) ?_ (by rintro q ⟨⟩)
    · intro p hp
      simp only [List.mem_cons, List.not_mem_nil, or_false] at hp
      subst hp; exact sampleFieldName 'a' (by decide)
    · intro p hp
      simp only [List.mem_cons, List.not_mem_nil, or_false] at hp
      subst hp; exact .int _

/-- C18 on that object, with its text. -/
example : sampleObj.writeToString = some (c!"^: {\n    a: -5\n}\na: [\n    1/3\n    -2.0\n]\n" ++
    c!"b: (\n    \"x\\\"\\n\"\n    null\n)\n") ∧ sampleObj.nest ≤ 63 := by decide +kernel

example : ∃ text o' s, sampleObj.writeToString = some text ∧ fromStr noFiles text startRt = .ok o' s ∧
    o'.eq sampleObj = true := by
  obtain ⟨text, ht⟩ := c20_write_total sampleObj
  obtain ⟨o', s, h1, -, h2, -⟩ := c18_round_trip noFiles startRt sampleObj sampleObj_wellTyped
    sampleObj_namesOk (by decide +kernel) text ht
  exact ⟨text, o', s, ht, h1, h2⟩

/-- C22 on that object: writing a new file. -/
example : ∃ fs', sampleObj.WriteToFile noFiles c!"f.over" (some (.ok ())) fs' ∧
    ∀ c, fs'.resolve c!"f.over" = some c → fs'.utf8 c = true := by
  obtain ⟨text, ht⟩ := c20_write_total sampleObj
  refine ⟨files [(c!"f.over", text)], .ok ht (.done ⟨⟨c!"f.over", (by decide +kernel : (files [(c!"f.over", [])]).resolve c!"f.over" = some c!"f.over"),
    by simp [files, StrMap.get, readBytes_encode], ?_⟩, ?_⟩), ?_⟩
  · intro c' hc
    have : (c!"f.over" == c') = false := by simpa using fun h => hc h.symm
    simp [files, StrMap.get, noFiles, this]
  · intro p c h; cases canon_of_resolve h
  · intro c _; rfl

/-- The names `f0`, `f1`, …: digits in the name. -/
def deepName (n : Nat) : Str := 'f' :: showNat n

/-- The text `f0: [] f1: [f0] … fn: [f(n-1)]`. -/
def deepText : Nat → Str
  | 0 => c!"f0: []\n"
  | n + 1 => deepText n ++ deepName (n + 1) ++ c!": [" ++ deepName n ++ c!"]\n"

/-- C19: a document can build a value that nests deeper than what can be read: its own written text is
rejected. -/
theorem c19_written_text_can_be_rejected : ∃ (o : Obj) (s : PState) (text : Str),
    fromStr noFiles (deepText 64) startRt = .ok o s ∧ o.writeToString = some text ∧
    ∃ l c, fromStr noFiles text startRt = .err ⟨none, .maxDepth l c⟩ := by
  cases h : fromStr noFiles (deepText 64) startRt with
  | ok o s =>
    have hn : o.nest > 63 := by
      have : (match fromStr noFiles (deepText 64) startRt with | .ok o _ => decide (o.nest > 63) | _ => false) = true := by
        decide +kernel
      rw [h] at this
      simpa using this
    obtain ⟨text, ht⟩ := c20_write_total o
    have hr : Runs noFiles startRt (none, deepText 64) (.ok o s) := h ▸ Runs.str _
    exact ⟨o, s, text, rfl, ht, (c19_reread noFiles noFiles startRt startRt _ o s hr text ht).2 hn⟩
  | err e =>
    have : (match fromStr noFiles (deepText 64) startRt with | .err _ => false | _ => true) = true := by decide +kernel
    rw [h] at this; cases this
  | panic => exact absurd h (c24_from_str_no_panic _ _ _)
  | oof => exact absurd h (c23_from_str_terminates _ _ _)

/-- C16 and C17 on concrete values. -/
example : (Value.str c!"a\"b\\\nc$").display = some c!"\"a\\\"b\\\\\\nc\\$\"" ∧
    (Value.frac (-3/4)).display = some c!"-3/4" ∧ (Value.frac 7).display = some c!"7.0" := by decide +kernel

end

end Over
