import Verif.Lemmas.Torn
import Verif.Lemmas.Bytes
import Verif.Props.Repeat
import Verif.Props.Writing
import Verif.Lemmas.Reads

/-!
# C59, C60: texts and files that are cut off
-/

namespace Over

section
variable [Unicode]

/-- C59: when a text and a first part of it are both accepted, the object read from the part has the first fields of the
whole, in order and with the same values, and at most one more field; that field has the name of the next field of the
whole (its value may be another one). -/
theorem c59_cut_text (fs : FS) (x y : Str) (rt : Rt) (o o' : Obj) (s s' : PState) (h : fromStr fs (x ++ y) rt = .ok o s)
    (h' : fromStr fs x rt = .ok o' s') : CutOf o o' := by
  obtain ⟨D, st, hd, hm, -⟩ := c45_from_str_accepts fs _ rt o s h
  obtain ⟨D', st', hd', hm', -⟩ := c45_from_str_accepts fs _ rt o' s' h'
  exact cut_meaning hd hd' hm hm'

omit [Unicode] in
private theorem CutOf.data {o o' : Obj} (h : CutOf o o') : CutOf o.data o'.data := by
  obtain ⟨id, ps, par⟩ := o
  obtain ⟨id', ps', par'⟩ := o'
  obtain ⟨common, rest, h1, h2⟩ := h
  simp only [Obj.pairs, Obj.parent] at h1 h2
  have hs : (Obj.dataP par).isSome = par.isSome := by cases par <;> rfl
  refine ⟨Pair.dataL common, Pair.dataL rest, ?_, ?_⟩
  · simp only [Obj.data, Obj.pairs, h1, Pair.dataL_eq, List.map_append]
  · simp only [Obj.data, Obj.pairs, Obj.parent, hs]
    rcases h2 with ⟨rfl, h2⟩ | ⟨f, v, w, r, rfl, rfl, h2⟩
    · refine .inl ⟨rfl, ?_⟩
      rcases h2 with rfl | rfl | h2
      · exact .inl rfl
      · exact .inr (.inl rfl)
      · exact .inr (.inr h2)
    · refine .inr ⟨f, v.data, w.data, Pair.dataL r, rfl, by simp [Pair.dataL_eq, Pair.data, Pair.field, Pair.value], ?_⟩
      rcases h2 with rfl | rfl
      · exact .inl rfl
      · exact .inr rfl

/-- C59: the same, up to ids, when the whole and the part are read in different processes or at different times. -/
theorem c59_cut_text_elsewhere (fs : FS) (x y : Str) (rt rt' : Rt) (hf : rt.Fine) (hf' : rt'.Fine) (o o' : Obj) (s s' : PState)
    (h : fromStr fs (x ++ y) rt = .ok o s) (h' : fromStr fs x rt' = .ok o' s') : CutOf o.data o'.data := by
  have hs := c51_from_str fs x rt' rt hf' hf
  rw [h'] at hs
  cases e : fromStr fs x rt with
  | ok o1 s1 =>
    rw [e] at hs
    obtain ⟨f, hf, -, -⟩ := hs
    have hd : o'.data = o1.data := by rw [hf, Obj.mapIds_data]
    rw [hd]
    exact (c59_cut_text fs x y rt o o1 s s1 h e).data
  | err _ => rw [e] at hs; exact hs.elim
  | panic => rw [e] at hs; exact hs.elim
  | oof => rw [e] at hs; exact hs.elim

/-- C59: the same for a file of which a first part is left. -/
theorem c59_cut_file (fs fs' : FS) (path full x y : Str) (hp : fs.resolve path = some full) (hu : fs.utf8 full = true)
    (hr : fs.read path = .ok (x ++ y)) (he : fs.Edited path x fs') (rt : Rt) (o o' : Obj) (s s' : PState)
    (h : fromFile fs path rt = .ok o s) (h' : fromFile fs' path rt = .ok o' s') : CutOf o o' := by
  rw [(FS.Edited.same hr).reading hr] at h
  rw [he.reading hr] at h'
  have hR := reads_file hp hu hr
  obtain ⟨D, st, hd, hm, -⟩ := hR.accepts h
  obtain ⟨D', st', hd', hm', -⟩ := hR.accepts h'
  exact cut_meaning hd hd' hm hm'

/-- C59: … also when it is read later or by another process (up to ids). -/
theorem c59_cut_file_elsewhere (fs fs' : FS) (path full x y : Str) (hp : fs.resolve path = some full) (hu : fs.utf8 full = true)
    (hr : fs.read path = .ok (x ++ y)) (he : fs.Edited path x fs') (rt rt' : Rt) (hf : rt.Fine) (hf' : rt'.Fine) (o o' : Obj)
    (s s' : PState) (h : fromFile fs path rt = .ok o s) (h' : fromFile fs' path rt' = .ok o' s') : CutOf o.data o'.data := by
  have hs := c51_from_file fs' path rt' rt hf' hf
  rw [h'] at hs
  cases e : fromFile fs' path rt with
  | ok o1 s1 =>
    rw [e] at hs
    obtain ⟨f, hf, -, -⟩ := hs
    have hd : o'.data = o1.data := by rw [hf, Obj.mapIds_data]
    rw [hd]
    exact (c59_cut_file fs fs' path full x y hp hu hr he rt o o1 s s1 h e).data
  | err _ => rw [e] at hs; exact hs.elim
  | panic => rw [e] at hs; exact hs.elim
  | oof => rw [e] at hs; exact hs.elim

/-! ## C60: torn writes -/

/-- C60: whatever is read from a first part of the text of an object has exactly the parent and the fields whose lines
are complete, and at most one more field, with the name of the next field; a string, array, tuple or object in it is
right. -/
theorem c60_torn_text (fs : FS) (rt : Rt) (o o' : Obj) (s : PState) (hw : WellTypedObj o) (hn : NamesOkObj o) (text x : Str)
    (ht : o.writeToString = some text) (hx : x <+: text) (h : fromStr fs x rt = .ok o' s) (j : Nat) (hj : CompleteLines o x j) :
    HasFirst o o' j := by
  obtain ⟨D, st, hd, hm, -⟩ := c45_from_str_accepts fs _ rt o' s h
  exact torn_meaning hw hn ht hx hd hm hj

omit [Unicode] in
/-- C60: every first part of the text is of one of the two kinds: some number of fields is complete, or not even the
parent. -/
theorem c60_lines (o : Obj) (text x : Str) (ht : o.writeToString = some text) (hx : x <+: text) :
    ParentIncomplete o x ∨ ∃ j, CompleteLines o x j := by
  have step : ∀ j ≤ o.pairs.length, (∃ t, (o.first j).writeToString = some t ∧ x.length < t.length) →
      ParentIncomplete o x ∨ ∃ j, CompleteLines o x j := by
    intro j
    induction j with
    | zero => exact fun _ h => .inl h
    | succ j ih =>
      intro hj h
      obtain ⟨t, h1, -⟩ := write_first_le (o := o) (i := j) (j := o.pairs.length) (by omega) (by rw [Obj.first_all]; exact ht)
      obtain ⟨t', h2, h3⟩ := write_first_le (o := o) (i := j) (j := o.pairs.length) (by omega) (by rw [Obj.first_all]; exact ht)
      rcases Nat.lt_or_ge x.length t.length with hl | hl
      · exact ih (by omega) ⟨t, h1, hl⟩
      · rw [h1] at h2
        cases h2
        exact .inr ⟨j, by omega, ⟨t, h1, List.prefix_of_prefix_length_le h3 hx hl⟩, fun _ => h⟩
  rcases Nat.lt_or_ge x.length text.length with hl | hl
  · exact step o.pairs.length (Nat.le_refl _) ⟨text, by rw [Obj.first_all]; exact ht, hl⟩
  · refine .inr ⟨o.pairs.length, Nat.le_refl _, ⟨text, by rw [Obj.first_all]; exact ht, ?_⟩, fun h => absurd h (by omega)⟩
    rw [hx.eq_of_length_le hl]
    exact List.prefix_refl _

/-- C60: when not even the parent is complete, nothing is read but the parent, or nothing at all. -/
theorem c60_torn_parent (fs : FS) (rt : Rt) (o o' : Obj) (s : PState) (hw : WellTypedObj o) (hn : NamesOkObj o) (text x : Str)
    (ht : o.writeToString = some text) (hx : x <+: text) (h : fromStr fs x rt = .ok o' s) (hj : ParentIncomplete o x) :
    o'.pairs = [] ∧ (o'.parent = none ∨ Obj.dataP o'.parent = Obj.dataP o.parent) := by
  obtain ⟨D, st, hd, hm, -⟩ := c45_from_str_accepts fs _ rt o' s h
  exact torn_parent_meaning hw hn ht hx hd hm hj

/-- C60: a text that is cut between two fields is read as exactly the fields before the cut. -/
theorem c60_cut_between_fields (fs : FS) (rt : Rt) (o : Obj) (hw : WellTypedObj o) (hn : NamesOkObj o) (hd : o.nest ≤ 63) (j : Nat)
    (x : Str) (hx : (o.first j).writeToString = some x) : ∃ o' s, fromStr fs x rt = .ok o' s ∧ o'.data = (o.first j).data := by
  obtain ⟨o', s, h1, h2, -⟩ := c18_round_trip fs rt (o.first j) (wellTyped_first hw j) (namesOk_first hn j) (by
    have : ∀ (ps : List Pair) (j : Nat), Pair.nestL (ps.take j) ≤ Pair.nestL ps := by
      intro ps
      induction ps with
      | nil => intro j; simp
      | cons p ps ih =>
        intro j
        cases p
        cases j with
        | zero => simp [Pair.nestL]
        | succ j =>
          have := ih j
          simp only [List.take_succ_cons, Pair.nestL]
          omega
    obtain ⟨id, ps, par⟩ := o
    have := this ps j
    simp only [Obj.first, Obj.nest, Obj.pairs, Obj.parent] at hd ⊢
    omega) x hx
  exact ⟨o', s, h1, h2⟩

omit [Unicode] in
/-- C60: however `write_to_file` ends (success, error, or death of the process at any point), every path to another
file still leads to that file, and the file has not changed. -/
theorem c60_other_files (o : Obj) (fs fs' : FS) (path : Str) (r : Option (Except OverError Unit)) (h : o.WriteToFile fs path r fs')
    (p : Str) (hp : fs.isFile p = true) (hc : fs'.resolve path ≠ fs.resolve p) :
    fs'.resolve p = fs.resolve p ∧ fs'.read p = fs.read p := by
  have key : ∀ {r}, FileHolds fs path r fs' → fs'.resolve p = fs.resolve p ∧ fs'.read p = fs.read p := by
    rintro r ⟨⟨d, h1, h2, h3⟩, h4⟩
    cases hr : fs.resolve p with
    | none => simp [FS.isFile, hr] at hp
    | some c =>
      rw [hr] at hc
      have hne : c ≠ d := by rintro rfl; exact hc h1
      have := h4 p c hr
      refine ⟨this, ?_⟩
      simp only [FS.isFile, hr, Option.isSome_iff_exists] at hp
      obtain ⟨x, hx⟩ := hp
      simp only [FS.read, this, hr, h3 c hne, hx]
  have key2 : ∀ {text r}, WriteFileStr fs path text r fs' → fs'.resolve p = fs.resolve p ∧ fs'.read p = fs.read p := by
    intro text r h
    cases h with
    | notCreated => exact ⟨rfl, rfl⟩
    | diedBefore => exact ⟨rfl, rfl⟩
    | failed _ _ h => exact key h
    | died _ h => exact key h
    | done h => exact key h
  cases h with
  | ok _ h => exact key2 h
  | err _ h => exact key2 h
  | died _ h => exact key2 h

omit [Unicode] in
/-- C60: … and the file itself holds the whole text after a success; after a failure or death it is as it was, or holds
some first part of the text, or is no text at all (the cut is inside a character). -/
theorem c60_file_contents (o : Obj) (fs fs' : FS) (path : Str) (r : Option (Except OverError Unit)) (h : o.WriteToFile fs path r fs') :
    ∃ text, o.writeToString = some text ∧ (r = some (.ok ()) → fs'.read path = .ok text) ∧
      (fs' = fs ∨ fs'.read path = .error c!"stream did not contain valid UTF-8" ∨ ∃ x, x <+: text ∧ fs'.read path = .ok x) := by
  have key : ∀ {r}, FileHolds fs path r fs' → fs'.read path = r := by
    rintro r ⟨⟨d, h1, h2, -⟩, -⟩
    simp only [FS.read, h1, h2]
  have cut : ∀ {text : Str} {n : Nat}, FileHolds fs path (readBytes (text.utf8Encode.extract 0 n)) fs' →
      fs'.read path = .error c!"stream did not contain valid UTF-8" ∨ ∃ x, x <+: text ∧ fs'.read path = .ok x := by
    intro text n h
    rw [key h]
    rcases readBytes_cut text n with h | h
    · exact .inr h
    · exact .inl h
  cases h with
  | ok ht h =>
    cases h with
    | done h =>
      have := key h
      rw [readBytes_encode] at this
      exact ⟨_, ht, fun _ => this, .inr (.inr ⟨_, List.prefix_refl _, this⟩)⟩
  | err ht h =>
    refine ⟨_, ht, (fun h => by cases h), ?_⟩
    cases h with
    | notCreated => exact .inl rfl
    | failed _ _ h => exact .inr (cut h)
  | died ht h =>
    refine ⟨_, ht, (fun h => by cases h), ?_⟩
    cases h with
    | diedBefore => exact .inl rfl
    | died _ h => exact .inr (cut h)

omit [Unicode] in
/-- C60: an error of `write_to_file` is an `IoError`. -/
theorem c60_error (o : Obj) (fs fs' : FS) (path : Str) (e : OverError) (h : o.WriteToFile fs path (some (.error e)) fs') :
    ∃ msg, e = .ioError msg := by
  cases h with
  | err _ _ => exact ⟨_, rfl⟩

/-- C60: reading the file after `write_to_file` has ended in whatever way: either the file is as it was before, or what
is read has exactly the parent and the fields whose lines are complete, and at most one more field, with the name of
the next field. -/
theorem c60_torn_file (o o' : Obj) (fs fs' : FS) (path : Str) (r : Option (Except OverError Unit)) (h : o.WriteToFile fs path r fs')
    (hw : WellTypedObj o) (hn : NamesOkObj o) (rt : Rt) (s : PState)
    (hr : fromFile fs' path rt = .ok o' s) :
    fs' = fs ∨ ∃ x, fs'.read path = .ok x ∧ (∀ j, CompleteLines o x j → HasFirst o o' j) ∧
      (ParentIncomplete o x → o'.pairs = [] ∧ (o'.parent = none ∨ Obj.dataP o'.parent = Obj.dataP o.parent)) := by
  obtain ⟨text, ht, -, h1⟩ := c60_file_contents o fs fs' path r h
  rcases h1 with h1 | h1 | ⟨x, hx, h1⟩
  · exact .inl h1
  · simp [fromFile, h1] at hr
  · obtain ⟨c, hc⟩ : ∃ c, fs'.resolve path = some c := by
      cases hc : fs'.resolve path with
      | none => simp [FS.read, hc] at h1
      | some c => exact ⟨c, rfl⟩
    obtain ⟨x', D, st, hx', hd, hm, -⟩ := c45_from_file_accepts fs' path c rt o' s hc hr
    rw [h1] at hx'
    cases hx'
    exact .inr ⟨x, h1, fun j hj => torn_meaning hw hn ht hx hd hm hj, torn_parent_meaning hw hn ht hx hd hm⟩

end

/-! ## Examples -/

section
attribute [local instance] sampleUnicode

/-- C59: a configuration and its first half. -/
example : ∃ s s', fromStr noFiles (c!"a: {b: 1}\nport: 80" ++ c!"80\nhost: \"h\"\n") startRt =
      .ok (.mk 1 [.mk c!"a" (.obj (.mk 0 [.mk c!"b" (.int 1)] none)), .mk c!"port" (.int 8080), .mk c!"host" (.str c!"h")] none) s ∧
    fromStr noFiles c!"a: {b: 1}\nport: 80" startRt =
      .ok (.mk 1 [.mk c!"a" (.obj (.mk 0 [.mk c!"b" (.int 1)] none)), .mk c!"port" (.int 80)] none) s' := by
  obtain ⟨s, h⟩ := Res.gives_ok (r := fromStr noFiles (c!"a: {b: 1}\nport: 80" ++ c!"80\nhost: \"h\"\n") startRt)
    (o := .mk 1 [.mk c!"a" (.obj (.mk 0 [.mk c!"b" (.int 1)] none)), .mk c!"port" (.int 8080), .mk c!"host" (.str c!"h")] none)
    (by decide +kernel)
  obtain ⟨s', h'⟩ := Res.gives_ok (r := fromStr noFiles c!"a: {b: 1}\nport: 80" startRt)
    (o := .mk 1 [.mk c!"a" (.obj (.mk 0 [.mk c!"b" (.int 1)] none)), .mk c!"port" (.int 80)] none) (by decide +kernel)
  exact ⟨s, s', h, h'⟩

/-- C59: a file and its first half. -/
example : ∃ s s', fromFile (files [(c!"f", c!"a: {b: 1}\nport: 80" ++ c!"80\nhost: \"h\"\n")]) c!"f" startRt =
      .ok (.mk 1 [.mk c!"a" (.obj (.mk 0 [.mk c!"b" (.int 1)] none)), .mk c!"port" (.int 8080), .mk c!"host" (.str c!"h")] none) s ∧
    fromFile ((files [(c!"f", c!"a: {b: 1}\nport: 80" ++ c!"80\nhost: \"h\"\n")]).edit c!"f" c!"a: {b: 1}\nport: 80") c!"f" startRt =
      .ok (.mk 1 [.mk c!"a" (.obj (.mk 0 [.mk c!"b" (.int 1)] none)), .mk c!"port" (.int 80)] none) s' := by
  obtain ⟨s, h⟩ := Res.gives_ok (r := fromFile (files [(c!"f", c!"a: {b: 1}\nport: 80" ++ c!"80\nhost: \"h\"\n")]) c!"f" startRt)
    (o := .mk 1 [.mk c!"a" (.obj (.mk 0 [.mk c!"b" (.int 1)] none)), .mk c!"port" (.int 8080), .mk c!"host" (.str c!"h")] none)
    (by decide +kernel)
  obtain ⟨s', h'⟩ := Res.gives_ok (r := fromFile ((files [(c!"f", c!"a: {b: 1}\nport: 80" ++ c!"80\nhost: \"h\"\n")]).edit c!"f"
      c!"a: {b: 1}\nport: 80") c!"f" startRt)
    (o := .mk 1 [.mk c!"a" (.obj (.mk 0 [.mk c!"b" (.int 1)] none)), .mk c!"port" (.int 80)] none) (by decide +kernel)
  exact ⟨s, s', h, h'⟩

/-- An object with a parent, a string and numbers. -/
def tornObj : Obj := .mk 3 [.mk c!"name" (.str c!"é"), .mk c!"port" (.int 8080), .mk c!"on" (.bool true)]
  (some (.mk 1 [.mk c!"q" (.frac 2)] none))

/-- C60: its text; the first 37 characters have the complete lines of the parent and one field, 12 not even the
parent. -/
example : tornObj.writeToString = some c!"^: {\n    q: 2.0\n}\nname: \"é\"\nport: 8080\non: true\n" ∧
    CompleteLines tornObj c!"^: {\n    q: 2.0\n}\nname: \"é\"\nport: 80" 1 ∧ ParentIncomplete tornObj c!"^: {\n    q: 2" :=
  ⟨by decide +kernel, ⟨by decide, ⟨c!"^: {\n    q: 2.0\n}\nname: \"é\"\n", by decide +kernel, by decide⟩,
      fun _ => ⟨c!"^: {\n    q: 2.0\n}\nname: \"é\"\nport: 8080\n", by decide +kernel, by decide⟩⟩,
    ⟨c!"^: {\n    q: 2.0\n}\n", by decide +kernel, by decide⟩⟩

/-- C60: a number that was cut is read as another number: nothing tells the reader that the file is torn. -/
theorem c60_cut_number_unnoticed : ∃ s, fromStr noFiles c!"^: {\n    q: 2.0\n}\nname: \"é\"\nport: 80" startRt =
    .ok (.mk 1 [.mk c!"name" (.str c!"é"), .mk c!"port" (.int 80)] (some (.mk 0 [.mk c!"q" (.frac 2)] none))) s :=
  Res.gives_ok (by decide +kernel)

/-- C60: a keyword that was cut can be read as the value of another field. -/
theorem c60_cut_keyword_unnoticed : (Obj.mk 0 [.mk c!"t" (.int 5), .mk c!"b" (.bool true)] none).writeToString = some c!"t: 5\nb: true\n" ∧
    ∃ s, fromStr noFiles c!"t: 5\nb: t" startRt = .ok (.mk 0 [.mk c!"t" (.int 5), .mk c!"b" (.int 5)] none) s :=
  ⟨by decide +kernel, Res.gives_ok (by decide +kernel)⟩

private theorem tornObj_text : tornObj.writeToString = some c!"^: {\n    q: 2.0\n}\nname: \"é\"\nport: 8080\non: true\n" := by
  decide +kernel

/-- One file, with these contents. -/
def oneFile (r : Except Str Str) : FS := { files [(c!"f", [])] with nodes := [(c!"f", r)] }

private theorem tornObj_dies {n : Nat} {r : Except Str Str}
    (h : readBytes ((List.utf8Encode c!"^: {\n    q: 2.0\n}\nname: \"é\"\nport: 8080\non: true\n").extract 0 n) = r) :
    tornObj.WriteToFile noFiles c!"f" none (oneFile r) := by
  refine .died tornObj_text (.died n ⟨⟨c!"f", rfl, by rw [h]; rfl, ?_⟩, ?_⟩)
  · intro c' hc
    have : (c!"f" == c') = false := by simpa using fun h => hc h.symm
    simp [oneFile, StrMap.get, noFiles, this]
  · intro p c h; cases canon_of_resolve h

/-- C60: the process dies after 32 bytes of the text; the file cannot be read: `por` is no definition. -/
example : ∃ fs', tornObj.WriteToFile noFiles c!"f" none fs' ∧
    Res.message (fromFile fs' c!"f" startRt) = some c!"f: Unexpected end at line 5" := by
  refine ⟨_, tornObj_dies (n := 32) (r := .ok c!"^: {\n    q: 2.0\n}\nname: \"é\"\npor") ?_, by decide +kernel⟩
  rw [← readBytes_encode]
  exact congrArg readBytes (by decide +kernel)

/-- C60: the process dies after 36 bytes; the file is read with another port. -/
example : ∃ fs' s, tornObj.WriteToFile noFiles c!"f" none fs' ∧ fromFile fs' c!"f" startRt =
    .ok (.mk 1 [.mk c!"name" (.str c!"é"), .mk c!"port" (.int 8)] (some (.mk 0 [.mk c!"q" (.frac 2)] none))) s := by
  have h := tornObj_dies (n := 36) (r := .ok c!"^: {\n    q: 2.0\n}\nname: \"é\"\nport: 8") (by
    rw [← readBytes_encode]
    exact congrArg readBytes (by decide +kernel))
  obtain ⟨s, hs⟩ := Res.gives_ok (r := fromFile (oneFile (.ok c!"^: {\n    q: 2.0\n}\nname: \"é\"\nport: 8")) c!"f" startRt)
    (o := .mk 1 [.mk c!"name" (.str c!"é"), .mk c!"port" (.int 8)] (some (.mk 0 [.mk c!"q" (.frac 2)] none))) (by decide +kernel)
  exact ⟨_, s, h, hs⟩

/-- C60: the process dies after 26 bytes, inside the `é`; the file is no text. -/
example : ∃ fs', tornObj.WriteToFile noFiles c!"f" none fs' ∧
    Res.message (fromFile fs' c!"f" startRt) = some c!"stream did not contain valid UTF-8" := by
  refine ⟨_, tornObj_dies (n := 26) (r := .error c!"stream did not contain valid UTF-8") ?_, by decide +kernel⟩
  unfold readBytes
  rw [show ((List.utf8Encode c!"^: {\n    q: 2.0\n}\nname: \"é\"\nport: 8080\non: true\n").extract 0 26).utf8Decode? = none by
    decide +kernel]

end

end Over
