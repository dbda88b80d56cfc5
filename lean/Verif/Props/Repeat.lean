import Verif.Lemmas.TwoRuns
import Verif.Props.Identity
import Verif.Props.Writing

/-!
# C51: the result of reading does not depend on what the process has done or is doing

`Obj.mapIds` (renaming of container ids) is in `Spec/Rename.lean`, `Obj.ids` in `Spec/Identity.lean`, `Rt.Fine` in
`Spec/Include.lean`.  An `Rt` comprises the id counter, the keyword objects created so far, and what other threads will do
to both while this one is reading.
-/

namespace Over

/-- The same outcome up to the ids of containers: the same error, or the second object is the first with its ids
renamed one to one, where the ids of keyword objects become the ids of the same keyword objects. -/
def SameUpToIds : Res Obj → Res Obj → Prop
  | .ok o s, .ok o' s' => ∃ f : Nat → Nat, o' = o.mapIds f ∧ (∀ i ∈ o.ids, ∀ j ∈ o.ids, f i = f j → i = j) ∧
      ∀ k, ∀ i ∈ o.ids, s.rt.keyword k = some i ↔ s'.rt.keyword k = some (f i)
  | .err e, .err e' => e = e'
  | .panic, .panic => True
  | _, _ => False

section
variable [Unicode]

omit [Unicode] in
theorem same_of_resRel {W : Ren} {r r' : Res Obj} (h : ResRel W (fun W a b => VV W (.obj a) (.obj b)) r r')
    (hr : r ≠ .oof) : SameUpToIds r r' := by
  cases r <;> cases r' <;> simp only [ResRel] at h <;> try exact h
  · obtain ⟨W', -, hs, h1, h2⟩ := h
    simp only [Value.mapIds] at h2
    injection h2 with h2
    have hd := (Obj.in_iff W' _).1 h1
    exact ⟨W'.ren, h2, fun i hi j hj e => hs.rt.inj i j (hd i hi) (hd j hj) e, fun k i hi => hs.rt.kw i k (hd i hi)⟩
  · exact absurd rfl hr

/-- C51: `Obj::from_str` on the same text and the same files has the same outcome, up to ids, in every process state. -/
theorem c51_from_str (fs : FS) (text : Str) (rt rt' : Rt) (h : rt.Fine) (h' : rt'.Fine) :
    SameUpToIds (fromStr fs text rt) (fromStr fs text rt') :=
  same_of_resRel (sim2_parseObjStream (sim2_parseValue fs _) _ _ (sRel_init h h' none text))
    (c23_from_str_terminates fs text rt)

/-- C51: the same for `Obj::from_file`. -/
theorem c51_from_file (fs : FS) (path : Str) (rt rt' : Rt) (h : rt.Fine) (h' : rt'.Fine) :
    SameUpToIds (fromFile fs path rt) (fromFile fs path rt') := by
  cases hr : fs.read path with
  | error msg => simp only [fromFile, hr]; rfl
  | ok contents =>
    have hn := c23_from_file_terminates fs path rt
    simp only [fromFile, hr] at hn ⊢
    exact same_of_resRel (sim2_parseObjStream (sim2_parseValue fs _) _ _ (sRel_init h h' (some path) contents)) hn

/-- C51: in particular, both readings succeed or both fail with the same error, and the objects are equal (`==`), written
alike and displayed alike. -/
theorem c51_from_str_equal (fs : FS) (text : Str) (rt rt' : Rt) (h : rt.Fine) (h' : rt'.Fine) :
    (∃ o s o' s', fromStr fs text rt = .ok o s ∧ fromStr fs text rt' = .ok o' s' ∧ o.eq o' = true ∧
      o.writeToString = o'.writeToString ∧ o.display = o'.display) ∨
    ∃ e, fromStr fs text rt = .err e ∧ fromStr fs text rt' = .err e := by
  have hs := c51_from_str fs text rt rt' h h'
  have h1 := c24_from_str_no_panic fs text rt
  cases e1 : fromStr fs text rt <;> cases e2 : fromStr fs text rt' <;> rw [e1, e2] at hs <;>
    simp only [SameUpToIds] at hs
  · rename_i o s o' s'
    obtain ⟨f, hf, -, -⟩ := hs
    have hd : o.data = o'.data := by rw [hf, Obj.mapIds_data]
    have hw := c26_parsed_well_typed fs rt _ o s (by rw [← e1]; exact Runs.str text)
    have hw' := c26_parsed_well_typed fs rt' _ o' s' (by rw [← e2]; exact Runs.str text)
    exact .inl ⟨o, s, o', s', rfl, rfl, (c09_obj_eq_iff o o' hw hw').2 hd, c20_write_ignores_identity o o' hd⟩
  · subst hs; exact .inr ⟨_, rfl, rfl⟩
  · exact absurd e1 h1

/-- C51: reading the same text again in the same process, whatever has happened in between, gives an equal object. -/
theorem c51_again (fs : FS) (text : Str) (rt rt' : Rt) (h : rt.Fine) (o : Obj) (s : PState)
    (he : fromStr fs text rt = .ok o s) (hl : s.rt.toShared.MovesOn rt'.toShared) :
    ∃ o' s', fromStr fs text rt' = .ok o' s' ∧ o.eq o' = true := by
  obtain ⟨d, st, hd, h2, h3⟩ := c45_from_str_accepts fs text rt o s he
  obtain ⟨r, h4, -⟩ := reg_meaning h h2
  have hf : s.rt.Fine := by rw [h3]; exact h4.fine
  rcases c51_from_str_equal fs text rt rt' h (hl.fine hf) with ⟨o1, s1, o', s', e1, e2, e3, -⟩ | ⟨e, e1, -⟩
  · rw [he] at e1
    cases e1
    exact ⟨o', s', e2, e3⟩
  · rw [he] at e1; cases e1

/-! ## C38 once more: an include is what the file is, whenever that is read -/

/-- C38: an object include in front of which no other include stands yields the object that `Obj::from_file` yields for
that file, in whatever process state `Obj::from_file` is called; only the ids differ.  If `Obj::from_file` fails, so does
the include. -/
theorem c38_obj_equals_from_file (fs : FS) (rt : Rt) (hrt : rt.Fine) (A : List (Str × Str)) (u : Str) (p : Obj)
    (path F b : Str) (hF : Leads fs path F) (h : ReadsAt noFiles rt A u p) (hb : StrBody path b) (hd : A.length ≤ 62)
    (k : Option IncKind) (hk : k = none ∨ k = some .obj) (y : Str) (hy : FieldName y) (hn : NotNamed p.pairs y)
    (rt' : Rt) (hrt' : rt'.Fine) :
    (∀ o s, fromFile fs path rt' = .ok o s →
      ∃ p' o', ReadsAt fs rt A (u ++ c!"\n" ++ y ++ c!":" ++ includeText k b) p' ∧
        p'.pairs = p.pairs ++ [.mk y (.obj o')] ∧ p'.parent = p.parent ∧ o'.data = o.data ∧ o.eq o' = true) ∧
    (∀ e, fromFile fs path rt' = .err e →
      ∃ e', fromStr fs (nest A (u ++ c!"\n" ++ y ++ c!":" ++ includeText k b)) rt = .err e') := by
  obtain ⟨rt0, hf0, h1, h2⟩ := c38_obj_is_from_file fs rt hrt A u p path F b hF h hb hd k hk y hy hn
  have hs := c51_from_file fs path rt' rt0 hrt' hf0
  constructor
  · intro o s hr
    rw [hr] at hs
    cases e0 : fromFile fs path rt0 <;> rw [e0] at hs <;> simp only [SameUpToIds] at hs
    rename_i o0 s0
    obtain ⟨f, rfl, -, -⟩ := hs
    obtain ⟨p', h3, h4, h5⟩ := h1 _ _ e0
    have hd' := Obj.mapIds_data f o
    obtain ⟨text, -, -, ht, -⟩ := c45_from_file_accepts fs path F rt' o s hF.1 hr
    have hw := c26_parsed_well_typed fs rt' _ o s (by rw [← hr]; exact Runs.file path text ht)
    have hw' := c26_parsed_well_typed fs rt0 _ _ s0 (by rw [← e0]; exact Runs.file path text ht)
    exact ⟨p', _, h3, h4, h5, hd', (c09_obj_eq_iff _ _ hw hw').2 hd'.symm⟩
  · intro e hr
    rw [hr] at hs
    cases e0 : fromFile fs path rt0 <;> rw [e0] at hs <;> simp only [SameUpToIds] at hs
    exact h2 _ e0

/-- C38: an object include of a file yields the object that `Obj::from_file` yields for that file, in whatever process
state, also when other files have been included before, as long as the file needs none of these: the definitions in front
can be read with the files `S` alone, and the file can be read with the other files alone.  Only the ids differ. -/
theorem c38_obj_equals_from_file_alone (fs : FS) (S : Str → Bool) (rt : Rt) (hrt : rt.Fine) (A : List (Str × Str)) (u : Str)
    (p : Obj) (path F b : Str) (hF : Leads fs path F) (h : ReadsAt (fs.only S) rt A u p) (hb : StrBody path b)
    (hd : A.length ≤ 62) (k : Option IncKind) (hk : k = none ∨ k = some .obj) (y : Str) (hy : FieldName y)
    (hn : NotNamed p.pairs y) (rt' : Rt) (hrt' : rt'.Fine) (o : Obj) (s : PState)
    (hr : fromFile (fs.only fun G => !S G) path rt' = .ok o s) :
    ∃ p' o', ReadsAt fs rt A (u ++ c!"\n" ++ y ++ c!":" ++ includeText k b) p' ∧
      p'.pairs = p.pairs ++ [.mk y (.obj o')] ∧ p'.parent = p.parent ∧ o'.data = o.data ∧ o.eq o' = true := by
  obtain ⟨rt0, hf0, h1⟩ := c38_obj_of_other_files fs S rt hrt A u p path F b hF h hb hd k hk y hy hn
  have hs := c51_from_file (fs.only fun G => !S G) path rt' rt0 hrt' hf0
  rw [hr] at hs
  cases e0 : fromFile (fs.only fun G => !S G) path rt0 <;> rw [e0] at hs <;> simp only [SameUpToIds] at hs
  rename_i o0 s0
  obtain ⟨f, rfl, -, -⟩ := hs
  obtain ⟨p', h3, h4, h5⟩ := h1 _ _ e0
  have hd' := Obj.mapIds_data f o
  cases ht : (fs.only fun G => !S G).read path with
  | error m => simp only [fromFile, ht] at hr; cases hr
  | ok text =>
    have hw := c26_parsed_well_typed _ rt' _ o s (by rw [← hr]; exact Runs.file path text ht)
    have hw' := c26_parsed_well_typed _ rt0 _ _ s0 (by rw [← e0]; exact Runs.file path text ht)
    exact ⟨p', _, h3, h4, h5, hd', (c09_obj_eq_iff _ _ hw hw').2 hd'.symm⟩

/-- C38: an `Arr` include of a file that has not been included before, with the values `t` (which include nothing), yields the array that
reading `[t]` yields, in whatever process state that is read; only the ids differ. -/
theorem c38_arr_equals_the_array (fs : FS) (rt : Rt) (hrt : rt.Fine) (A : List (Str × Str)) (u : Str) (p : Obj)
    (path F b t : Str) (es : List Expr) (hF : Leads fs path F) (h : ReadsAt (fs.without F) rt A u p) (hb : StrBody path b)
    (hd : A.length ≤ 62) (ht : fs.read path = .ok t) (hes : SpItems true es t) (y : Str) (hy : FieldName y)
    (hn : NotNamed p.pairs y) (rt' : Rt) (hrt' : rt'.Fine) (x : Str) (hx : FieldName x) (o : Obj) (s : PState) (v : Value)
    (hr : fromStr noFiles (x ++ c!":[" ++ t ++ c!"\n]") rt' = .ok o s) (ho : o.pairs = [.mk x v]) :
    ∃ p' v', ReadsAt fs rt A (u ++ c!"\n" ++ y ++ c!":" ++ includeText (some .arr) b) p' ∧
      p'.pairs = p.pairs ++ [.mk y v'] ∧ p'.parent = p.parent ∧ v'.data = v.data := by
  obtain ⟨rt0, hf0, h1⟩ := c38_arr_is_the_array fs rt hrt A u p path F b t es hF h hb hd ht hes y hy hn
  obtain ⟨f, s0, e0⟩ := reads_again hrt' hf0 hr
  obtain ⟨p', h2, h3, h4⟩ := h1 x _ _ (v.mapIds f) hx e0 (by
    cases o; simp only [Obj.pairs] at ho; subst ho
    simp only [Obj.mapIds, Obj.pairs, Pair.mapIdsL])
  exact ⟨p', _, h2, h3, h4, Value.mapIds_data f v⟩

/-- C38: the same for `Tup`. -/
theorem c38_tup_equals_the_tuple (fs : FS) (rt : Rt) (hrt : rt.Fine) (A : List (Str × Str)) (u : Str) (p : Obj)
    (path F b t : Str) (es : List Expr) (hF : Leads fs path F) (h : ReadsAt (fs.without F) rt A u p) (hb : StrBody path b)
    (hd : A.length ≤ 62) (ht : fs.read path = .ok t) (hes : SpItems true es t) (y : Str) (hy : FieldName y)
    (hn : NotNamed p.pairs y) (rt' : Rt) (hrt' : rt'.Fine) (x : Str) (hx : FieldName x) (o : Obj) (s : PState) (v : Value)
    (hr : fromStr noFiles (x ++ c!":(" ++ t ++ c!"\n)") rt' = .ok o s) (ho : o.pairs = [.mk x v]) :
    ∃ p' v', ReadsAt fs rt A (u ++ c!"\n" ++ y ++ c!":" ++ includeText (some .tup) b) p' ∧
      p'.pairs = p.pairs ++ [.mk y v'] ∧ p'.parent = p.parent ∧ v'.data = v.data := by
  obtain ⟨rt0, hf0, h1⟩ := c38_tup_is_the_tuple fs rt hrt A u p path F b t es hF h hb hd ht hes y hy hn
  obtain ⟨f, s0, e0⟩ := reads_again hrt' hf0 hr
  obtain ⟨p', h2, h3, h4⟩ := h1 x _ _ (v.mapIds f) hx e0 (by
    cases o; simp only [Obj.pairs] at ho; subst ho
    simp only [Obj.mapIds, Obj.pairs, Pair.mapIdsL])
  exact ⟨p', _, h2, h3, h4, Value.mapIds_data f v⟩

end

/-! ## Examples -/

section
attribute [local instance] sampleUnicode

attribute [local irreducible] SameUpToIds in
/-- A new process, and one in which five ids are in use, one of them for the keyword `Obj`: the object of the keyword and
the other containers keep their roles. -/
example : ∃ s s', fromStr noFiles c!"a: Obj b: [1] c: b" startRt =
      .ok (.mk 2 [.mk c!"a" (.obj (.mk 0 [] none)), .mk c!"b" (.arr 1 .int [.int 1]), .mk c!"c" (.arr 1 .int [.int 1])] none) s ∧
    fromStr noFiles c!"a: Obj b: [1] c: b" usedRt =
      .ok (.mk 6 [.mk c!"a" (.obj (.mk 2 [] none)), .mk c!"b" (.arr 5 .int [.int 1]), .mk c!"c" (.arr 5 .int [.int 1])] none) s' ∧
    SameUpToIds (fromStr noFiles c!"a: Obj b: [1] c: b" startRt) (fromStr noFiles c!"a: Obj b: [1] c: b" usedRt) := by
  obtain ⟨s, h⟩ : ∃ s, fromStr noFiles c!"a: Obj b: [1] c: b" startRt =
      .ok (.mk 2 [.mk c!"a" (.obj (.mk 0 [] none)), .mk c!"b" (.arr 1 .int [.int 1]), .mk c!"c" (.arr 1 .int [.int 1])] none) s :=
    Res.gives_ok (by decide +kernel)
  obtain ⟨s', h'⟩ : ∃ s', fromStr noFiles c!"a: Obj b: [1] c: b" usedRt =
      .ok (.mk 6 [.mk c!"a" (.obj (.mk 2 [] none)), .mk c!"b" (.arr 5 .int [.int 1]), .mk c!"c" (.arr 5 .int [.int 1])] none) s' :=
    Res.gives_ok (by decide +kernel)
  exact ⟨s, s', h, h', c51_from_str _ _ _ _ startRt_fine usedRt_fine⟩

/-- Another thread takes an id after each step of this one. -/
def busyRt : Rt := ⟨⟨5, some 2, none, none, none⟩, 0, fun _ s => { s with curId := s.curId + 1 }, fun _ s =>
  ⟨Nat.le_succ _, fun k _ h => by cases k <;> exact h, fun k i h h' => by
    have : s.keyword k = some i := by cases k <;> exact h'
    rw [h] at this; cases this⟩⟩

theorem busyRt_fine : busyRt.Fine := usedRt_fine

attribute [local irreducible] SameUpToIds in
example : SameUpToIds (fromStr noFiles c!"a: [1] b: {} c: @x" startRt) (fromStr noFiles c!"a: [1] b: {} c: @x" busyRt) :=
  c51_from_str _ _ _ _ startRt_fine busyRt_fine

attribute [local irreducible] ReadsAt in
/-- The include `<"f">` behind `m: 2` is the object in the file `f`. -/
example : ∃ p' o', ReadsAt sampleFiles startRt [(c!"z: 1", c!"a")] (c!"m: 2" ++ c!"\n" ++ c!"y" ++ c!":" ++
      includeText none c!"f") p' ∧ p'.pairs = [.mk c!"m" (.int 2), .mk c!"y" (.obj o')] ∧
      o'.data = (Obj.mk 6 [.mk c!"k" (.obj (.mk 5 [.mk c!"i" (.int 7)] none))] none).data := by
  obtain ⟨s, h⟩ : ∃ s, fromFile sampleFiles c!"f" usedRt =
      .ok (.mk 6 [.mk c!"k" (.obj (.mk 5 [.mk c!"i" (.int 7)] none))] none) s := Res.gives_ok (by decide +kernel)
  obtain ⟨p', o', h1, h2, -, h3, -⟩ := (c38_obj_equals_from_file sampleFiles startRt startRt_fine [(c!"z: 1", c!"a")] c!"m: 2"
    samplePlace c!"f" c!"f" c!"f" (sampleLeads _ rfl) (samplePlace_reads _ (noFiles_sub _)) (sampleBody 'f') (by simp) none
    (.inl rfl) c!"y" (sampleFieldName 'y' (by decide)) (by simp [NotNamed, samplePlace, Obj.pairs, Pair.field]) usedRt
    usedRt_fine).1 _ _ h
  exact ⟨p', o', h1, h2, h3⟩

/-- The values of the file `s`. -/
theorem sampleItems : SpItems true [.mk (.int 1) [], .mk (.int 2) [], .mk (.int 3) []] c!"1 2\n3" := by
  have hi : ∀ n : Nat, SpExpr (.mk (.int n) []) (showNat n) := fun n => by
    have := SpExpr.mk (.int (showNat_intLit n)) .nil
    simpa using this
  exact .cons .nil (hi 1) (.cons (.ws (by decide) .nil) (hi 2) (.cons (.ws (by decide) .nil) (hi 3) (.nil (.gap .nil)) (.inl rfl))
    (.inr ⟨_, _, rfl, by decide⟩)) (.inr ⟨_, _, rfl, by decide⟩)

attribute [local irreducible] ReadsAt in
/-- The include `<Arr "s">` behind `m: 2` is the array of the values in `s`. -/
example : ∃ p' v', ReadsAt sampleFiles startRt [(c!"z: 1", c!"a")] (c!"m: 2" ++ c!"\n" ++ c!"y" ++ c!":" ++
      includeText (some .arr) c!"s") p' ∧ p'.pairs = [.mk c!"m" (.int 2), .mk c!"y" v'] ∧
      v'.data = (Value.arr 5 .int [.int 1, .int 2, .int 3]).data := by
  obtain ⟨s, h⟩ : ∃ s, fromStr noFiles (c!"x" ++ c!":[" ++ c!"1 2\n3" ++ c!"\n]") usedRt =
      .ok (.mk 6 [.mk c!"x" (.arr 5 .int [.int 1, .int 2, .int 3])] none) s := Res.gives_ok (by decide +kernel)
  obtain ⟨p', v', h1, h2, -, h3⟩ := c38_arr_equals_the_array sampleFiles startRt startRt_fine [(c!"z: 1", c!"a")] c!"m: 2"
    samplePlace c!"s" c!"s" c!"s" _ _ (sampleLeads _ rfl) (samplePlace_reads _ (noFiles_sub _)) (sampleBody 's') (by simp) rfl
    sampleItems c!"y" (sampleFieldName 'y' (by decide)) (by simp [NotNamed, samplePlace, Obj.pairs, Pair.field]) usedRt
    usedRt_fine c!"x" (sampleFieldName 'x' (by decide)) _ s _ h rfl
  exact ⟨p', v', h1, h2, h3⟩

attribute [local irreducible] ReadsAt in
/-- … and `<Tup "s">` the tuple. -/
example : ∃ p' v', ReadsAt sampleFiles startRt [(c!"z: 1", c!"a")] (c!"m: 2" ++ c!"\n" ++ c!"y" ++ c!":" ++
      includeText (some .tup) c!"s") p' ∧ p'.pairs = [.mk c!"m" (.int 2), .mk c!"y" v'] ∧
      v'.data = (Value.tup 5 [.int, .int, .int] [.int 1, .int 2, .int 3]).data := by
  obtain ⟨s, h⟩ : ∃ s, fromStr noFiles (c!"x" ++ c!":(" ++ c!"1 2\n3" ++ c!"\n)") usedRt =
      .ok (.mk 6 [.mk c!"x" (.tup 5 [.int, .int, .int] [.int 1, .int 2, .int 3])] none) s := Res.gives_ok (by decide +kernel)
  obtain ⟨p', v', h1, h2, -, h3⟩ := c38_tup_equals_the_tuple sampleFiles startRt startRt_fine [(c!"z: 1", c!"a")] c!"m: 2"
    samplePlace c!"s" c!"s" c!"s" _ _ (sampleLeads _ rfl) (samplePlace_reads _ (noFiles_sub _)) (sampleBody 's') (by simp) rfl
    sampleItems c!"y" (sampleFieldName 'y' (by decide)) (by simp [NotNamed, samplePlace, Obj.pairs, Pair.field]) usedRt
    usedRt_fine c!"x" (sampleFieldName 'x' (by decide)) _ s _ h rfl
  exact ⟨p', v', h1, h2, h3⟩

/-- Two files, the first of which includes the second. -/
def sharedFiles : FS := files [(c!"f", c!"x:<\"g\">"), (c!"g", c!"i:7")]

/-- C38: the condition that the file needs none of the files included before cannot be dropped.  `<"f">` is an object
with the object of `g` in it when `f` is read alone, but with the text of `g` when `<Str "g">` stands in front of it. -/
theorem c38_earlier_includes_matter :
    (∃ s, fromFile sharedFiles c!"f" startRt = .ok (.mk 1 [.mk c!"x" (.obj (.mk 0 [.mk c!"i" (.int 7)] none))] none) s) ∧
    (∃ s, fromStr sharedFiles c!"b:<\"f\">" startRt =
      .ok (.mk 2 [.mk c!"b" (.obj (.mk 1 [.mk c!"x" (.obj (.mk 0 [.mk c!"i" (.int 7)] none))] none))] none) s) ∧
    ∃ s, fromStr sharedFiles c!"a:<Str \"g\"> b:<\"f\">" startRt =
      .ok (.mk 3 [.mk c!"a" (.str c!"i:7"), .mk c!"b" (.obj (.mk 2 [.mk c!"x" (.str c!"i:7")] none))] none) s :=
  ⟨Res.gives_ok (by decide +kernel), Res.gives_ok (by decide +kernel), Res.gives_ok (by decide +kernel)⟩

attribute [local irreducible] ReadsAt in
/-- Behind `w: <Str "s">` the include `<"g">`, which needs `f` but not `s`, is the object of the file `g`. -/
example : ∃ p' o', ReadsAt sampleFiles startRt [] (c!"w:<Str \"s\">" ++ c!"\n" ++ c!"y" ++ c!":" ++ includeText none c!"g") p' ∧
      p'.pairs = [.mk c!"w" (.str c!"1 2\n3"), .mk c!"y" (.obj o')] ∧
      o'.data = (Obj.mk 7 [.mk c!"h" (.obj (.mk 6 [.mk c!"k" (.obj (.mk 5 [.mk c!"i" (.int 7)] none))] none))] none).data := by
  obtain ⟨s, h⟩ : ∃ s, fromFile (sampleFiles.only fun G => !(G == c!"s")) c!"g" usedRt =
      .ok (.mk 7 [.mk c!"h" (.obj (.mk 6 [.mk c!"k" (.obj (.mk 5 [.mk c!"i" (.int 7)] none))] none))] none) s :=
    Res.gives_ok (by decide +kernel)
  obtain ⟨s2, g2⟩ : ∃ s, fromStr (sampleFiles.only (· == c!"s")) c!"w:<Str \"s\">" startRt =
      .ok (.mk 2 [.mk c!"w" (.str c!"1 2\n3")] none) s := Res.gives_ok (by decide +kernel)
  have hr : ReadsAt (sampleFiles.only (· == c!"s")) startRt [] c!"w:<Str \"s\">" (.mk 2 [.mk c!"w" (.str c!"1 2\n3")] none) := by
    unfold ReadsAt
    exact ⟨(by intro l hl; cases hl), wellFormed_of_read g2, _, s2, g2, .here⟩
  obtain ⟨p', o', h1, h2, -, h3, -⟩ := c38_obj_equals_from_file_alone sampleFiles (· == c!"s") startRt startRt_fine [] _ _
    c!"g" c!"g" c!"g" (sampleLeads _ rfl) hr (sampleBody 'g') (by simp) none (.inl rfl) c!"y" (sampleFieldName 'y' (by decide))
    (by simp [NotNamed, Obj.pairs, Pair.field]) usedRt usedRt_fine _ s h
  exact ⟨p', o', h1, h2, h3⟩

end

end Over
