import Verif.Lemmas.Paths
import Verif.Props.Include

/-!
# C75: includes are relative to the file that includes
-/

namespace Over

section
variable [Unicode]

/-- A file that consists of definitions that need no file, and an include. -/
theorem file_include {fs : FS} {f F : Str} (hF : Leads fs f F) {rt : Rt} (hrt : rt.Fine) {u : Str} {o : Obj} {s : PState}
    (hr : fromStr noFiles u rt = .ok o s) {y : Str} (hy : FieldName y) (hn : NotNamed o.pairs y) {k : Option IncKind} {b p : Str}
    (hb : StrBody p b) (ht : fs.read f = .ok (u ++ c!"\n" ++ y ++ c!":" ++ includeText k b)) :
    ∃ st : ESt, st.cache = [] ∧ st.rt.Fine ∧
      (∀ e, evalInclude fs (some f) [F] (loadN fs (fs.nodes.length + 1)) (k.getD .obj) p st = .error e →
        SameOutcome (fromFile fs f rt) (.error e)) ∧
      ∀ v st', evalInclude fs (some f) [F] (loadN fs (fs.nodes.length + 1)) (k.getD .obj) p st = .ok (v, st') →
        ∃ o' s', fromFile fs f rt = .ok o' s' ∧ o'.pairs = o.pairs ++ [.mk y v] ∧ o'.parent = o.parent := by
  obtain ⟨du, stE, h1, h2, -⟩ := c45_from_str_accepts _ _ _ _ _ hr
  have h3 : SpDoc (du ++ [.mk (.field y) (inclExpr k p)]) (u ++ '\n' :: (y ++ ':' :: includeText k b)) :=
    spDoc_append (spOne (.field hy) (spIncl hb)) du u h1
  have e1 : u ++ '\n' :: (y ++ ':' :: includeText k b) = u ++ c!"\n" ++ y ++ c!":" ++ includeText k b := by simp
  rw [e1] at h3
  have hout := fromFile_of_eval (rt := rt) hF ht h3 (Nat.le_succ fs.nodes.length)
  simp only [meaning, evalDoc] at h2
  cases hev : evalFields noFiles none [] (loadN noFiles (noFiles.nodes.length + 1)) du 1 [] none ⟨[], [], rt⟩ with
  | error e => rw [EM.bind_err hev] at h2; cases h2
  | ok x =>
    obtain ⟨⟨ps, par⟩, st1⟩ := x
    rw [EM.bind_ok hev] at h2
    cases h2
    have hcache : st1.cache = [] := cache_empty fun k => by
      cases hg : StrMap.get st1.cache k with
      | none => rfl
      | some v =>
        rcases (evalFields_cache hev).leads k v hg with h | ⟨q, hq⟩
        · cases h
        · exact absurd hq (noFiles_leads _ _)
    have hev2 := carries_evalFields (fs' := fs) (file' := some f) (stack' := [F]) (load' := loadN fs (fs.nodes.length + 1))
      noFiles_carries du [] none (Nat.le_refl 1) _ _ _ hev
    obtain ⟨kk, st2, hc2, -, hfi, -, hin⟩ := evalIncl fs (some f) [F] (loadN fs (fs.nodes.length + 1)) k p ps 1 st1
    obtain ⟨rfl, hf2⟩ := hfi (fine_fields hev hrt)
    rw [if_neg (by omega)] at hin
    have hn' : NotNamed ps y := hn
    refine ⟨st2, hc2.trans hcache, hf2, ?_, ?_⟩
    · intro e he
      rw [he] at hin
      have hall : evalFields fs (some f) [F] (loadN fs (fs.nodes.length + 1)) (du ++ [.mk (.field y) (inclExpr k p)]) 1 [] none
          ⟨[], [], rt⟩ = .error e := by
        rw [evalFields_append, hev2]
        simp only []
        rw [evalFields_one, if_neg (notNamed_mem hn'), hin]
      unfold evalDoc at hout
      rw [EM.bind_err hall] at hout
      exact hout
    · intro v st' he
      rw [he] at hin
      have hall : evalFields fs (some f) [F] (loadN fs (fs.nodes.length + 1)) (du ++ [.mk (.field y) (inclExpr k p)]) 1 [] none
          ⟨[], [], rt⟩ = .ok ((ps ++ [.mk y v], par), st') := by
        rw [evalFields_append, hev2]
        simp only []
        rw [evalFields_one, if_neg (notNamed_mem hn'), hin]
      unfold evalDoc at hout
      rw [EM.bind_ok hall] at hout
      obtain ⟨s', h5, -⟩ := SameOutcome.of_ok hout
      exact ⟨_, s', h5, rfl, rfl⟩

/-- The text of the file at the path meant. -/
theorem include_text {fs : FS} {f F : Str} (hF : Leads fs f F) {rt : Rt} (hrt : rt.Fine) {u : Str} {o : Obj} {s : PState}
    (hr : fromStr noFiles u rt = .ok o s) {y : Str} (hy : FieldName y) (hn : NotNamed o.pairs y) {b p : Str}
    (hb : StrBody p b) (ht : fs.read f = .ok (u ++ c!"\n" ++ y ++ c!":" ++ includeText (some .str) b))
    {G text : Str} (hG : Leads fs (beside f p) G) (hne : G ≠ F) (hread : fs.read (beside f p) = .ok text) :
    ∃ o' s', fromFile fs f rt = .ok o' s' ∧ o'.pairs = o.pairs ++ [.mk y (.str text)] ∧ o'.parent = o.parent := by
  obtain ⟨st, hc, -, -, h⟩ := file_include hF hrt hr hy hn hb ht
  have hnone : StrMap.get st.cache G = none := by rw [hc]; rfl
  have he : evalInclude fs (some f) [F] (loadN fs (fs.nodes.length + 1)) .str p st =
      .ok (.str text, { st with cache := StrMap.insert st.cache G (.str text) }) := by
    rw [evalInclude_leads (show Leads fs (meantIn (some f) p) G from hG), if_neg (by simpa using hne)]
    simp only [evalCached, hnone]
    rw [show meantIn (some f) p = beside f p from rfl, loadN_str hread]
    rfl
  exact h _ _ he

/-- A path that leads to no file. -/
theorem include_missing {fs : FS} {f F : Str} (hF : Leads fs f F) {rt : Rt} (hrt : rt.Fine) {u : Str} {o : Obj} {s : PState}
    (hr : fromStr noFiles u rt = .ok o s) {y : Str} (hy : FieldName y) (hn : NotNamed o.pairs y) {b p : Str}
    (hb : StrBody p b) {k : Option IncKind} (ht : fs.read f = .ok (u ++ c!"\n" ++ y ++ c!":" ++ includeText k b))
    (hno : fs.isFile (beside f p) = false) :
    ∃ l c, fromFile fs f rt = .err ⟨some f, .invalidIncludePath p l c⟩ := by
  obtain ⟨st, -, -, h, -⟩ := file_include hF hrt hr hy hn hb ht
  have he : evalInclude fs (some f) [F] (loadN fs (fs.nodes.length + 1)) (k.getD .obj) p st = .error (.sem (some f) (.includePath p)) := by
    rw [evalInclude_def]
    rw [show meantIn (some f) p = beside f p from rfl, hno]
    cases fs.resolve (beside f p) <;> simp [EM.fail]
  obtain ⟨pe, h2, h3⟩ := (h _ he).of_error
  cases h3 with
  | sem hk =>
    cases hk
    exact ⟨_, _, h2⟩

/-- C75: in a file `dir/name`, a relative path `p` of an include means the file `dir/p`: the include gives the text of that file. -/
theorem c75_beside (fs : FS) (dir name p : Str) (hd : DirText dir) (hname : StepName name) (hp : ¬ Absolute p)
    (rt : Rt) (hrt : rt.Fine) (u : Str) (o : Obj) (s : PState) (hr : fromStr noFiles u rt = .ok o s) (y : Str) (hy : FieldName y)
    (hn : NotNamed o.pairs y) (b : Str) (hb : StrBody p b) (F : Str) (hF : Leads fs (dir ++ name) F)
    (ht : fs.read (dir ++ name) = .ok (u ++ c!"\n" ++ y ++ c!":" ++ includeText (some .str) b))
    (G text : Str) (hG : Leads fs (dir ++ p) G) (hne : G ≠ F) (hread : fs.read (dir ++ p) = .ok text) :
    ∃ o' s', fromFile fs (dir ++ name) rt = .ok o' s' ∧ o'.pairs = o.pairs ++ [.mk y (.str text)] ∧ o'.parent = o.parent := by
  rw [← beside_tidy hd hname hp] at hG hread
  exact include_text hF hrt hr hy hn hb ht hG hne hread

/-- C75: … and when there is no such file the include is an error, whatever there is elsewhere. -/
theorem c75_nowhere_else (fs : FS) (dir name p : Str) (hd : DirText dir) (hname : StepName name) (hp : ¬ Absolute p)
    (rt : Rt) (hrt : rt.Fine) (u : Str) (o : Obj) (s : PState) (hr : fromStr noFiles u rt = .ok o s) (y : Str) (hy : FieldName y)
    (hn : NotNamed o.pairs y) (b : Str) (hb : StrBody p b) (k : Option IncKind) (F : Str) (hF : Leads fs (dir ++ name) F)
    (ht : fs.read (dir ++ name) = .ok (u ++ c!"\n" ++ y ++ c!":" ++ includeText k b))
    (hno : fs.isFile (dir ++ p) = false) :
    ∃ l c, fromFile fs (dir ++ name) rt = .err ⟨some (dir ++ name), .invalidIncludePath p l c⟩ := by
  rw [← beside_tidy hd hname hp] at hno
  exact include_missing hF hrt hr hy hn hb ht hno

/-- C75: however the path of the including file is written (`./a//b`, `a/./b`, …), a relative include is looked up at a path that has all
steps of that path but the last, then the steps of the include, and that begins at the root just if that path does. -/
theorem c75_any_path (fs : FS) (f p : Str) (hf : segments f ≠ []) (hp : ¬ Absolute p) :
    ∃ q, segments q = (segments f).dropLast ++ segments p ∧ (Absolute q ↔ Absolute f) ∧
      (∀ (rt : Rt) (u : Str) (o : Obj) (s : PState) (y b F G text : Str), rt.Fine → fromStr noFiles u rt = .ok o s → FieldName y →
        NotNamed o.pairs y → StrBody p b → Leads fs f F →
        fs.read f = .ok (u ++ c!"\n" ++ y ++ c!":" ++ includeText (some .str) b) →
        Leads fs q G → G ≠ F → fs.read q = .ok text →
        ∃ o' s', fromFile fs f rt = .ok o' s' ∧ o'.pairs = o.pairs ++ [.mk y (.str text)] ∧ o'.parent = o.parent) ∧
      ∀ (rt : Rt) (u : Str) (o : Obj) (s : PState) (y b F : Str) (k : Option IncKind), rt.Fine → fromStr noFiles u rt = .ok o s →
        FieldName y → NotNamed o.pairs y → StrBody p b → Leads fs f F →
        fs.read f = .ok (u ++ c!"\n" ++ y ++ c!":" ++ includeText k b) → fs.isFile q = false →
        ∃ l c, fromFile fs f rt = .err ⟨some f, .invalidIncludePath p l c⟩ := by
  obtain ⟨h1, h2⟩ := beside_steps hf hp
  exact ⟨beside f p, h1, h2,
    fun rt u o s y b F G text hrt hr hy hn hb hF ht hG hne hread => include_text hF hrt hr hy hn hb ht hG hne hread,
    fun rt u o s y b F k hrt hr hy hn hb hF ht hno => include_missing hF hrt hr hy hn hb ht hno⟩

/-- C75: an absolute path is looked up as it is, wherever the including file is. -/
theorem c75_absolute (fs : FS) (f p : Str) (hp : Absolute p)
    (rt : Rt) (hrt : rt.Fine) (u : Str) (o : Obj) (s : PState) (hr : fromStr noFiles u rt = .ok o s) (y : Str) (hy : FieldName y)
    (hn : NotNamed o.pairs y) (b : Str) (hb : StrBody p b) (F : Str) (hF : Leads fs f F)
    (ht : fs.read f = .ok (u ++ c!"\n" ++ y ++ c!":" ++ includeText (some .str) b))
    (G text : Str) (hG : Leads fs p G) (hne : G ≠ F) (hread : fs.read p = .ok text) :
    ∃ o' s', fromFile fs f rt = .ok o' s' ∧ o'.pairs = o.pairs ++ [.mk y (.str text)] ∧ o'.parent = o.parent := by
  rw [← beside_absolute (f := f) hp] at hG hread
  exact include_text hF hrt hr hy hn hb ht hG hne hread

end

section examples
attribute [local instance] sampleUnicode

/-- A project in the directory `d`; the file `t` outside is another one. -/
def sampleDir : FS := files [(c!"d/m", c!"a: 1\n" ++ c!"y:<Str \"t\">"), (c!"d/t", c!"hi"), (c!"t", c!"no")]

theorem sampleDirText : DirText c!"d/" := .sub (x := c!"d") .here ⟨by decide, by decide, by decide⟩

/-- C75: `d/m` includes `d/t`. -/
example : ∃ o' s', fromFile sampleDir c!"d/m" startRt = .ok o' s' ∧ o'.pairs = [.mk c!"a" (.int 1)] ++ [.mk c!"y" (.str c!"hi")] ∧
    o'.parent = none := by
  obtain ⟨s, hr⟩ : ∃ s, fromStr noFiles c!"a: 1" startRt = .ok (.mk 0 [.mk c!"a" (.int 1)] none) s := Res.gives_ok (by decide +kernel)
  exact c75_beside sampleDir c!"d/" c!"m" c!"t" sampleDirText ⟨by decide, by decide, by decide⟩ (by unfold Absolute; decide) startRt startRt_fine
    c!"a: 1" _ s hr c!"y" (sampleFieldName 'y' (by decide)) (by intro p hp; simp [Obj.pairs] at hp; subst hp; exact by decide) c!"t" (sampleBody 't') c!"d/m"
    ⟨by decide +kernel, ⟨_, rfl⟩, rfl⟩ (by decide +kernel) c!"d/t" c!"hi" ⟨by decide +kernel, ⟨_, rfl⟩, rfl⟩ (by decide) (by decide +kernel)

/-- C75: a project in the directory `d` with a missing file; the file `t` outside is not taken. -/
example : ∃ l c, fromFile (files [(c!"d/m", c!"\n" ++ c!"y:<\"t\">"), (c!"t", c!"a: 1")]) c!"d/m" startRt =
    .err ⟨some c!"d/m", .invalidIncludePath c!"t" l c⟩ := by
  obtain ⟨s, hr⟩ : ∃ s, fromStr noFiles [] startRt = .ok (.mk 0 [] none) s := Res.gives_ok (by decide +kernel)
  exact c75_nowhere_else _ c!"d/" c!"m" c!"t" sampleDirText ⟨by decide, by decide, by decide⟩ (by unfold Absolute; decide) startRt startRt_fine
    [] _ s hr c!"y" (sampleFieldName 'y' (by decide)) (by simp [NotNamed, Obj.pairs]) c!"t" (sampleBody 't') none c!"d/m"
    ⟨by decide +kernel, ⟨_, rfl⟩, rfl⟩ (by decide +kernel) (by decide +kernel)

/-- C75: other ways to write the paths. -/
example : segments c!"./d//e/./m" = [c!"d", c!"e", c!"m"] ∧ beside c!"./d//e/./m" c!"t" = c!"./d//e/t" ∧
    segments c!"/m" = [c!"m"] ∧ beside c!"/m" c!"../t" = c!"/../t" := by decide +kernel

/-- C75: an absolute path. -/
example : ∃ o' s', fromFile (files [(c!"d/m", c!"\n" ++ c!"y:<Str \"/t\">"), (c!"/t", c!"hi")]) c!"d/m" startRt = .ok o' s' ∧
    o'.pairs = [] ++ [.mk c!"y" (.str c!"hi")] ∧ o'.parent = none := by
  obtain ⟨s, hr⟩ : ∃ s, fromStr noFiles [] startRt = .ok (.mk 0 [] none) s := Res.gives_ok (by decide +kernel)
  exact c75_absolute _ c!"d/m" c!"/t" rfl startRt startRt_fine
    [] _ s hr c!"y" (sampleFieldName 'y' (by decide)) (by simp [NotNamed, Obj.pairs]) c!"/t"
    (.raw (by decide) (by decide) (sampleBody 't')) c!"d/m"
    ⟨by decide +kernel, ⟨_, rfl⟩, rfl⟩ (by decide +kernel) c!"/t" c!"hi" ⟨by decide +kernel, ⟨_, rfl⟩, rfl⟩ (by decide) (by decide +kernel)

end examples

end Over
