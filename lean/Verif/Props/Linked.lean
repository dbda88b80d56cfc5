import Verif.Lemmas.Stands
import Verif.Props.Repeat

/-!
# C87: a project is put together from one value per file

`OneValuePerFile fs V` (`Spec/Linked.lean`): the table `V` gives a file one value, which is its text or what its text says,
where every include in it holds the value that `V` gives to the included file.  `Stands fs file d o F v`
(`Spec/Stands.lean`): somewhere in the project there is an include of the file `F`, and `v` stands there.
-/

namespace Over

section
variable [Unicode]

/-- C87: reading a text: there is one table of values of files such that wherever an include stands, in the text or in any of
the files (as a field, an element or a parent, at whatever depth), the value from the table stands in the result. -/
theorem c87_from_str (fs : FS) (rt : Rt) (text : Str) (o : Obj) (s : PState) (h : fromStr fs text rt = .ok o s)
    (d : List Field) (hd : SpDoc d text) :
    ∃ V, OneValuePerFile fs V ∧ Field.linked (IncludeIs fs none V) d o.pairs o.parent := by
  obtain ⟨d', st, h1, h2, -⟩ := c45_from_str_accepts fs text rt o s h
  cases c49_one_document _ _ _ hd h1
  exact meaning_linked h2

/-- C87: the same for a file. -/
theorem c87_from_file (fs : FS) (rt : Rt) (path full : Str) (hp : fs.resolve path = some full) (o : Obj) (s : PState)
    (h : fromFile fs path rt = .ok o s) (text : Str) (ht : fs.read path = .ok text) (d : List Field) (hd : SpDoc d text) :
    ∃ V, OneValuePerFile fs V ∧ Field.linked (IncludeIs fs (some path) V) d o.pairs o.parent := by
  obtain ⟨text', d', st, h0, h1, h2, -⟩ := c45_from_file_accepts fs path full rt o s hp h
  rw [ht] at h0
  cases h0
  cases c49_one_document _ _ _ hd h1
  exact meaning_linked h2

/-- C87: wherever in a project a file is included, in the text that is read or in any file that it needs, by whatever paths
and under whatever keywords, the same instance stands there. -/
theorem c87_same_instance (fs : FS) (hfs : fs.OneMeaning) (rt : Rt) (text : Str) (o : Obj) (s : PState)
    (h : fromStr fs text rt = .ok o s) (d : List Field) (hd : SpDoc d text) (F : Str) (v w : Value)
    (hv : Stands fs none d o F v) (hw : Stands fs none d o F w) : v = w := by
  obtain ⟨V, h1, h2⟩ := c87_from_str fs rt text o s h d hd
  have := (hv.value hfs h1 h2).symm.trans (hw.value hfs h1 h2)
  simpa using this

/-- C87: the same for a file. -/
theorem c87_same_instance_file (fs : FS) (hfs : fs.OneMeaning) (rt : Rt) (path full : Str)
    (hp : fs.resolve path = some full) (o : Obj) (s : PState) (h : fromFile fs path rt = .ok o s) (text : Str)
    (ht : fs.read path = .ok text) (d : List Field) (hd : SpDoc d text) (F : Str) (v w : Value)
    (hv : Stands fs (some path) d o F v) (hw : Stands fs (some path) d o F w) : v = w := by
  obtain ⟨V, h1, h2⟩ := c87_from_file fs rt path full hp o s h text ht d hd
  have := (hv.value hfs h1 h2).symm.trans (hw.value hfs h1 h2)
  simpa using this

end

/-! ## A case -/

section
attribute [local instance] sampleUnicode

theorem sharedFiles_oneMeaning : sharedFiles.OneMeaning := by
  have hone : ∀ path A, Leads sharedFiles path A → path = A := by
    rintro path A ⟨h, -⟩
    have := canon_of_resolve h
    simp only [sharedFiles, files] at this
    split at this
    · exact Option.some.inj this
    · cases this
  exact fun path path' p A h1 h2 => by rw [hone _ _ h1, hone _ _ h2]

/-- `f` contains `x:<"g">`.  In `a:<"g">` and `b:[<"f">]` the field `a` and the field `x` of the element of `b` are at
includes of `g`; so they are one object. -/
example : ∃ (o : Obj) (d : List Field) (v w : Value),
    (∃ s, fromStr sharedFiles c!"a:<\"g\">\nb:[<\"f\">]" startRt = .ok o s) ∧
    o.pairs = [.mk c!"a" v, .mk c!"b" (.arr 2 .obj [.obj (.mk 1 [.mk c!"x" w] none)])] ∧
    Stands sharedFiles none d o c!"g" v ∧ Stands sharedFiles none d o c!"g" w ∧ v = w := by
  obtain ⟨s, h⟩ : ∃ s, fromStr sharedFiles c!"a:<\"g\">\nb:[<\"f\">]" startRt =
      .ok (.mk 3 [.mk c!"a" (.obj (.mk 0 [.mk c!"i" (.int 7)] none)),
        .mk c!"b" (.arr 2 .obj [.obj (.mk 1 [.mk c!"x" (.obj (.mk 0 [.mk c!"i" (.int 7)] none))] none)])] none) s :=
    Res.gives_ok (by decide +kernel)
  have hg : Leads sharedFiles c!"g" c!"g" := ⟨by decide +kernel, ⟨_, rfl⟩, rfl⟩
  have ha : SpDoc [.mk (.field c!"a") (inclExpr none c!"g")] c!"a:<\"g\">" :=
    spOne (.field (sampleFieldName 'a' (by decide))) (spIncl (k := none) (sampleBody 'g'))
  have hb : SpExpr (.mk (.arr [inclExpr none c!"f"]) []) c!"[<\"f\">]" := by
    refine .mk (s := c!"[<\"f\">]") (u := []) (.arr (s := c!"<\"f\">") ?_) .nil
    exact .cons (g := []) (s := c!"<\"f\">") (r := []) .nil (spIncl (k := none) (sampleBody 'f')) (.nil .nil) (.inl rfl)
  have hd := spDoc_snoc ha (.field (sampleFieldName 'b' (by decide))) hb
  have hf : SpDoc [.mk (.field c!"x") (inclExpr none c!"g")] c!"x:<\"g\">" :=
    spOne (.field (sampleFieldName 'x' (by decide))) (spIncl (k := none) (sampleBody 'g'))
  have h1 : Stands sharedFiles none _ _ c!"g" _ := .here (p := c!"g") (v := .obj (.mk 0 [.mk c!"i" (.int 7)] none))
    (d := [.mk (.field c!"a") (inclExpr none c!"g"), .mk (.field c!"b") (.mk (.arr [inclExpr none c!"f"]) [])])
    (o := .mk 3 [.mk c!"a" (.obj (.mk 0 [.mk c!"i" (.int 7)] none)),
        .mk c!"b" (.arr 2 .obj [.obj (.mk 1 [.mk c!"x" (.obj (.mk 0 [.mk c!"i" (.int 7)] none))] none)])] none)
    (by simp [Field.holds, Expr.holds, Term.holds, inclExpr, Expr.literalPath, Obj.pairs]) hg
  have h2 : Stands sharedFiles none _ _ c!"g" _ := .through (p := c!"f") (v := .obj (.mk 0 [.mk c!"i" (.int 7)] none))
    (d := [.mk (.field c!"a") (inclExpr none c!"g"), .mk (.field c!"b") (.mk (.arr [inclExpr none c!"f"]) [])])
    (o := .mk 3 [.mk c!"a" (.obj (.mk 0 [.mk c!"i" (.int 7)] none)),
        .mk c!"b" (.arr 2 .obj [.obj (.mk 1 [.mk c!"x" (.obj (.mk 0 [.mk c!"i" (.int 7)] none))] none)])] none)
    (o' := .mk 1 [.mk c!"x" (.obj (.mk 0 [.mk c!"i" (.int 7)] none))] none)
    (by simp [Field.holds, Expr.holds, Expr.holdsL, Term.holds, inclExpr, Expr.literalPath, Obj.pairs])
    rfl hf (.here (p := c!"g") (by simp [Field.holds, Expr.holds, Term.holds, inclExpr, Expr.literalPath, Obj.pairs])
      (by rw [show meantIn (some (meantIn none c!"f")) c!"g" = c!"g" from by decide +kernel]; exact hg))
  exact ⟨_, _, _, _, ⟨s, h⟩, rfl, h1, h2,
    c87_same_instance sharedFiles sharedFiles_oneMeaning startRt _ _ s h _ hd _ _ _ h1 h2⟩

end

end Over
