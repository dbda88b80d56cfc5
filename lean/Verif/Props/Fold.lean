import Verif.Lemmas.Fold
import Verif.Props.Closed
import Verif.Props.Edited

/-!
# C89: a closed part can be replaced by another one with the same value

`SameAlone` and `FoldDoc` are in `Spec/Fold.lean`, `Expr.closed` in `Spec/Closed.lean`, `Field.levelsL` in `Spec/Depth.lean`, `EndAlike` in
`Props/Inline.lean`.
-/

namespace Over

section
variable [Unicode]

/-- What is read from `x:e` is the value of `e`. -/
theorem alone_eval {e : Expr} {u : Str} (hu : SpExpr e u) {o : Obj} {s : PState} (h : fromStr noFiles (c!"x:" ++ u) startRt = .ok o s) :
    ∃ v st, evalExpr noFiles none [] (theLoader noFiles) e [] 1 ⟨[], [], startRt⟩ = .ok (v, st) ∧ o.data = .mk 0 [.mk c!"x" v.data] none := by
  have hd : SpDoc [.mk (.field c!"x") e] (c!"x:" ++ u) := spOne (.field ⟨'x', [], rfl, .inl (by simp [isAlphabetic, show isAsciiAlpha 'x' = true by decide]), by simp, by decide⟩) hu
  have hm := (reads_str noFiles).means startRt hd
  rw [h] at hm
  unfold meaning at hm
  rw [show loadN noFiles (noFiles.nodes.length + 1) = theLoader noFiles from rfl] at hm
  cases he : evalExpr noFiles none [] (theLoader noFiles) e [] 1 ⟨[], [], startRt⟩ with
  | error x =>
    have h1 : evalFields noFiles none [] (theLoader noFiles) [.mk (.field c!"x") e] 1 [] none ⟨[], [], startRt⟩ = .error x := by
      rw [evalFields_one, if_neg (by simp), he]
    unfold evalDoc at hm
    rw [EM.bind_err h1] at hm
    exact hm.elim
  | ok x =>
    obtain ⟨v, st⟩ := x
    refine ⟨v, st, rfl, ?_⟩
    have h1 : evalFields noFiles none [] (theLoader noFiles) [.mk (.field c!"x") e] 1 [] none ⟨[], [], startRt⟩ =
        .ok (([.mk c!"x" v], none), st) := by
      rw [evalFields_one, if_neg (by simp), he]
      rfl
    unfold evalDoc at hm
    rw [EM.bind_ok h1] at hm
    obtain ⟨rfl, -⟩ := hm
    simp [Obj.data, Obj.dataP, Pair.dataL]

theorem SameAlone.swappable {e e' : Expr} (h : SameAlone e e') : Swappable e e' := by
  obtain ⟨c, c', k, k', u, u', o, s, o', s', hu, hu', h1, h2, h3⟩ := h
  obtain ⟨v, st, e1, d1⟩ := alone_eval hu h1
  obtain ⟨v', st', e1', d1'⟩ := alone_eval hu' h2
  refine ⟨c, c', k, k', v, v', _, st, _, st', e1, e1', ?_⟩
  have hd := (c09_obj_eq_iff o o' ((reads_str noFiles).typed h1) ((reads_str noFiles).typed h2)).1 h3
  rw [d1, d1'] at hd
  simpa using hd

section
variable {fs : FS} {file : Option Str} {stack : List Str} {R : Str → Rt → Res Obj} (hR : Reads fs file stack R)
include hR

theorem Reads.folded {rt rt' : Rt} (h : rt.Fine) (h' : rt'.Fine) {d d' : List Field} {text text' : Str} (hd : SpDoc d text)
    (hd' : SpDoc d' text') (hi : FoldDoc d d') (hl : Field.levelsL d ≤ 63) (hl' : Field.levelsL d' ≤ 63) : EndAlike (R text rt) (R text' rt') := by
  have hx := hR.same text h warmRt_warm.fine
  have hy := hR.same text' h' warmRt_warm.fine
  have hm := hR.means warmRt hd
  have hm' := hR.means warmRt hd'
  rcases meaning_fold (P := SameAlone) (fun _ _ h => h.swappable) (fs := fs) (file := file) (stack := stack) hi hl hl' warmRt_warm warmRt_warm
    with ⟨se, h1, h2⟩ | ⟨o, o', st, st', h1, h2, h3⟩
  · rw [h1] at hm
    rw [h2] at hm'
    obtain ⟨e, e1, he⟩ := hm.of_error
    obtain ⟨e', e1', he'⟩ := hm'.of_error
    exact .inr ⟨e, e', se, hx.carry.2 _ e1, hy.carry.2 _ e1', he, he'⟩
  · rw [h1] at hm
    rw [h2] at hm'
    obtain ⟨s, e1, -⟩ := hm.of_ok
    obtain ⟨s', e1', -⟩ := hm'.of_ok
    obtain ⟨q, t, e2, e3⟩ := hx.carry.1 _ _ e1
    obtain ⟨q', t', e2', e3'⟩ := hy.carry.1 _ _ e1'
    have hdt : q.data = q'.data := e3.trans (h3.data.trans e3'.symm)
    exact .inl ⟨q, t, q', t', e2, e2', hR.equal_of_data e2 e2' hdt, c20_write_ignores_identity q q' hdt⟩

theorem Reads.folded_accepted {rt rt' : Rt} (h : rt.Fine) (h' : rt'.Fine) {d d' : List Field} {text text' : Str} (hd : SpDoc d text)
    (hd' : SpDoc d' text') (hi : FoldDoc d d') (hl' : Field.levelsL d' ≤ 63) {o : Obj} {s : PState} (he : R text rt = .ok o s) :
    ∃ o' s', R text' rt' = .ok o' s' ∧ o.eq o' = true := by
  have hl : Field.levelsL d ≤ 63 := by
    obtain ⟨d1, st, h1, h2, -⟩ := hR.accepts he
    cases c49_one_document _ _ _ hd h1
    exact levels_of_meaning h2
  rcases hR.folded h h' hd hd' hi hl hl' with ⟨q, t, o', s', h1, h2, h3, -⟩ | ⟨e, e', se, h1, -⟩
  · rw [he] at h1
    cases h1
    exact ⟨o', s', h2, h3⟩
  · rw [he] at h1
    cases h1

end

/-- C89: closed parts can be replaced by others with the same values.  If `text` and `text'` spell documents that are the same but for closed
expressions that have the same value on their own (anywhere: as values of fields and globals, in arrays and tuples, as operands, in paths of
includes, in objects inside), and neither nests too deeply, then `Obj::from_str` ends alike on both, in any two states of the process. -/
theorem c89_from_str (fs : FS) (rt rt' : Rt) (h : rt.Fine) (h' : rt'.Fine) (d d' : List Field) (text text' : Str) (hd : SpDoc d text)
    (hd' : SpDoc d' text') (hi : FoldDoc d d') (hl : Field.levelsL d ≤ 63) (hl' : Field.levelsL d' ≤ 63) :
    EndAlike (fromStr fs text rt) (fromStr fs text' rt') := (reads_str fs).folded h h' hd hd' hi hl hl'

/-- C89: in particular, when `text` is accepted and what comes in does not nest too deeply, `text'` is accepted, and the objects are equal. -/
theorem c89_accepted (fs : FS) (rt rt' : Rt) (h : rt.Fine) (h' : rt'.Fine) (d d' : List Field) (text text' : Str) (hd : SpDoc d text)
    (hd' : SpDoc d' text') (hi : FoldDoc d d') (hl' : Field.levelsL d' ≤ 63) (o : Obj) (s : PState) (he : fromStr fs text rt = .ok o s) :
    ∃ o' s', fromStr fs text' rt' = .ok o' s' ∧ o.eq o' = true := (reads_str fs).folded_accepted h h' hd hd' hi hl' he

/-- C89: the same for a file whose text is replaced so. -/
theorem c89_from_file (fs fs' : FS) (path full text text' : Str) (hp : fs.resolve path = some full) (hu : fs.utf8 full = true)
    (hr : fs.read path = .ok text) (he : fs.Edited path text' fs') (rt rt' : Rt) (h : rt.Fine) (h' : rt'.Fine) (d d' : List Field)
    (hd : SpDoc d text) (hd' : SpDoc d' text') (hi : FoldDoc d d') (hl : Field.levelsL d ≤ 63) (hl' : Field.levelsL d' ≤ 63) :
    EndAlike (fromFile fs path rt) (fromFile fs' path rt') := by
  rw [(FS.Edited.same hr).reading hr, he.reading hr]
  exact (reads_file hp hu hr).folded h h' hd hd' hi hl hl'

omit [Unicode] in
theorem FoldFields.refl {P : Expr → Expr → Prop} (d : List Field) : FoldFields P d d := by
  have ops : ∀ r : List OpTerm, FoldOps P r r := by
    intro r
    induction r with
    | nil => exact .nil
    | cons a r ih => cases a; exact .cons (.same _) ih
  induction d with
  | nil => exact .nil
  | cons a r ih => obtain ⟨tg, t, ops'⟩ := a; exact .cons (.mk (.same _) (ops _)) ih

omit [Unicode] in
theorem FoldFields.append {P : Expr → Expr → Prop} {c c' : List Field} (h : FoldFields P c c') : ∀ A : List Field, FoldFields P (A ++ c) (A ++ c')
  | [] => h
  | .mk tg (.mk t r) :: A => .cons (.mk (.same _) (by
      induction r with
      | nil => exact .nil
      | cons a r ih => cases a; exact .cons (.same _) ih)) (h.append A)

/-- C89, one definition in terms of texts: where a document gives a field or a global the value text `e`, it can be given any other closed
text `e'` with the same value. -/
theorem c89_one_definition (fs : FS) (rt rt' : Rt) (h : rt.Fine) (h' : rt'.Fine) (u y e e' rest : Str) (tg : Target) (ex ex' : Expr)
    (hu : WellFormed u) (hrest : WellFormed rest) (hy : SpTarget tg y) (he : SpExpr ex e) (he' : SpExpr ex' e') (hs : SameAlone ex ex')
    (hl : ex'.levels ≤ 63) (o : Obj) (s : PState) (hr : fromStr fs (u ++ c!"\n" ++ y ++ c!":" ++ e ++ c!"\n" ++ rest) rt = .ok o s) :
    ∃ o' s', fromStr fs (u ++ c!"\n" ++ y ++ c!":" ++ e' ++ c!"\n" ++ rest) rt' = .ok o' s' ∧ o.eq o' = true := by
  obtain ⟨A, hA⟩ := hu
  obtain ⟨B, hB⟩ := hrest
  have sp : ∀ {ex : Expr} {e : Str}, SpExpr ex e → SpDoc (A ++ .mk tg ex :: B) (u ++ c!"\n" ++ y ++ c!":" ++ e ++ c!"\n" ++ rest) := by
    intro ex e he
    have h1 := spDoc_append hB [.mk tg ex] _ (spOne hy he)
    have h2 := spDoc_append h1 _ _ hA
    simpa [SpDoc] using h2
  refine (reads_str fs).folded_accepted h h' (sp he) (sp he') (FoldFields.append (.cons (.swap hs) (FoldFields.refl B)) A) ?_ hr
  obtain ⟨d1, st, h1, h2, -⟩ := (reads_str fs).accepts hr
  cases c49_one_document _ _ _ (sp he) h1
  have := levels_of_meaning h2
  simp only [Field.levelsL_append, Field.levelsL] at this ⊢
  omega

end

/-! ## Examples -/

section
attribute [local instance] sampleUnicode

/-- The chain `[1]+[2]`. -/
def sampleSum : Expr := .mk (.arr [.mk (.int 1) []]) [.mk .plus (.arr [.mk (.int 2) []])]

theorem sampleSum_sp : SpExpr sampleSum c!"[1]+[2]" := by
  have arr : ∀ (n : Nat) (c : Char), IntLit n [c] → SpTerm (.arr [.mk (.int n) []]) ['[', c, ']'] := by
    intro n c hn
    have h1 : SpExpr (.mk (.int n) []) [c] := by simpa using SpExpr.mk (.int hn) .nil
    have h2 : SpItems false [.mk (.int n) []] [c] := by
      have := SpItems.cons (eof := false) (g := []) .nil h1 (.nil (g := []) .nil) (.inl rfl)
      simpa using this
    simpa using SpTerm.arr h2
  have h1 := arr 1 '1' (sampleIntLit (by decide) (by decide))
  have h2 := arr 2 '2' (sampleIntLit (by decide) (by decide))
  have := SpExpr.mk h1 (SpOps.cons (op := .plus) h2 .nil)
  simpa [sampleSum, opChar] using this

/-- `[1 2]` and `[1]+[2]` have the same value. -/
theorem sampleSum_same : SameAlone samplePairArr sampleSum := by
  refine ⟨by decide, by decide, by decide, by decide, c!"[1 2]", c!"[1]+[2]", ?_⟩
  have key : (match fromStr noFiles (c!"x:" ++ c!"[1 2]") startRt, fromStr noFiles (c!"x:" ++ c!"[1]+[2]") startRt with
    | .ok o _, .ok o' _ => o.eq o'
    | _, _ => false) = true := by decide +kernel
  split at key
  · rename_i o s o' s' h1 h2
    exact ⟨o, s, o', s', samplePairArr_sp, sampleSum_sp, h1, h2, key⟩
  · cases key

/-- `x: 3 y: [1 2] z: 3 + x` and `x: 3 y: [1] + [2] z: 3 + x` -/
theorem sampleFold : FoldDoc (sampleRest samplePairArr (.int 3)) (sampleRest sampleSum (.int 3)) :=
  .cons (.mk (.same _) .nil) (.cons (.swap sampleSum_same) (.cons (.mk (.same _) (.cons (.same _) .nil)) .nil))

example : EndAlike (fromStr noFiles c!" x:3 y:[1 2] z:3+x" startRt) (fromStr noFiles c!" x:3 y:[1]+[2] z:3+x" startRt) :=
  c89_from_str noFiles startRt startRt startRt_fine startRt_fine _ _ _ _
    (sampleRest_sp samplePairArr_sp (.int (sampleIntLit (n := 3) (c := '3') (by decide) (by decide))))
    (sampleRest_sp sampleSum_sp (.int (sampleIntLit (n := 3) (c := '3') (by decide) (by decide)))) sampleFold (by decide) (by decide)

/-- The same in a file. -/
example : EndAlike (fromFile (files [(c!"f", c!" x:3 y:[1 2] z:3+x")]) c!"f" startRt)
    (fromFile ((files [(c!"f", c!" x:3 y:[1 2] z:3+x")]).edit c!"f" c!" x:3 y:[1]+[2] z:3+x") c!"f" startRt) :=
  c89_from_file _ _ c!"f" c!"f" _ _ (by decide +kernel) (by decide +kernel) (by decide +kernel)
    (FS.edit_edited (full := c!"f") (by decide +kernel) (by decide +kernel)) startRt startRt startRt_fine startRt_fine _ _
    (sampleRest_sp samplePairArr_sp (.int (sampleIntLit (n := 3) (c := '3') (by decide) (by decide))))
    (sampleRest_sp sampleSum_sp (.int (sampleIntLit (n := 3) (c := '3') (by decide) (by decide)))) sampleFold (by decide) (by decide)

/-- One definition, in an accepted text; the array is used further on. -/
example : ∃ o' s', fromStr noFiles c!"x:3\na:[1]+[2]\ny:a" startRt = .ok o' s' := by
  have key : (fromStr noFiles c!"x:3\na:[1 2]\ny:a" startRt).written ≠ none := by decide +kernel
  cases hr : fromStr noFiles c!"x:3\na:[1 2]\ny:a" startRt with
  | ok o s =>
    obtain ⟨o', s', h, -⟩ := c89_one_definition noFiles startRt startRt startRt_fine startRt_fine c!"x:3" c!"a" c!"[1 2]" c!"[1]+[2]" c!"y:a"
      (.field c!"a") samplePairArr sampleSum ⟨_, spOne (.field (sampleFieldName 'x' (by decide))) sampleThree_sp⟩
      ⟨_, spOne (.field (sampleFieldName 'y' (by decide))) (by simpa using SpExpr.mk (sampleVar 'a' (by decide)) .nil)⟩
      (.field (sampleFieldName 'a' (by decide))) samplePairArr_sp sampleSum_sp sampleSum_same (by decide) o s hr
    exact ⟨o', s', h⟩
  | _ => rw [hr] at key; exact absurd rfl key

/-- The kinds are left out for a reason: `{}` and `Obj` are equal values, but only `Obj` is a kind of include. -/
example : (match fromStr noFiles c!"x:{}" startRt, fromStr noFiles c!"x:Obj" startRt with
      | .ok o _, .ok o' _ => o.eq o'
      | _, _ => false) = true ∧
    (fromStr (files [(c!"f", c!"")]) c!"x:<Obj \"f\">" startRt).written = some c!"x: {}\n" ∧
    (fromStr (files [(c!"f", c!"")]) c!"x:<{} \"f\">" startRt).written = none := by decide +kernel

/-- So are fields of the enclosing object: `a` and `1` are equal where `a: 1`, but on its own `a` has no value. -/
example : (Expr.mk (.name c!"a") []).closed = false := by decide

end

end Over
