import Verif.Lemmas.Sim4
import Verif.Lemmas.Unamb
import Verif.Props.Parsing
import Verif.Spec.Sample

/-!
# C44, C45, C49: the parser computes the meaning of the document, and accepts nothing else
-/

namespace Over

section
variable [Unicode]

/-- The run ends like the evaluation: same object and same state of the id counter, or an error that
reports the semantic error. -/
def SameOutcome : Res Obj → Except SemErr (Obj × ESt) → Prop
  | .ok o s, .ok (o', st) => o = o' ∧ s.rt = st.rt
  | .err e, .error se => se.Reported e
  | _, _ => False

omit [Unicode] in
theorem sameOutcome_of_sim {m : P Obj} {ev : EM Obj} {s : PState}
    (h : @sim noPanic _ _ m ev s (fun x y _ => x = y)) : SameOutcome (m s) (ev s.est) := by
  unfold sim wp at h
  cases hm : m s with
  | ok o s' =>
    rw [hm] at h
    obtain ⟨b, h1, rfl⟩ := h
    rw [h1]
    exact ⟨rfl, rfl⟩
  | err e =>
    rw [hm] at h
    obtain ⟨se, h1, h2⟩ := h
    rw [h1]
    exact h2
  | panic => rw [hm] at h; exact h
  | oof => rw [hm] at h; exact h

/-- C44: `Obj::from_str` on any text of the document `d` ends with the meaning of `d`. -/
theorem c44_from_str_meaning (fs : FS) (contents : Str) (rt : Rt) (d : List Field)
    (hd : SpDoc d contents) : SameOutcome (fromStr fs contents rt) (meaning fs none [] d rt) :=
  sameOutcome_of_sim (@fromStrFuel_sim _ noPanic fs (fs.fuel contents) contents rt
    (by simp only [FS.fuel]; omega) d hd _ (Nat.le_succ _))

/-- C44: `Obj::from_file` on a file that holds any text of the document `d` ends with the meaning of
`d` in that file. -/
theorem c44_from_file_meaning (fs : FS) (path contents full : Str) (rt : Rt) (d : List Field)
    (hr : fs.read path = .ok contents) (hp : fs.resolve path = some full) (hu : fs.utf8 full = true)
    (hd : SpDoc d contents) : SameOutcome (fromFile fs path rt) (meaning fs (some path) [full] d rt) := by
  rw [fromFile_eq hr]
  exact sameOutcome_of_sim (@fromFileFuel_sim _ noPanic fs (fs.fuel contents) path contents full rt hp
    (.inl hu) (by simp only [FS.fuel]; omega) d hd _ (Nat.le_succ _))

/-- C44: without the assumption that the canonical path of the file is valid UTF-8: the only other outcome is the panic of C24. -/
theorem c44_from_file_meaning_or_panic (fs : FS) (path contents full : Str) (rt : Rt) (d : List Field)
    (hr : fs.read path = .ok contents) (hp : fs.resolve path = some full) (hd : SpDoc d contents) :
    SameOutcome (fromFile fs path rt) (meaning fs (some path) [full] d rt) ∨
      (fs.utf8 full = false ∧ fromFile fs path rt = .panic) := by
  by_cases hu : fs.utf8 full = true
  · exact .inl (c44_from_file_meaning fs path contents full rt d hr hp hu hd)
  · rw [fromFile_eq hr]
    have h := @fromFileFuel_sim _ ⟨True⟩ fs (fs.fuel contents) path contents full rt hp
      (.inr trivial) (by simp only [FS.fuel]; omega) d hd _ (Nat.le_succ _)
    unfold sim wp at h
    cases hm : parseObjStream (parseValue fs (fs.fuel contents)) (PState.init (some path) contents rt) with
    | ok o s' =>
      rw [hm] at h
      obtain ⟨b, h1, rfl⟩ := h
      left
      show SameOutcome _ (evalDoc _ _ _ _ _ _)
      rw [show (PState.init (some path) contents rt).est = ⟨[], [], rt⟩ from rfl] at h1
      exact h1 ▸ ⟨rfl, rfl⟩
    | err e =>
      rw [hm] at h
      obtain ⟨se, h1, h2⟩ := h
      left
      show SameOutcome _ (evalDoc _ _ _ _ _ _)
      rw [show (PState.init (some path) contents rt).est = ⟨[], [], rt⟩ from rfl] at h1
      exact h1 ▸ h2
    | panic => exact .inr ⟨by simpa using hu, rfl⟩
    | oof => rw [hm] at h; exact h.elim

/-- C45: a text accepted by `Obj::from_str` is the text of a document, whose meaning is the result. -/
theorem c45_from_str_accepts (fs : FS) (contents : Str) (rt : Rt) (o : Obj) (s : PState)
    (h : fromStr fs contents rt = .ok o s) :
    ∃ d st, SpDoc d contents ∧ meaning fs none [] d rt = .ok (o, st) ∧ s.rt = st.rt := by
  have hs := (Runs.str (fs := fs) (rt := rt) contents).spec
  rw [h] at hs
  obtain ⟨-, d, hd⟩ := hs
  have hm := c44_from_str_meaning fs contents rt d hd
  rw [h] at hm
  cases he : meaning fs none [] d rt with
  | error e => rw [he] at hm; exact hm.elim
  | ok x =>
    rw [he] at hm
    obtain ⟨o', st⟩ := x
    obtain ⟨rfl, hrt⟩ := hm
    exact ⟨d, st, hd, he, hrt⟩

/-- C45: the same for `Obj::from_file`. -/
theorem c45_from_file_accepts (fs : FS) (path full : Str) (rt : Rt) (o : Obj) (s : PState)
    (hp : fs.resolve path = some full) (h : fromFile fs path rt = .ok o s) :
    ∃ contents d st, fs.read path = .ok contents ∧ SpDoc d contents ∧
      meaning fs (some path) [full] d rt = .ok (o, st) ∧ s.rt = st.rt := by
  cases hr : fs.read path with
  | error m => simp [fromFile, hr] at h
  | ok contents =>
    have hs := (Runs.file (fs := fs) (rt := rt) path contents hr).spec
    rw [h] at hs
    obtain ⟨-, d, hd⟩ := hs
    have hm := (c44_from_file_meaning_or_panic fs path contents full rt d hr hp hd).resolve_right (by rw [h]; simp)
    rw [h] at hm
    cases he : meaning fs (some path) [full] d rt with
    | error e => rw [he] at hm; exact hm.elim
    | ok x =>
      rw [he] at hm
      obtain ⟨o', st⟩ := x
      obtain ⟨rfl, hrt⟩ := hm
      exact ⟨contents, d, st, rfl, hd, he, hrt⟩

/-- C45: a text that is not the text of any document is rejected. -/
theorem c45_rejects_other_texts (fs : FS) (contents : Str) (rt : Rt) (hn : ¬ ∃ d, SpDoc d contents) :
    ∃ e, fromStr fs contents rt = .err e := by
  have hs := (Runs.str (fs := fs) (rt := rt) contents).spec
  cases h : fromStr fs contents rt with
  | ok o s => rw [h] at hs; exact absurd hs.2 hn
  | err e => exact ⟨e, rfl⟩
  | panic => exact absurd h (c24_from_str_no_panic fs contents rt)
  | oof => exact absurd h (c23_from_str_terminates fs contents rt)

/-- C45: `from_str` succeeds exactly on the texts of documents that have a value. -/
theorem c45_accepts_iff (fs : FS) (contents : Str) (rt : Rt) (o : Obj) :
    (∃ s, fromStr fs contents rt = .ok o s) ↔
      ∃ d st, SpDoc d contents ∧ meaning fs none [] d rt = .ok (o, st) := by
  constructor
  · rintro ⟨s, h⟩
    obtain ⟨d, st, h1, h2, -⟩ := c45_from_str_accepts fs contents rt o s h
    exact ⟨d, st, h1, h2⟩
  · rintro ⟨d, st, h1, h2⟩
    have hm := c44_from_str_meaning fs contents rt d h1
    rw [h2] at hm
    cases h : fromStr fs contents rt with
    | ok o' s => rw [h] at hm; obtain ⟨rfl, -⟩ := hm; exact ⟨s, rfl⟩
    | err e => rw [h] at hm; exact hm.elim
    | panic => rw [h] at hm; exact hm.elim
    | oof => rw [h] at hm; exact hm.elim

/-! ## C49: the grammar is unambiguous -/

/-- C49: a text is the text of at most one document. -/
theorem c49_one_document (contents : Str) (d d' : List Field) (h : SpDoc d contents)
    (h' : SpDoc d' contents) : d = d' := spDoc_unique h h'

/-- C49: the text of a file included as `Arr` or `Tup` spells at most one sequence of values. -/
theorem c49_one_sequence (contents : Str) (es es' : List Expr) (h : SpItems true es contents)
    (h' : SpItems true es' contents) : es = es' := spItems_unique h h'

end

/-! ## Examples -/

section
attribute [local instance] sampleUnicode

/-- The document `a: 1 + 2`, `b: {c: "x"}`. -/
def sampleDoc : List Field :=
  [.mk (.field c!"a") (.mk (.int 1) [.mk .plus (.int 2)]),
   .mk (.field c!"b") (.mk (.obj [.mk (.field c!"c") (.mk (.str c!"x") [])]) [])]

theorem sampleIntLit {n : Nat} {c : Char} (h : decDigit c = true) (hn : n = decimalValue [c]) :
    IntLit n [c] := by
  refine ⟨⟨by simp [h], ?_⟩, ⟨c, [], rfl, h⟩, ?_⟩
  · intro hi; have := hi.length_le; simp at this
  · rw [hn]; simp [digitsOf, h]

/-- One text of it, with a comment and irregular layout. -/
def sampleText : Str := c!" a:1+2#c\n b: {c:\"x\"}"

theorem sampleFieldName (c : Char) (h : isAlphabetic c = true) : FieldName [c] := by
  refine ⟨c, [], rfl, .inl h, by simp, ?_⟩
  simp only [reservedWords, List.mem_cons, List.cons.injEq, and_true, reduceCtorEq, and_false,
    List.not_mem_nil, or_false]
  rintro rfl
  exact absurd h (by decide)

theorem sampleDoc_spelled : SpDoc sampleDoc sampleText := by
  have h1 : SpExpr (.mk (.int 1) [.mk .plus (.int 2)]) c!"1+2" :=
    .mk (s := c!"1") (u := c!"+2") (.int (sampleIntLit (by decide) (by decide)))
      (.cons (op := .plus) (s := c!"2") (u := []) (.int (sampleIntLit (by decide) (by decide))) .nil)
  have h2 : SpExpr (.mk (.str c!"x") []) c!"\"x\"" :=
    .mk (s := c!"\"x\"") (u := []) (.str (.raw (by decide) (by decide) .nil)) .nil
  have h3 : SpFields false [.mk (.field c!"c") (.mk (.str c!"x") [])] c!"c:\"x\"" :=
    .cons (g := []) (n := c!"c") (g' := []) (s := c!"\"x\"") (r := []) .nil
      (.field (sampleFieldName 'c' (by decide))) .nil h2 (.nil (show Gap _ from .nil)) (.inl rfl)
  have h4 : SpExpr (.mk (.obj [.mk (.field c!"c") (.mk (.str c!"x") [])]) []) c!"{c:\"x\"}" :=
    .mk (s := c!"{c:\"x\"}") (u := []) (.obj h3) .nil
  have h5 : SpFields true [.mk (.field c!"b") (.mk (.obj [.mk (.field c!"c") (.mk (.str c!"x") [])]) [])]
      c!"#c\n b: {c:\"x\"}" :=
    .cons (g := c!"#c\n ") (n := c!"b") (g' := c!" ") (s := c!"{c:\"x\"}") (r := [])
      (.comment (t := c!"c") (by decide) (.ws (by decide) .nil))
      (.field (sampleFieldName 'b' (by decide))) (.ws (by decide) .nil) h4
      (.nil (show EndGap _ from .gap .nil)) (.inl rfl)
  exact .cons (g := c!" ") (n := c!"a") (g' := []) (s := c!"1+2") (r := c!"#c\n b: {c:\"x\"}")
    (.ws (by decide) .nil) (.field (sampleFieldName 'a' (by decide))) .nil h1 h5
    (.inr ⟨'#', _, rfl, .inr rfl⟩)

/-- Its meaning. -/
theorem sampleDoc_meaning : meaning noFiles none [] sampleDoc startRt =
    .ok (.mk 1 [.mk c!"a" (.int 3), .mk c!"b" (.obj (.mk 0 [.mk c!"c" (.str c!"x")] none))] none,
      ⟨[], [], { startRt with curId := 2, time := 2 }⟩) := rfl

example : ∃ s, fromStr noFiles sampleText startRt = .ok (.mk 1 [.mk c!"a" (.int 3),
    .mk c!"b" (.obj (.mk 0 [.mk c!"c" (.str c!"x")] none))] none) s :=
  (c45_accepts_iff _ _ _ _).2 ⟨_, _, sampleDoc_spelled, sampleDoc_meaning⟩

attribute [local irreducible] SameOutcome in
/-- The same text in a file. -/
example : SameOutcome (fromFile (files [(c!"f", sampleText)]) c!"f" startRt)
    (meaning (files [(c!"f", sampleText)]) (some c!"f") [c!"f"] sampleDoc startRt) :=
  c44_from_file_meaning (files [(c!"f", sampleText)]) c!"f" sampleText c!"f" startRt sampleDoc
    (by decide +kernel) (by decide +kernel) (by decide +kernel) sampleDoc_spelled

/-- A text of no document. -/
example : ¬ ∃ d, SpDoc d c!"a 1" := by
  rintro ⟨d, hd⟩
  have hc : ':' ∉ c!"a 1" := by decide
  generalize hs : c!"a 1" = s at hd hc
  cases hd with
  | nil h =>
    obtain hg | ⟨hg, -⟩ := h <;> cases hg <;> simp at hs
    · rename_i h _; exact absurd h (by rw [← hs.1]; decide)
    · rename_i h _; exact absurd h (by rw [← hs.1]; decide)
  | cons => simp at hc

end

end Over
