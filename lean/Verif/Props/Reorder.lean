import Verif.Lemmas.Reorder3
import Verif.Props.Inline

/-! # Independent definitions can be reordered; definitions that are not used can be left out (C77)

`Rearranged`, `SameButOrder`, `Field.skipsL` and `Obj.less` are in `Spec/Reorder.lean`. -/

namespace Over

theorem perm_lift {α β : Type} {f : α → β} {a b : List β} (h : a.Perm b) : ∀ l : List α, b = l.map f → ∃ m : List α, m.Perm l ∧ m.map f = a := by
  induction h with
  | nil => exact fun l hl => ⟨l, List.Perm.refl _, hl.symm⟩
  | cons x _ ih =>
    intro l hl
    cases l with
    | nil => cases hl
    | cons y l =>
      simp only [List.map_cons, List.cons.injEq] at hl
      obtain ⟨m, h1, h2⟩ := ih l hl.2
      exact ⟨y :: m, h1.cons _, by rw [List.map_cons, h2, hl.1]⟩
  | swap x y t =>
    intro l hl
    cases l with
    | nil => cases hl
    | cons u l =>
      cases l with
      | nil => cases hl
      | cons v l =>
        simp only [List.map_cons, List.cons.injEq] at hl
        obtain ⟨rfl, rfl, rfl⟩ := hl
        exact ⟨v :: u :: l, List.Perm.swap _ _ _, rfl⟩
  | trans _ _ ih1 ih2 =>
    intro l hl
    obtain ⟨m, h1, h2⟩ := ih2 l hl
    obtain ⟨m', h3, h4⟩ := ih1 m h2.symm
    exact ⟨m', h3.trans h1, h4⟩

theorem wellTyped_perm {o : Obj} (h : WellTypedObj o) {ps : List Pair} (hp : ∀ p ∈ ps, p ∈ o.pairs) (i : Nat) :
    WellTypedObj (.mk i ps o.parent) := by
  cases h with
  | mk h1 h2 => exact .mk (fun p hm => h1 p (hp p hm)) h2

theorem sameButOrder_of {o o' : Obj} (h : WellTypedObj o) (h' : WellTypedObj o') (hp : (o'.pairs.map Pair.data).Perm (o.pairs.map Pair.data))
    (hr : Obj.dataP o'.parent = Obj.dataP o.parent) : SameButOrder o o' := by
  obtain ⟨m, h1, h2⟩ := perm_lift hp o.pairs rfl
  refine ⟨m, h1, (c09_obj_eq_iff _ _ (wellTyped_perm h (fun p hm => h1.mem_iff.1 hm) _) h').2 ?_⟩
  cases o'
  simp only [Obj.data, Pair.dataL_eq, h2, ← hr]
  rfl

theorem wellTyped_less {o : Obj} (h : WellTypedObj o) (tg : Target) : WellTypedObj (o.less tg) := by
  cases tg with
  | field x => exact wellTyped_perm h (fun p hp => (List.mem_filter.1 hp).1) _
  | global g => exact h
  | parent =>
    cases h with
    | mk h1 h2 => exact .mk h1 (fun q hq => by cases hq)

/-! ## Looking fields up -/

theorem find_data (ps : List Pair) (f : Str) : findPair (ps.map Pair.data) f = (findPair ps f).map Pair.data := by
  unfold findPair
  rw [List.find?_map]
  rfl

mutual
theorem get_data : ∀ (o : Obj) (f : Str), o.data.get f = (o.get f).map Value.data
  | .mk i ps par, f => by
    simp only [Obj.data, Obj.get, Pair.dataL_eq, find_data, getParent_data par f]
    cases findPair ps f <;> rfl
termination_by structural o => o
theorem getParent_data : ∀ (o : Option Obj) (f : Str), Obj.getParentField (Obj.dataP o) f = (Obj.getParentField o f).map Value.data
  | none, f => by simp only [Obj.dataP, Obj.getParentField, Option.map_none]
  | some o, f => by simp only [Obj.dataP, Obj.getParentField, get_data o f]
termination_by structural o => o
end

mutual
theorem get_typed : ∀ (o : Obj), WellTypedObj o → ∀ (f : Str) (v : Value), o.get f = some v → WellTyped v
  | .mk i ps par, h, f, v, hv => by
    cases h with
    | mk h1 h2 =>
      simp only [Obj.get] at hv
      cases hf : findPair ps f with
      | none => rw [hf] at hv; exact getParent_typed par h2 f v hv
      | some p =>
        rw [hf] at hv
        cases hv
        exact h1 p (List.mem_of_find?_eq_some hf)
termination_by structural o => o
theorem getParent_typed : ∀ (o : Option Obj), (∀ q, o = some q → WellTypedObj q) → ∀ (f : Str) (v : Value), Obj.getParentField o f = some v → WellTyped v
  | none, _, f, v, hv => by simp [Obj.getParentField] at hv
  | some o, h, f, v, hv => by
    simp only [Obj.getParentField] at hv
    exact get_typed o (h o rfl) f v hv
termination_by structural o => o
end

theorem find_perm {ps qs : List Pair} (h : ps.Perm qs) (hn : (ps.map Pair.field).Nodup) (f : Str) : findPair ps f = findPair qs f := by
  induction h with
  | nil => rfl
  | cons x _ ih =>
    simp only [List.map_cons, List.nodup_cons] at hn
    unfold findPair at *
    simp only [List.find?_cons]
    split
    · rfl
    · exact ih hn.2
  | swap x y l =>
    simp only [List.map_cons, List.nodup_cons, List.mem_cons, not_or] at hn
    unfold findPair
    simp only [List.find?_cons]
    by_cases h1 : y.field = f
    · have h2 : x.field ≠ f := fun e => hn.1.1 (h1.trans e.symm)
      simp only [beq_iff_eq.2 h1, beq_eq_false_iff_ne.2 h2]
    · simp only [beq_eq_false_iff_ne.2 h1]
  | trans h1 _ ih1 ih2 => exact (ih1 hn).trans (ih2 ((h1.map _).nodup_iff.1 hn))

theorem get_of_data {o o' : Obj} (h : WellTypedObj o) (h' : WellTypedObj o') (hn : (o.pairs.map Pair.field).Nodup)
    (hp : (o'.pairs.map Pair.data).Perm (o.pairs.map Pair.data)) (hr : Obj.dataP o'.parent = Obj.dataP o.parent) (f : Str) :
    (o.get f = none ∧ o'.get f = none) ∨ ∃ v v', o.get f = some v ∧ o'.get f = some v' ∧ v.eq v' = true := by
  have hd : o.data.get f = o'.data.get f := by
    cases o with
    | mk i ps par =>
      cases o' with
      | mk i' ps' par' =>
        simp only [Obj.data, Obj.get, Pair.dataL_eq]
        have hn' : ((ps.map Pair.data).map Pair.field).Nodup := by
          rw [List.map_map, show Pair.field ∘ Pair.data = Pair.field from funext fun p => by cases p; rfl]
          exact hn
        have hp' : (ps.map Pair.data).Perm (ps'.map Pair.data) := hp.symm
        rw [find_perm hp' hn' f, show Obj.dataP par' = Obj.dataP par from hr]
  rw [get_data, get_data] at hd
  cases h1 : o.get f with
  | none =>
    rw [h1] at hd
    exact .inl ⟨rfl, Option.map_eq_none_iff.1 hd.symm⟩
  | some v =>
    rw [h1] at hd
    obtain ⟨v', h2, h3⟩ := Option.map_eq_some_iff.1 hd.symm
    exact .inr ⟨v, v', rfl, h2, (c09_value_eq_iff v v' (get_typed o h f v h1) (get_typed o' h' f v' h2)).2 h3.symm⟩

theorem data_parts {o o' : Obj} (h : o.data = o'.data) : o.pairs.map Pair.data = o'.pairs.map Pair.data ∧ Obj.dataP o.parent = Obj.dataP o'.parent := by
  cases o
  cases o'
  simp only [Obj.data, Obj.mk.injEq, Pair.dataL_eq] at h
  exact ⟨h.2.1, h.2.2⟩

theorem less_data {o o' : Obj} (h : o.data = o'.data) (tg : Target) : (o.less tg).data = (o'.less tg).data := by
  obtain ⟨h1, h2⟩ := data_parts h
  cases tg with
  | global g => exact h
  | parent => simp only [Obj.less, Obj.data, Pair.dataL_eq, h1]
  | field x =>
    simp only [Obj.less, Obj.data, Pair.dataL_eq, h2, Obj.mk.injEq, and_true, true_and]
    generalize o.pairs = l at h1
    generalize o'.pairs = l' at h1
    induction l generalizing l' with
    | nil => cases l' with
      | nil => rfl
      | cons p r => cases h1
    | cons p r ih => cases l' with
      | nil => cases h1
      | cons p' r' =>
        simp only [List.map_cons, List.cons.injEq] at h1
        have hf : p.field = p'.field := by
          have := congrArg Pair.field h1.1
          cases p; cases p'
          exact this
        simp only [List.filter_cons, hf]
        split
        · rw [List.map_cons, List.map_cons, h1.1, ih r' h1.2]
        · exact ih r' h1.2

section
variable [Unicode]

section
variable {fs : FS} {file : Option Str} {stack : List Str} {R : Str → Rt → Res Obj} (hR : Reads fs file stack R)
include hR

theorem Reads.rearranged {rt rt' : Rt} (h : rt.Fine) (h' : rt'.Fine) {d d' : List Field} {text text' : Str} (hd : SpDoc d text) (hd' : SpDoc d' text')
    (hm : Rearranged d d') {o : Obj} {s : PState} (hr : R text rt = .ok o s) : ∃ o' s', R text' rt' = .ok o' s' ∧ SameButOrder o o' := by
  obtain ⟨o1, st, h1, e1⟩ := hR.warm_of_accepted h hd hr
  obtain ⟨o2, st2, h2, p2, r2⟩ := meaning_rearranged hm warmRt_warm h1
  obtain ⟨o', s', h3, e3⟩ := hR.accepted_of_warm h' hd' h2
  obtain ⟨a1, a2⟩ := data_parts e1
  obtain ⟨b1, b2⟩ := data_parts e3
  refine ⟨o', s', h3, sameButOrder_of (hR.typed hr) (hR.typed h3) ?_ ?_⟩
  · rw [b1, ← a1]; exact p2
  · rw [b2, r2, a2]

theorem Reads.rearranged_get {rt rt' : Rt} (h : rt.Fine) {d d' : List Field} {text text' : Str} (hd : SpDoc d text) (hd' : SpDoc d' text')
    (h' : rt'.Fine) (hm : Rearranged d d') {o o' : Obj} {s s' : PState} (hr : R text rt = .ok o s) (hr' : R text' rt' = .ok o' s') (f : Str) :
    (o.get f = none ∧ o'.get f = none) ∨ ∃ v v', o.get f = some v ∧ o'.get f = some v' ∧ v.eq v' = true := by
  obtain ⟨o1, st, h1, e1⟩ := hR.warm_of_accepted h hd hr
  obtain ⟨o2, st2, h2, p2, r2⟩ := meaning_rearranged hm warmRt_warm h1
  obtain ⟨o3, st3, h3, e3⟩ := hR.warm_of_accepted h' hd' hr'
  rw [h2] at h3
  cases h3
  obtain ⟨a1, a2⟩ := data_parts e1
  obtain ⟨b1, b2⟩ := data_parts e3
  refine get_of_data (hR.typed hr) (hR.typed hr') ?_ (by rw [← b1, ← a1]; exact p2) (by rw [← b2, r2, a2]) f
  have hn := meaning_nodup h1
  have e : ∀ ps : List Pair, (ps.map Pair.data).map Pair.field = ps.map Pair.field := fun ps => by
    rw [List.map_map, show Pair.field ∘ Pair.data = Pair.field from funext fun p => by cases p; rfl]
  rw [← e, ← a1, e]
  exact hn

theorem Reads.less {rt rt' : Rt} (h : rt.Fine) (h' : rt'.Fine) {A B : List Field} {tg : Target} {e : Expr} {text text' : Str}
    (hd : SpDoc (A ++ .mk tg e :: B) text) (hd' : SpDoc (A ++ B) text') (he : e.definesNoGlobal = true)
    (hi : e.includeFree = true ∨ Field.includeFreeL B = true) (hs : ∀ x, tg = .field x → Field.skipsL x B = true)
    (ha : ∀ g, tg = .global g → Field.avoidsL g B = true) {o : Obj} {s : PState} (hr : R text rt = .ok o s) :
    ∃ o' s', R text' rt' = .ok o' s' ∧ (o.less tg).eq o' = true := by
  obtain ⟨o1, st, h1, e1⟩ := hR.warm_of_accepted h hd hr
  obtain ⟨o2, st2, h2, e2⟩ := meaning_less he hi hs ha warmRt_warm h1
  obtain ⟨o', s', h3, e3⟩ := hR.accepted_of_warm h' hd' h2
  refine ⟨o', s', h3, (c09_obj_eq_iff _ _ (wellTyped_less (hR.typed hr) tg) (hR.typed h3)).2 ?_⟩
  rw [e3, e2]
  exact (less_data e1 tg).symm

end

/-- C77: definitions that do not depend on each other can be put in another order: when the text is accepted, so is the rearranged
one, and the objects differ only in the order of their fields. -/
theorem c77_rearranged (fs : FS) (rt rt' : Rt) (h : rt.Fine) (h' : rt'.Fine) (d d' : List Field) (text text' : Str) (hd : SpDoc d text)
    (hd' : SpDoc d' text') (hm : Rearranged d d') (o : Obj) (s : PState) (hr : fromStr fs text rt = .ok o s) :
    ∃ o' s', fromStr fs text' rt' = .ok o' s' ∧ SameButOrder o o' := (reads_str fs).rearranged h h' hd hd' hm hr

/-- C77: in particular every field has the same value in both. -/
theorem c77_rearranged_get (fs : FS) (rt rt' : Rt) (h : rt.Fine) (h' : rt'.Fine) (d d' : List Field) (text text' : Str) (hd : SpDoc d text)
    (hd' : SpDoc d' text') (hm : Rearranged d d') (o o' : Obj) (s s' : PState) (hr : fromStr fs text rt = .ok o s)
    (hr' : fromStr fs text' rt' = .ok o' s') (f : Str) :
    (o.get f = none ∧ o'.get f = none) ∨ ∃ v v', o.get f = some v ∧ o'.get f = some v' ∧ v.eq v' = true :=
  (reads_str fs).rearranged_get h hd hd' h' hm hr hr' f

/-- C77: the definition of a field that is not mentioned further on can be left out: the object is the same without this field. -/
theorem c77_leave_out_field (fs : FS) (rt rt' : Rt) (h : rt.Fine) (h' : rt'.Fine) (A B : List Field) (x : Str) (e : Expr) (text text' : Str)
    (hd : SpDoc (A ++ .mk (.field x) e :: B) text) (hd' : SpDoc (A ++ B) text') (he : e.definesNoGlobal = true)
    (hi : e.includeFree = true ∨ Field.includeFreeL B = true) (hB : Field.skipsL x B = true)
    (o : Obj) (s : PState) (hr : fromStr fs text rt = .ok o s) :
    ∃ o' s', fromStr fs text' rt' = .ok o' s' ∧ (Obj.mk o.id (o.pairs.filter (fun p => p.field != x)) o.parent).eq o' = true :=
  (reads_str fs).less h h' hd hd' he hi (by rintro _ ⟨⟩; exact hB) (by rintro _ ⟨⟩) hr

/-- C77: the parent can always be left out: fields are not looked up in it while the document is read. -/
theorem c77_leave_out_parent (fs : FS) (rt rt' : Rt) (h : rt.Fine) (h' : rt'.Fine) (A B : List Field) (e : Expr) (text text' : Str)
    (hd : SpDoc (A ++ .mk .parent e :: B) text) (hd' : SpDoc (A ++ B) text') (he : e.definesNoGlobal = true)
    (hi : e.includeFree = true ∨ Field.includeFreeL B = true)
    (o : Obj) (s : PState) (hr : fromStr fs text rt = .ok o s) :
    ∃ o' s', fromStr fs text' rt' = .ok o' s' ∧ (Obj.mk o.id o.pairs none).eq o' = true :=
  (reads_str fs).less h h' hd hd' he hi (by rintro _ ⟨⟩) (by rintro _ ⟨⟩) hr

section
variable (fs fs' : FS) (path full text text' : Str) (hp : fs.resolve path = some full) (hu : fs.utf8 full = true)
  (hr : fs.read path = .ok text) (he : fs.Edited path text' fs') (rt rt' : Rt) (h : rt.Fine) (h' : rt'.Fine)
include hp hu hr he h h'

/-- C77: the same for a file that is rearranged. -/
theorem c77_rearranged_file (d d' : List Field) (hd : SpDoc d text) (hd' : SpDoc d' text') (hm : Rearranged d d') (o : Obj) (s : PState)
    (hx : fromFile fs path rt = .ok o s) : ∃ o' s', fromFile fs' path rt' = .ok o' s' ∧ SameButOrder o o' := by
  rw [(FS.Edited.same hr).reading hr] at hx
  rw [he.reading hr]
  exact (reads_file hp hu hr).rearranged h h' hd hd' hm hx

/-- C77: … and from which a field is left out. -/
theorem c77_leave_out_of_file (A B : List Field) (x : Str) (e : Expr) (hd : SpDoc (A ++ .mk (.field x) e :: B) text)
    (hd' : SpDoc (A ++ B) text') (hq : e.definesNoGlobal = true) (hi : e.includeFree = true ∨ Field.includeFreeL B = true) (hB : Field.skipsL x B = true) (o : Obj) (s : PState) (hx : fromFile fs path rt = .ok o s) :
    ∃ o' s', fromFile fs' path rt' = .ok o' s' ∧ (Obj.mk o.id (o.pairs.filter (fun p => p.field != x)) o.parent).eq o' = true := by
  rw [(FS.Edited.same hr).reading hr] at hx
  rw [he.reading hr]
  exact (reads_file hp hu hr).less h h' hd hd' hq hi (by rintro _ ⟨⟩; exact hB) (by rintro _ ⟨⟩) hx

end

end

/-! ## Examples -/

section
attribute [local instance] sampleUnicode

/-- `x: 3 y: [1 2] z: 3 + x` -/
theorem sampleReorder_sp : SpDoc (sampleRest samplePairArr (.int 3)) c!" x:3 y:[1 2] z:3+x" := by
  have := sampleRest_sp samplePairArr_sp (.int (sampleIntLit (n := 3) (c := '3') (by decide) (by decide)))
  simpa using this

/-- `y: [1 2] x: 3 z: 3 + x` -/
def sampleMoved : List Field :=
  [.mk (.field c!"y") samplePairArr, .mk (.field c!"x") sampleThree, .mk (.field c!"z") (.mk (.int 3) [.mk .plus (.name c!"x")])]

theorem sampleZ_sp : SpExpr (.mk (.int 3) [.mk .plus (.name c!"x")]) c!"3+x" := by
  have := SpExpr.mk (.int (sampleIntLit (n := 3) (c := '3') (by decide) (by decide)))
    (SpOps.cons (op := .plus) (sampleVar 'x' (by decide)) .nil)
  simpa [opChar] using this

theorem sampleMoved_sp : SpDoc sampleMoved c!" y:[1 2] x:3 z:3+x" := by
  have l3 := sampleLine (.field (sampleFieldName 'z' (by decide))) sampleZ_sp (.nil (g := []) (.gap .nil)) (.inl rfl)
  have l2 := sampleLine (.field (sampleFieldName 'x' (by decide))) sampleThree_sp l3 (.inr (startsSpace _))
  have l1 := sampleLine (.field (sampleFieldName 'y' (by decide))) samplePairArr_sp l2 (.inr (startsSpace _))
  simpa [SpDoc, sampleMoved] using l1

theorem sampleMoved_rearranged : Rearranged (sampleRest samplePairArr (.int 3)) sampleMoved :=
  .exchange [] [_] (.field c!"x") (.field c!"y") sampleThree samplePairArr (by decide) (by decide) (by decide) (by decide) (by decide)

/-- `x` and `y` do not depend on each other. -/
example : ∃ o s o' s', fromStr noFiles c!" x:3 y:[1 2] z:3+x" startRt = .ok o s ∧ fromStr noFiles c!" y:[1 2] x:3 z:3+x" startRt = .ok o' s' ∧
    SameButOrder o o' := by
  obtain ⟨o, s, h⟩ : ∃ o s, fromStr noFiles c!" x:3 y:[1 2] z:3+x" startRt = .ok o s := by
    cases hr : fromStr noFiles c!" x:3 y:[1 2] z:3+x" startRt with
    | ok o s => exact ⟨o, s, rfl⟩
    | _ =>
      have hw : (fromStr noFiles c!" x:3 y:[1 2] z:3+x" startRt).written ≠ none := by decide +kernel
      rw [hr] at hw
      exact absurd rfl hw
  obtain ⟨o', s', h', e⟩ := c77_rearranged noFiles startRt startRt startRt_fine startRt_fine _ _ _ _ sampleReorder_sp sampleMoved_sp
    sampleMoved_rearranged o s h
  exact ⟨o, s, o', s', h, h', e⟩

/-- The order of the fields is what differs: equality tells the objects apart. -/
example : (fromStr noFiles c!" x:3 y:[1 2] z:3+x" startRt).written = some c!"x: 3\ny: [\n    1\n    2\n]\nz: 6\n" ∧
    (fromStr noFiles c!" y:[1 2] x:3 z:3+x" startRt).written = some c!"y: [\n    1\n    2\n]\nx: 3\nz: 6\n" := by decide +kernel

/-- `z` depends on `x`, and may not be put in front of it; nor may `x` be left out. -/
example : ¬ (Expr.mk (.int 3) [.mk .plus (.name c!"x")]).without (.field c!"x") = true ∧
    (fromStr noFiles c!" z:3+x x:3" startRt).written = none ∧ (fromStr noFiles c!" z:3+x" startRt).written = none := by decide +kernel

/-- A definition that includes a file can be exchanged with one that does not. -/
example : Rearranged [.mk (.field c!"x") sampleThree, .mk (.field c!"y") (.mk (.incl (.mk (.str c!"g") [])) [])]
    [.mk (.field c!"y") (.mk (.incl (.mk (.str c!"g") [])) []), .mk (.field c!"x") sampleThree] :=
  .exchange [] [] (.field c!"x") (.field c!"y") sampleThree _ (by decide) (by decide) (by decide) (by decide) (by decide)

/-- Two that include files can not: the first include of a file decides what the later ones yield. -/
example : (fromStr (files [(c!"/g", c!"x:1")]) c!"a:<Str \"/g\"> b:<\"/g\">" startRt).written = some c!"a: \"x:1\"\nb: \"x:1\"\n" ∧
    (fromStr (files [(c!"/g", c!"x:1")]) c!"b:<\"/g\"> a:<Str \"/g\">" startRt).written =
      some c!"b: {\n    x: 1\n}\na: {\n    x: 1\n}\n" := by decide +kernel

/-- Without `y`. -/
example : ∃ o', (∃ s', fromStr noFiles c!" x:3 z:3+x" startRt = .ok o' s') ∧ ∃ o s, fromStr noFiles c!" x:3 y:[1 2] z:3+x" startRt = .ok o s ∧
    (Obj.mk o.id (o.pairs.filter (fun p => p.field != c!"y")) o.parent).eq o' = true := by
  obtain ⟨o, s, h⟩ : ∃ o s, fromStr noFiles c!" x:3 y:[1 2] z:3+x" startRt = .ok o s := by
    cases hr : fromStr noFiles c!" x:3 y:[1 2] z:3+x" startRt with
    | ok o s => exact ⟨o, s, rfl⟩
    | _ =>
      have hw : (fromStr noFiles c!" x:3 y:[1 2] z:3+x" startRt).written ≠ none := by decide +kernel
      rw [hr] at hw
      exact absurd rfl hw
  have hd' : SpDoc [.mk (.field c!"x") sampleThree, .mk (.field c!"z") (.mk (.int 3) [.mk .plus (.name c!"x")])] c!" x:3 z:3+x" := by
    have l3 := sampleLine (.field (sampleFieldName 'z' (by decide))) sampleZ_sp (.nil (g := []) (.gap .nil)) (.inl rfl)
    have l2 := sampleLine (.field (sampleFieldName 'x' (by decide))) sampleThree_sp l3 (.inr (startsSpace _))
    simpa [SpDoc] using l2
  obtain ⟨o', s', h', e⟩ := c77_leave_out_field noFiles startRt startRt startRt_fine startRt_fine [.mk (.field c!"x") sampleThree]
    [.mk (.field c!"z") (.mk (.int 3) [.mk .plus (.name c!"x")])] c!"y" samplePairArr _ _ sampleReorder_sp hd' (by decide) (by decide) (by decide) o s h
  exact ⟨o', ⟨s', h'⟩, o, s, h, e⟩

/-- In a file. -/
example : ∃ o s o' s', fromFile (files [(c!"f", c!" x:3 y:[1 2] z:3+x")]) c!"f" startRt = .ok o s ∧
    fromFile ((files [(c!"f", c!" x:3 y:[1 2] z:3+x")]).edit c!"f" c!" y:[1 2] x:3 z:3+x") c!"f" startRt = .ok o' s' ∧ SameButOrder o o' := by
  obtain ⟨o, s, h⟩ : ∃ o s, fromFile (files [(c!"f", c!" x:3 y:[1 2] z:3+x")]) c!"f" startRt = .ok o s := by
    cases hr : fromFile (files [(c!"f", c!" x:3 y:[1 2] z:3+x")]) c!"f" startRt with
    | ok o s => exact ⟨o, s, rfl⟩
    | _ =>
      have hw : (fromFile (files [(c!"f", c!" x:3 y:[1 2] z:3+x")]) c!"f" startRt).written ≠ none := by decide +kernel
      rw [hr] at hw
      exact absurd rfl hw
  obtain ⟨o', s', h', e⟩ := c77_rearranged_file _ _ c!"f" c!"f" _ _ (by decide +kernel) (by decide +kernel) (by decide +kernel)
    (FS.edit_edited (full := c!"f") (by decide +kernel) (by decide +kernel)) startRt startRt startRt_fine startRt_fine _ _
    sampleReorder_sp sampleMoved_sp sampleMoved_rearranged o s h
  exact ⟨o, s, o', s', h, h', e⟩

end

end Over
