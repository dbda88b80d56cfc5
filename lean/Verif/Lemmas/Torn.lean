import Verif.Lemmas.Cut
import Verif.Spec.Cut

/-!
# Written texts that are cut off
-/

set_option linter.unusedSectionVars false

namespace Over

/-! ## Texts -/

theorem formatL_append : ∀ (ps qs : List Pair) (n : Nat), Pair.formatL (ps ++ qs) n = (do
    let a ← Pair.formatL ps n
    let b ← Pair.formatL qs n
    some (a ++ b))
  | [], qs, n => by cases h : Pair.formatL qs n <;> simp [Pair.formatL, h]
  | .mk f v :: ps, qs, n => by
    simp only [List.cons_append, Pair.formatL, formatL_append ps qs n]
    cases v.format (n + indentStep) <;> cases Pair.formatL ps n <;> cases Pair.formatL qs n <;> simp

theorem write_eq (id : Nat) (ps : List Pair) (par : Option Obj) : (Obj.mk id ps par).writeToString = (do
    let a ← Obj.formatParent par 0
    let b ← Pair.formatL ps 0
    some (a ++ b)) := by
  unfold Obj.writeToString
  rw [Obj.format]
  cases ps with
  | nil =>
    cases par with
    | none => rfl
    | some p => cases h : Obj.formatParent (some p) 0 <;> simp [Pair.formatL]
  | cons p ps => cases h : Obj.formatParent par 0 <;> cases h2 : Pair.formatL (p :: ps) 0 <;> simp

theorem formatL_lines : ∀ (ps : List Pair) (n : Nat) (t : Str), Pair.formatL ps n = some t → t = [] ∨ ∃ u, t = u ++ ['\n']
  | [], n, t, h => by cases h; exact .inl rfl
  | .mk f v :: ps, n, t, h => by
    simp only [Pair.formatL, Option.bind_eq_bind, Option.bind_eq_some_iff, Option.some.injEq] at h
    obtain ⟨a, -, b, hb, rfl⟩ := h
    rcases formatL_lines ps n b hb with rfl | ⟨u, rfl⟩
    · exact .inr ⟨indent n ++ f ++ c!": " ++ a, by simp⟩
    · exact .inr ⟨indent n ++ f ++ c!": " ++ a ++ c!"\n" ++ u, by simp⟩

theorem write_lines {o : Obj} {t : Str} (h : o.writeToString = some t) : t = [] ∨ ∃ u, t = u ++ ['\n'] := by
  obtain ⟨id, ps, par⟩ := o
  rw [write_eq] at h
  simp only [Option.bind_eq_bind, Option.bind_eq_some_iff, Option.some.injEq] at h
  obtain ⟨a, ha, b, hb, rfl⟩ := h
  rcases formatL_lines ps 0 b hb with rfl | ⟨u, rfl⟩
  · cases par with
    | none => cases ha; exact .inl rfl
    | some p =>
      simp only [Obj.formatParent, Option.bind_eq_bind, Option.bind_eq_some_iff, Option.some.injEq] at ha
      obtain ⟨c, -, rfl⟩ := ha
      exact .inr ⟨indent 0 ++ c!"^: " ++ c, by simp⟩
  · exact .inr ⟨a ++ u, by simp⟩

theorem Obj.first_all (o : Obj) : o.first o.pairs.length = o := by
  obtain ⟨id, ps, par⟩ := o
  simp [Obj.first, Obj.pairs, Obj.id, Obj.parent]

theorem Obj.first_pairs (o : Obj) (j : Nat) : (o.first j).pairs = o.pairs.take j := rfl

theorem write_first_le {o : Obj} {i j : Nat} (hij : i ≤ j) {t : Str} (h : (o.first j).writeToString = some t) :
    ∃ t', (o.first i).writeToString = some t' ∧ t' <+: t := by
  obtain ⟨id, ps, par⟩ := o
  simp only [Obj.first, write_eq, Obj.id, Obj.pairs, Obj.parent] at h ⊢
  have : ps.take j = ps.take i ++ (ps.take j).drop i := by
    conv => lhs; rw [← List.take_append_drop i (ps.take j)]
    rw [List.take_take, Nat.min_eq_left hij]
  rw [this, formatL_append] at h
  simp only [Option.bind_eq_bind, Option.bind_eq_some_iff, Option.some.injEq] at h ⊢
  obtain ⟨a, ha, b, ⟨c, hc, d, hd, rfl⟩, rfl⟩ := h
  exact ⟨a ++ c, ⟨a, ha, c, hc, rfl⟩, d, by simp⟩

section
variable [Unicode]

theorem namesOk_first {o : Obj} (h : NamesOkObj o) (j : Nat) : NamesOkObj (o.first j) := by
  cases h with
  | mk h1 h2 h3 h4 =>
    exact .mk (fun p hp => h1 p (List.mem_of_mem_take hp)) (by rw [List.map_take]; exact h2.sublist (List.take_sublist _ _))
      (fun p hp => h3 p (List.mem_of_mem_take hp)) h4

end

theorem wellTyped_first {o : Obj} (h : WellTypedObj o) (j : Nat) : WellTypedObj (o.first j) := by
  cases h with
  | mk h1 h2 => exact .mk (fun p hp => h1 p (List.mem_of_mem_take hp)) h2

theorem astL_append : ∀ ps qs : List Pair, Pair.astL (ps ++ qs) = Pair.astL ps ++ Pair.astL qs
  | [], _ => rfl
  | .mk f v :: ps, qs => by simp only [List.cons_append, Pair.astL, astL_append ps qs]

theorem ast_first_succ {o : Obj} {j : Nat} {f : Str} {v : Value} (h : o.pairs[j]? = some (.mk f v)) :
    (o.first (j + 1)).ast = (o.first j).ast ++ [.mk (.field f) v.ast] := by
  obtain ⟨id, ps, par⟩ := o
  simp only [Obj.pairs] at h
  simp only [Obj.first, Obj.ast, Obj.pairs, List.take_add_one, h, Option.toList_some, astL_append, Pair.astL, List.append_assoc]

theorem ast_closed {v : Value} (h : v.selfClosing = true) : ∃ t, v.ast = .mk t [] ∧ t.closed = true := by
  cases v <;> first | exact ⟨_, rfl, rfl⟩ | cases h

/-! ## Trees -/

variable [Unicode]

/-- The trees a part of a written text can spell, by the complete lines in it. -/
theorem torn_doc {o : Obj} (hn : NamesOkObj o) {text x : Str} (ht : o.writeToString = some text) (hx : x <+: text) {d : List Field}
    (hd : SpDoc d x) {j : Nat} (hj : CompleteLines o x j) :
    d = (o.first j).ast ∨ ∃ f v e, o.pairs[j]? = some (.mk f v) ∧ d = (o.first j).ast ++ [.mk (.field f) e] ∧
      (v.selfClosing = true → e = v.ast) := by
  obtain ⟨hj1, ⟨t, ht1, hp1⟩, hj2⟩ := hj
  have hdj := (format_spells.2 _ (namesOk_first hn j)).2 0 t ht1
  obtain ⟨y, rfl⟩ := hp1
  obtain ⟨E, rfl⟩ := spDoc_more _ _ _ _ hdj (write_lines ht1) hd
  rcases Nat.lt_or_ge j o.pairs.length with hlt | hge
  · obtain ⟨t', ht2, hlen⟩ := hj2 hlt
    have hpre : t ++ y <+: t' := by
      obtain ⟨t'', h1, h2⟩ := write_first_le (o := o) (i := j + 1) (j := o.pairs.length) hlt (by rw [Obj.first_all]; exact ht)
      rw [ht2] at h1
      cases h1
      exact List.prefix_of_prefix_length_le hx h2 (by omega)
    obtain ⟨z, rfl⟩ := hpre
    have hds := (format_spells.2 _ (namesOk_first hn (j + 1))).2 0 _ ht2
    obtain ⟨f, v, hget⟩ : ∃ f v, o.pairs[j]? = some (.mk f v) := by
      rw [List.getElem?_eq_getElem hlt]
      cases o.pairs[j] with
      | mk f v => exact ⟨f, v, rfl⟩
    rw [ast_first_succ hget] at hds
    obtain ⟨A, B, B', h1, h2, h3⟩ := spDoc_cut _ _ _ _ hds hd
    rcases h3 with rfl | ⟨tg, e, e', C, rfl, rfl, hcl⟩
    · rw [List.append_nil] at h2
      rw [← h2, List.append_assoc] at h1
      have h5 := List.append_cancel_left h1
      cases E with
      | nil => exact .inl (by simp)
      | cons F E =>
        simp only [List.cons_append, List.cons.injEq] at h5
        obtain ⟨rfl, h6⟩ := h5
        have : E = [] := by cases E with | nil => rfl | cons _ _ => cases h6
        subst this
        exact .inr ⟨_, _, _, hget, rfl, fun _ => rfl⟩
    · rcases List.eq_nil_or_concat E with rfl | ⟨E0, F, rfl⟩
      · exact .inl (by simp)
      · rw [List.concat_eq_append, ← List.append_assoc] at h2
        obtain ⟨h5, h4⟩ := List.append_inj' h2 rfl
        cases h4
        rw [← h5, List.append_assoc] at h1
        have h6 := List.append_cancel_left h1
        cases E0 with
        | nil =>
          simp only [List.nil_append, List.cons.injEq] at h6
          obtain ⟨h7, rfl⟩ := h6
          cases h7
          refine .inr ⟨_, _, e', hget, by simp, fun hs => ?_⟩
          obtain ⟨t, h5, h6⟩ := ast_closed hs
          exact hcl t h5 h6
        | cons F E0 =>
          simp only [List.cons_append, List.cons.injEq] at h6
          cases E0 <;> cases h6.2
  · have : j = o.pairs.length := by omega
    subst this
    rw [Obj.first_all] at ht1 hd hdj ⊢
    rw [ht] at ht1
    cases ht1
    have : y = [] := by
      obtain ⟨z, hz⟩ := hx
      rw [List.append_assoc] at hz
      have := List.append_cancel_left (hz.trans (List.append_nil _).symm)
      exact (List.append_eq_nil_iff.1 this).1
    subst this
    rw [List.append_nil] at hd
    exact .inl (spDoc_unique hd hdj)

/-- … when not even the parent is complete. -/
theorem torn_parent {o : Obj} (hn : NamesOkObj o) {text x : Str} (ht : o.writeToString = some text) (hx : x <+: text) {d : List Field}
    (hd : SpDoc d x) (hj : ParentIncomplete o x) : d = [] ∨ d = (o.first 0).ast := by
  obtain ⟨t, ht1, hlen⟩ := hj
  have hdj := (format_spells.2 _ (namesOk_first hn 0)).2 0 t ht1
  have hpre : x <+: t := by
    obtain ⟨t'', h1, h2⟩ := write_first_le (o := o) (i := 0) (j := o.pairs.length) (by omega) (by rw [Obj.first_all]; exact ht)
    rw [ht1] at h1
    cases h1
    exact List.prefix_of_prefix_length_le hx h2 (by omega)
  obtain ⟨z, rfl⟩ := hpre
  obtain ⟨A, B, B', h1, h2, h3⟩ := spDoc_cut _ _ _ _ hdj hd
  obtain ⟨id, ps, par⟩ := o
  cases par with
  | none =>
    simp only [Obj.first, Obj.ast, Obj.parent, Obj.astP, Obj.pairs, List.take_zero, Pair.astL, List.append_nil] at h1
    obtain ⟨rfl, rfl⟩ := List.append_eq_nil_iff.1 h1.symm
    rcases h3 with rfl | ⟨tg, e, e', C, h3, -⟩
    · exact .inl h2
    · cases h3
  | some p =>
    have e0 : (Obj.first (.mk id ps (some p)) 0).ast = [.mk .parent (.mk (.obj p.ast) [])] := by
      simp [Obj.first, Obj.ast, Obj.parent, Obj.astP, Obj.pairs, Pair.astL]
    rw [e0] at h1 ⊢
    cases A with
    | nil =>
      rcases h3 with rfl | ⟨tg, e, e', C, rfl, rfl, hcl⟩
      · exact .inl h2
      · simp only [List.nil_append, List.cons.injEq] at h1
        obtain ⟨h1, -⟩ := h1
        cases h1
        refine .inr ?_
        rw [h2, hcl _ rfl rfl]
        rfl
    | cons F A =>
      simp only [List.cons_append, List.cons.injEq] at h1
      obtain ⟨rfl, h1⟩ := h1
      obtain ⟨rfl, rfl⟩ := List.append_eq_nil_iff.1 h1.symm
      rcases h3 with rfl | ⟨tg, e, e', C, h3, -⟩
      · exact .inr h2
      · cases h3

/-! ## Meanings -/

section
variable {fs : FS} {file : Option Str} {stack : List Str} {load : Loader}

theorem evalDoc_ok {D : List Field} {st st' : ESt} {o : Obj} (h : evalDoc fs file stack load D st = .ok (o, st')) :
    ∃ st1, evalFields fs file stack load D 1 [] none st = .ok ((o.pairs, o.parent), st1) := by
  unfold evalDoc at h
  simp only [bind, EM.bind] at h
  cases h1 : evalFields fs file stack load D 1 [] none st with
  | error e => rw [h1] at h; cases h
  | ok x =>
    rw [h1] at h
    obtain ⟨⟨ps, par⟩, st1⟩ := x
    simp only [EM.fresh_eq] at h
    cases h
    exact ⟨st1, rfl⟩

theorem evalFields_append_ok {A B : List Field} {d : Nat} {ps ps' : List Pair} {par par' : Option Obj} {st st' : ESt}
    (h : evalFields fs file stack load (A ++ B) d ps par st = .ok ((ps', par'), st')) :
    ∃ ps1 par1 st1, evalFields fs file stack load A d ps par st = .ok ((ps1, par1), st1) ∧
      evalFields fs file stack load B d ps1 par1 st1 = .ok ((ps', par'), st') := by
  rw [evalFields_split] at h
  simp only [bind, EM.bind] at h
  cases h1 : evalFields fs file stack load A d ps par st with
  | error e => rw [h1] at h; cases h
  | ok x =>
    rw [h1] at h
    obtain ⟨⟨ps1, par1⟩, st1⟩ := x
    exact ⟨ps1, par1, st1, rfl, h⟩

theorem redo_ok {o : Obj} (hw : WellTypedObj o) (hn : NamesOkObj o) {st st' : ESt} {ps : List Pair} {par : Option Obj}
    (h : evalFields fs file stack load o.ast 1 [] none st = .ok ((ps, par), st')) :
    Pair.dataL ps = Pair.dataL o.pairs ∧ Obj.dataP par = Obj.dataP o.parent := by
  have hr := (redo_all (fs := fs) (file := file) (stack := stack) (load := load)).2 o hw hn 1 st (by omega)
  by_cases hf : 1 + o.nest ≤ 64
  · obtain ⟨⟨ps1, par1⟩, k, h1, h2, h3⟩ := hr.1 hf
    rw [h] at h1
    cases h1
    simp only [Pair.dataL_eq]
    exact ⟨h2, h3⟩
  · have := hr.2 hf
    rw [h] at this
    cases this

/-- What part of an object its cut text can mean. -/
theorem torn_meaning {o o' : Obj} (hw : WellTypedObj o) (hn : NamesOkObj o) {text x : Str} (ht : o.writeToString = some text)
    (hx : x <+: text) {d : List Field} (hd : SpDoc d x) {st st' : ESt} (h : evalDoc fs file stack load d st = .ok (o', st')) {j : Nat}
    (hj : CompleteLines o x j) : HasFirst o o' j := by
  obtain ⟨st1, h1⟩ := evalDoc_ok h
  rcases torn_doc hn ht hx hd hj with rfl | ⟨f, v, e, hg, rfl, hc⟩
  · obtain ⟨h2, h3⟩ := redo_ok (wellTyped_first hw j) (namesOk_first hn j) h1
    exact ⟨h3, .inl h2⟩
  · by_cases hs : v.selfClosing = true
    · rw [hc hs, ← ast_first_succ hg] at h1
      obtain ⟨h2, h3⟩ := redo_ok (wellTyped_first hw (j + 1)) (namesOk_first hn (j + 1)) h1
      refine ⟨h3, .inr ⟨f, v, v.data, hg, ?_, fun _ => rfl⟩⟩
      rw [h2, Obj.first_pairs, List.take_add_one, hg, Pair.dataL_eq, List.map_append, ← Pair.dataL_eq]
      rfl
    · obtain ⟨ps1, par1, st2, h4, h5⟩ := evalFields_append_ok h1
      obtain ⟨h2, h3⟩ := redo_ok (wellTyped_first hw j) (namesOk_first hn j) h4
      rcases evalFields_single h5 with ⟨f', w, hf, h6, h7⟩ | ⟨g, hf, -⟩ | ⟨q, hf, -⟩
      · cases hf
        rw [HasFirst, h7, h6]
        refine ⟨h3, .inr ⟨f, v, w.data, hg, ?_, fun h => absurd h hs⟩⟩
        rw [Pair.dataL_eq, List.map_append, ← Pair.dataL_eq, h2]
        rfl
      · cases hf
      · cases hf

theorem torn_parent_meaning {o o' : Obj} (hw : WellTypedObj o) (hn : NamesOkObj o) {text x : Str} (ht : o.writeToString = some text)
    (hx : x <+: text) {d : List Field} (hd : SpDoc d x) {st st' : ESt} (h : evalDoc fs file stack load d st = .ok (o', st'))
    (hj : ParentIncomplete o x) : o'.pairs = [] ∧ (o'.parent = none ∨ Obj.dataP o'.parent = Obj.dataP o.parent) := by
  obtain ⟨st1, h1⟩ := evalDoc_ok h
  obtain ⟨i', ps', par'⟩ := o'
  rcases torn_parent hn ht hx hd hj with rfl | rfl
  · cases h1
    exact ⟨rfl, .inl rfl⟩
  · obtain ⟨h2, h3⟩ := redo_ok (wellTyped_first hw 0) (namesOk_first hn 0) h1
    refine ⟨?_, .inr h3⟩
    rw [Obj.first_pairs, List.take_zero] at h2
    simp only [Obj.pairs] at h2 ⊢
    cases ps' with
    | nil => rfl
    | cons p ps => cases p; cases h2

/-- Two documents, one with a cut text. -/
theorem cut_meaning {D D' : List Field} {X Y : Str} (hd : SpDoc D (X ++ Y)) (hd' : SpDoc D' X) {st s1 s2 : ESt} {o o' : Obj}
    (h : evalDoc fs file stack load D st = .ok (o, s1)) (h' : evalDoc fs file stack load D' st = .ok (o', s2)) : CutOf o o' := by
  obtain ⟨A, B, B', rfl, rfl, h3⟩ := spDoc_cut _ _ _ _ hd hd'
  obtain ⟨t1, h1⟩ := evalDoc_ok h
  obtain ⟨t2, h2⟩ := evalDoc_ok h'
  obtain ⟨ps, par, u1, hA, hB⟩ := evalFields_append_ok h1
  obtain ⟨ps2, par2, u2, hA2, hB2⟩ := evalFields_append_ok h2
  rw [hA] at hA2
  cases hA2
  obtain ⟨⟨more, hm⟩, hp⟩ := evalFields_keeps _ _ _ _ _ _ _ _ hB
  have keep : par = none ∨ par = o.parent := by
    cases par with
    | none => exact .inl rfl
    | some q => exact .inr (hp rfl).symm
  rcases h3 with rfl | ⟨tg, e, e', C, rfl, rfl, -⟩
  · obtain ⟨i', ps', par'⟩ := o'
    cases hB2
    refine ⟨_, more, hm, .inl ⟨rfl, ?_⟩⟩
    simp only [Obj.parent] at keep ⊢
    tauto
  · rw [show Field.mk tg e :: C = [.mk tg e] ++ C from rfl] at hB
    obtain ⟨ps3, par3, u3, hB3, hC⟩ := evalFields_append_ok hB
    obtain ⟨⟨m2, hm2⟩, hp2⟩ := evalFields_keeps _ _ _ _ _ _ _ _ hC
    rcases evalFields_single hB2 with ⟨f, w, rfl, e1, e2⟩ | ⟨g, rfl, e1, e2⟩ | ⟨q, rfl, e1, e2, e3⟩
    · rcases evalFields_single hB3 with ⟨f', v, hf, e3, e4⟩ | ⟨g, hf, -⟩ | ⟨q, hf, -⟩
      · cases hf
        rw [e3, List.append_assoc] at hm2
        refine ⟨ps, _, hm2, .inr ⟨f, v, w, m2, rfl, e1, ?_⟩⟩
        rw [e2]
        exact keep
      · cases hf
      · cases hf
    · refine ⟨ps, more, hm, .inl ⟨e1, ?_⟩⟩
      rw [e2]
      tauto
    · rcases evalFields_single hB3 with ⟨f', v, hf, -⟩ | ⟨g, hf, -⟩ | ⟨q', -, e4, e5, e6⟩
      · cases hf
      · cases hf
      · refine ⟨ps, more, hm, .inl ⟨e1, .inr (.inr ?_)⟩⟩
        rw [hp2 (by rw [e6]; rfl), e6]
        rfl

end

end Over
