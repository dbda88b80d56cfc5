import Verif.Props.Meaning
import Verif.Lemmas.WriteEval

/-! # Continuing a document: reading `s`, then reading `s` followed by more definitions -/

namespace Over

section
variable [Unicode]

omit [Unicode] in
theorem lastGap_prefix {eof : Bool} {g h : Str} (hg : Gap g) (hh : LastGap eof h) : LastGap eof (g ++ h) := by
  cases eof with
  | false => exact gap_append hg hh
  | true =>
    obtain h1 | ⟨h1, h2⟩ := (hh : EndGap h)
    · exact EndGap.gap (gap_append hg h1)
    · have := EndGap.comment (gap_append hg h1) h2
      rwa [List.append_assoc] at this

theorem spFields_prefix {eof : Bool} {g u : Str} {fds : List Field} (hg : Gap g) (h : SpFields eof fds u) :
    SpFields eof fds (g ++ u) := by
  cases h with
  | nil h => exact .nil (lastGap_prefix hg h)
  | cons h1 h2 h3 h4 h5 h6 =>
    rw [← List.append_assoc]
    exact .cons (gap_append hg h1) h2 h3 h4 h5 h6

omit [Unicode] in
theorem endGap_newline {g : Str} (h : EndGap g) : Gap (g ++ ['\n']) := by
  obtain h1 | ⟨h1, h2⟩ := h
  · exact gap_append h1 (.ws (by decide) .nil)
  · rw [List.append_assoc]
    exact gap_append h1 (.comment h2 .nil)

omit [Unicode] in
theorem gap_starts {g r : Str} (h : Gap g) (hr : StartsSeparated r) : StartsSeparated (g ++ r) := by
  cases h with
  | nil => exact hr
  | ws h1 h2 => exact ⟨_, _, rfl, .inl h1⟩
  | comment h1 h2 => exact ⟨_, _, rfl, .inr rfl⟩

omit [Unicode] in
theorem endGap_starts {g r : Str} (h : EndGap g) (hr : StartsSeparated r) : StartsSeparated (g ++ r) := by
  obtain h1 | ⟨h1, h2⟩ := h
  · exact gap_starts h1 hr
  · rw [List.append_assoc]
    exact gap_starts h1 ⟨_, _, rfl, .inr rfl⟩

/-- A document followed by a newline and more definitions. -/
theorem spDoc_append {eof : Bool} {fds : List Field} {u : Str} (h : SpFields eof fds u) :
    ∀ (d : List Field) (s : Str), SpDoc d s → SpFields eof (d ++ fds) (s ++ '\n' :: u)
  | [], s, hd => by
    cases hd with
    | nil hg =>
      have := spFields_prefix (endGap_newline hg) h
      simpa using this
  | f :: d, s, hd => by
    cases hd with
    | @cons _ g n g' s' r tg e fs h1 h2 h3 h4 h5 h6 =>
      have ih := spDoc_append h d r h5
      have hsep : StartsSeparated (r ++ '\n' :: u) := by
        rcases h6 with rfl | h6
        · cases h5 with
          | nil hg => exact endGap_starts hg ⟨_, _, rfl, .inl (by decide)⟩
        · obtain ⟨c, r', rfl, hc⟩ := h6
          exact ⟨c, _, rfl, hc⟩
      have := SpFields.cons (eof := eof) h1 h2 h3 h4 ih (.inr hsep)
      simpa using this

/-- One more definition. -/
theorem spDoc_snoc {d : List Field} {s n e : Str} {tg : Target} {ex : Expr} (hd : SpDoc d s)
    (hn : SpTarget tg n) (he : SpExpr ex e) : SpDoc (d ++ [.mk tg ex]) (s ++ '\n' :: (n ++ ':' :: e)) := by
  have h := SpFields.cons (eof := true) .nil hn .nil he (.nil (show EndGap [] from .gap .nil)) (.inl rfl)
  have := spDoc_append h d s hd
  simpa [SpDoc] using this

end

section
variable {fs : FS} {file : Option Str} {stack : List Str} {load : Loader}

theorem evalFields_append (b : List Field) (d : Nat) : ∀ (a : List Field) (ps : List Pair) (par : Option Obj) (st : ESt),
    evalFields fs file stack load (a ++ b) d ps par st =
      match evalFields fs file stack load a d ps par st with
      | .ok ((ps', par'), st') => evalFields fs file stack load b d ps' par' st'
      | .error e => .error e
  | [], ps, par, st => by simp only [List.nil_append, evalFields, EM.pure_apply]
  | .mk tg e :: a, ps, par, st => by
    simp only [List.cons_append, evalFields]
    cases hc : checkNew file ps par tg st with
    | error er => rw [EM.bind_err hc, EM.bind_err hc]
    | ok x =>
      obtain ⟨u, st1⟩ := x
      rw [EM.bind_ok hc, EM.bind_ok hc]
      cases hv : evalExpr fs file stack load e ps d st1 with
      | error er => rw [EM.bind_err hv, EM.bind_err hv]
      | ok y =>
        obtain ⟨v, st2⟩ := y
        rw [EM.bind_ok hv, EM.bind_ok hv]
        cases tg with
        | field f => exact evalFields_append b d a _ _ _
        | global g =>
          exact evalFields_append b d a _ _ { st2 with globals := StrMap.insert st2.globals g v }
        | parent =>
          cases v with
          | obj o => exact evalFields_append b d a _ _ _
          | _ => rfl

end

section
variable [Unicode]

/-- The loader of `meaning`. -/
noncomputable abbrev theLoader (fs : FS) : Loader := loadN fs (fs.nodes.length + 1)

/-- Evaluating further definitions of a document. -/
noncomputable def evalMore (fs : FS) (fds : List Field) (ps : List Pair) (par : Option Obj) : EM Obj := do
  let (ps, par) ← evalFields fs none [] (theLoader fs) fds 1 ps par
  let id ← EM.fresh
  pure (.mk id ps par)

/-- Reading `s` and reading `s` continued: the evaluation continues from the fields read so far. -/
theorem continue_document (fs : FS) (rt : Rt) (text : Str) (o : Obj) (s : PState) (h : fromStr fs text rt = .ok o s) :
    ∃ (d : List Field) (st : ESt), SpDoc d text ∧ o.id = st.rt.curId ∧
      s.rt = st.rt.next ∧
      evalFields fs none [] (theLoader fs) d 1 [] none ⟨[], [], rt⟩ = .ok ((o.pairs, o.parent), st) ∧
      ∀ (fds : List Field) (u : Str), SpFields true fds u →
        SameOutcome (fromStr fs (text ++ '\n' :: u) rt) (evalMore fs fds o.pairs o.parent st) := by
  obtain ⟨d, st1, hd, hm, hrt⟩ := c45_from_str_accepts fs text rt o s h
  have hm' := hm
  simp only [meaning, evalDoc] at hm'
  cases hf : evalFields fs none [] (theLoader fs) d 1 [] none ⟨[], [], rt⟩ with
  | error e => rw [EM.bind_err hf] at hm'; cases hm'
  | ok x =>
    obtain ⟨⟨ps, par⟩, st⟩ := x
    rw [EM.bind_ok hf] at hm'
    cases hm'
    refine ⟨d, st, hd, rfl, hrt, hf, ?_⟩
    intro fds u hu
    have h2 := c44_from_str_meaning fs _ rt _ (spDoc_append hu d text hd)
    have h3 : meaning fs none [] (d ++ fds) rt = evalMore fs fds ps par st := by
      simp only [meaning, evalDoc, evalMore]
      show EM.bind _ _ _ = EM.bind _ _ _
      unfold EM.bind
      rw [evalFields_append, hf]
    rw [h3] at h2
    exact h2

/-- Continuing with one regular field. -/
theorem continue_field (fs : FS) (rt : Rt) (text : Str) (o : Obj) (s : PState) (h : fromStr fs text rt = .ok o s) :
    ∃ (d : List Field) (st : ESt), SpDoc d text ∧ o.id = st.rt.curId ∧
      s.rt = st.rt.next ∧
      evalFields fs none [] (theLoader fs) d 1 [] none ⟨[], [], rt⟩ = .ok ((o.pairs, o.parent), st) ∧
      ∀ (y e : Str) (ex : Expr), FieldName y → SpExpr ex e →
        SameOutcome (fromStr fs (text ++ c!"\n" ++ y ++ c!":" ++ e) rt)
          (if y ∈ o.pairs.map Pair.field then .error (.sem none (.duplicateField y)) else
            match evalExpr fs none [] (theLoader fs) ex o.pairs 1 st with
            | .error er => .error er
            | .ok (v, st') => .ok (.mk st'.rt.curId (o.pairs ++ [.mk y v]) o.parent,
                st'.withId st'.rt.next)) := by
  obtain ⟨d, st, h1, h2, h3, h4, h5⟩ := continue_document fs rt text o s h
  refine ⟨d, st, h1, h2, h3, h4, ?_⟩
  intro y e ex hy he
  have h6 := h5 _ _ (SpFields.cons (eof := true) .nil (.field hy) .nil he (.nil (show EndGap [] from .gap .nil)) (.inl rfl))
  have e1 : text ++ '\n' :: ([] ++ (y ++ ':' :: ([] ++ (e ++ [])))) = text ++ c!"\n" ++ y ++ c!":" ++ e := by simp
  rw [e1] at h6
  have e2 : evalMore fs [.mk (.field y) ex] o.pairs o.parent st =
      (if y ∈ o.pairs.map Pair.field then .error (.sem none (.duplicateField y)) else
            match evalExpr fs none [] (theLoader fs) ex o.pairs 1 st with
            | .error er => .error er
            | .ok (v, st') => .ok (.mk st'.rt.curId (o.pairs ++ [.mk y v]) o.parent,
                st'.withId st'.rt.next)) := by
    simp only [evalMore, evalFields, checkNew]
    by_cases hm : y ∈ o.pairs.map Pair.field
    · rw [if_pos hm, if_pos hm]
      rfl
    · rw [if_neg hm, if_neg hm]
      cases hv : evalExpr fs none [] (theLoader fs) ex o.pairs 1 st with
      | error er =>
        refine EM.bind_err ?_
        exact EM.bind_ok (a := ()) (st' := st) rfl |>.trans (EM.bind_err hv)
      | ok x =>
        obtain ⟨v, st'⟩ := x
        refine EM.bind_ok (st' := st') (a := (o.pairs ++ [.mk y v], o.parent)) ?_
        exact EM.bind_ok (a := ()) (st' := st) rfl |>.trans (EM.bind_ok hv)
  rw [e2] at h6
  exact h6

omit [Unicode] in
theorem firstNamed_find {ps : List Pair} {f : Str} {v : Value} (h : FirstNamed ps f v) :
    ps.find? (fun p => p.field == f) = some (.mk f v) := by
  obtain ⟨before, after, rfl, hb⟩ := h
  rw [List.find?_append]
  have : before.find? (fun p => p.field == f) = none := by
    rw [List.find?_eq_none]
    intro p hp
    simp [hb p hp]
  rw [this]
  simp [Pair.field]

omit [Unicode] in
theorem notNamed_find {ps : List Pair} {f : Str} (h : NotNamed ps f) :
    ps.find? (fun p => p.field == f) = none := by
  rw [List.find?_eq_none]
  intro p hp
  simp [h p hp]

omit [Unicode] in
theorem notNamed_mem {ps : List Pair} {f : Str} (h : NotNamed ps f) : f ∉ ps.map Pair.field := by
  intro hm
  obtain ⟨p, hp, rfl⟩ := List.mem_map.1 hm
  exact h p hp rfl

/-- A proper field name used as a variable. -/
theorem evalName_field {file : Option Str} {ps : List Pair} {x : Str} (hx : FieldName x) :
    evalName file ps x = match ps.find? (fun p => p.field == x) with
      | some p => pure p.value
      | none => .fail file (.variableNotFound x) := by
  obtain ⟨c, cs, rfl, h1, -, h3⟩ := hx
  simp only [reservedWords, List.mem_cons, List.not_mem_nil, or_false, not_or] at h3
  obtain ⟨n1, n2, n3, n4, n5, n6, n7, n8⟩ := h3
  have hc : c ≠ '@' := by
    rintro rfl
    rcases h1 with h1 | h1
    · exact absurd h1 (by simp [isAlphabetic, isAsciiAlpha])
    · exact absurd h1 (by decide)
  unfold evalName
  simp only [n1, n2, n3, n4, n5, n6, n7, n8, if_false, List.head?_cons, Option.some.injEq, hc]
  cases List.find? (fun p => p.field == c :: cs) ps <;> rfl

theorem evalName_first {file : Option Str} {ps : List Pair} {x : Str} {v : Value} (hx : FieldName x)
    (h : FirstNamed ps x v) : evalName file ps x = pure v := by
  rw [evalName_field hx, firstNamed_find h]
  rfl

theorem evalName_none {file : Option Str} {ps : List Pair} {x : Str} (hx : FieldName x)
    (h : NotNamed ps x) : evalName file ps x = .fail file (.variableNotFound x) := by
  rw [evalName_field hx, notNamed_find h]

theorem FieldName.varName {x : Str} (h : FieldName x) : VarName x := by
  obtain ⟨c, cs, rfl, h1, h2, -⟩ := h
  exact ⟨c, cs, rfl, .inl h1, h2⟩

/-- The fields of a document that was read have proper names. -/
theorem parsed_fieldName {fs : FS} {rt : Rt} {main : Option Str × Str} {o : Obj} {s : PState}
    (h : Runs fs rt main (.ok o s)) {f : Str} {v : Value} (hf : FirstNamed o.pairs f v) : FieldName f := by
  have hn := c27_parsed_names_ok fs rt main o s h
  cases hn with
  | mk h1 _ _ _ =>
    obtain ⟨b, a, hp, -⟩ := hf
    simp only [Obj.pairs] at hp
    exact h1 (.mk f v) (by rw [hp]; simp)

omit [Unicode] in
/-- What a successful or failed evaluation says about the run. -/
theorem SameOutcome.of_ok {r : Res Obj} {o : Obj} {st : ESt} (h : SameOutcome r (.ok (o, st))) :
    ∃ s, r = .ok o s ∧ s.rt = st.rt := by
  cases r with
  | ok o' s => obtain ⟨rfl, h2⟩ := h; exact ⟨s, rfl, h2⟩
  | err e => exact h.elim
  | panic => exact h.elim
  | oof => exact h.elim

omit [Unicode] in
theorem SameOutcome.of_error {r : Res Obj} {e : SemErr} (h : SameOutcome r (.error e)) :
    ∃ pe, r = .err pe ∧ e.Reported pe := by
  cases r with
  | ok o' s => exact h.elim
  | err pe => exact ⟨pe, rfl, h⟩
  | panic => exact h.elim
  | oof => exact h.elim

end

end Over
