import Verif.Lemmas.Globals
import Verif.Spec.Place

/-! # Continuing the definitions at a place -/

namespace Over

section
variable [Unicode]

theorem spOne {tg : Target} {n e : Str} {ex : Expr} (hn : SpTarget tg n) (he : SpExpr ex e) :
    SpDoc [.mk tg ex] (n ++ ':' :: e) := by
  have h := SpFields.cons (eof := true) .nil hn .nil he (.nil (show EndGap [] from .gap .nil)) (.inl rfl)
  simpa [SpDoc] using h

/-- The globals after reading a text. -/
def FinalGlobals (fs : FS) (rt : Rt) (text : Str) (G : StrMap Value) : Prop :=
  ∃ d st b, SpDoc d text ∧ evalFields fs none [] (theLoader fs) d 1 [] none ⟨[], [], rt⟩ = .ok (b, st) ∧ st.globals = G

theorem FinalGlobals.unique {fs : FS} {rt : Rt} {text : Str} {G G' : StrMap Value} (h : FinalGlobals fs rt text G)
    (h' : FinalGlobals fs rt text G') : G = G' := by
  obtain ⟨d, st, b, h1, h2, rfl⟩ := h
  obtain ⟨d', st', b', h1', h2', rfl⟩ := h'
  cases c49_one_document _ _ _ h1 h1'
  rw [h2] at h2'
  cases h2'
  rfl

omit [Unicode] in
theorem Innermost.unique {path : List Str} {o p q : Obj} (h : Innermost path o p) (h' : Innermost path o q) :
    p.pairs = q.pairs ∧ p.parent = q.parent := by
  have := (InnerBody.of_innermost h).unique (InnerBody.of_innermost h')
  unfold Obj.body at this
  simpa using this

/-- The values of included files after reading a text. -/
def FinalCache (fs : FS) (rt : Rt) (text : Str) (C : StrMap Value) : Prop :=
  ∃ d st b, SpDoc d text ∧ evalFields fs none [] (theLoader fs) d 1 [] none ⟨[], [], rt⟩ = .ok (b, st) ∧ st.cache = C

theorem FinalCache.unique {fs : FS} {rt : Rt} {text : Str} {G G' : StrMap Value} (h : FinalCache fs rt text G)
    (h' : FinalCache fs rt text G') : G = G' := by
  obtain ⟨d, st, b, h1, h2, rfl⟩ := h
  obtain ⟨d', st', b', h1', h2', rfl⟩ := h'
  cases c49_one_document _ _ _ h1 h1'
  rw [h2] at h2'
  cases h2'
  rfl

/-- Appending definitions at a place continues the evaluation from the state `st`. -/
def Continues (fs : FS) (rt : Rt) (A : List (Str × Str)) (u : Str) (p : Obj) (st : ESt) : Prop :=
  ∀ (more : List Field) (t : Str), SpDoc more t →
      (∀ e, evalFields fs none [] (theLoader fs) more (1 + A.length) p.pairs p.parent st = .error e →
        SameOutcome (fromStr fs (nest A (u ++ '\n' :: t)) rt) (.error e)) ∧
      ∀ ps' par' st', evalFields fs none [] (theLoader fs) more (1 + A.length) p.pairs p.parent st =
          .ok ((ps', par'), st') →
        FinalGlobals fs rt (nest A (u ++ '\n' :: t)) st'.globals ∧
        ∃ i, ReadsAt fs rt A (u ++ '\n' :: t) (.mk i ps' par')

/-- The same for the values of included files. -/
def ContinuesC (fs : FS) (rt : Rt) (A : List (Str × Str)) (u : Str) (p : Obj) (st : ESt) : Prop :=
  ∀ (more : List Field) (t : Str), SpDoc more t → ∀ b st',
    evalFields fs none [] (theLoader fs) more (1 + A.length) p.pairs p.parent st = .ok (b, st') →
    FinalCache fs rt (nest A (u ++ '\n' :: t)) st'.cache

/-- The evaluator at a place. -/
theorem at_place_cache {fs : FS} {rt : Rt} {A : List (Str × Str)} {u : Str} {p : Obj} (h : ReadsAt fs rt A u p) :
    ∃ st : ESt, FinalGlobals fs rt (nest A u) st.globals ∧ FinalCache fs rt (nest A u) st.cache ∧
      Continues fs rt A u p st ∧ ContinuesC fs rt A u p st ∧
      ∀ Q, KeepsProp fs none [] (theLoader fs) Q → Q ⟨[], [], rt⟩ ([], none) → Q st p.body := by
  obtain ⟨hA, hu, o, s, h1, h2⟩ := h
  obtain ⟨d, st1, stI, h3, h4, h5, h6, hQ, h7⟩ := continue_nested fs rt A u o p s hA hu h1 h2
  refine ⟨stI, ⟨d, st1, _, h3, h4, h5.symm⟩, ⟨d, st1, _, h3, h4, h6.symm⟩, ?_, ?_, hQ⟩
  · intro more t hm
    obtain ⟨h8, h9⟩ := h7 more t hm
    refine ⟨h8, ?_⟩
    intro ps' par' st' he
    obtain ⟨o', s', i, st3, h10, h11, h12, -, d', h14, h15⟩ := h9 ps' par' st' he
    refine ⟨⟨d', st3, _, h14, h15, h12⟩, i, hA, ?_, o', s', h10, h11⟩
    obtain ⟨du, hdu⟩ := hu
    exact ⟨_, spDoc_append hm du u hdu⟩
  · rintro more t hm ⟨ps', par'⟩ st' he
    obtain ⟨h8, h9⟩ := h7 more t hm
    obtain ⟨o', s', i, st3, h10, h11, -, h12, d', h14, h15⟩ := h9 ps' par' st' he
    exact ⟨d', st3, _, h14, h15, h12⟩

/-- The evaluator at a place. -/
theorem at_place {fs : FS} {rt : Rt} {A : List (Str × Str)} {u : Str} {p : Obj} (h : ReadsAt fs rt A u p) :
    ∃ st : ESt, FinalGlobals fs rt (nest A u) st.globals ∧ Continues fs rt A u p st := by
  obtain ⟨st, h1, -, h2, -⟩ := at_place_cache h
  exact ⟨st, h1, h2⟩

omit [Unicode] in
theorem text_field (u y e : Str) : u ++ c!"\n" ++ y ++ c!":" ++ e = u ++ '\n' :: (y ++ ':' :: e) := by simp

/-- Appending one regular field at a place. -/
theorem field_at {fs : FS} {rt : Rt} {A : List (Str × Str)} {u : Str} {p : Obj} {st : ESt}
    (h : Continues fs rt A u p st)
    {y e : Str} {ex : Expr} (hy : FieldName y) (hn : NotNamed p.pairs y) (he : SpExpr ex e) :
    (∀ er, evalExpr fs none [] (theLoader fs) ex p.pairs (1 + A.length) st = .error er →
      SameOutcome (fromStr fs (nest A (u ++ c!"\n" ++ y ++ c!":" ++ e)) rt) (.error er)) ∧
    (∀ er rest, WellFormed rest → evalExpr fs none [] (theLoader fs) ex p.pairs (1 + A.length) st = .error er →
      SameOutcome (fromStr fs (nest A (u ++ c!"\n" ++ y ++ c!":" ++ e ++ c!"\n" ++ rest)) rt) (.error er)) ∧
    ∀ v st', evalExpr fs none [] (theLoader fs) ex p.pairs (1 + A.length) st = .ok (v, st') →
      FinalGlobals fs rt (nest A (u ++ c!"\n" ++ y ++ c!":" ++ e)) st'.globals ∧
      ∃ p', ReadsAt fs rt A (u ++ c!"\n" ++ y ++ c!":" ++ e) p' ∧ p'.pairs = p.pairs ++ [.mk y v] ∧
        p'.parent = p.parent := by
  obtain ⟨h1, h2⟩ := h _ _ (spOne (.field hy) he)
  rw [← text_field] at h1 h2
  simp only [evalFields_one, if_neg (notNamed_mem hn)] at h1 h2
  refine ⟨?_, ?_, ?_⟩
  · intro er hev
    exact h1 er (by rw [hev])
  · rintro er rest ⟨dr, hdr⟩ hev
    obtain ⟨h3, -⟩ := h _ _ (spDoc_append hdr _ _ (spOne (.field hy) he))
    have h4 := h3 er (by rw [evalFields_append, evalFields_one, if_neg (notNamed_mem hn), hev])
    have e1 : u ++ '\n' :: ((y ++ ':' :: e) ++ '\n' :: rest) = u ++ c!"\n" ++ y ++ c!":" ++ e ++ c!"\n" ++ rest := by
      simp
    rwa [e1] at h4
  · intro v st' hev
    obtain ⟨h3, i, h4⟩ := h2 _ _ st' (by rw [hev])
    exact ⟨h3, _, h4, rfl, rfl⟩

omit [Unicode] in
theorem SameOutcome.fails {fs : FS} {rt : Rt} {text : Str} [Unicode] {k : SemKind}
    (h : SameOutcome (fromStr fs text rt) (.error (.sem none k))) :
    ∃ kind, k.Reported kind ∧ fromStr fs text rt = .err ⟨none, kind⟩ := by
  obtain ⟨pe, h1, h2⟩ := h.of_error
  cases h2 with
  | sem hk => exact ⟨_, hk, h1⟩

/-- What a successful reading says about the evaluation. -/
theorem denotes_eval {fs : FS} {rt : Rt} {A : List (Str × Str)} {u : Str} {p p1 : Obj} {st : ESt}
    (h : Continues fs rt A u p st)
    {y e : Str} {ex : Expr} (hy : FieldName y) (hn : NotNamed p.pairs y) (he : SpExpr ex e)
    (hr : ReadsAt fs rt A (u ++ c!"\n" ++ y ++ c!":" ++ e) p1) :
    ∃ v st', evalExpr fs none [] (theLoader fs) ex p.pairs (1 + A.length) st = .ok (v, st') ∧
      p1.pairs = p.pairs ++ [.mk y v] := by
  obtain ⟨h1, -, h2⟩ := field_at h hy hn he
  obtain ⟨-, -, o, s, hr1, hr2⟩ := hr
  cases hev : evalExpr fs none [] (theLoader fs) ex p.pairs (1 + A.length) st with
  | error er =>
    have := h1 er hev
    rw [hr1] at this
    exact this.elim
  | ok x =>
    obtain ⟨v, st'⟩ := x
    obtain ⟨-, p', ⟨-, -, o', s', h3, h4⟩, h5, -⟩ := h2 v st' hev
    rw [hr1] at h3
    cases h3
    exact ⟨v, st', rfl, (hr2.unique h4).1.trans h5⟩

/-- The value an expression text denotes at a place. -/
theorem Denotes.eval {fs : FS} {rt : Rt} {A : List (Str × Str)} {u : Str} {p : Obj} {st : ESt}
    (h : Continues fs rt A u p st)
    {e : Str} {ex : Expr} (he : SpExpr ex e) {v : Value} (hd : Denotes fs rt A u p e v) :
    ∃ st', evalExpr fs none [] (theLoader fs) ex p.pairs (1 + A.length) st = .ok (v, st') := by
  obtain ⟨y, p', hy, hn, hr, hp⟩ := hd
  obtain ⟨w, st', h1, h2⟩ := denotes_eval h hy hn he hr
  rw [hp] at h2
  simp at h2
  subst h2
  exact ⟨st', h1⟩

theorem spVar {x : Str} (hx : VarName x) : SpExpr (.mk (.name x) []) x := by
  have := SpExpr.mk (.name hx) .nil
  simpa using this

omit [Unicode] in
theorem evalExpr_term {fs : FS} {file : Option Str} {stack : List Str} {load : Loader} {t : Term} {ps : List Pair}
    {k : Nat} {st : ESt} :
    evalExpr fs file stack load (.mk t []) ps k st = evalTerm fs file stack load t ps k st := by
  simp only [evalExpr]
  cases h : evalTerm fs file stack load t ps k st with
  | error e => rw [EM.bind_err h]
  | ok x => rw [EM.bind_ok h]; rfl

theorem GlobalName.varName {g : Str} (h : GlobalName g) : VarName g := by
  obtain ⟨c, cs, rfl, h1, h2⟩ := h
  exact ⟨'@', c :: cs, rfl, .inr rfl, by
    intro d hd
    rcases List.mem_cons.1 hd with rfl | hd
    · exact h1.nameChar
    · exact h2 d hd⟩

theorem GlobalName.target {g : Str} (h : GlobalName g) : SpTarget (.global g) g := by
  obtain ⟨c, cs, rfl, h1, h2⟩ := h
  exact .global (.inl h1) h2

theorem evalName_global {file : Option Str} {ps : List Pair} {g : Str} (h : GlobalName g) :
    evalName file ps g = evalGlobal file g := by
  obtain ⟨c, cs, rfl, h1, h2⟩ := h
  unfold evalName
  simp

omit [Unicode] in
/-- Evaluating the definition of a global. -/
theorem evalFields_global {fs : FS} {file : Option Str} {stack : List Str} {load : Loader} (g : Str) (ex : Expr) (k : Nat)
    (ps : List Pair) (par : Option Obj) (st : ESt) :
    evalFields fs file stack load [.mk (.global g) ex] k ps par st =
      match StrMap.get st.globals g with
      | some _ => .error (.sem file (.duplicateGlobal g))
      | none => match evalExpr fs file stack load ex ps k st with
        | .error e => .error e
        | .ok (v, st') => .ok ((ps, par), st'.define g v) := by
  simp only [evalFields]
  cases hg : StrMap.get st.globals g with
  | some w =>
    have hc : checkNew file ps par (.global g) st = .error (.sem file (.duplicateGlobal g)) := by
      show (match StrMap.get st.globals g with | some _ => _ | none => _) = _
      rw [hg]
    rw [EM.bind_err hc]
  | none =>
    have hc : checkNew file ps par (.global g) st = .ok ((), st) := by
      show (match StrMap.get st.globals g with | some _ => _ | none => _) = _
      rw [hg]
    rw [EM.bind_ok hc]
    cases he : evalExpr fs file stack load ex ps k st with
    | error e => rw [EM.bind_err he]
    | ok x => rw [EM.bind_ok he]; rfl

omit [Unicode] in
/-- Evaluating the definition of the parent. -/
theorem evalFields_parent {fs : FS} {file : Option Str} {stack : List Str} {load : Loader} (ex : Expr) (k : Nat)
    (ps : List Pair) (par : Option Obj) (st : ESt) :
    evalFields fs file stack load [.mk .parent ex] k ps par st =
      if par.isSome then .error (.sem file (.duplicateField c!"^")) else
      match evalExpr fs file stack load ex ps k st with
        | .error e => .error e
        | .ok (.obj o, st') => .ok ((ps, some o), st')
        | .ok (v, _) => .error (.sem file (.api (.typeMismatch .obj v.getType))) := by
  simp only [evalFields]
  cases hp : par.isSome with
  | true =>
    have hc : checkNew file ps par .parent st = .error (.sem file (.duplicateField c!"^")) := by
      simp only [checkNew, hp, if_true]; rfl
    rw [EM.bind_err hc]
    rfl
  | false =>
    have hc : checkNew file ps par .parent st = .ok ((), st) := by
      simp only [checkNew, hp, Bool.false_eq_true, if_false]; rfl
    rw [EM.bind_ok hc]
    simp only [Bool.false_eq_true, if_false]
    cases he : evalExpr fs file stack load ex ps k st with
    | error e => rw [EM.bind_err he]
    | ok x =>
      obtain ⟨v, st'⟩ := x
      rw [EM.bind_ok he]
      cases v <;> rfl

/-- The value of a global at a place. -/
theorem evalGlobal_expr {fs : FS} {stack : List Str} {load : Loader} {ps : List Pair} {k : Nat} {st : ESt} {g : Str}
    (hg : GlobalName g) : evalExpr fs none stack load (.mk (.name g) []) ps k st =
      match StrMap.get st.globals g with
      | some v => .ok (v, st)
      | none => .error (.sem none (.globalNotFound g)) := by
  rw [evalExpr_term]
  simp only [evalTerm, evalName_global hg, evalGlobal]
  cases StrMap.get st.globals g <;> rfl

/-- The text of a global denotes its value in the final globals. -/
theorem denotes_global {fs : FS} {rt : Rt} {A : List (Str × Str)} {u : Str} {p : Obj} (h : ReadsAt fs rt A u p)
    {g : Str} (hg : GlobalName g) {v : Value} (hd : Denotes fs rt A u p g v) :
    ∃ G, FinalGlobals fs rt (nest A u) G ∧ StrMap.get G g = some v := by
  obtain ⟨st, hG, hc⟩ := at_place h
  obtain ⟨st', he⟩ := hd.eval hc (spVar hg.varName)
  rw [evalGlobal_expr hg] at he
  cases hgv : StrMap.get st.globals g with
  | none => rw [hgv] at he; cases he
  | some w => rw [hgv] at he; cases he; exact ⟨_, hG, hgv⟩

theorem spInclude {b p : Str} (hb : StrBody p b) :
    SpExpr (.mk (.incl (.mk (.str p) [])) []) (c!"<\"" ++ b ++ c!"\">") := by
  have h1 : SpExpr (.mk (.str p) []) ('"' :: (b ++ ['"']) ++ []) := .mk (.str hb) .nil
  have h2 := SpItems.cons (eof := false) .nil h1 (.nil (show Gap [] from .nil)) (.inl rfl)
  have h3 := SpExpr.mk (.incl h2) .nil
  simpa using h3

omit [Unicode] in
theorem evalIncludeStr {fs : FS} {load : Loader} {p : Str} {ps : List Pair} {k : Nat} {st : ESt} :
    evalExpr fs none [] load (.mk (.incl (.mk (.str p) [])) []) ps k st =
      if k + 1 > 64 then .error (.sem none .maxDepth) else evalInclude fs none [] load .obj p st := by
  rw [evalExpr_term]
  simp only [evalTerm, depthCheck]
  by_cases hk : k + 1 > 64
  · rw [if_pos hk, if_pos hk]; rfl
  · rw [if_neg hk, if_neg hk]
    rw [EM.bind_ok (a := ()) (st' := st) rfl]
    have : evalExpr fs none [] load (.mk (.str p) []) ps (k + 1) st = .ok (.str p, st) := by
      rw [evalExpr_term]; simp only [evalTerm]; rfl
    rw [EM.bind_ok this]
    rfl

/-- A text that is read is well-formed. -/
theorem wellFormed_of_read {fs : FS} {rt : Rt} {t : Str} {o : Obj} {s : PState} (h : fromStr fs t rt = .ok o s) :
    WellFormed t := by
  obtain ⟨d, -, hd, -⟩ := c45_from_str_accepts fs t rt o s h
  exact ⟨d, hd⟩

end

end Over
