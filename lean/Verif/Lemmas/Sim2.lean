import Verif.Lemmas.Sim

/-!
# The parser follows the evaluator: operands
-/

set_option linter.unusedSectionVars false

namespace Over

section
variable [Unicode] [PanicOk]
variable {fs : FS} {main : Option Str × Str} {env : Env} {n : Nat} {pv : PV}

/-! ## First characters -/

theorem VarName.head {x : Str} (h : VarName x) : ∃ c cs, x = c :: cs ∧
    (isValidFieldChar c true || c == '@') = true ∧ isNumericChar c = false ∧
    (x.head? = some '@' ↔ c = '@') := by
  obtain ⟨c, cs, rfl, hc, -⟩ := h
  refine ⟨c, cs, rfl, ?_, ?_, by simp⟩
  · simp only [Bool.or_eq_true, beq_iff_eq, validFieldChar_true_iff]; tauto
  · rw [← Bool.not_eq_true, numericChar_iff]
    rcases hc with hc | rfl
    · have := hc.cases; char_omega
    · decide

theorem SpTerm.numberHead {t : Term} {s : Str} (h : SpTerm t s) (hn : t.isNumber = true) :
    ∃ c r, s = c :: r ∧ isNumericChar c = true := by
  cases h with
  | int h =>
    obtain ⟨-, ⟨c, cs, rfl, hc⟩, -⟩ := h
    exact ⟨c, cs, rfl, by simp [isNumericChar, ← decDigit_eq, hc]⟩
  | frac h =>
    obtain ⟨w, sep, d, rfl, hs, -, -, hw, -⟩ := h
    rcases hw with rfl | ⟨c, cs, rfl, hc⟩
    · exact ⟨sep, d, rfl, by rcases hs with rfl | rfl <;> decide⟩
    · exact ⟨c, cs ++ sep :: d, rfl, by simp [isNumericChar, ← decDigit_eq, hc]⟩
  | _ => simp [Term.isNumber] at hn

/-- A path. -/
def Term.isPath : Term → Bool
  | .name _ => true
  | .dot _ _ => true
  | _ => false

theorem Term.afterDot_cases {t : Term} (h : t.afterDot = true) : t.isPath = true ∨ t.isNumber = true := by
  cases t <;> simp_all [Term.afterDot, Term.isPath, Term.isNumber]

theorem SpTerm.pathHead {t : Term} {s : Str} (h : SpTerm t s) (hp : t.isPath = true) :
    ∃ c r, s = c :: r ∧ (isValidFieldChar c true || c == '@') = true ∧ isNumericChar c = false ∧
      (t.isGlobal = true ↔ c = '@') ∧ t.isNumber = false := by
  cases h with
  | name h =>
    obtain ⟨c, cs, rfl, h1, h2, h3⟩ := h.head
    exact ⟨c, cs, rfl, h1, h2, by simp [Term.isGlobal], rfl⟩
  | dot h _ _ =>
    obtain ⟨c, cs, rfl, h1, h2, h3⟩ := h.head
    exact ⟨c, _, rfl, h1, h2, by simp [Term.isGlobal], rfl⟩
  | _ => simp [Term.isPath] at hp

theorem SpTerm.afterDotHead {t : Term} {s : Str} (h : SpTerm t s) (hp : t.afterDot = true) :
    ∃ c r, s = c :: r ∧ (c = '@' ∨ (isValidFieldChar c true || isNumericChar c) = true) := by
  rcases Term.afterDot_cases hp with hp | hp
  · obtain ⟨c, r, rfl, h1, -⟩ := h.pathHead hp
    refine ⟨c, r, rfl, ?_⟩
    simp only [Bool.or_eq_true, beq_iff_eq] at h1 ⊢; tauto
  · obtain ⟨c, r, rfl, h1⟩ := h.numberHead hp
    exact ⟨c, r, rfl, by simp [h1]⟩

/-! ## Unary operators, literals -/

theorem parseUnary_sim (henv : EnvOk fs env) (hsrc : Src fs main env.file env.full)
    (hpv : PvSim fs main n pv) {pairs : List Pair} (hps : GoodPairs pairs) (depth : Nat)
    (brace : Option Char) {K : Nat} (hK : fs.filesExcl env.stack ≤ K) {rest' : Str} (hf : Follow rest')
    {s : PState} (ha : At env s) {c : Char} {txt : Str} (hr : s.stream.rest = c :: (txt ++ rest'))
    {t : Term} (ht : SpTerm t txt)
    {op : UnOp} (hc : (c = '-' ∧ op = .minus) ∨ (c = '+' ∧ op = .plus))
    (hm : s.stream.rest.length + fs.sizeExcl env.stack ≤ n + 1) :
    sim (parseUnary pv pairs depth brace op)
      (do
        let v ← evalTerm fs env.file env.stack (loadN fs K) t pairs (depth + 1)
        applyUn env.file op v) s (fun v w s' => v = w ∧ s'.stream.rest = rest') := by
  unfold parseUnary
  refine sim_nextP hr ?_
  have hc' : (some c = some '-' ∧ op = .minus) ∨ (some c = some '+' ∧ op = .plus) := by
    simpa using hc
  rw [if_pos hc']
  have hh := ha.here
  rw [hr] at hh
  have ha1 := ha.move hh.adv
  refine sim_getPos (sim_peekP ?_)
  obtain ⟨d, tl, hd, -⟩ := ht.head
  have hhd : (txt ++ rest').head? = some d := by rw [hd]; rfl
  simp only [hhd]
  refine sim_bind ((hpv env _ pairs (depth + 1) brace K txt rest' henv hsrc ha1 hps (by
    rw [hr] at hm; simp only [List.length_cons] at hm
    show (txt ++ rest').length + _ ≤ n; omega) hK rfl).1 t ht hf) ?_
  rintro v _ s2 ⟨rfl, ha2, -, hr2⟩
  refine sim_mono (unaryOp_sim ha2 v op _ _) ?_
  rintro w _ s3 ⟨rfl, rfl⟩
  exact ⟨rfl, hr2⟩

theorem parseNumeric_int_sim {rest' : Str} (hf : Follow rest') {s : PState} {txt : Str}
    (hr : s.stream.rest = txt ++ rest') {k : Nat} (ht : IntLit k txt) (l c : Nat) :
    sim (parseNumeric l c) (pure (.int k) : EM Value) s (fun v w s' => v = w ∧ s'.stream.rest = rest') := by
  obtain ⟨h1, ⟨d, cs, h2, h3⟩, h4⟩ := ht
  unfold parseNumeric
  refine sim_liftLex (by rw [hr]; exact numGo_int h1 rest' hf _) ?_
  simp only
  rw [numFinish_int (digitsOf_digits txt)]
  have : digitsOf txt ≠ [] := by rw [h2, digitsOf_cons_digit ((decDigit_eq _).symm.trans h3)]; simp
  rw [if_neg this]
  rw [← h4]
  exact sim_pure ⟨rfl, rfl⟩

theorem parseNumeric_frac_sim {rest' : Str} (hf : Follow rest') {s : PState} {txt : Str}
    (hr : s.stream.rest = txt ++ rest') {q : Rat} (ht : FracLit q txt) (l c : Nat) :
    sim (parseNumeric l c) (pure (.frac q) : EM Value) s (fun v w s' => v = w ∧ s'.stream.rest = rest') := by
  obtain ⟨w, sep, d, rfl, hs, h1, h2, -, h4, h5⟩ := ht
  unfold parseNumeric
  refine sim_liftLex (by rw [hr]; exact numGo_frac h1 h2 hs rest' hf _) ?_
  simp only
  rw [numFinish_frac (digitsOf_digits w) (digitsOf_digits d), if_neg (by tauto), ← h5]
  exact sim_pure ⟨rfl, rfl⟩

theorem parseStr_sim {rest' : Str} {s : PState} {b x : Str}
    (hr : s.stream.rest = ('"' :: (b ++ ['"'])) ++ rest') (ht : StrBody x b) :
    sim parseStr (pure (.str x) : EM Value) s (fun v w s' => v = w ∧ s'.stream.rest = rest') := by
  unfold parseStr
  refine sim_liftLex (a := x) (rest := rest') (by rw [hr]; simpa using lexStr_ok ht rest' _) ?_
  exact sim_pure ⟨rfl, rfl⟩

/-! ## Paths -/

theorem varGo_err (rest : Str) : ∀ (p : Pos) (acc : Str) (k : Kind), varGo rest p acc = .err k →
    (∃ l, k = .unexpectedEnd l) ∨ ∃ ch l c, k = .invalidValueChar ch l c := by
  induction rest with
  | nil => intro p acc k h; simp [varGo] at h
  | cons ch cs ih =>
    intro p acc k h
    unfold varGo at h
    by_cases h1 : ch = '.'
    · rw [if_pos h1] at h
      cases cs with
      | nil => simp only [Lex.err.injEq] at h; exact .inl ⟨_, h.symm⟩
      | cons c2 r =>
        simp only at h
        split_ifs at h
        simp only [Lex.err.injEq] at h; exact .inr ⟨_, _, _, h.symm⟩
    · rw [if_neg h1] at h
      split_ifs at h
      · exact ih _ _ _ h
      · simp only [Lex.err.injEq] at h; exact .inr ⟨_, _, _, h.symm⟩

theorem lexVar_err {rest : Str} {p : Pos} {k : Kind} (h : lexVar rest p = .err k) :
    (∃ l, k = .unexpectedEnd l) ∨ ∃ ch l c, k = .invalidValueChar ch l c := by
  cases rest with
  | nil => simp [lexVar] at h
  | cons ch cs =>
    simp only [lexVar] at h
    split at h
    · cases h
    · rename_i k' h2
      simp only [Lex.err.injEq] at h
      subst h
      split_ifs at h2
      · exact varGo_err _ _ _ _ h2
      · exact varGo_err _ _ _ _ h2
    · cases h

theorem lookupVar_number (pairs : List Pair) (hps : GoodPairs pairs) {x : Str}
    (hx : x = [] ∨ ∃ c r, x = c :: r ∧ isDigit c = true) (l c : Nat) :
    lookupVar pairs x false l c = fail (.variableNotFound x l c) := by
  have hh : ∀ d, x.head? = some d → isDigit d = true := by
    rcases hx with rfl | ⟨d, r, rfl, hd⟩
    · intro d hd; cases hd
    · intro e he; simp only [List.head?_cons, Option.some.injEq] at he; rw [← he]; exact hd
  have hne : ∀ (k : Char) (ks : Str), isDigit k = false → x ≠ k :: ks := by
    rintro k ks hk rfl
    rw [hh k rfl] at hk; cases hk
  unfold lookupVar
  simp only [beq_iff_eq]
  rw [if_neg (hne _ _ (by decide)), if_neg (hne _ _ (by decide)), if_neg (hne _ _ (by decide)),
    if_neg (hne _ _ (by decide)), if_neg (hne _ _ (by decide)), if_neg (hne _ _ (by decide)),
    if_neg (hne _ _ (by decide)), if_neg (hne _ _ (by decide))]
  simp only [Bool.false_eq_true, if_false]
  cases hp : findPair pairs x with
  | none => rfl
  | some p =>
    exfalso
    obtain ⟨h1, h2⟩ := findPair_mem hp
    obtain ⟨d, ds, h3, h4, -⟩ := (hps.1 p h1).1
    rw [h2] at h3
    have := h4.cases
    have := hh d (by rw [h3]; rfl)
    char_omega

/-- A number after a dot on an object. -/
theorem parseVariable_number {s : PState} (ha : At env s) {pairs : List Pair} (hps : GoodPairs pairs)
    {c : Char} {r : Str} (hr : s.stream.rest = c :: r) (hc : isNumericChar c = true) (k l col depth : Nat)
    (brace : Option Char) {β : Type} {Q : Value → β → PState → Prop} :
    sim (parseVariable pv (k + 1) pairs l col depth brace) (EM.fail env.file .numberAfterDot : EM β) s Q := by
  unfold parseVariable sim
  rw [wp_bind]
  have hs := lexVar_spec env.full _ _ ha.here (by rw [hr]; simp)
  apply wp_liftLex
  cases hl : lexVar s.stream.rest s.stream.pos with
  | panic => rw [hl] at hs; exact hs
  | err kd =>
    refine ⟨_, rfl, ?_⟩
    rw [ha.file]
    refine .sem ?_
    rcases lexVar_err hl with ⟨l, rfl⟩ | ⟨ch, l, c, rfl⟩
    · exact .numberAfterDotEnd
    · exact .numberAfterDotChar
  | ok a rest' p' =>
    rw [hl] at hs
    obtain ⟨x, g, dt⟩ := a
    obtain ⟨txt, e1, e2, -, -, e5⟩ := hs
    simp only at e1 e2 e5 ⊢
    have hca : c ≠ '@' := by rintro rfl; exact absurd hc (by decide)
    have hg : g = false := by
      simp only [lexVar, hr] at hl
      split at hl
      · simp only [Lex.ok.injEq, Prod.mk.injEq] at hl
        rw [← hl.1.2.1]; simpa using hca
      · cases hl
      · cases hl
    subst hg
    simp only [Bool.false_eq_true, if_false] at e5
    have hx : x = [] ∨ ∃ c r, x = c :: r ∧ isDigit c = true := by
      cases hx : x with
      | nil => exact .inl rfl
      | cons y ys =>
        refine .inr ⟨y, ys, rfl, ?_⟩
        have hy : y = c := by
          rw [hr, e2, hx] at e1
          simp only [List.cons_append, List.cons.injEq] at e1
          exact e1.1.symm
        have h1 := (e5.1 y (by rw [hx]; simp)).cases
        rw [numericChar_iff] at hc
        subst hy
        rcases hc with hc | hc | hc
        · exact hc
        · exfalso; char_omega
        · exfalso; char_omega
    show wp _ _ _ _
    rw [wp_bind, lookupVar_number pairs hps hx, wp_fail]
    refine ⟨_, rfl, ?_⟩
    rw [show ({ s with stream := { s.stream with rest := rest', pos := p' } } : PState).stream.file =
      env.file from ha.file]
    exact .sem .numberAfterDot

theorem parseVariable_sim (henv : EnvOk fs env) (hsrc : Src fs main env.file env.full)
    (hpv : PvSim fs main n pv) {K : Nat} (hK : fs.filesExcl env.stack ≤ K) {rest' : Str}
    (hf : Follow rest') (k : Nat) : ∀ (pairs : List Pair) (l c depth : Nat) (brace : Option Char)
    (s : PState) (t : Term) (txt : Str), GoodPairs pairs → l = s.stream.pos.line ∧ c = s.stream.pos.col → At env s → t.isPath = true →
    SpTerm t txt →
    s.stream.rest = txt ++ rest' →
    s.stream.rest.length + fs.sizeExcl env.stack ≤ n + 1 → s.stream.rest.length + 1 ≤ k →
    sim (parseVariable pv k pairs l c depth brace)
      (evalTerm fs env.file env.stack (loadN fs K) t pairs depth) s
      (fun v w s' => v = w ∧ s'.stream.rest = rest') := by
  induction k with
  | zero => intro _ _ _ _ _ s _ _ _ _ _ _ _ _ _ h; omega
  | succ k ih =>
    intro pairs l c depth brace s t txt hps hpos ha hp ht hr hm hk
    cases ht with
    | name hx =>
      unfold parseVariable evalTerm
      refine sim_liftLex (by rw [hr]; exact lexVar_ok hx rest' hf _) ?_
      have hh := ha.here
      rw [hr] at hh
      have ha1 := ha.move hh.advs
      refine sim_last (lookupVar_sim ha1 pairs txt l c) ?_
      rintro v _ s' ⟨rfl, hs⟩
      exact sim_pure ⟨rfl, by rw [hs.stream]⟩
    | @dot x s0 t hx hd ht =>
      obtain ⟨d, tl, rfl, hdc⟩ := ht.afterDotHead hd
      unfold parseVariable evalTerm
      have hr1 : s.stream.rest = x ++ '.' :: d :: (tl ++ rest') := by rw [hr]; simp
      refine sim_liftLex (by rw [hr1]; exact lexVar_dot_ok hx d _ hdc _) ?_
      have hh := ha.here
      rw [show s.stream.rest = (x ++ ['.']) ++ d :: (tl ++ rest') by rw [hr]; simp] at hh
      have ha1 := ha.move hh.advs
      have hpos : WordAt env.full x l c := by
        obtain ⟨rfl, rfl⟩ := hpos
        rw [List.append_assoc] at hh
        exact hh.wordAt
      refine sim_bind (sim_wp (lookupVar_sim ha1 pairs x l c) (lookupVar_spec (x := x) (g := isGlobalName x)
        hsrc ha1 hps hpos)) ?_
      rintro v _ s1 ⟨⟨rfl, hs⟩, hgv, -⟩
      have ha2 := hs.at ha1
      have hr2 : s1.stream.rest = (d :: tl) ++ rest' := by rw [hs.stream]; rfl
      have hlen : s1.stream.rest.length + 1 ≤ s.stream.rest.length := by
        rw [hr2, hr1]; simp only [List.length_append, List.length_cons]; omega
      have hdt : (if d = '@' then DotEnd.dotGlobal else DotEnd.dot) ≠ .none := by split_ifs <;> simp
      generalize hdte : (if d = '@' then DotEnd.dotGlobal else DotEnd.dot) = dt at hdt
      have hpvt := (hpv env s1 pairs (depth + 1) brace K (d :: tl) rest' henv hsrc ha2 hps (by omega) hK
        hr2).1 t ht hf
      have main : sim (match (generalizing := false) v with
          | .arr i t vs => do
            let p ← getPos
            let ix ← pv pairs p.line p.col (depth + 1) brace false
            indexWith (Arr.get ⟨i, t, vs⟩) ix p.line p.col
          | .tup i ts vs => do
            let p ← getPos
            let ix ← pv pairs p.line p.col (depth + 1) brace false
            indexWith (Tup.get ⟨i, ts, vs⟩) ix p.line p.col
          | .obj o => do
            let p ← getPos
            if dt = .dotGlobal then fail (.invalidValueChar '@' p.line p.col)
            else parseVariable pv k o.pairs p.line p.col (depth + 1) brace
          | v => fail (.invalidDot v.getType l c) : P Value)
          (match (generalizing := false) v with
          | .arr _ _ vs => do
            let i ← evalTerm fs env.file env.stack (loadN fs K) t pairs (depth + 1)
            evalIndex env.file .arrOutOfBounds vs i
          | .tup _ _ vs => do
            let i ← evalTerm fs env.file env.stack (loadN fs K) t pairs (depth + 1)
            evalIndex env.file .tupOutOfBounds vs i
          | .obj o =>
            if t.isNumber then .fail env.file .numberAfterDot
            else if t.isGlobal then .fail env.file .globalAfterDot
            else evalTerm fs env.file env.stack (loadN fs K) t o.pairs (depth + 1)
          | v => .fail env.file (.invalidDot v.getType) : EM Value) s1
          (fun v w s' => v = w ∧ s'.stream.rest = rest') := by
        cases v with
        | arr i ty vs =>
          refine sim_getPos (sim_bind hpvt ?_)
          rintro ix _ s3 ⟨rfl, ha3, -, hr3⟩
          refine sim_mono (indexWith_sim ha3 _ _ vs (arrGet_eq i ty vs) ix _ _) ?_
          rintro w _ s4 ⟨rfl, rfl⟩
          exact ⟨rfl, hr3⟩
        | tup i ty vs =>
          refine sim_getPos (sim_bind hpvt ?_)
          rintro ix _ s3 ⟨rfl, ha3, -, hr3⟩
          refine sim_mono (indexWith_sim ha3 _ _ vs (tupGet_eq i ty vs) ix _ _) ?_
          rintro w _ s4 ⟨rfl, rfl⟩
          exact ⟨rfl, hr3⟩
        | obj o =>
          have hgo : GoodPairs o.pairs := by
            cases o with | mk i ps par => exact (goodObj_mk.1 ((good_obj _).1 hgv)).1
          refine sim_getPos ?_
          rcases Term.afterDot_cases hd with hd | hd
          · obtain ⟨c', r', e1, -, -, e2, e3⟩ := ht.pathHead hd
            simp only [List.cons.injEq] at e1
            obtain ⟨rfl, rfl⟩ := e1
            simp only [e3, Bool.false_eq_true, if_false]
            by_cases hat : d = '@'
            · rw [if_pos hat] at hdte
              rw [if_pos hdte.symm, if_pos (e2.2 hat)]
              exact sim_fail ha2.file .globalAfterDot
            · rw [if_neg hat] at hdte
              subst hdte
              rw [if_neg (by simp), if_neg (fun h => hat (e2.1 h))]
              exact ih o.pairs _ _ (depth + 1) brace s1 t (d :: tl) hgo ⟨rfl, rfl⟩ ha2 hd ht hr2 (by omega) (by omega)
          · obtain ⟨c', r', e1, e2⟩ := ht.numberHead hd
            simp only [List.cons.injEq] at e1
            obtain ⟨rfl, rfl⟩ := e1
            have hat : d ≠ '@' := by rintro rfl; exact absurd e2 (by decide)
            rw [if_neg hat] at hdte
            subst hdte
            simp only [hd, if_true]
            rw [if_neg (by simp)]
            obtain ⟨k', rfl⟩ : ∃ k', k = k' + 1 := ⟨k - 1, by
              have : 0 < s1.stream.rest.length := by rw [hr2]; simp
              omega⟩
            exact parseVariable_number ha2 hgo (by rw [hr2]; rfl) e2 _ _ _ _ _
        | null => exact sim_fail ha2.file .invalidDot
        | bool _ => exact sim_fail ha2.file .invalidDot
        | int _ => exact sim_fail ha2.file .invalidDot
        | frac _ => exact sim_fail ha2.file .invalidDot
        | str _ => exact sim_fail ha2.file .invalidDot
      cases dt with
      | none => exact absurd rfl hdt
      | dot => exact main
      | dotGlobal => exact main
    | _ => simp [Term.isPath] at hp

end
end Over
