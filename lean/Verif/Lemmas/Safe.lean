import Verif.Lemmas.Ops

/-!
# Every parsing function is safe, stays inside the text and produces good values
-/

set_option linter.unusedSectionVars false

namespace Over

variable [Unicode]

/-! ## First characters of operands -/

/-- The first character of an operand. -/
def TermStart (c : Char) : Prop :=
  isUniWhitespace c = false ∧ c ≠ '#' ∧ isEndDelimiter c = false

theorem termStart_of_nameStart {c : Char} (h : NameStart c) : TermStart c := by
  have := h.cases
  refine ⟨?_, ?_, ?_⟩ <;> char_omega

theorem termStart_of_digit {c : Char} (h : isDigit c = true) : TermStart c := by
  refine ⟨?_, ?_, ?_⟩ <;> char_omega

theorem SpTerm.head {t : Term} {s : Str} (h : SpTerm t s) : ∃ c r, s = c :: r ∧ TermStart c ∧
    (t.afterDot = true ∨ c = '"' ∨ c = '{' ∨ c = '[' ∨ c = '(' ∨ c = '<' ∨ c = '+' ∨ c = '-') := by
  cases h with
  | str _ => exact ⟨_, _, rfl, ⟨by decide, by decide, by decide⟩, by simp⟩
  | int h =>
    obtain ⟨_, ⟨c, cs, rfl, hc⟩, _⟩ := h
    exact ⟨_, _, rfl, termStart_of_digit (decDigit_eq _ ▸ hc), .inl rfl⟩
  | frac h =>
    obtain ⟨w, sep, d, rfl, hs, _, _, hw, _⟩ := h
    rcases hw with rfl | ⟨c, cs, rfl, hc⟩
    · refine ⟨sep, d, rfl, ?_, .inl rfl⟩
      rcases hs with rfl | rfl <;> exact ⟨by decide, by decide, by decide⟩
    · exact ⟨c, cs ++ sep :: d, rfl, termStart_of_digit (decDigit_eq _ ▸ hc), .inl rfl⟩
  | name h =>
    obtain ⟨c, cs, rfl, hc, _⟩ := h
    refine ⟨c, cs, rfl, ?_, .inl rfl⟩
    rcases hc with hc | rfl
    · exact termStart_of_nameStart hc
    · exact ⟨by decide, by decide, by decide⟩
  | dot h _ _ =>
    obtain ⟨c, cs, rfl, hc, _⟩ := h
    refine ⟨c, _, rfl, ?_, .inl rfl⟩
    rcases hc with hc | rfl
    · exact termStart_of_nameStart hc
    · exact ⟨by decide, by decide, by decide⟩
  | neg _ => exact ⟨_, _, rfl, ⟨by decide, by decide, by decide⟩, by simp⟩
  | pos _ => exact ⟨_, _, rfl, ⟨by decide, by decide, by decide⟩, by simp⟩
  | arr _ => exact ⟨_, _, rfl, ⟨by decide, by decide, by decide⟩, by simp⟩
  | tup _ => exact ⟨_, _, rfl, ⟨by decide, by decide, by decide⟩, by simp⟩
  | obj _ => exact ⟨_, _, rfl, ⟨by decide, by decide, by decide⟩, by simp⟩
  | incl _ => exact ⟨_, _, rfl, ⟨by decide, by decide, by decide⟩, by simp⟩
  | inclAs _ => exact ⟨_, _, rfl, ⟨by decide, by decide, by decide⟩, by simp⟩

theorem SpTerm.ne_nil {t : Term} {s : Str} (h : SpTerm t s) : s ≠ [] := by
  obtain ⟨c, r, rfl, -⟩ := h.head; simp

theorem SpExpr.head {e : Expr} {s : Str} (h : SpExpr e s) : ∃ c r, s = c :: r ∧ TermStart c := by
  cases h with
  | mk h _ =>
    obtain ⟨c, r, rfl, hc, -⟩ := h.head
    exact ⟨c, _, rfl, hc⟩

theorem SpExpr.ne_nil {t : Expr} {s : Str} (h : SpExpr t s) : s ≠ [] := by
  obtain ⟨c, r, rfl, -⟩ := h.head; simp

theorem SpTarget.head {t : Target} {s : Str} (h : SpTarget t s) : ∃ c r, s = c :: r ∧ TermStart c := by
  cases h with
  | field h =>
    obtain ⟨c, cs, rfl, hc, -⟩ := h
    exact ⟨c, cs, rfl, termStart_of_nameStart hc⟩
  | global _ _ => exact ⟨_, _, rfl, by decide, by decide, by decide⟩
  | parent => exact ⟨_, _, rfl, by decide, by decide, by decide⟩

/-- What may follow a complete value: the end of the text, whitespace, a comment, or the closing
bracket of the enclosing container. -/
def ExprEnd (brace : Option Char) (rest : Str) : Prop :=
  rest = [] ∨ ∃ c r, rest = c :: r ∧
    (isUniWhitespace c = true ∨ c = '#' ∨ (isEndDelimiter c = true ∧ brace = some c))

theorem gap_head {g : Str} (h : Gap g) : g = [] ∨ StartsSeparated g := by
  cases h with
  | nil => exact .inl rfl
  | ws h _ => exact .inr ⟨_, _, rfl, .inl h⟩
  | comment _ _ => exact .inr ⟨_, _, rfl, .inr rfl⟩

theorem sep_of_end {brace : Option Char} {g : Str} (hg : Gap g) {c : Char} {r r' : Str} (hc : TermStart c)
    (h : ExprEnd brace (g ++ (c :: r) ++ r')) : StartsSeparated (g ++ c :: r) := by
  rcases gap_head hg with rfl | ⟨d, t, rfl, hd⟩
  · exfalso
    rcases h with h | ⟨d, t, h, h2⟩
    · simp at h
    · simp only [List.nil_append, List.cons_append, List.cons.injEq] at h
      obtain ⟨rfl, -⟩ := h
      obtain ⟨h3, h4, h5⟩ := hc
      rcases h2 with h2 | h2 | ⟨h2, -⟩
      · rw [h3] at h2; cases h2
      · exact h4 h2
      · rw [h5] at h2; cases h2
  · exact ⟨d, _, rfl, hd⟩

theorem SpItems.sep {eof : Bool} {es : List Expr} {r r' : Str} {brace : Option Char}
    (h : SpItems eof es r) (he : ExprEnd brace (r ++ r')) : es = [] ∨ StartsSeparated r := by
  cases h with
  | nil _ => exact .inl rfl
  | cons hg hs _ _ =>
    obtain ⟨c, t, rfl, hc⟩ := hs.head
    right
    have : StartsSeparated (_ ++ c :: (t ++ _)) := sep_of_end hg hc (by simpa using he)
    simpa using this

theorem SpFields.sep {eof : Bool} {es : List Field} {r r' : Str} {brace : Option Char}
    (h : SpFields eof es r) (he : ExprEnd brace (r ++ r')) : es = [] ∨ StartsSeparated r := by
  cases h with
  | nil _ => exact .inl rfl
  | cons hg ht _ hs _ _ =>
    obtain ⟨c, t, rfl, hc⟩ := ht.head
    right
    rw [List.cons_append]
    exact sep_of_end (r' := r') hg hc (by simpa using he)

/-! ## Operators -/

section
variable [PanicOk]
variable {fs : FS} {main : Option Str × Str} {env : Env}

omit [PanicOk] in
theorem lcr_append {t1 t2 t : Ty} {f : Bool} {l1 l2 : List Ty} (h1 : LeastCommonRefinement t1 l1)
    (h2 : LeastCommonRefinement t2 l2) (h : Ty.mostSpecific t1 t2 = some (t, f)) :
    LeastCommonRefinement t (l1 ++ l2) := by
  have hs := Ty.mostSpecific_spec t1 t2
  rw [h] at hs
  refine ⟨?_, ?_⟩
  · intro u hu
    rcases List.mem_append.1 hu with hu | hu
    · exact hs.1.trans (h1.1 u hu)
    · exact hs.2.1.trans (h2.1 u hu)
  · intro d hd
    exact hs.2.2.1 d (h1.2 d (fun u hu => hd u (by simp [hu]))) (h2.2 d (fun u hu => hd u (by simp [hu])))

/-- A good result of an operator. -/
def BinRes.Good : BinRes → Prop
  | .val v => Over.Good v
  | .newArr t vs => ∀ id, Over.Good (.arr id t vs)
  | _ => True

omit [PanicOk] in
theorem binSem_good {op : BinOp} {a b : Value} (h1 : Good a) (h2 : Good b) : (binSem op a b).Good := by
  have hd : ∀ x y, (divSem x y).Good := by
    intro x y
    by_cases h : y = 0 <;> simp [divSem, h, BinRes.Good, good_frac]
  cases op <;> cases a <;> cases b <;>
    first
    | exact good_int _
    | exact good_frac _
    | exact good_str _
    | exact hd _ _
    | exact True.intro
    | skip
  · rename_i i s xs j t ys
    simp only [binSem]
    cases hm : Ty.mostSpecific s t with
    | none => exact True.intro
    | some u =>
      obtain ⟨u, f⟩ := u
      intro id
      rw [good_arr] at *
      refine ⟨?_, ?_⟩
      · intro v hv
        rcases List.mem_append.1 hv with hv | hv
        · exact h1.1 v hv
        · exact h2.1 v hv
      · rw [List.map_append]
        exact lcr_append h1.2 h2.2 hm
  · rename_i x y
    simp only [binSem]
    by_cases h : y = 0
    · simp [h, BinRes.Good]
    · simp [h, BinRes.Good, good_int]

theorem binaryOp_spec (hsrc : Src fs main env.file env.full) {s : PState} (ha : At env s) {a b : Value}
    (h1 : Good a) (h2 : Good b) {op : BinOp} {l c : Nat} (hp : OperandAt env.full l c) :
    wp (binaryOp a b op l c) s (fun v s' => Good v ∧ Same s s') (ErrOk fs main) := by
  rw [binaryOp_eq]
  have := binSem_good (op := op) h1 h2
  cases h : binSem op a b with
  | val v => rw [h] at this; exact ⟨this, Same.refl _⟩
  | newArr t vs => rw [h] at this; exact ⟨this _, ⟨rfl, rfl, rfl⟩⟩
  | bad t1 t2 => exact err_of_kind hsrc ha (.binaryOperatorError hp)
  | divisionByZero => exact err_of_kind hsrc ha (.divisionByZero hp)

theorem unaryOp_spec (hsrc : Src fs main env.file env.full) {s : PState} (ha : At env s) {a : Value}
    {op : UnOp} {l c : Nat} (hp : OperandAt env.full l c) :
    wp (unaryOp a op l c) s (fun v s' => Good v ∧ Same s s') (ErrOk fs main) := by
  rw [unaryOp_eq]
  have he : ∀ t, ErrOk fs main ⟨s.stream.file, .unaryOperatorError t op l c⟩ :=
    fun t => err_of_kind hsrc ha (.unaryOperatorError hp)
  cases op <;> cases a <;> first
    | exact ⟨good_int _, Same.refl _⟩ | exact ⟨good_frac _, Same.refl _⟩ | exact he _

theorem checkValueEnd_spec (hsrc : Src fs main env.file env.full) {s : PState} (ha : At env s)
    {brace : Option Char} :
    wp (checkValueEnd brace) s (fun _ s' => s' = s ∧ (s.stream.rest = [] ∨ ∃ c r, s.stream.rest = c :: r ∧
      isValueEndChar c = true ∧ (isEndDelimiter c = true → brace = some c))) (ErrOk fs main) := by
  unfold checkValueEnd
  rw [wp_bind, wp_peekP]
  cases hr : s.stream.rest with
  | nil => exact ⟨rfl, .inl rfl⟩
  | cons ch r =>
    simp only [List.head?_cons, wp_bind, wp_getPos]
    have hh := ha.here
    rw [hr] at hh
    by_cases h1 : isValueEndChar ch = true
    · simp only [h1, if_true]
      by_cases h2 : (isEndDelimiter ch && !(some ch == brace)) = true
      · simp only [h2, if_true]
        exact err_of_kind hsrc ha (.invalidClosingBracket hh.charAt)
      · simp only [h2]
        refine ⟨rfl, .inr ⟨ch, r, rfl, h1, fun h3 => ?_⟩⟩
        simp only [h3, Bool.true_and, Bool.not_eq_true', Bool.not_eq_false] at h2
        exact (beq_iff_eq.1 h2).symm
    · simp only [h1]
      exact err_of_kind hsrc ha (.invalidValueChar hh.charAt)

/-! ## Literals and names -/

theorem parseNumeric_spec (hsrc : Src fs main env.file env.full) {s : PState} (ha : At env s)
    {c : Char} {r : Str} (hr : s.stream.rest = c :: r) (hc : isNumericChar c = true) {l k : Nat}
    (hp : CharAt env.full c l k) :
    wp (parseNumeric l k) s (fun v s' => At env s' ∧ Good v ∧
      ∃ t txt, s.stream.rest = txt ++ s'.stream.rest ∧ SpTerm t txt) (ErrOk fs main) := by
  unfold parseNumeric
  rw [wp_bind]
  apply wp_liftLex
  refine Lex.post_mono (numGo_spec env.full _ _ [] [] false false ha.here) ?_
    (fun kd hk => err_of_kind hsrc ha hk)
  rintro ⟨s1, s2, dec⟩ rest' p' ⟨txt, h1, h2, h3, h4⟩
  have hh := ha.here
  rw [h1] at hh
  have hat := ha.move (h2 ▸ hh.advs)
  simp only [Bool.false_eq_true, if_false, List.nil_append, Prod.mk.injEq] at h4
  have htx : txt ≠ [] := by
    rintro rfl
    rw [hr] at h1
    simp only [List.nil_append] at h1
    subst h1
    rcases h3 with h3 | ⟨d, t, h3, h5⟩
    · simp at h3
    · simp only [List.cons.injEq] at h3
      obtain ⟨rfl, -⟩ := h3
      rw [numericChar_iff] at hc
      rcases hc with hc | rfl | rfl
      · rw [(digit_facts hc).1] at h5; cases h5
      · exact absurd h5 (by decide)
      · exact absurd h5 (by decide)
  have hhd : ∃ tl, txt = c :: tl := by
    cases txt with
    | nil => exact absurd rfl htx
    | cons d t =>
      rw [hr] at h1
      simp only [List.cons_append, List.cons.injEq] at h1
      exact ⟨t, by rw [h1.1]⟩
  rcases h4 with ⟨⟨rfl, rfl, rfl⟩, h5⟩ | ⟨w, sep, d, h5, h6, h7, h8, rfl, rfl, rfl⟩
  · simp only
    rw [numFinish_int (digitsOf_digits txt)]
    by_cases he : digitsOf txt = []
    · simp only [he, if_true]
      exact err_of_kind hsrc hat (.invalidNumeric hp (by rw [decDigit_eq]; exact (numericChar_iff c).1 hc))
    · simp only [he, if_false]
      refine ⟨hat, good_int _, .int (decimalValue (digitsOf txt)), txt, h1, .int ⟨(runFrom_false _).1 h5, ?_, rfl⟩⟩
      obtain ⟨tl, rfl⟩ := hhd
      refine ⟨c, tl, rfl, ?_⟩
      rw [decDigit_eq]
      rcases h5.1 c (by simp) with h | rfl
      · exact h
      · rw [numericChar_iff] at hc
        rcases hc with hc | hc | hc
        · exact hc
        · exact absurd hc (by decide)
        · exact absurd hc (by decide)
  · simp only
    rw [numFinish_frac (digitsOf_digits w) (digitsOf_digits d)]
    by_cases he : digitsOf w = [] ∧ digitsOf d = []
    · simp only [he, and_self, if_true]
      exact err_of_kind hsrc hat (.invalidNumeric hp (by rw [decDigit_eq]; exact (numericChar_iff c).1 hc))
    · simp only [he, if_false]
      refine ⟨hat, good_frac _, .frac _, txt, h1, .frac ⟨w, sep, d, h5, h6, (runFrom_false _).1 h7, (runFrom_false _).1 h8, ?_, ?_, rfl⟩⟩
      · cases w with
        | nil => exact .inl rfl
        | cons e w =>
          right
          obtain ⟨tl, rfl⟩ := hhd
          simp only [List.cons_append, List.cons.injEq] at h5
          refine ⟨e, w, rfl, ?_⟩
          rw [decDigit_eq]
          rcases h7.1 e (by simp) with h | rfl
          · exact h
          · rw [h5.1, numericChar_iff] at hc
            rcases hc with hc | hc | hc
            · exact absurd hc (by decide)
            · exact absurd hc (by decide)
            · exact absurd hc (by decide)
      · by_cases hw : digitsOf w = []
        · right; intro hd; exact he ⟨hw, hd⟩
        · exact .inl hw

theorem parseStr_spec (hsrc : Src fs main env.file env.full) {s : PState} (ha : At env s)
    {r : Str} (hr : s.stream.rest = '"' :: r) :
    wp parseStr s (fun v s' => At env s' ∧ Good v ∧
      ∃ t txt, s.stream.rest = txt ++ s'.stream.rest ∧ SpTerm t txt) (ErrOk fs main) := by
  unfold parseStr
  rw [wp_bind]
  apply wp_liftLex
  rw [hr]
  have hh := ha.here
  rw [hr] at hh
  refine Lex.post_mono (lexStr_spec env.full r _ hh) ?_ (fun kd hk => err_of_kind hsrc ha hk)
  rintro x rest' p' ⟨b, h1, h2, h3⟩
  rw [h2] at hh
  exact ⟨ha.move (h3 ▸ hh.advs), good_str _, .str x, _, h2, .str h1⟩

theorem forceSentinel_spec {s : PState} {k : IncKind} {E : ParseError → Prop} :
    wp (forceSentinel k) s (fun _ s' => Same s s') E := by
  cases k <;> simp only [wp, forceSentinel]
  · cases s.rt.objS <;> exact ⟨rfl, rfl, rfl⟩
  · cases s.rt.strS <;> exact ⟨rfl, rfl, rfl⟩
  · cases s.rt.arrS <;> exact ⟨rfl, rfl, rfl⟩
  · cases s.rt.tupS <;> exact ⟨rfl, rfl, rfl⟩

theorem sentinelObj_spec {s : PState} {k : IncKind} {E : ParseError → Prop} {C : Prop} (hC : C) :
    wp (do let i ← forceSentinel k; pure (.obj (Obj.empty i)) : P Value) s
      (fun v s' => Good v ∧ Same s s' ∧ C) E := by
  rw [wp_bind]
  refine wp_mono forceSentinel_spec ?_ (fun _ h => h)
  intro i s' h
  exact ⟨(good_obj _).2 (goodObj_empty i), h, hC⟩

/-- A name that can be looked up successfully. -/
def Lookable (x : Str) (isGlobal : Bool) : Prop :=
  (isGlobal = false → FieldName x ∨ x ∈ reservedWords.tail) ∧ x ≠ c!"@"

theorem lookupVar_spec (hsrc : Src fs main env.file env.full) {s : PState} (ha : At env s)
    {pairs : List Pair} (hps : GoodPairs pairs) {x : Str} {g : Bool} {l k : Nat}
    (hp : WordAt env.full x l k) :
    wp (lookupVar pairs x g l k) s (fun v s' => Good v ∧ Same s s' ∧ Lookable x g) (ErrOk fs main) := by
  unfold lookupVar
  have hk : ∀ y, y ∈ reservedWords.tail → Lookable y g := by
    intro y hy
    refine ⟨fun _ => .inr hy, ?_⟩
    rintro rfl
    simp [reservedWords] at hy
  by_cases h1 : x = c!"null"
  · subst h1; exact ⟨good_null, Same.refl _, hk _ (by simp [reservedWords])⟩
  rw [if_neg (by simpa using h1)]
  by_cases h2 : x = c!"true"
  · subst h2; exact ⟨good_bool _, Same.refl _, hk _ (by simp [reservedWords])⟩
  rw [if_neg (by simpa using h2)]
  by_cases h3 : x = c!"false"
  · subst h3; exact ⟨good_bool _, Same.refl _, hk _ (by simp [reservedWords])⟩
  rw [if_neg (by simpa using h3)]
  by_cases h4 : x = c!"Obj"
  · subst h4; exact sentinelObj_spec (hk _ (by simp [reservedWords]))
  rw [if_neg (by simpa using h4)]
  by_cases h5 : x = c!"Str"
  · subst h5; exact sentinelObj_spec (hk _ (by simp [reservedWords]))
  rw [if_neg (by simpa using h5)]
  by_cases h6 : x = c!"Arr"
  · subst h6; exact sentinelObj_spec (hk _ (by simp [reservedWords]))
  rw [if_neg (by simpa using h6)]
  by_cases h7 : x = c!"Tup"
  · subst h7; exact sentinelObj_spec (hk _ (by simp [reservedWords]))
  rw [if_neg (by simpa using h7)]
  by_cases h8 : x = c!"@"
  · rw [if_pos (by simpa using h8)]
    exact err_of_kind hsrc ha (.invalidValue hp)
  rw [if_neg (by simpa using h8)]
  cases g with
  | true =>
    rw [if_pos rfl]
    simp only [wp, lookupGlobal]
    cases hg : StrMap.get s.globals x with
    | some v => exact ⟨ha.globals _ (StrMap.get_mem hg), Same.refl _, by simp, h8⟩
    | none => exact err_of_kind hsrc ha (.globalNotFound hp)
  | false =>
    rw [if_neg (by simp)]
    cases hf : findPair pairs x with
    | some p =>
      obtain ⟨h9, rfl⟩ := findPair_mem hf
      exact ⟨(hps.1 p h9).2, Same.refl _, fun _ => .inl (hps.1 p h9).1, h8⟩
    | none => exact err_of_kind hsrc ha (.variableNotFound hp)

theorem indexWith_spec (hsrc : Src fs main env.file env.full) {s : PState} (ha : At env s)
    {get : Nat → Option (Except OverError Value)}
    (hg : ∀ i, ∃ r, get i = some r ∧ ∀ v, r = .ok v → Good v) {v : Value} {l k : Nat}
    (hp : OperandAt env.full l k) :
    wp (indexWith get v l k) s (fun v s' => Good v ∧ s' = s) (ErrOk fs main) := by
  unfold indexWith
  split
  · split
    · rename_i index _
      obtain ⟨r, h1, h2⟩ := hg index
      rw [h1]
      cases r with
      | ok v => exact ⟨h2 v rfl, rfl⟩
      | error e => exact err_of_kind hsrc ha (.overError hp)
    · exact err_of_kind hsrc ha (.invalidIndex hp)
  · exact err_of_kind hsrc ha (.expectedType hp)

omit [PanicOk] in
theorem arrGet_total (i : Nat) (t : Ty) (vs : List Value) (h : ∀ v ∈ vs, Good v) (k : Nat) :
    ∃ r, Arr.get ⟨i, t, vs⟩ k = some r ∧ ∀ v, r = .ok v → Good v := by
  unfold Arr.get
  by_cases hk : k ≥ vs.length
  · exact ⟨_, if_pos hk, by simp⟩
  · have hk' : k < vs.length := by omega
    simp only [hk, if_false, List.getElem?_eq_getElem hk']
    refine ⟨_, rfl, ?_⟩
    intro v hv; cases hv; exact h _ (List.getElem_mem hk')

omit [PanicOk] in
theorem tupGet_total (i : Nat) (t : List Ty) (vs : List Value) (h : ∀ v ∈ vs, Good v) (k : Nat) :
    ∃ r, Tup.get ⟨i, t, vs⟩ k = some r ∧ ∀ v, r = .ok v → Good v := by
  unfold Tup.get
  by_cases hk : k ≥ vs.length
  · exact ⟨_, if_pos hk, by simp⟩
  · have hk' : k < vs.length := by omega
    simp only [hk, if_false, List.getElem?_eq_getElem hk']
    refine ⟨_, rfl, ?_⟩
    intro v hv; cases hv; exact h _ (List.getElem_mem hk')

end
end Over
