import Verif.Lemmas.Continue
import Verif.Spec.Concrete

/-!
# C31, C50: number and string literals

As for operators, the statements start from a text that was read as an object `o` and append one more definition.
`IntLit`, `FracLit` and `StrBody` are in `Spec/Syntax.lean`.
-/

namespace Over

section
variable [Unicode]

/-- A definition whose value is a literal. -/
theorem literal_reads (fs : FS) (rt : Rt) (text : Str) (o : Obj) (s : PState) (h : fromStr fs text rt = .ok o s)
    (y : Str) (hy : FieldName y) (hn : NotNamed o.pairs y) (t : Term) (e : Str) (v : Value) (ht : SpTerm t e)
    (hv : ∀ load st, evalTerm fs none [] load t o.pairs 1 st = .ok (v, st)) :
    ∃ o' s', fromStr fs (text ++ c!"\n" ++ y ++ c!":" ++ e) rt = .ok o' s' ∧
      o'.pairs = o.pairs ++ [.mk y v] ∧ o'.parent = o.parent := by
  obtain ⟨d, st, -, -, -, -, hc⟩ := continue_field fs rt text o s h
  have hm := hc y _ _ hy (SpExpr.mk ht .nil)
  have he : evalExpr fs none [] (theLoader fs) (.mk t []) o.pairs 1 st = .ok (v, st) := by
    simp only [evalExpr]
    rw [EM.bind_ok (hv _ st)]
    rfl
  rw [if_neg (notNamed_mem hn), he, List.append_nil] at hm
  obtain ⟨s', h4, -⟩ := hm.of_ok
  exact ⟨_, s', h4, rfl, rfl⟩

/-- C31: an integer literal denotes the number its digits spell in base ten. -/
theorem c31_integer (fs : FS) (rt : Rt) (text : Str) (o : Obj) (s : PState) (h : fromStr fs text rt = .ok o s)
    (y : Str) (hy : FieldName y) (hn : NotNamed o.pairs y) (n : Nat) (lit : Str) (hl : IntLit n lit) :
    ∃ o' s', fromStr fs (text ++ c!"\n" ++ y ++ c!":" ++ lit) rt = .ok o' s' ∧
      o'.pairs = o.pairs ++ [.mk y (.int n)] ∧ o'.parent = o.parent :=
  literal_reads fs rt text o s h y hy hn (.int n) lit _ (.int hl) (fun _ _ => rfl)

/-- C31: a decimal literal denotes the rational it spells: whole part plus decimals over a power of ten. -/
theorem c31_decimal (fs : FS) (rt : Rt) (text : Str) (o : Obj) (s : PState) (h : fromStr fs text rt = .ok o s)
    (y : Str) (hy : FieldName y) (hn : NotNamed o.pairs y) (q : Rat) (lit : Str) (hl : FracLit q lit) :
    ∃ o' s', fromStr fs (text ++ c!"\n" ++ y ++ c!":" ++ lit) rt = .ok o' s' ∧
      o'.pairs = o.pairs ++ [.mk y (.frac q)] ∧ o'.parent = o.parent :=
  literal_reads fs rt text o s h y hy hn (.frac q) lit _ (.frac hl) (fun _ _ => rfl)

/-- C50: a string literal denotes its contents with the escapes replaced. -/
theorem c50_string (fs : FS) (rt : Rt) (text : Str) (o : Obj) (s : PState) (h : fromStr fs text rt = .ok o s)
    (y : Str) (hy : FieldName y) (hn : NotNamed o.pairs y) (x b : Str) (hl : StrBody x b) :
    ∃ o' s', fromStr fs (text ++ c!"\n" ++ y ++ c!":" ++ ('"' :: (b ++ ['"']))) rt = .ok o' s' ∧
      o'.pairs = o.pairs ++ [.mk y (.str x)] ∧ o'.parent = o.parent :=
  literal_reads fs rt text o s h y hy hn (.str x) _ _ (.str hl) (fun _ _ => rfl)

/-! ## What the digits spell -/

omit [Unicode] in
theorem digitsOf_append (s t : Str) : digitsOf (s ++ t) = digitsOf s ++ digitsOf t := by simp [digitsOf]

omit [Unicode] in
theorem decimalValue_zero_cons (s : Str) : decimalValue ('0' :: s) = decimalValue s := by
  induction s using List.reverseRecOn with
  | nil => rfl
  | append_singleton s c ih => rw [← List.cons_append, decimalValue_snoc, ih, decimalValue_snoc]

omit [Unicode] in
theorem isDigit_zero : isDigit '0' = true := by decide

omit [Unicode] in
theorem decDigit_zero : decDigit '0' = true := by decide

omit [Unicode] in
theorem digitRun_zero_cons {s : Str} (h : DigitRun s) : DigitRun ('0' :: s) := by
  refine ⟨?_, ?_⟩
  · intro c hc
    rcases List.mem_cons.1 hc with rfl | hc
    · exact .inl decDigit_zero
    · exact h.1 c hc
  · intro hi
    rcases List.infix_cons_iff.1 hi with hi | hi
    · obtain ⟨t, ht⟩ := hi
      simp at ht
    · exact h.2 hi

omit [Unicode] in
theorem digitRun_zero_snoc {s : Str} (h : DigitRun s) : DigitRun (s ++ ['0']) := by
  refine ⟨?_, ?_⟩
  · intro c hc
    rcases List.mem_append.1 hc with hc | hc
    · exact h.1 c hc
    · rw [List.mem_singleton.1 hc]
      exact .inl decDigit_zero
  · rintro ⟨a, b, hab⟩
    rcases b.eq_nil_or_concat with rfl | ⟨b', z, rfl⟩
    · rw [List.append_nil] at hab
      have := congrArg List.getLast? hab
      simp at this
    · rw [List.concat_eq_append, ← List.append_assoc] at hab
      have := List.append_inj' hab rfl
      exact h.2 ⟨a, b', this.1⟩

omit [Unicode] in
/-- C31: a leading zero does not change an integer literal. -/
theorem c31_integer_leading_zero (n : Nat) (lit : Str) (h : IntLit n lit) : IntLit n ('0' :: lit) := by
  obtain ⟨h1, h2, rfl⟩ := h
  refine ⟨digitRun_zero_cons h1, ⟨'0', lit, rfl, decDigit_zero⟩, ?_⟩
  rw [digitsOf_cons_digit isDigit_zero, decimalValue_zero_cons]

omit [Unicode] in
/-- C31: neither leading nor trailing zeros change a decimal literal. -/
theorem c31_decimal_zeros (q : Rat) (lit : Str) (h : FracLit q lit) :
    FracLit q ('0' :: lit) ∧ FracLit q (lit ++ ['0']) := by
  obtain ⟨w, sep, d, rfl, hs, hw, hd, hw1, hne, rfl⟩ := h
  refine ⟨⟨'0' :: w, sep, d, rfl, hs, digitRun_zero_cons hw, hd, .inr ⟨'0', w, rfl, decDigit_zero⟩, .inl ?_, ?_⟩,
    ⟨w, sep, d ++ ['0'], by simp, hs, hw, digitRun_zero_snoc hd, hw1, .inr ?_, ?_⟩⟩
  · rw [digitsOf_cons_digit isDigit_zero]; simp
  · rw [digitsOf_cons_digit isDigit_zero, decimalValue_zero_cons]
  · rw [digitsOf_append]; simp [digitsOf, decDigit_zero]
  · have e0 : digitsOf ['0'] = ['0'] := by decide
    rw [digitsOf_append, e0, decimalValue_snoc]
    have : (10 : Rat) ^ (digitsOf d).length ≠ 0 := pow_ne_zero _ (by decide)
    simp only [List.length_append, List.length_singleton, pow_succ]
    simp
    field_simp

omit [Unicode] in
theorem digitsOf_noUnder (s : Str) : digitsOf (s.filter (· != '_')) = digitsOf s := by
  unfold digitsOf
  rw [List.filter_filter]
  apply List.filter_congr
  intro c _
  by_cases h : c = '_'
  · subst h; decide
  · simp [h]

omit [Unicode] in
theorem digitRun_noUnder {s : Str} (h : DigitRun s) : DigitRun (s.filter (· != '_')) := by
  refine ⟨fun c hc => h.1 c (List.mem_filter.1 hc).1, ?_⟩
  intro hi
  have : '_' ∈ s.filter (· != '_') := hi.subset (by simp)
  simpa using (List.mem_filter.1 this).2

omit [Unicode] in
theorem startsDigit_noUnder {s : Str} (h : ∃ c cs, s = c :: cs ∧ decDigit c = true) :
    ∃ c cs, s.filter (· != '_') = c :: cs ∧ decDigit c = true := by
  obtain ⟨c, cs, rfl, hc⟩ := h
  refine ⟨c, cs.filter (· != '_'), ?_, hc⟩
  rw [List.filter_cons, if_pos]
  have : c ≠ '_' := by rintro rfl; exact absurd hc (by decide)
  simpa using this

omit [Unicode] in
/-- C31: removing the underscores does not change a literal. -/
theorem c31_underscores (lit : Str) : (∀ n, IntLit n lit → IntLit n (lit.filter (· != '_'))) ∧
    ∀ q, FracLit q lit → FracLit q (lit.filter (· != '_')) := by
  refine ⟨?_, ?_⟩
  · rintro n ⟨h1, h2, rfl⟩
    exact ⟨digitRun_noUnder h1, startsDigit_noUnder h2, by rw [digitsOf_noUnder]⟩
  · rintro q ⟨w, sep, d, rfl, hs, hw, hd, hw1, hne, rfl⟩
    have hsep : (sep != '_') = true := by rcases hs with rfl | rfl <;> decide
    refine ⟨w.filter (· != '_'), sep, d.filter (· != '_'), ?_, hs, digitRun_noUnder hw, digitRun_noUnder hd, ?_, ?_, ?_⟩
    · rw [List.filter_append, List.filter_cons, if_pos hsep]
    · rcases hw1 with rfl | h
      · exact .inl rfl
      · exact .inr (startsDigit_noUnder h)
    · rwa [digitsOf_noUnder, digitsOf_noUnder]
    · rw [digitsOf_noUnder, digitsOf_noUnder]

omit [Unicode] in
/-- C31: a text is at most one literal, with one value. -/
theorem c31_one_value (lit : Str) : (∀ n m, IntLit n lit → IntLit m lit → n = m) ∧
    (∀ q r, FracLit q lit → FracLit r lit → q = r) ∧ ∀ n q, IntLit n lit → ¬ FracLit q lit := by
  have split : ∀ (w w' d d' : Str) (sep sep' : Char), (sep = '.' ∨ sep = ',') → (sep' = '.' ∨ sep' = ',') →
      DigitRun w → DigitRun w' → w ++ sep :: d = w' ++ sep' :: d' → w = w' ∧ d = d' := by
    intro w
    induction w with
    | nil =>
      intro w' d d' sep sep' hs hs' _ hw' he
      cases w' with
      | nil => simp at he; exact ⟨rfl, he.2⟩
      | cons c w' =>
        simp at he
        have := hw'.1 c (by simp)
        rcases hs with rfl | rfl <;> rw [← he.1] at this <;> exact absurd this (by decide)
    | cons a w ih =>
      intro w' d d' sep sep' hs hs' hw hw' he
      cases w' with
      | nil =>
        simp at he
        have := hw.1 a (by simp)
        rcases hs' with rfl | rfl <;> rw [he.1] at this <;> exact absurd this (by decide)
      | cons c w' =>
        simp at he
        have cut : ∀ {x : Char} {l : Str}, DigitRun (x :: l) → DigitRun l := fun h =>
          ⟨fun c hc => h.1 c (by simp [hc]), fun hi => h.2 (List.infix_cons_iff.2 (.inr hi))⟩
        obtain ⟨rfl, rfl⟩ := ih w' d d' sep sep' hs hs' (cut hw) (cut hw') he.2
        exact ⟨by rw [he.1], rfl⟩
  refine ⟨?_, ?_, ?_⟩
  · rintro n m ⟨-, -, rfl⟩ ⟨-, -, rfl⟩; rfl
  · rintro q r ⟨w, sep, d, rfl, hs, hw, -, -, -, rfl⟩ ⟨w', sep', d', he, hs', hw', -, -, -, rfl⟩
    obtain ⟨rfl, rfl⟩ := split _ _ _ _ _ _ hs hs' hw hw' he
    rfl
  · rintro n q ⟨h1, -, -⟩ ⟨w, sep, d, rfl, hs, -⟩
    have := h1.1 sep (by simp)
    rcases hs with rfl | rfl <;> exact absurd this (by decide)

/-! ## Nothing else is a number -/

/-- The text of a target contains no colon, gap or comment. -/
theorem target_char {tg : Target} {n : Str} (h : SpTarget tg n) :
    ∀ c ∈ n, c ≠ ':' ∧ isUniWhitespace c = false ∧ c ≠ '#' := by
  have one : ∀ c, (NameChar c ∨ c = '^' ∨ c = '@') → c ≠ ':' ∧ isUniWhitespace c = false ∧ c ≠ '#' := by
    intro c hc
    rcases hc with hc | rfl | rfl
    · have := hc.cases
      refine ⟨?_, ?_, ?_⟩ <;> char_omega
    · decide
    · decide
  intro c hc
  apply one
  cases h with
  | field h =>
    obtain ⟨c', cs, rfl, h1, h2, -⟩ := h
    rcases List.mem_cons.1 hc with rfl | hc
    · exact .inl h1.nameChar
    · exact .inl (h2 c hc)
  | global h1 h2 =>
    rcases List.mem_cons.1 hc with rfl | hc
    · exact .inr (.inr rfl)
    rcases List.mem_cons.1 hc with rfl | hc
    · rcases h1 with h1 | h1
      · exact .inl h1.nameChar
      · exact .inr (.inl h1)
    · exact .inl (h2 c hc)
  | parent => exact .inr (.inl (List.mem_singleton.1 hc))

/-- A text that starts with a target, a colon and a value. -/
theorem first_field {tg : Target} {n : Str} (hn : SpTarget tg n) {c : Char} {e : Str} (hc : isUniWhitespace c = false)
    (hc' : c ≠ '#') {d : List Field} (h : SpDoc d (n ++ ':' :: c :: e)) :
    ∃ ex fds s r, d = .mk tg ex :: fds ∧ SpExpr ex s ∧ SpDoc fds r ∧ (fds = [] ∨ StartsSeparated r) ∧
      c :: e = s ++ r := by
  have hnc := target_char hn
  have hne : ∃ c0 n', n = c0 :: n' ∧ isUniWhitespace c0 = false ∧ c0 ≠ '#' := by
    cases n with
    | nil =>
      cases hn with
      | field h => obtain ⟨c', cs, h0, -⟩ := h; cases h0
    | cons a b => exact ⟨a, b, rfl, (hnc a (by simp)).2⟩
  obtain ⟨c0, n', hn0, hw0, hs0⟩ := hne
  have nosep : ¬ StartsSeparated (n ++ ':' :: c :: e) := by
    rintro ⟨x, r, hx, hx'⟩
    rw [hn0] at hx
    cases hx
    rcases hx' with hx' | hx'
    · rw [hw0] at hx'; cases hx'
    · exact hs0 hx'
  generalize ht : n ++ ':' :: c :: e = txt at h nosep
  cases h with
  | nil h =>
    have : StartsSeparated txt := by
      obtain h1 | ⟨h1, h2⟩ := h
      · rcases gap_head h1 with h1 | h1
        · subst h1; simp at ht
        · exact h1
      · exact gap_starts h1 ⟨_, _, rfl, .inr rfl⟩
    exact absurd this nosep
  | @cons _ g n2 g' s r tg' ex fds h1 h2 h3 h4 h5 h6 =>
    have hg : g = [] := by
      rcases gap_head h1 with h | h
      · exact h
      · obtain ⟨x, r', rfl, hx⟩ := h
        exact absurd ⟨x, _, rfl, hx⟩ nosep
    subst hg
    obtain ⟨rfl, rfl, he⟩ := target_unique hn h2 ht
    have hg' : g' = [] := by
      rcases gap_head h3 with h | h
      · exact h
      · obtain ⟨x, r', rfl, hx⟩ := h
        cases he
        rcases hx with hx | hx
        · rw [hc] at hx; cases hx
        · exact absurd hx hc'
    subst hg'
    exact ⟨ex, fds, s, r, rfl, h4, h5, h6, he⟩

/-- A numeral-like word: digits, underscores and decimal separators, not starting with an underscore. -/
def NumberLike (e : Str) : Prop :=
  e.head? ≠ some '_' ∧ ∀ c ∈ e, decDigit c = true ∨ c = '_' ∨ c = '.' ∨ c = ','

omit [Unicode] in
theorem numberLike_char {c : Char} (h : decDigit c = true ∨ c = '_' ∨ c = '.' ∨ c = ',') :
    isUniWhitespace c = false ∧ c ≠ '#' ∧ isOpChar c = false := by
  rcases h with h | rfl | rfl | rfl
  · refine ⟨?_, ?_, ?_⟩ <;> char_omega
  · decide
  · decide
  · decide

/-- C31: of the texts made of digits, underscores and decimal separators, exactly the number literals can be the
value of a field. -/
theorem c31_nothing_else (fs : FS) (rt : Rt) (y : Str) (hy : FieldName y) (e : Str) (hne : e ≠ [])
    (he : NumberLike e) (o : Obj) (s : PState) (h : fromStr fs (y ++ c!":" ++ e) rt = .ok o s) :
    (∃ n, IntLit n e ∧ o.pairs = [.mk y (.int n)]) ∨ ∃ q, FracLit q e ∧ o.pairs = [.mk y (.frac q)] := by
  obtain ⟨d, st, hd, hm, -⟩ := c45_from_str_accepts fs _ rt o s h
  obtain ⟨c, e, rfl⟩ := List.exists_cons_of_ne_nil hne
  have hall := fun x hx => numberLike_char (he.2 x hx)
  have hd' : SpDoc d (y ++ ':' :: c :: e) := by simpa using hd
  obtain ⟨ex, fds, s1, r, rfl, h1, h2, h3, h4⟩ :=
    first_field (.field hy) (hall c (by simp)).1 (hall c (by simp)).2.1 hd'
  have nosep : ¬ StartsSeparated r := by
    rintro ⟨x, r', rfl, hx⟩
    have := hall x (by rw [h4]; simp)
    rcases hx with hx | hx
    · rw [this.1] at hx; cases hx
    · exact this.2.1 hx
  have hf : fds = [] := h3.resolve_right nosep
  subst hf
  have hr : r = [] := by
    cases h2 with
    | nil h =>
      obtain h | ⟨h, h'⟩ := h
      · exact (gap_head h).resolve_right nosep
      · exact absurd (gap_starts h ⟨_, _, rfl, .inr rfl⟩) nosep
  subst hr
  rw [List.append_nil] at h4
  cases h1 with
  | @mk t rest u v ht ho =>
    have hv : rest = [] ∧ v = [] := by
      cases ho with
      | nil => exact ⟨rfl, rfl⟩
      | @cons op _ _ _ _ _ _ =>
        have := (hall (opChar op) (by rw [h4]; simp)).2.2
        cases op <;> exact absurd this (by decide)
    obtain ⟨rfl, rfl⟩ := hv
    rw [List.append_nil] at h4
    subst h4
    have noname : ∀ {x : Str}, VarName x → ∀ w, x ++ w = c :: e → False := by
      rintro x ⟨c', cs, rfl, hc', -⟩ w hw
      cases hw
      have h7 := he.2 c (by simp)
      have h8 : c ≠ '_' := fun h => he.1 (by simp [h])
      rcases hc' with hc' | rfl
      · have := hc'.cases
        rcases h7 with h7 | rfl | rfl | rfl
        · char_omega
        · exact h8 rfl
        · char_omega
        · char_omega
      · exact absurd h7 (by decide)
    have hc := he.2 c (by simp)
    have val : ∀ v, (∀ st, evalTerm fs none [] (theLoader fs) t [] 1 st = .ok (v, st)) → o.pairs = [.mk y v] := by
      intro v hv
      simp only [meaning, evalDoc, evalFields, checkNew, List.map_nil, List.not_mem_nil, if_false] at hm
      have e1 : evalExpr fs none [] (theLoader fs) (.mk t []) [] 1 ⟨[], [], rt⟩ = .ok (v, ⟨[], [], rt⟩) := by
        simp only [evalExpr]
        rw [EM.bind_ok (hv _)]
        rfl
      have e2 := EM.bind_ok (a := ()) (st := (⟨[], [], rt⟩ : ESt)) (st' := ⟨[], [], rt⟩)
        (f := fun _ => (do
          let v ← evalExpr fs none [] (theLoader fs) (.mk t []) [] 1
          pure (([] : List Pair) ++ [Pair.mk y v], (none : Option Obj)))) (m := pure ()) rfl
      rw [EM.bind_ok e1] at e2
      rw [EM.bind_ok (a := ([.mk y v], none)) (st' := ⟨[], [], rt⟩) e2] at hm
      cases hm
      rfl
    generalize hx : c :: e = x at ht noname
    cases ht with
    | int h => exact .inl ⟨_, hx ▸ h, val _ (fun _ => rfl)⟩
    | frac h => exact .inr ⟨_, hx ▸ h, val _ (fun _ => rfl)⟩
    | name h => exact (noname h [] (by simp)).elim
    | dot h _ _ => exact (noname h _ rfl).elim
    | _ => cases hx; exact absurd hc (by decide)

/-! ## String literals that are not closed, or have an unknown escape -/

omit [Unicode] in
theorem strBody_prefix {x b x' b' tail : Str} (h : StrBody x b) (h' : StrBody x' b') {z : Str}
    (he : b' ++ '"' :: tail = b ++ z) :
    ∃ x'' b'', StrBody x'' b'' ∧ b'' ++ '"' :: tail = z := by
  induction h generalizing x' b' with
  | nil => exact ⟨x', b', h', he⟩
  | raw h1 h2 _ ih =>
    cases h' with
    | nil => simp at he; exact absurd he.1.symm h1
    | raw _ _ h3 => simp at he; exact ih h3 he.2
    | esc _ h3 => simp at he; exact absurd he.1.symm h2
  | esc h1 _ ih =>
    cases h' with
    | nil => simp at he
    | raw _ h2 h3 => simp at he; exact absurd he.1 h2
    | esc _ h3 => simp at he; exact ih h3 he.2

/-- A definition whose value starts with a quote. -/
theorem first_string {y : Str} (hy : FieldName y) {d : List Field} {e : Str} (h : SpDoc d (y ++ ':' :: '"' :: e)) :
    ∃ x b tail, StrBody x b ∧ b ++ '"' :: tail = e := by
  obtain ⟨ex, fds, s, r, rfl, h1, -, -, h4⟩ := first_field (.field hy) (by decide) (by decide) h
  cases h1 with
  | @mk t rest u v ht ho =>
    obtain ⟨c, u', rfl, hc⟩ := ht.cls
    cases h4
    cases t <;> simp [headClass, Term.cls] at hc
    cases ht with
    | str hb =>
      rename_i he
      exact ⟨_, _, v ++ r, hb, by simp⟩

/-- C50: a backslash followed by anything but one of the escape characters is rejected, whatever follows. -/
theorem c50_unknown_escape (fs : FS) (rt : Rt) (y : Str) (hy : FieldName y) (x b : Str) (hb : StrBody x b)
    (c : Char) (hc : ∀ z, (c, z) ∉ escapes) (rest : Str) :
    ∃ e, fromStr fs (y ++ c!":\"" ++ b ++ '\\' :: c :: rest) rt = .err e := by
  apply c45_rejects_other_texts
  rintro ⟨d, hd⟩
  have hd' : SpDoc d (y ++ ':' :: '"' :: (b ++ '\\' :: c :: rest)) := by simpa using hd
  obtain ⟨x', b', tail, h1, h2⟩ := first_string hy hd'
  obtain ⟨x'', b'', h3, h4⟩ := strBody_prefix hb h1 h2
  cases h3 with
  | nil => simp at h4
  | raw _ h5 _ => simp at h4; exact h5 h4.1
  | esc h5 _ => simp at h4; exact hc _ (h4.1 ▸ h5)

/-- C50: a string literal that is never closed is rejected. -/
theorem c50_unclosed (fs : FS) (rt : Rt) (y : Str) (hy : FieldName y) (x b : Str) (hb : StrBody x b) :
    ∃ e, fromStr fs (y ++ c!":\"" ++ b) rt = .err e := by
  apply c45_rejects_other_texts
  rintro ⟨d, hd⟩
  have hd' : SpDoc d (y ++ ':' :: '"' :: b) := by simpa using hd
  obtain ⟨x', b', tail, h1, h2⟩ := first_string hy hd'
  obtain ⟨x'', b'', h3, h4⟩ := strBody_prefix hb h1 (z := []) (by rw [h2]; simp)
  simp at h4

end

/-! ## Examples -/

section
attribute [local instance] sampleUnicode

/-- `1_000` is a thousand. -/
theorem sampleThousand : IntLit 1000 c!"1_000" := by
  refine ⟨⟨by decide, ?_⟩, ⟨'1', c!"_000", rfl, by decide⟩, by decide⟩
  decide

/-- `00,50_` is a half. -/
theorem sampleHalf : FracLit (1 / 2) c!"00,50_" := by
  refine ⟨c!"00", ',', c!"50_", rfl, .inr rfl, ⟨by decide, by decide⟩, ⟨by decide, by decide⟩,
    .inr ⟨'0', c!"0", rfl, by decide⟩, .inl (by decide), ?_⟩
  have h1 : decimalValue (digitsOf c!"00") = 0 := by decide
  have h2 : decimalValue (digitsOf c!"50_") = 50 := by decide
  have h3 : (digitsOf c!"50_").length = 2 := by decide
  rw [h1, h2, h3]
  norm_num

example : ∃ o' s', fromStr noFiles (c!"a: \"x\"" ++ c!"\n" ++ c!"y" ++ c!":" ++ c!"1_000") startRt = .ok o' s' ∧
    o'.pairs = [.mk c!"a" (.str c!"x")] ++ [.mk c!"y" (.int (1000 : Nat))] ∧ o'.parent = none := by
  obtain ⟨s, hs⟩ : ∃ s, fromStr noFiles c!"a: \"x\"" startRt = .ok (.mk 0 [.mk c!"a" (.str c!"x")] none) s :=
    Res.gives_ok (by decide +kernel)
  exact c31_integer noFiles startRt _ _ s hs c!"y" (sampleFieldName 'y' (by decide))
    (by intro p hp; simp [Obj.pairs] at hp; subst hp; decide) 1000 c!"1_000" sampleThousand

example : ∃ s, fromStr noFiles c!"a: 1_000 b: 00,50_ c: .5 d: 5. e: \"a\\tb\\\"\"" startRt = .ok (.mk 0
    [.mk c!"a" (.int 1000), .mk c!"b" (.frac (1 / 2)), .mk c!"c" (.frac (1 / 2)), .mk c!"d" (.frac 5),
     .mk c!"e" (.str c!"a\tb\"")] none) s :=
  Res.gives_ok (by decide +kernel)

/-- Number-like texts that are not numbers. -/
example : NumberLike c!"1__0" ∧ (fromStr noFiles c!"a:1__0" startRt).kind ≠ none ∧
    NumberLike c!"1.2.3" ∧ (fromStr noFiles c!"a:1.2.3" startRt).kind ≠ none ∧
    NumberLike c!"." ∧ (fromStr noFiles c!"a:." startRt).kind ≠ none := by
  refine ⟨⟨by decide, by decide⟩, by decide +kernel, ⟨by decide, by decide⟩, by decide +kernel,
    ⟨by decide, by decide⟩, by decide +kernel⟩

/-- `\q` is no escape. -/
example : ∃ e, fromStr noFiles (c!"a" ++ c!":\"" ++ c!"x\\n" ++ '\\' :: 'q' :: c!"y\"") startRt = .err e :=
  c50_unknown_escape noFiles startRt c!"a" (sampleFieldName 'a' (by decide)) c!"x\n" c!"x\\n"
    (.raw (by decide) (by decide) (.esc (by decide) .nil)) 'q' (by intro z; simp [escapes]) c!"y\""

end

end Over
