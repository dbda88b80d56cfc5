import Verif.Lemmas.Tokens
import Mathlib.Tactic.FieldSimp
import Mathlib.Tactic.Ring

/-!
# Number literals
-/

namespace Over

/-- A digit run whose predecessor was an underscore iff `u`. -/
def RunFrom (u : Bool) (s : Str) : Prop :=
  (∀ c ∈ s, isDigit c = true ∨ c = '_') ∧ ¬ (['_', '_'] : List Char) <:+: (if u then '_' :: s else s)

theorem runFrom_false (s : Str) : RunFrom false s ↔ DigitRun s := by
  simp only [RunFrom, DigitRun, decDigit_eq, Bool.false_eq_true, if_false]

theorem runFrom_nil (u : Bool) : RunFrom u [] := by
  refine ⟨by simp, ?_⟩
  intro h
  have := h.length_le
  cases u <;> simp at this

theorem runFrom_cons (u : Bool) (c : Char) (s : Str) : RunFrom u (c :: s) ↔
    (isDigit c = true ∧ RunFrom false s) ∨ (c = '_' ∧ u = false ∧ RunFrom true s) := by
  have hd : ∀ {c : Char}, isDigit c = true → c ≠ '_' := by
    rintro c h rfl; exact absurd h (by decide)
  constructor
  · rintro ⟨h1, h2⟩
    have h3 : ∀ d ∈ s, isDigit d = true ∨ d = '_' := fun d hd => h1 d (by simp [hd])
    rcases h1 c (by simp) with h | h
    · left
      refine ⟨h, h3, ?_⟩
      intro hi
      apply h2
      have hi : ['_', '_'] <:+: s := hi
      cases u
      · exact List.infix_cons_iff.2 (.inr hi)
      · exact List.infix_cons_iff.2 (.inr (List.infix_cons_iff.2 (.inr hi)))
    · subst h
      right
      refine ⟨rfl, ?_, h3, ?_⟩
      · cases u with
        | false => rfl
        | true =>
          exfalso; apply h2
          exact List.infix_cons_iff.2 (.inl ⟨s, rfl⟩)
      · intro hi
        apply h2
        cases u
        · exact hi
        · exact List.infix_cons_iff.2 (.inr hi)
  · rintro (⟨h1, h2, h3⟩ | ⟨rfl, rfl, h2, h3⟩)
    · refine ⟨?_, ?_⟩
      · intro d hd
        rcases List.mem_cons.1 hd with rfl | hd
        · exact .inl h1
        · exact h2 d hd
      · intro hi
        have hi2 : ['_', '_'] <:+: c :: s := by
          cases u with
          | false => exact hi
          | true =>
            rcases List.infix_cons_iff.1 hi with h | h
            · obtain ⟨t, ht⟩ := h
              simp only [List.cons_append, List.nil_append, List.cons.injEq, true_and] at ht
              exact absurd ht.1.symm (hd h1)
            · exact h
        rcases List.infix_cons_iff.1 hi2 with h | h
        · obtain ⟨t, ht⟩ := h
          simp only [List.cons_append, List.nil_append, List.cons.injEq] at ht
          exact absurd ht.1.symm (hd h1)
        · exact h3 h
    · refine ⟨?_, h3⟩
      intro d hd
      rcases List.mem_cons.1 hd with rfl | hd
      · exact .inr rfl
      · exact h2 d hd

theorem digitsOf_cons_digit {c : Char} (h : isDigit c = true) (s : Str) :
    digitsOf (c :: s) = c :: digitsOf s := by simp [digitsOf, decDigit_eq, h]

theorem digitsOf_cons_under (s : Str) : digitsOf ('_' :: s) = digitsOf s := by
  simp [digitsOf, show decDigit '_' = false by decide]

theorem digit_facts {c : Char} (h : isDigit c = true) :
    isValueEndChar c = false ∧ c ≠ '.' ∧ c ≠ ',' ∧ c ≠ '_' := by
  refine ⟨?_, ?_, ?_, ?_⟩ <;> char_omega

theorem numGo_spec [Unicode] (full rest : Str) : ∀ (p : Pos) (s1 s2 : Str) (dec under : Bool),
    Here full rest p →
    (numGo rest p s1 s2 dec under).post
      (fun x rest' p' => ∃ txt, rest = txt ++ rest' ∧ p' = p.advs txt ∧ Follow rest' ∧
        if dec then x = (s1, s2 ++ digitsOf txt, true) ∧ RunFrom under txt
        else (x = (s1 ++ digitsOf txt, s2, false) ∧ RunFrom under txt) ∨
          ∃ w sep d, txt = w ++ sep :: d ∧ (sep = '.' ∨ sep = ',') ∧ RunFrom under w ∧
            RunFrom false d ∧ x = (s1 ++ digitsOf w, s2 ++ digitsOf d, true))
      (KindIn full) := by
  induction rest with
  | nil =>
    intro p s1 s2 dec under _
    refine ⟨[], rfl, rfl, .inl rfl, ?_⟩
    cases dec
    · exact .inl ⟨by simp [digitsOf], runFrom_nil _⟩
    · exact ⟨by simp [digitsOf], runFrom_nil _⟩
  | cons c cs ih =>
    intro p s1 s2 dec under h
    unfold numGo
    by_cases h1 : isValueEndChar c = true
    · simp only [h1, if_true]
      refine ⟨[], rfl, rfl, .inr ⟨c, cs, rfl, h1⟩, ?_⟩
      cases dec
      · exact .inl ⟨by simp [digitsOf], runFrom_nil _⟩
      · exact ⟨by simp [digitsOf], runFrom_nil _⟩
    · simp only [h1]
      by_cases h2 : isDigit c = true
      · simp only [h2, if_true]
        cases dec with
        | false =>
          simp only [Bool.not_false, if_true]
          refine Lex.post_mono (ih (p.adv c) (s1 ++ [c]) s2 false false h.adv) ?_ (fun _ h => h)
          rintro x rest' p' ⟨txt, h3, h4, h5, h6⟩
          refine ⟨c :: txt, by simp [h3], by simp [h4], h5, ?_⟩
          simp only [Bool.false_eq_true, if_false] at h6 ⊢
          rcases h6 with ⟨rfl, h6⟩ | ⟨w, sep, d, rfl, h7, h8, h9, rfl⟩
          · exact .inl ⟨by simp [digitsOf_cons_digit h2], (runFrom_cons _ _ _).2 (.inl ⟨h2, h6⟩)⟩
          · exact .inr ⟨c :: w, sep, d, by simp, h7, (runFrom_cons _ _ _).2 (.inl ⟨h2, h8⟩), h9,
              by simp [digitsOf_cons_digit h2]⟩
        | true =>
          simp only [Bool.not_true, Bool.false_eq_true, if_false]
          refine Lex.post_mono (ih (p.adv c) s1 (s2 ++ [c]) true false h.adv) ?_ (fun _ h => h)
          rintro x rest' p' ⟨txt, h3, h4, h5, h6⟩
          refine ⟨c :: txt, by simp [h3], by simp [h4], h5, ?_⟩
          simp only [if_true] at h6 ⊢
          obtain ⟨rfl, h6⟩ := h6
          exact ⟨by simp [digitsOf_cons_digit h2], (runFrom_cons _ _ _).2 (.inl ⟨h2, h6⟩)⟩
      · simp only [h2]
        by_cases h3 : c = '.' ∨ c = ','
        · simp only [h3, if_true]
          cases dec with
          | false =>
            simp only [Bool.not_false, if_true]
            refine Lex.post_mono (ih (p.adv c) s1 s2 true false h.adv) ?_ (fun _ h => h)
            rintro x rest' p' ⟨txt, h4, h5, h6, h7⟩
            refine ⟨c :: txt, by simp [h4], by simp [h5], h6, ?_⟩
            simp only [if_true] at h7
            simp only [Bool.false_eq_true, if_false]
            obtain ⟨rfl, h7⟩ := h7
            exact .inr ⟨[], c, txt, rfl, h3, runFrom_nil _, h7, by simp [digitsOf]⟩
          | true =>
            simp only [Bool.not_true, Bool.false_eq_true, if_false]
            exact .invalidValueChar h.charAt
        · simp only [h3, if_false]
          by_cases h4 : c = '_'
          · subst h4
            simp only [if_true]
            cases under with
            | true =>
              simp only [Bool.not_true, Bool.false_eq_true, if_false]
              exact .invalidValueChar h.charAt
            | false =>
              simp only [Bool.not_false, if_true]
              refine Lex.post_mono (ih (p.adv '_') s1 s2 dec true h.adv) ?_ (fun _ h => h)
              rintro x rest' p' ⟨txt, h5, h6, h7, h8⟩
              refine ⟨'_' :: txt, by simp [h5], by simp [h6], h7, ?_⟩
              cases dec with
              | true =>
                simp only [if_true] at h8 ⊢
                obtain ⟨rfl, h8⟩ := h8
                exact ⟨by simp [digitsOf_cons_under], (runFrom_cons _ _ _).2 (.inr ⟨rfl, rfl, h8⟩)⟩
              | false =>
                simp only [Bool.false_eq_true, if_false] at h8 ⊢
                rcases h8 with ⟨rfl, h8⟩ | ⟨w, sep, d, rfl, h9, h10, h11, rfl⟩
                · exact .inl ⟨by simp [digitsOf_cons_under],
                    (runFrom_cons _ _ _).2 (.inr ⟨rfl, rfl, h8⟩)⟩
                · exact .inr ⟨'_' :: w, sep, d, by simp, h9,
                    (runFrom_cons _ _ _).2 (.inr ⟨rfl, rfl, h10⟩), h11, by simp [digitsOf_cons_under]⟩
          · simp only [h4, if_false]
            exact .invalidValueChar h.charAt

theorem numGo_stop (rest : Str) (hr : Follow rest) (p : Pos) (s1 s2 : Str) (dec under : Bool) :
    numGo rest p s1 s2 dec under = .ok (s1, s2, dec) rest p := by
  rcases hr with rfl | ⟨c, r, rfl, hc⟩
  · rfl
  · simp [numGo, hc]

/-- The digits of a run are collected. -/
theorem numGo_run (txt rest : Str) : ∀ (p : Pos) (s1 s2 : Str) (dec under : Bool),
    RunFrom under txt → ∃ u',
    numGo (txt ++ rest) p s1 s2 dec under = numGo rest (p.advs txt)
      (if dec then s1 else s1 ++ digitsOf txt) (if dec then s2 ++ digitsOf txt else s2) dec u' := by
  induction txt with
  | nil => intro p s1 s2 dec under _; exact ⟨under, by simp [digitsOf]⟩
  | cons c cs ih =>
    intro p s1 s2 dec under h
    rcases (runFrom_cons _ _ _).1 h with ⟨h1, h2⟩ | ⟨rfl, rfl, h2⟩
    · have := digit_facts h1
      cases dec with
      | true =>
        obtain ⟨u', hu⟩ := ih (p.adv c) s1 (s2 ++ [c]) true false h2
        exact ⟨u', by simp [numGo, this, h1, hu, digitsOf_cons_digit h1]⟩
      | false =>
        obtain ⟨u', hu⟩ := ih (p.adv c) (s1 ++ [c]) s2 false false h2
        exact ⟨u', by simp [numGo, this, h1, hu, digitsOf_cons_digit h1]⟩
    · obtain ⟨u', hu⟩ := ih (p.adv '_') s1 s2 dec true h2
      refine ⟨u', ?_⟩
      simp [numGo, show isValueEndChar '_' = false by decide, show isDigit '_' = false by decide, hu,
        digitsOf_cons_under]

theorem numGo_int {txt : Str} (h : DigitRun txt) (rest : Str) (hr : Follow rest) (p : Pos) :
    numGo (txt ++ rest) p [] [] false false = .ok (digitsOf txt, [], false) rest (p.advs txt) := by
  obtain ⟨u', hu⟩ := numGo_run txt rest p [] [] false false ((runFrom_false _).2 h)
  rw [hu, numGo_stop _ hr]; simp

theorem numGo_frac {w d : Str} (hw : DigitRun w) (hd : DigitRun d) {sep : Char}
    (hs : sep = '.' ∨ sep = ',') (rest : Str) (hr : Follow rest) (p : Pos) :
    numGo ((w ++ sep :: d) ++ rest) p [] [] false false =
      .ok (digitsOf w, digitsOf d, true) rest (p.advs (w ++ sep :: d)) := by
  obtain ⟨u', hu⟩ := numGo_run w (sep :: (d ++ rest)) p [] [] false false ((runFrom_false _).2 hw)
  have h1 : isValueEndChar sep = false := by rcases hs with rfl | rfl <;> decide
  have h2 : isDigit sep = false := by rcases hs with rfl | rfl <;> decide
  obtain ⟨u'', hu2⟩ := numGo_run d rest ((p.advs w).adv sep) (digitsOf w) [] true false ((runFrom_false _).2 hd)
  simp only [List.append_assoc, List.cons_append]
  rw [hu]
  simp only [Bool.false_eq_true, if_false, List.nil_append, numGo, h1, h2, hs, if_true, Bool.not_false]
  rw [hu2, numGo_stop _ hr]
  simp [Pos.advs_append]

/-! ## Values of digit strings -/

theorem decimalValue_snoc (s : Str) (c : Char) :
    decimalValue (s ++ [c]) = 10 * decimalValue s + (c.toNat - 48) := by
  simp [decimalValue, Nat.ofDigits_cons]
  omega

theorem digitsVal_eq (s : Str) : digitsVal s = decimalValue s := by
  induction s using List.reverseRecOn with
  | nil => rfl
  | append_singleton s c ih =>
    rw [decimalValue_snoc, ← ih]
    simp [digitsVal, digitVal]

theorem parseBigInt_digits {s : Str} (h : ∀ c ∈ s, isDigit c = true) (hne : s ≠ []) :
    parseBigInt s = some (decimalValue s : Int) := by
  have : (s.any fun c => !isDigit c) = false := by
    simp only [List.any_eq_false, Bool.not_eq_true']
    intro c hc; simp [h c hc]
  have h2 : s.isEmpty = false := by simpa using hne
  simp [parseBigInt, this, h2, digitsVal_eq]

theorem trimEndZeros_snoc (s : Str) (c : Char) :
    trimEndZeros (s ++ [c]) = if c = '0' then trimEndZeros s else s ++ [c] := by
  by_cases h : c = '0'
  · subst h; simp [trimEndZeros]
  · simp [trimEndZeros, h]

theorem trimEndZeros_spec (s : Str) : ∃ k, s = trimEndZeros s ++ List.replicate k '0' := by
  induction s using List.reverseRecOn with
  | nil => exact ⟨0, rfl⟩
  | append_singleton s c ih =>
    rw [trimEndZeros_snoc]
    by_cases h : c = '0'
    · subst h
      obtain ⟨k, hk⟩ := ih
      refine ⟨k + 1, ?_⟩
      simp only [if_true]
      rw [List.replicate_succ', ← List.append_assoc, ← hk]
    · simp only [h, if_false]; exact ⟨0, by simp⟩

theorem decimalValue_zeros (s : Str) (k : Nat) :
    decimalValue (s ++ List.replicate k '0') = decimalValue s * 10 ^ k := by
  induction k with
  | zero => simp
  | succ k ih =>
    rw [List.replicate_succ', ← List.append_assoc, decimalValue_snoc, ih]
    simp [pow_succ]; ring

theorem fracValue (s : Str) :
    (decimalValue (trimEndZeros s) : ℚ) / 10 ^ (trimEndZeros s).length =
      (decimalValue s : ℚ) / 10 ^ s.length := by
  obtain ⟨k, hk⟩ := trimEndZeros_spec s
  conv_rhs => rw [hk]
  rw [decimalValue_zeros]
  simp only [List.length_append, List.length_replicate, Nat.cast_mul, Nat.cast_pow, Nat.cast_ofNat,
    pow_add]
  have : (10 : ℚ) ^ k ≠ 0 := by positivity
  field_simp

theorem fracFrom_eq (a b n : Nat) :
    fracFromWholeAndDec (a : Int) (b : Int) n = (a : ℚ) + (b : ℚ) / 10 ^ n := by
  simp [fracFromWholeAndDec, Rat.divInt_eq_div]

theorem trimEndZeros_digits {s : Str} (h : ∀ c ∈ s, isDigit c = true) :
    ∀ c ∈ trimEndZeros s, isDigit c = true := by
  obtain ⟨k, hk⟩ := trimEndZeros_spec s
  intro c hc
  apply h; rw [hk]; simp [hc]

theorem numFinish_int {s1 s2 : Str} (h : ∀ c ∈ s1, isDigit c = true) :
    numFinish s1 s2 false = if s1 = [] then .invalid else .val (.int (decimalValue s1)) := by
  by_cases hne : s1 = []
  · subst hne; simp [numFinish]
  · have h2 : s1.isEmpty = false := by simpa using hne
    simp [numFinish, h2, hne, parseBigInt_digits h hne]

theorem numFinish_frac {s1 s2 : Str} (h1 : ∀ c ∈ s1, isDigit c = true) (h2 : ∀ c ∈ s2, isDigit c = true) :
    numFinish s1 s2 true = if s1 = [] ∧ s2 = [] then .invalid else
      .val (.frac ((decimalValue s1 : ℚ) + (decimalValue s2 : ℚ) / 10 ^ s2.length)) := by
  by_cases hne : s1 = [] ∧ s2 = []
  · obtain ⟨rfl, rfl⟩ := hne; simp [numFinish]
  · have he : (s1.isEmpty && s2.isEmpty) = false := by
      rw [← Bool.not_eq_true]; simpa using hne
    have hw : (if s1.isEmpty = true then some 0 else parseBigInt s1) = some (decimalValue s1 : Int) := by
      by_cases h : s1 = []
      · subst h; rfl
      · have : s1.isEmpty = false := by simpa using h
        simp [this, parseBigInt_digits h1 h]
    simp only [numFinish, he, hw, hne, if_true, if_false, Bool.false_eq_true]
    by_cases ht : trimEndZeros s2 = []
    · have := fracValue s2
      rw [ht] at this
      have h0 : decimalValue ([] : Str) = 0 := rfl
      simp only [h0, Nat.cast_zero, List.length_nil, pow_zero, div_one] at this
      simp only [ht, List.isEmpty_nil, if_true]
      have hh := fracFrom_eq (decimalValue s1) 0 1
      simp only [Nat.cast_zero] at hh
      rw [hh, ← this]; simp
    · have hi : (trimEndZeros s2).isEmpty = false := by simpa using ht
      simp only [hi, Bool.false_eq_true, if_false, parseBigInt_digits (trimEndZeros_digits h2) ht,
        Option.map_some]
      rw [fracFrom_eq, fracValue]

theorem digitsOf_digits (s : Str) : ∀ c ∈ digitsOf s, isDigit c = true := by
  intro c hc
  rw [← decDigit_eq]
  exact (List.mem_filter.1 hc).2

end Over
