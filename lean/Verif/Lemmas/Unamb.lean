import Verif.Lemmas.Sim4

/-!
# A text spells at most one tree
-/

set_option linter.unusedSectionVars false

namespace Over

variable [Unicode]

attribute [local instance] noPanic

/-- Class of the first character of an operand. -/
def headClass (c : Char) : Nat :=
  if c = '"' then 0 else if c = '-' then 1 else if c = '+' then 2 else if c = '[' then 3
  else if c = '(' then 4 else if c = '{' then 5 else if c = '<' then 6
  else if isNumericChar c then 7 else 8

/-- Class of an operand. -/
def Term.cls : Term → Nat
  | .str _ => 0
  | .neg _ => 1
  | .pos _ => 2
  | .arr _ => 3
  | .tup _ => 4
  | .obj _ => 5
  | .incl _ => 6
  | .inclAs _ _ => 6
  | .int _ => 7
  | .frac _ => 7
  | .name _ => 8
  | .dot _ _ => 8

theorem SpTerm.cls {t : Term} {s : Str} (h : SpTerm t s) : ∃ c r, s = c :: r ∧ headClass c = t.cls := by
  have num : ∀ {t s}, SpTerm t s → t.isNumber = true → ∃ c r, s = c :: r ∧ headClass c = 7 := by
    intro t s h hn
    obtain ⟨c, r, rfl, hc⟩ := h.numberHead hn
    refine ⟨c, r, rfl, ?_⟩
    have ne : ∀ d, isNumericChar d = false → c ≠ d := by rintro d hd rfl; rw [hc] at hd; cases hd
    simp [headClass, ne '"' (by decide), ne '-' (by decide), ne '+' (by decide), ne '[' (by decide),
      ne '(' (by decide), ne '{' (by decide), ne '<' (by decide), hc]
  have path : ∀ {t s}, SpTerm t s → t.isPath = true → ∃ c r, s = c :: r ∧ headClass c = 8 := by
    intro t s h hn
    obtain ⟨c, r, rfl, h1, h2, -⟩ := h.pathHead hn
    refine ⟨c, r, rfl, ?_⟩
    have ne : ∀ d, (isValidFieldChar d true || d == '@') = false → c ≠ d := by
      rintro d hd rfl; rw [h1] at hd; cases hd
    simp [headClass, ne '"' (notNameStart (by decide)), ne '-' (notNameStart (by decide)),
      ne '+' (notNameStart (by decide)), ne '[' notNameStart_brackets.2, ne '{' notNameStart_brackets.1,
      ne '(' (notNameStart (by decide)), ne '<' (notNameStart (by decide)), h2]
  cases t with
  | int n => exact num h rfl
  | frac q => exact num h rfl
  | name x => exact path h rfl
  | dot x t => exact path h rfl
  | _ => cases h; exact ⟨_, _, rfl, rfl⟩

/-- The text after an expression: an end, a gap or a closing bracket. -/
def StopAt (r : Str) : Prop := ∃ brace, ExprEnd brace r

/-- Operands of texts of length at most `n` are determined. -/
def UTerm (n : Nat) : Prop := ∀ (t t' : Term) (s s' r r' : Str), SpTerm t s → SpTerm t' s' →
  s ++ r = s' ++ r' → Follow r → Follow r' → s.length ≤ n → t = t' ∧ s = s'
/-- Chains. -/
def UExpr (n : Nat) : Prop := ∀ (t t' : Expr) (s s' r r' : Str), SpExpr t s → SpExpr t' s' →
  s ++ r = s' ++ r' → StopAt r → StopAt r' → s.length ≤ n → t = t' ∧ s = s'
/-- Sequences. -/
def UItems (n : Nat) : Prop := ∀ (eof : Bool) (brace : Option Char) (t t' : List Expr) (s s' r r' : Str),
  SpItems eof t s → SpItems eof t' s' →
  s ++ r = s' ++ r' → Closes eof brace r → Closes eof brace r' → s.length ≤ n → t = t' ∧ s = s'
/-- Definitions. -/
def UFields (n : Nat) : Prop := ∀ (eof : Bool) (brace : Option Char) (t t' : List Field) (s s' r r' : Str),
  SpFields eof t s → SpFields eof t' s' →
  s ++ r = s' ++ r' → Closes eof brace r → Closes eof brace r' → s.length ≤ n → t = t' ∧ s = s'

theorem opChar_inj {a b : BinOp} (h : opChar a = opChar b) : a = b := by
  cases a <;> cases b <;> first | rfl | exact absurd h (by decide)

theorem StopAt.noOp {op : BinOp} {r : Str} : ¬ StopAt (opChar op :: r) := by
  rintro ⟨b, h⟩
  have h1 := h.noOp
  cases op <;> exact absurd h1 (by decide)

theorem uOps {n : Nat} (hT : UTerm n) : ∀ (ops ops' : List OpTerm) (s s' r r' : Str), SpOps ops s →
    SpOps ops' s' → s ++ r = s' ++ r' → StopAt r → StopAt r' → s.length ≤ n → ops = ops' ∧ s = s' := by
  intro ops
  induction ops with
  | nil =>
    intro ops' s s' r r' h h' he hr hr' hl
    cases h with
    | nil =>
    cases h' with
    | nil => exact ⟨rfl, rfl⟩
    | cons _ _ =>
      simp only [List.nil_append, List.cons_append] at he
      rw [he] at hr
      exact absurd hr StopAt.noOp
  | cons x ops ih =>
    intro ops' s s' r r' h h' he hr hr' hl
    cases h with
    | @cons op t _ s1 u ht hu =>
    cases h' with
    | nil =>
      simp only [List.nil_append, List.cons_append] at he
      rw [← he] at hr'
      exact absurd hr' StopAt.noOp
    | @cons op' t' ops' s1' u' ht' hu' =>
      simp only [List.cons_append, List.cons.injEq, List.append_assoc] at he
      obtain ⟨h1, h2⟩ := he
      have := opChar_inj h1
      subst this
      obtain ⟨b, hb⟩ := hr
      obtain ⟨b', hb'⟩ := hr'
      simp only [List.length_cons, List.length_append] at hl
      obtain ⟨rfl, rfl⟩ := hT _ _ _ _ _ _ ht ht' h2 (hu.follow hb) (hu'.follow hb') (by omega)
      have h3 := List.append_cancel_left h2
      obtain ⟨rfl, rfl⟩ := ih _ _ _ _ _ hu hu' h3 ⟨b, hb⟩ ⟨b', hb'⟩ (by omega)
      exact ⟨rfl, rfl⟩

theorem uExpr {n : Nat} (hT : UTerm n) : UExpr n := by
  intro e e' s s' r r' h h' he hr hr' hl
  cases h with
  | @mk t ops s u ht hu =>
  cases h' with
  | @mk t' ops' s' u' ht' hu' =>
  simp only [List.append_assoc] at he
  simp only [List.length_append] at hl
  obtain ⟨b, hb⟩ := hr
  obtain ⟨b', hb'⟩ := hr'
  obtain ⟨rfl, rfl⟩ := hT _ _ _ _ _ _ ht ht' he (hu.follow hb) (hu'.follow hb') (by omega)
  obtain ⟨rfl, rfl⟩ := uOps hT _ _ _ _ _ _ hu hu' (List.append_cancel_left he) ⟨b, hb⟩ ⟨b', hb'⟩ (by omega)
  exact ⟨rfl, rfl⟩

theorem gap_unique {g g' r r' : Str} (hg : Gap g) (hg' : Gap g') (he : g ++ r = g' ++ r') (h : FoundAt r)
    (h' : FoundAt r') : g = g' ∧ r = r' := by
  obtain ⟨c, t, rfl, h1, h2⟩ := h
  obtain ⟨c', t', rfl, h1', h2'⟩ := h'
  have e1 := findCharGo_gap hg (c :: t) pos0
  have e2 := findCharGo_gap hg' (c' :: t') pos0
  rw [findCharGo_stop h1 h2] at e1
  rw [findCharGo_stop h1' h2'] at e2
  rw [he, e2] at e1
  simp only [Prod.mk.injEq, List.cons.injEq, true_and] at e1
  obtain ⟨⟨rfl, rfl⟩, -⟩ := e1
  exact ⟨List.append_cancel_right he, rfl⟩

theorem endGap_not_found {g g' r : Str} (hg : EndGap g) (hg' : Gap g') (h : FoundAt r) : g ≠ g' ++ r := by
  rintro rfl
  obtain ⟨c, t, rfl, h1, h2⟩ := h
  have e1 := findCharGo_gap hg' (c :: t) pos0
  rw [findCharGo_stop h1 h2, findCharGo_endGap hg] at e1
  simp at e1

theorem delim_found {c : Char} {r : Str} (h : isEndDelimiter c = true) : FoundAt (c :: r) := by
  rw [endDelim_iff] at h
  refine ⟨c, r, rfl, ?_, ?_⟩ <;> rcases h with rfl | rfl | rfl | rfl <;> decide

/-- The last gap of a body is determined, and no operand can start in it. -/
theorem last_gap {eof : Bool} {brace : Option Char} {g r : Str} (hg : LastGap eof g) (hc : Closes eof brace r) :
    (∀ g' r', LastGap eof g' → Closes eof brace r' → g ++ r = g' ++ r' → g = g') ∧
    (∀ g' c t, Gap g' → TermStart c → g ++ r ≠ g' ++ c :: t) := by
  rcases hc with ⟨rfl, rfl, rfl⟩ | ⟨d, r, rfl, rfl, rfl, hd⟩
  · simp only [LastGap, if_true] at hg
    constructor
    · rintro g' r' - (⟨-, -, rfl⟩ | ⟨_, _, h, -⟩) he
      · simpa using he
      · cases h
    · intro g' c t hg' hc he
      simp only [List.append_nil] at he
      exact endGap_not_found hg hg' (hc.found (r := t)) he
  · simp only [LastGap, Bool.false_eq_true, if_false] at hg
    constructor
    · rintro g' r' hg' (⟨h, -⟩ | ⟨d', r', -, -, rfl, hd'⟩) he
      · cases h
      · simp only [LastGap, Bool.false_eq_true, if_false] at hg'
        exact (gap_unique hg hg' he (delim_found hd) (delim_found hd')).1
    · intro g' c t hg' hc he
      have := (gap_unique hg hg' he (delim_found hd) hc.found).2
      simp only [List.cons.injEq] at this
      rw [← this.1] at hc
      have := hc.2.2
      rw [hd] at this
      cases this

theorem uItems {n : Nat} (hE : UExpr n) : UItems n := by
  intro eof brace es
  induction es with
  | nil =>
    intro es' s s' r r' h h' he hc hc' hl
    cases h with
    | nil hg =>
    cases h' with
    | nil hg' => exact ⟨rfl, (last_gap hg hc).1 _ _ hg' hc' he⟩
    | cons hg' hx _ _ =>
      obtain ⟨c, t, rfl, ht⟩ := hx.head
      simp only [List.append_assoc, List.cons_append] at he
      exact absurd he ((last_gap hg hc).2 _ _ _ hg' ht)
  | cons e es ih =>
    intro es' s s' r r' h h' he hc hc' hl
    cases h with
    | @cons _ g s1 r1 _ _ hg hx hi hs =>
    obtain ⟨c, t, hst, ht⟩ := hx.head
    cases h' with
    | nil hg' =>
      subst hst
      simp only [List.append_assoc, List.cons_append] at he
      exact absurd he.symm ((last_gap hg' hc').2 _ _ _ hg ht)
    | @cons _ g' s1' r1' e' es' hg' hx' hi' hs' =>
      obtain ⟨c', t', hst', ht'⟩ := hx'.head
      simp only [List.append_assoc] at he
      simp only [List.length_append] at hl
      obtain ⟨rfl, he2⟩ := gap_unique hg hg' he (by rw [hst]; exact ht.found) (by rw [hst']; exact ht'.found)
      obtain ⟨rfl, rfl⟩ := hE _ _ _ _ _ _ hx hx' he2 ⟨_, hi.exprEnd hc hs⟩ ⟨_, hi'.exprEnd hc' hs'⟩ (by omega)
      obtain ⟨rfl, rfl⟩ := ih _ _ _ _ _ hi hi' (List.append_cancel_left he2) hc hc' (by omega)
      exact ⟨rfl, rfl⟩

theorem target_unique {tg tg' : Target} {n n' r r' : Str} (h : SpTarget tg n) (h' : SpTarget tg' n')
    (he : n ++ ':' :: r = n' ++ ':' :: r') : tg = tg' ∧ n = n' ∧ r = r' := by
  have e1 := lexField_ok h r pos0 0 0
  have e2 := lexField_ok h' r' pos0 0 0
  rw [he, e2] at e1
  simp only [Lex.ok.injEq] at e1
  obtain ⟨h1, rfl, -⟩ := e1
  refine ⟨?_, List.append_cancel_right he, rfl⟩
  revert h1
  cases tg <;> cases tg' <;> simp [Target.split] <;> exact Eq.symm

theorem uFields {n : Nat} (hE : UExpr n) : UFields n := by
  intro eof brace es
  induction es with
  | nil =>
    intro es' s s' r r' h h' he hc hc' hl
    cases h with
    | nil hg =>
    cases h' with
    | nil hg' => exact ⟨rfl, (last_gap hg hc).1 _ _ hg' hc' he⟩
    | cons hg' htg _ _ _ _ =>
      obtain ⟨c, t, rfl, ht⟩ := htg.head
      simp only [List.append_assoc, List.cons_append] at he
      exact absurd he ((last_gap hg hc).2 _ _ _ hg' ht)
  | cons e es ih =>
    intro es' s s' r r' h h' he hc hc' hl
    cases h with
    | @cons _ g nm g2 s1 r1 tg e _ hg htg hg2 hx hi hs =>
    obtain ⟨c, t, hst, ht⟩ := htg.head
    cases h' with
    | nil hg' =>
      subst hst
      simp only [List.append_assoc, List.cons_append] at he
      exact absurd he.symm ((last_gap hg' hc').2 _ _ _ hg ht)
    | @cons _ g' nm' g2' s1' r1' tg' e' es' hg' htg' hg2' hx' hi' hs' =>
      obtain ⟨c', t', hst', ht'⟩ := htg'.head
      simp only [List.append_assoc, List.cons_append] at he
      simp only [List.length_append, List.length_cons] at hl
      obtain ⟨rfl, he2⟩ := gap_unique hg hg' he (by rw [hst]; exact ht.found) (by rw [hst']; exact ht'.found)
      obtain ⟨rfl, rfl, he3⟩ := target_unique htg htg' he2
      obtain ⟨d, u, hx1, hd⟩ := hx.head
      obtain ⟨d', u', hx1', hd'⟩ := hx'.head
      obtain ⟨rfl, he4⟩ := gap_unique hg2 hg2' he3 (by rw [hx1]; exact hd.found) (by rw [hx1']; exact hd'.found)
      obtain ⟨rfl, rfl⟩ := hE _ _ _ _ _ _ hx hx' he4 ⟨_, hi.exprEnd hc hs⟩ ⟨_, hi'.exprEnd hc' hs'⟩ (by omega)
      obtain ⟨rfl, rfl⟩ := ih _ _ _ _ _ hi hi' (List.append_cancel_left he4) hc hc' (by omega)
      exact ⟨rfl, rfl⟩

theorem path_unique {n : Nat} (hT : UTerm n) {t t' : Term} {s s' r r' : Str} (h : SpTerm t s)
    (h' : SpTerm t' s') (he : s ++ r = s' ++ r') (hr : Follow r) (hr' : Follow r') (hl : s.length ≤ n + 1)
    (hp : t.isPath = true) (hp' : t'.isPath = true) : t = t' ∧ s = s' := by
  cases h with
  | @name x hx =>
    have e1 := lexVar_ok hx r hr pos0
    cases h' with
    | @name x' hx' =>
      have e2 := lexVar_ok hx' r' hr' pos0
      rw [he, e2] at e1
      simp only [Lex.ok.injEq, Prod.mk.injEq] at e1
      obtain ⟨⟨rfl, -⟩, -⟩ := e1
      exact ⟨rfl, rfl⟩
    | @dot x' s2' t2' hx' ha' ht' =>
      obtain ⟨c, u, rfl, hc⟩ := ht'.afterDotHead ha'
      have e2 := lexVar_dot_ok hx' c (u ++ r') hc pos0
      simp only [List.append_assoc, List.cons_append] at he
      rw [he, e2] at e1
      simp only [Lex.ok.injEq, Prod.mk.injEq] at e1
      have := e1.1.2.2
      split at this <;> cases this
    | _ => cases hp'
  | @dot x s2 t2 hx ha ht =>
    obtain ⟨c, u, rfl, hc⟩ := ht.afterDotHead ha
    have e1 := lexVar_dot_ok hx c (u ++ r) hc pos0
    cases h' with
    | @name x' hx' =>
      have e2 := lexVar_ok hx' r' hr' pos0
      simp only [List.append_assoc, List.cons_append] at he
      rw [he, e2] at e1
      simp only [Lex.ok.injEq, Prod.mk.injEq] at e1
      have := e1.1.2.2
      split at this <;> cases this
    | @dot x' s2' t2' hx' ha' ht' =>
      obtain ⟨c', u', rfl, hc'⟩ := ht'.afterDotHead ha'
      have e2 := lexVar_dot_ok hx' c' (u' ++ r') hc' pos0
      simp only [List.append_assoc, List.cons_append] at he
      rw [he, e2] at e1
      simp only [Lex.ok.injEq, Prod.mk.injEq] at e1
      obtain ⟨⟨rfl, -⟩, h2, -⟩ := e1
      simp only [List.length_append, List.length_cons] at hl
      obtain ⟨rfl, h3⟩ := hT _ _ _ _ r r' ht ht' (by simpa using h2.symm) hr hr' (by
        have : x'.length ≠ 0 := by obtain ⟨c, cs, h0, -⟩ := hx'; rw [h0]; simp
        simp only [List.length_cons]; omega)
      exact ⟨rfl, by rw [h3]⟩
    | _ => cases hp'
  | _ => cases hp

theorem number_unique {t t' : Term} {s s' r r' : Str} (h : SpTerm t s)
    (h' : SpTerm t' s') (he : s ++ r = s' ++ r') (hr : Follow r) (hr' : Follow r')
    (hp : t.isNumber = true) (hp' : t'.isNumber = true) : t = t' ∧ s = s' := by
  have cancel : ∀ {a b : Str}, a ++ r = b ++ r' → r = r' → a = b := by
    rintro a b h rfl; exact List.append_cancel_right h
  cases h with
  | @int k s hi =>
    have e1 := numGo_int hi.1 r hr pos0
    cases h' with
    | @int k' s' hi' =>
      have e2 := numGo_int hi'.1 r' hr' pos0
      rw [he, e2] at e1
      simp only [Lex.ok.injEq, Prod.mk.injEq] at e1
      have := cancel he e1.2.1.symm
      subst this
      exact ⟨by rw [hi.2.2, hi'.2.2], rfl⟩
    | @frac q s' hf =>
      obtain ⟨w, sep, d, rfl, hs, h1, h2, -⟩ := hf
      have e2 := numGo_frac h1 h2 hs r' hr' pos0
      rw [he, e2] at e1
      simp at e1
    | _ => cases hp'
  | @frac q s hf =>
    have hf0 := hf
    obtain ⟨w, sep, d, rfl, hs, h1, h2, -, -, hq⟩ := hf
    have e1 := numGo_frac h1 h2 hs r hr pos0
    cases h' with
    | @int k' s' hi' =>
      have e2 := numGo_int hi'.1 r' hr' pos0
      rw [he, e2] at e1
      simp at e1
    | @frac q' s' hf' =>
      obtain ⟨w', sep', d', rfl, hs', h1', h2', -, -, hq'⟩ := hf'
      have e2 := numGo_frac h1' h2' hs' r' hr' pos0
      rw [he, e2] at e1
      simp only [Lex.ok.injEq, Prod.mk.injEq] at e1
      refine ⟨?_, cancel he e1.2.1.symm⟩
      rw [hq, hq', e1.1.1, e1.1.2.1]
    | _ => cases hp'
  | _ => cases hp

theorem uTerm : ∀ n, UTerm n
  | 0 => by
    intro t t' s s' r r' h _ _ _ _ hl
    exact absurd (List.length_eq_zero_iff.1 (by omega)) h.ne_nil
  | n + 1 => by
    have hT := uTerm n
    have hE := uExpr hT
    have hI := uItems hE
    have hF := uFields hE
    intro t t' s s' r r' h h' he hr hr' hl
    have hcls : t.cls = t'.cls := by
      obtain ⟨c, u, h1, h2⟩ := h.cls
      obtain ⟨c', u', h1', h2'⟩ := h'.cls
      rw [h1, h1'] at he
      simp only [List.cons_append, List.cons.injEq] at he
      rw [← h2, ← h2', he.1]
    by_cases hn : t.isNumber = true
    · have hn' : t'.isNumber = true := by
        cases t <;> simp [Term.isNumber] at hn <;> cases t' <;> simp_all [Term.cls, Term.isNumber]
      exact number_unique h h' he hr hr' hn hn'
    by_cases hp : t.isPath = true
    · have hp' : t'.isPath = true := by
        cases t <;> simp [Term.isPath] at hp <;> cases t' <;> simp_all [Term.cls, Term.isPath]
      exact path_unique hT h h' he hr hr' hl hp hp'
    have hb : ∀ {a b : Str} {c : Char}, c :: (a ++ [c]) = c :: (b ++ [c]) → a = b := by
      intro a b c h; simpa using h
    cases h with
    | @str x b hx =>
      cases t' <;> simp [Term.cls] at hcls
      cases h' with
      | @str x' b' hx' =>
        have e1 := lexStr_ok hx r pos0
        have e2 := lexStr_ok hx' r' pos0
        simp only [List.cons_append, List.append_assoc, List.nil_append] at he
        rw [he, e2] at e1
        simp only [Lex.ok.injEq] at e1
        obtain ⟨rfl, rfl, -⟩ := e1
        refine ⟨rfl, ?_⟩
        simp only [List.cons.injEq, true_and] at he
        have := List.append_cancel_right he
        rw [this]
    | @neg t s ht =>
      cases t' <;> simp [Term.cls] at hcls
      cases h' with
      | @neg t' s' ht' =>
        simp only [List.cons_append, List.cons.injEq, true_and] at he
        obtain ⟨rfl, rfl⟩ := hT _ _ _ _ _ _ ht ht' he hr hr' (by simpa using hl)
        exact ⟨rfl, rfl⟩
    | @pos t s ht =>
      cases t' <;> simp [Term.cls] at hcls
      cases h' with
      | @pos t' s' ht' =>
        simp only [List.cons_append, List.cons.injEq, true_and] at he
        obtain ⟨rfl, rfl⟩ := hT _ _ _ _ _ _ ht ht' he hr hr' (by simpa using hl)
        exact ⟨rfl, rfl⟩
    | @arr es s hi =>
      cases t' <;> simp [Term.cls] at hcls
      cases h' with
      | @arr es' s' hi' =>
        simp only [List.cons_append, List.cons.injEq, true_and, List.append_assoc, List.nil_append] at he
        simp only [List.length_cons, List.length_append] at hl
        obtain ⟨rfl, rfl⟩ := hI false (some ']') _ _ _ _ _ _ hi hi' he (.inr ⟨_, _, rfl, rfl, rfl, by decide⟩)
          (.inr ⟨_, _, rfl, rfl, rfl, by decide⟩) (by omega)
        exact ⟨rfl, rfl⟩
    | @tup es s hi =>
      cases t' <;> simp [Term.cls] at hcls
      cases h' with
      | @tup es' s' hi' =>
        simp only [List.cons_append, List.cons.injEq, true_and, List.append_assoc, List.nil_append] at he
        simp only [List.length_cons, List.length_append] at hl
        obtain ⟨rfl, rfl⟩ := hI false (some ')') _ _ _ _ _ _ hi hi' he (.inr ⟨_, _, rfl, rfl, rfl, by decide⟩)
          (.inr ⟨_, _, rfl, rfl, rfl, by decide⟩) (by omega)
        exact ⟨rfl, rfl⟩
    | @obj es s hi =>
      cases t' <;> simp [Term.cls] at hcls
      cases h' with
      | @obj es' s' hi' =>
        simp only [List.cons_append, List.cons.injEq, true_and, List.append_assoc, List.nil_append] at he
        simp only [List.length_cons, List.length_append] at hl
        obtain ⟨rfl, rfl⟩ := hF false (some '}') _ _ _ _ _ _ hi hi' he (.inr ⟨_, _, rfl, rfl, rfl, by decide⟩)
          (.inr ⟨_, _, rfl, rfl, rfl, by decide⟩) (by omega)
        exact ⟨rfl, rfl⟩
    | @incl e s hi =>
      cases t' <;> simp [Term.cls] at hcls
      · cases h' with
        | @incl e' s' hi' =>
          simp only [List.cons_append, List.cons.injEq, true_and, List.append_assoc, List.nil_append] at he
          simp only [List.length_cons, List.length_append] at hl
          obtain ⟨h1, rfl⟩ := hI false (some '>') _ _ _ _ _ _ hi hi' he (.inr ⟨_, _, rfl, rfl, rfl, by decide⟩)
            (.inr ⟨_, _, rfl, rfl, rfl, by decide⟩) (by omega)
          cases h1
          exact ⟨rfl, rfl⟩
      · cases h' with
        | @inclAs k' e' s' hi' =>
          simp only [List.cons_append, List.cons.injEq, true_and, List.append_assoc, List.nil_append] at he
          simp only [List.length_cons, List.length_append] at hl
          obtain ⟨h1, rfl⟩ := hI false (some '>') _ _ _ _ _ _ hi hi' he (.inr ⟨_, _, rfl, rfl, rfl, by decide⟩)
            (.inr ⟨_, _, rfl, rfl, rfl, by decide⟩) (by omega)
          cases h1
    | @inclAs k e s hi =>
      cases t' <;> simp [Term.cls] at hcls
      · cases h' with
        | @incl e' s' hi' =>
          simp only [List.cons_append, List.cons.injEq, true_and, List.append_assoc, List.nil_append] at he
          simp only [List.length_cons, List.length_append] at hl
          obtain ⟨h1, rfl⟩ := hI false (some '>') _ _ _ _ _ _ hi hi' he (.inr ⟨_, _, rfl, rfl, rfl, by decide⟩)
            (.inr ⟨_, _, rfl, rfl, rfl, by decide⟩) (by omega)
          cases h1
      · cases h' with
        | @inclAs k' e' s' hi' =>
          simp only [List.cons_append, List.cons.injEq, true_and, List.append_assoc, List.nil_append] at he
          simp only [List.length_cons, List.length_append] at hl
          obtain ⟨h1, rfl⟩ := hI false (some '>') _ _ _ _ _ _ hi hi' he (.inr ⟨_, _, rfl, rfl, rfl, by decide⟩)
            (.inr ⟨_, _, rfl, rfl, rfl, by decide⟩) (by omega)
          cases h1
          exact ⟨rfl, rfl⟩
    | _ => simp_all [Term.isNumber, Term.isPath]

theorem spDoc_unique {d d' : List Field} {s : Str} (h : SpDoc d s) (h' : SpDoc d' s) : d = d' :=
  (uFields (uExpr (uTerm s.length)) true none d d' s s [] [] h h' rfl (.inl ⟨rfl, rfl, rfl⟩)
    (.inl ⟨rfl, rfl, rfl⟩) (Nat.le_refl _)).1

theorem spItems_unique {d d' : List Expr} {s : Str} (h : SpItems true d s) (h' : SpItems true d' s) : d = d' :=
  (uItems (uExpr (uTerm s.length)) true none d d' s s [] [] h h' rfl (.inl ⟨rfl, rfl, rfl⟩)
    (.inl ⟨rfl, rfl, rfl⟩) (Nat.le_refl _)).1

end Over
