import Verif.Lemmas.Lex

/-!
# Tokens: field names, strings, names
-/

namespace Over

/-- Postcondition of a token-level function: no panic, `Q` on success, `E` on an error. -/
def Lex.post {α : Type} (r : Lex α) (Q : α → Str → Pos → Prop) (E : Kind → Prop) : Prop :=
  match r with
  | .ok a rest pos => Q a rest pos
  | .err k => E k
  | .panic => False

theorem Lex.post_mono {α : Type} {r : Lex α} {Q Q' : α → Str → Pos → Prop} {E E' : Kind → Prop}
    (h : r.post Q E) (hQ : ∀ a s p, Q a s p → Q' a s p) (hE : ∀ k, E k → E' k) : r.post Q' E' := by
  cases r with
  | ok a s p => exact hQ _ _ _ h
  | err k => exact hE _ h
  | panic => exact h

/-! ## Field names -/

/-- `n` is made of characters accepted by the field loop started with flag `first`. -/
def FieldChars [Unicode] : Bool → Str → Prop
  | _, [] => True
  | first, c :: cs => isValidFieldChar c first = true ∧ FieldChars false cs

theorem fieldChars_false [Unicode] (n : Str) : FieldChars false n ↔ ∀ d ∈ n, NameChar d := by
  induction n with
  | nil => simp [FieldChars]
  | cons c n ih => simp [FieldChars, ih, validFieldChar_false_iff]

theorem fieldGo_spec [Unicode] (full rest : Str) : ∀ (p : Pos) (first : Bool) (acc : Str),
    Here full rest p →
    (fieldGo rest p first acc).post
      (fun f rest' p' => ∃ n txt, f = acc ++ n ∧ FieldChars first n ∧ rest = txt ++ rest' ∧
        p' = p.advs txt ∧ ((txt = n ++ [':'] ∧ (first = true → n ≠ [])) ∨ rest' = []) ∧ n <+: txt)
      (KindIn full) := by
  induction rest with
  | nil =>
    intro p first acc _
    exact ⟨[], [], by simp, trivial, rfl, rfl, .inr rfl, List.prefix_rfl⟩
  | cons c cs ih =>
    intro p first acc h
    unfold fieldGo
    by_cases h1 : c = ':' ∧ (!first) = true
    · obtain ⟨rfl, h1⟩ := h1
      simp only [h1, and_self, if_true]
      exact ⟨[], [':'], by simp, trivial, rfl, rfl, .inl ⟨rfl, by simp at h1; simp [h1]⟩, List.nil_prefix⟩
    · simp only [h1, if_false]
      by_cases h2 : isValidFieldChar c first = true
      · simp only [h2, if_true]
        refine Lex.post_mono (ih (p.adv c) false (acc ++ [c]) h.adv) ?_ (fun _ h => h)
        rintro f rest' p' ⟨n, txt, h3, h4, h5, h6, h7, h8⟩
        refine ⟨c :: n, c :: txt, by simp [h3], ⟨h2, h4⟩, by simp [h5], by simp [h6], ?_, List.cons_prefix_cons.2 ⟨rfl, h8⟩⟩
        rcases h7 with ⟨h7, -⟩ | h7
        · left; exact ⟨by simp [h7], by simp⟩
        · right; exact h7
      · simp only [h2]
        obtain ⟨k, hk, hk2, -⟩ := h.charAt_prev
        simp only [hk]
        exact .invalidFieldChar hk2

theorem fieldGo_ok [Unicode] (n rest : Str) : ∀ (p : Pos) (first : Bool) (acc : Str),
    FieldChars first n → (first = true → n ≠ []) →
    fieldGo (n ++ ':' :: rest) p first acc = .ok (acc ++ n) rest (p.advs (n ++ [':'])) := by
  induction n with
  | nil =>
    intro p first acc _ h
    cases first with
    | true => exact absurd rfl (h rfl)
    | false => simp [fieldGo]
  | cons c n ih =>
    intro p first acc h1 _
    have hc : c ≠ ':' := by
      rintro rfl
      have := h1.1
      cases first with
      | true =>
        rw [validFieldChar_true_iff] at this
        rcases this with h | h
        · have := h.cases; char_omega
        · exact absurd h (by decide)
      | false =>
        rw [validFieldChar_false_iff] at this
        have := this.cases; char_omega
    simp only [List.cons_append, fieldGo, hc, false_and, if_false, h1.1, if_true]
    rw [ih _ _ _ h1.2 (by simp)]
    simp

/-- The definition target denoted by a classified field name. -/
def targetOf : Str × FieldType → Target
  | (f, .global) => .global f
  | (_, .parent) => .parent
  | (f, .regular) => .field f

theorem isReserved_iff (f : Str) : isReserved f = true ↔ f ∈ reservedWords := by
  simp [isReserved, reservedWords, or_assoc]

theorem lexField_spec [Unicode] (full rest : Str) (p : Pos) (h : Here full rest p) (hne : rest ≠ []) :
    (lexField rest p p.line p.col).post
      (fun x rest' p' => ∃ txt, txt ≠ [] ∧ rest = txt ++ rest' ∧ p' = p.advs txt ∧
        ((∃ n, txt = n ++ [':'] ∧ SpTarget (targetOf x) n) ∨ rest' = []) ∧
        (x.2 = .parent → x.1 = ['^']) ∧ x.1 <+: txt)
      (KindIn full) := by
  cases rest with
  | nil => exact absurd rfl hne
  | cons ch cs =>
    unfold lexField
    by_cases hg : ch = '@'
    · subst hg
      simp only [beq_self_eq_true, if_true]
      have := fieldGo_spec full cs (p.adv '@') true ['@'] h.adv
      cases hr : fieldGo cs (p.adv '@') true ['@'] with
      | panic => rw [hr] at this; exact this
      | err k => rw [hr] at this; exact this
      | ok f rest' p' =>
        rw [hr] at this
        obtain ⟨n, txt, h1, h2, h3, h4, h5, hpre⟩ := this
        simp only
        cases hcl : classifyField f true p.line p.col with
        | error k =>
          simp only [classifyField] at hcl
          have hw : WordAt full f p.line p.col := by
            obtain ⟨z, rfl⟩ := hpre
            have : Here full (f ++ (z ++ rest')) p := by
              rw [h1]; rw [h3] at h; simpa using h
            exact this.wordAt
          split_ifs at hcl <;> cases hcl <;> exact .invalidFieldName hw
        | ok x =>
          simp only [Lex.post]
          have hx : x = (f, .global) := by
            subst h1
            simp only [classifyField, List.cons_append, List.nil_append] at hcl
            split_ifs at hcl with h6 h7 h8
            · simp at h7
            · cases hcl; rfl
          subst hx
          refine ⟨'@' :: txt, by simp, by simp [h3], by simp [h4], ?_, by simp, by rw [h1]; exact List.cons_prefix_cons.2 ⟨rfl, hpre⟩⟩
          rcases h5 with ⟨h5, h6⟩ | h5
          · left
            refine ⟨'@' :: n, by simp [h5], ?_⟩
            cases n with
            | nil => exact absurd rfl (h6 rfl)
            | cons c n =>
              simp only [targetOf, h1]
              exact .global ((validFieldChar_true_iff c).1 h2.1) ((fieldChars_false n).1 h2.2)
          · right; exact h5
    · have hg' : (ch == '@') = false := by simpa using hg
      simp only [hg', Bool.false_eq_true, if_false]
      have := fieldGo_spec full (ch :: cs) p true [] h
      cases hr : fieldGo (ch :: cs) p true [] with
      | panic => rw [hr] at this; exact this
      | err k => rw [hr] at this; exact this
      | ok f rest' p' =>
        rw [hr] at this
        obtain ⟨n, txt, h1, h2, h3, h4, h5, hpre⟩ := this
        simp only [List.nil_append] at h1
        subst h1
        simp only
        cases hcl : classifyField f false p.line p.col with
        | error k =>
          simp only [classifyField] at hcl
          have hw : WordAt full f p.line p.col := by
            obtain ⟨z, rfl⟩ := hpre
            have : Here full (f ++ (z ++ rest')) p := by
              rw [h3] at h; simpa using h
            exact this.wordAt
          split_ifs at hcl <;> cases hcl <;> exact .invalidFieldName hw
        | ok x =>
          simp only [Lex.post]
          have htx : txt ≠ [] := by
            rintro rfl
            simp only [List.nil_append] at h3
            rcases h5 with ⟨h5, -⟩ | h5
            · simp at h5
            · simp [h5] at h3
          refine ⟨txt, htx, h3, h4, ?_, ?_, ?_⟩
          · rcases h5 with ⟨h5, h6⟩ | h5
            · left
              refine ⟨f, h5, ?_⟩
              cases f with
              | nil => exact absurd rfl (h6 rfl)
              | cons c n =>
                simp only [classifyField, Bool.false_eq_true, if_false] at hcl
                split_ifs at hcl with h7 h8 h9
                · cases hcl
                  simp only [targetOf]
                  have : c :: n = c!"^" := by simpa using h8
                  rw [this]; exact .parent
                · cases hcl
                  simp only [targetOf]
                  refine .field ⟨c, n, rfl, ?_, (fieldChars_false n).1 h2.2, ?_⟩
                  · rcases (validFieldChar_true_iff c).1 h2.1 with h | h
                    · exact h
                    · simp [h] at h9
                  · rw [← isReserved_iff]; exact h7
            · right; exact h5
          · intro hx
            simp only [classifyField, Bool.false_eq_true, if_false] at hcl
            split_ifs at hcl with h7 h8 h9
            · cases hcl
              simpa using h8
            · cases hcl; simp at hx
          · simp only [classifyField, Bool.false_eq_true, if_false] at hcl
            split_ifs at hcl with h7 h8 h9
            · cases hcl; exact hpre
            · cases hcl; exact hpre

theorem SpTarget.ne_nil [Unicode] {tg : Target} {n : Str} (h : SpTarget tg n) : n ≠ [] := by
  cases h with
  | field h => obtain ⟨c, cs, rfl, -⟩ := h; simp
  | global _ _ => simp
  | parent => simp

/-- The name stored for a target. -/
def Target.split : Target → Str × FieldType
  | .field f => (f, .regular)
  | .global f => (f, .global)
  | .parent => (['^'], .parent)

theorem SpTarget.split_name [Unicode] {tg : Target} {n : Str} (h : SpTarget tg n) : tg.split.1 = n := by
  cases h <;> rfl

theorem Target.split_parent {tg : Target} (h : tg.split.2 = .parent) : tg.split.1 = ['^'] := by
  cases tg <;> first | rfl | cases h

theorem lexField_ok [Unicode] {tg : Target} {n : Str} (h : SpTarget tg n) (rest : Str) (p : Pos)
    (l c : Nat) :
    lexField (n ++ ':' :: rest) p l c = .ok tg.split rest (p.advs (n ++ [':'])) := by
  cases h with
  | field h =>
    obtain ⟨ch, cs, rfl, h1, h2, h3⟩ := h
    have hat : (ch == '@') = false := by
      have := h1.cases
      simp only [beq_eq_false_iff_ne]; char_omega
    have hup : ch ≠ '^' := by have := h1.cases; char_omega
    have hf : FieldChars true (ch :: cs) :=
      ⟨(validFieldChar_true_iff ch).2 (.inl h1), (fieldChars_false cs).2 h2⟩
    have := fieldGo_ok (ch :: cs) rest p true [] hf (by simp)
    simp only [List.cons_append] at this
    simp only [List.cons_append, lexField, hat, Bool.false_eq_true, if_false, this, List.nil_append]
    have hr : isReserved (ch :: cs) = false := by
      rw [← Bool.not_eq_true, isReserved_iff]; exact h3
    simp [classifyField, hr, hup, Target.split]
  | @global ch cs h1 h2 =>
    have hf : FieldChars true (ch :: cs) :=
      ⟨(validFieldChar_true_iff ch).2 h1, (fieldChars_false cs).2 h2⟩
    have := fieldGo_ok (ch :: cs) rest (p.adv '@') true ['@'] hf (by simp)
    simp only [List.cons_append] at this
    simp only [List.cons_append, lexField, beq_self_eq_true, if_true, this]
    have hr : isReserved ('@' :: ch :: cs) = false := by
      simp [isReserved]
    simp [classifyField, hr, Target.split]
  | parent =>
    have hf : FieldChars true ['^'] := ⟨(validFieldChar_true_iff '^').2 (.inr rfl), trivial⟩
    have := fieldGo_ok ['^'] rest p true [] hf (by simp)
    simp only [List.cons_append, List.nil_append] at this
    simp [lexField, this, classifyField, isReserved, Target.split]

/-! ## Strings -/

theorem getEscapeChar_iff (e c : Char) : getEscapeChar e = some c ↔ (e, c) ∈ escapes := by
  constructor
  · intro h
    simp only [getEscapeChar] at h
    split_ifs at h <;> cases h <;> subst_vars <;> simp [escapes]
  · intro h
    simp only [escapes, List.mem_cons, Prod.mk.injEq, List.not_mem_nil, or_false] at h
    rcases h with ⟨rfl, rfl⟩ | ⟨rfl, rfl⟩ | ⟨rfl, rfl⟩ | ⟨rfl, rfl⟩ | ⟨rfl, rfl⟩ | ⟨rfl, rfl⟩ |
      ⟨rfl, rfl⟩ <;> decide

theorem strGo_spec [Unicode] (full rest : Str) : ∀ (p : Pos) (esc : Bool) (acc : Str), Here full rest p →
    (strGo rest p esc acc).post
      (fun s rest' p' => ∃ r b txt, s = acc ++ r ∧ StrBody r b ∧ txt ++ rest' = rest ∧
        p' = p.advs txt ∧ (if esc then '\\' :: txt else txt) = b ++ ['"'])
      (KindIn full) := by
  induction rest with
  | nil => intro p esc acc h; exact .unexpectedEnd h.end_line
  | cons c cs ih =>
    intro p esc acc h
    unfold strGo
    cases esc with
    | true =>
      simp only [if_true]
      cases he : getEscapeChar c with
      | some d =>
        simp only
        refine Lex.post_mono (ih (p.adv c) false (acc ++ [d]) h.adv) ?_ (fun _ h => h)
        rintro s rest' p' ⟨r, b, txt, h1, h2, h3, h4, h5⟩
        simp only [Bool.false_eq_true, if_false] at h5
        exact ⟨d :: r, '\\' :: c :: b, c :: txt, by simp [h1], .esc ((getEscapeChar_iff c d).1 he) h2,
          by simp [h3], by simp [h4], by simp [h5]⟩
      | none =>
        obtain ⟨k, hk, hk2, -⟩ := h.charAt_prev
        simp only [hk]
        exact .invalidEscapeChar hk2
    | false =>
      simp only [Bool.false_eq_true, if_false]
      by_cases h1 : c = '"'
      · subst h1
        simp only [if_true]
        exact ⟨[], [], ['"'], by simp, .nil, rfl, rfl, rfl⟩
      · simp only [h1, if_false]
        by_cases h2 : c = '\\'
        · subst h2
          simp only [if_true]
          refine Lex.post_mono (ih (p.adv '\\') true acc h.adv) ?_ (fun _ h => h)
          rintro s rest' p' ⟨r, b, txt, h3, h4, h5, h6, h7⟩
          exact ⟨r, b, '\\' :: txt, h3, h4, by simp [h5], by simp [h6], by simpa using h7⟩
        · simp only [h2, if_false]
          refine Lex.post_mono (ih (p.adv c) false (acc ++ [c]) h.adv) ?_ (fun _ h => h)
          rintro s rest' p' ⟨r, b, txt, h3, h4, h5, h6, h7⟩
          exact ⟨c :: r, c :: b, c :: txt, by simp [h3], .raw h1 h2 h4, by simp [h5], by simp [h6],
            by simpa using h7⟩

theorem strGo_ok {s b : Str} (h : StrBody s b) (rest : Str) : ∀ (p : Pos) (acc : Str),
    strGo (b ++ '"' :: rest) p false acc = .ok (acc ++ s) rest (p.advs (b ++ ['"'])) := by
  induction h with
  | nil => intro p acc; simp [strGo]
  | @raw c s b h1 h2 _ ih =>
    intro p acc
    simp only [List.cons_append, strGo, Bool.false_eq_true, if_false, h1, h2]
    rw [ih]; simp
  | @esc e c s b h1 _ ih =>
    intro p acc
    simp only [List.cons_append, strGo, Bool.false_eq_true, if_false,
      show ('\\' : Char) ≠ '"' by decide, if_true, (getEscapeChar_iff e c).2 h1]
    rw [ih]; simp

theorem lexStr_spec [Unicode] (full rest : Str) (p : Pos) (h : Here full ('"' :: rest) p) :
    (lexStr ('"' :: rest) p).post
      (fun s rest' p' => ∃ b, StrBody s b ∧ '"' :: rest = ('"' :: (b ++ ['"'])) ++ rest' ∧
        p' = p.advs ('"' :: (b ++ ['"'])))
      (KindIn full) := by
  simp only [lexStr, if_true]
  refine Lex.post_mono (strGo_spec full rest (p.adv '"') false [] h.adv) ?_ (fun _ h => h)
  rintro s rest' p' ⟨r, b, txt, h1, h2, h3, h4, h5⟩
  simp only [Bool.false_eq_true, if_false] at h5
  subst h5
  simp only [List.nil_append] at h1
  subst h1
  exact ⟨b, h2, by simp [← h3], by simp [h4]⟩

theorem lexStr_ok {s b : Str} (h : StrBody s b) (rest : Str) (p : Pos) :
    lexStr ('"' :: (b ++ '"' :: rest)) p = .ok s rest (p.advs ('"' :: (b ++ ['"']))) := by
  simp [lexStr, strGo_ok h]

/-! ## Names -/

/-- What may follow an operand: the end, or a character that ends a value. -/
def Follow (rest : Str) : Prop := rest = [] ∨ ∃ c r, rest = c :: r ∧ isValueEndChar c = true

/-- What follows the dot of a path. -/
def AfterDot [Unicode] : DotEnd → Str → Prop
  | .none, rest => Follow rest
  | .dot, rest => ∃ c r, rest = c :: r ∧ (isValidFieldChar c true || isNumericChar c) = true
  | .dotGlobal, rest => ∃ r, rest = '@' :: r

theorem varGo_spec [Unicode] (full rest : Str) : ∀ (p : Pos) (acc : Str), Here full rest p →
    (varGo rest p acc).post
      (fun x rest' p' => ∃ n txt, x.1 = acc ++ n ∧ (∀ d ∈ n, NameChar d) ∧ rest = txt ++ rest' ∧
        p' = p.advs txt ∧ txt = n ++ (if x.2 = .none then [] else ['.']) ∧ AfterDot x.2 rest')
      (KindIn full) := by
  induction rest with
  | nil =>
    intro p acc _
    exact ⟨[], [], by simp, by simp, rfl, rfl, rfl, .inl rfl⟩
  | cons c cs ih =>
    intro p acc h
    unfold varGo
    by_cases h1 : c = '.'
    · subst h1
      simp only [if_true]
      cases cs with
      | nil => exact .unexpectedEnd h.adv.end_line
      | cons c2 cs2 =>
        simp only
        by_cases h2 : c2 = '@'
        · subst h2
          simp only [if_true]
          exact ⟨[], ['.'], by simp, by simp, rfl, rfl, rfl, cs2, rfl⟩
        · simp only [h2, if_false]
          by_cases h3 : (isValidFieldChar c2 true || isNumericChar c2) = true
          · simp only [h3, if_true]
            exact ⟨[], ['.'], by simp, by simp, rfl, rfl, rfl, c2, cs2, rfl, h3⟩
          · simp only [h3]
            exact .invalidValueChar h.adv.charAt
    · simp only [h1, if_false]
      by_cases h2 : isValueEndChar c = true
      · simp only [h2, if_true]
        exact ⟨[], [], by simp, by simp, rfl, rfl, rfl, .inr ⟨c, cs, rfl, h2⟩⟩
      · simp only [h2]
        by_cases h3 : isValidFieldChar c false = true
        · simp only [h3, if_true]
          refine Lex.post_mono (ih (p.adv c) (acc ++ [c]) h.adv) ?_ (fun _ h => h)
          rintro ⟨f, dt⟩ rest' p' ⟨n, txt, h4, h5, h6, h7, h8, h9⟩
          refine ⟨c :: n, c :: txt, by simpa using h4, ?_, by simp [h6], by simp [h7], by simp [h8], h9⟩
          intro d hd
          rcases List.mem_cons.1 hd with rfl | hd
          · exact (validFieldChar_false_iff _).1 h3
          · exact h5 d hd
        · simp only [h3]
          exact .invalidValueChar h.charAt

theorem varGo_ok [Unicode] {n : Str} (hn : ∀ d ∈ n, NameChar d) (rest : Str) (hr : Follow rest) :
    ∀ (p : Pos) (acc : Str),
    varGo (n ++ rest) p acc = .ok (acc ++ n, .none) rest (p.advs n) := by
  induction n with
  | nil =>
    intro p acc
    rcases hr with rfl | ⟨c, r, rfl, hc⟩
    · simp [varGo]
    · have h1 : c ≠ '.' := by rintro rfl; exact absurd hc (by decide)
      simp [varGo, hc, h1]
  | cons c n ih =>
    intro p acc
    have hc := hn c (by simp)
    have h1 : c ≠ '.' := by have := hc.cases; char_omega
    simp only [List.cons_append, varGo, h1, if_false, hc.not_end, Bool.false_eq_true,
      (validFieldChar_false_iff c).2 hc, if_true]
    rw [ih (fun d hd => hn d (by simp [hd]))]; simp

theorem varGo_dot_ok [Unicode] {n : Str} (hn : ∀ d ∈ n, NameChar d) (c : Char) (rest : Str)
    (hr : c = '@' ∨ (isValidFieldChar c true || isNumericChar c) = true) : ∀ (p : Pos) (acc : Str),
    varGo (n ++ '.' :: c :: rest) p acc =
      .ok (acc ++ n, if c = '@' then .dotGlobal else .dot) (c :: rest) (p.advs (n ++ ['.'])) := by
  induction n with
  | nil =>
    intro p acc
    simp only [List.nil_append, varGo, if_true]
    by_cases h : c = '@'
    · simp [h]
    · rcases hr with hr | hr
      · exact absurd hr h
      · simp [h, hr]
  | cons d n ih =>
    intro p acc
    have hc := hn d (by simp)
    have h1 : d ≠ '.' := by have := hc.cases; char_omega
    simp only [List.cons_append, varGo, h1, if_false, hc.not_end, Bool.false_eq_true,
      (validFieldChar_false_iff d).2 hc, if_true]
    rw [ih (fun d hd => hn d (by simp [hd]))]; simp

theorem lexVar_spec [Unicode] (full rest : Str) (p : Pos) (h : Here full rest p) (hne : rest ≠ []) :
    (lexVar rest p).post
      (fun x rest' p' => ∃ txt, rest = txt ++ rest' ∧ txt = x.1 ++ (if x.2.2 = .none then [] else ['.']) ∧
        p' = p.advs txt ∧ AfterDot x.2.2 rest' ∧
        (if x.2.1 then ∃ n, x.1 = '@' :: n ∧ ∀ d ∈ n, NameChar d
          else (∀ d ∈ x.1, NameChar d) ∧ ∀ r, rest ≠ '@' :: r))
      (KindIn full) := by
  cases rest with
  | nil => exact absurd rfl hne
  | cons ch cs =>
    unfold lexVar
    by_cases hg : ch = '@'
    · subst hg
      simp only [beq_self_eq_true, if_true]
      have := varGo_spec full cs (p.adv '@') ['@'] h.adv
      cases hr : varGo cs (p.adv '@') ['@'] with
      | panic => rw [hr] at this; exact this
      | err k => rw [hr] at this; exact this
      | ok x rest' p' =>
        rw [hr] at this
        obtain ⟨n, txt, h1, h2, h3, h4, h5, h6⟩ := this
        obtain ⟨f, dt⟩ := x
        simp only at h1 h5 h6
        exact ⟨'@' :: txt, by simp [h3], by simp [h1, h5], by simp [h4], h6, n, by simp [h1], h2⟩
    · have hg' : (ch == '@') = false := by simpa using hg
      simp only [hg', Bool.false_eq_true, if_false]
      have := varGo_spec full (ch :: cs) p [] h
      cases hr : varGo (ch :: cs) p [] with
      | panic => rw [hr] at this; exact this
      | err k => rw [hr] at this; exact this
      | ok x rest' p' =>
        rw [hr] at this
        obtain ⟨n, txt, h1, h2, h3, h4, h5, h6⟩ := this
        obtain ⟨f, dt⟩ := x
        simp only [List.nil_append] at h1 h5 h6
        subst h1
        refine ⟨txt, h3, h5, h4, h6, ?_⟩
        simp only [Bool.false_eq_true, if_false]
        exact ⟨h2, by intro r hr; simp [hg] at hr⟩

/-- Whether a name is that of a global. -/
def isGlobalName (x : Str) : Bool := x.head? == some '@'

theorem lexVar_ok [Unicode] {x : Str} (hx : VarName x) (rest : Str) (hr : Follow rest) (p : Pos) :
    lexVar (x ++ rest) p = .ok (x, isGlobalName x, .none) rest (p.advs x) := by
  obtain ⟨c, cs, rfl, h1, h2⟩ := hx
  by_cases hc : c = '@'
  · subst hc
    simp only [List.cons_append, lexVar, beq_self_eq_true, if_true, varGo_ok h2 rest hr]
    simp [isGlobalName]
  · have hc' : (c == '@') = false := by simpa using hc
    have h1 : NameStart c := h1.resolve_right hc
    have := varGo_ok (n := c :: cs) (by
      intro d hd
      rcases List.mem_cons.1 hd with rfl | hd
      · exact h1.nameChar
      · exact h2 d hd) rest hr p []
    simp only [List.cons_append] at this
    simp only [List.cons_append, lexVar, hc', Bool.false_eq_true, if_false, this]
    simp [isGlobalName, hc]

theorem lexVar_dot_ok [Unicode] {x : Str} (hx : VarName x) (c : Char) (rest : Str)
    (hr : c = '@' ∨ (isValidFieldChar c true || isNumericChar c) = true) (p : Pos) :
    lexVar (x ++ '.' :: c :: rest) p =
      .ok (x, isGlobalName x, if c = '@' then .dotGlobal else .dot) (c :: rest) (p.advs (x ++ ['.'])) := by
  obtain ⟨d, cs, rfl, h1, h2⟩ := hx
  by_cases hc : d = '@'
  · subst hc
    simp only [List.cons_append, lexVar, beq_self_eq_true, if_true, varGo_dot_ok h2 c rest hr]
    simp [isGlobalName]
  · have hc' : (d == '@') = false := by simpa using hc
    have h1 : NameStart d := h1.resolve_right hc
    have := varGo_dot_ok (n := d :: cs) (by
      intro e hd
      rcases List.mem_cons.1 hd with rfl | hd
      · exact h1.nameChar
      · exact h2 e hd) c rest hr p []
    simp only [List.cons_append] at this
    simp only [List.cons_append, lexVar, hc', Bool.false_eq_true, if_false, this]
    simp [isGlobalName, hc]

end Over
