import Verif.Spec.Layout
import Verif.Lemmas.Unamb
import Verif.Lemmas.Continue

/-! # Texts that differ only in layout spell the same document -/

set_option linter.unusedSectionVars false

namespace Over

variable [Unicode]

attribute [local instance] noPanic

theorem Relaid.symm {s s' : Str} (h : Relaid s s') : Relaid s' s := by
  induction h with
  | same s => exact .same s
  | char h1 h2 h3 _ ih => exact .char h1 h2 h3 ih
  | string h1 _ ih => exact .string h1 ih
  | gap h1 h2 h3 h4 _ ih => exact .gap h2 h1 h4 h3 ih
  | after h1 h2 h3 _ ih => exact .after h1 h3 h2 ih
  | before h1 h2 h3 _ ih => exact .before h1 h3 h2 ih
  | last h1 h2 => exact .last h2 h1

theorem RelaidDoc.symm {s s' : Str} (h : RelaidDoc s s') : RelaidDoc s' s := by
  obtain ⟨g, g', t, t', h1, h2, h3, h4, h5⟩ := h
  exact ⟨g', g, t', t, h2, h1, h3.symm, h5, h4⟩

/-- Whitespace or the start of a comment. -/
def Blank (c : Char) : Prop := isUniWhitespace c = true ∨ c = '#'

theorem gap_blank {g : Str} {c : Char} {r : Str} (hg : Gap g) (he : g = c :: r) : Blank c := by
  cases hg with
  | nil => cases he
  | ws h _ => cases he; exact .inl h
  | comment _ _ => cases he; exact .inr rfl

theorem endGap_blank {g : Str} {c : Char} {r : Str} (hg : EndGap g) (he : g = c :: r) : Blank c := by
  obtain h | ⟨h, h2⟩ := hg
  · exact gap_blank h he
  · cases h with
    | nil => cases he; exact .inr rfl
    | ws h _ => cases he; exact .inl h
    | comment _ _ => cases he; exact .inr rfl

theorem gap_append_blank {g s : Str} {c : Char} {r : Str} (hg : Gap g) (hn : g ≠ []) (he : g ++ s = c :: r) : Blank c := by
  cases g with
  | nil => exact absurd rfl hn
  | cons d t => cases he; exact gap_blank hg rfl

/-- Characters that every layout keeps in place. -/
def Plain (c : Char) : Prop :=
  isUniWhitespace c = false ∧ c ≠ '#' ∧ c ≠ '"' ∧ c ∉ [':', '{', '[', '(', '<'] ∧ c ∉ ['}', ']', ')', '>']

theorem Plain.notBlank {c : Char} (h : Plain c) : ¬ Blank c := by
  rintro (h1 | h1)
  · rw [h.1] at h1; cases h1
  · exact h.2.1 h1

theorem relaid_plain {c : Char} {r s : Str} (hc : Plain c) (h : Relaid (c :: r) s) :
    ∃ r', s = c :: r' ∧ Relaid r r' := by
  generalize he : c :: r = x at h
  cases h with
  | same => exact ⟨r, he.symm, .same r⟩
  | char _ _ _ h => cases he; exact ⟨_, rfl, h⟩
  | string => cases he; exact absurd rfl hc.2.2.1
  | gap h1 _ h2 _ _ => exact absurd (gap_append_blank h1 h2 he.symm) hc.notBlank
  | after h1 _ _ _ => cases he; exact absurd h1 hc.2.2.2.1
  | @before c' g g' s1 s1' h1 h2 _ _ =>
    by_cases hg : g = []
    · subst hg; cases he; exact absurd h1 hc.2.2.2.2
    · exact absurd (gap_append_blank h2 hg he.symm) hc.notBlank
  | last h1 _ => exact absurd (endGap_blank h1 he.symm) hc.notBlank

theorem relaid_plains : ∀ {t r s : Str}, (∀ c ∈ t, Plain c) → Relaid (t ++ r) s →
    ∃ r', s = t ++ r' ∧ Relaid r r'
  | [], r, s, _, h => ⟨s, rfl, h⟩
  | c :: t, r, s, hc, h => by
    obtain ⟨r1, rfl, h1⟩ := relaid_plain (hc c (by simp)) h
    obtain ⟨r2, rfl, h2⟩ := relaid_plains (fun d hd => hc d (by simp [hd])) h1
    exact ⟨r2, rfl, h2⟩

theorem strBody_unique {x x' b b' s s' : Str} (h : StrBody x b) (h' : StrBody x' b')
    (he : b ++ '"' :: s = b' ++ '"' :: s') : b = b' ∧ s = s' := by
  induction h generalizing x' b' with
  | nil =>
    cases h' with
    | nil => simpa using he
    | raw h1 _ _ => simp only [List.nil_append, List.cons_append, List.cons.injEq] at he; exact absurd he.1.symm h1
    | esc _ _ => simp at he
  | raw h1 h2 h3 ih =>
    cases h' with
    | nil => simp only [List.nil_append, List.cons_append, List.cons.injEq] at he; exact absurd he.1 h1
    | raw _ _ h3' =>
      simp only [List.cons_append, List.cons.injEq] at he
      obtain ⟨rfl, he⟩ := he
      obtain ⟨rfl, rfl⟩ := ih h3' he
      exact ⟨rfl, rfl⟩
    | esc _ _ => simp only [List.cons_append, List.cons.injEq] at he; exact absurd he.1 h2
  | esc h1 h3 ih =>
    cases h' with
    | nil => simp at he
    | raw _ h2 h3' => simp only [List.cons_append, List.cons.injEq] at he; exact absurd he.1.symm h2
    | esc _ h3' =>
      simp only [List.cons_append, List.cons.injEq, true_and] at he
      obtain ⟨rfl, he⟩ := he
      obtain ⟨rfl, rfl⟩ := ih h3' he
      exact ⟨rfl, rfl⟩

theorem relaid_string {x b r s : Str} (hb : StrBody x b) (h : Relaid ('"' :: (b ++ '"' :: r)) s) :
    ∃ r', s = '"' :: (b ++ '"' :: r') ∧ Relaid r r' := by
  have nb : ¬ Blank '"' := by rintro (h | h) <;> exact absurd h (by decide)
  generalize he : '"' :: (b ++ '"' :: r) = z at h
  cases h with
  | same => exact ⟨r, he.symm, .same r⟩
  | char _ _ h1 h => cases he; exact absurd rfl h1
  | string hb' h =>
    simp only [List.cons.injEq, true_and] at he
    obtain ⟨rfl, rfl⟩ := strBody_unique hb hb' he
    exact ⟨_, rfl, h⟩
  | gap h1 _ h2 _ _ => exact absurd (gap_append_blank h1 h2 he.symm) nb
  | after h1 _ _ _ =>
    simp only [List.cons.injEq] at he
    rw [← he.1] at h1
    exact absurd h1 (by decide)
  | @before c' g g' s1 s1' h1 h2 _ _ =>
    by_cases hg : g = []
    · subst hg
      simp only [List.nil_append, List.cons.injEq] at he
      rw [← he.1] at h1
      exact absurd h1 (by decide)
    · exact absurd (gap_append_blank h2 hg he.symm) nb
  | last h1 _ => exact absurd (endGap_blank h1 he.symm) nb

/-- Related up to a gap in front. -/
def RelaidGap (s s' : Str) : Prop :=
  ∃ g g' t t', Gap g ∧ Gap g' ∧ Relaid t t' ∧ s = g ++ t ∧ s' = g' ++ t'

theorem relaid_open {c : Char} {r s : Str} (hc : c ∈ [':', '{', '[', '(', '<']) (h : Relaid (c :: r) s) :
    ∃ r', s = c :: r' ∧ RelaidGap r r' := by
  have nb : ¬ Blank c := by
    simp only [List.mem_cons, List.not_mem_nil, or_false] at hc
    rintro (h | h) <;> rcases hc with rfl | rfl | rfl | rfl | rfl <;> exact absurd h (by decide)
  generalize he : c :: r = x at h
  cases h with
  | same => exact ⟨r, he.symm, [], [], r, r, .nil, .nil, .same r, rfl, rfl⟩
  | char _ _ _ h => cases he; exact ⟨_, rfl, [], [], _, _, .nil, .nil, h, rfl, rfl⟩
  | string => cases he; exact absurd hc (by decide)
  | gap h1 _ h2 _ _ => exact absurd (gap_append_blank h1 h2 he.symm) nb
  | after h1 h2 h3 h4 => cases he; exact ⟨_, rfl, _, _, _, _, h2, h3, h4, rfl, rfl⟩
  | @before c' g g' s1 s1' h1 h2 _ _ =>
    by_cases hg : g = []
    · subst hg; cases he
      simp only [List.mem_cons, List.not_mem_nil, or_false] at hc h1
      rcases hc with rfl | rfl | rfl | rfl | rfl <;> exact absurd h1 (by decide)
    · exact absurd (gap_append_blank h2 hg he.symm) nb
  | last h1 _ => exact absurd (endGap_blank h1 he.symm) nb

theorem line_unique {x x' r r' : Str} (hx : '\n' ∉ x) (hx' : '\n' ∉ x') (he : x ++ '\n' :: r = x' ++ '\n' :: r') :
    x = x' ∧ r = r' := by
  induction x generalizing x' with
  | nil =>
    cases x' with
    | nil => simpa using he
    | cons d x' => simp only [List.nil_append, List.cons_append, List.cons.injEq] at he; simp [he.1.symm] at hx'
  | cons d x ihx =>
    cases x' with
    | nil => simp only [List.nil_append, List.cons_append, List.cons.injEq] at he; simp [he.1] at hx
    | cons d' x' =>
      simp only [List.cons_append, List.cons.injEq] at he
      obtain ⟨rfl, he⟩ := he
      simp only [List.mem_cons, not_or] at hx hx'
      obtain ⟨rfl, he2⟩ := ihx hx.2 hx'.2 he
      exact ⟨rfl, he2⟩

/-- A gap in front of a maximal gap is a part of it. -/
theorem gap_part {g1 s : Str} (h1 : Gap g1) : ∀ {g r : Str}, Gap g → FoundAt r ∨ r = [] → g1 ++ s = g ++ r →
    ∃ g2, g = g1 ++ g2 ∧ Gap g2 ∧ s = g2 ++ r := by
  induction h1 with
  | nil => intro g r hg _ he; exact ⟨g, rfl, hg, he⟩
  | @ws c t hc ht ih =>
    intro g r hg hr he
    cases hg with
    | nil =>
      simp only [List.cons_append, List.nil_append] at he
      rcases hr with ⟨c', r', rfl, h1, h2⟩ | rfl
      · cases he; rw [hc] at h1; cases h1
      · cases he
    | @ws c' t' hc' ht' =>
      simp only [List.cons_append, List.cons.injEq] at he
      obtain ⟨rfl, he⟩ := he
      obtain ⟨g2, rfl, h2, h3⟩ := ih ht' hr he
      exact ⟨g2, rfl, h2, h3⟩
    | comment _ _ =>
      simp only [List.cons_append, List.cons.injEq] at he
      rw [he.1] at hc; exact absurd hc (by decide)
  | @comment x t hx ht ih =>
    intro g r hg hr he
    cases hg with
    | nil =>
      simp only [List.cons_append, List.nil_append] at he
      rcases hr with ⟨c', r', rfl, h1, h2⟩ | rfl
      · cases he; exact absurd rfl h2
      · cases he
    | @ws c' t' hc' ht' =>
      simp only [List.cons_append, List.cons.injEq] at he
      rw [← he.1] at hc'; exact absurd hc' (by decide)
    | @comment x' t' hx' ht' =>
      simp only [List.cons_append, List.append_assoc, List.cons.injEq, true_and] at he
      obtain ⟨rfl, he2⟩ := line_unique hx hx' he
      obtain ⟨g2, rfl, h2, h3⟩ := ih ht' hr he2
      exact ⟨g2, by simp, h2, h3⟩

theorem endGap_part {g1 s : Str} (h1 : Gap g1) (h : EndGap (g1 ++ s)) : EndGap s := by
  induction h1 with
  | nil => exact h
  | @ws c t hc ht ih =>
    refine ih ?_
    generalize he : c :: t ++ s = y at h
    obtain h | ⟨h, h2⟩ := h
    · cases h with
      | nil => cases he
      | ws _ h => cases he; exact .gap h
      | comment _ _ =>
        simp only [List.cons_append, List.cons.injEq] at he
        rw [he.1] at hc; exact absurd hc (by decide)
    · cases h with
      | nil =>
        simp only [List.cons_append, List.nil_append, List.cons.injEq] at he
        rw [he.1] at hc; exact absurd hc (by decide)
      | ws _ h =>
        simp only [List.cons_append, List.cons.injEq] at he
        rw [he.2]; exact .comment h h2
      | comment _ _ =>
        simp only [List.cons_append, List.cons.injEq] at he
        rw [he.1] at hc; exact absurd hc (by decide)
  | @comment x t hx ht ih =>
    refine ih ?_
    generalize he : '#' :: (x ++ '\n' :: t) ++ s = y at h
    obtain h | ⟨h, h2⟩ := h
    · cases h with
      | nil => cases he
      | ws h _ =>
        simp only [List.cons_append, List.cons.injEq] at he
        rw [← he.1] at h; exact absurd h (by decide)
      | comment hx' h =>
        simp only [List.cons_append, List.append_assoc, List.cons.injEq, true_and] at he
        obtain ⟨rfl, he2⟩ := line_unique hx hx' he
        rw [he2]; exact .gap h
    · cases h with
      | nil =>
        simp only [List.cons_append, List.append_assoc, List.nil_append, List.cons.injEq, true_and] at he
        rw [← he] at h2; simp at h2
      | ws h _ =>
        simp only [List.cons_append, List.cons.injEq] at he
        rw [← he.1] at h; exact absurd h (by decide)
      | comment hx' h =>
        simp only [List.cons_append, List.append_assoc, List.cons.injEq, true_and] at he
        obtain ⟨rfl, he2⟩ := line_unique hx hx' he
        rw [he2]; exact .comment h h2

theorem found_notBlank {r : Str} {c : Char} {t : Str} (h : FoundAt r) (he : r = c :: t) : ¬ Blank c := by
  obtain ⟨d, u, rfl, h1, h2⟩ := h
  cases he
  rintro (h | h)
  · rw [h1] at h; cases h
  · exact h2 h

/-- A maximal gap in front of a character that is not a closing bracket. -/
theorem relaid_gap : ∀ (n : Nat) {g r s : Str}, g.length ≤ n → Gap g → FoundAt r →
    (∀ c t, r = c :: t → isEndDelimiter c = false) → Relaid (g ++ r) s →
    ∃ g' r', s = g' ++ r' ∧ Gap g' ∧ Relaid r r' ∧ (g = [] ↔ g' = [])
  | n, [], r, s, _, hg, _, _, h => ⟨[], s, rfl, .nil, h, Iff.rfl⟩
  | 0, c :: g, r, s, hl, _, _, _, _ => absurd hl (by simp)
  | n + 1, c :: g, r, s, hl, hg, hr, hd, h => by
    have hb : Blank c := gap_blank hg rfl
    generalize he : c :: g ++ r = x at h
    cases h with
    | same => exact ⟨c :: g, r, he.symm, hg, .same r, Iff.rfl⟩
    | char h1 h2 h3 h =>
      cases he
      rcases hb with hb | hb
      · rw [h1] at hb; cases hb
      · exact absurd hb h2
    | string =>
      simp only [List.cons_append, List.cons.injEq] at he
      rw [he.1] at hb
      rcases hb with h | h <;> exact absurd h (by decide)
    | @gap g1 g1' s1 s1' h1 h1' h2 h2' h3 =>
      obtain ⟨g2, e1, e2, e3⟩ := gap_part h1 hg (.inl hr) he.symm
      subst e3
      have hlen : g2.length ≤ n := by
        have := congrArg List.length e1
        simp only [List.length_append, List.length_cons] at this hl
        have : g1.length ≠ 0 := by simpa using h2
        omega
      obtain ⟨g', r', rfl, h4, h5, -⟩ := relaid_gap n hlen e2 hr hd h3
      refine ⟨g1' ++ g', r', by simp, gap_append h1' h4, h5, ?_⟩
      simp [h2']
    | after h1 _ _ _ =>
      simp only [List.cons_append, List.cons.injEq] at he
      rw [← he.1] at h1
      simp only [List.mem_cons, List.not_mem_nil, or_false] at h1
      rcases hb with h | h <;> rcases h1 with rfl | rfl | rfl | rfl | rfl <;> exact absurd h (by decide)
    | @before c1 g1 g1' s1 s1' h1 h2 _ _ =>
      have hdel : isEndDelimiter c1 = true := by
        simp only [List.mem_cons, List.not_mem_nil, or_false] at h1
        rcases h1 with rfl | rfl | rfl | rfl <;> decide
      obtain ⟨rfl, rfl⟩ := gap_unique hg h2 he hr (delim_found hdel)
      rw [hd _ _ rfl] at hdel; cases hdel
    | last h1 _ => exact absurd he.symm (endGap_not_found h1 hg hr)

/-- A maximal gap in front of a closing bracket. -/
theorem relaid_close : ∀ (n : Nat) {g r s : Str} {c : Char}, g.length ≤ n → Gap g → isEndDelimiter c = true →
    Relaid (g ++ c :: r) s → ∃ g' r', s = g' ++ c :: r' ∧ Gap g' ∧ Relaid r r'
  | n, [], r, s, d, _, hg, hd, h => by
    have nb : ¬ Blank d := found_notBlank (delim_found (r := r) hd) rfl
    generalize he : [] ++ d :: r = x at h
    rw [List.nil_append] at he
    cases h with
    | same => exact ⟨[], r, he.symm, .nil, .same r⟩
    | char _ _ _ h => cases he; exact ⟨[], _, rfl, .nil, h⟩
    | string => cases he; exact absurd hd (by decide)
    | gap h1 _ h2 _ _ => exact absurd (gap_append_blank h1 h2 he.symm) nb
    | after h1 _ _ _ =>
      cases he
      simp only [List.mem_cons, List.not_mem_nil, or_false] at h1
      rcases h1 with rfl | rfl | rfl | rfl | rfl <;> exact absurd hd (by decide)
    | @before c' g g' s1 s1' h1 h2 h2' h3 =>
      by_cases hg : g = []
      · subst hg; cases he; exact ⟨g', s1', rfl, h2', h3⟩
      · exact absurd (gap_append_blank h2 hg he.symm) nb
    | last h1 _ => exact absurd (endGap_blank h1 he.symm) nb
  | 0, c :: g, r, s, d, hl, _, _, _ => absurd hl (by simp)
  | n + 1, c :: g, r, s, d, hl, hg, hd, h => by
    have hb : Blank c := gap_blank hg rfl
    generalize he : c :: g ++ d :: r = x at h
    cases h with
    | same => exact ⟨c :: g, r, he.symm, hg, .same r⟩
    | char h1 h2 h3 h =>
      cases he
      rcases hb with hb | hb
      · rw [h1] at hb; cases hb
      · exact absurd hb h2
    | string =>
      simp only [List.cons_append, List.cons.injEq] at he
      rw [he.1] at hb
      rcases hb with h | h <;> exact absurd h (by decide)
    | @gap g1 g1' s1 s1' h1 h1' h2 h2' h3 =>
      obtain ⟨g2, e1, e2, e3⟩ := gap_part h1 hg (.inl (delim_found hd)) he.symm
      subst e3
      have hlen : g2.length ≤ n := by
        have := congrArg List.length e1
        simp only [List.length_append, List.length_cons] at this hl
        have : g1.length ≠ 0 := by simpa using h2
        omega
      obtain ⟨g', r', rfl, h4, h5⟩ := relaid_close n hlen e2 hd h3
      exact ⟨g1' ++ g', r', by simp, gap_append h1' h4, h5⟩
    | after h1 _ _ _ =>
      simp only [List.cons_append, List.cons.injEq] at he
      rw [← he.1] at h1
      simp only [List.mem_cons, List.not_mem_nil, or_false] at h1
      rcases hb with h | h <;> rcases h1 with rfl | rfl | rfl | rfl | rfl <;> exact absurd h (by decide)
    | @before c1 g1 g1' s1 s1' h1 h2 h2' h3 =>
      have hdel : isEndDelimiter c1 = true := by
        simp only [List.mem_cons, List.not_mem_nil, or_false] at h1
        rcases h1 with rfl | rfl | rfl | rfl <;> decide
      obtain ⟨rfl, e⟩ := gap_unique hg h2 he (delim_found hd) (delim_found hdel)
      cases e
      exact ⟨g1', s1', rfl, h2', h3⟩
    | last h1 _ => exact absurd he.symm (endGap_not_found h1 hg (delim_found hd))

/-- The gap at the end. -/
theorem relaid_end : ∀ (n : Nat) {g s : Str}, g.length ≤ n → EndGap g → Relaid g s → EndGap s
  | n, g, s, hl, hg, h => by
    cases h with
    | same => exact hg
    | last _ h => exact h
    | char h1 h2 h3 h =>
      have hb := endGap_blank hg rfl
      rcases hb with hb | hb
      · rw [h1] at hb; cases hb
      · exact absurd hb h2
    | string =>
      rcases endGap_blank hg rfl with h | h <;> exact absurd h (by decide)
    | @gap g1 g1' s1 s1' h1 h1' h2 h2' h3 =>
      have h4 := endGap_part h1 hg
      match n with
      | 0 => simp only [List.length_append] at hl; have : g1.length ≠ 0 := by simpa using h2
             omega
      | n + 1 =>
        have := relaid_end n (by
          simp only [List.length_append] at hl
          have : g1.length ≠ 0 := by simpa using h2
          omega) h4 h3
        exact lastGap_prefix (eof := true) h1' this
    | after h1 _ _ _ =>
      simp only [List.mem_cons, List.not_mem_nil, or_false] at h1
      have hb := endGap_blank hg rfl
      rcases hb with h | h <;> rcases h1 with rfl | rfl | rfl | rfl | rfl <;> exact absurd h (by decide)
    | @before c1 g1 g1' s1 s1' h1 h2 h2' h3 =>
      have hdel : isEndDelimiter c1 = true := by
        simp only [List.mem_cons, List.not_mem_nil, or_false] at h1
        rcases h1 with rfl | rfl | rfl | rfl <;> decide
      exact absurd rfl (endGap_not_found hg h2 (delim_found hdel))

/-! ## Tokens -/

theorem plain_nameChar {c : Char} (h : NameChar c) : Plain c := by
  have := h.cases
  simp only [Plain, List.mem_cons, List.not_mem_nil, or_false, not_or]
  refine ⟨?_, ?_, ?_, ⟨?_, ?_, ?_, ?_, ?_⟩, ?_, ?_, ?_, ?_⟩ <;> char_omega

theorem plain_nameStart {c : Char} (h : NameStart c) : Plain c := by
  rcases h with h | h
  · exact plain_nameChar (.inl h)
  · exact plain_nameChar (.inr (.inr h))

theorem plain_digit {c : Char} (h : decDigit c = true) : Plain c := plain_nameChar (.inr (.inl h))

theorem plain_run {s : Str} (h : DigitRun s) : ∀ c ∈ s, Plain c := by
  intro c hc
  rcases h.1 c hc with h | h
  · exact plain_digit h
  · exact plain_nameChar (.inr (.inr h))

theorem plain_frac {q : Rat} {s : Str} (h : FracLit q s) : ∀ c ∈ s, Plain c := by
  obtain ⟨w, sep, d, rfl, hs, h1, h2, -⟩ := h
  intro c hc
  simp only [List.mem_append, List.mem_cons] at hc
  rcases hc with hc | rfl | hc
  · exact plain_run h1 c hc
  · rcases hs with rfl | rfl <;> simp only [Plain] <;> decide
  · exact plain_run h2 c hc

theorem plain_var {x : Str} (h : VarName x) : ∀ c ∈ x, Plain c := by
  obtain ⟨d, cs, rfl, h1, h2⟩ := h
  intro c hc
  rcases List.mem_cons.1 hc with rfl | hc
  · rcases h1 with h1 | rfl
    · exact plain_nameStart h1
    · simp only [Plain]; decide
  · exact plain_nameChar (h2 c hc)

theorem plain_target {tg : Target} {x : Str} (h : SpTarget tg x) : ∀ c ∈ x, Plain c := by
  cases h with
  | field h => exact plain_var h.varName
  | global h1 h2 =>
    intro c hc
    rcases List.mem_cons.1 hc with rfl | hc
    · simp only [Plain]; decide
    rcases List.mem_cons.1 hc with rfl | hc
    · rcases h1 with h1 | rfl
      · exact plain_nameStart h1
      · simp only [Plain]; decide
    · exact plain_nameChar (h2 c hc)
  | parent =>
    intro c hc
    simp only [List.mem_cons, List.not_mem_nil, or_false] at hc
    subst hc
    simp only [Plain]; decide

theorem plain_op (op : BinOp) : Plain (opChar op) := by
  cases op <;> simp only [Plain] <;> decide

/-! ## Trees -/

def RTerm (n : Nat) : Prop := ∀ (t : Term) (s r s' : Str), s.length ≤ n → SpTerm t s → Relaid (s ++ r) s' →
  ∃ s1 r', s' = s1 ++ r' ∧ SpTerm t s1 ∧ Relaid r r'
def RExpr (n : Nat) : Prop := ∀ (t : Expr) (s r s' : Str), s.length ≤ n → SpExpr t s → Relaid (s ++ r) s' →
  ∃ s1 r', s' = s1 ++ r' ∧ SpExpr t s1 ∧ Relaid r r'

/-- The closing brackets correspond, or both texts are at their ends. -/
def RTail (r r' : Str) : Prop := (r = [] ∧ r' = []) ∨ ∃ c x x', r = c :: x ∧ r' = c :: x' ∧ Relaid x x'

def RItems (n : Nat) : Prop := ∀ (eof : Bool) (brace : Option Char) (es : List Expr) (s r s' : Str), s.length ≤ n →
  SpItems eof es s → Closes eof brace r → Relaid (s ++ r) s' →
  ∃ s1 r', s' = s1 ++ r' ∧ SpItems eof es s1 ∧ RTail r r' ∧ (es ≠ [] → StartsSeparated s → StartsSeparated s1)
def RFields (n : Nat) : Prop := ∀ (eof : Bool) (brace : Option Char) (es : List Field) (s r s' : Str), s.length ≤ n →
  SpFields eof es s → Closes eof brace r → Relaid (s ++ r) s' →
  ∃ s1 r', s' = s1 ++ r' ∧ SpFields eof es s1 ∧ RTail r r' ∧ (es ≠ [] → StartsSeparated s → StartsSeparated s1)

theorem rOps {n : Nat} (hT : RTerm n) : ∀ (ops : List OpTerm) (s r s' : Str), s.length ≤ n → SpOps ops s →
    Relaid (s ++ r) s' → ∃ s1 r', s' = s1 ++ r' ∧ SpOps ops s1 ∧ Relaid r r'
  | [], s, r, s', hl, h, hr => by cases h; exact ⟨[], s', rfl, .nil, hr⟩
  | _ :: ops, s, r, s', hl, h, hr => by
    cases h with
    | @cons op t _ s1 u ht hu =>
      simp only [List.length_cons, List.length_append] at hl
      simp only [List.cons_append, List.append_assoc] at hr
      obtain ⟨r1, rfl, h1⟩ := relaid_plain (plain_op op) hr
      obtain ⟨s2, r2, rfl, h2, h3⟩ := hT _ _ _ _ (by omega) ht h1
      obtain ⟨s3, r3, rfl, h4, h5⟩ := rOps hT ops _ _ _ (by omega) hu h3
      exact ⟨opChar op :: (s2 ++ s3), r3, by simp, .cons h2 h4, h5⟩

theorem rExpr {n : Nat} (hT : RTerm n) : RExpr n := by
  intro e s r s' hl h hr
  cases h with
  | mk ht hu =>
    simp only [List.length_append] at hl
    simp only [List.append_assoc] at hr
    obtain ⟨s2, r2, rfl, h2, h3⟩ := hT _ _ _ _ (by omega) ht hr
    obtain ⟨s3, r3, rfl, h4, h5⟩ := rOps hT _ _ _ _ (by omega) hu h3
    exact ⟨s2 ++ s3, r3, by simp, .mk h2 h4, h5⟩

theorem starts_gap {g r : Str} {c : Char} {t : Str} (hr : r = c :: t) (hc : TermStart c) (h : StartsSeparated (g ++ r)) : g ≠ [] := by
  rintro rfl
  obtain ⟨d, u, h1, h2⟩ := h
  rw [hr] at h1
  cases h1
  rcases h2 with h2 | h2
  · rw [hc.1] at h2; cases h2
  · exact hc.2.1 h2

theorem gap_separated {g r : Str} (hg : Gap g) (hn : g ≠ []) : StartsSeparated (g ++ r) := by
  rcases gap_head hg with rfl | ⟨c, t, rfl, hc⟩
  · exact absurd rfl hn
  · exact ⟨c, _, rfl, hc⟩

theorem rLast {eof : Bool} {brace : Option Char} {g r s' : Str} (hg : LastGap eof g) (hc : Closes eof brace r)
    (hr : Relaid (g ++ r) s') : ∃ s1 r', s' = s1 ++ r' ∧ LastGap eof s1 ∧ RTail r r' := by
  rcases hc with ⟨rfl, rfl, rfl⟩ | ⟨d, x, rfl, rfl, rfl, hd⟩
  · rw [List.append_nil] at hr
    exact ⟨s', [], by simp, relaid_end _ (Nat.le_refl _) hg hr, .inl ⟨rfl, rfl⟩⟩
  · obtain ⟨g', r', rfl, h1, h2⟩ := relaid_close _ (Nat.le_refl _) hg hd hr
    exact ⟨g', _, rfl, h1, .inr ⟨d, x, r', rfl, rfl, h2⟩⟩

theorem rItems {n : Nat} (hE : RExpr n) : RItems n := by
  intro eof brace es
  induction es with
  | nil =>
    intro s r s' hl h hc hr
    cases h with
    | nil hg =>
      obtain ⟨s1, r', h1, h2, h3⟩ := rLast hg hc hr
      exact ⟨s1, r', h1, .nil h2, h3, fun h => absurd rfl h⟩
  | cons e es ih =>
    intro s r s' hl h hc hr
    cases h with
    | @cons _ g s1 r1 _ _ hg hx hi hs =>
      obtain ⟨c, t, hst, ht⟩ := hx.head
      simp only [List.length_append] at hl
      simp only [List.append_assoc] at hr
      have hst' : s1 ++ (r1 ++ r) = c :: (t ++ (r1 ++ r)) := by rw [hst]; rfl
      obtain ⟨g', x', rfl, h1, h2, h3⟩ := relaid_gap _ (Nat.le_refl _) hg (by rw [hst']; exact ht.found)
        (by intro c' t' he; rw [hst'] at he; cases he; exact ht.2.2) hr
      obtain ⟨s1', x2, rfl, h4, h5⟩ := hE _ _ _ _ (by omega) hx h2
      obtain ⟨r1', r', rfl, h6, h7, h8⟩ := ih _ _ _ (by omega) hi hc h5
      refine ⟨g' ++ (s1' ++ r1'), r', by simp, .cons h1 h4 h6 ?_, h7, ?_⟩
      · by_cases he : es = []
        · exact .inl he
        · exact .inr (h8 he (hs.resolve_left he))
      · intro _ hsep
        have : g ≠ [] := starts_gap (r := s1 ++ r1) (by rw [hst]; rfl) ht hsep
        exact gap_separated h1 (fun h => this (h3.2 h))

theorem rFields {n : Nat} (hE : RExpr n) : RFields n := by
  intro eof brace es
  induction es with
  | nil =>
    intro s r s' hl h hc hr
    cases h with
    | nil hg =>
      obtain ⟨s1, r', h1, h2, h3⟩ := rLast hg hc hr
      exact ⟨s1, r', h1, .nil h2, h3, fun h => absurd rfl h⟩
  | cons e es ih =>
    intro s r s' hl h hc hr
    cases h with
    | @cons _ g nm g2 s1 r1 tg e _ hg htg hg2 hx hi hs =>
      obtain ⟨c, t, hst, ht⟩ := htg.head
      simp only [List.length_append, List.length_cons] at hl
      simp only [List.append_assoc, List.cons_append] at hr
      have hst' : nm ++ ':' :: (g2 ++ (s1 ++ (r1 ++ r))) = c :: (t ++ ':' :: (g2 ++ (s1 ++ (r1 ++ r)))) := by
        rw [hst]; rfl
      obtain ⟨g', x', rfl, h1, h2, h3⟩ := relaid_gap _ (Nat.le_refl _) hg (by rw [hst']; exact ht.found)
        (by intro c' t' he; rw [hst'] at he; cases he; exact ht.2.2) hr
      obtain ⟨x2, rfl, h4⟩ := relaid_plains (plain_target htg) h2
      obtain ⟨x3, rfl, ⟨a, a', b, b', h5, h6, h7, h8, rfl⟩⟩ := relaid_open (by decide) h4
      obtain ⟨d, u, hx1, hd⟩ := hx.head
      have hx' : s1 ++ (r1 ++ r) = d :: (u ++ (r1 ++ r)) := by rw [hx1]; rfl
      obtain ⟨g3, h9, h10, rfl⟩ := gap_part h5 hg2 (.inl (by rw [hx']; exact hd.found)) h8.symm
      obtain ⟨g4, x4, rfl, h11, h12, -⟩ := relaid_gap _ (Nat.le_refl _) h10 (by rw [hx']; exact hd.found)
        (by intro c' t' he; rw [hx'] at he; cases he; exact hd.2.2) h7
      obtain ⟨s1', x5, rfl, h13, h14⟩ := hE _ _ _ _ (by omega) hx h12
      obtain ⟨r1', r', rfl, h15, h16, h17⟩ := ih _ _ _ (by omega) hi hc h14
      refine ⟨g' ++ (nm ++ ':' :: ((a' ++ g4) ++ (s1' ++ r1'))), r', by simp,
        .cons h1 htg (gap_append h6 h11) h13 h15 ?_, h16, ?_⟩
      · by_cases he : es = []
        · exact .inl he
        · exact .inr (h17 he (hs.resolve_left he))
      · intro _ hsep
        have : g ≠ [] := starts_gap (r := nm ++ ':' :: (g2 ++ (s1 ++ r1))) (by rw [hst]; rfl) ht hsep
        exact gap_separated h1 (fun h => this (h3.2 h))

/-- Taking a gap off the front of a body. -/
theorem lastGap_strip {eof : Bool} {brace : Option Char} {g g0 r x : Str} (hg : Gap g) (h : LastGap eof g0)
    (hc : Closes eof brace r) (he : g0 ++ r = g ++ x) : ∃ s0, g0 = g ++ s0 ∧ x = s0 ++ r ∧ LastGap eof s0 := by
  rcases hc with ⟨rfl, rfl, rfl⟩ | ⟨d, y, rfl, rfl, rfl, hd⟩
  · rw [List.append_nil] at he
    subst he
    exact ⟨x, rfl, by simp, endGap_part hg h⟩
  · obtain ⟨g2, h1, h2, h3⟩ := gap_part hg h (.inl (delim_found hd)) he.symm
    exact ⟨g2, h1, h3, h2⟩

theorem items_strip {eof : Bool} {brace : Option Char} {es : List Expr} {g s r x : Str} (hg : Gap g)
    (h : SpItems eof es s) (hc : Closes eof brace r) (he : s ++ r = g ++ x) :
    ∃ s0, s = g ++ s0 ∧ x = s0 ++ r ∧ SpItems eof es s0 := by
  cases h with
  | nil h =>
    obtain ⟨s0, h1, h2, h3⟩ := lastGap_strip hg h hc he
    exact ⟨s0, h1, h2, .nil h3⟩
  | @cons _ g0 s1 r1 e es h1 h2 h3 h4 =>
    obtain ⟨c, t, hst, ht⟩ := h2.head
    simp only [List.append_assoc] at he
    obtain ⟨g2, rfl, h6, h7⟩ := gap_part hg h1 (.inl (by rw [hst]; exact ht.found)) he.symm
    exact ⟨g2 ++ (s1 ++ r1), by simp, by rw [h7]; simp, .cons h6 h2 h3 h4⟩

theorem fields_strip {eof : Bool} {brace : Option Char} {es : List Field} {g s r x : Str} (hg : Gap g)
    (h : SpFields eof es s) (hc : Closes eof brace r) (he : s ++ r = g ++ x) :
    ∃ s0, s = g ++ s0 ∧ x = s0 ++ r ∧ SpFields eof es s0 := by
  cases h with
  | nil h =>
    obtain ⟨s0, h1, h2, h3⟩ := lastGap_strip hg h hc he
    exact ⟨s0, h1, h2, .nil h3⟩
  | @cons _ g0 nm g' s1 r1 tg e es h1 h2 h3 h4 h5 h8 =>
    obtain ⟨c, t, hst, ht⟩ := h2.head
    simp only [List.append_assoc, List.cons_append] at he
    obtain ⟨g2, rfl, h6, h7⟩ := gap_part hg h1 (.inl (by rw [hst]; exact ht.found)) he.symm
    exact ⟨g2 ++ (nm ++ ':' :: (g' ++ (s1 ++ r1))), by simp, by rw [h7]; simp, .cons h6 h2 h3 h4 h5 h8⟩

theorem spItems_prefix {eof : Bool} {g u : Str} {es : List Expr} (hg : Gap g) (h : SpItems eof es u) :
    SpItems eof es (g ++ u) := by
  cases h with
  | nil h => exact .nil (lastGap_prefix hg h)
  | cons h1 h2 h3 h4 =>
    rw [← List.append_assoc]
    exact .cons (gap_append hg h1) h2 h3 h4

theorem rItemsGap {n : Nat} (hI : RItems n) {eof : Bool} {brace : Option Char} {es : List Expr} {s r s' : Str}
    (hl : s.length ≤ n) (h : SpItems eof es s) (hc : Closes eof brace r) (hr : RelaidGap (s ++ r) s') :
    ∃ s1 r', s' = s1 ++ r' ∧ SpItems eof es s1 ∧ RTail r r' := by
  obtain ⟨g, g', t, t', h1, h2, h3, h4, rfl⟩ := hr
  obtain ⟨s0, rfl, rfl, h5⟩ := items_strip h1 h hc h4
  obtain ⟨s1, r', rfl, h6, h7, -⟩ := hI eof brace es s0 r t' (by simp only [List.length_append] at hl; omega) h5 hc h3
  exact ⟨g' ++ s1, r', by simp, spItems_prefix h2 h6, h7⟩

theorem rFieldsGap {n : Nat} (hI : RFields n) {eof : Bool} {brace : Option Char} {es : List Field} {s r s' : Str}
    (hl : s.length ≤ n) (h : SpFields eof es s) (hc : Closes eof brace r) (hr : RelaidGap (s ++ r) s') :
    ∃ s1 r', s' = s1 ++ r' ∧ SpFields eof es s1 ∧ RTail r r' := by
  obtain ⟨g, g', t, t', h1, h2, h3, h4, rfl⟩ := hr
  obtain ⟨s0, rfl, rfl, h5⟩ := fields_strip h1 h hc h4
  obtain ⟨s1, r', rfl, h6, h7, -⟩ := hI eof brace es s0 r t' (by simp only [List.length_append] at hl; omega) h5 hc h3
  exact ⟨g' ++ s1, r', by simp, spFields_prefix h2 h6, h7⟩

theorem RTail.cons {c : Char} {r r' : Str} (h : RTail (c :: r) r') : ∃ x, r' = c :: x ∧ Relaid r x := by
  rcases h with ⟨h, -⟩ | ⟨d, x, x', h1, h2, h3⟩
  · cases h
  · cases h1; exact ⟨x', h2, h3⟩

theorem rTerm : ∀ n, RTerm n
  | 0 => by
    intro t s r s' hl h
    exact absurd (List.length_eq_zero_iff.1 (by omega)) h.ne_nil
  | n + 1 => by
    have hT := rTerm n
    have hI := rItems (rExpr hT)
    have hF := rFields (rExpr hT)
    intro t s r s' hl h hr
    have body : ∀ (o c : Char) (es : List Expr) (b : Str), o ∈ [':', '{', '[', '(', '<'] → isEndDelimiter c = true →
        b.length ≤ n → SpItems false es b → Relaid (o :: (b ++ [c]) ++ r) s' →
        ∃ b' r', s' = o :: (b' ++ [c]) ++ r' ∧ SpItems false es b' ∧ Relaid r r' := by
      intro o c es b ho hc hb hi hr
      obtain ⟨x, rfl, h1⟩ := relaid_open ho hr
      change RelaidGap ((b ++ [c]) ++ r) x at h1
      rw [List.append_assoc, List.singleton_append] at h1
      obtain ⟨s1, r', rfl, h2, h3⟩ := rItemsGap hI hb hi (.inr ⟨c, r, rfl, rfl, rfl, hc⟩) h1
      obtain ⟨y, rfl, h4⟩ := h3.cons
      exact ⟨s1, y, by simp, h2, h4⟩
    cases h with
    | @str x b hb =>
      simp only [List.cons_append, List.append_assoc, List.nil_append] at hr
      obtain ⟨r', rfl, h1⟩ := relaid_string hb hr
      exact ⟨'"' :: (b ++ ['"']), r', by simp, .str hb, h1⟩
    | int hi =>
      obtain ⟨r', rfl, h1⟩ := relaid_plains (plain_run hi.1) hr
      exact ⟨_, r', rfl, .int hi, h1⟩
    | frac hq =>
      obtain ⟨r', rfl, h1⟩ := relaid_plains (plain_frac hq) hr
      exact ⟨_, r', rfl, .frac hq, h1⟩
    | name hx =>
      obtain ⟨r', rfl, h1⟩ := relaid_plains (plain_var hx) hr
      exact ⟨_, r', rfl, .name hx, h1⟩
    | @dot x u t hx ha ht =>
      simp only [List.cons_append, List.append_assoc] at hr
      simp only [List.length_append, List.length_cons] at hl
      obtain ⟨r1, rfl, h1⟩ := relaid_plains (plain_var hx) hr
      obtain ⟨r2, rfl, h2⟩ := relaid_plain (by simp only [Plain]; decide) h1
      obtain ⟨s1, r3, rfl, h3, h4⟩ := hT _ _ _ _ (by omega) ht h2
      exact ⟨x ++ '.' :: s1, r3, by simp, .dot hx ha h3, h4⟩
    | @neg t u ht =>
      simp only [List.length_cons] at hl
      obtain ⟨r2, rfl, h2⟩ := relaid_plain (by simp only [Plain]; decide) hr
      obtain ⟨s1, r3, rfl, h3, h4⟩ := hT _ _ _ _ (by omega) ht h2
      exact ⟨'-' :: s1, r3, by simp, .neg h3, h4⟩
    | @pos t u ht =>
      simp only [List.length_cons] at hl
      obtain ⟨r2, rfl, h2⟩ := relaid_plain (by simp only [Plain]; decide) hr
      obtain ⟨s1, r3, rfl, h3, h4⟩ := hT _ _ _ _ (by omega) ht h2
      exact ⟨'+' :: s1, r3, by simp, .pos h3, h4⟩
    | arr hi =>
      simp only [List.length_append, List.length_cons] at hl
      obtain ⟨b', r', rfl, h1, h2⟩ := body '[' ']' _ _ (by decide) (by decide) (by omega) hi hr
      exact ⟨_, r', rfl, .arr h1, h2⟩
    | tup hi =>
      simp only [List.length_append, List.length_cons] at hl
      obtain ⟨b', r', rfl, h1, h2⟩ := body '(' ')' _ _ (by decide) (by decide) (by omega) hi hr
      exact ⟨_, r', rfl, .tup h1, h2⟩
    | incl hi =>
      simp only [List.length_append, List.length_cons] at hl
      obtain ⟨b', r', rfl, h1, h2⟩ := body '<' '>' _ _ (by decide) (by decide) (by omega) hi hr
      exact ⟨_, r', rfl, .incl h1, h2⟩
    | inclAs hi =>
      simp only [List.length_append, List.length_cons] at hl
      obtain ⟨b', r', rfl, h1, h2⟩ := body '<' '>' _ _ (by decide) (by decide) (by omega) hi hr
      exact ⟨_, r', rfl, .inclAs h1, h2⟩
    | @obj fs b hi =>
      simp only [List.length_append, List.length_cons] at hl
      obtain ⟨x, rfl, h1⟩ := relaid_open (by decide) hr
      change RelaidGap ((b ++ ['}']) ++ r) x at h1
      rw [List.append_assoc, List.singleton_append] at h1
      obtain ⟨s1, r', rfl, h2, h3⟩ := rFieldsGap hF (by omega) hi (.inr ⟨'}', r, rfl, rfl, rfl, by decide⟩) h1
      obtain ⟨y, rfl, h4⟩ := h3.cons
      exact ⟨'{' :: (s1 ++ ['}']), y, by simp, .obj h2, h4⟩

/-- Texts that differ only in layout spell the same documents. -/
theorem spDoc_relaid {d : List Field} {s s' : Str} (h : RelaidDoc s s') (hd : SpDoc d s) : SpDoc d s' := by
  have hF := rFields (rExpr (rTerm s.length))
  obtain ⟨s1, r', rfl, h1, h2⟩ := rFieldsGap hF (Nat.le_refl _) hd (r := []) (.inl ⟨rfl, rfl, rfl⟩)
    (by rw [List.append_nil]; exact h)
  rcases h2 with ⟨-, rfl⟩ | ⟨c, x, x', h3, -⟩
  · rw [List.append_nil]; exact h1
  · cases h3

theorem spDoc_relaid_iff {d : List Field} {s s' : Str} (h : RelaidDoc s s') : SpDoc d s ↔ SpDoc d s' :=
  ⟨spDoc_relaid h, spDoc_relaid h.symm⟩

end Over
