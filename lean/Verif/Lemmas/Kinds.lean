import Verif.Lemmas.Unamb

/-!
# A text that defines something is no sequence of values
-/

set_option linter.unusedSectionVars false

namespace Over

variable [Unicode]

attribute [local instance] noPanic

/-- A colon does not end a name in an expression. -/
theorem name_part {rest rest1 : Str} (hr : rest1 = [] ∨ ∃ c r, rest1 = c :: r ∧ (isValueEndChar c = true ∨ c = '.')) :
    ∀ (ns xs : Str), (∀ d ∈ ns, NameChar d ∨ d = '^') → (∀ d ∈ xs, NameChar d) → ns ++ ':' :: rest ≠ xs ++ rest1
  | [], [], _, _, e => by
    rcases hr with rfl | ⟨c, r, rfl, h⟩
    · simp at e
    · simp only [List.nil_append, List.cons.injEq] at e
      obtain ⟨rfl, -⟩ := e
      rcases h with h | h
      · exact absurd h (by decide)
      · exact absurd h (by decide)
  | [], x :: xs, _, hx, e => by
    simp only [List.nil_append, List.cons_append, List.cons.injEq] at e
    have := (hx x (by simp)).cases
    rw [← e.1] at this
    revert this; decide
  | n :: ns, [], hn, _, e => by
    have hc := hn n (by simp)
    rcases hr with rfl | ⟨c, r, rfl, h⟩
    · simp at e
    · simp only [List.nil_append, List.cons_append, List.cons.injEq] at e
      obtain ⟨rfl, -⟩ := e
      rcases hc with hc | rfl
      · rcases h with h | rfl
        · rw [hc.not_end] at h; cases h
        · have := hc.cases
          revert this; decide
      · rcases h with h | h
        · exact absurd h (by decide)
        · exact absurd h (by decide)
  | n :: ns, x :: xs, hn, hx, e => by
    simp only [List.cons_append, List.cons.injEq] at e
    exact name_part hr ns xs (fun d hd => hn d (by simp [hd])) (fun d hd => hx d (by simp [hd])) e.2

/-- A path begins with a name that ends at a dot or at the end of the path. -/
theorem SpTerm.pathName {t : Term} {s r : Str} (h : SpTerm t s) (hp : t.isPath = true) (hr : Follow r) :
    ∃ c cs rest1, s ++ r = c :: (cs ++ rest1) ∧ (NameStart c ∨ c = '@') ∧ (∀ d ∈ cs, NameChar d) ∧
      (rest1 = [] ∨ ∃ c r, rest1 = c :: r ∧ (isValueEndChar c = true ∨ c = '.')) := by
  cases h with
  | name h =>
    obtain ⟨c, cs, rfl, h1, h2⟩ := h
    refine ⟨c, cs, r, by simp, h1, h2, ?_⟩
    rcases hr with h | ⟨d, t, rfl, h⟩
    · exact .inl h
    · exact .inr ⟨d, t, rfl, .inl h⟩
  | dot h _ _ =>
    obtain ⟨c, cs, rfl, h1, h2⟩ := h
    exact ⟨c, cs, _, by simp; rfl, h1, h2, .inr ⟨_, _, rfl, .inr rfl⟩⟩
  | _ => cases hp

/-- No text is both an object body with definitions and a sequence of values. -/
theorem fields_not_items {fd : Field} {fds : List Field} {es : List Expr} {t : Str} (h : SpFields true (fd :: fds) t)
    (hi : SpItems true es t) : False := by
  generalize hd : fd :: fds = d at h
  cases h with
  | nil => cases hd
  | @cons _ g n g' s r tg e _ hg hn hg' he hf hs =>
  clear hd
  obtain ⟨c, n', rfl, hc⟩ := hn.head
  cases es with
  | nil =>
    cases hi with
    | nil hl =>
      exact (last_gap (eof := true) (brace := none) (r := []) hl (.inl ⟨rfl, rfl, rfl⟩)).2 g c (n' ++ ':' :: (g' ++ (s ++ r))) hg hc (by simp)
  | cons e' es =>
    generalize ht : g ++ (c :: n' ++ ':' :: (g' ++ (s ++ r))) = t at hi
    cases hi with
    | @cons _ g2 s2 r2 _ _ hg2 he2 hes hsep =>
    have hend := SpItems.exprEnd (eof := true) (brace := none) (tl := []) (.inl ⟨rfl, rfl, rfl⟩) hes hsep
    rw [List.append_nil] at hend
    obtain ⟨c2, s2', hs2, hc2⟩ := he2.head
    obtain ⟨-, hbody⟩ := gap_unique hg hg2 ht ⟨c, _, rfl, hc.1, hc.2.1⟩ ⟨c2, s2' ++ r2, by rw [hs2]; rfl, hc2.1, hc2.2.1⟩
    cases he2 with
    | @mk t2 ops s3 u ht2 hops =>
    have hfol := hops.follow hend
    rw [List.append_assoc] at hbody
    have hstart : NameStart c ∨ c = '@' ∨ c = '^' := by
      cases hn with
      | field h => obtain ⟨_, _, h1, h2, -⟩ := h; cases h1; exact .inl h2
      | global _ _ => exact .inr (.inl rfl)
      | parent => exact .inr (.inr rfl)
    have hcases : (97 ≤ c.toNat ∧ c.toNat ≤ 122) ∨ (64 ≤ c.toNat ∧ c.toNat ≤ 90) ∨ c.toNat = 94 ∨ c.toNat = 95 ∨ 127 < c.toNat := by
      rcases hstart with h | rfl | rfl
      · have := h.cases; omega
      · decide
      · decide
    have ne : ∀ d : Char, c.toNat ≠ d.toNat → c ≠ d := by rintro d hd rfl; exact hd rfl
    have hnum : isNumericChar c = false := by
      rw [← Bool.not_eq_true]
      simp only [isNumericChar, Bool.or_eq_true, beq_iff_eq, isDigit_nat, not_or]
      exact ⟨⟨by omega, ne '.' (by simp; omega)⟩, ne ',' (by simp; omega)⟩
    have hclass : headClass c = 8 := by
      simp [headClass, ne '"' (by simp; omega), ne '-' (by simp; omega), ne '+' (by simp; omega), ne '[' (by simp; omega),
        ne '(' (by simp; omega), ne '{' (by simp; omega), ne '<' (by simp; omega), hnum]
    obtain ⟨c3, s3', rfl, hcls⟩ := ht2.cls
    have hc3 : c = c3 := by simpa using (List.cons.inj hbody).1
    subst hc3
    have hpath : t2.isPath = true := by
      rw [hclass] at hcls
      cases t2 <;> first | rfl | (simp [Term.cls] at hcls)
    obtain ⟨c4, cs, rest1, e1, h1, h2, h3⟩ := ht2.pathName hpath hfol
    rw [e1] at hbody
    simp only [List.cons_append, List.cons.injEq] at hbody
    obtain ⟨rfl, hbody⟩ := hbody
    have hn' : ∀ d ∈ n', NameChar d ∨ d = '^' := by
      generalize hx : c :: n' = x at hn
      cases hn with
      | field h =>
        obtain ⟨_, _, rfl, -, h5, -⟩ := h
        cases hx
        exact fun d hd => .inl (h5 d hd)
      | @global c' cs' hA hB =>
        cases hx
        intro d hd
        rcases List.mem_cons.1 hd with rfl | hd
        · exact hA.imp NameStart.nameChar id
        · exact .inl (hB d hd)
      | parent => cases hx; simp
    exact name_part h3 n' cs hn' h2 hbody

end Over
