import Verif.Lemmas.Lines
import Verif.Lemmas.Session

/-! # Every line of written text is tidy -/

namespace Over

/-- What a prefix of a tidy line may be. -/
def TidyPrefix (s : Str) : Prop := s ≠ [] ∧ s.head? ≠ some ' ' ∧ '\n' ∉ s ∧ '\r' ∉ s ∧ '\t' ∉ s

theorem TidyLine.plain {s : Str} (h : TidyPrefix s) (hl : s.getLast? ≠ some ' ') : TidyLine s :=
  ⟨0, s, rfl, h.1, h.2.1, hl, h.2.2⟩

theorem TidyLine.shift {l : Str} (h : TidyLine l) : TidyLine (c!"    " ++ l) := by
  obtain ⟨k, b, rfl, h1, h2, h3, h4, h5, h6⟩ := h
  refine ⟨k + 1, b, ?_, h1, h2, h3, ?_, ?_, ?_⟩
  · rw [show 4 * (k + 1) = 4 + 4 * k by omega, List.replicate_add, List.append_assoc]; rfl
  · simpa using h4
  · simpa using h5
  · simpa using h6

theorem TidyLine.before {s l : Str} (hs : TidyPrefix s) (h : TidyLine l) : TidyLine (s ++ l) := by
  obtain ⟨k, b, rfl, h1, h2, h3, h4, h5, h6⟩ := h
  obtain ⟨g1, g2, g3, g4, g5⟩ := hs
  refine ⟨0, _, rfl, by simp [g1], ?_, ?_, ?_, ?_, ?_⟩
  · cases s with
    | nil => exact absurd rfl g1
    | cons c cs => simpa using g2
  · show (s ++ (List.replicate (4 * k) ' ' ++ b)).getLast? ≠ _
    rw [← List.append_assoc, List.getLast?_append_of_ne_nil _ h1]; exact h3
  · simp only [List.mem_append, not_or] at h4 ⊢; exact ⟨g3, h4⟩
  · simp only [List.mem_append, not_or] at h5 ⊢; exact ⟨g4, h5⟩
  · simp only [List.mem_append, not_or] at h6 ⊢; exact ⟨g5, h6⟩

theorem TidyLine.after {s l : Str} (hs : TidyPrefix s) (hl : s.getLast? ≠ some ' ') (h : TidyLine l) :
    TidyLine (l ++ s) := by
  obtain ⟨k, b, rfl, h1, h2, h3, h4, h5, h6⟩ := h
  obtain ⟨g1, g2, g3, g4, g5⟩ := hs
  refine ⟨k, b ++ s, by rw [List.append_assoc], by simp [g1], ?_, ?_, ?_, ?_, ?_⟩
  · cases b with
    | nil => exact absurd rfl h1
    | cons c cs => simpa using h2
  · rw [List.getLast?_append_of_ne_nil _ g1]; exact hl
  · simp only [List.mem_append, not_or] at h4 ⊢; exact ⟨h4, g3⟩
  · simp only [List.mem_append, not_or] at h5 ⊢; exact ⟨h5, g4⟩
  · simp only [List.mem_append, not_or] at h6 ⊢; exact ⟨h6, g5⟩

theorem tidy_shift {ls : List Str} (h : ∀ l ∈ ls, TidyLine l) : ∀ l ∈ shift ls, TidyLine l := by
  intro l hl
  simp only [shift, List.mem_map] at hl
  obtain ⟨l, hl, rfl⟩ := hl
  exact (h l hl).shift

theorem tidy_before {s : Str} {ls : List Str} (hs : TidyPrefix s) (hn : ls ≠ []) (h : ∀ l ∈ ls, TidyLine l) :
    ∀ l ∈ before s ls, TidyLine l := by
  cases ls with
  | nil => exact absurd rfl hn
  | cons a ls =>
    intro l hl
    simp only [before, List.mem_cons] at hl
    rcases hl with rfl | hl
    · exact (h a (by simp)).before hs
    · exact h l (by simp [hl])

theorem tidy_after {s : Str} {ls : List Str} (hs : TidyPrefix s) (hl : s.getLast? ≠ some ' ')
    (hn : ls ≠ []) (h : ∀ l ∈ ls, TidyLine l) : ∀ l ∈ after s ls, TidyLine l := by
  match ls with
  | [] => exact absurd rfl hn
  | [a] => intro l h'; simp only [after, List.mem_singleton] at h'; subst h'; exact (h a (by simp)).after hs hl
  | a :: b :: ls =>
    intro l h'
    simp only [after, List.mem_cons] at h'
    rcases h' with rfl | h'
    · exact h l (by simp)
    · exact tidy_after hs hl (by simp) (fun l hl => h l (by simp at hl ⊢; tauto)) l h'

theorem tidy_digits {s : Str} (hn : s ≠ []) (h : ∀ c ∈ s, c ≠ ' ' ∧ c ≠ '\n' ∧ c ≠ '\r' ∧ c ≠ '\t') :
    TidyLine s := by
  have h' : ∀ c, c = ' ' ∨ c = '\n' ∨ c = '\r' ∨ c = '\t' → c ∉ s := by
    intro c hc hm
    obtain ⟨a, b, d, e⟩ := h c hm
    rcases hc with h | h | h | h <;> contradiction
  refine TidyLine.plain ⟨hn, ?_, h' _ (by simp), h' _ (by simp), h' _ (by simp)⟩ ?_
  · intro hc; exact h' ' ' (by simp) (List.mem_of_mem_head? hc)
  · intro hc; exact h' ' ' (by simp) (List.mem_of_getLast? hc)

theorem escapeChar_clean (c d : Char) (h : d ∈ escapeChar c) : d ≠ '\n' ∧ d ≠ '\r' ∧ d ≠ '\t' := by
  unfold escapeChar at h
  split at h
  · simp only [List.mem_cons, List.not_mem_nil, or_false] at h
    rcases h with rfl | rfl <;> decide
  split at h
  · simp only [List.mem_cons, List.not_mem_nil, or_false] at h
    rcases h with rfl | rfl <;> decide
  split at h
  · simp only [List.mem_cons, List.not_mem_nil, or_false] at h
    rcases h with rfl | rfl <;> decide
  next h1 h2 h3 =>
  split at h
  · simp only [List.mem_cons, List.not_mem_nil, or_false] at h
    rcases h with rfl | rfl
    · decide
    · exact ⟨h1, h2, h3⟩
  · simp only [List.mem_cons, List.not_mem_nil, or_false] at h
    subst h; exact ⟨h1, h2, h3⟩

theorem showNat_tidy (n : Nat) : showNat n ≠ [] ∧ ∀ c ∈ showNat n, c ≠ ' ' ∧ c ≠ '\n' ∧ c ≠ '\r' ∧ c ≠ '\t' := by
  refine ⟨by simp [showNat, Nat.toDigits_ne_nil], fun c hc => ?_⟩
  have h := Nat.isDigit_of_mem_toDigits (b := 10) (by omega) (by omega) hc
  refine ⟨?_, ?_, ?_, ?_⟩ <;> rintro rfl <;> revert h <;> decide

theorem showInt_tidy (i : Int) : showInt i ≠ [] ∧ ∀ c ∈ showInt i, c ≠ ' ' ∧ c ≠ '\n' ∧ c ≠ '\r' ∧ c ≠ '\t' := by
  cases i with
  | ofNat n => exact showNat_tidy n
  | negSucc n =>
    refine ⟨by simp [showInt], fun c hc => ?_⟩
    simp only [showInt, List.mem_cons] at hc
    rcases hc with rfl | hc
    · decide
    · exact (showNat_tidy _).2 c hc

variable [Unicode]

theorem accepted_prefix {f : Str} (h : AcceptedName f) : TidyPrefix (f ++ c!": ") := by
  have ha : ∀ c, c = ' ' ∨ c = '\n' ∨ c = '\r' ∨ c = '\t' → isAlphabetic c = false := by
    rintro c (rfl | rfl | rfl | rfl) <;> simp [isAlphabetic, isAsciiAlpha]
  have hf : ∀ c, c = ' ' ∨ c = '\n' ∨ c = '\r' ∨ c = '\t' → c ∉ f := by
    intro c hc hm
    rcases h with rfl | ⟨d, ds, rfl, h1, h2⟩
    · cases hm
    · rcases List.mem_cons.1 hm with rfl | hm
      · rw [ha c hc] at h1
        rcases hc with rfl | rfl | rfl | rfl <;> simp at h1
      · have h1 := h2 c hm
        rw [ha c hc] at h1
        rcases hc with rfl | rfl | rfl | rfl <;> revert h1 <;> decide
  refine ⟨by simp, ?_, ?_, ?_, ?_⟩
  · cases f with
    | nil => simp
    | cons c cs =>
      simp only [List.cons_append, List.head?_cons, ne_eq, Option.some.injEq]
      rintro rfl
      exact hf ' ' (by simp) (by simp)
  all_goals
    simp only [List.mem_append, not_or]
    exact ⟨hf _ (by simp), by decide⟩

theorem NamesAccepted.pair {o : Obj} (h : NamesAccepted (.obj o)) {p : Pair} (hp : p ∈ o.pairs) :
    NamesAccepted p.value ∧ AcceptedName p.field := by
  refine ⟨fun q hq => h q ?_, h o ?_ p hp⟩
  · obtain ⟨id, ps, par⟩ := o
    simp only [Value.containers, Obj.containers, List.mem_cons, List.mem_append]
    exact .inr (.inl (pairContainersL_mem.2 ⟨p, hp, hq⟩))
  · obtain ⟨id, ps, par⟩ := o
    simp [Value.containers, Obj.containers]

omit [Unicode] in
theorem linesL_mem {vs : List Value} {l : Str} (h : l ∈ Value.linesL vs) : ∃ v ∈ vs, l ∈ v.lines := by
  induction vs with
  | nil => simp [Value.linesL] at h
  | cons v vs ih =>
    simp only [Value.linesL, List.mem_append] at h
    rcases h with h | h
    · exact ⟨v, by simp, h⟩
    · obtain ⟨w, hw, h⟩ := ih h
      exact ⟨w, by simp [hw], h⟩

omit [Unicode] in
theorem pairLinesL_mem {ps : List Pair} {l : Str} (h : l ∈ Pair.linesL ps) :
    ∃ p ∈ ps, l ∈ before (p.field ++ c!": ") p.value.lines := by
  induction ps with
  | nil => simp [Pair.linesL] at h
  | cons p ps ih =>
    obtain ⟨f, v⟩ := p
    simp only [Pair.linesL, List.mem_append] at h
    rcases h with h | h
    · exact ⟨_, List.mem_cons_self, h⟩
    · obtain ⟨w, hw, h⟩ := ih h
      exact ⟨w, by simp [hw], h⟩

omit [Unicode] in
theorem tidy_bracket {s : Str} (h : s ∈ [c!"[", c!"]", c!"(", c!")", c!"{", c!"}"]) :
    TidyPrefix s ∧ s.getLast? ≠ some ' ' := by
  simp only [List.mem_cons, List.not_mem_nil, or_false] at h
  rcases h with rfl | rfl | rfl | rfl | rfl | rfl <;> (unfold TidyPrefix; decide)

omit [Unicode] in
theorem tidy_wrap {a b : Str} (ha : a ∈ [c!"[", c!"]", c!"(", c!")", c!"{", c!"}"])
    (hb : b ∈ [c!"[", c!"]", c!"(", c!")", c!"{", c!"}"]) {ls : List Str} (h : ∀ l ∈ ls, TidyLine l) :
    ∀ l ∈ [a] ++ shift ls ++ [b], TidyLine l := by
  intro l hl
  simp only [List.mem_append, List.mem_singleton] at hl
  rcases hl with (rfl | hl) | rfl
  · exact TidyLine.plain (tidy_bracket ha).1 (tidy_bracket ha).2
  · exact tidy_shift h l hl
  · exact TidyLine.plain (tidy_bracket hb).1 (tidy_bracket hb).2

theorem tidy_lines :
    (∀ v : Value, NamesAccepted v → ∀ l ∈ v.lines, TidyLine l) ∧
    (∀ o : Obj, NamesAccepted (.obj o) → (∀ l ∈ o.lines, TidyLine l) ∧ ∀ l ∈ o.inner, TidyLine l) := by
  have tiny : ∀ s ∈ [c!"null", c!"true", c!"false", c!"[]", c!"()", c!"{}"], TidyLine s := by
    intro s hs
    simp only [List.mem_cons, List.not_mem_nil, or_false] at hs
    rcases hs with rfl | rfl | rfl | rfl | rfl | rfl <;>
      exact TidyLine.plain (by unfold TidyPrefix; decide) (by decide)
  apply Value.ind (mv := fun v => NamesAccepted v → ∀ l ∈ v.lines, TidyLine l)
    (mo := fun o => NamesAccepted (.obj o) → (∀ l ∈ o.lines, TidyLine l) ∧ ∀ l ∈ o.inner, TidyLine l)
  · intro _ l hl
    simp only [Value.lines, List.mem_singleton] at hl
    exact tiny l (by simp [hl])
  · intro b _ l hl
    cases b <;> (simp only [Value.lines, List.mem_singleton] at hl; exact tiny l (by simp [hl]))
  · intro i _ l hl
    simp only [Value.lines, List.mem_singleton, ← showInt_eq] at hl
    subst hl
    exact tidy_digits (showInt_tidy i).1 (showInt_tidy i).2
  · intro q _ l hl
    simp only [Value.lines, ← showInt_eq, ← showNat_eq] at hl
    split at hl <;> simp only [List.mem_singleton] at hl <;> subst hl
    · refine tidy_digits (by simp) fun c hc => ?_
      simp only [List.mem_append] at hc
      rcases hc with hc | hc
      · exact (showInt_tidy _).2 c hc
      · revert c; decide
    · refine tidy_digits (by simp) fun c hc => ?_
      simp only [List.mem_append] at hc
      rcases hc with (hc | hc) | hc
      · exact (showInt_tidy _).2 c hc
      · revert c; decide
      · exact (showNat_tidy _).2 c hc
  · intro s _ l hl
    simp only [Value.lines, List.mem_singleton] at hl
    subst hl
    have h : ∀ d ∈ s.flatMap escapeChar, d ≠ '\n' ∧ d ≠ '\r' ∧ d ≠ '\t' := by
      intro d hd
      obtain ⟨c, -, hc⟩ := List.mem_flatMap.1 hd
      exact escapeChar_clean c d hc
    refine TidyLine.plain ⟨by simp, by simp, ?_, ?_, ?_⟩ ?_
    · simp only [List.mem_append, not_or]; exact ⟨⟨by decide, fun hm => (h _ hm).1 rfl⟩, by decide⟩
    · simp only [List.mem_append, not_or]; exact ⟨⟨by decide, fun hm => (h _ hm).2.1 rfl⟩, by decide⟩
    · simp only [List.mem_append, not_or]; exact ⟨⟨by decide, fun hm => (h _ hm).2.2 rfl⟩, by decide⟩
    · rw [List.getLast?_append_of_ne_nil _ (by simp)]; decide
  · intro id t vs ih hn
    have hs : ∀ v ∈ vs, NamesAccepted v := fun v hv o ho =>
      hn o (by simp only [Value.containers, List.mem_cons]; exact .inr (containersL_mem.2 ⟨v, hv, ho⟩))
    match vs, ih, hs with
    | [], _, _ => intro l hl; simp only [Value.lines, List.mem_singleton] at hl; exact tiny l (by simp [hl])
    | [v], ih, hs =>
      simp only [Value.lines]
      have h1 := ih v (by simp) (hs v (by simp))
      have h2 := format_lines.1 v
      exact tidy_before (tidy_bracket (by simp)).1 (after_ne _ _)
        (tidy_after (tidy_bracket (by simp)).1 (tidy_bracket (by simp)).2 h2.1 h1)
    | v :: w :: r, ih, hs =>
      simp only [Value.lines]
      refine tidy_wrap (by simp) (by simp) fun l hl => ?_
      obtain ⟨x, hx, hl⟩ := linesL_mem hl
      exact ih x hx (hs x hx) l hl
  · intro id t vs ih hn
    have hs : ∀ v ∈ vs, NamesAccepted v := fun v hv o ho =>
      hn o (by simp only [Value.containers, List.mem_cons]; exact .inr (containersL_mem.2 ⟨v, hv, ho⟩))
    match vs, ih, hs with
    | [], _, _ => intro l hl; simp only [Value.lines, List.mem_singleton] at hl; exact tiny l (by simp [hl])
    | [v], ih, hs =>
      simp only [Value.lines]
      have h1 := ih v (by simp) (hs v (by simp))
      have h2 := format_lines.1 v
      exact tidy_before (tidy_bracket (by simp)).1 (after_ne _ _)
        (tidy_after (tidy_bracket (by simp)).1 (tidy_bracket (by simp)).2 h2.1 h1)
    | v :: w :: r, ih, hs =>
      simp only [Value.lines]
      refine tidy_wrap (by simp) (by simp) fun l hl => ?_
      obtain ⟨x, hx, hl⟩ := linesL_mem hl
      exact ih x hx (hs x hx) l hl
  · intro o ih hn
    simpa only [Value.lines] using (ih hn).1
  · intro id ps par hps hpar hn
    have hin : ∀ l ∈ Obj.linesP par ++ Pair.linesL ps, TidyLine l := by
      intro l hl
      rcases List.mem_append.1 hl with hl | hl
      · cases par with
        | none => simp [Obj.linesP] at hl
        | some q =>
          simp only [Obj.linesP] at hl
          have h1 := (hpar q rfl (fun o ho => hn o (by
            simp only [Value.containers, Obj.containers, Obj.containersP, List.mem_cons, List.mem_append] at ho ⊢
            exact .inr (.inr ho)))).1
          exact tidy_before (by unfold TidyPrefix; decide) (format_lines.2 q).1.1 h1 l hl
      · obtain ⟨p, hp, hl⟩ := pairLinesL_mem hl
        have h1 := NamesAccepted.pair hn (p := p) hp
        exact tidy_before (accepted_prefix h1.2) (format_lines.1 p.value).1 (hps p hp h1.1) l hl
    refine ⟨?_, hin⟩
    simp only [Obj.lines]
    split
    · intro l hl; simp only [List.mem_singleton] at hl; exact tiny l (by simp [hl])
    · exact tidy_wrap (by simp) (by simp) hin

end Over
