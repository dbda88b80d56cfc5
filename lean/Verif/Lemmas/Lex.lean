import Mathlib.Data.List.Induction
import Verif.Lemmas.Chars
import Verif.Spec.Location
import Verif.Model.Lexer

/-!
# The token-level functions recognise exactly the tokens of the language
-/

namespace Over

/-! ## Positions -/

@[simp] theorem Pos.advs_nil (p : Pos) : p.advs [] = p := rfl
@[simp] theorem Pos.advs_cons (p : Pos) (c : Char) (s : Str) : p.advs (c :: s) = (p.adv c).advs s := rfl
theorem Pos.advs_append (p : Pos) (s t : Str) : p.advs (s ++ t) = (p.advs s).advs t := by
  simp [Pos.advs, List.foldl_append]

/-- Start of a file. -/
abbrev pos0 : Pos := ⟨1, 1⟩

theorem pos_after (pre : Str) : pos0.advs pre = ⟨lineAfter pre, colAfter pre⟩ := by
  induction pre using List.reverseRecOn with
  | nil => simp [lineAfter, colAfter]
  | append_singleton s c ih =>
    rw [Pos.advs_append, ih]
    by_cases h : c = '\n'
    · subst h; simp [Pos.adv, lineAfter, colAfter]; omega
    · have hb : (c != '\n') = true := by simpa using h
      simp [Pos.adv, h, lineAfter, colAfter, List.count_append]
      omega

/-- The unread part of the text `full` is `rest`, and `p` is its position. -/
def Here (full rest : Str) (p : Pos) : Prop := ∃ pre, full = pre ++ rest ∧ p = pos0.advs pre

theorem Here.adv {full : Str} {c : Char} {rest : Str} {p : Pos} (h : Here full (c :: rest) p) :
    Here full rest (p.adv c) := by
  obtain ⟨pre, rfl, rfl⟩ := h
  exact ⟨pre ++ [c], by simp, by rw [Pos.advs_append]; rfl⟩

theorem Here.advs {full t rest : Str} {p : Pos} (h : Here full (t ++ rest) p) :
    Here full rest (p.advs t) := by
  obtain ⟨pre, rfl, rfl⟩ := h
  exact ⟨pre ++ t, by simp, by rw [Pos.advs_append]⟩

theorem Here.start (full : Str) : Here full full pos0 := ⟨[], rfl, rfl⟩

theorem Here.posIn {full rest : Str} {p : Pos} (h : Here full rest p) : PosIn full p.line p.col := by
  obtain ⟨pre, h1, rfl⟩ := h
  exact ⟨pre, rest, h1, by rw [pos_after], by rw [pos_after]⟩

theorem Here.charAt {full rest : Str} {c : Char} {p : Pos} (h : Here full (c :: rest) p) :
    CharAt full c p.line p.col := by
  obtain ⟨pre, h1, rfl⟩ := h
  exact ⟨pre, rest, h1, by rw [pos_after], by rw [pos_after]⟩

theorem Here.wordAt {full w rest : Str} {p : Pos} (h : Here full (w ++ rest) p) : WordAt full w p.line p.col := by
  obtain ⟨pre, h1, rfl⟩ := h
  exact ⟨pre, rest, h1, by rw [pos_after], by rw [pos_after]⟩

theorem Here.operandAt [Unicode] {full w rest : Str} {p : Pos} {t : Term} (h : Here full (w ++ rest) p) (ht : SpTerm t w) :
    OperandAt full p.line p.col := ⟨t, w, ht, h.wordAt⟩

theorem Here.operandAtExpr [Unicode] {full w rest : Str} {p : Pos} {e : Expr} (h : Here full (w ++ rest) p)
    (he : SpExpr e w) : OperandAt full p.line p.col := by
  cases he with
  | mk ht _ => rw [List.append_assoc] at h; exact h.operandAt ht

theorem WordAt.posIn {text w : Str} {l c : Nat} (h : WordAt text w l c) : PosIn text l c := by
  obtain ⟨pre, post, h1, h2, h3⟩ := h
  exact ⟨pre, w ++ post, h1, h2, h3⟩

theorem OperandAt.posIn [Unicode] {text : Str} {l c : Nat} (h : OperandAt text l c) : PosIn text l c := by
  obtain ⟨_, _, _, h⟩ := h
  exact h.posIn

theorem Here.end_line {full : Str} {p : Pos} (h : Here full [] p) : p.line = lineAfter full := by
  obtain ⟨pre, h1, rfl⟩ := h
  simp only [List.append_nil] at h1
  subst h1; rw [pos_after]

theorem Here.charAt_prev {full rest : Str} {c : Char} {p : Pos} (h : Here full (c :: rest) p) :
    ∃ k, usub (p.adv c).col 1 = some k ∧ CharAtOrNewline full c (p.adv c).line k ∧
      (c ≠ '\n' → CharAt full c (p.adv c).line k) := by
  by_cases hc : c = '\n'
  · subst hc
    refine ⟨0, by simp [Pos.adv, usub], ?_, by simp⟩
    obtain ⟨pre, h1, rfl⟩ := h
    exact .inr ⟨rfl, rfl, pre, rest, h1, by simp [Pos.adv, pos_after]⟩
  · have := h.charAt
    refine ⟨p.col, by simp [Pos.adv, usub, hc], ?_, ?_⟩
    · left; refine ⟨hc, ?_⟩; simpa [Pos.adv, hc] using this
    · intro _; simpa [Pos.adv, hc] using this

/-! ## Gaps -/

theorem Gap.append {g h : Str} (hg : Gap g) (hh : Gap h) : Gap (g ++ h) := by
  induction hg with
  | nil => exact hh
  | ws h1 _ ih => exact .ws h1 ih
  | comment h1 _ ih => simpa using Gap.comment h1 ih

theorem EndGap.of_append {g h : Str} (hg : Gap g) (hh : EndGap h) : EndGap (g ++ h) := by
  cases hh with
  | gap h1 => exact .gap (hg.append h1)
  | comment h1 h2 => rw [← List.append_assoc]; exact .comment (hg.append h1) h2

theorem findCharGo_spec (rest : Str) : ∀ (p : Pos),
    (∀ b rest' p', findCharGo false rest p = (b, rest', p') →
      (b = true → ∃ g, rest = g ++ rest' ∧ Gap g ∧ p' = p.advs g ∧
        ∃ c r, rest' = c :: r ∧ isUniWhitespace c = false ∧ c ≠ '#') ∧
      (b = false → rest' = [] ∧ EndGap rest ∧ p' = p.advs rest)) ∧
    (∀ b rest' p', findCharGo true rest p = (b, rest', p') →
      (b = true → ∃ t g, rest = t ++ '\n' :: (g ++ rest') ∧ '\n' ∉ t ∧ Gap g ∧
        p' = p.advs (t ++ '\n' :: g) ∧
        ∃ c r, rest' = c :: r ∧ isUniWhitespace c = false ∧ c ≠ '#') ∧
      (b = false → rest' = [] ∧ EndGap ('#' :: rest) ∧ p' = p.advs rest)) := by
  induction rest with
  | nil =>
    intro p
    refine ⟨?_, ?_⟩ <;> intro b rest' p' h <;> simp only [findCharGo, Prod.mk.injEq] at h <;>
      obtain ⟨rfl, rfl, rfl⟩ := h
    · exact ⟨by simp, fun _ => ⟨rfl, .gap .nil, rfl⟩⟩
    · exact ⟨by simp, fun _ => ⟨rfl, by simpa using EndGap.comment (s := []) (t := []) .nil (by simp), rfl⟩⟩
  | cons c cs ih =>
    intro p
    refine ⟨?_, ?_⟩ <;> intro b rest' p' h
    · simp only [findCharGo] at h
      by_cases hc : c = '#'
      · subst hc
        simp only [if_true] at h
        have := (ih (p.adv '#')).2 _ _ _ h
        refine ⟨fun hb => ?_, fun hb => ?_⟩
        · obtain ⟨t, g, h1, h2, h3, h4, h5⟩ := this.1 hb
          refine ⟨'#' :: (t ++ '\n' :: g), by simp [h1], .comment h2 h3, by simpa using h4, h5⟩
        · obtain ⟨h1, h2, h3⟩ := this.2 hb
          exact ⟨h1, h2, by simpa using h3⟩
      · simp only [hc, if_false] at h
        by_cases hw : isUniWhitespace c = true
        · simp only [hw, if_true] at h
          have := (ih (p.adv c)).1 _ _ _ h
          refine ⟨fun hb => ?_, fun hb => ?_⟩
          · obtain ⟨g, h1, h2, h3, h4⟩ := this.1 hb
            exact ⟨c :: g, by simp [h1], .ws hw h2, by simpa using h3, h4⟩
          · obtain ⟨h1, h2, h3⟩ := this.2 hb
            exact ⟨h1, EndGap.of_append (g := [c]) (.ws hw .nil) h2, by simpa using h3⟩
        · simp only [Bool.not_eq_true] at hw
          simp only [hw, Bool.false_eq_true, if_false, Prod.mk.injEq] at h
          obtain ⟨rfl, rfl, rfl⟩ := h
          exact ⟨fun _ => ⟨[], rfl, .nil, rfl, c, cs, rfl, hw, hc⟩, by simp⟩
    · simp only [findCharGo] at h
      by_cases hc : c = '\n'
      · subst hc
        simp only [if_true] at h
        have := (ih (p.adv '\n')).1 _ _ _ h
        refine ⟨fun hb => ?_, fun hb => ?_⟩
        · obtain ⟨g, h1, h2, h3, h4⟩ := this.1 hb
          exact ⟨[], g, by simp [h1], by simp, h2, by simpa using h3, h4⟩
        · obtain ⟨h1, h2, h3⟩ := this.2 hb
          refine ⟨h1, ?_, by simpa using h3⟩
          exact EndGap.of_append (g := ['#', '\n']) (Gap.comment (t := []) (by simp) .nil) h2
      · simp only [hc, if_false] at h
        have := (ih (p.adv c)).2 _ _ _ h
        refine ⟨fun hb => ?_, fun hb => ?_⟩
        · obtain ⟨t, g, h1, h2, h3, h4, h5⟩ := this.1 hb
          exact ⟨c :: t, g, by simp [h1], by simp [h2, Ne.symm hc], h3, by simpa using h4, h5⟩
        · obtain ⟨h1, h2, h3⟩ := this.2 hb
          refine ⟨h1, ?_, by simpa using h3⟩
          generalize he : '#' :: cs = e at h2
          cases h2 with
          | gap h2 =>
            subst he
            cases h2 with
            | ws h2 _ => exact absurd h2 (by decide)
            | @comment t s h2 h4 =>
              have : '#' :: c :: (t ++ '\n' :: s) = '#' :: ((c :: t) ++ '\n' :: s) := rfl
              rw [this]
              exact .gap (.comment (by simp [h2, Ne.symm hc]) h4)
          | @comment s t h2 h4 =>
            cases h2 with
            | nil =>
              simp only [List.nil_append, List.cons.injEq, true_and] at he
              subst he
              exact EndGap.comment (s := []) .nil (by simp [h4, Ne.symm hc])
            | ws h2 _ => simp only [List.cons_append, List.cons.injEq] at he
                         exact absurd (he.1 ▸ h2) (by decide)
            | @comment t' s' h2 h5 =>
              simp only [List.cons_append, List.cons.injEq, true_and] at he
              subst he
              have := EndGap.comment (Gap.comment (t := c :: t') (by simp [h2, Ne.symm hc]) h5) h4
              simpa using this

/-- `findChar` skips a gap. -/
theorem findCharGo_comment {t : Str} (h : '\n' ∉ t) (s : Str) : ∀ p : Pos,
    findCharGo true (t ++ '\n' :: s) p = findCharGo false s ((p.advs t).adv '\n') := by
  induction t with
  | nil => intro p; simp [findCharGo]
  | cons c t ih =>
    intro p
    have hc : c ≠ '\n' := fun e => h (by simp [e])
    simp only [List.cons_append, findCharGo, hc, if_false]
    rw [ih (fun e => h (by simp [e]))]; rfl

theorem findCharGo_comment_end {t : Str} (h : '\n' ∉ t) : ∀ p : Pos,
    findCharGo true t p = (false, [], p.advs t) := by
  induction t with
  | nil => intro p; simp [findCharGo]
  | cons c t ih =>
    intro p
    have hc : c ≠ '\n' := fun e => h (by simp [e])
    simp only [findCharGo, hc, if_false]
    rw [ih (fun e => h (by simp [e]))]; rfl

theorem findCharGo_gap {g : Str} (hg : Gap g) (s : Str) : ∀ p : Pos,
    findCharGo false (g ++ s) p = findCharGo false s (p.advs g) := by
  induction hg with
  | nil => intro p; rfl
  | @ws c g h1 _ ih =>
    intro p
    have hc : c ≠ '#' := by rintro rfl; exact absurd h1 (by decide)
    simp only [List.cons_append, findCharGo, hc, if_false, h1, if_true]
    rw [ih]; rfl
  | @comment t g h1 _ ih =>
    intro p
    simp only [List.cons_append, List.append_assoc, findCharGo, if_true]
    rw [findCharGo_comment h1, ih]
    simp [Pos.advs_append]

theorem findCharGo_stop {c : Char} (h1 : isUniWhitespace c = false) (h2 : c ≠ '#') (r : Str) (p : Pos) :
    findCharGo false (c :: r) p = (true, c :: r, p) := by
  simp [findCharGo, h1, h2]

theorem findCharGo_endGap {g : Str} (hg : EndGap g) (p : Pos) :
    findCharGo false g p = (false, [], p.advs g) := by
  cases hg with
  | gap h =>
    have := findCharGo_gap h [] p
    simpa [findCharGo] using this
  | @comment s t h1 h2 =>
    rw [findCharGo_gap h1]
    simp only [findCharGo, if_true]
    rw [findCharGo_comment_end h2, Pos.advs_append]; rfl

end Over
