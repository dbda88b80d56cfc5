import Verif.Lemmas.Write
import Verif.Spec.Lines

/-! # The writer prints the specified lines -/

namespace Over

/-- The lines joined by a newline and `n` spaces. -/
def joinAt (n : Nat) : List Str → Str
  | [] => []
  | [l] => l
  | l :: l' :: ls => l ++ c!"\n" ++ indent n ++ joinAt n (l' :: ls)

/-- Every line indented by `n` and ended. -/
def endAt (n : Nat) (ls : List Str) : Str := ls.flatMap (fun l => indent n ++ l ++ c!"\n")

theorem endAt_append (n : Nat) (a b : List Str) : endAt n (a ++ b) = endAt n a ++ endAt n b := by
  simp [endAt]

theorem indent_add (n : Nat) : indent (n + 4) = indent n ++ c!"    " := by
  rw [indent, List.replicate_add]; rfl

theorem endAt_shift (n : Nat) (ls : List Str) : endAt n (shift ls) = endAt (n + 4) ls := by
  induction ls with
  | nil => rfl
  | cons l ls ih =>
    simp only [shift, List.map_cons, endAt, List.flatMap_cons] at ih ⊢
    rw [ih]
    simp [indent_add, List.append_assoc]

theorem endAt_join (n : Nat) {ls : List Str} (h : ls ≠ []) :
    endAt n ls = indent n ++ joinAt n ls ++ c!"\n" := by
  induction ls with
  | nil => exact absurd rfl h
  | cons l ls ih =>
    cases ls with
    | nil => simp [endAt, joinAt]
    | cons l' ls =>
      have := ih (by simp)
      simp only [endAt, List.flatMap_cons, joinAt, List.append_assoc] at this ⊢
      rw [this]

theorem joinAt_before (n : Nat) (s : Str) (ls : List Str) : joinAt n (before s ls) = s ++ joinAt n ls := by
  match ls with
  | [] => simp [before, joinAt]
  | [l] => simp [before, joinAt]
  | l :: l' :: ls => simp [before, joinAt, List.append_assoc]

theorem after_ne (s : Str) (ls : List Str) : after s ls ≠ [] := by
  match ls with
  | [] => simp [after]
  | [l] => simp [after]
  | l :: l' :: ls => simp [after]

theorem before_ne (s : Str) (ls : List Str) : before s ls ≠ [] := by
  cases ls <;> simp [before]

theorem joinAt_after (n : Nat) (s : Str) (ls : List Str) : joinAt n (after s ls) = joinAt n ls ++ s := by
  match ls with
  | [] => simp [after, joinAt]
  | [l] => simp [after, joinAt]
  | l :: l' :: ls =>
    have ih := joinAt_after n s (l' :: ls)
    cases h : after s (l' :: ls) with
    | nil => exact absurd h (after_ne _ _)
    | cons a b => simp only [after, h, joinAt] at ih ⊢; rw [ih]; simp [List.append_assoc]

theorem joinAt_wrap (n : Nat) (a b : Str) (ls : List Str) :
    joinAt n ([a] ++ shift ls ++ [b]) = a ++ c!"\n" ++ endAt (n + 4) ls ++ indent n ++ b := by
  have : ∀ ls : List Str, joinAt n (a :: (ls ++ [b])) = a ++ c!"\n" ++ endAt n ls ++ indent n ++ b := by
    intro ls
    induction ls generalizing a with
    | nil => simp [joinAt, endAt]
    | cons l ls ih =>
      have := ih l
      simp only [List.cons_append, joinAt, endAt, List.flatMap_cons, List.append_assoc] at this ⊢
      rw [this]
  rw [← endAt_shift, ← this]; rfl

theorem replaceAll_escape (s : Str) : replaceAll s = s.flatMap escapeChar := by
  induction s with
  | nil => rfl
  | cons c cs ih =>
    simp only [replaceAll, List.flatMap_cons, ih]
    congr 1
    unfold getCharMap escapeChar
    by_cases h1 : c = '\\'
    · subst h1; decide
    by_cases h2 : c = '"'
    · subst h2; decide
    by_cases h3 : c = '\''
    · subst h3; decide
    by_cases h4 : c = '$'
    · subst h4; decide
    by_cases h5 : c = '\n'
    · subst h5; decide
    by_cases h6 : c = '\r'
    · subst h6; decide
    by_cases h7 : c = '\t'
    · subst h7; decide
    simp [h1, h2, h3, h4, h5, h6, h7]

theorem showNat_eq (n : Nat) : showNat n = (toString n).toList := by
  simp [showNat, toString, Nat.repr]

theorem showInt_eq (i : Int) : showInt i = (toString i).toList := by
  cases i with
  | ofNat n => simp [showInt, toString, Int.repr, showNat_eq]
  | negSucc n => simp [showInt, toString, Int.repr, showNat_eq]

/-- What the induction carries about a value. -/
def LinesOk (v : Value) : Prop := v.lines ≠ [] ∧ ∀ n, v.format (n + 4) = some (joinAt n v.lines)

theorem formatL_joined {vs : List Value} (h : ∀ v ∈ vs, LinesOk v) (n : Nat) :
    Value.formatL vs n = some (endAt n (Value.linesL vs)) := by
  induction vs with
  | nil => rfl
  | cons v vs ih =>
    have hv := h v (by simp)
    simp only [Value.formatL, indentStep, hv.2, ih (fun w hw => h w (by simp [hw])), Value.linesL,
      endAt_append, endAt_join n hv.1]
    simp

theorem pairFormatL_joined {ps : List Pair} (h : ∀ p ∈ ps, LinesOk (Pair.value p)) (n : Nat) :
    Pair.formatL ps n = some (endAt n (Pair.linesL ps)) := by
  induction ps with
  | nil => rfl
  | cons p ps ih =>
    obtain ⟨f, v⟩ := p
    have hv := h (.mk f v) (by simp)
    simp only [Pair.value] at hv
    simp only [Pair.formatL, indentStep, hv.2, ih (fun w hw => h w (by simp [hw])), Pair.linesL,
      endAt_append, endAt_join n (before_ne _ _), joinAt_before]
    simp

theorem format_lines :
    (∀ v : Value, LinesOk v) ∧
    (∀ o : Obj, (o.lines ≠ [] ∧ ∀ n, o.format true (n + 4) = some (joinAt n o.lines)) ∧
      ∀ n, o.format false n = some (endAt n o.inner)) := by
  apply Value.ind (mv := LinesOk)
    (mo := fun o => (o.lines ≠ [] ∧ ∀ n, o.format true (n + 4) = some (joinAt n o.lines)) ∧
      ∀ n, o.format false n = some (endAt n o.inner))
  · exact ⟨by simp [Value.lines], fun n => rfl⟩
  · intro b; cases b <;> exact ⟨by simp [Value.lines], fun n => rfl⟩
  · intro i; exact ⟨by simp [Value.lines], fun n => by simp [Value.lines, Value.format, joinAt, showInt_eq]⟩
  · intro q
    refine ⟨by simp only [Value.lines]; split <;> simp, fun n => ?_⟩
    simp only [Value.lines, Value.format, formatRat, showRat, showInt_eq, showNat_eq]
    split <;> simp [joinAt]
  · intro s
    exact ⟨by simp [Value.lines], fun n => by
      simp [Value.lines, Value.format, joinAt, formatStr, replaceAll_escape]⟩
  · intro id t vs ih
    match vs, ih with
    | [], _ => exact ⟨by simp [Value.lines], fun n => rfl⟩
    | [v], ih =>
      refine ⟨by simp only [Value.lines]; exact before_ne _ _, fun n => ?_⟩
      simp only [Value.format, (ih v (by simp)).2, Value.lines, joinAt_before, joinAt_after]
      simp
    | v :: w :: r, ih =>
      refine ⟨by simp [Value.lines], fun n => ?_⟩
      simp only [Value.format, formatL_joined ih, usub_ok (show 4 ≤ n + 4 by omega), Value.lines, joinAt_wrap]
      simp
  · intro id t vs ih
    match vs, ih with
    | [], _ => exact ⟨by simp [Value.lines], fun n => rfl⟩
    | [v], ih =>
      refine ⟨by simp only [Value.lines]; exact before_ne _ _, fun n => ?_⟩
      simp only [Value.format, (ih v (by simp)).2, Value.lines, joinAt_before, joinAt_after]
      simp
    | v :: w :: r, ih =>
      refine ⟨by simp [Value.lines], fun n => ?_⟩
      simp only [Value.format, formatL_joined ih, usub_ok (show 4 ≤ n + 4 by omega), Value.lines, joinAt_wrap]
      simp
  · intro o ih
    exact ⟨by simpa only [Value.lines] using ih.1.1, fun n => by
      simpa only [Value.lines, Value.format] using ih.1.2 n⟩
  · intro id ps par hps hpar
    have hp : ∀ n, Obj.formatParent par n = some (endAt n (Obj.linesP par)) := by
      intro n
      cases par with
      | none => rfl
      | some q =>
        simp only [Obj.formatParent, indentStep, (hpar q rfl).1.2, Obj.linesP, endAt_join n (before_ne _ _),
          joinAt_before]
        simp
    have hb : (ps.isEmpty && !par.isSome) = true ↔ (ps = [] ∧ par = none) := by
      cases ps <;> cases par <;> simp
    refine ⟨⟨by simp only [Obj.lines]; split <;> simp, fun n => ?_⟩, fun n => ?_⟩
    · simp only [Obj.format, Obj.lines, hb]
      split
      · simp [joinAt]
      · simp only [hp, pairFormatL_joined hps, usub_ok (show 4 ≤ n + 4 by omega), joinAt_wrap, endAt_append]
        simp
    · simp only [Obj.format, Obj.inner, hb]
      split
      · next h => simp [h.1, h.2, Obj.linesP, Pair.linesL, endAt]
      · simp only [hp, pairFormatL_joined hps, endAt_append]
        simp

end Over
