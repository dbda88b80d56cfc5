import Verif.Lemmas.Unamb
import Verif.Lemmas.WriteEval

/-!
# Documents whose text is cut off
-/

set_option linter.unusedSectionVars false

namespace Over

variable [Unicode]

attribute [local instance] noPanic

theorem stopAt_nil : StopAt [] := ⟨none, .inl rfl⟩

theorem stopAt_sep {r y : Str} (h : StartsSeparated r) : StopAt (r ++ y) := by
  obtain ⟨c, t, rfl, hc⟩ := h
  exact ⟨none, .inr ⟨c, t ++ y, rfl, by tauto⟩⟩

/-- What follows a definition of a document is empty or separated. -/
theorem after_def {fds : List Field} {r : Str} (h : SpFields true fds r) (hs : fds = [] ∨ StartsSeparated r) :
    r = [] ∨ StartsSeparated r := by
  have := h.exprEnd (brace := none) (tl := []) (.inl ⟨rfl, rfl, rfl⟩) hs
  rw [List.append_nil] at this
  rcases this with h | ⟨c, t, rfl, h | h | ⟨-, h⟩⟩
  · exact .inl h
  · exact .inr ⟨_, _, rfl, .inl h⟩
  · exact .inr ⟨_, _, rfl, .inr h⟩
  · cases h

theorem expr_unique {e e' : Expr} {s s' r r' : Str} (h : SpExpr e s) (h' : SpExpr e' s') (he : s ++ r = s' ++ r')
    (hr : StopAt r) (hr' : StopAt r') : e = e' ∧ s = s' :=
  uExpr (uTerm s.length) _ _ _ _ _ _ h h' he hr hr' (Nat.le_refl _)

/-- Operands that end with their own closing character. -/
def Term.closed : Term → Bool
  | .str _ => true
  | .arr _ => true
  | .tup _ => true
  | .obj _ => true
  | .incl _ => true
  | .inclAs _ _ => true
  | _ => false

/-- … are determined whatever follows. -/
theorem closed_unique {t t' : Term} {s s' r r' : Str} (h : SpTerm t s) (h' : SpTerm t' s') (he : s ++ r = s' ++ r')
    (hc : t.closed = true) : t = t' ∧ s = s' := by
  have hcls : t.cls = t'.cls := by
    obtain ⟨c, u, h1, h2⟩ := h.cls
    obtain ⟨c', u', h1', h2'⟩ := h'.cls
    rw [h1, h1'] at he
    simp only [List.cons_append, List.cons.injEq] at he
    rw [← h2, ← h2', he.1]
  have hI := uItems (uExpr (uTerm s.length))
  have hF := uFields (uExpr (uTerm s.length))
  cases h with
  | @str x b hx =>
    cases t' <;> simp [Term.cls] at hcls
    cases h' with
    | @str x' b' hx' =>
      have e1 := lexStr_ok hx r pos0
      have e2 := lexStr_ok hx' r' pos0
      simp only [List.cons_append, List.append_assoc, List.nil_append] at he
      rw [he, e2] at e1
      simp only [Lex.ok.injEq] at e1
      obtain ⟨rfl, rfl, -⟩ := e1
      refine ⟨rfl, ?_⟩
      simp only [List.cons.injEq, true_and] at he
      have := List.append_cancel_right he
      rw [this]
  | @arr es s hi =>
    cases t' <;> simp [Term.cls] at hcls
    cases h' with
    | @arr es' s' hi' =>
      simp only [List.cons_append, List.cons.injEq, true_and, List.append_assoc, List.nil_append] at he
      obtain ⟨rfl, rfl⟩ := hI false (some ']') _ _ _ _ _ _ hi hi' he (.inr ⟨_, _, rfl, rfl, rfl, by decide⟩)
        (.inr ⟨_, _, rfl, rfl, rfl, by decide⟩) (by simp only [List.length_cons, List.length_append]; omega)
      exact ⟨rfl, rfl⟩
  | @tup es s hi =>
    cases t' <;> simp [Term.cls] at hcls
    cases h' with
    | @tup es' s' hi' =>
      simp only [List.cons_append, List.cons.injEq, true_and, List.append_assoc, List.nil_append] at he
      obtain ⟨rfl, rfl⟩ := hI false (some ')') _ _ _ _ _ _ hi hi' he (.inr ⟨_, _, rfl, rfl, rfl, by decide⟩)
        (.inr ⟨_, _, rfl, rfl, rfl, by decide⟩) (by simp only [List.length_cons, List.length_append]; omega)
      exact ⟨rfl, rfl⟩
  | @obj es s hi =>
    cases t' <;> simp [Term.cls] at hcls
    cases h' with
    | @obj es' s' hi' =>
      simp only [List.cons_append, List.cons.injEq, true_and, List.append_assoc, List.nil_append] at he
      obtain ⟨rfl, rfl⟩ := hF false (some '}') _ _ _ _ _ _ hi hi' he (.inr ⟨_, _, rfl, rfl, rfl, by decide⟩)
        (.inr ⟨_, _, rfl, rfl, rfl, by decide⟩) (by simp only [List.length_cons, List.length_append]; omega)
      exact ⟨rfl, rfl⟩
  | @incl e s hi =>
    cases t' <;> simp [Term.cls] at hcls <;> cases h' with
    | _ hi' =>
      simp only [List.cons_append, List.cons.injEq, true_and, List.append_assoc, List.nil_append] at he
      obtain ⟨h1, rfl⟩ := hI false (some '>') _ _ _ _ _ _ hi hi' he (.inr ⟨_, _, rfl, rfl, rfl, by decide⟩)
        (.inr ⟨_, _, rfl, rfl, rfl, by decide⟩) (by simp only [List.length_cons, List.length_append]; omega)
      cases h1
      try exact ⟨rfl, rfl⟩
  | @inclAs k e s hi =>
    cases t' <;> simp [Term.cls] at hcls <;> cases h' with
    | _ hi' =>
      simp only [List.cons_append, List.cons.injEq, true_and, List.append_assoc, List.nil_append] at he
      obtain ⟨h1, rfl⟩ := hI false (some '>') _ _ _ _ _ _ hi hi' he (.inr ⟨_, _, rfl, rfl, rfl, by decide⟩)
        (.inr ⟨_, _, rfl, rfl, rfl, by decide⟩) (by simp only [List.length_cons, List.length_append]; omega)
      cases h1
      try exact ⟨rfl, rfl⟩
  | _ => cases hc

/-- An expression that is one closed operand cannot be mistaken. -/
theorem closed_expr_unique {t : Term} {e : Expr} {s s' r r' : Str} (h : SpExpr (.mk t []) s) (h' : SpExpr e s')
    (he : s ++ r = s' ++ r') (hr : StopAt r) (hc : t.closed = true) : e = .mk t [] := by
  cases h with
  | @mk _ _ s0 u0 ht hu =>
  cases hu
  cases h' with
  | @mk t' ops s1 u1 ht' hu' =>
  rw [List.append_nil, List.append_assoc] at he
  obtain ⟨rfl, rfl⟩ := closed_unique ht ht' he hc
  have he2 := List.append_cancel_left he
  cases hu' with
  | nil => rfl
  | cons _ _ =>
    rw [he2, List.cons_append] at hr
    exact absurd hr StopAt.noOp

/-- A document and what can be read of it when its text is cut off: some first definitions, and perhaps one more, with
the target of the next one. -/
theorem spDoc_cut : ∀ (D D' : List Field) (X Y : Str), SpDoc D (X ++ Y) → SpDoc D' X →
    ∃ A B B', D = A ++ B ∧ D' = A ++ B' ∧ (B' = [] ∨ ∃ tg e e' C, B = .mk tg e :: C ∧ B' = [.mk tg e'] ∧
      ∀ t, e = .mk t [] → t.closed = true → e' = e)
  | D, [], _, _, _, _ => ⟨[], D, [], rfl, rfl, .inl rfl⟩
  | [], .mk tg' e' :: D', X, Y, h, h' => by
    cases h' with
    | cons hg' htg' _ _ _ _ =>
    obtain ⟨c, t, rfl, ht⟩ := htg'.head
    generalize hX : _ ++ Y = Z at h
    cases h with
    | nil hg =>
    have hl := (last_gap (brace := none) (r := []) hg (.inl ⟨rfl, rfl, rfl⟩)).2
    rw [List.append_nil] at hl
    simp only [List.append_assoc, List.cons_append] at hX
    exact absurd hX.symm (hl _ _ _ hg' ht)
  | .mk tg e :: D, .mk tg' e' :: D', X, Y, h, h' => by
    cases h' with
    | @cons _ g' nm' g2' s1' r1' _ _ _ hg' htg' hg2' hx' hi' hs' =>
    generalize hX : _ ++ Y = Z at h
    cases h with
    | @cons _ g nm g2 s1 r1 _ _ _ hg htg hg2 hx hi hs =>
    simp only [List.append_assoc, List.cons_append] at hX
    obtain ⟨c, t, hst, ht⟩ := htg.head
    obtain ⟨c', t', hst', ht'⟩ := htg'.head
    obtain ⟨rfl, he2⟩ := gap_unique hg hg' hX.symm (by rw [hst]; exact ht.found) (by rw [hst']; exact ht'.found)
    obtain ⟨rfl, rfl, he3⟩ := target_unique htg htg' he2
    obtain ⟨d, u, hx1, hd⟩ := hx.head
    obtain ⟨d', u', hx1', hd'⟩ := hx'.head
    obtain ⟨rfl, he4⟩ := gap_unique hg2 hg2' he3 (by rw [hx1]; exact hd.found) (by rw [hx1']; exact hd'.found)
    rcases after_def hi' hs' with rfl | hsep
    · have : D' = [] := by
        rcases hs' with h | ⟨_, _, h, -⟩
        · exact h
        · cases h
      subst this
      refine ⟨[], _, _, rfl, rfl, .inr ⟨tg, e, e', D, rfl, rfl, ?_⟩⟩
      rintro t rfl ht
      exact closed_expr_unique hx hx' he4
        (by rcases after_def hi hs with rfl | h
            · exact stopAt_nil
            · simpa using stopAt_sep (y := []) h) ht
    · obtain ⟨rfl, rfl⟩ := expr_unique hx hx' he4
        (by rcases after_def hi hs with rfl | h
            · exact stopAt_nil
            · simpa using stopAt_sep (y := []) h) (stopAt_sep hsep)
      have he5 := List.append_cancel_left he4
      obtain ⟨A, B, B', h1, h2, h3⟩ := spDoc_cut D D' r1' Y (by rw [← he5]; exact hi) hi'
      exact ⟨.mk tg e :: A, B, B', by rw [h1]; rfl, by rw [h2]; rfl, h3⟩

/-! ## Complete lines -/

theorem notNameChar_newline : ¬ NameChar '\n' := by
  intro h
  have := h.cases
  revert this; decide

theorem last_cons {c : Char} {s : Str} (hc : c ≠ '\n') (h : ∀ t, s ≠ t ++ ['\n']) : ∀ t, c :: s ≠ t ++ ['\n'] := by
  intro t ht
  cases t with
  | nil => simp only [List.nil_append, List.cons.injEq] at ht; exact hc ht.1
  | cons d t => simp only [List.cons_append, List.cons.injEq] at ht; exact h t ht.2

theorem last_of_all {s : Str} (h : ∀ c ∈ s, c ≠ '\n') : ∀ t, s ≠ t ++ ['\n'] := by
  rintro t rfl
  exact h '\n' (by simp) rfl

theorem last_append {s u : Str} (h : ∀ t, s ≠ t ++ ['\n']) (hu : ∀ t, u ≠ t ++ ['\n']) : ∀ t, s ++ u ≠ t ++ ['\n'] := by
  rcases List.eq_nil_or_concat u with rfl | ⟨u0, d, rfl⟩
  · simpa using h
  · intro t ht
    rw [List.concat_eq_append, ← List.append_assoc] at ht
    have := List.append_inj' ht rfl
    exact hu u0 (by rw [List.concat_eq_append, this.2])

theorem last_close {s : Str} {c : Char} (hc : c ≠ '\n') : ∀ t, s ++ [c] ≠ t ++ ['\n'] := by
  intro t ht
  have := (List.append_inj' ht rfl).2
  simp only [List.cons.injEq, and_true] at this
  exact hc this

theorem digitRun_last {s : Str} (h : DigitRun s) : ∀ c ∈ s, c ≠ '\n' := by
  rintro c hc rfl
  have := h.1 _ hc
  revert this; decide

theorem varName_last {x : Str} (h : VarName x) : ∀ c ∈ x, c ≠ '\n' := by
  obtain ⟨c, cs, rfl, h1, h2⟩ := h
  rintro d hd rfl
  rcases List.mem_cons.1 hd with rfl | hd
  · rcases h1 with (h1 | h1) | h1
    · exact notNameChar_newline (.inl h1)
    · exact absurd h1 (by decide)
    · exact absurd h1 (by decide)
  · exact notNameChar_newline (h2 _ hd)

theorem SpTerm.last : ∀ (n : Nat) (t : Term) (s : Str), s.length ≤ n → SpTerm t s → ∀ u, s ≠ u ++ ['\n']
  | n, t, s, hn, h => by
    cases h with
    | str hb => exact last_cons (by decide) (last_close (by decide))
    | int h => exact last_of_all (digitRun_last h.1)
    | frac h =>
      obtain ⟨w, sep, d, rfl, h1, h2, h3, -⟩ := h
      refine last_of_all fun c hc => ?_
      rcases List.mem_append.1 hc with hc | hc
      · exact digitRun_last h2 c hc
      · rcases List.mem_cons.1 hc with rfl | hc
        · rcases h1 with rfl | rfl <;> decide
        · exact digitRun_last h3 c hc
    | name h => exact last_of_all (varName_last h)
    | @dot x s t hx _ ht =>
      simp only [List.length_append, List.length_cons] at hn
      cases n with
      | zero => omega
      | succ n =>
      exact last_append (last_of_all (varName_last hx)) (last_cons (by decide) (SpTerm.last n _ _ (by omega) ht))
    | neg ht =>
      simp only [List.length_cons] at hn
      cases n with
      | zero => omega
      | succ n => exact last_cons (by decide) (SpTerm.last n _ _ (by omega) ht)
    | pos ht =>
      simp only [List.length_cons] at hn
      cases n with
      | zero => omega
      | succ n => exact last_cons (by decide) (SpTerm.last n _ _ (by omega) ht)
    | arr _ => exact last_cons (by decide) (last_close (by decide))
    | tup _ => exact last_cons (by decide) (last_close (by decide))
    | obj _ => exact last_cons (by decide) (last_close (by decide))
    | incl _ => exact last_cons (by decide) (last_close (by decide))
    | inclAs _ => exact last_cons (by decide) (last_close (by decide))

theorem SpOps.last : ∀ (r : List OpTerm) (s : Str), SpOps r s → ∀ u, s ≠ u ++ ['\n']
  | [], s, h => by cases h; simp
  | .mk op t :: r, s, h => by
    cases h with
    | cons ht hr =>
      exact last_cons (by cases op <;> decide) (last_append (SpTerm.last _ _ _ (Nat.le_refl _) ht) (SpOps.last r _ hr))

theorem SpExpr.last {e : Expr} {s : Str} (h : SpExpr e s) : ∀ u, s ≠ u ++ ['\n'] := by
  cases h with
  | mk ht hr => exact last_append (SpTerm.last _ _ _ (Nat.le_refl _) ht) (SpOps.last _ _ hr)

/-- A document of complete lines, and one whose text goes on behind these lines. -/
theorem spDoc_more : ∀ (D D' : List Field) (X Y : Str), SpDoc D X → (X = [] ∨ ∃ t, X = t ++ ['\n']) → SpDoc D' (X ++ Y) →
    ∃ E, D' = D ++ E
  | [], D', _, _, _, _, _ => ⟨D', rfl⟩
  | .mk tg e :: D, [], X, Y, h, hX, h' => by
    cases h with
    | cons hg htg _ _ _ _ =>
    obtain ⟨c, t, rfl, ht⟩ := htg.head
    generalize hZ : _ ++ Y = Z at h'
    cases h' with
    | nil hg' =>
    have hl := (last_gap (brace := none) (r := []) hg' (.inl ⟨rfl, rfl, rfl⟩)).2
    rw [List.append_nil] at hl
    simp only [List.append_assoc, List.cons_append] at hZ
    exact absurd hZ.symm (hl _ _ _ hg ht)
  | .mk tg e :: D, .mk tg' e' :: D', X, Y, h, hX, h' => by
    cases h with
    | @cons _ g nm g2 s1 r1 _ _ _ hg htg hg2 hx hi hs =>
    generalize hZ : _ ++ Y = Z at h'
    cases h' with
    | @cons _ g' nm' g2' s1' r1' _ _ _ hg' htg' hg2' hx' hi' hs' =>
    simp only [List.append_assoc, List.cons_append] at hZ
    obtain ⟨c, t, hst, ht⟩ := htg.head
    obtain ⟨c', t', hst', ht'⟩ := htg'.head
    obtain ⟨rfl, he2⟩ := gap_unique hg hg' hZ (by rw [hst]; exact ht.found) (by rw [hst']; exact ht'.found)
    obtain ⟨rfl, rfl, he3⟩ := target_unique htg htg' he2
    obtain ⟨d, u, hx1, hd⟩ := hx.head
    obtain ⟨d', u', hx1', hd'⟩ := hx'.head
    obtain ⟨rfl, he4⟩ := gap_unique hg2 hg2' he3 (by rw [hx1]; exact hd.found) (by rw [hx1']; exact hd'.found)
    have hlast : ∃ t, g ++ (nm ++ ':' :: (g2 ++ (s1 ++ r1))) = t ++ ['\n'] := by
      rcases hX with hX | hX
      · simp at hX
      · exact hX
    have hsep : StartsSeparated r1 ∧ ∃ t, r1 = t ++ ['\n'] := by
      obtain ⟨t, ht⟩ := hlast
      rcases List.eq_nil_or_concat r1 with rfl | ⟨t', d, rfl⟩
      · exfalso
        rcases List.eq_nil_or_concat s1 with rfl | ⟨s0, d, rfl⟩
        · cases hx1
        · refine hx.last s0 ?_
          rw [List.concat_eq_append] at ht ⊢
          have e1 : (g ++ (nm ++ ':' :: (g2 ++ s0))) ++ [d] = t ++ ['\n'] := by simpa using ht
          rw [(List.append_inj' e1 rfl).2]
      · refine ⟨(after_def hi hs).resolve_left (by simp), t', ?_⟩
        rw [List.concat_eq_append] at ht ⊢
        have e1 : (g ++ (nm ++ ':' :: (g2 ++ (s1 ++ t')))) ++ [d] = t ++ ['\n'] := by simpa using ht
        rw [(List.append_inj' e1 rfl).2]
    obtain ⟨rfl, rfl⟩ := expr_unique hx hx' he4 (stopAt_sep hsep.1)
      (by rcases after_def hi' hs' with rfl | h
          · exact stopAt_nil
          · simpa using stopAt_sep (y := []) h)
    have he5 := List.append_cancel_left he4
    obtain ⟨E, h1⟩ := spDoc_more D D' r1 Y hi (.inr hsep.2) (by rw [he5]; exact hi')
    exact ⟨E, by rw [h1]; rfl⟩

/-! ## Evaluation -/

section
variable {fs : FS} {file : Option Str} {stack : List Str} {load : Loader}

theorem evalFields_split : ∀ (A B : List Field) (d : Nat) (ps : List Pair) (par : Option Obj),
    evalFields fs file stack load (A ++ B) d ps par =
      (evalFields fs file stack load A d ps par >>= fun x => evalFields fs file stack load B d x.1 x.2)
  | [], B, d, ps, par => rfl
  | .mk tg e :: A, B, d, ps, par => by
    funext st
    simp only [List.cons_append, evalFields]
    simp only [bind, EM.bind]
    cases checkNew file ps par tg st with
    | error e => rfl
    | ok x =>
    dsimp only
    cases evalExpr fs file stack load e ps d x.2 with
    | error e => rfl
    | ok y =>
    obtain ⟨v, st2⟩ := y
    cases tg with
    | field f =>
      simp only [evalFields_split A B]
      rfl
    | global g =>
      simp only [evalFields_split A B]
      rfl
    | parent =>
      cases v with
      | obj o =>
        simp only [evalFields_split A B]
        rfl
      | _ => rfl

/-- One more definition. -/
theorem evalFields_single {tg : Target} {e : Expr} {d : Nat} {ps ps' : List Pair} {par par' : Option Obj} {st st' : ESt}
    (h : evalFields fs file stack load [.mk tg e] d ps par st = .ok ((ps', par'), st')) :
    (∃ f v, tg = .field f ∧ ps' = ps ++ [.mk f v] ∧ par' = par) ∨ (∃ g, tg = .global g ∧ ps' = ps ∧ par' = par) ∨
    ∃ o, tg = .parent ∧ ps' = ps ∧ par = none ∧ par' = some o := by
  simp only [evalFields] at h
  change EM.bind _ _ _ = _ at h
  unfold EM.bind at h
  cases hc : checkNew file ps par tg st with
  | error e => rw [hc] at h; cases h
  | ok x =>
  rw [hc] at h
  change EM.bind _ _ _ = _ at h
  unfold EM.bind at h
  dsimp only at h
  cases hv : evalExpr fs file stack load e ps d x.2 with
  | error e => rw [hv] at h; cases h
  | ok y =>
  rw [hv] at h
  obtain ⟨v, st2⟩ := y
  cases tg with
  | field f => cases h; exact .inl ⟨f, v, rfl, rfl, rfl⟩
  | global g => cases h; exact .inr (.inl ⟨g, rfl, rfl, rfl⟩)
  | parent =>
    cases v with
    | obj o =>
      cases h
      refine .inr (.inr ⟨o, rfl, rfl, ?_, rfl⟩)
      cases par with
      | none => rfl
      | some p => cases hc
    | _ => cases h

/-- Definitions only add. -/
theorem evalFields_keeps : ∀ (D : List Field) (d : Nat) (ps ps' : List Pair) (par par' : Option Obj) (st st' : ESt),
    evalFields fs file stack load D d ps par st = .ok ((ps', par'), st') →
    (∃ more, ps' = ps ++ more) ∧ (par.isSome → par' = par)
  | [], d, ps, ps', par, par', st, st', h => by cases h; exact ⟨⟨[], by simp⟩, fun _ => rfl⟩
  | .mk tg e :: D, d, ps, ps', par, par', st, st', h => by
    rw [show Field.mk tg e :: D = [.mk tg e] ++ D from rfl, evalFields_split] at h
    change EM.bind _ _ _ = _ at h
    unfold EM.bind at h
    cases h1 : evalFields fs file stack load [.mk tg e] d ps par st with
    | error e => rw [h1] at h; cases h
    | ok x =>
    rw [h1] at h
    obtain ⟨⟨ps1, par1⟩, st1⟩ := x
    obtain ⟨⟨m, hm⟩, hp⟩ := evalFields_keeps D _ _ _ _ _ _ _ h
    dsimp only at hm hp
    rcases evalFields_single h1 with ⟨f, v, -, rfl, rfl⟩ | ⟨g, -, rfl, rfl⟩ | ⟨o, -, rfl, rfl, rfl⟩
    · exact ⟨⟨[.mk f v] ++ m, by rw [hm]; simp⟩, hp⟩
    · exact ⟨⟨m, hm⟩, hp⟩
    · exact ⟨⟨m, hm⟩, fun h => by cases h⟩

end

end Over
