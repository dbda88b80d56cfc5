import Verif.Lemmas.Ops
import Verif.Lemmas.Sim4
import Verif.Spec.Stack

/-!
# How deep the calls of `parse_value` are nested
-/

set_option linter.unusedSectionVars false
set_option linter.unusedVariables false

namespace Over

section
variable [Unicode]

theorem ChainsUpTo.suffix {k : Nat} {t r : Str} (h : ChainsUpTo k t) (hr : r <:+ t) : ChainsUpTo k r := by
  obtain ⟨u, rfl⟩ := hr
  intro u' v e
  exact h (u ++ u') v (by rw [e, List.append_assoc])

theorem ChainsUpTo.here {k : Nat} {t : Str} (h : ChainsUpTo k t) : chainLen t ≤ k := h [] t rfl

/-- The state while a file is read. -/
structure Ok (k : Nat) (F : Option Str) (O : List Str) (s : PState) : Prop where
  chains : ChainsUpTo k s.stream.rest
  file : s.stream.file = F
  opened : s.inc.opened = O

/-- The same results, in states of the same kind. -/
def Agr (k : Nat) (F : Option Str) (O : List Str) {α : Type} (m m' : P α) : Prop :=
  ∀ s, Ok k F O s → m s = m' s ∧ ∀ a s', m s = .ok a s' → Ok k F O s'

end

section
variable [Unicode] {k : Nat} {F : Option Str} {O : List Str} {α β : Type}

theorem Agr.bind {m m' : P α} {f f' : α → P β} (h : Agr k F O m m') (hf : ∀ a, Agr k F O (f a) (f' a)) :
    Agr k F O (m >>= f) (m' >>= f') := by
  intro s hs
  obtain ⟨h1, h2⟩ := h s hs
  simp only [Bind.bind, P.bind]
  rw [← h1]
  cases hm : m s with
  | ok a s' => exact hf a s' (h2 a s' hm)
  | err e => exact ⟨rfl, fun _ _ h => by cases h⟩
  | panic => exact ⟨rfl, fun _ _ h => by cases h⟩
  | oof => exact ⟨rfl, fun _ _ h => by cases h⟩

theorem Agr.pure (a : α) : Agr k F O (pure a) (pure a) := fun s hs => ⟨rfl, fun _ _ h => by cases h; exact hs⟩
theorem Agr.fail (e : Kind) : Agr k F O (fail e : P α) (fail e) := fun s hs => ⟨rfl, fun _ _ h => by cases h⟩
theorem Agr.err (e : ParseError) : Agr k F O (fun _ => .err e : P α) (fun _ => .err e) := fun s hs => ⟨rfl, fun _ _ h => by cases h⟩
theorem Agr.panic : Agr k F O (panicP : P α) panicP := fun s hs => ⟨rfl, fun _ _ h => by cases h⟩
theorem Agr.oof : Agr k F O (oofP : P α) oofP := fun s hs => ⟨rfl, fun _ _ h => by cases h⟩
theorem Agr.getPos : Agr k F O getPos getPos := fun s hs => ⟨rfl, fun _ _ h => by cases h; exact hs⟩
theorem Agr.getFile : Agr k F O getFile getFile := fun s hs => ⟨rfl, fun _ _ h => by cases h; exact hs⟩
theorem Agr.peek : Agr k F O peekP peekP := fun s hs => ⟨rfl, fun _ _ h => by cases h; exact hs⟩

theorem next_suffix (s : Stream) : s.next.2.rest <:+ s.rest ∧ s.next.2.file = s.file := by
  unfold Stream.next
  split
  · exact ⟨List.suffix_refl _, rfl⟩
  · rename_i ch cs h; rw [h]; exact ⟨List.suffix_cons _ _, rfl⟩

theorem findCharGo_suffix : ∀ (b : Bool) (r : Str) (p : Pos), (findCharGo b r p).2.1 <:+ r
  | _, [], p => List.suffix_refl _
  | true, ch :: cs, p => by
    simp only [findCharGo]
    split <;> exact (findCharGo_suffix _ cs _).trans (List.suffix_cons _ _)
  | false, ch :: cs, p => by
    simp only [findCharGo]
    split
    · exact (findCharGo_suffix _ cs _).trans (List.suffix_cons _ _)
    · split
      · exact (findCharGo_suffix _ cs _).trans (List.suffix_cons _ _)
      · exact List.suffix_refl _

theorem Agr.next : Agr k F O nextP nextP := by
  intro s hs
  refine ⟨rfl, fun a s' h => ?_⟩
  cases h
  obtain ⟨h1, h2⟩ := next_suffix s.stream
  exact ⟨hs.chains.suffix h1, h2.trans hs.file, hs.opened⟩

theorem Agr.findChar : Agr k F O findCharP findCharP := by
  intro s hs
  refine ⟨rfl, fun a s' h => ?_⟩
  cases h
  exact ⟨hs.chains.suffix (findCharGo_suffix _ _ _), hs.file, hs.opened⟩

theorem Agr.genId : Agr k F O genId genId := fun s hs => ⟨rfl, fun _ _ h => by cases h; exact ⟨hs.chains, hs.file, hs.opened⟩⟩

theorem Agr.forceSentinel (kd : IncKind) : Agr k F O (forceSentinel kd) (forceSentinel kd) := by
  intro s hs
  refine ⟨rfl, fun a s' h => ?_⟩
  cases kd <;> simp only [Over.forceSentinel] at h <;> split at h <;> cases h <;> exact ⟨hs.chains, hs.file, hs.opened⟩

theorem Agr.ite {c : Prop} [Decidable c] {m m' n n' : P α} (h1 : c → Agr k F O m m') (h2 : ¬ c → Agr k F O n n') :
    Agr k F O (if c then m else n) (if c then m' else n') := by
  by_cases h : c
  · rw [if_pos h, if_pos h]; exact h1 h
  · rw [if_neg h, if_neg h]; exact h2 h

theorem Agr.bound {f f' : Nat → P α} (h : ∀ n, Agr k F O (f n) (f' n)) : Agr k F O (withBound f) (withBound f') :=
  fun s hs => h _ s hs

theorem Agr.failEnd : Agr k F O (failEnd : P α) failEnd := .bind .getPos fun _ => .fail _

theorem Agr.expect (c : Char) : Agr k F O (expectP c) (expectP c) := by
  refine .bind .next fun x => ?_
  cases x with
  | none => exact .panic
  | some ch => exact .ite (fun _ => .pure _) (fun _ => .panic)

/-- A token ends further on. -/
def LexSuf {α : Type} (r : Str) : Lex α → Prop
  | .ok _ r' _ => r' <:+ r
  | _ => True

theorem Agr.lex {f : Str → Pos → Lex α} (h : ∀ r p, LexSuf r (f r p)) : Agr k F O (liftLex f) (liftLex f) := by
  intro s hs
  refine ⟨rfl, fun a s' hm => ?_⟩
  simp only [liftLex] at hm
  have h1 := h s.stream.rest s.stream.pos
  cases hf : f s.stream.rest s.stream.pos with
  | ok b r p =>
    rw [hf] at hm h1
    cases hm
    exact ⟨hs.chains.suffix h1, hs.file, hs.opened⟩
  | err e => rw [hf] at hm; cases hm
  | panic => rw [hf] at hm; cases hm

theorem LexSuf.ite {c : Prop} [Decidable c] {r : Str} {x y : Lex α} (h : c → LexSuf r x) (h' : ¬ c → LexSuf r y) :
    LexSuf r (if c then x else y) := by
  by_cases hc : c
  · rw [if_pos hc]; exact h hc
  · rw [if_neg hc]; exact h' hc

theorem LexSuf.cons {c : Char} {r : Str} {x : Lex α} (h : LexSuf r x) : LexSuf (c :: r) x := by
  cases x with
  | ok a r' p => exact List.IsSuffix.trans h (List.suffix_cons _ _)
  | _ => trivial

theorem numGo_suf : ∀ (r : Str) (p : Pos) (s1 s2 : Str) (dec under : Bool), LexSuf r (numGo r p s1 s2 dec under)
  | [], p, s1, s2, dec, under => List.suffix_refl _
  | ch :: cs, p, s1, s2, dec, under => by
    simp only [numGo]
    refine .ite (fun _ => List.suffix_refl _) fun _ => .ite (fun _ => .ite (fun _ => (numGo_suf cs _ _ _ _ _).cons) fun _ => (numGo_suf cs _ _ _ _ _).cons) fun _ => ?_
    refine .ite (fun _ => .ite (fun _ => (numGo_suf cs _ _ _ _ _).cons) fun _ => trivial) fun _ => ?_
    exact .ite (fun _ => .ite (fun _ => (numGo_suf cs _ _ _ _ _).cons) fun _ => trivial) fun _ => trivial

theorem strGo_suf : ∀ (r : Str) (p : Pos) (esc : Bool) (acc : Str), LexSuf r (strGo r p esc acc)
  | [], p, esc, acc => trivial
  | ch :: cs, p, esc, acc => by
    simp only [strGo]
    refine .ite (fun _ => ?_) fun _ => .ite (fun _ => List.suffix_cons _ _) fun _ => .ite (fun _ => (strGo_suf cs _ _ _).cons) fun _ => (strGo_suf cs _ _ _).cons
    cases getEscapeChar ch with
    | some c => exact (strGo_suf cs _ _ _).cons
    | none =>
      simp only
      cases usub (p.adv ch).col 1 <;> trivial

theorem lexStr_suf (r : Str) (p : Pos) : LexSuf r (lexStr r p) := by
  cases r with
  | nil => trivial
  | cons ch cs =>
    simp only [lexStr]
    exact .ite (fun _ => (strGo_suf cs _ _ _).cons) fun _ => trivial

theorem fieldGo_suf : ∀ (r : Str) (p : Pos) (first : Bool) (acc : Str), LexSuf r (fieldGo r p first acc)
  | [], p, first, acc => List.suffix_refl _
  | ch :: cs, p, first, acc => by
    simp only [fieldGo]
    refine .ite (fun _ => List.suffix_cons _ _) fun _ => .ite (fun _ => (fieldGo_suf cs _ _ _).cons) fun _ => ?_
    cases usub (p.adv ch).col 1 <;> trivial

theorem lexField_suf (l c : Nat) (r : Str) (p : Pos) : LexSuf r (lexField r p l c) := by
  cases r with
  | nil => trivial
  | cons ch cs =>
    simp only [lexField]
    have hr : LexSuf (ch :: cs) (if (ch == '@') = true then fieldGo cs (p.adv ch) true [ch] else fieldGo (ch :: cs) p true []) :=
      .ite (fun _ => (fieldGo_suf _ _ _ _).cons) fun _ => fieldGo_suf _ _ _ _
    revert hr
    generalize (if (ch == '@') = true then fieldGo cs (p.adv ch) true [ch] else fieldGo (ch :: cs) p true []) = x
    intro hr
    cases x with
    | ok a r' p' =>
      simp only
      cases classifyField a (ch == '@') l c with
      | ok x => exact hr
      | error k => trivial
    | _ => trivial

/-- No sign comes next. -/
def NoSign (r : Str) : Prop := ∀ ch cs, r = ch :: cs → ¬ (ch = '+' ∨ ch = '-')

/-- A name ends further on; a dot behind it is one of the chain. -/
theorem varGo_suf : ∀ (r : Str) (p : Pos) (acc : Str) {x : Str} {dt : DotEnd} {r' : Str} {p' : Pos},
    varGo r p acc = .ok (x, dt) r' p' → r' <:+ r ∧ (dt ≠ .none → chainLen r' + 1 ≤ pathDots r ∧ NoSign r')
  | [], p, acc, x, dt, r', p', h => by
    simp only [varGo] at h
    cases h
    exact ⟨List.suffix_refl _, fun h => absurd rfl h⟩
  | ch :: cs, p, acc, x, dt, r', p', h => by
    simp only [varGo] at h
    split at h
    · rename_i hd
      subst hd
      have key : ∀ c2 l, (c2 = '@' ∨ (isValidFieldChar c2 true || isNumericChar c2) = true) →
          chainLen (c2 :: l) + 1 ≤ pathDots ('.' :: c2 :: l) ∧ NoSign (c2 :: l) := by
        intro c2 l hc
        have : ¬ (c2 = '+' ∨ c2 = '-') := by
          rw [Bool.or_eq_true, validFieldChar_true_iff, numericChar_iff] at hc
          rcases hc with h | ((h | h) | h | h | h)
          · char_omega
          · have := h.cases; char_omega
          · char_omega
          · char_omega
          · char_omega
          · char_omega
        refine ⟨?_, fun ch cs e => by cases e; exact this⟩
        simp only [chainLen, if_neg this, pathDots, if_true]
        omega
      cases cs with
      | nil => cases h
      | cons c2 l =>
        simp only at h
        split at h
        · cases h; exact ⟨List.suffix_cons _ _, fun _ => key _ _ (.inl ‹_›)⟩
        · split at h
          · cases h; exact ⟨List.suffix_cons _ _, fun _ => key _ _ (.inr ‹_›)⟩
          · cases h
    · rename_i hd
      split at h
      · cases h; exact ⟨List.suffix_refl _, fun h => absurd rfl h⟩
      · split at h
        · rename_i hv
          obtain ⟨h1, h2⟩ := varGo_suf cs _ _ h
          refine ⟨h1.trans (List.suffix_cons _ _), fun hn => ⟨(h2 hn).1.trans ?_, (h2 hn).2⟩⟩
          simp only [pathDots, if_neg hd]
          rw [if_pos]
          rw [validFieldChar_false_iff] at hv
          rcases hv with h | h | h
          · simp [h]
          · simp [h]
          · simp [h]
        · cases h

end

end Over
