import Verif.Model.Parser
import Verif.Lemmas.Ops
import Verif.Lemmas.Numbers

/-!
# A text and the same text with more lines

A relation between two runs of the parser: the second text continues the first one, which ends with a newline, or it is
the same text under another name of the file.  Whatever the first run does before it comes to the end of its text, the
second one does, too.
-/

set_option linter.unusedSectionVars false

namespace Over

/-- What the two runs are: what is added to the text, the names of the two files, the errors of the first run about
which nothing is said, how the other errors are related, what is known of the files being read, and how the files loaded and being read in
the two runs are related. -/
structure XCtx where
  y : Str
  f : Option Str
  f' : Option Str
  Q : ParseError → Prop
  E : ParseError → ParseError → Prop
  J : List Str → Prop
  I : Included → Included → Prop
  hE : ∀ k, E ⟨f, k⟩ ⟨f', k⟩
  hQ : y ≠ [] → ∀ l, Q ⟨f, .unexpectedEnd l⟩

/-- The end of the text is not reached: a newline is to come, or there is nothing after it in the second text. -/
def XCtx.Live (C : XCtx) (r : Str) : Prop := C.y = [] ∨ r.getLast? = some '\n'

/-- Related states. -/
structure XRel (C : XCtx) (s1 s2 : PState) : Prop where
  file1 : s1.stream.file = C.f
  file2 : s2.stream.file = C.f'
  rest : s2.stream.rest = s1.stream.rest ++ C.y
  pos : s2.stream.pos = s1.stream.pos
  globals : s2.globals = s1.globals
  inc : C.I s1.inc s2.inc
  rt : s2.rt = s1.rt
  live : C.Live s1.stream.rest
  files : C.J s1.inc.opened

/-- Related outcomes. -/
def XRes {α : Type} (C : XCtx) (B : α → Str → Prop) : Res α → Res α → Prop
  | .ok a s1, r2 => ∃ s2, r2 = .ok a s2 ∧ XRel C s1 s2 ∧ B a s1.stream.rest
  | .err e, r2 => C.Q e ∨ ∃ e', r2 = .err e' ∧ C.E e e'
  | .panic, _ => True
  | .oof, _ => True

/-- Related actions, from a state where `A` holds of the text to come to one where `B` holds. -/
def XS {α : Type} (C : XCtx) (A : Str → Prop) (m1 m2 : P α) (B : α → Str → Prop) : Prop :=
  ∀ s1 s2, XRel C s1 s2 → A s1.stream.rest → XRes C B (m1 s1) (m2 s2)

/-- Nothing is known. -/
def Tr : Str → Prop := fun _ => True
/-- Nothing is known afterwards. -/
def TrB {α : Type} : α → Str → Prop := fun _ _ => True

theorem XCtx.Live.tail {C : XCtx} {ch : Char} {cs : Str} (h : C.Live (ch :: cs)) (hc : ch ≠ '\n') : C.Live cs := by
  rcases h with h | h
  · exact .inl h
  · refine .inr ?_
    cases cs with
    | nil => simp at h; exact absurd h hc
    | cons a l => simpa [List.getLast?_cons_cons] using h

theorem XCtx.Live.nil {C : XCtx} (h : C.Live []) : C.y = [] := by
  rcases h with h | h
  · exact h
  · simp at h

section rules
variable {α β : Type} {C : XCtx} {A A' : Str → Prop}

theorem xs_pure {a : α} {B : α → Str → Prop} (h : ∀ r, A r → B a r) : XS C A (pure a) (pure a) B :=
  fun _ s2 hs ha => ⟨s2, rfl, hs, h _ ha⟩

theorem xs_bind {m1 m2 : P α} {f1 f2 : α → P β} {B : α → Str → Prop} {B' : β → Str → Prop}
    (h : XS C A m1 m2 B) (hf : ∀ a, XS C (B a) (f1 a) (f2 a) B') : XS C A (m1 >>= f1) (m2 >>= f2) B' := by
  intro s1 s2 hs ha
  have h1 := h s1 s2 hs ha
  simp only [bind, P.bind]
  cases e1 : m1 s1 with
  | ok a s1' =>
    rw [e1] at h1
    obtain ⟨s2', e2, hs', hb⟩ := h1
    rw [e2]
    exact hf a _ _ hs' hb
  | err e =>
    rw [e1] at h1
    rcases h1 with h1 | ⟨e', e2, h2⟩
    · exact .inl h1
    · rw [e2]; exact .inr ⟨e', rfl, h2⟩
  | panic => trivial
  | oof => trivial

theorem xs_mono {m1 m2 : P α} {B B' : α → Str → Prop} (h : XS C A m1 m2 B) (ha : ∀ r, A' r → A r)
    (hb : ∀ a r, B a r → B' a r) : XS C A' m1 m2 B' := by
  intro s1 s2 hs h'
  have h1 := h s1 s2 hs (ha _ h')
  cases e1 : m1 s1 with
  | ok a s1' => rw [e1] at h1; obtain ⟨s2', e2, hs', h3⟩ := h1; exact ⟨s2', e2, hs', hb _ _ h3⟩
  | err e => rw [e1] at h1; exact h1
  | panic => trivial
  | oof => trivial

theorem xs_weak {m1 m2 : P α} {B : α → Str → Prop} (h : XS C Tr m1 m2 B) : XS C A m1 m2 B :=
  xs_mono h (fun _ _ => trivial) (fun _ _ h => h)

theorem xs_fail {k : Kind} {B : α → Str → Prop} : XS C A (fail k) (fail k) B := by
  intro s1 s2 hs _
  refine .inr ⟨⟨C.f', k⟩, ?_, ?_⟩
  · simp only [fail, hs.file2]
  · rw [hs.file1]; exact C.hE k

theorem xs_panic {m2 : P α} {B : α → Str → Prop} : XS C A panicP m2 B := fun _ _ _ _ => trivial
theorem xs_oof {m2 : P α} {B : α → Str → Prop} : XS C A oofP m2 B := fun _ _ _ _ => trivial

theorem xs_getPos : XS C A getPos getPos (fun _ r => A r) := fun _ s2 hs ha => ⟨s2, by rw [getPos, hs.pos], hs, ha⟩

theorem xs_ite {c : Prop} [Decidable c] {a a' b b' : P α} {B : α → Str → Prop}
    (h1 : c → XS C A a b B) (h2 : ¬ c → XS C A a' b' B) : XS C A (if c then a else a') (if c then b else b') B := by
  by_cases h : c
  · rw [if_pos h, if_pos h]; exact h1 h
  · rw [if_neg h, if_neg h]; exact h2 h

theorem xs_failEnd {m2 : P α} {B : α → Str → Prop} (h : C.y = [] → XS C A failEnd m2 B) : XS C A failEnd m2 B := by
  by_cases hy : C.y = []
  · exact h hy
  · intro s1 s2 hs _
    have : failEnd s1 = (.err ⟨s1.stream.file, .unexpectedEnd s1.stream.pos.line⟩ : Res α) := rfl
    rw [this, hs.file1]
    exact .inl (C.hQ hy _)

theorem xs_failEnd_same {B : α → Str → Prop} : XS C A failEnd failEnd B :=
  xs_bind xs_getPos fun _ => xs_fail

/-- The next character, if there is one in the first text, is the same in both; if there is none there is none in the
second text. -/
theorem xs_peekP : XS C A peekP peekP (fun a r => A r ∧ r.head? = a) := by
  intro s1 s2 hs ha
  refine ⟨s2, ?_, hs, ha, rfl⟩
  simp only [peekP, Stream.peek, hs.rest]
  cases h : s1.stream.rest with
  | nil =>
    have := hs.live
    rw [h] at this
    rw [this.nil]; rfl
  | cons c cs => rfl

/-- Consuming a character other than a newline. -/
theorem xs_nextP_head {o : Option Char} (h : o ≠ some '\n') (hA : ∀ r, A r → r.head? = o) :
    XS C A nextP nextP (fun a _ => a = o) := by
  intro s1 s2 hs ha
  simp only [nextP, Stream.next, hs.rest]
  have h0 := hA _ ha
  cases e : s1.stream.rest with
  | nil =>
    have := hs.live
    rw [e] at this h0
    rw [this.nil]
    exact ⟨s2, rfl, hs, h0⟩
  | cons c cs =>
    have h1 := hs.live
    rw [e] at h1 h0
    have h2 : c ≠ '\n' := by rintro rfl; exact h h0.symm
    simp only [List.cons_append]
    exact ⟨_, rfl, ⟨hs.file1, hs.file2, rfl, by simp only [hs.pos], hs.globals, hs.inc, hs.rt, h1.tail h2, hs.files⟩, h0⟩

theorem xs_expectP {c : Char} (hc : c ≠ '\n') : XS C A (expectP c) (expectP c) TrB := by
  intro s1 s2 hs ha
  simp only [expectP, bind, P.bind, nextP, Stream.next, hs.rest]
  cases e : s1.stream.rest with
  | nil => trivial
  | cons ch cs =>
    have h1 := hs.live
    rw [e] at h1
    simp only [List.cons_append]
    by_cases h : ch = c
    · simp only [if_pos h]
      refine ⟨_, rfl, ⟨hs.file1, hs.file2, rfl, by simp only [hs.pos], hs.globals, hs.inc, hs.rt, h1.tail (h ▸ hc), hs.files⟩, trivial⟩
    · simp only [if_neg h]; trivial

theorem findCharGo_true_head : ∀ (b : Bool) (r : Str) (p : Pos) {r' p'}, findCharGo b r p = (true, r', p') →
    ∃ ch cs, r' = ch :: cs ∧ isUniWhitespace ch = false ∧ ch ≠ '#' ∧
      (∀ z, findCharGo b (r ++ z) p = (true, r' ++ z, p')) ∧ (r.getLast? = some '\n' → r'.getLast? = some '\n')
  | b, [], p, r', p', h => by simp [findCharGo] at h
  | true, ch :: cs, p, r', p', h => by
    simp only [findCharGo] at h
    by_cases hc : ch = '\n'
    · rw [if_pos hc] at h
      obtain ⟨a, l, h1, h2, h3, h4, h5⟩ := findCharGo_true_head false cs _ h
      refine ⟨a, l, h1, h2, h3, fun z => by simp only [List.cons_append, findCharGo]; rw [if_pos hc]; exact h4 z, fun h6 => h5 ?_⟩
      cases cs with
      | nil => simp [findCharGo] at h
      | cons x l => simpa [List.getLast?_cons_cons] using h6
    · rw [if_neg hc] at h
      obtain ⟨a, l, h1, h2, h3, h4, h5⟩ := findCharGo_true_head true cs _ h
      refine ⟨a, l, h1, h2, h3, fun z => by simp only [List.cons_append, findCharGo]; rw [if_neg hc]; exact h4 z, fun h6 => h5 ?_⟩
      cases cs with
      | nil => simp [findCharGo] at h
      | cons x l => simpa [List.getLast?_cons_cons] using h6
  | false, ch :: cs, p, r', p', h => by
    simp only [findCharGo] at h
    by_cases hc : ch = '#'
    · rw [if_pos hc] at h
      obtain ⟨a, l, h1, h2, h3, h4, h5⟩ := findCharGo_true_head true cs _ h
      refine ⟨a, l, h1, h2, h3, fun z => by simp only [List.cons_append, findCharGo]; rw [if_pos hc]; exact h4 z, fun h6 => h5 ?_⟩
      cases cs with
      | nil => simp [findCharGo] at h
      | cons x l => simpa [List.getLast?_cons_cons] using h6
    · rw [if_neg hc] at h
      by_cases hw : isUniWhitespace ch = true
      · rw [if_pos hw] at h
        obtain ⟨a, l, h1, h2, h3, h4, h5⟩ := findCharGo_true_head false cs _ h
        refine ⟨a, l, h1, h2, h3, fun z => by
          simp only [List.cons_append, findCharGo]; rw [if_neg hc, if_pos hw]; exact h4 z, fun h6 => h5 ?_⟩
        cases cs with
        | nil => simp [findCharGo] at h
        | cons x l => simpa [List.getLast?_cons_cons] using h6
      · rw [if_neg hw] at h
        cases h
        exact ⟨ch, cs, rfl, by simpa using hw, hc, fun z => by
          simp only [List.cons_append, findCharGo]; rw [if_neg hc, if_neg hw], id⟩

/-- What is known after `find_char` found something. -/
def Found (r : Str) : Prop := ∃ ch cs, r = ch :: cs ∧ isUniWhitespace ch = false ∧ ch ≠ '#'

theorem Found.head_ne {r : Str} (h : Found r) {ch : Char} (hc : r.head? = some ch) : ch ≠ '\n' := by
  obtain ⟨a, l, rfl, h1, h2⟩ := h
  rintro rfl
  cases hc
  revert h1; decide

theorem Live_findChar {r r' : Str} (h : C.Live r) (h5 : r.getLast? = some '\n' → r'.getLast? = some '\n') : C.Live r' := by
  rcases h with h | h
  · exact .inl h
  · exact .inr (h5 h)

/-- `find_char`, then something if a character was found, or the error of an unexpected end. -/
theorem xs_find {k1 k2 : P α} {B : α → Str → Prop} (h : XS C Found k1 k2 B) :
    XS C A (findCharP >>= fun b => if (!b) = true then failEnd else k1)
      (findCharP >>= fun b => if (!b) = true then failEnd else k2) B := by
  intro s1 s2 hs _
  simp only [bind, P.bind, findCharP, Stream.findChar, hs.rest, hs.pos]
  cases e : findCharGo false s1.stream.rest s1.stream.pos with
  | mk b rp =>
    obtain ⟨r, p⟩ := rp
    cases b with
    | true =>
      obtain ⟨ch, cs, rfl, h2, h3, h4, h5⟩ := findCharGo_true_head _ _ _ e
      rw [h4 C.y]
      simp only [Bool.not_true]
      exact h _ _ ⟨hs.file1, hs.file2, rfl, rfl, hs.globals, hs.inc, hs.rt, Live_findChar hs.live h5, hs.files⟩ ⟨ch, cs, rfl, h2, h3⟩
    | false =>
      simp only [Bool.not_false, if_true]
      by_cases hy : C.y = []
      · rw [hy, List.append_nil, e]
        simp only [Bool.not_false, if_true]
        refine .inr ⟨⟨C.f', .unexpectedEnd p.line⟩, ?_, ?_⟩
        · simp only [failEnd, bind, P.bind, getPos, fail, hs.file2]
        · rw [show s1.stream.file = C.f from hs.file1]; exact C.hE _
      · refine .inl ?_
        rw [show s1.stream.file = C.f from hs.file1]
        exact C.hQ hy _

/-- The outcome of a token-level function on the first text and, given what is added, on the second. -/
def LexRel {α : Type} : Lex α → (Str → Lex α) → Prop
  | .ok a r' p', g => r'.getLast? = some '\n' ∧ ∀ z, g z = .ok a (r' ++ z) p'
  | .err k, g => (∃ l, k = .unexpectedEnd l) ∨ ∀ z, g z = .err k
  | .panic, _ => True

theorem LexRel.ite {c : Prop} [Decidable c] {x x' : Lex α} {g g' : Str → Lex α} (h : c → LexRel x g) (h' : ¬ c → LexRel x' g') :
    LexRel (if c then x else x') (fun z => if c then g z else g' z) := by
  by_cases hc : c
  · simp only [if_pos hc]; exact h hc
  · simp only [if_neg hc]; exact h' hc

theorem LexRel.err {k : Kind} : LexRel (.err k : Lex α) (fun _ => .err k) := .inr fun _ => rfl

/-- A token-level function that does not see what comes after the text unless it runs into the end. -/
def LexExt {α : Type} (f : Str → Pos → Lex α) : Prop := ∀ r p, r.getLast? = some '\n' →
  LexRel (f r p) (fun z => f (r ++ z) p)

theorem xs_liftLex {f : Str → Pos → Lex α} (h : LexExt f) :
    XS C A (liftLex f) (liftLex f) (fun a _ => ∃ r p r' p', f r p = .ok a r' p') := by
  intro s1 s2 hs _
  simp only [liftLex, hs.rest, hs.pos]
  have hl := hs.live
  by_cases hy : C.y = []
  · rw [hy, List.append_nil]
    cases e : f s1.stream.rest s1.stream.pos with
    | ok a r p =>
      exact ⟨_, rfl, ⟨hs.file1, hs.file2, by simp only [hy, List.append_nil], rfl, hs.globals, hs.inc, hs.rt, .inl hy, hs.files⟩,
        _, _, _, _, e⟩
    | err k => exact .inr ⟨⟨C.f', k⟩, by simp only [hs.file2], by rw [hs.file1]; exact C.hE k⟩
    | panic => trivial
  · have h1 := h s1.stream.rest s1.stream.pos (hl.resolve_left hy)
    cases e : f s1.stream.rest s1.stream.pos with
    | ok a r p =>
      rw [e] at h1
      have h2 := h1.2 C.y
      beta_reduce at h2
      rw [h2]
      exact ⟨_, rfl, ⟨hs.file1, hs.file2, rfl, rfl, hs.globals, hs.inc, hs.rt, .inr h1.1, hs.files⟩, _, _, _, _, e⟩
    | err k =>
      rw [e] at h1
      rcases h1 with ⟨l, rfl⟩ | h1
      · refine .inl ?_; rw [hs.file1]; exact C.hQ hy l
      · have h2 := h1 C.y
        beta_reduce at h2
        rw [h2]; exact .inr ⟨⟨C.f', k⟩, by simp only [hs.file2], by rw [hs.file1]; exact C.hE k⟩
    | panic => trivial

theorem xs_withBound {f1 f2 : Nat → P α} {B : α → Str → Prop} (h : ∀ n m, n ≤ m → XS C A (f1 n) (f2 m) B) :
    XS C A (withBound f1) (withBound f2) B := by
  intro s1 s2 hs ha
  simp only [withBound, hs.rest]
  exact h _ _ (by simp) _ _ hs ha

/-- An action that does not touch the stream and depends on the rest of the state only. -/
theorem xs_genId : XS C A genId genId (fun _ r => A r) := fun s1 s2 hs ha =>
  ⟨{ s2 with rt := s1.rt.after { s1.rt.toShared with curId := s1.rt.curId + 1 } }, by simp only [genId, hs.rt], ⟨hs.file1, hs.file2, hs.rest, hs.pos, hs.globals, hs.inc, rfl, hs.live, hs.files⟩, ha⟩

theorem xs_forceSentinel (k : IncKind) : XS C A (forceSentinel k) (forceSentinel k) (fun _ r => A r) := by
  intro s1 s2 hs ha
  have key : ∀ rt' i, XRes C (fun (_ : Nat) r => A r) (.ok i { s1 with rt := rt' }) (.ok i { s2 with rt := rt' }) :=
    fun rt' i => ⟨_, rfl, ⟨hs.file1, hs.file2, hs.rest, hs.pos, hs.globals, hs.inc, rfl, hs.live, hs.files⟩, ha⟩
  have key0 : ∀ i, XRes C (fun (_ : Nat) r => A r) (.ok i s1) (.ok i s2) := fun i => ⟨_, rfl, hs, ha⟩
  unfold forceSentinel
  rw [hs.rt]
  cases k <;> simp only
  · cases s1.rt.objS with
    | none => exact key _ _
    | some i => exact key0 i
  · cases s1.rt.strS with
    | none => exact key _ _
    | some i => exact key0 i
  · cases s1.rt.arrS with
    | none => exact key _ _
    | some i => exact key0 i
  · cases s1.rt.tupS with
    | none => exact key _ _
    | some i => exact key0 i

end rules

/-! ## Tokens -/

section tokens

theorem getLast_tail {ch : Char} {cs : Str} (h : (ch :: cs).getLast? = some '\n') (hc : ch ≠ '\n') :
    cs.getLast? = some '\n' := by
  cases cs with
  | nil => simp at h; exact absurd h hc
  | cons a l => simpa [List.getLast?_cons_cons] using h

theorem isValueEndChar_newline : isValueEndChar '\n' = true := by decide

theorem numGo_ext : ∀ (r : Str) (p : Pos) (s1 s2 : Str) (dec under : Bool), r.getLast? = some '\n' →
    LexRel (numGo r p s1 s2 dec under) (fun z => numGo (r ++ z) p s1 s2 dec under)
  | [], p, s1, s2, dec, under, h => by simp at h
  | ch :: cs, p, s1, s2, dec, under, h => by
    simp only [List.cons_append, numGo]
    refine .ite (fun _ => ⟨h, fun _ => rfl⟩) fun h1 => ?_
    have hne : ch ≠ '\n' := by rintro rfl; exact h1 isValueEndChar_newline
    have ht := getLast_tail h hne
    refine .ite (fun _ => .ite (fun _ => numGo_ext cs _ _ _ _ _ ht) fun _ => numGo_ext cs _ _ _ _ _ ht) fun _ => ?_
    refine .ite (fun _ => .ite (fun _ => numGo_ext cs _ _ _ _ _ ht) fun _ => .err) fun _ => ?_
    exact .ite (fun _ => .ite (fun _ => numGo_ext cs _ _ _ _ _ ht) fun _ => .err) fun _ => .err

theorem strGo_ext : ∀ (r : Str) (p : Pos) (esc : Bool) (acc : Str), r = [] ∨ r.getLast? = some '\n' →
    LexRel (strGo r p esc acc) (fun z => strGo (r ++ z) p esc acc)
  | [], p, esc, acc, h => .inl ⟨_, rfl⟩
  | ch :: cs, p, esc, acc, h => by
    have h0 : (ch :: cs).getLast? = some '\n' := h.resolve_left (by simp)
    have ht : cs = [] ∨ cs.getLast? = some '\n' := by
      cases cs with
      | nil => exact .inl rfl
      | cons a l => right; simpa [List.getLast?_cons_cons] using h0
    simp only [List.cons_append, strGo]
    refine .ite (fun _ => ?_) fun _ => ?_
    · cases getEscapeChar ch with
      | some c => exact strGo_ext cs _ _ _ ht
      | none =>
        simp only
        cases usub (p.adv ch).col 1 with
        | some c => exact .err
        | none => trivial
    · refine .ite (fun hq => ⟨getLast_tail h0 (by rw [hq]; decide), fun _ => rfl⟩) fun _ => ?_
      exact .ite (fun _ => strGo_ext cs _ _ _ ht) fun _ => strGo_ext cs _ _ _ ht

theorem lexStr_ext : LexExt lexStr := by
  intro r p h
  cases r with
  | nil => simp at h
  | cons ch cs =>
    simp only [List.cons_append, lexStr]
    exact .ite (fun hq => strGo_ext cs _ _ _ (.inr (getLast_tail h (by rw [hq]; decide)))) fun _ => trivial

variable [Unicode]

theorem isValidFieldChar_newline (b : Bool) : isValidFieldChar '\n' b = false := by
  have h1 : isAlphabetic '\n' = false := by
    have h2 : isAsciiAlpha '\n' = false := by decide
    have h3 : decide (127 < '\n'.toNat) = false := by decide
    simp only [isAlphabetic, h2, h3, Bool.false_and, Bool.or_false]
  have h2 : isDigit '\n' = false := by decide
  simp [isValidFieldChar, h1, h2]

theorem fieldGo_ext : ∀ (r : Str) (p : Pos) (first : Bool) (acc : Str), r.getLast? = some '\n' →
    LexRel (fieldGo r p first acc) (fun z => fieldGo (r ++ z) p first acc)
  | [], p, first, acc, h => by simp at h
  | ch :: cs, p, first, acc, h => by
    simp only [List.cons_append, fieldGo]
    refine .ite (fun h1 => ⟨getLast_tail h (by rw [h1.1]; decide), fun _ => rfl⟩) fun _ => .ite (fun h2 => ?_) fun _ => ?_
    · have hne : ch ≠ '\n' := by rintro rfl; rw [isValidFieldChar_newline] at h2; cases h2
      exact fieldGo_ext cs _ _ _ (getLast_tail h hne)
    · cases usub (p.adv ch).col 1 with
      | some c => exact .err
      | none => trivial

theorem lexField_ext (l c : Nat) : LexExt (fun r p => lexField r p l c) := by
  intro r p h
  cases r with
  | nil => simp at h
  | cons ch cs =>
    simp only [List.cons_append, lexField]
    have hr : LexRel (if (ch == '@') = true then fieldGo cs (p.adv ch) true [ch] else fieldGo (ch :: cs) p true [])
        (fun z => if (ch == '@') = true then fieldGo (cs ++ z) (p.adv ch) true [ch] else fieldGo (ch :: (cs ++ z)) p true []) := by
      refine .ite (fun hg => ?_) fun _ => fieldGo_ext (ch :: cs) _ _ _ h
      have hne : ch ≠ '\n' := by rintro rfl; revert hg; decide
      exact fieldGo_ext cs _ _ _ (getLast_tail h hne)
    revert hr
    generalize (if (ch == '@') = true then fieldGo cs (p.adv ch) true [ch] else fieldGo (ch :: cs) p true []) = x
    intro hr
    cases x with
    | ok a r' p' =>
      simp only
      have e : ∀ z, _ := hr.2
      simp only at e
      cases hc : classifyField a (ch == '@') l c with
      | ok x => exact ⟨hr.1, fun z => by beta_reduce; rw [e z]; simp only [hc]⟩
      | error k => exact .inr fun z => by beta_reduce; rw [e z]; simp only [hc]
    | err k =>
      rcases hr with hr | hr
      · exact .inl hr
      · exact .inr fun z => by simp only at hr ⊢; rw [hr z]
    | panic => trivial

theorem varGo_ext : ∀ (r : Str) (p : Pos) (acc : Str), r.getLast? = some '\n' →
    LexRel (varGo r p acc) (fun z => varGo (r ++ z) p acc)
  | [], p, acc, h => by simp at h
  | ch :: cs, p, acc, h => by
    simp only [List.cons_append, varGo]
    refine .ite (fun h1 => ?_) fun _ => .ite (fun _ => ⟨h, fun _ => rfl⟩) fun h2 => .ite (fun _ => ?_) fun _ => .err
    · have ht := getLast_tail h (by rw [h1]; decide)
      cases cs with
      | nil => simp at ht
      | cons c2 l =>
        simp only [List.cons_append]
        exact .ite (fun _ => ⟨ht, fun _ => rfl⟩) fun _ => .ite (fun _ => ⟨ht, fun _ => rfl⟩) fun _ => .err
    · have hne : ch ≠ '\n' := by rintro rfl; exact h2 isValueEndChar_newline
      exact varGo_ext cs _ _ (getLast_tail h hne)

theorem lexVar_ext : LexExt lexVar := by
  intro r p h
  cases r with
  | nil => simp at h
  | cons ch cs =>
    simp only [List.cons_append, lexVar]
    have hr : LexRel (if (ch == '@') = true then varGo cs (p.adv ch) [ch] else varGo (ch :: cs) p [])
        (fun z => if (ch == '@') = true then varGo (cs ++ z) (p.adv ch) [ch] else varGo (ch :: (cs ++ z)) p []) := by
      refine .ite (fun hg => ?_) fun _ => varGo_ext (ch :: cs) _ _ h
      have hne : ch ≠ '\n' := by rintro rfl; revert hg; decide
      exact varGo_ext cs _ _ (getLast_tail h hne)
    revert hr
    generalize (if (ch == '@') = true then varGo cs (p.adv ch) [ch] else varGo (ch :: cs) p []) = x
    intro hr
    cases x with
    | ok a r' p' =>
      have e : ∀ z, _ := hr.2
      simp only at e
      exact ⟨hr.1, fun z => by beta_reduce; rw [e z]⟩
    | err k =>
      rcases hr with hr | hr
      · exact .inl hr
      · exact .inr fun z => by simp only at hr ⊢; rw [hr z]
    | panic => trivial

end tokens

/-! ## Numbers and operators -/

section
variable {C : XCtx} {A : Str → Prop}

theorem numGo_digits : ∀ (r : Str) (p : Pos) (s1 s2 : Str) (dec under : Bool), (∀ c ∈ s1, isDigit c = true) →
    (∀ c ∈ s2, isDigit c = true) → ∀ {t1 t2 d r' p'}, numGo r p s1 s2 dec under = .ok (t1, t2, d) r' p' →
    (∀ c ∈ t1, isDigit c = true) ∧ ∀ c ∈ t2, isDigit c = true
  | [], p, s1, s2, dec, under, h1, h2, t1, t2, d, r', p', h => by
    simp only [numGo] at h; cases h; exact ⟨h1, h2⟩
  | ch :: cs, p, s1, s2, dec, under, h1, h2, t1, t2, d, r', p', h => by
    have key : ∀ s : Str, (∀ c ∈ s, isDigit c = true) → isDigit ch = true → ∀ c ∈ s ++ [ch], isDigit c = true := by
      intro s hs hc c hm
      rcases List.mem_append.1 hm with hm | hm
      · exact hs c hm
      · rw [List.mem_singleton.1 hm]; exact hc
    simp only [numGo] at h
    split at h
    · cases h; exact ⟨h1, h2⟩
    · split at h
      · split at h
        · exact numGo_digits cs _ _ _ _ _ (key s1 h1 ‹_›) h2 h
        · exact numGo_digits cs _ _ _ _ _ h1 (key s2 h2 ‹_›) h
      · split at h
        · split at h
          · exact numGo_digits cs _ _ _ _ _ h1 h2 h
          · cases h
        · split at h
          · split at h
            · exact numGo_digits cs _ _ _ _ _ h1 h2 h
            · cases h
          · cases h

theorem xs_parseNumeric (l c : Nat) : XS C A (parseNumeric l c) (parseNumeric l c) TrB := by
  refine xs_bind (xs_liftLex (fun r p h => numGo_ext r p [] [] false false h)) ?_
  rintro ⟨s1, s2, dec⟩
  intro t1 t2 hs ⟨r, p, r', p', h⟩
  obtain ⟨h1, h2⟩ := numGo_digits r p [] [] false false (by simp) (by simp) h
  have h3 : numFinish s1 s2 dec ≠ .parseInt := by
    cases dec with
    | true => rw [numFinish_frac h1 h2]; split <;> simp
    | false => rw [numFinish_int h1]; split <;> simp
  simp only
  cases e : numFinish s1 s2 dec with
  | val v => exact xs_pure (A := Tr) (fun _ _ => trivial) t1 t2 hs trivial
  | invalid => exact xs_fail (A := Tr) t1 t2 hs trivial
  | parseInt => exact absurd e h3

theorem xs_parseStr : XS C A parseStr parseStr TrB :=
  xs_bind (xs_liftLex lexStr_ext) fun _ => xs_pure fun _ _ => trivial

theorem xs_unaryOp (v : Value) (op : UnOp) (l c : Nat) : XS C A (unaryOp v op l c) (unaryOp v op l c) TrB := by
  rw [unaryOp_eq]
  cases op <;> cases v <;> first | exact xs_fail | exact xs_pure fun _ _ => trivial

theorem xs_binaryOp (v w : Value) (op : BinOp) (l c : Nat) :
    XS C A (binaryOp v w op l c) (binaryOp v w op l c) (fun _ r => A r) := by
  rw [binaryOp_eq]
  cases binSem op v w with
  | val v => exact xs_pure fun _ h => h
  | newArr t vs => exact xs_bind xs_genId fun _ => xs_pure fun _ h => h
  | bad t1 t2 => exact xs_fail
  | divisionByZero => exact xs_fail

theorem xs_checkValueEnd (brace : Option Char) : XS C A (checkValueEnd brace) (checkValueEnd brace) TrB := by
  refine xs_bind xs_peekP ?_
  intro c
  cases c with
  | none => exact xs_pure fun _ _ => trivial
  | some ch =>
    refine xs_bind xs_getPos fun p => ?_
    exact xs_ite (fun _ => xs_ite (fun _ => xs_fail) fun _ => xs_pure fun _ _ => trivial) fun _ => xs_fail

theorem getOp_newline {ch : Char} {op : BinOp} (h : getOp ch = some op) : some ch ≠ some '\n' := by
  intro e
  cases e
  revert h; cases op <;> decide

/-- Related `parse_value`s. -/
def XPV (C : XCtx) (pv1 pv2 : PV) : Prop := ∀ ps l c d brace first,
  XS C Tr (pv1 ps l c d brace first) (pv2 ps l c d brace first) TrB

variable {pv1 pv2 : PV} (hpv : XPV C pv1 pv2)
include hpv

theorem xs_opLoop (ps : List Pair) (d : Nat) (brace : Option Char) : ∀ (n m : Nat), n ≤ m → ∀ vs ops,
    XS C Tr (opLoop pv1 ps d brace n vs ops) (opLoop pv2 ps d brace m vs ops) TrB
  | 0, _, _, _, _ => xs_oof
  | n + 1, 0, h, _, _ => absurd h (by omega)
  | n + 1, m + 1, h, vs, ops => by
    refine xs_bind xs_peekP fun c => ?_
    cases c with
    | none => exact xs_pure fun _ _ => trivial
    | some ch =>
      simp only
      cases hop : getOp ch with
      | none => exact xs_pure fun _ _ => trivial
      | some op =>
        refine xs_bind (xs_nextP_head (getOp_newline hop) fun r h => h.2) fun _ => ?_
        refine xs_bind xs_peekP fun c => ?_
        cases c with
        | none => exact xs_failEnd_same
        | some _ =>
          refine xs_bind xs_getPos fun p => ?_
          refine xs_bind (xs_weak (hpv _ _ _ _ _ _)) fun v => ?_
          refine xs_ite (fun _ => ?_) fun _ => xs_weak (xs_opLoop ps d brace n m (by omega) _ _)
          cases popBack vs with
          | none => exact xs_panic
          | some x =>
            obtain ⟨front, v1, l1, c1⟩ := x
            exact xs_bind (xs_binaryOp _ _ _ _ _) fun r => xs_weak (xs_opLoop ps d brace n m (by omega) _ _)

omit hpv in
theorem xs_foldOps : ∀ (ops : List BinOp) (v : Value) (vs : List (Value × Nat × Nat)),
    XS C A (foldOps v vs ops) (foldOps v vs ops) TrB
  | [], v, vs => by simp only [foldOps]; exact xs_pure fun _ _ => trivial
  | op :: ops, v, [] => xs_panic
  | op :: ops, v, (v2, l2, c2) :: vs => xs_bind (xs_binaryOp _ _ _ _ _) fun r => xs_foldOps ops r vs

theorem xs_parseOps (ps : List Pair) (d : Nat) (brace : Option Char) (v : Value) (l c : Nat) :
    XS C Tr (parseOps pv1 ps d brace v l c) (parseOps pv2 ps d brace v l c) TrB := by
  refine xs_bind (xs_withBound fun n m h => xs_opLoop hpv ps d brace n m h _ _) ?_
  rintro ⟨vs, ops⟩
  refine xs_bind (xs_checkValueEnd brace) fun _ => ?_
  cases vs with
  | nil => exact xs_panic
  | cons x vs => exact xs_foldOps _ _ _

theorem xs_parseUnary (ps : List Pair) (d : Nat) (brace : Option Char) (op : UnOp)
    (hA : ∀ r, A r → r.head? = some '-' ∨ r.head? = some '+') :
    XS C A (parseUnary pv1 ps d brace op) (parseUnary pv2 ps d brace op) TrB := by
  have key : ∀ ch : Char, ch ≠ '\n' → XS C (fun r => r.head? = some ch) (parseUnary pv1 ps d brace op)
      (parseUnary pv2 ps d brace op) TrB := by
    intro ch hch
    refine xs_bind (xs_nextP_head (o := some ch) (by simpa using hch) fun r h => h) fun c => ?_
    refine xs_ite (fun _ => ?_) fun _ => xs_panic
    refine xs_bind xs_getPos fun p => ?_
    refine xs_bind xs_peekP fun c => ?_
    cases c with
    | none => exact xs_fail
    | some _ => exact xs_bind (xs_weak (hpv _ _ _ _ _ _)) fun v => xs_unaryOp _ _ _ _
  intro s1 s2 hs ha
  rcases hA _ ha with h | h
  · exact key '-' (by decide) s1 s2 hs h
  · exact key '+' (by decide) s1 s2 hs h

/-! ## Names -/

omit hpv in
theorem xs_lookupVar (ps : List Pair) (x : Str) (g : Bool) (l c : Nat) :
    XS C A (lookupVar ps x g l c) (lookupVar ps x g l c) TrB := by
  have kw : ∀ k, XS C A (do let i ← forceSentinel k; pure (Value.obj (Obj.empty i)))
      (do let i ← forceSentinel k; pure (Value.obj (Obj.empty i))) TrB :=
    fun k => xs_bind (xs_forceSentinel k) fun _ => xs_pure fun _ _ => trivial
  unfold lookupVar
  refine xs_ite (fun _ => xs_pure fun _ _ => trivial) fun _ => ?_
  refine xs_ite (fun _ => xs_pure fun _ _ => trivial) fun _ => ?_
  refine xs_ite (fun _ => xs_pure fun _ _ => trivial) fun _ => ?_
  refine xs_ite (fun _ => kw _) fun _ => ?_
  refine xs_ite (fun _ => kw _) fun _ => ?_
  refine xs_ite (fun _ => kw _) fun _ => ?_
  refine xs_ite (fun _ => kw _) fun _ => ?_
  refine xs_ite (fun _ => xs_fail) fun _ => ?_
  refine xs_ite (fun _ => ?_) fun _ => ?_
  · intro s1 s2 hs ha
    unfold lookupGlobal
    rw [hs.globals, hs.file1, hs.file2]
    cases StrMap.get s1.globals x with
    | none => exact .inr ⟨_, rfl, C.hE _⟩
    | some v => exact ⟨s2, rfl, hs, trivial⟩
  · cases findPair ps x with
    | none => exact xs_fail
    | some p => exact xs_pure fun _ _ => trivial

omit hpv in
theorem xs_indexWith (f : Nat → Option (Except OverError Value)) (v : Value) (l c : Nat) :
    XS C A (indexWith f v l c) (indexWith f v l c) TrB := by
  unfold indexWith
  cases v with
  | int i =>
    simp only
    cases toUsize i with
    | none => exact xs_fail
    | some n =>
      simp only
      cases f n with
      | none => exact xs_panic
      | some x => cases x with
        | ok v => exact xs_pure fun _ _ => trivial
        | error e => exact xs_fail
  | _ => exact xs_fail

variable [Unicode]

theorem xs_parseVariable (brace : Option Char) : ∀ (n m : Nat), n ≤ m → ∀ (ps : List Pair) (l c d : Nat),
    XS C Tr (parseVariable pv1 n ps l c d brace) (parseVariable pv2 m ps l c d brace) TrB
  | 0, _, _, _, _, _, _ => xs_oof
  | n + 1, 0, h, _, _, _, _ => absurd h (by omega)
  | n + 1, m + 1, h, ps, l, c, d => by
    refine xs_bind (xs_liftLex lexVar_ext) ?_
    rintro ⟨x, g, dt⟩
    refine xs_bind (xs_lookupVar ps x g l c) fun v => ?_
    have index : ∀ f : Nat → Option (Except OverError Value), XS C (TrB v)
        (do let p ← getPos; let ix ← pv1 ps p.line p.col (d + 1) brace false; indexWith f ix p.line p.col)
        (do let p ← getPos; let ix ← pv2 ps p.line p.col (d + 1) brace false; indexWith f ix p.line p.col) TrB :=
      fun f => xs_bind xs_getPos fun p => xs_bind (xs_weak (hpv _ _ _ _ _ _)) fun ix => xs_indexWith _ _ _ _
    cases dt with
    | none => exact xs_pure fun _ _ => trivial
    | dot =>
      cases v with
      | arr i t vs => exact index _
      | tup i t vs => exact index _
      | obj o => exact xs_bind xs_getPos fun p => xs_weak (xs_parseVariable brace n m (by omega) _ _ _ _)
      | _ => exact xs_fail
    | dotGlobal =>
      cases v with
      | arr i t vs => exact index _
      | tup i t vs => exact index _
      | obj o => exact xs_bind xs_getPos fun p => xs_fail
      | _ => exact xs_fail

/-! ## Containers -/

omit hpv [Unicode] in
theorem xs_checkDuplicate (f : Str) (ft : FieldType) (ps : List Pair) (par : Option Obj) (l c : Nat) :
    XS C A (checkDuplicate f ft ps par l c) (checkDuplicate f ft ps par l c) TrB := by
  intro s1 s2 hs ha
  unfold checkDuplicate
  rw [hs.globals, hs.file1, hs.file2]
  cases ft <;> simp only <;> split <;> first | exact .inr ⟨_, rfl, C.hE _⟩ | exact ⟨s2, rfl, hs, trivial⟩

omit hpv [Unicode] in
theorem xs_storeField (f : Str) (ft : FieldType) (v : Value) (ps : List Pair) (par : Option Obj) (l c : Nat) :
    XS C A (storeField f ft v ps par l c) (storeField f ft v ps par l c) TrB := by
  unfold storeField
  cases ft with
  | global =>
    intro s1 s2 hs ha
    exact ⟨_, rfl, ⟨hs.file1, hs.file2, hs.rest, hs.pos, by simp only [hs.globals], hs.inc, hs.rt, hs.live, hs.files⟩, trivial⟩
  | parent =>
    simp only
    cases v.getObj with
    | ok o => exact xs_pure fun _ _ => trivial
    | error e => exact xs_fail
  | regular => exact xs_pure fun _ _ => trivial

/-- Everything in `parse_field_value_pair` before it looks for the next field. -/
def fieldHead (pv : PV) (ps : List Pair) (par : Option Obj) (d : Nat) (brace : Option Char) : P (List Pair × Option Obj) := do
  let fp ← getPos
  let (field, ft) ← liftLex (fun rest pos => lexField rest pos fp.line fp.col)
  checkDuplicate field ft ps par fp.line fp.col
  if !(← findCharP) then failEnd
  else do
    let vp ← getPos
    let value ← pv ps vp.line vp.col d brace true
    storeField field ft value ps par vp.line vp.col

/-- What `parse_field_value_pair` does then. -/
def fieldTail (brace : Option Char) (x : List Pair × Option Obj) : P (Bool × List Pair × Option Obj) := do
  if !(← findCharP) then
    match brace with
    | some _ => failEnd
    | none => pure (false, x.1, x.2)
  else pure (true, x.1, x.2)

/-- The whole field. -/
def fieldPart (pv : PV) (ps : List Pair) (par : Option Obj) (d : Nat) (brace : Option Char) :
    P (Bool × List Pair × Option Obj) := fieldHead pv ps par d brace >>= fieldTail brace

omit hpv [Unicode] in
theorem P.bind_assoc' {α β γ : Type} (m : P α) (f : α → P β) (g : β → P γ) : (m >>= f) >>= g = m >>= fun a => f a >>= g := by
  funext s
  change P.bind (P.bind m f) g s = P.bind m (fun a => P.bind (f a) g) s
  unfold P.bind
  cases m s <;> rfl

omit hpv [Unicode] in
theorem P.ite_bind {α β : Type} {c : Prop} [Decidable c] (m m' : P α) (g : α → P β) :
    (if c then m else m') >>= g = if c then m >>= g else m' >>= g := by
  by_cases h : c
  · rw [if_pos h, if_pos h]
  · rw [if_neg h, if_neg h]

omit hpv [Unicode] in
theorem P.failEnd_bind {α β : Type} (g : α → P β) : failEnd >>= g = failEnd := rfl

omit hpv in
theorem parseFieldValuePair_eq (pv : PV) (ps : List Pair) (par : Option Obj) (d : Nat) (brace : Option Char) :
    parseFieldValuePair pv ps par d brace = (do
      match ← peekP with
      | none => panicP
      | some peek =>
        if peek = '}' ∧ brace.isSome then do
          let _ ← nextP
          pure (false, ps, par)
        else if isEndDelimiter peek then do
          let p ← getPos
          fail (.invalidClosingBracket brace peek p.line p.col)
        else fieldPart pv ps par d brace) := by
  have h : fieldPart pv ps par d brace = (do
      let fp ← getPos
      let (field, ft) ← liftLex (fun rest pos => lexField rest pos fp.line fp.col)
      checkDuplicate field ft ps par fp.line fp.col
      if !(← findCharP) then failEnd
      else do
        let vp ← getPos
        let value ← pv ps vp.line vp.col d brace true
        let x ← storeField field ft value ps par vp.line vp.col
        fieldTail brace x) := by
    unfold fieldPart fieldHead
    simp only [P.bind_assoc', P.ite_bind, P.failEnd_bind]
  rw [h]
  rfl

theorem xs_fieldHead (ps : List Pair) (par : Option Obj) (d : Nat) (brace : Option Char) :
    XS C A (fieldHead pv1 ps par d brace) (fieldHead pv2 ps par d brace) TrB := by
  refine xs_bind xs_getPos fun fp => ?_
  refine xs_bind (xs_liftLex (lexField_ext _ _)) ?_
  rintro ⟨f, ft⟩
  refine xs_bind (xs_checkDuplicate _ _ _ _ _ _) fun _ => ?_
  refine xs_find ?_
  refine xs_bind xs_getPos fun vp => ?_
  refine xs_bind (xs_weak (hpv _ _ _ _ _ _)) fun v => ?_
  exact xs_storeField _ _ _ _ _ _ _

theorem xs_parseFieldValuePair (ps : List Pair) (par : Option Obj) (d : Nat) (b : Char) :
    XS C A (parseFieldValuePair pv1 ps par d (some b)) (parseFieldValuePair pv2 ps par d (some b))
      (fun x r => x.1 = true → Found r) := by
  rw [parseFieldValuePair_eq, parseFieldValuePair_eq]
  refine xs_bind xs_peekP fun c => ?_
  cases c with
  | none => exact xs_panic
  | some ch =>
    refine xs_ite (fun h => ?_) fun _ => xs_ite (fun _ => ?_) fun _ => ?_
    · refine xs_bind (xs_nextP_head (o := some ch) ?_ fun r h => h.2) fun _ => xs_pure fun _ _ h => by cases h
      rw [h.1]; decide
    · exact xs_bind xs_getPos fun p => xs_fail
    · refine xs_bind (xs_fieldHead hpv ps par d (some b)) fun x => ?_
      exact xs_find (xs_pure fun _ h _ => h)

theorem xs_fieldsLoop (d : Nat) (b : Char) : ∀ (n m : Nat), n ≤ m → ∀ (ps : List Pair) (par : Option Obj),
    XS C Found (fieldsLoop pv1 d (some b) n ps par) (fieldsLoop pv2 d (some b) m ps par) TrB
  | 0, _, _, _, _ => xs_oof
  | n + 1, 0, h, _, _ => absurd h (by omega)
  | n + 1, m + 1, h, ps, par => by
    refine xs_bind (xs_parseFieldValuePair hpv ps par d b) ?_
    rintro ⟨more, ps1, par1⟩
    refine xs_ite (fun hm => ?_) fun _ => xs_pure fun _ _ => trivial
    exact xs_mono (xs_fieldsLoop d b n m (by omega) ps1 par1) (fun _ h => h hm) fun _ _ h => h

omit hpv [Unicode] in
theorem xs_checkDepth (d : Nat) : XS C A (checkDepth d) (checkDepth d) (fun _ r => A r) :=
  xs_ite (fun _ => xs_bind xs_getPos fun _ => xs_fail) fun _ => xs_pure fun _ h => h

theorem xs_parseObj (d : Nat) : XS C A (parseObj pv1 d) (parseObj pv2 d) TrB := by
  refine xs_bind (xs_checkDepth d) fun _ => ?_
  refine xs_bind (xs_expectP (by decide)) fun _ => ?_
  refine xs_find ?_
  refine xs_bind (xs_withBound fun n m h => xs_fieldsLoop hpv d '}' n m h _ _) ?_
  rintro ⟨ps, par⟩
  exact xs_bind xs_genId fun _ => xs_pure fun _ _ => trivial

omit hpv [Unicode] in
theorem xs_arrStep (t : Ty) (a : Bool) (v : Value) (l c : Nat) : XS C A (arrStep t a v l c) (arrStep t a v l c) TrB := by
  unfold arrStep
  cases arrTypeStep t a v.getType with
  | none => exact xs_fail
  | some r => exact xs_pure fun _ _ => trivial

omit [Unicode] in
theorem xs_arrLoop (ps : List Pair) (d : Nat) : ∀ (n m : Nat), n ≤ m → ∀ (vs : List Value) (t : Ty) (a : Bool),
    XS C Tr (arrLoop pv1 ps d n vs t a) (arrLoop pv2 ps d m vs t a) TrB
  | 0, _, _, _, _, _ => xs_oof
  | n + 1, 0, h, _, _, _ => absurd h (by omega)
  | n + 1, m + 1, h, vs, t, a => by
    refine xs_find ?_
    refine xs_bind xs_peekP fun c => ?_
    cases c with
    | none => exact xs_panic
    | some ch =>
      refine xs_ite (fun h => ?_) fun _ => xs_ite (fun _ => ?_) fun _ => ?_
      · refine xs_bind (xs_nextP_head (o := some ch) ?_ fun r h => h.2) fun _ => xs_pure fun _ _ => trivial
        rw [h]; decide
      · exact xs_bind xs_getPos fun p => xs_fail
      · refine xs_bind xs_getPos fun p => ?_
        refine xs_bind (xs_weak (hpv _ _ _ _ _ _)) fun v => ?_
        refine xs_bind (xs_arrStep _ _ _ _ _) ?_
        rintro ⟨t', a'⟩
        exact xs_weak (xs_arrLoop ps d n m (by omega) _ _ _)

omit [Unicode] in
theorem xs_parseArr (ps : List Pair) (d : Nat) : XS C A (parseArr pv1 ps d) (parseArr pv2 ps d) TrB := by
  refine xs_bind (xs_checkDepth d) fun _ => ?_
  refine xs_bind (xs_expectP (by decide)) fun _ => ?_
  refine xs_bind (xs_withBound fun n m h => xs_weak (xs_arrLoop hpv ps d n m h _ _ _)) ?_
  rintro ⟨vs, t⟩
  exact xs_bind xs_genId fun _ => xs_pure fun _ _ => trivial

omit [Unicode] in
theorem xs_tupLoop (ps : List Pair) (d : Nat) : ∀ (n m : Nat), n ≤ m → ∀ (vs : List Value),
    XS C Tr (tupLoop pv1 ps d n vs) (tupLoop pv2 ps d m vs) TrB
  | 0, _, _, _ => xs_oof
  | n + 1, 0, h, _ => absurd h (by omega)
  | n + 1, m + 1, h, vs => by
    refine xs_find ?_
    refine xs_bind xs_peekP fun c => ?_
    cases c with
    | none => exact xs_panic
    | some ch =>
      refine xs_ite (fun h => ?_) fun _ => xs_ite (fun _ => ?_) fun _ => ?_
      · refine xs_bind (xs_nextP_head (o := some ch) ?_ fun r h => h.2) fun _ => xs_pure fun _ _ => trivial
        rw [h]; decide
      · exact xs_bind xs_getPos fun p => xs_fail
      · refine xs_bind xs_getPos fun p => ?_
        refine xs_bind (xs_weak (hpv _ _ _ _ _ _)) fun v => ?_
        exact xs_weak (xs_tupLoop ps d n m (by omega) _)

omit [Unicode] in
theorem xs_parseTup (ps : List Pair) (d : Nat) : XS C A (parseTup pv1 ps d) (parseTup pv2 ps d) TrB := by
  refine xs_bind (xs_checkDepth d) fun _ => ?_
  refine xs_bind (xs_expectP (by decide)) fun _ => ?_
  refine xs_bind (xs_withBound fun n m h => xs_weak (xs_tupLoop hpv ps d n m h _)) fun vs => ?_
  exact xs_bind xs_genId fun _ => xs_pure fun _ _ => trivial

/-! ## Includes -/

omit hpv [Unicode] in
theorem xs_includeKeyword (v : Value) (l c : Nat) : XS C A (includeKeyword v l c) (includeKeyword v l c) (fun _ r => A r) := by
  unfold includeKeyword
  cases v with
  | obj o =>
    refine xs_bind (xs_forceSentinel _) fun _ => xs_ite (fun _ => xs_pure fun _ h => h) fun _ => ?_
    refine xs_bind (xs_forceSentinel _) fun _ => xs_ite (fun _ => xs_pure fun _ h => h) fun _ => ?_
    refine xs_bind (xs_forceSentinel _) fun _ => xs_ite (fun _ => xs_pure fun _ h => h) fun _ => ?_
    exact xs_bind (xs_forceSentinel _) fun _ => xs_ite (fun _ => xs_pure fun _ h => h) fun _ => xs_fail
  | str s => exact xs_pure fun _ h => h
  | _ => exact xs_fail

omit [Unicode] in
theorem xs_includePath (ps : List Pair) (d : Nat) (kw : Option IncKind) (v : Value) (p : Pos) :
    XS C A (includePath pv1 ps d kw v p) (includePath pv2 ps d kw v p) TrB := by
  unfold includePath
  cases kw with
  | none => exact xs_pure fun _ _ => trivial
  | some _ =>
    refine xs_find ?_
    refine xs_bind xs_getPos fun p => ?_
    exact xs_bind (xs_weak (hpv _ _ _ _ _ _)) fun v => xs_pure fun _ _ => trivial

omit hpv [Unicode] in
theorem xs_includeClose : XS C A includeClose includeClose TrB := by
  refine xs_find ?_
  intro s1 s2 hs ha
  obtain ⟨ch, cs, hr, h1, h2⟩ := ha
  have hne : ch ≠ '\n' := by rintro rfl; revert h1; decide
  have hn : XS C (fun r => r.head? = some ch) nextP nextP (fun a _ => a = some ch) :=
    xs_nextP_head (by simpa using hne) fun _ h => h
  refine xs_bind (B := fun a _ => a = some ch) hn (fun a => ?_) s1 s2 hs (by rw [hr]; rfl)
  cases a with
  | none => exact xs_panic
  | some c =>
    refine xs_ite (fun _ => xs_pure fun _ _ => trivial) fun _ => ?_
    refine xs_bind xs_getPos fun p => ?_
    cases usub p.col 1 with
    | none => exact xs_panic
    | some c => exact xs_fail

/-- Related include steps. -/
def XInc (C : XCtx) (fs1 fs2 : FS) (pv1 pv2 : PV) : Prop := ∀ kind p l c,
  XS C Tr (includeFileP fs1 pv1 kind p l c) (includeFileP fs2 pv2 kind p l c) TrB

theorem xs_parseInclude {fs1 fs2 : FS} (hi : XInc C fs1 fs2 pv1 pv2) (ps : List Pair) (d : Nat) :
    XS C A (parseInclude fs1 pv1 ps d) (parseInclude fs2 pv2 ps d) TrB := by
  refine xs_bind (xs_checkDepth d) fun _ => ?_
  refine xs_bind (xs_expectP (by decide)) fun _ => ?_
  refine xs_find ?_
  refine xs_bind xs_getPos fun p => ?_
  refine xs_bind (xs_weak (hpv _ _ _ _ _ _)) fun v => ?_
  refine xs_bind (xs_includeKeyword _ _ _) fun kw => ?_
  refine xs_bind (xs_includePath hpv _ _ _ _ _) ?_
  rintro ⟨v, p⟩
  refine xs_bind xs_includeClose fun _ => ?_
  cases v with
  | str f => exact xs_weak (hi _ _ _ _)
  | _ => exact xs_fail

/-! ## Values -/

theorem xs_parseTerm {fs1 fs2 : FS} (hi : XInc C fs1 fs2 pv1 pv2) (ps : List Pair) (l c d : Nat) (brace : Option Char) :
    XS C A (parseTerm fs1 pv1 ps l c d brace) (parseTerm fs2 pv2 ps l c d brace) TrB := by
  refine xs_bind xs_peekP fun x => ?_
  cases x with
  | none => exact xs_panic
  | some ch =>
    refine xs_ite (fun _ => xs_parseStr) fun _ => ?_
    refine xs_ite (fun _ => xs_parseObj hpv _) fun _ => ?_
    refine xs_ite (fun _ => xs_parseArr hpv _ _) fun _ => ?_
    refine xs_ite (fun _ => xs_parseTup hpv _ _) fun _ => ?_
    refine xs_ite (fun _ => xs_parseInclude hpv hi _ _) fun _ => ?_
    refine xs_ite (fun h => xs_parseUnary hpv _ _ _ _ fun r hr => .inr (by rw [hr.2, h])) fun _ => ?_
    refine xs_ite (fun h => xs_parseUnary hpv _ _ _ _ fun r hr => .inl (by rw [hr.2, h])) fun _ => ?_
    refine xs_ite (fun _ => xs_parseNumeric _ _) fun _ => ?_
    refine xs_ite (fun _ => ?_) fun _ => xs_fail
    exact xs_withBound fun n m h => xs_weak (xs_parseVariable hpv brace n m h _ _ _ _)

theorem xs_parseValueBody {fs1 fs2 : FS} (hi : XInc C fs1 fs2 pv1 pv2) :
    XPV C (parseValueBody fs1 pv1) (parseValueBody fs2 pv2) := by
  intro ps l c d brace first
  refine xs_bind (xs_parseTerm hpv hi _ _ _ _ _) fun v => ?_
  exact xs_ite (fun _ => xs_weak (xs_parseOps hpv _ _ _ _ _ _)) fun _ => xs_pure fun _ _ => trivial

end

/-- Related runs, for every depth of nesting. -/
theorem xs_parseValue [Unicode] {C : XCtx} {fs1 fs2 : FS}
    (hi : ∀ n, XPV C (parseValue fs1 n) (parseValue fs2 n) → XInc C fs1 fs2 (parseValue fs1 n) (parseValue fs2 n)) :
    ∀ n, XPV C (parseValue fs1 n) (parseValue fs2 n)
  | 0 => fun _ _ _ _ _ _ => xs_oof
  | n + 1 => xs_parseValueBody (xs_parseValue hi n) (hi n (xs_parseValue hi n))

end Over
