import Verif.Model.Parser
import Verif.Spec.Location
import Verif.Lemmas.Ops

/-!
# Errors point at what has not been read yet

The part of a text that starts on line `L` is read: no error about this text points at an earlier line.
-/

set_option linter.unusedSectionVars false

namespace Over

/-- The position in the error, if it has one, is on line `L` or later. -/
def Kind.OnOrAfter (L : Nat) (k : Kind) : Prop :=
  (∀ l c, k.lineCol = some (l, c) → L ≤ l) ∧ (∀ l, k = .unexpectedEnd l → L ≤ l) ∧
  (∀ m, k = .overError m → ∃ e l c, k = kindFromOver e l c ∧ L ≤ l)

/-- The text that is read from a line on: the line, the name of the text (`none`: not a file), the file system, and the
canonical path of the file. -/
structure LCtx where
  line : Nat
  main : Option Str
  fs : FS
  full : Option Str

/-- What is known of the files being read while `F` is read: the main file is among them. -/
def LCtx.Files (L : LCtx) (F : Option Str) (opened : List Str) : Prop :=
  F ≠ L.main → ∀ G, L.full = some G → G ∈ opened ∧ ∀ p, F = some p → L.fs.resolve p ≠ some G

/-- … if the error is about the text itself. -/
def ErrLow (L : LCtx) (e : ParseError) : Prop := e.file = L.main → e.kind.OnOrAfter L.line

theorem onOrAfter_lineCol {L : Nat} {k : Kind} {l c : Nat} (h : L ≤ l) (hk : k.lineCol = some (l, c)) : k.OnOrAfter L := by
  refine ⟨fun l' c' h' => ?_, fun l' h' => ?_, fun m h' => ?_⟩
  · rw [hk] at h'; cases h'; exact h
  · rw [h'] at hk; cases hk
  · rw [h'] at hk; cases hk

theorem onOrAfter_end {L l : Nat} (h : L ≤ l) : (Kind.unexpectedEnd l).OnOrAfter L :=
  ⟨(fun _ _ h' => by cases h'), (fun _ h' => by cases h'; exact h), (fun _ h' => by cases h')⟩

theorem onOrAfter_over {L l c : Nat} (e : OverError) (h : L ≤ l) : (kindFromOver e l c).OnOrAfter L :=
  ⟨(fun _ _ h' => by cases h'), (fun _ h' => by cases h'), (fun _ _ => ⟨e, l, c, rfl, h⟩)⟩

/-- Related outcome. -/
def LBRes {α : Type} (L : LCtx) (F : Option Str) (B : α → Prop) : Res α → Prop
  | .ok a s' => (s'.stream.file = F ∧ L.Files F s'.inc.opened) ∧ (F = L.main → L.line ≤ s'.stream.pos.line) ∧ B a
  | .err e => ErrLow L e
  | .panic => True
  | .oof => True

/-- Running `m` on the text `F` from line `L` on. -/
def LB {α : Type} (L : LCtx) (F : Option Str) (m : P α) (B : α → Prop) : Prop :=
  ∀ s, (s.stream.file = F ∧ L.Files F s.inc.opened) → (F = L.main → L.line ≤ s.stream.pos.line) → LBRes L F B (m s)

section rules
variable {α β : Type} {L : LCtx} {F : Option Str}

theorem lb_pure {a : α} {B : α → Prop} (h : B a) : LB L F (pure a) B := fun _ h1 h2 => ⟨h1, h2, h⟩

theorem lb_bind {m : P α} {f : α → P β} {B : α → Prop} {B' : β → Prop} (h : LB L F m B) (hf : ∀ a, B a → LB L F (f a) B') :
    LB L F (m >>= f) B' := by
  intro s h1 h2
  have h3 := h s h1 h2
  simp only [bind, P.bind]
  cases e : m s with
  | ok a s' => rw [e] at h3; exact hf a h3.2.2 s' h3.1 h3.2.1
  | err e' => rw [e] at h3; exact h3
  | panic => trivial
  | oof => trivial

theorem lb_mono {m : P α} {B B' : α → Prop} (h : LB L F m B) (hb : ∀ a, B a → B' a) : LB L F m B' := by
  intro s h1 h2
  have h3 := h s h1 h2
  cases e : m s with
  | ok a s' => rw [e] at h3; exact ⟨h3.1, h3.2.1, hb _ h3.2.2⟩
  | err e' => rw [e] at h3; exact h3
  | panic => trivial
  | oof => trivial

theorem lb_fail {k : Kind} {B : α → Prop} (h : F = L.main → k.OnOrAfter L.line) : LB L F (fail k) B := by
  intro s h1 h2 h3
  exact h (h1.1 ▸ h3)

theorem lb_fail' {k : Kind} {B : α → Prop} {l c : Nat} (h : F = L.main → L.line ≤ l) (hk : k.lineCol = some (l, c)) :
    LB L F (fail k) B := lb_fail fun hF => onOrAfter_lineCol (h hF) hk

theorem lb_panic {B : α → Prop} : LB L F panicP B := fun _ _ _ => trivial
theorem lb_oof {B : α → Prop} : LB L F oofP B := fun _ _ _ => trivial

/-- A position from line `L` on. -/
def PLow (L : LCtx) (F : Option Str) (p : Pos) : Prop := F = L.main → L.line ≤ p.line
/-- No claim. -/
def Any {α : Type} : α → Prop := fun _ => True

theorem lb_getPos : LB L F getPos (PLow L F) := fun _ h1 h2 => ⟨h1, h2, h2⟩
theorem lb_getFile : LB L F getFile Any := fun _ h1 h2 => ⟨h1, h2, trivial⟩
theorem lb_getOpened : LB L F getOpened Any := fun _ h1 h2 => ⟨h1, h2, trivial⟩
theorem lb_peekP : LB L F peekP Any := fun _ h1 h2 => ⟨h1, h2, trivial⟩

theorem Pos.adv_line (p : Pos) (c : Char) : p.line ≤ (p.adv c).line := by
  unfold Pos.adv
  split
  · exact Nat.le_succ _
  · exact Nat.le_refl _

theorem lb_nextP : LB L F nextP Any := by
  intro s h1 h2
  simp only [nextP, Stream.next]
  cases s.stream.rest with
  | nil => exact ⟨h1, h2, trivial⟩
  | cons c cs => exact ⟨h1, fun hF => Nat.le_trans (h2 hF) (Pos.adv_line _ _), trivial⟩

theorem findCharGo_line : ∀ (b : Bool) (r : Str) (p : Pos), p.line ≤ (findCharGo b r p).2.2.line
  | b, [], p => by simp [findCharGo]
  | true, ch :: cs, p => by
    simp only [findCharGo]
    split <;> exact Nat.le_trans (Pos.adv_line _ _) (findCharGo_line _ cs _)
  | false, ch :: cs, p => by
    simp only [findCharGo]
    split
    · exact Nat.le_trans (Pos.adv_line _ _) (findCharGo_line _ cs _)
    · split
      · exact Nat.le_trans (Pos.adv_line _ _) (findCharGo_line _ cs _)
      · exact Nat.le_refl _

theorem lb_findCharP : LB L F findCharP Any := fun _ h1 h2 =>
  ⟨h1, fun hF => Nat.le_trans (h2 hF) (findCharGo_line _ _ _), trivial⟩

theorem lb_ite {c : Prop} [Decidable c] {a b : P α} {B : α → Prop} (h1 : c → LB L F a B) (h2 : ¬ c → LB L F b B) :
    LB L F (if c then a else b) B := by
  by_cases h : c
  · rw [if_pos h]; exact h1 h
  · rw [if_neg h]; exact h2 h

theorem lb_failEnd {B : α → Prop} : LB L F failEnd B :=
  lb_bind lb_getPos fun _ h => lb_fail fun hF => onOrAfter_end (h hF)

theorem lb_expectP (c : Char) : LB L F (expectP c) Any :=
  lb_bind lb_nextP fun x _ => by
    cases x with
    | none => exact lb_panic
    | some ch => exact lb_ite (fun _ => lb_pure trivial) fun _ => lb_panic

theorem lb_genId : LB L F genId Any := fun _ h1 h2 => ⟨h1, h2, trivial⟩

theorem lb_forceSentinel (k : IncKind) : LB L F (forceSentinel k) Any := by
  intro s h1 h2
  unfold forceSentinel
  cases k <;> simp only <;> split <;> exact ⟨h1, h2, trivial⟩

theorem lb_withBound {f : Nat → P α} {B : α → Prop} (h : ∀ n, LB L F (f n) B) : LB L F (withBound f) B :=
  fun s h1 h2 => h _ s h1 h2

/-- Outcome of a token-level function. -/
def LexLow {α : Type} (L : Nat) : Lex α → Prop
  | .ok _ _ p => L ≤ p.line
  | .err k => k.OnOrAfter L
  | .panic => True

theorem LexLow.ite {L : Nat} {c : Prop} [Decidable c] {x y : Lex α} (h : c → LexLow L x) (h' : ¬ c → LexLow L y) :
    LexLow L (if c then x else y) := by
  by_cases hc : c
  · rw [if_pos hc]; exact h hc
  · rw [if_neg hc]; exact h' hc

theorem lb_liftLex {f : Str → Pos → Lex α} (h : F = L.main → ∀ r p, L.line ≤ p.line → LexLow L.line (f r p)) :
    LB L F (liftLex f) Any := by
  intro s h1 h2
  simp only [liftLex]
  cases e : f s.stream.rest s.stream.pos with
  | ok a r p =>
    refine ⟨h1, fun hF => ?_, trivial⟩
    have := h hF s.stream.rest s.stream.pos (h2 hF)
    rw [e] at this
    exact this
  | err k =>
    intro hF
    have hF' : F = L.main := h1.1 ▸ hF
    have := h hF' s.stream.rest s.stream.pos (h2 hF')
    rw [e] at this
    exact this
  | panic => trivial

end rules

/-! ## Tokens -/

theorem numGo_low {L : Nat} : ∀ (r : Str) (p : Pos) (s1 s2 : Str) (dec under : Bool), L ≤ p.line →
    LexLow L (numGo r p s1 s2 dec under)
  | [], p, s1, s2, dec, under, h => h
  | ch :: cs, p, s1, s2, dec, under, h => by
    have ha := Nat.le_trans h (Pos.adv_line p ch)
    simp only [numGo]
    refine .ite (fun _ => h) fun _ => .ite (fun _ => .ite (fun _ => numGo_low cs _ _ _ _ _ ha) fun _ => numGo_low cs _ _ _ _ _ ha) fun _ => ?_
    refine .ite (fun _ => .ite (fun _ => numGo_low cs _ _ _ _ _ ha) fun _ => onOrAfter_lineCol h rfl) fun _ => ?_
    exact .ite (fun _ => .ite (fun _ => numGo_low cs _ _ _ _ _ ha) fun _ => onOrAfter_lineCol h rfl) fun _ => onOrAfter_lineCol h rfl

theorem strGo_low {L : Nat} : ∀ (r : Str) (p : Pos) (esc : Bool) (acc : Str), L ≤ p.line → LexLow L (strGo r p esc acc)
  | [], p, esc, acc, h => onOrAfter_end h
  | ch :: cs, p, esc, acc, h => by
    have ha := Nat.le_trans h (Pos.adv_line p ch)
    simp only [strGo]
    refine .ite (fun _ => ?_) fun _ => .ite (fun _ => ha) fun _ => .ite (fun _ => strGo_low cs _ _ _ ha) fun _ => strGo_low cs _ _ _ ha
    cases getEscapeChar ch with
    | some c => exact strGo_low cs _ _ _ ha
    | none =>
      simp only
      cases usub (p.adv ch).col 1 with
      | some c => exact onOrAfter_lineCol ha rfl
      | none => trivial

theorem lexStr_low {L : Nat} (r : Str) (p : Pos) (h : L ≤ p.line) : LexLow L (lexStr r p) := by
  cases r with
  | nil => trivial
  | cons ch cs =>
    simp only [lexStr]
    exact .ite (fun _ => strGo_low cs _ _ _ (Nat.le_trans h (Pos.adv_line p ch))) fun _ => trivial

section
variable [Unicode]

theorem fieldGo_low {L : Nat} : ∀ (r : Str) (p : Pos) (first : Bool) (acc : Str), L ≤ p.line → LexLow L (fieldGo r p first acc)
  | [], p, first, acc, h => h
  | ch :: cs, p, first, acc, h => by
    have ha := Nat.le_trans h (Pos.adv_line p ch)
    simp only [fieldGo]
    refine .ite (fun _ => ha) fun _ => .ite (fun _ => fieldGo_low cs _ _ _ ha) fun _ => ?_
    cases usub (p.adv ch).col 1 with
    | some c => exact onOrAfter_lineCol ha rfl
    | none => trivial

theorem lexField_low {L l c : Nat} (hl : L ≤ l) (r : Str) (p : Pos) (h : L ≤ p.line) : LexLow L (lexField r p l c) := by
  cases r with
  | nil => trivial
  | cons ch cs =>
    have ha := Nat.le_trans h (Pos.adv_line p ch)
    simp only [lexField]
    have hr : LexLow L (if (ch == '@') = true then fieldGo cs (p.adv ch) true [ch] else fieldGo (ch :: cs) p true []) :=
      .ite (fun _ => fieldGo_low _ _ _ _ ha) fun _ => fieldGo_low _ _ _ _ h
    revert hr
    generalize (if (ch == '@') = true then fieldGo cs (p.adv ch) true [ch] else fieldGo (ch :: cs) p true []) = x
    intro hr
    cases x with
    | ok a r' p' =>
      simp only
      cases hc : classifyField a (ch == '@') l c with
      | ok x => exact hr
      | error k =>
        have : k.lineCol = some (l, c) := by
          unfold classifyField at hc
          split at hc
          · cases hc; rfl
          · split at hc
            · cases hc
            · split at hc
              · cases hc; rfl
              · cases hc
        exact onOrAfter_lineCol hl this
    | err k => exact hr
    | panic => trivial

theorem varGo_low {L : Nat} : ∀ (r : Str) (p : Pos) (acc : Str), L ≤ p.line → LexLow L (varGo r p acc)
  | [], p, acc, h => h
  | ch :: cs, p, acc, h => by
    have ha := Nat.le_trans h (Pos.adv_line p ch)
    simp only [varGo]
    refine .ite (fun _ => ?_) fun _ => .ite (fun _ => h) fun _ => .ite (fun _ => varGo_low cs _ _ ha) fun _ => onOrAfter_lineCol h rfl
    cases cs with
    | nil => exact onOrAfter_end ha
    | cons c2 l => exact .ite (fun _ => ha) fun _ => .ite (fun _ => ha) fun _ => onOrAfter_lineCol ha rfl

theorem lexVar_low {L : Nat} (r : Str) (p : Pos) (h : L ≤ p.line) : LexLow L (lexVar r p) := by
  cases r with
  | nil => trivial
  | cons ch cs =>
    have ha := Nat.le_trans h (Pos.adv_line p ch)
    simp only [lexVar]
    have hr : LexLow L (if (ch == '@') = true then varGo cs (p.adv ch) [ch] else varGo (ch :: cs) p []) :=
      .ite (fun _ => varGo_low _ _ _ ha) fun _ => varGo_low _ _ _ h
    revert hr
    generalize (if (ch == '@') = true then varGo cs (p.adv ch) [ch] else varGo (ch :: cs) p []) = x
    intro hr
    cases x <;> exact hr

end

/-! ## Parsing -/

section
variable {L : LCtx} {F : Option Str}

theorem lb_unaryOp (v : Value) (op : UnOp) (l c : Nat) (hl : F = L.main → L.line ≤ l) : LB L F (unaryOp v op l c) Any := by
  rw [unaryOp_eq]
  cases op <;> cases v <;> first | exact lb_fail' hl rfl | exact lb_pure trivial

theorem lb_binaryOp (v w : Value) (op : BinOp) (l c : Nat) (hl : F = L.main → L.line ≤ l) :
    LB L F (binaryOp v w op l c) Any := by
  rw [binaryOp_eq]
  cases binSem op v w with
  | val v => exact lb_pure trivial
  | newArr t vs => exact lb_bind lb_genId fun _ _ => lb_pure trivial
  | bad t1 t2 => exact lb_fail' hl rfl
  | divisionByZero => exact lb_fail' hl rfl

theorem lb_checkValueEnd (brace : Option Char) : LB L F (checkValueEnd brace) Any := by
  refine lb_bind lb_peekP fun c _ => ?_
  cases c with
  | none => exact lb_pure trivial
  | some ch =>
    refine lb_bind lb_getPos fun p hp => ?_
    exact lb_ite (fun _ => lb_ite (fun _ => lb_fail' hp rfl) fun _ => lb_pure trivial) fun _ => lb_fail' hp rfl

theorem lb_parseNumeric (l c : Nat) (hl : F = L.main → L.line ≤ l) : LB L F (parseNumeric l c) Any := by
  refine lb_bind (lb_liftLex fun _ r p h => numGo_low r p [] [] false false h) ?_
  rintro ⟨s1, s2, dec⟩ -
  simp only
  cases numFinish s1 s2 dec with
  | val v => exact lb_pure trivial
  | invalid => exact lb_fail' hl rfl
  | parseInt =>
    intro s _ _ _
    exact ⟨(fun _ _ h => by cases h), (fun _ h => by cases h), (fun _ h => by cases h)⟩

theorem lb_parseStr : LB L F parseStr Any :=
  lb_bind (lb_liftLex fun _ r p h => lexStr_low r p h) fun _ _ => lb_pure trivial

/-- `parse_value`. -/
def LBPV (L : LCtx) (pv : PV) : Prop := ∀ (F : Option Str) ps l c d brace first, (F = L.main → L.line ≤ l) →
  LB L F (pv ps l c d brace first) Any

/-- Positions of the operands. -/
def VLow (L : LCtx) (F : Option Str) (vs : List (Value × Nat × Nat)) : Prop := F = L.main → ∀ x ∈ vs, L.line ≤ x.2.1

theorem VLow.snoc {vs : List (Value × Nat × Nat)} {x : Value × Nat × Nat} (h : VLow L F vs) (hx : F = L.main → L.line ≤ x.2.1) :
    VLow L F (vs ++ [x]) := by
  intro hF y hy
  rcases List.mem_append.1 hy with hy | hy
  · exact h hF y hy
  · rw [List.mem_singleton.1 hy]; exact hx hF

variable {pv : PV} (hpv : LBPV L pv)
include hpv

theorem lb_opLoop (ps : List Pair) (d : Nat) (brace : Option Char) : ∀ (n : Nat) (vs : List (Value × Nat × Nat)) (ops : List BinOp),
    VLow L F vs → LB L F (opLoop pv ps d brace n vs ops) (fun x => VLow L F x.1)
  | 0, _, _, _ => lb_oof
  | n + 1, vs, ops, hv => by
    refine lb_bind lb_peekP fun c _ => ?_
    cases c with
    | none => exact lb_pure hv
    | some ch =>
      simp only
      cases getOp ch with
      | none => exact lb_pure hv
      | some op =>
        refine lb_bind lb_nextP fun _ _ => ?_
        refine lb_bind lb_peekP fun c _ => ?_
        cases c with
        | none => exact lb_failEnd
        | some _ =>
          refine lb_bind lb_getPos fun p hp => ?_
          refine lb_bind (hpv F _ _ _ _ _ _ hp) fun v _ => ?_
          refine lb_ite (fun _ => ?_) fun _ => lb_opLoop ps d brace n _ _ (hv.snoc hp)
          cases hb : popBack vs with
          | none => exact lb_panic
          | some x =>
            obtain ⟨front, v1, l1, c1⟩ := x
            have hvs : vs = front ++ [(v1, l1, c1)] := by
              unfold popBack at hb
              cases hg : vs.getLast? with
              | none => rw [hg] at hb; cases hb
              | some y =>
                rw [hg] at hb
                simp only [Option.some.injEq, Prod.mk.injEq] at hb
                obtain ⟨h1, h2⟩ := hb
                rw [← h1, ← h2]
                exact (List.dropLast_append_getLast? y hg).symm
            refine lb_bind (lb_binaryOp _ _ _ _ _ hp) fun r _ => lb_opLoop ps d brace n _ _ ?_
            intro hF y hy
            rw [hvs] at hv
            rcases List.mem_append.1 hy with hy | hy
            · exact hv hF y (List.mem_append.2 (.inl hy))
            · rw [List.mem_singleton.1 hy]
              exact hv hF (v1, l1, c1) (List.mem_append.2 (.inr (List.mem_singleton.2 rfl)))

omit hpv in
theorem lb_foldOps : ∀ (ops : List BinOp) (v : Value) (vs : List (Value × Nat × Nat)), VLow L F vs →
    LB L F (foldOps v vs ops) Any
  | [], v, vs, _ => by simp only [foldOps]; exact lb_pure trivial
  | op :: ops, v, [], _ => lb_panic
  | op :: ops, v, (v2, l2, c2) :: vs, h =>
    lb_bind (lb_binaryOp _ _ _ _ _ fun hF => h hF (v2, l2, c2) (List.mem_cons_self ..)) fun r _ =>
      lb_foldOps ops r vs fun hF x hx => h hF x (List.mem_cons_of_mem _ hx)

theorem lb_parseOps (ps : List Pair) (d : Nat) (brace : Option Char) (v : Value) (l c : Nat) (hl : F = L.main → L.line ≤ l) :
    LB L F (parseOps pv ps d brace v l c) Any := by
  refine lb_bind (lb_withBound fun n => lb_opLoop hpv ps d brace n _ _ ?_) ?_
  · intro hF x hx
    rw [List.mem_singleton.1 hx]; exact hl hF
  rintro ⟨vs, ops⟩ h
  refine lb_bind (lb_checkValueEnd brace) fun _ _ => ?_
  cases vs with
  | nil => exact lb_panic
  | cons x vs => exact lb_foldOps _ _ _ fun hF x hx => h hF x (List.mem_cons_of_mem _ hx)

theorem lb_parseUnary (ps : List Pair) (d : Nat) (brace : Option Char) (op : UnOp) :
    LB L F (parseUnary pv ps d brace op) Any := by
  refine lb_bind lb_nextP fun c _ => ?_
  refine lb_ite (fun _ => ?_) fun _ => lb_panic
  refine lb_bind lb_getPos fun p hp => ?_
  refine lb_bind lb_peekP fun c _ => ?_
  cases c with
  | none => exact lb_fail fun hF => onOrAfter_end (hp hF)
  | some _ => exact lb_bind (hpv F _ _ _ _ _ _ hp) fun v _ => lb_unaryOp _ _ _ _ hp

omit hpv in
theorem lb_lookupVar (ps : List Pair) (x : Str) (g : Bool) (l c : Nat) (hl : F = L.main → L.line ≤ l) :
    LB L F (lookupVar ps x g l c) Any := by
  have kw : ∀ k, LB L F (do let i ← forceSentinel k; pure (Value.obj (Obj.empty i))) Any :=
    fun k => lb_bind (lb_forceSentinel k) fun _ _ => lb_pure trivial
  unfold lookupVar
  refine lb_ite (fun _ => lb_pure trivial) fun _ => ?_
  refine lb_ite (fun _ => lb_pure trivial) fun _ => ?_
  refine lb_ite (fun _ => lb_pure trivial) fun _ => ?_
  refine lb_ite (fun _ => kw _) fun _ => ?_
  refine lb_ite (fun _ => kw _) fun _ => ?_
  refine lb_ite (fun _ => kw _) fun _ => ?_
  refine lb_ite (fun _ => kw _) fun _ => ?_
  refine lb_ite (fun _ => lb_fail' hl rfl) fun _ => ?_
  refine lb_ite (fun _ => ?_) fun _ => ?_
  · intro s h1 h2
    unfold lookupGlobal
    cases StrMap.get s.globals x with
    | none =>
      intro h3
      exact onOrAfter_lineCol (hl (h1.1 ▸ h3)) rfl
    | some v => exact ⟨h1, h2, trivial⟩
  · cases findPair ps x with
    | none => exact lb_fail' hl rfl
    | some p => exact lb_pure trivial

omit hpv in
theorem lb_indexWith (f : Nat → Option (Except OverError Value)) (v : Value) (l c : Nat) (hl : F = L.main → L.line ≤ l) :
    LB L F (indexWith f v l c) Any := by
  unfold indexWith
  cases v with
  | int i =>
    simp only
    cases toUsize i with
    | none => exact lb_fail' hl rfl
    | some n =>
      simp only
      cases f n with
      | none => exact lb_panic
      | some x => cases x with
        | ok v => exact lb_pure trivial
        | error e => exact lb_fail fun hF => onOrAfter_over e (hl hF)
  | _ => exact lb_fail' hl rfl

variable [Unicode]

theorem lb_parseVariable (brace : Option Char) : ∀ (n : Nat) (ps : List Pair) (l c d : Nat), (F = L.main → L.line ≤ l) →
    LB L F (parseVariable pv n ps l c d brace) Any
  | 0, _, _, _, _, _ => lb_oof
  | n + 1, ps, l, c, d, hl => by
    refine lb_bind (lb_liftLex fun _ r p h => lexVar_low r p h) ?_
    rintro ⟨x, g, dt⟩ -
    refine lb_bind (lb_lookupVar ps x g l c hl) fun v _ => ?_
    have index : ∀ f : Nat → Option (Except OverError Value), LB L F
        (do let p ← getPos; let ix ← pv ps p.line p.col (d + 1) brace false; indexWith f ix p.line p.col) Any :=
      fun f => lb_bind lb_getPos fun p hp => lb_bind (hpv F _ _ _ _ _ _ hp) fun ix _ => lb_indexWith _ _ _ _ hp
    cases dt with
    | none => exact lb_pure trivial
    | dot =>
      cases v with
      | arr i t vs => exact index _
      | tup i t vs => exact index _
      | obj o => exact lb_bind lb_getPos fun p hp => lb_parseVariable brace n _ _ _ _ hp
      | _ => exact lb_fail' hl rfl
    | dotGlobal =>
      cases v with
      | arr i t vs => exact index _
      | tup i t vs => exact index _
      | obj o => exact lb_bind lb_getPos fun p hp => lb_fail' hp rfl
      | _ => exact lb_fail' hl rfl

omit hpv [Unicode] in
theorem lb_checkDuplicate (f : Str) (ft : FieldType) (ps : List Pair) (par : Option Obj) (l c : Nat) (hl : F = L.main → L.line ≤ l) :
    LB L F (checkDuplicate f ft ps par l c) Any := by
  intro s h1 h2
  unfold checkDuplicate
  cases ft <;> simp only <;> split <;>
    first | exact ⟨h1, h2, trivial⟩ | exact fun h3 => onOrAfter_lineCol (hl (h1.1 ▸ h3)) rfl

omit hpv [Unicode] in
theorem lb_storeField (f : Str) (ft : FieldType) (v : Value) (ps : List Pair) (par : Option Obj) (l c : Nat)
    (hl : F = L.main → L.line ≤ l) : LB L F (storeField f ft v ps par l c)
      (fun x => ∃ more, x.1 = ps ++ more ∧ (ft ≠ .parent → x.2 = par)) := by
  unfold storeField
  cases ft with
  | global =>
    intro s h1 h2
    exact ⟨h1, h2, [], by simp, fun _ => rfl⟩
  | parent =>
    simp only
    cases v.getObj with
    | ok o => exact lb_pure ⟨[], by simp, fun h => absurd rfl h⟩
    | error e => exact lb_fail fun hF => onOrAfter_over e (hl hF)
  | regular => exact lb_pure ⟨_, rfl, fun _ => rfl⟩

end

end Over
