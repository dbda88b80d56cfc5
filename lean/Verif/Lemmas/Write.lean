import Verif.Model.Format
import Verif.Spec.Eval
import Verif.Spec.Names
import Verif.Spec.Nesting
import Verif.Lemmas.Values
import Verif.Lemmas.Numbers

/-! # Writing: totality, and the tree of a written value -/

namespace Over

/-! ## Totality -/

theorem formatL_total {vs : List Value} (h : ∀ v ∈ vs, ∀ n, 4 ≤ n → ∃ s, v.format n = some s) (n : Nat) :
    ∃ s, Value.formatL vs n = some s := by
  induction vs with
  | nil => exact ⟨_, rfl⟩
  | cons v vs ih =>
    obtain ⟨s, hs⟩ := h v (by simp) (n + indentStep) (by simp [indentStep])
    obtain ⟨r, hr⟩ := ih (fun w hw => h w (by simp [hw]))
    exact ⟨_, by simp only [Value.formatL, hs, hr]; rfl⟩

theorem pairFormatL_total {ps : List Pair} (h : ∀ p ∈ ps, ∀ n, 4 ≤ n → ∃ s, (Pair.value p).format n = some s)
    (n : Nat) : ∃ s, Pair.formatL ps n = some s := by
  induction ps with
  | nil => exact ⟨_, rfl⟩
  | cons p ps ih =>
    obtain ⟨f, v⟩ := p
    obtain ⟨s, hs⟩ := h (.mk f v) (by simp) (n + indentStep) (by simp [indentStep])
    obtain ⟨r, hr⟩ := ih (fun w hw => h w (by simp [hw]))
    simp only [Pair.value] at hs
    exact ⟨_, by simp only [Pair.formatL, hs, hr]; rfl⟩

theorem usub_ok {n : Nat} (h : 4 ≤ n) : usub n indentStep = some (n - 4) := by
  simp [usub, indentStep, h]

theorem format_total :
    (∀ v : Value, ∀ n, 4 ≤ n → ∃ s, v.format n = some s) ∧
    (∀ o : Obj, (∀ n, 4 ≤ n → ∃ s, o.format true n = some s) ∧ ∀ n, ∃ s, o.format false n = some s) := by
  apply Value.ind
    (mv := fun v => ∀ n, 4 ≤ n → ∃ s, v.format n = some s)
    (mo := fun o => (∀ n, 4 ≤ n → ∃ s, o.format true n = some s) ∧ ∀ n, ∃ s, o.format false n = some s)
  · intro n _; exact ⟨_, rfl⟩
  · intro b n _; exact ⟨_, rfl⟩
  · intro b n _; exact ⟨_, rfl⟩
  · intro b n _; exact ⟨_, rfl⟩
  · intro b n _; exact ⟨_, rfl⟩
  · intro id t vs ih n hn
    match vs, ih with
    | [], _ => exact ⟨_, rfl⟩
    | [v], ih =>
      obtain ⟨s, hs⟩ := ih v (by simp) n hn
      exact ⟨_, by simp only [Value.format, hs]; rfl⟩
    | v :: w :: r, ih =>
      obtain ⟨s, hs⟩ := formatL_total ih n
      have : n ≠ 0 := by omega
      exact ⟨_, by simp only [Value.format, hs, this, if_false, usub_ok hn]; rfl⟩
  · intro id t vs ih n hn
    match vs, ih with
    | [], _ => exact ⟨_, rfl⟩
    | [v], ih =>
      obtain ⟨s, hs⟩ := ih v (by simp) n hn
      exact ⟨_, by simp only [Value.format, hs]; rfl⟩
    | v :: w :: r, ih =>
      obtain ⟨s, hs⟩ := formatL_total ih n
      exact ⟨_, by simp only [Value.format, hs, usub_ok hn]; rfl⟩
  · intro o ih n hn
    obtain ⟨s, hs⟩ := ih.1 n hn
    exact ⟨s, by simpa only [Value.format] using hs⟩
  · intro id ps par hps hpar
    have hp : ∀ n, ∃ s, Obj.formatParent par n = some s := by
      intro n
      cases par with
      | none => exact ⟨_, rfl⟩
      | some q =>
        obtain ⟨s, hs⟩ := (hpar q rfl).1 (n + indentStep) (by simp [indentStep])
        exact ⟨_, by simp only [Obj.formatParent, hs]; rfl⟩
    constructor
    · intro n hn
      obtain ⟨s, hs⟩ := pairFormatL_total hps n
      obtain ⟨q, hq⟩ := hp n
      simp only [Obj.format]
      split
      · exact ⟨_, rfl⟩
      · exact ⟨_, by simp only [hs, hq, if_true, usub_ok hn]; rfl⟩
    · intro n
      obtain ⟨s, hs⟩ := pairFormatL_total hps n
      obtain ⟨q, hq⟩ := hp n
      simp only [Obj.format]
      split
      · exact ⟨_, rfl⟩
      · exact ⟨_, by simp only [hs, hq]; rfl⟩

/-! ## Only the data is written -/

theorem formatL_data {vs : List Value} (h : ∀ v ∈ vs, ∀ n, v.data.format n = v.format n) (n : Nat) :
    Value.formatL (Value.dataL vs) n = Value.formatL vs n := by
  induction vs with
  | nil => rfl
  | cons v vs ih =>
    simp only [Value.dataL, Value.formatL, h v (by simp), ih (fun w hw => h w (by simp [hw]))]

theorem pairFormatL_data {ps : List Pair}
    (h : ∀ p ∈ ps, ∀ n, (Pair.value p).data.format n = (Pair.value p).format n) (n : Nat) :
    Pair.formatL (Pair.dataL ps) n = Pair.formatL ps n := by
  induction ps with
  | nil => rfl
  | cons p ps ih =>
    obtain ⟨f, v⟩ := p
    have := h (.mk f v) (by simp)
    simp only [Pair.value] at this
    simp only [Pair.dataL, Pair.formatL, this, ih (fun w hw => h w (by simp [hw]))]

theorem format_data :
    (∀ v : Value, ∀ n, v.data.format n = v.format n) ∧
    (∀ o : Obj, ∀ b n, o.data.format b n = o.format b n) := by
  apply Value.ind (mv := fun v => ∀ n, v.data.format n = v.format n)
    (mo := fun o => ∀ b n, o.data.format b n = o.format b n)
  · intro n; rfl
  · intro b n; rfl
  · intro b n; rfl
  · intro b n; rfl
  · intro b n; rfl
  · intro id t vs ih n
    match vs, ih with
    | [], _ => rfl
    | [v], ih => simp only [Value.data, Value.dataL, Value.format, ih v (by simp) n]
    | v :: w :: r, ih =>
      have := formatL_data ih n
      simp only [Value.dataL] at this
      simp only [Value.data, Value.dataL, Value.format, this]
  · intro id t vs ih n
    match vs, ih with
    | [], _ => rfl
    | [v], ih => simp only [Value.data, Value.dataL, Value.format, ih v (by simp) n]
    | v :: w :: r, ih =>
      have := formatL_data ih n
      simp only [Value.dataL] at this
      simp only [Value.data, Value.dataL, Value.format, this]
  · intro o ih n; simp only [Value.data, Value.format, ih]
  · intro id ps par hps hpar b n
    have h1 : ∀ n, Obj.formatParent (Obj.dataP par) n = Obj.formatParent par n := by
      intro n
      cases par with
      | none => rfl
      | some q => simp only [Obj.dataP, Obj.formatParent, hpar q rfl]
    have h2 : (Pair.dataL ps).isEmpty = ps.isEmpty := by cases ps with
      | nil => rfl
      | cons p ps => cases p; rfl
    have h3 : (Obj.dataP par).isSome = par.isSome := by cases par <;> rfl
    simp only [Obj.data, Obj.format, h1, h2, h3, pairFormatL_data hps]

/-! ## The tree of a written value -/

/-- The operand written for an integer. -/
def intTerm : Int → Term
  | .ofNat n => .int n
  | .negSucc n => .neg (.int (n + 1))

/-- The operand written for an integral fraction. -/
def wholeTerm : Int → Term
  | .ofNat n => .frac n
  | .negSucc n => .neg (.frac ((n + 1 : Nat) : Rat))

/-- The operator chain written for a fraction. -/
def ratExpr (q : Rat) : Expr :=
  if q.den = 1 then .mk (wholeTerm q.num) [] else .mk (intTerm q.num) [.mk .div (.int q.den)]

mutual
/-- The tree whose text is the written value. -/
def Value.ast : Value → Expr
  | .null => .mk (.name c!"null") []
  | .bool b => .mk (.name (if b then c!"true" else c!"false")) []
  | .int i => .mk (intTerm i) []
  | .frac q => ratExpr q
  | .str s => .mk (.str s) []
  | .arr _ _ vs => .mk (.arr (Value.astL vs)) []
  | .tup _ _ vs => .mk (.tup (Value.astL vs)) []
  | .obj o => .mk (.obj o.ast) []
termination_by structural v => v
/-- The trees of the elements. -/
def Value.astL : List Value → List Expr
  | [] => []
  | v :: vs => v.ast :: Value.astL vs
termination_by structural v => v
/-- The definitions of the fields. -/
def Pair.astL : List Pair → List Field
  | [] => []
  | .mk f v :: ps => .mk (.field f) v.ast :: Pair.astL ps
termination_by structural v => v
/-- The definition of the parent. -/
def Obj.astP : Option Obj → List Field
  | none => []
  | some o => [.mk .parent (.mk (.obj o.ast) [])]
termination_by structural v => v
/-- The definitions of an object. -/
def Obj.ast : Obj → List Field
  | .mk _ ps par => Obj.astP par ++ Pair.astL ps
termination_by structural v => v
end

/-! ### Literals -/

theorem showNat_digits (n : Nat) : ∀ c ∈ showNat n, isDigit c = true := by
  intro c hc
  have := Nat.isDigit_of_mem_toDigits (b := 10) (by decide) (by decide) hc
  simp only [Char.isDigit, Bool.and_eq_true, decide_eq_true_eq] at this
  rw [isDigit_nat]
  exact ⟨UInt32.le_iff_toNat_le.1 this.1, UInt32.le_iff_toNat_le.1 this.2⟩

theorem showNat_ne_nil (n : Nat) : showNat n ≠ [] := Nat.toDigits_ne_nil

theorem showNat_value (n : Nat) : decimalValue (showNat n) = n := by
  rw [← digitsVal_eq]
  exact Nat.ofDigitChars_ten_toDigits

theorem digitsOf_all {s : Str} (h : ∀ c ∈ s, isDigit c = true) : digitsOf s = s :=
  List.filter_eq_self.2 fun c hc => (decDigit_eq c).trans (h c hc)

theorem digitRun_all {s : Str} (h : ∀ c ∈ s, isDigit c = true) : DigitRun s := by
  refine ⟨fun c hc => .inl ((decDigit_eq c).trans (h c hc)), ?_⟩
  intro hi
  exact absurd (h '_' (hi.subset (by simp))) (by decide)

theorem showNat_head (n : Nat) : ∃ c cs, showNat n = c :: cs ∧ isDigit c = true := by
  cases h : showNat n with
  | nil => exact absurd h (showNat_ne_nil n)
  | cons c cs => exact ⟨c, cs, rfl, showNat_digits n c (by rw [h]; simp)⟩

theorem showNat_head' (n : Nat) : ∃ c cs, showNat n = c :: cs ∧ decDigit c = true := by
  obtain ⟨c, cs, h1, h2⟩ := showNat_head n
  exact ⟨c, cs, h1, (decDigit_eq c).trans h2⟩

theorem showNat_intLit (n : Nat) : IntLit n (showNat n) :=
  ⟨digitRun_all (showNat_digits n), showNat_head' n, by rw [digitsOf_all (showNat_digits n), showNat_value]⟩

theorem showNat_fracLit (n : Nat) : FracLit n (showNat n ++ c!".0") := by
  have h0 : ∀ c ∈ c!"0", isDigit c = true := by decide
  refine ⟨showNat n, '.', c!"0", rfl, .inl rfl, digitRun_all (showNat_digits n), digitRun_all h0,
    .inr (showNat_head' n), ?_, ?_⟩
  · rw [digitsOf_all (showNat_digits n)]; exact .inl (showNat_ne_nil n)
  · rw [digitsOf_all (showNat_digits n), digitsOf_all h0, showNat_value]
    simp [decimalValue]

variable [Unicode]

theorem spInt (i : Int) : SpTerm (intTerm i) (showInt i) := by
  cases i with
  | ofNat n => exact .int (showNat_intLit n)
  | negSucc n => exact .neg (.int (showNat_intLit _))

theorem spWhole (i : Int) : SpTerm (wholeTerm i) (showInt i ++ c!".0") := by
  cases i with
  | ofNat n => exact .frac (showNat_fracLit n)
  | negSucc n => exact .neg (.frac (showNat_fracLit _))

theorem spRat (q : Rat) : SpExpr (ratExpr q) (formatRat q) := by
  unfold ratExpr formatRat showRat
  split
  · have := SpExpr.mk (spWhole q.num) SpOps.nil
    simpa using this
  · have := SpExpr.mk (spInt q.num) (SpOps.cons (op := .div) (SpTerm.int (showNat_intLit q.den)) SpOps.nil)
    simpa [opChar] using this

omit [Unicode] in
theorem strBody_replaceAll (s : Str) : StrBody s (replaceAll s) := by
  induction s with
  | nil => exact .nil
  | cons c s ih =>
    unfold replaceAll getCharMap
    by_cases h1 : c = '\\'
    · subst h1; exact .esc (by decide) ih
    by_cases h2 : c = '"'
    · subst h2; exact .esc (by decide) ih
    by_cases h3 : c = '\''
    · subst h3; exact .esc (by decide) ih
    by_cases h4 : c = '$'
    · subst h4; exact .esc (by decide) ih
    by_cases h5 : c = '\n'
    · subst h5; exact .esc (by decide) ih
    by_cases h6 : c = '\r'
    · subst h6; exact .esc (by decide) ih
    by_cases h7 : c = '\t'
    · subst h7; exact .esc (by decide) ih
    simp only [h1, h2, h3, h4, h5, h6, h7, if_false]
    exact .raw h2 h1 ih

theorem spStr (s : Str) : SpTerm (.str s) (formatStr s) := by
  have := SpTerm.str (strBody_replaceAll s)
  simpa [formatStr] using this

/-! ### Layout -/

omit [Unicode] in
theorem gap_append {a b : Str} (ha : Gap a) (hb : Gap b) : Gap (a ++ b) := by
  induction ha with
  | nil => exact hb
  | ws h _ ih => exact .ws h ih
  | comment h _ ih => simpa using Gap.comment h ih

omit [Unicode] in
theorem gap_indent (n : Nat) : Gap (indent n) := by
  induction n with
  | zero => exact .nil
  | succ n ih => exact .ws (by decide) ih

omit [Unicode] in
theorem gap_newline {g : Str} (h : Gap g) : Gap ('\n' :: g) := .ws (by decide) h

theorem spItems_formatL {vs : List Value}
    (ih : ∀ v ∈ vs, NamesOk v → ∀ n s, v.format n = some s → SpExpr v.ast s) (hn : ∀ v ∈ vs, NamesOk v)
    {n : Nat} {b : Str} (hb : Value.formatL vs n = some b) {g k : Str} (hg : Gap g) (hk : Gap k) :
    SpItems false (Value.astL vs) (g ++ (b ++ k)) := by
  induction vs generalizing g b with
  | nil =>
    simp only [Value.formatL, Option.some.injEq] at hb
    subst hb
    exact .nil (show Gap _ from gap_append hg hk)
  | cons v vs IH =>
    simp only [Value.formatL, Option.bind_eq_bind, Option.bind_eq_some_iff, Option.some.injEq] at hb
    obtain ⟨f, hf, r, hr, rfl⟩ := hb
    have h1 := IH (fun w hw => ih w (by simp [hw])) (fun w hw => hn w (by simp [hw])) hr
      (g := c!"\n") (gap_newline .nil)
    have := SpItems.cons (eof := false) (gap_append hg (gap_indent n))
      (ih v (by simp) (hn v (by simp)) _ _ hf) h1 (.inr ⟨'\n', _, rfl, .inl (by decide)⟩)
    simpa [Value.astL] using this

theorem spFields_formatL {ps : List Pair}
    (ih : ∀ p ∈ ps, NamesOk (Pair.value p) → ∀ n s, (Pair.value p).format n = some s → SpExpr (Pair.value p).ast s)
    (hn : ∀ p ∈ ps, NamesOk (Pair.value p)) (hf : ∀ p ∈ ps, FieldName (Pair.field p)) {eof : Bool}
    {n : Nat} {b : Str} (hb : Pair.formatL ps n = some b) {g k : Str} (hg : Gap g) (hk : Gap k) :
    SpFields eof (Pair.astL ps) (g ++ (b ++ k)) := by
  induction ps generalizing g b with
  | nil =>
    simp only [Pair.formatL, Option.some.injEq] at hb
    subst hb
    refine .nil ?_
    cases eof with
    | false => exact (show Gap _ from gap_append hg hk)
    | true => exact (show EndGap _ from .gap (gap_append hg hk))
  | cons p ps IH =>
    obtain ⟨fl, v⟩ := p
    simp only [Pair.formatL, Option.bind_eq_bind, Option.bind_eq_some_iff, Option.some.injEq] at hb
    obtain ⟨f, hf', r, hr, rfl⟩ := hb
    have h1 := IH (fun w hw => ih w (by simp [hw])) (fun w hw => hn w (by simp [hw]))
      (fun w hw => hf w (by simp [hw])) hr (g := c!"\n") (gap_newline .nil)
    have := SpFields.cons (eof := eof) (gap_append hg (gap_indent n)) (.field (hf (.mk fl v) (by simp)))
      (gap_indent 1)
      (ih (.mk fl v) (by simp) (hn (.mk fl v) (by simp)) _ _ hf') h1 (.inr ⟨'\n', _, rfl, .inl (by decide)⟩)
    simpa [Pair.astL, Pair.field, Pair.value, indent, List.replicate] using this

theorem astP_fields {par : Option Obj} {n : Nat} {a : Str} (ha : Obj.formatParent par n = some a)
    (ih : ∀ q, par = some q → ∀ n s, q.format true n = some s → SpTerm (.obj q.ast) s) {eof : Bool}
    {fs : List Field} {r : Str}
    (hr : ∀ g, Gap g → SpFields eof fs (g ++ r)) (g : Str) (hg : Gap g) :
    SpFields eof (Obj.astP par ++ fs) (g ++ (a ++ r)) := by
  cases par with
  | none =>
    simp only [Obj.formatParent, Option.some.injEq] at ha
    subst ha
    exact hr g hg
  | some q =>
    simp only [Obj.formatParent, Option.bind_eq_bind, Option.bind_eq_some_iff, Option.some.injEq] at ha
    obtain ⟨f, hf, rfl⟩ := ha
    have h1 := hr c!"\n" (gap_newline .nil)
    have := SpFields.cons (eof := eof) (gap_append hg (gap_indent n)) .parent (gap_indent 1)
      (SpExpr.mk (ih q rfl _ _ hf) SpOps.nil) h1 (.inr ⟨'\n', _, rfl, .inl (by decide)⟩)
    simpa [Obj.astP, indent, List.replicate] using this

theorem varName_lit {x : Str} (h : ∀ c ∈ x, isAsciiAlpha c = true) (hne : x ≠ []) : VarName x := by
  cases x with
  | nil => exact absurd rfl hne
  | cons c cs =>
    refine ⟨c, cs, rfl, .inl (.inl ?_), fun d hd => .inl ?_⟩
    · simp [isAlphabetic, h c (by simp)]
    · simp [isAlphabetic, h d (by simp [hd])]

theorem spName {x : Str} (h : ∀ c ∈ x, isAsciiAlpha c = true) (hne : x ≠ []) : SpExpr (.mk (.name x) []) x := by
  have := SpExpr.mk (SpTerm.name (varName_lit h hne)) SpOps.nil
  simpa using this

theorem single {t : Term} {s : Str} (h : SpTerm t s) : SpExpr (.mk t []) s := by
  have := SpExpr.mk h SpOps.nil
  simpa using this

/-- The written text of a value spells its tree. -/
theorem format_spells :
    (∀ v : Value, NamesOk v → ∀ n s, v.format n = some s → SpExpr v.ast s) ∧
    (∀ o : Obj, NamesOkObj o → (∀ n s, o.format true n = some s → SpTerm (.obj o.ast) s) ∧
      ∀ n s, o.format false n = some s → SpDoc o.ast s) := by
  apply Value.ind (mv := fun v => NamesOk v → ∀ n s, v.format n = some s → SpExpr v.ast s)
    (mo := fun o => NamesOkObj o → (∀ n s, o.format true n = some s → SpTerm (.obj o.ast) s) ∧
      ∀ n s, o.format false n = some s → SpDoc o.ast s)
  · intro _ n s h
    simp only [Value.format, Option.some.injEq] at h
    subst h
    exact spName (by decide) (by decide)
  · intro b _ n s h
    simp only [Value.format, Option.some.injEq] at h
    subst h
    cases b <;> exact spName (by decide) (by decide)
  · intro i _ n s h
    simp only [Value.format, Option.some.injEq] at h
    subst h
    exact single (spInt i)
  · intro q _ n s h
    simp only [Value.format, Option.some.injEq] at h
    subst h
    exact spRat q
  · intro x _ n s h
    simp only [Value.format, Option.some.injEq] at h
    subst h
    exact single (spStr x)
  · intro id t vs ih hn n s h
    cases hn with | arr hn =>
    match vs, ih, hn, h with
    | [], _, _, h =>
      simp only [Value.format, Option.some.injEq] at h
      subst h
      exact single (.arr (.nil (show Gap _ from .nil)))
    | [v], ih, hn, h =>
      simp only [Value.format, Option.bind_eq_bind, Option.bind_eq_some_iff, Option.some.injEq] at h
      obtain ⟨f, hf, rfl⟩ := h
      have h1 := SpItems.cons (eof := false) .nil (ih v (by simp) (hn v (by simp)) _ _ hf)
        (.nil (show Gap _ from .nil)) (.inl rfl)
      have := single (.arr h1)
      simpa [Value.ast, Value.astL] using this
    | v :: w :: r, ih, hn, h =>
      simp only [Value.format, Option.bind_eq_bind, Option.bind_eq_some_iff] at h
      obtain ⟨b, hb, h⟩ := h
      have : ∃ k, s = c!"[\n" ++ b ++ indent k ++ c!"]" := by
        split at h
        · exact ⟨0, by simpa using h.symm⟩
        · simp only [Option.bind_eq_some_iff, Option.some.injEq] at h
          obtain ⟨k, -, h⟩ := h
          exact ⟨k, h.symm⟩
      obtain ⟨k, rfl⟩ := this
      have := single (.arr (spItems_formatL ih hn hb (g := c!"\n") (gap_newline .nil) (gap_indent k)))
      simpa [Value.ast] using this
  · intro id t vs ih hn n s h
    cases hn with | tup hn =>
    match vs, ih, hn, h with
    | [], _, _, h =>
      simp only [Value.format, Option.some.injEq] at h
      subst h
      exact single (.tup (.nil (show Gap _ from .nil)))
    | [v], ih, hn, h =>
      simp only [Value.format, Option.bind_eq_bind, Option.bind_eq_some_iff, Option.some.injEq] at h
      obtain ⟨f, hf, rfl⟩ := h
      have h1 := SpItems.cons (eof := false) .nil (ih v (by simp) (hn v (by simp)) _ _ hf)
        (.nil (show Gap _ from .nil)) (.inl rfl)
      have := single (.tup h1)
      simpa [Value.ast, Value.astL] using this
    | v :: w :: r, ih, hn, h =>
      simp only [Value.format, Option.bind_eq_bind, Option.bind_eq_some_iff, Option.some.injEq] at h
      obtain ⟨b, hb, k, -, rfl⟩ := h
      have := single (.tup (spItems_formatL ih hn hb (g := c!"\n") (gap_newline .nil) (gap_indent k)))
      simpa [Value.ast] using this
  · intro o ih hn n s h
    cases hn with | obj hn =>
    simp only [Value.format] at h
    exact single ((ih hn).1 n s h)
  · intro id ps par hps hpar hn
    cases hn with | mk hf _ hv hq =>
    have ih' : ∀ q, par = some q → ∀ n s, q.format true n = some s → SpTerm (.obj q.ast) s :=
      fun q e => (hpar q e (hq q e)).1
    constructor
    · intro n s h
      simp only [Obj.format] at h
      split at h
      · rename_i he
        simp only [if_true, Option.some.injEq] at h
        subst h
        simp only [Bool.and_eq_true, List.isEmpty_iff, Bool.not_eq_true', Option.isSome_eq_false_iff,
          Option.isNone_iff_eq_none] at he
        obtain ⟨rfl, rfl⟩ := he
        exact .obj (.nil (show Gap _ from .nil))
      · simp only [if_true, Option.bind_eq_bind, Option.bind_eq_some_iff, Option.some.injEq] at h
        obtain ⟨a, ha, b, hb, k, -, rfl⟩ := h
        have := SpTerm.obj (astP_fields (eof := false) ha ih'
          (fun g hg => spFields_formatL hps hv hf hb hg (gap_indent k)) c!"\n" (gap_newline .nil))
        simpa [Obj.ast] using this
    · intro n s h
      simp only [Obj.format] at h
      split at h
      · rename_i he
        simp only [Bool.false_eq_true, if_false, Option.some.injEq] at h
        subst h
        simp only [Bool.and_eq_true, List.isEmpty_iff, Bool.not_eq_true', Option.isSome_eq_false_iff,
          Option.isNone_iff_eq_none] at he
        obtain ⟨rfl, rfl⟩ := he
        exact (show SpFields true _ _ from .nil (show EndGap _ from .gap .nil))
      · simp only [Bool.false_eq_true, if_false, Option.bind_eq_bind, Option.bind_eq_some_iff, Option.some.injEq] at h
        obtain ⟨a, ha, b, hb, rfl⟩ := h
        have := astP_fields (eof := true) ha ih'
          (fun g hg => spFields_formatL hps hv hf hb hg .nil) [] .nil
        simpa [Obj.ast, SpDoc] using this

end Over
