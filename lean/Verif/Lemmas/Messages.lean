import Verif.Model.Error
import Verif.Lemmas.Write

/-! # Reading messages back: displays of types and numbers can be split off uniquely -/

namespace Over

/-! ### Digits -/

theorem digits_left {a b : Str} {x y : Char} {r t : Str} (ha : ∀ c ∈ a, isDigit c = true) (hb : ∀ c ∈ b, isDigit c = true)
    (hx : isDigit x = false) (hy : isDigit y = false) (h : a ++ x :: r = b ++ y :: t) : a = b ∧ x :: r = y :: t := by
  induction a generalizing b with
  | nil =>
    cases b with
    | nil => exact ⟨rfl, h⟩
    | cons c b =>
      simp only [List.nil_append, List.cons_append, List.cons.injEq] at h
      rw [h.1, hb c (by simp)] at hx; cases hx
  | cons c a ih =>
    cases b with
    | nil =>
      simp only [List.nil_append, List.cons_append, List.cons.injEq] at h
      rw [← h.1, ha c (by simp)] at hy; cases hy
    | cons d b =>
      simp only [List.cons_append, List.cons.injEq] at h
      obtain ⟨h1, h2⟩ := ih (fun c hc => ha c (by simp [hc])) (fun c hc => hb c (by simp [hc])) h.2
      exact ⟨by rw [h.1, h1], h2⟩

theorem digits_right {a b : Str} {x y : Char} {r t : Str} (ha : ∀ c ∈ a, isDigit c = true) (hb : ∀ c ∈ b, isDigit c = true)
    (hx : isDigit x = false) (hy : isDigit y = false) (h : r ++ x :: a = t ++ y :: b) : r = t ∧ x = y ∧ a = b := by
  have h' := congrArg List.reverse h
  simp only [List.reverse_append, List.reverse_cons, List.append_assoc, List.singleton_append] at h'
  obtain ⟨h1, h2⟩ := digits_left (by simpa using ha) (by simpa using hb) hx hy h'
  simp only [List.cons.injEq, List.reverse_inj] at h1 h2
  exact ⟨h2.2, h2.1, h1⟩

theorem showNat_inj {n m : Nat} (h : showNat n = showNat m) : n = m := by
  rw [← showNat_value n, h, showNat_value]

theorem showNat_left {n m : Nat} {x y : Char} {r t : Str} (hx : isDigit x = false) (hy : isDigit y = false)
    (h : showNat n ++ x :: r = showNat m ++ y :: t) : n = m ∧ x :: r = y :: t := by
  obtain ⟨h1, h2⟩ := digits_left (showNat_digits n) (showNat_digits m) hx hy h
  exact ⟨showNat_inj h1, h2⟩

theorem showInt_inj {i j : Int} (h : showInt i = showInt j) : i = j := by
  cases i with
  | ofNat n =>
    cases j with
    | ofNat m => rw [showNat_inj h]
    | negSucc m =>
      have := showNat_digits n '-' (by simp only [showInt] at h; rw [h]; simp)
      exact absurd this (by decide)
  | negSucc n =>
    cases j with
    | ofNat m =>
      have := showNat_digits m '-' (by simp only [showInt] at h; rw [← h]; simp)
      exact absurd this (by decide)
    | negSucc m =>
      simp only [showInt, List.cons.injEq, true_and] at h
      have := showNat_inj h
      simp at this; rw [this]

/-! ### Types -/

mutual
theorem Ty.display_split (t : Ty) (t' : Ty) (r r' : Str) (h : t.display ++ r = t'.display ++ r') : t = t' ∧ r = r' := by
  cases t with
  | arr a =>
    cases t' with
    | arr b =>
      simp only [Ty.display, List.append_assoc, List.cons_append, List.nil_append, List.cons.injEq, true_and] at h
      obtain ⟨h1, h2⟩ := Ty.display_split a b _ _ h
      simp only [List.cons.injEq, true_and] at h2
      exact ⟨by rw [h1], h2⟩
    | _ => simp [Ty.display] at h
  | tup a =>
    cases t' with
    | tup b =>
      simp only [Ty.display, List.append_assoc, List.cons_append, List.nil_append, List.cons.injEq, true_and] at h
      obtain ⟨h1, h2⟩ := Ty.displayL_split a b _ _ h
      exact ⟨by rw [h1], h2⟩
    | _ => simp [Ty.display] at h
  | _ => cases t' <;> simp [Ty.display] at h ⊢; exact h
termination_by structural t
theorem Ty.displayL_split (ts : List Ty) (ts' : List Ty) (r r' : Str)
    (h : Ty.displayL ts ++ ')' :: r = Ty.displayL ts' ++ ')' :: r') : ts = ts' ∧ r = r' := by
  have hh : ∀ (t : Ty), ∃ c cs, t.display = c :: cs ∧ c ≠ ')' := by
    intro t; cases t <;> exact ⟨_, _, rfl, by decide⟩
  cases ts with
  | nil =>
    cases ts' with
    | nil => simpa [Ty.displayL] using h
    | cons t ts =>
      obtain ⟨c, cs, h1, h2⟩ := hh t
      simp only [Ty.displayL, h1, List.nil_append, List.cons_append, List.cons.injEq] at h
      exact absurd h.1.symm h2
  | cons t ts =>
    cases ts' with
    | nil =>
      obtain ⟨c, cs, h1, h2⟩ := hh t
      simp only [Ty.displayL, h1, List.nil_append, List.cons_append, List.cons.injEq] at h
      exact absurd h.1 h2
    | cons t' ts' =>
      simp only [Ty.displayL, List.append_assoc] at h
      obtain ⟨h1, h2⟩ := Ty.display_split t t' _ _ h
      obtain ⟨h3, h4⟩ := Ty.displayTail_split ts ts' _ _ h2
      exact ⟨by rw [h1, h3], h4⟩
termination_by structural ts
theorem Ty.displayTail_split (ts : List Ty) (ts' : List Ty) (r r' : Str)
    (h : Ty.displayTail ts ++ ')' :: r = Ty.displayTail ts' ++ ')' :: r') : ts = ts' ∧ r = r' := by
  cases ts with
  | nil =>
    cases ts' with
    | nil => simpa [Ty.displayTail] using h
    | cons t ts => simp [Ty.displayTail] at h
  | cons t ts =>
    cases ts' with
    | nil => simp [Ty.displayTail] at h
    | cons t' ts' =>
      simp only [Ty.displayTail, List.append_assoc, List.cons_append, List.nil_append, List.cons.injEq, true_and] at h
      obtain ⟨h1, h2⟩ := Ty.display_split t t' _ _ h
      obtain ⟨h3, h4⟩ := Ty.displayTail_split ts ts' _ _ h2
      exact ⟨by rw [h1, h3], h4⟩
termination_by structural ts
end

theorem Ty.displayL_eq (ts : List Ty) : Ty.displayL ts = (c!", ").intercalate (ts.map Ty.display) := by
  have ht : ∀ (t : Ty) (ts : List Ty), t.display ++ Ty.displayTail ts = (c!", ").intercalate ((t :: ts).map Ty.display) := by
    intro t ts
    induction ts generalizing t with
    | nil => simp [Ty.displayTail]
    | cons u us ih =>
      have := ih u
      simp only [List.map_cons, List.intercalate_cons_cons] at this ⊢
      rw [← this]; simp [Ty.displayTail]
  cases ts with
  | nil => rfl
  | cons t ts => rw [← ht]; rfl

/-! ### Positions -/

theorem atLineCol_right {a b : Str} {l c l' c' : Nat} (h : a ++ atLineCol l c = b ++ atLineCol l' c') :
    a = b ∧ l = l' ∧ c = c' := by
  have e : ∀ (a : Str) l c, a ++ atLineCol l c = (a ++ c!" at line " ++ showNat l ++ c!", column") ++ ' ' :: showNat c := by
    intro a l c; simp [atLineCol]
  rw [e, e] at h
  obtain ⟨h1, -, h2⟩ := digits_right (showNat_digits c) (showNat_digits c') (by decide) (by decide) h
  have h1 := List.append_cancel_right h1
  have e : ∀ (a : Str) l, a ++ c!" at line " ++ showNat l = (a ++ c!" at line") ++ ' ' :: showNat l := by intro a l; simp
  rw [e, e] at h1
  obtain ⟨h3, -, h4⟩ := digits_right (showNat_digits l) (showNat_digits l') (by decide) (by decide) h1
  exact ⟨List.append_cancel_right h3, showNat_inj h4, showNat_inj h2⟩

theorem atLineCol_left {l c l' c' : Nat} {x y : Char} {r t : Str} (hx : isDigit x = false) (hy : isDigit y = false)
    (h : atLineCol l c ++ x :: r = atLineCol l' c' ++ y :: t) : l = l' ∧ c = c' ∧ x :: r = y :: t := by
  simp only [atLineCol, List.append_assoc, List.cons_append, List.nil_append, List.cons.injEq, true_and] at h
  obtain ⟨h1, h2⟩ := showNat_left (by decide) (by decide) h
  simp only [List.cons.injEq, true_and] at h2
  obtain ⟨h3, h4⟩ := showNat_left hx hy h2
  exact ⟨h1, h3, h4⟩

/-! ### The beginning of a message tells the kind -/

/-- The kinds of message (kinds with the same beginning are one). -/
inductive MsgTag
  | binary (op : BinOp) | cyclic | dupField | dupGlobal | expected | global | index | bracket | dot | escape | char
  | fieldName | path | token | numeric | value | depth | unary (op : UnOp) | ending | variable | io | over | parseInt

/-- What each kind begins with. -/
def MsgTag.text : MsgTag → Str
  | .binary op => c!"Could not apply operator " ++ op.display ++ c!" on types "
  | .cyclic => c!"Tried to cyclically include file \""
  | .dupField => c!"Duplicate field \""
  | .dupGlobal => c!"Duplicate global \""
  | .expected => c!"Expected "
  | .global => c!"Global \""
  | .index => c!"Invalid index "
  | .bracket => c!"Invalid closing bracket '"
  | .dot => c!"Invalid use of dot notation on value of type "
  | .escape => c!"Invalid escape character "
  | .char => c!"Invalid character "
  | .fieldName => c!"Invalid field name \""
  | .path => c!"Invalid include path \""
  | .token => c!"Invalid value of type \""
  | .numeric => c!"Invalid numeric value"
  | .value => c!"Invalid value \""
  | .depth => c!"Exceeded maximum recursion depth (64)"
  | .unary op => c!"Could not apply operator " ++ op.display ++ c!" on type "
  | .ending => c!"Unexpected end at line "
  | .variable => c!"Variable \""
  | .io => [] | .over => [] | .parseInt => []

def MsgTag.all : List MsgTag :=
  [.binary .plus, .binary .minus, .binary .mult, .binary .div, .binary .mod, .cyclic, .dupField, .dupGlobal, .expected,
   .global, .index, .bracket, .dot, .escape, .char, .fieldName, .path, .token, .numeric, .value, .depth, .unary .plus,
   .unary .minus, .ending, .variable]

def Kind.tag : Kind → MsgTag
  | .binaryOperatorError _ _ op _ _ => .binary op
  | .cyclicInclude .. => .cyclic
  | .duplicateField .. => .dupField
  | .duplicateGlobal .. => .dupGlobal
  | .expectedType .. => .expected
  | .globalNotFound .. => .global
  | .invalidIndex .. => .index
  | .invalidClosingBracket .. => .bracket
  | .invalidDot .. => .dot
  | .invalidEscapeChar .. => .escape
  | .invalidFieldChar .. => .char
  | .invalidFieldName .. => .fieldName
  | .invalidIncludePath .. => .path
  | .invalidIncludeToken .. => .token
  | .invalidNumeric .. => .numeric
  | .invalidValue .. => .value
  | .invalidValueChar .. => .char
  | .maxDepth .. => .depth
  | .unaryOperatorError _ op _ _ => .unary op
  | .unexpectedEnd .. => .ending
  | .variableNotFound .. => .variable
  | .ioError _ => .io
  | .overError _ => .over
  | .parseIntError _ => .parseInt

theorem Kind.tag_prefix [Unicode] (k : Kind) : k.tag.text <+: k.display := by
  cases k <;> simp only [Kind.tag, MsgTag.text, Kind.display]
  case maxDepth => exact ⟨_, rfl⟩
  case ioError => exact List.nil_prefix
  case overError => exact List.nil_prefix
  case parseIntError => exact List.nil_prefix
  all_goals
    repeat (first | exact List.prefix_rfl | refine List.IsPrefix.trans ?_ (List.prefix_append _ _))

deriving instance DecidableEq for MsgTag

theorem MsgTag.prefix_code : ∀ a ∈ MsgTag.all, ∀ b ∈ MsgTag.all, a.text <+: b.text → a = b := by
  decide +kernel

/-- What the messages of the value API begin with. -/
def OverError.start : OverError → Str
  | .arrOutOfBounds _ => c!"Arr index "
  | .arrTypeMismatch .. => c!"Arr inner types do not match: expected "
  | .fieldNotFound _ => c!"Field not found: \""
  | .invalidFieldName _ => c!"Invalid field name: \""
  | .noParentFound => c!"No parent found for this obj"
  | .tupOutOfBounds _ => c!"Tup index "
  | .tupTypeMismatch .. => c!"Tup inner types do not match at index "
  | .typeMismatch .. => c!"Type mismatch: expected "
  | .parseError _ => []
  | .ioError _ => []

def overStarts : List Str :=
  [OverError.start (.arrOutOfBounds 0), OverError.start (.arrTypeMismatch .any .any), OverError.start (.fieldNotFound []),
   OverError.start (.invalidFieldName []), OverError.start .noParentFound, OverError.start (.tupOutOfBounds 0),
   OverError.start (.tupTypeMismatch .any .any 0), OverError.start (.typeMismatch .any .any)]

theorem OverError.start_prefix (e : OverError) : e.start <+: e.display := by
  cases e <;> simp only [OverError.start, OverError.display]
  all_goals
    first
      | exact List.nil_prefix
      | repeat (first | exact List.prefix_rfl | refine List.IsPrefix.trans ?_ (List.prefix_append _ _))

theorem prefix_or {a b c : Str} (h : a <+: c) (h' : b <+: c) : a <+: b ∨ b <+: a := List.prefix_or_prefix_of_prefix h h'

end Over
