import Verif.Lemmas.Messages
import Verif.Spec.Sample

/-!
# C54: messages say everything an error knows

The API hands errors of reading out as a message only (`OverError::ParseError(String)`), so what the message does not
determine is lost.
-/

namespace Over

/-- `{:?}` of characters (of the standard library) is unambiguous. -/
def DebugUnambiguous [Unicode] : Prop := ∀ c c', showCharDebug c = showCharDebug c' → c = c'

/-- The kinds with data of their own (the other three only carry a message that comes from elsewhere). -/
def Kind.HasData : Kind → Prop
  | .ioError _ => False
  | .overError _ => False
  | .parseIntError _ => False
  | _ => True

/-- The errors with data of their own. -/
def OverError.HasData : OverError → Prop
  | .parseError _ => False
  | .ioError _ => False
  | _ => True

/-! ## Types -/

/-- C54: how types are displayed. -/
theorem c54_type_display (t : Ty) : t.display = match t with
    | .any => "Any".toList
    | .null => "Null".toList
    | .bool => "Bool".toList
    | .int => "Int".toList
    | .frac => "Frac".toList
    | .str => "Str".toList
    | .obj => "Obj".toList
    | .arr t => "Arr(".toList ++ t.display ++ ")".toList
    | .tup ts => "Tup(".toList ++ (", ".toList).intercalate (ts.map Ty.display) ++ ")".toList := by
  cases t <;> simp only [Ty.display, Ty.displayL_eq] <;> rfl

/-- C54: the display of a type determines the type. -/
theorem c54_type_display_injective (t t' : Ty) (h : t.display = t'.display) : t = t' :=
  (Ty.display_split t t' [] [] (by simpa using h)).1

/-! ## Characters -/

/-- The value of a number written with lower-case hexadecimal digits. -/
def hexValue (h : Str) : Option Nat :=
  h.foldl (fun acc c => match acc, (c!"0123456789abcdef").idxOf? c with
    | some n, some d => some (16 * n + d)
    | _, _ => none) (some 0)

/-- C54: how a message shows an ASCII character: between single quotes; quotes, backslashes and the usual white space escaped, other
control characters by their number in hexadecimal (without leading zeros). -/
theorem c54_char_display [Unicode] (c : Char) (hc : c.toNat < 128) : ∃ body, showCharDebug c = c!"'" ++ body ++ c!"'" ∧
    ((c, body) ∈ [('\t', c!"\\t"), ('\r', c!"\\r"), ('\n', c!"\\n"), ('\'', c!"\\'"), ('"', c!"\\\""), ('\\', c!"\\\\")] ∨
      (c ∉ [('\t'), '\r', '\n', '\'', '"', '\\'] ∧ 32 ≤ c.toNat ∧ c.toNat < 127 ∧ body = [c]) ∨
      (c ∉ [('\t'), '\r', '\n'] ∧ (c.toNat < 32 ∨ c.toNat = 127) ∧ ∃ h, body = c!"\\u{" ++ h ++ c!"}" ∧ hexValue h = some c.toNat ∧
        (h.head? = some '0' → h = c!"0"))) := by
  have hx : ∀ n < 128, hexValue (showHex n) = some n ∧ ((showHex n).head? = some '0' → showHex n = c!"0") := by decide +kernel
  refine ⟨_, rfl, ?_⟩
  split_ifs with h1 h2 h3 h4 h5 h6 h7 h8
  · exact .inl (by simp [h1])
  · exact .inl (by simp [h2])
  · exact .inl (by simp [h3])
  · exact .inl (by simp [h4])
  · exact .inl (by simp [h5])
  · exact .inl (by simp [h6])
  · exact .inr (.inr ⟨by simp [h1, h2, h3], h7, _, rfl, hx _ hc⟩)
  · exact .inr (.inl ⟨by simp [h1, h2, h3, h4, h5, h6], by omega, h8, rfl⟩)
  · omega

/-- A control character. -/
example : ∃ c : Char, c.toNat < 128 ∧ @showCharDebug sampleUnicode c = c!"'\\u{1f}'" := ⟨'\x1f', by decide +kernel⟩

/-! ## Errors of the value API -/

theorem overError_split {e e' : OverError} {l c l' c' : Nat}
    (h : e.display ++ c!" at line " ++ showNat l ++ c!", col " ++ showNat c =
      e'.display ++ c!" at line " ++ showNat l' ++ c!", col " ++ showNat c') : e.display = e'.display ∧ l = l' ∧ c = c' := by
  have e1 : ∀ (a : Str) l c, a ++ c!" at line " ++ showNat l ++ c!", col " ++ showNat c =
      (a ++ c!" at line " ++ showNat l ++ c!", col") ++ ' ' :: showNat c := by intro a l c; simp
  rw [e1, e1] at h
  obtain ⟨h1, -, h2⟩ := digits_right (showNat_digits c) (showNat_digits c') (by decide) (by decide) h
  have h1 := List.append_cancel_right h1
  have e2 : ∀ (a : Str) l, a ++ c!" at line " ++ showNat l = (a ++ c!" at line") ++ ' ' :: showNat l := by intro a l; simp
  rw [e2, e2] at h1
  obtain ⟨h3, -, h4⟩ := digits_right (showNat_digits l) (showNat_digits l') (by decide) (by decide) h1
  exact ⟨List.append_cancel_right h3, showNat_inj h4, showNat_inj h2⟩

/-- C54: the message of an error of the value API determines the error: its variant, types, field and index. -/
theorem c54_over_error_injective (e e' : OverError) (he : e.HasData) (he' : e'.HasData) (h : e.display = e'.display) :
    e = e' := by
  have hty : ∀ {a b a' b' : Ty}, a.display ++ (c!", found " ++ b.display) = a'.display ++ (c!", found " ++ b'.display) →
      a = a' ∧ b = b' := by
    intro a b a' b' h
    obtain ⟨h1, h2⟩ := Ty.display_split _ _ _ _ h
    exact ⟨h1, c54_type_display_injective _ _ (List.append_cancel_left h2)⟩
  cases e <;> cases e' <;> simp only [OverError.HasData] at he he' <;>
    simp only [OverError.display, List.append_assoc, List.cons_append, List.nil_append, List.cons.injEq, true_and,
      reduceCtorEq, Char.reduceEq, false_and] at h
  case arrOutOfBounds => rw [(showNat_left (by decide) (by decide) h).1]
  case arrTypeMismatch => obtain ⟨h1, h2⟩ := hty h; rw [h1, h2]
  case fieldNotFound => rw [List.append_cancel_right h]
  case invalidFieldName => rw [List.append_cancel_right h]
  case noParentFound => rfl
  case tupOutOfBounds => rw [(showNat_left (by decide) (by decide) h).1]
  case tupTypeMismatch =>
    obtain ⟨h1, h2⟩ := showNat_left (by decide) (by decide) h
    simp only [List.cons.injEq, true_and] at h2
    obtain ⟨h3, h4⟩ := hty h2
    rw [h1, h3, h4]
  case typeMismatch => obtain ⟨h1, h2⟩ := hty h; rw [h1, h2]

/-- C54: inside a text such an error becomes a message that determines the error, the line and the column. -/
theorem c54_over_error_in_text [Unicode] (e e' : OverError) (he : e.HasData) (he' : e'.HasData) (l c l' c' : Nat)
    (h : (kindFromOver e l c).display = (kindFromOver e' l' c').display) : e = e' ∧ l = l' ∧ c = c' := by
  simp only [kindFromOver, Kind.display] at h
  obtain ⟨h1, h2⟩ := overError_split h
  exact ⟨c54_over_error_injective e e' he he' h1, h2⟩

/-! ## Errors of reading -/

theorem kind_tag_mem {k : Kind} (h : k.HasData) : k.tag ∈ MsgTag.all := by
  cases k <;> simp only [Kind.HasData] at h <;> simp only [Kind.tag]
  case binaryOperatorError op _ _ => cases op <;> decide
  case unaryOperatorError op _ _ => cases op <;> decide
  all_goals decide

/-- C54: the message of an error of reading determines the error: its kind, its names, types and characters, its line and
its column. -/
theorem c54_kind_injective [Unicode] (hd : DebugUnambiguous) (k k' : Kind) (hk : k.HasData) (hk' : k'.HasData)
    (h : k.display = k'.display) : k = k' := by
  have ht : k.tag = k'.tag := by
    have h1 := k.tag_prefix
    rw [h] at h1
    rcases prefix_or h1 k'.tag_prefix with h2 | h2
    · exact MsgTag.prefix_code _ (kind_tag_mem hk) _ (kind_tag_mem hk') h2
    · exact (MsgTag.prefix_code _ (kind_tag_mem hk') _ (kind_tag_mem hk) h2).symm
  cases k <;> simp only [Kind.HasData] at hk <;> cases k' <;> simp only [Kind.tag, reduceCtorEq, MsgTag.binary.injEq,
    MsgTag.unary.injEq] at ht <;> simp only [Kind.display] at h
  case binaryOperatorError =>
    subst ht
    obtain ⟨h1, h2, h3⟩ := atLineCol_right h
    simp only [List.append_assoc, List.append_cancel_left_eq] at h1
    obtain ⟨h4, h5⟩ := Ty.display_split _ _ _ _ h1
    have h6 := c54_type_display_injective _ _ (List.append_cancel_left h5)
    rw [h2, h3, h4, h6]
  case unaryOperatorError =>
    subst ht
    obtain ⟨h1, h2, h3⟩ := atLineCol_right h
    simp only [List.append_assoc, List.append_right_inj] at h1
    rw [h2, h3, c54_type_display_injective _ _ h1]
  case expectedType =>
    simp only [List.append_assoc, List.append_right_inj] at h
    obtain ⟨h1, h2⟩ := Ty.display_split _ _ _ _ h
    simp only [List.cons_append, List.nil_append] at h2
    obtain ⟨h3, h4, h5⟩ := atLineCol_left (by decide) (by decide) h2
    simp only [List.cons.injEq, true_and] at h5
    rw [h1, h3, h4, c54_type_display_injective _ _ h5]
  case invalidClosingBracket e1 f1 l1 c1 e2 f2 l2 c2 =>
    simp only [List.append_assoc, List.cons_append, List.nil_append, List.cons.injEq, true_and] at h
    obtain ⟨h1, h2⟩ := h
    obtain ⟨h3, h4, h5⟩ := atLineCol_left (by decide) (by decide) h2
    simp only [List.cons.injEq, true_and] at h5
    have h6 : e1 = e2 := by
      cases e1 <;> cases e2 <;> simp at h5
      · rfl
      · rw [h5]
    rw [h1, h3, h4, h6]
  case unexpectedEnd => rw [showNat_inj (List.append_cancel_left h)]
  case invalidDot =>
    obtain ⟨h1, h2, h3⟩ := atLineCol_right (List.append_cancel_right h)
    rw [h2, h3, c54_type_display_injective _ _ (List.append_cancel_left h1)]
  case invalidIncludeToken =>
    obtain ⟨h1, h2, h3⟩ := atLineCol_right (List.append_cancel_right h)
    rw [h2, h3, c54_type_display_injective _ _ (List.append_cancel_left (List.append_cancel_right h1))]
  case invalidEscapeChar =>
    obtain ⟨h1, h2, h3⟩ := atLineCol_right (List.append_cancel_right h)
    rw [h2, h3, hd _ _ (List.append_cancel_left (List.append_cancel_right h1))]
  case invalidFieldChar.invalidFieldChar =>
    obtain ⟨h1, h2, h3⟩ := atLineCol_right h
    rw [h2, h3, hd _ _ (List.append_cancel_left (List.append_cancel_right h1))]
  case invalidValueChar.invalidValueChar =>
    obtain ⟨h1, h2, h3⟩ := atLineCol_right h
    rw [h2, h3, hd _ _ (List.append_cancel_left (List.append_cancel_right h1))]
  case invalidFieldChar.invalidValueChar =>
    obtain ⟨h1, h2, h3⟩ := atLineCol_right h
    have := congrArg List.reverse h1
    simp at this
  case invalidValueChar.invalidFieldChar =>
    obtain ⟨h1, h2, h3⟩ := atLineCol_right h
    have := congrArg List.reverse h1
    simp at this
  case invalidIndex =>
    obtain ⟨h1, h2, h3⟩ := atLineCol_right h
    rw [h2, h3, showInt_inj (List.append_cancel_left h1)]
  case globalNotFound =>
    obtain ⟨h1, h2, h3⟩ := atLineCol_right (List.append_cancel_right h)
    rw [h2, h3, List.append_cancel_left (List.append_cancel_right h1)]
  case variableNotFound =>
    obtain ⟨h1, h2, h3⟩ := atLineCol_right (List.append_cancel_right h)
    rw [h2, h3, List.append_cancel_left (List.append_cancel_right h1)]
  all_goals
    obtain ⟨h1, h2, h3⟩ := atLineCol_right h
    rw [h2, h3]
    try rw [List.append_cancel_left (List.append_cancel_right h1)]

/-- C54: with the file in front. -/
theorem c54_parse_error_injective [Unicode] (hd : DebugUnambiguous) (e e' : ParseError) (he : e.kind.HasData)
    (he' : e'.kind.HasData) (hf : e.file = e'.file) (h : e.display = e'.display) : e = e' := by
  cases e; cases e'
  simp only at hf he he'; subst hf
  simp only [ParseError.display, List.append_right_inj] at h
  have := c54_kind_injective hd _ _ he he' h
  rw [this]

/-- C54: no error of the parser has the message of an error of the value API inside a text. -/
theorem c54_kind_ne_over [Unicode] (k : Kind) (hk : k.HasData) (e : OverError) (he : e.HasData) (l c : Nat) :
    k.display ≠ (kindFromOver e l c).display := by
  intro h
  have h1 := k.tag_prefix
  rw [h] at h1
  have h2 : e.start <+: (kindFromOver e l c).display := e.start_prefix.trans (by
    simp only [kindFromOver, Kind.display, List.append_assoc]; exact List.prefix_append _ _)
  have h3 : e.start ∈ overStarts := by cases e <;> simp only [OverError.HasData] at he <;> simp [OverError.start, overStarts]
  have h4 : ∀ a ∈ MsgTag.all, ∀ b ∈ overStarts, ¬ (a.text <+: b ∨ b <+: a.text) := by decide +kernel
  exact h4 _ (kind_tag_mem hk) _ h3 (prefix_or h1 h2)

/-! ## Examples -/

section
attribute [local instance] sampleUnicode

/-- The hypothesis about the standard library can be met: here by leaving characters above U+007F as they are. -/
theorem sampleDebug : DebugUnambiguous := by
  have hx : ∀ n < 128, ∀ m < 128, showHex n = showHex m → n = m := by decide +kernel
  let P : Char → Str → Prop := fun c b =>
    (b = c!"\\t" ∧ c = '\t') ∨ (b = c!"\\r" ∧ c = '\r') ∨ (b = c!"\\n" ∧ c = '\n') ∨ (b = c!"\\'" ∧ c = '\'') ∨
    (b = c!"\\\"" ∧ c = '"') ∨ (b = c!"\\\\" ∧ c = '\\') ∨
    (b = c!"\\u{" ++ showHex c.toNat ++ c!"}" ∧ c.toNat < 128) ∨ b = [c]
  have hP : ∀ c, ∃ b, showCharDebug c = c!"'" ++ b ++ c!"'" ∧ P c b := by
    intro c
    refine ⟨_, rfl, ?_⟩
    simp only [P]
    split_ifs with h1 h2 h3 h4 h5 h6 h7 h8
    · exact .inl ⟨rfl, h1⟩
    · exact .inr (.inl ⟨rfl, h2⟩)
    · exact .inr (.inr (.inl ⟨rfl, h3⟩))
    · exact .inr (.inr (.inr (.inl ⟨rfl, h4⟩)))
    · exact .inr (.inr (.inr (.inr (.inl ⟨rfl, h5⟩))))
    · exact .inr (.inr (.inr (.inr (.inr (.inl ⟨rfl, h6⟩)))))
    · exact .inr (.inr (.inr (.inr (.inr (.inr (.inl ⟨rfl, by omega⟩))))))
    · exact .inr (.inr (.inr (.inr (.inr (.inr (.inr rfl))))))
    · exact .inr (.inr (.inr (.inr (.inr (.inr (.inr rfl))))))
  have hu : ∀ c c' b, P c b → P c' b → c = c' := by
    intro c c' b h h'
    simp only [P] at h h'
    rcases h with ⟨rfl, h⟩ | ⟨rfl, h⟩ | ⟨rfl, h⟩ | ⟨rfl, h⟩ | ⟨rfl, h⟩ | ⟨rfl, h⟩ | ⟨rfl, h⟩ | rfl
    case inr.inr.inr.inr.inr.inr.inl =>
      rcases h' with ⟨h', -⟩ | ⟨h', -⟩ | ⟨h', -⟩ | ⟨h', -⟩ | ⟨h', -⟩ | ⟨h', -⟩ | ⟨h', h2⟩ | h'
      case inr.inr.inr.inr.inr.inr.inl =>
        exact Char.toNat_inj.1 (hx _ h _ h2 (List.append_cancel_left (List.append_cancel_right h')))
      all_goals simp at h'
    all_goals
      rcases h' with ⟨h', h2⟩ | ⟨h', h2⟩ | ⟨h', h2⟩ | ⟨h', h2⟩ | ⟨h', h2⟩ | ⟨h', h2⟩ | ⟨h', h2⟩ | h' <;>
      first
        | (rw [h, h2]; done)
        | (simp at h'; done)
        | (simp at h'; exact h')
  intro c c' h
  obtain ⟨b, h1, h2⟩ := hP c
  obtain ⟨b', h1', h2'⟩ := hP c'
  rw [h1, h1'] at h
  have := List.append_cancel_left (List.append_cancel_right h)
  subst this
  exact hu _ _ _ h2 h2'

/-- The types of `[[]]`, `[()]` and `([], 1)`. -/
example : Ty.display (.arr (.arr .any)) = c!"Arr(Arr(Any))" ∧ Ty.display (.arr (.tup [])) = c!"Arr(Tup())" ∧
    Ty.display (.tup [.arr .any, .int]) = c!"Tup(Arr(Any), Int)" := by decide +kernel

example : OverError.HasData (.typeMismatch .int .str) ∧
    OverError.display (.typeMismatch .int .str) = c!"Type mismatch: expected Int, found Str" := ⟨trivial, by decide +kernel⟩

example : Kind.HasData (.duplicateField c!"a" 1 2) ∧
    Kind.display (.duplicateField c!"a" 1 2) = c!"Duplicate field \"a\" at line 1, column 2" := ⟨trivial, by decide +kernel⟩

end

end Over
