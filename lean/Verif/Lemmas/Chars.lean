import Verif.Spec.Syntax

/-!
# Character classes
-/

namespace Over

theorem char_eq_iff (c d : Char) : c = d ↔ c.toNat = d.toNat := by
  constructor
  · rintro rfl; rfl
  · intro h; exact Char.ext (UInt32.toNat_inj.1 h)

/-- What the proofs need to know about `Alphabetic`. -/
theorem isAlphabetic_cases [Unicode] {c : Char} (h : isAlphabetic c = true) :
    (97 ≤ c.toNat ∧ c.toNat ≤ 122) ∨ (65 ≤ c.toNat ∧ c.toNat ≤ 90) ∨
      (127 < c.toNat ∧ isUniWhitespace c = false) := by
  simp only [isAlphabetic, isAsciiAlpha, Bool.or_eq_true, Bool.and_eq_true, decide_eq_true_eq,
    Bool.not_eq_true'] at h
  tauto

theorem uniWs_iff (c : Char) : isUniWhitespace c = true ↔
    (9 ≤ c.toNat ∧ c.toNat ≤ 13) ∨ c.toNat = 32 ∨ c.toNat = 0x85 ∨ c.toNat = 0xA0 ∨
      c.toNat = 0x1680 ∨ (0x2000 ≤ c.toNat ∧ c.toNat ≤ 0x200A) ∨ c.toNat = 0x2028 ∨
      c.toNat = 0x2029 ∨ c.toNat = 0x202F ∨ c.toNat = 0x205F ∨ c.toNat = 0x3000 := by
  simp only [isUniWhitespace, Bool.or_eq_true, Bool.and_eq_true, decide_eq_true_eq, beq_iff_eq]
  tauto

theorem isDigit_nat (c : Char) : isDigit c = true ↔ 48 ≤ c.toNat ∧ c.toNat ≤ 57 := by
  simp [isDigit]

/-- The digits of the specification are those of the code. -/
theorem decDigit_eq (c : Char) : decDigit c = isDigit c := by
  rw [Bool.eq_iff_iff, isDigit_nat]
  simp only [decDigit, List.contains_cons, List.contains_nil, Bool.or_eq_true, beq_iff_eq, char_eq_iff]
  constructor
  · intro h; simp at h; omega
  · intro h; simp; omega

theorem decDigit_fun : decDigit = isDigit := funext decDigit_eq

theorem valueEnd_iff (c : Char) : isValueEndChar c = true ↔
    isUniWhitespace c = true ∨ c = '#' ∨ isEndDelimiter c = true ∨ isOpChar c = true := by
  simp [isValueEndChar, isWhitespace, or_assoc]

theorem endDelim_iff (c : Char) : isEndDelimiter c = true ↔ c = ')' ∨ c = ']' ∨ c = '}' ∨ c = '>' := by
  simp [isEndDelimiter, or_assoc]

theorem opChar_iff (c : Char) : isOpChar c = true ↔
    c = '+' ∨ c = '-' ∨ c = '*' ∨ c = '/' ∨ c = '%' := by
  simp [isOpChar, or_assoc]

/-- Rewrites statements about characters to linear arithmetic on codes and decides them. -/
macro "char_omega" : tactic => `(tactic| (
  simp only [valueEnd_iff, endDelim_iff, opChar_iff, uniWs_iff, decDigit_eq, isDigit_nat, char_eq_iff, ne_eq,
    Bool.not_eq_true, Char.reduceToNat, ← Bool.not_eq_true,
    show '\n'.toNat = 10 from rfl] at *
  omega))

theorem NameChar.cases [Unicode] {c : Char} (h : NameChar c) :
    (97 ≤ c.toNat ∧ c.toNat ≤ 122) ∨ (65 ≤ c.toNat ∧ c.toNat ≤ 90) ∨ (48 ≤ c.toNat ∧ c.toNat ≤ 57) ∨
      c.toNat = 95 ∨ (127 < c.toNat ∧ isUniWhitespace c = false) := by
  rcases h with h | h | h
  · have := isAlphabetic_cases h; tauto
  · rw [decDigit_eq, isDigit_nat] at h; tauto
  · subst h; simp

theorem NameStart.cases [Unicode] {c : Char} (h : NameStart c) :
    (97 ≤ c.toNat ∧ c.toNat ≤ 122) ∨ (65 ≤ c.toNat ∧ c.toNat ≤ 90) ∨
      c.toNat = 95 ∨ (127 < c.toNat ∧ isUniWhitespace c = false) := by
  rcases h with h | h
  · have := isAlphabetic_cases h; tauto
  · subst h; simp

theorem NameChar.not_end [Unicode] {c : Char} (h : NameChar c) : isValueEndChar c = false := by
  have := h.cases
  char_omega

theorem NameStart.nameChar [Unicode] {c : Char} (h : NameStart c) : NameChar c := by
  rcases h with h | h
  · exact .inl h
  · exact .inr (.inr h)

theorem validFieldChar_false_iff [Unicode] (c : Char) : isValidFieldChar c false = true ↔ NameChar c := by
  simp only [isValidFieldChar, NameChar, decDigit_eq]
  by_cases h1 : isAlphabetic c = true
  · simp [h1]
  · by_cases h2 : isDigit c = true
    · simp [h1, h2]
    · by_cases h3 : c = '_'
      · simp [h3]
      · simp [h1, h2, h3]

theorem not_alpha_of_digit [Unicode] {c : Char} (h : isDigit c = true) : isAlphabetic c = false := by
  by_contra h1
  rw [Bool.not_eq_false] at h1
  have := isAlphabetic_cases h1
  char_omega

theorem validFieldChar_true_iff [Unicode] (c : Char) :
    isValidFieldChar c true = true ↔ NameStart c ∨ c = '^' := by
  simp only [isValidFieldChar, NameStart]
  by_cases h1 : isAlphabetic c = true
  · simp [h1]
  · by_cases h2 : isDigit c = true
    · have : c ≠ '_' := by char_omega
      have : c ≠ '^' := by char_omega
      simp [*]
    · by_cases h3 : c = '_'
      · subst h3; simp; right; decide
      · simp [h1, h2, h3]

theorem numericChar_iff (c : Char) : isNumericChar c = true ↔ isDigit c = true ∨ c = '.' ∨ c = ',' := by
  simp [isNumericChar, or_assoc]

end Over
