import Verif.Model.Files

/-!
# Bytes of cut files
-/

namespace Over

theorem readBytes_encode (t : Str) : readBytes t.utf8Encode = .ok t := by
  simp [readBytes, List.utf8Decode?_utf8Encode]

/-- A cut file is a cut text, or no text. -/
theorem readBytes_cut (t : Str) (n : Nat) :
    (∃ x, x <+: t ∧ readBytes (t.utf8Encode.extract 0 n) = .ok x) ∨
    readBytes (t.utf8Encode.extract 0 n) = .error c!"stream did not contain valid UTF-8" := by
  unfold readBytes
  cases h : (t.utf8Encode.extract 0 n).utf8Decode? with
  | none => exact .inr rfl
  | some cs =>
    refine .inl ⟨cs.toList, ?_, rfl⟩
    obtain ⟨m, hm⟩ := ByteArray.isSome_utf8Decode?_iff.1 (by rw [h]; rfl)
    rw [hm, List.utf8Decode?_utf8Encode] at h
    cases h
    have hs : t.utf8Encode.extract 0 n ++ t.utf8Encode.extract n t.utf8Encode.size = t.utf8Encode := by
      rw [ByteArray.extract_append_extract, Nat.min_eq_left (Nat.zero_le n)]
      exact ByteArray.extract_zero_max_size
    rw [hm] at hs
    exact List.isPrefix_of_utf8Encode_append_eq_utf8Encode _ hs

end Over
