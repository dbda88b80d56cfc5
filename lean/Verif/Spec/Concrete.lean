import Verif.Spec.Sample
import Verif.Lemmas.Types

/-!
# Checking concrete runs

For the examples beside the theorems: a Boolean test of equality of values, ids included, so that the kernel
can compute a concrete run and compare its result.
-/

namespace Over

mutual
/-- Equal, ids included. -/
def Value.same : Value → Value → Bool
  | .null, .null => true
  | .bool a, .bool b => a == b
  | .int a, .int b => a == b
  | .frac a, .frac b => a == b
  | .str a, .str b => a == b
  | .arr i s xs, .arr j t ys => i == j && s.is t && Value.sameL xs ys
  | .tup i s xs, .tup j t ys => i == j && (Ty.tup s).is (.tup t) && Value.sameL xs ys
  | .obj a, .obj b => a.same b
  | _, _ => false
termination_by structural v => v
/-- Equal elements. -/
def Value.sameL : List Value → List Value → Bool
  | [], [] => true
  | v :: vs, w :: ws => v.same w && Value.sameL vs ws
  | _, _ => false
termination_by structural v => v
/-- Equal fields. -/
def Pair.sameL : List Pair → List Pair → Bool
  | [], [] => true
  | .mk f v :: ps, .mk g w :: qs => f == g && v.same w && Pair.sameL ps qs
  | _, _ => false
termination_by structural v => v
/-- Equal parents. -/
def Obj.sameP : Option Obj → Option Obj → Bool
  | none, none => true
  | some a, some b => a.same b
  | _, _ => false
termination_by structural v => v
/-- Equal objects, ids included. -/
def Obj.same : Obj → Obj → Bool
  | .mk i ps par, .mk j qs par' => i == j && Pair.sameL ps qs && Obj.sameP par par'
termination_by structural v => v
end

mutual
theorem Value.same_eq : ∀ (v w : Value), v.same w = true → v = w
  | .null, w, h => by cases w <;> simp_all [Value.same]
  | .bool a, w, h => by cases w <;> simp_all [Value.same]
  | .int a, w, h => by cases w <;> simp_all [Value.same]
  | .frac a, w, h => by cases w <;> simp_all [Value.same]
  | .str a, w, h => by cases w <;> simp_all [Value.same]
  | .arr i s xs, w, h => by
    cases w <;> simp [Value.same, Ty.is_iff] at h
    obtain ⟨⟨rfl, rfl⟩, h⟩ := h
    rw [Value.sameL_eq _ _ h]
  | .tup i s xs, w, h => by
    cases w <;> simp [Value.same, Ty.is_iff] at h
    obtain ⟨⟨rfl, rfl⟩, h⟩ := h
    rw [Value.sameL_eq _ _ h]
  | .obj a, w, h => by
    cases w <;> simp [Value.same] at h
    rw [Obj.same_eq _ _ h]
termination_by structural v => v
theorem Value.sameL_eq : ∀ (v w : List Value), Value.sameL v w = true → v = w
  | [], w, h => by cases w <;> simp_all [Value.sameL]
  | v :: vs, w, h => by
    cases w <;> simp [Value.sameL] at h
    rw [Value.same_eq _ _ h.1, Value.sameL_eq _ _ h.2]
termination_by structural v => v
theorem Pair.sameL_eq : ∀ (v w : List Pair), Pair.sameL v w = true → v = w
  | [], w, h => by cases w <;> simp_all [Pair.sameL]
  | .mk f v :: vs, w, h => by
    cases w with
    | nil => simp [Pair.sameL] at h
    | cons p ps =>
      obtain ⟨g, x⟩ := p
      simp [Pair.sameL] at h
      obtain ⟨⟨rfl, h1⟩, h2⟩ := h
      rw [Value.same_eq _ _ h1, Pair.sameL_eq _ _ h2]
termination_by structural v => v
theorem Obj.sameP_eq : ∀ (v w : Option Obj), Obj.sameP v w = true → v = w
  | none, w, h => by cases w <;> simp_all [Obj.sameP]
  | some v, w, h => by
    cases w <;> simp [Obj.sameP] at h
    rw [Obj.same_eq _ _ h]
termination_by structural v => v
theorem Obj.same_eq : ∀ (v w : Obj), v.same w = true → v = w
  | .mk i ps par, w, h => by
    obtain ⟨j, qs, par'⟩ := w
    simp [Obj.same] at h
    obtain ⟨⟨rfl, h1⟩, h2⟩ := h
    rw [Pair.sameL_eq _ _ h1, Obj.sameP_eq _ _ h2]
termination_by structural v => v
end

/-- The run returns this object. -/
def Res.gives : Res Obj → Obj → Bool
  | .ok o _, o' => o.same o'
  | _, _ => false

theorem Res.gives_ok {r : Res Obj} {o : Obj} (h : r.gives o = true) : ∃ s, r = .ok o s := by
  cases r with
  | ok o' s => exact ⟨s, by rw [Obj.same_eq _ _ h]⟩
  | _ => simp [Res.gives] at h

/-- The kind of the error a run ends with. -/
def Res.kind : Res Obj → Option Kind
  | .err e => some e.kind
  | _ => none

end Over
