import Verif.Lemmas.Wp
import Verif.Spec.Eval

/-!
# Operators
-/

namespace Over

theorem P.ext {α : Type} {m m' : P α} (h : ∀ s, m s = m' s) : m = m' := funext h

theorem P.pure_bind {α β : Type} (a : α) (f : α → P β) : (pure a >>= f) = f a := rfl

theorem mostSpecific_arr (s t : Ty) : Ty.mostSpecific (.arr s) (.arr t) =
    match Ty.mostSpecific s t with
    | some (u, f) => some (.arr u, f)
    | none => none := by
  simp only [Ty.mostSpecific]
  cases Ty.mostSpecific s t <;> rfl

theorem unaryOp_eq (v : Value) (op : UnOp) (l c : Nat) :
    unaryOp v op l c = match op, v with
      | .plus, .int x => pure (.int x)
      | .plus, .frac x => pure (.frac x)
      | .minus, .int x => pure (.int (-x))
      | .minus, .frac x => pure (.frac (-x))
      | op, v => fail (.unaryOperatorError v.getType op l c) := by
  cases op <;> cases v <;> rfl

theorem binaryOp_eq (a b : Value) (op : BinOp) (l c : Nat) :
    binaryOp a b op l c = match binSem op a b with
      | .val v => pure v
      | .newArr t vs => do let id ← genId; pure (.arr id t vs)
      | .bad t1 t2 => fail (.binaryOperatorError t1 t2 op l c)
      | .divisionByZero => fail (.invalidNumeric l c) := by
  have e : ∀ i : Int, Rat.divInt i 1 = (i : Rat) := fun i => (Rat.intCast_eq_divInt i).symm
  cases op <;> cases a <;> cases b <;> first | rfl | skip
  case plus.int.frac i q =>
    change (pure (.frac (Rat.divInt i 1 + q)) : P Value) = pure (.frac ((i : Rat) + q)); rw [e]
  case plus.frac.int q i =>
    change (pure (.frac (q + Rat.divInt i 1)) : P Value) = pure (.frac (q + (i : Rat))); rw [e]
  case minus.int.frac i q =>
    change (pure (.frac (Rat.divInt i 1 - q)) : P Value) = pure (.frac ((i : Rat) - q)); rw [e]
  case minus.frac.int q i =>
    change (pure (.frac (q - Rat.divInt i 1)) : P Value) = pure (.frac (q - (i : Rat))); rw [e]
  case mult.int.frac i q =>
    change (pure (.frac (Rat.divInt i 1 * q)) : P Value) = pure (.frac ((i : Rat) * q)); rw [e]
  case mult.frac.int q i =>
    change (pure (.frac (q * Rat.divInt i 1)) : P Value) = pure (.frac (q * (i : Rat))); rw [e]
  case div.int.frac i q =>
    change (if q = 0 then fail (.invalidNumeric l c) else pure (.frac (Rat.divInt i 1 / q)) : P Value) = _
    rw [e]; by_cases h : q = 0 <;> simp [h, binSem, divSem]
  case div.frac.int q i =>
    change (if Rat.divInt i 1 = 0 then fail (.invalidNumeric l c)
      else pure (.frac (q / Rat.divInt i 1)) : P Value) = _
    rw [e]; by_cases h : i = 0 <;> simp [h, binSem, divSem]
  case div.frac.frac x y =>
    change (if y = 0 then fail (.invalidNumeric l c) else pure (.frac (x / y)) : P Value) = _
    by_cases h : y = 0 <;> simp [h, binSem, divSem]
  case div.int.int x y =>
    change (if y = 0 then fail (.invalidNumeric l c) else pure (.frac (Rat.divInt x y)) : P Value) = _
    by_cases h : y = 0
    · simp [h, binSem, divSem]
    · simp [h, binSem, divSem, Rat.divInt_eq_div]
  case mod.int.int x y =>
    change (if y = 0 then fail (.invalidNumeric l c) else pure (.int (Int.tmod x y)) : P Value) = _
    by_cases h : y = 0 <;> simp [h, binSem]
  case plus.arr.arr i s xs j t ys =>
    change (match Ty.mostSpecific (.arr s) (.arr t) with
      | some (t', _) => (match t' with
        | .arr ti => do
          let id ← genId
          pure (Arr.fromValuesUnchecked id (xs ++ ys) ti).toValue
        | _ => panicP : P Value)
      | none => fail (.binaryOperatorError (.arr s) (.arr t) .plus l c)) = _
    rw [mostSpecific_arr]
    simp only [binSem]
    cases Ty.mostSpecific s t <;> rfl

end Over
