import Verif.Model.Convert
import Verif.Props.Types
import Verif.Props.Containers
import Verif.Props.Messages

/-!
# C61 conversions and comparisons with native values, C62 comparison of errors, C63 panicking macros
-/

namespace Over

/-! ## C09, without conditions -/

mutual
private theorem Value.eq_self : ∀ v : Value, v.eq v = true
  | .null => rfl
  | .bool _ => by simp [Value.eq]
  | .int _ => by simp [Value.eq]
  | .frac _ => by simp [Value.eq]
  | .str _ => by simp [Value.eq]
  | .arr _ t vs => by simp [Value.eq, Ty.eq_refl, Value.eqL_self vs]
  | .tup _ ts vs => by
    have : Ty.eqL ts ts = true := by have := Ty.eq_refl (.tup ts); simpa [Ty.eq] using this
    simp [Value.eq, this, Value.eqL_self vs]
  | .obj o => by simp [Value.eq, Obj.eq_self o]
termination_by structural v => v
private theorem Value.eqL_self : ∀ vs : List Value, Value.eqL vs vs = true
  | [] => rfl
  | v :: vs => by simp [Value.eqL, Value.eq_self v, Value.eqL_self vs]
termination_by structural v => v
private theorem Pair.eq_self : ∀ p : Pair, p.eq p = true
  | .mk f v => by simp [Pair.eq, Value.eq_self v]
termination_by structural v => v
private theorem Pair.eqL_self : ∀ ps : List Pair, Pair.eqL ps ps = true
  | [] => rfl
  | p :: ps => by simp [Pair.eqL, Pair.eq_self p, Pair.eqL_self ps]
termination_by structural v => v
private theorem Obj.eqParent_self : ∀ o : Option Obj, Obj.eqParent o o = true
  | none => rfl
  | some o => by simp [Obj.eqParent, Obj.eq_self o]
termination_by structural v => v
private theorem Obj.eq_self : ∀ o : Obj, o.eq o = true
  | .mk _ ps par => by simp [Obj.eq, Obj.eqParent_self par, Pair.eqL_self ps]
termination_by structural v => v
end

private theorem Ty.eqL_comm (ts us : List Ty) : Ty.eqL ts us = Ty.eqL us ts := by
  have := c01_type_eq_symm (.tup ts) (.tup us)
  simpa [Ty.eq] using this

mutual
private theorem Value.eq_comm' : ∀ v w : Value, v.eq w = w.eq v
  | .null, w => by cases w <;> simp [Value.eq]
  | .bool a, w => by cases w <;> simp [Value.eq, Bool.beq_comm]
  | .int a, w => by cases w <;> simp [Value.eq, Bool.beq_comm]
  | .frac a, w => by cases w <;> simp [Value.eq, Bool.beq_comm]
  | .str a, w => by cases w <;> simp [Value.eq, Bool.beq_comm]
  | .arr _ t vs, w => by
    cases w with
    | arr _ t' vs' => simp only [Value.eq, Value.eqL_comm' vs vs', c01_type_eq_symm t t']
    | _ => simp [Value.eq]
  | .tup _ t vs, w => by
    cases w with
    | tup _ t' vs' => simp only [Value.eq, Value.eqL_comm' vs vs', Ty.eqL_comm t t']
    | _ => simp [Value.eq]
  | .obj o, w => by
    cases w with
    | obj o' => simp only [Value.eq, Obj.eq_comm' o o']
    | _ => simp [Value.eq]
termination_by structural v => v
private theorem Value.eqL_comm' : ∀ vs ws : List Value, Value.eqL vs ws = Value.eqL ws vs
  | [], ws => by cases ws <;> rfl
  | v :: vs, [] => rfl
  | v :: vs, w :: ws => by simp [Value.eqL, Value.eq_comm' v w, Value.eqL_comm' vs ws]
termination_by structural v => v
private theorem Pair.eq_comm' : ∀ p q : Pair, p.eq q = q.eq p
  | .mk f v, .mk g w => by simp [Pair.eq, Value.eq_comm' v w, Bool.beq_comm (a := f)]
termination_by structural v => v
private theorem Pair.eqL_comm' : ∀ ps qs : List Pair, Pair.eqL ps qs = Pair.eqL qs ps
  | [], ws => by cases ws <;> rfl
  | v :: vs, [] => rfl
  | v :: vs, w :: ws => by simp [Pair.eqL, Pair.eq_comm' v w, Pair.eqL_comm' vs ws]
termination_by structural v => v
private theorem Obj.eqParent_comm' : ∀ o p : Option Obj, Obj.eqParent o p = Obj.eqParent p o
  | none, p => by cases p <;> rfl
  | some o, none => rfl
  | some o, some p => by simp [Obj.eqParent, Obj.eq_comm' o p]
termination_by structural v => v
private theorem Obj.eq_comm' : ∀ o p : Obj, o.eq p = p.eq o
  | .mk _ ps par, .mk _ qs par' => by simp [Obj.eq, Obj.eqParent_comm' par par', Pair.eqL_comm' ps qs]
termination_by structural v => v
end

/-- C09: `==` is reflexive and symmetric on all values, well-typed or not (it is transitive on well-typed values only). -/
theorem c09_reflexive_symmetric_always :
    (∀ v : Value, v.eq v = true) ∧ (∀ v w : Value, v.eq w = w.eq v) ∧ (∀ o : Obj, o.eq o = true) ∧ (∀ o p : Obj, o.eq p = p.eq o) :=
  ⟨Value.eq_self, Value.eq_comm', Obj.eq_self, Obj.eq_comm'⟩

/-! ## C61 -/

/-- A machine integer is within the range of its type; everything else is what it is. -/
def Native.InRange : Native → Prop
  | .machine k i => ∃ lo hi, (k, lo, hi) ∈ machineInts ∧ lo ≤ i ∧ i ≤ hi
  | _ => True

/-- C61: comparing a value with a native value is comparing it with the converted native value. -/
theorem c61_eq_is_eq_of_converted (v : Value) (x : Native) (hx : x.InRange) : v.eqNative x = v.eq (.ofNative x) := by
  cases x with
  | machine k i =>
    obtain ⟨lo, hi, h1, h2, h3⟩ := hx
    rw [Bool.eq_iff_iff, Value.eqNative, c11_eq_int k lo hi h1 v i h2 h3, Value.ofNative, Value.ofInt]
    cases v <;> simp [Value.eq]
  | arr a => cases v <;> simp [Value.eqNative, Value.ofNative, Arr.toValue, Value.eq, Arr.eq]
  | tup a => cases v <;> simp [Value.eqNative, Value.ofNative, Tup.toValue, Value.eq, Tup.eq]
  | _ => cases v <;> simp [Value.eqNative, Value.ofNative, Value.eq]

/-- C61: the comparison gives the same in both directions. -/
theorem c61_both_directions (v : Value) (x : Native) : x.eqValue v = v.eqNative x := by
  cases x <;> cases v <;> simp [Native.eqValue, Value.eqNative]

/-- C61: a native value equals what it is converted to. -/
theorem c61_equals_converted (x : Native) (hx : x.InRange) :
    (Value.ofNative x).eqNative x = true ∧ x.eqValue (.ofNative x) = true := by
  rw [c61_both_directions, c61_eq_is_eq_of_converted _ x hx]
  exact ⟨Value.eq_self _, Value.eq_self _⟩

/-- C61: exactly one value equals a given Bool, number or string; for an array, tuple or object (with its computed types)
it is the values with the same contents. -/
theorem c61_which_values (v : Value) (x : Native) (hx : x.InRange) (hv : WellTyped v) (hw : WellTyped (.ofNative x)) :
    v.eqNative x = true ↔ v.data = (Value.ofNative x).data := by
  rw [c61_eq_is_eq_of_converted v x hx]
  exact c09_value_eq_iff v _ hv hw

/-- C61: the variant and the contents of the converted value, by its getters and its type. -/
theorem c61_converted (x : Native) : match x with
    | .bool b => (Value.ofNative x).getBool = .ok b ∧ (Value.ofNative x).getType = .bool
    | .machine _ i => (Value.ofNative x).getInt = .ok i ∧ (Value.ofNative x).getType = .int
    | .bigInt i => (Value.ofNative x).getInt = .ok i ∧ (Value.ofNative x).getType = .int
    | .bigRational q => (Value.ofNative x).getFrac = .ok q ∧ (Value.ofNative x).getType = .frac
    | .string s => (Value.ofNative x).getStr = .ok s ∧ (Value.ofNative x).getType = .str
    | .strRef s => (Value.ofNative x).getStr = .ok s ∧ (Value.ofNative x).getType = .str
    | .arr a => (Value.ofNative x).getArr = .ok a ∧ (Value.ofNative x).getType = .arr a.innerType
    | .tup t => (Value.ofNative x).getTup = .ok t ∧ (Value.ofNative x).getType = .tup t.innerTypeVec
    | .obj o => (Value.ofNative x).getObj = .ok o ∧ (Value.ofNative x).getType = .obj := by
  cases x <;> exact ⟨rfl, rfl⟩

/-- C61: an `Int` never equals a rational and a `Frac` never equals an integer, even when they are the same number. -/
theorem c61_int_is_not_frac (i : Int) (q : Rat) (k : IntKind) :
    (Value.int i).eqNative (.bigRational q) = false ∧ (Value.frac q).eqNative (.bigInt i) = false ∧
    (Value.frac q).eqNative (.machine k i) = false ∧ (Value.int i).eq (.frac q) = false :=
  ⟨rfl, rfl, rfl, rfl⟩

/-- C61: a value that was got from an object compares like the object's own field: for every native value, the getter
followed by the native comparison and the comparison of the value agree. -/
theorem c61_getter_then_compare (v : Value) :
    (∀ b, v.eqNative (.bool b) = true ↔ v.getBool = .ok b) ∧
    (∀ i, v.eqNative (.bigInt i) = true ↔ v.getInt = .ok i) ∧
    (∀ s, v.eqNative (.string s) = true ↔ v.getStr = .ok s) ∧
    (∀ s, v.eqNative (.strRef s) = true ↔ v.getStr = .ok s) ∧
    (∀ q, v.eqNative (.bigRational q) = true → v.getFrac = .ok q) ∧
    (∀ a, v.eqNative (.arr a) = true ↔ ∃ a', v.getArr = .ok a' ∧ a'.eq a = true) ∧
    (∀ a, v.eqNative (.tup a) = true ↔ ∃ a', v.getTup = .ok a' ∧ a'.eq a = true) ∧
    (∀ o, v.eqNative (.obj o) = true ↔ ∃ o', v.getObj = .ok o' ∧ o'.eq o = true) := by
  cases v <;> simp [Value.eqNative, Value.getBool, Value.getInt, Value.getStr, Value.getFrac, Value.getArr, Value.getTup,
    Value.getObj]

/-- C61: machine integers at the ends of their ranges, and a list of strings. -/
example : (Native.machine ⟨true, 64⟩ (-9223372036854775808)).InRange ∧
    (Value.int (-9223372036854775808)).eqNative (.machine ⟨true, 64⟩ (-9223372036854775808)) = true ∧
    (Value.int (-9223372036854775808)).eqNative (.machine ⟨true, 32⟩ 0) = false ∧
    (Value.arr 7 .str [.str c!"a"]).eqNative (.arr ⟨9, .str, [.str c!"a"]⟩) = true ∧
    (Value.arr 7 .str [.str c!"a"]).eqNative (.arr ⟨9, .str, [.str c!"b"]⟩) = false :=
  ⟨⟨_, _, .tail _ (.tail _ (.tail _ (.head _))), by decide, by decide⟩, by decide, by decide, by decide, by decide⟩

/-! ## C62 -/

/-- The two errors are of the same variant, with the same names, indices and messages, and types that have a common
refinement. -/
inductive SameError : OverError → OverError → Prop
  | arrOutOfBounds (i : Nat) : SameError (.arrOutOfBounds i) (.arrOutOfBounds i)
  | arrTypeMismatch {a b c d e f : Ty} : Refines e a → Refines e c → Refines f b → Refines f d →
      SameError (.arrTypeMismatch a b) (.arrTypeMismatch c d)
  | fieldNotFound (f : Str) : SameError (.fieldNotFound f) (.fieldNotFound f)
  | invalidFieldName (f : Str) : SameError (.invalidFieldName f) (.invalidFieldName f)
  | noParentFound : SameError .noParentFound .noParentFound
  | parseError (m : Str) : SameError (.parseError m) (.parseError m)
  | tupOutOfBounds (i : Nat) : SameError (.tupOutOfBounds i) (.tupOutOfBounds i)
  | tupTypeMismatch {a b c d e f : Ty} (i : Nat) : Refines e a → Refines e c → Refines f b → Refines f d →
      SameError (.tupTypeMismatch a b i) (.tupTypeMismatch c d i)
  | typeMismatch {a b c d e f : Ty} : Refines e a → Refines e c → Refines f b → Refines f d →
      SameError (.typeMismatch a b) (.typeMismatch c d)
  | ioError (m : Str) : SameError (.ioError m) (.ioError m)

/-- C62: when two errors are equal. -/
theorem c62_error_eq_iff (e e' : OverError) : e.eq e' = true ↔ SameError e e' := by
  constructor
  · intro h
    cases e <;> cases e' <;> simp only [OverError.eq, Bool.and_eq_true, beq_iff_eq, reduceCtorEq,
      c01_type_eq_iff_common_refinement] at h
    case arrTypeMismatch.arrTypeMismatch => obtain ⟨⟨_, h1, h2⟩, ⟨_, h3, h4⟩⟩ := h; exact .arrTypeMismatch h1 h2 h3 h4
    case tupTypeMismatch.tupTypeMismatch => obtain ⟨⟨⟨_, h1, h2⟩, ⟨_, h3, h4⟩⟩, rfl⟩ := h; exact .tupTypeMismatch _ h1 h2 h3 h4
    case typeMismatch.typeMismatch => obtain ⟨⟨_, h1, h2⟩, ⟨_, h3, h4⟩⟩ := h; exact .typeMismatch h1 h2 h3 h4
    all_goals first | (subst h; constructor) | constructor
  · intro h
    cases h with
    | arrTypeMismatch h1 h2 h3 h4 =>
      simp only [OverError.eq, Bool.and_eq_true, c01_type_eq_iff_common_refinement]; exact ⟨⟨_, h1, h2⟩, _, h3, h4⟩
    | tupTypeMismatch i h1 h2 h3 h4 =>
      simp only [OverError.eq, Bool.and_eq_true, c01_type_eq_iff_common_refinement, beq_self_eq_true, and_true]
      exact ⟨⟨_, h1, h2⟩, _, h3, h4⟩
    | typeMismatch h1 h2 h3 h4 =>
      simp only [OverError.eq, Bool.and_eq_true, c01_type_eq_iff_common_refinement]; exact ⟨⟨_, h1, h2⟩, _, h3, h4⟩
    | _ => simp [OverError.eq]

/-- C62: equality of errors is reflexive and symmetric. -/
theorem c62_reflexive_symmetric : (∀ e : OverError, e.eq e = true) ∧ ∀ e e' : OverError, e.eq e' = e'.eq e := by
  constructor
  · intro e; cases e <;> simp [OverError.eq, Ty.eq_refl]
  · intro e e'
    have h : ∀ {e e'}, SameError e e' → SameError e' e := by
      intro e e' h
      cases h with
      | arrTypeMismatch h1 h2 h3 h4 => exact .arrTypeMismatch h2 h1 h4 h3
      | tupTypeMismatch i h1 h2 h3 h4 => exact .tupTypeMismatch i h2 h1 h4 h3
      | typeMismatch h1 h2 h3 h4 => exact .typeMismatch h2 h1 h4 h3
      | _ => constructor
    rw [Bool.eq_iff_iff, c62_error_eq_iff, c62_error_eq_iff]
    exact ⟨h, h⟩

/-- C62: it is not transitive, although `Eq` is implemented: expecting an array and getting an array of anything
is equal to two errors that differ from each other. -/
theorem c62_not_transitive : ∃ e1 e2 e3 : OverError, e1.eq e2 = true ∧ e2.eq e3 = true ∧ e1.eq e3 = false ∧
    e1.display ≠ e2.display :=
  ⟨.typeMismatch .bool (.arr .int), .typeMismatch .bool (.arr .any), .typeMismatch .bool (.arr .str), by decide, by decide,
    by decide, by decide⟩

/-- No type of the error mentions `Any`. -/
def OverError.NoAny : OverError → Prop
  | .arrTypeMismatch a b => ¬ MentionsAny a ∧ ¬ MentionsAny b
  | .tupTypeMismatch a b _ => ¬ MentionsAny a ∧ ¬ MentionsAny b
  | .typeMismatch a b => ¬ MentionsAny a ∧ ¬ MentionsAny b
  | _ => True

/-- C62: without `Any` in their types, equal errors are identical; so among errors with data of their own, two are equal
exactly when they have the same message. -/
theorem c62_without_any (e e' : OverError) (h : e.NoAny) (h' : e'.NoAny) :
    (e.eq e' = true ↔ e = e') ∧ (e.HasData → e'.HasData → (e.eq e' = true ↔ e.display = e'.display)) := by
  have key : e.eq e' = true ↔ e = e' := by
    constructor
    · intro he
      cases e <;> cases e' <;> simp only [OverError.eq, Bool.and_eq_true, beq_iff_eq, reduceCtorEq] at he
      case arrTypeMismatch.arrTypeMismatch =>
        rw [(c01_type_eq_iff_of_noAny _ _ h.1 h'.1).1 he.1, (c01_type_eq_iff_of_noAny _ _ h.2 h'.2).1 he.2]
      case tupTypeMismatch.tupTypeMismatch =>
        rw [(c01_type_eq_iff_of_noAny _ _ h.1 h'.1).1 he.1.1, (c01_type_eq_iff_of_noAny _ _ h.2 h'.2).1 he.1.2, he.2]
      case typeMismatch.typeMismatch =>
        rw [(c01_type_eq_iff_of_noAny _ _ h.1 h'.1).1 he.1, (c01_type_eq_iff_of_noAny _ _ h.2 h'.2).1 he.2]
      all_goals first | rw [he] | rfl
    · rintro rfl; exact c62_reflexive_symmetric.1 e
  refine ⟨key, fun hd hd' => key.trans ⟨fun h => by rw [h], c54_over_error_injective e e' hd hd'⟩⟩

/-- C62: an error of `get_bool` on an array of integers. -/
example : (OverError.typeMismatch .bool (.arr .int)).NoAny ∧ (OverError.typeMismatch .bool (.arr .int)).HasData ∧
    (Value.arr 1 .int [.int 1]).getBool = .error (.typeMismatch .bool (.arr .int)) := by
  refine ⟨⟨?_, ?_⟩, trivial, rfl⟩ <;> rw [← c04_has_any_iff] <;> decide

/-! ## C63 -/

private theorem unwrap_none {ε α : Type} (r : Except ε α) : unwrap r = none ↔ ∃ e, r = .error e := by
  cases r <;> simp [unwrap]

private theorem unwrap_some {ε α : Type} (r : Except ε α) (a : α) : unwrap r = some a ↔ r = .ok a := by
  cases r <;> simp [unwrap]

private theorem arrMacro_eq (id : Nat) (xs : List Native) : arrMacro id xs = unwrap (tryArrMacro id xs) := by
  cases xs <;> rfl

/-- C63: `arr!` panics exactly when two of its elements have types that are not equal. -/
theorem c63_arr_panics_iff (id : Nat) (xs : List Native) :
    arrMacro id xs = none ↔ ∃ x ∈ xs, ∃ y ∈ xs, (Value.ofNative x).getType.eq (Value.ofNative y).getType = false := by
  have h := c05_from_values_succeeds_iff id (xs.map Value.ofNative)
  rw [arrMacro_eq, unwrap_none]
  unfold tryArrMacro
  cases hr : Arr.fromValues id (xs.map Value.ofNative) with
  | ok a =>
    have h2 := h.1 ⟨a, hr⟩
    simp only [reduceCtorEq, exists_false, false_iff, not_exists, not_and, Bool.not_eq_false]
    exact fun x hx y hy => h2 _ (List.mem_map_of_mem hx) _ (List.mem_map_of_mem hy)
  | error e =>
    simp only [Except.error.injEq, exists_eq', true_iff]
    apply Classical.byContradiction
    intro hn
    simp only [not_exists, not_and, Bool.not_eq_false] at hn
    obtain ⟨a, ha⟩ := h.2 (by
      intro v hv w hw
      simp only [List.mem_map] at hv hw
      obtain ⟨x, hx, rfl⟩ := hv
      obtain ⟨y, hy, rfl⟩ := hw
      exact hn x hx y hy)
    rw [hr] at ha
    cases ha

/-- C63: otherwise `arr!` gives the array of the converted elements, in order, with their least common type. -/
theorem c63_arr_result (id : Nat) (xs : List Native) (a : Arr) (h : arrMacro id xs = some a) :
    a.values = xs.map Value.ofNative ∧ LeastCommonRefinement a.innerType (xs.map (fun x => (Value.ofNative x).getType)) := by
  rw [arrMacro_eq, unwrap_some] at h
  obtain ⟨h1, h2⟩ := c05_from_values_result id _ a h
  rw [List.map_map] at h2
  exact ⟨h1, h2⟩

/-- C63: `tup!` never panics and keeps the converted elements. -/
theorem c63_tup_result (id : Nat) (xs : List Native) :
    (tupMacro id xs).values = xs.map Value.ofNative ∧
    (tupMacro id xs).innerTypeVec = xs.map (fun x => (Value.ofNative x).getType) := by
  simp [tupMacro, Tup.fromValues, Tup.innerTypeVec, Function.comp_def]

/-- C63: `obj!` with no entries never panics; otherwise it panics exactly when `try_obj!` gives an error, and gives the
same object if not. -/
theorem c63_obj [Unicode] (id : Nat) (es : List (Str × Native)) :
    (objMacro id es = none ↔ ∃ e, tryObjMacro id es = .error e) ∧
    (∀ o, objMacro id es = some o ↔ tryObjMacro id es = .ok o) := by
  cases es with
  | nil => exact ⟨by simp [objMacro, tryObjMacro, tryObj, tryObjCollect, Obj.fromPairs, Obj.firstInvalid],
      fun o => by simp [objMacro, tryObjMacro, tryObj, tryObjCollect, Obj.fromPairs, Obj.firstInvalid, Obj.empty]⟩
  | cons e es => exact ⟨unwrap_none _, fun o => unwrap_some _ o⟩

/-- C63: `obj!` panics exactly when the last entry for `^` is not an object, or some other field name is not accepted. -/
theorem c63_obj_panics_iff [Unicode] (id : Nat) (es : List (Str × Native)) :
    objMacro id es = none ↔
      (∃ before x after, es = before ++ (c!"^", x) :: after ∧ (∀ e ∈ after, e.1 ≠ c!"^") ∧ ∀ o, x ≠ .obj o) ∨
      (∃ e ∈ es, e.1 ≠ c!"^" ∧ ¬ AcceptedName e.1) := by
  rw [(c63_obj id es).1]
  obtain ⟨c1, c2, c3⟩ := c15_try_obj id (es.map (fun e => (e.1, Value.ofNative e.2)))
  have hof : ∀ x : Native, (∀ o, x ≠ .obj o) ↔ ∀ q, Value.ofNative x ≠ .obj q := by
    intro x; cases x <;> simp [Value.ofNative, Value.ofInt, Arr.toValue, Tup.toValue]
  have hfields : ∀ par, (∃ e, Obj.fromPairs id (((es.map (fun e => (e.1, Value.ofNative e.2))).filter
      (fun e => decide (e.1 ≠ c!"^"))).map (fun e => Pair.mk e.1 e.2)) par = .error e) ↔
      ∃ e ∈ es, e.1 ≠ c!"^" ∧ ¬ AcceptedName e.1 := by
    intro par
    have h1 : ∀ ps : List Pair, (∃ e, Obj.fromPairs id ps par = .error e) ↔ ∃ p ∈ ps, ¬ AcceptedName p.field := by
      intro ps
      cases hr : Obj.fromPairs id ps par with
      | ok o =>
        have := ((c13_from_pairs_ok id ps par o).1 hr).1
        simp only [reduceCtorEq, exists_false, false_iff, not_exists, not_and, not_not]
        exact this
      | error e =>
        obtain ⟨before, f, v, after, rfl, -, hf, -⟩ := (c13_from_pairs_error id ps par e).1 hr
        simp only [Except.error.injEq, exists_eq', true_iff]
        exact ⟨.mk f v, by simp, hf⟩
    rw [h1]
    constructor
    · rintro ⟨p, hp, hn⟩
      simp only [List.mem_map, List.mem_filter, decide_eq_true_eq] at hp
      obtain ⟨_, ⟨⟨e, he, rfl⟩, hne⟩, rfl⟩ := hp
      exact ⟨e, he, hne, hn⟩
    · rintro ⟨e, he, hne, hn⟩
      refine ⟨.mk e.1 (.ofNative e.2), ?_, hn⟩
      simp only [List.mem_map, List.mem_filter, decide_eq_true_eq]
      exact ⟨_, ⟨⟨e, he, rfl⟩, hne⟩, rfl⟩
  unfold tryObjMacro
  by_cases hc : ∀ e ∈ es, e.1 ≠ c!"^"
  · have h0 : (es.map (fun e => (e.1, Value.ofNative e.2))).filter (fun e => decide (e.1 = c!"^")) = [] := by
      rw [List.filter_eq_nil_iff]
      intro e he
      simp only [List.mem_map] at he
      obtain ⟨e', he', rfl⟩ := he
      simpa using hc e' he'
    rw [c1 h0, hfields none]
    constructor
    · exact .inr
    · rintro (⟨before, x, after, rfl, -, -⟩ | h)
      · exact absurd rfl (hc (c!"^", x) (List.mem_append_right _ (List.mem_cons_self ..)))
      · exact h
  · obtain ⟨before, x, after, hes, hafter⟩ : ∃ before x after, es = before ++ (c!"^", x) :: after ∧ ∀ e ∈ after, e.1 ≠ c!"^" := by
      clear c1 c2 c3 hfields
      induction es with
      | nil => simp at hc
      | cons e es ih =>
        by_cases hc' : ∀ e ∈ es, e.1 ≠ c!"^"
        · refine ⟨[], e.2, es, ?_, hc'⟩
          have : e.1 = c!"^" := by
            apply Classical.byContradiction
            intro hn
            apply hc
            intro e' he'
            rcases List.mem_cons.1 he' with rfl | he'
            · exact hn
            · exact hc' e' he'
          obtain ⟨f, v⟩ := e
          simp only at this
          simp [this]
        · obtain ⟨b, x, a, rfl, h⟩ := ih hc'
          exact ⟨e :: b, x, a, rfl, h⟩
    have hlast : (es.map (fun e => (e.1, Value.ofNative e.2))).filter (fun e => decide (e.1 = c!"^")) =
        (before.map (fun e => (e.1, Value.ofNative e.2))).filter (fun e => decide (e.1 = c!"^")) ++
          [(c!"^", Value.ofNative x)] := by
      have h0 : (after.map (fun e => (e.1, Value.ofNative e.2))).filter (fun e => decide (e.1 = c!"^")) = [] := by
        rw [List.filter_eq_nil_iff]
        intro e he
        simp only [List.mem_map] at he
        obtain ⟨e', he', rfl⟩ := he
        simpa using hafter e' he'
      rw [hes, List.map_append, List.filter_append, List.map_cons, List.filter_cons_of_pos (by simp), h0]
    have hx : (∃ before x after, es = before ++ (c!"^", x) :: after ∧ (∀ e ∈ after, e.1 ≠ c!"^") ∧ ∀ o, x ≠ .obj o) ↔
        ∀ o, x ≠ .obj o := by
      constructor
      · rintro ⟨b', x', a', h1, h2, h3⟩
        have : x' = x := by
          rw [hes] at h1
          clear * - h1 h2 hafter
          induction before generalizing b' with
          | nil =>
            cases b' with
            | nil => simp at h1; exact h1.1.symm
            | cons e b' =>
              simp only [List.nil_append, List.cons_append, List.cons.injEq] at h1
              exact absurd rfl (hafter (c!"^", x') (by simp [h1.2]))
          | cons e before ih =>
            cases b' with
            | nil =>
              simp only [List.nil_append, List.cons_append, List.cons.injEq] at h1
              exact absurd rfl (h2 (c!"^", x) (by simp [← h1.2]))
            | cons e' b' =>
              simp only [List.cons_append, List.cons.injEq] at h1
              exact ih b' h1.2
        rw [← this]; exact h3
      · exact fun h => ⟨before, x, after, hes, hafter, h⟩
    rw [hx]
    by_cases ho : ∀ o, x ≠ .obj o
    · rw [c3 _ _ _ hlast ((hof x).1 ho)]
      simp [ho]
    · have : ∃ o, x = .obj o := by simpa using ho
      obtain ⟨o, rfl⟩ := this
      rw [c2 _ _ o hlast, hfields (some o)]
      simp

/-- C63: `frac!` panics exactly on a zero denominator; otherwise it is the quotient. -/
theorem c63_frac (a b : Int) :
    (fracMacro a b = none ↔ b = 0) ∧ (∀ q, fracMacro a b = some q ↔ b ≠ 0 ∧ q * (b : Rat) = (a : Rat)) := by
  unfold fracMacro
  by_cases h : b = 0
  · simp [h]
  · have hb : (b : Rat) ≠ 0 := by exact_mod_cast h
    simp only [h, if_false, reduceCtorEq, Option.some.injEq, ne_eq, not_false_eq_true, true_and]
    refine fun q => ?_
    rw [← Rat.intCast_div_eq_divInt, eq_comm, eq_div_iff hb]

/-- C63: `int!` keeps the number. -/
theorem c63_int (i : Int) : Value.ofNative (.bigInt (intMacro i)) = .int i := rfl

section
attribute [local instance] sampleUnicode

/-- C63: an array of numbers and strings panics; nested arrays of unknown element type do not. -/
example : arrMacro 1 [.machine ⟨true, 32⟩ 1, .strRef c!"c"] = none ∧
    arrMacro 3 [.arr ⟨1, .any, []⟩, .arr ⟨2, .int, [.int 1]⟩] =
      some ⟨3, .arr .int, [.arr 1 .any [], .arr 2 .int [.int 1]]⟩ ∧
    objMacro 2 [(c!"a b", .bool true)] = none ∧ objMacro 2 [(c!"^", .bool true)] = none ∧
    objMacro 2 [(c!"^", .bool true), (c!"a", .bool true), (c!"^", .obj (.mk 1 [] none))] =
      some (.mk 2 [.mk c!"a" (.bool true)] (some (.mk 1 [] none))) := by
  refine ⟨rfl, rfl, ?_, ?_, ?_⟩ <;> rfl

end

end Over
