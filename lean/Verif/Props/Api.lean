import Verif.Lemmas.Session
import Verif.Props.Writing
import Verif.Spec.Sample
import Verif.Spec.Concrete
import Verif.Props.Convert
import Verif.Props.Include

/-!
# C73, C74 (and parts of C07, C12): programs that use the interface
-/

namespace Over

section
variable [Unicode]

/-! ## C73 -/

section
variable (s₀ s : Session) (h₀ : s₀.pool = []) (hf : s₀.shared.Fine) (h : Calls s₀ s)
include h₀ hf h

/-- C73: every array in every value a program gets hold of, by any history of calls, has the least common refinement of its elements'
types as inner type, and every tuple its elements' types. -/
theorem c73_well_typed (v : Value) (hv : v ∈ s.pool) : WellTyped v := by
  obtain ⟨r, -, h2⟩ := h.keeps (sessionOk_start h₀ hf)
  exact (h2 v hv).typed

/-- C73: every field name of every object in it is accepted by `is_valid_field`. -/
theorem c73_valid_names (v : Value) (hv : v ∈ s.pool) (o : Obj) (ho : .obj o ∈ v.containers) (p : Pair) (hp : p ∈ o.pairs) :
    isValidField p.field = true := by
  obtain ⟨r, -, h2⟩ := h.keeps (sessionOk_start h₀ hf)
  exact (c13_is_valid_field_iff _).2 ((h2 v hv).names o ho p hp)

/-- C73: two containers, wherever the program finds them, with the same id are the same container. -/
theorem c73_same_id_same_container (v w : Value) (hv : v ∈ s.pool) (hw : w ∈ s.pool) (c d : Value) (hc : c ∈ v.containers)
    (hd : d ∈ w.containers) (e : c.cid = d.cid) : c = d := by
  obtain ⟨r, -, h2⟩ := h.keeps (sessionOk_start h₀ hf)
  have e1 := (h2 v hv).reg c hc
  rw [e, (h2 w hw).reg d hd] at e1
  exact (Option.some.inj e1).symm

/-- C73: no id of a container in use will be given out again. -/
theorem c73_ids_in_use (v : Value) (hv : v ∈ s.pool) (c : Value) (hc : c ∈ v.containers) : c.cid < s.shared.curId := by
  obtain ⟨r, h1, h2⟩ := h.keeps (sessionOk_start h₀ hf)
  exact (h1.cid _ _ ((h2 v hv).reg c hc)).2

/-- C73: a container is newer than everything in it: values are finite and never cyclic. -/
theorem c73_contents_are_older (v : Value) (hv : v ∈ s.pool) (c : Value) (hc : c ∈ v.containers) (d : Value)
    (hd : d ∈ c.containers.tail) : d.cid < c.cid := by
  obtain ⟨r, h1, h2⟩ := h.keeps (sessionOk_start h₀ hf)
  exact h1.older _ _ ((h2 v hv).reg c hc) d hd

/-- C73: so for a program `==` is equality of data (an equivalence relation). -/
theorem c73_equality (v w : Value) (hv : v ∈ s.pool) (hw : w ∈ s.pool) : v.eq w = true ↔ v.data = w.data :=
  c09_value_eq_iff v w (c73_well_typed s₀ s h₀ hf h v hv) (c73_well_typed s₀ s h₀ hf h w hw)

/-- C73: `==` is transitive on what the program has (it is not for all values, C09). -/
theorem c73_equality_transitive (u v w : Value) (hu : u ∈ s.pool) (hv : v ∈ s.pool) (hw : w ∈ s.pool) (h1 : u.eq v = true)
    (h2 : v.eq w = true) : u.eq w = true := by
  rw [c73_equality s₀ s h₀ hf h] at h1 h2 ⊢ <;> try assumption
  exact h1.trans h2

/-- C73: objects that are `ptr_eq` are `==` and are written alike. -/
theorem c73_ptr_eq (o p : Obj) (ho : .obj o ∈ s.pool) (hp : .obj p ∈ s.pool) (e : o.ptrEq p = true) :
    o.eq p = true ∧ o.writeToString = p.writeToString := by
  have : (Value.obj o) = .obj p := by
    refine c73_same_id_same_container s₀ s h₀ hf h _ _ ho hp _ _ ?_ ?_ (by simpa [Obj.ptrEq, Value.cid] using e)
    · obtain ⟨i, ps, par⟩ := o; simp [Value.containers, Obj.containers]
    · obtain ⟨i, ps, par⟩ := p; simp [Value.containers, Obj.containers]
  cases this
  exact ⟨c09_reflexive_symmetric_always.2.2.1 o, rfl⟩

/-- C73: equal objects are written alike. -/
theorem c73_equal_written_alike (o p : Obj) (ho : .obj o ∈ s.pool) (hp : .obj p ∈ s.pool) (e : o.eq p = true) :
    o.writeToString = p.writeToString := by
  have h1 := c73_well_typed s₀ s h₀ hf h _ ho
  have h2 := c73_well_typed s₀ s h₀ hf h _ hp
  cases h1 with | obj h1 => cases h2 with | obj h2 => exact c20_equal_written_alike o p h1 h2 e

end

/-! ## C74 -/

/-- C74: `Obj::from_str` returns an object or a `ParseError` with the parser's message; it never returns another variant and never
panics. -/
theorem c74_from_str (fs : FS) (text : Str) (rt : Rt) :
    (∃ o s, fromStr fs text rt = .ok o s ∧ Obj.fromStrApi fs text rt = .returns (.ok o)) ∨
      ∃ e, fromStr fs text rt = .err e ∧ Obj.fromStrApi fs text rt = .returns (.error (.parseError e.display)) := by
  unfold Obj.fromStrApi
  cases h : fromStr fs text rt with
  | ok o s => exact .inl ⟨o, s, rfl, rfl⟩
  | err e => exact .inr ⟨e, rfl, rfl⟩
  | panic => exact absurd h (c24_from_str_no_panic fs text rt)
  | oof => exact absurd h (c23_from_str_terminates fs text rt)

/-- C74: `Obj::from_file` likewise, except that it can panic when the canonical path of the file is not UTF-8. -/
theorem c74_from_file (fs : FS) (path : Str) (rt : Rt) :
    (∃ o s, fromFile fs path rt = .ok o s ∧ Obj.fromFileApi fs path rt = .returns (.ok o)) ∨
      (∃ e, fromFile fs path rt = .err e ∧ Obj.fromFileApi fs path rt = .returns (.error (.parseError e.display))) ∨
      ∃ c, fs.resolve path = some c ∧ fs.utf8 c = false ∧ Obj.fromFileApi fs path rt = .panics := by
  unfold Obj.fromFileApi
  cases h : fromFile fs path rt with
  | ok o s => exact .inl ⟨o, s, rfl, rfl⟩
  | err e => exact .inr (.inl ⟨e, rfl, rfl⟩)
  | panic =>
    refine .inr (.inr ?_)
    by_cases hu : ∃ c, fs.resolve path = some c ∧ fs.utf8 c = false
    · obtain ⟨c, h1, h2⟩ := hu
      exact ⟨c, h1, h2, rfl⟩
    · refine absurd h (c24_from_file_no_panic fs path rt ?_)
      intro c hc
      cases hb : fs.utf8 c with
      | true => rfl
      | false => exact (hu ⟨c, hc, hb⟩).elim
  | oof => exact absurd h (c23_from_file_terminates fs path rt)

/-- C74: a file that cannot be read is a `ParseError` (not an `IoError`), and its message is the one of the operating system alone, without
the path. -/
theorem c74_unreadable_file (fs : FS) (path msg : Str) (rt : Rt) (h : fs.read path = .error msg) :
    Obj.fromFileApi fs path rt = .returns (.error (.parseError msg)) := by
  simp [Obj.fromFileApi, fromFile, h, Res.toOutcome, ParseError.toOver, ParseError.display, Kind.display]

omit [Unicode] in
/-- C74: a file that cannot be written is an `IoError`. -/
theorem c74_unwritable_file (o : Obj) (fs fs' : FS) (path : Str) (r : Except OverError Unit) (h : o.WriteToFile fs path (some r) fs') :
    r = .ok () ∨ ∃ msg, r = .error (.ioError msg) := by
  cases h with
  | ok _ _ => exact .inl rfl
  | err _ _ => exact .inr ⟨_, rfl⟩

/-- C74: the variants that the other functions can return. -/
theorem c74_variants :
    (∀ id vs e, Arr.fromValues id vs = .error e → ∃ t u, e = .arrTypeMismatch t u) ∧
    (∀ (a : Arr) i e, a.get i = some (.error e) → e = .arrOutOfBounds i) ∧
    (∀ (t : Tup) i e, t.get i = some (.error e) → e = .tupOutOfBounds i) ∧
    (∀ id ps par e, Obj.fromPairs id ps par = .error e → ∃ f, e = .invalidFieldName f) ∧
    (∀ id es e, tryObj id es = .error e → (∃ f, e = .invalidFieldName f) ∨ ∃ t, e = .typeMismatch .obj t) ∧
    (∀ (v : Value) e, v.getBool = .error e → e = .typeMismatch .bool v.getType) ∧
    (∀ (v : Value) e, v.getInt = .error e → e = .typeMismatch .int v.getType) ∧
    (∀ (v : Value) e, v.getFrac = .error e → e = .typeMismatch .frac v.getType) ∧
    (∀ (v : Value) e, v.getStr = .error e → e = .typeMismatch .str v.getType) ∧
    (∀ (v : Value) e, v.getArr = .error e → e = .typeMismatch (.arr .any) v.getType) ∧
    (∀ (v : Value) e, v.getTup = .error e → e = .typeMismatch (.tup []) v.getType) ∧
    (∀ (v : Value) e, v.getObj = .error e → e = .typeMismatch .obj v.getType) := by
  refine ⟨?_, ?_, ?_, ?_, ?_, ?_, ?_, ?_, ?_, ?_, ?_, ?_⟩
  · intro id vs e h
    have : ∀ (vs : List Value) t b e, Arr.checkTypes t b vs = .error e → ∃ t u, e = .arrTypeMismatch t u := by
      intro vs
      induction vs with
      | nil => intro t b e h; cases h
      | cons v vs ih =>
        intro t b e h
        simp only [Arr.checkTypes] at h
        split at h
        · cases h; exact ⟨_, _, rfl⟩
        · exact ih _ _ _ h
    unfold Arr.fromValues at h
    split at h
    · rename_i h'
      cases h
      exact this _ _ _ _ h'
    · cases h
  · intro a i e h
    by_cases hi : i < a.len
    · rw [(c07_arr_get a i).1 hi] at h; cases h
    · rw [(c07_arr_get a i).2 (Nat.le_of_not_lt hi)] at h; cases h; rfl
  · intro a i e h
    by_cases hi : i < a.len
    · rw [(c07_tup_get a i).1 hi] at h; cases h
    · rw [(c07_tup_get a i).2 (Nat.le_of_not_lt hi)] at h; cases h; rfl
  · intro id ps par e h
    obtain ⟨_, f, _, _, _, _, _, rfl⟩ := (c13_from_pairs_error id ps par e).1 h
    exact ⟨f, rfl⟩
  · intro id es e h
    have key : ∀ ps par, Obj.fromPairs id ps par = .error e → ∃ f, e = .invalidFieldName f := by
      intro ps par h
      obtain ⟨_, f, _, _, _, _, _, rfl⟩ := (c13_from_pairs_error id ps par e).1 h
      exact ⟨f, rfl⟩
    unfold tryObj at h
    split at h
    · rename_i v _
      cases v <;> simp only [Value.getObj] at h
      case obj q => exact .inl (key _ _ h)
      all_goals (cases h; exact .inr ⟨_, rfl⟩)
    · exact .inl (key _ _ h)
  all_goals
    intro v e h
    cases v <;> cases h <;> rfl

omit [Unicode] in
/-- C74: a typed getter of an object fails with `FieldNotFound` exactly when neither the object nor a parent has the field, and otherwise
with the error of the value's getter. -/
theorem c74_field_errors {α : Type} (getter : Value → Except OverError α) (hg : ∀ v f, getter v ≠ .error (.fieldNotFound f)) (o : Obj) (f : Str) :
    (Obj.getTyped getter o f = .error (.fieldNotFound f) ↔ o.get f = none) ∧
    ∀ v, o.get f = some v → Obj.getTyped getter o f = getter v := by
  unfold Obj.getTyped
  constructor
  · cases h : o.get f with
    | none => simp
    | some v =>
      simp only [reduceCtorEq, iff_false]
      cases hv : getter v with
      | ok a => simp
      | error e =>
        simp only [Except.error.injEq]
        rintro rfl
        exact hg v f hv
  · intro v hv
    rw [hv]
    cases hv' : getter v <;> simp only [hv']

/-! ## Iterators and defaults -/

omit [Unicode] in
/-- C07: the iterator of an array yields the values that `get` returns, in this order. -/
theorem c07_arr_iter (a : Arr) : a.iter.length = a.len ∧ ∀ (i : Nat) v, a.iter[i]? = some v ↔ a.get i = some (.ok v) := by
  refine ⟨rfl, ?_⟩
  intro i v
  by_cases hi : i < a.len
  · rw [(c07_arr_get a i).1 hi]
    have : a.iter[i]? = some (a.values[i]'hi) := List.getElem?_eq_getElem hi
    rw [this]
    simp
  · rw [(c07_arr_get a i).2 (Nat.le_of_not_lt hi)]
    have : a.iter[i]? = none := List.getElem?_eq_none (Nat.le_of_not_lt hi)
    rw [this]
    simp

omit [Unicode] in
/-- C07: the same for tuples. -/
theorem c07_tup_iter (a : Tup) : a.iter.length = a.len ∧ ∀ (i : Nat) v, a.iter[i]? = some v ↔ a.get i = some (.ok v) := by
  refine ⟨rfl, ?_⟩
  intro i v
  by_cases hi : i < a.len
  · rw [(c07_tup_get a i).1 hi]
    have : a.iter[i]? = some (a.values[i]'hi) := List.getElem?_eq_getElem hi
    rw [this]
    simp
  · rw [(c07_tup_get a i).2 (Nat.le_of_not_lt hi)]
    have : a.iter[i]? = none := List.getElem?_eq_none (Nat.le_of_not_lt hi)
    rw [this]
    simp

omit [Unicode] in
/-- C07: the defaults are empty and take the new id, and `try_from`/`from` of vectors are `from_values`. -/
theorem c07_defaults (id : Nat) :
    ((Arr.default id).len = 0 ∧ (Tup.default id).len = 0 ∧ (Obj.default id).len = 0 ∧ (Obj.default id).hasParent = false) ∧
    ((Arr.default id).id = id ∧ (Tup.default id).id = id ∧ (Obj.default id).id = id) ∧
    (Arr.fromValues id [] = .ok (Arr.default id)) ∧ Tup.fromValues id [] = Tup.default id ∧
    ∀ vs, Arr.tryFromVec id vs = Arr.fromValues id vs ∧ Tup.fromVec id vs = Tup.fromValues id vs :=
  ⟨⟨rfl, rfl, rfl, rfl⟩, ⟨rfl, rfl, rfl⟩, rfl, rfl, fun _ => ⟨rfl, rfl⟩⟩

omit [Unicode] in
/-- C12: … in the order in which they were given when the object was built (without the fields of the parent). -/
theorem c12_iter_in_order (id : Nat) (ps : List Pair) (par : Option Obj) : (Obj.mk id ps par).iter = ps := rfl

omit [Unicode] in
/-- C12: the iterator of an object yields its own fields: when no name is repeated, a pair is yielded exactly when the object contains the field
and `get` returns the value. -/
theorem c12_iter (o : Obj) (hn : (o.pairs.map Pair.field).Nodup) (f : Str) (v : Value) :
    Pair.mk f v ∈ o.iter ↔ o.contains f = true ∧ o.get f = some v := by
  obtain ⟨id, ps, par⟩ := o
  rw [(c12_own_fields id ps par f).1]
  simp only [Obj.iter, Obj.pairs] at hn ⊢
  have key : ∀ w, Pair.mk f w ∈ ps → (Obj.mk id ps par).get f = some w := by
    intro w hw
    have hfind : findPair ps f = some (.mk f w) := by
      clear par
      unfold findPair
      induction ps with
      | nil => simp at hw
      | cons p ps ih =>
        simp only [List.map_cons, List.nodup_cons] at hn
        rcases List.mem_cons.1 hw with rfl | hw
        · simp [Pair.field]
        · have hne : (p.field == f) = false := by
            rw [beq_eq_false_iff_ne]
            rintro rfl
            exact hn.1 (List.mem_map.2 ⟨_, hw, rfl⟩)
          rw [List.find?_cons, hne]
          exact ih hn.2 hw
    simp [Obj.get, hfind, Pair.value]
  constructor
  · intro h
    exact ⟨⟨v, h⟩, key v h⟩
  · rintro ⟨⟨w, hw⟩, hv⟩
    rw [key w hw] at hv
    cases hv
    exact hw

end

/-! ## Concrete cases -/

section
attribute [local instance] sampleUnicode

/-- A program that builds `[1]`, reads `a: [1]`, gets `a`, and puts both arrays into a tuple. -/
theorem sampleSession : ∃ s, Calls ⟨startRt.toShared, []⟩ s ∧ s.pool =
    [.tup 3 [.arr .int, .arr .int] [.arr 1 .int [.int 1], .arr 0 .int [.int 1]], .arr 1 .int [.int 1],
      .obj (.mk 2 [.mk c!"a" (.arr 1 .int [.int 1])] none), .arr 0 .int [.int 1], .int 1] := by
  let rt1 : Rt := ⟨⟨1, none, none, none, none⟩, 0, fun _ s => s, fun _ s => Shared.MovesOn.refl s⟩
  obtain ⟨st, hst⟩ : ∃ st, fromStr noFiles c!"a: [1]" rt1 = .ok (.mk 2 [.mk c!"a" (.arr 1 .int [.int 1])] none) st :=
    Res.gives_ok (by decide +kernel)
  have hcur : st.rt.curId = 3 := by
    have h : (match fromStr noFiles c!"a: [1]" rt1 with | .ok _ st => st.rt.curId | _ => 0) = 3 := by decide +kernel
    rw [hst] at h
    exact h
  have c1 := (Calls.none ⟨startRt.toShared, []⟩).more (.int 1)
  have c2 := c1.more (.arr (vs := [.int 1]) (a := ⟨0, .int, [.int 1]⟩) (by simp [Session.got]) rfl)
  have c3 := c2.more (.fromStr (rt := rt1) rfl hst)
  have c4 := c3.more (.objGet (o := .mk 2 [.mk c!"a" (.arr 1 .int [.int 1])] none) (f := c!"a") (by simp) rfl)
  have c5 := c4.more (.tup (vs := [.arr 1 .int [.int 1], .arr 0 .int [.int 1]])
    (by
      intro v hv
      simp only [List.mem_cons, List.not_mem_nil, or_false] at hv
      rcases hv with rfl | rfl
      · exact List.mem_cons_self
      · exact List.mem_cons_of_mem _ (List.mem_cons_of_mem _ List.mem_cons_self)))
  refine ⟨_, c5, ?_⟩
  simp only [Session.made, Session.got, hcur, Tup.fromValues, Tup.toValue, Arr.toValue]
  rfl

/-- In that session the two arrays are equal, and different containers. -/
example : ∃ s, Calls ⟨startRt.toShared, []⟩ s ∧ ∃ v ∈ s.pool, ∃ w ∈ s.pool, v.eq w = true ∧ v.cid ≠ w.cid ∧ WellTyped v := by
  obtain ⟨s, h, hp⟩ := sampleSession
  refine ⟨s, h, .arr 1 .int [.int 1], by simp [hp], .arr 0 .int [.int 1], by simp [hp], ?_, by decide, ?_⟩
  · rw [c73_equality ⟨startRt.toShared, []⟩ s rfl startRt_fine h (.arr 1 .int [.int 1]) (.arr 0 .int [.int 1]) (by simp [hp]) (by simp [hp])]
    rfl
  · exact c73_well_typed ⟨startRt.toShared, []⟩ s rfl startRt_fine h _ (by simp [hp])

/-- A missing file. -/
example : Obj.fromFileApi noFiles c!"x.over" startRt = .returns (.error (.parseError c!"No such file or directory (os error 2)")) :=
  c74_unreadable_file _ _ _ _ rfl

/-- A typed getter that satisfies the hypothesis of `c74_field_errors`. -/
example (o : Obj) : (o.getInt c!"a" = .error (.fieldNotFound c!"a") ↔ o.get c!"a" = none) :=
  (c74_field_errors Value.getInt (by intro v f; cases v <;> simp [Value.getInt]) o c!"a").1

/-- An object that satisfies the hypothesis of `c12_iter`. -/
example : Pair.mk c!"b" (.int 2) ∈ (Obj.mk 0 [.mk c!"a" (.int 1), .mk c!"b" (.int 2)] none).iter :=
  (c12_iter _ (by decide) _ _).2 ⟨rfl, rfl⟩

end
end Over
