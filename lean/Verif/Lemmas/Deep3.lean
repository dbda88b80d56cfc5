import Verif.Lemmas.Deep2
import Verif.Lemmas.Closed
import Verif.Spec.Names

/-! # Equality up to the order of fields -/

namespace Over

theorem fieldIn_cons (n : Str) (v : Value) (ps : List Pair) (x : Str) : fieldIn (.mk n v :: ps) x = if n = x then some v else fieldIn ps x := by
  unfold fieldIn
  rw [List.find?_cons]
  by_cases h : n = x
  · rw [if_pos h, beq_iff_eq.2 (show Pair.field (.mk n v) = x from h)]; rfl
  · rw [if_neg h, beq_eq_false_iff_ne.2 (show Pair.field (.mk n v) ≠ x from h)]

theorem fieldIn_mem {ps : List Pair} {x : Str} {v : Value} (h : fieldIn ps x = some v) : ∃ p ∈ ps, p.field = x ∧ p.value = v := by
  unfold fieldIn at h
  obtain ⟨p, h1, h2⟩ := Option.map_eq_some_iff.1 h
  exact ⟨p, List.mem_of_find?_eq_some h1, by simpa using List.find?_some h1, h2⟩

theorem nrm_fields {f : Nat → Nat} {ps ps' : List Pair} (h : Pair.nrmL f ps = Pair.nrmL f ps') (x : Str) :
    (fieldIn ps x = none ∧ fieldIn ps' x = none) ∨ ∃ v v', fieldIn ps x = some v ∧ fieldIn ps' x = some v' ∧ v.nrm f = v'.nrm f := by
  have h1 := congrFun h x
  rw [nrmL_fieldIn, nrmL_fieldIn] at h1
  cases h2 : fieldIn ps x <;> cases h3 : fieldIn ps' x <;> rw [h2, h3] at h1 <;> simp only [Option.map_none, Option.map_some, reduceCtorEq, Option.some.injEq] at h1
  · exact .inl ⟨rfl, rfl⟩
  · exact .inr ⟨_, _, rfl, rfl, h1⟩

section
variable {f g : Nat → Nat}

theorem nrmP_inv {p p' : Option Obj} (h : Obj.nrmP f p = Obj.nrmP f p') : (p = none ∧ p' = none) ∨ ∃ o o', p = some o ∧ p' = some o' ∧ o.nrm f = o'.nrm f := by
  cases p <;> cases p' <;> simp only [Obj.nrmP, reduceCtorEq, Option.some.injEq] at h
  · exact .inl ⟨rfl, rfl⟩
  · exact .inr ⟨_, _, rfl, rfl, h⟩

/-- The forms of values that are the same but for ids and the order of fields. -/
inductive NrmForm (f : Nat → Nat) : Value → Value → Prop
  | null : NrmForm f .null .null
  | bool (b : Bool) : NrmForm f (.bool b) (.bool b)
  | int (i : Int) : NrmForm f (.int i) (.int i)
  | frac (q : Rat) : NrmForm f (.frac q) (.frac q)
  | str (s : Str) : NrmForm f (.str s) (.str s)
  | arr (i i' : Nat) (t : Ty) (vs vs' : List Value) : Value.nrmL f vs = Value.nrmL f vs' → NrmForm f (.arr i t vs) (.arr i' t vs')
  | tup (i i' : Nat) (t : List Ty) (vs vs' : List Value) : Value.nrmL f vs = Value.nrmL f vs' → NrmForm f (.tup i t vs) (.tup i' t vs')
  | obj (o o' : Obj) : o.nrm f = o'.nrm f → NrmForm f (.obj o) (.obj o')

theorem nrm_form {v v' : Value} (h : v.nrm f = v'.nrm f) : NrmForm f v v' := by
  have hobj := Deep.nrm_isObj f
  cases v <;> cases v' <;> simp only [Value.nrm, reduceCtorEq, NV.bool.injEq, NV.int.injEq, NV.frac.injEq,
    NV.str.injEq, NV.arr.injEq, NV.tup.injEq] at h <;> try subst h
  all_goals first
    | (obtain ⟨h1, rfl, h2⟩ := h; constructor; exact h2)
    | (constructor; exact h)
    | constructor
    | skip
  all_goals (rename_i o; first
    | (obtain ⟨i, g, p, e⟩ := hobj o; rw [e] at h; cases h)
    | (rename_i o'; obtain ⟨i, g, p, e⟩ := hobj o'; rw [e] at h; cases h)
    | (rename_i o' _ _; obtain ⟨i, g, p, e⟩ := hobj o'; rw [e] at h; cases h))

mutual
theorem nrm_ids : ∀ (v w : Value), v.nrm f = w.nrm f → v.nrm (fun _ => 0) = w.nrm (fun _ => 0)
  | .null, w, h => by cases nrm_form h; rfl
  | .bool _, w, h => by cases nrm_form h; rfl
  | .int _, w, h => by cases nrm_form h; rfl
  | .frac _, w, h => by cases nrm_form h; rfl
  | .str _, w, h => by cases nrm_form h; rfl
  | .arr i t vs, w, h => by
    cases nrm_form h with
    | arr _ _ _ _ _ h1 => simp only [Value.nrm, nrmL_ids vs _ h1]
  | .tup i t vs, w, h => by
    cases nrm_form h with
    | tup _ _ _ _ _ h1 => simp only [Value.nrm, nrmL_ids vs _ h1]
  | .obj o, w, h => by
    cases nrm_form h with
    | obj _ _ h1 => simp only [Value.nrm, nrmObj_ids o _ h1]
termination_by structural v => v
theorem nrmL_ids : ∀ (v w : List Value), Value.nrmL f v = Value.nrmL f w → Value.nrmL (fun _ => 0) v = Value.nrmL (fun _ => 0) w
  | [], [], _ => rfl
  | [], _ :: _, h => by simp [Value.nrmL] at h
  | _ :: _, [], h => by simp [Value.nrmL] at h
  | v :: r, w :: q, h => by
    simp only [Value.nrmL, List.cons.injEq] at h ⊢
    exact ⟨nrm_ids v w h.1, nrmL_ids r q h.2⟩
termination_by structural v => v
theorem nrmPairs_ids : ∀ (ps : List Pair) (x : Str) (v w : Value), fieldIn ps x = some v → v.nrm f = w.nrm f → v.nrm (fun _ => 0) = w.nrm (fun _ => 0)
  | [], x, v, w, h, _ => by simp [fieldIn] at h
  | .mk n u :: ps, x, v, w, h, h' => by
    rw [fieldIn_cons] at h
    split at h
    · cases h; exact nrm_ids u w h'
    · exact nrmPairs_ids ps x v w h h'
termination_by structural v => v
theorem nrmP_ids : ∀ (v w : Option Obj), Obj.nrmP f v = Obj.nrmP f w → Obj.nrmP (fun _ => 0) v = Obj.nrmP (fun _ => 0) w
  | none, none, _ => rfl
  | none, some _, h => by simp [Obj.nrmP] at h
  | some _, none, h => by simp [Obj.nrmP] at h
  | some o, some q, h => by
    simp only [Obj.nrmP, Option.some.injEq] at h ⊢
    exact nrmObj_ids o q h
termination_by structural v => v
theorem nrmObj_ids : ∀ (v w : Obj), v.nrm f = w.nrm f → v.nrm (fun _ => 0) = w.nrm (fun _ => 0)
  | .mk i ps par, .mk i' ps' par', h => by
    simp only [Obj.nrm, NV.obj.injEq] at h ⊢
    refine ⟨trivial, ?_, nrmP_ids par par' h.2.2⟩
    funext x
    rw [nrmL_fieldIn, nrmL_fieldIn]
    rcases nrm_fields h.2.1 x with ⟨h1, h2⟩ | ⟨v, v', h1, h2, h3⟩
    · rw [h1, h2]
    · rw [h1, h2, Option.map_some, Option.map_some, nrmPairs_ids ps x v v' h1 h3]
termination_by structural v => v
end

theorem nrm_data (o : Obj) : o.data.nrm (fun _ => 0) = o.nrm (fun _ => 0) := by
  rw [← Obj.data_mapIds, nrmObj_mapIds]
  rfl

theorem perm_names [Unicode] {ps ps' : List Pair} (h : Pair.nrmL f ps = Pair.nrmL f ps') (hn : (ps.map Pair.field).Nodup)
    (hn' : (ps'.map Pair.field).Nodup) : (ps.map Pair.field).Perm (ps'.map Pair.field) := by
  rw [List.perm_ext_iff_of_nodup hn hn']
  intro x
  rw [← not_iff_not, ← fieldIn_none, ← fieldIn_none]
  rcases nrm_fields h x with ⟨h1, h2⟩ | ⟨v, v', h1, h2, -⟩
  · rw [h1, h2]
  · rw [h1, h2]; simp

variable [Unicode]

mutual
theorem equal_of_nrm : ∀ (v w : Value), v.nrm f = w.nrm f → NamesOk v → NamesOk w → v.EqualButOrder w
  | .null, w, h, _, _ => by cases nrm_form h; constructor
  | .bool _, w, h, _, _ => by cases nrm_form h; constructor
  | .int _, w, h, _, _ => by cases nrm_form h; constructor
  | .frac _, w, h, _, _ => by cases nrm_form h; constructor
  | .str _, w, h, _, _ => by cases nrm_form h; constructor
  | .arr i t vs, w, h, hn, hn' => by
    cases nrm_form h with
    | arr _ _ _ _ _ h1 => cases hn with | arr a => cases hn' with | arr b => exact .arr _ _ _ (equalL_of_nrm vs _ h1 a b)
  | .tup i t vs, w, h, hn, hn' => by
    cases nrm_form h with
    | tup _ _ _ _ _ h1 => cases hn with | tup a => cases hn' with | tup b => exact .tup _ _ _ (equalL_of_nrm vs _ h1 a b)
  | .obj o, w, h, hn, hn' => by
    cases nrm_form h with
    | obj _ _ h1 => cases hn with | obj a => cases hn' with | obj b => exact .obj (equalObj_of_nrm o _ h1 a b)
termination_by structural v => v
theorem equalL_of_nrm : ∀ (v w : List Value), Value.nrmL f v = Value.nrmL f w → (∀ x ∈ v, NamesOk x) → (∀ x ∈ w, NamesOk x) → Value.EqualButOrderL v w
  | [], [], _, _, _ => .nil
  | [], _ :: _, h, _, _ => by simp [Value.nrmL] at h
  | _ :: _, [], h, _, _ => by simp [Value.nrmL] at h
  | v :: r, w :: q, h, hn, hn' => by
    simp only [Value.nrmL, List.cons.injEq] at h
    exact .cons (equal_of_nrm v w h.1 (hn _ List.mem_cons_self) (hn' _ List.mem_cons_self))
      (equalL_of_nrm r q h.2 (fun x hx => hn x (List.mem_cons_of_mem _ hx)) (fun x hx => hn' x (List.mem_cons_of_mem _ hx)))
termination_by structural v => v
theorem equalPairs_of_nrm : ∀ (ps : List Pair) (x : Str) (v w : Value), fieldIn ps x = some v → v.nrm f = w.nrm f → NamesOk v → NamesOk w → v.EqualButOrder w
  | [], x, v, w, h, _, _, _ => by simp [fieldIn] at h
  | .mk n u :: ps, x, v, w, h, h', hn, hn' => by
    rw [fieldIn_cons] at h
    split at h
    · cases h; exact equal_of_nrm u w h' hn hn'
    · exact equalPairs_of_nrm ps x v w h h' hn hn'
termination_by structural v => v
theorem equalO_of_nrm : ∀ (v w : Option Obj), Obj.nrmP f v = Obj.nrmP f w → (∀ q, v = some q → NamesOkObj q) → (∀ q, w = some q → NamesOkObj q) →
    Obj.EqualButOrderO v w
  | none, none, _, _, _ => .none
  | none, some _, h, _, _ => by simp [Obj.nrmP] at h
  | some _, none, h, _, _ => by simp [Obj.nrmP] at h
  | some o, some q, h, hn, hn' => by
    simp only [Obj.nrmP, Option.some.injEq] at h
    exact .some (equalObj_of_nrm o q h (hn _ rfl) (hn' _ rfl))
termination_by structural v => v
theorem equalObj_of_nrm : ∀ (v w : Obj), v.nrm f = w.nrm f → NamesOkObj v → NamesOkObj w → v.EqualButOrder w
  | .mk i ps par, .mk i' ps' par', h, hn, hn' => by
    simp only [Obj.nrm, NV.obj.injEq] at h
    cases hn with | mk a1 a2 a3 a4 => cases hn' with | mk b1 b2 b3 b4 =>
    refine .mk _ _ (perm_names h.2.1 a2 b2) (fun x v v' hv hv' => ?_) (equalO_of_nrm par par' h.2.2 a4 b4)
    rcases nrm_fields h.2.1 x with ⟨h1, h2⟩ | ⟨u, u', h1, h2, h3⟩
    · rw [h1] at hv; cases hv
    · rw [hv] at h1; rw [hv'] at h2
      cases h1; cases h2
      obtain ⟨p, p1, -, p2⟩ := fieldIn_mem hv
      obtain ⟨p', p1', -, p2'⟩ := fieldIn_mem hv'
      exact equalPairs_of_nrm ps x v v' hv h3 (p2 ▸ a3 p p1) (p2' ▸ b3 p' p1')
termination_by structural v => v
end

end

end Over
