import Verif.Lemmas.WriteEval

/-! # Properties that depend on the data only; injectivity of trees -/

namespace Over

theorem wellTyped_data :
    (∀ v : Value, WellTyped v.data ↔ WellTyped v) ∧ (∀ o : Obj, WellTypedObj o.data ↔ WellTypedObj o) := by
  have hm : ∀ vs : List Value, (vs.map Value.data).map Value.getType = vs.map Value.getType := by
    intro vs; simp only [List.map_map]; exact List.map_congr_left (fun v _ => Value.data_getType v)
  apply Value.ind (mv := fun v => WellTyped v.data ↔ WellTyped v) (mo := fun o => WellTypedObj o.data ↔ WellTypedObj o)
  · exact Iff.rfl
  · intro b; exact Iff.rfl
  · intro b; exact Iff.rfl
  · intro b; exact Iff.rfl
  · intro b; exact Iff.rfl
  · intro id t vs ih
    simp only [Value.data, Value.dataL_eq]
    constructor
    · rintro (_ | _ | _ | _ | _ | ⟨h1, h2⟩)
      rw [hm] at h2
      exact .arr (fun v hv => (ih v hv).1 (h1 _ (List.mem_map_of_mem hv))) h2
    · rintro (_ | _ | _ | _ | _ | ⟨h1, h2⟩)
      refine .arr ?_ (by rw [hm]; exact h2)
      intro v hv
      obtain ⟨w, hw, rfl⟩ := List.mem_map.1 hv
      exact (ih w hw).2 (h1 w hw)
  · intro id t vs ih
    simp only [Value.data, Value.dataL_eq]
    constructor
    · rintro (_ | _ | _ | _ | _ | _ | ⟨h1, h2⟩)
      rw [hm] at h2
      exact .tup (fun v hv => (ih v hv).1 (h1 _ (List.mem_map_of_mem hv))) h2
    · rintro (_ | _ | _ | _ | _ | _ | ⟨h1, h2⟩)
      refine .tup ?_ (by rw [hm]; exact h2)
      intro v hv
      obtain ⟨w, hw, rfl⟩ := List.mem_map.1 hv
      exact (ih w hw).2 (h1 w hw)
  · intro o ih
    simp only [Value.data]
    constructor
    · intro h; cases h with | obj h => exact .obj (ih.1 h)
    · intro h; cases h with | obj h => exact .obj (ih.2 h)
  · intro id ps par ihv ihp
    simp only [Obj.data, Pair.dataL_eq]
    constructor
    · intro h
      cases h with
      | mk h1 h2 =>
        refine .mk (fun p hp => (ihv p hp).1 (h1 _ (List.mem_map_of_mem hp))) ?_
        rintro q rfl
        exact (ihp q rfl).1 (h2 _ rfl)
    · intro h
      cases h with
      | mk h1 h2 =>
        refine .mk ?_ ?_
        · intro p hp
          obtain ⟨w, hw, rfl⟩ := List.mem_map.1 hp
          exact (ihv w hw).2 (h1 w hw)
        · intro q hq
          cases par with
          | none => cases hq
          | some r => cases hq; exact (ihp r rfl).2 (h2 r rfl)

theorem Pair.map_field_data (ps : List Pair) : (ps.map Pair.data).map Pair.field = ps.map Pair.field := by
  simp only [List.map_map]; exact List.map_congr_left (fun p _ => by cases p; rfl)

theorem namesOk_data [Unicode] :
    (∀ v : Value, NamesOk v.data ↔ NamesOk v) ∧ (∀ o : Obj, NamesOkObj o.data ↔ NamesOkObj o) := by
  apply Value.ind (mv := fun v => NamesOk v.data ↔ NamesOk v) (mo := fun o => NamesOkObj o.data ↔ NamesOkObj o)
  · exact Iff.rfl
  · intro b; exact Iff.rfl
  · intro b; exact Iff.rfl
  · intro b; exact Iff.rfl
  · intro b; exact Iff.rfl
  · intro id t vs ih
    simp only [Value.data, Value.dataL_eq]
    constructor
    · rintro (_ | _ | _ | _ | _ | h1)
      exact .arr (fun v hv => (ih v hv).1 (h1 _ (List.mem_map_of_mem hv)))
    · rintro (_ | _ | _ | _ | _ | h1)
      refine .arr ?_
      intro v hv
      obtain ⟨w, hw, rfl⟩ := List.mem_map.1 hv
      exact (ih w hw).2 (h1 w hw)
  · intro id t vs ih
    simp only [Value.data, Value.dataL_eq]
    constructor
    · rintro (_ | _ | _ | _ | _ | _ | h1)
      exact .tup (fun v hv => (ih v hv).1 (h1 _ (List.mem_map_of_mem hv)))
    · rintro (_ | _ | _ | _ | _ | _ | h1)
      refine .tup ?_
      intro v hv
      obtain ⟨w, hw, rfl⟩ := List.mem_map.1 hv
      exact (ih w hw).2 (h1 w hw)
  · intro o ih
    simp only [Value.data]
    constructor
    · intro h; cases h with | obj h => exact .obj (ih.1 h)
    · intro h; cases h with | obj h => exact .obj (ih.2 h)
  · intro id ps par ihv ihp
    simp only [Obj.data, Pair.dataL_eq]
    constructor
    · intro h
      cases h with
      | mk h0 hd h1 h2 =>
        refine .mk (fun p hp => h0 p.data (List.mem_map_of_mem hp)) (by rwa [Pair.map_field_data] at hd)
          (fun p hp => (ihv p hp).1 (h1 _ (List.mem_map_of_mem hp))) ?_
        rintro q rfl
        exact (ihp q rfl).1 (h2 _ rfl)
    · intro h
      cases h with
      | mk h0 hd h1 h2 =>
        refine .mk ?_ (by rwa [Pair.map_field_data]) ?_ ?_
        · intro p hp
          obtain ⟨w, hw, rfl⟩ := List.mem_map.1 hp
          exact h0 w hw
        · intro p hp
          obtain ⟨w, hw, rfl⟩ := List.mem_map.1 hp
          exact (ihv w hw).2 (h1 w hw)
        · intro q hq
          cases par with
          | none => cases hq
          | some r => cases hq; exact (ihp r rfl).2 (h2 r rfl)

/-! ## Trees determine the data -/

theorem intTerm_inj {i j : Int} (h : intTerm i = intTerm j) : i = j := by
  cases i <;> cases j <;> simp_all [intTerm]

theorem wholeTerm_inj {i j : Int} (h : wholeTerm i = wholeTerm j) : i = j := by
  cases i <;> cases j <;> simp_all [wholeTerm]

theorem ratExpr_inj {p q : Rat} (h : ratExpr p = ratExpr q) : p = q := by
  unfold ratExpr at h
  split at h <;> split at h <;> simp only [Expr.mk.injEq, reduceCtorEq, and_false, List.cons.injEq,
    OpTerm.mk.injEq, Term.int.injEq, true_and, and_true] at h
  · rename_i h1 h2
    exact Rat.ext (wholeTerm_inj h) (by rw [h1, h2])
  · exact Rat.ext (intTerm_inj h.1) h.2

theorem ratExpr_cases (q : Rat) : (∃ i, ratExpr q = .mk (wholeTerm i) []) ∨
    (∃ t r x, ratExpr q = .mk t (r :: x)) := by
  unfold ratExpr
  split
  · exact .inl ⟨_, rfl⟩
  · exact .inr ⟨_, _, _, rfl⟩

theorem astL_inj {vs ws : List Value}
    (ih : ∀ v ∈ vs, ∀ w, WellTyped v → WellTyped w → v.ast = w.ast → v.data = w.data)
    (hv : ∀ v ∈ vs, WellTyped v) (hw : ∀ v ∈ ws, WellTyped v) (h : Value.astL vs = Value.astL ws) :
    vs.map Value.data = ws.map Value.data := by
  induction vs generalizing ws with
  | nil => cases ws with
    | nil => rfl
    | cons w ws => simp [Value.astL] at h
  | cons v vs IH => cases ws with
    | nil => simp [Value.astL] at h
    | cons w ws =>
      simp only [Value.astL, List.cons.injEq] at h
      simp only [List.map_cons, List.cons.injEq]
      exact ⟨ih v (by simp) w (hv v (by simp)) (hw w (by simp)) h.1,
        IH (fun x hx => ih x (by simp [hx])) (fun x hx => hv x (by simp [hx]))
          (fun x hx => hw x (by simp [hx])) h.2⟩

theorem pairAstL_inj {vs ws : List Pair}
    (ih : ∀ v ∈ vs, ∀ w, WellTyped (Pair.value v) → WellTyped w → (Pair.value v).ast = w.ast →
      (Pair.value v).data = w.data)
    (hv : ∀ v ∈ vs, WellTyped (Pair.value v)) (hw : ∀ v ∈ ws, WellTyped (Pair.value v))
    (h : Pair.astL vs = Pair.astL ws) : vs.map Pair.data = ws.map Pair.data := by
  induction vs generalizing ws with
  | nil => cases ws with
    | nil => rfl
    | cons w ws => cases w; simp [Pair.astL] at h
  | cons v vs IH => cases ws with
    | nil => cases v; simp [Pair.astL] at h
    | cons w ws =>
      obtain ⟨f, v⟩ := v
      obtain ⟨g, w⟩ := w
      simp only [Pair.astL, List.cons.injEq, Field.mk.injEq, Target.field.injEq] at h
      simp only [List.map_cons, List.cons.injEq, Pair.data, Pair.field, Pair.value, Pair.mk.injEq]
      exact ⟨⟨h.1.1, ih (.mk f v) (by simp) w (hv (.mk f v) (by simp)) (hw (.mk g w) (by simp)) h.1.2⟩,
        IH (fun x hx => ih x (by simp [hx])) (fun x hx => hv x (by simp [hx]))
          (fun x hx => hw x (by simp [hx])) h.2⟩

theorem pairAstL_target {ps : List Pair} {e : Expr} {r : List Field} :
    Pair.astL ps ≠ .mk .parent e :: r := by
  cases ps with
  | nil => simp [Pair.astL]
  | cons p ps => cases p; simp [Pair.astL]

theorem ast_inj :
    (∀ v : Value, ∀ w, WellTyped v → WellTyped w → v.ast = w.ast → v.data = w.data) ∧
    (∀ o : Obj, ∀ p, WellTypedObj o → WellTypedObj p → o.ast = p.ast → o.data = p.data) := by
  apply Value.ind (mv := fun v => ∀ w, WellTyped v → WellTyped w → v.ast = w.ast → v.data = w.data)
    (mo := fun o => ∀ p, WellTypedObj o → WellTypedObj p → o.ast = p.ast → o.data = p.data)
  case null =>
    intro w _ _ h
    cases w with
    | null => rfl
    | bool b => cases b <;> simp [Value.ast] at h
    | int i => cases i <;> simp [Value.ast, intTerm] at h
    | frac q =>
      simp only [Value.ast] at h
      rcases ratExpr_cases q with ⟨j, h1⟩ | ⟨t, r, x, h1⟩ <;> rw [h1] at h <;> simp at h
      cases j <;> simp [wholeTerm] at h
    | _ => simp [Value.ast] at h
  case bool =>
    intro b w _ _ h
    cases w with
    | null => cases b <;> simp [Value.ast] at h
    | bool b' => cases b <;> cases b' <;> simp [Value.ast] at h <;> rfl
    | int i => cases i <;> simp [Value.ast, intTerm] at h
    | frac q =>
      simp only [Value.ast] at h
      rcases ratExpr_cases q with ⟨j, h1⟩ | ⟨t, r, x, h1⟩ <;> rw [h1] at h <;> simp at h
      cases j <;> simp [wholeTerm] at h
    | _ => simp [Value.ast] at h
  case int =>
    intro i w _ _ h
    cases w with
    | int j =>
      simp only [Value.ast, Expr.mk.injEq, and_true] at h
      rw [intTerm_inj h]
    | frac q =>
      simp only [Value.ast] at h
      rcases ratExpr_cases q with ⟨j, h1⟩ | ⟨t, r, x, h1⟩ <;> rw [h1] at h <;> simp at h
      cases i <;> cases j <;> simp [wholeTerm, intTerm] at h
    | _ => cases i <;> simp [Value.ast, intTerm] at h
  case frac =>
    intro q w _ _ h
    cases w with
    | frac p =>
      simp only [Value.ast] at h
      rw [ratExpr_inj h]
    | int i =>
      simp only [Value.ast] at h
      rcases ratExpr_cases q with ⟨j, h1⟩ | ⟨t, r, x, h1⟩ <;> rw [h1] at h <;> simp at h
      cases i <;> cases j <;> simp [wholeTerm, intTerm] at h
    | _ =>
      simp only [Value.ast] at h
      rcases ratExpr_cases q with ⟨j, h1⟩ | ⟨t, r, x, h1⟩ <;> rw [h1] at h <;> simp at h
      cases j <;> simp [wholeTerm] at h
  case str =>
    intro x w _ _ h
    cases w with
    | str y => simp only [Value.ast, Expr.mk.injEq, and_true, Term.str.injEq] at h; rw [h]
    | int i => cases i <;> simp [Value.ast, intTerm] at h
    | frac q =>
      simp only [Value.ast] at h
      rcases ratExpr_cases q with ⟨j, h1⟩ | ⟨t, r, x, h1⟩ <;> rw [h1] at h <;> simp at h
      cases j <;> simp [wholeTerm] at h
    | _ => simp [Value.ast] at h
  case arr =>
    intro id t vs ih w hv hw h
    cases w with
    | arr id' t' ws =>
      simp only [Value.ast, Expr.mk.injEq, and_true, Term.arr.injEq] at h
      cases hv with | arr hv ht =>
      cases hw with | arr hw ht' =>
      have := astL_inj ih hv hw h
      rw [Value.map_getType_of_dataL_eq this] at ht
      rw [LeastCommonRefinement.unique (fun _ => Iff.rfl) ht ht']
      simp only [Value.data, Value.dataL_eq, this]
    | int i => cases i <;> simp [Value.ast, intTerm] at h
    | frac q =>
      simp only [Value.ast] at h
      rcases ratExpr_cases q with ⟨j, h1⟩ | ⟨t, r, x, h1⟩ <;> rw [h1] at h <;> simp at h
      cases j <;> simp [wholeTerm] at h
    | _ => simp [Value.ast] at h
  case tup =>
    intro id t vs ih w hv hw h
    cases w with
    | tup id' t' ws =>
      simp only [Value.ast, Expr.mk.injEq, and_true, Term.tup.injEq] at h
      cases hv with | tup hv ht =>
      cases hw with | tup hw ht' =>
      have := astL_inj ih hv hw h
      rw [Value.map_getType_of_dataL_eq this] at ht
      rw [ht, ht']
      simp only [Value.data, Value.dataL_eq, this]
    | int i => cases i <;> simp [Value.ast, intTerm] at h
    | frac q =>
      simp only [Value.ast] at h
      rcases ratExpr_cases q with ⟨j, h1⟩ | ⟨t, r, x, h1⟩ <;> rw [h1] at h <;> simp at h
      cases j <;> simp [wholeTerm] at h
    | _ => simp [Value.ast] at h
  case obj =>
    intro o ih w hv hw h
    cases w with
    | obj p =>
      simp only [Value.ast, Expr.mk.injEq, and_true, Term.obj.injEq] at h
      cases hv with | obj hv =>
      cases hw with | obj hw =>
      simp only [Value.data, ih p hv hw h]
    | int i => cases i <;> simp [Value.ast, intTerm] at h
    | frac q =>
      simp only [Value.ast] at h
      rcases ratExpr_cases q with ⟨j, h1⟩ | ⟨t, r, x, h1⟩ <;> rw [h1] at h <;> simp at h
      cases j <;> simp [wholeTerm] at h
    | _ => simp [Value.ast] at h
  case mk =>
    intro id ps par ihv ihp p hv hw h
    obtain ⟨id', ps', par'⟩ := p
    cases hv with | mk hv hvp =>
    cases hw with | mk hw hwp =>
    simp only [Obj.ast] at h
    simp only [Obj.data, Pair.dataL_eq]
    cases par with
    | none => cases par' with
      | none =>
        simp only [Obj.astP, List.nil_append] at h
        rw [pairAstL_inj ihv hv hw h]
      | some q' =>
        simp only [Obj.astP, List.nil_append, List.cons_append] at h
        exact absurd h pairAstL_target
    | some q => cases par' with
      | none =>
        simp only [Obj.astP, List.nil_append, List.cons_append] at h
        exact absurd h.symm pairAstL_target
      | some q' =>
        simp only [Obj.astP, List.nil_append, List.cons_append, List.cons.injEq, Field.mk.injEq, true_and,
          Expr.mk.injEq, and_true, Term.obj.injEq] at h
        rw [pairAstL_inj ihv hv hw h.2]
        simp only [Obj.dataP, ihp q rfl q' (hvp q rfl) (hwp q' rfl) h.1]

end Over
